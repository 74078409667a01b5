/-
Model of cmd/plan.go:251-325, 344-381: what `plan` (and `install`) report about the plan.
-/
import Verif.Model.Plan

namespace Pkgr

/-- cmd/plan.go:290-293: one download counted for its repository. -/
def sourceStep (m : GoMap Nat) (dl : PkgDl) : GoMap Nat :=
  GoMap.put m dl.config.repo.name ((GoMap.get? m dl.config.repo.name).getD 0 + 1)

/-- cmd/plan.go:289-300: "package installation sources". -/
def installSources (ip : InstallPlan) : GoMap Nat :=
  GoMap.put (ip.downloads.foldl sourceStep []) (s%"tarballs") (GoMap.keys ip.additional).length

/-- cmd/plan.go:308-323: the packages listed "to install" (name, version, repository, type), only for an incremental
installation. `installedNames` are the names of the packages in the library. -/
def toInstallListing (nx : Nexus) (ip : InstallPlan) (ρ : Order) (t : Nat) : List PkgDl :=
  if 0 < ip.numToInstall ∧ ip.numToInstall ≠ ((ip.allPackages ρ t).length : Int) then
    ((ip.allPackages ρ t).filter fun p => !(GoMap.keys ip.installed).contains p).map fun p => (getPackage nx p).getD {}
  else []

/-- cmd/plan.go:356-381: one "package repository set" record. -/
structure OriginLine where
  pkg : Str
  repo : Str
  type : SourceType
  version : Str
  /-- `relationship`: "user_defined", not "dependency" -/
  userDefined : Bool
deriving Repr, DecidableEq

/-- cmd/plan.go:359-365 and 373-379: the fields of the record. -/
def originLine (userDefined : Bool) (dl : PkgDl) : OriginLine :=
  { pkg := dl.package.package, repo := dl.config.repo.name, type := dl.config.type, version := dl.package.version, userDefined := userDefined }

/-- cmd/plan.go:238, 261, 356-381 `logUserPackageRepos`, `logDependencyRepos`: the records, in order. `requested`: the
packages asked for (`cfg.Packages` at that point). -/
def originReport (nx : Nexus) (requested : List Str) (ip : InstallPlan) : List OriginLine :=
  (getPackages nx requested).packages.map (originLine true) ++
  (ip.downloads.filter fun dl => !requested.contains dl.package.package).map (originLine false)

/-- cmd/plan.go:253, 344-353 `logAdditionalPackageOrigins`: package, origin, path installed from. -/
def tarballReport (ip : InstallPlan) (ρ : Order) (t : Nat) : List (Str × AdditionalPkg) :=
  (ρ t (GoMap.keys ip.additional)).map fun p => (p, (GoMap.get? ip.additional p).getD {})

/-- cmd/plan.go:266-278: the packages announced with "package will be updated" (not with "outdated package found"). -/
def announcedUpdates (noUpdate : Bool) (ip : InstallPlan) : List OutdatedPackage := if noUpdate then [] else ip.outdated

/-- cmd/plan.go:265-278, 304: `to_update`. -/
def toUpdateCount (noUpdate : Bool) (ip : InstallPlan) : Nat := if noUpdate then 0 else ip.outdated.length

/-- cmd/plan.go:280-287: `total_packages_required`, `installed`, `outdated`. -/
def planStatus (ip : InstallPlan) (ρ : Order) (t : Nat) : Nat × Nat × Nat :=
  ((ip.allPackages ρ t).length, (GoMap.keys ip.installed).length, ip.outdated.length)

end Pkgr
