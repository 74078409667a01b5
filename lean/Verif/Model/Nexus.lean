/- Model of cran/pkg_nexus.go. -/
import Verif.Model.RepoDb

namespace Pkgr

/-- cran/structs.go:42-45 `PkgConfig`. -/
structure PkgConfig where
  repo : RepoURL := {}
  type : SourceType := .default
deriving Repr, DecidableEq

/-- cran/structs.go:29-32, 48-52 `PkgNexus` together with its `InstallConfig.Packages`. -/
structure Nexus where
  db : List RepoDb := []
  packages : GoMap PkgConfig := []
  defaultSourceType : SourceType := .default
deriving Repr, DecidableEq

/-- cran/structs.go:67-70 `PkgDl`. -/
structure PkgDl where
  config : PkgConfig := {}
  package : Desc := {}
deriving Repr, DecidableEq

/-- cran/pkg_nexus.go:25-30: what a fetch goroutine sends: repository index and result. -/
abbrev RepoResult := Nat × Except LoadErr RepoDb

/-- cran/pkg_nexus.go:45-59: one iteration of the collecting loop. -/
def collectStep (acc : List (Option RepoDb) × Option LoadErr) (r : RepoResult) :
    List (Option RepoDb) × Option LoadErr :=
  match r.2 with
  | .error e => (acc.1, some e)
  | .ok d => (acc.1.set r.1 (some d), acc.2)

/-- cran/pkg_nexus.go:44-61: slots filled by index in arrival order; the last error received. -/
def collectRepos (n : Nat) (arrivals : List RepoResult) : List (Option RepoDb) × Option LoadErr :=
  arrivals.foldl collectStep (List.replicate n none, none)

/-- cran/pkg_nexus.go:66-76 `SetPackageRepo` (`none`: the error return; nothing is changed). -/
def setPackageRepo (nx : Nexus) (pkg repo : Str) : Option Nexus :=
  match nx.db.find? (fun r => r.repo.name = repo) with
  | some r =>
    let cfg := (GoMap.get? nx.packages pkg).getD {}
    some { nx with packages := GoMap.put nx.packages pkg { cfg with repo := r.repo } }
  | none => none

/-- Simple case folding, restricted to the characters that fold to an ASCII letter. -/
def foldChar (c : Char) : Char :=
  if 65 ≤ c.toNat ∧ c.toNat ≤ 90 then Char.ofNat (c.toNat + 32)
  else if c.toNat = 0x17F then 's'
  else if c.toNat = 0x212A then 'k'
  else c

/-- Go `strings.EqualFold` against ASCII text. -/
def eqFold (s t : Str) : Bool := s.map foldChar = t.map foldChar

/-- cran/pkg_nexus.go:89-98 `setType`. -/
def parseType (t : Str) : Option SourceType :=
  if eqFold t (s%"source") then some .source
  else if eqFold t (s%"binary") then some .binary
  else none

/-- cran/pkg_nexus.go:79-87 `SetPackageType` (`none`: the error return). -/
def setPackageType (nx : Nexus) (pkg t : Str) : Option Nexus :=
  (parseType t).map fun ty =>
    let cfg := (GoMap.get? nx.packages pkg).getD {}
    { nx with packages := GoMap.put nx.packages pkg { cfg with type := ty } }

/-- cran/pkg_nexus.go:115-125 `isCorrectRepo`. -/
def isCorrectRepo (pkg : Str) (r : RepoURL) (cfg : GoMap PkgConfig) : Bool :=
  match GoMap.get? cfg pkg with
  | some c => if c.repo.name ≠ [] then c.repo.name = r.name else true
  | none => true

/-- cran/pkg_nexus.go:129-133: the source type asked for. -/
def wantedType (nx : Nexus) (pkg : Str) : SourceType :=
  match GoMap.get? nx.packages pkg with
  | some c => if c.type ≠ .default then c.type else nx.defaultSourceType
  | none => nx.defaultSourceType

/-- cran/pkg_nexus.go:135-138: the source type looked for in one repository. -/
def typeInRepo (nx : Nexus) (pkg : Str) (db : RepoDb) : SourceType :=
  let st := wantedType nx pkg
  if db.defaultSourceType ≠ st ∧ (GoMap.get? nx.packages pkg).isNone ∧ db.defaultSourceType ≠ .default
  then db.defaultSourceType else st

/-- cran/pkg_nexus.go:134-147: the loop of `GetPackage` over the repositories. -/
def getPackageLoop (nx : Nexus) (pkg : Str) : List RepoDb → Option PkgDl
  | [] => none
  | db :: rest =>
    let rst := typeInRepo nx pkg db
    match GoMap.get? (db.table rst) pkg with
    | some d =>
      if isCorrectRepo pkg db.repo nx.packages then
        some { package := d, config := { repo := db.repo, type := rst } }
      else getPackageLoop nx pkg rest
    | none => getPackageLoop nx pkg rest

/-- cran/pkg_nexus.go:128-148 `GetPackage`. -/
def getPackage (nx : Nexus) (pkg : Str) : Option PkgDl := getPackageLoop nx pkg nx.db

/-- cran/pkg_nexus.go:151-162 `GetPackageFromRepo`. -/
def getPackageFromRepo (nx : Nexus) (pkg repo : Str) : Option PkgDl :=
  let st := ((GoMap.get? nx.packages pkg).getD {}).type
  let rec loop : List RepoDb → Option PkgDl
    | [] => none
    | db :: rest =>
      if repo ≠ [] ∧ db.repo.name ≠ repo then loop rest
      else match GoMap.get? (db.table st) pkg with
        | some d => some { package := d, config := { repo := db.repo, type := st } }
        | none => loop rest
  loop nx.db

/-- cran/structs.go:74-77 `AvailablePkgs`. -/
structure AvailablePkgs where
  packages : List PkgDl := []
  missing : List Str := []
deriving Repr, DecidableEq

/-- cran/pkg_nexus.go:168-177: one iteration; a missing package still gets an (empty) entry. -/
def getPackagesStep (nx : Nexus) (ap : AvailablePkgs) (pkg : Str) : AvailablePkgs :=
  match getPackage nx pkg with
  | some dl => { ap with packages := ap.packages ++ [dl] }
  | none => { packages := ap.packages ++ [{}], missing := ap.missing ++ [pkg] }

/-- cran/pkg_nexus.go:166-179 `GetPackages`. -/
def getPackages (nx : Nexus) (pkgs : List Str) : AvailablePkgs :=
  pkgs.foldl (getPackagesStep nx) {}

/-- cran/pkg_nexus.go:184-190 `CheckAllAvailable`. -/
def checkAllAvailable (nx : Nexus) (pkgs : List Str) : Bool := (getPackages nx pkgs).missing.length = 0

/-- cran/pkg_nexus.go:193-208 `GetAllPkgsByName`: the key set (the second range over the collecting map
is given by `order`). -/
def getAllPkgsByName (nx : Nexus) (order : List Str → List Str) : List Str :=
  let m : GoMap Bool := nx.db.foldl (fun m db =>
    let m := (GoMap.keys db.src).foldl (fun m k => GoMap.put m k true) m
    (GoMap.keys (db.bin.getD [])).foldl (fun m k => GoMap.put m k true) m) []
  order (GoMap.keys m)

/-- cmd/plan.go:170-171: one package deleted from both tables of a repository. -/
def RepoDb.drop (db : RepoDb) (p : Str) : RepoDb :=
  { db with src := GoMap.del db.src p, bin := db.bin.map (GoMap.del · p) }

/-- cmd/plan.go:164-173 (`planInstall`): every ignored package is deleted from every table of every
repository. -/
def ignorePackages (nx : Nexus) (ignore : List Str) : Nexus :=
  { nx with db := nx.db.map fun db => ignore.foldl RepoDb.drop db }

end Pkgr
