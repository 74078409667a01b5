/- Vocabulary for C136 and C137: `pkgr install` from the project's configuration and the repositories' index files to the
library. -/
import Verif.Spec.EndToEnd
import Verif.Spec.RealRun

namespace Pkgr.Spec
open Pkgr

/-- What the project has besides its configuration: the descriptions of the tarballs, the table of where they are unpacked (as `unpackTarballs`
leaves it, C106), and the DESCRIPTION files that are named. -/
structure Extras where
  tarballs : List Desc := []
  table : GoMap AdditionalPkg := []
  descriptions : List Desc := []

/-- What the user asks for: the packages that are listed, what the tarballs import or link to, and what the project's DESCRIPTION files import,
link to or suggest; except what every R has. -/
def Project.Asked (P : Project) (x : Extras) (p : Str) : Prop :=
  p ∉ basePkgs ∧ (p ∈ P.cfg.packages ∨
    (∃ d ∈ x.tarballs, p ∈ GoMap.keys d.imports ∨ p ∈ GoMap.keys d.linkingTo) ∨
    ∃ d ∈ x.descriptions, p ∈ GoMap.keys d.imports ∨ p ∈ GoMap.keys d.linkingTo ∨ p ∈ GoMap.keys d.suggests)

/-- What has to come from the repositories: what is asked for, and what this needs. -/
def Project.Fetched (P : Project) (re : RepoEnv) (x : Extras) (p : Str) : Prop :=
  ∃ asked, (∀ a, a ∈ asked ↔ P.Asked x a) ∧ P.ToInstall re asked p

/-- What is given as a tarball. -/
def Extras.Given (x : Extras) (p : Str) : Prop := p ∈ GoMap.keys x.table

/-- What has to be in the library. -/
def Project.Wanted (P : Project) (re : RepoEnv) (x : Extras) (p : Str) : Prop := P.Fetched re x p ∨ x.Given p

/-- The directory holds the package, in a version that is not older than the one that the repositories publish for the
project. -/
def AsListed (parse : Str → Option Desc) (P : Project) (re : RepoEnv) (p : Str) (D : Path → Option Node) : Prop :=
  D [] = some .dir ∧ ∃ c d repo ty o, D [s%"DESCRIPTION"] = some (.file c) ∧ parse c = some d ∧ d.package = p ∧
    P.Gets re p repo ty o ∧ compareVersionStrings d.version o.version ≠ some (-1)

/-- The directory holds a package with this name and, if the repositories publish one of this name for the project, in a version that is
not older. -/
def Announced (parse : Str → Option Desc) (P : Project) (re : RepoEnv) (p : Str) (D : Path → Option Node) : Prop :=
  D [] = some .dir ∧ ∃ c d, D [s%"DESCRIPTION"] = some (.file c) ∧ parse c = some d ∧ d.package = p ∧
    ∀ repo ty o, P.Gets re p repo ty o → compareVersionStrings d.version o.version ≠ some (-1)

/-- The directory holds what it should: for a tarball what is supposed to come of it (`Made`), for others see `AsListed`. -/
def AsWanted (parse : Str → Option Desc) (Made : Str → (Path → Option Node) → Prop) (P : Project) (re : RepoEnv) (x : Extras) (p : Str)
    (D : Path → Option Node) : Prop :=
  (x.Given p → Made p D) ∧ (¬ x.Given p → AsListed parse P re p D)

/-- What R takes for a complete installation (`Complete`) tells pkgr enough: such a directory holds what it should; and what is in
the library at the start, is to be fetched, but is not older than published, is complete. -/
structure TellsEnough (Complete : Str → (Path → Option Node) → Prop) (parse : Str → Option Desc) (Made : Str → (Path → Option Node) → Prop)
    (P : Project) (re : RepoEnv) (x : Extras) (fs : Fs) (lib : Path) : Prop where
  says : ∀ p D, Complete p D → AsWanted parse Made P re x p D
  there : ∀ p, P.Fetched re x p → ¬ x.Given p → AsListed parse P re p (contentOf fs lib p) → Complete p (contentOf fs lib p)

/-- What is supposed of the project and its repositories: an unambiguous configuration in which repositories have
different names; a database cache that says what is published; ordinary names and versions. -/
structure WellPosed (P : Project) (re : RepoEnv) (c : DbCache) : Prop where
  small : SmallR re.rv
  plain : P.Plain
  repos : (P.repos.map Prod.fst).Nodup
  digest : P.OwnFiles re
  cache : P.CacheTrue re c
  noR : ∀ r ∈ P.repos, ∀ rc st d, ¬ Publishes re { name := r.1, url := r.2 } rc st (s%"R") d
  names : ∀ p repo ty d, P.Gets re p repo ty d → PlainName p ∧ ¬ IsLock p ∧ ¬ (s%"__OLD__") <+: p ∧ '_' ∉ p
  files : ∀ p repo ty d, P.Gets re p repo ty d → '/' ∉ repo.1 ∧ '/' ∉ d.version ∧ ¬ (s%"tar.gz") <:+: (p ++ s%"_" ++ d.version)

/-- What is supposed of the tarballs: one entry for each package, ordinary names; they are not among the packages from the
repositories, and none that is installed is older than a published one (else see C53). -/
structure TarballsOK (P : Project) (re : RepoEnv) (x : Extras) (parse : Str → Option Desc) (fs : Fs) (lib : Path) : Prop where
  once : (GoMap.keys x.table).Nodup
  names : ∀ t, x.Given t → PlainName t ∧ ¬ IsLock t ∧ ¬ (s%"__OLD__") <+: t
  apart : ∀ t, x.Given t → ¬ P.Fetched re x t
  current : ∀ t d repo ty o, x.Given t → described parse fs lib t = some d → P.Gets re t repo ty o →
    compareVersionStrings d.version o.version ≠ some (-1)

/-- The planning of an installation: the repositories are opened, in some order in which they answer, which turns the
database cache `c` into `c'`; the library is read (`pre` is what is found in it); and the plan `ip` is made.  Map iterations
are in any order. -/
def PlanMade (P : Project) (re : RepoEnv) (c c' : DbCache) (parse : Str → Option Desc) (x : Extras) (fs : Fs) (lib : Path)
    (pre : GoMap Desc) (ip : InstallPlan) : Prop :=
  ∃ (ρ₁ ρ₂ ρ ρ' ρ'' : Order) (sched : List (Nat × Bool)) (nx nx' : Nexus) (names req : List Str),
    ρ₁.Fair ∧ ρ₂.Fair ∧ ρ.Fair ∧ ρ'.Fair ∧ ρ''.Fair ∧ (sched.map Prod.fst).Perm (List.range P.repos.length) ∧
    re.openConfigured ρ₁ ρ₂ P.custom (P.repos.map fun r => [r]) c sched = (c', some nx) ∧
    (∀ n, n ∈ names ↔ fs (lib ++ [n]) ≠ none) ∧ pre = getPriorInstalled parse fs lib names ∧
    planInstall P.cfg nx pre (fs.isDir lib) x.tarballs x.descriptions x.table ρ ρ' ρ'' = .planned req nx' ip

/-- A library that is in order: it is a directory or does not exist; a directory that describes a package has its name; a package that is wanted is
there, with a description, or is not there at all; and there are no backups. -/
structure LibraryOK (P : Project) (re : RepoEnv) (x : Extras) (parse : Str → Option Desc) (fs : Fs) (lib : Path) : Prop where
  place : fs lib = some .dir ∨ ∀ q, lib <+: q → fs q = none
  named : ∀ n d, described parse fs lib n = some d → d.package = n ∧ n ≠ []
  wanted : ∀ p, P.Wanted re x p → (fs (lib ++ [p]) = some .dir ∧ ∃ d, described parse fs lib p = some d) ∨ Gone lib fs p
  noBackup : ∀ p, P.Wanted re x p → Gone lib fs (backupName p)
  tarballs : TarballsOK P re x parse fs lib

/-- The repositories publish the same, for the same platform and the same R. -/
structure SameRepos (re later : RepoEnv) : Prop where
  server : later.server = re.server
  decode : later.decode = re.decode
  platform : later.platform = re.platform
  linuxUri : later.linuxUri = re.linuxUri
  rv : later.rv = re.rv
  md5hex : later.md5hex = re.md5hex

end Pkgr.Spec
