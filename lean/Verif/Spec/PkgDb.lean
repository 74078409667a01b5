/- Independent vocabulary for opening the repositories (C86-C89). -/
import Verif.Model.PkgDb
import Verif.Spec.RepoDb
import Verif.Spec.Nexus

namespace Pkgr.Spec
open Pkgr

/-- The platform has binaries of this kind of repository. -/
def HasBinaries (p : Platform) (rt : RepoType) : Prop :=
  p.os = .darwin ∨ p.os = .windows ∨ (p.os = .linux ∧ p.linuxKnown = true ∧ rt = .mpn)

/-- The directory of the platform in a repository's binary area. -/
def platformDir (p : Platform) (linuxUri : Str) (rv : RVersion) : Str :=
  match p.os with
  | .darwin => if rv.major = 4 then s%"macosx" else s%"macosx/el-capitan"
  | .windows => s%"windows"
  | .linux => s%"linux/" ++ linuxUri
  | .other => []

/-- The URL without one slash at its end. -/
def noSlash (u : Str) : Str := if u.getLast? = some '/' then u.take (u.length - 1) else u

/-- Where the index of a source type of a repository is: `<url>/src/contrib/PACKAGES` or
`<url>/bin/<platform>/[<suffix>/]contrib/<R version>/PACKAGES`, the suffix on Linux only. -/
def indexAt (e : RepoEnv) (url suffix : Str) (st : SourceType) : Str :=
  if st = .source then noSlash url ++ s%"/src/contrib/PACKAGES"
  else noSlash url ++ s%"/bin/" ++ platformDir e.platform e.linuxUri e.rv ++
    (if suffix ≠ [] ∧ e.platform.os = .linux then s%"/" ++ suffix else []) ++ s%"/contrib/" ++
    natStr e.rv.major ++ s%"." ++ natStr e.rv.minor ++ s%"/PACKAGES"

/-- The text can be used as an index: all its stanzas decode, and none has a malformed dependency. -/
def Usable (decode : Str → Option RawDesc) (body : Str) : Prop :=
  ∃ text xs, UnixText body text ∧ Stanzas text xs ∧ ∀ x ∈ xs, x ≠ [] → ∃ raw, decode x = some raw ∧
    ∀ y ∈ raw.imports ++ raw.suggests ++ raw.depends ++ raw.linkingTo, parseDep y ≠ none

/-- The index text offers the package: its last acceptable stanza of that name describes it so. -/
def Lists (decode : Str → Option RawDesc) (rv : RVersion) (body : Str) (k : Str) (d : Desc) : Prop :=
  ∃ text xs, UnixText body text ∧ Stanzas text xs ∧
    ∃ pre x post, xs = pre ++ x :: post ∧ Accepts decode rv x k d ∧ ∀ y ∈ post, ¬ ∃ d', Accepts decode rv y k d'

/-- The repository publishes the package in this source type. -/
def Publishes (e : RepoEnv) (url : RepoURL) (rc : RepoConfig) (st : SourceType) (k : Str) (d : Desc) : Prop :=
  (st = .source ∨ st = .binary ∧ HasBinaries e.platform rc.repoType) ∧
  ∃ body, e.server (indexAt e url.url rc.repoSuffix st) = .text body ∧ Usable e.decode body ∧ Lists e.decode e.rv body k d

/-- The time `t` is less than the maximal age ago (one hour when not set). -/
def Recent (e : RepoEnv) (t : Int) : Prop := e.now - t < (match e.maxAge with | some s => s | none => 3600)

/-- The type a repository's packages are taken in: the one set for it, else the given one. -/
def repoType (rc : RepoConfig) (dst : SourceType) : SourceType :=
  match rc.defaultSourceType with
  | .default => dst
  | .source => .source
  | .binary => .binary

/-- The file that caches a repository's database. -/
def dbFileOf (e : RepoEnv) (nm url : Str) : Str := e.md5hex (nm ++ url ++ s%"source" ++ e.rv.toFullString)

/-- A file of the database cache says what the repository publishes: it can be decoded, has binaries if the platform has
them, and lists what the indices list. -/
def SaysPublished (e : RepoEnv) (url : RepoURL) (rc : RepoConfig) (f : DbFile) : Prop :=
  ∃ src bin, f.tables = some (src, bin) ∧ (bin.isSome = true ↔ HasBinaries e.platform rc.repoType) ∧
    ∀ st p d, Offers { src := src, bin := bin } st p d ↔ Publishes e url rc st p d

/-- One opening of all repositories: surroundings, repositories, settings, order of work. -/
structure Opening where
  env : RepoEnv
  urls : List RepoURL
  dst : SourceType
  cfg : GoMap RepoConfig
  sched : List (Nat × Bool)

/-- The database cache after the openings, one after the other. -/
def afterAll (c : DbCache) : List Opening → DbCache
  | [] => c
  | o :: os => afterAll (o.env.newPkgDb o.urls o.dst o.cfg c o.sched).1 os

end Pkgr.Spec
