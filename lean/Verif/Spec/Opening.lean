/- Vocabulary for C139: how opening a repository ends. -/
import Verif.Spec.PkgDb

namespace Pkgr.Spec
open Pkgr

/-- A record of an index that can be used: it decodes and its dependencies are well formed. -/
def GoodRecord (decode : Str → Option RawDesc) (x : Str) : Prop :=
  ∃ raw, decode x = some raw ∧ ∀ y ∈ raw.imports ++ raw.suggests ++ raw.depends ++ raw.linkingTo, parseDep y ≠ none

/-- The index text has a malformed dependency, and all records before that one are good. -/
def Malformed (decode : Str → Option RawDesc) (body : Str) : Prop :=
  ∃ text xs, UnixText body text ∧ Stanzas text xs ∧ ∃ pre x post, xs = pre ++ x :: post ∧ (∀ y ∈ pre, y ≠ [] → GoodRecord decode y) ∧ x ≠ [] ∧
    ∃ raw, decode x = some raw ∧ ∃ y ∈ raw.imports ++ raw.suggests ++ raw.depends ++ raw.linkingTo, parseDep y = none

/-- The source types that are asked for. -/
def AskedFor (e : RepoEnv) (rc : RepoConfig) (st : SourceType) : Prop := st = .source ∨ st = .binary ∧ HasBinaries e.platform rc.repoType

/-- The index of this source type stops the program: no connection, or a malformed dependency in it. -/
def Stops (e : RepoEnv) (url : RepoURL) (rc : RepoConfig) (st : SourceType) : Prop :=
  e.server (indexAt e url.url rc.repoSuffix st) = .unreachable ∨
  ∃ body, e.server (indexAt e url.url rc.repoSuffix st) = .text body ∧ Malformed e.decode body

/-- The index of this source type is there and can be used. -/
def Readable (e : RepoEnv) (url : RepoURL) (rc : RepoConfig) (st : SourceType) : Prop :=
  ∃ body, e.server (indexAt e url.url rc.repoSuffix st) = .text body ∧ Usable e.decode body

end Pkgr.Spec
