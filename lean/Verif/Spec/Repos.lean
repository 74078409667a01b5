/- Independent vocabulary for the repositories' entries in the configuration (C83, C85, C89). -/
import Verif.Model.Config
import Verif.Spec.Nexus

namespace Pkgr.Spec
open Pkgr

/-- The settings given for a repository, in the order of the file. -/
def entriesFor (nm : Str) (custom : List (GoMap RepoCustom)) : List RepoCustom := custom.filterMap fun m => GoMap.get? m nm

/-- The text is this word (given in upper case), in any mixture of upper and lower case. -/
def InWord (w t : Str) : Prop := t.map capital = w

/-- What an entry means: the kind of repository, the type its packages are taken in (binary for an MPN repository, when
nothing else is said) and the suffix. -/
structure ReadAs (v : RepoCustom) (rc : RepoConfig) : Prop where
  mpn : rc.repoType = .mpn ↔ InWord (s%"MPN") v.repoType
  rspm : rc.repoType = .rspm ↔ InWord (s%"RSPM") v.repoType
  source : rc.defaultSourceType = .source ↔ InWord (s%"SOURCE") v.type
  binary : rc.defaultSourceType = .binary ↔
    InWord (s%"BINARY") v.type ∨ ¬ InWord (s%"SOURCE") v.type ∧ InWord (s%"MPN") v.repoType
  suffix : rc.repoSuffix = v.repoSuffix

end Pkgr.Spec
