/- Vocabulary for C174: what is said in one pkgr.yml is said in another one as well. -/
import Verif.Spec.FromYml

namespace Pkgr.Spec
open Pkgr

/-- No two repositories of the project publish the same package, in whatever type. -/
def Project.Apart (P : Project) (e : RepoEnv) : Prop :=
  ∀ r ∈ P.repos, ∀ r' ∈ P.repos, ∀ rc rc' p st st' d d', Publishes e { name := r.1, url := r.2 } rc st p d →
    Publishes e { name := r'.1, url := r'.2 } rc' st' p d' → r = r'

/-- The second project has the repositories of the first, in the same order, and perhaps more after them; or the same ones in some order, which then publish
different packages. -/
def ReposKept (e : RepoEnv) (P P' : Project) : Prop := P.repos <+: P'.repos ∨ (P'.repos.Perm P.repos ∧ P.Apart e)

/-- What the first project lists, gives as a tarball or describes, the second one does as well; their settings are the same, in whatever order; the repositories are
kept. -/
structure SaysMore (e : RepoEnv) (P P' : Project) (x x' : Extras) : Prop where
  packages : ∀ p ∈ P.cfg.packages, p ∈ P'.cfg.packages
  tarballs : ∀ d ∈ x.tarballs, d ∈ x'.tarballs
  descriptions : ∀ d ∈ x.descriptions, d ∈ x'.descriptions
  given : ∀ p, x.Given p → x'.Given p
  customizations : P'.cfg.customizations.Perm P.cfg.customizations
  ignore : ∀ p, p ∈ P'.cfg.ignore ↔ p ∈ P.cfg.ignore
  suggests : P'.cfg.suggests = P.cfg.suggests
  noRecommended : P'.cfg.noRecommended = P.cfg.noRecommended
  custom : P'.custom = P.custom
  repos : ReposKept e P P'

end Pkgr.Spec
