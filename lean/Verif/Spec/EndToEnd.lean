/- Independent vocabulary for a whole run of planning, from the configuration and the repositories' index files to the
list of downloads (C89). -/
import Verif.Spec.Repos
import Verif.Spec.PkgDb
import Verif.Spec.Custom
import Verif.Spec.Plan

namespace Pkgr.Spec
open Pkgr

/-- What a project configures: the packages and their settings, the repositories (name and URL, in order), and the
settings of the repositories. -/
structure Project where
  cfg : PlanCfg
  repos : List (Str × Str)
  custom : List (GoMap RepoCustom)

/-- What the project says about the repository: its entry, or nothing. -/
def Project.entry (P : Project) (nm : Str) : RepoCustom := (entriesFor nm P.custom).headD {}

/-- The type packages are taken in on this platform when nothing is said. -/
def platformType (p : Platform) : SourceType := if p.os = .darwin ∨ p.os = .windows then .binary else .source

/-- The package is taken in this type from a repository with these settings. -/
def Project.TakenAs (P : Project) (e : RepoEnv) (rc : RepoConfig) (p : Str) (ty : SourceType) : Prop :=
  (∀ t, (settingOf P.cfg p).type = some t → SaysType t ty) ∧
  ((settingOf P.cfg p).type = none →
    ty = if (settingOf P.cfg p).repo = none then repoType rc (platformType e.platform) else platformType e.platform)

/-- The repository can supply the package: it is the one set for the package, if one is, the package is not to be
ignored, and the repository's index lists it in the type in which it is to be taken. -/
def Project.Supplies (P : Project) (e : RepoEnv) (repo : Str × Str) (p : Str) (ty : SourceType) (d : Desc) : Prop :=
  (∀ r, (settingOf P.cfg p).repo = some r → repo.1 = r) ∧ p ∉ P.cfg.ignore ∧
  ∃ rc, ReadAs (P.entry repo.1) rc ∧ P.TakenAs e rc p ty ∧ Publishes e { name := repo.1, url := repo.2 } rc ty p d

/-- The package comes from this repository, in this type, described like this: the first repository of the list that
can supply it. -/
def Project.Gets (P : Project) (e : RepoEnv) (p : Str) (repo : Str × Str) (ty : SourceType) (d : Desc) : Prop :=
  FirstWith (fun r => ∃ ty d, P.Supplies e r p ty d) P.repos repo ∧ P.Supplies e repo p ty d

/-- The package can be had. -/
def Project.Has (P : Project) (e : RepoEnv) (p : Str) : Prop := ∃ repo ty d, P.Gets e p repo ty d

/-- Does the project ask for the packages that `p` suggests? Its own setting if it has one, else the global one if `p` is
listed. -/
def Project.WantsSuggests (P : Project) (p : Str) : Prop :=
  (settingOf P.cfg p).suggests = some true ∨
  (settingOf P.cfg p).suggests = none ∧ P.cfg.suggests = true ∧ p ∈ P.cfg.packages

/-- What has to be installed when these packages are requested: they, what they need to work as far as it can be had and
does not ship with R, and what they suggest as far as the project asks for it and it can be had. -/
inductive Project.ToInstall (P : Project) (e : RepoEnv) (requested : List Str) : Str → Prop
  | requested {a : Str} : a ∈ requested → P.ToInstall e requested a
  | needed {a b : Str} {repo : Str × Str} {ty : SourceType} {d : Desc} : P.ToInstall e requested a → P.Gets e a repo ty d →
      (b ∈ GoMap.keys d.depends ∨ b ∈ GoMap.keys d.imports ∨ b ∈ GoMap.keys d.linkingTo) → P.Has e b →
      ¬ ShipsWithR P.cfg.noRecommended b → P.ToInstall e requested b
  | suggested {a b : Str} {repo : Str × Str} {ty : SourceType} {d : Desc} : P.ToInstall e requested a → P.WantsSuggests a →
      P.Gets e a repo ty d → b ∈ GoMap.keys d.suggests → P.Has e b → P.ToInstall e requested b

/-- The database cache: the young files of the project's repositories say what these publish (in particular when there are
no young files). -/
def Project.CacheTrue (P : Project) (e : RepoEnv) (c : DbCache) : Prop :=
  ∀ r ∈ P.repos, ∀ rc, ReadAs (P.entry r.1) rc → ∀ f, c (dbFileOf e r.1 r.2) = some f → Recent e f.mtime →
    SaysPublished e { name := r.1, url := r.2 } rc f

/-- The configuration is unambiguous: repositories have at most one entry each, packages have at most one entry
each, repository names in them are not empty. -/
structure Project.Plain (P : Project) : Prop where
  once : ∀ r ∈ P.repos, (entriesFor r.1 P.custom).length ≤ 1
  packages : (P.cfg.customizations.map Prod.fst).Nodup
  pins : ∀ e ∈ P.cfg.customizations, e.2.repo ≠ some []

/-- No two repositories of the project share a file of the database cache: their names and URLs, written one after the other,
differ (C09), and the digest does not collide on these few texts. -/
def Project.OwnFiles (P : Project) (e : RepoEnv) : Prop := (P.repos.map fun r => dbFileOf e r.1 r.2).Nodup

instance (P : Project) (e : RepoEnv) : Decidable (P.OwnFiles e) := by unfold Project.OwnFiles; infer_instance

end Pkgr.Spec
