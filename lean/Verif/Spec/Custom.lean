/- Independent vocabulary for what the configuration says about single packages (C88). -/
import Verif.Model.Plan
import Verif.Spec.Nexus

namespace Pkgr.Spec
open Pkgr

/-- What the configuration says about the package: its entry under Customizations, if it has one. -/
def settingOf (cfg : PlanCfg) (p : Str) : PkgSetting :=
  match cfg.customizations.find? fun e => decide (e.1 = p) with
  | some e => e.2
  | none => {}

/-- The type a package is taken in from `db`: the one its setting says; else, for a package with a repository of its
own, the default of the platform; else the type set for the repository, or else the default of the platform. -/
def TypeInForce (cfg : PlanCfg) (nx : Nexus) (p : Str) (db : RepoDb) (ty : SourceType) : Prop :=
  (∀ t, (settingOf cfg p).type = some t → SaysType t ty) ∧
  ((settingOf cfg p).type = none → ty = if (settingOf cfg p).repo = none then unsetType nx db else nx.defaultSourceType)

/-- `db` can serve the package as `d` in type `ty`: it is the repository set for the package, if one is, it offers it in
the type in force, and the package is not to be ignored. -/
def CanServe (cfg : PlanCfg) (nx : Nexus) (p : Str) (db : RepoDb) (ty : SourceType) (d : Desc) : Prop :=
  (∀ r, (settingOf cfg p).repo = some r → db.repo.name = r) ∧ TypeInForce cfg nx p db ty ∧ Offers db ty p d ∧ p ∉ cfg.ignore

/-- The package is taken from the first repository, in the order of the configuration, that can serve it. -/
def Chosen (cfg : PlanCfg) (nx : Nexus) (p : Str) (dl : PkgDl) : Prop :=
  ∃ db, FirstWith (fun db => ∃ ty d, CanServe cfg nx p db ty d) nx.db db ∧
    CanServe cfg nx p db dl.config.type dl.package ∧ dl.config.repo = db.repo

/-- The entry can be understood: its repository is configured, its type is one of the two words. -/
def Understood (nx : Nexus) (v : PkgSetting) : Prop :=
  (∀ r, v.repo = some r → ∃ db ∈ nx.db, db.repo.name = r) ∧ ∀ t, v.type = some t → ∃ ty, SaysType t ty

end Pkgr.Spec
