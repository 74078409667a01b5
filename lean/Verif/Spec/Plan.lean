/- Specification of planning, independent of the graph construction and layering loops. -/
import Verif.Model.Plan
import Verif.Spec.Nexus
import Mathlib.Logic.Relation

namespace Pkgr.Spec

/-- `p` can be obtained from the configured repositories. -/
def Available (nx : Nexus) (p : Str) : Prop := ∃ dl, Resolves nx p dl

/-- Repository databases file every description under its own package name. -/
def Keyed (nx : Nexus) : Prop :=
  ∀ db ∈ nx.db, ∀ st k d, GoMap.get? (db.table st) k = some d → d.package = k

/-- No repository offers a package called "R". -/
def NoR (nx : Nexus) : Prop := ∀ db ∈ nx.db, ∀ st, GoMap.get? (db.table st) (s%"R") = none

/-- The packages that are part of R. -/
def basePkgs : List Str :=
  [s%"base", s%"compiler", s%"datasets", s%"graphics", s%"grDevices", s%"grid", s%"methods", s%"parallel", s%"splines",
   s%"stats", s%"stats4", s%"tcltk", s%"tools", s%"utils"]

/-- The recommended packages, usually installed with R. -/
def recommendedPkgs : List Str :=
  [s%"boot", s%"class", s%"cluster", s%"codetools", s%"foreign", s%"KernSmooth", s%"lattice", s%"MASS", s%"Matrix", s%"mgcv",
   s%"nlme", s%"nnet", s%"rpart", s%"spatial", s%"survival"]

/-- `p` ships with R (or is one of R's recommended packages and those are not wanted). -/
def ShipsWithR (noRecommended : Bool) (p : Str) : Prop :=
  p ∈ basePkgs ∨ (noRecommended = true ∧ p ∈ recommendedPkgs)

/-- `b` is named in one of the dependency fields of `d` that the settings `c` select. -/
def Names (c : PkgDeps) (d : Desc) (b : Str) : Prop :=
  (c.depends = true ∧ b ∈ GoMap.keys d.depends) ∨ (c.imports = true ∧ b ∈ GoMap.keys d.imports) ∨
  (c.linkingTo = true ∧ b ∈ GoMap.keys d.linkingTo)

/-- Package `a`, as resolved, requires `b`: `b` is named in a selected field, can be obtained, and is not
excluded as shipping with R.  `cfg` gives each package's settings. -/
def Requires (nx : Nexus) (cfg : Str → PkgDeps) (a b : Str) : Prop :=
  ∃ dl, Resolves nx a dl ∧ Names (cfg a) dl.package b ∧ Available nx b ∧
    ¬ ShipsWithR (cfg a).noRecommended b

/-- Package `a`, as resolved, suggests `b`, its settings ask for suggested packages, and `b` can be
obtained. -/
def Suggests (nx : Nexus) (cfg : Str → PkgDeps) (a b : Str) : Prop :=
  (cfg a).suggests = true ∧ Available nx b ∧
    ∃ dl, Resolves nx a dl ∧ b ∈ GoMap.keys dl.package.suggests

/-- The least set of packages containing `roots` and closed under `Requires` and `Suggests` ("R" itself
is not a package). -/
inductive Planned (nx : Nexus) (cfg : Str → PkgDeps) (roots : List Str) : Str → Prop
  | root {a : Str} : a ∈ roots → Planned nx cfg roots a
  | step {a b : Str} : Planned nx cfg roots a → (Requires nx cfg a b ∨ Suggests nx cfg a b) →
      b ≠ s%"R" → Planned nx cfg roots b

/-- An edge of a dependency graph, ignoring excluded packages. -/
def Edge (g : Graph) (noRecommended : Bool) (a b : Str) : Prop :=
  ∃ reqs, GoMap.get? g a = some reqs ∧ b ∈ reqs ∧ ¬ ShipsWithR noRecommended b

/-- Two graphs with the same packages and the same requirements as sets. -/
def SameGraph (g g' : Graph) : Prop :=
  (∀ a, a ∈ GoMap.keys g ↔ a ∈ GoMap.keys g') ∧
  ∀ a r r', GoMap.get? g a = some r → GoMap.get? g' a = some r' → ∀ b, b ∈ r ↔ b ∈ r'

/-- `a` is in layer number `i`. -/
def InLayer (layers : List (List Str)) (i : Nat) (a : Str) : Prop := ∃ l, layers[i]? = some l ∧ a ∈ l

/-- Package `a`, as resolved from the repositories, needs `b` to be installed first: `b` is named in its
Depends, Imports or LinkingTo, can be obtained, and does not ship with R. -/
def Needs (nx : Nexus) (noRecommended : Bool) (a b : Str) : Prop :=
  ∃ dl, Resolves nx a dl ∧
    (b ∈ GoMap.keys dl.package.depends ∨ b ∈ GoMap.keys dl.package.imports ∨
      b ∈ GoMap.keys dl.package.linkingTo) ∧
    Available nx b ∧ ¬ ShipsWithR noRecommended b

/-- The packages to be installed: the requested ones, what they need, and the obtainable packages
suggested by packages for which `sug` holds. -/
inductive InPlan (nx : Nexus) (noRecommended : Bool) (sug : Str → Prop) (requested : List Str) : Str → Prop
  | requested {a : Str} : a ∈ requested → InPlan nx noRecommended sug requested a
  | needed {a b : Str} : InPlan nx noRecommended sug requested a → Needs nx noRecommended a b →
      InPlan nx noRecommended sug requested b
  | suggested {a b : Str} {dl : PkgDl} : InPlan nx noRecommended sug requested a → sug a →
      Resolves nx a dl → b ∈ GoMap.keys dl.package.suggests → Available nx b →
      InPlan nx noRecommended sug requested b

/-- Every package's settings select Depends, Imports and LinkingTo and the same NoRecommended switch. -/
def Uniform (cfgs : InstallDeps) (noRecommended : Bool) : Prop :=
  cfgs.default.noRecommended = noRecommended ∧
  ∀ c, c = cfgs.default ∨ (∃ p, GoMap.get? cfgs.deps p = some c) →
    c.depends = true ∧ c.imports = true ∧ c.linkingTo = true

/-- The settings of `p` ask for its suggested packages. -/
def SugOn (cfgs : InstallDeps) (p : Str) : Prop :=
  (∃ c, GoMap.get? cfgs.deps p = some c ∧ c.suggests = true) ∨
  (GoMap.get? cfgs.deps p = none ∧ cfgs.default.suggests = true)

end Pkgr.Spec
