/- Vocabulary for properties of installation runs. -/
import Verif.Model.Sched
import Verif.Spec.Plan

namespace Pkgr.Spec

/-- Dependencies of a package in the plan. -/
def Job.deps (j : Job) (x : Str) : List Str := (GoMap.get? j.depDb x).getD []

/-- The packages of the plan. -/
def Job.plan (j : Job) : List Str := j.starting ++ GoMap.keys j.depDb

/-- `s` can be reached in some execution: any interleaving, any outcomes. -/
def Reach (j : Job) (s : RunState) : Prop := ∃ es, j.run j.init es = some s

/-- What planning guarantees about the plan it hands over (see `C33_plans_are_well_formed`): no package
twice; the dependencies of a package are distinct planned packages; packages with a dependency list have a
dependency; dependencies are not circular; and the inverted table is the inverse of the dependency lists. -/
structure WellFormed (j : Job) : Prop where
  nodup : (Job.plan j).Nodup
  depsNodup : ∀ x, (Job.deps j x).Nodup
  depsIn : ∀ x d, d ∈ Job.deps j x → d ∈ Job.plan j
  depsNonempty : ∀ x ∈ GoMap.keys j.depDb, Job.deps j x ≠ []
  acyclic : ∀ x, ¬ Relation.TransGen (fun a b => b ∈ Job.deps j a) x x
  inverse : ∀ d x, x ∈ (GoMap.get? j.iDeps d).getD [] ↔ d ∈ Job.deps j x
  inverseNodup : ∀ d, ((GoMap.get? j.iDeps d).getD []).Nodup

/-- A step that does not consist in something going wrong: no installation fails, no copy of a built binary
fails. -/
def Benign (e : Event) : Prop := (∀ i, e ≠ .finish i .failed) ∧ e ≠ .updCopy false

/-- `s` can be reached without anything going wrong. -/
def ReachClean (j : Job) (s : RunState) : Prop := ∃ es, (∀ e ∈ es, Benign e) ∧ j.run j.init es = some s

/-- What a worker is installing. -/
def installing : Worker → Option Str
  | .running p => some p
  | _ => none

/-- Packages being installed at this moment. -/
def running (s : RunState) : List Str := s.workers.filterMap installing

end Pkgr.Spec
