/- Runs that share a database cache, for C146. -/
import Verif.Model.DbShare

namespace Pkgr.Spec
open Pkgr

/-- A code for databases, as gob is one: `enc b d`: `b` is a text for `d` (there are many: the entries of a map come in any
order).  A text is decoded to what it is a text for, and a text that is cut off is not decoded. -/
structure DbCode (α : Type) where
  enc : Str → α → Prop
  dec : Str → Option α
  decodes : ∀ b d, enc b d → dec b = some d
  cutOff : ∀ b d p, enc b d → p <+: b → p ≠ b → dec p = none

/-- Any number of runs, any steps in any order: the states that are gone through satisfy `Ok`, the steps `May`. -/
inductive SharedRun {α : Type} (C : DbCode α) (age : Nat → Option Int) (Ok : DbShared α → Prop) (May : DbAct α → Prop) :
    DbShared α → DbShared α → Prop
  | refl {s : DbShared α} : Ok s → SharedRun C age Ok May s s
  | step {s t u : DbShared α} {i : Nat} {a : DbAct α} : SharedRun C age Ok May s t → May a →
      dbStep C.dec age t i a = some u → Ok u → SharedRun C age Ok May s u

/-- A run is between having found the file missing or stale and having written it. -/
def Updating {α : Type} : DbPc α → Prop
  | .removing => True
  | .fetching => True
  | .creating _ _ => True
  | .writing _ _ _ _ => True
  | _ => False

/-- At most one run is updating the file. -/
def OneUpdates {α : Type} (s : DbShared α) : Prop := ∀ i j, Updating (s.pcs i) → Updating (s.pcs j) → i = j

/-- What the repository says is written down correctly: what is fetched satisfies `Published`, and its text is a text for it. -/
def Honest {α : Type} (C : DbCode α) (Published : α → Prop) : DbAct α → Prop
  | .fetched d b => Published d ∧ C.enc b d
  | _ => True

/-- All runs are about to begin. -/
def AllStart {α : Type} (s : DbShared α) : Prop := ∀ i, s.pcs i = .start

/-- At the times that a step mentions, everybody takes a file of time `m` for fresh. -/
def FreshFor {α : Type} (age : Nat → Option Int) (m : Int) : DbAct α → Prop
  | .stat now => ∀ i, now < m + (age i).getD 3600
  | _ => True

end Pkgr.Spec
