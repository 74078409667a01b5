/- Independent vocabulary for the shared table of downloads (C128). -/
import Verif.Model.SyncMap

namespace Pkgr.Spec
open Pkgr

/-- An ordinary table: what is stored under each name. -/
abbrev Table (V : Type) := Str → Option V

/-- `l` is a history of an ordinary table, used by one thread: it begins as `f`, every call gets the answer it should,
and it ends as `g`. -/
def OneByOne {V : Type} : Table V → List (Nat × MapOp V × Option V) → Table V → Prop
  | f, [], g => f = g
  | f, (_, .put k v, r) :: l, g => r = none ∧ OneByOne (fun x => if x = k then some v else f x) l g
  | f, (_, .del k, r) :: l, g => r = none ∧ OneByOne (fun x => if x = k then none else f x) l g
  | f, (_, .get k, r) :: l, g => r = f k ∧ OneByOne f l g

/-- The calls of one thread in a history. -/
def callsOf {V : Type} (t : Nat) (l : List (Nat × MapOp V × Option V)) : List (MapOp V × Option V) :=
  (l.filter fun x => x.1 = t).map Prod.snd

/-- The calls that a thread has made, as far as was seen. -/
def called {V : Type} (t : Nat) (tr : List (MapEv V)) : List (MapOp V) :=
  tr.filterMap fun e => match e with
    | .call i o => if i = t then some o else none
    | .ret _ _ _ => none

/-- The calls that have returned to a thread, with their results, as far as was seen. -/
def returned {V : Type} (t : Nat) (tr : List (MapEv V)) : List (MapOp V × Option V) :=
  tr.filterMap fun e => match e with
    | .call _ _ => none
    | .ret i o r => if i = t then some (o, r) else none

/-- The history `l` explains what was seen: every call in it was made; and for each moment there is a place in the history such that, for each thread,
all calls that had returned by then are before it, with the results they returned, and all calls that had not been made
by then are after it. -/
def Explains {V : Type} (l : List (Nat × MapOp V × Option V)) (tr : List (MapEv V)) : Prop :=
  (∀ t, (callsOf t l).map Prod.fst <+: called t tr) ∧
  ∀ pre post, tr = pre ++ post → ∃ l₁ l₂, l = l₁ ++ l₂ ∧ ∀ t,
    returned t pre <+: callsOf t l₁ ∧ (callsOf t l₁).map Prod.fst <+: called t pre

/-- A thread is in the middle of an access to the map, and its call changes the map. -/
def Writing {V : Type} (s : MapState V) (t : Nat) : Prop := (s.thr t).pc = .inside ∧ ∃ o os, (s.thr t).todo = o :: os ∧ ∀ k, o ≠ .get k

/-- A thread is in the middle of an access to the map. -/
def Accessing {V : Type} (s : MapState V) (t : Nat) : Prop := (s.thr t).pc = .inside

/-- A thread has done all its calls. -/
def Finished {V : Type} (s : MapState V) (t : Nat) : Prop := (s.thr t).todo = []

/-- A name under which the threads store nothing but `v`, and which nobody removes. -/
def OnlyValue {V : Type} (progs : Nat → List (MapOp V)) (k : Str) (v : V) : Prop :=
  ∀ t, (∀ v', MapOp.put k v' ∈ progs t → v' = v) ∧ MapOp.del k ∉ progs t

/-- The thread waits for a lock to change the map. -/
def WriterWaits {V : Type} (s : MapState V) (t : Nat) : Prop := (s.thr t).pc = .waiting ∧ ∃ o os, (s.thr t).todo = o :: os ∧ ∀ k, o ≠ .get k

/-- The thread waits for a lock to read the map. -/
def ReaderWaits {V : Type} (s : MapState V) (t : Nat) : Prop := (s.thr t).pc = .waiting ∧ ∃ k os, (s.thr t).todo = .get k :: os

end Pkgr.Spec
