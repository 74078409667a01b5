/-
Model of cran/sync.go: the table of downloads that the goroutines of the downloader and of the installer share. Threads
run programs of calls of `Put`, `Delete` and `Get`; every call takes five steps, which interleave freely.
Assumptions on dependencies (sync.RWMutex): `Lock` returns only while nobody holds the lock, `RLock` only while no writer
holds it. (Go also keeps readers waiting while a writer waits. Every execution under this rule is one of the model's;
where it matters, in the theorem that something can always go on, the rule is taken into account.)
Simplification: the lock keeps the identities of its holders, Go's only counts them.
-/
import Verif.Model.Base

namespace Pkgr

/-- A call. -/
inductive MapOp (V : Type) where
  | put (k : Str) (v : V)
  | del (k : Str)
  | get (k : Str)

/-- cran/sync.go:19-39: which lock the call takes (`Lock` or `RLock`). -/
def MapOp.writes {V : Type} : MapOp V → Bool
  | .put _ _ => true
  | .del _ => true
  | .get _ => false

/-- cran/sync.go:21, 28, 36: the map after the access. -/
def MapOp.effect {V : Type} (m : GoMap V) : MapOp V → GoMap V
  | .put k v => GoMap.put m k v
  | .del k => GoMap.del m k
  | .get _ => m

/-- cran/sync.go:36, 38: what the call returns (nothing for `Put` and `Delete`). -/
def MapOp.answer {V : Type} (m : GoMap V) : MapOp V → Option V
  | .put _ _ => none
  | .del _ => none
  | .get k => GoMap.get? m k

/-- Where a thread is in its current call (the first one it has to do). -/
inductive MapPc (V : Type) where
  /-- before the call -/
  | idle
  /-- called, waiting for the lock -/
  | waiting
  /-- it has the lock -/
  | locked
  /-- in the middle of the access to the map -/
  | inside
  /-- after the access -/
  | accessed (r : Option V)

/-- A thread. -/
structure MapThread (V : Type) where
  todo : List (MapOp V)
  pc : MapPc V := .idle

/-- What an observer sees: a call, or the return of a call with its result. -/
inductive MapEv (V : Type) where
  | call (t : Nat) (o : MapOp V)
  | ret (t : Nat) (o : MapOp V) (r : Option V)

/-- cran/sync.go:8-11 `PkgMap`, with the threads and what was seen so far (the first event first). -/
structure MapState (V : Type) where
  map : GoMap V
  writer : Option Nat := none
  readers : List Nat := []
  thr : Nat → MapThread V
  trace : List (MapEv V) := []

/-- One thread changed. -/
def MapState.setThr {V : Type} (s : MapState V) (t : Nat) (x : MapThread V) : Nat → MapThread V := fun i => if i = t then x else s.thr i

/-- cran/sync.go:20, 27, 35: the lock is taken, if it can be. -/
def MapState.lock {V : Type} (s : MapState V) (t : Nat) (o : MapOp V) (os : List (MapOp V)) : Option (MapState V) :=
  if o.writes then
    if s.writer = none ∧ s.readers = [] then some { s with writer := some t, thr := s.setThr t { todo := o :: os, pc := .locked } } else none
  else
    if s.writer = none then some { s with readers := t :: s.readers, thr := s.setThr t { todo := o :: os, pc := .locked } } else none

/-- cran/sync.go:22, 29, 37: the lock is given back, and the call returns. -/
def MapState.unlock {V : Type} (s : MapState V) (t : Nat) (o : MapOp V) (os : List (MapOp V)) (r : Option V) : MapState V :=
  if o.writes then { s with writer := none, thr := s.setThr t { todo := os }, trace := s.trace ++ [.ret t o r] }
  else { s with readers := s.readers.erase t, thr := s.setThr t { todo := os }, trace := s.trace ++ [.ret t o r] }

/-- cran/sync.go:19-39: the next step of a thread (`none`: it has to wait, or has nothing to do). -/
def MapState.step {V : Type} (s : MapState V) (t : Nat) : Option (MapState V) :=
  match (s.thr t).todo with
  | [] => none
  | o :: os =>
    match (s.thr t).pc with
    | .idle => some { s with thr := s.setThr t { todo := o :: os, pc := .waiting }, trace := s.trace ++ [.call t o] }
    | .waiting => s.lock t o os
    | .locked => some { s with thr := s.setThr t { todo := o :: os, pc := .inside } }
    | .inside => some { s with map := o.effect s.map, thr := s.setThr t { todo := o :: os, pc := .accessed (o.answer s.map) } }
    | .accessed r => some (s.unlock t o os r)

/-- cran/sync.go:14-16 `NewPkgMap`, and threads with their programs. -/
def MapState.start {V : Type} (progs : Nat → List (MapOp V)) : MapState V := { map := [], thr := fun t => { todo := progs t } }

/-- An execution: the threads that make the steps, one after the other. -/
def MapState.run {V : Type} (s : MapState V) : List Nat → Option (MapState V)
  | [] => some s
  | t :: ts =>
    match s.step t with
    | none => none
    | some s' => MapState.run s' ts

end Pkgr
