/-
Model of the parallel installation of a plan: rcmd/install.go:395-551 `InstallPackagePlan` and
rcmd/worker.go.  The goroutines are the caller ("main"), the requester (rcmd/install.go:500-528), the
workers and the updater (rcmd/worker.go:80-87 running rcmd/install.go:427-498).  An execution is any
interleaving of their steps.  Simplifications: memory is sequentially consistent (the unsynchronised
variable `anyFailed` is read and written atomically); an installation is one start and one end event, its
outcome being arbitrary; log output, `packagesNeeded` (only logged) and the never used `Quit` channel are
left out.  The fields `leaked` and `log` of the state are bookkeeping for the theorems and are never read
by a step.
-/
import Verif.Model.Plan

namespace Pkgr

/-- What `InstallFunc` returned (rcmd/worker.go:24): an error, or success with (`built`) or without a
non-empty path of a newly built binary. -/
inductive Outcome where
  | failed
  | ok (built : Bool)
deriving Repr, DecidableEq

/-- rcmd/worker.go:66-67: capacities of the two buffered channels. -/
structure QueueCaps where
  work : Nat := 2000
  update : Nat := 500
deriving Repr, DecidableEq

/-- The fixed data of a run (rcmd/install.go:395-420): starting packages and dependency lists of the plan,
the inverted dependencies, the number of workers, the channel capacities. -/
structure Job where
  starting : List Str
  depDb : GoMap (List Str)
  iDeps : GoMap (List Str)
  ncpu : Nat
  caps : QueueCaps := {}
deriving Repr, DecidableEq

/-- rcmd/install.go:395-420, rcmd/worker.go:61-77: the run of a plan with `n` workers; `ρ t` is the
iteration order used by `InvertDependencies`. -/
def jobOf (ip : InstallPlan) (n : Nat) (ρ : Order) (t : Nat) : Job :=
  { starting := ip.starting, depDb := ip.depDb, iDeps := invertDependencies ρ t ip.depDb, ncpu := n }

/-- rcmd/worker.go:11-49: a worker waits for work, installs, or waits to deliver its result. -/
inductive Worker where
  | idle
  | running (p : Str)
  | holding (p : Str) (o : Outcome)
deriving Repr, DecidableEq

/-- rcmd/install.go:500-528: the requester waits, has received a name, or waits to push a request. -/
inductive Requester where
  | idle
  | got (p : Str)
  | push (p : Str)
deriving Repr, DecidableEq

/-- rcmd/install.go:427-498: the updater waits, looks at the remaining dependents `xs` of `p`, waits to send
the name `x`, copies the built binary, or is about to call `wg.Done`. -/
inductive Updater where
  | idle
  | scan (p : Str) (xs : List Str) (built : Bool)
  | send (x : Str) (p : Str) (xs : List Str) (built : Bool)
  | copy (p : Str)
  | finish
deriving Repr, DecidableEq

/-- Bookkeeping events: an installation started, or ended (successfully?). -/
inductive LogEntry where
  | started (p : Str)
  | finished (p : Str) (ok : Bool)
deriving Repr, DecidableEq

/-- rcmd/install.go:546-550: the value returned. -/
inductive RunResult where
  | nil
  | error (failed : List Str)
deriving Repr, DecidableEq

/-- State of a run. `wg` is the wait-group counter; `todo` the starting packages not yet sent, `mainSend`
the name main is sending. -/
structure RunState where
  todo : List Str
  mainSend : Option Str := none
  ret : Option RunResult := none
  requester : Requester := .idle
  requested : List Str := []
  workQ : List Str := []
  workers : List Worker
  updQ : List (Str × Outcome) := []
  updater : Updater := .idle
  installed : List Str := []
  anyFailed : Bool := false
  failedPkgs : List Str := []
  wg : Int := 0
  leaked : Nat := 0
  log : List LogEntry := []
deriving Repr, DecidableEq

/-- rcmd/install.go:406-530: the state when the loop over the starting packages begins. -/
def Job.init (j : Job) : RunState := { todo := j.starting, workers := List.replicate j.ncpu .idle }

/-- The steps. -/
inductive Event where
  /-- rcmd/install.go:532-533 `wg.Add(1)` for the next starting package -/
  | mainAdd
  /-- rcmd/install.go:534 / 502: main's send meets the requester's receive -/
  | mainSend
  /-- rcmd/install.go:536-550: `wg.Wait()` sees zero and the function returns -/
  | mainReturn
  /-- rcmd/install.go:503-516: the requester examines the name received -/
  | reqCheck
  /-- rcmd/install.go:517-526: the requester pushes to the work queue -/
  | reqPush
  /-- rcmd/worker.go:17: worker `i` takes a request -/
  | take (i : Nat)
  /-- rcmd/worker.go:24: worker `i`'s installation ends -/
  | finish (i : Nat) (o : Outcome)
  /-- rcmd/worker.go:33: worker `i` delivers its result -/
  | post (i : Nat)
  /-- rcmd/worker.go:82, rcmd/install.go:427-449: the updater takes a result and records it -/
  | updTake
  /-- rcmd/install.go:450-462, 471: the updater looks at the next dependent, or leaves the loop -/
  | updScan
  /-- rcmd/install.go:467 / 502: the updater's send meets the requester's receive -/
  | updSend
  /-- rcmd/install.go:471-495: the built binary is copied, or copying fails -/
  | updCopy (ok : Bool)
  /-- rcmd/install.go:497 `wg.Done()` -/
  | updDone
deriving Repr, DecidableEq

/-- rcmd/install.go:453-461: are all dependencies of `x` installed? -/
def depsInstalled (j : Job) (installed : List Str) (x : Str) : Bool :=
  ((GoMap.get? j.depDb x).getD []).all fun d => installed.contains d

/-- rcmd/install.go:532-533. -/
def stepMainAdd (s : RunState) : Option RunState :=
  match s.mainSend, s.todo with
  | none, p :: ps => some { s with todo := ps, mainSend := some p, wg := s.wg + 1 }
  | _, _ => none

/-- rcmd/install.go:534, 502. -/
def stepMainSend (s : RunState) : Option RunState :=
  match s.mainSend, s.requester with
  | some p, .idle => some { s with mainSend := none, requester := .got p }
  | _, _ => none

/-- rcmd/install.go:536-550. -/
def stepMainReturn (s : RunState) : Option RunState :=
  match s.ret, s.mainSend, s.todo with
  | none, none, [] =>
    if s.wg = 0 then some { s with ret := some (if s.anyFailed then .error s.failedPkgs else .nil) } else none
  | _, _, _ => none

/-- rcmd/install.go:503-516: after a failure, or when the package was already requested, the name is
dropped (without `wg.Done`). -/
def stepReqCheck (s : RunState) : Option RunState :=
  match s.requester with
  | .got p =>
    if s.anyFailed then some { s with requester := .idle, leaked := s.leaked + 1 }
    else if s.requested.contains p then some { s with requester := .idle, leaked := s.leaked + 1 }
    else some { s with requester := .push p, requested := p :: s.requested }
  | _ => none

/-- rcmd/install.go:517-526, rcmd/worker.go:107-109. -/
def stepReqPush (j : Job) (s : RunState) : Option RunState :=
  match s.requester with
  | .push p =>
    if s.workQ.length < j.caps.work then some { s with requester := .idle, workQ := s.workQ ++ [p] } else none
  | _ => none

/-- rcmd/worker.go:17. -/
def stepTake (s : RunState) (i : Nat) : Option RunState :=
  match s.workers[i]?, s.workQ with
  | some .idle, p :: q =>
    some { s with workQ := q, workers := s.workers.set i (.running p), log := s.log ++ [.started p] }
  | _, _ => none

/-- rcmd/worker.go:24. -/
def stepFinish (s : RunState) (i : Nat) (o : Outcome) : Option RunState :=
  match s.workers[i]? with
  | some (.running p) =>
    some { s with workers := s.workers.set i (.holding p o), log := s.log ++ [.finished p (o ≠ .failed)] }
  | _ => none

/-- rcmd/worker.go:33-40. -/
def stepPost (j : Job) (s : RunState) (i : Nat) : Option RunState :=
  match s.workers[i]? with
  | some (.holding p o) =>
    if s.updQ.length < j.caps.update then
      some { s with workers := s.workers.set i .idle, updQ := s.updQ ++ [(p, o)] }
    else none
  | _ => none

/-- rcmd/worker.go:82, rcmd/install.go:427-449. -/
def stepUpdTake (j : Job) (s : RunState) : Option RunState :=
  match s.updater, s.updQ with
  | .idle, (p, .failed) :: q =>
    some { s with updQ := q, updater := .finish, anyFailed := true, failedPkgs := s.failedPkgs ++ [p] }
  | .idle, (p, .ok b) :: q =>
    some { s with updQ := q, updater := .scan p ((GoMap.get? j.iDeps p).getD []) b, installed := p :: s.installed }
  | _, _ => none

/-- rcmd/install.go:450-462, 471. -/
def stepUpdScan (j : Job) (s : RunState) : Option RunState :=
  match s.updater with
  | .scan p (x :: xs) b =>
    if depsInstalled j s.installed x && !s.anyFailed then
      some { s with updater := .send x p xs b, wg := s.wg + 1 }
    else some { s with updater := .scan p xs b }
  | .scan p [] b => some { s with updater := if b then .copy p else .finish }
  | _ => none

/-- rcmd/install.go:467, 502. -/
def stepUpdSend (s : RunState) : Option RunState :=
  match s.updater, s.requester with
  | .send x p xs b, .idle => some { s with updater := .scan p xs b, requester := .got x }
  | _, _ => none

/-- rcmd/install.go:471-495: when copying fails the callback returns without `wg.Done`. -/
def stepUpdCopy (s : RunState) (ok : Bool) : Option RunState :=
  match s.updater with
  | .copy _ =>
    if ok then some { s with updater := .finish } else some { s with updater := .idle, leaked := s.leaked + 1 }
  | _ => none

/-- rcmd/install.go:497. -/
def stepUpdDone (s : RunState) : Option RunState :=
  match s.updater with
  | .finish => some { s with updater := .idle, wg := s.wg - 1 }
  | _ => none

/-- One step of the run (`none`: the step is not possible in this state). -/
def Job.step (j : Job) (s : RunState) : Event → Option RunState
  | .mainAdd => stepMainAdd s
  | .mainSend => stepMainSend s
  | .mainReturn => stepMainReturn s
  | .reqCheck => stepReqCheck s
  | .reqPush => stepReqPush j s
  | .take i => stepTake s i
  | .finish i o => stepFinish s i o
  | .post i => stepPost j s i
  | .updTake => stepUpdTake j s
  | .updScan => stepUpdScan j s
  | .updSend => stepUpdSend s
  | .updCopy ok => stepUpdCopy s ok
  | .updDone => stepUpdDone s

/-- A finite execution from `s`. -/
def Job.run (j : Job) : RunState → List Event → Option RunState
  | s, [] => some s
  | s, e :: es =>
    match j.step s e with
    | none => none
    | some s' => Job.run j s' es

end Pkgr
