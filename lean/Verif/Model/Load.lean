/-
Model of cmd/load.go (`pkgr load`) and of the report in cmd/structs.go.

The goroutines and the main function are a transition system; a step is one channel operation (or the end of an R
session), so every interleaving of the program is a sequence of steps. What an R session prints and how it ends is a
parameter. Simplification: all goroutines exist from the start (the program starts them one after the other before the
main function receives the first result; the model has more schedules, not fewer).
-/
import Verif.Model.Base

namespace Pkgr

/-- cmd/structs.go:36-46 `LoadResult`. -/
structure LoadResult where
  package : Str
  version : Str := []
  path : Str := []
  exiterr : Str := []
  stdout : Str := []
  stderr : Str := []
  success : Bool
deriving Repr, DecidableEq

/-- cmd/structs.go:14-18 `LoadReport` (without the metadata of the R session). -/
structure LoadReport where
  results : GoMap LoadResult := []
  failures : Nat := 0
deriving Repr, DecidableEq

/-- cmd/structs.go:28-33 `AddResult`. -/
def LoadReport.addResult (r : LoadReport) (x : LoadResult) : LoadReport :=
  { results := r.results.put x.package x, failures := if x.success then r.failures else r.failures + 1 }

/-- How `library('<pkg>')` in an R session ends (cmd/load.go:209-223): exit status zero, another one (with the text of
the error), or R could not be run at all. -/
inductive SessionEnd where
  | zero
  | nonzero (err : Str)
  | notRun
deriving Repr, DecidableEq

/-- What the two R sessions of a package deliver; `info` are the output lines of the second one if it ends with
status zero. -/
structure Session where
  ending : SessionEnd
  stdout : Str := []
  stderr : Str := []
  info : Option (List Str) := none
deriving Repr, DecidableEq

/-- Go `strings.ReplaceAll(s, "\"", "")`. -/
def unquote (s : Str) : Str := s.filter (· ≠ '"')

/-- cmd/load.go:258-287 `getAdditionalPkgInfo`: path and version. -/
def additionalInfo (info : Option (List Str)) : Str × Str :=
  match info with
  | some [p, v] => (unquote p, unquote v)
  | _ => (s%"could not retrieve", s%"could not retrieve")

/-- cmd/load.go:207-255 `attemptLoad` (`none`: log.Fatal ends the program). -/
def attemptLoad (pkg : Str) (s : Session) : Option LoadResult :=
  let i := additionalInfo s.info
  match s.ending with
  | .notRun => none
  | .zero => some { package := pkg, version := i.2, path := i.1, stdout := s.stdout, stderr := s.stderr, success := true }
  | .nonzero e =>
    some { package := pkg, version := i.2, path := i.1, exiterr := e, stdout := s.stdout, stderr := s.stderr, success := false }

/-- The state of `load` while packages are loaded. A goroutine (an index into the list of packages) is waiting for the
semaphore, running R, or about to give back its place; `queue` is the channel of results, `received` counts the results
the main function has taken. -/
structure LoadState where
  waiting : List Nat
  running : List Nat := []
  releasing : List Nat := []
  sem : Nat := 0
  queue : List LoadResult := []
  received : Nat := 0
  report : LoadReport := {}
  closed : Bool := false
  died : Bool := false
  panicked : Bool := false

/-- cmd/load.go:101-102: making the channels (`none`: a negative size makes `make` panic). -/
def loadStart (threads : Int) (pkgs : List Str) : Option LoadState :=
  if threads * 2 < 0 then none else some { waiting := List.range pkgs.length }

/-- One step of the program for these packages, with room for `cap` entries in the semaphore. -/
inductive LoadStep (cap : Nat) (pkgs : List Str) (sess : Nat → Session) : LoadState → LoadState → Prop
  /-- cmd/load.go:201 -/
  | acquire (s : LoadState) (a b : List Nat) (i : Nat) : s.died = false → s.panicked = false → s.closed = false →
      s.waiting = a ++ i :: b → s.sem < cap →
      LoadStep cap pkgs sess s { s with waiting := a ++ b, running := i :: s.running, sem := s.sem + 1 }
  /-- cmd/load.go:201 on a closed channel -/
  | acquireClosed (s : LoadState) (a b : List Nat) (i : Nat) : s.died = false → s.panicked = false → s.closed = true →
      s.waiting = a ++ i :: b → LoadStep cap pkgs sess s { s with panicked := true }
  /-- cmd/load.go:202: the session is over and its result is sent -/
  | finish (s : LoadState) (a b : List Nat) (i : Nat) (r : LoadResult) : s.died = false → s.panicked = false → s.closed = false →
      s.running = a ++ i :: b → attemptLoad (pkgs[i]?.getD []) (sess i) = some r → s.queue.length < pkgs.length →
      LoadStep cap pkgs sess s { s with running := a ++ b, releasing := i :: s.releasing, queue := s.queue ++ [r] }
  /-- cmd/load.go:202 on a closed channel -/
  | finishClosed (s : LoadState) (a b : List Nat) (i : Nat) (r : LoadResult) : s.died = false → s.panicked = false → s.closed = true →
      s.running = a ++ i :: b → attemptLoad (pkgs[i]?.getD []) (sess i) = some r → LoadStep cap pkgs sess s { s with panicked := true }
  /-- cmd/load.go:223-229: R cannot be run -/
  | die (s : LoadState) (a b : List Nat) (i : Nat) : s.died = false → s.panicked = false →
      s.running = a ++ i :: b → attemptLoad (pkgs[i]?.getD []) (sess i) = none → LoadStep cap pkgs sess s { s with died := true }
  /-- cmd/load.go:203 -/
  | release (s : LoadState) (a b : List Nat) (i : Nat) : s.died = false → s.panicked = false →
      s.releasing = a ++ i :: b → 0 < s.sem ∨ s.closed = true →
      LoadStep cap pkgs sess s { s with releasing := a ++ b, sem := s.sem - 1 }
  /-- cmd/load.go:124-132 -/
  | receive (s : LoadState) (r : LoadResult) (q : List LoadResult) : s.died = false → s.panicked = false →
      s.queue = r :: q → s.received < pkgs.length →
      LoadStep cap pkgs sess s { s with queue := q, received := s.received + 1, report := s.report.addResult r }
  /-- cmd/load.go:134-135: the report is ready -/
  | close (s : LoadState) : s.died = false → s.panicked = false → s.closed = false → s.received = pkgs.length →
      LoadStep cap pkgs sess s { s with closed := true }

/-- `k` steps. -/
inductive LoadRun (cap : Nat) (pkgs : List Str) (sess : Nat → Session) : Nat → LoadState → LoadState → Prop
  | refl (s : LoadState) : LoadRun cap pkgs sess 0 s s
  | step (k : Nat) (s t u : LoadState) : LoadRun cap pkgs sess k s t → LoadStep cap pkgs sess t u → LoadRun cap pkgs sess (k + 1) s u

end Pkgr
