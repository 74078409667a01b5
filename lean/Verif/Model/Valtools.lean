/-
Model of internal/valtools: checkmat (the traceability matrix), filecov (test coverage of each file) and fmttests (the
summary of a test run).
Left out: YAML, JSON and coverage-profile decoding (the decoded values are the inputs; a decoding error is an input, too), the
exact text of messages, usage messages and flags.
-/
import Verif.Model.Fs

namespace Pkgr

/-! ### Go library functions -/

/-- Go `filepath.Base`. -/
def baseStr (s : Str) : Str :=
  if s = [] then s%"."
  else if trimRightBy (· = '/') s = [] then s%"/"
  else ((trimRightBy (· = '/') s).reverse.takeWhile (· ≠ '/')).reverse

/-- Go `filepath.Ext`. -/
def extStr (s : Str) : Str :=
  if '.' ∈ s.reverse.takeWhile (· ≠ '/') then '.' :: ((s.reverse.takeWhile (· ≠ '/')).takeWhile (· ≠ '.')).reverse else []

/-- Go `strings.TrimSuffix`. -/
def trimSuffix (s p : Str) : Str := if hasSuffix s p then s.take (s.length - p.length) else s

/-- Go `strings.TrimPrefix`. -/
def trimPrefix (s p : Str) : Str := if hasPrefix s p then s.drop p.length else s

/-- Go `fs.ValidPath` (of valid UTF-8). -/
def validPath (s : Str) : Bool := s = s%"." || (splitOn '/' s).all fun e => e ≠ [] && e ≠ s%"." && e ≠ s%".."

/-! ### checkmat -/

/-- internal/valtools/checkmat/main.go:54-60 `entry`. -/
structure MatEntry where
  entrypoint : Str := []
  code : Str := []
  doc : Str := []
  tests : List Str := []
  skip : Bool := false
deriving Repr, DecidableEq

/-- internal/valtools/checkmat/main.go:75-86 `entryFiles`. -/
def entryFiles (e : MatEntry) : List Str :=
  (if e.code ≠ [] then [e.code] else []) ++ (if e.doc ≠ [] then [e.doc] else []) ++ e.tests

/-- A line of the report, one kind for each of the five checks. -/
inductive MatMsg where
  | invalid (file : Str)
  | missing (file : Path)
  | mismatch (entrypoint doc : Str)
  | twice (entrypoint : Str)
  | noEntry (file : Str)
deriving Repr, DecidableEq

/-- What a check returns: the number of problems and what it has written; or an error. -/
structure MatRep where
  bad : Nat := 0
  out : List MatMsg := []
deriving Repr, DecidableEq

/-- `bad++` and a line. -/
def MatRep.note (r : MatRep) (m : MatMsg) : MatRep := { bad := r.bad + 1, out := r.out ++ [m] }

/-- internal/valtools/checkmat/main.go:92-97: the files of one entry. -/
def invalidStep (r : MatRep) (f : Str) : MatRep := if validPath f then r else r.note (.invalid f)

/-- internal/valtools/checkmat/main.go:88-101 `checkValidFileNames`. -/
def checkValidFileNames (es : List MatEntry) : MatRep := (es.flatMap entryFiles).foldl invalidStep {}

/-- What `os.Stat` says. -/
inductive StatEnd where
  | there | notExist | error
deriving Repr, DecidableEq

/-- internal/valtools/checkmat/main.go:103-122 `checkMissingFiles`; the second component: was there an error. -/
def missingLoop (stat : Path → StatEnd) (top : Path) : MatRep → List Str → MatRep × Bool
  | r, [] => (r, false)
  | r, f :: fs =>
    match stat (joinPath top f) with
    | .there => missingLoop stat top r fs
    | .notExist => missingLoop stat top (r.note (.missing (joinPath top f))) fs
    | .error => (r, true)

/-- internal/valtools/checkmat/main.go:103-122 `checkMissingFiles`. -/
def checkMissingFiles (stat : Path → StatEnd) (top : Path) (es : List MatEntry) : MatRep × Bool :=
  missingLoop stat top {} (es.flatMap entryFiles)

/-- internal/valtools/checkmat/main.go:129-134 `docToEntrypoint`. -/
def docToEntrypoint (f : Str) : Str :=
  (trimSuffix (baseStr f) (extStr (baseStr f))).map fun c => if c = '_' then ' ' else c

/-- internal/valtools/checkmat/main.go:139-148: one entry. -/
def mismatchStep (r : MatRep) (e : MatEntry) : MatRep :=
  if e.skip then r else if docToEntrypoint e.doc ≠ e.entrypoint then r.note (.mismatch e.entrypoint e.doc) else r

/-- internal/valtools/checkmat/main.go:136-151 `checkEntrypointDocMismatch`. -/
def checkEntrypointDocMismatch (es : List MatEntry) : MatRep := es.foldl mismatchStep {}

/-- internal/valtools/checkmat/main.go:157-165: one entry; `cmds` are the keys of the map. -/
def twiceStep (acc : MatRep × List Str) (e : MatEntry) : MatRep × List Str :=
  if acc.2.contains e.entrypoint then (acc.1.note (.twice e.entrypoint), acc.2) else (acc.1, e.entrypoint :: acc.2)

/-- internal/valtools/checkmat/main.go:153-168 `checkDupEntrypoints`. -/
def checkDupEntrypoints (es : List MatEntry) : MatRep := (es.foldl twiceStep ({}, [])).1

/-- internal/valtools/checkmat/main.go:189-194: one file of the directory. -/
def noEntryStep (cmds : List Str) (r : MatRep) (f : Str) : MatRep :=
  if cmds.contains (docToEntrypoint f) then r else r.note (.noEntry f)

/-- internal/valtools/checkmat/main.go:170-197 `checkMissingEntries`; `names`: what the directory holds (`none`: it cannot be
read). -/
def checkMissingEntries (names : Option (List Str)) (es : List MatEntry) : MatRep × Bool :=
  match names with
  | none => ({}, true)
  | some fs => (fs.foldl (noEntryStep (es.map MatEntry.entrypoint)) {}, false)

/-- internal/valtools/checkmat/main.go:225-231: the loop over the checks, each with its result. Returns all that was written,
the number of problems, and whether there was an error. -/
def runChecks : MatRep → List (MatRep × Bool) → MatRep × Bool
  | acc, [] => (acc, false)
  | acc, (r, err) :: rest =>
    if err then ({ acc with out := acc.out ++ r.out }, true)
    else runChecks { bad := acc.bad + r.bad, out := acc.out ++ r.out } rest

/-- internal/valtools/checkmat/main.go:205-235 `check` (`entries`: `none` if the file cannot be read or decoded). -/
def checkMatrix (entries : Option (List MatEntry)) (stat : Path → StatEnd) (top : Path) (names : Option (List Str)) : MatRep × Bool :=
  match entries with
  | none => ({}, true)
  | some es =>
    runChecks {} [(checkValidFileNames es, false), checkMissingFiles stat top es, (checkEntrypointDocMismatch es, false),
      (checkDupEntrypoints es, false), checkMissingEntries names es]

/-- internal/valtools/checkmat/main.go:255-264: the exit status. -/
def matStatus (r : MatRep × Bool) : Nat := if r.2 then 2 else if r.1.bad > 0 then 1 else 0

/-! ### filecov -/

/-- A block of a coverage profile (golang.org/x/tools/cover). -/
structure CovBlock where
  stmts : Nat
  count : Nat
deriving Repr, DecidableEq

/-- The profile of a file. -/
structure CovProfile where
  file : Str
  blocks : List CovBlock
deriving Repr, DecidableEq

/-- internal/valtools/filecov/main.go:51-56: one block; (covered, total). Simplification: natural numbers for int64. -/
def tallyStep (t : Nat × Nat) (b : CovBlock) : Nat × Nat :=
  (if b.count > 0 then t.1 + b.stmts else t.1, t.2 + b.stmts)

/-- internal/valtools/filecov/main.go:48-59 `tallyCovered`. -/
def tallyCovered (p : CovProfile) : Nat × Nat := p.blocks.foldl tallyStep (0, 0)

/-- internal/valtools/filecov/main.go:71-77 `percent`. Simplification: rational numbers for float64. -/
def percent (covered total : Nat) : Rat := if total = 0 then 0 else (covered : Rat) / (total : Rat) * 100

/-- internal/valtools/filecov/main.go:61-69: file, coverage; overall coverage. -/
structure Coverage where
  overall : Rat
  files : List (Str × Rat)

/-- internal/valtools/filecov/main.go:83-93: one profile. -/
def coverageStep (acc : (Nat × Nat) × List (Str × Rat)) (p : CovProfile) : (Nat × Nat) × List (Str × Rat) :=
  ((acc.1.1 + (tallyCovered p).1, acc.1.2 + (tallyCovered p).2), acc.2 ++ [(p.file, percent (tallyCovered p).1 (tallyCovered p).2)])

/-- internal/valtools/filecov/main.go:79-96 `percentCovered`. -/
def percentCovered (ps : List CovProfile) : Coverage :=
  let r := ps.foldl coverageStep ((0, 0), [])
  { overall := percent r.1.1 r.1.2, files := r.2 }

/-- internal/valtools/filecov/main.go:115-132: the name of one file (`none`: an error); `resolve`: `filepath.EvalSymlinks`;
`mprefix`, `lprefix`: the module's name and directory, with a slash. -/
def shortenFile (resolve : Str → Option Str) (mprefix lprefix : Str) (file : Str) : Option Str :=
  if lprefix ≠ [] && hasPrefix file (s%"/") then (resolve file).map fun f => trimPrefix f lprefix
  else some (trimPrefix file mprefix)

/-- internal/valtools/filecov/main.go:98-136 `shortenFileNames` (linux: the separator is a slash). -/
def shortenFileNames (resolve : Str → Option Str) (cov : Coverage) (modpath localpath : Str) : Option Coverage :=
  if modpath = [] then some cov
  else
    match (if localpath = [] then some [] else (resolve localpath).map fun l => l ++ s%"/") with
    | none => none
    | some lprefix =>
      (cov.files.mapM fun e => (shortenFile resolve (modpath ++ s%"/") lprefix e.1).map fun f => (f, e.2)).map fun fs =>
        { overall := cov.overall, files := fs }

/-- internal/valtools/filecov/main.go:138-153, 155-182 `write`, `run`: the document (`none`: an error, nothing is written). -/
def fileCov (resolve : Str → Option Str) (profiles : Option (List CovProfile)) (modpath localpath : Str) : Option Coverage :=
  match profiles with
  | none => none
  | some ps => shortenFileNames resolve (percentCovered ps) modpath localpath

/-! ### fmttests -/

/-- internal/valtools/fmttests/main.go:40-47 `event` (without times). -/
structure TestEvent where
  action : Str
  pkg : Str := []
  test : Str := []
  output : Str := []
deriving Repr, DecidableEq

/-- internal/valtools/fmttests/main.go:49-53 `summary`, what was written, and the output kept for each test (a map from
package and test to lines, as a function). -/
structure TestSum where
  failed : List Str := []
  passed : List Str := []
  skipped : List Str := []
  /-- lines on standard output: package, test, status -/
  out : List (Str × Str × Str) := []
  /-- pieces on the error stream -/
  err : List Str := []
  kept : Str → Str → List Str := fun _ _ => []

/-- internal/valtools/fmttests/main.go:55-63 `packageBaseName`. -/
def packageBaseName (s : Str) : Str := (splitOn '/' s).getLast?.getD s

/-- internal/valtools/fmttests/main.go:125-131: the line of a result. -/
def TestSum.line (s : TestSum) (subtests always : Bool) (e : TestEvent) (status : Str) : TestSum :=
  if subtests || always || !e.test.contains '/' then { s with out := s.out ++ [(packageBaseName e.pkg, e.test, status)] } else s

/-- internal/valtools/fmttests/main.go:84-132: one event (`none`: an error). -/
def testStep (subtests : Bool) (s : TestSum) (e : TestEvent) : Option TestSum :=
  if e.test = [] then some s
  else if e.action = s%"fail" then
    some (TestSum.line { s with err := s.err ++ s.kept e.pkg e.test, failed := s.failed ++ [e.test] } subtests true e (s%"failed"))
  else if e.action = s%"pass" then some (TestSum.line { s with passed := s.passed ++ [e.test] } subtests false e (s%"passed"))
  else if e.action = s%"skip" then some (TestSum.line { s with skipped := s.skipped ++ [e.test] } subtests true e (s%"skipped"))
  else if e.action = s%"bench" then none
  else if e.action = s%"output" then
    some { s with kept := fun p t => if p = e.pkg ∧ t = e.test then s.kept p t ++ [e.output] else s.kept p t }
  else if e.action = s%"cont" ∨ e.action = s%"pause" ∨ e.action = s%"run" ∨ e.action = s%"start" then some s
  else none

/-- internal/valtools/fmttests/main.go:79-139 `processEvents`: the lines (`none`: not a record), and whether they could all be
read; the second component: was there an error. -/
def processEvents (subtests readOk : Bool) : TestSum → List (Option TestEvent) → TestSum × Bool
  | s, [] => (s, !readOk)
  | s, none :: _ => (s, true)
  | s, some e :: es =>
    match testStep subtests s e with
    | none => (s, true)
    | some s' => processEvents subtests readOk s' es

/-- internal/valtools/fmttests/main.go:153-163: the exit status. -/
def testStatus (allowSkips : Bool) (r : TestSum × Bool) : Nat :=
  if r.2 then 2 else if r.1.failed.length > 0 || (!allowSkips && r.1.skipped.length > 0) then 1 else 0

end Pkgr
