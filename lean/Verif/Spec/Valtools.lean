/- Independent vocabulary for C129 - C131. -/
import Verif.Model.Valtools
import Verif.Spec.Text

namespace Pkgr.Spec
open Pkgr

/-! ### The traceability matrix -/

/-- A relative file name written with slashes, without empty, `.` and `..` elements; or the project directory itself. -/
def ProperName (f : Str) : Prop :=
  f = s%"." ∨ ∃ es, Components '/' f es ∧ ∀ x ∈ es, x ≠ [] ∧ x ≠ s%"." ∧ x ≠ s%".."

/-- The files an entry names. -/
def NamesFile (e : MatEntry) (f : Str) : Prop := (f = e.code ∧ f ≠ []) ∨ (f = e.doc ∧ f ≠ []) ∨ f ∈ e.tests

/-- `doc` is the documentation of the entry point `ep`: its base name without extension is `ep` with underscores for
spaces (no documentation at all is that of an entry point without a name). -/
def Documents (doc ep : Str) : Prop :=
  (doc = [] ∧ ep = []) ∨
  ∃ dir stem ext, doc = dir ++ (stem ++ ext) ∧ (dir = [] ∨ ∃ d, dir = d ++ s%"/") ∧ stem ++ ext ≠ [] ∧ '/' ∉ stem ++ ext ∧
    ((ext = [] ∧ '.' ∉ stem) ∨ ∃ x, ext = '.' :: x ∧ '.' ∉ x) ∧
    ep = stem.map fun c => if c = '_' then ' ' else c

/-- What checkmat is to verify. -/
structure MatrixOk (es : List MatEntry) (stat : Path → StatEnd) (top : Path) (names : List Str) : Prop where
  valid : ∀ e ∈ es, ∀ f, NamesFile e f → ProperName f
  exist : ∀ e ∈ es, ∀ f, NamesFile e f → stat (joinPath top f) = .there
  doc : ∀ e ∈ es, e.skip = false → Documents e.doc e.entrypoint
  once : (es.map MatEntry.entrypoint).Nodup
  covered : ∀ f ∈ names, ∃ e ∈ es, Documents f e.entrypoint

/-- A name that a directory can hold. -/
def FileName (f : Str) : Prop := f ≠ [] ∧ '/' ∉ f

/-! ### Coverage -/

/-- The number of statements of a file. -/
def statements (p : CovProfile) : Nat := (p.blocks.map CovBlock.stmts).sum

/-- The number of statements of a file that the tests have run. -/
def coveredStatements (p : CovProfile) : Nat := ((p.blocks.filter fun b => b.count ≠ 0).map CovBlock.stmts).sum

/-! ### Test results -/

/-- The events of tests (not of whole packages) with the given action. -/
def testsWith (a : Str) (es : List TestEvent) : List Str :=
  (es.filter fun e => e.test ≠ [] && e.action = a).map TestEvent.test

/-- What a test has printed. -/
def printed (pkg test : Str) (es : List TestEvent) : List Str :=
  (es.filter fun e => e.pkg = pkg && e.test = test && e.action = s%"output").map TestEvent.output

/-- The word for a result. -/
def statusWord (e : TestEvent) : Option Str :=
  if e.action = s%"fail" then some (s%"failed") else if e.action = s%"pass" then some (s%"passed")
  else if e.action = s%"skip" then some (s%"skipped") else none

/-- The last element of a slash-separated path. -/
def lastElement (s : Str) : Str := (s.reverse.takeWhile (· ≠ '/')).reverse

/-- The line for a record, if there is one: only results of tests, and passing subtests only if asked for. -/
def resultLine (subtests : Bool) (e : TestEvent) : Option (Str × Str × Str) :=
  if e.test = [] ∨ (subtests = false ∧ e.action = s%"pass" ∧ '/' ∈ e.test) then none
  else (statusWord e).map fun w => (lastElement e.pkg, e.test, w)

/-- A record fmttests can handle: of a whole package, or of an action it knows. -/
def KnownRecord (e : TestEvent) : Prop :=
  e.test = [] ∨ e.action ∈ [s%"fail", s%"pass", s%"skip", s%"output", s%"cont", s%"pause", s%"run", s%"start"]

end Pkgr.Spec
