/-
What a user relies on about logging: docs/config.md "Logging", the options `--loglevel` and `--json`.
-/
import Verif.Model.Logger

namespace Pkgr.Spec

/-- The name of a level, as the user writes it. -/
def levelName : Level → Str
  | .panic => s%"panic"
  | .fatal => s%"fatal"
  | .error => s%"error"
  | .warn => s%"warn"
  | .info => s%"info"
  | .debug => s%"debug"
  | .trace => s%"trace"

/-- All levels, from the one that shows least to the one that shows everything. -/
def levels : List Level := [.panic, .fatal, .error, .warn, .info, .debug, .trace]

/-- `a` is at least as severe as `b`. -/
def AtLeast (a b : Level) : Prop := levels.idxOf a ≤ levels.idxOf b

instance (a b : Level) : Decidable (AtLeast a b) := by unfold AtLeast; infer_instance

/-- The same letter but for case (in Unicode, the small letter of U+0130 is `i`). -/
def SameLetter (a b : Char) : Prop := a.toLower = b.toLower ∨ (a = '\u0130' ∧ b.toLower = 'i')

/-- The same word but for case. -/
def SameWord : Str → Str → Prop
  | [], [] => True
  | a :: as, b :: bs => SameLetter a b ∧ SameWord as bs
  | _, _ => False

/-- The level a user asks for with `--loglevel`: the named one in whatever case, `info` if nothing that is a level is named. -/
def Asks (word : Str) (l : Level) : Prop :=
  SameWord word (levelName l) ∨ ((∀ k, ¬ SameWord word (levelName k)) ∧ l = .info)

/-- The records among the things said. -/
def records : List Said → List LogRec
  | [] => []
  | .record r :: l => r :: records l
  | .print _ :: l => records l

/-- A record ends the program if it is fatal (or a panic). -/
def Ends (r : LogRec) : Prop := r.level = .fatal ∨ r.level = .panic

instance (r : LogRec) : Decidable (Ends r) := by unfold Ends; infer_instance

/-- Nothing said ends the program. -/
def Goes (l : List Said) : Prop := ∀ r ∈ records l, ¬ Ends r

instance (l : List Said) : Decidable (Goes l) := by unfold Goes; infer_instance

/-- What is said until the program ends: up to the first record that ends it, and that one. -/
def untilEnd : List Said → List Said
  | [] => []
  | .print s :: l => .print s :: untilEnd l
  | .record r :: l => if Ends r then [.record r] else .record r :: untilEnd l

/-- What the user sees of it on the screen: all that is printed, and the records at least as severe as the level. -/
def shown (f : LogFmt) (level : Level) : List Said → Str
  | [] => []
  | .print s :: l => s ++ shown f level l
  | .record r :: l => (if AtLeast r.level level then f.screen r else []) ++ shown f level l

/-- The lines of a log file: one for every record at least as severe as the level, in order. -/
def lines (f : LogFmt) (level : Level) (l : List LogRec) : Str := ((l.filter fun r => AtLeast r.level level).map f.line).flatten

/-- Does the command print a JSON document instead of its log? -/
def Json : LogCmd → Prop
  | .inspect j => j = true
  | .load j => j = true
  | _ => False

instance (c : LogCmd) : Decidable (Json c) := by cases c <;> (unfold Json; infer_instance)

/-- The level in force during a command if the user asked for `asked` ("suppress non-fatal logging"). -/
def inForce (c : LogCmd) (asked : Level) : Level := if Json c then .fatal else asked

/-- docs/config.md: the file that a command writes its log records to (empty: none). -/
def logFileOf (l : LogConfig) : LogCmd → Str
  | .install => if l.install = [] then l.all else l.install
  | _ => l.all

/-- A file can be written to: it is a file, or it is not there and its directory is. -/
def Writable (fs : Fs) (p : Path) : Prop := (∃ c, fs p = some (.file c)) ∨ (fs p = none ∧ fs.isDir p.dropLast = true)

/-- The text in a file. -/
def textIn (fs : Fs) (p : Path) : Str := match fs p with | some (.file c) => c | _ => []

end Pkgr.Spec
