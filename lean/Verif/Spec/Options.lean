/- Independent vocabulary for C135: options, environment, file, defaults. -/
import Verif.Model.Options
import Verif.Spec.Version

namespace Pkgr.Spec
open Pkgr

/-- The value in force, given what the command line, the environment and the file say and the default: the first of them that
says something; an empty environment variable says nothing. -/
inductive ChosenValue (cmdline : Option Setting) (env : Option Str) (file : Option Setting) (dflt : Setting) : Setting → Prop where
  | byOption {v : Setting} : cmdline = some v → ChosenValue cmdline env file dflt v
  | byEnv {e : Str} : cmdline = none → env = some e → e ≠ [] → ChosenValue cmdline env file dflt (.text e)
  | byFile {v : Setting} : cmdline = none → (env = none ∨ env = some []) → file = some v → ChosenValue cmdline env file dflt v
  | byDefault : cmdline = none → (env = none ∨ env = some []) → file = none → ChosenValue cmdline env file dflt dflt

/-- A setting: its key in the file, its option, its environment variable and its default. -/
structure SettingInfo where
  key : Str
  option : Option Str
  var : Option Str
  dflt : Setting

/-- What `pkgr --help` and the documentation say about the settings. -/
def infoNoUpdate : SettingInfo := ⟨s%"noupdate", some (s%"no-update"), none, .bool false⟩
/-- see `infoNoUpdate` -/
def infoNoRollback : SettingInfo := ⟨s%"norollback", some (s%"no-rollback"), none, .bool false⟩
/-- see `infoNoUpdate` -/
def infoNoSecure : SettingInfo := ⟨s%"nosecure", some (s%"no-secure"), none, .bool false⟩
/-- see `infoNoUpdate` -/
def infoStrict : SettingInfo := ⟨s%"strict", some (s%"strict"), none, .bool false⟩
/-- see `infoNoUpdate` -/
def infoThreads (cpus : Int) : SettingInfo := ⟨s%"threads", some (s%"threads"), none, .int cpus⟩
/-- see `infoNoUpdate` -/
def infoLibrary : SettingInfo := ⟨s%"library", some (s%"library"), some (s%"PKGR_LIBRARY"), .text []⟩
/-- see `infoNoUpdate` -/
def infoRPath : SettingInfo := ⟨s%"rpath", none, some (s%"PKGR_RPATH"), .text (s%"R")⟩

/-- `v` is the value in force of a setting. -/
def InForce (s : Sources) (i : SettingInfo) (v : Setting) : Prop :=
  ChosenValue (i.option.bind s.given) (i.var.bind s.environ) (s.file i.key) i.dflt v

/-- A value read as a truth value. -/
inductive ReadsBool : Setting → Bool → Prop where
  | bool (b : Bool) : ReadsBool (.bool b) b
  | zero : ReadsBool (.int 0) false
  | nonzero {n : Int} : n ≠ 0 → ReadsBool (.int n) true
  | empty : ReadsBool (.text []) false
  | yes {t : Str} : t ∈ [s%"1", s%"t", s%"T", s%"TRUE", s%"true", s%"True"] → ReadsBool (.text t) true
  | no {t : Str} : t ∈ [s%"0", s%"f", s%"F", s%"FALSE", s%"false", s%"False"] → ReadsBool (.text t) false

/-- A value read as a number. -/
inductive ReadsInt (parseInt : Str → Option Int) : Setting → Int → Prop where
  | int (n : Int) : ReadsInt parseInt (.int n) n
  | yes : ReadsInt parseInt (.bool true) 1
  | no : ReadsInt parseInt (.bool false) 0
  | empty : ReadsInt parseInt (.text []) 0
  | text {t : Str} {n : Int} : t ≠ [] → parseInt t = some n → ReadsInt parseInt (.text t) n

/-- The text is the number, in decimal digits, without leading zeros, and with a minus sign if it is negative. -/
def SpellsInt (n : Int) (t : Str) : Prop :=
  ∃ ds, IsNumeral ds ∧ numeral ds = n.natAbs ∧ (ds.head? = some '0' → ds = s%"0") ∧ t = (if n < 0 then s%"-" else []) ++ ds

/-- A value read as a text. -/
inductive ReadsText : Setting → Str → Prop where
  | text (t : Str) : ReadsText (.text t) t
  | int {n : Int} {t : Str} : SpellsInt n t → ReadsText (.int n) t
  | yes : ReadsText (.bool true) (s%"1")
  | no : ReadsText (.bool false) (s%"0")

/-- A value read as a truth value where nothing is refused: what is no truth value counts as false. -/
def TakenAs (v : Setting) (b : Bool) : Prop := b = true ↔ ReadsBool v true

/-- A value read as the level of the log. -/
inductive ReadsLevel : Setting → Str → Prop where
  | text (t : Str) : ReadsLevel (.text t) t
  | int {n : Int} {t : Str} : SpellsInt n t → ReadsLevel (.int n) t
  | yes : ReadsLevel (.bool true) (s%"true")
  | no : ReadsLevel (.bool false) (s%"false")

/-- `--update` was given (and not as `--update=false`). -/
def UpdateAsked (s : Sources) : Prop := ∃ v, s.given (s%"update") = some v ∧ ReadsBool v true

end Pkgr.Spec
