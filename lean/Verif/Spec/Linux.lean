/- Independent vocabulary for C104 and C105. -/
import Verif.Model.Linux

namespace Pkgr.Spec
open Pkgr

/-- A setting in /etc/os-release, written with or without quotes. -/
structure OsEntry where
  key : Str
  value : Str
  quoted : Bool
deriving Repr, DecidableEq

/-- The line of the setting. -/
def OsEntry.line (e : OsEntry) : Str := e.key ++ '=' :: (if e.quoted then '"' :: e.value ++ ['"'] else e.value)

/-- A line of the file: a setting, or a remark. -/
inductive OsLine where
  | setting (e : OsEntry)
  | remark (t : Str)
deriving Repr, DecidableEq

/-- What is written in the line. -/
def OsLine.text : OsLine → Str
  | .setting e => e.line
  | .remark t => t

/-- The text of the file. -/
def osText (ls : List OsLine) : Str := ls.flatMap fun l => l.text ++ ['\n']

/-- The settings of the file. -/
def settings (ls : List OsLine) : List OsEntry :=
  ls.filterMap fun l => match l with
    | .setting e => some e
    | .remark _ => none

/-- A remark in the sense of os-release(5): an empty line or one that begins with `#`. -/
def IsRemark (t : Str) : Prop := '\n' ∉ t ∧ (t = [] ∨ ∃ r, t = '#' :: r)

/-- A name of letters, digits, `_` and `-`, and a value of ordinary characters: printable, no double quote and no
backslash. -/
def OsEntry.Usual (e : OsEntry) : Prop :=
  e.key ≠ [] ∧ (∀ c ∈ e.key, c = '_' ∨ c = '-' ∨ ('0' ≤ c ∧ c ≤ '9') ∨ ('a' ≤ c ∧ c ≤ 'z') ∨ ('A' ≤ c ∧ c ≤ 'Z')) ∧
  ∀ c ∈ e.value, c ≠ '"' ∧ c ≠ '\\' ∧ ' ' ≤ c ∧ c.toNat ≠ 127

/-- The value that the file gives to the name; empty if it gives none. -/
def osValue (es : List OsEntry) (key : Str) : Str :=
  match es.find? fun e => decide (e.key = key) with
  | some e => e.value
  | none => []

end Pkgr.Spec
