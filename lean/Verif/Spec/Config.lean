/- Independent vocabulary for the configuration file properties C58-C62. -/
import Verif.Model.Base
import Verif.Spec.Text

namespace Pkgr.Spec
open Pkgr

/-- `n` spaces. -/
def spaces (n : Nat) : Str := List.replicate n ' '

/-- The text of a file that consists of these lines, each ended by a newline. -/
def textOf : List Str → Str
  | [] => []
  | l :: ls => l ++ '\n' :: textOf ls

/-- The number of bytes of a text in UTF-8. -/
def bytes (s : Str) : Nat := (s.map Char.utf8Size).sum

/-- An ordinary line of a configuration file: no line break in it, not ended by a carriage return, shorter than 64 KiB. -/
def PlainLine (l : Str) : Prop := '\n' ∉ l ∧ l.getLast? ≠ some '\r' ∧ bytes l < 65536

/-- The line of the key `Packages`. -/
def IsHeader (l : Str) : Prop := (s%"Packages:") <+: l

/-- A line that, after white space, begins with a dash. -/
def Dashed (l : Str) : Prop := ∃ ws rest, (∀ c ∈ ws, White c) ∧ l = ws ++ '-' :: rest

/-- A list entry for package `p`, indented by `n`. -/
def entry (n : Nat) (p : Str) : Str := spaces n ++ s%"- " ++ p

/-- The line begins like a list entry for `p`. -/
def BeginsAs (p l : Str) : Prop := ∃ n rest, l = entry n p ++ rest

/-- The line is a list entry for `p`: only blanks and a comment may follow. -/
def EntryOf (p l : Str) : Prop := ∃ n rest, l = entry n p ++ rest ∧ (rest = [] ∨ rest.head? = some ' ')

end Pkgr.Spec
