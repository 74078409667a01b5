/- What a JSON text says (RFC 8259), for C145: a reader written independently of the encoder. -/
import Verif.Model.Json
import Verif.Spec.Version

namespace Pkgr.Spec
open Pkgr

/-- White space between the tokens of a JSON text. -/
def skipBlanks (s : Str) : Str := s.dropWhile fun c => c = ' ' ∨ c = '\n' ∨ c = '\r' ∨ c = '\t'

/-- The value of a hexadecimal digit. -/
def hexValue (c : Char) : Option Nat :=
  if 48 ≤ c.toNat ∧ c.toNat ≤ 57 then some (c.toNat - 48)
  else if 97 ≤ c.toNat ∧ c.toNat ≤ 102 then some (c.toNat - 97 + 10)
  else if 65 ≤ c.toNat ∧ c.toNat ≤ 70 then some (c.toNat - 65 + 10)
  else none

/-- The value of four hexadecimal digits. -/
def hexValue4 (a b c d : Char) : Option Nat :=
  match hexValue a, hexValue b, hexValue c, hexValue d with
  | some a, some b, some c, some d => some (a * 4096 + b * 256 + c * 16 + d)
  | _, _, _, _ => none

/-- What a backslash and another character than `u` stand for. -/
def simpleEscape (c : Char) : Option Char :=
  if c = '"' ∨ c = '\\' ∨ c = '/' then some c
  else if c = 'b' then some (Char.ofNat 8)
  else if c = 'f' then some (Char.ofNat 12)
  else if c = 'n' then some '\n'
  else if c = 'r' then some '\r'
  else if c = 't' then some '\t'
  else none

/-- A string after its opening quotation mark: its characters and the rest of the text (surrogate pairs, which
pkgr never prints, are not read). -/
def readString : Str → Option (Str × Str)
  | [] => none
  | c :: r =>
    if c = '"' then some ([], r)
    else if c = '\\' then
      match r with
      | [] => none
      | e :: r =>
        if e = 'u' then
          match r with
          | a :: b :: c :: d :: r =>
            match hexValue4 a b c d with
            | some n => if 0xD800 ≤ n ∧ n ≤ 0xDFFF then none else (readString r).map fun x => (Char.ofNat n :: x.1, x.2)
            | none => none
          | _ => none
        else match simpleEscape e with
          | some ch => (readString r).map fun x => (ch :: x.1, x.2)
          | none => none
    else if c.toNat < 32 then none
    else (readString r).map fun x => (c :: x.1, x.2)

/-- Is the character a decimal digit? -/
def isDec (c : Char) : Bool := 48 ≤ c.toNat ∧ c.toNat ≤ 57

/-- A word or a number at the beginning of a text (numbers: those without sign, fraction and exponent). -/
def readPlain (s : Str) : Option (JVal × Str) :=
  if (s%"null") <+: s then some (.null, s.drop 4)
  else if (s%"true") <+: s then some (.bool true, s.drop 4)
  else if (s%"false") <+: s then some (.bool false, s.drop 5)
  else if s.takeWhile isDec = [] then none
  else some (.num (numeral (s.takeWhile isDec)), s.dropWhile isDec)

mutual
/-- A value at the beginning of a text, and the rest (`none` also if more than the given number of nested calls is needed). -/
def readValue : Nat → Str → Option (JVal × Str)
  | 0, _ => none
  | n + 1, s =>
    match skipBlanks s with
    | [] => none
    | c :: r =>
      if c = '"' then (readString r).map fun x => (.str x.1, x.2)
      else if c = '[' then
        match skipBlanks r with
        | ']' :: r' => some (.arr [], r')
        | _ => (readElems n r).map fun x => (.arr x.1, x.2)
      else if c = '{' then
        match skipBlanks r with
        | '}' :: r' => some (.obj [], r')
        | _ => (readMembers n r).map fun x => (.obj x.1, x.2)
      else readPlain (c :: r)
/-- Elements up to the closing bracket. -/
def readElems : Nat → Str → Option (List JVal × Str)
  | 0, _ => none
  | n + 1, s =>
    match readValue n s with
    | none => none
    | some (v, r) =>
      match skipBlanks r with
      | ',' :: r' => (readElems n r').map fun x => (v :: x.1, x.2)
      | ']' :: r' => some ([v], r')
      | _ => none
/-- Members up to the closing brace. -/
def readMembers : Nat → Str → Option (List (Str × JVal) × Str)
  | 0, _ => none
  | n + 1, s =>
    match skipBlanks s with
    | '"' :: r =>
      match readString r with
      | none => none
      | some (k, r) =>
        match skipBlanks r with
        | ':' :: r =>
          match readValue n r with
          | none => none
          | some (v, r) =>
            match skipBlanks r with
            | ',' :: r' => (readMembers n r').map fun x => ((k, v) :: x.1, x.2)
            | '}' :: r' => some ([(k, v)], r')
            | _ => none
        | _ => none
    | _ => none
end

/-- A whole text: a value and nothing else. -/
def readJson (n : Nat) (s : Str) : Option JVal :=
  match readValue n s with
  | some (v, r) => if skipBlanks r = [] then some v else none
  | none => none

/-- The text is a JSON document that says `v`. -/
def Reads (s : Str) (v : JVal) : Prop := ∃ n, ∀ m, n ≤ m → readJson m s = some v

/-- What a document has under a key. -/
def under (k : Str) : JVal → Option JVal
  | .obj l => (l.find? fun e => e.1 = k).map (·.2)
  | _ => none

/-- What a document has under a key, under another key in what is there, and so on. -/
def underAll : List Str → JVal → Option JVal
  | [], v => some v
  | k :: ks, v => (under k v).bind (underAll ks)

end Pkgr.Spec
