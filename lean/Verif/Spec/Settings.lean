/- Independent vocabulary for C100-C103. -/
import Verif.Model.Settings
import Verif.Spec.RSettings

namespace Pkgr.Spec
open Pkgr

/-- A letter, a digit or an underscore. -/
def WordChar (c : Char) : Prop :=
  c = '_' ∨ ('0' ≤ c ∧ c ≤ '9') ∨ ('a' ≤ c ∧ c ≤ 'z') ∨ ('A' ≤ c ∧ c ≤ 'Z')

/-- One of the characters that are a variable name by themselves. -/
def SpecialVar (c : Char) : Prop :=
  c = '*' ∨ c = '#' ∨ c = '$' ∨ c = '@' ∨ c = '!' ∨ c = '?' ∨ c = '-' ∨ ('0' ≤ c ∧ c ≤ '9')

/-- The text `s`, variables having the values `env`, expands to `r`. -/
inductive Expands (env : Str → Str) : Str → Str → Prop
  | nil : Expands env [] []
  /-- an ordinary character -/
  | plain {c : Char} {s r : Str} : c ≠ '$' → Expands env s r → Expands env (c :: s) (c :: r)
  /-- a dollar sign at the end, or not followed by something that could be a name -/
  | dollar {s r : Str} :
      (∀ c, s.head? = some c → c ≠ '{' ∧ ¬ WordChar c ∧ ¬ SpecialVar c) → Expands env s r → Expands env ('$' :: s) ('$' :: r)
  /-- `$NAME`, the name being as long as possible -/
  | word {n s r : Str} : n ≠ [] → (∀ c ∈ n, WordChar c) → (∀ c, n.head? = some c → ¬ SpecialVar c) →
      (∀ c, s.head? = some c → ¬ WordChar c) → Expands env s r → Expands env ('$' :: (n ++ s)) (env n ++ r)
  /-- `$1`, `$$` and the like -/
  | special {c : Char} {s r : Str} : SpecialVar c → Expands env s r → Expands env ('$' :: c :: s) (env [c] ++ r)
  /-- `${NAME}`, the name being anything up to the closing brace -/
  | braces {n s r : Str} : n ≠ [] → '}' ∉ n → Expands env s r → Expands env ('$' :: '{' :: (n ++ '}' :: s)) (env n ++ r)
  /-- `${}` disappears -/
  | empty {s r : Str} : Expands env s r → Expands env ('$' :: '{' :: '}' :: s) r
  /-- so does `${` that is never closed -/
  | unclosed {s r : Str} : '}' ∉ s → Expands env s r → Expands env ('$' :: '{' :: s) r

/-- Every `${` of the text is closed in it. -/
def Closed (s : Str) : Prop := ∀ x y, s = x ++ '$' :: '{' :: y → '}' ∈ y

/-- The library that the sources name, the command line first, then PKGR_LIBRARY, then the file; an empty text in the
variable or the file names nothing. -/
def NamedLibrary (s : LibrarySources) (l : Str) : Prop :=
  s.flag = some l ∨
  (s.flag = none ∧ s.env = some l ∧ l ≠ []) ∨
  (s.flag = none ∧ (s.env = none ∨ s.env = some []) ∧ s.file = some l)

/-- The text is one plain path component. -/
def PlainPath (p : Str) : Prop := p ≠ [] ∧ p ≠ s%"." ∧ p ≠ s%".." ∧ '/' ∉ p

end Pkgr.Spec
