/- Vocabulary for texts, independent of the model's string functions. -/
import Verif.Spec.Env

namespace Pkgr.Spec

/-- A white-space character (Unicode White_Space). -/
def White (c : Char) : Prop :=
  (9 ≤ c.toNat ∧ c.toNat ≤ 13) ∨ c.toNat = 0x20 ∨ c.toNat = 0x85 ∨ c.toNat = 0xA0 ∨ c.toNat = 0x1680 ∨
  (0x2000 ≤ c.toNat ∧ c.toNat ≤ 0x200a) ∨ c.toNat = 0x2028 ∨ c.toNat = 0x2029 ∨ c.toNat = 0x202f ∨
  c.toNat = 0x205f ∨ c.toNat = 0x3000

instance (c : Char) : Decidable (White c) := by unfold White; infer_instance

/-- `t` is `s` without the white space at its ends. -/
def Stripped (s t : Str) : Prop :=
  ∃ a b, s = a ++ t ++ b ∧ (∀ c ∈ a, White c) ∧ (∀ c ∈ b, White c) ∧
    (∀ c, t.head? = some c → ¬ White c) ∧ ∀ c, t.getLast? = some c → ¬ White c

/-- `l` are the pieces of the text between the separators. -/
def Components (sep : Char) (s : Str) (l : List Str) : Prop :=
  l ≠ [] ∧ (∀ x ∈ l, sep ∉ x) ∧ separated sep l = s

/-- A text that can stand on one line: no white space at its ends, no line break, no carriage return. -/
def OneLineText (v : Str) : Prop := Stripped v v ∧ '\n' ∉ v ∧ '\r' ∉ v

end Pkgr.Spec
