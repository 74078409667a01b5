/- Specification of version texts, independent of the model. -/
import Verif.Model.Base

namespace Pkgr.Spec

/-- Value of a decimal numeral. -/
def numeral (s : Str) : Nat := s.foldl (fun n c => n * 10 + (c.toNat - '0'.toNat)) 0

/-- A non-empty string of decimal digits. -/
def IsNumeral (s : Str) : Prop := s ≠ [] ∧ ∀ c ∈ s, '0'.toNat ≤ c.toNat ∧ c.toNat ≤ '9'.toNat

/-- `Denotes text ns`: the text is the decimal numbers `ns` separated by `.` or `-`. -/
inductive Denotes : Str → List Nat → Prop
  | one {d} : IsNumeral d → Denotes d [numeral d]
  | more {d sep rest ns} : IsNumeral d → sep = '.' ∨ sep = '-' → Denotes rest ns →
      Denotes (d ++ sep :: rest) (numeral d :: ns)

/-- The all-zero sequence compared with `ms`. -/
def cmpZeros : List Nat → Int
  | [] => 0
  | m :: ms => if 0 < m then -1 else cmpZeros ms

/-- Lexicographic comparison of number sequences, missing components counting as 0. -/
def cmpPadded : List Nat → List Nat → Int
  | [], ms => cmpZeros ms
  | n :: ns, ms =>
    if n < ms.headD 0 then -1 else if ms.headD 0 < n then 1 else cmpPadded ns ms.tail

end Pkgr.Spec
