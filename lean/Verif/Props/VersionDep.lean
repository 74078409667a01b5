/- C01-C03: version comparison. -/
import Verif.Proof.Version

namespace Pkgr
open Spec

/-- C01: comparison returns -1, 0 or 1. -/
theorem C01_compare_range (a b : Version) :
    compareVersions a b = -1 ∨ compareVersions a b = 0 ∨ compareVersions a b = 1 :=
  compareVersions_range a b

/-- C01: swapping the arguments negates the result (so exactly one of `<`, `=`, `>` holds and
`a` older than `b` iff `b` newer than `a`). -/
theorem C01_compare_antisymm (a b : Version) : compareVersions a b = - compareVersions b a := by
  have := compareVersions_neg_iff a b; have := compareVersions_neg_iff b a
  have := compareVersions_pos_iff a b; have := compareVersions_pos_iff b a
  have := compareVersions_range a b; have := compareVersions_range b a
  omega

/-- C01: a version equals itself, and "equal" means equal in every numeric component. -/
theorem C01_compare_eq_iff (a b : Version) :
    compareVersions a b = 0 ↔
      a.major = b.major ∧ a.minor = b.minor ∧ a.patch = b.patch ∧ a.dev = b.dev ∧ a.other = b.other :=
  compareVersions_zero_iff a b

/-- C01: "not newer than" is transitive. -/
theorem C01_compare_trans (a b c : Version) (h1 : compareVersions a b ≤ 0) (h2 : compareVersions b c ≤ 0) :
    compareVersions a c ≤ 0 := by
  exact cascade_trans (cascade_trans (cascade_trans (cascade_trans (cascade_trans (fun _ _ => Int.le_refl 0))))) h1 h2

/-- C01: "older than" is transitive, also when one of the two steps is an equality, so an upgrade chain
never cycles. -/
theorem C01_compare_trans_strict (a b c : Version) (h1 : compareVersions a b < 0) (h2 : compareVersions b c ≤ 0) :
    compareVersions a c < 0 := by
  exact cascade_trans_strict (cascade_trans_strict (cascade_trans_strict (cascade_trans_strict
    (cascade_trans_strict (fun h _ => h))))) h1 h2

example : compareVersions { major := 1, minor := 9 } { major := 1, minor := 10 } < 0 ∧
    compareVersions { major := 1, minor := 10 } { major := 1, minor := 10 } ≤ 0 := by decide

/-- C01 (the other comparison in the same file): `isLowerVersion`, the `Less` of the sort interface, is
not an order at all — 1.2 and 2.1 are each "lower" than the other. (It has no caller in pkgr.) -/
theorem C01_isLowerVersion_not_order :
    ∃ a b : Version, isLowerVersion a b = true ∧ isLowerVersion b a = true ∧ compareVersions a b ≠ 0 :=
  ⟨{ major := 1, minor := 2 }, { major := 2, minor := 1 }, by decide, by decide, by decide⟩

/-- C01 (the same): what it says is that one of the four numbers is smaller, wherever it stands and whatever is before
it; the patch number is never looked at. -/
theorem C01_isLowerVersion_says (a b : Version) : isLowerVersion a b = true ↔
    a.major < b.major ∨ a.minor < b.minor ∨ a.dev < b.dev ∨ a.other < b.other := by
  unfold isLowerVersion
  grind

example : isLowerVersion { major := 1, minor := 2, patch := 9 } { major := 1, minor := 2, patch := 10 } = false ∧
    isLowerVersion { major := 9, minor := 2 } { major := 1, minor := 3 } = true := by decide

/-- C02: texts of two to four numbers compare numerically, whatever the separators. -/
theorem C02_text_compare {v w : Str} {ns ms : List Nat} (hv : Denotes v ns) (hw : Denotes w ms)
    (hn : 2 ≤ ns.length ∧ ns.length ≤ 4) (hm : 2 ≤ ms.length ∧ ms.length ≤ 4)
    (hnb : ∀ n ∈ ns, n < 2 ^ 63) (hmb : ∀ n ∈ ms, n < 2 ^ 63) :
    compareVersionStrings v w = some (cmpPadded ns ms) := by
  unfold compareVersionStrings
  rw [parseVersion_denotes hv hnb, parseVersion_denotes hw hmb]
  match ns, ms, hn, hm with
  | [a, b], [a', b'], _, _ => simp [fieldsOf, compareVersions, cmpPadded, cmpZeros]
  | [a, b], [a', b', c'], _, _ => simp [fieldsOf, compareVersions, cmpPadded, cmpZeros]; grind
  | [a, b], [a', b', c', d'], _, _ => simp [fieldsOf, compareVersions, cmpPadded, cmpZeros]; grind
  | [a, b, c], [a', b'], _, _ => simp [fieldsOf, compareVersions, cmpPadded, cmpZeros]; grind
  | [a, b, c], [a', b', c'], _, _ => simp [fieldsOf, compareVersions, cmpPadded, cmpZeros]
  | [a, b, c], [a', b', c', d'], _, _ => simp [fieldsOf, compareVersions, cmpPadded, cmpZeros]; grind
  | [a, b, c, d], [a', b'], _, _ => simp [fieldsOf, compareVersions, cmpPadded, cmpZeros]; grind
  | [a, b, c, d], [a', b', c'], _, _ => simp [fieldsOf, compareVersions, cmpPadded, cmpZeros]; grind
  | [a, b, c, d], [a', b', c', d'], _, _ => simp [fieldsOf, compareVersions, cmpPadded, cmpZeros]

theorem denotes_example : Denotes (s%"1.10-3") [1, 10, 3] :=
  .more (d := s%"1") ⟨by decide, by decide⟩ (.inl rfl)
    (.more (d := s%"10") ⟨by decide, by decide⟩ (.inr rfl) (.one (d := s%"3") ⟨by decide, by decide⟩))

/-- C02 without a bound: numbers that do not fit into 63 bits all count as the largest one that does; up to that, texts of
two to four numbers compare numerically. -/
theorem C02_any_size {v w : Str} {ns ms : List Nat} (hv : Denotes v ns) (hw : Denotes w ms)
    (hn : 2 ≤ ns.length ∧ ns.length ≤ 4) (hm : 2 ≤ ms.length ∧ ms.length ≤ 4) :
    compareVersionStrings v w = some (cmpPadded (ns.map fun n => Nat.min n (2 ^ 63 - 1)) (ms.map fun n => Nat.min n (2 ^ 63 - 1))) := by
  unfold compareVersionStrings
  rw [parseVersion_short hv hn.2, parseVersion_short hw hm.2]
  have h1 : (ns.map fun n => Nat.min n (2 ^ 63 - 1)).length = ns.length := List.length_map _
  have h2 : (ms.map fun n => Nat.min n (2 ^ 63 - 1)).length = ms.length := List.length_map _
  rw [← h1] at hn; rw [← h2] at hm
  generalize ns.map (fun n => Nat.min n (2 ^ 63 - 1)) = ns at *
  generalize ms.map (fun n => Nat.min n (2 ^ 63 - 1)) = ms at *
  match ns, ms, hn, hm with
  | [a, b], [a', b'], _, _ => simp [fieldsOf, compareVersions, cmpPadded, cmpZeros]
  | [a, b], [a', b', c'], _, _ => simp [fieldsOf, compareVersions, cmpPadded, cmpZeros]; grind
  | [a, b], [a', b', c', d'], _, _ => simp [fieldsOf, compareVersions, cmpPadded, cmpZeros]; grind
  | [a, b, c], [a', b'], _, _ => simp [fieldsOf, compareVersions, cmpPadded, cmpZeros]; grind
  | [a, b, c], [a', b', c'], _, _ => simp [fieldsOf, compareVersions, cmpPadded, cmpZeros]
  | [a, b, c], [a', b', c', d'], _, _ => simp [fieldsOf, compareVersions, cmpPadded, cmpZeros]; grind
  | [a, b, c, d], [a', b'], _, _ => simp [fieldsOf, compareVersions, cmpPadded, cmpZeros]; grind
  | [a, b, c, d], [a', b', c'], _, _ => simp [fieldsOf, compareVersions, cmpPadded, cmpZeros]; grind
  | [a, b, c, d], [a', b', c', d'], _, _ => simp [fieldsOf, compareVersions, cmpPadded, cmpZeros]

example : compareVersionStrings (s%"1.99999999999999999999") (s%"1.9223372036854775807") = some 0 := by decide +kernel

/-- Non-vacuity: "1.10-3" denotes [1,10,3] and is newer than "1.9". -/
example : compareVersionStrings (s%"1.10-3") (s%"1.9") = some 1 ∧ cmpPadded [1, 10, 3] [1, 9] = 1 := by decide

/-- C02: a version text with fewer than two numbers makes the comparison panic. -/
theorem C02_single_component_panics {v w : Str} {n : Nat} (hv : Denotes v [n]) (hb : n < 2 ^ 63) :
    compareVersionStrings v w = none := by
  unfold compareVersionStrings
  rw [parseVersion_denotes hv (by simpa using hb)]
  rfl

/-- C03 (what the code does with five or more components): only the first three numbers count. -/
theorem C03_long_versions_partial {v w : Str} {ns ms : List Nat} (hv : Denotes v ns) (hw : Denotes w ms)
    (hn : 5 ≤ ns.length) (hm : 5 ≤ ms.length)
    (hnb : ∀ n ∈ ns, n < 2 ^ 63) (hmb : ∀ n ∈ ms, n < 2 ^ 63) :
    compareVersionStrings v w = some (cmpPadded (ns.take 3) (ms.take 3)) := by
  unfold compareVersionStrings
  rw [parseVersion_denotes hv hnb, parseVersion_denotes hw hmb]
  match ns, ms, hn, hm with
  | a :: b :: c :: d :: e :: f, a' :: b' :: c' :: d' :: e' :: f', _, _ =>
    simp [fieldsOf, compareVersions, cmpPadded, cmpZeros]

/-- C03 is false: 1.2.3.4.5 is reported older than 1.2.3.1, and equal to 1.2.3.4.6. -/
theorem C03_violated :
    Denotes (s%"1.2.3.4.5") [1, 2, 3, 4, 5] ∧ Denotes (s%"1.2.3.1") [1, 2, 3, 1] ∧
    cmpPadded [1, 2, 3, 4, 5] [1, 2, 3, 1] = 1 ∧
    compareVersionStrings (s%"1.2.3.4.5") (s%"1.2.3.1") = some (-1) ∧
    compareVersionStrings (s%"1.2.3.4.5") (s%"1.2.3.4.6") = some 0 := by
  have n1 : IsNumeral (s%"1") := ⟨by decide, by decide⟩
  have n2 : IsNumeral (s%"2") := ⟨by decide, by decide⟩
  have n3 : IsNumeral (s%"3") := ⟨by decide, by decide⟩
  have n4 : IsNumeral (s%"4") := ⟨by decide, by decide⟩
  have n5 : IsNumeral (s%"5") := ⟨by decide, by decide⟩
  exact ⟨.more n1 (.inl rfl) (.more n2 (.inl rfl) (.more n3 (.inl rfl) (.more n4 (.inl rfl) (.one n5)))),
    .more n1 (.inl rfl) (.more n2 (.inl rfl) (.more n3 (.inl rfl) (.one n1))), by decide, by decide, by decide⟩

end Pkgr
