/- Helper lemmas for version parsing. -/
import Verif.Model.Version
import Verif.Spec.Version
import Verif.Proof.Base

namespace Pkgr
open Spec

theorem digit?_of_range {c : Char} (h : '0'.toNat ≤ c.toNat ∧ c.toNat ≤ '9'.toNat) :
    digit? c = some (c.toNat - '0'.toNat) := by
  unfold digit?
  have h0 : '0'.toNat = 48 := rfl
  have h9 : '9'.toNat = 57 := rfl
  rw [h0, h9] at h
  rw [if_pos h, h0]

theorem numeral_le_foldl (s : Str) (n : Nat) :
    n ≤ s.foldl (fun n c => n * 10 + (c.toNat - '0'.toNat)) n := by
  induction s generalizing n with
  | nil => simp
  | cons c s ih => simp only [List.foldl_cons]; exact Nat.le_trans (by omega) (ih _)

theorem parseUintLoop_digits (s : Str) (n : Nat)
    (hd : ∀ c ∈ s, '0'.toNat ≤ c.toNat ∧ c.toNat ≤ '9'.toNat)
    (hb : s.foldl (fun n c => n * 10 + (c.toNat - '0'.toNat)) n < 2 ^ 64) (t : Str) :
    parseUintLoop n (s ++ t) = parseUintLoop (s.foldl (fun n c => n * 10 + (c.toNat - '0'.toNat)) n) t := by
  induction s generalizing n with
  | nil => rfl
  | cons c s ih =>
    simp only [List.cons_append, parseUintLoop, digit?_of_range (hd c (by simp))]
    simp only [List.foldl_cons] at hb ⊢
    have := numeral_le_foldl s (n * 10 + (c.toNat - '0'.toNat))
    rw [if_neg (by omega)]
    exact ih _ (fun c hc => hd c (List.mem_cons_of_mem _ hc)) hb

theorem not_sign_of_digit {c : Char} (h : '0'.toNat ≤ c.toNat ∧ c.toNat ≤ '9'.toNat) :
    c ≠ '+' ∧ c ≠ '-' ∧ c ≠ '.' := by
  refine ⟨?_, ?_, ?_⟩ <;> (rintro rfl; exact absurd h (by decide))

theorem atoi_of_head {c : Char} {s : Str} (h1 : c ≠ '+') (h2 : c ≠ '-') :
    atoi (c :: s) = match parseUintLoop 0 (c :: s) with
      | none => 0
      | some n => if n ≥ 2 ^ 63 then 2 ^ 63 - 1 else (n : Int) := by
  unfold atoi
  split
  rename_i neg body heq
  split at heq
  · rename_i h; injection h with h _; exact absurd h h1
  · rename_i h; injection h with h _; exact absurd h h2
  · cases heq; simp only [reduceCtorEq, if_false, Bool.false_eq_true]; rfl

theorem atoi_numeral {d : Str} (h : IsNumeral d) (hb : numeral d < 2 ^ 63) : atoi d = numeral d := by
  obtain ⟨hne, hd⟩ := h
  cases d with
  | nil => exact absurd rfl hne
  | cons c s =>
    have := not_sign_of_digit (hd c (by simp))
    have h := parseUintLoop_digits (c :: s) 0 hd (by unfold numeral at hb; omega) []
    rw [List.append_nil] at h
    rw [atoi_of_head this.1 this.2.1, h]
    change (if numeral (c :: s) ≥ 2 ^ 63 then (2 ^ 63 - 1 : Int) else _) = _
    rw [if_neg (by omega)]
    rfl

theorem parseUintLoop_any (s : Str) (n : Nat) (hn : n < 2 ^ 64)
    (hd : ∀ c ∈ s, '0'.toNat ≤ c.toNat ∧ c.toNat ≤ '9'.toNat) :
    parseUintLoop n s = some (Nat.min (s.foldl (fun n c => n * 10 + (c.toNat - '0'.toNat)) n) (2 ^ 64 - 1)) := by
  induction s generalizing n with
  | nil => simp only [parseUintLoop, List.foldl_nil]; rw [show Nat.min n (2 ^ 64 - 1) = n from Nat.min_eq_left (by omega)]
  | cons c s ih =>
    simp only [parseUintLoop, digit?_of_range (hd c (by simp)), List.foldl_cons]
    have := numeral_le_foldl s (n * 10 + (c.toNat - '0'.toNat))
    split
    · rw [show Nat.min _ (2 ^ 64 - 1) = 2 ^ 64 - 1 from Nat.min_eq_right (by omega)]
    · exact ih _ (by omega) (fun c hc => hd c (List.mem_cons_of_mem _ hc))

theorem atoi_numeral_any {d : Str} (h : IsNumeral d) : atoi d = (Nat.min (numeral d) (2 ^ 63 - 1) : Nat) := by
  obtain ⟨hne, hd⟩ := h
  cases d with
  | nil => exact absurd rfl hne
  | cons c s =>
    have := not_sign_of_digit (hd c (by simp))
    rw [atoi_of_head this.1 this.2.1, parseUintLoop_any (c :: s) 0 (by omega) hd]
    change (if Nat.min (numeral (c :: s)) (2 ^ 64 - 1) ≥ 2 ^ 63 then (2 ^ 63 - 1 : Int) else (Nat.min (numeral (c :: s)) (2 ^ 64 - 1) : Nat)) = _
    generalize numeral (c :: s) = n
    rcases Nat.lt_or_ge n (2 ^ 63) with hlt | hge
    · rw [show Nat.min n (2 ^ 64 - 1) = n from Nat.min_eq_left (by omega), show Nat.min n (2 ^ 63 - 1) = n from Nat.min_eq_left (by omega),
        if_neg (by omega)]
    · have h1 : Nat.min n (2 ^ 64 - 1) ≥ 2 ^ 63 := Nat.le_min.mpr ⟨hge, by omega⟩
      rw [if_pos h1, show Nat.min n (2 ^ 63 - 1) = 2 ^ 63 - 1 from Nat.min_eq_right (by omega)]
      rfl

/-- A numeral followed by a separator is a syntax error for `Atoi`, i.e. 0. -/
theorem atoi_numeral_sep {d : Str} (h : IsNumeral d) (hb : numeral d < 2 ^ 63) (sep : Char)
    (hs : sep = '.' ∨ sep = '-') (t : Str) : atoi (d ++ sep :: t) = 0 := by
  obtain ⟨hne, hd⟩ := h
  cases d with
  | nil => exact absurd rfl hne
  | cons c s =>
    have := not_sign_of_digit (hd c (by simp))
    have h := parseUintLoop_digits (c :: s) 0 hd (by unfold numeral at hb; omega) (sep :: t)
    rw [List.cons_append] at h ⊢
    rw [atoi_of_head this.1 this.2.1, h]
    have : digit? sep = none := by rcases hs with rfl | rfl <;> rfl
    simp [parseUintLoop, this]

theorem splitNBy_of_none {p : Char → Bool} {d : Str} (h : ∀ c ∈ d, p c = false) (n : Nat) :
    splitNBy p (n + 1) d = [d] := by
  cases n with
  | zero => rw [splitNBy]
  | succ n =>
    induction d with
    | nil => rw [splitNBy]
    | cons c d ih =>
      rw [splitNBy, if_neg (by simp [h c (by simp)]), ih (fun c hc => h c (List.mem_cons_of_mem _ hc))]

theorem splitNBy_append {p : Char → Bool} {d : Str} (h : ∀ c ∈ d, p c = false) (n : Nat) {sep : Char}
    (hs : p sep = true) (rest : Str) :
    splitNBy p (n + 2) (d ++ sep :: rest) = d :: splitNBy p (n + 1) rest := by
  induction d with
  | nil => rw [List.nil_append, splitNBy, if_pos hs]
  | cons c d ih =>
    rw [List.cons_append, splitNBy, if_neg (by simp [h c (by simp)]),
      ih (fun c hc => h c (List.mem_cons_of_mem _ hc))]

theorem isVerSep_numeral {d : Str} (h : IsNumeral d) : ∀ c ∈ d, isVerSep c = false := by
  intro c hc
  have := not_sign_of_digit (h.2 c hc)
  simp [isVerSep, this.2.1, this.2.2]

theorem isVerSep_sep {sep : Char} (h : sep = '.' ∨ sep = '-') : isVerSep sep = true := by
  rcases h with rfl | rfl <;> rfl

/-- What `ParseVersion` extracts from a text of `k` numbers. -/
def fieldsOf (ns : List Nat) : Option (Int × Int × Int × Int × Int) :=
  match ns with
  | [a, b] => some (a, b, 0, 0, 0)
  | [a, b, c] => some (a, b, c, 0, 0)
  | [a, b, c, d] => some (a, b, c, d, 0)
  | a :: b :: c :: _ :: _ :: _ => some (a, b, c, 0, 0)
  | _ => none

theorem denotes_ne_nil {v : Str} {ns : List Nat} (h : Denotes v ns) : ns ≠ [] := by
  cases h <;> simp

theorem parseVersion_denotes {v : Str} {ns : List Nat} (h : Denotes v ns) (hb : ∀ n ∈ ns, n < 2 ^ 63) :
    parseVersion v = (fieldsOf ns).map (fun f => ⟨f.1, f.2.1, f.2.2.1, f.2.2.2.1, f.2.2.2.2, v⟩) := by
  unfold parseVersion
  cases h with
  | one h1 =>
    rw [splitNBy_of_none (isVerSep_numeral h1)]; simp [fieldsOf]
  | more h1 s1 r =>
    rw [splitNBy_append (isVerSep_numeral h1) _ (isVerSep_sep s1)]
    have e1 := atoi_numeral h1 (hb _ (by simp))
    cases r with
    | one h2 =>
      have e2 := atoi_numeral h2 (hb _ (by simp))
      rw [splitNBy_of_none (isVerSep_numeral h2)]; simp [fieldsOf, e1, e2]
    | more h2 s2 r =>
      have e2 := atoi_numeral h2 (hb _ (by simp))
      rw [splitNBy_append (isVerSep_numeral h2) _ (isVerSep_sep s2)]
      cases r with
      | one h3 =>
        have e3 := atoi_numeral h3 (hb _ (by simp))
        rw [splitNBy_of_none (isVerSep_numeral h3)]; simp [fieldsOf, e1, e2, e3]
      | more h3 s3 r =>
        have e3 := atoi_numeral h3 (hb _ (by simp))
        rw [splitNBy_append (isVerSep_numeral h3) _ (isVerSep_sep s3)]
        cases r with
        | one h4 =>
          have e4 := atoi_numeral h4 (hb _ (by simp))
          simp [splitNBy, fieldsOf, e1, e2, e3, e4]
        | @more d4 sep4 rest4 ns4 h4 s4 r =>
          have e4 := atoi_numeral_sep h4 (hb _ (by simp)) sep4 s4 rest4
          have := denotes_ne_nil r
          cases ns4 with
          | nil => exact absurd rfl this
          | cons a as => simp [splitNBy, fieldsOf, e1, e2, e3, e4]

theorem parseVersion_short {v : Str} {ns : List Nat} (h : Denotes v ns) (hl : ns.length ≤ 4) :
    parseVersion v = (fieldsOf (ns.map fun n => Nat.min n (2 ^ 63 - 1))).map (fun f => ⟨f.1, f.2.1, f.2.2.1, f.2.2.2.1, f.2.2.2.2, v⟩) := by
  unfold parseVersion
  cases h with
  | one h1 =>
    rw [splitNBy_of_none (isVerSep_numeral h1)]; simp only [fieldsOf, List.map_cons, List.map_nil]; rfl
  | more h1 s1 r =>
    rw [splitNBy_append (isVerSep_numeral h1) _ (isVerSep_sep s1)]
    have e1 := atoi_numeral_any h1
    cases r with
    | one h2 =>
      have e2 := atoi_numeral_any h2
      rw [splitNBy_of_none (isVerSep_numeral h2)]
      simp only [fieldsOf, List.map_cons, List.map_nil, List.getElem?_cons_zero, List.getElem?_cons_succ, List.getElem?_nil, e1, e2]
      rfl
    | more h2 s2 r =>
      have e2 := atoi_numeral_any h2
      rw [splitNBy_append (isVerSep_numeral h2) _ (isVerSep_sep s2)]
      cases r with
      | one h3 =>
        have e3 := atoi_numeral_any h3
        rw [splitNBy_of_none (isVerSep_numeral h3)]
        simp only [fieldsOf, List.map_cons, List.map_nil, List.getElem?_cons_zero, List.getElem?_cons_succ, List.getElem?_nil, e1, e2, e3]
        rfl
      | more h3 s3 r =>
        have e3 := atoi_numeral_any h3
        rw [splitNBy_append (isVerSep_numeral h3) _ (isVerSep_sep s3)]
        cases r with
        | one h4 =>
          have e4 := atoi_numeral_any h4
          rw [splitNBy_of_none (isVerSep_numeral h4)]
          simp only [fieldsOf, List.map_cons, List.map_nil, List.getElem?_cons_zero, List.getElem?_cons_succ, List.getElem?_nil, e1, e2, e3, e4]
          rfl
        | @more d4 sep4 rest4 ns4 h4 s4 r =>
          have := denotes_ne_nil r
          cases ns4 with
          | nil => exact absurd rfl this
          | cons a as => simp only [List.length_cons] at hl; omega

theorem compareVersions_neg_iff (a b : Version) : compareVersions a b = -1 ↔
    a.major < b.major ∨ (a.major = b.major ∧ (a.minor < b.minor ∨ (a.minor = b.minor ∧
      (a.patch < b.patch ∨ (a.patch = b.patch ∧ (a.dev < b.dev ∨ (a.dev = b.dev ∧ a.other < b.other))))))) := by
  unfold compareVersions; repeat' split
  all_goals omega

theorem compareVersions_pos_iff (a b : Version) : compareVersions a b = 1 ↔
    b.major < a.major ∨ (b.major = a.major ∧ (b.minor < a.minor ∨ (b.minor = a.minor ∧
      (b.patch < a.patch ∨ (b.patch = a.patch ∧ (b.dev < a.dev ∨ (b.dev = a.dev ∧ b.other < a.other))))))) := by
  unfold compareVersions; repeat' split
  all_goals omega

theorem compareVersions_zero_iff (a b : Version) : compareVersions a b = 0 ↔
    a.major = b.major ∧ a.minor = b.minor ∧ a.patch = b.patch ∧ a.dev = b.dev ∧ a.other = b.other := by
  unfold compareVersions; repeat' split
  all_goals omega

theorem compareVersions_range (a b : Version) :
    compareVersions a b = -1 ∨ compareVersions a b = 0 ∨ compareVersions a b = 1 := by
  unfold compareVersions; repeat' split
  all_goals omega

/-- One component of the comparison cascade. -/
theorem cascade_trans {x y z r s t : Int} (h : r ≤ 0 → s ≤ 0 → t ≤ 0)
    (h1 : (if x < y then -1 else if x > y then 1 else r) ≤ 0)
    (h2 : (if y < z then -1 else if y > z then 1 else s) ≤ 0) :
    (if x < z then -1 else if x > z then 1 else t) ≤ 0 := by grind

theorem cascade_trans_strict {x y z r s t : Int} (h : r < 0 → s ≤ 0 → t < 0)
    (h1 : (if x < y then -1 else if x > y then 1 else r) < 0)
    (h2 : (if y < z then -1 else if y > z then 1 else s) ≤ 0) :
    (if x < z then -1 else if x > z then 1 else t) < 0 := by grind

end Pkgr
