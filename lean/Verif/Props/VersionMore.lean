/- C02: what any text counts as, where a version number is expected. -/
import Verif.Props.VersionDep

namespace Pkgr
open Spec

/-- A decimal digit. -/
def Spec.isDigit (c : Char) : Bool := decide ('0'.toNat ≤ c.toNat ∧ c.toNat ≤ '9'.toNat)

/-- What a text counts as: a number with or without a sign as itself, but at least -2^63 and at most 2^63-1; any other text as 0 (but
when the digits it starts with are a number of 2^64 or more, as the largest number of its sign). -/
def Spec.countsAs (s : Str) : Int :=
  let body := if s.head? = some '+' ∨ s.head? = some '-' then s.tail else s
  let sign : Int := if s.head? = some '-' then -1 else 1
  let n := numeral (body.takeWhile isDigit)
  if body = [] ∨ (body.takeWhile isDigit ≠ body ∧ n < 2 ^ 64) then 0 else max (-(2 ^ 63)) (min (sign * n) (2 ^ 63 - 1))

theorem digit?_isDigit (c : Char) : digit? c = if isDigit c then some (c.toNat - '0'.toNat) else none := by
  unfold digit? isDigit
  have h0 : '0'.toNat = 48 := by decide
  have h9 : '9'.toNat = 57 := by decide
  rw [h0, h9]
  by_cases h : 48 ≤ c.toNat ∧ c.toNat ≤ 57
  · rw [if_pos h, if_pos (by simpa using h)]
  · rw [if_neg h, if_neg (by simpa using h)]

theorem foldl_digits_le (s : Str) : ∀ n : Nat, n ≤ s.foldl (fun n c => n * 10 + (c.toNat - '0'.toNat)) n := by
  induction s with
  | nil => intro n; exact Nat.le_refl _
  | cons c s ih => intro n; rw [List.foldl_cons]; exact Nat.le_trans (by omega) (ih _)

theorem parseUintLoop_exact (s : Str) : ∀ n : Nat, n < 2 ^ 64 → parseUintLoop n s =
    if 2 ^ 64 ≤ (s.takeWhile isDigit).foldl (fun n c => n * 10 + (c.toNat - '0'.toNat)) n then some (2 ^ 64 - 1)
    else if s.takeWhile isDigit = s then some ((s.takeWhile isDigit).foldl (fun n c => n * 10 + (c.toNat - '0'.toNat)) n) else none := by
  induction s with
  | nil => intro n hn; rw [parseUintLoop, List.takeWhile_nil, List.foldl_nil, if_neg (by omega), if_pos rfl]
  | cons c s ih =>
    intro n hn
    rw [parseUintLoop, digit?_isDigit]
    by_cases hd : isDigit c = true
    · rw [if_pos hd, List.takeWhile_cons_of_pos hd, List.foldl_cons]
      dsimp only
      by_cases hb : n * 10 + (c.toNat - '0'.toNat) ≥ 2 ^ 64
      · rw [if_pos hb, if_pos]
        exact Nat.le_trans hb (foldl_digits_le _ _)
      · rw [if_neg hb, ih _ (by omega)]
        by_cases h2 : s.takeWhile isDigit = s
        · simp only [h2]
        · simp only [List.cons.injEq, true_and, h2]
    · rw [if_neg hd, List.takeWhile_cons_of_neg hd, List.foldl_nil, if_neg (by omega), if_neg (by simp)]

/-- C02: the number that a piece of a version text counts as, for every text: see `countsAs`. -/
theorem C02_number_texts (s : Str) : atoi s = countsAs s := by
  have key : ∀ (neg : Bool) (body : Str), (if body = [] then (0 : Int) else match parseUintLoop 0 body with
      | none => 0
      | some n => if neg then (if n > 2 ^ 63 then -(2 ^ 63) else -(n : Int)) else (if n ≥ 2 ^ 63 then 2 ^ 63 - 1 else (n : Int))) =
      if body = [] ∨ (body.takeWhile isDigit ≠ body ∧ numeral (body.takeWhile isDigit) < 2 ^ 64) then 0
      else max (-(2 ^ 63)) (min ((if neg then (-1 : Int) else 1) * numeral (body.takeWhile isDigit)) (2 ^ 63 - 1)) := by
    intro neg body
    by_cases hb : body = []
    · rw [if_pos hb, if_pos (Or.inl hb)]
    · rw [if_neg hb, parseUintLoop_exact body 0 (by omega)]
      have hfold : (body.takeWhile isDigit).foldl (fun n c => n * 10 + (c.toNat - '0'.toNat)) 0 = numeral (body.takeWhile isDigit) := rfl
      rw [hfold]
      generalize hm : numeral (body.takeWhile isDigit) = m
      by_cases hbig : 2 ^ 64 ≤ m
      · rw [if_pos hbig, if_neg (by rintro (h | ⟨_, h⟩) <;> first | exact hb h | omega)]
        dsimp only
        cases neg
        · simp only [Bool.false_eq_true, if_false]
          rw [if_pos (by omega)]
          omega
        · simp only [if_true]
          rw [if_pos (by omega)]
          omega
      · rw [if_neg hbig]
        by_cases hall : body.takeWhile isDigit = body
        · rw [if_pos hall, if_neg (by rintro (h | ⟨h, _⟩) <;> first | exact hb h | exact h hall)]
          dsimp only
          cases neg
          · simp only [Bool.false_eq_true, if_false]
            split <;> omega
          · simp only [if_true]
            split <;> omega
        · rw [if_neg hall, if_pos (Or.inr ⟨hall, by omega⟩)]
  unfold atoi countsAs
  cases s with
  | nil => rfl
  | cons c s =>
    by_cases hp : c = '+'
    · subst hp
      have k := key false s
      simp at k ⊢
      exact k
    · by_cases hm : c = '-'
      · subst hm
        have k := key true s
        simp at k ⊢
        exact k
      · have h1 : ¬ ((c :: s).head? = some '+' ∨ (c :: s).head? = some '-') := by simp [hp, hm]
        have h2 : ¬ (c :: s).head? = some '-' := by simp [hm]
        split
        rename_i neg body h3
        split at h3
        · rename_i h; cases h; exact absurd rfl hp
        · rename_i h; cases h; exact absurd rfl hm
        cases h3
        simp only [if_neg h1, if_neg h2]
        have k := key false (c :: s)
        simp at k ⊢
        exact k

example : countsAs (s%"12") = 12 ∧ countsAs (s%"+7") = 7 ∧ countsAs (s%"-7") = -7 ∧ countsAs (s%"1rc") = 0 ∧ countsAs [] = 0 ∧
    countsAs (s%"99999999999999999999") = 2 ^ 63 - 1 ∧ countsAs (s%"18446744073709551616x") = 2 ^ 63 - 1 := by decide +kernel

/-- C02: the four pieces of a version text - between its first three separators, the fourth piece being all that follows - count in
this way; without two pieces the program panics. -/
theorem C02_any_text (v : Str) (a b c d : Str) (ha : '.' ∉ a ∧ '-' ∉ a) (hb : '.' ∉ b ∧ '-' ∉ b) (hc : '.' ∉ c ∧ '-' ∉ c)
    (s1 s2 s3 : Char) (h1 : s1 = '.' ∨ s1 = '-') (h2 : s2 = '.' ∨ s2 = '-') (h3 : s3 = '.' ∨ s3 = '-') (hv : v = a ++ s1 :: (b ++ s2 :: (c ++ s3 :: d))) :
    ∃ x, parseVersion v = some x ∧ x.major = countsAs a ∧ x.minor = countsAs b ∧ x.patch = countsAs c ∧ x.dev = countsAs d := by
  subst hv
  have hn : ∀ {l : Str}, '.' ∉ l ∧ '-' ∉ l → ∀ x ∈ l, isVerSep x = false := by
    intro l hl x hx
    unfold isVerSep
    have h1 : x ≠ '.' := fun h => hl.1 (h ▸ hx)
    have h2 : x ≠ '-' := fun h => hl.2 (h ▸ hx)
    simp [h1, h2]
  have hs : ∀ {x : Char}, x = '.' ∨ x = '-' → isVerSep x = true := by
    intro x hx
    rcases hx with rfl | rfl <;> decide
  have hsplit : splitNBy isVerSep 4 (a ++ s1 :: (b ++ s2 :: (c ++ s3 :: d))) = [a, b, c, d] := by
    rw [splitNBy_append (hn ha) _ (hs h1), splitNBy_append (hn hb) _ (hs h2), splitNBy_append (hn hc) _ (hs h3), splitNBy]
  unfold parseVersion
  rw [hsplit]
  exact ⟨_, rfl, C02_number_texts a, C02_number_texts b, C02_number_texts c, C02_number_texts d⟩

example : ∃ x, parseVersion (s%"1.2-3x.4") = some x ∧ x.major = 1 ∧ x.minor = 2 ∧ x.patch = 0 ∧ x.dev = 4 := by
  obtain ⟨x, h, h1, h2, h3, h4⟩ := C02_any_text (s%"1.2-3x.4") (s%"1") (s%"2") (s%"3x") (s%"4") (by decide) (by decide) (by decide) '.' '-' '.'
    (Or.inl rfl) (Or.inr rfl) (Or.inl rfl) rfl
  exact ⟨x, h, h1.trans (by decide +kernel), h2.trans (by decide +kernel), h3.trans (by decide +kernel), h4.trans (by decide +kernel)⟩

end Pkgr
