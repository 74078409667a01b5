/- Splitting and trimming texts, related to the specification vocabulary. -/
import Verif.Model.Env
import Verif.Spec.Env
import Verif.Spec.Text
import Verif.Proof.Base

namespace Pkgr
open Spec

theorem joinWith_eq (sep : Char) (l : List Str) : joinWith sep l = separated sep l := by
  induction l with
  | nil => rfl
  | cons a l ih =>
    cases l with
    | nil => rfl
    | cons b l => rw [joinWith, separated, ih]; simp

theorem splitOn_mem (c : Char) (s : Str) : ∀ x ∈ splitOn c s, c ∉ x := by
  induction s with
  | nil => simp [splitOn]
  | cons d s ih =>
    rw [splitOn]
    split
    · intro x hx
      rcases List.mem_cons.1 hx with e | hx
      · subst e; simp
      · exact ih x hx
    · rename_i hd
      split
      · intro x hx
        simp only [List.mem_singleton] at hx
        subst hx
        simpa using fun e => hd e.symm
      · rename_i w ws hw
        rw [hw] at ih
        intro x hx
        rcases List.mem_cons.1 hx with e | hx
        · subst e
          simp only [List.mem_cons, not_or]
          exact ⟨fun e => hd e.symm, ih w (by simp)⟩
        · exact ih x (by simp [hx])

theorem splitOn_joinWith (c : Char) (l : List Str) (hl : l ≠ []) (h : ∀ x ∈ l, c ∉ x) : splitOn c (joinWith c l) = l := by
  induction l with
  | nil => exact absurd rfl hl
  | cons a l ih =>
    cases l with
    | nil => exact splitOn_of_not_mem _ _ (h a (by simp))
    | cons b l =>
      rw [joinWith, splitOn_append _ _ _ (h a (by simp)), ih (by simp) fun x hx => h x (by simp [List.mem_cons.1 hx])]

theorem mem_first (c : Char) (s : Str) (h : c ∈ s) : ∃ a b, s = a ++ c :: b ∧ c ∉ a := by
  induction s with
  | nil => simp at h
  | cons x s ih =>
    by_cases hx : c = x
    · exact ⟨[], s, by simp [hx], by simp⟩
    · obtain ⟨a, b, h1, h2⟩ := ih (by simpa [hx] using h)
      exact ⟨x :: a, b, by simp [h1], by simp [hx, h2]⟩

theorem joinWith_splitOn (c : Char) (s : Str) : joinWith c (splitOn c s) = s := by
  have key : ∀ (n : Nat) (s : Str), s.length ≤ n → joinWith c (splitOn c s) = s := by
    intro n
    induction n with
    | zero =>
      intro s h
      have : s = [] := List.length_eq_zero_iff.1 (by omega)
      subst this
      rw [splitOn_of_not_mem _ _ (by simp)]
      rfl
    | succ n ih =>
      intro s h
      by_cases hm : c ∈ s
      · obtain ⟨a, b, rfl, ha⟩ := mem_first c s hm
        rw [splitOn_append _ _ _ ha]
        have hb := ih b (by simp at h; omega)
        cases hs : splitOn c b with
        | nil => exact absurd hs (splitOn_ne_nil c b)
        | cons x l =>
          rw [joinWith, ← hs, hb]
      · rw [splitOn_of_not_mem _ _ hm]
        rfl
  exact key s.length s (Nat.le_refl _)

theorem components_iff (sep : Char) (s : Str) (l : List Str) : Components sep s l ↔ splitOn sep s = l := by
  unfold Components
  constructor
  · rintro ⟨hl, hc, rfl⟩
    rw [← joinWith_eq, splitOn_joinWith _ _ hl hc]
  · rintro rfl
    exact ⟨splitOn_ne_nil _ _, splitOn_mem _ _, by rw [← joinWith_eq, joinWith_splitOn]⟩

theorem isSpace_iff (c : Char) : isSpace c = true ↔ White c := by
  unfold isSpace White
  simp only [Bool.or_eq_true, Bool.and_eq_true, decide_eq_true_eq, beq_iff_eq, or_assoc]

theorem trimRightBy_reverse (p : Char → Bool) (s : Str) : trimRightBy p s = (s.reverse.dropWhile p).reverse := by
  induction s with
  | nil => rfl
  | cons c s ih =>
    rw [trimRightBy, List.reverse_cons, List.dropWhile_append]
    rw [ih]
    cases h : s.reverse.dropWhile p with
    | nil =>
      simp only [List.reverse_nil, List.isEmpty_nil, if_true, List.dropWhile_cons, List.dropWhile_nil]
      split <;> rfl
    | cons d t =>
      simp only [List.isEmpty_cons, Bool.false_eq_true, if_false, List.reverse_append, List.reverse_cons, List.reverse_nil,
        List.nil_append, List.singleton_append]
      cases ht : t.reverse ++ [d] with
      | nil => simp at ht
      | cons a b => rfl

/-- What `trimSpace` leaves is the text between white space at both ends. -/
theorem trimSpace_iff (s t : Str) : trimSpace s = t ↔ Stripped s t := by
  have hd : ∀ (l : Str), ∃ a, l = a ++ l.dropWhile isSpace ∧ (∀ c ∈ a, isSpace c = true) ∧
      ∀ c, (l.dropWhile isSpace).head? = some c → isSpace c = false := by
    intro l
    refine ⟨l.takeWhile isSpace, (List.takeWhile_append_dropWhile).symm, fun c hc => (List.all_eq_true.1 List.all_takeWhile) c hc, ?_⟩
    intro c hc
    have := List.head?_dropWhile_not isSpace l
    rw [hc] at this
    simpa using this
  unfold Stripped
  constructor
  · rintro rfl
    obtain ⟨a, h1, h2, h3⟩ := hd s
    obtain ⟨b, h4, h5, h6⟩ := hd (s.dropWhile isSpace).reverse
    unfold trimSpace
    rw [trimRightBy_reverse]
    have e : s.dropWhile isSpace = ((s.dropWhile isSpace).reverse.dropWhile isSpace).reverse ++ b.reverse := by
      have := congrArg List.reverse h4
      simpa using this
    refine ⟨a, b.reverse, by rw [List.append_assoc, ← e]; exact h1, fun c hc => (isSpace_iff c).1 (h2 c hc),
      fun c hc => (isSpace_iff c).1 (h5 c (by simpa using hc)), ?_, ?_⟩
    · intro c hc hw
      rw [← isSpace_iff] at hw
      have : (s.dropWhile isSpace).head? = some c := by
        rw [e, List.head?_append, hc]; rfl
      rw [h3 c this] at hw
      cases hw
    · intro c hc hw
      rw [← isSpace_iff] at hw
      rw [List.getLast?_reverse] at hc
      rw [h6 c hc] at hw
      cases hw
  · rintro ⟨a, b, rfl, ha, hb, h1, h2⟩
    rw [List.append_assoc, trimSpace_spaces_append fun c hc => (isSpace_iff c).2 (ha c hc)]
    have ht : Trimmed t := by
      constructor
      · intro c hc
        have := h1 c hc
        rw [← isSpace_iff] at this
        simpa using this
      · intro c hc
        have := h2 c hc
        rw [← isSpace_iff] at this
        simpa using this
    by_cases hne : t = []
    · subst hne
      unfold trimSpace
      have : List.dropWhile isSpace ([] ++ b) = [] := by
        have := List.dropWhile_append_of_pos (p := isSpace) (l₁ := b) (l₂ := []) fun c hc => (isSpace_iff c).2 (hb c hc)
        simpa using this
      rw [this]; rfl
    · exact trimSpace_append_spaces ht (fun c hc => (isSpace_iff c).2 (hb c hc)) hne

end Pkgr
