/- Helper lemmas about the base vocabulary. -/
import Verif.Model.Base

namespace Pkgr

namespace GoMap
variable {α : Type}

@[simp] theorem get?_nil (k : Str) : get? ([] : GoMap α) k = none := rfl

theorem get?_cons (k' k : Str) (v : α) (m : GoMap α) :
    get? ((k', v) :: m) k = if k' = k then some v else get? m k := rfl

@[simp] theorem keys_nil : keys ([] : GoMap α) = [] := rfl
@[simp] theorem keys_cons (e : Str × α) (m : GoMap α) : keys (e :: m) = e.1 :: keys m := rfl

theorem get?_eq_none_iff (m : GoMap α) (k : Str) : get? m k = none ↔ k ∉ keys m := by
  induction m with
  | nil => simp
  | cons e m ih =>
    obtain ⟨k', v⟩ := e
    rw [get?_cons]
    by_cases h : k' = k
    · simp [h]
    · simp [h, ih, Ne.symm h]

theorem get?_isSome_iff (m : GoMap α) (k : Str) : (get? m k).isSome ↔ k ∈ keys m := by
  rw [← Option.not_isNone, Bool.not_eq_true']
  constructor
  · intro h
    apply Classical.byContradiction
    intro hk
    rw [(get?_eq_none_iff m k).2 hk] at h
    simp at h
  · intro h
    cases hg : get? m k with
    | none => exact absurd h ((get?_eq_none_iff m k).1 hg)
    | some v => rfl

theorem has_iff (m : GoMap α) (k : Str) : has m k = true ↔ k ∈ keys m := get?_isSome_iff m k

theorem mem_keys_of_get? {m : GoMap α} {k : Str} {v : α} (h : get? m k = some v) : k ∈ keys m := by
  rw [← get?_isSome_iff, h]; rfl

theorem exists_get?_of_mem {m : GoMap α} {k : Str} (h : k ∈ keys m) : ∃ v, get? m k = some v := by
  rw [← get?_isSome_iff] at h
  exact Option.isSome_iff_exists.1 h

theorem mem_of_get? {m : GoMap α} {k : Str} {v : α} (h : get? m k = some v) : (k, v) ∈ m := by
  induction m with
  | nil => simp at h
  | cons e m ih =>
    obtain ⟨k', v'⟩ := e
    rw [get?_cons] at h
    by_cases hk : k' = k
    · simp [hk] at h; simp [hk, h]
    · simp [hk] at h; exact List.mem_cons_of_mem _ (ih h)

theorem get?_of_mem {m : GoMap α} (hwf : WF m) {k : Str} {v : α} (h : (k, v) ∈ m) : get? m k = some v := by
  induction m with
  | nil => simp at h
  | cons e m ih =>
    obtain ⟨k', v'⟩ := e
    have hwf' : k' ∉ keys m ∧ (keys m).Nodup := List.nodup_cons.1 hwf
    rw [get?_cons]
    rcases List.mem_cons.1 h with h | h
    · cases h; simp
    · have : k ∈ keys m := List.mem_map_of_mem (f := Prod.fst) h
      have hne : k' ≠ k := fun e => hwf'.1 (e ▸ this)
      simp [hne, ih hwf'.2 h]

theorem mem_keys_iff {m : GoMap α} {k : Str} : k ∈ keys m ↔ ∃ v, (k, v) ∈ m := by
  simp [keys]

theorem get?_del (m : GoMap α) (k k' : Str) :
    get? (del m k) k' = if k' = k then none else get? m k' := by
  induction m with
  | nil => simp [del]
  | cons e m ih =>
    obtain ⟨a, v⟩ := e
    unfold del at ih ⊢
    by_cases ha : a = k
    · simp only [ha, ne_eq, not_true_eq_false, decide_false, Bool.false_eq_true, not_false_eq_true,
        List.filter_cons_of_neg, ih, get?_cons]
      by_cases hk : k' = k
      · simp [hk]
      · simp [hk, Ne.symm hk]
    · rw [List.filter_cons_of_pos (by simpa using ha)]
      rw [get?_cons, ih, get?_cons]
      by_cases hk : k' = k
      · subst hk; simp [ha]
      · simp [hk]

theorem mem_keys_del (m : GoMap α) (k k' : Str) : k' ∈ keys (del m k) ↔ k' ≠ k ∧ k' ∈ keys m := by
  rw [← get?_isSome_iff, get?_del, ← get?_isSome_iff]
  by_cases h : k' = k <;> simp [h]

theorem keys_del (m : GoMap α) (k : Str) : keys (del m k) = (keys m).filter (· ≠ k) := by
  induction m with
  | nil => rfl
  | cons e m ih =>
    unfold del at *
    by_cases h : e.1 = k <;> simp [h, keys] at *
    · exact ih
    · exact ih

theorem wf_nil : WF ([] : GoMap α) := List.nodup_nil

theorem wf_del {m : GoMap α} (h : WF m) (k : Str) : WF (del m k) := by
  unfold WF; rw [keys_del]; exact List.Pairwise.filter _ h

theorem wf_put {m : GoMap α} (h : WF m) (k : Str) (v : α) : WF (put m k v) := by
  unfold WF put
  rw [keys_cons, List.nodup_cons]
  exact ⟨by simp [mem_keys_del], wf_del h k⟩

theorem get?_put (m : GoMap α) (k k' : Str) (v : α) :
    get? (put m k v) k' = if k' = k then some v else get? m k' := by
  unfold put
  rw [get?_cons, get?_del]
  by_cases h : k = k'
  · simp [h]
  · simp [h, Ne.symm h]

theorem mem_keys_put (m : GoMap α) (k k' : Str) (v : α) :
    k' ∈ keys (put m k v) ↔ k' = k ∨ k' ∈ keys m := by
  rw [← get?_isSome_iff, get?_put, ← get?_isSome_iff]
  by_cases h : k' = k <;> simp [h]

theorem length_eq_keys (m : GoMap α) : m.length = (keys m).length := by simp [keys]

end GoMap

/-! ### strings -/

theorem hasPrefix_iff (s p : Str) : hasPrefix s p = true ↔ p <+: s := by
  induction s generalizing p with
  | nil => cases p <;> simp [hasPrefix]
  | cons c s ih =>
    cases p with
    | nil => simp [hasPrefix]
    | cons d p =>
      simp only [hasPrefix, Bool.and_eq_true, decide_eq_true_eq, ih, List.cons_prefix_cons]
      constructor
      · rintro ⟨h1, h2⟩; exact ⟨h1.symm, h2⟩
      · rintro ⟨h1, h2⟩; exact ⟨h1.symm, h2⟩

theorem hasSuffix_iff (s p : Str) : hasSuffix s p = true ↔ p <:+ s := by
  unfold hasSuffix; rw [hasPrefix_iff, List.reverse_prefix]

theorem contains_iff (s p : Str) : contains s p = true ↔ p <:+: s := by
  induction s with
  | nil => simp [contains]
  | cons c s ih =>
    simp only [contains, Bool.or_eq_true, hasPrefix_iff, ih, List.infix_cons_iff]

theorem replaceFirst_of_not_infix (s old new : Str) (h : ¬ old <:+: s) : replaceFirst s old new = s := by
  induction s with
  | nil => rfl
  | cons c s ih =>
    rw [List.infix_cons_iff, not_or] at h
    simp only [replaceFirst, hasPrefix_iff, h.1, if_false, ih h.2]

theorem splitOn_ne_nil (sep : Char) (s : Str) : splitOn sep s ≠ [] := by
  cases s with
  | nil => simp [splitOn]
  | cons c s =>
    simp only [splitOn]
    split
    · simp
    · split <;> simp

/-- A piece without the separator stays whole. -/
theorem splitOn_of_not_mem (sep : Char) (s : Str) (h : sep ∉ s) : splitOn sep s = [s] := by
  induction s with
  | nil => rfl
  | cons c s ih =>
    simp only [List.mem_cons, not_or] at h
    simp [splitOn, Ne.symm h.1, ih h.2]

theorem splitOn_append (sep : Char) (a b : Str) (h : sep ∉ a) :
    splitOn sep (a ++ sep :: b) = a :: splitOn sep b := by
  induction a with
  | nil => simp [splitOn]
  | cons c a ih =>
    simp only [List.mem_cons, not_or] at h
    simp [splitOn, Ne.symm h.1, ih h.2]

theorem trimRightBy_append_of (p : Char → Bool) (s t : Str) (h : ∀ c ∈ t, p c = true) :
    trimRightBy p (s ++ t) = trimRightBy p s := by
  induction s with
  | nil =>
    induction t with
    | nil => rfl
    | cons c t ih =>
      have := ih (fun c hc => h c (List.mem_cons_of_mem _ hc))
      simp only [List.nil_append, trimRightBy] at this ⊢
      rw [this]; simp [h c (by simp)]
  | cons c s ih => simp only [List.cons_append, trimRightBy, ih]

theorem trimRightBy_id (p : Char → Bool) (s : Str) (h : ∀ c, s.getLast? = some c → p c = false) :
    trimRightBy p s = s := by
  induction s with
  | nil => rfl
  | cons c s ih =>
    cases s with
    | nil => simp [trimRightBy, h c (by simp)]
    | cons d s =>
      rw [trimRightBy, ih (fun c hc => h c (by simpa [List.getLast?_cons_cons] using hc))]

theorem trimRightBy_prefix (p : Char → Bool) (s : Str) : trimRightBy p s <+: s := by
  induction s with
  | nil => simp [trimRightBy]
  | cons c s ih =>
    rw [trimRightBy]
    split
    · split
      · exact List.nil_prefix
      · simp
    · rw [List.cons_prefix_cons]; exact ⟨rfl, ih⟩

/-- A string with neither leading nor trailing white space is unchanged by `trimSpace`. -/
def Trimmed (s : Str) : Prop :=
  (∀ c, s.head? = some c → isSpace c = false) ∧ (∀ c, s.getLast? = some c → isSpace c = false)

theorem trimSpace_of_trimmed {s : Str} (h : Trimmed s) : trimSpace s = s := by
  unfold trimSpace
  have : s.dropWhile isSpace = s := by
    cases s with
    | nil => rfl
    | cons c s => simp [List.dropWhile, h.1 c (by simp)]
  rw [this, trimRightBy_id _ _ h.2]

theorem trimSpace_append_spaces {s t : Str} (h : Trimmed s) (ht : ∀ c ∈ t, isSpace c = true) (hs : s ≠ []) :
    trimSpace (s ++ t) = s := by
  unfold trimSpace
  have : (s ++ t).dropWhile isSpace = s ++ t := by
    cases s with
    | nil => exact absurd rfl hs
    | cons c s => simp [h.1 c (by simp)]
  rw [this, trimRightBy_append_of _ _ _ ht, trimRightBy_id _ _ h.2]

theorem trimSpace_spaces_append {s t : Str} (ht : ∀ c ∈ t, isSpace c = true) :
    trimSpace (t ++ s) = trimSpace s := by
  unfold trimSpace
  rw [List.dropWhile_append_of_pos ht]

theorem splitNBy_length_le (p : Char → Bool) (n : Nat) (s : Str) : (splitNBy p n s).length ≤ n := by
  induction n, s using splitNBy.induct p with
  | case1 => simp [splitNBy]
  | case2 => simp [splitNBy]
  | case3 => simp [splitNBy]
  | case4 n c s hc ih => simp [splitNBy, hc]; omega
  | case5 n c s hc hnil ih => simp [splitNBy, hc, hnil]
  | case6 n c s hc w ws hw ih => simp [splitNBy, hc, hw] at ih ⊢; omega

theorem perm_pair {α : Type} {l : List α} {a b : α} (h : l.Perm [a, b]) : l = [a, b] ∨ l = [b, a] := by
  match l, h.length_eq with
  | [x, y], _ =>
    have hx : x = a ∨ x = b := by simpa using h.subset (List.mem_cons_self (a := x) (l := [y]))
    rcases hx with rfl | rfl
    · have := (List.perm_cons _).1 h
      rw [List.perm_singleton] at this
      simp [this]
    · have h2 := h.trans (List.Perm.swap _ _ _)
      have := (List.perm_cons _).1 h2
      rw [List.perm_singleton] at this
      simp [this]

end Pkgr
