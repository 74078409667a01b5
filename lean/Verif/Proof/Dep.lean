/- Helper lemmas for dependency parsing. -/
import Verif.Model.Dep
import Verif.Proof.Version

namespace Pkgr

theorem replaceFirst_append {a : Str} {o : Char} {os : Str} (new b : Str) (h : o ∉ a) :
    replaceFirst (a ++ (o :: os) ++ b) (o :: os) new = a ++ new ++ b := by
  induction a with
  | nil =>
    have : hasPrefix (o :: (os ++ b)) (o :: os) = true := by
      rw [hasPrefix_iff, List.cons_prefix_cons]; simp
    simp only [List.nil_append, List.cons_append, replaceFirst, this, if_true]
    simp
  | cons c a ih =>
    simp only [List.mem_cons, not_or] at h
    simp only [List.cons_append, replaceFirst, hasPrefix, Ne.symm h.1, decide_false, Bool.false_and,
      Bool.false_eq_true, if_false]
    have := ih h.2
    simp only [List.cons_append, List.append_assoc] at this ⊢
    rw [this]

theorem not_contains_of_count {s p : Str} (c : Char) (h : s.count c < p.count c) : contains s p = false := by
  rw [Bool.eq_false_iff]
  intro hc
  rw [contains_iff] at hc
  have := hc.sublist.count_le c
  omega

theorem contains_mid (a p b : Str) : contains (a ++ p ++ b) p = true := by
  rw [contains_iff]; exact ⟨a, b, rfl⟩

theorem mem_trimRightBy {p : Char → Bool} {c : Char} (h : p c = false) (s : Str) :
    c ∈ trimRightBy p s ↔ c ∈ s := by
  induction s with
  | nil => simp [trimRightBy]
  | cons d s ih =>
    rw [trimRightBy]
    split
    · rename_i heq
      rw [heq] at ih
      by_cases hd : p d
      · have : c ≠ d := by rintro rfl; simp [h] at hd
        simp [hd, this]; simpa using ih
      · simp only [hd, Bool.false_eq_true, if_false, List.mem_cons, List.not_mem_nil, or_false]
        constructor
        · exact .inl
        · rintro (h | h)
          · exact h
          · exact absurd (ih.2 h) (by simp)
    · simp [ih]

theorem mem_dropWhile {p : Char → Bool} {c : Char} (h : p c = false) (s : Str) :
    c ∈ s.dropWhile p ↔ c ∈ s := by
  induction s with
  | nil => simp
  | cons d s ih =>
    by_cases hd : p d
    · have : c ≠ d := by rintro rfl; simp [h] at hd
      simp [hd, this, ih]
    · simp [hd]

theorem mem_trimSpace {c : Char} (h : isSpace c = false) (s : Str) : c ∈ trimSpace s ↔ c ∈ s := by
  unfold trimSpace; rw [mem_trimRightBy h, mem_dropWhile h]

theorem mem_replaceFirst {c : Char} {old new : Str} (h1 : c ∉ old) (h2 : c ∉ new) (s : Str) :
    c ∈ replaceFirst s old new ↔ c ∈ s := by
  induction s with
  | nil => simp [replaceFirst]
  | cons d s ih =>
    rw [replaceFirst]
    split
    · rename_i h
      rw [hasPrefix_iff] at h
      obtain ⟨t, ht⟩ := h
      rw [← ht]
      simp [h1, h2]
    · simp [ih]

theorem splitNBy_length_one_iff {p : Char → Bool} (n : Nat) (s : Str) :
    (splitNBy p (n + 2) s)[1]? = none ↔ ∀ c ∈ s, p c = false := by
  induction s with
  | nil => simp [splitNBy]
  | cons d s ih =>
    rw [splitNBy]
    by_cases hd : p d
    · have : splitNBy p (n + 1) s ≠ [] := by
        cases n <;> cases s <;> rw [splitNBy] <;> try simp
        split
        · simp
        · split <;> simp
      cases hs : splitNBy p (n + 1) s with
      | nil => exact absurd hs this
      | cons a b => simp [hd]
    · simp only [hd, Bool.false_eq_true, if_false]
      cases hs : splitNBy p (n + 2) s with
      | nil => rw [hs] at ih; simp at ih; simp [hd]; exact ih
      | cons a b => rw [hs] at ih; simp [hd] at ih ⊢; exact ih

theorem splitNBy_head (p : Char → Bool) (n : Nat) (s : Str) : ∃ x, (splitNBy p (n + 1) s)[0]? = some x := by
  cases n with
  | zero => rw [splitNBy]; simp
  | succ n =>
    cases s with
    | nil => rw [splitNBy]; simp
    | cons c s =>
      rw [splitNBy]
      split
      · simp
      · split <;> simp

/-- `ParseVersion` panics exactly on texts without a separator. -/
theorem parseVersion_none_iff (v : Str) : parseVersion v = none ↔ '.' ∉ v ∧ '-' ∉ v := by
  have h1 := splitNBy_length_one_iff (p := isVerSep) 2 v
  have h2 : (∀ c ∈ v, isVerSep c = false) ↔ '.' ∉ v ∧ '-' ∉ v := by
    constructor
    · intro h; exact ⟨fun hc => by simpa [isVerSep] using h _ hc, fun hc => by simpa [isVerSep] using h _ hc⟩
    · rintro ⟨ha, hb⟩ c hc
      have : c ≠ '.' := by rintro rfl; exact ha hc
      have : c ≠ '-' := by rintro rfl; exact hb hc
      simp [isVerSep, *]
  rw [← h2, ← h1]
  obtain ⟨x, hx⟩ := splitNBy_head isVerSep 3 v
  unfold parseVersion
  simp only [hx]
  cases (splitNBy isVerSep 4 v)[1]? <;> simp

theorem parseVersion_string {v : Str} {w : Version} (h : parseVersion v = some w) : w.string = v := by
  unfold parseVersion at h
  simp only at h
  split at h
  · injection h with h; rw [← h]
  · simp at h

theorem singleton_infix {c : Char} {s : Str} : [c] <:+: s ↔ c ∈ s := by
  constructor
  · rintro ⟨a, b, rfl⟩; simp
  · intro h
    obtain ⟨a, b, rfl⟩ := List.append_of_mem h
    exact ⟨a, b, by simp⟩

theorem contains_char (s : Str) (c : Char) : contains s [c] = true ↔ c ∈ s := by
  rw [contains_iff, singleton_infix]

theorem replaceFirst_close (s : Str) : replaceFirst s (s%")") [] = s.erase ')' := by
  induction s with
  | nil => rfl
  | cons c s ih =>
    by_cases h : c = ')'
    · subst h; simp [replaceFirst, hasPrefix]
    · simp [replaceFirst, hasPrefix, h, ih]

theorem sep_iff_aux (pv old new : Str) (h1 : '.' ∉ old) (h2 : '-' ∉ old) (h3 : '.' ∉ new) (h4 : '-' ∉ new) :
    parseVersion (trimSpace (replaceFirst pv old new)) = none ↔ '.' ∉ pv ∧ '-' ∉ pv := by
  rw [parseVersion_none_iff, mem_trimSpace (by decide), mem_trimSpace (by decide),
    mem_replaceFirst h1 h3, mem_replaceFirst h2 h4]

theorem parseConstraint_none_iff (pv : Str) : parseConstraint pv = none ↔
    ('<' ∉ pv ∧ '>' ∉ pv ∧ ¬ s%"==" <:+: pv) ∨ ('.' ∉ pv ∧ '-' ∉ pv) := by
  unfold parseConstraint
  have aux : ∀ {a b : Char}, s%"" ++ [a, b] <:+: pv → a ∈ pv := by
    intro a b h; exact h.subset (by simp)
  split
  · rename_i h; rw [contains_iff] at h
    rw [Option.map_eq_none_iff, sep_iff_aux _ _ _ (by decide) (by decide) (by decide) (by decide)]
    simp [h]
  · rename_i h0; rw [contains_iff] at h0
    split
    · rename_i h; rw [contains_iff] at h
      have := aux h
      rw [Option.map_eq_none_iff, sep_iff_aux _ _ _ (by decide) (by decide) (by decide) (by decide)]
      simp [this]
    · split
      · rename_i h; rw [contains_char] at h
        rw [Option.map_eq_none_iff, sep_iff_aux _ _ _ (by decide) (by decide) (by decide) (by decide)]
        simp [h]
      · rename_i hgt; rw [contains_char] at hgt
        split
        · rename_i h; rw [contains_iff] at h
          have := aux h
          rw [Option.map_eq_none_iff, sep_iff_aux _ _ _ (by decide) (by decide) (by decide) (by decide)]
          simp [this]
        · split
          · rename_i h; rw [contains_char] at h
            rw [Option.map_eq_none_iff, sep_iff_aux _ _ _ (by decide) (by decide) (by decide) (by decide)]
            simp [h]
          · rename_i hlt; rw [contains_char] at hlt
            simp [hgt, hlt, h0]

theorem splitOn_eq (sep : Char) (s : Str) : splitOn sep s =
    if sep ∈ s then s.takeWhile (· ≠ sep) :: splitOn sep (s.dropWhile (· ≠ sep)).tail else [s] := by
  induction s with
  | nil => simp [splitOn]
  | cons c s ih =>
    by_cases h : c = sep
    · subst h; simp [splitOn]
    · rw [splitOn, if_neg h, ih]
      by_cases hs : sep ∈ s
      · simp [hs, h]
      · simp [hs, Ne.symm h]

theorem splitOn_head (sep : Char) (s : Str) : ∃ r, splitOn sep s = s.takeWhile (· ≠ sep) :: r := by
  rw [splitOn_eq]
  split
  · exact ⟨_, rfl⟩
  · rename_i h
    refine ⟨[], ?_⟩
    congr 1
    induction s with
    | nil => rfl
    | cons c s ih =>
      simp only [List.mem_cons, not_or] at h
      rw [List.takeWhile_cons_of_pos (by simpa using Ne.symm h.1), ← ih h.2]

theorem splitOn_snd (sep : Char) (s : Str) : (splitOn sep s)[1]? =
    if sep ∈ s then some ((s.dropWhile (· ≠ sep)).tail.takeWhile (· ≠ sep)) else none := by
  rw [splitOn_eq]
  split
  · obtain ⟨r, hr⟩ := splitOn_head sep (s.dropWhile (· ≠ sep)).tail
    rw [hr]; rfl
  · rfl

/-- The operator written between arbitrary spaces, in front of a version free of operator characters, is
recognised. -/
theorem parseConstraint_written {op : Constraint} (hop : op ≠ .none) {w1 w2 v w3 : Str}
    (h1 : ∀ c ∈ w1, isSpace c = true) (h2 : ∀ c ∈ w2, isSpace c = true) (h3 : ∀ c ∈ w3, isSpace c = true)
    (hv : Trimmed v) (hne : v ≠ []) (hlt : '<' ∉ v) (hgt : '>' ∉ v) (heq : '=' ∉ v) :
    parseConstraint (w1 ++ op.toStr ++ (w2 ++ v ++ w3)) = (parseVersion v).map (fun x => (op, x)) := by
  have nosp : ∀ {w : Str} (c : Char), (∀ c ∈ w, isSpace c = true) → isSpace c = false → w.count c = 0 := by
    intro w c hw hc
    rw [List.count_eq_zero]
    intro h; rw [hw c h] at hc; exact absurd hc (by decide)
  have nomem : ∀ {w : Str} (c : Char), (∀ c ∈ w, isSpace c = true) → isSpace c = false → c ∉ w := by
    intro w c hw hc h; rw [hw c h] at hc; exact absurd hc (by decide)
  have cl := nosp '<' h1 (by decide)
  have cg := nosp '>' h1 (by decide)
  have ce := nosp '=' h1 (by decide)
  have cl2 := nosp '<' h2 (by decide)
  have cg2 := nosp '>' h2 (by decide)
  have ce2 := nosp '=' h2 (by decide)
  have cl3 := nosp '<' h3 (by decide)
  have cg3 := nosp '>' h3 (by decide)
  have ce3 := nosp '=' h3 (by decide)
  have vl := List.count_eq_zero.2 hlt
  have vg := List.count_eq_zero.2 hgt
  have ve := List.count_eq_zero.2 heq
  have trim : ∀ {w : Str}, (∀ c ∈ w, isSpace c = true) → trimSpace (w1 ++ w ++ (w2 ++ v ++ w3)) = v := by
    intro w hw
    have : w1 ++ w ++ (w2 ++ v ++ w3) = (w1 ++ w ++ w2) ++ (v ++ w3) := by simp
    rw [this, trimSpace_spaces_append, trimSpace_append_spaces hv h3 hne]
    intro c hc
    simp only [List.mem_append] at hc
    rcases hc with (hc | hc) | hc
    · exact h1 c hc
    · exact hw c hc
    · exact h2 c hc
  have sp : ∀ c ∈ s%" ", isSpace c = true := by decide
  cases op with
  | none => exact absurd rfl hop
  | equals =>
    change parseConstraint (w1 ++ s%"==" ++ (w2 ++ v ++ w3)) = _
    unfold parseConstraint
    rw [if_pos (contains_mid w1 (s%"==") (w2 ++ v ++ w3)), replaceFirst_append _ _ (nomem _ h1 (by decide)), trim (by simp)]
  | gte =>
    change parseConstraint (w1 ++ s%">=" ++ (w2 ++ v ++ w3)) = _
    unfold parseConstraint
    rw [if_neg (by rw [not_contains_of_count '=']; decide; simp [List.count_append, *]),
      if_pos (contains_mid w1 (s%">=") (w2 ++ v ++ w3)), replaceFirst_append _ _ (nomem _ h1 (by decide)), trim sp]
  | gt =>
    change parseConstraint (w1 ++ s%">" ++ (w2 ++ v ++ w3)) = _
    unfold parseConstraint
    rw [if_neg (by rw [not_contains_of_count '=']; decide; simp [List.count_append, *]),
      if_neg (by rw [not_contains_of_count '=']; decide; simp [List.count_append, *]),
      if_pos (contains_mid w1 (s%">") (w2 ++ v ++ w3)), replaceFirst_append _ _ (nomem _ h1 (by decide)), trim sp]
  | lte =>
    change parseConstraint (w1 ++ s%"<=" ++ (w2 ++ v ++ w3)) = _
    unfold parseConstraint
    rw [if_neg (by rw [not_contains_of_count '=']; decide; simp [List.count_append, *]),
      if_neg (by rw [not_contains_of_count '>']; decide; simp [List.count_append, *]),
      if_neg (by rw [not_contains_of_count '>']; decide; simp [List.count_append, *]),
      if_pos (contains_mid w1 (s%"<=") (w2 ++ v ++ w3)), replaceFirst_append _ _ (nomem _ h1 (by decide)), trim sp]
  | lt =>
    change parseConstraint (w1 ++ s%"<" ++ (w2 ++ v ++ w3)) = _
    unfold parseConstraint
    rw [if_neg (by rw [not_contains_of_count '=']; decide; simp [List.count_append, *]),
      if_neg (by rw [not_contains_of_count '>']; decide; simp [List.count_append, *]),
      if_neg (by rw [not_contains_of_count '>']; decide; simp [List.count_append, *]),
      if_neg (by rw [not_contains_of_count '=']; decide; simp [List.count_append, *]),
      if_pos (contains_mid w1 (s%"<") (w2 ++ v ++ w3)), replaceFirst_append _ _ (nomem _ h1 (by decide)), trim sp]

end Pkgr
