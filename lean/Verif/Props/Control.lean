/- C151: a DESCRIPTION says what is written in it. -/
import Verif.Model.Control
import Verif.Spec.Control
import Verif.Spec.RepoDb
import Verif.Props.Config
import Verif.Props.RepoDb

namespace Pkgr
open Spec

/-! ### Lemmas -/

theorem trimBy_iff (p : Char → Bool) (s t : Str) : trimRightBy p (s.dropWhile p) = t ↔
    ∃ a b, s = a ++ t ++ b ∧ (∀ c ∈ a, p c = true) ∧ (∀ c ∈ b, p c = true) ∧
      (∀ c, t.head? = some c → p c = false) ∧ ∀ c, t.getLast? = some c → p c = false := by
  have hd : ∀ (l : Str), ∃ a, l = a ++ l.dropWhile p ∧ (∀ c ∈ a, p c = true) ∧
      ∀ c, (l.dropWhile p).head? = some c → p c = false := by
    intro l
    refine ⟨l.takeWhile p, (List.takeWhile_append_dropWhile).symm, fun c hc => (List.all_eq_true.1 List.all_takeWhile) c hc, ?_⟩
    intro c hc
    have := List.head?_dropWhile_not p l
    rw [hc] at this
    simpa using this
  constructor
  · rintro rfl
    obtain ⟨a, h1, h2, h3⟩ := hd s
    obtain ⟨b, h4, h5, h6⟩ := hd (s.dropWhile p).reverse
    rw [trimRightBy_reverse]
    have e : s.dropWhile p = ((s.dropWhile p).reverse.dropWhile p).reverse ++ b.reverse := by
      have := congrArg List.reverse h4
      simpa using this
    refine ⟨a, b.reverse, by rw [List.append_assoc, ← e]; exact h1, h2, fun c hc => h5 c (by simpa using hc), ?_, ?_⟩
    · intro c hc
      have : (s.dropWhile p).head? = some c := by
        rw [e, List.head?_append, hc]; rfl
      exact h3 c this
    · intro c hc
      rw [List.getLast?_reverse] at hc
      exact h6 c hc
  · rintro ⟨a, b, rfl, ha, hb, h1, h2⟩
    rw [List.append_assoc, List.dropWhile_append_of_pos ha]
    by_cases hne : t = []
    · subst hne
      have : List.dropWhile p ([] ++ b) = [] := by
        have := List.dropWhile_append_of_pos (p := p) (l₁ := b) (l₂ := []) hb
        simpa using this
      rw [this]; rfl
    · have : (t ++ b).dropWhile p = t ++ b := by
        cases t with
        | nil => exact absurd rfl hne
        | cons c s => simp [h1 c (by simp)]
      rw [this, trimRightBy_append_of _ _ _ hb, trimRightBy_id _ _ h2]

theorem inCutset_iff (c : Char) : inCutset c = true ↔ Layout1 c := by
  unfold inCutset Layout1
  simp [or_assoc]

theorem trimCutset_iff (s t : Str) : trimCutset s = t ↔ Unlaid s t := by
  unfold trimCutset Unlaid
  rw [trimBy_iff]
  constructor
  all_goals
    rintro ⟨a, b, h, h1, h2, h3, h4⟩
    refine ⟨a, b, h, fun c hc => ?_, fun c hc => ?_, fun c hc => ?_, fun c hc => ?_⟩
  · exact (inCutset_iff c).1 (h1 c hc)
  · exact (inCutset_iff c).1 (h2 c hc)
  · rw [← inCutset_iff, h3 c hc]; simp
  · rw [← inCutset_iff, h4 c hc]; simp
  · exact (inCutset_iff c).2 (h1 c hc)
  · exact (inCutset_iff c).2 (h2 c hc)
  · have := h3 c hc; rw [← inCutset_iff] at this; simpa using this
  · have := h4 c hc; rw [← inCutset_iff] at this; simpa using this

theorem paired_map {α β : Type} {R : α → β → Prop} {f : α → β} (h : ∀ a b, f a = b ↔ R a b) (as : List α) (bs : List β) :
    PairedBy R as bs ↔ as.map f = bs := by
  induction as generalizing bs with
  | nil => cases bs <;> simp [PairedBy]
  | cons a as ih => cases bs <;> simp [PairedBy, ih, h]

theorem paired_map_on {α β : Type} {R : α → β → Prop} {f : α → β} (as : List α) (bs : List β)
    (h : ∀ a ∈ as, ∀ b, f a = b ↔ R a b) : PairedBy R as bs ↔ as.map f = bs := by
  induction as generalizing bs with
  | nil => cases bs <;> simp [PairedBy]
  | cons a as ih =>
    have ih' := ih (h := fun x hx => h x (List.mem_cons_of_mem _ hx))
    cases bs with
    | nil => simp [PairedBy]
    | cons b bs => simp [PairedBy, ih', h a (by simp)]

/-- The items of a list are the trimmed pieces. -/
theorem listItems_iff (v : Str) (xs : List Str) : ListItems v xs ↔ (splitOn ',' v).map trimCutset = xs := by
  unfold ListItems
  constructor
  · rintro ⟨ps, h1, h2⟩
    rw [components_iff] at h1
    rw [h1]
    exact (paired_map (f := trimCutset) trimCutset_iff ps xs).1 h2
  · intro h
    exact ⟨_, (components_iff _ _ _).2 rfl, (paired_map (f := trimCutset) trimCutset_iff _ _).2 h⟩

theorem contText_iff (l t : Str) (hl : l ≠ []) : contText l = t ↔ ContSays l t := by
  cases l with
  | nil => exact absurd rfl hl
  | cons c s =>
    unfold contText ContSays
    simp only [List.drop_one, List.tail_cons]
    have key : ∃ ws, s = trimRightBy isSpace s ++ ws ∧ (∀ x ∈ ws, White x) ∧ ∀ x, (trimRightBy isSpace s).getLast? = some x → ¬ White x := by
      rw [trimRightBy_reverse]
      refine ⟨(s.reverse.takeWhile isSpace).reverse, ?_, ?_, ?_⟩
      · rw [← List.reverse_append, List.takeWhile_append_dropWhile, List.reverse_reverse]
      · intro x hx
        rw [← isSpace_iff]
        exact (List.all_eq_true.1 (List.all_takeWhile (l := s.reverse))) x (by simpa using hx)
      · intro x hx
        rw [List.getLast?_reverse] at hx
        have := List.head?_dropWhile_not isSpace s.reverse
        rw [hx] at this
        rw [← isSpace_iff]
        simpa using this
    constructor
    · rintro rfl
      obtain ⟨ws, h1, h2, h3⟩ := key
      exact ⟨c, _, ws, by rw [← h1], h2, h3, rfl⟩
    · rintro ⟨c', body, ws, h1, h2, h3, rfl⟩
      injection h1 with _ h1
      have : trimRightBy isSpace s = body := by
        rw [h1, trimRightBy_append_of _ _ _ fun x hx => (isSpace_iff x).2 (h2 x hx), trimRightBy_id]
        intro x hx
        have := h3 x hx
        rw [← isSpace_iff] at this
        simpa using this
      rw [this]

/-- The text of a field, computed. -/
def Spec.DescField.text (f : DescField) : Str :=
  if f.more = [] then trimSpace f.line
  else textOf ((if trimSpace f.line = [] then [] else [trimSpace f.line]) ++ f.more.map contText)

theorem Spec.DescField.Valid.more_ne {f : DescField} (h : f.Valid) : ∀ l ∈ f.more, l ≠ [] := by
  intro l hl e
  subst e
  have := (h.moreLines _ hl).2
  simp at this

theorem Spec.DescField.says_iff {f : DescField} (h : f.Valid) (v : Str) : f.Says v ↔ v = f.text := by
  unfold DescField.Says DescField.text
  constructor
  · rintro ⟨first, rest, h1, h2, h3⟩
    rw [← trimSpace_iff] at h1
    rw [paired_map_on (f := contText) _ _ fun a ha b => contText_iff a b (h.more_ne a ha)] at h2
    rw [h3, h1, h2]
  · intro e
    exact ⟨_, _, (trimSpace_iff _ _).1 rfl, (paired_map_on (f := contText) _ _ fun a ha b => contText_iff a b (h.more_ne a ha)).2 rfl, e⟩

/-- Reading one field. -/
theorem readPara_more (st : ParaState) (k v : Str) (ls rest : List Str)
    (hls : ∀ l ∈ ls, '\n' ∉ l ∧ (l.head? = some ' ' ∨ l.head? = some '\t'))
    (hst : st.cur = k) (hv : GoMap.get? st.vals k = some v) (hend : v = [] ∨ hasSuffix v (s%"\n") = true) :
    ∃ vals, readPara st (ls ++ rest) = readPara { st with vals := vals } rest ∧
      ∀ k', GoMap.get? vals k' = if k' = k then some (v ++ textOf (ls.map contText)) else GoMap.get? st.vals k' := by
  induction ls generalizing st v with
  | nil =>
    refine ⟨st.vals, rfl, fun k' => ?_⟩
    split
    · rename_i e; subst e; simp [textOf, hv]
    · rfl
  | cons l ls ih =>
    obtain ⟨hl1, hl2⟩ := hls l (by simp)
    have hne : ¬ (l = [] ∨ l = s%"\r") := by
      rintro (e | e)
      · rw [e] at hl2; simp at hl2
      · rw [e] at hl2; simp at hl2
    have hno : ¬ l.head? = some '#' := by
      rintro e
      rw [e] at hl2; simp at hl2
    rw [List.cons_append, readPara, if_neg hne, if_neg hno, if_pos hl2]
    have hap : appendLine v (contText l) = v ++ (contText l ++ s%"\n") := by
      unfold appendLine
      by_cases hv0 : v = []
      · rw [if_pos hv0, hv0]; rfl
      · rw [if_neg hv0, if_pos (hend.resolve_left hv0)]
        simp
    have hg : (GoMap.get? st.vals st.cur).getD [] = v := by rw [hst, hv]; rfl
    rw [hg, hap, hst]
    obtain ⟨vals, h1, h2⟩ := ih { st with vals := GoMap.put st.vals k (v ++ (contText l ++ s%"\n")) } (v ++ (contText l ++ s%"\n"))
      (fun x hx => hls x (List.mem_cons_of_mem _ hx)) hst (by simp [GoMap.get?_put]) (by
        right
        rw [hasSuffix_iff]
        exact ⟨v ++ contText l, by simp⟩)
    refine ⟨vals, by rw [hst] at h1; exact h1, fun k' => ?_⟩
    rw [h2]
    split
    · simp [textOf]
    · rename_i hk
      simp [GoMap.get?_put, hk]

theorem Spec.DescField.Valid.head {f : DescField} (h : f.Valid) :
    ∃ c s, f.name = c :: s ∧ ¬ White c ∧ c ≠ '#' := by
  cases hn : f.name with
  | nil => exact absurd hn h.nonempty
  | cons c s =>
    refine ⟨c, s, rfl, ?_, ?_⟩
    · obtain ⟨a, b, h1, h2, h3, h4, h5⟩ := h.bare
      exact h4 c (by rw [hn]; rfl)
    · intro e
      exact h.comment (by rw [hn, e]; rfl)

theorem Spec.DescField.Valid.trim {f : DescField} (h : f.Valid) : trimSpace f.name = f.name := (trimSpace_iff _ _).2 h.bare

theorem readPara_field (st : ParaState) {f : DescField} (h : f.Valid) (rest : List Str) :
    ∃ vals, readPara st (f.lines ++ rest) = readPara { vals := vals, seen := true, cur := f.name } rest ∧
      ∀ k, GoMap.get? vals k = if k = f.name then some f.text else GoMap.get? st.vals k := by
  obtain ⟨c, s, hn, hw, hc⟩ := h.head
  unfold DescField.lines
  have hne : ¬ (f.name ++ ':' :: f.line = [] ∨ f.name ++ ':' :: f.line = s%"\r") := by
    rintro (e | e)
    · rw [hn] at e; simp at e
    · have : ':' ∈ (s%"\r") := by rw [← e]; simp
      simp at this
  have hhd : (f.name ++ ':' :: f.line).head? = some c := by rw [hn]; rfl
  have hno : ¬ (f.name ++ ':' :: f.line).head? = some '#' := by rw [hhd]; simpa using hc
  have hnw : ¬ ((f.name ++ ':' :: f.line).head? = some ' ' ∨ (f.name ++ ':' :: f.line).head? = some '\t') := by
    rw [hhd]
    rintro (e | e)
    · injection e with e; rw [e] at hw; exact hw (by decide)
    · injection e with e; rw [e] at hw; exact hw (by decide)
  rw [List.cons_append, readPara, if_neg hne, if_neg hno, if_neg hnw, if_pos (by simp)]
  have hall : ∀ x ∈ f.name, decide (x ≠ ':') = true := by
    intro x hx
    simp only [ne_eq, decide_eq_true_eq]
    rintro rfl
    exact h.colon hx
  have h1 : (f.name ++ ':' :: f.line).takeWhile (fun x => decide (x ≠ ':')) = f.name := by
    rw [List.takeWhile_append_of_pos hall]; simp
  have h2 : ((f.name ++ ':' :: f.line).dropWhile (fun x => decide (x ≠ ':'))).drop 1 = f.line := by
    rw [List.dropWhile_append_of_pos hall]; simp
  dsimp only
  rw [h1, h2, h.trim]
  by_cases hm : f.more = []
  · refine ⟨GoMap.put st.vals f.name (trimSpace f.line), by rw [hm]; rfl, fun k => ?_⟩
    unfold DescField.text
    rw [if_pos hm, GoMap.get?_put]
  · unfold DescField.text
    rw [if_neg hm]
    by_cases h0 : trimSpace f.line = []
    · obtain ⟨vals, hv1, hv2⟩ := readPara_more { vals := GoMap.put st.vals f.name (trimSpace f.line), seen := true, cur := f.name }
        f.name (trimSpace f.line) f.more rest h.moreLines rfl (by simp [GoMap.get?_put]) (Or.inl h0)
      refine ⟨vals, hv1, fun k => ?_⟩
      rw [hv2]
      split
      · rw [h0]; rfl
      · rename_i hk
        simp [GoMap.get?_put, hk]
    · cases hmm : f.more with
      | nil => exact absurd hmm hm
      | cons l ls =>
        have hmore := h.moreLines
        rw [hmm] at hmore
        obtain ⟨hl1, hl2⟩ := hmore l (by simp)
        have hne' : ¬ (l = [] ∨ l = s%"\r") := by
          rintro (e | e)
          · rw [e] at hl2; simp at hl2
          · rw [e] at hl2; simp at hl2
        have hno' : ¬ l.head? = some '#' := by
          rintro e
          rw [e] at hl2; simp at hl2
        rw [List.cons_append, readPara, if_neg hne', if_neg hno', if_pos hl2]
        have hnl : ¬ hasSuffix (trimSpace f.line) (s%"\n") = true := by
          rw [hasSuffix_iff]
          rintro ⟨a, ha⟩
          obtain ⟨_, _, _, _, _, _, h5⟩ := (trimSpace_iff f.line _).1 rfl
          exact h5 '\n' (by rw [← ha]; simp) (by decide)
        have hap : appendLine (trimSpace f.line) (contText l) = trimSpace f.line ++ (s%"\n" ++ contText l ++ s%"\n") := by
          unfold appendLine
          rw [if_neg h0, if_neg hnl]
          simp
        have hg : (GoMap.get? (GoMap.put st.vals f.name (trimSpace f.line)) f.name).getD [] = trimSpace f.line := by
          simp [GoMap.get?_put]
        dsimp only
        rw [hg, hap]
        obtain ⟨vals, hv1, hv2⟩ := readPara_more
          { vals := GoMap.put (GoMap.put st.vals f.name (trimSpace f.line)) f.name (trimSpace f.line ++ (s%"\n" ++ contText l ++ s%"\n")),
            seen := true, cur := f.name }
          f.name (trimSpace f.line ++ (s%"\n" ++ contText l ++ s%"\n")) ls rest (fun x hx => hmore x (List.mem_cons_of_mem _ hx)) rfl
          (by simp [GoMap.get?_put]) (Or.inr (by
            rw [hasSuffix_iff]
            exact ⟨trimSpace f.line ++ (s%"\n" ++ contText l), by simp⟩))
        refine ⟨vals, hv1, fun k => ?_⟩
        rw [hv2]
        split
        · simp [textOf]
        · rename_i hk
          simp [GoMap.get?_put, hk]

theorem lastNamed_nil (k : Str) : lastNamed [] k = none := rfl

theorem lastNamed_cons (f : DescField) (fs : List DescField) (k : Str) :
    lastNamed (f :: fs) k = (lastNamed fs k).or (if f.name = k then some f else none) := by
  unfold lastNamed
  rw [List.filter_cons]
  split
  · rename_i h
    rw [if_pos (by simpa using h), List.getLast?_cons]
    cases (List.filter (fun f => decide (f.name = k)) fs).getLast? <;> rfl
  · rename_i h
    rw [if_neg (by simpa using h)]
    cases (List.filter (fun f => decide (f.name = k)) fs).getLast? <;> rfl

theorem lastNamed_mem {fs : List DescField} {k : Str} {f : DescField} (h : lastNamed fs k = some f) : f ∈ fs ∧ f.name = k := by
  unfold lastNamed at h
  have := List.mem_of_getLast? h
  simpa using this

/-- Reading all the fields. -/
theorem readPara_fields (st : ParaState) (fs : List DescField) (h : ∀ f ∈ fs, f.Valid) (rest : List Str) :
    ∃ st', readPara st (fieldLines fs ++ rest) = readPara st' rest ∧ (st'.seen = (st.seen || !fs.isEmpty)) ∧
      ∀ k, GoMap.get? st'.vals k = ((lastNamed fs k).map DescField.text).or (GoMap.get? st.vals k) := by
  induction fs generalizing st with
  | nil => exact ⟨st, rfl, by simp, fun k => by simp [lastNamed_nil]⟩
  | cons f fs ih =>
    obtain ⟨vals, h1, h2⟩ := readPara_field st (h f (by simp)) (fieldLines fs ++ rest)
    obtain ⟨st', h3, h4, h5⟩ := ih { vals := vals, seen := true, cur := f.name } fun x hx => h x (List.mem_cons_of_mem _ hx)
    refine ⟨st', ?_, by simp [h4], fun k => ?_⟩
    · unfold fieldLines
      rw [List.flatMap_cons, List.append_assoc]
      exact h1.trans h3
    · rw [h5, h2, lastNamed_cons]
      cases lastNamed fs k with
      | some g => rfl
      | none =>
        by_cases hk : f.name = k
        · simp [hk]
        · have : ¬ k = f.name := fun e => hk e.symm
          simp [hk, this]

theorem readPara_blanks (blanks rest : List Str) (h : ∀ l ∈ blanks, BlankLine l) :
    readPara {} (blanks ++ rest) = readPara {} rest := by
  induction blanks with
  | nil => rfl
  | cons b blanks ih =>
    have hb : b = [] ∨ b = s%"\r" := h b (by simp)
    rw [List.cons_append, readPara, if_pos hb]
    exact ih fun x hx => h x (List.mem_cons_of_mem _ hx)

theorem splitOn_textOf_any (ls : List Str) (r : Str) (h : ∀ l ∈ ls, '\n' ∉ l) : splitOn '\n' (textOf ls ++ r) = ls ++ splitOn '\n' r := by
  induction ls with
  | nil => rfl
  | cons l ls ih =>
    rw [textOf, List.append_assoc, List.cons_append, splitOn_append _ _ _ (h l (by simp)), ih fun x hx => h x (List.mem_cons_of_mem _ hx)]
    rfl

theorem textLines_textOf (ls : List Str) (r : Str) (h : ∀ l ∈ ls, '\n' ∉ l) : textLines (textOf ls ++ r) = ls ++ textLines r := by
  unfold textLines
  dsimp only
  rw [splitOn_textOf_any ls r h]
  have hne := splitOn_ne_nil '\n' r
  have hl : (ls ++ splitOn '\n' r).getLast? = (splitOn '\n' r).getLast? := by
    rw [List.getLast?_append]
    cases hs : (splitOn '\n' r).getLast? with
    | none => exact absurd (List.getLast?_eq_none_iff.1 hs) hne
    | some x => rfl
  rw [hl]
  split
  · rw [List.dropLast_append_of_ne_nil hne]
  · rfl

theorem textLines_nil : textLines [] = [] := rfl

theorem splitOn_newline (t : Str) : splitOn '\n' (t ++ s%"\n") = splitOn '\n' t ++ [[]] := by
  have h := joinWith_splitOn '\n' t
  have hc := splitOn_mem '\n' t
  have hn := splitOn_ne_nil '\n' t
  have e : joinWith '\n' (splitOn '\n' t ++ [[]]) = t ++ s%"\n" := by
    have : ∀ (l : List Str), l ≠ [] → joinWith '\n' (l ++ [[]]) = joinWith '\n' l ++ s%"\n" := by
      intro l
      induction l with
      | nil => intro h; exact absurd rfl h
      | cons a l ih =>
        intro _
        cases l with
        | nil => simp [joinWith]
        | cons b l =>
          have := ih (by simp)
          simp only [List.cons_append] at this ⊢
          rw [joinWith, this]
          simp [joinWith]
    rw [this _ hn, h]
  rw [← e, splitOn_joinWith]
  · simp
  · intro x hx
    rcases List.mem_append.1 hx with hx | hx
    · exact hc x hx
    · simp only [List.mem_singleton] at hx; subst hx; simp

/-- A last newline more or less makes no difference, if the last line is not empty. -/
theorem textLines_cut (t : Str) (ls : List Str) (h : ∀ l ∈ ls, '\n' ∉ l) (hne : ls.getLast? ≠ some [])
    (e : t ++ s%"\n" = textOf ls) : textLines t = ls := by
  have h1 : splitOn '\n' t ++ [[]] = ls ++ [[]] := by
    rw [← splitOn_newline, e, splitOn_textOf _ h]
  have h2 : splitOn '\n' t = ls := List.append_cancel_right h1
  unfold textLines
  dsimp only
  rw [h2, if_neg hne]

theorem fieldLines_newline {fs : List DescField} (h : ∀ f ∈ fs, f.Valid) : ∀ l ∈ fieldLines fs, '\n' ∉ l := by
  intro l hl
  obtain ⟨f, hf, hl⟩ := List.mem_flatMap.1 hl
  unfold DescField.lines at hl
  rcases List.mem_cons.1 hl with rfl | hl
  · intro hm
    rcases List.mem_append.1 hm with hm | hm
    · exact (h f hf).nameLine hm
    · rcases List.mem_cons.1 hm with hm | hm
      · cases hm
      · exact (h f hf).oneLine hm
  · exact ((h f hf).moreLines l hl).1

theorem fieldLines_nonempty {fs : List DescField} (h : ∀ f ∈ fs, f.Valid) : ∀ l ∈ fieldLines fs, l ≠ [] := by
  intro l hl
  obtain ⟨f, hf, hl⟩ := List.mem_flatMap.1 hl
  unfold DescField.lines at hl
  rcases List.mem_cons.1 hl with rfl | hl
  · simp
  · exact (h f hf).more_ne l hl

theorem blank_newline {l : Str} (h : BlankLine l) : '\n' ∉ l := by
  rcases h with rfl | rfl <;> simp

/-- What is read from a file with these fields. -/
theorem readPara_file {fs : List DescField} (h : ∀ f ∈ fs, f.Valid) (hne : fs ≠ []) {t : Str} (ht : FileOf fs t) :
    ∃ m, readPara {} (textLines t) = some m ∧ ∀ k, GoMap.get? m k = (lastNamed fs k).map DescField.text := by
  obtain ⟨blanks, hb, ht⟩ := ht
  have hseen : ∀ (st' : ParaState), st'.seen = (false || !fs.isEmpty) → st'.seen = true := by
    intro st' e
    rw [e]
    cases fs with
    | nil => exact absurd rfl hne
    | cons => rfl
  have hnl : ∀ l ∈ blanks ++ fieldLines fs, '\n' ∉ l := by
    intro l hl
    rcases List.mem_append.1 hl with hl | hl
    · exact blank_newline (hb l hl)
    · exact fieldLines_newline h l hl
  have hdone : ∀ (rest : List Str), (rest = [] ∨ ∃ b r, BlankLine b ∧ rest = b :: r) →
      ∃ m, readPara {} (blanks ++ fieldLines fs ++ rest) = some m ∧ ∀ k, GoMap.get? m k = (lastNamed fs k).map DescField.text := by
    intro rest hr
    rw [List.append_assoc, readPara_blanks _ _ hb]
    obtain ⟨st', h1, h2, h3⟩ := readPara_fields {} fs h rest
    have hs := hseen st' h2
    refine ⟨st'.vals, ?_, fun k => by rw [h3]; simp⟩
    rw [h1]
    rcases hr with rfl | ⟨b, r, hbl, rfl⟩
    · simp [readPara, hs]
    · have hbl' : b = [] ∨ b = s%"\r" := hbl
      rw [readPara, if_pos hbl', if_pos hs]
  rcases ht with rfl | e | ⟨b, rest, hbl, rfl⟩
  · have := textLines_textOf (blanks ++ fieldLines fs) [] hnl
    rw [List.append_nil] at this
    rw [this]
    exact hdone _ (Or.inl textLines_nil)
  · rw [textLines_cut t (blanks ++ fieldLines fs) hnl ?_ e]
    · have := hdone [] (Or.inl rfl)
      simpa using this
    · rw [List.getLast?_append]
      cases hl : (fieldLines fs).getLast? with
      | none =>
        rw [List.getLast?_eq_none_iff] at hl
        cases fs with
        | nil => exact absurd rfl hne
        | cons f fs => simp [fieldLines, DescField.lines] at hl
      | some x =>
        intro e
        have e : x = [] := by simpa using e
        exact fieldLines_nonempty h x (List.mem_of_getLast? hl) e
  · rw [textLines_textOf _ _ (by
      intro l hl
      rcases List.mem_append.1 hl with hl | hl
      · exact hnl l hl
      · simp only [List.mem_singleton] at hl
        subst hl
        exact blank_newline hbl)]
    rw [List.append_assoc (blanks ++ fieldLines fs)]
    exact hdone _ (Or.inr ⟨b, textLines rest, hbl, rfl⟩)

theorem decodeText_is {fs : List DescField} (h : ∀ f ∈ fs, f.Valid) {m : GoMap Str}
    (hm : ∀ k, GoMap.get? m k = (lastNamed fs k).map DescField.text) (k : Str) : TextIs fs k (decodeText m k) := by
  unfold TextIs decodeText
  rw [hm]
  split
  · rename_i f hf
    rw [hf]
    exact (DescField.says_iff (h f (lastNamed_mem hf).1) _).2 rfl
  · rename_i hf
    rw [hf]; rfl

theorem decodeList_is {fs : List DescField} (h : ∀ f ∈ fs, f.Valid) {m : GoMap Str}
    (hm : ∀ k, GoMap.get? m k = (lastNamed fs k).map DescField.text) (k : Str) : ItemsAre fs k (decodeList m k) := by
  unfold ItemsAre decodeList
  rw [hm]
  split
  · rename_i f hf
    rw [hf]
    exact ⟨f.text, (DescField.says_iff (h f (lastNamed_mem hf).1) _).2 rfl, (listItems_iff _ _).2 rfl⟩
  · rename_i hf
    rw [hf]; rfl

/-! ### C151 -/

/-- C151: decoding the text of a DESCRIPTION, or of a record of an index, gives what its fields say, for every way the fields
can be written: the last field of a name counts, other fields and the order of fields do not matter, and nothing after a
blank line does. -/
theorem C151_fields {fs : List DescField} (h : ∀ f ∈ fs, f.Valid) (hne : fs ≠ []) {t : Str} (ht : FileOf fs t) :
    ∃ raw, decodeDesc t = some raw ∧ SaysFields fs raw := by
  obtain ⟨m, h1, h2⟩ := readPara_file h hne ht
  unfold decodeDesc
  rw [h1]
  exact ⟨_, rfl, decodeText_is h h2 _, decodeText_is h h2 _, decodeText_is h h2 _, decodeText_is h h2 _, decodeList_is h h2 _,
    decodeList_is h h2 _, decodeList_is h h2 _, decodeList_is h h2 _, decodeText_is h h2 _, decodeText_is h h2 _,
    decodeText_is h h2 _⟩

/-- C151: what the fields say is one thing only. -/
theorem C151_determined {fs : List DescField} (h : ∀ f ∈ fs, f.Valid) {raw raw' : RawDesc} (h1 : SaysFields fs raw)
    (h2 : SaysFields fs raw') : raw = raw' := by
  have ht : ∀ k v v', TextIs fs k v → TextIs fs k v' → v = v' := by
    intro k v v' a b
    unfold TextIs at a b
    split at a
    · rename_i f hf
      rw [hf] at b
      have hv := h f (lastNamed_mem hf).1
      rw [(DescField.says_iff hv _).1 a, (DescField.says_iff hv _).1 b]
    · rename_i hf
      rw [hf] at b
      rw [a, b]
  have hi : ∀ k xs xs', ItemsAre fs k xs → ItemsAre fs k xs' → xs = xs' := by
    intro k xs xs' a b
    unfold ItemsAre at a b
    split at a
    · rename_i f hf
      rw [hf] at b
      have hv := h f (lastNamed_mem hf).1
      obtain ⟨v, a1, a2⟩ := a
      obtain ⟨v', b1, b2⟩ := b
      rw [(DescField.says_iff hv _).1 a1, listItems_iff] at a2
      rw [(DescField.says_iff hv _).1 b1, listItems_iff] at b2
      rw [← a2, ← b2]
    · rename_i hf
      rw [hf] at b
      rw [a, b]
  cases raw
  cases raw'
  have a := ht _ _ _ h1.package h2.package
  have b := ht _ _ _ h1.version h2.version
  have c := ht _ _ _ h1.path h2.path
  have d := ht _ _ _ h1.repository h2.repository
  have e := hi _ _ _ h1.imports h2.imports
  have f := hi _ _ _ h1.suggests h2.suggests
  have g := hi _ _ _ h1.depends h2.depends
  have i := hi _ _ _ h1.linkingTo h2.linkingTo
  have j := ht _ _ _ h1.pkgrVersion h2.pkgrVersion
  have k := ht _ _ _ h1.pkgrInstallType h2.pkgrInstallType
  have l := ht _ _ _ h1.pkgrRepositoryURL h2.pkgrRepositoryURL
  simp only at a b c d e f g i j k l
  subst a b c d e f g i j k l
  rfl

theorem readPara_comment (st : ParaState) (a b : List Str) (c : Str) (hc : CommentLine c) :
    readPara st (a ++ c :: b) = readPara st (a ++ b) := by
  have hc' : c.head? = some '#' := hc
  induction a generalizing st with
  | nil =>
    have hne : ¬ (c = [] ∨ c = s%"\r") := by
      rintro (e | e)
      · rw [e] at hc'; simp at hc'
      · rw [e] at hc'; simp at hc'
    simp only [List.nil_append]
    rw [readPara, if_neg hne, if_pos hc']
  | cons l a ih =>
    simp only [List.cons_append]
    rw [readPara, readPara]
    simp only [ih]

/-- C151: comments, that is lines that begin with #, do not matter, wherever they are. -/
theorem C151_comments (a b : List Str) (c : Str) (hc : CommentLine c) (hn : ∀ l ∈ a ++ c :: b, '\n' ∉ l) :
    decodeDesc (textOf (a ++ c :: b)) = decodeDesc (textOf (a ++ b)) := by
  have h1 := textLines_textOf (a ++ c :: b) [] hn
  have h2 := textLines_textOf (a ++ b) [] fun l hl => hn l (by
    rcases List.mem_append.1 hl with hl | hl
    · exact List.mem_append_left _ hl
    · exact List.mem_append_right _ (List.mem_cons_of_mem _ hl))
  rw [List.append_nil, textLines_nil, List.append_nil] at h1 h2
  unfold decodeDesc
  rw [h1, h2, readPara_comment _ _ _ _ hc]

theorem readPara_none_iff (st : ParaState) (ls : List Str) : readPara st ls = none ↔
    (∃ pre bad post, ls = pre ++ bad :: post ∧ FieldLine bad ∧ ':' ∉ bad ∧
      ∀ a b c, pre = a ++ b :: c → BlankLine b → st.seen = false ∧ ∀ l ∈ a, ¬ FieldLine l) ∨
    (st.seen = false ∧ ∀ l ∈ ls, ¬ FieldLine l) := by
  induction ls generalizing st with
  | nil =>
    unfold readPara
    cases st.seen <;> simp
  | cons line rest ih =>
    rw [readPara]
    by_cases hb : line = [] ∨ line = s%"\r"
    · rw [if_pos hb]
      have hnf : ¬ FieldLine line := fun h => h.1 hb
      cases hs : st.seen with
      | true =>
        rw [if_pos rfl]
        simp only [reduceCtorEq, false_iff, not_or, false_and, not_false_eq_true, and_true, not_exists]
        rintro pre bad post ⟨h1, h2, h3, h4⟩
        cases pre with
        | nil =>
          injection h1 with e _
          rw [← e] at h2
          exact hnf h2
        | cons x pre =>
          injection h1 with e _
          have := h4 [] x pre rfl (by rw [← e]; exact hb)
          exact this
      | false =>
        rw [if_neg (by simp), ih, hs]
        constructor
        · rintro (⟨pre, bad, post, h1, h2, h3, h4⟩ | ⟨_, h⟩)
          · left
            refine ⟨line :: pre, bad, post, by rw [h1]; rfl, h2, h3, ?_⟩
            intro a b c e hbl
            cases a with
            | nil => exact ⟨rfl, by simp⟩
            | cons x a =>
              injection e with e1 e2
              obtain ⟨h5, h6⟩ := h4 a b c e2 hbl
              refine ⟨rfl, fun l hl => ?_⟩
              rcases List.mem_cons.1 hl with rfl | hl
              · rw [← e1]; exact hnf
              · exact h6 l hl
          · right
            refine ⟨rfl, fun l hl => ?_⟩
            rcases List.mem_cons.1 hl with rfl | hl
            · exact hnf
            · exact h l hl
        · rintro (⟨pre, bad, post, h1, h2, h3, h4⟩ | ⟨_, h⟩)
          · cases pre with
            | nil =>
              injection h1 with e _
              rw [← e] at h2
              exact absurd h2 hnf
            | cons x pre =>
              injection h1 with e1 e2
              left
              refine ⟨pre, bad, post, e2, h2, h3, fun a b c e hbl => ?_⟩
              obtain ⟨h5, h6⟩ := h4 (x :: a) b c (by rw [e]; rfl) hbl
              exact ⟨rfl, fun l hl => h6 l (List.mem_cons_of_mem _ hl)⟩
          · right
            exact ⟨rfl, fun l hl => h l (List.mem_cons_of_mem _ hl)⟩
    · rw [if_neg hb]
      have skip : ∀ (st' : ParaState), st'.seen = st.seen → ¬ FieldLine line →
          ((∃ pre bad post, rest = pre ++ bad :: post ∧ FieldLine bad ∧ ':' ∉ bad ∧
            ∀ a b c, pre = a ++ b :: c → BlankLine b → st'.seen = false ∧ ∀ l ∈ a, ¬ FieldLine l) ∨
          (st'.seen = false ∧ ∀ l ∈ rest, ¬ FieldLine l) ↔
          (∃ pre bad post, line :: rest = pre ++ bad :: post ∧ FieldLine bad ∧ ':' ∉ bad ∧
            ∀ a b c, pre = a ++ b :: c → BlankLine b → st.seen = false ∧ ∀ l ∈ a, ¬ FieldLine l) ∨
          (st.seen = false ∧ ∀ l ∈ line :: rest, ¬ FieldLine l)) := by
        intro st' hst hnf
        rw [hst]
        constructor
        · rintro (⟨pre, bad, post, h1, h2, h3, h4⟩ | ⟨h0, h⟩)
          · left
            refine ⟨line :: pre, bad, post, by rw [h1]; rfl, h2, h3, ?_⟩
            intro a b c e hbl
            cases a with
            | nil =>
              injection e with e1 e2
              rw [← e1] at hbl
              exact absurd hbl hb
            | cons x a =>
              injection e with e1 e2
              obtain ⟨h5, h6⟩ := h4 a b c e2 hbl
              refine ⟨h5, fun l hl => ?_⟩
              rcases List.mem_cons.1 hl with rfl | hl
              · rw [← e1]; exact hnf
              · exact h6 l hl
          · right
            refine ⟨h0, fun l hl => ?_⟩
            rcases List.mem_cons.1 hl with rfl | hl
            · exact hnf
            · exact h l hl
        · rintro (⟨pre, bad, post, h1, h2, h3, h4⟩ | ⟨h0, h⟩)
          · cases pre with
            | nil =>
              injection h1 with e _
              rw [← e] at h2
              exact absurd h2 hnf
            | cons x pre =>
              injection h1 with e1 e2
              left
              refine ⟨pre, bad, post, e2, h2, h3, fun a b c e hbl => ?_⟩
              obtain ⟨h5, h6⟩ := h4 (x :: a) b c (by rw [e]; rfl) hbl
              exact ⟨h5, fun l hl => h6 l (List.mem_cons_of_mem _ hl)⟩
          · right
            exact ⟨h0, fun l hl => h l (List.mem_cons_of_mem _ hl)⟩
      by_cases hc : line.head? = some '#'
      · rw [if_pos hc, ih]
        exact skip st rfl fun h => h.2.1 hc
      · rw [if_neg hc]
        by_cases hw : line.head? = some ' ' ∨ line.head? = some '\t'
        · rw [if_pos hw, ih]
          exact skip _ rfl fun h => h.2.2 hw
        · rw [if_neg hw]
          have hf : FieldLine line := ⟨hb, hc, hw⟩
          by_cases hcol : ':' ∈ line
          · rw [if_pos hcol]
            dsimp only
            rw [ih]
            constructor
            · rintro (⟨pre, bad, post, h1, h2, h3, h4⟩ | ⟨h0, h⟩)
              · left
                refine ⟨line :: pre, bad, post, by rw [h1]; rfl, h2, h3, ?_⟩
                intro a b c e hbl
                cases a with
                | nil =>
                  injection e with e1 e2
                  rw [← e1] at hbl
                  exact absurd hbl hb
                | cons x a =>
                  injection e with e1 e2
                  obtain ⟨h5, h6⟩ := h4 a b c e2 hbl
                  cases h5
              · cases h0
            · rintro (⟨pre, bad, post, h1, h2, h3, h4⟩ | ⟨h0, h⟩)
              · cases pre with
                | nil =>
                  injection h1 with e _
                  rw [← e] at h3
                  exact absurd hcol h3
                | cons x pre =>
                  injection h1 with e1 e2
                  left
                  refine ⟨pre, bad, post, e2, h2, h3, fun a b c e hbl => ?_⟩
                  obtain ⟨h5, h6⟩ := h4 (x :: a) b c (by rw [e]; rfl) hbl
                  exact absurd hf (h6 line (by rw [e1]; simp))
              · exact absurd hf (h line (by simp))
          · rw [if_neg hcol]
            simp only [true_iff]
            left
            exact ⟨[], line, rest, rfl, hf, hcol, fun a b c e => by simp at e⟩

/-- C151: exactly when a text does not decode: when there is no line that names a field, or when, before the blank line that
ends the first paragraph, a line that should name a field has no colon. -/
theorem C151_error_iff (ls : List Str) (hn : ∀ l ∈ ls, '\n' ∉ l) : decodeDesc (textOf ls) = none ↔
    (∀ l ∈ ls, ¬ FieldLine l) ∨
    ∃ pre bad post, ls = pre ++ bad :: post ∧ FieldLine bad ∧ ':' ∉ bad ∧
      ∀ a b c, pre = a ++ b :: c → BlankLine b → ∀ l ∈ a, ¬ FieldLine l := by
  have h1 := textLines_textOf ls [] hn
  rw [List.append_nil, textLines_nil, List.append_nil] at h1
  unfold decodeDesc
  rw [h1, Option.map_eq_none_iff, readPara_none_iff]
  simp only [true_and]
  rw [or_comm]

/-! Lists of dependencies -/

theorem onePerLine_cons (i x y : Str) (xs : List Str) : onePerLine i (x :: y :: xs) = (i ++ x ++ s%",") :: onePerLine i (y :: xs) := rfl
theorem onOneLine_cons (x y : Str) (xs : List Str) : onOneLine (x :: y :: xs) = x ++ s%", " ++ onOneLine (y :: xs) := rfl

theorem Spec.PlainItem.layout {x : Str} (h : PlainItem x) {a b : Str} (ha : ∀ c ∈ a, Layout1 c) (hb : ∀ c ∈ b, Layout1 c) :
    trimCutset (a ++ x ++ b) = x := by
  have hw : ∀ c, Layout1 c → White c := by
    intro c hc
    rcases hc with rfl | rfl | rfl | rfl <;> decide
  rw [trimCutset_iff]
  exact ⟨a, b, rfl, ha, hb, fun c hc hl => h.2.2.2.1 c hc (hw c hl), fun c hc hl => h.2.2.2.2 c hc (hw c hl)⟩

/-- C151: a list of dependencies written on one line has exactly the items written. -/
theorem C151_on_one_line (xs : List Str) (hne : xs ≠ []) (hx : ∀ x ∈ xs, PlainItem x) (k line : Str)
    (hl : Stripped line (onOneLine xs)) : ∃ v, DescField.Says { name := k, line := line } v ∧ ListItems v xs := by
  refine ⟨onOneLine xs, ⟨onOneLine xs, [], hl, by simp [PairedBy], by simp⟩, ?_⟩
  clear hl
  rw [listItems_iff]
  have key : ∀ (pre : Str), (∀ c ∈ pre, Layout1 c) → (splitOn ',' (pre ++ onOneLine xs)).map trimCutset = xs := by
    induction xs with
    | nil => exact absurd rfl hne
    | cons x xs ih =>
      intro pre hpre
      have hc : ',' ∉ pre := by
        intro h
        rcases hpre _ h with h | h | h | h <;> cases h
      have hx0 := hx x (by simp)
      cases xs with
      | nil =>
        rw [show onOneLine [x] = x from rfl, splitOn_of_not_mem _ _ (by simpa [hc] using hx0.2.1)]
        have := hx0.layout hpre (b := []) (by simp)
        simpa using this
      | cons y xs =>
        rw [onOneLine_cons]
        have e : pre ++ (x ++ s%", " ++ onOneLine (y :: xs)) = (pre ++ x) ++ ',' :: (s%" " ++ onOneLine (y :: xs)) := by simp
        rw [e, splitOn_append _ _ _ (by simpa [hc] using hx0.2.1), List.map_cons,
          ih (by simp) (fun z hz => hx z (List.mem_cons_of_mem _ hz)) (s%" ") (by simp [Layout1])]
        have := hx0.layout hpre (b := []) (by simp)
        rw [List.append_nil] at this
        rw [this]
  exact key [] (by simp)

theorem contText_item {i c x : Str} (hi : ∃ d ds, i = d :: ds) (hx : PlainItem x) (hc : c = [] ∨ c = s%",") (hdot : i ++ x ++ c ≠ [] ) :
    contText (i ++ x ++ c) = i.tail ++ x ++ c ∨ (i.tail ++ x ++ c = s%"." ∧ contText (i ++ x ++ c) = []) := by
  obtain ⟨d, ds, rfl⟩ := hi
  unfold contText
  simp only [List.cons_append, List.drop_one, List.tail_cons]
  have ht : trimRightBy isSpace (ds ++ x ++ c) = ds ++ x ++ c := by
    apply trimRightBy_id
    intro y hy
    rcases hc with rfl | rfl
    · rw [List.append_nil, List.getLast?_append] at hy
      cases hl : x.getLast? with
      | none => exact absurd (List.getLast?_eq_none_iff.1 hl) hx.1
      | some z =>
        rw [hl] at hy
        have hy : z = y := by simpa using hy
        have := hx.2.2.2.2 z hl
        rw [hy, ← isSpace_iff] at this
        simpa using this
    · rw [List.getLast?_append] at hy
      have hy : ',' = y := by simpa using hy
      rw [← hy]; decide
  rw [ht]
  by_cases hd : ds ++ x ++ c = s%"."
  · right
    exact ⟨hd, by rw [if_pos hd]⟩
  · left
    rw [if_neg hd]

/-- C151: a list of dependencies written with one item on each line, as R and devtools write it, has exactly the items
written, however the lines are indented. -/
theorem C151_one_per_line (xs : List Str) (hne : xs ≠ []) (hx : ∀ x ∈ xs, PlainItem x ∧ x ≠ s%".") (k line : Str)
    (hl : Stripped line []) (i : Str) (hi : i ≠ []) (hi2 : ∀ c ∈ i, c = ' ' ∨ c = '\t') :
    ∃ v, DescField.Says { name := k, line := line, more := onePerLine i xs } v ∧ ListItems v xs := by
  obtain ⟨d, ds, rfl⟩ : ∃ d ds, i = d :: ds := by
    cases i with
    | nil => exact absurd rfl hi
    | cons d ds => exact ⟨d, ds, rfl⟩
  have hds : ∀ c ∈ ds, Layout1 c := by
    intro c hc
    rcases hi2 c (List.mem_cons_of_mem _ hc) with rfl | rfl <;> simp [Layout1]
  have hcds : ',' ∉ ds := by
    intro h
    rcases hds _ h with h | h | h | h <;> cases h
  have hct : ∀ x ∈ xs, ∀ c, (c = [] ∨ c = s%",") → contText (d :: ds ++ x ++ c) = ds ++ x ++ c := by
    intro x hxm c hc
    obtain ⟨hp, hd⟩ := hx x hxm
    rcases contText_item (i := d :: ds) ⟨d, ds, rfl⟩ hp hc (by simp) with h | ⟨h, _⟩
    · exact h
    · exfalso
      simp only [List.tail_cons] at h
      have h2 : x ≠ [] := hp.1
      cases ds with
      | nil =>
        rcases hc with rfl | rfl
        · exact hd (by simpa using h)
        · cases x with
          | nil => exact h2 rfl
          | cons a x => simp at h
      | cons e ds =>
        cases x with
        | nil => exact h2 rfl
        | cons a x => simp at h
  have hmore : ∀ l ∈ onePerLine (d :: ds) xs, l ≠ [] := by
    intro l hlm
    have : ∀ (xs : List Str), ∀ l ∈ onePerLine (d :: ds) xs, l ≠ [] := by
      intro xs
      induction xs with
      | nil => simp [onePerLine]
      | cons x xs ih =>
        cases xs with
        | nil => simp [onePerLine]
        | cons y xs =>
          rw [onePerLine_cons]
          intro l hl
          rcases List.mem_cons.1 hl with rfl | hl
          · simp
          · exact ih l hl
    exact this xs l hlm
  refine ⟨textOf ((onePerLine (d :: ds) xs).map contText), ⟨[], (onePerLine (d :: ds) xs).map contText, hl, ?_, ?_⟩, ?_⟩
  · exact (paired_map_on (f := contText) _ _ fun a ha b => contText_iff a b (hmore a ha)).2 rfl
  · have : onePerLine (d :: ds) xs ≠ [] := by
      cases xs with
      | nil => exact absurd rfl hne
      | cons x xs =>
        cases xs with
        | nil => simp [onePerLine]
        | cons y xs => simp [onePerLine_cons]
    rw [if_neg this]
    rfl
  · rw [listItems_iff]
    have key : ∀ (pre : Str), (∀ c ∈ pre, Layout1 c) →
        (splitOn ',' (pre ++ textOf ((onePerLine (d :: ds) xs).map contText))).map trimCutset = xs := by
      clear hmore
      induction xs with
      | nil => exact absurd rfl hne
      | cons x xs ih =>
        intro pre hpre
        have hc : ',' ∉ pre := by
          intro h
          rcases hpre _ h with h | h | h | h <;> cases h
        have hx0 := (hx x (by simp)).1
        have hpd : ∀ c ∈ pre ++ ds, Layout1 c := by
          intro c hc
          rcases List.mem_append.1 hc with hc | hc
          · exact hpre c hc
          · exact hds c hc
        cases xs with
        | nil =>
          have e1 := hct x (by simp) [] (Or.inl rfl)
          simp only [List.append_nil] at e1
          rw [show onePerLine (d :: ds) [x] = [d :: ds ++ x] from rfl, List.map_singleton, e1]
          have e2 : pre ++ textOf [ds ++ x] = (pre ++ ds) ++ x ++ s%"\n" := by simp [textOf]
          rw [e2, splitOn_of_not_mem _ _ (by simpa [hc, hcds] using hx0.2.1), List.map_singleton,
            hx0.layout hpd (by simp [Layout1])]
        | cons y xs =>
          have e1 := hct x (by simp) (s%",") (Or.inr rfl)
          rw [onePerLine_cons, List.map_cons, e1]
          have e2 : pre ++ textOf ((ds ++ x ++ s%",") :: (onePerLine (d :: ds) (y :: xs)).map contText) =
              (pre ++ ds ++ x) ++ ',' :: (s%"\n" ++ textOf ((onePerLine (d :: ds) (y :: xs)).map contText)) := by simp [textOf]
          rw [e2, splitOn_append _ _ _ (by simpa [hc, hcds] using hx0.2.1), List.map_cons,
            ih (by simp) (fun z hz => hx z (List.mem_cons_of_mem _ hz)) (fun z hz => hct z (List.mem_cons_of_mem _ hz))
              (s%"\n") (by simp [Layout1])]
          have := hx0.layout hpd (b := []) (by simp)
          rw [List.append_nil] at this
          rw [this]
    exact key [] (by simp)

/-- C151: reading a DESCRIPTION with these fields never fails with an error; the program panics iff an item of a dependency
field is malformed, and otherwise the description says what the fields say. -/
theorem C151_parsed {fs : List DescField} (h : ∀ f ∈ fs, f.Valid) (hne : fs ≠ []) {t : Str} (ht : FileOf fs t) :
    ∃ raw, SaysFields fs raw ∧
      (parseDesc t = .panics ↔ ∃ x ∈ raw.imports ++ raw.suggests ++ raw.depends ++ raw.linkingTo, parseDep x = none) ∧
      (parseDesc t ≠ .panics → ∃ d, parseDesc t = .ok d ∧ Describes raw d) := by
  obtain ⟨raw, h1, h2⟩ := C151_fields h hne ht
  refine ⟨raw, h2, ?_, ?_⟩
  · rw [← C05_description_panics_iff]
    unfold parseDesc
    rw [h1]
    simp only
    cases newDesc raw <;> simp
  · intro hp
    unfold parseDesc at hp ⊢
    rw [h1] at hp ⊢
    simp only at hp ⊢
    cases hd : newDesc raw with
    | none => rw [hd] at hp; exact absurd rfl hp
    | some d => exact ⟨d, rfl, C05_description hd⟩

/-! ### Examples -/

/-- The fields of desc/testdata/D2 that matter here. -/
def rox2 : List DescField :=
  [{ name := s%"Package", line := s%" roxygen2" },
   { name := s%"Description", line := s%" A 'Doxygen'-like in-source documentation system",
     more := [s%"    for Rd, collation, and 'NAMESPACE' files."] },
   { name := s%"URL", line := s%" https://github.com/klutometis/roxygen" },
   { name := s%"Version", line := s%" 4.1.1.9000" },
   { name := s%"Depends", line := [], more := [s%"    R (>= 3.0.2)"] },
   { name := s%"Imports", line := s%" ",
     more := onePerLine (s%"    ") [s%"stringr (>= 0.5)", s%"brew", s%"digest", s%"methods", s%"Rcpp (>= 0.11.0)"] },
   { name := s%"Suggests", line := [], more := [s%"    testthat (>= 0.8.0),", s%"    knitr"] },
   { name := s%"LinkingTo", line := s%" Rcpp" },
   { name := s%"RoxygenNote", line := s%" 4.1.1.9000" }]

theorem rox2_valid : ∀ f ∈ rox2, f.Valid := by
  have hb : ∀ (n : Str), trimSpace n = n → Stripped n n := fun n h => (trimSpace_iff n n).1 h
  intro f hf
  have h : f.name ≠ [] ∧ trimSpace f.name = f.name ∧ ':' ∉ f.name ∧ f.name.head? ≠ some '#' ∧ '\n' ∉ f.name ∧ '\n' ∉ f.line ∧
      ∀ l ∈ f.more, '\n' ∉ l ∧ (l.head? = some ' ' ∨ l.head? = some '\t') := by
    revert f
    decide +kernel
  exact ⟨h.1, hb _ h.2.1, h.2.2.1, h.2.2.2.1, h.2.2.2.2.1, h.2.2.2.2.2.1, h.2.2.2.2.2.2⟩

/-- It is read as the project's own test expects (desc/desc_test.go:31-53). -/
example : decodeDesc (textOf (fieldLines rox2)) = some
    { package := s%"roxygen2", version := s%"4.1.1.9000", depends := [s%"R (>= 3.0.2)"],
      imports := [s%"stringr (>= 0.5)", s%"brew", s%"digest", s%"methods", s%"Rcpp (>= 0.11.0)"],
      suggests := [s%"testthat (>= 0.8.0)", s%"knitr"], linkingTo := [s%"Rcpp"] } := by decide +kernel

example : FileOf rox2 (textOf (fieldLines rox2)) := ⟨[], by simp, Or.inl rfl⟩

example : ∃ f ∈ rox2, f.name = s%"Description" ∧
    f.Says (s%"A 'Doxygen'-like in-source documentation system\n   for Rd, collation, and 'NAMESPACE' files.\n") := by
  refine ⟨_, by unfold rox2; exact List.mem_cons_of_mem _ (List.mem_cons_self ..), rfl, ?_⟩
  rw [DescField.says_iff (rox2_valid _ (by unfold rox2; exact List.mem_cons_of_mem _ (List.mem_cons_self ..)))]
  decide +kernel

/-- The last newline is missing, a blank line comes first, and the description is the same. -/
example : FileOf [{ name := s%"Package", line := s%" a" }] (s%"\nPackage: a") ∧
    FileOf [{ name := s%"Package", line := s%" a" }] (s%"Package: a\n\nPackage: b\nnonsense") :=
  ⟨⟨[[]], by simp [BlankLine], Or.inr (Or.inl rfl)⟩, ⟨[], by simp, Or.inr (Or.inr ⟨[], s%"Package: b\nnonsense", Or.inl rfl, rfl⟩)⟩⟩

example : decodeDesc (s%"Package: a\n\nPackage: b\nnonsense") = some { package := s%"a" } ∧
    decodeDesc (s%"Package: a\nnonsense") = none ∧ decodeDesc (s%"\n") = none ∧
    decodeDesc (s%"Package: a\n# nonsense\nVersion: 1.0") = some { package := s%"a", version := s%"1.0" } := by decide +kernel

example : PlainItem (s%"stringr (>= 0.5)") := by unfold PlainItem; decide +kernel

example : parseDesc (s%"Package: a\nImports: b (1.0)") = .panics := by decide +kernel

end Pkgr
