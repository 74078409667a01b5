/- C152: a DESCRIPTION with pkgr's stamp is read back. -/
import Verif.Props.Control
import Verif.Props.Install
import Verif.Props.InstallMore
import Verif.Props.Rollback2
import Verif.Props.Inspect
import Verif.Props.Queue

namespace Pkgr
open Spec

/-- The value of a field. -/
def fieldValue (fs : List DescField) (k : Str) : Option Str := (lastNamed fs k).map DescField.text

/-- The items of a value. -/
def itemsOf (v : Option Str) : List Str :=
  match v with
  | none => []
  | some v => (splitOn ',' v).map trimCutset

/-- The record with these values. -/
def rawOf (v : Str → Option Str) : RawDesc :=
  { package := (v (s%"Package")).getD [], version := (v (s%"Version")).getD [], path := (v (s%"Path")).getD [],
    repository := (v (s%"Repository")).getD [],
    imports := itemsOf (v (s%"Imports")), suggests := itemsOf (v (s%"Suggests")),
    depends := itemsOf (v (s%"Depends")), linkingTo := itemsOf (v (s%"LinkingTo")),
    pkgrVersion := (v (s%"PkgrVersion")).getD [], pkgrInstallType := (v (s%"PkgrInstallType")).getD [],
    pkgrRepositoryURL := (v (s%"PkgrRepositoryURL")).getD [] }

theorem decodeDesc_file {fs : List DescField} (h : ∀ f ∈ fs, f.Valid) (hne : fs ≠ []) {t : Str} (ht : FileOf fs t) :
    decodeDesc t = some (rawOf (fieldValue fs)) := by
  obtain ⟨m, h1, h2⟩ := readPara_file h hne ht
  unfold decodeDesc
  rw [h1]
  simp only [Option.map_some, Option.some.injEq]
  have hl : ∀ k, decodeList m k = itemsOf (fieldValue fs k) := by
    intro k
    unfold decodeList itemsOf fieldValue
    rw [h2]
    cases lastNamed fs k <;> rfl
  unfold rawOf decodeText
  simp only [hl, h2]
  rfl

theorem readLines_textOf (ls : List Str) (h : ∀ l ∈ ls, '\n' ∉ l) (hr : ∀ l ∈ ls, '\r' ∉ l) : readLines (textOf ls) = ls := by
  unfold readLines
  dsimp only
  rw [splitOn_textOf ls h]
  simp only [List.getLast?_append, List.getLast?_singleton, Option.some_or, if_true, List.dropLast_concat]
  have : ∀ l ∈ ls, dropCR l = l := by
    intro l hl
    unfold dropCR
    rw [if_neg]
    intro e
    exact hr l hl (List.mem_of_getLast? e)
  clear h hr
  induction ls with
  | nil => rfl
  | cons l ls ih =>
    rw [List.map_cons, this l (by simp), ih fun x hx => this x (List.mem_cons_of_mem _ hx)]

theorem infix_skip {c : Char} {p a b : Str} (hc : c ∉ a) (h : (c :: p) <:+: a ++ b) : (c :: p) <:+: b := by
  induction a with
  | nil => exact h
  | cons x a ih =>
    apply ih (fun h => hc (List.mem_cons_of_mem _ h))
    rw [List.cons_append, List.infix_cons_iff] at h
    rcases h with h | h
    · exfalso
      rw [List.cons_prefix_cons] at h
      exact hc (by rw [h.1]; simp)
    · exact h

theorem noMarker_append {a b : Str} (ha : 'P' ∉ a) (hb : NoMarker b) : NoMarker (a ++ b) :=
  ⟨fun h => hb.1 (infix_skip ha h), fun h => hb.2.1 (infix_skip ha h), fun h => hb.2.2 (infix_skip ha h)⟩

theorem noMarker_infix {a b : Str} (h : a <:+: b) (hb : NoMarker b) : NoMarker a :=
  ⟨fun x => hb.1 (x.trans h), fun x => hb.2.1 (x.trans h), fun x => hb.2.2 (x.trans h)⟩

theorem isPkgrLine_iff (l : Str) : isPkgrLine l = false ↔ NoMarker l := by
  unfold isPkgrLine NoMarker
  rw [← contains_iff, ← contains_iff, ← contains_iff]
  cases contains l (s%"PkgrVersion:") <;> cases contains l (s%"PkgrInstallType:") <;> cases contains l (s%"PkgrRepositoryURL") <;> simp

theorem trimRight_split (s : Str) : ∃ ws, s = trimRightBy isSpace s ++ ws ∧ (∀ x ∈ ws, White x) ∧
    ∀ x, (trimRightBy isSpace s).getLast? = some x → ¬ White x := by
  rw [trimRightBy_reverse]
  refine ⟨(s.reverse.takeWhile isSpace).reverse, ?_, ?_, ?_⟩
  · rw [← List.reverse_append, List.takeWhile_append_dropWhile, List.reverse_reverse]
  · intro x hx
    rw [← isSpace_iff]
    exact (List.all_eq_true.1 (List.all_takeWhile (l := s.reverse))) x (by simpa using hx)
  · intro x hx
    rw [List.getLast?_reverse] at hx
    have := List.head?_dropWhile_not isSpace s.reverse
    rw [hx] at this
    rw [← isSpace_iff]
    simpa using this

theorem trimSpace_trimRight (s : Str) : trimSpace (trimRightBy isSpace s) = trimSpace s := by
  obtain ⟨ws, h1, h2, h3⟩ := trimRight_split s
  symm
  rw [trimSpace_iff]
  obtain ⟨a, b, h4, h5, h6, h7, h8⟩ := (trimSpace_iff (trimRightBy isSpace s) _).1 rfl
  refine ⟨a, b ++ ws, ?_, h5, ?_, h7, h8⟩
  · rw [← List.append_assoc, ← h4, ← h1]
  · intro c hc
    rcases List.mem_append.1 hc with hc | hc
    · exact h6 c hc
    · exact h2 c hc

theorem trimSpace_repository (l : Str) : trimSpace (s%"Repository:" ++ l) = s%"Repository:" ++ trimRightBy isSpace l := by
  obtain ⟨ws, h1, h2, h3⟩ := trimRight_split l
  rw [trimSpace_iff]
  refine ⟨[], ws, ?_, by simp, h2, ?_, ?_⟩
  · rw [List.nil_append, List.append_assoc, ← h1]
  · intro c hc
    have : 'R' = c := by simpa using hc
    rw [← this]; decide
  · intro c hc
    rw [List.getLast?_append] at hc
    cases hl : (trimRightBy isSpace l).getLast? with
    | none =>
      rw [hl] at hc
      have : ':' = c := by simpa using hc
      rw [← this]; decide
    | some x =>
      rw [hl] at hc
      have : x = c := by simpa using hc
      rw [← this]
      exact h3 x hl

instance (k : Str) : Decidable (PkgrField k) := by unfold PkgrField; infer_instance

/-- The same as the lines say: the fields after stamping, before pkgr's fields are added. -/
def stampField (st : Stamp) (f : DescField) : List DescField :=
  if PkgrField f.name then []
  else if f.name = s%"Repository" ∧ trimSpace (s%"Repository:" ++ f.line) ≠ trimSpace (s%"Repository: " ++ st.repo) then
    [{ name := s%"OriginalRepository", line := s%" " ++ trimBlanks ((splitOn ':' f.line)[0]?.getD []) },
     { name := s%"Repository", line := s%" " ++ st.repo }]
  else [f]

/-- pkgr's fields. -/
def pkgrFields (st : Stamp) : List DescField :=
  [{ name := s%"PkgrVersion", line := s%" " ++ st.version }, { name := s%"PkgrInstallType", line := s%" " ++ st.installType },
   { name := s%"PkgrRepositoryURL", line := s%" " ++ st.repoURL }]

/-- The fields of a stamped DESCRIPTION. -/
def stampFields (st : Stamp) (fs : List DescField) : List DescField := fs.flatMap (stampField st) ++ pkgrFields st

theorem name_of_prefix {k n rest : Str} (hk : ':' ∉ k) (hn : ':' ∉ n) (h : (k ++ s%":") <+: n ++ ':' :: rest) : n = k := by
  obtain ⟨t, ht⟩ := h
  have h1 : (k ++ s%":" ++ t).takeWhile (fun x => decide (x ≠ ':')) = k := by
    rw [List.append_assoc, List.takeWhile_append_of_pos]
    · simp
    · intro x hx
      simp only [ne_eq, decide_eq_true_eq]
      rintro rfl
      exact hk hx
  have h2 : (n ++ ':' :: rest).takeWhile (fun x => decide (x ≠ ':')) = n := by
    rw [List.takeWhile_append_of_pos]
    · simp
    · intro x hx
      simp only [ne_eq, decide_eq_true_eq]
      rintro rfl
      exact hn hx
  rw [← h1, ht, h2]

theorem stampLine_cont (repo : Str) {l : Str} (h : l.head? = some ' ' ∨ l.head? = some '\t') (hm : NoMarker l) :
    stampLine repo l = [l] := by
  unfold stampLine
  rw [(isPkgrLine_iff l).2 hm]
  have : hasPrefix l (s%"Repository:") = false := by
    cases hp : hasPrefix l (s%"Repository:") with
    | false => rfl
    | true =>
      rw [hasPrefix_iff] at hp
      obtain ⟨t, rfl⟩ := hp
      simp at h
  rw [this]
  simp

theorem stampField_lines {fs : List DescField} (h : Stampable fs) (st : Stamp) {f : DescField} (hf : f ∈ fs) :
    f.lines.flatMap (stampLine st.repo) = fieldLines (stampField st f) := by
  have hv := h.valid f hf
  unfold stampField
  by_cases hp : PkgrField f.name
  · rw [if_pos hp]
    have hm := h.single f hf (Or.inl hp)
    have : isPkgrLine (f.name ++ ':' :: f.line) = true := by
      cases hb : isPkgrLine (f.name ++ ':' :: f.line) with
      | true => rfl
      | false =>
        rw [isPkgrLine_iff] at hb
        exfalso
        rcases hp with e | e | e <;> rw [e] at hb
        · exact hb.1 ⟨[], f.line, rfl⟩
        · exact hb.2.1 ⟨[], f.line, rfl⟩
        · exact hb.2.2 ⟨[], s%":" ++ f.line, rfl⟩
    unfold DescField.lines
    rw [hm]
    simp [stampLine, this, fieldLines]
  · rw [if_neg hp]
    have hnm := h.unmarked f hf hp
    have h1 : isPkgrLine (f.name ++ ':' :: f.line) = false := (isPkgrLine_iff _).2 (hnm _ (by simp [DescField.lines]))
    by_cases hr : f.name = s%"Repository"
    · have hm := h.single f hf (Or.inr hr)
      have hpre : hasPrefix (f.name ++ ':' :: f.line) (s%"Repository:") = true := by
        rw [hasPrefix_iff, hr]
        exact ⟨f.line, rfl⟩
      unfold DescField.lines
      rw [hm, List.flatMap_singleton]
      unfold stampLine
      rw [h1, hpre]
      simp only [Bool.false_eq_true, if_false, Bool.true_and]
      rw [hr]
      have e0 : (s%"Repository") ++ ':' :: f.line = s%"Repository:" ++ f.line := rfl
      rw [e0]
      by_cases ht : trimSpace (s%"Repository:" ++ f.line) ≠ trimSpace (s%"Repository: " ++ st.repo)
      · have hd : (decide (trimSpace (s%"Repository:" ++ f.line) ≠ trimSpace (s%"Repository: " ++ st.repo))) = true := by
          simpa using ht
        rw [if_pos hd, if_pos ⟨rfl, ht⟩]
        have hsp : splitOn ':' (s%"Repository:" ++ f.line) = s%"Repository" :: splitOn ':' f.line := by
          have := splitOn_append ':' (s%"Repository") f.line (by decide)
          exact this
        rw [hsp]
        simp only [List.getElem?_cons_succ]
        rfl
      · have hd : ¬ (decide (trimSpace (s%"Repository:" ++ f.line) ≠ trimSpace (s%"Repository: " ++ st.repo))) = true := by
          simpa using ht
        rw [if_neg hd, if_neg fun h => ht h.2]
        simp only [fieldLines, List.flatMap_singleton, DescField.lines, hm, hr]
        rfl
    · rw [if_neg fun h => hr h.1]
      have hpre : hasPrefix (f.name ++ ':' :: f.line) (s%"Repository:") = false := by
        cases hb : hasPrefix (f.name ++ ':' :: f.line) (s%"Repository:") with
        | false => rfl
        | true =>
          rw [hasPrefix_iff] at hb
          exact absurd (name_of_prefix (k := s%"Repository") (by decide) hv.colon hb) hr
      unfold DescField.lines
      rw [List.flatMap_cons]
      have h2 : stampLine st.repo (f.name ++ ':' :: f.line) = [f.name ++ ':' :: f.line] := by
        unfold stampLine
        rw [h1, hpre]
        simp
      rw [h2]
      have h3 : ∀ l ∈ f.more, stampLine st.repo l = [l] := fun l hl =>
        stampLine_cont _ (hv.moreLines l hl).2 (hnm l (by simp [DescField.lines, hl]))
      have h4 : ∀ (ls : List Str), (∀ l ∈ ls, stampLine st.repo l = [l]) → ls.flatMap (stampLine st.repo) = ls := by
        intro ls hls
        induction ls with
        | nil => rfl
        | cons l ls ih =>
          rw [List.flatMap_cons, hls l (by simp), ih fun x hx => hls x (List.mem_cons_of_mem _ hx)]
          rfl
      rw [h4 _ h3]
      simp [fieldLines, DescField.lines]

theorem fieldLines_append (a b : List DescField) : fieldLines (a ++ b) = fieldLines a ++ fieldLines b := by
  simp [fieldLines]

theorem stampLines_fields {fs : List DescField} (h : Stampable fs) (st : Stamp) :
    stampLines (fieldLines fs) st = fieldLines (stampFields st fs) := by
  unfold stampLines stampFields
  rw [fieldLines_append]
  congr 1
  have key : ∀ (gs : List DescField), (∀ f ∈ gs, f.lines.flatMap (stampLine st.repo) = fieldLines (stampField st f)) →
      (fieldLines gs).flatMap (stampLine st.repo) = fieldLines (gs.flatMap (stampField st)) := by
    intro gs hg
    induction gs with
    | nil => rfl
    | cons f gs ih =>
      have e : fieldLines (f :: gs) = f.lines ++ fieldLines gs := rfl
      rw [e, List.flatMap_append, List.flatMap_cons, fieldLines_append, hg f (by simp),
        ih fun x hx => hg x (List.mem_cons_of_mem _ hx)]
  exact key fs fun f hf => stampField_lines h st hf

theorem stripped_self {n : Str} (h : trimSpace n = n) : Stripped n n := (trimSpace_iff n n).1 h

theorem valid_simple {n v : Str} (h0 : n ≠ []) (h1 : trimSpace n = n) (h2 : ':' ∉ n) (h3 : n.head? ≠ some '#') (h4 : '\n' ∉ n)
    (h5 : '\n' ∉ v) : DescField.Valid { name := n, line := v } :=
  ⟨h0, stripped_self h1, h2, h3, h4, h5, by simp⟩

theorem splitOn_head_prefix (c : Char) (s : Str) : ((splitOn c s)[0]?.getD []) <+: s := by
  induction s with
  | nil => simp [splitOn]
  | cons d s ih =>
    rw [splitOn]
    split
    · simp
    · split
      · rename_i h; exact absurd h (splitOn_ne_nil _ _)
      · rename_i w ws h
        rw [h] at ih
        simpa using ih

theorem original_infix (f : DescField) : trimBlanks ((splitOn ':' f.line)[0]?.getD []) <:+: f.line :=
  (trimBlanks_infix _).trans (splitOn_head_prefix _ _).isInfix

theorem mem_of_infix {a b : Str} (h : a <:+: b) {c : Char} (hc : c ∈ a) : c ∈ b := h.subset hc

theorem stampFields_each {fs : List DescField} (h : Stampable fs) {st : Stamp} (hv : OneLineText st.version)
    (ht : OneLineText st.installType) (hu : OneLineText st.repoURL) (hr : OneLineText st.repo) :
    ∀ g ∈ stampFields st fs, g.Valid ∧ (PkgrField g.name ∨ g.name = s%"Repository" → g.more = []) ∧
      (NoMarker st.repo → ¬ PkgrField g.name → ∀ l ∈ g.lines, NoMarker l) ∧ ∀ l ∈ g.lines, '\r' ∉ l := by
  have hb : ∀ {v : Str}, OneLineText v → '\n' ∉ s%" " ++ v ∧ '\r' ∉ s%" " ++ v := by
    intro v hv
    simp [hv.2.1, hv.2.2]
  intro g hg
  unfold stampFields at hg
  rcases List.mem_append.1 hg with hg | hg
  · obtain ⟨f, hf, hg⟩ := List.mem_flatMap.1 hg
    unfold stampField at hg
    split at hg
    · simp at hg
    rename_i hp
    split at hg
    · rename_i hrep
      have hnm := h.unmarked f hf hp (f.name ++ ':' :: f.line) (by simp [DescField.lines])
      have hcr := h.noCR (f.name ++ ':' :: f.line) (List.mem_flatMap.2 ⟨f, hf, by simp [DescField.lines]⟩)
      have hoi := original_infix f
      simp only [List.mem_cons, List.not_mem_nil, or_false] at hg
      rcases hg with rfl | rfl
      · refine ⟨valid_simple (by simp) (by decide +kernel) (by decide) (by simp) (by decide) ?_, fun _ => rfl, fun hm _ l hl => ?_, fun l hl => ?_⟩
        · intro hc
          have hc : '\n' ∈ trimBlanks ((splitOn ':' f.line)[0]?.getD []) := by simpa using hc
          exact (h.valid f hf).oneLine (mem_of_infix hoi hc)
        · simp only [DescField.lines, List.mem_singleton] at hl
          subst hl
          have : NoMarker ((s%"OriginalRepository: ") ++ trimBlanks ((splitOn ':' f.line)[0]?.getD [])) :=
            noMarker_append (by decide) (noMarker_infix (hoi.trans ⟨f.name ++ s%":", [], by simp⟩) hnm)
          exact this
        · simp only [DescField.lines, List.mem_singleton] at hl
          subst hl
          intro hc
          have hc : '\r' ∈ trimBlanks ((splitOn ':' f.line)[0]?.getD []) := by simpa using hc
          exact hcr (by simp [mem_of_infix hoi hc])
      · refine ⟨valid_simple (by simp) (by decide +kernel) (by decide) (by simp) (by decide) (hb hr).1, fun _ => rfl, fun hm _ l hl => ?_, fun l hl => ?_⟩
        · simp only [DescField.lines, List.mem_singleton] at hl
          subst hl
          have : NoMarker ((s%"Repository: ") ++ st.repo) := noMarker_append (by decide) hm
          exact this
        · simp only [DescField.lines, List.mem_singleton] at hl
          subst hl
          simp [hr.2.2]
    · simp only [List.mem_singleton] at hg
      subst hg
      exact ⟨h.valid g hf, h.single g hf, fun _ => h.unmarked g hf, fun l hl => h.noCR l (List.mem_flatMap.2 ⟨g, hf, hl⟩)⟩
  · simp only [pkgrFields, List.mem_cons, List.not_mem_nil, or_false] at hg
    rcases hg with rfl | rfl | rfl
    · exact ⟨valid_simple (by simp) (by decide +kernel) (by decide) (by simp) (by decide) (hb hv).1, fun _ => rfl,
        fun _ hp => absurd (Or.inl rfl) hp, fun l hl => by
          simp only [DescField.lines, List.mem_singleton] at hl
          subst hl
          simp [hv.2.2]⟩
    · exact ⟨valid_simple (by simp) (by decide +kernel) (by decide) (by simp) (by decide) (hb ht).1, fun _ => rfl,
        fun _ hp => absurd (Or.inr (Or.inl rfl)) hp, fun l hl => by
          simp only [DescField.lines, List.mem_singleton] at hl
          subst hl
          simp [ht.2.2]⟩
    · exact ⟨valid_simple (by simp) (by decide +kernel) (by decide) (by simp) (by decide) (hb hu).1, fun _ => rfl,
        fun _ hp => absurd (Or.inr (Or.inr rfl)) hp, fun l hl => by
          simp only [DescField.lines, List.mem_singleton] at hl
          subst hl
          simp [hu.2.2]⟩

theorem stampFields_stampable {fs : List DescField} (h : Stampable fs) {st : Stamp} (hv : OneLineText st.version)
    (ht : OneLineText st.installType) (hu : OneLineText st.repoURL) (hr : OneLineText st.repo) (hm : NoMarker st.repo) :
    Stampable (stampFields st fs) := by
  have key := stampFields_each h hv ht hu hr
  refine ⟨fun g hg => (key g hg).1, by simp [stampFields, pkgrFields], fun g hg => (key g hg).2.1,
    fun g hg => (key g hg).2.2.1 hm, ?_⟩
  intro l hl
  obtain ⟨g, hg, hl⟩ := List.mem_flatMap.1 hl
  exact (key g hg).2.2.2 l hl

/-! The values of the stamped fields -/

theorem lastNamed_append (a b : List DescField) (k : Str) : lastNamed (a ++ b) k = (lastNamed b k).or (lastNamed a k) := by
  unfold lastNamed
  rw [List.filter_append, List.getLast?_append]

theorem text_simple (n v : Str) (h : OneLineText v) : DescField.text { name := n, line := s%" " ++ v } = v := by
  unfold DescField.text
  rw [if_pos rfl]
  simp only
  rw [trimSpace_spaces_append (by simp; decide)]
  exact (trimSpace_iff _ _).2 h.1

theorem lastNamed_body_other (st : Stamp) (fs : List DescField) (k : Str) (h1 : ¬ PkgrField k) (h2 : k ≠ s%"Repository")
    (h3 : k ≠ s%"OriginalRepository") : lastNamed (fs.flatMap (stampField st)) k = lastNamed fs k := by
  induction fs with
  | nil => rfl
  | cons f fs ih =>
    rw [List.flatMap_cons, lastNamed_append, lastNamed_cons, ih]
    congr 1
    unfold stampField
    by_cases hp : PkgrField f.name
    · rw [if_pos hp]
      rw [if_neg (fun e => h1 (by rw [← e]; exact hp))]
      rfl
    · rw [if_neg hp]
      split
      · rename_i hr
        rw [if_neg (fun e => h2 (by rw [← e]; exact hr.1))]
        have a1 : ¬ (s%"OriginalRepository") = k := fun e => h3 e.symm
        have a2 : ¬ (s%"Repository") = k := fun e => h2 e.symm
        rw [lastNamed_cons, lastNamed_cons, lastNamed_nil, if_neg a1, if_neg a2]
        rfl
      · rw [lastNamed_cons, lastNamed_nil]
        rfl

theorem lastNamed_body_pkgr (st : Stamp) (fs : List DescField) (k : Str) (h : PkgrField k) :
    lastNamed (fs.flatMap (stampField st)) k = none := by
  induction fs with
  | nil => rfl
  | cons f fs ih =>
    rw [List.flatMap_cons, lastNamed_append, ih]
    unfold stampField
    split
    · rfl
    · rename_i hp
      split
      · have a1 : ¬ (s%"OriginalRepository") = k := by rintro rfl; revert h; decide
        have a2 : ¬ (s%"Repository") = k := by rintro rfl; revert h; decide
        rw [lastNamed_cons, lastNamed_cons, lastNamed_nil, if_neg a1, if_neg a2]
        rfl
      · rw [lastNamed_cons, lastNamed_nil, if_neg (fun e => hp (by rw [e]; exact h))]
        rfl

theorem fieldValue_body_repo {fs : List DescField} (h : ∀ f ∈ fs, f.name = s%"Repository" → f.more = []) (st : Stamp) (hr : OneLineText st.repo) :
    fieldValue (fs.flatMap (stampField st)) (s%"Repository") = if ∃ f ∈ fs, f.name = s%"Repository" then some st.repo else none := by
  induction fs with
  | nil => simp [fieldValue, lastNamed_nil]
  | cons f fs ih =>
    have ih' := ih fun x hx => h x (List.mem_cons_of_mem _ hx)
    unfold fieldValue at ih' ⊢
    rw [List.flatMap_cons, lastNamed_append]
    cases hl : lastNamed (fs.flatMap (stampField st)) (s%"Repository") with
    | some g =>
      rw [hl] at ih'
      by_cases hex : ∃ f ∈ fs, f.name = s%"Repository"
      · rw [if_pos hex] at ih'
        have : ∃ x ∈ f :: fs, x.name = s%"Repository" := by
          obtain ⟨x, hx, e⟩ := hex
          exact ⟨x, List.mem_cons_of_mem _ hx, e⟩
        rw [if_pos this]
        exact ih'
      · rw [if_neg hex] at ih'
        simp at ih'
    | none =>
      rw [hl] at ih'
      have hex : ¬ ∃ f ∈ fs, f.name = s%"Repository" := by
        intro hex
        rw [if_pos hex] at ih'
        simp at ih'
      rw [Option.none_or]
      unfold stampField
      by_cases hp : PkgrField f.name
      · rw [if_pos hp]
        have hn : f.name ≠ s%"Repository" := by
          intro e
          rw [e] at hp
          revert hp
          decide
        rw [lastNamed_nil, if_neg]
        · rfl
        · rintro ⟨x, hx, e⟩
          rcases List.mem_cons.1 hx with rfl | hx
          · exact hn e
          · exact hex ⟨x, hx, e⟩
      · rw [if_neg hp]
        by_cases hrep : f.name = s%"Repository" ∧ trimSpace (s%"Repository:" ++ f.line) ≠ trimSpace (s%"Repository: " ++ st.repo)
        · rw [if_pos hrep]
          rw [if_pos ⟨f, by simp, hrep.1⟩, lastNamed_cons, lastNamed_cons, lastNamed_nil]
          simp only [if_true, Option.none_or, Option.some_or, Option.map_some]
          rw [text_simple _ _ hr]
        · have hnr := hrep
          rw [if_neg hrep, lastNamed_cons, lastNamed_nil, Option.none_or]
          by_cases hn : f.name = s%"Repository"
          · rw [if_pos hn, if_pos ⟨f, by simp, hn⟩]
            have heq : trimSpace (s%"Repository:" ++ f.line) = trimSpace (s%"Repository: " ++ st.repo) :=
              Classical.byContradiction fun hne => hnr ⟨hn, hne⟩
            have e2 : s%"Repository: " ++ st.repo = s%"Repository:" ++ (s%" " ++ st.repo) := rfl
            rw [e2, trimSpace_repository, trimSpace_repository] at heq
            have h3 := List.append_cancel_left heq
            have h4 : trimSpace f.line = st.repo := by
              rw [← trimSpace_trimRight, h3, trimSpace_trimRight, trimSpace_spaces_append (by simp; decide)]
              exact (trimSpace_iff _ _).2 hr.1
            unfold DescField.text
            simp only [Option.map_some]
            rw [if_pos (h f (by simp) hn), h4]
          · rw [if_neg hn, if_neg]
            · rfl
            · rintro ⟨x, hx, e⟩
              rcases List.mem_cons.1 hx with rfl | hx
              · exact hn e
              · exact hex ⟨x, hx, e⟩

theorem fieldValue_stamped {fs : List DescField} (h : ∀ f ∈ fs, f.name = s%"Repository" → f.more = []) {st : Stamp} (hv : OneLineText st.version)
    (ht : OneLineText st.installType) (hu : OneLineText st.repoURL) (hr : OneLineText st.repo) (k : Str) (hk : k ≠ s%"OriginalRepository") :
    fieldValue (stampFields st fs) k =
      if k = s%"PkgrVersion" then some st.version else if k = s%"PkgrInstallType" then some st.installType
      else if k = s%"PkgrRepositoryURL" then some st.repoURL
      else if k = s%"Repository" then (if ∃ f ∈ fs, f.name = s%"Repository" then some st.repo else none)
      else fieldValue fs k := by
  unfold fieldValue stampFields
  rw [lastNamed_append]
  by_cases h1 : k = s%"PkgrVersion"
  · subst h1
    have e : lastNamed (pkgrFields st) (s%"PkgrVersion") = some { name := s%"PkgrVersion", line := s%" " ++ st.version } := rfl
    rw [if_pos rfl, e, Option.some_or, Option.map_some, text_simple _ _ hv]
  rw [if_neg h1]
  by_cases h2 : k = s%"PkgrInstallType"
  · subst h2
    have e : lastNamed (pkgrFields st) (s%"PkgrInstallType") = some { name := s%"PkgrInstallType", line := s%" " ++ st.installType } := rfl
    rw [if_pos rfl, e, Option.some_or, Option.map_some, text_simple _ _ ht]
  rw [if_neg h2]
  by_cases h3 : k = s%"PkgrRepositoryURL"
  · subst h3
    have e : lastNamed (pkgrFields st) (s%"PkgrRepositoryURL") = some { name := s%"PkgrRepositoryURL", line := s%" " ++ st.repoURL } := rfl
    rw [if_pos rfl, e, Option.some_or, Option.map_some, text_simple _ _ hu]
  rw [if_neg h3]
  have e : lastNamed (pkgrFields st) k = none := by
    have a1 : ¬ (s%"PkgrVersion") = k := fun e => h1 e.symm
    have a2 : ¬ (s%"PkgrInstallType") = k := fun e => h2 e.symm
    have a3 : ¬ (s%"PkgrRepositoryURL") = k := fun e => h3 e.symm
    unfold pkgrFields
    rw [lastNamed_cons, lastNamed_cons, lastNamed_cons, lastNamed_nil]
    dsimp only
    rw [if_neg a1, if_neg a2, if_neg a3]
    rfl
  rw [e, Option.none_or]
  by_cases h4 : k = s%"Repository"
  · subst h4
    rw [if_pos rfl]
    exact fieldValue_body_repo h st hr
  · rw [if_neg h4]
    rw [lastNamed_body_other st fs k (fun hp => by
      rcases hp with hp | hp | hp
      · exact h1 hp
      · exact h2 hp
      · exact h3 hp) h4 hk]

/-! ### C152 -/

/-- C152: after an installation, reading the stamped DESCRIPTION gives what was written, and in addition pkgr's version, the
type of the installation, the URL of the repository, and, if there was a field `Repository`, the repository the package came
from; supposed that pkgr's fields and `Repository` take one line and that no other line mentions pkgr's fields. -/
theorem C152_read_back_partial {fs : List DescField} (h : Stampable fs) {st : Stamp} (hv : OneLineText st.version)
    (ht : OneLineText st.installType) (hu : OneLineText st.repoURL) (hr : OneLineText st.repo) :
    ∃ raw, decodeDesc (textOf (fieldLines fs)) = some raw ∧
      decodeDesc (writeLines (stampLines (readLines (textOf (fieldLines fs))) st)) = some { raw with
        repository := if ∃ f ∈ fs, f.name = s%"Repository" then st.repo else [],
        pkgrVersion := st.version, pkgrInstallType := st.installType, pkgrRepositoryURL := st.repoURL } := by
  have hfile : ∀ (gs : List DescField), FileOf gs (textOf (fieldLines gs)) := fun gs => ⟨[], by simp, Or.inl rfl⟩
  refine ⟨_, decodeDesc_file h.valid h.nonempty (hfile fs), ?_⟩
  rw [readLines_textOf _ (fieldLines_newline h.valid) h.noCR, stampLines_fields h, writeLines_eq]
  have hval : ∀ g ∈ stampFields st fs, g.Valid := fun g hg => (stampFields_each h hv ht hu hr g hg).1
  rw [decodeDesc_file hval (by simp [stampFields, pkgrFields]) (hfile _)]
  have hs := h.single
  have hfv := fieldValue_stamped (fun f hf e => h.single f hf (Or.inr e)) hv ht hu hr
  unfold rawOf
  rw [hfv _ (by decide), hfv _ (by decide), hfv _ (by decide), hfv _ (by decide), hfv _ (by decide), hfv _ (by decide),
    hfv _ (by decide), hfv _ (by decide), hfv _ (by decide), hfv _ (by decide), hfv _ (by decide)]
  simp
  split <;> rfl

theorem described_file {parse : Str → Option Desc} {fs : Fs} {lib : Path} {p c : Str}
    (h : fs (lib ++ [p, s%"DESCRIPTION"]) = some (.file c)) : described parse fs lib p = parse c := by
  unfold described
  rw [h]

theorem installedDesc_of {t : Str} {raw : RawDesc} (h : decodeDesc t = some raw) (hn : raw.package ≠ [])
    (hd : newDesc raw ≠ none) : ∃ d, installedDesc t = some d ∧ newDesc raw = some d := by
  cases hr : newDesc raw with
  | none => exact absurd hr hd
  | some d =>
    refine ⟨d, ?_, rfl⟩
    unfold installedDesc parseDesc
    rw [h]
    simp only
    rw [hr]
    simp only
    rw [if_neg]
    rw [(C05_description hr).package]
    exact hn

/-- C152: a package that pkgr has installed and stamped is found in the library by the next command, with the version of
pkgr, the type of the installation and the URL that were written, and it is reported as installed by pkgr; supposed also
that the other directories of the library hold the packages they are named after. -/
theorem C152_recognised_partial {fs : List DescField} (h : Stampable fs) {st : Stamp} (hv : OneLineText st.version)
    (ht : OneLineText st.installType) (hu : OneLineText st.repoURL) (hr : OneLineText st.repo) (hver : st.version ≠ [])
    {disk : Fs} {lib : Path} {p : Str} (hdir : disk.isDir (lib ++ [p]) = true)
    (hfile : disk (lib ++ [p, s%"DESCRIPTION"]) = some (.file (textOf (fieldLines fs))))
    (hname : TextIs fs (s%"Package") p) (hp : p ≠ []) (hgood : parseDesc (textOf (fieldLines fs)) ≠ .panics)
    (hsane : ∀ n d, n ≠ p → described installedDesc disk lib n = some d → d.package = n ∧ n ≠ [])
    {names : List Str} (hmem : p ∈ names) {ρ : Order} (hρ : ρ.Fair) (t : Nat) :
    ∃ d, GoMap.get? (getPriorInstalled installedDesc (stampFile disk lib p st) lib names) p = some d ∧
      d.package = p ∧ d.pkgrVersion = st.version ∧ d.pkgrInstallType = st.installType ∧ d.pkgrRepositoryURL = st.repoURL ∧
      p ∈ (getInstallers ρ t (getPriorInstalled installedDesc (stampFile disk lib p st) lib names)).pkgr := by
  obtain ⟨raw, h1, h2⟩ := C152_read_back_partial h hv ht hu hr
  obtain ⟨raw', h1', hs⟩ := C151_fields h.valid h.nonempty (t := textOf (fieldLines fs)) ⟨[], by simp, Or.inl rfl⟩
  rw [h1] at h1'
  cases h1'
  have hpk : raw.package = p := by
    have a := hs.package
    unfold TextIs at a hname
    cases hl : lastNamed fs (s%"Package") with
    | none => rw [hl] at a hname; simp only at a hname; rw [a, hname]
    | some f =>
      rw [hl] at a hname
      simp only at a hname
      have hf := h.valid f (lastNamed_mem hl).1
      rw [(DescField.says_iff hf _).1 a, (DescField.says_iff hf _).1 hname]
  have hnd : newDesc raw ≠ none := by
    intro e
    apply hgood
    unfold parseDesc
    rw [h1]
    simp only
    rw [e]
  have hnd2 := hnd
  rw [ne_eq, C05_description_panics_iff] at hnd2
  obtain ⟨d, hd1, hd2⟩ := installedDesc_of h2 (by rw [hpk]; exact hp) (by
    rw [ne_eq, C05_description_panics_iff]
    exact hnd2)
  have hD := C05_description hd2
  have hst : stampFile disk lib p st = disk.set (lib ++ [p, s%"DESCRIPTION"])
      (.file (writeLines (stampLines (readLines (textOf (fieldLines fs))) st))) := by
    unfold stampFile
    rw [hfile]
  have hde : described installedDesc (stampFile disk lib p st) lib p = some d := by
    rw [described_file (c := writeLines (stampLines (readLines (textOf (fieldLines fs))) st))]
    · exact hd1
    · rw [hst]; simp [Fs.set]
  have hdp : d.package = p := by rw [hD.package]; exact hpk
  have hother : ∀ n, n ≠ p → described installedDesc (stampFile disk lib p st) lib n = described installedDesc disk lib n := by
    intro n hn
    unfold described
    rw [hst]
    have : ¬ lib ++ [n, s%"DESCRIPTION"] = lib ++ [p, s%"DESCRIPTION"] := by
      intro e
      have := List.append_cancel_left e
      simp at this
      exact hn this
    simp [Fs.set, this]
  have hsane' : ∀ n d, described installedDesc (stampFile disk lib p st) lib n = some d → d.package = n ∧ n ≠ [] := by
    intro n d' hn
    by_cases e : n = p
    · subst e
      rw [hde] at hn
      cases hn
      exact ⟨hdp, hp⟩
    · rw [hother n e] at hn
      exact hsane n d' e hn
  have hdir' : (stampFile disk lib p st).isDir (lib ++ [p]) = true := by
    rw [hst]
    have : ¬ lib ++ [p] = lib ++ [p, s%"DESCRIPTION"] := by
      intro e
      have := List.append_cancel_left e
      simp at this
    unfold Fs.isDir Fs.set at *
    simp only [this, if_false]
    exact hdir
  have hget : GoMap.get? (getPriorInstalled installedDesc (stampFile disk lib p st) lib names) p = some d := by
    unfold getPriorInstalled
    rw [scan_get hsane', if_pos ⟨hmem, hdir', by rw [hde]; rfl⟩, hde]
  refine ⟨d, hget, hdp, hD.pkgrVersion, hD.pkgrInstallType, hD.pkgrRepositoryURL, ?_⟩
  have hwf : (GoMap.keys (getPriorInstalled installedDesc (stampFile disk lib p st) lib names)).Nodup :=
    scan_nodup _ _ (by simp [GoMap.keys])
  rw [((C98_installers hρ t hwf).2 p d hget).1, hD.pkgrVersion]
  exact hver

/-- C152: stamping can be repeated: a stamped DESCRIPTION can be stamped again, by any later version of pkgr. -/
theorem C152_again_partial {fs : List DescField} (h : Stampable fs) {st st2 : Stamp}
    (hs : ∀ s, s = st ∨ s = st2 → OneLineText s.version ∧ OneLineText s.installType ∧ OneLineText s.repoURL ∧ OneLineText s.repo)
    (hm : NoMarker st.repo) :
    ∃ raw, decodeDesc (textOf (fieldLines fs)) = some raw ∧
      decodeDesc (writeLines (stampLines (readLines (writeLines (stampLines (readLines (textOf (fieldLines fs))) st))) st2)) =
        some { raw with
          repository := if ∃ f ∈ fs, f.name = s%"Repository" then st2.repo else [],
          pkgrVersion := st2.version, pkgrInstallType := st2.installType, pkgrRepositoryURL := st2.repoURL } := by
  obtain ⟨hv, ht, hu, hr⟩ := hs st (Or.inl rfl)
  obtain ⟨hv2, ht2, hu2, hr2⟩ := hs st2 (Or.inr rfl)
  obtain ⟨raw, h1, h2⟩ := C152_read_back_partial h hv ht hu hr
  obtain ⟨raw', h1', h2'⟩ := C152_read_back_partial (stampFields_stampable h hv ht hu hr hm) hv2 ht2 hu2 hr2
  have e : writeLines (stampLines (readLines (textOf (fieldLines fs))) st) = textOf (fieldLines (stampFields st fs)) := by
    rw [readLines_textOf _ (fieldLines_newline h.valid) h.noCR, stampLines_fields h, writeLines_eq]
  rw [e] at h2 ⊢
  rw [h1'] at h2
  cases h2
  refine ⟨raw, h1, ?_⟩
  rw [h2']
  simp only [Option.some.injEq, RawDesc.mk.injEq, and_true, true_and]
  have hiff : (∃ f ∈ stampFields st fs, f.name = s%"Repository") ↔ ∃ f ∈ fs, f.name = s%"Repository" := by
    unfold stampFields
    constructor
    · rintro ⟨g, hg, e⟩
      rcases List.mem_append.1 hg with hg | hg
      · obtain ⟨f, hf, hg⟩ := List.mem_flatMap.1 hg
        unfold stampField at hg
        split at hg
        · simp at hg
        split at hg
        · rename_i hc
          exact ⟨f, hf, hc.1⟩
        · simp only [List.mem_singleton] at hg
          subst hg
          exact ⟨g, hf, e⟩
      · simp only [pkgrFields, List.mem_cons, List.not_mem_nil, or_false] at hg
        rcases hg with rfl | rfl | rfl <;> simp at e
    · rintro ⟨f, hf, e⟩
      have hnp : ¬ PkgrField f.name := by rw [e]; decide
      by_cases hc : f.name = s%"Repository" ∧ trimSpace (s%"Repository:" ++ f.line) ≠ trimSpace (s%"Repository: " ++ st.repo)
      · refine ⟨{ name := s%"Repository", line := s%" " ++ st.repo }, List.mem_append_left _ (List.mem_flatMap.2 ⟨f, hf, ?_⟩), rfl⟩
        unfold stampField
        rw [if_neg hnp, if_pos hc]
        simp
      · refine ⟨f, List.mem_append_left _ (List.mem_flatMap.2 ⟨f, hf, ?_⟩), e⟩
        unfold stampField
        rw [if_neg hnp, if_neg hc]
        simp
  by_cases hx : ∃ f ∈ fs, f.name = s%"Repository"
  · rw [if_pos hx, if_pos (hiff.2 hx)]
  · rw [if_neg hx, if_neg fun h => hx (hiff.1 h)]

/-! ### Violations -/

/-- A DESCRIPTION with a field whose text mentions one of pkgr's fields. -/
def mentions : Str := textOf [s%"Package: p", s%"Version: 1.0", s%"Imports: a", s%"Note: PkgrRepositoryURL is set by pkgr", s%" (see its manual)"]

/-- A stamp. -/
def plainStamp : Stamp := { version := s%"3.1.2", installType := s%"source", repoURL := s%"https://cran.r-project.org", repo := s%"CRAN" }

/-- C152 is false: a line of the DESCRIPTION that only mentions one of pkgr's fields is deleted, and its continuation lines
become part of the field before it: after the installation the package can no longer be read, and every later command that
looks at the library panics. -/
theorem C152_violated_mention :
    (∃ d, parseDesc mentions = .ok d ∧ GoMap.keys d.imports = [s%"a"]) ∧
      parseDesc (writeLines (stampLines (readLines mentions) plainStamp)) = .panics := by
  constructor
  · exact ⟨_, rfl, by decide +kernel⟩
  · decide +kernel

/-- C152 is false: when the DESCRIPTION ends with a blank line, the stamp comes after it and is never read: the package is
not recognised as installed by pkgr. -/
theorem C152_violated_blank_line :
    decodeDesc (writeLines (stampLines (readLines (s%"Package: p\nVersion: 1.0\n\n")) plainStamp)) =
      some { package := s%"p", version := s%"1.0" } := by decide +kernel

/-! ### Examples -/

/-- A DESCRIPTION as R writes it in a library, installed by pkgr before. -/
def stampable1 : List DescField :=
  rox2 ++ [{ name := s%"Repository", line := s%" CRAN" }, { name := s%"PkgrVersion", line := s%" 1.0.0" },
    { name := s%"Built", line := s%" R 4.0.2; ; 2021-01-01 00:00:00 UTC; unix" }]

theorem stampable1_ok : Stampable stampable1 := by
  have hb : ∀ (n : Str), trimSpace n = n → Stripped n n := fun n h => (trimSpace_iff n n).1 h
  refine ⟨?_, by decide, by decide +kernel, by decide +kernel, by decide +kernel⟩
  intro f hf
  have h : f.name ≠ [] ∧ trimSpace f.name = f.name ∧ ':' ∉ f.name ∧ f.name.head? ≠ some '#' ∧ '\n' ∉ f.name ∧ '\n' ∉ f.line ∧
      ∀ l ∈ f.more, '\n' ∉ l ∧ (l.head? = some ' ' ∨ l.head? = some '\t') := by
    revert f
    decide +kernel
  exact ⟨h.1, hb _ h.2.1, h.2.2.1, h.2.2.2.1, h.2.2.2.2.1, h.2.2.2.2.2.1, h.2.2.2.2.2.2⟩

/-- A stamp for a package from another repository. -/
def stampMPN : Stamp := { version := s%"3.1.2", installType := s%"binary", repoURL := s%"https://mpn.metworx.com/snapshots/stable/2021-06-20", repo := s%"MPN" }

theorem stampMPN_plain : OneLineText stampMPN.version ∧ OneLineText stampMPN.installType ∧ OneLineText stampMPN.repoURL ∧
    OneLineText stampMPN.repo ∧ NoMarker stampMPN.repo :=
  ⟨oneLine_of (by decide +kernel), oneLine_of (by decide +kernel), oneLine_of (by decide +kernel), oneLine_of (by decide +kernel),
    by decide +kernel⟩

/-- The stamped file decodes to the same package, from the other repository, installed by the new version of pkgr. -/
example : decodeDesc (writeLines (stampLines (readLines (textOf (fieldLines stampable1))) stampMPN)) = some
    { package := s%"roxygen2", version := s%"4.1.1.9000", depends := [s%"R (>= 3.0.2)"], repository := s%"MPN",
      imports := [s%"stringr (>= 0.5)", s%"brew", s%"digest", s%"methods", s%"Rcpp (>= 0.11.0)"],
      suggests := [s%"testthat (>= 0.8.0)", s%"knitr"], linkingTo := [s%"Rcpp"],
      pkgrVersion := s%"3.1.2", pkgrInstallType := s%"binary",
      pkgrRepositoryURL := s%"https://mpn.metworx.com/snapshots/stable/2021-06-20" } := by decide +kernel

example : TextIs stampable1 (s%"Package") (s%"roxygen2") ∧ parseDesc (textOf (fieldLines stampable1)) ≠ .panics := by
  refine ⟨?_, by decide +kernel⟩
  have e : lastNamed stampable1 (s%"Package") = some { name := s%"Package", line := s%" roxygen2" } := by decide +kernel
  unfold TextIs
  rw [e]
  simp only
  rw [DescField.says_iff (stampable1_ok.valid _ (lastNamed_mem e).1)]
  decide +kernel

end Pkgr
