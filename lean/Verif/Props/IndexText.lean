/- C153: an index as repositories publish it. -/
import Verif.Props.Stamped
import Verif.Props.PkgDb

namespace Pkgr
open Spec

/-- The last element that satisfies `A` for something satisfies it for `d`. -/
def LastHas {α : Type} (A : α → Desc → Prop) (xs : List α) (d : Desc) : Prop :=
  ∃ pre x post, xs = pre ++ x :: post ∧ A x d ∧ ∀ y ∈ post, ¬ ∃ d', A y d'

theorem lastHas_nil {α : Type} (A : α → Desc → Prop) (d : Desc) : ¬ LastHas A [] d := by
  rintro ⟨pre, x, post, h, _⟩
  simp at h

theorem lastHas_cons {α : Type} (A : α → Desc → Prop) (x : α) (xs : List α) (d : Desc) :
    LastHas A (x :: xs) d ↔ LastHas A xs d ∨ (A x d ∧ ∀ y ∈ xs, ¬ ∃ d', A y d') := by
  constructor
  · rintro ⟨pre, z, post, h, h1, h2⟩
    cases pre with
    | nil =>
      simp only [List.nil_append, List.cons.injEq] at h
      obtain ⟨rfl, rfl⟩ := h
      exact Or.inr ⟨h1, h2⟩
    | cons p pre =>
      simp only [List.cons_append, List.cons.injEq] at h
      exact Or.inl ⟨pre, z, post, h.2, h1, h2⟩
  · rintro (⟨pre, z, post, h, h1, h2⟩ | ⟨h1, h2⟩)
    · exact ⟨x :: pre, z, post, by rw [h]; rfl, h1, h2⟩
    · exact ⟨[], x, xs, rfl, h1, h2⟩

theorem lastHas_filter {A : Str → Desc → Prop} (hA : ∀ x d, A x d → x ≠ []) (xs : List Str) (d : Desc) :
    LastHas A (xs.filter fun x => decide (x ≠ [])) d ↔ LastHas A xs d := by
  induction xs with
  | nil => rfl
  | cons x xs ih =>
    rw [lastHas_cons, ← ih]
    by_cases hx : x = []
    · rw [List.filter_cons_of_neg (by simpa using hx)]
      constructor
      · exact Or.inl
      · rintro (h | ⟨h, _⟩)
        · exact h
        · exact absurd hx (hA x d h)
    · rw [List.filter_cons_of_pos (by simpa using hx), lastHas_cons]
      constructor
      · rintro (h | ⟨h1, h2⟩)
        · exact Or.inl h
        · refine Or.inr ⟨h1, fun y hy he => ?_⟩
          obtain ⟨d', he⟩ := he
          exact h2 y (List.mem_filter.2 ⟨hy, by simpa using hA y d' he⟩) ⟨d', he⟩
      · rintro (h | ⟨h1, h2⟩)
        · exact Or.inl h
        · exact Or.inr ⟨h1, fun y hy => h2 y (List.mem_filter.1 hy).1⟩

theorem paired_none {α β : Type} {R : α → β → Prop} {A : α → Desc → Prop} {B : β → Desc → Prop} {xs : List α} {ys : List β}
    (h : PairedBy R xs ys) (hR : ∀ x y, R x y → y ∈ ys → ∀ d, A x d ↔ B y d) :
    (∀ x ∈ xs, ¬ ∃ d, A x d) ↔ ∀ y ∈ ys, ¬ ∃ d, B y d := by
  induction xs generalizing ys with
  | nil => cases ys with
    | nil => simp
    | cons y ys => exact h.elim
  | cons x xs ih => cases ys with
    | nil => exact h.elim
    | cons y ys =>
      have h1 := hR x y h.1 (by simp)
      rw [List.forall_mem_cons, List.forall_mem_cons, ih h.2 fun x y hr hy => hR x y hr (List.mem_cons_of_mem _ hy)]
      constructor
      · rintro ⟨a, b⟩
        exact ⟨fun ⟨d, hd⟩ => a ⟨d, (h1 d).2 hd⟩, b⟩
      · rintro ⟨a, b⟩
        exact ⟨fun ⟨d, hd⟩ => a ⟨d, (h1 d).1 hd⟩, b⟩

theorem lastHas_paired {α β : Type} {R : α → β → Prop} {A : α → Desc → Prop} {B : β → Desc → Prop} {xs : List α} {ys : List β}
    (h : PairedBy R xs ys) (hR : ∀ x y, R x y → y ∈ ys → ∀ d, A x d ↔ B y d) (d : Desc) : LastHas A xs d ↔ LastHas B ys d := by
  induction xs generalizing ys with
  | nil => cases ys with
    | nil => exact ⟨fun h => (lastHas_nil A d h).elim, fun h => (lastHas_nil B d h).elim⟩
    | cons y ys => exact h.elim
  | cons x xs ih => cases ys with
    | nil => exact h.elim
    | cons y ys =>
      have hR' : ∀ x y, R x y → y ∈ ys → ∀ d, A x d ↔ B y d := fun x y hr hy => hR x y hr (List.mem_cons_of_mem _ hy)
      rw [lastHas_cons, lastHas_cons, ih h.2 hR', hR x y h.1 (by simp) d, paired_none h.2 hR']

/-! ### The stanzas of an index -/

theorem textOf_core (ls : List Str) (hne : ls ≠ []) : ∃ core, textOf ls = core ++ s%"\n" ∧
    ((∀ l ∈ ls, l ≠ [] ∧ '\n' ∉ l) → core ≠ [] ∧ core.head? ≠ some '\n' ∧ core.getLast? ≠ some '\n' ∧ ¬ (s%"\n\n") <:+: core) := by
  induction ls with
  | nil => exact absurd rfl hne
  | cons l ls ih =>
    cases ls with
    | nil =>
      refine ⟨l, by simp [textOf], fun h => ?_⟩
      obtain ⟨h1, h2⟩ := h l (by simp)
      refine ⟨h1, fun e => h2 (List.mem_of_mem_head? e), fun e => h2 (List.mem_of_getLast? e), fun e => h2 (e.subset (by simp))⟩
    | cons m ls =>
      obtain ⟨core, h1, h2⟩ := ih (by simp)
      refine ⟨l ++ '\n' :: core, ?_, fun h => ?_⟩
      · have e : textOf (l :: m :: ls) = l ++ s%"\n" ++ textOf (m :: ls) := by simp [textOf]
        rw [e, h1]
        simp
      · obtain ⟨a1, a2⟩ := h l (by simp)
        obtain ⟨b1, b2, b3, b4⟩ := h2 fun x hx => h x (List.mem_cons_of_mem _ hx)
        refine ⟨by simp, ?_, ?_, ?_⟩
        · cases l with
          | nil => exact absurd rfl a1
          | cons c l =>
            simp only [List.cons_append, List.head?_cons, ne_eq, Option.some.injEq]
            rintro rfl
            exact a2 (by simp)
        · rw [List.getLast?_append, List.getLast?_cons]
          cases hc : core.getLast? with
          | none => rw [List.getLast?_eq_none_iff] at hc; exact absurd hc b1
          | some x =>
            rw [hc] at b3
            simpa using b3
        · intro hi
          have h3 := infix_skip a2 hi
          rw [List.infix_cons_iff] at h3
          rcases h3 with h3 | h3
          · rw [List.cons_prefix_cons] at h3
            obtain ⟨t, ht⟩ := h3.2
            apply b2
            rw [← ht]
            rfl
          · exact b4 h3

theorem splitBlank_newlines (n : Nat) (s : Str) :
    (splitBlank (List.replicate n '\n' ++ s)).filter (fun x => decide (x ≠ [])) =
      (splitBlank (List.replicate (n % 2) '\n' ++ s)).filter fun x => decide (x ≠ []) := by
  induction n using Nat.strongRecOn with
  | ind n ih =>
    match n with
    | 0 => rfl
    | 1 => rfl
    | k + 2 =>
      have e : List.replicate (k + 2) '\n' ++ s = '\n' :: '\n' :: (List.replicate k '\n' ++ s) := rfl
      have e2 : (k + 2) % 2 = k % 2 := by omega
      rw [e, splitBlank, List.filter_cons_of_neg (by simp), ih k (by omega), e2]

/-- The stanzas of an index that are not empty are its records; an odd number of newlines too many at the end makes one more
stanza. -/
theorem index_stanzas (rs : List (List DescField × Nat)) (hne : rs ≠ []) (hv : ∀ r ∈ rs, r.1 ≠ [] ∧ ∀ f ∈ r.1, f.Valid)
    (hs : SeparatedBy rs) (b : Nat) (hb : b < 2) :
    ∃ xs, PairedBy (fun x r => FileOf r.1 x) xs rs ∧
      (splitBlank (List.replicate b '\n' ++ indexText rs)).filter (fun x => decide (x ≠ [])) =
        xs ++ if blanksAtEnd rs = 0 ∨ blanksAtEnd rs % 2 = 1 then [] else [s%"\n"] := by
  induction rs generalizing b with
  | nil => exact absurd rfl hne
  | cons r rs ih =>
    obtain ⟨r, n⟩ := r
    obtain ⟨hrne, hrv⟩ := hv (r, n) (by simp)
    have hlne : fieldLines r ≠ [] := by
      cases r with
      | nil => exact absurd rfl hrne
      | cons f r => simp [fieldLines, DescField.lines]
    obtain ⟨core, hc1, hc2⟩ := textOf_core (fieldLines r) hlne
    obtain ⟨c1, c2, c3, c4⟩ := hc2 fun l hl => ⟨fieldLines_nonempty hrv l hl, fieldLines_newline hrv l hl⟩
    have hpre : ¬ (s%"\n\n") <:+: List.replicate b '\n' ++ core := by
      match b, hb with
      | 0, _ => exact c4
      | 1, _ =>
        intro h
        rw [show List.replicate 1 '\n' ++ core = '\n' :: core from rfl, List.infix_cons_iff] at h
        rcases h with h | h
        · rw [List.cons_prefix_cons] at h
          obtain ⟨t, ht⟩ := h.2
          apply c2
          rw [← ht]
          rfl
        · exact c4 h
    have hlast : (List.replicate b '\n' ++ core).getLast? ≠ some '\n' := by
      rw [List.getLast?_append]
      cases hc : core.getLast? with
      | none => rw [List.getLast?_eq_none_iff] at hc; exact absurd hc c1
      | some x =>
        rw [hc] at c3
        simpa using c3
    have hblanks : ∀ l ∈ List.replicate b ([] : Str), BlankLine l := by
      intro l hl
      exact Or.inl (List.eq_of_mem_replicate hl)
    have hrep : ∀ (ls : List Str), textOf (List.replicate b [] ++ ls) = List.replicate b '\n' ++ textOf ls := by
      intro ls
      match b, hb with
      | 0, _ => rfl
      | 1, _ => simp [textOf]
    have hfile : FileOf r (List.replicate b '\n' ++ core) :=
      ⟨List.replicate b [], hblanks, Or.inr (Or.inl (by rw [hrep, hc1]; simp))⟩
    have hxne : List.replicate b '\n' ++ core ≠ [] := by simp [c1]
    cases n with
    | zero =>
      cases rs with
      | nil =>
        refine ⟨[List.replicate b '\n' ++ textOf (fieldLines r)], ⟨⟨List.replicate b [], hblanks, Or.inl (hrep _).symm⟩, trivial⟩, ?_⟩
        have e : List.replicate b '\n' ++ indexText [(r, 0)] = (List.replicate b '\n' ++ core) ++ s%"\n" := by
          simp [indexText, hc1]
        have hno : ¬ (s%"\n\n") <:+: (List.replicate b '\n' ++ core) ++ s%"\n" := by
          rintro ⟨a, t, hat⟩
          rcases List.eq_nil_or_concat t with rfl | ⟨t', y, rfl⟩
          · apply hlast
            have h1 : (a ++ s%"\n") ++ s%"\n" = (List.replicate b '\n' ++ core) ++ s%"\n" := by
              rw [← hat]; simp
            have h2 := List.append_cancel_right h1
            rw [← h2]
            simp
          · apply hpre
            have h1 : (a ++ s%"\n\n" ++ t') ++ [y] = (List.replicate b '\n' ++ core) ++ s%"\n" := by
              rw [← hat]; simp
            have h2 := (List.append_inj' h1 rfl).1
            exact ⟨a, t', h2⟩
        rw [e, splitBlank_single hno, hc1]
        simp [blanksAtEnd]
      | cons r2 rs => exact absurd hs.1 (by decide)
    | succ n =>
      have e : List.replicate b '\n' ++ indexText ((r, n + 1) :: rs) =
          (List.replicate b '\n' ++ core) ++ '\n' :: '\n' :: (List.replicate n '\n' ++ indexText rs) := by
        rw [indexText, hc1, List.replicate_succ]
        simp
      rw [e, splitBlank_append hpre hlast, List.filter_cons_of_pos (by simp [c1]), splitBlank_newlines]
      cases rs with
      | nil =>
        refine ⟨[List.replicate b '\n' ++ core], ⟨hfile, trivial⟩, ?_⟩
        rw [show blanksAtEnd [(r, n + 1)] = n + 1 from rfl, indexText, List.append_nil]
        rcases Nat.mod_two_eq_zero_or_one n with h | h
        · rw [h, if_pos (Or.inr (by omega))]
          simp [splitBlank]
        · rw [h, if_neg (by omega)]
          simp [splitBlank]
      | cons r2 rs =>
        obtain ⟨xs, h1, h2⟩ := ih (by simp) (fun x hx => hv x (List.mem_cons_of_mem _ hx)) hs.2 (n % 2) (by omega)
        refine ⟨(List.replicate b '\n' ++ core) :: xs, ⟨hfile, h1⟩, ?_⟩
        rw [h2]
        have : blanksAtEnd ((r, n + 1) :: r2 :: rs) = blanksAtEnd (r2 :: rs) := by simp [blanksAtEnd]
        rw [this]
        rfl

theorem decode_newline : decodeDesc (s%"\n") = none := by decide +kernel

theorem saysFields_unique {r : List DescField} (hv : ∀ f ∈ r, f.Valid) (hne : r ≠ []) {x : Str} (hx : FileOf r x) {raw : RawDesc} :
    decodeDesc x = some raw ↔ SaysFields r raw := by
  obtain ⟨raw', h1, h2⟩ := C151_fields hv hne hx
  rw [h1]
  constructor
  · intro h; cases h; exact h2
  · intro h; rw [C151_determined hv h h2]

theorem paired_mem {α β : Type} {R : α → β → Prop} {xs : List α} {ys : List β} (h : PairedBy R xs ys) :
    (∀ x ∈ xs, ∃ y ∈ ys, R x y) ∧ ∀ y ∈ ys, ∃ x ∈ xs, R x y := by
  induction xs generalizing ys with
  | nil => cases ys with
    | nil => simp
    | cons y ys => exact h.elim
  | cons x xs ih => cases ys with
    | nil => exact h.elim
    | cons y ys =>
      obtain ⟨h1, h2⟩ := ih h.2
      constructor
      · intro z hz
        rcases List.mem_cons.1 hz with rfl | hz
        · exact ⟨y, by simp, h.1⟩
        · obtain ⟨w, hw, hr⟩ := h1 z hz
          exact ⟨w, List.mem_cons_of_mem _ hw, hr⟩
      · intro z hz
        rcases List.mem_cons.1 hz with rfl | hz
        · exact ⟨x, by simp, h.1⟩
        · obtain ⟨w, hw, hr⟩ := h2 z hz
          exact ⟨w, List.mem_cons_of_mem _ hw, hr⟩

/-! ### C153 -/

/-- C153: an index of valid records can be used exactly if no dependency in it is malformed and the number of blank lines
at its end is not an even number above zero. -/
theorem C153_loads_iff {rs : List (List DescField × Nat)} (hne : rs ≠ []) (hv : ∀ r ∈ rs, r.1 ≠ [] ∧ ∀ f ∈ r.1, f.Valid)
    (hs : SeparatedBy rs) {body : Str} (hb : UnixText body (indexText rs)) (rv : RVersion) :
    (∃ m, fetchOne decodeDesc rv (some body) = .ok m) ↔
      (blanksAtEnd rs = 0 ∨ blanksAtEnd rs % 2 = 1) ∧
      ∀ r ∈ rs, ∃ raw, SaysFields r.1 raw ∧
        ∀ y ∈ raw.imports ++ raw.suggests ++ raw.depends ++ raw.linkingTo, parseDep y ≠ none := by
  obtain ⟨xs, hp, hx⟩ := index_stanzas rs hne hv hs 0 (by decide)
  rw [C07_loads_iff hb (splitBlank_stanzas _)]
  rw [List.replicate_zero, List.nil_append] at hx
  obtain ⟨hm1, hm2⟩ := paired_mem hp
  have hmem : ∀ x, (x ∈ splitBlank (indexText rs) ∧ x ≠ []) ↔
      x ∈ xs ++ if blanksAtEnd rs = 0 ∨ blanksAtEnd rs % 2 = 1 then [] else [s%"\n"] := by
    intro x
    rw [← hx, List.mem_filter]
    simp
  constructor
  · intro h
    constructor
    · apply Classical.byContradiction
      intro hn
      have := (hmem (s%"\n")).2 (by rw [if_neg hn]; simp)
      obtain ⟨raw, h1, _⟩ := h _ this.1 this.2
      rw [decode_newline] at h1
      cases h1
    · intro r hr
      obtain ⟨x, hxm, hf⟩ := hm2 r hr
      have := (hmem x).2 (List.mem_append_left _ hxm)
      obtain ⟨raw, h1, h2⟩ := h x this.1 this.2
      exact ⟨raw, (saysFields_unique (hv r hr).2 (hv r hr).1 hf).1 h1, h2⟩
  · rintro ⟨h1, h2⟩ x hx1 hx2
    have := (hmem x).1 ⟨hx1, hx2⟩
    rw [if_pos h1, List.append_nil] at this
    obtain ⟨r, hr, hf⟩ := hm1 x this
    obtain ⟨raw, h3, h4⟩ := h2 r hr
    exact ⟨raw, (saysFields_unique (hv r hr).2 (hv r hr).1 hf).2 h3, h4⟩

/-- C153: an index that can be used lists exactly its records: of the records of a name that are for this R and in the main
directory, the last one, whatever the line ends and the number of blank lines between records.  (What is missing: an even
number of blank lines at the end of the index, see C153_violated_blank_lines.) -/
theorem C153_listed_partial {rs : List (List DescField × Nat)} (hne : rs ≠ []) (hv : ∀ r ∈ rs, r.1 ≠ [] ∧ ∀ f ∈ r.1, f.Valid)
    (hs : SeparatedBy rs) {body : Str} (hb : UnixText body (indexText rs)) {rv : RVersion} (hrv : SmallR rv) {m : GoMap Desc}
    (h : fetchOne decodeDesc rv (some body) = .ok m) (k : Str) (d : Desc) :
    GoMap.get? m k = some d ↔
      ∃ pre r post, rs = pre ++ r :: post ∧ Records rv r.1 k d ∧ ∀ y ∈ post, ¬ ∃ d', Records rv y.1 k d' := by
  obtain ⟨hend, _⟩ := (C153_loads_iff hne hv hs hb rv).1 ⟨m, h⟩
  obtain ⟨xs, hp, hx⟩ := index_stanzas rs hne hv hs 0 (by decide)
  rw [List.replicate_zero, List.nil_append, if_pos hend, List.append_nil] at hx
  rw [C07_last_acceptable_wins hrv hb (splitBlank_stanzas _) h k d]
  show LastHas (fun x d => Accepts decodeDesc rv x k d) _ d ↔ LastHas (fun r d => Records rv r.1 k d) rs d
  rw [← lastHas_filter (fun x d ha => ha.1), hx]
  refine lastHas_paired hp ?_ d
  intro x r hf hr d'
  have hne : x ≠ [] := by
    rintro rfl
    obtain ⟨raw, h1, _⟩ := C151_fields (hv r hr).2 (hv r hr).1 hf
    have : decodeDesc [] = none := by decide +kernel
    rw [this] at h1
    cases h1
  unfold Accepts Records
  simp only [saysFields_unique (hv r hr).2 (hv r hr).1 hf]
  exact ⟨fun h => h.2, fun h => ⟨hne, h⟩⟩

/-- C153: a repository whose source index is such a text offers, when it is opened, exactly the source packages that the
index records. -/
theorem C153_repository_partial {rs : List (List DescField × Nat)} (hne : rs ≠ []) (hv : ∀ r ∈ rs, r.1 ≠ [] ∧ ∀ f ∈ r.1, f.Valid)
    (hs : SeparatedBy rs) {body : Str} (hb : UnixText body (indexText rs)) {e : RepoEnv} (hdec : e.decode = decodeDesc)
    (hrv : SmallR e.rv) {c c' : DbCache} {url : RepoURL} {dst : SourceType} {rc : RepoConfig} {swap : Bool} {db : RepoDb}
    (hold : ∀ k f, c k = some f → ¬ Recent e f.mtime)
    (hserver : e.server (indexAt e url.url rc.repoSuffix .source) = .text body)
    (h : e.newRepoDb c url dst rc swap = (c', .ok db)) (hend : blanksAtEnd rs = 0 ∨ blanksAtEnd rs % 2 = 1)
    (hgood : ∀ r ∈ rs, ∃ raw, SaysFields r.1 raw ∧
        ∀ y ∈ raw.imports ++ raw.suggests ++ raw.depends ++ raw.linkingTo, parseDep y ≠ none) (k : Str) (d : Desc) :
    Offers db .source k d ↔
      ∃ pre r post, rs = pre ++ r :: post ∧ Records e.rv r.1 k d ∧ ∀ y ∈ post, ¬ ∃ d', Records e.rv y.1 k d' := by
  obtain ⟨m, hm⟩ := (C153_loads_iff hne hv hs hb e.rv).2 ⟨hend, hgood⟩
  rw [(C86_one_repository hrv hold h).2.2 .source k d, ← C153_listed_partial hne hv hs hb hrv hm k d,
    C07_last_acceptable_wins hrv hb (splitBlank_stanzas _) hm k d]
  unfold Publishes
  rw [hdec]
  constructor
  · rintro ⟨_, body', h1, _, text, xs, h3, h4, h5⟩
    rw [hserver] at h1
    cases h1
    have e0 : text = indexText rs := (unixText_unique h3).trans (unixText_unique hb).symm
    rw [e0] at h4
    rw [stanzas_unique h4]
    exact h5
  · intro h5
    exact ⟨Or.inl rfl, body, hserver, (usable_iff _ e.rv _).2 ⟨m, hm⟩, _, _, hb, splitBlank_stanzas _, h5⟩

/-- C153 is false: an index, however good its records are, that ends with two blank lines, or with any even number of them,
cannot be used at all. -/
theorem C153_violated_blank_lines {rs : List (List DescField × Nat)} (hne : rs ≠ []) (hv : ∀ r ∈ rs, r.1 ≠ [] ∧ ∀ f ∈ r.1, f.Valid)
    (hs : SeparatedBy rs) {body : Str} (hb : UnixText body (indexText rs)) (rv : RVersion)
    (hend : 0 < blanksAtEnd rs ∧ blanksAtEnd rs % 2 = 0) : ¬ ∃ m, fetchOne decodeDesc rv (some body) = .ok m := by
  rw [C153_loads_iff hne hv hs hb rv]
  rintro ⟨h | h, _⟩ <;> omega

/-! ### Examples -/

/-- An index with two versions of a package, a package for another R and a package in another directory; one or two blank
lines between the records. -/
def ixRecords (n : Nat) : List (List DescField × Nat) :=
  [([{ name := s%"Package", line := s%" a" }, { name := s%"Version", line := s%" 1.0" }], 1),
   ([{ name := s%"Package", line := s%" b" }, { name := s%"Version", line := s%" 1.0" },
     { name := s%"Depends", line := s%" R (>= 3.5.0), a" }], 2),
   ([{ name := s%"Package", line := s%" a" }, { name := s%"Version", line := s%" 2.0" },
     { name := s%"Imports", line := s%" b (>= 0.9),", more := [s%"        c"] }], 1),
   ([{ name := s%"Package", line := s%" a" }, { name := s%"Version", line := s%" 3.0" },
     { name := s%"Depends", line := s%" R (>= 9.0.0)" }], 1),
   ([{ name := s%"Package", line := s%" b" }, { name := s%"Version", line := s%" 0.5" }, { name := s%"Path", line := s%" Older" }], n)]

theorem ixRecords_valid (n : Nat) : ∀ r ∈ ixRecords n, r.1 ≠ [] ∧ ∀ f ∈ r.1, f.Valid := by
  have hb : ∀ (n : Str), trimSpace n = n → Stripped n n := fun n h => (trimSpace_iff n n).1 h
  have key : ∀ r ∈ ixRecords n, r.1 ≠ [] ∧ ∀ f ∈ r.1, f.name ≠ [] ∧ trimSpace f.name = f.name ∧ ':' ∉ f.name ∧
      f.name.head? ≠ some '#' ∧ '\n' ∉ f.name ∧ '\n' ∉ f.line ∧
      ∀ l ∈ f.more, '\n' ∉ l ∧ (l.head? = some ' ' ∨ l.head? = some '\t') := by
    have h0 : ∀ r ∈ (ixRecords 0).map Prod.fst, r ≠ [] ∧ ∀ f ∈ r, f.name ≠ [] ∧ trimSpace f.name = f.name ∧ ':' ∉ f.name ∧
      f.name.head? ≠ some '#' ∧ '\n' ∉ f.name ∧ '\n' ∉ f.line ∧
      ∀ l ∈ f.more, '\n' ∉ l ∧ (l.head? = some ' ' ∨ l.head? = some '\t') := by decide +kernel
    intro r hr
    refine h0 r.1 ?_
    have : r.1 ∈ (ixRecords n).map Prod.fst := List.mem_map.2 ⟨r, hr, rfl⟩
    exact this
  intro r hr
  refine ⟨(key r hr).1, fun f hf => ?_⟩
  have h := (key r hr).2 f hf
  exact ⟨h.1, hb _ h.2.1, h.2.2.1, h.2.2.2.1, h.2.2.2.2.1, h.2.2.2.2.2.1, h.2.2.2.2.2.2⟩

example : ∀ n, SeparatedBy (ixRecords n) ∧ blanksAtEnd (ixRecords n) = n := fun n => ⟨by simp [ixRecords, SeparatedBy], rfl⟩

/-- With one blank line, or none, or three, at its end the index lists a 2.0 and b 1.0; with two it is unusable. -/
example : ∀ n ∈ [0, 1, 3], (fetchOne decodeDesc ⟨4, 0, 2⟩ (some (indexText (ixRecords n)))).toOption.map
    (fun m => ((GoMap.get? m (s%"a")).map (·.version), (GoMap.get? m (s%"b")).map (·.version))) =
      some (some (s%"2.0"), some (s%"1.0")) := by decide +kernel

example : (fetchOne decodeDesc ⟨4, 0, 2⟩ (some (indexText (ixRecords 2)))).toOption = none := by decide +kernel

end Pkgr
