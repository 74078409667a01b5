/- Helper lemmas about repository databases. -/
import Verif.Model.RepoDb
import Verif.Spec.RepoDb
import Verif.Proof.Dep

namespace Pkgr
open Spec

theorem digitChar_range {n : Nat} (h : n < 10) :
    n.digitChar.toNat = '0'.toNat + n := by
  have : n = 0 ∨ n = 1 ∨ n = 2 ∨ n = 3 ∨ n = 4 ∨ n = 5 ∨ n = 6 ∨ n = 7 ∨ n = 8 ∨ n = 9 := by omega
  rcases this with rfl | rfl | rfl | rfl | rfl | rfl | rfl | rfl | rfl | rfl <;> rfl

theorem isNumeral_natStr (n : Nat) : IsNumeral (natStr n) ∧ numeral (natStr n) = n := by
  induction n using Nat.strongRecOn with
  | ind n ih =>
    unfold natStr at *
    rw [Nat.toDigits_eq_if (by decide)]
    split
    · rename_i h
      have := digitChar_range h
      refine ⟨⟨by simp, ?_⟩, ?_⟩
      · intro c hc
        simp only [List.mem_singleton] at hc
        subst hc
        rw [this]
        have h0 : '0'.toNat = 48 := rfl
        have h9 : '9'.toNat = 57 := rfl
        omega
      · simp [numeral, this]
    · rename_i h
      have hlt : n % 10 < 10 := Nat.mod_lt _ (by decide)
      have hd := digitChar_range hlt
      obtain ⟨⟨h1, h2⟩, h3⟩ := ih (n / 10) (Nat.div_lt_self (by omega) (by decide))
      refine ⟨⟨by simp, ?_⟩, ?_⟩
      · intro c hc
        rcases List.mem_append.1 hc with hc | hc
        · exact h2 c hc
        · simp only [List.mem_singleton] at hc
          subst hc
          rw [hd]
          have h0 : '0'.toNat = 48 := rfl
          have h9 : '9'.toNat = 57 := rfl
          omega
      · unfold numeral at *
        rw [List.foldl_append, h3]
        simp [hd]
        omega

theorem denotes_rversion (rv : RVersion) : Denotes rv.toFullString [rv.major, rv.minor, rv.patch] := by
  have h1 := isNumeral_natStr rv.major
  have h2 := isNumeral_natStr rv.minor
  have h3 := isNumeral_natStr rv.patch
  have d3 : Denotes (natStr rv.patch) [rv.patch] := by
    have := Denotes.one h3.1; rwa [h3.2] at this
  have d2 : Denotes (natStr rv.minor ++ '.' :: natStr rv.patch) [rv.minor, rv.patch] := by
    have := Denotes.more h2.1 (Or.inl rfl) d3; rwa [h2.2] at this
  have := Denotes.more h1.1 (Or.inl rfl) d2
  rwa [h1.2] at this

theorem parseVersion_rversion {rv : RVersion} (h : SmallR rv) :
    parseVersion rv.toFullString = some ⟨rv.major, rv.minor, rv.patch, 0, 0, rv.toFullString⟩ := by
  rw [parseVersion_denotes (denotes_rversion rv)]
  · rfl
  · obtain ⟨h1, h2, h3⟩ := h
    simp [h1, h2, h3]

theorem parseVersion_rversion_ne_none (rv : RVersion) : parseVersion rv.toFullString ≠ none := by
  intro h
  rw [parseVersion_none_iff] at h
  exact h.1 (by simp [RVersion.toFullString])

theorem trimmed_of_denotes {v : Str} {ns : List Nat} (h : Denotes v ns) :
    v ≠ [] ∧ ∀ c ∈ v, ('0'.toNat ≤ c.toNat ∧ c.toNat ≤ '9'.toNat) ∨ c = '.' ∨ c = '-' := by
  induction h with
  | one h => exact ⟨h.1, fun c hc => .inl (h.2 c hc)⟩
  | more h1 s _ ih =>
    refine ⟨by simp, fun c hc => ?_⟩
    rcases List.mem_append.1 hc with hc | hc
    · exact .inl (h1.2 c hc)
    · rcases List.mem_cons.1 hc with hc | hc
      · subst hc; exact .inr s
      · exact ih.2 c hc

theorem versionChar_not {c : Char} (h : ('0'.toNat ≤ c.toNat ∧ c.toNat ≤ '9'.toNat) ∨ c = '.' ∨ c = '-') :
    isSpace c = false ∧ c ≠ '(' ∧ c ≠ ')' ∧ c ≠ '<' ∧ c ≠ '>' ∧ c ≠ '=' := by
  rcases h with ⟨h1, h2⟩ | rfl | rfl
  · have h0 : '0'.toNat = 48 := rfl
    have h9 : '9'.toNat = 57 := rfl
    rw [h0] at h1; rw [h9] at h2
    refine ⟨?_, ?_, ?_, ?_, ?_, ?_⟩
    · unfold isSpace
      simp only [Bool.or_eq_false_iff, Bool.and_eq_false_iff, decide_eq_false_iff_not, beq_eq_false_iff_ne]
      omega
    all_goals (rintro rfl; revert h1 h2; decide)
  · decide
  · decide

/-! ### the stanza loop -/

/-- Does the stanza get filed, and as what? -/
def filed (decode : Str → Option RawDesc) (rv : RVersion) (text : Str) : Option Desc :=
  if text = [] then none
  else match decode text with
    | none => none
    | some raw => match newDesc raw with
      | none => none
      | some d => if isRVersionCompatible d rv = some true ∧ d.path = [] then some d else none

theorem compareVersions_lex (a b : Version) : compareVersions a b =
    lexCmp [a.major, a.minor, a.patch, a.dev, a.other] [b.major, b.minor, b.patch, b.dev, b.other] := by
  unfold compareVersions
  simp only [lexCmp, gt_iff_lt]

theorem runsOn_iff {rv : RVersion} (hrv : SmallR rv) {d : Desc} :
    isRVersionCompatible d rv = some true ↔ RunsOn rv d := by
  unfold isRVersionCompatible checkRVersionCompatibility RunsOn
  cases h : GoMap.get? d.depends (s%"R") with
  | none => simp
  | some c =>
    rw [parseVersion_rversion hrv]
    simp only [Option.map_some, Option.some.injEq, forall_eq', compareVersions_lex]
    cases c.constraint <;> simp [Holds]

theorem accepts_iff {decode : Str → Option RawDesc} {rv : RVersion} (hrv : SmallR rv) {text k : Str} {d : Desc} :
    Accepts decode rv text k d ↔ filed decode rv text = some d ∧ d.package = k := by
  unfold Accepts filed
  rw [← runsOn_iff hrv]
  constructor
  · rintro ⟨h, raw, h1, h2, h3, h4, h5⟩
    simp [h, h1, h2, h3, h4, h5]
  · rintro ⟨h, hk⟩
    split at h
    · simp at h
    · rename_i hne
      split at h
      · simp at h
      · rename_i raw hraw
        split at h
        · simp at h
        · rename_i d' hd'
          split at h
          · rename_i hc
            injection h with h
            subst h
            exact ⟨hne, raw, hraw, hd', hk, hc.2, hc.1⟩
          · simp at h

theorem loadStanzas_ok {decode : Str → Option RawDesc} {rv : RVersion} {l : List Str} {m m' : GoMap Desc}
    (h : loadStanzas decode rv l m = .ok m') :
    m' = l.foldl (fun m t => match filed decode rv t with | some d => GoMap.put m d.package d | none => m) m := by
  induction l generalizing m with
  | nil => simp [loadStanzas] at h; simp [h]
  | cons t l ih =>
    rw [loadStanzas] at h
    rw [List.foldl_cons]
    by_cases ht : t = []
    · subst ht; simp at h; simpa [filed] using ih h
    · have : ¬ t.length = 0 := by simpa using ht
      simp only [this, if_false] at h
      split at h
      · simp at h
      · rename_i raw hraw
        split at h
        · simp at h
        · rename_i d hd
          split at h
          · simp at h
          · rename_i valid hv
            by_cases hc : valid = true ∧ d.path = []
            · simp only [hc.1, hc.2, decide_true, Bool.and_self, if_true] at h
              rw [ih h]
              simp [filed, ht, hraw, hd, hv, hc.1, hc.2]
            · have hc' : (valid && decide (d.path = [])) = false := by
                simp only [Bool.and_eq_false_iff, decide_eq_false_iff_not]
                by_cases hv' : valid = true
                · exact .inr fun hp => hc ⟨hv', hp⟩
                · exact .inl (by simpa using hv')
              simp only [hc', Bool.false_eq_true, if_false] at h
              rw [ih h]
              have : filed decode rv t = none := by
                simp only [filed, ht, if_false, hraw, hd, hv, Option.some.injEq]
                rw [if_neg hc]
              simp [this]

theorem foldl_put_get? {decode : Str → Option RawDesc} {rv : RVersion} (l : List Str) (m : GoMap Desc) (k : Str) :
    GoMap.get? (l.foldl (fun m t => match filed decode rv t with | some d => GoMap.put m d.package d | none => m) m) k
      = match (l.filterMap (filed decode rv)).reverse.find? (fun d => d.package = k) with
        | some d => some d
        | none => GoMap.get? m k := by
  induction l generalizing m with
  | nil => simp
  | cons t l ih =>
    rw [List.foldl_cons, ih]
    cases hf : filed decode rv t with
    | none => simp [hf]
    | some d =>
      simp only [hf, List.filterMap_cons, List.reverse_cons, List.find?_append]
      cases hfind : (List.filterMap (filed decode rv) l).reverse.find? (fun d => decide (d.package = k)) with
      | some d' => simp
      | none =>
        simp only [Option.none_or, List.find?_cons, List.find?_nil]
        by_cases hk : d.package = k
        · simp [hk, GoMap.get?_put]
        · simp [hk, GoMap.get?_put, Ne.symm hk]

theorem loadStanzas_wf {decode : Str → Option RawDesc} {rv : RVersion} {l : List Str} {m m' : GoMap Desc}
    (hm : GoMap.WF m) (h : loadStanzas decode rv l m = .ok m') : GoMap.WF m' := by
  rw [loadStanzas_ok h]
  clear h
  induction l generalizing m with
  | nil => exact hm
  | cons t l ih =>
    rw [List.foldl_cons]
    apply ih
    split
    · exact GoMap.wf_put hm _ _
    · exact hm

theorem splitBlank_ne_nil (s : Str) : splitBlank s ≠ [] := by
  fun_cases splitBlank s <;> simp_all

theorem splitBlank_join (s : Str) : [('\n'), '\n'].intercalate (splitBlank s) = s := by
  fun_induction splitBlank s with
  | case1 => rfl
  | case2 s ih =>
    rw [List.intercalate_cons_of_ne_nil (splitBlank_ne_nil s), ih]
    rfl
  | case3 c s _ h ih => exact absurd h (splitBlank_ne_nil s)
  | case4 c s _ w ws h ih =>
    rw [h] at ih
    cases ws with
    | nil => simp [List.intercalate] at ih ⊢; simp [ih]
    | cons a b =>
      rw [List.intercalate_cons_of_ne_nil (by simp)] at ih ⊢
      simp [← ih]

theorem splitBlank_append {x : Str} (hx : ¬ (s%"\n\n") <:+: x) (hl : x.getLast? ≠ some '\n') (r : Str) :
    splitBlank (x ++ '\n' :: '\n' :: r) = x :: splitBlank r := by
  induction x with
  | nil => simp [splitBlank]
  | cons c x ih =>
    have h1 : ¬ (s%"\n\n") <:+: x := fun h => hx (h.trans (List.suffix_cons c x).isInfix)
    have h2 : x ≠ [] → x.getLast? ≠ some '\n' := by
      intro hne h
      cases x with
      | nil => exact hne rfl
      | cons a b => exact hl (by simpa using h)
    have hnp : ¬ ∃ t, c :: (x ++ '\n' :: '\n' :: r) = '\n' :: '\n' :: t := by
      rintro ⟨t, ht⟩
      injection ht with hc ht
      subst hc
      cases x with
      | nil => exact hl rfl
      | cons a b =>
        injection ht with ha hb
        subst ha
        exact hx ⟨[], b, rfl⟩
    by_cases hne : x = []
    · subst hne
      have hc : c ≠ '\n' := fun h => hl (by rw [h]; rfl)
      rw [List.cons_append, splitBlank]
      · simp [splitBlank]
      · intro s h h'; exact absurd ⟨s, by rw [h]; exact congrArg _ h'⟩ hnp
    · rw [List.cons_append, splitBlank]
      · rw [ih h1 (h2 hne)]
      · intro s h h'; exact absurd ⟨s, by rw [h]; exact congrArg _ h'⟩ hnp

theorem splitBlank_single {x : Str} (hx : ¬ (s%"\n\n") <:+: x) : splitBlank x = [x] := by
  induction x with
  | nil => rfl
  | cons c x ih =>
    have h1 : ¬ (s%"\n\n") <:+: x := fun h => hx (h.trans (List.suffix_cons c x).isInfix)
    rw [splitBlank]
    · rw [ih h1]
    · intro s h h'
      rw [h, h'] at hx
      exact hx ⟨[], s, rfl⟩

theorem splitBlank_head {s w : Str} {ws : List Str} (h : splitBlank s = w :: ws) :
    ∃ t, s = w ++ t ∧ (ws ≠ [] → ∃ r, t = '\n' :: '\n' :: r) := by
  have := splitBlank_join s
  rw [h] at this
  cases ws with
  | nil => exact ⟨[], by simpa [List.intercalate] using this.symm, by simp⟩
  | cons a b =>
    rw [List.intercalate_cons_of_ne_nil (by simp)] at this
    exact ⟨(s%"\n\n") ++ (s%"\n\n").intercalate (a :: b), by rw [← this, List.append_assoc], fun _ => ⟨_, rfl⟩⟩

theorem splitBlank_stanzas (s : Str) : Stanzas s (splitBlank s) := by
  refine ⟨splitBlank_ne_nil s, splitBlank_join s, ?_, ?_⟩
  · fun_induction splitBlank s with
    | case1 => simp
    | case2 s ih =>
      intro x hx
      rcases List.mem_cons.1 hx with rfl | hx
      · simp
      · exact ih x hx
    | case3 c s _ h ih => exact absurd h (splitBlank_ne_nil s)
    | case4 c s hno w ws h ih =>
      intro x hx
      rcases List.mem_cons.1 hx with rfl | hx
      · intro hin
        rw [List.infix_cons_iff] at hin
        rcases hin with hp | hp
        · obtain ⟨t, ht, _⟩ := splitBlank_head h
          rw [List.cons_prefix_cons] at hp
          obtain ⟨hc, u, hu⟩ := hp
          subst hc
          exact hno (u ++ t) (by rfl) (by rw [ht, ← hu]; rfl)
        · exact ih w (by rw [h]; simp) hp
      · exact ih x (by rw [h]; simp [hx])
  · fun_induction splitBlank s with
    | case1 => simp
    | case2 s ih =>
      intro x hx
      rw [List.dropLast_cons_of_ne_nil (splitBlank_ne_nil s)] at hx
      rcases List.mem_cons.1 hx with rfl | hx
      · simp
      · exact ih x hx
    | case3 c s _ h ih => exact absurd h (splitBlank_ne_nil s)
    | case4 c s hno w ws h ih =>
      intro x hx
      rw [h] at ih
      cases ws with
      | nil => simp at hx
      | cons a b =>
        rw [List.dropLast_cons_of_ne_nil (by simp)] at hx ih
        rcases List.mem_cons.1 hx with rfl | hx
        · intro hl
          cases w with
          | nil =>
            obtain ⟨t, ht, hr⟩ := splitBlank_head h
            obtain ⟨r, hr⟩ := hr (by simp)
            have hc : c = '\n' := by simpa using hl
            subst hc
            exact hno ('\n' :: r) rfl (by rw [ht, hr]; rfl)
          | cons y z => exact ih (y :: z) (by simp) (by simpa using hl)
        · exact ih x (by simp [hx])

theorem stanzas_unique {s : Str} {xs : List Str} (h : Stanzas s xs) : splitBlank s = xs := by
  obtain ⟨h1, h2, h3, h4⟩ := h
  induction xs generalizing s with
  | nil => exact absurd rfl h1
  | cons x xs ih =>
    cases xs with
    | nil =>
      have : x = s := by simpa [List.intercalate] using h2
      rw [← this]
      exact splitBlank_single (h3 x (by simp))
    | cons y ys =>
      rw [List.intercalate_cons_of_ne_nil (by simp)] at h2
      rw [← h2]
      rw [List.dropLast_cons_of_ne_nil (by simp)] at h4
      have := ih (by simp) rfl (fun z hz => h3 z (by simp [hz])) (fun z hz => h4 z (by simp [hz]))
      rw [List.append_assoc]
      refine (splitBlank_append (h3 x (by simp)) (h4 x (by simp)) ((s%"\n\n").intercalate (y :: ys))).trans ?_
      rw [this]

theorem unixText_normalize (s : Str) : UnixText s (normalizeCRLF s) := by
  fun_induction normalizeCRLF s with
  | case1 => exact .nil
  | case2 s ih => exact .crlf ih
  | case3 c s hno ih =>
    refine .other ?_ ih
    rintro ⟨rfl, h⟩
    cases s with
    | nil => simp at h
    | cons a b =>
      have : a = '\n' := by simpa using h
      subst this
      exact hno b rfl rfl

theorem unixText_unique {a b : Str} (h : UnixText a b) : b = normalizeCRLF a := by
  induction h with
  | nil => rfl
  | crlf _ ih => rw [ih, normalizeCRLF]
  | @other c a b hno _ ih =>
    rw [ih]
    rw [normalizeCRLF]
    intro s hc hs
    subst hs
    exact hno ⟨hc, rfl⟩

theorem depMap_get {items : List Str} {m0 m : GoMap Dep} (h : depMap items m0 = some m) (k : Str) (c : Dep) :
    GoMap.get? m k = some c ↔ (∃ pre x post, items = pre ++ x :: post ∧ parseDep x = some c ∧ c.name = k ∧
      ∀ y ∈ post, ∀ c', parseDep y = some c' → c'.name ≠ k) ∨
      (GoMap.get? m0 k = some c ∧ ∀ y ∈ items, ∀ c', parseDep y = some c' → c'.name ≠ k) := by
  induction items generalizing m0 with
  | nil =>
    simp only [depMap, Option.some.injEq] at h
    subst h
    simp
  | cons x items ih =>
    unfold depMap at h
    split at h
    · cases h
    · rename_i d hd
      rw [ih h, GoMap.get?_put]
      constructor
      · rintro (⟨pre, y, post, rfl, h1, h2, h3⟩ | ⟨h1, h2⟩)
        · exact .inl ⟨x :: pre, y, post, rfl, h1, h2, h3⟩
        · by_cases hk : k = d.name
          · rw [if_pos hk] at h1
            injection h1 with h1
            subst h1
            exact .inl ⟨[], x, items, rfl, hd, hk.symm, h2⟩
          · rw [if_neg hk] at h1
            refine .inr ⟨h1, fun y hy c' hc' => ?_⟩
            rcases List.mem_cons.1 hy with rfl | hy
            · rw [hd] at hc'; injection hc' with hc'; rw [← hc']; exact fun h => hk h.symm
            · exact h2 y hy c' hc'
      · rintro (⟨pre, y, post, heq, h1, h2, h3⟩ | ⟨h1, h2⟩)
        · cases pre with
          | nil =>
            injection heq with e1 e2
            subst e1 e2
            rw [hd] at h1; injection h1 with h1; subst h1
            exact .inr ⟨by rw [if_pos h2.symm], h3⟩
          | cons a pre =>
            injection heq with e1 e2
            subst e1 e2
            exact .inl ⟨pre, y, post, rfl, h1, h2, h3⟩
        · refine .inr ⟨?_, fun y hy => h2 y (by simp [hy])⟩
          rw [if_neg]
          · exact h1
          · intro hk
            exact h2 x (by simp) d hd hk.symm

theorem depMap_table {items : List Str} {m : GoMap Dep} (h : depMap items [] = some m) : DepTable items m := by
  intro k c
  rw [depMap_get h]
  simp

theorem depMap_none_iff {items : List Str} {m : GoMap Dep} :
    depMap items m = none ↔ ∃ x ∈ items, parseDep x = none := by
  induction items generalizing m with
  | nil => simp [depMap]
  | cons x items ih =>
    unfold depMap
    split
    · rename_i h; simp [h]
    · rename_i d h; rw [ih]; simp [h]

theorem newDesc_describes {raw : RawDesc} {d : Desc} (h : newDesc raw = some d) : Describes raw d := by
  unfold newDesc at h
  simp only [Option.bind_eq_bind, Option.bind_eq_some_iff, Option.pure_def, Option.some.injEq] at h
  obtain ⟨im, h1, su, h2, de, h3, li, h4, rfl⟩ := h
  exact ⟨rfl, rfl, rfl, rfl, depMap_table h1, depMap_table h2, depMap_table h3, depMap_table h4, rfl, rfl, rfl⟩

theorem newDesc_none_iff (raw : RawDesc) :
    newDesc raw = none ↔ ∃ x ∈ raw.imports ++ raw.suggests ++ raw.depends ++ raw.linkingTo, parseDep x = none := by
  have key : newDesc raw = none ↔ depMap raw.imports [] = none ∨ depMap raw.suggests [] = none ∨
      depMap raw.depends [] = none ∨ depMap raw.linkingTo [] = none := by
    unfold newDesc
    cases depMap raw.imports [] <;> cases depMap raw.suggests [] <;> cases depMap raw.depends [] <;>
      cases depMap raw.linkingTo [] <;> simp
  rw [key]
  simp only [depMap_none_iff, List.mem_append]
  constructor
  · rintro (⟨x, h1, h2⟩ | ⟨x, h1, h2⟩ | ⟨x, h1, h2⟩ | ⟨x, h1, h2⟩) <;> exact ⟨x, by simp [h1], h2⟩
  · rintro ⟨x, ((h1 | h1) | h1) | h1, h2⟩
    · exact .inl ⟨x, h1, h2⟩
    · exact .inr (.inl ⟨x, h1, h2⟩)
    · exact .inr (.inr (.inl ⟨x, h1, h2⟩))
    · exact .inr (.inr (.inr ⟨x, h1, h2⟩))

theorem fetchOne_keyed {decode : Str → Option RawDesc} {rv : RVersion} {body : Option Str} {m : GoMap Desc}
    (h : fetchOne decode rv body = .ok m) {k : Str} {d : Desc} (hk : GoMap.get? m k = some d) : d.package = k := by
  cases body with
  | none => cases h
  | some b =>
    have h' : loadStanzas decode rv (splitBlank (normalizeCRLF b)) [] = .ok m := h
    rw [loadStanzas_ok h', foldl_put_get?] at hk
    split at hk
    · rename_i d' hd'
      injection hk with hk
      subst hk
      simpa using List.find?_some hd'
    · simp at hk

end Pkgr
