/-
C124: customizations as they are written.
-/
import Verif.Spec.RawCustom
import Verif.Proof.Nexus

namespace Pkgr

open Spec

/-- The three keys that are looked for. -/
def CustomKey (n : Str) : Prop := n ∈ [s%"Suggests", s%"Repo", s%"Type"]

theorem eqFold_key {k n : Str} (hn : CustomKey n) : eqFold k n = true ↔ SameKey k n := by
  unfold CustomKey at hn
  simp only [List.mem_cons, List.not_mem_nil, or_false] at hn
  unfold eqFold SameKey
  rw [decide_eq_true_eq]
  rcases hn with rfl | rfl | rfl
  · exact map_fold_iff (s%"suggests") (by decide) k
  · exact map_fold_iff (s%"repo") (by decide) k
  · exact map_fold_iff (s%"type") (by decide) k

theorem find_congr {α : Type} {p q : α → Bool} : ∀ (l : List α), (∀ x ∈ l, p x = q x) → l.find? p = l.find? q
  | [], _ => rfl
  | x :: l, h => by
    rw [List.find?_cons, List.find?_cons, h x (by simp), find_congr l fun y hy => h y (by simp [hy])]

theorem documented_key {l : List (Str × RawVal)} (hl : AsDocumented l) {n : Str} (hn : CustomKey n) {e : Str × RawVal} (he : e ∈ l) :
    SameKey e.1 n ↔ e.1 = n := ⟨hl e he n hn, fun h => by rw [h]; rfl⟩

theorem givenFor_documented {l : List (Str × RawVal)} (hl : AsDocumented l) {n : Str} (hn : CustomKey n) :
    givenFor n (some l) = (l.find? fun e => e.1 = n).map Prod.snd := by
  unfold givenFor
  dsimp only
  rw [find_congr l fun e he => decide_eq_decide.2 (documented_key hl hn he)]

theorem rawField_documented {l : List (Str × RawVal)} (hl : AsDocumented l) {n : Str} (hn : CustomKey n) :
    rawField n l = givenFor n (some l) := by
  rw [givenFor_documented hl hn]
  unfold rawField
  cases h : l.find? fun e => e.1 = n with
  | some e => rfl
  | none =>
    dsimp only
    rw [find_congr (q := fun e => decide (e.1 = n)) l fun e he => by
      rw [Bool.eq_iff_iff, eqFold_key hn, documented_key hl hn he, decide_eq_true_eq], h]

theorem any_documented {l : List (Str × RawVal)} (hl : AsDocumented l) {n : Str} (hn : CustomKey n) :
    (l.any fun kv => kv.1 = n) = (givenFor n (some l)).isSome := by
  rw [givenFor_documented hl hn, Option.isSome_map, Bool.eq_iff_iff, List.any_eq_true, List.find?_isSome]

theorem decodeBool_truth {v : RawVal} (h : truth v = true ∨
    v ∈ [RawVal.null, .bool false, .str [], .str (s%"0"), .str (s%"f"), .str (s%"F"), .str (s%"false"), .str (s%"FALSE"), .str (s%"False")]) :
    decodeBool v = some (truth v) := by
  rcases h with h | h
  · rw [h]
    unfold truth at h
    rw [decide_eq_true_eq] at h
    simp only [List.mem_cons, List.not_mem_nil, or_false] at h
    rcases h with rfl | rfl | rfl | rfl | rfl | rfl | rfl <;> decide
  · simp only [List.mem_cons, List.not_mem_nil, or_false] at h
    rcases h with rfl | rfl | rfl | rfl | rfl | rfl | rfl | rfl | rfl <;> decide

theorem decodeStr_text (v : RawVal) : decodeStr v = asText v := by cases v <;> rfl

/-- The decoded settings of an entry that is written as documented. -/
theorem decodeConf_documented {l : List (Str × RawVal)} (hl : AsDocumented l) (ht : ReadableTruth (some l)) :
    decodeConf (some l) = some { suggests := (meant (some l)).suggests.getD false, repo := (meant (some l)).repo.getD [], type := (meant (some l)).type.getD [] } := by
  have h1 := rawField_documented hl (n := s%"Suggests") (by simp [CustomKey])
  have h2 := rawField_documented hl (n := s%"Repo") (by simp [CustomKey])
  have h3 := rawField_documented hl (n := s%"Type") (by simp [CustomKey])
  have ht := ht
  unfold ReadableTruth at ht
  unfold decodeConf
  dsimp only
  rw [h1, h2, h3]
  have hs : decodeStr = asText := funext decodeStr_text
  unfold meant
  dsimp only
  rw [hs]
  cases hv : givenFor (s%"Suggests") (some l) with
  | none => rfl
  | some v =>
    dsimp only
    rw [decodeBool_truth (ht v hv)]
    rfl

/-- The settings of all entries are written as documented. -/
def AllDocumented (raws : List (Str × RawSettings)) : Prop := ∀ e ∈ raws, ∃ l, e.2 = some l ∧ AsDocumented l

theorem rawIsSet_documented {n : Str} (hn : CustomKey n) (has : PkgSetting → Bool) (hhas : ∀ l, has (meant (some l)) = (givenFor n (some l)).isSome)
    (pkg : Str) : ∀ (raws : List (Str × RawSettings)), AllDocumented raws →
    rawIsSet n raws pkg = some (isCustomizationSet has (raws.map fun e => (e.1, meant e.2)) pkg)
  | [], _ => rfl
  | (k, raw) :: es, h => by
    obtain ⟨l, rfl, hl⟩ : ∃ l, raw = some l ∧ AsDocumented l := h (k, raw) (by simp)
    have ih := rawIsSet_documented hn has hhas pkg es fun e he => h e (by simp [he])
    unfold rawIsSet isCustomizationSet
    rw [List.map_cons, List.any_cons]
    dsimp only
    by_cases hk : k = pkg
    · rw [if_pos hk, any_documented hl hn, hhas l]
      cases (givenFor n (some l)).isSome with
      | true => simp [hk]
      | false =>
        rw [if_neg (by simp), ih]
        simp [isCustomizationSet]
    · rw [if_neg hk, ih]
      simp [isCustomizationSet, hk]

theorem mapM_some {α β : Type} (f : α → Option β) (g : α → β) : ∀ (l : List α), (∀ x ∈ l, f x = some (g x)) → l.mapM f = some (l.map g)
  | [], _ => rfl
  | x :: l, h => by
    rw [List.mapM_cons, h x (by simp), mapM_some f g l fun y hy => h y (by simp [hy])]
    rfl

/-- How the two models compare. -/
def customEndOf : Option (InstallDeps × Nexus) → CustomEnd
  | some s => .ok s
  | none => .fatal

/-- What was decoded from an entry. -/
def confOf (m : PkgSetting) : PkgConf := { suggests := m.suggests.getD false, repo := m.repo.getD [], type := m.type.getD [] }

theorem rawSteps_eq {raws : List (Str × RawSettings)} (hraw : AllDocumented raws) : ∀ (es : List (Str × PkgSetting)) (s : InstallDeps × Nexus),
    rawSteps raws (es.map fun e => (e.1, confOf e.2)) s = customEndOf (es.foldlM (viperStep (raws.map fun e => (e.1, meant e.2))) s)
  | [], s => rfl
  | e :: es, s => by
    have h1 := rawIsSet_documented (n := s%"Suggests") (by simp [CustomKey]) (fun v => v.suggests.isSome) (fun l => by simp [meant]) e.1 raws hraw
    have h2 := rawIsSet_documented (n := s%"Repo") (by simp [CustomKey]) (fun v => v.repo.isSome) (fun l => by simp [meant]) e.1 raws hraw
    have h3 := rawIsSet_documented (n := s%"Type") (by simp [CustomKey]) (fun v => v.type.isSome) (fun l => by simp [meant]) e.1 raws hraw
    have hstep : rawStep raws s e.1 (confOf e.2) = customEndOf (viperStep (raws.map fun e => (e.1, meant e.2)) s e) := by
      unfold rawStep viperStep confOf
      rw [h1, h2, h3]
      generalize isCustomizationSet (fun v => v.suggests.isSome) _ e.1 = b1
      generalize isCustomizationSet (fun v => v.repo.isSome) _ e.1 = b2
      generalize isCustomizationSet (fun v => v.type.isSome) _ e.1 = b3
      dsimp only
      generalize (if b2 = true then setPackageRepo s.2 e.1 (e.2.repo.getD []) else some s.2) = o
      cases o with
      | none => rfl
      | some nx =>
        dsimp only
        generalize (if b3 = true then setPackageType nx e.1 (e.2.type.getD []) else some nx) = o2
        cases o2 with
        | none => rfl
        | some nx => rfl
    rw [List.map_cons, List.foldlM_cons]
    unfold rawSteps
    dsimp only
    rw [hstep]
    cases viperStep (raws.map fun e => (e.1, meant e.2)) s e with
    | none => rfl
    | some s' => exact rawSteps_eq hraw es s'

/-- C124 (partial: keys written as in the documentation, no entry without settings). The customizations have the effect
(`setPlanCustomizations`, of which C28 and C88 speak) of what is written. -/
theorem C124_meant_partial (g : Bool) (pkgs : List Str) (raws : List (Str × RawSettings)) (cfgs : InstallDeps) (nx : Nexus)
    (hdoc : ∀ e ∈ raws, ∃ l, e.2 = some l ∧ AsDocumented l) (htruth : ∀ e ∈ raws, ReadableTruth e.2) :
    rawPlanCustomizations g pkgs raws cfgs nx =
      match setPlanCustomizations g pkgs (raws.map fun e => (e.1, meant e.2)) cfgs nx with
      | some s => .ok s
      | none => .fatal := by
  unfold rawPlanCustomizations
  rw [mapM_some _ (fun e => (e.1, confOf (meant e.2))) raws fun e he => by
    obtain ⟨l, h, hl⟩ := hdoc e he
    rw [h, decodeConf_documented hl (by rw [← h]; exact htruth e he)]
    rfl]
  dsimp only
  have := rawSteps_eq hdoc (raws.map fun e => (e.1, meant e.2)) (setCfgCustomizations g pkgs cfgs, nx)
  rw [List.map_map] at this
  unfold setPlanCustomizations
  exact this

/-- C124 fails for keys in another case: they are decoded, but never have any effect. -/
theorem C124_violated_case (g : Bool) (pkgs : List Str) (raws : List (Str × RawSettings)) (cfgs : InstallDeps) (nx : Nexus)
    (hcase : ∀ e ∈ raws, ∃ l, e.2 = some l ∧ ∀ kv ∈ l, ¬ CustomKey kv.1) (htruth : ∀ e ∈ raws, ∃ v, decodeConf e.2 = some v) :
    rawPlanCustomizations g pkgs raws cfgs nx = .ok (setCfgCustomizations g pkgs cfgs, nx) := by
  have hset : ∀ (n pkg : Str), CustomKey n → ∀ (rs : List (Str × RawSettings)), (∀ e ∈ rs, e ∈ raws) → rawIsSet n rs pkg = some false := by
    intro n pkg hn rs
    induction rs with
    | nil => intro _; rfl
    | cons e rs ih =>
      intro h
      obtain ⟨l, hl, hk⟩ := hcase e (h e (by simp))
      have hany : (l.any fun kv => decide (kv.1 = n)) = false := by
        rw [List.any_eq_false]
        intro kv hkv hx
        rw [decide_eq_true_eq] at hx
        exact hk kv hkv (hx ▸ hn)
      unfold rawIsSet
      rw [hl]
      dsimp only
      rw [hany, ih fun x hx => h x (by simp [hx])]
      simp
  have hsteps : ∀ (es : List (Str × PkgConf)) (s : InstallDeps × Nexus), rawSteps raws es s = .ok s := by
    intro es
    induction es with
    | nil => intro s; rfl
    | cons e es ih =>
      intro s
      unfold rawSteps rawStep
      rw [hset _ e.1 (by simp [CustomKey]) raws (fun _ h => h), hset _ e.1 (by simp [CustomKey]) raws (fun _ h => h),
        hset _ e.1 (by simp [CustomKey]) raws (fun _ h => h)]
      exact ih s
  unfold rawPlanCustomizations
  rw [mapM_some _ (fun e => (e.1, (decodeConf e.2).getD {})) raws fun e he => by
    obtain ⟨v, hv⟩ := htruth e he
    rw [hv]
    rfl]
  exact hsteps _ _

/-- C124 fails for an entry without settings: if it is the first one of its package, planning never comes to an end in
order; alone, it crashes. -/
theorem C124_violated_null (g : Bool) (pkgs : List Str) (raws : List (Str × RawSettings)) (cfgs : InstallDeps) (nx : Nexus) (p : Str)
    (hnull : FirstWith (fun e => e.1 = p) raws (p, none)) :
    (∀ s, rawPlanCustomizations g pkgs raws cfgs nx ≠ .ok s) ∧ rawPlanCustomizations g pkgs [(p, none)] cfgs nx = .panic := by
  have hset : ∀ n, rawIsSet n raws p = none := by
    intro n
    obtain ⟨pre, post, rfl, -, hpre⟩ := hnull
    induction pre with
    | nil => simp [rawIsSet]
    | cons e pre ih =>
      have h1 : ¬ e.1 = p := hpre e (by simp)
      show rawIsSet n (e :: (pre ++ (p, none) :: post)) p = none
      unfold rawIsSet
      rw [if_neg h1]
      exact ih fun d hd => hpre d (by simp [hd])
  have hsteps : ∀ (es : List (Str × PkgConf)) (s s' : InstallDeps × Nexus), (∃ v, (p, v) ∈ es) → rawSteps raws es s ≠ .ok s' := by
    intro es
    induction es with
    | nil => intro s s' h; obtain ⟨v, h⟩ := h; cases h
    | cons e es ih =>
      intro s s' h
      obtain ⟨v, h⟩ := h
      unfold rawSteps
      rcases List.mem_cons.1 h with rfl | h
      · unfold rawStep
        rw [hset]
        simp
      · cases rawStep raws s e.1 e.2 with
        | ok s1 => exact ih s1 s' ⟨v, h⟩
        | fatal => simp
        | panic => simp
  constructor
  · intro s
    unfold rawPlanCustomizations
    cases hm : raws.mapM fun e => (decodeConf e.2).map fun v => (e.1, v) with
    | none => simp
    | some es =>
      apply hsteps
      obtain ⟨pre, post, hr, -, -⟩ := hnull
      have hmem : (p, (none : RawSettings)) ∈ raws := by rw [hr]; simp
      have : ∀ (rs : List (Str × RawSettings)) (es : List (Str × PkgConf)),
          (rs.mapM fun e => (decodeConf e.2).map fun v => (e.1, v)) = some es → (p, (none : RawSettings)) ∈ rs → ∃ v, (p, v) ∈ es := by
        intro rs
        induction rs with
        | nil => intro es _ h; cases h
        | cons r rs ih =>
          intro es h hmem
          rw [List.mapM_cons] at h
          cases h1 : (decodeConf r.2).map fun v => (r.1, v) with
          | none => rw [h1] at h; cases h
          | some x =>
            rw [h1] at h
            cases h2 : rs.mapM fun e => (decodeConf e.2).map fun v => (e.1, v) with
            | none => rw [h2] at h; cases h
            | some ys =>
              rw [h2] at h
              cases h
              rcases List.mem_cons.1 hmem with rfl | hmem
              · cases h1
                exact ⟨{}, by simp⟩
              · obtain ⟨v, hv⟩ := ih ys h2 hmem
                exact ⟨v, by simp [hv]⟩
      exact this raws es hm hmem
  · unfold rawPlanCustomizations
    simp [decodeConf, rawSteps, rawStep, rawIsSet]

/-- Entries as they may be written. -/
def rawExample : List (Str × RawSettings) :=
  [(s%"here", some [(s%"Suggests", .bool true), (s%"Env", .null)]), (s%"glue", some [(s%"Suggests", .str (s%"false"))])]

example : rawPlanCustomizations false [] rawExample newDefaultInstallDeps {} =
      .ok ({ newDefaultInstallDeps with deps := [(s%"glue", { newDefaultInstallDeps.default with suggests := false }), (s%"here", { newDefaultInstallDeps.default with suggests := true })] }, {}) ∧
    (∀ e ∈ rawExample, ∃ l, e.2 = some l ∧ AsDocumented l) ∧ (∀ e ∈ rawExample, ReadableTruth e.2) := by
  have h1 : ∀ e ∈ rawExample, ∃ l, e.2 = some l ∧ AsDocumented l := by
    intro e he
    simp only [rawExample, List.mem_cons, List.not_mem_nil, or_false] at he
    rcases he with rfl | rfl
    · exact ⟨_, rfl, by unfold AsDocumented; decide⟩
    · exact ⟨_, rfl, by unfold AsDocumented; decide⟩
  have h2 : ∀ e ∈ rawExample, ReadableTruth e.2 := by
    intro e he v hv
    simp only [rawExample, List.mem_cons, List.not_mem_nil, or_false] at he
    rcases he with rfl | rfl
    · have : v = .bool true := by
        have hx : givenFor (s%"Suggests") (some [(s%"Suggests", .bool true), (s%"Env", .null)]) = some (RawVal.bool true) := by decide
        rw [hx] at hv
        exact (Option.some.inj hv).symm
      rw [this]
      decide
    · have : v = .str (s%"false") := by
        have hx : givenFor (s%"Suggests") (some [(s%"Suggests", .str (s%"false"))]) = some (RawVal.str (s%"false")) := by decide
        rw [hx] at hv
        exact (Option.some.inj hv).symm
      rw [this]
      decide
  refine ⟨?_, h1, h2⟩
  rw [C124_meant_partial _ _ _ _ _ h1 h2]
  rfl

/-- `suggests: true` is read as `Suggests`, and ignored. -/
example : decodeConf (some [(s%"suggests", .bool true)]) = some { suggests := true } ∧
    rawPlanCustomizations false [] [(s%"here", some [(s%"suggests", .bool true)])] newDefaultInstallDeps {} = .ok (newDefaultInstallDeps, {}) :=
  ⟨by decide, rfl⟩

end Pkgr
