/- C88: what the configuration says about single packages is what happens. -/
import Verif.Spec.Custom
import Verif.Props.Plan

namespace Pkgr
open Spec

/-! ### Lemmas -/

/-- The settings of a package after its entry was read. -/
def Settled (v : PkgSetting) (o : Option PkgConfig) : Prop :=
  match v.repo, v.type with
  | none, none => o = none
  | some r, none => ∃ c, o = some c ∧ c.repo.name = r ∧ c.type = .default
  | none, some t => ∃ c, o = some c ∧ c.repo.name = [] ∧ parseType t = some c.type
  | some r, some t => ∃ c, o = some c ∧ c.repo.name = r ∧ parseType t = some c.type

theorem setPackageRepo_get {nx nx' : Nexus} {p r : Str} (h : setPackageRepo nx p r = some nx') (q : Str) :
    if q = p then ∃ c, GoMap.get? nx'.packages q = some c ∧ c.repo.name = r ∧ c.type = ((GoMap.get? nx.packages p).getD {}).type
    else GoMap.get? nx'.packages q = GoMap.get? nx.packages q := by
  unfold setPackageRepo at h
  split at h
  · rename_i db hdb
    cases h
    split
    · subst_vars
      refine ⟨{ (GoMap.get? nx.packages q).getD {} with repo := db.repo }, by rw [GoMap.get?_put, if_pos rfl], ?_, rfl⟩
      have := List.find?_some hdb
      simpa using this
    · rename_i hq
      simp [GoMap.get?_put, hq]
  · cases h

theorem setPackageType_get {nx nx' : Nexus} {p t : Str} (h : setPackageType nx p t = some nx') (q : Str) :
    if q = p then ∃ c, GoMap.get? nx'.packages q = some c ∧ c.repo = ((GoMap.get? nx.packages p).getD {}).repo ∧ parseType t = some c.type
    else GoMap.get? nx'.packages q = GoMap.get? nx.packages q := by
  unfold setPackageType at h
  obtain ⟨ty, ht, rfl⟩ := Option.map_eq_some_iff.1 h
  split
  · subst_vars
    exact ⟨{ (GoMap.get? nx.packages q).getD {} with type := ty }, by rw [GoMap.get?_put, if_pos rfl], rfl, ht⟩
  · rename_i hq
    simp [GoMap.get?_put, hq]

theorem viperStep_packages {entries : List (Str × PkgSetting)} (hnd : (entries.map Prod.fst).Nodup) {s s' : InstallDeps × Nexus}
    {e : Str × PkgSetting} (he : e ∈ entries) (h : viperStep entries s e = some s') (h0 : GoMap.get? s.2.packages e.1 = none) :
    Settled e.2 (GoMap.get? s'.2.packages e.1) ∧ ∀ q, q ≠ e.1 → GoMap.get? s'.2.packages q = GoMap.get? s.2.packages q := by
  unfold viperStep at h
  dsimp only at h
  rw [isSet_iff hnd he, isSet_iff hnd he, isSet_iff hnd he] at h
  unfold Settled
  cases hr : e.2.repo with
  | none =>
    cases ht : e.2.type with
    | none =>
      rw [hr, ht] at h
      simp only [Option.isSome_none, Bool.false_eq_true, if_false, Option.some.injEq] at h
      subst h
      exact ⟨h0, fun _ _ => rfl⟩
    | some t =>
      rw [hr, ht] at h
      simp only [Option.isSome_none, Bool.false_eq_true, if_false, Option.isSome_some, if_true, Option.getD_some] at h
      split at h
      · cases h
      · rename_i nx1 h1
        cases h
        dsimp only
        refine ⟨?_, fun q hq => ?_⟩
        · have := setPackageType_get h1 e.1
          rw [if_pos rfl, h0] at this
          obtain ⟨c, hc, h2, h3⟩ := this
          exact ⟨c, hc, by rw [h2]; rfl, h3⟩
        · have := setPackageType_get h1 q
          rwa [if_neg hq] at this
  | some r =>
    rw [hr] at h
    simp only [Option.isSome_some, if_true, Option.getD_some] at h
    split at h
    · cases h
    · rename_i nx1 h1
      have ha := setPackageRepo_get h1 e.1
      rw [if_pos rfl, h0] at ha
      obtain ⟨c1, hc1, hn1, ht1⟩ := ha
      cases ht : e.2.type with
      | none =>
        rw [ht] at h
        simp only [Option.isSome_none, Bool.false_eq_true, if_false, Option.some.injEq] at h
        subst h
        refine ⟨⟨c1, hc1, hn1, ht1⟩, fun q hq => ?_⟩
        have := setPackageRepo_get h1 q
        rwa [if_neg hq] at this
      | some t =>
        rw [ht] at h
        simp only [Option.isSome_some, if_true, Option.getD_some] at h
        split at h
        · cases h
        · rename_i nx2 h2
          cases h
          dsimp only
          refine ⟨?_, fun q hq => ?_⟩
          · have := setPackageType_get h2 e.1
            rw [if_pos rfl, hc1] at this
            obtain ⟨c, hc, h3, h4⟩ := this
            exact ⟨c, hc, by rw [h3]; exact hn1, h4⟩
          · have a := setPackageType_get h2 q
            have b := setPackageRepo_get h1 q
            rw [if_neg hq] at a b
            rw [a, b]

theorem viper_fold_packages {entries : List (Str × PkgSetting)} (hnd : (entries.map Prod.fst).Nodup)
    (l : List (Str × PkgSetting)) : ∀ (s s' : InstallDeps × Nexus), (∀ e ∈ l, e ∈ entries) →
      (l.map Prod.fst).Nodup → (∀ e ∈ l, GoMap.get? s.2.packages e.1 = none) → l.foldlM (viperStep entries) s = some s' →
      (∀ e ∈ l, Settled e.2 (GoMap.get? s'.2.packages e.1)) ∧
      ∀ q, q ∉ l.map Prod.fst → GoMap.get? s'.2.packages q = GoMap.get? s.2.packages q := by
  induction l with
  | nil => intro s s' _ _ _ h; cases h; simp
  | cons e l ih =>
    intro s s' hsub hl h0 h
    rw [List.map_cons, List.nodup_cons] at hl
    rw [List.foldlM_cons] at h
    obtain ⟨sm, hstep, hrest⟩ := Option.bind_eq_some_iff.1 h
    obtain ⟨a1, a2⟩ := viperStep_packages hnd (hsub e (by simp)) hstep (h0 e (by simp))
    have hne : ∀ x ∈ l, x.1 ≠ e.1 := fun x hx he => hl.1 (he ▸ List.mem_map_of_mem hx)
    obtain ⟨b1, b2⟩ := ih sm s' (fun x hx => hsub x (by simp [hx])) hl.2
      (fun x hx => by rw [a2 _ (hne x hx)]; exact h0 x (by simp [hx])) hrest
    refine ⟨?_, ?_⟩
    · intro x hx
      rcases List.mem_cons.1 hx with rfl | hx
      · rw [b2 _ hl.1]; exact a1
      · exact b1 x hx
    · intro q hq
      simp only [List.map_cons, List.mem_cons, not_or] at hq
      rw [b2 q hq.2, a2 q hq.1]

theorem settled_of_plan {cfg : PlanCfg} {nx nx' : Nexus} {cfgs cfgs0 : InstallDeps} (hp : nx.packages = [])
    (huniq : (cfg.customizations.map Prod.fst).Nodup)
    (h : setPlanCustomizations cfg.suggests cfg.packages cfg.customizations cfgs0 nx = some (cfgs, nx')) (p : Str) :
    Settled (settingOf cfg p) (GoMap.get? nx'.packages p) := by
  obtain ⟨h1, h2⟩ := viper_fold_packages huniq cfg.customizations _ _ (fun _ h => h) huniq (by simp [hp]) h
  unfold settingOf
  cases hf : cfg.customizations.find? fun e => decide (e.1 = p) with
  | none =>
    have : p ∉ cfg.customizations.map Prod.fst := by
      intro hm
      obtain ⟨e, he, rfl⟩ := List.mem_map.1 hm
      have := List.find?_eq_none.1 hf e he
      simp at this
    rw [h2 p this]
    simp [Settled, hp]
  | some e =>
    have := List.find?_some hf
    have he : e.1 = p := by simpa using this
    have := h1 e (List.mem_of_find?_eq_some hf)
    rwa [he] at this

theorem offers_ignore (ignore : List Str) (db : RepoDb) (st : SourceType) (p : Str) (d : Desc) :
    Offers (ignore.foldl RepoDb.drop db) st p d ↔ Offers db st p d ∧ p ∉ ignore := by
  unfold Offers
  rw [ignore_fold_get?]
  split <;> simp [*]

theorem firstWith_map (f : RepoDb → RepoDb) (P : RepoDb → Prop) (l : List RepoDb) (b : RepoDb) :
    FirstWith P (l.map f) b ↔ ∃ a, f a = b ∧ FirstWith (fun x => P (f x)) l a := by
  unfold FirstWith
  constructor
  · rintro ⟨pre, post, h, hb, hpre⟩
    rw [List.map_eq_append_iff] at h
    obtain ⟨l1, l2, rfl, rfl, h2⟩ := h
    rw [List.map_eq_cons_iff] at h2
    obtain ⟨a, l3, rfl, rfl, rfl⟩ := h2
    exact ⟨a, rfl, l1, l3, rfl, hb, fun d hd => hpre _ (List.mem_map_of_mem hd)⟩
  · rintro ⟨a, rfl, pre, post, rfl, ha, hpre⟩
    refine ⟨pre.map f, post.map f, by simp, ha, ?_⟩
    intro d hd
    obtain ⟨x, hx, rfl⟩ := List.mem_map.1 hd
    exact hpre x hx

theorem firstWith_congr {P Q : RepoDb → Prop} {l : List RepoDb} (h : ∀ d ∈ l, (P d ↔ Q d)) (b : RepoDb) :
    FirstWith P l b ↔ FirstWith Q l b := by
  unfold FirstWith
  constructor
  · rintro ⟨pre, post, rfl, hb, hpre⟩
    exact ⟨pre, post, rfl, (h b (by simp)).1 hb, fun d hd hq => hpre d hd ((h d (by simp [hd])).2 hq)⟩
  · rintro ⟨pre, post, rfl, hb, hpre⟩
    exact ⟨pre, post, rfl, (h b (by simp)).2 hb, fun d hd hq => hpre d hd ((h d (by simp [hd])).1 hq)⟩

theorem saysType_unique {t : Str} {a b : SourceType} (ha : SaysType t a) (hb : SaysType t b) : a = b := by
  rcases ha with ⟨h1, rfl⟩ | ⟨h1, rfl⟩ <;> rcases hb with ⟨h2, rfl⟩ | ⟨h2, rfl⟩ <;> first | rfl | (rw [h1] at h2; exact absurd h2 (by decide))

theorem saysType_ne_default {t : Str} {a : SourceType} (ha : SaysType t a) : a ≠ .default := by
  rcases ha with ⟨_, rfl⟩ | ⟨_, rfl⟩ <;> simp

theorem typeInForce_unique {cfg : PlanCfg} {nx : Nexus} {p : Str} {db : RepoDb} {a b : SourceType}
    (ha : TypeInForce cfg nx p db a) (hb : TypeInForce cfg nx p db b) : a = b := by
  cases ht : (settingOf cfg p).type with
  | none => rw [ha.2 ht, hb.2 ht]
  | some t => exact saysType_unique (ha.1 t ht) (hb.1 t ht)

/-- The relation between what is in force in the planned database and the configuration. -/
theorem settled_typeFor {cfg : PlanCfg} {nx nx' : Nexus} {p : Str} (hs : Settled (settingOf cfg p) (GoMap.get? nx'.packages p))
    (hd : nx'.defaultSourceType = nx.defaultSourceType)
    (db db' : RepoDb) (hdb : db'.defaultSourceType = db.defaultSourceType) : TypeInForce cfg nx p db (typeFor nx' p db') := by
  unfold Settled at hs
  unfold TypeInForce typeFor unsetType
  cases hr : (settingOf cfg p).repo with
  | none =>
    cases ht : (settingOf cfg p).type with
    | none =>
      rw [hr, ht] at hs
      dsimp only at hs
      rw [hs]
      simp [hd, hdb]
    | some t =>
      rw [hr, ht] at hs
      obtain ⟨c, hc, _, h2⟩ := hs
      have := parseType_iff.1 h2
      rw [hc]
      simp [saysType_ne_default this, this]
  | some r =>
    cases ht : (settingOf cfg p).type with
    | none =>
      rw [hr, ht] at hs
      obtain ⟨c, hc, _, h2⟩ := hs
      rw [hc]
      simp [h2, hd]
    | some t =>
      rw [hr, ht] at hs
      obtain ⟨c, hc, _, h2⟩ := hs
      have := parseType_iff.1 h2
      rw [hc]
      simp [saysType_ne_default this, this]

theorem settled_pin {cfg : PlanCfg} {nx' : Nexus} {p : Str} (hs : Settled (settingOf cfg p) (GoMap.get? nx'.packages p))
    (db : RepoDb) (hne : ∀ r, (settingOf cfg p).repo = some r → r ≠ []) :
    PinAllows nx' p db ↔ ∀ r, (settingOf cfg p).repo = some r → db.repo.name = r := by
  unfold Settled at hs
  unfold PinAllows
  cases hr : (settingOf cfg p).repo with
  | none =>
    cases ht : (settingOf cfg p).type with
    | none =>
      rw [hr, ht] at hs
      dsimp only at hs
      rw [hs]
      simp
    | some t =>
      rw [hr, ht] at hs
      obtain ⟨c, hc, h1, _⟩ := hs
      rw [hc]
      simp [h1]
  | some r =>
    have hr' := hne r hr
    cases ht : (settingOf cfg p).type with
    | none =>
      rw [hr, ht] at hs
      obtain ⟨c, hc, h1, _⟩ := hs
      rw [hc]
      simp only [Option.some.injEq, forall_eq', h1, hr', false_or]
      exact eq_comm
    | some t =>
      rw [hr, ht] at hs
      obtain ⟨c, hc, h1, _⟩ := hs
      rw [hc]
      simp only [Option.some.injEq, forall_eq', h1, hr', false_or]
      exact eq_comm

theorem resolves_chosen {cfg : PlanCfg} {nx nx' : Nexus} {cfgs cfgs0 : InstallDeps} (hp : nx.packages = [])
    (huniq : (cfg.customizations.map Prod.fst).Nodup)
    (hne : ∀ e ∈ cfg.customizations, e.2.repo ≠ some [])
    (h : setPlanCustomizations cfg.suggests cfg.packages cfg.customizations cfgs0 (ignorePackages nx cfg.ignore) = some (cfgs, nx'))
    (p : Str) (dl : PkgDl) : Resolves nx' p dl ↔ Chosen cfg nx p dl := by
  obtain ⟨hdb, hdst, _, _⟩ := viper_fold_inv _ _ _ _ h
  dsimp only at hdb hdst
  have hs := settled_of_plan (nx := ignorePackages nx cfg.ignore) hp huniq h p
  have hset : ∀ (P : PkgSetting → Prop), P {} → (∀ e ∈ cfg.customizations, P e.2) → P (settingOf cfg p) := by
    intro P h0 h1
    unfold settingOf
    split
    · rename_i e he
      exact h1 e (List.mem_of_find?_eq_some he)
    · exact h0
  have hr := hset (fun v => ∀ r, v.repo = some r → r ≠ []) (by simp) (by
    intro e he r hr hr0
    exact hne e he (hr0 ▸ hr))
  have hmeta := ignore_fold_meta cfg.ignore
  have htf := fun db => settled_typeFor (nx := nx) hs hdst db (cfg.ignore.foldl RepoDb.drop db) (hmeta db).2
  have hcan : ∀ db ty d, CanServe cfg nx p db ty d ↔ PinAllows nx' p (cfg.ignore.foldl RepoDb.drop db) ∧
      ty = typeFor nx' p (cfg.ignore.foldl RepoDb.drop db) ∧ Offers (cfg.ignore.foldl RepoDb.drop db) ty p d := by
    intro db ty d
    rw [settled_pin hs _ hr, offers_ignore, (hmeta db).1]
    unfold CanServe
    constructor
    · rintro ⟨h1, h2, h3, h4⟩
      exact ⟨h1, typeInForce_unique h2 (htf db), h3, h4⟩
    · rintro ⟨h1, rfl, h3, h4⟩
      exact ⟨h1, htf db, h3, h4⟩
  unfold Resolves Chosen
  rw [hdb]
  unfold ignorePackages
  dsimp only
  simp only [firstWith_map]
  have hfw : ∀ a, FirstWith (fun x => Serves nx' p (cfg.ignore.foldl RepoDb.drop x)) nx.db a ↔
      FirstWith (fun db => ∃ ty d, CanServe cfg nx p db ty d) nx.db a := by
    intro a
    apply firstWith_congr
    intro d _
    unfold Serves
    simp only [hcan]
    constructor
    · rintro ⟨h1, d, h2⟩
      exact ⟨_, d, h1, rfl, h2⟩
    · rintro ⟨_, d, h1, rfl, h2⟩
      exact ⟨h1, d, h2⟩
  constructor
  · rintro ⟨_, ⟨a, rfl, hf⟩, ho, hc⟩
    refine ⟨a, (hfw a).1 hf, (hcan _ _ _).2 ⟨?_, by rw [hc], by rw [hc]; exact ho⟩, by rw [hc]; exact (hmeta a).1⟩
    obtain ⟨_, _, _, hb, _⟩ := hf
    exact hb.1
  · rintro ⟨a, hf, hc, hrepo⟩
    obtain ⟨h1, h2, h3⟩ := (hcan _ _ _).1 hc
    refine ⟨_, ⟨a, rfl, (hfw a).2 hf⟩, by rw [← h2]; exact h3, ?_⟩
    rw [← h2, (hmeta a).1, ← hrepo]

/-! ### C88 -/

/-- C88 (partial: one entry per package, a non-empty repository name). What a planned package is
taken from is decided by the configuration alone: the first repository, in the order of the configuration, that is the
one set for the package, if one is, and that offers it in the type in force; and no ignored package is obtained. -/
theorem C88_choice_partial {cfg : PlanCfg} {nx nx' : Nexus} {installed : GoMap Desc} {libEx : Bool}
    {tb ds : List Desc} {add : GoMap AdditionalPkg} {ρ ρ' ρ'' : Order} {req : List Str} {ip : InstallPlan}
    (hp : nx.packages = []) (huniq : (cfg.customizations.map Prod.fst).Nodup)
    (hne : ∀ e ∈ cfg.customizations, e.2.repo ≠ some [])
    (h : planInstall cfg nx installed libEx tb ds add ρ ρ' ρ'' = .planned req nx' ip) (p : Str) (dl : PkgDl) :
    Resolves nx' p dl ↔ Chosen cfg nx p dl := by
  unfold planInstall at h
  dsimp only at h
  split at h
  · cases h
  · rename_i cfgs nx1 hset
    split at h
    · cases h
    · split at h
      · cases h
      · cases h
        exact resolves_chosen hp huniq hne hset p dl

/-- C88 (partial, as above). Every download of a plan is what the configuration chooses for that package. -/
theorem C88_downloads_partial {cfg : PlanCfg} {nx nx' : Nexus} {installed : GoMap Desc} {libEx : Bool}
    {tb ds : List Desc} {add : GoMap AdditionalPkg} {ρ ρ' ρ'' : Order} {req : List Str} {ip : InstallPlan}
    (hk : Keyed nx) (hR : NoR nx) (hρ : ρ''.Fair) (hp : nx.packages = []) (huniq : (cfg.customizations.map Prod.fst).Nodup)
    (hne : ∀ e ∈ cfg.customizations, e.2.repo ≠ some [])
    (h : planInstall cfg nx installed libEx tb ds add ρ ρ' ρ'' = .planned req nx' ip) :
    ∀ dl ∈ ip.downloads, Chosen cfg nx dl.package.package dl := by
  intro dl hdl
  exact (C88_choice_partial hp huniq hne h _ _).1 ((C26_downloads hk hR hρ h).2 dl hdl)

theorem viperStep_none_iff {entries : List (Str × PkgSetting)} (hnd : (entries.map Prod.fst).Nodup) {e : Str × PkgSetting}
    (he : e ∈ entries) (s : InstallDeps × Nexus) :
    viperStep entries s e = none ↔ ¬ Understood s.2 e.2 := by
  unfold viperStep Understood
  dsimp only
  rw [isSet_iff hnd he, isSet_iff hnd he, isSet_iff hnd he]
  have hrep : ∀ r, setPackageRepo s.2 e.1 r = none ↔ ¬ ∃ db ∈ s.2.db, db.repo.name = r := by
    intro r
    rw [← C13_pin_succeeds_iff s.2 e.1 r]
    cases setPackageRepo s.2 e.1 r <;> simp
  have hty : ∀ (nx : Nexus) t, e.2.type = some t → (setPackageType nx e.1 t = none ↔ ¬ ∃ ty, SaysType t ty) := by
    intro nx t ht
    rw [← C14_type_words nx e.1 t]
    cases setPackageType nx e.1 t <;> simp
  cases hr : e.2.repo with
  | none =>
    cases ht : e.2.type with
    | none => simp
    | some t =>
      simp only [Option.isSome_none, Bool.false_eq_true, if_false, Option.isSome_some, if_true, Option.getD_some, reduceCtorEq,
        false_imp_iff, implies_true, true_and, Option.some.injEq, forall_eq']
      rw [← hty s.2 t ht]
      cases setPackageType s.2 e.1 t <;> simp
  | some r =>
    simp only [Option.isSome_some, if_true, Option.getD_some, Option.some.injEq, forall_eq']
    cases hq : setPackageRepo s.2 e.1 r with
    | none =>
      have := (hrep r).1 hq
      simp [this]
    | some nx1 =>
      have hyes : ∃ db ∈ s.2.db, db.repo.name = r := Decidable.byContradiction fun hn => by
        rw [(hrep r).2 hn] at hq; cases hq
      simp only [hyes, true_and]
      cases ht : e.2.type with
      | none => simp
      | some t =>
        simp only [Option.isSome_some, if_true, Option.getD_some, Option.some.injEq, forall_eq']
        rw [← hty nx1 t ht]
        cases setPackageType nx1 e.1 t <;> simp

theorem viper_fold_none_iff {entries : List (Str × PkgSetting)} (hnd : (entries.map Prod.fst).Nodup) (l : List (Str × PkgSetting))
    (hsub : ∀ e ∈ l, e ∈ entries) (s : InstallDeps × Nexus) :
    l.foldlM (viperStep entries) s = none ↔ ∃ e ∈ l, ¬ Understood s.2 e.2 := by
  induction l generalizing s with
  | nil => simp
  | cons e l ih =>
    rw [List.foldlM_cons]
    have hn := viperStep_none_iff hnd (hsub e (by simp)) s
    cases hs : viperStep entries s e with
    | none =>
      have := hn.1 hs
      simp [this]
    | some s' =>
      have hu : Understood s.2 e.2 := Classical.byContradiction fun h => by
        rw [hn.2 h] at hs; cases hs
      have hdb := (viperStep_effect hs).1
      have hsame : ∀ v, Understood s'.2 v ↔ Understood s.2 v := by
        intro v; unfold Understood; rw [hdb]
      show l.foldlM (viperStep entries) s' = none ↔ _
      rw [ih (fun x hx => hsub x (by simp [hx]))]
      simp [hsame, hu]

/-- C88: planning ends with the customization error iff some entry names a repository that is not configured, or a type
that is neither of the two words (one entry per package). -/
theorem C88_rejected_iff (cfg : PlanCfg) (nx : Nexus) (installed : GoMap Desc) (libEx : Bool)
    (tb ds : List Desc) (add : GoMap AdditionalPkg) (ρ ρ' ρ'' : Order) (huniq : (cfg.customizations.map Prod.fst).Nodup) :
    planInstall cfg nx installed libEx tb ds add ρ ρ' ρ'' = .badCustomization ↔
      ∃ e ∈ cfg.customizations, ¬ Understood nx e.2 := by
  have hsame : ∀ v, Understood (ignorePackages nx cfg.ignore) v ↔ Understood nx v := by
    intro v
    unfold Understood ignorePackages
    simp only [List.mem_map, exists_exists_and_eq_and, (ignore_fold_meta cfg.ignore _).1]
  have key := viper_fold_none_iff huniq cfg.customizations (fun _ h => h)
    (setCfgCustomizations cfg.suggests cfg.packages (defaultCfgs cfg.noRecommended), ignorePackages nx cfg.ignore)
  simp only [hsame] at key
  rw [← key]
  unfold planInstall setPlanCustomizations
  dsimp only
  cases cfg.customizations.foldlM (viperStep cfg.customizations)
    (setCfgCustomizations cfg.suggests cfg.packages (defaultCfgs cfg.noRecommended), ignorePackages nx cfg.ignore) with
  | none => simp
  | some x =>
    simp only [reduceCtorEq, iff_false]
    split
    · simp
    · split <;> simp

/-- C88 fails: two entries of one package, one with the repository and one with the type, are rejected although both
can be understood (what one entry does not say is taken from it as the empty word if the other one says it). -/
theorem C88_violated_two_entries (cfg : PlanCfg) (nx : Nexus) (installed : GoMap Desc) (libEx : Bool)
    (tb ds : List Desc) (add : GoMap AdditionalPkg) (ρ ρ' ρ'' : Order) (p r t : Str)
    (hc : cfg.customizations = [(p, { repo := some r }), (p, { type := some t })])
    (hr : ∃ db ∈ nx.db, db.repo.name = r) (ht : ∃ ty, SaysType t ty) :
    (∀ e ∈ cfg.customizations, Understood nx e.2) ∧
    planInstall cfg nx installed libEx tb ds add ρ ρ' ρ'' = .badCustomization := by
  refine ⟨?_, ?_⟩
  · intro e he
    rw [hc] at he
    have : e = (p, { repo := some r }) ∨ e = (p, { type := some t }) := by simpa using he
    unfold Understood
    rcases this with rfl | rfl
    · exact ⟨fun x hx => by cases hx; exact hr, fun x hx => by cases hx⟩
    · exact ⟨fun x hx => by (cases hx), fun x hx => by cases hx; exact ht⟩
  · have hno : ∀ nx : Nexus, setPackageType nx p [] = none := fun _ => rfl
    have key : ∀ s, viperStep cfg.customizations s (p, { repo := some r }) = none := by
      intro s
      unfold viperStep isCustomizationSet
      dsimp only
      rw [hc]
      simp only [List.any_cons, decide_true, Bool.true_and, Option.isSome_some, Option.isSome_none, Bool.false_or, List.any_nil,
        Bool.or_false, Bool.true_or, if_true, Option.getD_none, hno]
      split <;> rfl
    unfold planInstall setPlanCustomizations
    dsimp only
    generalize hent : cfg.customizations = ent at key ⊢
    conv in List.foldlM _ _ _ => arg 3; rw [← hent, hc]
    rw [List.foldlM_cons, key]
    rfl

/-- C88 fails: a package set to a repository whose name is empty is taken from another one. -/
theorem C88_violated_nameless : ∃ (cfg : PlanCfg) (nx : Nexus) (dl : PkgDl) (ip : InstallPlan) (req : List Str) (nx' : Nexus),
    planInstall cfg nx [] true [] [] [] (fun _ l => l) (fun _ l => l) (fun _ l => l) = .planned req nx' ip ∧
    (settingOf cfg dl.package.package).repo = some [] ∧ dl ∈ ip.downloads ∧ dl.config.repo.name ≠ [] ∧
    ∃ db ∈ nx.db, db.repo.name = [] ∧ ∃ d, Offers db dl.config.type dl.package.package d :=
  ⟨{ packages := [s%"a"], customizations := [(s%"a", { repo := some [] })] },
    { db := [{ repo := { name := s%"R1", url := s%"u" }, src := [(s%"a", { package := s%"a", version := s%"1" })] },
        { repo := { name := [], url := s%"v" }, src := [(s%"a", { package := s%"a", version := s%"2" })] }],
      packages := [], defaultSourceType := .source },
    { package := { package := s%"a", version := s%"1" }, config := { repo := { name := s%"R1", url := s%"u" }, type := .source } },
    _, _, _, rfl, rfl, by decide, by decide, { repo := { name := [], url := s%"v" }, src := [(s%"a", { package := s%"a", version := s%"2" })] },
    by simp, rfl, { package := s%"a", version := s%"2" }, rfl⟩

end Pkgr
