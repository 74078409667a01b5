/- C168: what a change of the configuration changes in the plan. -/
import Verif.Props.Outcome

namespace Pkgr
open Spec

/-! ### Customizations, repositories and packages apart -/

/-- What an entry does to the settings of the packages. -/
def chCfg (entries : List (Str × PkgSetting)) (c : InstallDeps) (e : Str × PkgSetting) : InstallDeps :=
  if isCustomizationSet (fun v => v.suggests.isSome) entries e.1 then
    { c with deps := GoMap.put c.deps e.1 { c.default with suggests := e.2.suggests.getD false } }
  else c

/-- What an entry does to the repositories and types. -/
def chNx (entries : List (Str × PkgSetting)) (nx : Nexus) (e : Str × PkgSetting) : Option Nexus :=
  (if isCustomizationSet (fun v => v.repo.isSome) entries e.1 then setPackageRepo nx e.1 (e.2.repo.getD []) else some nx).bind fun nx =>
    if isCustomizationSet (fun v => v.type.isSome) entries e.1 then setPackageType nx e.1 (e.2.type.getD []) else some nx

theorem viperStep_apart (entries : List (Str × PkgSetting)) (s : InstallDeps × Nexus) (e : Str × PkgSetting) :
    viperStep entries s e = (chNx entries s.2 e).map fun nx => (chCfg entries s.1 e, nx) := by
  unfold viperStep chNx
  dsimp only
  cases (if isCustomizationSet (fun v => v.repo.isSome) entries e.1 then setPackageRepo s.2 e.1 (e.2.repo.getD []) else some s.2) with
  | none => rfl
  | some nx =>
    rw [Option.bind_some]
    dsimp only
    cases (if isCustomizationSet (fun v => v.type.isSome) entries e.1 then setPackageType nx e.1 (e.2.type.getD []) else some nx) with
    | none => rfl
    | some nx => rfl

theorem viper_fold_apart (entries l : List (Str × PkgSetting)) (c : InstallDeps) (nx : Nexus) :
    l.foldlM (viperStep entries) (c, nx) = (l.foldlM (chNx entries) nx).map fun nx => (l.foldl (chCfg entries) c, nx) := by
  induction l generalizing c nx with
  | nil => rfl
  | cons e l ih =>
    rw [List.foldlM_cons, List.foldlM_cons, List.foldl_cons, viperStep_apart]
    dsimp only
    cases chNx entries nx e with
    | none => rfl
    | some nx1 => exact ih _ _

theorem setPlan_apart (g : Bool) (pkgs : List Str) (entries : List (Str × PkgSetting)) (c : InstallDeps) (nx : Nexus) :
    setPlanCustomizations g pkgs entries c nx =
      (entries.foldlM (chNx entries) nx).map fun nx => (entries.foldl (chCfg entries) (setCfgCustomizations g pkgs c), nx) :=
  viper_fold_apart _ _ _ _

/-- The second settings ask for suggested packages wherever the first do. -/
def ChLe (c c' : InstallDeps) : Prop :=
  c.default = c'.default ∧ ∀ p, GoMap.get? c.deps p = GoMap.get? c'.deps p ∨
    (GoMap.get? c.deps p = none ∧ ∃ k, GoMap.get? c'.deps p = some k ∧ k.suggests = true)

theorem chLe_fold (entries l : List (Str × PkgSetting)) {c c' : InstallDeps} (h : ChLe c c') :
    ChLe (l.foldl (chCfg entries) c) (l.foldl (chCfg entries) c') := by
  induction l generalizing c c' with
  | nil => exact h
  | cons e l ih =>
    refine ih ?_
    unfold chCfg
    by_cases hs : isCustomizationSet (fun v => v.suggests.isSome) entries e.1 = true
    · rw [if_pos hs, if_pos hs]
      refine ⟨h.1, fun p => ?_⟩
      rw [GoMap.get?_put, GoMap.get?_put, h.1]
      by_cases hp : p = e.1
      · rw [if_pos hp, if_pos hp]; exact .inl rfl
      · rw [if_neg hp, if_neg hp]; exact h.2 p
    · rw [if_neg hs, if_neg hs]; exact h

theorem chLe_init (g : Bool) {P P' : List Str} (h : ∀ p ∈ P, p ∈ P') (nr : Bool) :
    ChLe (setCfgCustomizations g P (defaultCfgs nr)) (setCfgCustomizations g P' (defaultCfgs nr)) := by
  obtain ⟨h1, h2⟩ := setCfg_spec g P (defaultCfgs nr)
  obtain ⟨k1, k2⟩ := setCfg_spec g P' (defaultCfgs nr)
  refine ⟨h1.trans k1.symm, fun p => ?_⟩
  rw [h2, k2]
  by_cases hg : g = true ∧ p ∈ P
  · rw [if_pos hg, if_pos ⟨hg.1, h p hg.2⟩]; exact .inl rfl
  · rw [if_neg hg]
    by_cases hg' : g = true ∧ p ∈ P'
    · rw [if_pos hg']; exact .inr ⟨rfl, _, rfl, rfl⟩
    · rw [if_neg hg']; exact .inl rfl

theorem chLe_sug {c c' : InstallDeps} (h : ChLe c c') (hd : c.default.suggests = false) {p : Str} (hs : SugOn c p) : SugOn c' p := by
  rcases hs with ⟨k, h1, h2⟩ | ⟨_, h2⟩
  · rcases h.2 p with h3 | ⟨h3, _⟩
    · exact .inl ⟨k, h3 ▸ h1, h2⟩
    · rw [h3] at h1; cases h1
  · rw [hd] at h2; cases h2

theorem chCfg_default (entries l : List (Str × PkgSetting)) (c : InstallDeps) : (l.foldl (chCfg entries) c).default = c.default := by
  induction l generalizing c with
  | nil => rfl
  | cons e l ih =>
    rw [List.foldl_cons, ih]
    unfold chCfg
    split <;> rfl

/-- The settings of two lists of packages, one contained in the other. -/
theorem setPlan_more {g : Bool} {P P' : List Str} (h : ∀ p ∈ P, p ∈ P') {entries : List (Str × PkgSetting)} {nr : Bool} {nx nx₁ : Nexus} {c : InstallDeps}
    (hs : setPlanCustomizations g P entries (defaultCfgs nr) nx = some (c, nx₁)) :
    ∃ c', setPlanCustomizations g P' entries (defaultCfgs nr) nx = some (c', nx₁) ∧ ∀ p, SugOn c p → SugOn c' p := by
  rw [setPlan_apart] at hs ⊢
  obtain ⟨nx2, h1, h2⟩ := Option.map_eq_some_iff.1 hs
  cases h2
  rw [h1]
  refine ⟨_, rfl, fun p => chLe_sug (chLe_fold _ _ (chLe_init g h nr)) ?_⟩
  rw [chCfg_default, (setCfg_spec g P (defaultCfgs nr)).1]
  rfl

theorem setPlan_less {g : Bool} {P P' : List Str} (h : ∀ p ∈ P, p ∈ P') {entries : List (Str × PkgSetting)} {nr : Bool} {nx nx₁ : Nexus} {c' : InstallDeps}
    (hs : setPlanCustomizations g P' entries (defaultCfgs nr) nx = some (c', nx₁)) :
    ∃ c, setPlanCustomizations g P entries (defaultCfgs nr) nx = some (c, nx₁) ∧ ∀ p, SugOn c p → SugOn c' p := by
  rw [setPlan_apart] at hs ⊢
  obtain ⟨nx2, h1, h2⟩ := Option.map_eq_some_iff.1 hs
  cases h2
  rw [h1]
  refine ⟨_, rfl, fun p => chLe_sug (chLe_fold _ _ (chLe_init g h nr)) ?_⟩
  rw [chCfg_default, (setCfg_spec g P (defaultCfgs nr)).1]
  rfl

/-! ### The list of packages -/

variable {cfg : PlanCfg} {nx nx₁ nx₂ : Nexus} {installed : GoMap Desc} {libEx : Bool} {tb ds : List Desc}
  {add : GoMap AdditionalPkg} {ρ₁ ρ₂ ρ₃ σ₁ σ₂ σ₃ : Order} {req req' : List Str} {ip ip' : InstallPlan}

theorem requested_more {P' : List Str} (hsub : ∀ p ∈ cfg.packages, p ∈ P') (h₁ : ρ₁.Fair) (h₂ : ρ₂.Fair) (k₁ : σ₁.Fair) (k₂ : σ₂.Fair) :
    ∀ p ∈ requestedPackages cfg tb ds ρ₁ ρ₂, p ∈ requestedPackages { cfg with packages := P' } tb ds σ₁ σ₂ := by
  intro p hp
  rw [C29_requested_partial _ tb ds h₁ h₂] at hp
  rw [C29_requested_partial _ tb ds k₁ k₂]
  exact ⟨hp.1, hp.2.imp (hsub p) id⟩

/-- The second plan has every package of the first, to be had from the same repository, in the same type and version. -/
structure Spec.Extends (ip ip' : InstallPlan) : Prop where
  packages : ∀ p ∈ ip.packages, p ∈ ip'.packages
  downloads : ∀ dl ∈ ip.downloads, dl ∈ ip'.downloads

theorem mem_downloads {nr : Bool} {sug : Str → Prop} (h : PlanOk nx nr sug req ip) (dl : PkgDl) : dl ∈ ip.downloads ↔ ∃ p ∈ ip.packages, Resolves nx p dl := by
  obtain ⟨l, hl, hd⟩ := h.downloads
  rw [hd, List.mem_map]
  constructor
  · rintro ⟨p, hp, rfl⟩
    have hp' : p ∈ ip.packages := hl.mem_iff.1 hp
    obtain ⟨dl, hr⟩ := h.avail p ((h.mem p).1 hp')
    refine ⟨p, hp', ?_⟩
    rw [resolves_iff.1 hr]
    exact hr
  · rintro ⟨p, hp, hr⟩
    exact ⟨p, hl.mem_iff.2 hp, by rw [resolves_iff.1 hr]; rfl⟩

theorem extends_of {nr : Bool} {sug sug' : Str → Prop} (h : PlanOk nx₁ nr sug req ip) (h' : PlanOk nx₂ nr sug' req' ip')
    (hres : ∀ p dl, Resolves nx₁ p dl → Resolves nx₂ p dl) (hs : ∀ p, sug p → sug' p) (hr : ∀ p ∈ req, p ∈ req') : Extends ip ip' := by
  have hp : ∀ p ∈ ip.packages, p ∈ ip'.packages := fun p hp => (h'.mem p).2 (inPlan_mono hres hs hr ((h.mem p).1 hp))
  refine ⟨hp, fun dl hd => ?_⟩
  obtain ⟨p, h1, h2⟩ := (mem_downloads h dl).1 hd
  exact (mem_downloads h' dl).2 ⟨p, hp p h1, hres _ _ h2⟩

/-- Two configurations that differ in nothing but the packages they list, and that request the same packages and set the same for them, have the same
outcome. -/
theorem plan_same {P' : List Str} {tb' ds' : List Desc} (hk : Keyed nx) (hR : NoR nx) (h₃ : ρ₃.Fair) (k₃ : σ₃.Fair) (hne : GoMap.get? installed [] = none)
    (hset : (setPlanCustomizations cfg.suggests cfg.packages cfg.customizations (defaultCfgs cfg.noRecommended) (ignorePackages nx cfg.ignore) = none ∧
        setPlanCustomizations cfg.suggests P' cfg.customizations (defaultCfgs cfg.noRecommended) (ignorePackages nx cfg.ignore) = none) ∨
      ∃ c c' nx1, setPlanCustomizations cfg.suggests cfg.packages cfg.customizations (defaultCfgs cfg.noRecommended) (ignorePackages nx cfg.ignore) = some (c, nx1) ∧
        setPlanCustomizations cfg.suggests P' cfg.customizations (defaultCfgs cfg.noRecommended) (ignorePackages nx cfg.ignore) = some (c', nx1) ∧
        ∀ p, SugOn c p ↔ SugOn c' p)
    (hreq : ∀ p, p ∈ requestedPackages cfg tb ds ρ₁ ρ₂ ↔ p ∈ requestedPackages { cfg with packages := P' } tb' ds' σ₁ σ₂) :
    match planInstall cfg nx installed libEx tb ds add ρ₁ ρ₂ ρ₃, planInstall { cfg with packages := P' } nx installed libEx tb' ds' add σ₁ σ₂ σ₃ with
    | .badCustomization, .badCustomization => True
    | .missing l, .missing l' => ∀ p, p ∈ l ↔ p ∈ l'
    | .failed e, .failed e' => e = e'
    | .planned req nx₁ ip, .planned req' nx₂ ip' => (∀ p, p ∈ req ↔ p ∈ req') ∧ nx₁ = nx₂ ∧ SamePlan ip ip'
    | _, _ => False := by
  unfold planInstall
  dsimp only
  rcases hset with ⟨hset, hset'⟩ | ⟨cfgs, cfgs', nx1, hset, hset', hs⟩
  · rw [hset, hset']; trivial
  · rw [hset, hset']
    dsimp only
    obtain ⟨hu, hdb, _⟩ := setPlan_uniform hset
    obtain ⟨hu', _, _⟩ := setPlan_uniform hset'
    have hk' : Keyed nx1 := by
      intro db hd; rw [hdb] at hd; exact keyed_ignore hk _ db hd
    have hR' : ¬ Available nx1 (s%"R") := noR_not_available (by
      intro db hd; rw [hdb] at hd; exact noR_ignore hR _ db hd)
    generalize requestedPackages cfg tb ds ρ₁ ρ₂ = l at hreq ⊢
    generalize requestedPackages { cfg with packages := P' } tb' ds' σ₁ σ₂ = l' at hreq ⊢
    have hmem : ∀ l p, p ∈ (getPackages nx1 l).missing ↔ p ∈ l ∧ ¬ Available nx1 p := by
      intro l p
      rw [getPackages_eq]
      simp only [List.mem_filter]
      refine and_congr_right fun _ => ?_
      constructor
      · rintro h ⟨dl, hdl⟩
        rw [resolves_iff.1 hdl] at h; cases h
      · intro h
        cases hg : getPackage nx1 p with
        | none => rfl
        | some dl => exact absurd ⟨dl, resolves_iff.2 hg⟩ h
    have hsame : ∀ p, p ∈ (getPackages nx1 l).missing ↔ p ∈ (getPackages nx1 l').missing := fun p => by
      rw [hmem, hmem, hreq]
    by_cases hm : (getPackages nx1 l).missing = []
    · have hm' : (getPackages nx1 l').missing = [] := List.eq_nil_iff_forall_not_mem.2 fun p hp => by
        have := (hsame p).2 hp; rw [hm] at this; cases this
      rw [if_neg (by simp [hm]), if_neg (by simp [hm'])]
      have hav : ∀ p ∈ l, Available nx1 p := by
        intro p hp
        refine Classical.byContradiction fun h => ?_
        have := (hmem l p).2 ⟨hp, h⟩
        rw [hm] at this; cases this
      rcases resolve_same hk' hk' (fun _ => rfl) hR' h₃ k₃ hu hu' hs hreq hav hne (!cfg.noUpdate) libEx with ⟨e, h, h'⟩ | ⟨ip, ip', h, h', hs⟩
      · rw [h, h']
      · rw [h, h']
        exact ⟨hreq, rfl, hs.starting, hs.listed, hs.lists, hs.downloads, hs.outdated, hs.rest.1, rfl, hs.rest.2.2⟩
    · have hm' : (getPackages nx1 l').missing ≠ [] := fun h' => hm (List.eq_nil_iff_forall_not_mem.2 fun p hp => by
        have := (hsame p).1 hp; rw [h'] at this; cases this)
      rw [if_pos hm, if_pos hm']
      exact hsame

/-- C168, the list of packages: what order they are listed in, and whether one is listed twice, does not matter. -/
theorem C168_same {P' : List Str} (hP : ∀ p, p ∈ cfg.packages ↔ p ∈ P') (hk : Keyed nx) (hR : NoR nx) (h₁ : ρ₁.Fair) (h₂ : ρ₂.Fair) (h₃ : ρ₃.Fair)
    (k₁ : σ₁.Fair) (k₂ : σ₂.Fair) (k₃ : σ₃.Fair) (hne : GoMap.get? installed [] = none) :
    match planInstall cfg nx installed libEx tb ds add ρ₁ ρ₂ ρ₃, planInstall { cfg with packages := P' } nx installed libEx tb ds add σ₁ σ₂ σ₃ with
    | .badCustomization, .badCustomization => True
    | .missing l, .missing l' => ∀ p, p ∈ l ↔ p ∈ l'
    | .failed e, .failed e' => e = e'
    | .planned req nx₁ ip, .planned req' nx₂ ip' => (∀ p, p ∈ req ↔ p ∈ req') ∧ nx₁ = nx₂ ∧ SamePlan ip ip'
    | _, _ => False := by
  have hreq : ∀ p, p ∈ requestedPackages cfg tb ds ρ₁ ρ₂ ↔ p ∈ requestedPackages { cfg with packages := P' } tb ds σ₁ σ₂ := fun p => by
    rw [C29_requested_partial cfg tb ds h₁ h₂, C29_requested_partial _ tb ds k₁ k₂, hP]
  refine plan_same hk hR h₃ k₃ hne ?_ hreq
  cases hset : setPlanCustomizations cfg.suggests cfg.packages cfg.customizations (defaultCfgs cfg.noRecommended)
      (ignorePackages nx cfg.ignore) with
  | none =>
    cases hset' : setPlanCustomizations cfg.suggests P' cfg.customizations (defaultCfgs cfg.noRecommended) (ignorePackages nx cfg.ignore) with
    | none => exact .inl ⟨rfl, rfl⟩
    | some r =>
      obtain ⟨c, h1, _⟩ := setPlan_less (fun p => (hP p).1) hset'
      rw [hset] at h1; cases h1
  | some r =>
    obtain ⟨cfgs, nx1⟩ := r
    obtain ⟨cfgs', hset', hs1⟩ := setPlan_more (fun p => (hP p).1) hset
    obtain ⟨c2, h2, hs2⟩ := setPlan_more (fun p => (hP p).2) hset'
    rw [hset] at h2
    obtain ⟨rfl, -⟩ := Prod.mk.injEq .. ▸ Option.some.inj h2
    exact .inr ⟨_, _, _, rfl, hset', fun p => ⟨hs1 p, hs2 p⟩⟩

/-- C168, the list of packages: listing more packages only adds: the new plan has every package of the old one, from the same repository, in the same type
and version, and installed after the same packages. -/
theorem C168_more {P' : List Str} (hsub : ∀ p ∈ cfg.packages, p ∈ P') (hk : Keyed nx) (hR : NoR nx) (h₁ : ρ₁.Fair) (h₂ : ρ₂.Fair) (h₃ : ρ₃.Fair)
    (k₁ : σ₁.Fair) (k₂ : σ₂.Fair) (k₃ : σ₃.Fair)
    (h : planInstall cfg nx installed libEx tb ds add ρ₁ ρ₂ ρ₃ = .planned req nx₁ ip)
    (h' : planInstall { cfg with packages := P' } nx installed libEx tb ds add σ₁ σ₂ σ₃ = .planned req' nx₂ ip') :
    Extends ip ip' ∧ (∀ p ∈ ip.starting, p ∈ ip'.starting) ∧
    ∀ p deps, GoMap.get? ip.depDb p = some deps → ∃ deps', GoMap.get? ip'.depDb p = some deps' ∧ deps'.Perm deps := by
  obtain ⟨hq, _, _, c, ho⟩ := planInstall_planned hk hR h₃ h
  obtain ⟨hq', _, _, c', ho'⟩ := planInstall_planned hk hR k₃ h'
  obtain ⟨c2, hs, hsug⟩ := setPlan_more hsub ho.custom
  have := ho'.custom
  dsimp only at this
  rw [hs] at this
  obtain ⟨rfl, rfl⟩ := Prod.mk.injEq .. ▸ Option.some.inj this
  have hreq : ∀ p ∈ req, p ∈ req' := by
    rw [hq, hq']; exact requested_more hsub h₁ h₂ k₁ k₂
  have hin : ∀ p, InPlan nx₁ cfg.noRecommended (SugOn c) req p → InPlan nx₁ cfg.noRecommended (SugOn c2) req' p := fun p =>
    inPlan_mono (fun _ _ h => h) hsug hreq
  have hp := ho.plan
  have hp' : PlanOk nx₁ cfg.noRecommended (SugOn c2) req' ip' := ho'.plan
  refine ⟨extends_of hp hp' (fun _ _ h => h) hsug hreq, fun p hs => (hp'.start p).2 ⟨hin p ((hp.start p).1 hs).1, ((hp.start p).1 hs).2⟩, ?_⟩
  intro p deps hd
  have hk1 := GoMap.mem_keys_of_get? hd
  have hm := (hp.mem p).1 (List.mem_append.2 (.inr hk1))
  have hns : p ∉ ip'.starting := fun hs => by
    have h1 := ((hp'.start p).1 hs).2
    have h2 : p ∈ ip.starting := (hp.start p).2 ⟨hm, h1⟩
    exact (List.nodup_append.1 hp.nodup).2.2 p h2 p hk1 rfl
  have hk2 : p ∈ GoMap.keys ip'.depDb := (List.mem_append.1 ((hp'.mem p).2 (hin p hm))).resolve_left hns
  obtain ⟨deps', hd'⟩ := Option.isSome_iff_exists.1 ((GoMap.has_iff _ _).2 hk2)
  refine ⟨deps', hd', ?_⟩
  rw [List.perm_ext_iff_of_nodup (hp'.deps p deps' hd').1 (hp.deps p deps hd).1]
  intro q
  rw [(hp'.deps p deps' hd').2, (hp.deps p deps hd).2]

/-- C168, the list of packages: what can be planned can still be planned with fewer packages listed, if any is left that does not ship with R. -/
theorem C168_fewer {P' : List Str} (hsub : ∀ p ∈ cfg.packages, p ∈ P') (hk : Keyed nx) (hR : NoR nx) (h₁ : ρ₁.Fair) (h₂ : ρ₂.Fair) (h₃ : ρ₃.Fair)
    (k₁ : σ₁.Fair) (k₂ : σ₂.Fair) (k₃ : σ₃.Fair) (hne : GoMap.get? installed [] = none) (hleft : ∃ p ∈ cfg.packages, p ∉ basePkgs)
    (h' : planInstall { cfg with packages := P' } nx installed libEx tb ds add σ₁ σ₂ σ₃ = .planned req' nx₂ ip') :
    ∃ req ip, planInstall cfg nx installed libEx tb ds add ρ₁ ρ₂ ρ₃ = .planned req nx₂ ip := by
  obtain ⟨hq', _, _, c', ho'⟩ := planInstall_planned hk hR k₃ h'
  obtain ⟨c, hs, hsug⟩ := setPlan_less hsub ho'.custom
  have hreq : ∀ p ∈ requestedPackages cfg tb ds ρ₁ ρ₂, p ∈ req' := by
    rw [hq']; exact requested_more hsub h₁ h₂ k₁ k₂
  have hinc : ¬ Incomparable nx₂ installed := by
    rcases C148_outcome_partial (cfg := { cfg with packages := P' }) (libEx := libEx) (tb := tb) (ds := ds) (add := add) (ρ := σ₁) (ρ' := σ₂) hk hR k₃ hne with hb | ⟨nx3, c3, h3, he⟩
    · rw [h'] at hb; cases hb
    · rw [h'] at he
      cases he with
      | planned _ _ _ hi => exact hi
  have hp' := ho'.plan
  rcases C148_outcome_partial (cfg := cfg) (libEx := libEx) (tb := tb) (ds := ds) (add := add) (ρ := ρ₁) (ρ' := ρ₂) hk hR h₃ hne with hb | ⟨nx3, c3, h3, he⟩
  · exfalso
    unfold planInstall at hb
    dsimp only at hb
    rw [hs] at hb
    dsimp only at hb
    split at hb
    · cases hb
    · split at hb <;> cases hb
  · rw [hs] at h3
    obtain ⟨rfl, rfl⟩ := Prod.mk.injEq .. ▸ Option.some.inj h3
    generalize hO : planInstall cfg nx installed libEx tb ds add ρ₁ ρ₂ ρ₃ = O at he ⊢
    cases he with
    | missing h _ => obtain ⟨p, h1, h2⟩ := h; exact absurd (ho'.avail p (hreq p h1)) h2
    | circular _ h => obtain ⟨p, h1, h2⟩ := h; exact absurd h2 (hp'.acyclic p (inPlan_mono (fun _ _ h => h) hsug hreq h1))
    | version _ _ h => exact absurd h hinc
    | empty h _ =>
      obtain ⟨p, h1, h2⟩ := hleft
      have : p ∈ requestedPackages cfg tb ds ρ₁ ρ₂ := (C29_requested_partial cfg tb ds h₁ h₂ p).2 ⟨h2, .inl h1⟩
      rw [h] at this; cases this
    | planned => exact ⟨_, _, rfl⟩

/-! ### The library -/

/-- C168, the library: what is planned, where it comes from and in what order it is installed does not depend on what is installed. -/
theorem C168_library {installed' : GoMap Desc} {libEx' : Bool} (hk : Keyed nx) (hR : NoR nx) (h₁ : ρ₁.Fair) (h₂ : ρ₂.Fair) (h₃ : ρ₃.Fair)
    (k₁ : σ₁.Fair) (k₂ : σ₂.Fair) (k₃ : σ₃.Fair)
    (h : planInstall cfg nx installed libEx tb ds add ρ₁ ρ₂ ρ₃ = .planned req nx₁ ip)
    (h' : planInstall cfg nx installed' libEx' tb ds add σ₁ σ₂ σ₃ = .planned req' nx₂ ip') :
    ip'.packages.Perm ip.packages ∧ ip'.downloads.Perm ip.downloads ∧ ip'.starting.Perm ip.starting ∧
    ∀ p deps deps', GoMap.get? ip.depDb p = some deps → GoMap.get? ip'.depDb p = some deps' → deps'.Perm deps := by
  obtain ⟨hq, _, _, c, ho⟩ := planInstall_planned hk hR h₃ h
  obtain ⟨hq', _, _, c', ho'⟩ := planInstall_planned hk hR k₃ h'
  have hcu := ho'.custom
  rw [ho.custom] at hcu
  obtain ⟨rfl, rfl⟩ := Prod.mk.injEq .. ▸ Option.some.inj hcu
  have hreq : ∀ p, p ∈ req ↔ p ∈ req' := fun p => by
    rw [hq, hq', C29_requested_partial cfg tb ds h₁ h₂, C29_requested_partial cfg tb ds k₁ k₂]
  have hin := fun p => inPlan_congr (nx := nx₁) (nr := cfg.noRecommended) (sug := SugOn c) (fun _ => Iff.rfl) hreq p
  have hp := ho.plan
  have hp' := ho'.plan
  have hall : ip'.packages.Perm ip.packages := by
    refine (List.perm_ext_iff_of_nodup hp'.nodup hp.nodup).2 fun p => ?_
    rw [hp.mem, hp'.mem, hin]
  refine ⟨hall, ?_, ?_, ?_⟩
  · obtain ⟨l, hl, hd⟩ := hp.downloads
    obtain ⟨l', hl', hd'⟩ := hp'.downloads
    rw [hd, hd']
    exact ((hl'.trans hall).trans hl.symm).map _
  · rw [List.perm_ext_iff_of_nodup ((List.nodup_append.1 hp'.nodup).1) ((List.nodup_append.1 hp.nodup).1)]
    intro p; rw [hp.start, hp'.start, hin]
  · intro p ds ds' hd hd'
    rw [List.perm_ext_iff_of_nodup (hp'.deps p ds' hd').1 (hp.deps p ds hd).1]
    intro q; rw [(hp'.deps p ds' hd').2, (hp.deps p ds hd).2]

/-! ### The list of repositories -/

/-- Repositories listed after the others. -/
def Spec.withRepos (nx : Nexus) (extra : List RepoDb) : Nexus := { nx with db := nx.db ++ extra }

theorem resolves_withRepos (extra : List RepoDb) {p : Str} {dl : PkgDl} (h : Resolves nx p dl) : Resolves (withRepos nx extra) p dl := by
  obtain ⟨db, ⟨pre, post, h1, h2, h3⟩, h4, h5⟩ := h
  exact ⟨db, ⟨pre, post ++ extra, by simp [withRepos, h1], h2, h3⟩, h4, h5⟩

theorem setRepo_withRepos (extra : List RepoDb) {p r : Str} (h : setPackageRepo nx p r = some nx₁) :
    setPackageRepo (withRepos nx extra) p r = some (withRepos nx₁ extra) := by
  unfold setPackageRepo at h ⊢
  cases hf : nx.db.find? (fun x => decide (x.repo.name = r)) with
  | none => rw [hf] at h; cases h
  | some d =>
    rw [hf] at h
    cases h
    have : (withRepos nx extra).db.find? (fun x => decide (x.repo.name = r)) = some d := by
      simp only [withRepos, List.find?_append, hf, Option.some_or]
    rw [this]
    rfl

theorem setType_withRepos (extra : List RepoDb) {p t : Str} (h : setPackageType nx p t = some nx₁) :
    setPackageType (withRepos nx extra) p t = some (withRepos nx₁ extra) := by
  unfold setPackageType at h ⊢
  obtain ⟨ty, h1, rfl⟩ := Option.map_eq_some_iff.1 h
  rw [h1]
  rfl

theorem chNx_withRepos (extra : List RepoDb) (entries : List (Str × PkgSetting)) (e : Str × PkgSetting) (h : chNx entries nx e = some nx₁) :
    chNx entries (withRepos nx extra) e = some (withRepos nx₁ extra) := by
  unfold chNx at h ⊢
  obtain ⟨nx2, h1, h2⟩ := Option.bind_eq_some_iff.1 h
  have h1' : (if isCustomizationSet (fun v => v.repo.isSome) entries e.1 then setPackageRepo (withRepos nx extra) e.1 (e.2.repo.getD []) else some (withRepos nx extra)) =
      some (withRepos nx2 extra) := by
    split at h1
    · next hs => rw [if_pos hs]; exact setRepo_withRepos extra h1
    · next hs => rw [if_neg hs]; cases h1; rfl
  rw [h1', Option.bind_some]
  split at h2
  · next hs => rw [if_pos hs]; exact setType_withRepos extra h2
  · next hs => rw [if_neg hs]; cases h2; rfl

theorem chNx_fold_withRepos (extra : List RepoDb) (entries l : List (Str × PkgSetting)) (h : l.foldlM (chNx entries) nx = some nx₁) :
    l.foldlM (chNx entries) (withRepos nx extra) = some (withRepos nx₁ extra) := by
  induction l generalizing nx with
  | nil => cases h; rfl
  | cons e l ih =>
    rw [List.foldlM_cons] at h ⊢
    obtain ⟨nx2, h1, h2⟩ := Option.bind_eq_some_iff.1 h
    rw [chNx_withRepos extra entries e h1]
    exact ih h2

/-- C168, the list of repositories: a repository that is listed after the others only adds: the new plan has every package of the old one, from the same
repository, in the same type and version. -/
theorem C168_repository {extra : List RepoDb} (hk : Keyed (withRepos nx extra)) (hR : NoR (withRepos nx extra)) (h₁ : ρ₁.Fair) (h₂ : ρ₂.Fair) (h₃ : ρ₃.Fair)
    (k₁ : σ₁.Fair) (k₂ : σ₂.Fair) (k₃ : σ₃.Fair)
    (h : planInstall cfg nx installed libEx tb ds add ρ₁ ρ₂ ρ₃ = .planned req nx₁ ip)
    (h' : planInstall cfg (withRepos nx extra) installed libEx tb ds add σ₁ σ₂ σ₃ = .planned req' nx₂ ip') : Extends ip ip' := by
  have hk0 : Keyed nx := fun db hd => hk db (List.mem_append.2 (.inl hd))
  have hR0 : NoR nx := fun db hd => hR db (List.mem_append.2 (.inl hd))
  obtain ⟨hq, _, _, c, ho⟩ := planInstall_planned hk0 hR0 h₃ h
  obtain ⟨hq', _, _, c', ho'⟩ := planInstall_planned hk hR k₃ h'
  have hig : ignorePackages (withRepos nx extra) cfg.ignore = withRepos (ignorePackages nx cfg.ignore) (extra.map fun db => cfg.ignore.foldl RepoDb.drop db) := by
    simp [ignorePackages, withRepos]
  have h1 := ho.custom
  have h2 := ho'.custom
  rw [setPlan_apart] at h1 h2
  rw [hig] at h2
  obtain ⟨nx3, h3, h4⟩ := Option.map_eq_some_iff.1 h1
  cases h4
  rw [chNx_fold_withRepos _ _ _ h3] at h2
  obtain ⟨rfl, rfl⟩ := Prod.mk.injEq .. ▸ Option.some.inj h2
  refine extends_of ho.plan ho'.plan (fun p dl => resolves_withRepos _) (fun _ h => h) ?_
  rw [hq, hq']
  exact requested_more (cfg := cfg) (P' := cfg.packages) (fun _ h => h) h₁ h₂ k₁ k₂

/-! ### Customizations -/

/-- The two agree about all packages but `q`. -/
def ChAgree (q : Str) (nx nx' : Nexus) : Prop :=
  nx.db = nx'.db ∧ nx.defaultSourceType = nx'.defaultSourceType ∧ ∀ p, p ≠ q → GoMap.get? nx.packages p = GoMap.get? nx'.packages p

theorem agree_resolves {q : Str} (h : ChAgree q nx nx₁) {p : Str} (hp : p ≠ q) (dl : PkgDl) : Resolves nx p dl ↔ Resolves nx₁ p dl := by
  obtain ⟨h1, h2, h3⟩ := h
  have ht : ∀ db, typeFor nx p db = typeFor nx₁ p db := fun db => by unfold typeFor unsetType; rw [h3 p hp, h2]
  have hs : Serves nx p = Serves nx₁ p := by funext db; unfold Serves PinAllows; rw [h3 p hp, ht]
  unfold Resolves
  rw [hs, h1]
  simp only [ht]

theorem setRepo_agree {q : Str} {nx' : Nexus} (ha : ChAgree q nx nx') {p r : Str} (hp : p ≠ q) (h : setPackageRepo nx p r = some nx₁) :
    ∃ nx₁', setPackageRepo nx' p r = some nx₁' ∧ ChAgree q nx₁ nx₁' := by
  obtain ⟨h1, h2, h3⟩ := ha
  unfold setPackageRepo at h ⊢
  rw [← h1, ← h3 p hp]
  cases hf : nx.db.find? (fun x => decide (x.repo.name = r)) with
  | none => rw [hf] at h; cases h
  | some d =>
    rw [hf] at h
    cases h
    refine ⟨_, rfl, rfl, h2, fun x hx => ?_⟩
    rw [GoMap.get?_put, GoMap.get?_put, h3 x hx]

theorem setType_agree {q : Str} {nx' : Nexus} (ha : ChAgree q nx nx') {p t : Str} (hp : p ≠ q) (h : setPackageType nx p t = some nx₁) :
    ∃ nx₁', setPackageType nx' p t = some nx₁' ∧ ChAgree q nx₁ nx₁' := by
  obtain ⟨h1, h2, h3⟩ := ha
  unfold setPackageType at h ⊢
  obtain ⟨ty, ht, rfl⟩ := Option.map_eq_some_iff.1 h
  rw [← h3 p hp, ht]
  refine ⟨_, rfl, h1, h2, fun x hx => ?_⟩
  dsimp only
  rw [GoMap.get?_put, GoMap.get?_put, h3 x hx]

/-- An entry of another package, in both. -/
theorem chNx_agree {q : Str} {nx' : Nexus} (entries : List (Str × PkgSetting)) (e : Str × PkgSetting) (ha : ChAgree q nx nx') (he : e.1 ≠ q)
    (h : chNx entries nx e = some nx₁) : ∃ nx₁', chNx entries nx' e = some nx₁' ∧ ChAgree q nx₁ nx₁' := by
  unfold chNx at h ⊢
  obtain ⟨nx2, h1, h2⟩ := Option.bind_eq_some_iff.1 h
  have k1 : ∃ nx2', (if isCustomizationSet (fun v => v.repo.isSome) entries e.1 then setPackageRepo nx' e.1 (e.2.repo.getD []) else some nx') = some nx2' ∧ ChAgree q nx2 nx2' := by
    split at h1
    · next hs => rw [if_pos hs]; exact setRepo_agree ha he h1
    · next hs => rw [if_neg hs]; cases h1; exact ⟨_, rfl, ha⟩
  obtain ⟨nx2', k1, k2⟩ := k1
  rw [k1, Option.bind_some]
  split at h2
  · next hs => rw [if_pos hs]; exact setType_agree k2 he h2
  · next hs => rw [if_neg hs]; cases h2; exact ⟨_, rfl, k2⟩

/-- An entry of that package. -/
theorem chNx_own {nx' : Nexus} (entries : List (Str × PkgSetting)) (e : Str × PkgSetting) (ha : ChAgree e.1 nx nx')
    (h : chNx entries nx e = some nx₁) : ChAgree e.1 nx₁ nx' := by
  have h0 : viperStep entries ({}, nx) e = some (chCfg entries {} e, nx₁) := by rw [viperStep_apart, h]; rfl
  obtain ⟨d1, d2, _, _⟩ := viperStep_effect h0
  refine ⟨d1.trans ha.1, d2.trans ha.2.1, fun p hp => Eq.trans ?_ (ha.2.2 p hp)⟩
  unfold chNx at h
  obtain ⟨nx2, h1, h2⟩ := Option.bind_eq_some_iff.1 h
  have e1 : GoMap.get? nx2.packages p = GoMap.get? nx.packages p := by
    split at h1
    · have := setPackageRepo_get h1 p; rwa [if_neg hp] at this
    · cases h1; rfl
  rw [← e1]
  split at h2
  · have := setPackageType_get h2 p; rwa [if_neg hp] at this
  · cases h2; rfl

theorem chNx_fold_agree {q : Str} {nx' : Nexus} (entries l : List (Str × PkgSetting)) (ha : ChAgree q nx nx') (h : l.foldlM (chNx entries) nx = some nx₁) :
    ∃ nx₁', (l.filter fun e => decide (e.1 ≠ q)).foldlM (chNx entries) nx' = some nx₁' ∧ ChAgree q nx₁ nx₁' := by
  induction l generalizing nx nx' with
  | nil => cases h; exact ⟨nx', rfl, ha⟩
  | cons e l ih =>
    rw [List.foldlM_cons] at h
    obtain ⟨nx2, h1, h2⟩ := Option.bind_eq_some_iff.1 h
    by_cases he : e.1 = q
    · rw [List.filter_cons_of_neg (by simp [he])]
      subst he
      exact ih (chNx_own entries e ha h1) h2
    · rw [List.filter_cons_of_pos (by simp [he]), List.foldlM_cons]
      obtain ⟨nx2', k1, k2⟩ := chNx_agree entries e ha he h1
      rw [k1]
      exact ih k2 h2

theorem isSet_others {E E' : List (Str × PkgSetting)} {q : Str} (h : (E.filter fun e => decide (e.1 ≠ q)) = E'.filter fun e => decide (e.1 ≠ q))
    (has : PkgSetting → Bool) {p : Str} (hp : p ≠ q) : isCustomizationSet has E p = isCustomizationSet has E' p := by
  have key : ∀ E : List (Str × PkgSetting), isCustomizationSet has E p = isCustomizationSet has (E.filter fun e => decide (e.1 ≠ q)) p := by
    intro E
    unfold isCustomizationSet
    rw [List.any_filter]
    congr 1
    funext e
    by_cases he : e.1 = p
    · simp [he, hp]
    · simp [he]
  rw [key E, key E', h]

theorem chNx_fold_others {E E' : List (Str × PkgSetting)} {q : Str} (h : (E.filter fun e => decide (e.1 ≠ q)) = E'.filter fun e => decide (e.1 ≠ q))
    (l : List (Str × PkgSetting)) (hl : ∀ e ∈ l, e.1 ≠ q) (nx : Nexus) : l.foldlM (chNx E) nx = l.foldlM (chNx E') nx := by
  induction l generalizing nx with
  | nil => rfl
  | cons e l ih =>
    rw [List.foldlM_cons, List.foldlM_cons]
    have : chNx E nx e = chNx E' nx e := by
      unfold chNx
      rw [isSet_others h _ (hl e (by simp)), isSet_others h _ (hl e (by simp))]
    rw [this]
    congr 1
    funext nx
    exact ih (fun e he => hl e (by simp [he])) nx

/-- C168, customizations: what is set for one package - its repository, its type, its suggested packages - does not change where another package comes from, nor in
which type and version. -/
theorem C168_customization {q : Str} {E' : List (Str × PkgSetting)}
    (hE : (cfg.customizations.filter fun e => decide (e.1 ≠ q)) = E'.filter fun e => decide (e.1 ≠ q)) (hk : Keyed nx) (hR : NoR nx) (h₃ : ρ₃.Fair) (k₃ : σ₃.Fair)
    (h : planInstall cfg nx installed libEx tb ds add ρ₁ ρ₂ ρ₃ = .planned req nx₁ ip)
    (h' : planInstall { cfg with customizations := E' } nx installed libEx tb ds add σ₁ σ₂ σ₃ = .planned req' nx₂ ip')
    {dl : PkgDl} (hdl : dl ∈ ip.downloads) (hq : dl.package.package ≠ q) (hin : dl.package.package ∈ ip'.packages) : dl ∈ ip'.downloads := by
  obtain ⟨_, _, _, c, ho⟩ := planInstall_planned hk hR h₃ h
  obtain ⟨_, _, _, c', ho'⟩ := planInstall_planned hk hR k₃ h'
  have h1 := ho.custom
  have h2 := ho'.custom
  rw [setPlan_apart] at h1 h2
  obtain ⟨nx3, h3, h4⟩ := Option.map_eq_some_iff.1 h1
  obtain ⟨nx4, h5, h6⟩ := Option.map_eq_some_iff.1 h2
  cases h4
  cases h6
  dsimp only at h5
  have hrefl : ChAgree q (ignorePackages nx cfg.ignore) (ignorePackages nx cfg.ignore) := ⟨rfl, rfl, fun _ _ => rfl⟩
  obtain ⟨a, k1, k2⟩ := chNx_fold_agree _ _ hrefl h3
  obtain ⟨b, k3, k4⟩ := chNx_fold_agree _ _ hrefl h5
  rw [chNx_fold_others hE _ (by simp), hE, k3] at k1
  cases k1
  have hkk : Keyed nx₁ := by intro db hd; rw [ho.db] at hd; exact keyed_ignore hk _ db hd
  obtain ⟨p, hp, hr⟩ := (mem_downloads ho.plan dl).1 hdl
  have hname : dl.package.package = p := getPackage_keyed hkk (resolves_iff.1 hr)
  rw [hname] at hq hin
  exact (mem_downloads ho'.plan dl).2 ⟨p, hin, (agree_resolves k4 hq dl).2 ((agree_resolves k2 hq dl).1 hr)⟩

/-! ### Non-vacuity -/

/-- What a plan says, for the examples. -/
def chView : PlanOutcome → Option (List Str × List (Str × Str × Str))
  | .planned _ _ ip => some (ip.packages, ip.downloads.map fun dl => (dl.package.package, dl.config.repo.name, dl.package.version))
  | _ => none

/-- A second repository, with newer versions. -/
def chRepo : RepoDb :=
  { repo := { name := s%"R2", url := s%"u2" },
    src := [(s%"a", { package := s%"a", version := s%"9.0" }), (s%"c", { package := s%"c", version := s%"9.0" }), (s%"z", { package := s%"z", version := s%"1.0" })] }

theorem chRepo_keyed : Keyed (withRepos planNexus [chRepo]) := by
  intro db hd
  rcases List.mem_append.1 hd with hd | hd
  · exact planNexus_keyed db hd
  · exact keyed_singleton (nx := { db := [chRepo] }) rfl rfl (by decide) db hd

theorem chRepo_noR : NoR (withRepos planNexus [chRepo]) := by
  intro db hd st
  rcases List.mem_append.1 hd with hd | hd
  · exact planNexus_noR db hd st
  · rw [List.mem_singleton.1 hd]
    cases st <;> decide

/-- Non-vacuity of `C168_same`, `C168_more`, `C168_fewer` and `C168_library`: fewer and more packages, in whatever order, listed twice. -/
example : Keyed planNexus ∧ NoR planNexus ∧ idOrder.Fair ∧ revOrder.Fair ∧ (∀ p ∈ [s%"a"], p ∈ [s%"t", s%"a", s%"t"]) ∧ (∃ p ∈ [s%"a"], p ∉ basePkgs) ∧
    chView (planInstall { packages := [s%"a"] } planNexus [] true [] [] [] idOrder idOrder idOrder) =
      some ([s%"c", s%"a", s%"b"], [(s%"c", s%"R1", s%"2.0"), (s%"a", s%"R1", s%"1.0"), (s%"b", s%"R1", s%"1.1")]) ∧
    chView (planInstall { packages := [s%"t", s%"a", s%"t"] } planNexus [] true [] [] [] revOrder revOrder revOrder) =
      some ([s%"c", s%"t", s%"a", s%"b"], [(s%"c", s%"R1", s%"2.0"), (s%"t", s%"R1", s%"0.2"), (s%"b", s%"R1", s%"1.1"), (s%"a", s%"R1", s%"1.0")]) ∧
    chView (planInstall { packages := [s%"a"] } planNexus [(s%"c", { package := s%"c", version := s%"1.0" })] false [] [] [] revOrder revOrder revOrder) =
      some ([s%"c", s%"a", s%"b"], [(s%"c", s%"R1", s%"2.0"), (s%"b", s%"R1", s%"1.1"), (s%"a", s%"R1", s%"1.0")]) :=
  ⟨planNexus_keyed, planNexus_noR, idOrder_fair, revOrder_fair, by decide, by decide, by decide +kernel, by decide +kernel, by decide +kernel⟩

/-- Non-vacuity of `C168_repository` and `C168_customization`: with the second repository behind the first, and with `c` set to the second. -/
example : Keyed (withRepos planNexus [chRepo]) ∧ NoR (withRepos planNexus [chRepo]) ∧
    chView (planInstall { packages := [s%"a"] } (withRepos planNexus [chRepo]) [] true [] [] [] idOrder idOrder idOrder) =
      some ([s%"c", s%"a", s%"b"], [(s%"c", s%"R1", s%"2.0"), (s%"a", s%"R1", s%"1.0"), (s%"b", s%"R1", s%"1.1")]) ∧
    chView (planInstall { packages := [s%"a"], customizations := [(s%"c", { repo := some (s%"R2") })] } (withRepos planNexus [chRepo]) [] true [] [] [] idOrder idOrder idOrder) =
      some ([s%"c", s%"a", s%"b"], [(s%"c", s%"R2", s%"9.0"), (s%"a", s%"R1", s%"1.0"), (s%"b", s%"R1", s%"1.1")]) :=
  ⟨chRepo_keyed, chRepo_noR, by decide +kernel, by decide +kernel⟩

end Pkgr
