/- C170: the order in which the configuration says things. -/
import Verif.Props.Changes

namespace Pkgr
open Spec

variable {cfg cfg' : PlanCfg} {nx nx' nx₁ nx₂ : Nexus} {installed : GoMap Desc} {libEx : Bool} {tb ds tb' ds' : List Desc}
  {add : GoMap AdditionalPkg} {ρ₁ ρ₂ ρ₃ σ₁ σ₂ σ₃ : Order} {req req' : List Str} {ip ip' : InstallPlan}

/-- Two configurations by which the same is requested and every package is to be had from the same place have the same outcome. -/
theorem plan_alike (hk : Keyed nx) (hk' : Keyed nx') (hR : NoR nx) (h₃ : ρ₃.Fair) (k₃ : σ₃.Fair) (hne : GoMap.get? installed [] = none)
    (hp : nx.packages = []) (hp' : nx'.packages = []) (hu : (cfg.customizations.map Prod.fst).Nodup) (hu' : (cfg'.customizations.map Prod.fst).Nodup)
    (hn : ∀ e ∈ cfg.customizations, e.2.repo ≠ some []) (hn' : ∀ e ∈ cfg'.customizations, e.2.repo ≠ some [])
    (hcho : ∀ p dl, Chosen cfg nx p dl ↔ Chosen cfg' nx' p dl)
    (hund : (∃ e ∈ cfg.customizations, ¬ Understood nx e.2) ↔ ∃ e ∈ cfg'.customizations, ¬ Understood nx' e.2)
    (hsug : wantsSuggests cfg = wantsSuggests cfg') (hnr : cfg'.noRecommended = cfg.noRecommended) (hnu : cfg'.noUpdate = cfg.noUpdate)
    (hreq : ∀ p, p ∈ requestedPackages cfg tb ds ρ₁ ρ₂ ↔ p ∈ requestedPackages cfg' tb' ds' σ₁ σ₂) :
    match planInstall cfg nx installed libEx tb ds add ρ₁ ρ₂ ρ₃, planInstall cfg' nx' installed libEx tb' ds' add σ₁ σ₂ σ₃ with
    | .badCustomization, .badCustomization => True
    | .missing l, .missing l' => ∀ p, p ∈ l ↔ p ∈ l'
    | .failed e, .failed e' => e = e'
    | .planned req _ ip, .planned req' _ ip' => (∀ p, p ∈ req ↔ p ∈ req') ∧ SamePlan ip ip'
    | _, _ => False := by
  have hb := C88_rejected_iff cfg nx installed libEx tb ds add ρ₁ ρ₂ ρ₃ hu
  have hb' := C88_rejected_iff cfg' nx' installed libEx tb' ds' add σ₁ σ₂ σ₃ hu'
  by_cases hbad : ∃ e ∈ cfg.customizations, ¬ Understood nx e.2
  · rw [hb.2 hbad, hb'.2 (hund.1 hbad)]; trivial
  have h1 : planInstall cfg nx installed libEx tb ds add ρ₁ ρ₂ ρ₃ ≠ .badCustomization := fun h => hbad (hb.1 h)
  have h2 : planInstall cfg' nx' installed libEx tb' ds' add σ₁ σ₂ σ₃ ≠ .badCustomization := fun h => hbad (hund.2 (hb'.1 h))
  clear hb hb'
  unfold planInstall at h1 h2 ⊢
  dsimp only at h1 h2 ⊢
  cases hset : setPlanCustomizations cfg.suggests cfg.packages cfg.customizations (defaultCfgs cfg.noRecommended) (ignorePackages nx cfg.ignore) with
  | none => rw [hset] at h1; exact absurd rfl h1
  | some r =>
  obtain ⟨c, nx1⟩ := r
  cases hset' : setPlanCustomizations cfg'.suggests cfg'.packages cfg'.customizations (defaultCfgs cfg'.noRecommended) (ignorePackages nx' cfg'.ignore) with
  | none => rw [hset'] at h2; exact absurd rfl h2
  | some r =>
  obtain ⟨c', nx1'⟩ := r
  clear h1 h2
  dsimp only
  have hg : ∀ p, getPackage nx1' p = getPackage nx1 p := by
    intro p
    have key : ∀ dl, getPackage nx1' p = some dl ↔ getPackage nx1 p = some dl := fun dl => by
      rw [← resolves_iff, ← resolves_iff, resolves_chosen hp hu hn hset, resolves_chosen hp' hu' hn' hset', hcho]
    cases h : getPackage nx1 p with
    | some dl => exact (key dl).2 h
    | none =>
      cases h' : getPackage nx1' p with
      | none => rfl
      | some dl => rw [(key dl).1 h'] at h; cases h
  obtain ⟨hu1, hdb, _⟩ := setPlan_uniform hset
  obtain ⟨hu2, hdb', _⟩ := setPlan_uniform hset'
  rw [hnr] at hu2
  have hk1 : Keyed nx1 := by intro db hd; rw [hdb] at hd; exact keyed_ignore hk _ db hd
  have hk1' : Keyed nx1' := by intro db hd; rw [hdb'] at hd; exact keyed_ignore hk' _ db hd
  have hR1 : ¬ Available nx1 (s%"R") := noR_not_available (by
    intro db hd; rw [hdb] at hd; exact noR_ignore hR _ db hd)
  have hs : ∀ p, SugOn c p ↔ SugOn c' p := fun p => by rw [sugOn_wants hu hset, sugOn_wants hu' hset', hsug]
  generalize requestedPackages cfg tb ds ρ₁ ρ₂ = l at hreq ⊢
  generalize requestedPackages cfg' tb' ds' σ₁ σ₂ = l' at hreq ⊢
  have hmem : ∀ (l : List Str) p, p ∈ (getPackages nx1 l).missing ↔ p ∈ l ∧ getPackage nx1 p = none := by
    intro l p
    rw [getPackages_eq]
    simp only [List.mem_filter, Option.isNone_iff_eq_none]
  have hmem' : ∀ (l : List Str) p, p ∈ (getPackages nx1' l).missing ↔ p ∈ l ∧ getPackage nx1 p = none := by
    intro l p
    rw [getPackages_eq, ← hg p]
    simp only [List.mem_filter, Option.isNone_iff_eq_none]
  have hsame : ∀ p, p ∈ (getPackages nx1 l).missing ↔ p ∈ (getPackages nx1' l').missing := fun p => by rw [hmem, hmem', hreq]
  by_cases hm : (getPackages nx1 l).missing = []
  · have hm' : (getPackages nx1' l').missing = [] := List.eq_nil_iff_forall_not_mem.2 fun p hp => by
      have := (hsame p).2 hp; rw [hm] at this; cases this
    rw [if_neg (by simp [hm]), if_neg (by simp [hm']), hnr, hnu]
    have hav : ∀ p ∈ l, Available nx1 p := by
      intro p hp
      cases hgp : getPackage nx1 p with
      | some dl => exact ⟨dl, resolves_iff.2 hgp⟩
      | none =>
        have := (hmem l p).2 ⟨hp, hgp⟩
        rw [hm] at this; cases this
    rcases resolve_same hk1 hk1' hg hR1 h₃ k₃ hu1 hu2 hs hreq hav hne (!cfg.noUpdate) libEx with ⟨e, h, h'⟩ | ⟨ip, ip', h, h', hs⟩
    · rw [h, h']
    · rw [h, h']
      exact ⟨hreq, hs.starting, hs.listed, hs.lists, hs.downloads, hs.outdated, hs.rest.1, rfl, hs.rest.2.2⟩
  · have hm' : (getPackages nx1' l').missing ≠ [] := fun h' => hm (List.eq_nil_iff_forall_not_mem.2 fun p hp => by
      have := (hsame p).1 hp; rw [h'] at this; cases this)
    rw [if_pos hm, if_pos hm']
    exact hsame

/-! ### Packages, ignored packages, customizations, tarballs and DESCRIPTION files -/

/-- The configurations say the same in another order, or more than once. (What is set for the packages is only reordered.) -/
structure Spec.Reordered (cfg cfg' : PlanCfg) : Prop where
  packages : ∀ p, p ∈ cfg.packages ↔ p ∈ cfg'.packages
  ignore : ∀ p, p ∈ cfg.ignore ↔ p ∈ cfg'.ignore
  customizations : cfg'.customizations.Perm cfg.customizations
  suggests : cfg'.suggests = cfg.suggests
  noRecommended : cfg'.noRecommended = cfg.noRecommended
  noUpdate : cfg'.noUpdate = cfg.noUpdate

theorem settingOf_eq_get (cfg : PlanCfg) (p : Str) : settingOf cfg p = (GoMap.get? cfg.customizations p).getD {} := by
  unfold settingOf
  induction cfg.customizations with
  | nil => rfl
  | cons e l ih =>
    obtain ⟨k, v⟩ := e
    by_cases h : k = p
    · rw [List.find?_cons_of_pos (by simp [h])]
      simp [GoMap.get?, h]
    · rw [List.find?_cons_of_neg (by simp [h]), ih]
      simp [GoMap.get?, h]

theorem settingOf_perm (hu : (cfg.customizations.map Prod.fst).Nodup) (h : cfg'.customizations.Perm cfg.customizations) (p : Str) :
    settingOf cfg' p = settingOf cfg p := by
  have hu' : (cfg'.customizations.map Prod.fst).Nodup := (h.map _).nodup_iff.2 hu
  rw [settingOf_eq_get, settingOf_eq_get]
  congr 1
  cases hc : GoMap.get? cfg.customizations p with
  | some v => exact GoMap.get?_of_mem hu' (h.mem_iff.2 (GoMap.mem_of_get? hc))
  | none =>
    cases hc' : GoMap.get? cfg'.customizations p with
    | none => rfl
    | some v =>
      rw [GoMap.get?_of_mem hu (h.mem_iff.1 (GoMap.mem_of_get? hc'))] at hc
      cases hc

/-- C170: the order of the listed packages, of the ignored ones, of the customizations, of the tarballs and of the DESCRIPTION files does not matter, and but for
customizations neither does it matter whether something is said twice. -/
theorem C170_order_partial (hr : Reordered cfg cfg') (htb : ∀ d, d ∈ tb ↔ d ∈ tb') (hds : ∀ d, d ∈ ds ↔ d ∈ ds') (hk : Keyed nx) (hR : NoR nx)
    (h₁ : ρ₁.Fair) (h₂ : ρ₂.Fair) (h₃ : ρ₃.Fair) (k₁ : σ₁.Fair) (k₂ : σ₂.Fair) (k₃ : σ₃.Fair) (hne : GoMap.get? installed [] = none)
    (hp : nx.packages = []) (hu : (cfg.customizations.map Prod.fst).Nodup) (hn : ∀ e ∈ cfg.customizations, e.2.repo ≠ some []) :
    match planInstall cfg nx installed libEx tb ds add ρ₁ ρ₂ ρ₃, planInstall cfg' nx installed libEx tb' ds' add σ₁ σ₂ σ₃ with
    | .badCustomization, .badCustomization => True
    | .missing l, .missing l' => ∀ p, p ∈ l ↔ p ∈ l'
    | .failed e, .failed e' => e = e'
    | .planned req _ ip, .planned req' _ ip' => (∀ p, p ∈ req ↔ p ∈ req') ∧ SamePlan ip ip'
    | _, _ => False := by
  have hset := settingOf_perm hu hr.customizations
  have hmem : ∀ e, e ∈ cfg'.customizations ↔ e ∈ cfg.customizations := fun e => hr.customizations.mem_iff
  refine plan_alike hk hk hR h₃ k₃ hne hp hp hu ((hr.customizations.map _).nodup_iff.2 hu) hn (fun e he => hn e ((hmem e).1 he)) ?_ ?_ ?_ hr.noRecommended hr.noUpdate ?_
  · intro p dl
    unfold Chosen CanServe TypeInForce
    simp only [hset, hr.ignore]
  · simp only [hmem]
  · funext p
    unfold wantsSuggests
    simp only [hmem, hr.suggests, hr.packages]
  · intro p
    rw [C29_requested_partial cfg tb ds h₁ h₂, C29_requested_partial cfg' tb' ds' k₁ k₂]
    simp only [htb, hds, hr.packages]

/-! ### Repositories -/

/-- No two of the repositories offer the same package, in whatever type. -/
def Spec.OffersApart (dbs : List RepoDb) : Prop :=
  ∀ db ∈ dbs, ∀ db' ∈ dbs, ∀ p st st' d d', Offers db st p d → Offers db' st' p d' → db = db'

theorem firstWith_only {P : RepoDb → Prop} {l : List RepoDb} (h : ∀ a ∈ l, ∀ b ∈ l, P a → P b → a = b) (db : RepoDb) : FirstWith P l db ↔ db ∈ l ∧ P db := by
  constructor
  · rintro ⟨pre, post, rfl, h1, _⟩
    exact ⟨by simp, h1⟩
  · rintro ⟨hm, hP⟩
    induction l with
    | nil => cases hm
    | cons a l ih =>
      by_cases ha : P a
      · have : a = db := h a (by simp) db hm ha hP
        subst this
        exact ⟨[], l, rfl, ha, fun _ h => (by cases h)⟩
      · rcases List.mem_cons.1 hm with rfl | hm'
        · exact absurd hP ha
        · obtain ⟨pre, post, h1, h2, h3⟩ := ih (fun a ha b hb => h a (by simp [ha]) b (by simp [hb])) hm'
          refine ⟨a :: pre, post, by rw [h1]; rfl, h2, fun d hd => ?_⟩
          rcases List.mem_cons.1 hd with rfl | hd
          · exact ha
          · exact h3 d hd

/-- C170, repositories: if no two repositories offer the same package, their order does not matter either. -/
theorem C170_repositories_partial (hdb : nx'.db.Perm nx.db) (hty : nx'.defaultSourceType = nx.defaultSourceType) (hap : OffersApart nx.db) (hk : Keyed nx) (hR : NoR nx)
    (h₁ : ρ₁.Fair) (h₂ : ρ₂.Fair) (h₃ : ρ₃.Fair) (k₁ : σ₁.Fair) (k₂ : σ₂.Fair) (k₃ : σ₃.Fair) (hne : GoMap.get? installed [] = none)
    (hp : nx.packages = []) (hp' : nx'.packages = []) (hu : (cfg.customizations.map Prod.fst).Nodup) (hn : ∀ e ∈ cfg.customizations, e.2.repo ≠ some []) :
    match planInstall cfg nx installed libEx tb ds add ρ₁ ρ₂ ρ₃, planInstall cfg nx' installed libEx tb ds add σ₁ σ₂ σ₃ with
    | .badCustomization, .badCustomization => True
    | .missing l, .missing l' => ∀ p, p ∈ l ↔ p ∈ l'
    | .failed e, .failed e' => e = e'
    | .planned req _ ip, .planned req' _ ip' => (∀ p, p ∈ req ↔ p ∈ req') ∧ SamePlan ip ip'
    | _, _ => False := by
  have hmem : ∀ db, db ∈ nx'.db ↔ db ∈ nx.db := fun db => hdb.mem_iff
  refine plan_alike hk (fun db hd => hk db ((hmem db).1 hd)) hR h₃ k₃ hne hp hp' hu hu hn hn ?_ ?_ rfl rfl rfl ?_
  · intro p dl
    have hcs : ∀ db ty d, CanServe cfg nx' p db ty d ↔ CanServe cfg nx p db ty d := by
      intro db ty d
      unfold CanServe TypeInForce unsetType
      rw [hty]
    have hone : ∀ a ∈ nx.db, ∀ b ∈ nx.db, (∃ ty d, CanServe cfg nx p a ty d) → (∃ ty d, CanServe cfg nx p b ty d) → a = b := by
      rintro a ha b hb ⟨ty, d, _, _, h, _⟩ ⟨ty', d', _, _, h', _⟩
      exact hap a ha b hb p ty ty' d d' h h'
    unfold Chosen
    simp only [hcs]
    refine exists_congr fun db => ?_
    rw [firstWith_only hone, firstWith_only (fun a ha b hb => hone a ((hmem a).1 ha) b ((hmem b).1 hb)), hmem]
  · unfold Understood
    simp only [hmem]
  · intro p
    rw [C29_requested_partial cfg tb ds h₁ h₂, C29_requested_partial cfg tb ds k₁ k₂]

/-- C170 is violated by two customizations of one package: which comes last decides. -/
theorem C170_violated : ∃ cfg cfg' : PlanCfg, Reordered cfg cfg' ∧
    ∃ req nx₁ ip req' nx₂ ip', planInstall cfg planNexus [] true [] [] [] idOrder idOrder idOrder = .planned req nx₁ ip ∧
      planInstall cfg' planNexus [] true [] [] [] idOrder idOrder idOrder = .planned req' nx₂ ip' ∧ s%"s" ∈ ip.packages ∧ s%"s" ∉ ip'.packages := by
  refine ⟨{ packages := [s%"a"], customizations := [(s%"a", { suggests := some false }), (s%"a", { suggests := some true })] },
    { packages := [s%"a"], customizations := [(s%"a", { suggests := some true }), (s%"a", { suggests := some false })] },
    ⟨fun _ => Iff.rfl, fun _ => Iff.rfl, List.Perm.swap _ _ _, rfl, rfl, rfl⟩, _, _, _, _, _, _, rfl, rfl, by decide +kernel, by decide +kernel⟩

/-- Non-vacuity of `C170_order_partial`: three lists in another order, one entry twice. -/
example : Reordered { packages := [s%"a", s%"t"], ignore := [s%"x", s%"y"], customizations := [(s%"a", { suggests := some true }), (s%"c", { type := some (s%"source") })] }
      { packages := [s%"t", s%"a", s%"t"], ignore := [s%"y", s%"x"], customizations := [(s%"c", { type := some (s%"source") }), (s%"a", { suggests := some true })] } ∧
    planNexus.packages = [] ∧
    chView (planInstall { packages := [s%"a", s%"t"], ignore := [s%"x", s%"y"], customizations := [(s%"a", { suggests := some true }), (s%"c", { type := some (s%"source") })] }
      planNexus [] true [] [] [] idOrder idOrder idOrder) ≠ none := by
  refine ⟨⟨fun p => ?_, fun p => ?_, List.Perm.swap _ _ _, rfl, rfl, rfl⟩, rfl, by decide +kernel⟩
  · simp only [List.mem_cons, List.not_mem_nil, or_false]
    exact ⟨fun h => h.elim (fun h => .inr (.inl h)) .inl, fun h => h.elim .inr (fun h => h.elim .inl .inr)⟩
  · simp only [List.mem_cons, List.not_mem_nil, or_false]
    exact or_comm

/-- Two repositories, each with a package of its own. -/
def orderRepo (n p : Str) : RepoDb := { repo := { name := n, url := n }, src := [(p, { package := p, version := s%"1.0" })] }

/-- Non-vacuity of `C170_repositories_partial`. -/
example : OffersApart [orderRepo (s%"R1") (s%"a"), orderRepo (s%"R2") (s%"z")] ∧
    [orderRepo (s%"R2") (s%"z"), orderRepo (s%"R1") (s%"a")].Perm [orderRepo (s%"R1") (s%"a"), orderRepo (s%"R2") (s%"z")] ∧
    chView (planInstall { packages := [s%"a", s%"z"] } { db := [orderRepo (s%"R1") (s%"a"), orderRepo (s%"R2") (s%"z")], defaultSourceType := .source }
      [] true [] [] [] idOrder idOrder idOrder) = some ([s%"z", s%"a"], [(s%"z", s%"R2", s%"1.0"), (s%"a", s%"R1", s%"1.0")]) := by
  refine ⟨?_, List.Perm.swap _ _ _, by decide +kernel⟩
  have key : ∀ n p q st d, Offers (orderRepo n p) st q d → q = p := by
    intro n p q st d h
    refine Classical.byContradiction fun hne => ?_
    unfold Offers RepoDb.table orderRepo at h
    cases st <;> simp [GoMap.get?, Ne.symm hne] at h
  intro db hd db' hd' p st st' d d' h h'
  simp only [List.mem_cons, List.not_mem_nil, or_false] at hd hd'
  rcases hd with rfl | rfl <;> rcases hd' with rfl | rfl
  · rfl
  · have h1 := key _ _ _ _ _ h
    have h2 := key _ _ _ _ _ h'
    rw [h1] at h2; exact absurd h2 (by decide)
  · have h1 := key _ _ _ _ _ h
    have h2 := key _ _ _ _ _ h'
    rw [h1] at h2; exact absurd h2 (by decide)
  · rfl

end Pkgr
