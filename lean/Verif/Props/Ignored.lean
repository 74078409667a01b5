/- C169: what is ignored, what comes as a tarball and what a DESCRIPTION file says. -/
import Verif.Props.Changes

namespace Pkgr
open Spec

variable {cfg : PlanCfg} {nx nx₁ nx₂ : Nexus} {installed : GoMap Desc} {libEx : Bool} {tb ds : List Desc}
  {add : GoMap AdditionalPkg} {ρ₁ ρ₂ ρ₃ σ₁ σ₂ σ₃ : Order} {req req' : List Str} {ip ip' : InstallPlan}

/-! ### Ignoring and setting commute -/

theorem setRepo_ignore (nx : Nexus) (I : List Str) (p r : Str) :
    setPackageRepo (ignorePackages nx I) p r = (setPackageRepo nx p r).map fun nx => ignorePackages nx I := by
  unfold setPackageRepo ignorePackages
  dsimp only
  rw [List.find?_map]
  have : (fun (x : RepoDb) => decide (x.repo.name = r)) ∘ (fun db => List.foldl RepoDb.drop db I) = fun (x : RepoDb) => decide (x.repo.name = r) := by
    funext db
    simp only [Function.comp, (ignore_fold_meta I db).1]
  rw [this]
  cases nx.db.find? (fun (x : RepoDb) => decide (x.repo.name = r)) with
  | none => rfl
  | some d => simp only [Option.map_some, (ignore_fold_meta I d).1]

theorem setType_ignore (nx : Nexus) (I : List Str) (p t : Str) :
    setPackageType (ignorePackages nx I) p t = (setPackageType nx p t).map fun nx => ignorePackages nx I := by
  unfold setPackageType
  cases parseType t <;> rfl

theorem chNx_ignore (entries : List (Str × PkgSetting)) (nx : Nexus) (I : List Str) (e : Str × PkgSetting) :
    chNx entries (ignorePackages nx I) e = (chNx entries nx e).map fun nx => ignorePackages nx I := by
  unfold chNx
  have h1 : (if isCustomizationSet (fun v => v.repo.isSome) entries e.1 then setPackageRepo (ignorePackages nx I) e.1 (e.2.repo.getD []) else some (ignorePackages nx I)) =
      (if isCustomizationSet (fun v => v.repo.isSome) entries e.1 then setPackageRepo nx e.1 (e.2.repo.getD []) else some nx).map fun nx => ignorePackages nx I := by
    split
    · exact setRepo_ignore nx I _ _
    · rfl
  rw [h1]
  cases (if isCustomizationSet (fun v => v.repo.isSome) entries e.1 then setPackageRepo nx e.1 (e.2.repo.getD []) else some nx) with
  | none => rfl
  | some nx2 =>
    simp only [Option.map_some, Option.bind_some]
    split
    · exact setType_ignore nx2 I _ _
    · rfl

theorem chNx_fold_ignore (entries l : List (Str × PkgSetting)) (nx : Nexus) (I : List Str) :
    l.foldlM (chNx entries) (ignorePackages nx I) = (l.foldlM (chNx entries) nx).map fun nx => ignorePackages nx I := by
  induction l generalizing nx with
  | nil => rfl
  | cons e l ih =>
    rw [List.foldlM_cons, List.foldlM_cons, chNx_ignore]
    cases chNx entries nx e with
    | none => rfl
    | some nx2 => exact ih nx2

theorem setPlan_ignore (g : Bool) (pkgs : List Str) (entries : List (Str × PkgSetting)) (c : InstallDeps) (nx : Nexus) (I : List Str) :
    setPlanCustomizations g pkgs entries c (ignorePackages nx I) =
      (setPlanCustomizations g pkgs entries c nx).map fun r => (r.1, ignorePackages r.2 I) := by
  rw [setPlan_apart, setPlan_apart, chNx_fold_ignore]
  cases entries.foldlM (chNx entries) nx <;> rfl

theorem resolves_ignore (nx : Nexus) (I : List Str) (p : Str) (dl : PkgDl) : Resolves (ignorePackages nx I) p dl ↔ p ∉ I ∧ Resolves nx p dl := by
  rw [resolves_iff, resolves_iff]
  by_cases h : p ∈ I
  · rw [C16_ignored_unresolvable nx I p h]
    exact ⟨fun h' => (by cases h'), fun h' => absurd h h'.1⟩
  · rw [C16_others_unchanged nx I p h]
    exact ⟨fun h' => ⟨h, h'⟩, fun h' => h'.2⟩

theorem available_ignore (nx : Nexus) (I : List Str) (p : Str) : Available (ignorePackages nx I) p ↔ p ∉ I ∧ Available nx p := by
  unfold Available
  simp only [resolves_ignore]
  exact ⟨fun ⟨dl, h1, h2⟩ => ⟨h1, dl, h2⟩, fun ⟨h1, dl, h2⟩ => ⟨dl, h1, h2⟩⟩

/-! ### Ignoring -/

/-- C169, ignoring: the more is ignored, the less is planned: what is planned although more is ignored was planned before, from the same repository, in the same
type and version; and it is none of what is ignored. -/
theorem C169_ignored {I' : List Str} (hsub : ∀ p ∈ cfg.ignore, p ∈ I') (hk : Keyed nx) (hR : NoR nx) (h₁ : ρ₁.Fair) (h₂ : ρ₂.Fair) (h₃ : ρ₃.Fair)
    (k₁ : σ₁.Fair) (k₂ : σ₂.Fair) (k₃ : σ₃.Fair)
    (h : planInstall cfg nx installed libEx tb ds add ρ₁ ρ₂ ρ₃ = .planned req nx₁ ip)
    (h' : planInstall { cfg with ignore := I' } nx installed libEx tb ds add σ₁ σ₂ σ₃ = .planned req' nx₂ ip') :
    Extends ip' ip ∧ ∀ p ∈ ip'.packages, p ∉ I' := by
  obtain ⟨hq, _, _, c, ho⟩ := planInstall_planned hk hR h₃ h
  obtain ⟨hq', _, _, c', ho'⟩ := planInstall_planned hk hR k₃ h'
  have e1 := ho.custom
  have e2 := ho'.custom
  dsimp only at e2
  rw [setPlan_ignore] at e1 e2
  obtain ⟨⟨c3, nx3⟩, h3, h4⟩ := Option.map_eq_some_iff.1 e1
  rw [h3] at e2
  cases h4
  cases e2
  have hp : PlanOk (ignorePackages nx3 I') cfg.noRecommended (SugOn c3) req' ip' := ho'.plan
  refine ⟨extends_of hp ho.plan (fun p dl => ?_) (fun _ h => h) ?_, fun p hm => ?_⟩
  · rw [resolves_ignore, resolves_ignore]
    exact fun h => ⟨fun h' => h.1 (hsub p h'), h.2⟩
  · intro p
    rw [hq, hq', C29_requested_partial _ tb ds k₁ k₂, C29_requested_partial _ tb ds h₁ h₂]
    exact id
  · exact ((available_ignore _ _ _).1 (hp.avail p ((hp.mem p).1 hm))).1

/-- Nothing changes for a plan if what is withheld from it is not in it. -/
theorem inPlan_without {nx : Nexus} {I I' : List Str} {nr : Bool} {sug : Str → Prop} {l l' : List Str} (hl : ∀ p ∈ l, p ∈ l')
    (hout : ∀ p ∈ I', p ∈ I ∨ ¬ InPlan (ignorePackages nx I) nr sug l p)
    (hav : ∀ p, InPlan (ignorePackages nx I) nr sug l p → Available (ignorePackages nx I) p) {p : Str}
    (hp : InPlan (ignorePackages nx I) nr sug l p) : InPlan (ignorePackages nx I') nr sug l' p := by
  have hn : ∀ q, InPlan (ignorePackages nx I) nr sug l q → q ∉ I' := by
    intro q hq hm
    rcases hout q hm with h | h
    · exact ((available_ignore _ _ _).1 (hav q hq)).1 h
    · exact h hq
  have hres : ∀ q dl, InPlan (ignorePackages nx I) nr sug l q → Resolves (ignorePackages nx I) q dl → Resolves (ignorePackages nx I') q dl := by
    intro q dl hq h
    rw [resolves_ignore] at h ⊢
    exact ⟨hn q hq, h.2⟩
  induction hp with
  | requested hq => exact .requested (hl _ hq)
  | needed ha hb ih =>
    have hbp := InPlan.needed ha hb
    obtain ⟨dl, h1, h2, ⟨dl', h3⟩, h4⟩ := hb
    exact .needed ih ⟨dl, hres _ _ ha h1, h2, ⟨dl', hres _ _ hbp h3⟩, h4⟩
  | suggested ha hs hr hm hb ih =>
    have hbp := InPlan.suggested ha hs hr hm hb
    obtain ⟨dl', h3⟩ := hb
    exact .suggested ih hs (hres _ _ ha hr) hm ⟨dl', hres _ _ hbp h3⟩

/-- C169, ignoring: what is not in the plan can be ignored, and the plan is the same: the same packages from the same repositories, in the same types, versions and
order. -/
theorem C169_ignored_unplanned {I' : List Str} (hsub : ∀ p ∈ cfg.ignore, p ∈ I') (hk : Keyed nx) (hR : NoR nx) (h₁ : ρ₁.Fair) (h₂ : ρ₂.Fair) (h₃ : ρ₃.Fair)
    (k₁ : σ₁.Fair) (k₂ : σ₂.Fair) (k₃ : σ₃.Fair) (hne : GoMap.get? installed [] = none)
    (h : planInstall cfg nx installed libEx tb ds add ρ₁ ρ₂ ρ₃ = .planned req nx₁ ip) (hout : ∀ p ∈ I', p ∈ cfg.ignore ∨ p ∉ ip.packages) :
    ∃ req' nx₂ ip', planInstall { cfg with ignore := I' } nx installed libEx tb ds add σ₁ σ₂ σ₃ = .planned req' nx₂ ip' ∧
      ip'.packages.Perm ip.packages ∧ ip'.downloads.Perm ip.downloads ∧ ip'.starting.Perm ip.starting ∧
      ∀ p deps deps', GoMap.get? ip.depDb p = some deps → GoMap.get? ip'.depDb p = some deps' → deps'.Perm deps := by
  obtain ⟨hq, _, _, c, ho⟩ := planInstall_planned hk hR h₃ h
  have e1 := ho.custom
  rw [setPlan_ignore] at e1
  obtain ⟨⟨c3, nx3⟩, h3, h4⟩ := Option.map_eq_some_iff.1 e1
  cases h4
  have hp := ho.plan
  dsimp only at hp
  have hout' : ∀ p ∈ I', p ∈ cfg.ignore ∨ ¬ InPlan (ignorePackages nx3 cfg.ignore) cfg.noRecommended (SugOn c3) req p := fun p hm =>
    (hout p hm).imp id fun h h' => h ((hp.mem p).2 h')
  have hreq : ∀ p, p ∈ req ↔ p ∈ requestedPackages { cfg with ignore := I' } tb ds σ₁ σ₂ := fun p => by
    rw [hq, C29_requested_partial _ tb ds k₁ k₂, C29_requested_partial _ tb ds h₁ h₂]
  generalize hl' : requestedPackages { cfg with ignore := I' } tb ds σ₁ σ₂ = l' at hreq
  have hin : ∀ p, InPlan (ignorePackages nx3 I') cfg.noRecommended (SugOn c3) l' p ↔ InPlan (ignorePackages nx3 cfg.ignore) cfg.noRecommended (SugOn c3) req p := by
    intro p
    constructor
    · refine inPlan_mono (fun q dl => ?_) (fun _ h => h) (fun q => (hreq q).2)
      rw [resolves_ignore, resolves_ignore]
      exact fun h => ⟨fun h' => h.1 (hsub q h'), h.2⟩
    · exact inPlan_without (fun q => (hreq q).1) hout' hp.avail
  have hnot : ∀ q, InPlan (ignorePackages nx3 cfg.ignore) cfg.noRecommended (SugOn c3) req q → q ∉ I' := by
    intro q hq hm
    rcases hout' q hm with h | h
    · exact ((available_ignore _ _ _).1 (hp.avail q hq)).1 h
    · exact h hq
  have hneed : ∀ p, InPlan (ignorePackages nx3 cfg.ignore) cfg.noRecommended (SugOn c3) req p →
      ∀ q, Needs (ignorePackages nx3 I') cfg.noRecommended p q ↔ Needs (ignorePackages nx3 cfg.ignore) cfg.noRecommended p q := by
    intro p hpp q
    constructor
    · refine needs_mono fun q dl => ?_
      rw [resolves_ignore, resolves_ignore]
      exact fun h => ⟨fun h' => h.1 (hsub q h'), h.2⟩
    · intro hn
      have hq := InPlan.needed hpp hn
      obtain ⟨dl, a1, a2, a3, a4⟩ := hn
      refine ⟨dl, ?_, a2, ?_, a4⟩
      · rw [resolves_ignore] at a1 ⊢; exact ⟨hnot p hpp, a1.2⟩
      · rw [available_ignore] at a3 ⊢; exact ⟨hnot q hq, a3.2⟩
  have htrans : ∀ p, InPlan (ignorePackages nx3 cfg.ignore) cfg.noRecommended (SugOn c3) req p →
      ∀ q, Relation.TransGen (Needs (ignorePackages nx3 I') cfg.noRecommended) p q ↔ Relation.TransGen (Needs (ignorePackages nx3 cfg.ignore) cfg.noRecommended) p q := by
    intro p hpp q
    constructor
    · intro ht
      have hm : ∀ {a b : Str}, Needs (ignorePackages nx3 I') cfg.noRecommended a b → Needs (ignorePackages nx3 cfg.ignore) cfg.noRecommended a b :=
        needs_mono fun q dl => by
          rw [resolves_ignore, resolves_ignore]
          exact fun h => ⟨fun h' => h.1 (hsub q h'), h.2⟩
      induction ht with
      | single hn => exact .single (hm hn)
      | tail _ hn ih => exact .tail ih (hm hn)
    · intro ht
      suffices hs : Relation.TransGen (Needs (ignorePackages nx3 I') cfg.noRecommended) p q ∧ InPlan (ignorePackages nx3 cfg.ignore) cfg.noRecommended (SugOn c3) req q from hs.1
      induction ht with
      | single hn => exact ⟨.single ((hneed p hpp _).2 hn), .needed hpp hn⟩
      | tail _ hn ih => exact ⟨.tail ih.1 ((hneed _ ih.2 _).2 hn), .needed ih.2 hn⟩
  have hinc : ¬ Incomparable (ignorePackages nx3 I') installed := by
    rcases C148_outcome_partial (cfg := cfg) (libEx := libEx) (tb := tb) (ds := ds) (add := add) (ρ := ρ₁) (ρ' := ρ₂) hk hR h₃ hne with hb | ⟨nx4, c4, h4, he⟩
    · rw [h] at hb; cases hb
    · rw [h] at he
      rw [ho.custom] at h4
      cases h4
      cases he with
      | planned _ _ _ hi =>
        intro hj
        refine hi ?_
        obtain ⟨p, d, dl, g1, g2, g3⟩ := hj
        refine ⟨p, d, dl, g1, ?_, g3⟩
        rw [resolves_ignore] at g2 ⊢
        exact ⟨fun h' => g2.1 (hsub p h'), g2.2⟩
  have hset : setPlanCustomizations cfg.suggests cfg.packages cfg.customizations (defaultCfgs cfg.noRecommended) (ignorePackages nx I') = some (c3, ignorePackages nx3 I') := by
    rw [setPlan_ignore, h3]; rfl
  suffices hex : ∃ req' nx₂ ip', planInstall { cfg with ignore := I' } nx installed libEx tb ds add σ₁ σ₂ σ₃ = .planned req' nx₂ ip' by
    obtain ⟨req', nx₂, ip', h'⟩ := hex
    refine ⟨req', nx₂, ip', h', ?_⟩
    obtain ⟨hq', _, _, c', ho'⟩ := planInstall_planned hk hR k₃ h'
    have e2 := ho'.custom
    dsimp only at e2
    rw [hset] at e2
    cases e2
    have hp' : PlanOk (ignorePackages nx3 I') cfg.noRecommended (SugOn c3) req' ip' := ho'.plan
    rw [hl'] at hq'
    subst hq'
    have hall : ip'.packages.Perm ip.packages := by
      refine (List.perm_ext_iff_of_nodup hp'.nodup hp.nodup).2 fun p => ?_
      rw [hp.mem, hp'.mem, hin]
    refine ⟨hall, ?_, ?_, ?_⟩
    · obtain ⟨l, hl, hd⟩ := hp.downloads
      obtain ⟨l2, hl2, hd2⟩ := hp'.downloads
      rw [hd, hd2]
      have : l2.map (fun p => (getPackage (ignorePackages nx3 I') p).getD {}) = l2.map (fun p => (getPackage (ignorePackages nx3 cfg.ignore) p).getD {}) := by
        refine List.map_congr_left fun p hpl => ?_
        have hpi : InPlan (ignorePackages nx3 cfg.ignore) cfg.noRecommended (SugOn c3) req p := (hin p).1 ((hp'.mem p).1 (hl2.mem_iff.1 hpl))
        rw [C16_others_unchanged nx3 I' p (hnot p hpi), C16_others_unchanged nx3 cfg.ignore p ((available_ignore _ _ _).1 (hp.avail p hpi)).1]
      rw [this]
      exact ((hl2.trans hall).trans hl.symm).map _
    · rw [List.perm_ext_iff_of_nodup ((List.nodup_append.1 hp'.nodup).1) ((List.nodup_append.1 hp.nodup).1)]
      intro p; rw [hp.start, hp'.start, hin]
      refine and_congr_right fun hpp => ?_
      simp only [hneed p hpp]
    · intro p deps deps' hd hd'
      rw [List.perm_ext_iff_of_nodup (hp'.deps p deps' hd').1 (hp.deps p deps hd).1]
      intro q
      rw [(hp'.deps p deps' hd').2, (hp.deps p deps hd).2]
      exact htrans p ((hp.mem p).1 (List.mem_append.2 (.inr (GoMap.mem_keys_of_get? hd)))) q
  rcases C148_outcome_partial (cfg := { cfg with ignore := I' }) (libEx := libEx) (tb := tb) (ds := ds) (add := add) (ρ := σ₁) (ρ' := σ₂) hk hR k₃ hne with hb | ⟨nx4, c4, h4, he⟩
  · exfalso
    unfold planInstall at hb
    dsimp only at hb
    rw [hset] at hb
    dsimp only at hb
    split at hb
    · cases hb
    · split at hb <;> cases hb
  · dsimp only at h4
    rw [hset] at h4
    cases h4
    rw [hl'] at he
    generalize hO : planInstall { cfg with ignore := I' } nx installed libEx tb ds add σ₁ σ₂ σ₃ = O at he ⊢
    cases he with
    | missing h _ =>
      obtain ⟨p, g1, g2⟩ := h
      have hpi := (hin p).1 (.requested g1)
      exact absurd ((available_ignore _ _ _).2 ⟨hnot p hpi, ((available_ignore _ _ _).1 (hp.avail p hpi)).2⟩) g2
    | circular _ h =>
      obtain ⟨p, g1, g2⟩ := h
      exact absurd ((htrans p ((hin p).1 g1) p).1 g2) (hp.acyclic p ((hin p).1 g1))
    | version _ _ h => exact absurd h hinc
    | empty h _ =>
      exfalso
      refine ho.nonempty (List.eq_nil_iff_forall_not_mem.2 fun p hpr => ?_)
      have := (hreq p).1 hpr
      rw [h] at this; cases this
    | planned => exact ⟨_, _, _, rfl⟩

/-! ### Tarballs and DESCRIPTION files -/

/-- The tarballs import the package or link to it, or the DESCRIPTION files import, link to or suggest it. -/
def Spec.AsksFor (tarballs descriptions : List Desc) (p : Str) : Prop :=
  (∃ d ∈ tarballs, p ∈ GoMap.keys d.imports ∨ p ∈ GoMap.keys d.linkingTo) ∨
  ∃ d ∈ descriptions, p ∈ GoMap.keys d.imports ∨ p ∈ GoMap.keys d.linkingTo ∨ p ∈ GoMap.keys d.suggests

theorem requested_listed {P' : List Str} (hP : ∀ p, p ∈ P' ↔ p ∈ cfg.packages ∨ AsksFor tb ds p) (h₁ : ρ₁.Fair) (h₂ : ρ₂.Fair) (k₁ : σ₁.Fair) (k₂ : σ₂.Fair) (p : Str) :
    p ∈ requestedPackages cfg tb ds ρ₁ ρ₂ ↔ p ∈ requestedPackages { cfg with packages := P' } [] [] σ₁ σ₂ := by
  rw [C29_requested_partial cfg tb ds h₁ h₂, C29_requested_partial _ [] [] k₁ k₂]
  dsimp only
  rw [hP]
  refine and_congr_right fun _ => ?_
  unfold AsksFor
  constructor
  · exact .inl
  · rintro (h | ⟨d, hd, _⟩ | ⟨d, hd, _⟩)
    · exact h
    · cases hd
    · cases hd

/-- C169, tarballs and DESCRIPTION files: unless suggested packages are asked for everywhere, they count as if what they ask for had been listed. -/
theorem C169_described {P' : List Str} (hP : ∀ p, p ∈ P' ↔ p ∈ cfg.packages ∨ AsksFor tb ds p) (hsug : cfg.suggests = false) (hk : Keyed nx) (hR : NoR nx)
    (h₁ : ρ₁.Fair) (h₂ : ρ₂.Fair) (h₃ : ρ₃.Fair) (k₁ : σ₁.Fair) (k₂ : σ₂.Fair) (k₃ : σ₃.Fair) (hne : GoMap.get? installed [] = none) :
    match planInstall cfg nx installed libEx tb ds add ρ₁ ρ₂ ρ₃, planInstall { cfg with packages := P' } nx installed libEx [] [] add σ₁ σ₂ σ₃ with
    | .badCustomization, .badCustomization => True
    | .missing l, .missing l' => ∀ p, p ∈ l ↔ p ∈ l'
    | .failed e, .failed e' => e = e'
    | .planned req nx₁ ip, .planned req' nx₂ ip' => (∀ p, p ∈ req ↔ p ∈ req') ∧ nx₁ = nx₂ ∧ SamePlan ip ip'
    | _, _ => False := by
  refine plan_same hk hR h₃ k₃ hne ?_ (requested_listed hP h₁ h₂ k₁ k₂)
  have heq : setPlanCustomizations cfg.suggests P' cfg.customizations (defaultCfgs cfg.noRecommended) (ignorePackages nx cfg.ignore) =
      setPlanCustomizations cfg.suggests cfg.packages cfg.customizations (defaultCfgs cfg.noRecommended) (ignorePackages nx cfg.ignore) := by
    unfold setPlanCustomizations setCfgCustomizations
    rw [hsug]
    rfl
  rw [heq]
  cases setPlanCustomizations cfg.suggests cfg.packages cfg.customizations (defaultCfgs cfg.noRecommended) (ignorePackages nx cfg.ignore) with
  | none => exact .inl ⟨rfl, rfl⟩
  | some r => exact .inr ⟨_, _, _, rfl, rfl, fun _ => Iff.rfl⟩

/-- C169, tarballs and DESCRIPTION files: in any case nothing is planned for them that is not planned when what they ask for is listed. -/
theorem C169_described_least {P' : List Str} (hP : ∀ p, p ∈ P' ↔ p ∈ cfg.packages ∨ AsksFor tb ds p) (hk : Keyed nx) (hR : NoR nx)
    (h₁ : ρ₁.Fair) (h₂ : ρ₂.Fair) (h₃ : ρ₃.Fair) (k₁ : σ₁.Fair) (k₂ : σ₂.Fair) (k₃ : σ₃.Fair)
    (h : planInstall cfg nx installed libEx tb ds add ρ₁ ρ₂ ρ₃ = .planned req nx₁ ip)
    (h' : planInstall { cfg with packages := P' } nx installed libEx [] [] add σ₁ σ₂ σ₃ = .planned req' nx₂ ip') : Extends ip ip' := by
  obtain ⟨hq, _, _, c, ho⟩ := planInstall_planned hk hR h₃ h
  obtain ⟨hq', _, _, c', ho'⟩ := planInstall_planned hk hR k₃ h'
  obtain ⟨c2, hs, hsug⟩ := setPlan_more (P' := P') (fun p hp => (hP p).2 (.inl hp)) ho.custom
  have := ho'.custom
  dsimp only at this
  rw [hs] at this
  cases this
  refine extends_of ho.plan ho'.plan (fun _ _ h => h) hsug fun p => ?_
  rw [hq, hq']
  exact (requested_listed hP h₁ h₂ k₁ k₂ p).1

/-- C169, tarballs and DESCRIPTION files: more of them only add to the plan, and they come in any order. -/
theorem C169_described_more {tb' ds' : List Desc} (htb : ∀ d ∈ tb, d ∈ tb') (hds : ∀ d ∈ ds, d ∈ ds') (hk : Keyed nx) (hR : NoR nx)
    (h₁ : ρ₁.Fair) (h₂ : ρ₂.Fair) (h₃ : ρ₃.Fair) (k₁ : σ₁.Fair) (k₂ : σ₂.Fair) (k₃ : σ₃.Fair) {add' : GoMap AdditionalPkg}
    (h : planInstall cfg nx installed libEx tb ds add ρ₁ ρ₂ ρ₃ = .planned req nx₁ ip)
    (h' : planInstall cfg nx installed libEx tb' ds' add' σ₁ σ₂ σ₃ = .planned req' nx₂ ip') : Extends ip ip' := by
  obtain ⟨hq, _, _, c, ho⟩ := planInstall_planned hk hR h₃ h
  obtain ⟨hq', _, _, c', ho'⟩ := planInstall_planned hk hR k₃ h'
  have := ho'.custom
  rw [ho.custom] at this
  cases this
  refine extends_of ho.plan ho'.plan (fun _ _ h => h) (fun _ h => h) fun p => ?_
  rw [hq, hq', C29_requested_partial cfg tb ds h₁ h₂, C29_requested_partial cfg tb' ds' k₁ k₂]
  rintro ⟨hb, h | ⟨d, hd, hm⟩ | ⟨d, hd, hm⟩⟩
  · exact ⟨hb, .inl h⟩
  · exact ⟨hb, .inr (.inl ⟨d, htb d hd, hm⟩)⟩
  · exact ⟨hb, .inr (.inr ⟨d, hds d hd, hm⟩)⟩

/-- A tarball that imports `a`. -/
def igTar : Desc := { package := s%"mine", imports := [(s%"a", { name := s%"a" })] }

/-- A DESCRIPTION file that suggests `t`. -/
def igDesc : Desc := { package := s%"proj", suggests := [(s%"t", { name := s%"t" })] }

/-- Non-vacuity of `C169_ignored` and `C169_ignored_unplanned`. -/
example : Keyed planNexus ∧ NoR planNexus ∧ idOrder.Fair ∧
    chView (planInstall { packages := [s%"a"] } planNexus [] true [] [] [] idOrder idOrder idOrder) =
      some ([s%"c", s%"a", s%"b"], [(s%"c", s%"R1", s%"2.0"), (s%"a", s%"R1", s%"1.0"), (s%"b", s%"R1", s%"1.1")]) ∧
    chView (planInstall { packages := [s%"a"], ignore := [s%"b"] } planNexus [] true [] [] [] idOrder idOrder idOrder) =
      some ([s%"a"], [(s%"a", s%"R1", s%"1.0")]) ∧
    chView (planInstall { packages := [s%"a"], ignore := [s%"t"] } planNexus [] true [] [] [] idOrder idOrder idOrder) =
      some ([s%"c", s%"a", s%"b"], [(s%"c", s%"R1", s%"2.0"), (s%"a", s%"R1", s%"1.0"), (s%"b", s%"R1", s%"1.1")]) :=
  ⟨planNexus_keyed, planNexus_noR, idOrder_fair, by decide +kernel, by decide +kernel, by decide +kernel⟩

/-- Non-vacuity of `C169_described`, `C169_described_least` and `C169_described_more`. -/
example : (∀ p, p ∈ [s%"t", s%"a"] ↔ p ∈ ([] : List Str) ∨ AsksFor [igTar] [igDesc] p) ∧
    chView (planInstall {} planNexus [] true [igTar] [igDesc] [] idOrder idOrder idOrder) =
      some ([s%"t", s%"c", s%"a", s%"b"], [(s%"t", s%"R1", s%"0.2"), (s%"c", s%"R1", s%"2.0"), (s%"a", s%"R1", s%"1.0"), (s%"b", s%"R1", s%"1.1")]) ∧
    chView (planInstall { packages := [s%"t", s%"a"] } planNexus [] true [] [] [] idOrder idOrder idOrder) =
      some ([s%"c", s%"t", s%"a", s%"b"], [(s%"c", s%"R1", s%"2.0"), (s%"t", s%"R1", s%"0.2"), (s%"a", s%"R1", s%"1.0"), (s%"b", s%"R1", s%"1.1")]) := by
  refine ⟨fun p => ?_, by decide +kernel, by decide +kernel⟩
  simp only [AsksFor, igTar, igDesc, exists_eq_left, GoMap.keys, List.map_cons, List.map_nil, List.mem_cons, List.not_mem_nil, or_false, false_or]
  exact or_comm

end Pkgr
