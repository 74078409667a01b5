/- C148: what planning can end with. -/
import Verif.Props.Custom
import Verif.Proof.Dep

namespace Pkgr
open Spec

/-- A version text without a separator, such as `5`. -/
def Spec.Unseparated (v : Str) : Prop := '.' ∉ v ∧ '-' ∉ v

/-- Some installed package is also offered by the repositories, and one of the two version texts has no separator. -/
def Spec.Incomparable (nx : Nexus) (installed : GoMap Desc) : Prop :=
  ∃ p d dl, GoMap.get? installed p = some d ∧ Resolves nx p dl ∧ (Unseparated d.version ∨ Unseparated dl.package.version)

theorem compare_none_iff (v w : Str) : compareVersionStrings v w = none ↔ Unseparated v ∨ Unseparated w := by
  have h1 := parseVersion_none_iff v
  have h2 := parseVersion_none_iff w
  unfold compareVersionStrings Unseparated
  rw [← h1, ← h2]
  cases parseVersion v <;> cases parseVersion w <;> simp

theorem outdated_none_iff {nx : Nexus} (hk : Keyed nx) {ρ : Order} (hρ : ρ.Fair) {installed : GoMap Desc}
    (hne : GoMap.get? installed [] = none) (t : Nat) :
    getOutdatedPackages installed (getPackages nx (ρ t (GoMap.keys installed))).packages = none ↔ Incomparable nx installed := by
  rw [getPackages_packages]
  have key : (∃ dl ∈ List.map (fun p => (getPackage nx p).getD {}) (ρ t (GoMap.keys installed)), ComparePanics installed dl) ↔
      Incomparable nx installed := by
    constructor
    · rintro ⟨dl, hm, d, hd, hc⟩
      obtain ⟨p, hp, rfl⟩ := List.mem_map.1 hm
      cases hg : getPackage nx p with
      | none => rw [hg] at hd; exact absurd (hd.symm.trans hne) (by simp)
      | some dl =>
        rw [hg] at hd hc
        simp only [Option.getD_some] at hd hc
        rw [getPackage_keyed hk hg] at hd
        exact ⟨p, d, dl, hd, resolves_iff.2 hg, ((compare_none_iff _ _).1 hc).symm⟩
    · rintro ⟨p, d, dl, hd, hr, hv⟩
      have hg := resolves_iff.1 hr
      refine ⟨dl, List.mem_map.2 ⟨p, (hρ _ _).mem_iff.2 (GoMap.mem_keys_of_get? hd), by rw [hg]; rfl⟩, d, ?_, ?_⟩
      · rw [getPackage_keyed hk hg]; exact hd
      · exact (compare_none_iff _ _).2 hv.symm
  rw [← key]
  rcases getOutdated_cases installed (List.map (fun p => (getPackage nx p).getD {}) (ρ t (GoMap.keys installed))) with
    ⟨h, h'⟩ | ⟨h, h'⟩
  · exact ⟨fun _ => h', fun _ => h⟩
  · constructor
    · intro h0; rw [h] at h0; cases h0
    · rintro ⟨dl, hm, hp⟩; exact absurd hp (h' dl hm)

theorem resolve_empty_cases {nx : Nexus} (hk : Keyed nx) {ρ : Order} (hρ : ρ.Fair) {installed : GoMap Desc}
    (hne : GoMap.get? installed [] = none) (cfgs : InstallDeps) (u l nr : Bool) :
    (Incomparable nx installed ∧ resolveInstallationReqs [] installed cfgs nx u l nr ρ = .error .versionPanic) ∨
    (¬ Incomparable nx installed ∧ resolveInstallationReqs [] installed cfgs nx u l nr ρ = .error .indexPanic) := by
  unfold resolveInstallationReqs buildGraph resolveLayers
  simp only [List.foldlM_nil]
  have h1 : layerLoop ρ (List.length ([] : Graph)) 0 (nodeDependencies [] nr) = some [] := rfl
  have h2 : ∀ t, (List.drop 1 ([] : List (List Str))).flatten.foldlM (depDbStep nx ρ nr) (t, []) = .ok (t, []) :=
    fun t => rfl
  dsimp only [pure]
  rw [h1]
  dsimp only
  rw [h2]
  dsimp only
  rw [← outdated_none_iff hk hρ hne (0 + List.length ([] : List (List Str)))]
  split
  · next h => exact Or.inl ⟨h, rfl⟩
  · next h => exact Or.inr ⟨by rw [h]; simp, rfl⟩

/-- C30, as far as it holds: for packages that can be obtained, the crash on an empty layer list occurs for the empty list of
packages only. Missing: the empty list (`C30_violated`). -/
theorem C30_nonempty_partial {nx : Nexus} {ρ : Order} {cfgs : InstallDeps} {nr : Bool} (hk : Keyed nx)
    (hR : NoR nx) (hρ : ρ.Fair) (hu : Uniform cfgs nr) {pkgs : List Str} (hav : ∀ p ∈ pkgs, Available nx p)
    {installed : GoMap Desc} (hne : GoMap.get? installed [] = none) (update libEx : Bool) :
    resolveInstallationReqs pkgs installed cfgs nx update libEx nr ρ = .error .indexPanic ↔
      pkgs = [] ∧ ¬ Incomparable nx installed := by
  by_cases h0 : pkgs = []
  · subst h0
    rcases resolve_empty_cases hk hρ hne cfgs update libEx nr with ⟨h, h'⟩ | ⟨h, h'⟩
    · rw [h']; simp [h]
    · rw [h']; simp [h]
  · rcases resolve_cases hk hρ hu (noR_not_available hR) h0 hav installed update libEx with
      ⟨h1, _⟩ | ⟨_, t, ⟨_, h3⟩ | ⟨_, ip, _, h3, _⟩⟩
    · rw [h1]; simp [h0]
    · rw [h3]; simp [h0]
    · rw [h3]; simp [h0]

/-- What planning for the requested packages `req` ends with, `nx` being the repositories as the configuration adjusts them and
`sug` the packages whose suggested packages are wanted. -/
inductive Spec.EndsWith (nx : Nexus) (nr : Bool) (sug : Str → Prop) (req : List Str) (installed : GoMap Desc) : PlanOutcome → Prop
  /-- a requested package cannot be obtained: the names of these are reported -/
  | missing : (∃ p ∈ req, ¬ Available nx p) → (∀ p, p ∈ l ↔ p ∈ req ∧ ¬ Available nx p) → EndsWith nx nr sug req installed (.missing l)
  /-- a package of the plan needs itself: this is reported -/
  | circular : (∀ p ∈ req, Available nx p) → (∃ p, InPlan nx nr sug req p ∧ Relation.TransGen (Needs nx nr) p p) →
      EndsWith nx nr sug req installed (.failed .circular)
  /-- the crash on a version without a separator -/
  | version : (∀ p ∈ req, Available nx p) → (∀ p, InPlan nx nr sug req p → ¬ Relation.TransGen (Needs nx nr) p p) →
      Incomparable nx installed → EndsWith nx nr sug req installed (.failed .versionPanic)
  /-- the crash on an empty list -/
  | empty : req = [] → ¬ Incomparable nx installed → EndsWith nx nr sug req installed (.failed .indexPanic)
  /-- otherwise, a plan -/
  | planned : req ≠ [] → (∀ p ∈ req, Available nx p) → (∀ p, InPlan nx nr sug req p → ¬ Relation.TransGen (Needs nx nr) p p) →
      ¬ Incomparable nx installed → EndsWith nx nr sug req installed (.planned req nx ip)

theorem inPlan_nil {nx : Nexus} {nr : Bool} {sug : Str → Prop} {p : Str} (h : InPlan nx nr sug [] p) : False := by
  induction h with
  | requested h => simp at h
  | needed _ _ ih => exact ih
  | suggested _ _ _ _ _ ih => exact ih

/-- C148, how planning ends in every case: with the missing packages, with the report of a circular dependency, with a plan - or
with a crash, if nothing is requested, or if some installed package that the repositories offer has, there or in the library, a version
without a separator. Missing: the two crashes. -/
theorem C148_outcome_partial {cfg : PlanCfg} {nx : Nexus} {installed : GoMap Desc} {libEx : Bool} {tb ds : List Desc}
    {add : GoMap AdditionalPkg} {ρ ρ' ρ'' : Order} (hk : Keyed nx) (hR : NoR nx) (hρ : ρ''.Fair)
    (hne : GoMap.get? installed [] = none) :
    planInstall cfg nx installed libEx tb ds add ρ ρ' ρ'' = .badCustomization ∨
    ∃ nx' cfgs, setPlanCustomizations cfg.suggests cfg.packages cfg.customizations (defaultCfgs cfg.noRecommended)
        (ignorePackages nx cfg.ignore) = some (cfgs, nx') ∧
      EndsWith nx' cfg.noRecommended (SugOn cfgs) (requestedPackages cfg tb ds ρ ρ') installed
        (planInstall cfg nx installed libEx tb ds add ρ ρ' ρ'') := by
  unfold planInstall
  dsimp only
  cases hset : setPlanCustomizations cfg.suggests cfg.packages cfg.customizations (defaultCfgs cfg.noRecommended)
      (ignorePackages nx cfg.ignore) with
  | none => exact Or.inl rfl
  | some r =>
    obtain ⟨cfgs, nx1⟩ := r
    refine Or.inr ⟨nx1, cfgs, rfl, ?_⟩
    dsimp only
    obtain ⟨hu, hdb, _⟩ := setPlan_uniform hset
    have hk' : Keyed nx1 := by
      intro db hd; rw [hdb] at hd; exact keyed_ignore hk _ db hd
    have hR' : ¬ Available nx1 (s%"R") := noR_not_available (by
      intro db hd; rw [hdb] at hd; exact noR_ignore hR _ db hd)
    generalize requestedPackages cfg tb ds ρ ρ' = req
    have hmem : ∀ p, p ∈ (getPackages nx1 req).missing ↔ p ∈ req ∧ ¬ Available nx1 p := by
      intro p
      rw [getPackages_eq]
      simp only [List.mem_filter]
      refine and_congr_right fun _ => ?_
      constructor
      · rintro h ⟨dl, hdl⟩
        rw [resolves_iff.1 hdl] at h; cases h
      · intro h
        cases hg : getPackage nx1 p with
        | none => rfl
        | some dl => exact absurd ⟨dl, resolves_iff.2 hg⟩ h
    by_cases hm : (getPackages nx1 req).missing = []
    · rw [if_neg (by simp [hm])]
      have hav : ∀ p ∈ req, Available nx1 p := by
        intro p hp
        refine Classical.byContradiction fun h => ?_
        have := (hmem p).2 ⟨hp, h⟩
        rw [hm] at this; cases this
      by_cases h0 : req = []
      · subst h0
        rcases resolve_empty_cases hk' hρ hne cfgs (!cfg.noUpdate) libEx cfg.noRecommended with ⟨h, h'⟩ | ⟨h, h'⟩
        · rw [h']
          exact .version hav (fun p hp => (inPlan_nil hp).elim) h
        · rw [h']
          exact .empty rfl h
      · rcases resolve_cases hk' hρ hu hR' h0 hav installed (!cfg.noUpdate) libEx with
          ⟨h1, h2⟩ | ⟨h1, t, ⟨h2, h3⟩ | ⟨outd, ip, h2, h3, _⟩⟩
        · rw [h1]; exact .circular hav h2
        · rw [h3]; exact .version hav h1 ((outdated_none_iff hk' hρ hne t).1 h2)
        · rw [h3]
          refine .planned h0 hav h1 fun h => ?_
          rw [(outdated_none_iff hk' hρ hne t).2 h] at h2; cases h2
    · rw [if_pos hm]
      refine .missing ?_ hmem
      cases hl : (getPackages nx1 req).missing with
      | nil => exact absurd hl hm
      | cons p l => exact ⟨p, (hmem p).1 (by rw [hl]; simp)⟩

/-- C148: the outcome is determined by the situation: of two outcomes that are both right, either both are plans, or they are equal up to the
order of the missing packages. -/
theorem C148_one_outcome {nx : Nexus} {nr : Bool} {sug : Str → Prop} {req : List Str} {installed : GoMap Desc} {o o' : PlanOutcome}
    (h : EndsWith nx nr sug req installed o) (h' : EndsWith nx nr sug req installed o') :
    o = o' ∨ (∃ ip ip', o = .planned req nx ip ∧ o' = .planned req nx ip') ∨
      ∃ l l', o = .missing l ∧ o' = .missing l' ∧ ∀ p, p ∈ l ↔ p ∈ l' := by
  cases h <;> cases h' <;> rename_i h1 h2
  all_goals grind [inPlan_nil]

/-- C148 fails: with package `c` installed in version `2`, every plan for package `c` crashes, although the repository offers `c`; with
`2.0` installed, there is a plan. -/
theorem C148_violated :
    planInstall { packages := [s%"c"] } planNexus [(s%"c", { package := s%"c", version := s%"2" })] true [] [] []
      idOrder idOrder idOrder = .failed .versionPanic ∧
    (match planInstall { packages := [s%"c"] } planNexus [(s%"c", { package := s%"c", version := s%"2.0" })] true [] [] []
      idOrder idOrder idOrder with | .planned _ _ _ => true | _ => false) = true := by decide +kernel

example : Keyed planNexus ∧ NoR planNexus ∧ idOrder.Fair ∧
    planInstall { packages := [s%"x"] } planNexus [] true [] [] [] idOrder idOrder idOrder = .failed .circular ∧
    planInstall { packages := [s%"q"] } planNexus [] true [] [] [] idOrder idOrder idOrder = .missing [s%"q"] ∧
    planInstall {} planNexus [] true [] [] [] idOrder idOrder idOrder = .failed .indexPanic :=
  ⟨planNexus_keyed, planNexus_noR, idOrder_fair, by decide +kernel, by decide +kernel, by decide +kernel⟩

/-! ### C32 -/

/-- C32, the number reported, exactly: the number of packages and tarballs that must be installed, each counted once; plus those planned
packages that are given as a tarball, too; plus, when updating, the outdated packages that are not planned or that are given as a tarball. The
number is right iff there is no package of the two latter kinds. Missing: that there is none, see `C32_violated`. -/
theorem C32_exact_partial {ip : InstallPlan} (hp : ip.packages.Nodup)
    (hi : (GoMap.keys ip.installed).Nodup) (ho : (ip.outdated.map (·.package)).Nodup)
    (hsub : ∀ o ∈ ip.outdated, o.package ∈ GoMap.keys ip.installed) :
    ip.numToInstall =
      (((ip.packages.filter fun p => !GoMap.has ip.additional p) ++ GoMap.keys ip.additional).countP (mustInstall ip) : Int)
      + (ip.packages.countP fun p => GoMap.has ip.additional p)
      + (if ip.update then (ip.outdated.countP fun o => !(ip.packages.contains o.package && !GoMap.has ip.additional o.package) : Nat) else 0 : Nat) := by
  have hreq : ip.allPackages (fun _ l => l) 0 = ip.packages ++ GoMap.keys ip.additional := rfl
  unfold InstallPlan.numToInstall
  simp only [hreq]
  generalize hP : ip.packages = P at *
  generalize hA : GoMap.keys ip.additional = A at *
  have hhas : ∀ p, GoMap.has ip.additional p = true ↔ p ∈ A := by intro p; rw [GoMap.has_iff, hA]
  let Q := P.filter fun p => !GoMap.has ip.additional p
  have hQ : Q.Nodup := hp.filter _
  have hQm : ∀ p, p ∈ Q ↔ p ∈ P ∧ p ∉ A := by
    intro p
    show p ∈ P.filter (fun p => !GoMap.has ip.additional p) ↔ _
    rw [List.mem_filter, ← hhas]; simp
  have e1 : P.length = Q.length + P.countP fun p => GoMap.has ip.additional p := by
    have := List.length_eq_countP_add_countP (p := fun p => GoMap.has ip.additional p) (l := P)
    rw [this, Nat.add_comm]
    congr 1
    rw [← List.countP_eq_length_filter]
    congr 1
    funext p; cases GoMap.has ip.additional p <;> rfl
  have e2 : (GoMap.keys ip.installed).countP (fun p => (P ++ A).contains p && !GoMap.has ip.additional p) =
      Q.countP fun p => GoMap.has ip.installed p := by
    rw [List.countP_eq_length_filter, List.countP_eq_length_filter]
    refine List.Perm.length_eq ?_
    rw [List.perm_ext_iff_of_nodup (hi.filter _) (hQ.filter _)]
    intro p
    rw [List.mem_filter, List.mem_filter, hQm, GoMap.has_iff]
    simp only [Bool.and_eq_true, List.contains_iff_mem, List.mem_append, Bool.not_eq_true', ← Bool.not_eq_true, hhas]
    constructor
    · rintro ⟨h1, h2 | h2, h3⟩
      · exact ⟨⟨h2, h3⟩, h1⟩
      · exact absurd h2 h3
    · rintro ⟨⟨h1, h2⟩, h3⟩; exact ⟨h3, Or.inl h1, h2⟩
  have e3 : (Q ++ A).countP (mustInstall ip) = Q.countP (mustInstall ip) + A.length := by
    rw [List.countP_append]
    congr 1
    rw [List.countP_eq_length]
    intro p hp
    unfold mustInstall
    rw [(hhas p).2 hp]; rfl
  have e4 : Q.countP (fun p => (ip.outdated.map (·.package)).contains p) =
      ip.outdated.countP fun o => P.contains o.package && !GoMap.has ip.additional o.package := by
    have h1 : ip.outdated.countP (fun o => P.contains o.package && !GoMap.has ip.additional o.package) =
        (ip.outdated.map (·.package)).countP fun p => P.contains p && !GoMap.has ip.additional p := by
      rw [List.countP_map]; rfl
    rw [h1, List.countP_eq_length_filter, List.countP_eq_length_filter]
    refine List.Perm.length_eq ?_
    rw [List.perm_ext_iff_of_nodup (hQ.filter _) (ho.filter _)]
    intro p
    refine (List.mem_filter.trans ?_).trans List.mem_filter.symm
    rw [hQm]
    simp only [Bool.and_eq_true, List.contains_iff_mem, Bool.not_eq_true', ← Bool.not_eq_true, hhas]
    constructor <;> rintro ⟨h1, h2⟩ <;> exact ⟨h2, h1⟩
  have e5 : ip.outdated.length = (ip.outdated.countP fun o => P.contains o.package && !GoMap.has ip.additional o.package) +
      ip.outdated.countP fun o => !(P.contains o.package && !GoMap.has ip.additional o.package) := by
    have := List.length_eq_countP_add_countP (p := fun o : OutdatedPackage => P.contains o.package && !GoMap.has ip.additional o.package) (l := ip.outdated)
    rw [this]
    congr 2
    funext o; cases (P.contains o.package && !GoMap.has ip.additional o.package) <;> rfl
  have e6 : ∀ L : List Str, (∀ p ∈ L, p ∈ Q) →
      L.countP (mustInstall ip) + L.countP (fun p => GoMap.has ip.installed p) =
      L.length + if ip.update then L.countP (fun p => (ip.outdated.map (·.package)).contains p) else 0 := by
    intro L
    induction L with
    | nil => intro _; simp
    | cons p L ih =>
      intro hL
      have ih := ih fun q hq => hL q (by simp [hq])
      have hpA : GoMap.has ip.additional p = false := by
        have := ((hQm p).1 (hL p (by simp))).2
        rw [← Bool.not_eq_true, hhas]; exact this
      have hins : (ip.outdated.map (·.package)).contains p = true → GoMap.has ip.installed p = true := by
        intro h
        rw [List.contains_iff_mem] at h
        obtain ⟨o, ho', rfl⟩ := List.mem_map.1 h
        exact (GoMap.has_iff _ _).2 (hsub o ho')
      have hm : mustInstall ip p = (!GoMap.has ip.installed p || (ip.update && (ip.outdated.map (·.package)).contains p)) := by
        unfold mustInstall; rw [hpA]; rfl
      rw [List.countP_cons, List.countP_cons, List.countP_cons, List.length_cons, hm]
      cases hu : ip.update <;> cases h1 : GoMap.has ip.installed p <;> cases h2 : (ip.outdated.map (·.package)).contains p <;>
        simp [hu] at ih ⊢ <;> first | omega | (rw [h2, h1] at hins; simp at hins)
  have e6 := e6 Q fun _ h => h
  show _ = ((Q ++ A).countP (mustInstall ip) : Int) + _ + _
  rw [List.length_append, e2, e3]
  rw [e4] at e6
  generalize Q.countP (mustInstall ip) = x1 at *
  generalize (Q.countP fun p => GoMap.has ip.installed p) = x2 at *
  generalize (P.countP fun p => GoMap.has ip.additional p) = x3 at *
  generalize (ip.outdated.countP fun o => P.contains o.package && !GoMap.has ip.additional o.package) = x4 at *
  generalize (ip.outdated.countP fun o => !(P.contains o.package && !GoMap.has ip.additional o.package)) = x5 at *
  cases hu : ip.update <;> simp [hu] at e6 ⊢ <;> omega

example : ∃ ip, resolveInstallationReqs [s%"c", s%"b"]
      [(s%"c", { package := s%"c", version := s%"1.9" }), (s%"a", { package := s%"a", version := s%"0.5" })]
      (defaultCfgs true) planNexus true true true idOrder = .ok ip ∧ ip.numToInstall = 3 ∧
    (ip.packages.filter fun p => !GoMap.has ip.additional p).countP (mustInstall ip) = 2 ∧ ip.packages.Nodup ∧
    (ip.outdated.countP fun o => !(ip.packages.contains o.package && !GoMap.has ip.additional o.package)) = 1 :=
  ⟨_, rfl, by decide +kernel, by decide +kernel, by decide +kernel, by decide +kernel⟩

/-! ### C23 -/

/-- Two plans that say the same: the same packages to begin with, the same packages with the same requirements, the same downloads, outdated
packages and tarballs, each possibly in another order. -/
structure Spec.SamePlan (ip ip' : InstallPlan) : Prop where
  starting : ip'.starting.Perm ip.starting
  listed : (GoMap.keys ip'.depDb).Perm (GoMap.keys ip.depDb)
  lists : ∀ p ds ds', GoMap.get? ip.depDb p = some ds → GoMap.get? ip'.depDb p = some ds' → ds'.Perm ds
  downloads : ip'.downloads.Perm ip.downloads
  outdated : ip'.outdated.Perm ip.outdated
  rest : ip'.installed = ip.installed ∧ ip'.additional = ip.additional ∧ ip'.createLibrary = ip.createLibrary ∧ ip'.update = ip.update

theorem needs_mono {nx nx' : Nexus} {nr : Bool} (hres : ∀ p dl, Resolves nx p dl → Resolves nx' p dl) {p q : Str} (h : Needs nx nr p q) : Needs nx' nr p q := by
  obtain ⟨dl, h1, h2, ⟨dl', h3⟩, h4⟩ := h
  exact ⟨dl, hres _ _ h1, h2, ⟨dl', hres _ _ h3⟩, h4⟩

theorem inPlan_mono {nx nx' : Nexus} {nr : Bool} {sug sug' : Str → Prop} {l l' : List Str} (hres : ∀ p dl, Resolves nx p dl → Resolves nx' p dl)
    (hs : ∀ p, sug p → sug' p) (h : ∀ p ∈ l, p ∈ l') {p : Str} (hp : InPlan nx nr sug l p) : InPlan nx' nr sug' l' p := by
  induction hp with
  | requested hq => exact .requested (h _ hq)
  | needed _ hn ih => exact .needed ih (needs_mono hres hn)
  | suggested _ hs' hr hm ha ih =>
    obtain ⟨dl', ha⟩ := ha
    exact .suggested ih (hs _ hs') (hres _ _ hr) hm ⟨dl', hres _ _ ha⟩

theorem inPlan_congr {nx : Nexus} {nr : Bool} {sug sug' : Str → Prop} {l l' : List Str} (hs : ∀ p, sug p ↔ sug' p) (h : ∀ p, p ∈ l ↔ p ∈ l') (p : Str) :
    InPlan nx nr sug l p ↔ InPlan nx nr sug' l' p :=
  ⟨inPlan_mono (fun _ _ h => h) (fun p => (hs p).1) fun p => (h p).1, inPlan_mono (fun _ _ h => h) (fun p => (hs p).2) fun p => (h p).2⟩

theorem outdated_perm {nx : Nexus} {ρ ρ' : Order} (hρ : ρ.Fair) (hρ' : ρ'.Fair) {installed : GoMap Desc} {t t' : Nat}
    {o o' : List OutdatedPackage}
    (ho : getOutdatedPackages installed (getPackages nx (ρ t (GoMap.keys installed))).packages = some o)
    (ho' : getOutdatedPackages installed (getPackages nx (ρ' t' (GoMap.keys installed))).packages = some o') : o'.Perm o := by
  rw [getPackages_packages] at ho ho'
  rcases getOutdated_cases installed (List.map (fun p => (getPackage nx p).getD {}) (ρ t (GoMap.keys installed))) with
    ⟨h, _⟩ | ⟨h, _⟩
  · rw [h] at ho; cases ho
  · rcases getOutdated_cases installed (List.map (fun p => (getPackage nx p).getD {}) (ρ' t' (GoMap.keys installed))) with
      ⟨h', _⟩ | ⟨h', _⟩
    · rw [h'] at ho'; cases ho'
    · rw [h] at ho; rw [h'] at ho'; cases ho; cases ho'
      exact (((hρ' _ _).trans (hρ _ _).symm).map _).filterMap _

theorem resolve_same {nx nx' : Nexus} {ρ ρ' : Order} {cfgs cfgs' : InstallDeps} {nr : Bool} (hk : Keyed nx) (hk' : Keyed nx') (hg : ∀ p, getPackage nx' p = getPackage nx p)
    (hR : ¬ Available nx (s%"R")) (hρ : ρ.Fair) (hρ' : ρ'.Fair) (hu : Uniform cfgs nr) (hu' : Uniform cfgs' nr) (hsug : ∀ p, SugOn cfgs p ↔ SugOn cfgs' p) {l l' : List Str} (hl : ∀ p, p ∈ l ↔ p ∈ l')
    (hav : ∀ p ∈ l, Available nx p) {installed : GoMap Desc} (hne : GoMap.get? installed [] = none) (update libEx : Bool) :
    (∃ e, resolveInstallationReqs l installed cfgs nx update libEx nr ρ = .error e ∧
      resolveInstallationReqs l' installed cfgs' nx' update libEx nr ρ' = .error e) ∨
    ∃ ip ip', resolveInstallationReqs l installed cfgs nx update libEx nr ρ = .ok ip ∧
      resolveInstallationReqs l' installed cfgs' nx' update libEx nr ρ' = .ok ip' ∧ SamePlan ip ip' := by
  have hres : ∀ p dl, Resolves nx p dl ↔ Resolves nx' p dl := fun p dl => by rw [resolves_iff, resolves_iff, hg]
  have hneeds : Needs nx' nr = Needs nx nr := by
    funext a b
    exact propext ⟨needs_mono fun p dl => (hres p dl).2, needs_mono fun p dl => (hres p dl).1⟩
  have hav' : ∀ p, Available nx p ↔ Available nx' p := fun p => exists_congr (hres p)
  have hinc : Incomparable nx' installed ↔ Incomparable nx installed := by
    unfold Incomparable
    simp only [hres]
  have hpk : ∀ l, getPackages nx' l = getPackages nx l := fun l => by
    rw [getPackages_eq, getPackages_eq]
    simp only [hg]
  by_cases h0 : l = []
  · have h0' : l' = [] := List.eq_nil_iff_forall_not_mem.2 fun p hp => by
      have := (hl p).2 hp; rw [h0] at this; cases this
    subst h0; subst h0'
    left
    rcases resolve_empty_cases hk hρ hne cfgs update libEx nr with ⟨h, h1⟩ | ⟨h, h1⟩ <;>
      rcases resolve_empty_cases hk' hρ' hne cfgs' update libEx nr with ⟨h', h2⟩ | ⟨h', h2⟩
    · exact ⟨_, h1, h2⟩
    · exact absurd (hinc.2 h) h'
    · exact absurd (hinc.1 h') h
    · exact ⟨_, h1, h2⟩
  · have h0' : l' ≠ [] := fun h => h0 (List.eq_nil_iff_forall_not_mem.2 fun p hp => by
      have := (hl p).1 hp; rw [h] at this; cases this)
    have hin : ∀ p, InPlan nx nr (SugOn cfgs) l p ↔ InPlan nx' nr (SugOn cfgs') l' p := fun p =>
      ⟨inPlan_mono (fun p dl => (hres p dl).1) (fun p => (hsug p).1) fun p => (hl p).1,
        inPlan_mono (fun p dl => (hres p dl).2) (fun p => (hsug p).2) fun p => (hl p).2⟩
    rcases resolve_cases hk hρ hu hR h0 hav installed update libEx with
      ⟨h1, p, hp, hc⟩ | ⟨h1, t, ⟨ho, h3⟩ | ⟨outd, ip, ho, h3, hok, hod, hi, hup, hcr, had⟩⟩ <;>
    rcases resolve_cases hk' hρ' hu' (fun h => hR ((hav' _).2 h)) h0' (fun p hp => (hav' p).1 (hav p ((hl p).2 hp))) installed update libEx with
      ⟨h1', p', hp', hc'⟩ | ⟨h1', t', ⟨ho', h3'⟩ | ⟨outd', ip', ho', h3', hok', hod', hi', hup', hcr', had'⟩⟩
    · exact Or.inl ⟨_, h1, h1'⟩
    · exact absurd (hneeds ▸ hc) (h1' p ((hin p).1 hp))
    · exact absurd (hneeds ▸ hc) (h1' p ((hin p).1 hp))
    · exact absurd (hneeds ▸ hc') (h1 p' ((hin p').2 hp'))
    · exact Or.inl ⟨_, h3, h3'⟩
    · rw [(outdated_none_iff hk' hρ' hne t').2 (hinc.2 ((outdated_none_iff hk hρ hne t).1 ho))] at ho'; cases ho'
    · exact absurd (hneeds ▸ hc') (h1 p' ((hin p').2 hp'))
    · rw [(outdated_none_iff hk hρ hne t).2 (hinc.1 ((outdated_none_iff hk' hρ' hne t').1 ho'))] at ho; cases ho
    · refine Or.inr ⟨ip, ip', h3, h3', ?_⟩
      have hstart : ip'.starting.Perm ip.starting := by
        rw [List.perm_ext_iff_of_nodup ((List.nodup_append.1 hok'.nodup).1) ((List.nodup_append.1 hok.nodup).1)]
        intro p; rw [hok.start, hok'.start, hin, hneeds]
      have hall : (ip'.starting ++ GoMap.keys ip'.depDb).Perm (ip.starting ++ GoMap.keys ip.depDb) := by
        rw [List.perm_ext_iff_of_nodup hok'.nodup hok.nodup]
        intro p; rw [hok.mem, hok'.mem, hin]
      refine ⟨hstart, (List.perm_append_left_iff _).1 (hall.trans (List.Perm.append_right _ hstart.symm)), ?_, ?_, ?_, ?_⟩
      · intro p ds ds' hd hd'
        rw [List.perm_ext_iff_of_nodup (hok'.deps p ds' hd').1 (hok.deps p ds hd).1]
        intro q; rw [(hok'.deps p ds' hd').2, (hok.deps p ds hd).2, hneeds]
      · obtain ⟨l, hl, hd⟩ := hok.downloads
        obtain ⟨l', hl', hd'⟩ := hok'.downloads
        rw [hd, hd']
        simp only [hg]
        exact ((hl'.trans hall).trans hl.symm).map _
      · rw [hod, hod']; rw [hpk] at ho'; exact outdated_perm hρ hρ' ho ho'
      · exact ⟨hi'.trans hi.symm, had'.trans had.symm, hcr'.trans hcr.symm, hup'.trans hup.symm⟩

/-- C23, for planning as a whole: whatever order the tables of the tarballs', the DESCRIPTION files' and the packages' requirements are gone
through in, planning ends in the same way: the same error, the same missing packages, or, for the same request, plans that say the same. -/
theorem C23_planning_deterministic {cfg : PlanCfg} {nx : Nexus} {installed : GoMap Desc} {libEx : Bool} {tb ds : List Desc}
    {add : GoMap AdditionalPkg} {ρ₁ ρ₂ ρ₃ σ₁ σ₂ σ₃ : Order} (hk : Keyed nx) (hR : NoR nx) (h₁ : ρ₁.Fair) (h₂ : ρ₂.Fair) (h₃ : ρ₃.Fair)
    (k₁ : σ₁.Fair) (k₂ : σ₂.Fair) (k₃ : σ₃.Fair) (hne : GoMap.get? installed [] = none) :
    match planInstall cfg nx installed libEx tb ds add ρ₁ ρ₂ ρ₃, planInstall cfg nx installed libEx tb ds add σ₁ σ₂ σ₃ with
    | .badCustomization, .badCustomization => True
    | .missing l, .missing l' => ∀ p, p ∈ l ↔ p ∈ l'
    | .failed e, .failed e' => e = e'
    | .planned req nx₁ ip, .planned req' nx₂ ip' => (∀ p, p ∈ req ↔ p ∈ req') ∧ nx₁ = nx₂ ∧ SamePlan ip ip'
    | _, _ => False := by
  have hreq : ∀ p, p ∈ requestedPackages cfg tb ds ρ₁ ρ₂ ↔ p ∈ requestedPackages cfg tb ds σ₁ σ₂ := fun p => by
    rw [C29_requested_partial cfg tb ds h₁ h₂, C29_requested_partial cfg tb ds k₁ k₂]
  unfold planInstall
  dsimp only
  cases hset : setPlanCustomizations cfg.suggests cfg.packages cfg.customizations (defaultCfgs cfg.noRecommended)
      (ignorePackages nx cfg.ignore) with
  | none => trivial
  | some r =>
    obtain ⟨cfgs, nx1⟩ := r
    dsimp only
    obtain ⟨hu, hdb, _⟩ := setPlan_uniform hset
    have hk' : Keyed nx1 := by
      intro db hd; rw [hdb] at hd; exact keyed_ignore hk _ db hd
    have hR' : ¬ Available nx1 (s%"R") := noR_not_available (by
      intro db hd; rw [hdb] at hd; exact noR_ignore hR _ db hd)
    generalize requestedPackages cfg tb ds ρ₁ ρ₂ = l at hreq ⊢
    generalize requestedPackages cfg tb ds σ₁ σ₂ = l' at hreq ⊢
    have hmem : ∀ l p, p ∈ (getPackages nx1 l).missing ↔ p ∈ l ∧ ¬ Available nx1 p := by
      intro l p
      rw [getPackages_eq]
      simp only [List.mem_filter]
      refine and_congr_right fun _ => ?_
      constructor
      · rintro h ⟨dl, hdl⟩
        rw [resolves_iff.1 hdl] at h; cases h
      · intro h
        cases hg : getPackage nx1 p with
        | none => rfl
        | some dl => exact absurd ⟨dl, resolves_iff.2 hg⟩ h
    have hsame : ∀ p, p ∈ (getPackages nx1 l).missing ↔ p ∈ (getPackages nx1 l').missing := fun p => by
      rw [hmem, hmem, hreq]
    by_cases hm : (getPackages nx1 l).missing = []
    · have hm' : (getPackages nx1 l').missing = [] := List.eq_nil_iff_forall_not_mem.2 fun p hp => by
        have := (hsame p).2 hp; rw [hm] at this; cases this
      rw [if_neg (by simp [hm]), if_neg (by simp [hm'])]
      have hav : ∀ p ∈ l, Available nx1 p := by
        intro p hp
        refine Classical.byContradiction fun h => ?_
        have := (hmem l p).2 ⟨hp, h⟩
        rw [hm] at this; cases this
      rcases resolve_same hk' hk' (fun _ => rfl) hR' h₃ k₃ hu hu (fun _ => Iff.rfl) hreq hav hne (!cfg.noUpdate) libEx with ⟨e, h, h'⟩ | ⟨ip, ip', h, h', hs⟩
      · rw [h, h']
      · rw [h, h']
        exact ⟨hreq, rfl, hs.starting, hs.listed, hs.lists, hs.downloads, hs.outdated, hs.rest.1, rfl, hs.rest.2.2⟩
    · have hm' : (getPackages nx1 l').missing ≠ [] := fun h' => hm (List.eq_nil_iff_forall_not_mem.2 fun p hp => by
        have := (hsame p).1 hp; rw [h'] at this; cases this)
      rw [if_pos hm, if_pos hm']
      exact hsame

example : (match planInstall { packages := [s%"a", s%"t"] } planNexus [] true [] [] [] idOrder idOrder idOrder,
      planInstall { packages := [s%"a", s%"t"] } planNexus [] true [] [] [] revOrder revOrder revOrder with
    | .planned _ _ ip, .planned _ _ ip' => (ip.starting, ip'.starting) | _, _ => ([], [])) = ([s%"t", s%"c"], [s%"c", s%"t"]) := by
  decide +kernel

end Pkgr
