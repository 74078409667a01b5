/- Proofs about `resolveInstallationReqs`. -/
import Verif.Proof.Layers

namespace Pkgr
open Spec

theorem get?_map_snd {α β : Type} (f : α → β) (m : GoMap α) (k : Str) :
    GoMap.get? (m.map fun e => (e.1, f e.2)) k = (GoMap.get? m k).map f := by
  induction m with
  | nil => rfl
  | cons e m ih =>
    rw [List.map_cons, GoMap.get?_cons, GoMap.get?_cons]
    split
    · rfl
    · exact ih

theorem configOf_uniform {cfgs : InstallDeps} {nr : Bool} (h : Uniform cfgs nr) (p : Str) :
    (configOf (withNoRecommended cfgs nr) p).depends = true ∧
    (configOf (withNoRecommended cfgs nr) p).imports = true ∧
    (configOf (withNoRecommended cfgs nr) p).linkingTo = true ∧
    (configOf (withNoRecommended cfgs nr) p).noRecommended = nr ∧
    ((configOf (withNoRecommended cfgs nr) p).suggests = true ↔ SugOn cfgs p) := by
  have hm : GoMap.get? (withNoRecommended cfgs nr).deps p =
      (GoMap.get? cfgs.deps p).map (fun c => PkgDeps.mk c.depends c.imports c.suggests c.linkingTo nr) :=
    get?_map_snd (fun c : PkgDeps => PkgDeps.mk c.depends c.imports c.suggests c.linkingTo nr) cfgs.deps p
  have hd : (withNoRecommended cfgs nr).default = cfgs.default := rfl
  unfold configOf SugOn
  rw [hm, hd]
  cases hp : GoMap.get? cfgs.deps p with
  | none =>
    have := h.2 cfgs.default (Or.inl rfl)
    simp [this, h.1]
  | some c =>
    have := h.2 c (Or.inr ⟨p, hp⟩)
    simp [this]

theorem requires_iff_needs {cfg : Str → PkgDeps} {nx : Nexus} {nr : Bool} {a : Str}
    (h : (cfg a).depends = true ∧ (cfg a).imports = true ∧ (cfg a).linkingTo = true ∧
      (cfg a).noRecommended = nr) (b : Str) : Requires nx cfg a b ↔ Needs nx nr a b := by
  unfold Requires Needs Names
  simp [h]

theorem planned_iff_inPlan {cfg : Str → PkgDeps} {nx : Nexus} {nr : Bool} {sug : Str → Prop}
    (h : ∀ a, (cfg a).depends = true ∧ (cfg a).imports = true ∧ (cfg a).linkingTo = true ∧
      (cfg a).noRecommended = nr ∧ ((cfg a).suggests = true ↔ sug a))
    (hR : ¬ Available nx (s%"R")) (roots : List Str) (a : Str) :
    Planned nx cfg roots a ↔ InPlan nx nr sug roots a := by
  have hq : ∀ a b, Requires nx cfg a b ↔ Needs nx nr a b := fun a b =>
    requires_iff_needs ⟨(h a).1, (h a).2.1, (h a).2.2.1, (h a).2.2.2.1⟩ b
  constructor
  · intro hp
    induction hp with
    | root h => exact .requested h
    | step _ he _ ih =>
      rcases he with he | ⟨h1, h2, dl, h3, h4⟩
      · exact .needed ih ((hq _ _).1 he)
      · exact .suggested ih ((h _).2.2.2.2.1 h1) h3 h4 h2
  · intro hp
    induction hp with
    | requested h => exact .root h
    | needed _ he ih =>
      refine .step ih (Or.inl ((hq _ _).2 he)) ?_
      rintro rfl; obtain ⟨_, _, _, h4, _⟩ := he; exact hR h4
    | @suggested a b dl _ hs hg hb hav ih =>
      refine .step ih (Or.inr ⟨(h _).2.2.2.2.2 hs, hav, dl, hg, hb⟩) ?_
      rintro rfl; exact hR hav

theorem uniform_defaultCfgs (nr : Bool) : Uniform (defaultCfgs nr) nr := by
  refine ⟨rfl, ?_⟩
  rintro c (rfl | ⟨p, hp⟩)
  · exact ⟨rfl, rfl, rfl⟩
  · simp [defaultCfgs, newDefaultInstallDeps] at hp

theorem withNoRecommended_defaultCfgs (nr : Bool) : withNoRecommended (defaultCfgs nr) nr = defaultCfgs nr := rfl

theorem not_sugOn_defaultCfgs (nr : Bool) (p : Str) : ¬ SugOn (defaultCfgs nr) p := by
  simp [SugOn, defaultCfgs, newDefaultInstallDeps]

/-- The finished graph in terms of the specification. -/
structure SpecGraph (nx : Nexus) (nr : Bool) (sug : Str → Prop) (roots : List Str) (g : Graph) : Prop where
  wf : GoMap.WF g
  mem : ∀ k, k ∈ GoMap.keys g ↔ InPlan nx nr sug roots k
  avail : ∀ k, k ∈ GoMap.keys g → Available nx k
  edge : ∀ a b, a ∈ GoMap.keys g → (Edge g nr a b ↔ Needs nx nr a b)
  closed : ∀ a b, Edge g nr a b → b ∈ GoMap.keys g

theorem GraphOk.spec {nx : Nexus} {cfgs : InstallDeps} {nr : Bool} {roots : List Str} {g : Graph}
    (h : GraphOk nx (withNoRecommended cfgs nr) roots g) (hu : Uniform cfgs nr)
    (hR : ¬ Available nx (s%"R")) : SpecGraph nx nr (SugOn cfgs) roots g := by
  have hu' := configOf_uniform hu
  have hmem : ∀ k, k ∈ GoMap.keys g ↔ InPlan nx nr (SugOn cfgs) roots k := fun k => by
    rw [h.mem_iff, planned_iff_inPlan hu' hR]
  have hedge : ∀ a b, a ∈ GoMap.keys g → (Edge g nr a b ↔ Needs nx nr a b) := by
    intro a b ha
    obtain ⟨dl, reqs, h1, h2, h3⟩ := (h.node a ha).1
    have hq := requires_iff_needs (nx := nx) (nr := nr)
      (cfg := configOf (withNoRecommended cfgs nr)) (a := a)
      ⟨(hu' a).1, (hu' a).2.1, (hu' a).2.2.1, (hu' a).2.2.2.1⟩ b
    unfold Edge
    constructor
    · rintro ⟨r, hr, hb, _⟩
      rw [h2] at hr; cases hr
      exact hq.1 ((h3 b).1 hb)
    · intro hn
      exact ⟨reqs, h2, (h3 b).2 (hq.2 hn), hn.choose_spec.2.2.2⟩
  refine ⟨h.wf, hmem, fun k hk => ?_, hedge, fun a b he => ?_⟩
  · obtain ⟨dl, _, h1, _⟩ := (h.node k hk).1
    exact ⟨dl, resolves_iff.2 h1⟩
  · have ha : a ∈ GoMap.keys g := by obtain ⟨r, hr, _⟩ := he; exact GoMap.mem_keys_of_get? hr
    rw [hmem] at ha ⊢
    exact .needed ha ((hedge a b ((hmem a).2 ha)).1 he)

theorem inPlan_single {nx : Nexus} {nr : Bool} {p k : Str} {sug : Str → Prop} (hs : ∀ a, ¬ sug a) :
    InPlan nx nr sug [p] k ↔ k = p ∨ Relation.TransGen (Needs nx nr) p k := by
  constructor
  · intro h
    induction h with
    | requested h => left; simpa using h
    | needed _ he ih =>
      right
      rcases ih with rfl | ih
      · exact .single he
      · exact .tail ih he
    | suggested _ h => exact absurd h (hs _)
  · rintro (rfl | h)
    · exact .requested (by simp)
    · induction h with
      | single h => exact .needed (.requested (by simp)) h
      | tail _ h ih => exact .needed ih h

theorem laterLayers_eq (p : Str) (L : List (List Str)) (h : ∀ l ∈ L.dropLast, p ∉ l) :
    laterLayers p L = L.flatten.filter (fun q => q ≠ p) := by
  induction L with
  | nil => rfl
  | cons l L ih =>
    cases L with
    | nil => simp [laterLayers]
    | cons l' L =>
      have hl : p ∉ l := h l (by simp)
      have := ih (fun x hx => h x (by simp only [List.dropLast_cons_cons, List.mem_cons]; exact Or.inr hx))
      simp only [laterLayers, List.flatten_cons, List.filter_append] at this ⊢
      rw [this]
      congr 1
      rw [List.filter_eq_self.2]
      intro a ha; simp; rintro rfl; exact hl ha

theorem SpecGraph.transGen {nx nr sug roots g} (h : SpecGraph nx nr sug roots g) {a b : Str}
    (ha : a ∈ GoMap.keys g) : Relation.TransGen (Edge g nr) a b ↔ Relation.TransGen (Needs nx nr) a b := by
  constructor
  · intro hab
    induction hab with
    | single he => exact .single ((h.edge _ _ ha).1 he)
    | tail hp he ih =>
      refine .tail ih ((h.edge _ _ ?_).1 he)
      obtain ⟨r, hr, _⟩ := he; exact GoMap.mem_keys_of_get? hr
  · intro hab
    have : Relation.TransGen (Edge g nr) a b ∧ b ∈ GoMap.keys g := by
      induction hab with
      | single he =>
        have := (h.edge _ _ ha).2 he
        exact ⟨.single this, h.closed _ _ this⟩
      | tail hp he ih =>
        have := (h.edge _ _ ih.2).2 he
        exact ⟨.tail ih.1 this, h.closed _ _ this⟩
    exact this.1

/-- One package's dependency list. -/
theorem depDbStep_ok {nx : Nexus} {ρ : Order} {nr : Bool} (hk : Keyed nx) (hρ : ρ.Fair)
    (hR : ¬ Available nx (s%"R")) (s : Nat × GoMap (List Str)) {p : Str} (hav : Available nx p)
    (hnc : ∀ a, a = p ∨ Relation.TransGen (Needs nx nr) p a → ¬ Relation.TransGen (Needs nx nr) a a)
    (hdep : ∃ b, Needs nx nr p b) :
    ∃ t deps, depDbStep nx ρ nr s p = .ok (t, GoMap.put s.2 p deps) ∧ deps.Nodup ∧
      ∀ q, q ∈ deps ↔ Relation.TransGen (Needs nx nr) p q := by
  obtain ⟨dl, hdl⟩ := available_iff.1 hav
  obtain ⟨⟨t, g⟩, _, hg, _⟩ := appendToGraph_graphFuel (cfgs := defaultCfgs nr) (ρ := ρ) hk (s.1, []) dl.package
  have hok : GraphOk nx (withNoRecommended (defaultCfgs nr) nr) ([] ++ [p]) g :=
    appendToGraph_graphOk hk hρ hdl (graphOk_nil _ _) hg
  have hs := hok.spec (uniform_defaultCfgs nr) hR
  have hmem : ∀ k, k ∈ GoMap.keys g ↔ k = p ∨ Relation.TransGen (Needs nx nr) p k := fun k => by
    rw [hs.mem]; exact inPlan_single (not_sugOn_defaultCfgs nr)
  have hres : ∃ L, resolveLayers ρ t g nr = some L := by
    cases hl : resolveLayers ρ t g nr with
    | some L => exact ⟨L, rfl⟩
    | none =>
      exfalso
      rcases (resolveLayers_none_iff hρ hs.wf).1 hl with ⟨a, ha⟩ | ⟨a, b, he, hb⟩
      · have hak : a ∈ GoMap.keys g := by
          obtain ⟨c, hc, _⟩ := Relation.TransGen.head'_iff.1 ha
          obtain ⟨r, hr, _⟩ := hc; exact GoMap.mem_keys_of_get? hr
        exact hnc a ((hmem a).1 hak) ((hs.transGen hak).1 ha)
      · exact hb (hs.closed a b he)
  obtain ⟨L, hL⟩ := hres
  have hlok := resolveLayers_ok hρ hs.wf hL
  have hnd : L.flatten.Nodup := hlok.perm.nodup_iff.2 hs.wf
  have hpk : p ∈ GoMap.keys g := (hmem p).2 (Or.inl rfl)
  obtain ⟨j, hj⟩ := mem_flatten_iff_inLayer.1 (hlok.perm.mem_iff.2 hpk)
  have hbelow : ∀ q i, q ≠ p → InLayer L i q → i < j := by
    intro q i hq hi
    have hqk : q ∈ GoMap.keys g := hlok.perm.mem_iff.1 (mem_flatten_iff_inLayer.2 ⟨i, hi⟩)
    have hpq := ((hmem q).1 hqk).resolve_left hq
    have htg := (hs.transGen hpk).2 hpq
    have : ∀ b, Relation.TransGen (Edge g nr) p b → ∃ i < j, InLayer L i b := by
      intro b hb
      induction hb with
      | single h => exact hlok.before _ _ h j hj
      | tail _ h ih =>
        obtain ⟨i, hi, hi'⟩ := ih
        obtain ⟨i2, h2, h3⟩ := hlok.before _ _ h i hi'
        exact ⟨i2, by omega, h3⟩
    obtain ⟨i', hi', hi''⟩ := this q htg
    rw [inLayer_unique hnd hi hi'']; exact hi'
  have hj1 : 0 < j := by
    obtain ⟨b, hb⟩ := hdep
    obtain ⟨i, hi, _⟩ := hlok.before _ _ ((hs.edge p b hpk).2 hb) j hj
    omega
  have hlen : L.length = j + 1 := by
    obtain ⟨l, hl, _⟩ := hj
    have h1 : j < L.length := (List.getElem?_eq_some_iff.1 hl).1
    by_contra hne
    have h2 : j + 1 < L.length := by omega
    obtain ⟨q, hq⟩ := List.exists_mem_of_ne_nil _ (hlok.nonempty L[j + 1] (List.getElem_mem _))
    have hin : InLayer L (j + 1) q := ⟨L[j + 1], List.getElem?_eq_getElem h2, hq⟩
    by_cases hqp : q = p
    · subst hqp
      have := inLayer_unique hnd hin ⟨l, hl, by assumption⟩
      omega
    · have := hbelow q _ hqp hin; omega
  cases L with
  | nil => simp at hlen
  | cons l0 L =>
    have hlater : laterLayers p L = L.flatten.filter (fun q => q ≠ p) := by
      refine laterLayers_eq p L fun l hl hpl => ?_
      obtain ⟨i, hi⟩ := List.mem_iff_getElem?.1 hl
      rw [List.getElem?_dropLast] at hi
      split at hi
      · next hlt =>
        have hin : InLayer (l0 :: L) (i + 1) p := inLayer_cons_succ.2 ⟨l, hi, hpl⟩
        have := inLayer_unique hnd hin hj
        simp at hlen; omega
      · simp at hi
    have hp0 : p ∉ l0 := fun h => by
      have := inLayer_unique hnd (inLayer_cons_zero.2 h) hj; omega
    have heq : l0 ++ laterLayers p L = (l0 :: L).flatten.filter (fun q => q ≠ p) := by
      rw [hlater, List.flatten_cons, List.filter_append]
      congr 1
      rw [List.filter_eq_self.2]
      intro a ha; simp; rintro rfl; exact hp0 ha
    refine ⟨t + (l0 :: L).length, l0 ++ laterLayers p L, ?_, ?_, ?_⟩
    · unfold depDbStep
      rw [hdl]
      dsimp only [Option.getD_some]
      rw [hg]
      dsimp only
      rw [hL]
      rfl
    · rw [heq]; exact hnd.filter _
    · intro q
      rw [heq, List.mem_filter, hlok.perm.mem_iff, hmem]
      constructor
      · rintro ⟨h | h, h2⟩
        · simp [h] at h2
        · exact h
      · intro h
        refine ⟨Or.inr h, ?_⟩
        simp; rintro rfl; exact hnc q (Or.inl rfl) h

theorem depDb_fold_ok {nx : Nexus} {ρ : Order} {nr : Bool} (hk : Keyed nx) (hρ : ρ.Fair)
    (hR : ¬ Available nx (s%"R")) (ps : List Str) :
    ∀ s : Nat × GoMap (List Str), GoMap.WF s.2 →
      (∀ p ∈ ps, Available nx p ∧ (∃ b, Needs nx nr p b) ∧
        ∀ a, a = p ∨ Relation.TransGen (Needs nx nr) p a → ¬ Relation.TransGen (Needs nx nr) a a) →
      ∃ t m, ps.foldlM (depDbStep nx ρ nr) s = .ok (t, m) ∧ GoMap.WF m ∧
        (∀ k, k ∈ GoMap.keys m ↔ k ∈ GoMap.keys s.2 ∨ k ∈ ps) ∧
        ∀ k deps, GoMap.get? m k = some deps →
          (k ∉ ps ∧ GoMap.get? s.2 k = some deps) ∨
          (deps.Nodup ∧ ∀ q, q ∈ deps ↔ Relation.TransGen (Needs nx nr) k q) := by
  induction ps with
  | nil => intro s hw _; exact ⟨s.1, s.2, rfl, hw, by simp, fun k deps h => Or.inl ⟨by simp, h⟩⟩
  | cons p ps ih =>
    intro s hw h
    obtain ⟨h1, h2, h3⟩ := h p (by simp)
    obtain ⟨t, deps, hstep, hnd, hm⟩ := depDbStep_ok hk hρ hR s h1 h3 h2
    obtain ⟨t', m, hf, hwf, hkeys, hget⟩ := ih (t, GoMap.put s.2 p deps) (GoMap.wf_put hw _ _)
      (fun q hq => h q (by simp [hq]))
    refine ⟨t', m, ?_, hwf, ?_, ?_⟩
    · rw [List.foldlM_cons, hstep]; exact hf
    · intro k; rw [hkeys, GoMap.mem_keys_put, List.mem_cons]
      constructor
      · rintro ((h | h) | h) <;> simp [h]
      · rintro (h | h | h) <;> simp [h]
    · intro k d hd
      rcases hget k d hd with ⟨ha, hb⟩ | hb
      · rw [GoMap.get?_put] at hb
        by_cases hkp : p = k
        · subst hkp; simp at hb; subst hb; exact Or.inr ⟨hnd, hm⟩
        · have hkp' : k ≠ p := fun e => hkp e.symm
          simp only [hkp', if_false] at hb
          exact Or.inl ⟨by simp [hkp', ha], hb⟩
      · exact Or.inr hb

/-- A correct install plan. -/
structure PlanOk (nx : Nexus) (nr : Bool) (sug : Str → Prop) (pkgs : List Str) (ip : InstallPlan) : Prop where
  nodup : (ip.starting ++ GoMap.keys ip.depDb).Nodup
  mem : ∀ p, p ∈ ip.starting ++ GoMap.keys ip.depDb ↔ InPlan nx nr sug pkgs p
  avail : ∀ p, InPlan nx nr sug pkgs p → Available nx p
  start : ∀ p, p ∈ ip.starting ↔ InPlan nx nr sug pkgs p ∧ ∀ b, ¬ Needs nx nr p b
  deps : ∀ p ds, GoMap.get? ip.depDb p = some ds →
    ds.Nodup ∧ ∀ q, q ∈ ds ↔ Relation.TransGen (Needs nx nr) p q
  acyclic : ∀ p, InPlan nx nr sug pkgs p → ¬ Relation.TransGen (Needs nx nr) p p
  downloads : ∃ l : List Str, l.Perm (ip.starting ++ GoMap.keys ip.depDb) ∧
    ip.downloads = l.map fun p => (getPackage nx p).getD {}

theorem resolve_cases {nx : Nexus} {ρ : Order} {cfgs : InstallDeps} {nr : Bool} (hk : Keyed nx) (hρ : ρ.Fair)
    (hu : Uniform cfgs nr) (hR : ¬ Available nx (s%"R")) {pkgs : List Str} (hne : pkgs ≠ [])
    (hav : ∀ p ∈ pkgs, Available nx p) (installed : GoMap Desc) (update libEx : Bool) :
    (resolveInstallationReqs pkgs installed cfgs nx update libEx nr ρ = .error .circular ∧
      ∃ p, InPlan nx nr (SugOn cfgs) pkgs p ∧ Relation.TransGen (Needs nx nr) p p) ∨
    ((∀ p, InPlan nx nr (SugOn cfgs) pkgs p → ¬ Relation.TransGen (Needs nx nr) p p) ∧
      ∃ t, (getOutdatedPackages installed (getPackages nx (ρ t (GoMap.keys installed))).packages = none ∧
        resolveInstallationReqs pkgs installed cfgs nx update libEx nr ρ = .error .versionPanic) ∨
      ∃ outd ip, getOutdatedPackages installed (getPackages nx (ρ t (GoMap.keys installed))).packages = some outd ∧
        resolveInstallationReqs pkgs installed cfgs nx update libEx nr ρ = .ok ip ∧
        PlanOk nx nr (SugOn cfgs) pkgs ip ∧ ip.outdated = outd ∧ ip.installed = installed ∧
        ip.update = update ∧ ip.createLibrary = !libEx ∧ ip.additional = []) := by
  obtain ⟨⟨t, g⟩, hg⟩ := buildGraph_total (cfgs := withNoRecommended cfgs nr) (ρ := ρ) hk pkgs (0, [])
  have hok := buildGraph_graphOk hk hρ pkgs [] _ _ (graphOk_nil _ _) hav hg
  rw [List.nil_append] at hok
  have hs := hok.spec hu hR
  unfold resolveInstallationReqs buildGraph
  rw [hg]
  dsimp only
  cases hL : resolveLayers ρ t g nr with
  | none =>
    left
    refine ⟨rfl, ?_⟩
    rcases (resolveLayers_none_iff hρ hs.wf).1 hL with ⟨a, ha⟩ | ⟨a, b, he, hb⟩
    · have hak : a ∈ GoMap.keys g := by
        obtain ⟨c, hc, _⟩ := Relation.TransGen.head'_iff.1 ha
        obtain ⟨r, hr, _⟩ := hc; exact GoMap.mem_keys_of_get? hr
      exact ⟨a, (hs.mem a).1 hak, (hs.transGen hak).1 ha⟩
    · exact absurd (hs.closed a b he) hb
  | some L =>
    right
    have hlok := resolveLayers_ok hρ hs.wf hL
    have hnd : L.flatten.Nodup := hlok.perm.nodup_iff.2 hs.wf
    have hacyc : ∀ p, InPlan nx nr (SugOn cfgs) pkgs p → ¬ Relation.TransGen (Needs nx nr) p p := by
      intro p hp hc
      have hpk := (hs.mem p).2 hp
      have := (resolveLayers_none_iff (t := t) hρ hs.wf).2 (Or.inl ⟨p, (hs.transGen hpk).2 hc⟩)
      rw [hL] at this; simp at this
    refine ⟨hacyc, ?_⟩
    have hLne : L ≠ [] := by
      rintro rfl
      obtain ⟨p, hp⟩ := List.exists_mem_of_ne_nil _ hne
      have := hlok.perm.mem_iff.2 ((hs.mem p).2 (.requested hp))
      simp at this
    cases L with
    | nil => exact absurd rfl hLne
    | cons l0 L =>
      have hps : ∀ p ∈ ((l0 :: L).drop 1).flatten, Available nx p ∧ (∃ b, Needs nx nr p b) ∧
          ∀ a, a = p ∨ Relation.TransGen (Needs nx nr) p a → ¬ Relation.TransGen (Needs nx nr) a a := by
        intro p hp
        rw [List.drop_succ_cons, List.drop_zero] at hp
        obtain ⟨i, hi⟩ := mem_flatten_iff_inLayer.1 hp
        have hpk : p ∈ GoMap.keys g := hlok.perm.mem_iff.1 (by rw [List.flatten_cons]; exact List.mem_append_right _ hp)
        obtain ⟨b, hb, _⟩ := hlok.tight i p (inLayer_cons_succ.2 hi)
        refine ⟨hs.avail p hpk, ⟨b, (hs.edge p b hpk).1 hb⟩, fun a ha => hacyc a ?_⟩
        rcases ha with rfl | ha
        · exact (hs.mem _).1 hpk
        · have := (hs.mem _).1 hpk
          clear hp hi hb
          induction ha with
          | single h => exact .needed this h
          | tail _ h ih => exact .needed ih h
      obtain ⟨t', m, hf, hwf, hkeys, hget⟩ := depDb_fold_ok (nr := nr) hk hρ hR _ (t + (l0 :: L).length, [])
        GoMap.wf_nil hps
      dsimp only
      rw [hf]
      dsimp only
      refine ⟨t', ?_⟩
      cases ho : getOutdatedPackages installed (getPackages nx (ρ t' (GoMap.keys installed))).packages with
      | none => left; exact ⟨rfl, rfl⟩
      | some outd =>
        right
        have hkm : ∀ k, k ∈ GoMap.keys m ↔ k ∈ L.flatten := by
          intro k; rw [hkeys]; simp
        have hmperm : (GoMap.keys m).Perm L.flatten := by
          rw [List.perm_ext_iff_of_nodup hwf (by rw [List.flatten_cons, List.nodup_append] at hnd; exact hnd.2.1)]
          exact hkm
        have hall : (l0 ++ GoMap.keys m).Perm (GoMap.keys g) :=
          (List.Perm.append_left l0 hmperm).trans (by simpa using hlok.perm)
        refine ⟨outd, _, rfl, rfl, ?_, rfl, rfl, rfl, rfl, rfl⟩
        refine ⟨hall.nodup_iff.2 hs.wf, fun p => by rw [hall.mem_iff, hs.mem], fun p hp => ?_, fun p => ?_, ?_, hacyc, ?_⟩
        · exact hs.avail p ((hs.mem p).2 hp)
        · constructor
          · intro hp
            dsimp only at hp
            have hpk : p ∈ GoMap.keys g := hall.mem_iff.1 (List.mem_append_left _ hp)
            refine ⟨(hs.mem p).1 hpk, fun b hb => ?_⟩
            obtain ⟨i, hi, _⟩ := hlok.before p b ((hs.edge p b hpk).2 hb) 0 (inLayer_cons_zero.2 hp)
            omega
          · rintro ⟨hp, hn⟩
            have hpk := (hs.mem p).2 hp
            obtain ⟨j, hj⟩ := mem_flatten_iff_inLayer.1 (hlok.perm.mem_iff.2 hpk)
            cases j with
            | zero => exact inLayer_cons_zero.1 hj
            | succ j =>
              obtain ⟨b, hb, _⟩ := hlok.tight j p hj
              exact absurd ((hs.edge p b hpk).1 hb) (hn b)
        · intro p ds hd
          rcases hget p ds hd with ⟨_, hb⟩ | hb
          · simp at hb
          · exact hb
        · exact ⟨l0 ++ ρ (t' + 1) (GoMap.keys m), List.Perm.append_left l0 (hρ _ _), rfl⟩

end Pkgr
