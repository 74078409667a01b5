/- Proofs about layering (`resolveLayers`). -/
import Verif.Proof.Graph
import Mathlib.Order.WellFounded
import Mathlib.Data.Fintype.Basic
import Mathlib.Data.Fintype.EquivFin
import Mathlib.Order.RelIso.Basic

namespace Pkgr
open Spec

theorem mem_readyNodes {nd : Graph} (hwf : GoMap.WF nd) (a : Str) :
    a ∈ readyNodes nd ↔ GoMap.get? nd a = some [] := by
  unfold readyNodes
  simp only [List.mem_map, List.mem_filter, List.isEmpty_iff]
  constructor
  · rintro ⟨⟨k, v⟩, ⟨h1, h2⟩, rfl⟩
    dsimp only at h2; subst h2
    exact GoMap.get?_of_mem hwf h1
  · intro h; exact ⟨(a, []), ⟨GoMap.mem_of_get? h, rfl⟩, rfl⟩

theorem readyNodes_nodup {nd : Graph} (hwf : GoMap.WF nd) : (readyNodes nd).Nodup :=
  hwf.sublist (List.filter_sublist.map Prod.fst)

theorem get?_removeReady (nd : Graph) (R : List Str) (k : Str) :
    GoMap.get? (removeReady nd R) k =
      if k ∈ R then none else (GoMap.get? nd k).map (fun l => l.filter (fun d => !R.contains d)) := by
  unfold removeReady
  induction nd with
  | nil => simp
  | cons e nd ih =>
    obtain ⟨k', v⟩ := e
    by_cases hk : k' = k
    · subst hk
      by_cases hR : k' ∈ R
      · simp only [hR, if_true] at ih ⊢
        rw [List.filter_cons, if_neg (by simp [hR])]; exact ih
      · simp [hR, GoMap.get?_cons]
    · rw [List.filter_cons]
      split
      · rw [List.map_cons, GoMap.get?_cons, GoMap.get?_cons]; simp only [if_neg hk]; exact ih
      · rw [GoMap.get?_cons, if_neg hk]; exact ih

theorem mem_keys_removeReady (nd : Graph) (R : List Str) (k : Str) :
    k ∈ GoMap.keys (removeReady nd R) ↔ k ∈ GoMap.keys nd ∧ k ∉ R := by
  rw [← GoMap.get?_isSome_iff, get?_removeReady, ← GoMap.get?_isSome_iff]
  by_cases hR : k ∈ R <;> simp [hR]

theorem keys_removeReady (nd : Graph) (R : List Str) :
    GoMap.keys (removeReady nd R) = (GoMap.keys nd).filter (fun k => !R.contains k) := by
  unfold removeReady GoMap.keys
  rw [List.map_map, List.filter_map]
  rfl

theorem wf_removeReady {nd : Graph} (hwf : GoMap.WF nd) (R : List Str) : GoMap.WF (removeReady nd R) := by
  unfold GoMap.WF; rw [keys_removeReady]; exact hwf.filter _

theorem removeReady_length {nd : Graph} (h : (readyNodes nd) ≠ []) :
    (removeReady nd (readyNodes nd)).length < nd.length := by
  unfold removeReady
  rw [List.length_map]
  obtain ⟨a, ha⟩ := List.exists_mem_of_ne_nil _ h
  have : ∃ e ∈ nd, e.1 = a := by
    unfold readyNodes at ha
    obtain ⟨e, he, rfl⟩ := List.mem_map.1 ha
    exact ⟨e, (List.mem_filter.1 he).1, rfl⟩
  obtain ⟨e, he, rfl⟩ := this
  refine List.length_filter_lt_length_iff_exists.2 ⟨e, he, ?_⟩
  simpa using ha

theorem keys_perm_split {nd : Graph} (hwf : GoMap.WF nd) :
    (readyNodes nd ++ GoMap.keys (removeReady nd (readyNodes nd))).Perm (GoMap.keys nd) := by
  rw [List.perm_ext_iff_of_nodup]
  · intro k
    rw [List.mem_append, mem_keys_removeReady]
    constructor
    · rintro (h | h)
      · exact GoMap.mem_keys_of_get? ((mem_readyNodes hwf k).1 h)
      · exact h.1
    · intro h; by_cases hr : k ∈ readyNodes nd
      · exact Or.inl hr
      · exact Or.inr ⟨h, hr⟩
  · rw [List.nodup_append]
    refine ⟨readyNodes_nodup hwf, wf_removeReady hwf _, ?_⟩
    intro a ha b hb e
    subst e
    exact ((mem_keys_removeReady _ _ _).1 hb).2 ha
  · exact hwf

theorem inLayer_cons_zero {l : List Str} {L : List (List Str)} {a : Str} : InLayer (l :: L) 0 a ↔ a ∈ l := by
  simp [InLayer]

theorem inLayer_cons_succ {l : List Str} {L : List (List Str)} {a : Str} {i : Nat} :
    InLayer (l :: L) (i + 1) a ↔ InLayer L i a := by
  simp [InLayer]

theorem mem_flatten_iff_inLayer {L : List (List Str)} {a : Str} : a ∈ L.flatten ↔ ∃ i, InLayer L i a := by
  rw [List.mem_flatten]
  constructor
  · rintro ⟨l, hl, ha⟩
    obtain ⟨i, hi⟩ := List.mem_iff_getElem?.1 hl
    exact ⟨i, l, hi, ha⟩
  · rintro ⟨i, l, hi, ha⟩
    exact ⟨l, List.mem_of_getElem? hi, ha⟩

theorem inLayer_unique {L : List (List Str)} (h : L.flatten.Nodup) {i j : Nat} {a : Str}
    (hi : InLayer L i a) (hj : InLayer L j a) : i = j := by
  induction L generalizing i j with
  | nil => obtain ⟨l, hl, _⟩ := hi; simp at hl
  | cons l L ih =>
    rw [List.flatten_cons, List.nodup_append] at h
    cases i <;> cases j
    · rfl
    · exact absurd rfl (h.2.2 a (inLayer_cons_zero.1 hi) a (mem_flatten_iff_inLayer.2 ⟨_, inLayer_cons_succ.1 hj⟩))
    · exact absurd rfl (h.2.2 a (inLayer_cons_zero.1 hj) a (mem_flatten_iff_inLayer.2 ⟨_, inLayer_cons_succ.1 hi⟩))
    · rw [ih h.2.1 (inLayer_cons_succ.1 hi) (inLayer_cons_succ.1 hj)]

/-- What the loop returns when it succeeds. -/
structure LayersOk (nd : Graph) (L : List (List Str)) : Prop where
  perm : L.flatten.Perm (GoMap.keys nd)
  before : ∀ a reqs, GoMap.get? nd a = some reqs → ∀ b ∈ reqs, ∀ j, InLayer L j a → ∃ i < j, InLayer L i b
  tight : ∀ j a, InLayer L (j + 1) a → ∃ reqs, GoMap.get? nd a = some reqs ∧ ∃ b ∈ reqs, InLayer L j b
  nonempty : ∀ l ∈ L, l ≠ []

theorem layerLoop_ok {ρ : Order} (hρ : ρ.Fair) (fuel : Nat) :
    ∀ (t : Nat) (nd : Graph) (L : List (List Str)), GoMap.WF nd → layerLoop ρ fuel t nd = some L →
      LayersOk nd L := by
  have nil : LayersOk [] [] :=
    ⟨by simp, by simp, fun j a ⟨l, hl, _⟩ => by simp at hl, by simp⟩
  induction fuel with
  | zero =>
    intro t nd L _ h
    unfold layerLoop at h
    split at h
    · next hn => rw [List.isEmpty_iff] at hn; subst hn; cases h; exact nil
    · simp at h
  | succ fuel ih =>
    intro t nd L hwf h
    unfold layerLoop at h
    split at h
    · next hn => rw [List.isEmpty_iff] at hn; subst hn; cases h; exact nil
    · split at h
      · simp at h
      · next hr =>
        obtain ⟨L', hL', rfl⟩ := Option.map_eq_some_iff.1 h
        have hwf' := wf_removeReady hwf (readyNodes nd)
        obtain ⟨hp, hb, ht, hne⟩ := ih _ _ _ hwf' hL'
        have hperm : (ρ t (readyNodes nd)).Perm (readyNodes nd) := hρ _ _
        refine ⟨?_, ?_, ?_, ?_⟩
        · rw [List.flatten_cons]
          exact ((hperm.append hp)).trans (keys_perm_split hwf)
        · intro a reqs ha b hbm j hj
          have har : a ∉ readyNodes nd := fun hh => by
            rw [mem_readyNodes hwf, ha] at hh; cases hh; simp at hbm
          cases j with
          | zero => exact absurd (hperm.mem_iff.1 (inLayer_cons_zero.1 hj)) har
          | succ j =>
            by_cases hbR : b ∈ readyNodes nd
            · exact ⟨0, by omega, inLayer_cons_zero.2 (hperm.mem_iff.2 hbR)⟩
            · have hg : GoMap.get? (removeReady nd (readyNodes nd)) a =
                  some (reqs.filter (fun d => !(readyNodes nd).contains d)) := by
                rw [get?_removeReady, if_neg har, ha]; rfl
              obtain ⟨i, hi, hi'⟩ := hb a _ hg b (by simp [hbm, hbR]) j (inLayer_cons_succ.1 hj)
              exact ⟨i + 1, by omega, inLayer_cons_succ.2 hi'⟩
        · intro j a hj
          have hj := inLayer_cons_succ.1 hj
          have hmem : a ∈ GoMap.keys (removeReady nd (readyNodes nd)) :=
            hp.mem_iff.1 (mem_flatten_iff_inLayer.2 ⟨_, hj⟩)
          rw [mem_keys_removeReady] at hmem
          obtain ⟨reqs, hreqs⟩ := GoMap.exists_get?_of_mem hmem.1
          have hg : GoMap.get? (removeReady nd (readyNodes nd)) a =
              some (reqs.filter (fun d => !(readyNodes nd).contains d)) := by
            rw [get?_removeReady, if_neg hmem.2, hreqs]; rfl
          cases j with
          | succ j =>
            obtain ⟨r, hr', b, hb', hb2⟩ := ht j a hj
            rw [hg] at hr'; cases hr'
            exact ⟨reqs, hreqs, b, (List.mem_filter.1 hb').1, inLayer_cons_succ.2 hb2⟩
          | zero =>
            refine ⟨reqs, hreqs, ?_⟩
            have hne' : reqs ≠ [] := by
              rintro rfl; exact hmem.2 ((mem_readyNodes hwf a).2 hreqs)
            by_cases hall : ∃ b ∈ reqs, b ∈ readyNodes nd
            · obtain ⟨b, hb1, hb2⟩ := hall
              exact ⟨b, hb1, inLayer_cons_zero.2 (hperm.mem_iff.2 hb2)⟩
            · exfalso
              obtain ⟨b, hb1⟩ := List.exists_mem_of_ne_nil _ hne'
              have hbR : b ∉ readyNodes nd := fun h => hall ⟨b, hb1, h⟩
              obtain ⟨i, hi, _⟩ := hb a _ hg b (by simp [hb1, hbR]) 0 hj
              omega
        · intro l hl
          rcases List.mem_cons.1 hl with rfl | hl
          · intro h0
            rw [h0] at hperm
            rw [hperm.symm.eq_nil] at hr
            simp at hr
          · exact hne l hl

/-- When the loop fails there is a set of nodes each of which needs a node of the set, or a name that is
not a node. -/
theorem layerLoop_stuck {ρ : Order} (fuel : Nat) :
    ∀ (t : Nat) (nd : Graph), GoMap.WF nd → nd.length ≤ fuel → layerLoop ρ fuel t nd = none →
      ∃ S : Str → Prop, (∃ a, S a) ∧ ∀ a, S a → ∃ reqs, GoMap.get? nd a = some reqs ∧
        ∃ b ∈ reqs, S b ∨ b ∉ GoMap.keys nd := by
  induction fuel with
  | zero =>
    intro t nd _ hl h
    have : nd = [] := List.length_eq_zero_iff.1 (by omega)
    subst this; simp [layerLoop] at h
  | succ fuel ih =>
    intro t nd hwf hl h
    unfold layerLoop at h
    split at h
    · simp at h
    · next hne =>
      split at h
      · next hr =>
        rw [List.isEmpty_iff] at hr
        refine ⟨fun a => a ∈ GoMap.keys nd, ?_, fun a ha => ?_⟩
        · rw [List.isEmpty_iff] at hne
          obtain ⟨e, he⟩ := List.exists_mem_of_ne_nil _ hne
          exact ⟨e.1, List.mem_map_of_mem he⟩
        · obtain ⟨reqs, hreqs⟩ := GoMap.exists_get?_of_mem ha
          refine ⟨reqs, hreqs, ?_⟩
          have : reqs ≠ [] := by
            rintro rfl
            have := (mem_readyNodes hwf a).2 hreqs
            rw [hr] at this; simp at this
          obtain ⟨b, hb⟩ := List.exists_mem_of_ne_nil _ this
          exact ⟨b, hb, Classical.em _⟩
      · next hr =>
        rw [Option.map_eq_none_iff] at h
        rw [List.isEmpty_iff] at hr
        have hlt := removeReady_length hr
        obtain ⟨S, hS, hS'⟩ := ih _ _ (wf_removeReady hwf _) (by omega) h
        refine ⟨S, hS, fun a ha => ?_⟩
        obtain ⟨r, hr1, b, hb, hb'⟩ := hS' a ha
        rw [get?_removeReady] at hr1
        split at hr1
        · simp at hr1
        · obtain ⟨reqs, hreqs, rfl⟩ := Option.map_eq_some_iff.1 hr1
          rw [List.mem_filter] at hb
          refine ⟨reqs, hreqs, b, hb.1, hb'.imp id fun hn hk => hn ?_⟩
          rw [mem_keys_removeReady]
          exact ⟨hk, by simpa using hb.2⟩

/-- A nonempty finite set every element of which has a successor in the set contains a cycle. -/
theorem exists_cycle {r : Str → Str → Prop} (l : List Str) (S : Str → Prop) (hS : ∃ a, S a)
    (hl : ∀ a, S a → a ∈ l) (hs : ∀ a, S a → ∃ b, S b ∧ r a b) : ∃ a, Relation.TransGen r a a := by
  by_contra hcon
  have hcon : ∀ a, ¬ Relation.TransGen r a a := fun a h => hcon ⟨a, h⟩
  let T := {x : Str // x ∈ l}
  have hfin : Finite T := inferInstance
  let R : T → T → Prop := fun x y => Relation.TransGen r y.1 x.1
  have htr : IsTrans T R := ⟨fun a b c h1 h2 => Relation.TransGen.trans h2 h1⟩
  have hir : Std.Irrefl R := ⟨fun a h => hcon _ h⟩
  have hwf : WellFounded R := Finite.wellFounded_of_trans_of_irrefl R
  obtain ⟨a, ha⟩ := hS
  obtain ⟨m, hm, hmin⟩ := hwf.has_min (fun x : T => S x.1) ⟨⟨a, hl a ha⟩, ha⟩
  obtain ⟨b, hb, hr⟩ := hs m.1 hm
  exact hmin ⟨b, hl b hb⟩ hb (Relation.TransGen.single hr)

/-! ### The working copy -/

theorem keys_nodeDependencies (g : Graph) (nr : Bool) : GoMap.keys (nodeDependencies g nr) = GoMap.keys g := by
  unfold nodeDependencies GoMap.keys; rw [List.map_map]; rfl

theorem get?_nodeDependencies (g : Graph) (nr : Bool) (k : Str) :
    GoMap.get? (nodeDependencies g nr) k =
      (GoMap.get? g k).map (fun l => l.filter (fun d => !isExcluded d nr)) := by
  unfold nodeDependencies
  induction g with
  | nil => rfl
  | cons e g ih =>
    rw [List.map_cons, GoMap.get?_cons, GoMap.get?_cons]
    split
    · rfl
    · exact ih

theorem edge_iff (g : Graph) (nr : Bool) (a b : Str) :
    Edge g nr a b ↔ ∃ reqs, GoMap.get? (nodeDependencies g nr) a = some reqs ∧ b ∈ reqs := by
  unfold Edge
  rw [get?_nodeDependencies]
  constructor
  · rintro ⟨reqs, h1, h2, h3⟩
    refine ⟨_, by rw [h1]; rfl, ?_⟩
    rw [List.mem_filter]; refine ⟨h2, ?_⟩
    rw [← isExcluded_iff] at h3; simpa using h3
  · rintro ⟨r, h1, h2⟩
    obtain ⟨reqs, hr, rfl⟩ := Option.map_eq_some_iff.1 h1
    rw [List.mem_filter] at h2
    refine ⟨reqs, hr, h2.1, ?_⟩
    rw [← isExcluded_iff]; simpa using h2.2

/-- What `ResolveLayers` returns when it succeeds, in terms of the graph. -/
structure ResolvedOk (g : Graph) (nr : Bool) (L : List (List Str)) : Prop where
  perm : L.flatten.Perm (GoMap.keys g)
  before : ∀ a b, Edge g nr a b → ∀ j, InLayer L j a → ∃ i < j, InLayer L i b
  tight : ∀ j a, InLayer L (j + 1) a → ∃ b, Edge g nr a b ∧ InLayer L j b
  nonempty : ∀ l ∈ L, l ≠ []

theorem resolveLayers_ok {ρ : Order} (hρ : ρ.Fair) {t : Nat} {g : Graph} {nr : Bool} {L : List (List Str)}
    (hwf : GoMap.WF g) (h : resolveLayers ρ t g nr = some L) : ResolvedOk g nr L := by
  have hwf' : GoMap.WF (nodeDependencies g nr) := by unfold GoMap.WF; rw [keys_nodeDependencies]; exact hwf
  obtain ⟨h1, h2, h3, h4⟩ := layerLoop_ok hρ _ _ _ _ hwf' h
  refine ⟨by rwa [keys_nodeDependencies] at h1, ?_, ?_, h4⟩
  · intro a b he
    obtain ⟨reqs, hr, hb⟩ := (edge_iff _ _ _ _).1 he
    exact h2 a reqs hr b hb
  · intro j a hj
    obtain ⟨reqs, hr, b, hb, hb'⟩ := h3 j a hj
    exact ⟨b, (edge_iff _ _ _ _).2 ⟨reqs, hr, hb⟩, hb'⟩

theorem resolveLayers_none_iff {ρ : Order} (hρ : ρ.Fair) {t : Nat} {g : Graph} {nr : Bool}
    (hwf : GoMap.WF g) :
    resolveLayers ρ t g nr = none ↔
      (∃ a, Relation.TransGen (Edge g nr) a a) ∨ (∃ a b, Edge g nr a b ∧ b ∉ GoMap.keys g) := by
  have hwf' : GoMap.WF (nodeDependencies g nr) := by unfold GoMap.WF; rw [keys_nodeDependencies]; exact hwf
  constructor
  · intro h
    obtain ⟨S, hS, hS'⟩ := layerLoop_stuck _ _ _ hwf' (by simp [nodeDependencies]) h
    by_cases hd : ∃ a b, Edge g nr a b ∧ b ∉ GoMap.keys g
    · exact Or.inr hd
    · left
      refine exists_cycle (GoMap.keys g) S hS (fun a ha => ?_) (fun a ha => ?_)
      · obtain ⟨reqs, hr, _⟩ := hS' a ha
        have := GoMap.mem_keys_of_get? hr
        rwa [keys_nodeDependencies] at this
      · obtain ⟨reqs, hr, b, hb, hb'⟩ := hS' a ha
        have he : Edge g nr a b := (edge_iff _ _ _ _).2 ⟨reqs, hr, hb⟩
        refine ⟨b, hb'.resolve_right fun hn => hd ⟨a, b, he, ?_⟩, he⟩
        rwa [keys_nodeDependencies] at hn
  · intro h
    cases hres : resolveLayers ρ t g nr with
    | none => rfl
    | some L =>
      exfalso
      obtain ⟨hp, hb, _, _⟩ := resolveLayers_ok hρ hwf hres
      have hnd : L.flatten.Nodup := hp.nodup_iff.2 hwf
      have hedge : ∀ a b, Edge g nr a b → ∃ j, InLayer L j a := by
        rintro a b ⟨reqs, hr, _⟩
        exact mem_flatten_iff_inLayer.1 (hp.mem_iff.2 (GoMap.mem_keys_of_get? hr))
      rcases h with ⟨a, ha⟩ | ⟨a, b, he, hn⟩
      · have : ∀ a b, Relation.TransGen (Edge g nr) a b → ∀ j, InLayer L j a → ∃ i < j, InLayer L i b := by
          intro a b hab
          induction hab with
          | single h => exact hb _ _ h
          | tail _ h ih =>
            intro j hj
            obtain ⟨i, hi, hi'⟩ := ih j hj
            obtain ⟨i2, hi2, hi2'⟩ := hb _ _ h i hi'
            exact ⟨i2, by omega, hi2'⟩
        have hex : ∃ j, InLayer L j a := by
          cases ha with
          | single h => exact hedge _ _ h
          | tail h1 h2 =>
            obtain ⟨c, hc, _⟩ := Relation.TransGen.head'_iff.1 h1
            exact hedge _ _ hc
        obtain ⟨j, hj⟩ := hex
        obtain ⟨i, hi, hi'⟩ := this a a ha j hj
        have := inLayer_unique hnd hi' hj
        omega
      · obtain ⟨j, hj⟩ := hedge _ _ he
        obtain ⟨i, _, hi⟩ := hb a b he j hj
        exact hn (hp.mem_iff.1 (mem_flatten_iff_inLayer.2 ⟨i, hi⟩))

/-- The layers are determined by the graph as a set: two successful results for the same graph have the
same layers as sets. -/
theorem ResolvedOk.unique {g g' : Graph} {nr : Bool} {L L' : List (List Str)} (hg : SameGraph g g')
    (hwf : GoMap.WF g) (hwf' : GoMap.WF g')
    (h : ResolvedOk g nr L) (h' : ResolvedOk g' nr L') : ∀ i a, InLayer L i a ↔ InLayer L' i a := by
  have hedge : ∀ a b, Edge g nr a b ↔ Edge g' nr a b := by
    intro a b
    constructor
    · rintro ⟨r, h1, h2, h3⟩
      obtain ⟨r', hr'⟩ := GoMap.exists_get?_of_mem ((hg.1 a).1 (GoMap.mem_keys_of_get? h1))
      exact ⟨r', hr', (hg.2 a r r' h1 hr' b).1 h2, h3⟩
    · rintro ⟨r', h1, h2, h3⟩
      obtain ⟨r, hr⟩ := GoMap.exists_get?_of_mem ((hg.1 a).2 (GoMap.mem_keys_of_get? h1))
      exact ⟨r, hr, (hg.2 a r r' hr h1 b).2 h2, h3⟩
  have key : ∀ (g g' : Graph) (L L' : List (List Str)), (∀ a b, Edge g nr a b ↔ Edge g' nr a b) →
      (∀ a, a ∈ GoMap.keys g ↔ a ∈ GoMap.keys g') → GoMap.WF g → GoMap.WF g' →
      ResolvedOk g nr L → ResolvedOk g' nr L' → ∀ i, (∀ m < i, ∀ a, InLayer L m a ↔ InLayer L' m a) →
      ∀ a, InLayer L i a → InLayer L' i a := by
    intro g g' L L' hedge hkeys hw hw' h h' i ih a ha
    have hnd : L.flatten.Nodup := h.perm.nodup_iff.2 hw
    have hnd' : L'.flatten.Nodup := h'.perm.nodup_iff.2 hw'
    have hm : a ∈ L'.flatten := h'.perm.mem_iff.2 ((hkeys a).1 (h.perm.mem_iff.1 (mem_flatten_iff_inLayer.2 ⟨i, ha⟩)))
    obtain ⟨j, hj⟩ := mem_flatten_iff_inLayer.1 hm
    rcases Nat.lt_trichotomy j i with hlt | heq | hgt
    · exact absurd (inLayer_unique hnd ((ih j hlt a).2 hj) ha) (by omega)
    · exact heq ▸ hj
    · exfalso
      cases j with
      | zero => omega
      | succ j =>
        obtain ⟨b, hb, hbj⟩ := h'.tight j a hj
        obtain ⟨m, hm, hm'⟩ := h.before a b ((hedge a b).2 hb) i ha
        have := inLayer_unique hnd' ((ih m hm b).1 hm') hbj
        omega
  intro i
  induction i using Nat.strong_induction_on with
  | _ i ih =>
    intro a
    exact ⟨key g g' L L' hedge hg.1 hwf hwf' h h' i ih a,
      key g' g L' L (fun a b => (hedge a b).symm) (fun a => (hg.1 a).symm) hwf' hwf h' h i
        (fun m hm a => (ih m hm a).symm) a⟩

end Pkgr
