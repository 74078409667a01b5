/- Proofs about graph construction (`appendToGraph`). -/
import Verif.Spec.Plan
import Verif.Proof.Nexus

namespace Pkgr
open Spec

theorem basePkgs_perm : basePackages.Perm basePkgs := by decide

theorem recommendedPkgs_perm : recommendedPackages.Perm recommendedPkgs := by decide

theorem isExcluded_iff (p : Str) (nr : Bool) : isExcluded p nr = true ↔ ShipsWithR nr p := by
  have hdis : p ∈ basePackages → p ∉ recommendedPackages := by
    intro h; simp only [basePackages, List.mem_cons, List.not_mem_nil, or_false] at h
    rcases h with h | h | h | h | h | h | h | h | h | h | h | h | h | h <;> subst h <;> decide
  unfold isExcluded defaultPackageType ShipsWithR
  rw [← basePkgs_perm.mem_iff, ← recommendedPkgs_perm.mem_iff]
  by_cases hb : p ∈ basePackages
  · simp [hb]
  · by_cases hr : p ∈ recommendedPackages <;> cases nr <;> simp [hb, hr]

theorem getPackage_keyed {nx : Nexus} (hk : Keyed nx) {p : Str} {dl : PkgDl} (h : getPackage nx p = some dl) :
    dl.package.package = p := by
  have : ∀ dbs : List RepoDb, (∀ db ∈ dbs, db ∈ nx.db) → getPackageLoop nx p dbs = some dl →
      dl.package.package = p := by
    intro dbs
    induction dbs with
    | nil => intro _ h; simp [getPackageLoop] at h
    | cons db dbs ih =>
      intro hm h
      unfold getPackageLoop at h
      dsimp only at h
      split at h
      · next d hd =>
        split at h
        · cases h; exact hk db (hm db (by simp)) _ _ _ hd
        · exact ih (fun x hx => hm x (by simp [hx])) h
      · exact ih (fun x hx => hm x (by simp [hx])) h
  exact this nx.db (fun _ h => h) h

theorem getPackage_offered {nx : Nexus} {p : Str} {dl : PkgDl} (h : getPackage nx p = some dl) :
    p ∈ offeredNames nx := by
  have : ∀ dbs : List RepoDb, getPackageLoop nx p dbs = some dl →
      p ∈ dbs.flatMap fun db => GoMap.keys db.src ++ GoMap.keys (db.bin.getD []) := by
    intro dbs
    induction dbs with
    | nil => intro h; simp [getPackageLoop] at h
    | cons db dbs ih =>
      intro h
      unfold getPackageLoop at h
      dsimp only at h
      rw [List.flatMap_cons, List.mem_append]
      split at h
      · next d hd =>
        have := GoMap.mem_keys_of_get? hd
        left
        unfold RepoDb.table at this
        split at this <;> simp_all
      · exact Or.inr (ih h)
  exact this nx.db h

theorem available_iff {nx : Nexus} {p : Str} : Available nx p ↔ ∃ dl, getPackage nx p = some dl := by
  simp only [Available, resolves_iff]

theorem mem_fieldReqs (nx : Nexus) (nr sel : Bool) (names : List Str) (b : Str) :
    b ∈ fieldReqs nx nr sel names ↔ sel = true ∧ b ∈ names ∧ Available nx b ∧ ¬ ShipsWithR nr b := by
  unfold fieldReqs
  rw [← isExcluded_iff, available_iff]
  cases sel <;> simp [Option.isSome_iff_exists]

theorem mem_reqsOf {nx : Nexus} {c : PkgDeps} {ρ : Order} (hρ : ρ.Fair) {t : Nat} {d : Desc} {b : Str} :
    b ∈ reqsOf nx c ρ t d ↔ Names c d b ∧ Available nx b ∧ ¬ ShipsWithR c.noRecommended b := by
  unfold reqsOf Names
  simp only [List.mem_append, mem_fieldReqs, (hρ _ _).mem_iff]
  constructor
  · rintro ((h | h) | h) <;> simp_all
  · rintro ⟨h | h | h, h2, h3⟩ <;> simp_all

/-! ### Termination -/

/-- Offered names not yet in the graph. -/
def unvisited (nx : Nexus) (m : Graph) : List Str := (offeredNames nx).filter (fun p => !GoMap.has m p)

theorem unvisited_mono {nx : Nexus} {m m' : Graph} (h : ∀ k, k ∈ GoMap.keys m → k ∈ GoMap.keys m') :
    (unvisited nx m').length ≤ (unvisited nx m).length := by
  unfold unvisited
  rw [← List.countP_eq_length_filter, ← List.countP_eq_length_filter]
  refine List.countP_mono_left fun p _ hp => ?_
  simp only [Bool.not_eq_eq_eq_not, Bool.not_true] at hp ⊢
  cases hh : GoMap.has m p
  · rfl
  · rw [(GoMap.has_iff _ _).2 (h _ ((GoMap.has_iff _ _).1 hh))] at hp; simp at hp

theorem unvisited_lt {nx : Nexus} {m : Graph} {p : Str} {v : List Str} (hp : p ∈ offeredNames nx)
    (hm : GoMap.has m p = false) :
    (unvisited nx (GoMap.put m p v)).length < (unvisited nx m).length := by
  unfold unvisited
  have key : ∀ l : List Str, p ∈ l →
      (l.filter (fun q => !GoMap.has (GoMap.put m p v) q)).length < (l.filter (fun q => !GoMap.has m q)).length := by
    have hmono : ∀ l : List Str,
        (l.filter (fun q => !GoMap.has (GoMap.put m p v) q)).length ≤ (l.filter (fun q => !GoMap.has m q)).length := by
      intro l
      rw [← List.countP_eq_length_filter, ← List.countP_eq_length_filter]
      refine List.countP_mono_left fun q _ hq => ?_
      simp only [GoMap.has, GoMap.get?_put] at hq ⊢
      split at hq <;> simp_all
    intro l
    induction l with
    | nil => simp
    | cons q l ih =>
      intro hq
      by_cases hqp : q = p
      · subst hqp
        have h1 : GoMap.has (GoMap.put m q v) q = true := by simp [GoMap.has, GoMap.get?_put]
        simp only [List.filter_cons, h1, hm]
        have := hmono l
        simp; omega
      · have := ih (by simpa [Ne.symm hqp] using hq)
        have h1 : GoMap.has (GoMap.put m p v) q = GoMap.has m q := by
          simp [GoMap.has, GoMap.get?_put, hqp]
        simp only [List.filter_cons, h1]
        split <;> simp_all
  exact key _ hp

/-- Nodes added and loops executed between two states: four loops per added node, and every added node
was an unvisited offered name. -/
def Grew (nx : Nexus) (s s' : Nat × Graph) : Prop :=
  (∀ k, k ∈ GoMap.keys s.2 → k ∈ GoMap.keys s'.2) ∧
  s'.1 + 4 * s.2.length = s.1 + 4 * s'.2.length ∧
  s'.2.length + (unvisited nx s'.2).length ≤ s.2.length + (unvisited nx s.2).length

theorem Grew.refl {nx : Nexus} (s : Nat × Graph) : Grew nx s s := ⟨fun _ h => h, rfl, Nat.le_refl _⟩
theorem Grew.trans {nx : Nexus} {a b c : Nat × Graph} (h : Grew nx a b) (h' : Grew nx b c) : Grew nx a c :=
  ⟨fun k hk => h'.1 k (h.1 k hk), by have := h.2.1; have := h'.2.1; omega,
   by have := h.2.2; have := h'.2.2; omega⟩

theorem length_put_fresh {m : Graph} {p : Str} {v : List Str} (hm : p ∉ GoMap.keys m) :
    (GoMap.put m p v).length = m.length + 1 := by
  unfold GoMap.put GoMap.del
  rw [List.length_cons, List.filter_eq_self.2]
  intro e he
  have : e.1 ∈ GoMap.keys m := List.mem_map_of_mem he
  simp; rintro rfl; exact hm this

/-- One call succeeds when the fuel exceeds the number of unvisited names; each further node costs four
loops. -/
theorem appendToGraph_total {cfgs : InstallDeps} {nx : Nexus} {ρ : Order} (hk : Keyed nx) (fuel : Nat) :
    ∀ (s : Nat × Graph) (d : Desc),
      (unvisited nx (GoMap.put s.2 d.package [])).length < fuel →
      ∃ s' reqs, appendToGraph cfgs nx ρ fuel s d = some s' ∧
        Grew nx (s.1 + 4, GoMap.put s.2 d.package reqs) s' := by
  induction fuel with
  | zero => intro s d h; omega
  | succ fuel ih =>
    intro s d hf
    unfold appendToGraph
    dsimp only
    generalize reqsOf nx (configOf cfgs d.package) ρ s.1 d = reqs
    generalize (if (configOf cfgs d.package).suggests then ρ (s.1 + 3) (GoMap.keys d.suggests) else [])
      ++ reqs = names
    have hf' : (unvisited nx (s.1 + 4, GoMap.put s.2 d.package reqs).2).length ≤ fuel := by
      have : (unvisited nx (GoMap.put s.2 d.package reqs)).length ≤
          (unvisited nx (GoMap.put s.2 d.package [])).length :=
        unvisited_mono (fun k hk => by simpa [GoMap.mem_keys_put] using hk)
      simpa using by omega
    have fold : ∀ (names : List Str) (s0 : Nat × Graph), (unvisited nx s0.2).length ≤ fuel →
        ∃ s', names.foldlM (visitStep nx (fun s' d' => appendToGraph cfgs nx ρ fuel s' d')) s0 = some s' ∧
          Grew nx s0 s' := by
      intro names
      induction names with
      | nil => intro s0 _; exact ⟨s0, rfl, Grew.refl _⟩
      | cons r names ihn =>
        intro s0 h0
        rw [List.foldlM_cons]
        have step : ∃ s1, visitStep nx (fun s' d' => appendToGraph cfgs nx ρ fuel s' d') s0 r = some s1 ∧
            Grew nx s0 s1 := by
          unfold visitStep
          split
          · next hc =>
            split
            · next dl hdl =>
              have hpk := getPackage_keyed hk hdl
              have hlt := unvisited_lt (v := []) (getPackage_offered hdl) hc.2
              obtain ⟨s1, rq, h1, h2⟩ := ih s0 dl.package (by rw [hpk]; omega)
              refine ⟨s1, h1, ?_⟩
              have hnk : dl.package.package ∉ GoMap.keys s0.2 := by
                rw [hpk, ← GoMap.has_iff]; simp [hc.2]
              refine Grew.trans ⟨?_, ?_, ?_⟩ h2
              · intro k hk'; simp [GoMap.mem_keys_put, hk']
              · simp only [length_put_fresh hnk]; omega
              · have h3 := unvisited_lt (v := rq) (getPackage_offered hdl) hc.2
                rw [hpk] at hnk ⊢
                simp only [length_put_fresh hnk]; omega
            · exact ⟨s0, rfl, Grew.refl _⟩
          · exact ⟨s0, rfl, Grew.refl _⟩
        obtain ⟨s1, h1, h2⟩ := step
        obtain ⟨s2, h3, h4⟩ := ihn s1 (Nat.le_trans (unvisited_mono h2.1) h0)
        exact ⟨s2, by rw [h1]; exact h3, h2.trans h4⟩
    obtain ⟨s', h1, h2⟩ := fold names _ hf'
    exact ⟨s', reqs, h1, h2⟩

/-! ### Correctness -/

/-- What a finished node looks like. -/
def NodeOk (nx : Nexus) (cfgs : InstallDeps) (m : Graph) (k : Str) : Prop :=
  ∃ dl reqs, getPackage nx k = some dl ∧ GoMap.get? m k = some reqs ∧
    ∀ b, b ∈ reqs ↔ Requires nx (configOf cfgs) k b

/-- All successors of `k` are in the graph. -/
def ClosedAt (nx : Nexus) (cfgs : InstallDeps) (m : Graph) (k : Str) : Prop :=
  ∀ b, (Requires nx (configOf cfgs) k b ∨ Suggests nx (configOf cfgs) k b) → b ≠ s%"R" → b ∈ GoMap.keys m

theorem ClosedAt.mono {nx : Nexus} {cfgs : InstallDeps} {m m' : Graph} {k : Str}
    (h : ClosedAt nx cfgs m k) (hm : ∀ k, k ∈ GoMap.keys m → k ∈ GoMap.keys m') : ClosedAt nx cfgs m' k :=
  fun b hb hr => hm b (h b hb hr)

/-- Effect of a call (or of a part of one) on the graph: old nodes other than those in `ex` keep their
requirements, new nodes are finished, closed and reachable from `a`. -/
structure Effect (nx : Nexus) (cfgs : InstallDeps) (a : Str) (m m' : Graph) : Prop where
  keep : ∀ k, k ∈ GoMap.keys m → GoMap.get? m' k = GoMap.get? m k
  new : ∀ k, k ∈ GoMap.keys m' → k ∉ GoMap.keys m →
    NodeOk nx cfgs m' k ∧ ClosedAt nx cfgs m' k ∧ Planned nx (configOf cfgs) [a] k

theorem Effect.mono {nx cfgs a m m'} (h : Effect nx cfgs a m m') (k : Str) (hk : k ∈ GoMap.keys m) :
    k ∈ GoMap.keys m' := by
  obtain ⟨v, hv⟩ := GoMap.exists_get?_of_mem hk
  exact GoMap.mem_keys_of_get? (h.keep k hk ▸ hv)

theorem NodeOk.congr {nx cfgs m m' k} (h : NodeOk nx cfgs m k) (he : GoMap.get? m' k = GoMap.get? m k) :
    NodeOk nx cfgs m' k := by
  obtain ⟨dl, reqs, h1, h2, h3⟩ := h
  exact ⟨dl, reqs, h1, he ▸ h2, h3⟩

theorem Effect.refl {nx cfgs a} (m : Graph) : Effect nx cfgs a m m :=
  ⟨fun _ _ => rfl, fun _ h h' => absurd h h'⟩

theorem Effect.trans {nx cfgs a} {m m' m'' : Graph} (h : Effect nx cfgs a m m')
    (h' : Effect nx cfgs a m' m'') : Effect nx cfgs a m m'' := by
  refine ⟨fun k hk => (h'.keep k (h.mono k hk)).trans (h.keep k hk), fun k hk hn => ?_⟩
  by_cases hm : k ∈ GoMap.keys m'
  · obtain ⟨h1, h2, h3⟩ := h.new k hm hn
    exact ⟨h1.congr (h'.keep k hm), h2.mono h'.mono, h3⟩
  · exact h'.new k hk hm

theorem Spec.Planned.lift {nx : Nexus} {cfg : Str → PkgDeps} {a : Str} {roots : List Str}
    (ha : Planned nx cfg roots a) {k : Str} (h : Planned nx cfg [a] k) : Planned nx cfg roots k := by
  induction h with
  | root h => simp at h; exact h ▸ ha
  | step _ he hr ih => exact .step ih he hr

/-- One call: the result is the old graph with the package's node set, plus finished nodes; the package
itself is finished and closed. -/
theorem appendToGraph_effect {cfgs : InstallDeps} {nx : Nexus} {ρ : Order} (hk : Keyed nx) (hρ : ρ.Fair)
    (fuel : Nat) :
    ∀ (s s' : Nat × Graph) (dl : PkgDl) (a : Str), getPackage nx a = some dl →
      appendToGraph cfgs nx ρ fuel s dl.package = some s' →
      ∃ reqs, (∀ b, b ∈ reqs ↔ Requires nx (configOf cfgs) a b) ∧
        Effect nx cfgs a (GoMap.put s.2 a reqs) s'.2 ∧ ClosedAt nx cfgs s'.2 a := by
  induction fuel with
  | zero => intro s s' dl a _ h; simp [appendToGraph] at h
  | succ fuel ih =>
    intro s s' dl a hdl h
    have hpk := getPackage_keyed hk hdl
    unfold appendToGraph at h
    dsimp only at h
    rw [hpk] at h
    have hreqs : ∀ b, b ∈ reqsOf nx (configOf cfgs a) ρ s.1 dl.package ↔
        Requires nx (configOf cfgs) a b := by
      intro b; rw [mem_reqsOf hρ]; unfold Requires
      constructor
      · rintro ⟨h1, h2, h3⟩; exact ⟨dl, resolves_iff.2 hdl, h1, h2, h3⟩
      · rintro ⟨dl', h0, h1, h2, h3⟩; rw [resolves_iff, hdl] at h0; cases h0; exact ⟨h1, h2, h3⟩
    refine ⟨_, hreqs, ?_⟩
    generalize reqsOf nx (configOf cfgs a) ρ s.1 dl.package = reqs at h hreqs
    have hsug : ∀ b, (b ∈ (if (configOf cfgs a).suggests then ρ (s.1 + 3) (GoMap.keys dl.package.suggests)
        else []) ∧ Available nx b) ↔ Suggests nx (configOf cfgs) a b := by
      intro b; unfold Suggests
      cases hs : (configOf cfgs a).suggests
      · simp
      · simp only [if_true, (hρ _ _).mem_iff, true_and]
        constructor
        · rintro ⟨h1, h2⟩; exact ⟨h2, dl, resolves_iff.2 hdl, h1⟩
        · rintro ⟨h2, dl', h0, h1⟩; rw [resolves_iff, hdl] at h0; cases h0; exact ⟨h1, h2⟩
    generalize (if (configOf cfgs a).suggests then ρ (s.1 + 3) (GoMap.keys dl.package.suggests)
        else []) = sugg at h hsug
    have hmem : ∀ b, b ∈ sugg ++ reqs → Available nx b →
        (Requires nx (configOf cfgs) a b ∨ Suggests nx (configOf cfgs) a b) := by
      intro b hb hav
      rcases List.mem_append.1 hb with hb | hb
      · exact Or.inr ((hsug b).1 ⟨hb, hav⟩)
      · exact Or.inl ((hreqs b).1 hb)
    have fold : ∀ (names : List Str), (∀ b ∈ names, b ∈ sugg ++ reqs) → ∀ (s0 s1 : Nat × Graph),
        names.foldlM (visitStep nx (fun s' d' => appendToGraph cfgs nx ρ fuel s' d')) s0 = some s1 →
        Effect nx cfgs a s0.2 s1.2 ∧
          ∀ b ∈ names, Available nx b → b ≠ s%"R" → b ∈ GoMap.keys s1.2 := by
      intro names
      induction names with
      | nil => intro _ s0 s1 h; cases h; exact ⟨Effect.refl _, by simp⟩
      | cons r names ihn =>
        intro hsub s0 s1 h
        rw [List.foldlM_cons] at h
        obtain ⟨sm, hstep, hrest⟩ := Option.bind_eq_some_iff.1 h
        obtain ⟨he2, hin⟩ := ihn (fun b hb => hsub b (by simp [hb])) sm s1 hrest
        have hst : Effect nx cfgs a s0.2 sm.2 ∧ (Available nx r → r ≠ s%"R" → r ∈ GoMap.keys sm.2) := by
          unfold visitStep at hstep
          split at hstep
          · next hc =>
            have hr0 : r ∉ GoMap.keys s0.2 := by rw [← GoMap.has_iff]; simp [hc.2]
            split at hstep
            · next dl' hdl' =>
              obtain ⟨rq, hrq, heff, hcl⟩ := ih s0 sm dl' r hdl' hstep
              have hrin : r ∈ GoMap.keys sm.2 := heff.mono r (by simp [GoMap.mem_keys_put])
              have hpl : Planned nx (configOf cfgs) [a] r :=
                .step (.root (by simp)) (hmem r (hsub r (by simp)) ⟨dl', resolves_iff.2 hdl'⟩) hc.1
              refine ⟨⟨fun k hk' => ?_, fun k hk' hn => ?_⟩, fun _ _ => hrin⟩
              · have hne : k ≠ r := fun e => hr0 (e ▸ hk')
                rw [heff.keep k (by simp [GoMap.mem_keys_put, hk']), GoMap.get?_put]
                simp [hne]
              · by_cases hkr : k = r
                · subst hkr
                  refine ⟨⟨dl', rq, hdl', ?_, hrq⟩, hcl, hpl⟩
                  rw [heff.keep k (by simp [GoMap.mem_keys_put]), GoMap.get?_put]; simp
                · obtain ⟨h1, h2, h3⟩ := heff.new k hk' (by simp [GoMap.mem_keys_put, hkr, hn])
                  exact ⟨h1, h2, hpl.lift h3⟩
            · next hno =>
              cases hstep
              refine ⟨Effect.refl _, fun ⟨dl', h'⟩ => ?_⟩
              rw [resolves_iff, hno] at h'; simp at h'
          · next hc =>
            cases hstep
            refine ⟨Effect.refl _, fun _ hr => ?_⟩
            rw [not_and] at hc
            have := hc hr
            rw [Bool.not_eq_false] at this
            exact (GoMap.has_iff _ _).1 this
        refine ⟨hst.1.trans he2, fun b hb hav hr => ?_⟩
        rcases List.mem_cons.1 hb with rfl | hb
        · exact he2.mono _ (hst.2 hav hr)
        · exact hin b hb hav hr
    obtain ⟨h1, h2⟩ := fold _ (fun _ h => h) _ _ h
    refine ⟨h1, fun b hb hr => ?_⟩
    rcases hb with hb | hb
    · exact h2 b (List.mem_append_right _ ((hreqs b).2 hb)) hb.choose_spec.2.2.1 hr
    · have := (hsug b).2 hb
      exact h2 b (List.mem_append_left _ this.1) this.2 hr

/-- The keys stay distinct. -/
theorem appendToGraph_wf {cfgs : InstallDeps} {nx : Nexus} {ρ : Order} (fuel : Nat) :
    ∀ (s s' : Nat × Graph) (d : Desc), GoMap.WF s.2 →
      appendToGraph cfgs nx ρ fuel s d = some s' → GoMap.WF s'.2 := by
  induction fuel with
  | zero => intro s s' d _ h; simp [appendToGraph] at h
  | succ fuel ih =>
    intro s s' d hwf h
    unfold appendToGraph at h
    dsimp only at h
    have fold : ∀ (names : List Str) (s0 s1 : Nat × Graph), GoMap.WF s0.2 →
        names.foldlM (visitStep nx (fun s' d' => appendToGraph cfgs nx ρ fuel s' d')) s0 = some s1 →
        GoMap.WF s1.2 := by
      intro names
      induction names with
      | nil => intro s0 s1 hw h; cases h; exact hw
      | cons r names ihn =>
        intro s0 s1 hw h
        rw [List.foldlM_cons] at h
        obtain ⟨sm, hstep, hrest⟩ := Option.bind_eq_some_iff.1 h
        refine ihn sm s1 ?_ hrest
        unfold visitStep at hstep
        split at hstep
        · split at hstep
          · exact ih _ _ _ hw hstep
          · cases hstep; exact hw
        · cases hstep; exact hw
    exact fold _ _ _ (GoMap.wf_put hwf _ _) h

/-- A finished graph for a list of roots. -/
structure GraphOk (nx : Nexus) (cfgs : InstallDeps) (roots : List Str) (m : Graph) : Prop where
  wf : GoMap.WF m
  node : ∀ k, k ∈ GoMap.keys m → NodeOk nx cfgs m k ∧ ClosedAt nx cfgs m k ∧ Planned nx (configOf cfgs) roots k
  roots : ∀ k ∈ roots, k ∈ GoMap.keys m

theorem Spec.Planned.mono {nx : Nexus} {cfg : Str → PkgDeps} {r r' : List Str} (h : ∀ k ∈ r, k ∈ r') {k : Str}
    (hp : Planned nx cfg r k) : Planned nx cfg r' k := by
  induction hp with
  | root hk => exact .root (h _ hk)
  | step _ he hr ih => exact .step ih he hr

theorem appendToGraph_graphOk {cfgs : InstallDeps} {nx : Nexus} {ρ : Order} (hk : Keyed nx) (hρ : ρ.Fair)
    {fuel : Nat} {s s' : Nat × Graph} {dl : PkgDl} {a : Str} {roots : List Str}
    (hdl : getPackage nx a = some dl) (hok : GraphOk nx cfgs roots s.2)
    (h : appendToGraph cfgs nx ρ fuel s dl.package = some s') : GraphOk nx cfgs (roots ++ [a]) s'.2 := by
  obtain ⟨reqs, hreqs, heff, hcl⟩ := appendToGraph_effect hk hρ fuel s s' dl a hdl h
  have hin : a ∈ GoMap.keys s'.2 := heff.mono a (by simp [GoMap.mem_keys_put])
  have hmono : ∀ k, k ∈ GoMap.keys s.2 → k ∈ GoMap.keys s'.2 := fun k hk' =>
    heff.mono k (by simp [GoMap.mem_keys_put, hk'])
  refine ⟨appendToGraph_wf fuel s s' _ hok.wf h, fun k hk' => ?_, fun k hk' => ?_⟩
  · by_cases hka : k = a
    · subst hka
      refine ⟨⟨dl, reqs, hdl, ?_, hreqs⟩, hcl, .root (by simp)⟩
      rw [heff.keep k (by simp [GoMap.mem_keys_put]), GoMap.get?_put]; simp
    · by_cases hks : k ∈ GoMap.keys s.2
      · obtain ⟨h1, h2, h3⟩ := hok.node k hks
        refine ⟨h1.congr ?_, h2.mono hmono, h3.mono (by simp +contextual)⟩
        rw [heff.keep k (by simp [GoMap.mem_keys_put, hks]), GoMap.get?_put]; simp [hka]
      · obtain ⟨h1, h2, h3⟩ := heff.new k hk' (by simp [GoMap.mem_keys_put, hka, hks])
        exact ⟨h1, h2, h3.mono (by simp)⟩
  · rcases List.mem_append.1 hk' with h' | h'
    · exact hmono k (hok.roots k h')
    · simp at h'; exact h' ▸ hin

theorem graphOk_nil (nx : Nexus) (cfgs : InstallDeps) : GraphOk nx cfgs [] [] :=
  ⟨GoMap.wf_nil, by simp, by simp⟩

theorem appendToGraph_graphFuel {cfgs : InstallDeps} {nx : Nexus} {ρ : Order} (hk : Keyed nx)
    (s : Nat × Graph) (d : Desc) : ∃ s' reqs, appendToGraph cfgs nx ρ (graphFuel nx) s d = some s' ∧
      Grew nx (s.1 + 4, GoMap.put s.2 d.package reqs) s' := by
  refine appendToGraph_total hk _ s d ?_
  unfold graphFuel unvisited
  have := List.length_filter_le (fun p => !GoMap.has (GoMap.put s.2 d.package []) p) (offeredNames nx)
  omega

theorem buildGraph_total {cfgs : InstallDeps} {nx : Nexus} {ρ : Order} (hk : Keyed nx) (pkgs : List Str) :
    ∀ s : Nat × Graph, ∃ s', pkgs.foldlM (addRequested cfgs nx ρ) s = some s' := by
  induction pkgs with
  | nil => intro s; exact ⟨s, rfl⟩
  | cons p pkgs ih =>
    intro s
    obtain ⟨s1, _, h1, _⟩ := appendToGraph_graphFuel (cfgs := cfgs) (ρ := ρ) hk s ((getPackage nx p).getD {}).package
    obtain ⟨s2, h2⟩ := ih s1
    exact ⟨s2, by rw [List.foldlM_cons]; unfold addRequested; rw [h1]; exact h2⟩

theorem buildGraph_graphOk {cfgs : InstallDeps} {nx : Nexus} {ρ : Order} (hk : Keyed nx) (hρ : ρ.Fair)
    (pkgs : List Str) : ∀ (roots : List Str) (s s' : Nat × Graph), GraphOk nx cfgs roots s.2 →
    (∀ p ∈ pkgs, Available nx p) → pkgs.foldlM (addRequested cfgs nx ρ) s = some s' →
    GraphOk nx cfgs (roots ++ pkgs) s'.2 := by
  induction pkgs with
  | nil => intro roots s s' h _ he; cases he; simpa using h
  | cons p pkgs ih =>
    intro roots s s' h hav he
    rw [List.foldlM_cons] at he
    obtain ⟨sm, hstep, hrest⟩ := Option.bind_eq_some_iff.1 he
    obtain ⟨dl, hdl⟩ := available_iff.1 (hav p (by simp))
    unfold addRequested at hstep
    rw [hdl] at hstep
    have := ih (roots ++ [p]) sm s' (appendToGraph_graphOk hk hρ hdl h hstep)
      (fun q hq => hav q (by simp [hq])) hrest
    simpa using this

/-- A finished graph has exactly the planned packages. -/
theorem GraphOk.mem_iff {nx cfgs roots m} (h : GraphOk nx cfgs roots m) (k : Str) :
    k ∈ GoMap.keys m ↔ Planned nx (configOf cfgs) roots k := by
  refine ⟨fun hk => (h.node k hk).2.2, fun hp => ?_⟩
  induction hp with
  | root hk => exact h.roots _ hk
  | step _ he hr ih => exact (h.node _ ih).2.1 _ he hr

end Pkgr
