/- Properties C16 (plan level) and C18 - C32: planning. -/
import Verif.Proof.PlanAux
import Verif.Props.Nexus
import Verif.Props.RepoDb
import Verif.Props.VersionDep

namespace Pkgr
open Spec

/-! ### A concrete repository for the examples -/

/-- A requirement without version. -/
def toyDep (n : Str) : Str × Dep := (n, { name := n })

/-- `a` imports `b` and suggests `s`, `Matrix` and `stats`; `b` depends on `c` and R and links to `c`;
`s` imports `a`'s dependency `c` and suggests `a` and `t`; `x` and `y` import each other. -/
def planNexus : Nexus :=
  { defaultSourceType := .source,
    db := [{ repo := { name := s%"R1", url := s%"u1" },
             src := [(s%"a", { package := s%"a", version := s%"1.0", imports := [toyDep (s%"b"), toyDep (s%"stats")],
                               suggests := [toyDep (s%"s"), toyDep (s%"Matrix"), toyDep (s%"stats")] }),
                     (s%"b", { package := s%"b", version := s%"1.1", depends := [toyDep (s%"c"), toyDep (s%"R")],
                               linkingTo := [toyDep (s%"c")] }),
                     (s%"c", { package := s%"c", version := s%"2.0" }),
                     (s%"s", { package := s%"s", version := s%"0.1", imports := [toyDep (s%"c")],
                               suggests := [toyDep (s%"a"), toyDep (s%"t")] }),
                     (s%"t", { package := s%"t", version := s%"0.2" }),
                     (s%"x", { package := s%"x", version := s%"0.1", imports := [toyDep (s%"y")] }),
                     (s%"y", { package := s%"y", version := s%"0.1", imports := [toyDep (s%"x")] }),
                     (s%"Matrix", { package := s%"Matrix", version := s%"1.5" }),
                     (s%"stats", { package := s%"stats", version := s%"4.0" })] }] }

/-- Iteration in storage order. -/
def idOrder : Order := fun _ l => l
/-- Iteration in reverse order. -/
def revOrder : Order := fun _ l => l.reverse

theorem idOrder_fair : idOrder.Fair := fun _ _ => .refl _
theorem revOrder_fair : revOrder.Fair := fun _ l => l.reverse_perm

theorem keyed_singleton {db : RepoDb} {nx : Nexus} (hnx : nx.db = [db]) (hbin : db.bin = none)
    (h : ∀ e ∈ db.src, e.2.package = e.1) : Keyed nx := by
  intro db' hdb st k d hd
  rw [hnx, List.mem_singleton] at hdb
  subst hdb
  cases st with
  | source => exact h _ (GoMap.mem_of_get? hd)
  | binary => simp [RepoDb.table, hbin] at hd
  | default => simp [RepoDb.table] at hd

theorem planNexus_keyed : Keyed planNexus := keyed_singleton rfl rfl (by decide)

theorem planNexus_noR : NoR planNexus := by
  intro db hdb st
  simp only [planNexus, List.mem_singleton] at hdb
  subst hdb
  cases st <;> decide

theorem planNexus_avail {p : Str} (h : (getPackage planNexus p).isSome = true) : Available planNexus p :=
  available_iff.2 (Option.isSome_iff_exists.1 h)

/-! ### C18 -/

/-- C18: databases built by fetching and decoding indexes, or read back from the cache, file every
description under its own name (the hypothesis `Keyed` of the theorems below). -/
theorem C18_fetched_databases_keyed {decode : Str → Option RawDesc} {rv : RVersion} {db db' : RepoDb}
    {body : SourceType → Option Str} {arrivals : List (SourceType × Except LoadErr (GoMap Desc))}
    (hdb : ∀ st k d, GoMap.get? (db.table st) k = some d → d.package = k)
    (harr : arrivals.Perm (fetchResults decode rv db body)) (h : collectFetches db arrivals = .ok db') :
    ∀ st k d, GoMap.get? (db'.table st) k = some d → d.package = k := by
  have hres : ∀ r ∈ arrivals, ∀ m, r.2 = .ok m → ∀ k d, GoMap.get? m k = some d → d.package = k := by
    intro r hr m hm k d hd
    have hr' := harr.mem_iff.1 hr
    unfold fetchResults at hr'
    have : ∃ b, r.2 = fetchOne decode rv b := by
      rcases List.mem_cons.1 hr' with rfl | hr'
      · exact ⟨_, rfl⟩
      · split at hr'
        · simp only [List.mem_singleton] at hr'; subst hr'; exact ⟨_, rfl⟩
        · simp at hr'
    obtain ⟨b, hb⟩ := this
    rw [hb] at hm
    cases b with
    | none => simp [fetchOne] at hm
    | some b => exact fetchOne_keyed hm hd
  unfold collectFetches at h
  dsimp only at h
  split at h
  · cases h
  · rename_i hcond
    cases h
    clear hcond
    generalize hacc : (db, 0, (none : Option LoadErr)) = acc at *
    have hacc1 : ∀ st k d, GoMap.get? (acc.1.table st) k = some d → d.package = k := by
      rw [← hacc]; exact hdb
    clear hacc harr
    induction arrivals generalizing acc with
    | nil => exact hacc1
    | cons r arrivals ih =>
      rw [List.foldl_cons]
      refine ih (fun r' hr' => hres r' (by simp [hr'])) _ ?_
      obtain ⟨st0, m0⟩ := r
      cases m0 with
      | error e => exact hacc1
      | ok m =>
        intro st k d hd
        have hm := hres (st0, .ok m) (by simp) m rfl
        simp only [collectFetchStep] at hd
        cases st0 <;> cases st <;> simp only [RepoDb.setTable, RepoDb.table, Option.getD_some] at hd
        all_goals first
          | exact hm k d hd
          | exact hacc1 .source k d hd
          | exact hacc1 .binary k d hd
          | simp at hd

/-- C18: collecting the dependencies of a package (into any graph, with any settings, whatever the
repository contains) finishes with recursion depth at most the number of offered names plus one; and it
makes at most that many calls in all: the counter advances by four `range` loops per call. -/
theorem C18_collection_terminates (cfgs : InstallDeps) {nx : Nexus} (ρ : Order) (hk : Keyed nx)
    (t : Nat) (m : Graph) (d : Desc) :
    ∃ t' m', appendToGraph cfgs nx ρ ((offeredNames nx).length + 1) (t, m) d = some (t', m') ∧
      t' ≤ t + 4 * ((offeredNames nx).length + 1) := by
  obtain ⟨⟨t', m'⟩, reqs, h1, h2, h3, h4⟩ := appendToGraph_graphFuel (cfgs := cfgs) (ρ := ρ) hk (t, m) d
  refine ⟨t', m', h1, ?_⟩
  have h5 : (unvisited nx (GoMap.put m d.package reqs)).length ≤ (offeredNames nx).length :=
    List.length_filter_le _ _
  simp only at h3 h4
  omega

/-- C18: planning never diverges: with the bound above, dependency collection for any list of packages
succeeds and the whole resolution never reports that the bound was hit. -/
theorem C18_planning_terminates (pkgs : List Str) (installed : GoMap Desc) (cfgs : InstallDeps) {nx : Nexus}
    (hk : Keyed nx) (update libraryExists nr : Bool) (ρ : Order) :
    (∃ s, buildGraph cfgs nx ρ 0 pkgs = some s) ∧
    resolveInstallationReqs pkgs installed cfgs nx update libraryExists nr ρ ≠ .error .outOfFuel := by
  refine ⟨buildGraph_total hk pkgs _, ?_⟩
  have hfold : ∀ (ps : List Str) s, ps.foldlM (depDbStep nx ρ nr) s ≠ .error .outOfFuel := by
    intro ps
    induction ps with
    | nil => intro s h; cases h
    | cons p ps ih =>
      intro s h
      rw [List.foldlM_cons] at h
      cases hst : depDbStep nx ρ nr s p with
      | ok s' => rw [hst] at h; exact ih s' h
      | error e =>
        rw [hst] at h
        cases h
        unfold depDbStep at hst
        obtain ⟨s', _, h1, _⟩ := appendToGraph_graphFuel (cfgs := defaultCfgs nr) (ρ := ρ) hk (s.1, [])
          ((getPackage nx p).getD {}).package
        rw [h1] at hst
        dsimp only at hst
        split at hst
        · cases hst
        · split at hst <;> cases hst
  intro h
  unfold resolveInstallationReqs at h
  obtain ⟨s, hs⟩ := buildGraph_total (cfgs := withNoRecommended cfgs nr) (ρ := ρ) hk pkgs (0, [])
  unfold buildGraph at h
  rw [hs] at h
  dsimp only at h
  split at h
  · cases h
  · split at h
    · next e he => cases h; exact hfold _ _ he
    · split at h
      · cases h
      · split at h <;> cases h

/-- Non-vacuity of C18: a cyclic repository, where collection finishes. -/
example : Keyed planNexus ∧ (appendToGraph newDefaultInstallDeps planNexus idOrder
      ((offeredNames planNexus).length + 1) (0, []) ((getPackage planNexus (s%"x")).getD {}).package).map
      (fun s => GoMap.keys s.2) = some [s%"y", s%"x"] :=
  ⟨planNexus_keyed, by decide⟩

/-! ### C19 -/

/-- C19: collecting dependencies for available packages gives exactly the least set containing them and
closed under the selected dependency fields and settings, and records exactly each package's
requirements.  `cfg` are the settings in force for each package. -/
theorem C19_graph_least_closed_set {cfgs : InstallDeps} {nx : Nexus} {ρ : Order} (hk : Keyed nx) (hρ : ρ.Fair)
    {pkgs : List Str} (hav : ∀ p ∈ pkgs, Available nx p) (cfg : Str → PkgDeps)
    (hcfg : ∀ p, cfg p = match GoMap.get? cfgs.deps p with | some c => c | none => cfgs.default)
    {t t' : Nat} {g : Graph} (h : buildGraph cfgs nx ρ t pkgs = some (t', g)) :
    (∀ p, p ∈ GoMap.keys g ↔ Planned nx cfg pkgs p) ∧
    (∀ p reqs, GoMap.get? g p = some reqs → ∀ b, b ∈ reqs ↔ Requires nx cfg p b) ∧ (GoMap.keys g).Nodup := by
  have hc : cfg = configOf cfgs := by
    funext p; rw [hcfg]; unfold configOf; cases GoMap.get? cfgs.deps p <;> rfl
  subst hc
  have hok := buildGraph_graphOk hk hρ pkgs [] _ _ (graphOk_nil _ _) hav h
  rw [List.nil_append] at hok
  refine ⟨fun p => hok.mem_iff p, fun p reqs hr b => ?_, hok.wf⟩
  obtain ⟨_, r, _, h2, h3⟩ := (hok.node p (GoMap.mem_keys_of_get? hr)).1
  rw [hr] at h2; cases h2
  exact h3 b

/-- The packages of a plan other than the tarballs: started first or later. -/
def InstallPlan.packages (ip : InstallPlan) : List Str := ip.starting ++ GoMap.keys ip.depDb

/-- C19 (planInstall level): the packages of a returned plan are exactly the requested packages, everything
they transitively need, and what is suggested by packages whose settings ask for it; each occurs once. -/
theorem C19_plan_packages {cfg : PlanCfg} {nx nx' : Nexus} {installed : GoMap Desc} {libEx : Bool}
    {tb ds : List Desc} {add : GoMap AdditionalPkg} {ρ ρ' ρ'' : Order} {req : List Str} {ip : InstallPlan}
    (hk : Keyed nx) (hR : NoR nx) (hρ : ρ''.Fair)
    (h : planInstall cfg nx installed libEx tb ds add ρ ρ' ρ'' = .planned req nx' ip) :
    ∃ cfgs, setPlanCustomizations cfg.suggests cfg.packages cfg.customizations
        (defaultCfgs cfg.noRecommended) (ignorePackages nx cfg.ignore) = some (cfgs, nx') ∧
      (∀ p, p ∈ ip.packages ↔ InPlan nx' cfg.noRecommended (SugOn cfgs) req p) ∧ ip.packages.Nodup := by
  obtain ⟨_, _, _, cfgs, hok⟩ := planInstall_planned hk hR hρ h
  exact ⟨cfgs, hok.custom, hok.plan.mem, hok.plan.nodup⟩

/-- Non-vacuity of C19: a plan with Suggests. -/
example : (match planInstall { packages := [s%"a"], suggests := true, noRecommended := true } planNexus [] true [] []
      [] idOrder idOrder idOrder with
    | .planned _ _ ip => ip.packages
    | _ => []) = [s%"stats", s%"Matrix", s%"c", s%"a", s%"s", s%"b"] := by decide

/-! ### C20 -/

/-- C20, partial: a package that ships with R (base, or recommended when those are not wanted) is only
planned if it was requested or is suggested by a planned package whose settings ask for suggested packages.
Missing: the suggested ones should be excluded too, see `C20_violated`. -/
theorem C20_exclusion_partial {cfg : PlanCfg} {nx nx' : Nexus} {installed : GoMap Desc} {libEx : Bool}
    {tb ds : List Desc} {add : GoMap AdditionalPkg} {ρ ρ' ρ'' : Order} {req : List Str} {ip : InstallPlan}
    (hk : Keyed nx) (hR : NoR nx) (hρ : ρ''.Fair)
    (h : planInstall cfg nx installed libEx tb ds add ρ ρ' ρ'' = .planned req nx' ip) {p : Str}
    (hp : p ∈ ip.packages) (hs : ShipsWithR cfg.noRecommended p) :
    (p ∈ req ∧ p ∉ basePkgs) ∨
    ∃ a dl, a ∈ ip.packages ∧ Resolves nx' a dl ∧ p ∈ GoMap.keys dl.package.suggests ∧
      (cfg.suggests = true ∨ ∃ e ∈ cfg.customizations, e.2.suggests.isSome) := by
  obtain ⟨hreq, _, _, cfgs, hok⟩ := planInstall_planned hk hR hρ h
  have hin := (hok.plan.mem p).1 hp
  cases hin with
  | requested hr =>
    left; refine ⟨hr, ?_⟩
    rw [hreq] at hr
    exact ((mem_removeBase _ _).1 hr).2
  | needed _ hn => exact absurd hs hn.choose_spec.2.2.2
  | @suggested a _ dl ha hsug hg hb _ =>
    right
    refine ⟨a, dl, (hok.plan.mem a).2 ha, hg, hb, ?_⟩
    by_contra hcon
    rw [not_or] at hcon
    obtain ⟨hc1, hc2⟩ := hcon
    obtain ⟨k1, k2⟩ := setCfg_spec cfg.suggests cfg.packages (defaultCfgs cfg.noRecommended)
    have hnone : ∀ (l : List (Str × PkgSetting)) (s s' : InstallDeps × Nexus),
        l.foldlM (viperStep cfg.customizations) s = some s' → s'.1.deps = s.1.deps ∧ s'.1.default = s.1.default := by
      intro l
      induction l with
      | nil => intro s s' h; cases h; exact ⟨rfl, rfl⟩
      | cons e l ih =>
        intro s s' h
        rw [List.foldlM_cons] at h
        obtain ⟨sm, hstep, hrest⟩ := Option.bind_eq_some_iff.1 h
        obtain ⟨_, _, a3, a4⟩ := viperStep_effect hstep
        obtain ⟨b1, b2⟩ := ih sm s' hrest
        have : isCustomizationSet (fun v => v.suggests.isSome) cfg.customizations e.1 = false := by
          unfold isCustomizationSet
          rw [List.any_eq_false]
          intro e' he'
          simp only [Bool.and_eq_true, decide_eq_true_eq, not_and]
          exact fun _ h => hc2 ⟨e', he', h⟩
        rw [this] at a4
        exact ⟨b1.trans a4, b2.trans a3⟩
    obtain ⟨e1, e2⟩ := hnone _ _ _ hok.custom
    dsimp only at e1 e2
    rcases hsug with ⟨c, hc, _⟩ | ⟨_, hd⟩
    · rw [e1, k2, if_neg (fun h => hc1 h.1)] at hc
      simp [defaultCfgs, newDefaultInstallDeps] at hc
    · rw [e2, k1] at hd
      simp [defaultCfgs, newDefaultInstallDeps] at hd

/-- C20 is violated: with NoRecommended and global Suggests, a recommended package and even a base package
that is merely suggested is planned. -/
theorem C20_violated : ∃ req nx' ip, planInstall
      { packages := [s%"a"], suggests := true, noRecommended := true } planNexus [] true [] [] [] idOrder idOrder idOrder
      = .planned req nx' ip ∧ s%"Matrix" ∈ ip.packages ∧ s%"stats" ∈ ip.packages ∧
      s%"Matrix" ∈ recommendedPkgs ∧ s%"stats" ∈ basePkgs ∧ req = [s%"a"] :=
  ⟨_, _, _, rfl, by decide, by decide, by decide, by decide, by decide⟩

/-- Non-vacuity of the partial theorem: `stats` is imported by `a` but not planned without Suggests. -/
example : (match planInstall { packages := [s%"a", s%"Matrix"], noRecommended := true } planNexus [] true [] [] []
      idOrder idOrder idOrder with
    | .planned _ _ ip => ip.packages
    | _ => []) = [s%"Matrix", s%"c", s%"a", s%"b"] ∧ ShipsWithR true (s%"Matrix") := by
  exact ⟨by decide, Or.inr ⟨rfl, by decide⟩⟩

/-! ### C21 - C23: layering -/

/-- C21: every package is in exactly one layer (the layers together are a rearrangement of the graph's
distinct package names); every requirement of a package is in a strictly earlier layer; a package outside
the first layer has a requirement in the layer just before (no package waits needlessly); no layer is
empty. -/
theorem C21_layering_sound {ρ : Order} (hρ : ρ.Fair) {t : Nat} {g : Graph} {nr : Bool} {layers : List (List Str)}
    (hwf : (GoMap.keys g).Nodup) (h : resolveLayers ρ t g nr = some layers) :
    layers.flatten.Perm (GoMap.keys g) ∧
    (∀ i j a, InLayer layers i a → InLayer layers j a → i = j) ∧
    (∀ a b j, Edge g nr a b → InLayer layers j a → ∃ i < j, InLayer layers i b) ∧
    (∀ a j, InLayer layers (j + 1) a → ∃ b, Edge g nr a b ∧ InLayer layers j b) ∧
    ∀ l ∈ layers, l ≠ [] := by
  obtain ⟨h1, h2, h3, h4⟩ := resolveLayers_ok hρ hwf h
  exact ⟨h1, fun i j a hi hj => inLayer_unique (h1.nodup_iff.2 hwf) hi hj,
    fun a b j he hj => h2 a b he j hj, fun a j hj => h3 j a hj, h4⟩

example : resolveLayers revOrder 0 [(s%"a", [s%"b", s%"c"]), (s%"b", [s%"c"]), (s%"c", []), (s%"d", [])] false
    = some [[s%"d", s%"c"], [s%"b"], [s%"a"]] := by decide

/-- C22: layering fails iff the requirements contain a cycle, or a requirement that is not in the graph. -/
theorem C22_circular_iff {ρ : Order} (hρ : ρ.Fair) (t : Nat) {g : Graph} (nr : Bool) (hwf : (GoMap.keys g).Nodup) :
    resolveLayers ρ t g nr = none ↔
      (∃ a, Relation.TransGen (Edge g nr) a a) ∨ ∃ a b, Edge g nr a b ∧ b ∉ GoMap.keys g :=
  resolveLayers_none_iff hρ hwf

/-- C22 (resolution level): for available packages and planning settings, resolution reports a circular
dependency iff some package of the plan transitively needs itself; otherwise it returns a plan, unless a
version cannot be compared. -/
theorem C22_resolution_circular_iff {nx : Nexus} {ρ : Order} {cfgs : InstallDeps} {nr : Bool} (hk : Keyed nx)
    (hR : NoR nx) (hρ : ρ.Fair) (hu : Uniform cfgs nr) {pkgs : List Str} (hne : pkgs ≠ [])
    (hav : ∀ p ∈ pkgs, Available nx p) (installed : GoMap Desc) (update libEx : Bool) :
    (resolveInstallationReqs pkgs installed cfgs nx update libEx nr ρ = .error .circular ↔
      ∃ p, InPlan nx nr (SugOn cfgs) pkgs p ∧ Relation.TransGen (Needs nx nr) p p) ∧
    (resolveInstallationReqs pkgs installed cfgs nx update libEx nr ρ = .error .circular ∨
      resolveInstallationReqs pkgs installed cfgs nx update libEx nr ρ = .error .versionPanic ∨
      ∃ ip, resolveInstallationReqs pkgs installed cfgs nx update libEx nr ρ = .ok ip) := by
  rcases resolve_cases hk hρ hu (noR_not_available hR) hne hav installed update libEx with
    ⟨h1, h2⟩ | ⟨h1, t, ⟨_, h3⟩ | ⟨outd, ip, _, h3, _⟩⟩
  · exact ⟨⟨fun _ => h2, fun _ => h1⟩, Or.inl h1⟩
  · rw [h3]
    refine ⟨⟨fun h => (by cases h), ?_⟩, Or.inr (Or.inl rfl)⟩
    rintro ⟨p, hp, hc⟩; exact absurd hc (h1 p hp)
  · rw [h3]
    refine ⟨⟨fun h => (by cases h), ?_⟩, Or.inr (Or.inr ⟨ip, rfl⟩)⟩
    rintro ⟨p, hp, hc⟩; exact absurd hc (h1 p hp)

example : resolveInstallationReqs [s%"x"] [] (defaultCfgs false) planNexus true true false idOrder = .error .circular ∧
    resolveLayers idOrder 0 [(s%"x", [s%"y"]), (s%"y", [s%"x"])] false = none ∧
    resolveLayers idOrder 0 [(s%"x", [s%"y"])] false = none := ⟨by decide, by decide, by decide⟩

/-- C23 (layers): two graphs with the same packages and requirements have the same layers as sets, whatever
the iteration orders, or both fail. -/
theorem C23_layers_deterministic {ρ ρ' : Order} (hρ : ρ.Fair) (hρ' : ρ'.Fair) (t t' : Nat) {g g' : Graph}
    (nr : Bool) (hg : SameGraph g g') (hwf : (GoMap.keys g).Nodup) (hwf' : (GoMap.keys g').Nodup) :
    (resolveLayers ρ t g nr = none ↔ resolveLayers ρ' t' g' nr = none) ∧
    ∀ L L', resolveLayers ρ t g nr = some L → resolveLayers ρ' t' g' nr = some L' →
      L.length = L'.length ∧ ∀ i a, InLayer L i a ↔ InLayer L' i a := by
  have hedge : ∀ a b, Edge g nr a b ↔ Edge g' nr a b := by
    intro a b
    constructor
    · rintro ⟨r, h1, h2, h3⟩
      obtain ⟨r', hr'⟩ := GoMap.exists_get?_of_mem ((hg.1 a).1 (GoMap.mem_keys_of_get? h1))
      exact ⟨r', hr', (hg.2 a r r' h1 hr' b).1 h2, h3⟩
    · rintro ⟨r', h1, h2, h3⟩
      obtain ⟨r, hr⟩ := GoMap.exists_get?_of_mem ((hg.1 a).2 (GoMap.mem_keys_of_get? h1))
      exact ⟨r, hr, (hg.2 a r r' hr h1 b).2 h2, h3⟩
  have heq : Edge g nr = Edge g' nr := by funext a b; exact propext (hedge a b)
  constructor
  · rw [resolveLayers_none_iff hρ hwf, resolveLayers_none_iff hρ' hwf', heq]
    simp only [hg.1]
  · intro L L' hL hL'
    have h1 := resolveLayers_ok hρ hwf hL
    have h2 := resolveLayers_ok hρ' hwf' hL'
    have huniq := ResolvedOk.unique hg hwf hwf' h1 h2
    refine ⟨?_, huniq⟩
    have hle : ∀ L L' : List (List Str), (∀ l ∈ L, l ≠ []) → (∀ i a, InLayer L i a → InLayer L' i a) →
        L.length ≤ L'.length := by
      intro L L' hne himp
      by_contra hlt
      have hlt : L'.length < L.length := by omega
      obtain ⟨a, ha⟩ := List.exists_mem_of_ne_nil _ (hne L[L'.length] (List.getElem_mem _))
      obtain ⟨l, hl, _⟩ := himp L'.length a ⟨_, List.getElem?_eq_getElem hlt, ha⟩
      have := (List.getElem?_eq_some_iff.1 hl).1
      omega
    exact Nat.le_antisymm (hle L L' h1.nonempty fun i a => (huniq i a).1)
      (hle L' L h2.nonempty fun i a => (huniq i a).2)

/-- C23: two resolutions of the same inputs under different iteration orders fail in the same way, or give
plans with the same starting packages, the same dependency lists as sets, and the same downloads and
outdated packages up to order. -/
theorem C23_plan_deterministic {nx : Nexus} {ρ ρ' : Order} {cfgs : InstallDeps} {nr : Bool} (hk : Keyed nx)
    (hR : NoR nx) (hρ : ρ.Fair) (hρ' : ρ'.Fair) (hu : Uniform cfgs nr) {pkgs : List Str} (hne : pkgs ≠ [])
    (hav : ∀ p ∈ pkgs, Available nx p) (installed : GoMap Desc) (update libEx : Bool) :
    (∀ e, resolveInstallationReqs pkgs installed cfgs nx update libEx nr ρ = .error e →
      resolveInstallationReqs pkgs installed cfgs nx update libEx nr ρ' = .error e) ∧
    (∀ ip, resolveInstallationReqs pkgs installed cfgs nx update libEx nr ρ = .ok ip →
      ∃ ip', resolveInstallationReqs pkgs installed cfgs nx update libEx nr ρ' = .ok ip' ∧
        ip'.starting.Perm ip.starting ∧ (GoMap.keys ip'.depDb).Perm (GoMap.keys ip.depDb) ∧
        (∀ p ds ds', GoMap.get? ip.depDb p = some ds → GoMap.get? ip'.depDb p = some ds' → ds'.Perm ds) ∧
        ip'.downloads.Perm ip.downloads ∧ ip'.outdated.Perm ip.outdated) := by
  have hav' := noR_not_available hR
  have hc := resolve_cases hk hρ hu hav' hne hav installed update libEx
  have hc' := resolve_cases hk hρ' hu hav' hne hav installed update libEx
  have hpanic : ∀ (ρ ρ' : Order) (t t' : Nat), ρ.Fair → ρ'.Fair →
      getOutdatedPackages installed (getPackages nx (ρ t (GoMap.keys installed))).packages = none →
      getOutdatedPackages installed (getPackages nx (ρ' t' (GoMap.keys installed))).packages = none := by
    intro ρ ρ' t t' hρ hρ' h0
    rw [getPackages_packages] at h0 ⊢
    rcases getOutdated_cases installed (List.map (fun p => (getPackage nx p).getD {}) (ρ t (GoMap.keys installed))) with
      ⟨_, dl, hm, hp⟩ | ⟨h1, _⟩
    · rcases getOutdated_cases installed (List.map (fun p => (getPackage nx p).getD {}) (ρ' t' (GoMap.keys installed))) with
        ⟨h2, _⟩ | ⟨_, h2⟩
      · exact h2
      · exfalso
        refine h2 dl ?_ hp
        simp only [List.mem_map] at hm ⊢
        obtain ⟨p, hp, he⟩ := hm
        exact ⟨p, (hρ' _ _).mem_iff.2 ((hρ _ _).mem_iff.1 hp), he⟩
    · rw [h1] at h0; cases h0
  rcases hc with ⟨h1, p, hp, hcyc⟩ | ⟨h1, t, h2⟩
  · rcases hc' with ⟨h1', _⟩ | ⟨h1', _⟩
    · rw [h1, h1']
      exact ⟨fun e h => by cases h; rfl, fun ip h => by cases h⟩
    · exact absurd hcyc (h1' p hp)
  · rcases hc' with ⟨_, p, hp, hcyc⟩ | ⟨_, t', h2'⟩
    · exact absurd hcyc (h1 p hp)
    · rcases h2 with ⟨ho, hr⟩ | ⟨outd, ip, ho, hr, hok, hod, _⟩
      · have ho' := hpanic ρ ρ' t t' hρ hρ' ho
        rcases h2' with ⟨_, hr'⟩ | ⟨outd', ip', ho'', _⟩
        · rw [hr, hr']; exact ⟨fun e h => by cases h; rfl, fun ip h => by cases h⟩
        · rw [ho'] at ho''; cases ho''
      · rcases h2' with ⟨ho', _⟩ | ⟨outd', ip', ho', hr', hok', hod', _⟩
        · rw [hpanic ρ' ρ t' t hρ' hρ ho'] at ho; cases ho
        · rw [hr, hr']
          refine ⟨fun e h => (by cases h), fun ip0 h => ?_⟩
          cases h
          have hstart : ip'.starting.Perm ip.starting := by
            rw [List.perm_ext_iff_of_nodup ((List.nodup_append.1 hok'.nodup).1) ((List.nodup_append.1 hok.nodup).1)]
            intro p; rw [hok.start, hok'.start]
          have hall : (ip'.starting ++ GoMap.keys ip'.depDb).Perm (ip.starting ++ GoMap.keys ip.depDb) := by
            rw [List.perm_ext_iff_of_nodup hok'.nodup hok.nodup]
            intro p; rw [hok.mem, hok'.mem]
          refine ⟨ip', rfl, hstart, ?_, ?_, ?_, ?_⟩
          · exact (List.perm_append_left_iff _).1 (hall.trans (List.Perm.append_right _ hstart.symm))
          · intro p ds ds' hd hd'
            rw [List.perm_ext_iff_of_nodup (hok'.deps p ds' hd').1 (hok.deps p ds hd).1]
            intro q; rw [(hok'.deps p ds' hd').2, (hok.deps p ds hd).2]
          · obtain ⟨l, hl, hd⟩ := hok.downloads
            obtain ⟨l', hl', hd'⟩ := hok'.downloads
            rw [hd, hd']
            exact ((hl'.trans hall).trans hl.symm).map _
          · rw [hod, hod']
            rw [getPackages_packages] at ho ho'
            rcases getOutdated_cases installed (List.map (fun p => (getPackage nx p).getD {}) (ρ t (GoMap.keys installed))) with
              ⟨h, _⟩ | ⟨h, _⟩
            · rw [h] at ho; cases ho
            · rcases getOutdated_cases installed (List.map (fun p => (getPackage nx p).getD {}) (ρ' t' (GoMap.keys installed))) with
                ⟨h', _⟩ | ⟨h', _⟩
              · rw [h'] at ho'; cases ho'
              · rw [h] at ho; rw [h'] at ho'; cases ho; cases ho'
                exact (((hρ' _ _).trans (hρ _ _).symm).map _).filterMap _

example : Uniform (defaultCfgs true) true ∧
    (match resolveInstallationReqs [s%"a"] [] (defaultCfgs true) planNexus true true true revOrder with
    | .ok ip => some (ip.starting, ip.depDb) | _ => none) =
    some ([s%"c"], [(s%"a", [s%"c", s%"b"]), (s%"b", [s%"c"])]) := ⟨uniform_defaultCfgs _, by decide⟩

/-! ### C24 - C26 -/

/-- C24: for every planned package outside the first layer the recorded dependency list is, without
repetition, exactly the set of packages it transitively needs; and every such package is itself planned. -/
theorem C24_dependency_lists {cfg : PlanCfg} {nx nx' : Nexus} {installed : GoMap Desc} {libEx : Bool}
    {tb ds : List Desc} {add : GoMap AdditionalPkg} {ρ ρ' ρ'' : Order} {req : List Str} {ip : InstallPlan}
    (hk : Keyed nx) (hR : NoR nx) (hρ : ρ''.Fair)
    (h : planInstall cfg nx installed libEx tb ds add ρ ρ' ρ'' = .planned req nx' ip)
    {p : Str} {deps : List Str} (hp : GoMap.get? ip.depDb p = some deps) :
    deps.Nodup ∧ (∀ q, q ∈ deps ↔ Relation.TransGen (Needs nx' cfg.noRecommended) p q) ∧
    (∀ q ∈ deps, q ∈ ip.packages) ∧ p ∉ deps := by
  obtain ⟨_, _, _, cfgs, hok⟩ := planInstall_planned hk hR hρ h
  obtain ⟨h1, h2⟩ := hok.plan.deps p deps hp
  have hpin := (hok.plan.mem p).1 (List.mem_append_right _ (GoMap.mem_keys_of_get? hp))
  refine ⟨h1, h2, fun q hq => ?_, fun hpd => hok.plan.acyclic p hpin ((h2 p).1 hpd)⟩
  refine (hok.plan.mem q).2 ?_
  have := (h2 q).1 hq
  clear hq
  induction this with
  | single h => exact .needed hpin h
  | tail _ h ih => exact .needed ih h

/-- C25: the packages started first are exactly the planned packages that need no other package; they and
the packages with dependency lists partition the plan. -/
theorem C25_starting_packages {cfg : PlanCfg} {nx nx' : Nexus} {installed : GoMap Desc} {libEx : Bool}
    {tb ds : List Desc} {add : GoMap AdditionalPkg} {ρ ρ' ρ'' : Order} {req : List Str} {ip : InstallPlan}
    (hk : Keyed nx) (hR : NoR nx) (hρ : ρ''.Fair)
    (h : planInstall cfg nx installed libEx tb ds add ρ ρ' ρ'' = .planned req nx' ip) :
    (∀ p, p ∈ ip.starting ↔ p ∈ ip.packages ∧ ∀ b, ¬ Needs nx' cfg.noRecommended p b) ∧
    (∀ p, p ∈ GoMap.keys ip.depDb ↔ p ∈ ip.packages ∧ ∃ b, Needs nx' cfg.noRecommended p b) ∧
    ip.starting.Nodup ∧ (GoMap.keys ip.depDb).Nodup ∧ ip.starting ≠ [] := by
  obtain ⟨_, _, _, cfgs, hok⟩ := planInstall_planned hk hR hρ h
  have hpl := hok.plan
  have hstart : ∀ p, p ∈ ip.starting ↔ p ∈ ip.packages ∧ ∀ b, ¬ Needs nx' cfg.noRecommended p b := by
    intro p; rw [hpl.start]; unfold InstallPlan.packages; rw [hpl.mem]
  have hnd := List.nodup_append.1 hpl.nodup
  refine ⟨hstart, fun p => ?_, hnd.1, hnd.2.1, ?_⟩
  · constructor
    · intro hp
      refine ⟨List.mem_append_right _ hp, ?_⟩
      by_contra hno
      have : p ∈ ip.starting := (hstart p).2 ⟨List.mem_append_right _ hp, fun b hb => hno ⟨b, hb⟩⟩
      exact hnd.2.2 p this p hp rfl
    · rintro ⟨hp, b, hb⟩
      rcases List.mem_append.1 hp with hp | hp
      · exact absurd hb (((hstart p).1 hp).2 b)
      · exact hp
  · intro h0
    obtain ⟨r, hr⟩ := List.exists_mem_of_ne_nil _ hok.nonempty
    have hrp : r ∈ ip.packages := (hpl.mem r).2 (.requested hr)
    refine absurd (exists_cycle (r := Needs nx' cfg.noRecommended) ip.packages (fun a => a ∈ ip.packages)
      ⟨r, hrp⟩ (fun _ h => h) (fun a ha => ?_)) ?_
    · have hns : a ∉ ip.starting := by rw [h0]; simp
      rw [hstart] at hns
      rw [not_and] at hns
      have := hns ha
      rw [not_forall] at this
      obtain ⟨b, hb⟩ := this
      rw [not_not] at hb
      exact ⟨b, (hpl.mem b).2 (.needed ((hpl.mem a).1 ha) hb), hb⟩
    · rintro ⟨a, ha⟩
      have hex : Available nx' a := by
        obtain ⟨c, hc, _⟩ := Relation.TransGen.head'_iff.1 ha
        exact ⟨hc.choose, hc.choose_spec.1⟩
      -- a cycle anywhere reachable: take the cycle inside the plan
      obtain ⟨b, hb, hcyc⟩ : ∃ b, b ∈ ip.packages ∧ Relation.TransGen (Needs nx' cfg.noRecommended) b b := by
        by_contra hno
        refine absurd (exists_cycle (r := fun x y => Needs nx' cfg.noRecommended x y ∧ x ∈ ip.packages)
          ip.packages (fun a => a ∈ ip.packages) ⟨r, hrp⟩ (fun _ h => h) (fun x hx => ?_)) ?_
        · have hns : x ∉ ip.starting := by rw [h0]; simp
          rw [hstart, not_and] at hns
          have := hns hx
          rw [not_forall] at this
          obtain ⟨b, hb⟩ := this
          rw [not_not] at hb
          exact ⟨b, (hpl.mem b).2 (.needed ((hpl.mem x).1 hx) hb), hb, hx⟩
        · rintro ⟨x, hx⟩
          refine hno ⟨x, ?_, ?_⟩
          · obtain ⟨c, hc, _⟩ := Relation.TransGen.head'_iff.1 hx; exact hc.2
          · exact Relation.TransGen.mono (p := Needs nx' cfg.noRecommended) (fun _ _ h => h.1) _ _ hx
      exact hpl.acyclic b ((hpl.mem b).1 hb) hcyc

/-- C26: the download list has exactly one entry for every planned package, with the description and
configuration that resolving the package gives. -/
theorem C26_downloads {cfg : PlanCfg} {nx nx' : Nexus} {installed : GoMap Desc} {libEx : Bool}
    {tb ds : List Desc} {add : GoMap AdditionalPkg} {ρ ρ' ρ'' : Order} {req : List Str} {ip : InstallPlan}
    (hk : Keyed nx) (hR : NoR nx) (hρ : ρ''.Fair)
    (h : planInstall cfg nx installed libEx tb ds add ρ ρ' ρ'' = .planned req nx' ip) :
    (ip.downloads.map (fun dl => dl.package.package)).Perm ip.packages ∧
    ∀ dl ∈ ip.downloads, Resolves nx' dl.package.package dl := by
  obtain ⟨_, _, _, cfgs, hok⟩ := planInstall_planned hk hR hρ h
  have hk' : Keyed nx' := by intro db hd; rw [hok.db] at hd; exact keyed_ignore hk _ db hd
  obtain ⟨l, hl, hd⟩ := hok.plan.downloads
  have hlook : ∀ p ∈ l, ∃ dl, getPackage nx' p = some dl ∧ dl.package.package = p := by
    intro p hp
    obtain ⟨dl, hdl⟩ := available_iff.1 (hok.plan.avail p ((hok.plan.mem p).1 (hl.mem_iff.1 hp)))
    exact ⟨dl, hdl, getPackage_keyed hk' hdl⟩
  constructor
  · rw [hd, List.map_map]
    have : l.map ((fun dl : PkgDl => dl.package.package) ∘ fun p => (getPackage nx' p).getD {}) = l := by
      conv => rhs; rw [← List.map_id l]
      refine List.map_congr_left fun p hp => ?_
      obtain ⟨dl, h1, h2⟩ := hlook p hp
      simp [h1, h2]
    rw [this]; exact hl
  · intro dl hdl
    rw [hd] at hdl
    obtain ⟨p, hp, rfl⟩ := List.mem_map.1 hdl
    obtain ⟨dl, h1, h2⟩ := hlook p hp
    rw [resolves_iff]
    simp [h1, h2]

/-- Non-vacuity of C24-C26: a plan of three packages in three layers. -/
example : (match planInstall { packages := [s%"a"] } planNexus [] true [] [] [] idOrder idOrder idOrder with
    | .planned _ _ ip => some (ip.starting, ip.depDb, ip.downloads.map (·.package.package))
    | _ => none) =
    some ([s%"c"], [(s%"a", [s%"c", s%"b"]), (s%"b", [s%"c"])], [s%"c", s%"a", s%"b"]) := by decide

/-! ### C16 at plan level -/

/-- C16: an ignored package is in no plan: not among its packages, not among its downloads; and asking for
one explicitly is reported as missing. -/
theorem C16_never_planned {cfg : PlanCfg} {nx nx' : Nexus} {installed : GoMap Desc} {libEx : Bool}
    {tb ds : List Desc} {add : GoMap AdditionalPkg} {ρ ρ' ρ'' : Order} {req : List Str} {ip : InstallPlan}
    (hk : Keyed nx) (hR : NoR nx) (hρ : ρ''.Fair)
    (h : planInstall cfg nx installed libEx tb ds add ρ ρ' ρ'' = .planned req nx' ip) {p : Str}
    (hp : p ∈ cfg.ignore) :
    p ∉ ip.packages ∧ p ∉ req ∧ ∀ dl ∈ ip.downloads, dl.package.package ≠ p := by
  obtain ⟨_, _, _, cfgs, hok⟩ := planInstall_planned hk hR hρ h
  have hno : ¬ Available nx' p := by
    rintro ⟨dl, hdl⟩
    obtain ⟨db, hdb, hh⟩ : ∃ db ∈ nx'.db, ∃ st, GoMap.has (db.table st) p = true := by
      have : ∀ dbs : List RepoDb, getPackageLoop nx' p dbs = some dl →
          ∃ db ∈ dbs, ∃ st, GoMap.has (db.table st) p = true := by
        intro dbs
        induction dbs with
        | nil => intro h; cases h
        | cons db dbs ih =>
          intro h
          unfold getPackageLoop at h
          dsimp only at h
          split at h
          · next d hd => exact ⟨db, by simp, _, by unfold GoMap.has; rw [hd]; rfl⟩
          · obtain ⟨db', h1, h2⟩ := ih h
            exact ⟨db', by simp [h1], h2⟩
      exact this _ (resolves_iff.1 hdl)
    rw [hok.db] at hdb
    simp only [ignorePackages, List.mem_map] at hdb
    obtain ⟨db0, _, rfl⟩ := hdb
    obtain ⟨st, hst⟩ := hh
    rw [GoMap.has, ignore_fold_get?, if_pos hp] at hst
    cases hst
  have hnp : p ∉ ip.packages := fun hin => hno (hok.plan.avail p ((hok.plan.mem p).1 hin))
  refine ⟨hnp, fun hr => hno (hok.avail p hr), fun dl hdl he => ?_⟩
  obtain ⟨h1, _⟩ := C26_downloads hk hR hρ h
  exact hnp (h1.mem_iff.1 (he ▸ List.mem_map_of_mem hdl))

example : (match planInstall { packages := [s%"a"], ignore := [s%"b"] } planNexus [] true [] [] []
      idOrder idOrder idOrder with
    | .planned _ _ ip => ip.packages
    | _ => []) = [s%"a"] := by decide

/-! ### C27 -/

/-- C27: in the inverted table, `b` is listed under `a` iff `a` is listed under `b`; every listed name occurs
once, in alphabetical order; a package nobody depends on has no entry. -/
theorem C27_inverse_exact {ρ : Order} (hρ : ρ.Fair) (t : Nat) {ddb : GoMap (List Str)}
    (hwf : (GoMap.keys ddb).Nodup) (hnd : ∀ p ds, GoMap.get? ddb p = some ds → ds.Nodup) (a : Str) :
    (∀ l, GoMap.get? (invertDependencies ρ t ddb) a = some l →
      (∀ b, b ∈ l ↔ ∃ ds, GoMap.get? ddb b = some ds ∧ a ∈ ds) ∧ l.Nodup ∧
      l.Pairwise (fun x y => strLe x y = true)) ∧
    (GoMap.get? (invertDependencies ρ t ddb) a = none ↔ ∀ b ds, GoMap.get? ddb b = some ds → a ∉ ds) := by
  have hget := get?_invert ρ t ddb hnd a
  generalize hl : (ρ t (GoMap.keys ddb)).filter (fun b => a ∈ (GoMap.get? ddb b).getD []) = l0 at hget
  have hmem : ∀ b, b ∈ l0 ↔ ∃ ds, GoMap.get? ddb b = some ds ∧ a ∈ ds := by
    intro b
    rw [← hl, List.mem_filter, (hρ _ _).mem_iff]
    constructor
    · rintro ⟨h1, h2⟩
      obtain ⟨ds, hds⟩ := GoMap.exists_get?_of_mem h1
      rw [hds] at h2
      exact ⟨ds, hds, by simpa using h2⟩
    · rintro ⟨ds, hds, hb⟩
      exact ⟨GoMap.mem_keys_of_get? hds, by simp [hds, hb]⟩
  have hnd0 : l0.Nodup := by rw [← hl]; exact ((hρ _ _).nodup_iff.2 hwf).filter _
  dsimp only at hget
  constructor
  · intro l h
    rw [hget] at h
    split at h
    · cases h
    · cases h
      refine ⟨fun b => ?_, ?_, sortStrings_sorted _⟩
      · rw [(sortStrings_perm l0).mem_iff, hmem]
      · exact (sortStrings_perm l0).nodup_iff.2 hnd0
  · rw [hget]
    constructor
    · intro h b ds hb ha
      split at h
      · next h0 =>
        have := (hmem b).2 ⟨ds, hb, ha⟩
        rw [h0] at this; simp at this
      · cases h
    · intro h
      rw [if_pos]
      rw [List.eq_nil_iff_forall_not_mem]
      intro b hb
      obtain ⟨ds, h1, h2⟩ := (hmem b).1 hb
      exact h b ds h1 h2

/-- C27: the order `strLe` used for sorting is the lexicographic order of the characters' code points. -/
theorem C27_order_is_lexicographic (a b : Str) : strLe a b = true ↔
    a <+: b ∨ ∃ p x y s t, a = p ++ x :: s ∧ b = p ++ y :: t ∧ x.toNat < y.toNat := by
  induction a generalizing b with
  | nil => simp [strLe]
  | cons c a ih =>
    cases b with
    | nil =>
      simp only [strLe]
      constructor
      · intro h; cases h
      · rintro (h | ⟨p, x, y, s, t, _, h, _⟩)
        · simp at h
        · cases p <;> simp at h
    | cons d b =>
      unfold strLe
      by_cases h1 : c.toNat < d.toNat
      · simp only [h1, if_true, true_iff]
        exact Or.inr ⟨[], c, d, a, b, rfl, rfl, h1⟩
      · by_cases h2 : d.toNat < c.toNat
        · rw [if_neg h1, if_pos h2]
          constructor
          · intro h; cases h
          · rintro (h | ⟨p, x, y, s, t, ha, hb, hlt⟩)
            · rw [List.cons_prefix_cons] at h; rw [h.1] at h2; omega
            · cases p with
              | nil => simp at ha hb; rw [← ha.1, ← hb.1] at hlt; omega
              | cons e p => simp at ha hb; rw [ha.1, hb.1] at h2; omega
        · rw [if_neg h1, if_neg h2, ih]
          have hcd : c = d := by
            apply Char.ext; apply UInt32.toNat_inj.1
            have : c.toNat = d.toNat := by omega
            exact this
          subst hcd
          constructor
          · rintro (h | ⟨p, x, y, s, t, ha, hb, hlt⟩)
            · exact Or.inl (by rw [List.cons_prefix_cons]; exact ⟨rfl, h⟩)
            · exact Or.inr ⟨c :: p, x, y, s, t, by rw [ha]; rfl, by rw [hb]; rfl, hlt⟩
          · rintro (h | ⟨p, x, y, s, t, ha, hb, hlt⟩)
            · rw [List.cons_prefix_cons] at h; exact Or.inl h.2
            · cases p with
              | nil => simp at ha hb; rw [← ha.1, ← hb.1] at hlt; omega
              | cons e p =>
                simp at ha hb
                exact Or.inr ⟨p, x, y, s, t, ha.2, hb.2, hlt⟩

example : invertDependencies revOrder 0 [(s%"a", [s%"c", s%"b"]), (s%"b", [s%"c"])]
    = [(s%"b", [s%"a"]), (s%"c", [s%"a", s%"b"])] := by decide

/-! ### C28 -/

/-- Does the configuration ask for the suggested packages of `p`?  Its own setting if it has one, else the
global one if it is listed in the configuration. -/
def wantsSuggests (cfg : PlanCfg) (p : Str) : Prop :=
  (∃ e ∈ cfg.customizations, e.1 = p ∧ e.2.suggests = some true) ∨
  ((∀ e ∈ cfg.customizations, e.1 = p → e.2.suggests = none) ∧ cfg.suggests = true ∧ p ∈ cfg.packages)

theorem sugOn_wants {cfg : PlanCfg} {nx nx' : Nexus} {cfgs : InstallDeps} (huniq : (cfg.customizations.map Prod.fst).Nodup)
    (hcu : setPlanCustomizations cfg.suggests cfg.packages cfg.customizations (defaultCfgs cfg.noRecommended) nx = some (cfgs, nx')) :
    SugOn cfgs = wantsSuggests cfg := by
  funext q
  have hget := viper_fold_suggests cfg.customizations huniq cfg.customizations _ _ (fun _ h => h) huniq hcu q
  obtain ⟨k1, k2⟩ := setCfg_spec cfg.suggests cfg.packages (defaultCfgs cfg.noRecommended)
  have hdef : cfgs.default.suggests = false := by
    have := (viper_fold_inv _ _ _ _ hcu).2.2.1
    rw [this, k1]; rfl
  have hbase : GoMap.get? (defaultCfgs cfg.noRecommended).deps q = none := rfl
  dsimp only at hget
  rw [k2 q, hbase] at hget
  rw [k1] at hget
  apply propext
  have hent : ∀ e ∈ cfg.customizations, e.1 = q → GoMap.get? cfg.customizations q = some e.2 := by
    intro e he hq; exact hq ▸ GoMap.get?_of_mem huniq he
  unfold SugOn wantsSuggests
  rw [hdef]
  cases hc : GoMap.get? cfg.customizations q with
  | none =>
    rw [hc] at hget
    have hno : ∀ e ∈ cfg.customizations, e.1 = q → e.2.suggests = none := by
      intro e he hq; rw [hent e he hq] at hc; cases hc
    have hno2 : ¬ ∃ e ∈ cfg.customizations, e.1 = q ∧ e.2.suggests = some true := by
      rintro ⟨e, he, hq, _⟩; rw [hent e he hq] at hc; cases hc
    dsimp only at hget
    rw [hget]
    by_cases hg : cfg.suggests = true ∧ q ∈ cfg.packages
    · rw [if_pos hg]
      simp only [hno2, false_or]
      exact ⟨fun _ => ⟨hno, hg⟩, fun _ => Or.inl ⟨_, rfl, rfl⟩⟩
    · rw [if_neg hg]
      simp only [hno2, false_or]
      constructor
      · rintro (⟨c, hc, _⟩ | ⟨_, hf⟩)
        · cases hc
        · cases hf
      · rintro ⟨_, h⟩; exact absurd h hg
  | some st =>
    have hmem : (q, st) ∈ cfg.customizations := GoMap.mem_of_get? hc
    rw [hc] at hget
    have hall : ∀ e ∈ cfg.customizations, e.1 = q → e.2 = st := by
      intro e he hq
      have := hent e he hq
      rw [hc] at this; cases this; rfl
    obtain ⟨su, re, ty⟩ := st
    cases su with
    | some v =>
      dsimp only at hget
      rw [hget]
      constructor
      · rintro (⟨c, hcc, hs⟩ | ⟨hn, _⟩)
        · cases hcc
          simp only at hs
          exact Or.inl ⟨_, hmem, rfl, by rw [hs]⟩
        · cases hn
      · rintro (⟨e, he, hq, hs⟩ | ⟨hn, _⟩)
        · rw [hall e he hq] at hs
          simp only [Option.some.injEq] at hs
          exact Or.inl ⟨_, rfl, hs⟩
        · have := hn _ hmem rfl
          cases this
    | none =>
      dsimp only at hget
      rw [hget]
      have hno : ∀ e ∈ cfg.customizations, e.1 = q → e.2.suggests = none := by
        intro e he hq; rw [hall e he hq]
      have hno2 : ¬ ∃ e ∈ cfg.customizations, e.1 = q ∧ e.2.suggests = some true := by
        rintro ⟨e, he, hq, h⟩; rw [hno e he hq] at h; cases h
      by_cases hg : cfg.suggests = true ∧ q ∈ cfg.packages
      · rw [if_pos hg]
        simp only [hno2, false_or]
        exact ⟨fun _ => ⟨hno, hg⟩, fun _ => Or.inl ⟨_, rfl, rfl⟩⟩
      · rw [if_neg hg]
        simp only [hno2, false_or]
        constructor
        · rintro (⟨c, hc, _⟩ | ⟨_, hf⟩)
          · cases hc
          · cases hf
        · rintro ⟨_, h⟩; exact absurd h hg

/-- C28, partial: when no package has two customization entries, the packages of a plan are exactly the
requested packages, everything they need, and the suggestions of those planned packages for which the
configuration asks (own setting, else the global one for listed packages). Missing: configurations with two
entries for one package, see `C28_violated_duplicate_entries`. -/
theorem C28_suggests_partial {cfg : PlanCfg} {nx nx' : Nexus} {installed : GoMap Desc} {libEx : Bool}
    {tb ds : List Desc} {add : GoMap AdditionalPkg} {ρ ρ' ρ'' : Order} {req : List Str} {ip : InstallPlan}
    (hk : Keyed nx) (hR : NoR nx) (hρ : ρ''.Fair) (huniq : (cfg.customizations.map Prod.fst).Nodup)
    (h : planInstall cfg nx installed libEx tb ds add ρ ρ' ρ'' = .planned req nx' ip) (p : Str) :
    p ∈ ip.packages ↔ InPlan nx' cfg.noRecommended (wantsSuggests cfg) req p := by
  obtain ⟨_, _, _, cfgs, hok⟩ := planInstall_planned hk hR hρ h
  have hsug : SugOn cfgs = wantsSuggests cfg := sugOn_wants huniq hok.custom
  rw [← hsug]
  exact hok.plan.mem p

/-- C28 is violated when a package has two customization entries: a second entry that says nothing about
Suggests (for example one that only sets an environment variable) switches off the Suggests that the first
one asked for, so `s` is not planned; and if one of them sets the type, planning ends with a fatal error. -/
theorem C28_violated_duplicate_entries :
    (match planInstall { packages := [s%"a"], customizations := [(s%"a", { suggests := some true })] }
        planNexus [] true [] [] [] idOrder idOrder idOrder with
      | .planned _ _ ip => ip.packages.contains (s%"s")
      | _ => false) = true ∧
    (match planInstall { packages := [s%"a"], customizations := [(s%"a", { suggests := some true }), (s%"a", {})] }
        planNexus [] true [] [] [] idOrder idOrder idOrder with
      | .planned _ _ ip => ip.packages.contains (s%"s")
      | _ => true) = false ∧
    planInstall
      { packages := [s%"a"], customizations := [(s%"a", { suggests := some true }), (s%"a", { type := some (s%"source") })] }
      planNexus [] true [] [] [] idOrder idOrder idOrder = .badCustomization := by
  refine ⟨by decide, by decide, by decide⟩

/-- Non-vacuity of C28: global Suggests plans the suggestions of `a` but not those of the suggested `s`;
a per-package setting of false overrides it. -/
example : (match planInstall { packages := [s%"a"], suggests := true } planNexus [] true [] [] [] idOrder idOrder idOrder with
    | .planned _ _ ip => (ip.packages.contains (s%"s"), ip.packages.contains (s%"t"))
    | _ => (false, false)) = (true, false) ∧
    (match planInstall { packages := [s%"a", s%"s"], suggests := true, customizations := [(s%"a", { suggests := some false })] }
      planNexus [] true [] [] [] idOrder idOrder idOrder with
    | .planned _ _ ip => (ip.packages.contains (s%"Matrix"), ip.packages.contains (s%"t"))
    | _ => (false, false)) = (false, true) := ⟨by decide, by decide⟩

/-! ### C29 -/

/-- C29, partial: what is requested, exactly: the configured packages, the Imports and LinkingTo of every
tarball, and the Imports, LinkingTo and Suggests of every DESCRIPTION file, except base packages. Missing:
their Depends, see `C29_violated`. -/
theorem C29_requested_partial (cfg : PlanCfg) (tb ds : List Desc) {ρ ρ' : Order} (hρ : ρ.Fair) (hρ' : ρ'.Fair)
    (p : Str) :
    p ∈ requestedPackages cfg tb ds ρ ρ' ↔ p ∉ basePkgs ∧ (p ∈ cfg.packages ∨
      (∃ d ∈ tb, p ∈ GoMap.keys d.imports ∨ p ∈ GoMap.keys d.linkingTo) ∨
      (∃ d ∈ ds, p ∈ GoMap.keys d.imports ∨ p ∈ GoMap.keys d.linkingTo ∨ p ∈ GoMap.keys d.suggests)) := by
  unfold requestedPackages
  rw [mem_removeBase, mem_requestAll hρ', mem_requestAll hρ]
  simp only [mem_combinedDeps, Bool.false_eq_true, false_and, or_false, true_and]
  constructor
  · rintro ⟨(h | h) | h, h2⟩ <;> simp [h, h2]
  · rintro ⟨h2, h | h | h⟩ <;> simp [h, h2]

/-- C29 is violated: a tarball or DESCRIPTION that needs `c` through Depends does not get it requested. -/
theorem C29_violated (ρ ρ' : Order) (hρ : ρ.Fair) (hρ' : ρ'.Fair) :
    s%"c" ∈ GoMap.keys (Desc.mk [] [] [] [] [] [] [toyDep (s%"c")] [] [] [] []).depends ∧
    s%"c" ∉ requestedPackages {} [Desc.mk [] [] [] [] [] [] [toyDep (s%"c")] [] [] [] []]
      [Desc.mk [] [] [] [] [] [] [toyDep (s%"c")] [] [] [] []] ρ ρ' := by
  refine ⟨by decide, ?_⟩
  rw [C29_requested_partial _ _ _ hρ hρ']
  simp

example : requestedPackages { packages := [s%"a"] } [{ imports := [toyDep (s%"b"), toyDep (s%"stats")] }]
    [{ suggests := [toyDep (s%"t")], linkingTo := [toyDep (s%"a")] }] idOrder idOrder = [s%"a", s%"b", s%"t"] := by decide

/-! ### C30 -/

/-- C30 is violated: resolving an empty package list never gives a plan; with nothing installed it panics
on the empty layer list, for all settings and databases. -/
theorem C30_violated (cfgs : InstallDeps) (nx : Nexus) (update libEx nr : Bool) (ρ : Order) (hρ : ρ.Fair) :
    (∀ installed ip, resolveInstallationReqs [] installed cfgs nx update libEx nr ρ ≠ .ok ip) ∧
    resolveInstallationReqs [] [] cfgs nx update libEx nr ρ = .error .indexPanic := by
  constructor
  · intro installed ip h
    obtain ⟨e, he, _⟩ := resolve_empty installed cfgs nx update libEx nr ρ
    rw [he] at h; cases h
  · unfold resolveInstallationReqs buildGraph resolveLayers
    have h0 : ∀ t, ρ t (GoMap.keys ([] : GoMap Desc)) = [] := fun t => (hρ t []).eq_nil
    have h1 : layerLoop ρ (List.length ([] : Graph)) 0 (nodeDependencies [] nr) = some [] := rfl
    have h2 : ∀ t, (List.drop 1 ([] : List (List Str))).flatten.foldlM (depDbStep nx ρ nr) (t, []) = .ok (t, []) :=
      fun t => rfl
    simp only [List.foldlM_nil, pure]
    rw [h1]
    dsimp only
    rw [h2]
    dsimp only
    rw [h0]
    rfl

/-! ### C31 -/

/-- C31: the outdated list of a plan names exactly the installed packages that a repository offers in a
strictly newer version, with both versions; no package is named twice. (`hne`: installed packages have
names; pacman rejects descriptions without one.) -/
theorem C31_outdated_exact {nx : Nexus} {ρ : Order} {cfgs : InstallDeps} {nr : Bool} (hk : Keyed nx)
    (hR : NoR nx) (hρ : ρ.Fair) (hu : Uniform cfgs nr) {pkgs : List Str} (hnp : pkgs ≠ [])
    (hav : ∀ p ∈ pkgs, Available nx p) {installed : GoMap Desc} (hwf : (GoMap.keys installed).Nodup)
    (hne : GoMap.get? installed [] = none) {update libEx : Bool} {ip : InstallPlan}
    (h : resolveInstallationReqs pkgs installed cfgs nx update libEx nr ρ = .ok ip) :
    (∀ o, o ∈ ip.outdated ↔ ∃ d dl, GoMap.get? installed o.package = some d ∧
      Resolves nx o.package dl ∧ o.oldVersion = d.version ∧ o.newVersion = dl.package.version ∧
      compareVersionStrings d.version dl.package.version = some (-1)) ∧
    (ip.outdated.map (·.package)).Nodup := by
  rcases resolve_cases hk hρ hu (noR_not_available hR) hnp hav installed update libEx with
    ⟨h1, _⟩ | ⟨_, t, ⟨_, h3⟩ | ⟨outd, ip', ho, h3, _, hod, _⟩⟩
  · rw [h1] at h; cases h
  · rw [h3] at h; cases h
  · rw [h3] at h; cases h
    rw [hod]
    rw [getPackages_packages] at ho
    have hl : outd = (List.map (fun p => (getPackage nx p).getD {}) (ρ t (GoMap.keys installed))).filterMap
        (outdatedEntry installed) := by
      rcases getOutdated_cases installed (List.map (fun p => (getPackage nx p).getD {}) (ρ t (GoMap.keys installed))) with
        ⟨h, _⟩ | ⟨h, _⟩
      · rw [h] at ho; cases ho
      · rw [h] at ho; cases ho; rfl
    have hentry : ∀ p o, outdatedEntry installed ((getPackage nx p).getD {}) = some o →
        o.package = p ∧ ∃ d dl, GoMap.get? installed p = some d ∧ getPackage nx p = some dl ∧
          o.oldVersion = d.version ∧ o.newVersion = dl.package.version ∧
          ∃ c, compareVersionStrings dl.package.version d.version = some c ∧ c > 0 := by
      intro p o ho'
      unfold outdatedEntry at ho'
      cases hg : getPackage nx p with
      | none =>
        rw [hg] at ho'
        simp only [Option.getD_none] at ho'
        rw [hne] at ho'; cases ho'
      | some dl =>
        rw [hg] at ho'
        simp only [Option.getD_some] at ho'
        rw [getPackage_keyed hk hg] at ho'
        cases hi : GoMap.get? installed p with
        | none => rw [hi] at ho'; cases ho'
        | some d =>
          rw [hi] at ho'
          dsimp only at ho'
          split at ho'
          · cases ho'
          · next c hc =>
            split at ho'
            · next hpos => cases ho'; exact ⟨rfl, d, dl, rfl, rfl, rfl, rfl, c, hc, hpos⟩
            · cases ho'
    have hcmp : ∀ v w : Str, (∃ c, compareVersionStrings v w = some c ∧ c > 0) ↔
        compareVersionStrings w v = some (-1) := by
      intro v w
      unfold compareVersionStrings
      cases hv : parseVersion v with
      | none => simp
      | some a =>
        cases hw : parseVersion w with
        | none => simp
        | some b =>
          simp only [Option.some.injEq, exists_eq_left']
          have h1 := C01_compare_antisymm a b
          have h2 := C01_compare_range a b
          constructor <;> intro hc <;> omega
    constructor
    · intro o
      rw [hl, List.mem_filterMap]
      constructor
      · rintro ⟨dl0, hdl0, he⟩
        obtain ⟨p, hp, rfl⟩ := List.mem_map.1 hdl0
        obtain ⟨rfl, d, dl, a1, a2, a3, a4, a5⟩ := hentry p o he
        exact ⟨d, dl, a1, resolves_iff.2 a2, a3, a4, (hcmp _ _).1 a5⟩
      · rintro ⟨d, dl, a1, a2, a3, a4, a5⟩
        rw [resolves_iff] at a2
        refine ⟨dl, ?_, ?_⟩
        · rw [List.mem_map]
          exact ⟨o.package, (hρ _ _).mem_iff.2 (GoMap.mem_keys_of_get? a1), by rw [a2]; rfl⟩
        · obtain ⟨c, hc, hpos⟩ := (hcmp _ _).2 a5
          unfold outdatedEntry
          rw [getPackage_keyed hk a2, a1]
          rw [← a3, ← a4] at hc
          simp only [← a3, ← a4, hc, hpos, if_true]
    · rw [hl]
      have hndk : (ρ t (GoMap.keys installed)).Nodup := (hρ _ _).nodup_iff.2 hwf
      have hmap : (List.filterMap (outdatedEntry installed)
          (List.map (fun p => (getPackage nx p).getD {}) (ρ t (GoMap.keys installed)))).map (·.package) =
          (ρ t (GoMap.keys installed)).filter
            (fun p => (outdatedEntry installed ((getPackage nx p).getD {})).isSome) := by
        generalize ρ t (GoMap.keys installed) = ks
        induction ks with
        | nil => rfl
        | cons k ks ih =>
          rw [List.map_cons, List.filterMap_cons]
          cases he : outdatedEntry installed ((getPackage nx k).getD {}) with
          | none => rw [List.filter_cons, he]; simpa using ih
          | some o =>
            rw [List.filter_cons, he]
            simp only [List.map_cons, Option.isSome_some, if_true]
            rw [(hentry k o he).1, ih]
      rw [hmap]
      exact hndk.filter _

/-- C31: never a downgrade: for versions made of two to four numbers, an outdated entry's new version is
larger in the numeric order. -/
theorem C31_never_a_downgrade {v w : Str} {ns ms : List Nat} (hv : Denotes v ns) (hw : Denotes w ms)
    (hl : 2 ≤ ns.length ∧ ns.length ≤ 4) (hl' : 2 ≤ ms.length ∧ ms.length ≤ 4)
    (hnb : ∀ n ∈ ns, n < 2 ^ 63) (hmb : ∀ n ∈ ms, n < 2 ^ 63)
    (h : compareVersionStrings v w = some (-1)) : cmpPadded ns ms = -1 := by
  rw [C02_text_compare hv hw hl hl' hnb hmb] at h
  exact Option.some.inj h

example : (match resolveInstallationReqs [s%"a"] [(s%"b", { package := s%"b", version := s%"1.0" }),
      (s%"c", { package := s%"c", version := s%"2.0" }), (s%"zz", { package := s%"zz", version := s%"9.9" })]
      (defaultCfgs true) planNexus true true true idOrder with
    | .ok ip => ip.outdated | _ => []) = [⟨s%"b", s%"1.0", s%"1.1"⟩] := by decide

/-! ### C32 -/

/-- Must `p` be installed by this plan?  A tarball always; a planned package if it is not installed, or if
it is to be updated. -/
def mustInstall (ip : InstallPlan) (p : Str) : Bool :=
  GoMap.has ip.additional p || !GoMap.has ip.installed p ||
    (ip.update && (ip.outdated.map (·.package)).contains p)

/-- C32, partial: when no tarball is also planned from a repository and every outdated package is planned
and installed (and named once), the number reported is the number of planned packages and tarballs that
must be installed.  Missing: outdated packages outside the plan, see `C32_violated`. -/
theorem C32_count_partial {ip : InstallPlan}
    (hnd : (ip.packages ++ GoMap.keys ip.additional).Nodup) (hi : (GoMap.keys ip.installed).Nodup)
    (ho : (ip.outdated.map (·.package)).Nodup)
    (hsub : ∀ o ∈ ip.outdated, o.package ∈ ip.packages ∧ o.package ∈ GoMap.keys ip.installed) :
    ip.numToInstall = ((ip.packages ++ GoMap.keys ip.additional).countP (mustInstall ip) : Int) := by
  have hreq : ip.allPackages (fun _ l => l) 0 = ip.packages ++ GoMap.keys ip.additional := rfl
  unfold InstallPlan.numToInstall
  simp only [hreq]
  generalize hR : ip.packages ++ GoMap.keys ip.additional = R at *
  have hpR : ∀ p ∈ ip.packages, p ∈ R := fun p hp => hR ▸ List.mem_append_left _ hp
  have hdis : ∀ p, p ∈ ip.packages → p ∉ GoMap.keys ip.additional := by
    intro p hp ha
    rw [← hR, List.nodup_append] at hnd
    exact hnd.2.2 p hp p ha rfl
  -- installed ∩ required, counted on either side
  have hswap : (GoMap.keys ip.installed).countP (fun p => R.contains p && !GoMap.has ip.additional p) =
      R.countP (fun p => (GoMap.keys ip.installed).contains p && !GoMap.has ip.additional p) := by
    rw [List.countP_eq_length_filter, List.countP_eq_length_filter]
    refine (List.Perm.length_eq ?_)
    rw [List.perm_ext_iff_of_nodup (hi.filter _) (hnd.filter _)]
    intro p
    simp only [List.mem_filter, Bool.and_eq_true, List.contains_iff_mem]
    constructor <;> rintro ⟨h1, h2, h3⟩ <;> exact ⟨h2, h1, h3⟩
  have hout : (if ip.update = true then ip.outdated.length else 0) =
      R.countP (fun p => ip.update && (ip.outdated.map (·.package)).contains p) := by
    cases hup : ip.update
    · simp
    · simp only [if_true, Bool.true_and]
      rw [List.countP_eq_length_filter]
      have : (R.filter fun p => (ip.outdated.map (·.package)).contains p).Perm (ip.outdated.map (·.package)) := by
        rw [List.perm_ext_iff_of_nodup (hnd.filter _) ho]
        intro p
        simp only [List.mem_filter, List.contains_iff_mem]
        constructor
        · exact fun h => h.2
        · intro h
          refine ⟨?_, h⟩
          obtain ⟨o, ho', rfl⟩ := List.mem_map.1 h
          exact hpR _ (hsub o ho').1
      rw [this.length_eq, List.length_map]
  rw [hswap]
  have hcast : ((if ip.update = true then (ip.outdated.length : Int) else 0)) =
      ((if ip.update = true then ip.outdated.length else 0 : Nat) : Int) := by split <;> rfl
  have key : ∀ L : List Str, (∀ p ∈ L, p ∈ R) →
      L.countP (mustInstall ip) + L.countP (fun p => (GoMap.keys ip.installed).contains p && !GoMap.has ip.additional p) =
      L.length + L.countP (fun p => ip.update && (ip.outdated.map (·.package)).contains p) := by
    intro L
    induction L with
    | nil => intro _; rfl
    | cons p L ih =>
      intro hL
      have ih := ih fun q hq => hL q (by simp [hq])
      rw [List.countP_cons, List.countP_cons, List.countP_cons, List.length_cons]
      have hone : (if mustInstall ip p = true then 1 else 0) +
          (if ((GoMap.keys ip.installed).contains p && !GoMap.has ip.additional p) = true then 1 else 0) =
          1 + (if (ip.update && (ip.outdated.map (·.package)).contains p) = true then 1 else 0) := by
        have hinst : (GoMap.keys ip.installed).contains p = GoMap.has ip.installed p := by
          rw [Bool.eq_iff_iff, List.contains_iff_mem, GoMap.has_iff]
        rw [hinst]
        have himp : (ip.update && (ip.outdated.map (·.package)).contains p) = true →
            GoMap.has ip.installed p = true ∧ GoMap.has ip.additional p = false := by
          intro h
          simp only [Bool.and_eq_true, List.contains_iff_mem] at h
          obtain ⟨o, ho', rfl⟩ := List.mem_map.1 h.2
          have := hsub o ho'
          refine ⟨(GoMap.has_iff _ _).2 this.2, ?_⟩
          cases hh : GoMap.has ip.additional o.package
          · rfl
          · exact absurd ((GoMap.has_iff _ _).1 hh) (hdis _ this.1)
        unfold mustInstall
        clear hinst
        revert himp
        generalize GoMap.has ip.additional p = x
        generalize GoMap.has ip.installed p = y
        generalize (ip.update && (ip.outdated.map (·.package)).contains p) = z
        revert x y z
        decide
      omega
  have := key R fun _ h => h
  have hout' := hout
  omega

/-- C32 is violated: with an outdated installed package that is not part of the plan, the number reported
exceeds the number of packages to install (here everything planned is installed and current). -/
theorem C32_violated : ∃ ip, resolveInstallationReqs [s%"c"]
      [(s%"c", { package := s%"c", version := s%"2.0" }), (s%"b", { package := s%"b", version := s%"1.0" })]
      (defaultCfgs true) planNexus true true true idOrder = .ok ip ∧
    ip.numToInstall = 1 ∧ (ip.packages ++ GoMap.keys ip.additional).countP (mustInstall ip) = 0 :=
  ⟨_, rfl, by decide, by decide⟩

end Pkgr
