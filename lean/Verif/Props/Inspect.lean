/- C95-C99: what `pkgr inspect` and `pkgr load --all` show, and the command line of R. -/
import Verif.Spec.Inspect
import Verif.Props.Plan

namespace Pkgr
open Spec

/-! ### The tree -/

/-- What a successful run over a list of names gives: one branch for each name, in order. -/
theorem mapM_nodes {f : Str → Option (List DepTree)} (l : List Str) (h : ∀ d ∈ l, ∃ ks, f d = some ks) :
    ∃ r, (l.mapM fun d => (f d).map (fun ks => DepTree.node d ks)) = some r ∧ r.map DepTree.name = l ∧
      ∀ n ks, DepTree.node n ks ∈ r → f n = some ks := by
  induction l with
  | nil => exact ⟨[], rfl, rfl, by intro n ks hm; cases hm⟩
  | cons d l ih =>
    obtain ⟨r, hr, hn, hk⟩ := ih fun x hx => h x (List.mem_cons_of_mem _ hx)
    obtain ⟨ks, hd⟩ := h d List.mem_cons_self
    refine ⟨.node d ks :: r, ?_, by simp [hn, DepTree.name], ?_⟩
    · simp [List.mapM_cons, hd, hr]
    · intro n ks' hm
      rcases List.mem_cons.mp hm with hm | hm
      · cases hm; exact hd
      · exact hk n ks' hm

theorem mapM_congr' {f g : Str → Option DepTree} (l : List Str) (h : ∀ d ∈ l, f d = g d) : l.mapM f = l.mapM g := by
  induction l with
  | nil => rfl
  | cons d l ih =>
    rw [List.mapM_cons, List.mapM_cons, h d List.mem_cons_self, ih fun x hx => h x (List.mem_cons_of_mem _ hx)]

/-- A table of complete lists: no name twice in a list, no package in its own list, and with a package everything in
its list. -/
def CompleteLists (ddb : GoMap (List Str)) : Prop :=
  ∀ p ds, GoMap.get? ddb p = some ds → ds.Nodup ∧ p ∉ ds ∧
    ∀ q ∈ ds, ∀ es, GoMap.get? ddb q = some es → ∀ r ∈ es, r ∈ ds

theorem recurseDeps_some {ddb : GoMap (List Str)} (hc : CompleteLists ddb) :
    ∀ (n : Nat) (p : Str), ((GoMap.get? ddb p).getD []).length ≤ n →
      ∃ ts, (∀ fuel, n < fuel → recurseDeps ddb fuel p = some ts) ∧
        ∀ path ks, Below ts path ks →
          ks.map DepTree.name = sortStrings ((GoMap.get? ddb (path.getLast?.getD p)).getD []) := by
  intro n
  induction n with
  | zero =>
    intro p hp
    have h0 : (GoMap.get? ddb p).getD [] = [] := List.length_eq_zero_iff.mp (by omega)
    refine ⟨[], ?_, ?_⟩
    · intro fuel hf
      obtain ⟨k, rfl⟩ : ∃ k, fuel = k + 1 := ⟨fuel - 1, by omega⟩
      simp [recurseDeps, h0, sortStrings]
    · intro path ks hb
      cases hb with
      | here => simp [h0, sortStrings]
      | down hm _ => cases hm
  | succ n ih =>
    intro p hp
    have hlt : ∀ d ∈ sortStrings ((GoMap.get? ddb p).getD []), ((GoMap.get? ddb d).getD []).length ≤ n := by
      intro d hd
      have hd' : d ∈ (GoMap.get? ddb p).getD [] := (sortStrings_perm _).mem_iff.mp hd
      cases hg : GoMap.get? ddb p with
      | none => rw [hg] at hd'; cases hd'
      | some ds =>
        rw [hg] at hd' hp
        simp only [Option.getD_some] at hd' hp
        cases hq : GoMap.get? ddb d with
        | none => simp
        | some es =>
          simp only [Option.getD_some]
          have h1 := hc p ds hg
          have h2 := hc d es hq
          have hsub : es ⊆ ds.erase d := by
            intro r hr
            refine (List.mem_erase_of_ne ?_).mpr (h1.2.2 d hd' es hq r hr)
            rintro rfl
            exact h2.2.1 hr
          have hle := (List.subperm_of_subset h2.1 hsub).length_le
          rw [List.length_erase_of_mem hd'] at hle
          omega
    -- the branches do not depend on the fuel
    have hall : ∃ ts, ∀ fuel, n + 1 < fuel → recurseDeps ddb fuel p = some ts := by
      obtain ⟨r, hr, _, _⟩ := mapM_nodes (f := recurseDeps ddb (n + 1)) (sortStrings ((GoMap.get? ddb p).getD []))
        (fun d hd => by obtain ⟨ts, h1, _⟩ := ih d (hlt d hd); exact ⟨ts, h1 _ (by omega)⟩)
      refine ⟨r, ?_⟩
      intro fuel hf
      obtain ⟨k, rfl⟩ : ∃ k, fuel = k + 1 := ⟨fuel - 1, by omega⟩
      rw [recurseDeps, ← hr]
      refine mapM_congr' _ ?_
      intro d hd
      obtain ⟨ts, h1, _⟩ := ih d (hlt d hd)
      rw [h1 k (by omega), h1 (n + 1) (by omega)]
    obtain ⟨ts, hts⟩ := hall
    refine ⟨ts, hts, ?_⟩
    intro path ks hb
    obtain ⟨r, hr, hnm, hk⟩ := mapM_nodes (f := recurseDeps ddb (n + 1)) (sortStrings ((GoMap.get? ddb p).getD []))
      (fun d hd => by obtain ⟨ts, h1, _⟩ := ih d (hlt d hd); exact ⟨ts, h1 _ (by omega)⟩)
    have h2 := hts (n + 2) (by omega)
    rw [recurseDeps, hr] at h2
    cases h2
    cases hb with
    | here => simpa using hnm
    | @down _ ks0 _ d path' hm hb' =>
      have hd : d ∈ sortStrings ((GoMap.get? ddb p).getD []) := by
        rw [← hnm]; exact List.mem_map.mpr ⟨_, hm, rfl⟩
      obtain ⟨ts', h1, h3⟩ := ih d (hlt d hd)
      have : ks0 = ts' := Option.some.inj ((hk d ks0 hm).symm.trans (h1 (n + 1) (by omega)))
      subst this
      rw [h3 path' ks hb']
      cases path' with
      | nil => simp
      | cons x xs =>
        rw [List.getLast?_cons_cons]
        cases hl : (x :: xs).getLast? with
        | none => simp at hl
        | some y => simp

/-- The lines of a tree in which every branch shows exactly the names related to it are the chains of the relation. -/
theorem below_chain {R : Str → Str → Prop} :
    ∀ (path : List Str) (p : Str) (ts : List DepTree),
      (∀ path ks, Below ts path ks → ∀ b, b ∈ ks.map DepTree.name ↔ R (path.getLast?.getD p) b) →
      ((∃ ks, Below ts path ks) ↔ List.IsChain R (p :: path)) := by
  intro path
  induction path with
  | nil => intro p ts _; exact ⟨fun _ => List.IsChain.singleton _, fun _ => ⟨ts, .here ts⟩⟩
  | cons n path ih =>
    intro p ts h
    have hsub : ∀ ks, DepTree.node n ks ∈ ts →
        ∀ path ks', Below ks path ks' → ∀ b, b ∈ ks'.map DepTree.name ↔ R (path.getLast?.getD n) b := by
      intro ks hm path ks' hb b
      rw [h (n :: path) ks' (.down hm hb) b]
      cases path with
      | nil => simp
      | cons x xs =>
        rw [List.getLast?_cons_cons]
        cases hl : (x :: xs).getLast? with
        | none => simp at hl
        | some y => simp
    have hroot := h [] ts (.here ts)
    simp only [List.getLast?_nil, Option.getD_none] at hroot
    rw [List.isChain_cons_cons]
    constructor
    · rintro ⟨ks', hb⟩
      cases hb with
      | @down _ ks _ _ _ hm hb' =>
        exact ⟨(hroot n).mp (List.mem_map.mpr ⟨_, hm, rfl⟩), (ih n ks (hsub ks hm)).mp ⟨ks', hb'⟩⟩
    · rintro ⟨hR, hc⟩
      obtain ⟨t, hm, hn⟩ := List.mem_map.mp ((hroot n).mpr hR)
      cases t with
      | node n' ks =>
        simp only [DepTree.name] at hn
        subst hn
        obtain ⟨ks', hb⟩ := (ih n' ks (hsub ks hm)).mpr hc
        exact ⟨ks', .down hm hb⟩

/-- What the dependency table of a plan says. -/
theorem planned_lists {cfg : PlanCfg} {nx nx' : Nexus} {installed : GoMap Desc} {libEx : Bool}
    {tb ds : List Desc} {add : GoMap AdditionalPkg} {ρ ρ' ρ'' : Order} {req : List Str} {ip : InstallPlan}
    (hk : Keyed nx) (hR : NoR nx) (hρ : ρ''.Fair)
    (h : planInstall cfg nx installed libEx tb ds add ρ ρ' ρ'' = .planned req nx' ip) :
    CompleteLists ip.depDb ∧
    (∀ p, ((GoMap.get? ip.depDb p).getD []).length ≤ ip.packages.length) ∧
    ∀ p b, b ∈ (GoMap.get? ip.depDb p).getD [] ↔
      p ∈ ip.packages ∧ Relation.TransGen (Needs nx' cfg.noRecommended) p b := by
  refine ⟨?_, ?_, ?_⟩
  · intro p ds hp
    have h1 := C24_dependency_lists hk hR hρ h hp
    refine ⟨h1.1, h1.2.2.2, ?_⟩
    intro q hq es hes r hr
    have h2 := C24_dependency_lists hk hR hρ h hes
    exact (h1.2.1 r).mpr (((h1.2.1 q).mp hq).trans ((h2.2.1 r).mp hr))
  · intro p
    cases hp : GoMap.get? ip.depDb p with
    | none => simp
    | some ds =>
      have h1 := C24_dependency_lists hk hR hρ h hp
      exact (List.subperm_of_subset h1.1 h1.2.2.1).length_le
  · intro p b
    cases hp : GoMap.get? ip.depDb p with
    | none =>
      simp only [Option.getD_none, List.not_mem_nil, false_iff, not_and]
      intro hm ht
      have h2 := C25_starting_packages hk hR hρ h
      have : ∃ c, Needs nx' cfg.noRecommended p c := by
        cases Relation.TransGen.head'_iff.mp ht with
        | intro c hc => exact ⟨c, hc.1⟩
      exact (GoMap.get?_eq_none_iff _ _).mp hp ((h2.2.1 p).mpr ⟨hm, this⟩)
    | some ds =>
      have h1 := C24_dependency_lists hk hR hρ h hp
      simp only [Option.getD_some]
      rw [h1.2.1 b]
      refine ⟨fun ht => ⟨?_, ht⟩, fun ht => ht.2⟩
      exact List.mem_append_right _ (GoMap.mem_keys_of_get? hp)

theorem isChain_needsChain {needs : Str → Str → Prop} {pk : List Str}
    (hcl : ∀ a ∈ pk, ∀ b, Relation.TransGen needs a b → b ∈ pk) :
    ∀ (path : List Str) (p : Str),
      List.IsChain (fun q b => q ∈ pk ∧ Relation.TransGen needs q b) (p :: path) ↔
        path = [] ∨ (p ∈ pk ∧ NeedsChain needs (p :: path)) := by
  intro path
  induction path with
  | nil => intro p; exact ⟨fun _ => .inl rfl, fun _ => List.IsChain.singleton _⟩
  | cons n path ih =>
    intro p
    rw [List.isChain_cons_cons, ih n]
    simp only [List.cons_ne_nil, false_or, NeedsChain]
    constructor
    · rintro ⟨⟨hp, ht⟩, h⟩
      refine ⟨hp, ht, ?_⟩
      rcases h with h | h
      · subst h; exact trivial
      · exact h.2
    · rintro ⟨hp, ht, h⟩
      exact ⟨⟨hp, ht⟩, .inr ⟨hcl p hp n ht, h⟩⟩

/-- Everything a planned package needs is planned. -/
theorem planned_closed {cfg : PlanCfg} {nx nx' : Nexus} {installed : GoMap Desc} {libEx : Bool}
    {tb ds : List Desc} {add : GoMap AdditionalPkg} {ρ ρ' ρ'' : Order} {req : List Str} {ip : InstallPlan}
    (hk : Keyed nx) (hR : NoR nx) (hρ : ρ''.Fair)
    (h : planInstall cfg nx installed libEx tb ds add ρ ρ' ρ'' = .planned req nx' ip) :
    ∀ a ∈ ip.packages, ∀ b, Relation.TransGen (Needs nx' cfg.noRecommended) a b → b ∈ ip.packages := by
  intro a ha b hb
  have h1 := (planned_lists hk hR hρ h).2.2 a b
  cases hp : GoMap.get? ip.depDb a with
  | none => rw [hp] at h1; exact absurd (h1.mpr ⟨ha, hb⟩) (by simp)
  | some ds =>
    rw [hp] at h1
    exact (C24_dependency_lists hk hR hρ h hp).2.2.1 b (h1.mpr ⟨ha, hb⟩)

/-- C95: for every plan and every selection of packages the printing of the tree ends (a recursion depth of one more
than the number of packages always suffices, and no result depends on it); the tree has one branch for every selected
package; the lines below it are exactly the chains of packages that start with it and in which each needs the next,
directly or not; and below every branch the names are distinct and in alphabetical order. -/
theorem C95_tree {cfg : PlanCfg} {nx nx' : Nexus} {installed : GoMap Desc} {libEx : Bool}
    {tb ds : List Desc} {add : GoMap AdditionalPkg} {ρ ρ' ρ'' : Order} {req : List Str} {ip : InstallPlan}
    (hk : Keyed nx) (hR : NoR nx) (hρ : ρ''.Fair)
    (h : planInstall cfg nx installed libEx tb ds add ρ ρ' ρ'' = .planned req nx' ip)
    {ρt : Order} (hρt : ρt.Fair) (t : Nat) (sel : GoMap (Option (List Str))) :
    ∃ ts, (∀ fuel, ip.packages.length < fuel → inspectTree ρt t fuel ip sel = some ts) ∧
      (ts.map DepTree.name).Perm (GoMap.keys sel) ∧
      (∀ p path, Shown ts (p :: path) ↔ p ∈ GoMap.keys sel ∧
        (path = [] ∨ (p ∈ ip.packages ∧ NeedsChain (Needs nx' cfg.noRecommended) (p :: path)))) ∧
      ∀ path ks, path ≠ [] → Below ts path ks → Alphabetical (ks.map DepTree.name) := by
  obtain ⟨hc, hlen, hmem⟩ := planned_lists hk hR hρ h
  have hrec := fun p => recurseDeps_some hc ip.packages.length p (hlen p)
  -- the whole forest, at one fuel and hence at all
  obtain ⟨r, hr, hnm, hkids⟩ := mapM_nodes (f := recurseDeps ip.depDb (ip.packages.length + 1)) (ρt t (GoMap.keys sel))
    (fun d _ => by obtain ⟨ts, h1, _⟩ := hrec d; exact ⟨ts, h1 _ (by omega)⟩)
  have hsub : ∀ p ks, DepTree.node p ks ∈ r → ∀ path ks', Below ks path ks' →
      ks'.map DepTree.name = sortStrings ((GoMap.get? ip.depDb (path.getLast?.getD p)).getD []) := by
    intro p ks hm path ks' hb
    obtain ⟨ts, h1, h2⟩ := hrec p
    have : ks = ts := Option.some.inj ((hkids p ks hm).symm.trans (h1 _ (by omega)))
    subst this
    exact h2 path ks' hb
  refine ⟨r, ?_, ?_, ?_, ?_⟩
  · intro fuel hf
    unfold inspectTree
    rw [← hr]
    refine mapM_congr' _ ?_
    intro d _
    obtain ⟨ts, h1, _⟩ := hrec d
    rw [h1 fuel hf, h1 _ (Nat.lt_succ_self _)]
  · rw [hnm]; exact hρt t _
  · intro p path
    have hmemp : p ∈ GoMap.keys sel ↔ ∃ ks, DepTree.node p ks ∈ r := by
      rw [← (hρt t (GoMap.keys sel)).mem_iff, ← hnm, List.mem_map]
      constructor
      · rintro ⟨x, hx, rfl⟩
        cases x with
        | node n ks => exact ⟨ks, hx⟩
      · rintro ⟨ks, hks⟩; exact ⟨_, hks, rfl⟩
    have hiff : ∀ ks, DepTree.node p ks ∈ r → ((∃ ks', Below ks path ks') ↔
        path = [] ∨ (p ∈ ip.packages ∧ NeedsChain (Needs nx' cfg.noRecommended) (p :: path))) := by
      intro ks hm
      rw [← isChain_needsChain (planned_closed hk hR hρ h)]
      refine below_chain path p ks ?_
      intro path' ks' hb b
      rw [hsub p ks hm path' ks' hb, (sortStrings_perm _).mem_iff, hmem]
    constructor
    · rintro ⟨_, ks', hb⟩
      cases hb with
      | @down _ ks _ _ _ hm hb' => exact ⟨hmemp.mpr ⟨ks, hm⟩, (hiff ks hm).mp ⟨ks', hb'⟩⟩
    · rintro ⟨hp, hpath⟩
      obtain ⟨ks, hm⟩ := hmemp.mp hp
      obtain ⟨ks', hb⟩ := (hiff ks hm).mpr hpath
      exact ⟨by simp, ks', .down hm hb⟩
  · intro path ks hne hb
    cases hb with
    | here => exact absurd rfl hne
    | @down _ ks0 _ p path' hm hb' =>
      rw [hsub p ks0 hm path' ks hb']
      refine ⟨?_, sortStrings_sorted _⟩
      refine (sortStrings_perm _).nodup_iff.mpr ?_
      cases hg : GoMap.get? ip.depDb (path'.getLast?.getD p) with
      | none => simp
      | some l => exact (hc _ l hg).1

theorem needsChain_sublist {needs : Str → Str → Prop} :
    ∀ (path : List Str) (p : Str), (p :: path).IsChain needs →
      ∀ l, l.Sublist path → NeedsChain needs (p :: l) := by
  intro path
  induction path with
  | nil => intro p _ l hl; rw [List.sublist_nil.mp hl]; exact trivial
  | cons n path ih =>
    intro p hc l hl
    rw [List.isChain_cons_cons] at hc
    cases hl with
    | cons _ hl' =>
      have := ih n hc.2 l hl'
      cases l with
      | nil => exact trivial
      | cons x xs => exact ⟨.head hc.1 this.1, this.2⟩
    | cons_cons _ hl' => exact ⟨.single hc.1, ih n hc.2 _ hl'⟩

/-- C95: repetition: below a selected package that needs a package, that one another one and so on, every selection of
the packages of this chain is a line of its own, so a chain of `n` further packages takes at least `2 ^ n` lines. -/
theorem C95_lines_for_a_chain {cfg : PlanCfg} {nx nx' : Nexus} {installed : GoMap Desc} {libEx : Bool}
    {tb ds : List Desc} {add : GoMap AdditionalPkg} {ρ ρ' ρ'' : Order} {req : List Str} {ip : InstallPlan}
    (hk : Keyed nx) (hR : NoR nx) (hρ : ρ''.Fair)
    (h : planInstall cfg nx installed libEx tb ds add ρ ρ' ρ'' = .planned req nx' ip)
    {ρt : Order} (hρt : ρt.Fair) (t : Nat) {sel : GoMap (Option (List Str))} {p : Str} (hp : p ∈ ip.packages)
    (hs : p ∈ GoMap.keys sel) {chain : List Str} (hch : (p :: chain).IsChain (Needs nx' cfg.noRecommended))
    {ts : List DepTree} (hts : inspectTree ρt t (ip.packages.length + 1) ip sel = some ts) :
    ∀ l, l.Sublist chain → Shown ts (p :: l) := by
  intro l hl
  obtain ⟨ts', h1, _, h2, _⟩ := C95_tree hk hR hρ h hρt t sel
  rw [h1 _ (Nat.lt_succ_self _)] at hts
  cases hts
  exact (h2 p l).mpr ⟨hs, .inr ⟨hp, needsChain_sublist chain p hch l hl⟩⟩

/-- The plan for `a` of the example repository: `a` needs `b`, which needs `c`; the tree shows `c` below `a` twice. -/
example : (match planInstall { packages := [s%"a"] } planNexus [] true [] [] [] idOrder idOrder idOrder with
    | .planned _ _ ip => inspectTree idOrder 0 (ip.packages.length + 1) ip (inspectSelect (inspectTable false idOrder ip) [s%"a"])
    | _ => none) = some [.node (s%"a") [.node (s%"b") [.node (s%"c") []], .node (s%"c") []]] := by rfl

/-! ### The table -/

theorem get?_mapped {α β : Type} (f : α → β) (m : GoMap α) (p : Str) :
    GoMap.get? (m.map fun e => (e.1, f e.2)) p = (GoMap.get? m p).map f := by
  induction m with
  | nil => rfl
  | cons e m ih =>
    obtain ⟨k, v⟩ := e
    rw [List.map_cons, GoMap.get?_cons, GoMap.get?_cons, ih]
    by_cases hk : k = p <;> simp [hk]

/-- C96: without arguments the table printed by `inspect --deps` has an entry for exactly the planned packages that need
something, listing all they need, directly or not; with `--reverse` for exactly the packages that some planned
package needs, listing all those that need it. Lists are alphabetical, without repetition. -/
theorem C96_table {cfg : PlanCfg} {nx nx' : Nexus} {installed : GoMap Desc} {libEx : Bool}
    {tb ds : List Desc} {add : GoMap AdditionalPkg} {ρ ρ' ρ'' : Order} {req : List Str} {ip : InstallPlan}
    (hk : Keyed nx) (hR : NoR nx) (hρ : ρ''.Fair)
    (h : planInstall cfg nx installed libEx tb ds add ρ ρ' ρ'' = .planned req nx' ip)
    {ρt : Order} (hρt : ρt.Fair) (reverse : Bool) (p : Str)
    (listed : Str → Prop)
    (hlisted : ∀ b, listed b ↔
      if reverse then b ∈ ip.packages ∧ Relation.TransGen (Needs nx' cfg.noRecommended) b p
      else p ∈ ip.packages ∧ Relation.TransGen (Needs nx' cfg.noRecommended) p b) :
    (GoMap.get? (inspectTable reverse ρt ip) p = none ↔ ∀ b, ¬ listed b) ∧
    ∀ l, GoMap.get? (inspectTable reverse ρt ip) p = some l → Alphabetical l ∧ ∀ b, b ∈ l ↔ listed b := by
  obtain ⟨hc, _, hmem⟩ := planned_lists hk hR hρ h
  have hwf := (C25_starting_packages hk hR hρ h).2.2.2.1
  have hmap : ∀ (m : GoMap (List Str)), GoMap.get? (m.map fun e => (e.1, sortStrings e.2)) p = (GoMap.get? m p).map sortStrings :=
    fun m => get?_mapped sortStrings m p
  unfold inspectTable
  rw [hmap]
  cases reverse with
  | false =>
    simp only [Bool.false_eq_true, if_false] at hlisted ⊢
    cases hp : GoMap.get? ip.depDb p with
    | none =>
      refine ⟨⟨fun _ b hb => ?_, fun _ => rfl⟩, by intro l hl; cases hl⟩
      have := (hmem p b).mpr ((hlisted b).mp hb)
      rw [hp] at this; cases this
    | some dl =>
      have hd : ∀ b, b ∈ dl ↔ listed b := by intro b; rw [hlisted, ← hmem, hp]; rfl
      have hne : dl ≠ [] := by
        rintro rfl
        obtain ⟨_, b, hb⟩ := ((C25_starting_packages hk hR hρ h).2.1 p).mp (GoMap.mem_keys_of_get? hp)
        have := (hmem p b).mpr ⟨‹_›, .single hb⟩
        rw [hp] at this; cases this
      refine ⟨⟨fun hx => (by cases hx), fun hx => ?_⟩, ?_⟩
      · exact absurd (List.eq_nil_iff_forall_not_mem.mpr fun b hb => hx b ((hd b).mp hb)) hne
      · intro l hl
        cases hl
        refine ⟨⟨(sortStrings_perm _).nodup_iff.mpr (hc p dl hp).1, sortStrings_sorted _⟩, ?_⟩
        intro b
        rw [(sortStrings_perm _).mem_iff, hd]
  | true =>
    simp only [if_true] at hlisted ⊢
    obtain ⟨h1, h2⟩ := C27_inverse_exact hρt 0 hwf (fun p ds hp => (hc p ds hp).1) p
    have hd : ∀ b, (∃ ds, GoMap.get? ip.depDb b = some ds ∧ p ∈ ds) ↔ listed b := by
      intro b
      rw [hlisted, ← hmem]
      cases hb : GoMap.get? ip.depDb b with
      | none => simp
      | some ds => simp
    cases hp : GoMap.get? (invertDependencies ρt 0 ip.depDb) p with
    | none =>
      refine ⟨⟨fun _ b hb => ?_, fun _ => rfl⟩, by intro l hl; cases hl⟩
      obtain ⟨ds, hds, hm⟩ := (hd b).mpr hb
      exact h2.mp hp b ds hds hm
    | some dl =>
      obtain ⟨h3, h4, h5⟩ := h1 dl hp
      refine ⟨⟨fun hx => (by cases hx), fun hx => ?_⟩, ?_⟩
      · have := h2.mpr fun b ds hb hm => hx b ((hd b).mp ⟨ds, hb, hm⟩)
        rw [hp] at this; cases this
      · intro l hl
        cases hl
        refine ⟨⟨(sortStrings_perm _).nodup_iff.mpr h4, sortStrings_sorted _⟩, ?_⟩
        intro b
        rw [(sortStrings_perm _).mem_iff, h3, hd]

/-- C96: with arguments exactly the named packages are printed, each with its entry of the table or, if it has none,
`null`. -/
theorem C96_named (tbl : GoMap (List Str)) {args : List Str} (hne : args ≠ []) (p : Str) :
    GoMap.get? (inspectSelect tbl args) p = if p ∈ args then some (GoMap.get? tbl p) else none := by
  have key : ∀ (as : List Str) (m : GoMap (Option (List Str))),
      GoMap.get? (as.foldl (fun m a => GoMap.put m a (GoMap.get? tbl a)) m) p =
        if p ∈ as then some (GoMap.get? tbl p) else GoMap.get? m p := by
    intro as
    induction as with
    | nil => intro m; simp
    | cons a as ih =>
      intro m
      rw [List.foldl_cons, ih, GoMap.get?_put]
      by_cases h1 : p ∈ as
      · simp [h1]
      · by_cases h2 : p = a
        · subst h2; simp [h1]
        · simp [h1, h2]
  unfold inspectSelect
  rw [if_pos hne, key args []]
  simp [GoMap.get?]

/-- C96 is violated for `--reverse --tree`: with named packages, the tree shows the same with and without
`--reverse`, namely what they need, not what needs them. -/
theorem C96_violated_reverse_tree :
    (∀ (ρ ρ' ρt : Order) (t fuel : Nat) (ip : InstallPlan) (args : List Str), args ≠ [] →
      inspectTree ρt t fuel ip (inspectSelect (inspectTable true ρ ip) args) =
        inspectTree ρt t fuel ip (inspectSelect (inspectTable false ρ' ip) args)) ∧
    ∃ cfg nx req nx' ip, planInstall cfg nx [] true [] [] [] idOrder idOrder idOrder = .planned req nx' ip ∧
      s%"b" ∈ ip.packages ∧ Needs nx' cfg.noRecommended (s%"b") (s%"c") ∧
      inspectTree idOrder 0 (ip.packages.length + 1) ip (inspectSelect (inspectTable true idOrder ip) [s%"c"]) =
        some [.node (s%"c") []] := by
  refine ⟨?_, ?_⟩
  · intro ρ ρ' ρt t fuel ip args hne
    have hkeys : ∀ (tbl tbl' : GoMap (List Str)) (as : List Str) (m m' : GoMap (Option (List Str))),
        GoMap.keys m = GoMap.keys m' →
        GoMap.keys (as.foldl (fun m a => GoMap.put m a (GoMap.get? tbl a)) m) =
          GoMap.keys (as.foldl (fun m a => GoMap.put m a (GoMap.get? tbl' a)) m') := by
      intro tbl tbl' as
      induction as with
      | nil => intro m m' h; exact h
      | cons a as ih =>
        intro m m' h
        rw [List.foldl_cons, List.foldl_cons]
        refine ih _ _ ?_
        have hdel : ∀ (x : GoMap (Option (List Str))), GoMap.keys (GoMap.del x a) = (GoMap.keys x).filter (fun k => k ≠ a) := by
          intro x
          induction x with
          | nil => rfl
          | cons e x ih => obtain ⟨k, v⟩ := e; by_cases hk : k = a <;> simp_all [GoMap.del, GoMap.keys]
        unfold GoMap.put
        simp only [GoMap.keys, List.map_cons] at h hdel ⊢
        rw [hdel, hdel, h]
    unfold inspectTree inspectSelect
    rw [if_pos hne, if_pos hne, hkeys _ (inspectTable false ρ' ip) args [] [] rfl]
  · have hplan : ∃ req nx' ip, planInstall { packages := [s%"a"] } planNexus [] true [] [] [] idOrder idOrder idOrder =
        .planned req nx' ip ∧ s%"b" ∈ ip.packages ∧ GoMap.get? ip.depDb (s%"b") = some [s%"c"] ∧
        inspectTree idOrder 0 (ip.packages.length + 1) ip (inspectSelect (inspectTable true idOrder ip) [s%"c"]) =
        some [.node (s%"c") []] := ⟨_, _, _, rfl, by decide, by decide, rfl⟩
    obtain ⟨req, nx', ip, h1, h2, h3, h4⟩ := hplan
    refine ⟨_, _, req, nx', ip, h1, h2, ?_, h4⟩
    have h5 := C24_dependency_lists planNexus_keyed planNexus_noR idOrder_fair h1 h3
    obtain ⟨c, hc, hrest⟩ := Relation.TransGen.head'_iff.mp ((h5.2.1 (s%"c")).mp (by simp))
    have : c = s%"c" := by
      have := (h5.2.1 c).mpr (.single hc)
      simpa using this
    rwa [this] at hc

/-! ### What `load` loads -/

/-- C97: `load --all` loads every planned package, each once (and every tarball), when planning succeeds; without
`--all` exactly the configured packages. -/
theorem C97_loaded {cfg : PlanCfg} {nx nx' : Nexus} {installed : GoMap Desc} {libEx : Bool}
    {tb ds : List Desc} {add : GoMap AdditionalPkg} {ρ ρ' ρ'' : Order} {req : List Str} {ip : InstallPlan}
    (h : planInstall cfg nx installed libEx tb ds add ρ ρ' ρ'' = .planned req nx' ip)
    {ρt : Order} (hρt : ρt.Fair) (t : Nat) (all : Bool) :
    ∃ l, toLoad all cfg.packages (planInstall cfg nx installed libEx tb ds add ρ ρ' ρ'') ρt t = some l ∧
      l.Perm (if all then ip.packages ++ GoMap.keys add else cfg.packages) := by
  rw [h]
  cases all with
  | false => exact ⟨_, rfl, .refl _⟩
  | true =>
    refine ⟨_, rfl, ?_⟩
    have hadd : ip.additional = add := by
      unfold planInstall at h
      dsimp only at h
      split at h
      · cases h
      · split at h
        · cases h
        · split at h
          · cases h
          · cases h; rfl
    simp only [InstallPlan.allPackages, InstallPlan.packages, if_true, hadd]
    exact ((List.Perm.refl _).append (hρt _ _)).append (hρt _ _)

/-- C97 is violated when a configured package cannot be obtained: `load --all` then loads nothing at all, where it
should load the packages of the configuration. -/
theorem C97_violated_missing :
    ∃ (cfg : PlanCfg) (nx : Nexus), s%"a" ∈ cfg.packages ∧ Available nx (s%"a") ∧
      (∀ ρ ρ' ρ'' ρt : Order, ρt.Fair → ∀ t,
        toLoad true cfg.packages (planInstall cfg nx [] true [] [] [] ρ ρ' ρ'') ρt t = some []) := by
  refine ⟨{ packages := [s%"a", s%"nowhere"] }, planNexus, by simp, ?_, ?_⟩
  · exact planNexus_avail (by decide)
  · intro ρ ρ' ρ'' ρt hρt t
    have : planInstall { packages := [s%"a", s%"nowhere"] } planNexus [] true [] [] [] ρ ρ' ρ'' = .missing [s%"nowhere"] := by
      unfold planInstall
      rfl
    rw [this]
    have h1 := (hρt t []).eq_nil
    have h2 := (hρt (t + 1) []).eq_nil
    simp [toLoad, PlanOutcome.forLoad, InstallPlan.allPackages, GoMap.keys, h1, h2]

/-! ### Who installed a package -/

theorem installers_fold (m : GoMap Desc) (ks : List Str) (acc : InstalledFrom) :
    (ks.foldl (installerStep m) acc).pkgr = acc.pkgr ++ ks.filter (fun k => ((GoMap.get? m k).getD {}).pkgrVersion ≠ []) ∧
    (ks.foldl (installerStep m) acc).packrat =
      acc.packrat ++ ks.filter (fun k => ((GoMap.get? m k).getD {}).pkgrVersion = []) ∧
    (ks.foldl (installerStep m) acc).unknown = acc.unknown := by
  induction ks generalizing acc with
  | nil => simp
  | cons k ks ih =>
    rw [List.foldl_cons]
    obtain ⟨h1, h2, h3⟩ := ih (installerStep m acc k)
    rw [h1, h2, h3]
    by_cases hk : ((GoMap.get? m k).getD {}).pkgrVersion = []
    · simp [installerStep, hk]
    · simp [installerStep, hk]

/-- C98: of the installed packages, those whose DESCRIPTION says which version of pkgr installed them are reported as
pkgr's, all others as not pkgr's; every installed package is reported exactly once. -/
theorem C98_installers {ρ : Order} (hρ : ρ.Fair) (t : Nat) {m : GoMap Desc} (hwf : (GoMap.keys m).Nodup) :
    ((getInstallers ρ t m).pkgr ++ (getInstallers ρ t m).notFromPkgr).Perm (GoMap.keys m) ∧
    ∀ p d, GoMap.get? m p = some d →
      (p ∈ (getInstallers ρ t m).pkgr ↔ d.pkgrVersion ≠ []) ∧
      (p ∈ (getInstallers ρ t m).notFromPkgr ↔ d.pkgrVersion = []) := by
  obtain ⟨h1, h2, h3⟩ := installers_fold m (ρ t (GoMap.keys m)) {}
  unfold getInstallers InstalledFrom.notFromPkgr
  rw [h1, h2, h3]
  simp only [List.nil_append, List.append_nil]
  refine ⟨?_, ?_⟩
  · refine List.Perm.trans ?_ (hρ t (GoMap.keys m))
    have := List.filter_append_perm (fun k => decide (((GoMap.get? m k).getD {}).pkgrVersion ≠ [])) (ρ t (GoMap.keys m))
    simpa using this
  · intro p d hp
    have hm : p ∈ ρ t (GoMap.keys m) := (hρ t _).mem_iff.mpr (GoMap.mem_keys_of_get? hp)
    simp [List.mem_filter, hm, hp]

example : getInstallers revOrder 0 [(s%"a", { package := s%"a", pkgrVersion := s%"3.1" }), (s%"b", { package := s%"b" })] =
    { pkgr := [s%"a"], packrat := [s%"b"] } := by decide

/-! ### The command line of R -/

theorem cliArgs_options (i : InstallArgs) :
    i.cliArgs = (rOptions i).flatMap (fun o => if o.1 then [o.2] else []) ++
      (if i.library ≠ [] then [s%"--library=" ++ i.library] else []) := by
  simp [InstallArgs.cliArgs, rOptions, flagArg, List.flatMap_cons]

/-- C99: the arguments of R are exactly `--vanilla CMD INSTALL`, the option of every switch that is on, the library as
one argument, and the file, whatever characters the library's name has; different switches or libraries give different
arguments. -/
theorem C99_command_line (i : InstallArgs) (path : Str) :
    (∃ opts, rArgs i path = [s%"--vanilla", s%"CMD", s%"INSTALL"] ++ opts ++ [path] ∧ opts.Nodup ∧
      (∀ a, a ∈ opts ↔ (true, a) ∈ rOptions i ∨ (i.library ≠ [] ∧ a = s%"--library=" ++ i.library))) ∧
    ∀ j path', rArgs i path = rArgs j path' → i = j ∧ path = path' := by
  have hmem : ∀ (i : InstallArgs) a, a ∈ i.cliArgs ↔
      (true, a) ∈ rOptions i ∨ (i.library ≠ [] ∧ a = s%"--library=" ++ i.library) := by
    intro i a
    rw [cliArgs_options, List.mem_append]
    refine or_congr ?_ ?_
    · rw [List.mem_flatMap]
      constructor
      · rintro ⟨⟨b, o⟩, ho, ha⟩
        cases b with
        | false => cases ha
        | true => simp only [if_true, List.mem_singleton] at ha; subst ha; exact ho
      · intro h; exact ⟨_, h, by simp⟩
    · by_cases hl : i.library = [] <;> simp [hl]
  refine ⟨⟨i.cliArgs, rfl, ?_, hmem i⟩, ?_⟩
  · rw [cliArgs_options]
    refine List.nodup_append.mpr ⟨?_, ?_, ?_⟩
    · have hsub : ((rOptions i).flatMap (fun o => if o.1 then [o.2] else [])).Sublist ((rOptions i).map Prod.snd) := by
        generalize rOptions i = l
        induction l with
        | nil => exact .slnil
        | cons o l ih =>
          obtain ⟨b, o⟩ := o
          cases b with
          | false => simpa using ih.cons o
          | true => simpa using ih.cons_cons o
      exact hsub.nodup (by simp only [rOptions, List.map_cons, List.map_nil]; decide)
    · by_cases hl : i.library = [] <;> simp [hl]
    · intro a ha b hb hab
      subst hab
      by_cases hl : i.library = []
      · simp [hl] at hb
      · simp only [ne_eq, hl, not_false_iff, if_true, List.mem_singleton] at hb
        obtain ⟨⟨c, o⟩, ho, ha⟩ := List.mem_flatMap.mp ha
        cases c with
        | false => cases ha
        | true =>
          simp only [if_true, List.mem_singleton] at ha
          subst ha
          rw [hb] at ho
          simp [rOptions] at ho
  · intro j path' h
    unfold rArgs at h
    obtain ⟨h1, h2⟩ := List.append_inj' h rfl
    have hcli : i.cliArgs = j.cliArgs := List.append_cancel_left h1
    refine ⟨?_, by simpa using h2⟩
    have key : ∀ a, ((true, a) ∈ rOptions i ∨ (i.library ≠ [] ∧ a = s%"--library=" ++ i.library)) ↔
        ((true, a) ∈ rOptions j ∨ (j.library ≠ [] ∧ a = s%"--library=" ++ j.library)) := by
      intro a; rw [← hmem, ← hmem, hcli]
    have flag : ∀ (a : Str), (∀ l, a ≠ s%"--library=" ++ l) → ((true, a) ∈ rOptions i ↔ (true, a) ∈ rOptions j) := by
      intro a ha
      have := key a
      simp only [ha, and_false, or_false] at this
      exact this
    have f1 := flag (s%"--clean") (by simp)
    have f2 := flag (s%"--preclean") (by simp)
    have f3 := flag (s%"--debug") (by simp)
    have f4 := flag (s%"--no-configure") (by simp)
    have f5 := flag (s%"--example") (by simp)
    have f6 := flag (s%"--fake") (by simp)
    have f7 := flag (s%"--build") (by simp)
    have f8 := flag (s%"--install-tests") (by simp)
    have f9 := flag (s%"--no-multiarch") (by simp)
    have f10 := flag (s%"--with-keep.source") (by simp)
    have f11 := flag (s%"--byte-compile") (by simp)
    have f12 := flag (s%"--no-test-load") (by simp)
    have f13 := flag (s%"--no-clean-on-error") (by simp)
    have flib : i.library = j.library := by
      have hno : ∀ (i : InstallArgs) l, (true, s%"--library=" ++ l) ∉ rOptions i := by intro i l hl; simp [rOptions] at hl
      by_cases hi : i.library = []
      · by_cases hj : j.library = []
        · rw [hi, hj]
        · rcases (key _).mpr (.inr ⟨hj, rfl⟩) with h | h
          · exact absurd h (hno _ _)
          · exact absurd hi h.1
      · rcases (key _).mp (.inr ⟨hi, rfl⟩) with h | h
        · exact absurd h (hno _ _)
        · exact List.append_cancel_left h.2
    simp only [rOptions, List.mem_cons, Prod.mk.injEq, List.not_mem_nil, or_false] at f1 f2 f3 f4 f5 f6 f7 f8 f9 f10 f11 f12 f13
    simp at f1 f2 f3 f4 f5 f6 f7 f8 f9 f10 f11 f12 f13
    obtain ⟨a1, a2, a3, a4, a5, a6, a7, a8, a9, a10, a11, a12, a13, a14⟩ := i
    obtain ⟨b1, b2, b3, b4, b5, b6, b7, b8, b9, b10, b11, b12, b13, b14⟩ := j
    simp only [InstallArgs.mk.injEq]
    simp only at f1 f2 f3 f4 f5 f6 f7 f8 f9 f10 f11 f12 f13 flib
    exact ⟨f1, f2, f3, f4, f5, f6, f7, f8, f9, f10, f11, f12, f13, flib⟩

/-- C99: the passes of an installation: building a binary goes to the temporary directory with the option `--build`, so
R is never asked to build into the library; a cached binary and the binary just built are installed into the library
without `--build`; no pass names two libraries. -/
theorem C99_passes (base : InstallArgs) (hb : base.build = true) {tmp finalLib : Str} (ht : tmp ≠ []) (hf : finalLib ≠ [])
    (hl : base.library ≠ []) (path : Str) :
    (∀ a, s%"--library=" ++ a ∈ rArgs (passArgs base tmp finalLib .build) path → s%"--library=" ++ a = path ∨ a = tmp) ∧
    s%"--library=" ++ tmp ∈ rArgs (passArgs base tmp finalLib .build) path ∧
    s%"--build" ∈ rArgs (passArgs base tmp finalLib .build) path ∧
    rArgs (passArgs base tmp finalLib .final) path =
      [s%"--vanilla", s%"CMD", s%"INSTALL", s%"--library=" ++ finalLib, path] ∧
    (∀ a, s%"--library=" ++ a ∈ rArgs (passArgs base tmp finalLib .cached) path →
      s%"--library=" ++ a = path ∨ a = base.library) ∧
    s%"--library=" ++ base.library ∈ rArgs (passArgs base tmp finalLib .cached) path ∧
    (path ≠ s%"--build" → s%"--build" ∉ rArgs (passArgs base tmp finalLib .cached) path) := by
  have hno : ∀ (i : InstallArgs) l, (true, s%"--library=" ++ l) ∉ rOptions i := by intro i l hl; simp [rOptions] at hl
  have hlib : ∀ (i : InstallArgs) a, s%"--library=" ++ a ∈ rArgs i path → s%"--library=" ++ a = path ∨ a = i.library := by
    intro i a ha
    obtain ⟨⟨opts, h1, _, h2⟩, _⟩ := C99_command_line i path
    rw [h1] at ha
    rcases List.mem_append.mp ha with ha | ha
    · rcases List.mem_append.mp ha with ha | ha
      · simp at ha
      · rcases (h2 _).mp ha with h3 | h3
        · exact absurd h3 (hno _ _)
        · exact .inr (List.append_cancel_left h3.2)
    · exact .inl (by simpa using ha)
  have hin : ∀ (i : InstallArgs), i.library ≠ [] → s%"--library=" ++ i.library ∈ rArgs i path := by
    intro i hi
    obtain ⟨⟨opts, h1, _, h2⟩, _⟩ := C99_command_line i path
    rw [h1]
    exact List.mem_append_left _ (List.mem_append_right _ ((h2 _).mpr (.inr ⟨hi, rfl⟩)))
  refine ⟨hlib _, hin { base with library := tmp } ht, ?_, ?_, hlib { base with build := false },
    hin { base with build := false } hl, ?_⟩
  · obtain ⟨⟨opts, h1, _, h2⟩, _⟩ := C99_command_line (passArgs base tmp finalLib .build) path
    rw [h1]
    exact List.mem_append_left _ (List.mem_append_right _ ((h2 _).mpr (.inl (by simp [rOptions, passArgs, hb]))))
  · simp [passArgs, rArgs, InstallArgs.cliArgs, flagArg, hf]
  · intro hp ha
    obtain ⟨⟨opts, h1, _, h2⟩, _⟩ := C99_command_line (passArgs base tmp finalLib .cached) path
    rw [h1] at ha
    rcases List.mem_append.mp ha with ha | ha
    · rcases List.mem_append.mp ha with ha | ha
      · simp at ha
      · rcases (h2 _).mp ha with h3 | h3
        · simp [rOptions, passArgs] at h3
        · simp at h3
    · exact hp (List.mem_singleton.mp ha).symm

/-- C99: the whole command lines that pkgr uses: source packages keep their source references, install their tests and
are installed for one architecture; binaries are installed into the library as they are. -/
theorem C99_default {lib tmp finalLib : Str} (hl : lib ≠ []) (ht : tmp ≠ []) (hf : finalLib ≠ []) (path : Str) :
    rArgs (passArgs { defaultInstallArgs with library := lib } tmp finalLib .cached) path =
      [s%"--vanilla", s%"CMD", s%"INSTALL", s%"--install-tests", s%"--no-multiarch", s%"--with-keep.source",
       s%"--library=" ++ lib, path] ∧
    rArgs (passArgs { defaultInstallArgs with library := lib } tmp finalLib .build) path =
      [s%"--vanilla", s%"CMD", s%"INSTALL", s%"--build", s%"--install-tests", s%"--no-multiarch", s%"--with-keep.source",
       s%"--library=" ++ tmp, path] ∧
    rArgs (passArgs { defaultInstallArgs with library := lib } tmp finalLib .final) path =
      [s%"--vanilla", s%"CMD", s%"INSTALL", s%"--library=" ++ finalLib, path] := by
  simp [passArgs, rArgs, InstallArgs.cliArgs, flagArg, defaultInstallArgs, hl, ht, hf]

example : rArgs (passArgs { defaultInstallArgs with library := s%"lib" } (s%"/tmp/x") (s%"/p/lib") .build) (s%"/c/a_1.tar.gz") =
    [s%"--vanilla", s%"CMD", s%"INSTALL", s%"--build", s%"--install-tests", s%"--no-multiarch", s%"--with-keep.source",
     s%"--library=/tmp/x", s%"/c/a_1.tar.gz"] ∧ defaultInstallArgs.build = true := by decide

end Pkgr
