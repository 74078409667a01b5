/- Proofs about outdated packages, inverted dependencies, customizations and requested packages. -/
import Verif.Proof.Plan

namespace Pkgr
open Spec

/-! ### Outdated packages -/

/-- The entry, if any, that `outdatedStep` appends. -/
def outdatedEntry (installed : GoMap Desc) (dl : PkgDl) : Option OutdatedPackage :=
  match GoMap.get? installed dl.package.package with
  | none => none
  | some d =>
    match compareVersionStrings dl.package.version d.version with
    | none => none
    | some c =>
      if c > 0 then some { package := dl.package.package, oldVersion := d.version,
                           newVersion := dl.package.version }
      else none

/-- The version comparison for `dl` panics. -/
def ComparePanics (installed : GoMap Desc) (dl : PkgDl) : Prop :=
  ∃ d, GoMap.get? installed dl.package.package = some d ∧
    compareVersionStrings dl.package.version d.version = none

theorem outdated_aux (installed : GoMap Desc) (avail : List PkgDl) : ∀ acc,
    (avail.foldlM (outdatedStep installed) acc = none ∧ ∃ dl ∈ avail, ComparePanics installed dl) ∨
    (avail.foldlM (outdatedStep installed) acc = some (acc ++ avail.filterMap (outdatedEntry installed)) ∧
      ∀ dl ∈ avail, ¬ ComparePanics installed dl) := by
  induction avail with
  | nil => intro acc; right; exact ⟨by simp, by simp⟩
  | cons dl avail ih =>
    intro acc
    rw [List.foldlM_cons]
    cases hg : GoMap.get? installed dl.package.package with
    | none =>
      have h1 : outdatedStep installed acc dl = some acc := by unfold outdatedStep; rw [hg]
      have h2 : outdatedEntry installed dl = none := by unfold outdatedEntry; rw [hg]
      have h3 : ¬ ComparePanics installed dl := by rintro ⟨d, hd, _⟩; rw [hg] at hd; cases hd
      rw [h1, List.filterMap_cons, h2]
      rcases ih acc with ⟨ha, dl', hm, hp⟩ | ⟨ha, hb⟩
      · left; exact ⟨ha, dl', by simp [hm], hp⟩
      · right; exact ⟨ha, fun dl' hm => by
          rcases List.mem_cons.1 hm with rfl | hm
          · exact h3
          · exact hb _ hm⟩
    | some d =>
      cases hc : compareVersionStrings dl.package.version d.version with
      | none =>
        left
        refine ⟨?_, dl, by simp, d, hg, hc⟩
        have : outdatedStep installed acc dl = none := by unfold outdatedStep; rw [hg]; simp only [hc]
        rw [this]; rfl
      | some c =>
        have h3 : ¬ ComparePanics installed dl := by
          rintro ⟨d', hd, h⟩; rw [hg] at hd; cases hd; rw [hc] at h; cases h
        have hstep : outdatedStep installed acc dl = some (acc ++ (outdatedEntry installed dl).toList) := by
          unfold outdatedStep outdatedEntry
          rw [hg]; simp only [hc]
          split <;> simp
        rw [hstep]
        have hfm : (dl :: avail).filterMap (outdatedEntry installed) =
            (outdatedEntry installed dl).toList ++ avail.filterMap (outdatedEntry installed) := by
          rw [List.filterMap_cons]; cases outdatedEntry installed dl <;> simp
        rw [hfm, ← List.append_assoc]
        rcases ih (acc ++ (outdatedEntry installed dl).toList) with ⟨ha, dl', hm, hp⟩ | ⟨ha, hb⟩
        · left; exact ⟨ha, dl', by simp [hm], hp⟩
        · right; exact ⟨ha, fun dl' hm => by
            rcases List.mem_cons.1 hm with rfl | hm
            · exact h3
            · exact hb _ hm⟩

theorem getOutdated_cases (installed : GoMap Desc) (avail : List PkgDl) :
    (getOutdatedPackages installed avail = none ∧ ∃ dl ∈ avail, ComparePanics installed dl) ∨
    (getOutdatedPackages installed avail = some (avail.filterMap (outdatedEntry installed)) ∧
      ∀ dl ∈ avail, ¬ ComparePanics installed dl) := by
  simpa [getOutdatedPackages] using outdated_aux installed avail []

theorem getPackages_packages (nx : Nexus) (l : List Str) :
    (getPackages nx l).packages = l.map fun p => (getPackage nx p).getD {} := by
  rw [getPackages_eq]

/-! ### Sorting and inverted dependencies -/

theorem strLe_refl (a : Str) : strLe a a = true := by
  induction a with
  | nil => rfl
  | cons c a ih => unfold strLe; simp [ih]

theorem strLe_total (a b : Str) : strLe a b = true ∨ strLe b a = true := by
  induction a generalizing b with
  | nil => left; rfl
  | cons c a ih =>
    cases b with
    | nil => right; rfl
    | cons d b =>
      unfold strLe
      by_cases h1 : c.toNat < d.toNat
      · simp [h1]
      · by_cases h2 : d.toNat < c.toNat
        · simp [h2]
        · simpa [h1, h2] using ih b

theorem strLe_trans {a b c : Str} (h1 : strLe a b = true) (h2 : strLe b c = true) : strLe a c = true := by
  induction a generalizing b c with
  | nil => rfl
  | cons x a ih =>
    cases b with
    | nil => simp [strLe] at h1
    | cons y b =>
      cases c with
      | nil => simp [strLe] at h2
      | cons z c =>
        unfold strLe at h1 h2 ⊢
        split at h1
        · split at h2
          · rw [if_pos (by omega)]
          · split at h2
            · simp at h2
            · rw [if_pos (by omega)]
        · split at h1
          · simp at h1
          · split at h2
            · rw [if_pos (by omega)]
            · split at h2
              · simp at h2
              · rw [if_neg (by omega), if_neg (by omega)]; exact ih h1 h2

theorem insertSorted_perm (x : Str) (l : List Str) : (insertSorted x l).Perm (x :: l) := by
  induction l with
  | nil => exact .refl _
  | cons y ys ih =>
    unfold insertSorted
    split
    · exact .refl _
    · exact (ih.cons y).trans (.swap x y ys)

theorem sortStrings_perm (l : List Str) : (sortStrings l).Perm l := by
  induction l with
  | nil => exact .refl _
  | cons x xs ih => exact (insertSorted_perm x _).trans (ih.cons x)

theorem insertSorted_sorted {x : Str} {l : List Str} (h : l.Pairwise (fun a b => strLe a b = true)) :
    (insertSorted x l).Pairwise (fun a b => strLe a b = true) := by
  induction l with
  | nil => simp [insertSorted]
  | cons y ys ih =>
    rw [List.pairwise_cons] at h
    unfold insertSorted
    split
    · next hxy =>
      rw [List.pairwise_cons, List.pairwise_cons]
      refine ⟨?_, h⟩
      intro z hz
      rcases List.mem_cons.1 hz with rfl | hz
      · exact hxy
      · exact strLe_trans hxy (h.1 z hz)
    · next hxy =>
      rw [List.pairwise_cons]
      refine ⟨fun z hz => ?_, ih h.2⟩
      rcases List.mem_cons.1 ((insertSorted_perm x ys).mem_iff.1 hz) with rfl | hz
      · exact (strLe_total z y).resolve_left hxy
      · exact h.1 z hz

theorem sortStrings_sorted (l : List Str) : (sortStrings l).Pairwise (fun a b => strLe a b = true) := by
  induction l with
  | nil => exact .nil
  | cons x xs ih => exact insertSorted_sorted ih

/-- Appending `pkg` under every name of a duplicate-free list. -/
theorem invert_inner (pkg : Str) (deps : List Str) (hnd : deps.Nodup) :
    ∀ (idb : GoMap (List Str)) (a : Str),
      GoMap.get? (deps.foldl (fun idb p => GoMap.put idb p ((GoMap.get? idb p).getD [] ++ [pkg])) idb) a =
        if a ∈ deps then some ((GoMap.get? idb a).getD [] ++ [pkg]) else GoMap.get? idb a := by
  induction deps with
  | nil => intro idb a; simp
  | cons p ps ih =>
    intro idb a
    rw [List.nodup_cons] at hnd
    rw [List.foldl_cons, ih hnd.2, GoMap.get?_put]
    by_cases hap : a = p
    · subst hap; simp [hnd.1]
    · simp [hap]

theorem invert_outer (ddb : GoMap (List Str))
    (hnd : ∀ p ds, GoMap.get? ddb p = some ds → ds.Nodup) (vis : List Str) (a : Str) :
    GoMap.get? (vis.foldl (invertStep ddb) []) a =
      let l := vis.filter (fun b => a ∈ (GoMap.get? ddb b).getD [])
      if l = [] then none else some l := by
  induction vis using List.reverseRecOn with
  | nil => simp
  | append_singleton vis b ih =>
    rw [List.foldl_append, List.foldl_cons, List.foldl_nil]
    generalize vis.foldl (invertStep ddb) [] = F at ih
    unfold invertStep
    rw [invert_inner b _ (by
      cases h : GoMap.get? ddb b with
      | none => simp
      | some ds => exact hnd b ds h)]
    simp only at ih ⊢
    rw [List.filter_append]
    by_cases hab : a ∈ (GoMap.get? ddb b).getD []
    · rw [if_pos hab, ih]
      simp only [List.filter_cons, hab, decide_true, if_true, List.filter_nil]
      split
      · next h => simp [h]
      · simp
    · rw [if_neg hab, ih]
      simp [hab]

theorem get?_invert (ρ : Order) (t : Nat) (ddb : GoMap (List Str))
    (hnd : ∀ p ds, GoMap.get? ddb p = some ds → ds.Nodup) (a : Str) :
    GoMap.get? (invertDependencies ρ t ddb) a =
      (let l := (ρ t (GoMap.keys ddb)).filter (fun b => a ∈ (GoMap.get? ddb b).getD [])
       if l = [] then none else some (sortStrings l)) := by
  unfold invertDependencies
  rw [get?_map_snd sortStrings, invert_outer ddb hnd]
  dsimp only
  split <;> rfl

/-! ### Requested packages -/

theorem mem_foldl_request (names : List Str) : ∀ (pkgs : List Str) (p : Str),
    p ∈ names.foldl requestStep pkgs ↔ p ∈ pkgs ∨ p ∈ names := by
  induction names with
  | nil => simp
  | cons n ns ih =>
    intro pkgs p
    rw [List.foldl_cons, ih]
    unfold requestStep
    split
    · next h =>
      simp only [List.contains_iff_mem] at h
      constructor
      · rintro (h1 | h1) <;> simp [h1]
      · rintro (h1 | h1)
        · simp [h1]
        · rcases List.mem_cons.1 h1 with rfl | h1
          · exact Or.inl h
          · exact Or.inr h1
    · simp [or_assoc]

theorem mem_requestAll {ρ : Order} (hρ : ρ.Fair) (suggests : Bool) (ds : List Desc) :
    ∀ (t : Nat) (pkgs : List Str) (p : Str),
      p ∈ requestAll ρ suggests t ds pkgs ↔
        p ∈ pkgs ∨ ∃ d ∈ ds, p ∈ GoMap.keys (combinedDeps d suggests) := by
  induction ds with
  | nil => intro t pkgs p; simp [requestAll]
  | cons d ds ih =>
    intro t pkgs p
    unfold requestAll
    rw [ih, mem_foldl_request, (hρ _ _).mem_iff]
    simp [or_assoc]

theorem mem_keys_foldl_put {α : Type} (l : GoMap α) : ∀ (m : GoMap α) (k : Str),
    k ∈ GoMap.keys (l.foldl (fun m e => GoMap.put m e.1 e.2) m) ↔ k ∈ GoMap.keys m ∨ k ∈ GoMap.keys l := by
  induction l with
  | nil => simp
  | cons e l ih =>
    intro m k
    rw [List.foldl_cons, ih, GoMap.mem_keys_put, GoMap.keys_cons, List.mem_cons]
    constructor
    · rintro ((h | h) | h) <;> simp [h]
    · rintro (h | h | h) <;> simp [h]

theorem mem_combinedDeps (d : Desc) (sug : Bool) (p : Str) :
    p ∈ GoMap.keys (combinedDeps d sug) ↔
      p ∈ GoMap.keys d.imports ∨ p ∈ GoMap.keys d.linkingTo ∨ (sug = true ∧ p ∈ GoMap.keys d.suggests) := by
  unfold combinedDeps
  cases sug <;> simp [mem_keys_foldl_put, or_assoc]

theorem mem_removeBase (pkgs : List Str) (p : Str) :
    p ∈ removeBasePackages pkgs ↔ p ∈ pkgs ∧ p ∉ basePkgs := by
  rw [← basePkgs_perm.mem_iff]
  unfold removeBasePackages defaultPackageType
  rw [List.mem_filter]
  by_cases h : p ∈ basePackages
  · simp [h]
  · by_cases h2 : p ∈ recommendedPackages <;> simp [h, h2]

/-! ### Customizations -/

theorem setPackageRepo_db {nx nx' : Nexus} {p r : Str} (h : setPackageRepo nx p r = some nx') :
    nx'.db = nx.db ∧ nx'.defaultSourceType = nx.defaultSourceType := by
  unfold setPackageRepo at h
  split at h
  · cases h; exact ⟨rfl, rfl⟩
  · cases h

theorem setPackageType_db {nx nx' : Nexus} {p r : Str} (h : setPackageType nx p r = some nx') :
    nx'.db = nx.db ∧ nx'.defaultSourceType = nx.defaultSourceType := by
  unfold setPackageType at h
  obtain ⟨ty, _, rfl⟩ := Option.map_eq_some_iff.1 h
  exact ⟨rfl, rfl⟩

theorem viperStep_effect {entries : List (Str × PkgSetting)} {s s' : InstallDeps × Nexus} {e : Str × PkgSetting}
    (h : viperStep entries s e = some s') :
    s'.2.db = s.2.db ∧ s'.2.defaultSourceType = s.2.defaultSourceType ∧ s'.1.default = s.1.default ∧
    s'.1.deps = (if isCustomizationSet (fun v => v.suggests.isSome) entries e.1 then
      GoMap.put s.1.deps e.1 { s.1.default with suggests := e.2.suggests.getD false } else s.1.deps) := by
  unfold viperStep at h
  dsimp only at h
  split at h
  · cases h
  · next nx1 h1 =>
    split at h
    · cases h
    · next nx2 h2 =>
      cases h
      have e1 : nx1.db = s.2.db ∧ nx1.defaultSourceType = s.2.defaultSourceType := by
        split at h1
        · exact setPackageRepo_db h1
        · cases h1; exact ⟨rfl, rfl⟩
      have e2 : nx2.db = nx1.db ∧ nx2.defaultSourceType = nx1.defaultSourceType := by
        split at h2
        · exact setPackageType_db h2
        · cases h2; exact ⟨rfl, rfl⟩
      refine ⟨e2.1.trans e1.1, e2.2.trans e1.2, ?_, ?_⟩ <;> (dsimp only; split <;> rfl)

theorem cfgCustomization_fold (pkgs : List Str) : ∀ cfgs : InstallDeps,
    (pkgs.foldl cfgCustomizationStep cfgs).default = cfgs.default ∧
    ∀ p, GoMap.get? (pkgs.foldl cfgCustomizationStep cfgs).deps p =
      if p ∈ pkgs then some { cfgs.default with suggests := true } else GoMap.get? cfgs.deps p := by
  induction pkgs with
  | nil => intro cfgs; simp
  | cons q qs ih =>
    intro cfgs
    rw [List.foldl_cons]
    obtain ⟨h1, h2⟩ := ih (cfgCustomizationStep cfgs q)
    refine ⟨h1.trans rfl, fun p => ?_⟩
    rw [h2]
    have hd : (cfgCustomizationStep cfgs q).default = cfgs.default := rfl
    have hg : GoMap.get? (cfgCustomizationStep cfgs q).deps p =
        if p = q then some { cfgs.default with suggests := true } else GoMap.get? cfgs.deps p := by
      unfold cfgCustomizationStep; rw [GoMap.get?_put]
    rw [hd, hg]
    by_cases h3 : p ∈ qs
    · simp [h3]
    · by_cases h4 : p = q <;> simp [h3, h4]

theorem setCfg_spec (g : Bool) (pkgs : List Str) (cfgs : InstallDeps) :
    (setCfgCustomizations g pkgs cfgs).default = cfgs.default ∧
    ∀ p, GoMap.get? (setCfgCustomizations g pkgs cfgs).deps p =
      if g = true ∧ p ∈ pkgs then some { cfgs.default with suggests := true } else GoMap.get? cfgs.deps p := by
  unfold setCfgCustomizations
  cases g
  · simp
  · simpa using cfgCustomization_fold pkgs cfgs

theorem viper_fold_inv (entries : List (Str × PkgSetting)) (l : List (Str × PkgSetting)) :
    ∀ (s s' : InstallDeps × Nexus), l.foldlM (viperStep entries) s = some s' →
      s'.2.db = s.2.db ∧ s'.2.defaultSourceType = s.2.defaultSourceType ∧ s'.1.default = s.1.default ∧
      ∀ p c, GoMap.get? s'.1.deps p = some c →
        GoMap.get? s.1.deps p = some c ∨ ∃ v, c = { s.1.default with suggests := v } := by
  induction l with
  | nil => intro s s' h; cases h; exact ⟨rfl, rfl, rfl, fun p c h => Or.inl h⟩
  | cons e l ih =>
    intro s s' h
    rw [List.foldlM_cons] at h
    obtain ⟨sm, hstep, hrest⟩ := Option.bind_eq_some_iff.1 h
    obtain ⟨a1, a2, a3, a4⟩ := viperStep_effect hstep
    obtain ⟨b1, b2, b3, b4⟩ := ih sm s' hrest
    refine ⟨b1.trans a1, b2.trans a2, b3.trans a3, fun p c hc => ?_⟩
    rcases b4 p c hc with h1 | ⟨v, hv⟩
    · rw [a4] at h1
      split at h1
      · rw [GoMap.get?_put] at h1
        split at h1
        · cases h1; exact Or.inr ⟨_, rfl⟩
        · exact Or.inl h1
      · exact Or.inl h1
    · rw [a3] at hv; exact Or.inr ⟨v, hv⟩

/-- Planning configurations are uniform. -/
theorem setPlan_uniform {g : Bool} {pkgs : List Str} {entries : List (Str × PkgSetting)} {nr : Bool}
    {nx nx' : Nexus} {cfgs : InstallDeps}
    (h : setPlanCustomizations g pkgs entries (defaultCfgs nr) nx = some (cfgs, nx')) :
    Uniform cfgs nr ∧ nx'.db = nx.db ∧ nx'.defaultSourceType = nx.defaultSourceType := by
  obtain ⟨h1, h2, h3, h4⟩ := viper_fold_inv _ _ _ _ h
  obtain ⟨k1, k2⟩ := setCfg_spec g pkgs (defaultCfgs nr)
  dsimp only at h1 h2 h3 h4
  rw [k1] at h3 h4
  refine ⟨⟨by rw [h3]; rfl, ?_⟩, h1, h2⟩
  rintro c (rfl | ⟨p, hp⟩)
  · rw [h3]; exact ⟨rfl, rfl, rfl⟩
  · rcases h4 p c hp with h5 | ⟨v, rfl⟩
    · rw [k2] at h5
      split at h5
      · cases h5; exact ⟨rfl, rfl, rfl⟩
      · simp [defaultCfgs, newDefaultInstallDeps] at h5
    · exact ⟨rfl, rfl, rfl⟩

theorem isSet_iff {f : PkgSetting → Bool} {entries : List (Str × PkgSetting)}
    (hnd : (entries.map Prod.fst).Nodup) {e : Str × PkgSetting} (he : e ∈ entries) :
    isCustomizationSet f entries e.1 = f e.2 := by
  unfold isCustomizationSet
  rw [Bool.eq_iff_iff, List.any_eq_true]
  constructor
  · rintro ⟨e', he', hh⟩
    simp only [Bool.and_eq_true, decide_eq_true_eq] at hh
    have : e' = e := by
      have h1 := GoMap.get?_of_mem (m := entries) hnd (k := e.1) (v := e.2) he
      have h2 := GoMap.get?_of_mem (m := entries) hnd (k := e'.1) (v := e'.2) he'
      rw [hh.1, h1] at h2
      exact Prod.ext hh.1 (by simpa using h2.symm)
    rw [← this]; exact hh.2
  · intro hf; exact ⟨e, he, by simp [hf]⟩

theorem viper_fold_suggests (entries : List (Str × PkgSetting)) (hnd : (entries.map Prod.fst).Nodup)
    (l : List (Str × PkgSetting)) : ∀ (s s' : InstallDeps × Nexus), (∀ e ∈ l, e ∈ entries) →
      (l.map Prod.fst).Nodup → l.foldlM (viperStep entries) s = some s' →
      ∀ p, GoMap.get? s'.1.deps p =
        match GoMap.get? l p with
        | some ⟨some v, _, _⟩ => some { s.1.default with suggests := v }
        | _ => GoMap.get? s.1.deps p := by
  induction l with
  | nil => intro s s' _ _ h p; cases h; rfl
  | cons e l ih =>
    intro s s' hsub hl h p
    rw [List.map_cons, List.nodup_cons] at hl
    rw [List.foldlM_cons] at h
    obtain ⟨sm, hstep, hrest⟩ := Option.bind_eq_some_iff.1 h
    obtain ⟨_, _, a3, a4⟩ := viperStep_effect hstep
    rw [ih sm s' (fun x hx => hsub x (by simp [hx])) hl.2 hrest p, GoMap.get?_cons, a3, a4,
      isSet_iff hnd (hsub e (by simp))]
    by_cases hp : e.1 = p
    · subst hp
      have : GoMap.get? l e.1 = none := (GoMap.get?_eq_none_iff _ _).2 hl.1
      rw [this, if_pos rfl]
      obtain ⟨n, ⟨su, re, ty⟩⟩ := e
      cases su with
      | none => simp
      | some v => simp [GoMap.get?_put]
    · rw [if_neg hp]
      have hp' : p ≠ e.1 := fun h => hp h.symm
      have hsame : GoMap.get? (if e.2.suggests.isSome = true then
          GoMap.put s.1.deps e.1 { s.1.default with suggests := e.2.suggests.getD false } else s.1.deps) p
          = GoMap.get? s.1.deps p := by
        split
        · rw [GoMap.get?_put, if_neg hp']
        · rfl
      rw [hsame]

/-! ### Keyed databases -/

/-- All tables of a database file descriptions under their own names. -/
def KeyedDb (db : RepoDb) : Prop := ∀ st k d, GoMap.get? (db.table st) k = some d → d.package = k

theorem keyed_ignore {nx : Nexus} (h : Keyed nx) (ig : List Str) : Keyed (ignorePackages nx ig) := by
  intro db hdb st k d hd
  simp only [ignorePackages, List.mem_map] at hdb
  obtain ⟨db0, h0, rfl⟩ := hdb
  rw [ignore_fold_get?] at hd
  split at hd
  · cases hd
  · exact h db0 h0 st k d hd

theorem noR_ignore {nx : Nexus} (h : NoR nx) (ig : List Str) : NoR (ignorePackages nx ig) := by
  intro db hdb st
  simp only [ignorePackages, List.mem_map] at hdb
  obtain ⟨db0, h0, rfl⟩ := hdb
  rw [ignore_fold_get?, h db0 h0 st]
  split <;> rfl

theorem noR_not_available {nx : Nexus} (h : NoR nx) : ¬ Available nx (s%"R") := by
  rintro ⟨dl, hdl⟩
  rw [resolves_iff] at hdl
  have : ∀ dbs : List RepoDb, (∀ db ∈ dbs, db ∈ nx.db) → getPackageLoop nx (s%"R") dbs = none := by
    intro dbs
    induction dbs with
    | nil => intro _; rfl
    | cons db dbs ih =>
      intro hm
      unfold getPackageLoop
      dsimp only
      rw [h db (hm db (by simp))]
      exact ih fun x hx => hm x (by simp [hx])
  rw [getPackage, this _ fun _ h => h] at hdl
  cases hdl

theorem resolve_empty (installed : GoMap Desc) (cfgs : InstallDeps) (nx : Nexus) (u l nr : Bool) (ρ : Order) :
    ∃ e, resolveInstallationReqs [] installed cfgs nx u l nr ρ = .error e ∧
      (e = .indexPanic ∨ e = .versionPanic) := by
  unfold resolveInstallationReqs buildGraph resolveLayers
  simp only [List.foldlM_nil]
  have h1 : layerLoop ρ (List.length ([] : Graph)) 0 (nodeDependencies [] nr) = some [] := rfl
  have h2 : ∀ t, (List.drop 1 ([] : List (List Str))).flatten.foldlM (depDbStep nx ρ nr) (t, []) = .ok (t, []) :=
    fun t => rfl
  dsimp only [pure]
  rw [h1]
  dsimp only
  rw [h2]
  dsimp only
  split
  · exact ⟨_, rfl, Or.inr rfl⟩
  · exact ⟨_, rfl, Or.inl rfl⟩

/-- Everything about a plan that `planInstall` returns. -/
structure PlanInstallOk (cfg : PlanCfg) (nx : Nexus) (installed : GoMap Desc) (req : List Str) (nx' : Nexus)
    (ip : InstallPlan) (cfgs : InstallDeps) : Prop where
  custom : setPlanCustomizations cfg.suggests cfg.packages cfg.customizations
    (defaultCfgs cfg.noRecommended) (ignorePackages nx cfg.ignore) = some (cfgs, nx')
  db : nx'.db = (ignorePackages nx cfg.ignore).db
  nonempty : req ≠ []
  avail : ∀ p ∈ req, Available nx' p
  plan : PlanOk nx' cfg.noRecommended (SugOn cfgs) req ip
  installedEq : ip.installed = installed
  updateEq : ip.update = !cfg.noUpdate

theorem planInstall_planned {cfg : PlanCfg} {nx nx' : Nexus} {installed : GoMap Desc} {libEx : Bool}
    {tb ds : List Desc} {add : GoMap AdditionalPkg} {ρ ρ' ρ'' : Order} {req : List Str} {ip : InstallPlan}
    (hk : Keyed nx) (hR : NoR nx) (hρ : ρ''.Fair)
    (h : planInstall cfg nx installed libEx tb ds add ρ ρ' ρ'' = .planned req nx' ip) :
    req = requestedPackages cfg tb ds ρ ρ' ∧ ip.additional = add ∧ ip.createLibrary = !libEx ∧
    ∃ cfgs, PlanInstallOk cfg nx installed req nx' ip cfgs := by
  unfold planInstall at h
  dsimp only at h
  split at h
  · cases h
  · next cfgs nx1 hset =>
    split at h
    · cases h
    · next hmiss =>
      split at h
      · cases h
      · next ip1 hres =>
        simp only [PlanOutcome.planned.injEq] at h
        obtain ⟨rfl, rfl, rfl⟩ := h
        obtain ⟨hu, hdb, _⟩ := setPlan_uniform hset
        have hk' : Keyed nx1 := by
          intro db hd; rw [hdb] at hd; exact keyed_ignore hk _ db hd
        have hR' : ¬ Available nx1 (s%"R") := noR_not_available (by
          intro db hd; rw [hdb] at hd; exact noR_ignore hR _ db hd)
        have hav : ∀ p ∈ requestedPackages cfg tb ds ρ ρ', Available nx1 p := by
          intro p hp
          rw [ne_eq, not_not] at hmiss
          cases hg : getPackage nx1 p with
          | some dl => exact ⟨dl, resolves_iff.2 hg⟩
          | none =>
            exfalso
            rw [getPackages_eq] at hmiss
            have : p ∈ List.filter (fun p => (getPackage nx1 p).isNone) (requestedPackages cfg tb ds ρ ρ') := by
              simp [hp, hg]
            simp only at hmiss
            rw [hmiss] at this
            simp at this
        have hne : requestedPackages cfg tb ds ρ ρ' ≠ [] := by
          intro h0
          rw [h0] at hres
          obtain ⟨e, he, _⟩ := resolve_empty installed cfgs nx1 (!cfg.noUpdate) libEx cfg.noRecommended ρ''
          rw [he] at hres; cases hres
        rcases resolve_cases hk' hρ hu hR' hne hav installed (!cfg.noUpdate) libEx with ⟨hc, _⟩ | ⟨_, t, ⟨_, hv⟩ | hok⟩
        · rw [hc] at hres; cases hres
        · rw [hv] at hres; cases hres
        · obtain ⟨outd, ip2, _, h2, hpo, _, h3, h4, h5, _⟩ := hok
          rw [h2] at hres; cases hres
          refine ⟨rfl, rfl, h5, cfgs, hset, hdb, hne, hav, ?_, h3, h4⟩
          exact ⟨hpo.nodup, hpo.mem, hpo.avail, hpo.start, hpo.deps, hpo.acyclic, hpo.downloads⟩

end Pkgr
