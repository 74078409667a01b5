/- C17 (the names from which suggestions for missing packages are taken) and C132 (looking a package up in one repository). -/
import Verif.Props.Nexus

namespace Pkgr
open Spec

theorem keys_fold_put (ks : List Str) : ∀ m : GoMap Bool, GoMap.WF m →
    GoMap.WF (ks.foldl (fun m k => GoMap.put m k true) m) ∧
    ∀ p, p ∈ GoMap.keys (ks.foldl (fun m k => GoMap.put m k true) m) ↔ p ∈ GoMap.keys m ∨ p ∈ ks := by
  induction ks with
  | nil => intro m h; simp [h]
  | cons k ks ih =>
    intro m h
    obtain ⟨h1, h2⟩ := ih (GoMap.put m k true) (GoMap.wf_put h k true)
    refine ⟨h1, fun p => ?_⟩
    rw [List.foldl_cons, h2, GoMap.mem_keys_put, List.mem_cons]
    constructor
    · rintro ((h | h) | h)
      · exact Or.inr (Or.inl h)
      · exact Or.inl h
      · exact Or.inr (Or.inr h)
    · rintro (h | h | h)
      · exact Or.inl (Or.inr h)
      · exact Or.inl (Or.inl h)
      · exact Or.inr h

/-- C17: the names that a missing package is compared with for suggestions: each package that some repository offers, as source or
binary, once, and no other; in particular no ignored one. -/
theorem C17_all_names (nx : Nexus) (ignore : List Str) (order : List Str → List Str) (hord : ∀ l, (order l).Perm l) :
    (getAllPkgsByName (ignorePackages nx ignore) order).Nodup ∧
    ∀ p, p ∈ getAllPkgsByName (ignorePackages nx ignore) order ↔ p ∉ ignore ∧ ∃ db ∈ nx.db, ∃ st d, Offers db st p d := by
  have main : ∀ (dbs : List RepoDb) (m : GoMap Bool), GoMap.WF m →
      GoMap.WF (dbs.foldl (fun m db =>
        let m := (GoMap.keys db.src).foldl (fun m k => GoMap.put m k true) m
        (GoMap.keys (db.bin.getD [])).foldl (fun m k => GoMap.put m k true) m) m) ∧
      ∀ p, p ∈ GoMap.keys (dbs.foldl (fun m db =>
        let m := (GoMap.keys db.src).foldl (fun m k => GoMap.put m k true) m
        (GoMap.keys (db.bin.getD [])).foldl (fun m k => GoMap.put m k true) m) m) ↔
        p ∈ GoMap.keys m ∨ ∃ db ∈ dbs, ∃ st d, Offers db st p d := by
    intro dbs
    induction dbs with
    | nil => intro m h; simp [h]
    | cons db dbs ih =>
      intro m h
      obtain ⟨w1, k1⟩ := keys_fold_put (GoMap.keys db.src) m h
      obtain ⟨w2, k2⟩ := keys_fold_put (GoMap.keys (db.bin.getD [])) _ w1
      obtain ⟨w3, k3⟩ := ih _ w2
      refine ⟨w3, fun p => ?_⟩
      rw [List.foldl_cons, k3, k2, k1]
      have hoff : (∃ st d, Offers db st p d) ↔ p ∈ GoMap.keys db.src ∨ p ∈ GoMap.keys (db.bin.getD []) := by
        constructor
        · rintro ⟨st, d, hd⟩
          cases st with
          | default => exact absurd hd (by simp [Offers, RepoDb.table])
          | source => exact Or.inl (GoMap.mem_keys_of_get? hd)
          | binary => exact Or.inr (GoMap.mem_keys_of_get? hd)
        · rintro (hd | hd)
          · obtain ⟨d, hd⟩ := GoMap.exists_get?_of_mem hd
            exact ⟨.source, d, hd⟩
          · obtain ⟨d, hd⟩ := GoMap.exists_get?_of_mem hd
            exact ⟨.binary, d, hd⟩
      constructor
      · rintro (((h | h) | h) | ⟨db', hm, h⟩)
        · exact Or.inl h
        · exact Or.inr ⟨db, List.mem_cons_self, hoff.mpr (Or.inl h)⟩
        · exact Or.inr ⟨db, List.mem_cons_self, hoff.mpr (Or.inr h)⟩
        · exact Or.inr ⟨db', List.mem_cons_of_mem _ hm, h⟩
      · rintro (h | ⟨db', hm, h⟩)
        · exact Or.inl (Or.inl (Or.inl h))
        · rcases List.mem_cons.mp hm with rfl | hm
          · rcases hoff.mp h with h | h
            · exact Or.inl (Or.inl (Or.inr h))
            · exact Or.inl (Or.inr h)
          · exact Or.inr ⟨db', hm, h⟩
  have hdrop : ∀ (db : RepoDb) p, (∃ st d, Offers (ignore.foldl RepoDb.drop db) st p d) ↔ p ∉ ignore ∧ ∃ st d, Offers db st p d := by
    intro db p
    have ht : ∀ (ig : List Str) (db : RepoDb) st d, Offers (ig.foldl RepoDb.drop db) st p d ↔ p ∉ ig ∧ Offers db st p d := by
      intro ig
      induction ig with
      | nil => intro db st d; simp
      | cons k ig ih =>
        intro db st d
        rw [List.foldl_cons, ih]
        have : Offers (db.drop k) st p d ↔ p ≠ k ∧ Offers db st p d := by
          unfold Offers RepoDb.drop RepoDb.table
          cases st with
          | default => simp
          | source =>
            simp only [GoMap.get?_del]
            split <;> simp_all
          | binary =>
            cases hb : db.bin with
            | none => simp
            | some m =>
              simp only [Option.map_some, Option.getD_some, GoMap.get?_del]
              split <;> simp_all
        rw [this, List.mem_cons, not_or]
        constructor
        · rintro ⟨h1, h2, h3⟩; exact ⟨⟨h2, h1⟩, h3⟩
        · rintro ⟨⟨h1, h2⟩, h3⟩; exact ⟨h2, h1, h3⟩
    simp only [ht]
    constructor
    · rintro ⟨st, d, h1, h2⟩; exact ⟨h1, st, d, h2⟩
    · rintro ⟨h1, st, d, h2⟩; exact ⟨st, d, h1, h2⟩
  obtain ⟨w, k⟩ := main (ignorePackages nx ignore).db [] (by simp [GoMap.WF])
  unfold getAllPkgsByName
  refine ⟨(hord _).nodup_iff.mpr w, fun p => ?_⟩
  rw [(hord _).mem_iff, k]
  simp only [GoMap.keys_nil, List.not_mem_nil, false_or, ignorePackages, List.mem_map]
  constructor
  · rintro ⟨_, ⟨db, hm, rfl⟩, h⟩
    exact ⟨((hdrop db p).mp h).1, db, hm, ((hdrop db p).mp h).2⟩
  · rintro ⟨hi, db, hm, h⟩
    exact ⟨_, ⟨db, hm, rfl⟩, (hdrop db p).mpr ⟨hi, h⟩⟩

example : (getAllPkgsByName (ignorePackages toyNexus []) id).Perm [s%"a", s%"b"] ∧ getAllPkgsByName (ignorePackages toyNexus [s%"a"]) id = [s%"b"] := by decide

/-- C132, what the lookup in one repository does: the package is obtained from the first repository of that name (any, if none is
named) that offers it in the type set for the package, and in that type. Missing: packages for which no type is set (none is ever
found). -/
theorem C132_from_repo_partial (nx : Nexus) (pkg repo : Str) (dl : PkgDl) : getPackageFromRepo nx pkg repo = some dl ↔
    ∃ ty, ty ≠ .default ∧ (∃ c, GoMap.get? nx.packages pkg = some c ∧ c.type = ty) ∧ ObtainedFrom nx (fun db => repo = [] ∨ db.repo.name = repo) ty pkg dl := by
  have loop : ∀ (ty : SourceType) (dbs : List RepoDb),
      getPackageFromRepo.loop pkg repo ty dbs = some dl ↔ ∃ db, FirstWith (fun db => (repo = [] ∨ db.repo.name = repo) ∧ ∃ d, Offers db ty pkg d) dbs db ∧ Offers db ty pkg dl.package ∧
        dl.config = { repo := db.repo, type := ty } := by
    intro ty dbs
    induction dbs with
    | nil => simp [getPackageFromRepo.loop, FirstWith]
    | cons db dbs ih =>
      have skip : ¬ ((repo = [] ∨ db.repo.name = repo) ∧ ∃ d, Offers db ty pkg d) → ∀ x,
          (FirstWith (fun db => (repo = [] ∨ db.repo.name = repo) ∧ ∃ d, Offers db ty pkg d) (db :: dbs) x ↔
           FirstWith (fun db => (repo = [] ∨ db.repo.name = repo) ∧ ∃ d, Offers db ty pkg d) dbs x) := by
        intro hn x
        unfold FirstWith
        constructor
        · rintro ⟨pre, post, h1, h2, h3⟩
          cases pre with
          | nil => simp only [List.nil_append, List.cons.injEq] at h1; rw [← h1.1] at h2; exact absurd h2 hn
          | cons y pre =>
            simp only [List.cons_append, List.cons.injEq] at h1
            exact ⟨pre, post, h1.2, h2, fun d hd => h3 d (List.mem_cons_of_mem _ hd)⟩
        · rintro ⟨pre, post, h1, h2, h3⟩
          refine ⟨db :: pre, post, by rw [h1]; rfl, h2, fun d hd => ?_⟩
          rcases List.mem_cons.mp hd with rfl | hd
          · exact hn
          · exact h3 d hd
      rw [getPackageFromRepo.loop]
      by_cases hr : repo ≠ [] ∧ db.repo.name ≠ repo
      · rw [if_pos hr, ih]
        have hn : ¬ ((repo = [] ∨ db.repo.name = repo) ∧ ∃ d, Offers db ty pkg d) := by
          rintro ⟨h | h, _⟩
          · exact hr.1 h
          · exact hr.2 h
        simp only [skip hn]
      · rw [if_neg hr]
        have hr' : repo = [] ∨ db.repo.name = repo := by
          rcases Classical.em (repo = []) with h | h
          · exact Or.inl h
          · exact Or.inr (Classical.byContradiction fun hc => hr ⟨h, hc⟩)
        cases hg : GoMap.get? (db.table ty) pkg with
        | none =>
          simp only
          rw [ih]
          have hn : ¬ ((repo = [] ∨ db.repo.name = repo) ∧ ∃ d, Offers db ty pkg d) := by
            rintro ⟨_, d, hd⟩
            unfold Offers at hd
            rw [hg] at hd
            cases hd
          simp only [skip hn]
        | some d =>
          simp only [Option.some.injEq]
          have hfirst : ∀ x, FirstWith (fun db => (repo = [] ∨ db.repo.name = repo) ∧ ∃ d, Offers db ty pkg d) (db :: dbs) x ↔ x = db := by
            intro x
            unfold FirstWith
            constructor
            · rintro ⟨pre, post, h1, h2, h3⟩
              cases pre with
              | nil => simp only [List.nil_append, List.cons.injEq] at h1; exact h1.1.symm
              | cons y pre =>
                simp only [List.cons_append, List.cons.injEq] at h1
                exact absurd ⟨hr', d, hg⟩ (h1.1 ▸ h3 y List.mem_cons_self)
            · rintro rfl
              exact ⟨[], dbs, rfl, ⟨hr', d, hg⟩, by simp⟩
          simp only [hfirst, exists_eq_left]
          unfold Offers
          rw [hg]
          constructor
          · rintro rfl; exact ⟨rfl, rfl⟩
          · rintro ⟨h1, h2⟩
            cases dl
            simp only [Option.some.injEq] at h1
            simp_all
  unfold getPackageFromRepo
  simp only [loop]
  unfold ObtainedFrom
  cases hc : GoMap.get? nx.packages pkg with
  | none =>
    simp only [Option.getD_none]
    constructor
    · rintro ⟨db, _, h, _⟩
      exact absurd h (by simp [Offers, RepoDb.table])
    · rintro ⟨ty, _, ⟨c, h, _⟩, _⟩; cases h
  | some c =>
    simp only [Option.getD_some]
    constructor
    · rintro ⟨db, h1, h2, h3⟩
      refine ⟨c.type, ?_, ⟨c, rfl, rfl⟩, db, h1, h2, h3⟩
      intro hd
      rw [hd] at h2
      simp [Offers, RepoDb.table] at h2
    · rintro ⟨ty, _, ⟨c', h, rfl⟩, db, h1, h2, h3⟩
      cases h
      exact ⟨db, h1, h2, h3⟩

example : ∃ nx', setPackageType toyNexus (s%"a") (s%"source") = some nx' ∧
    (getPackageFromRepo nx' (s%"a") (s%"R2")).map (·.package.version) = some (s%"2.0") ∧
    (getPackageFromRepo nx' (s%"a") []).map (·.package.version) = some (s%"1.0") ∧ getPackageFromRepo nx' (s%"b") (s%"R2") = none := ⟨_, rfl, by decide, by decide, by decide⟩

/-- C132 fails for packages without settings: package `a`, which both repositories offer as source, the default type, is found by
the ordinary lookup, but not by the lookup in the repository it comes from: the default type is not put in. -/
theorem C132_violated : (getPackage toyNexus (s%"a")).map (·.config.repo.name) = some (s%"R1") ∧ getPackageFromRepo toyNexus (s%"a") (s%"R1") = none := by decide

end Pkgr
