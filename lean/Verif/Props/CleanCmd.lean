/- C125-C127: the clean commands as wholes. -/
import Verif.Spec.CleanCmd
import Verif.Props.PkgDb
import Verif.Props.Clean
import Verif.Props.Tarballs
import Verif.Props.EndToEnd

namespace Pkgr
open Spec

/-! ### What opening returns, whatever is cached -/

theorem initRepoDb_repo (p : Platform) (url : RepoURL) (dst : SourceType) (rc : RepoConfig) : (initRepoDb p url dst rc).repo = url := by
  unfold initRepoDb
  rfl

theorem dbFile_repo (e : RepoEnv) (db : RepoDb) :
    repoDbCacheFile e.md5hex e.platform db e.rv = dbFileOf e db.repo.name db.repo.url := by
  have hs : sourceTypeString e.platform (stsum db) = s%"source" := by
    unfold stsum sourceTypeString; split <;> simp
  unfold repoDbCacheFile hashInput dbFileOf
  rw [hs]

theorem fileOf_dbFile (e : RepoEnv) (url : RepoURL) (dst : SourceType) (rc : RepoConfig) :
    e.fileOf url dst rc = dbFileOf e url.name url.url := by
  unfold RepoEnv.fileOf
  rw [dbFile_repo, initRepoDb_repo]

theorem newRepoDb_repo {e : RepoEnv} {c : DbCache} {url : RepoURL} {dst : SourceType} {rc : RepoConfig} {swap : Bool} {db : RepoDb}
    (h : (e.newRepoDb c url dst rc swap).2 = .ok db) : db.repo = url := by
  unfold RepoEnv.newRepoDb RepoEnv.fetchPackages at h
  dsimp only at h
  split at h
  · rename_i ha
    have : e.fetchAndStore c (e.fileOf url dst rc) (initRepoDb e.platform url dst rc) swap =
        ((e.fetchAndStore c (e.fileOf url dst rc) (initRepoDb e.platform url dst rc) swap).1, .ok db) := by
      rw [← h]; rfl
    obtain ⟨hdb, -, -⟩ := fetchAndStore_ok this
    rw [hdb]
    exact initRepoDb_repo e.platform url dst rc
  · split at h
    · cases h
      exact initRepoDb_repo e.platform url dst rc
    · cases h

/-- The settings of a repository. -/
abbrev rcOf (cfg : GoMap RepoConfig) (url : RepoURL) : RepoConfig := (GoMap.get? cfg url.name).getD {}

theorem openAll_positions (e : RepoEnv) (urls : List RepoURL) (dst : SourceType) (cfg : GoMap RepoConfig) (sched : List (Nat × Bool)) (c : DbCache) :
    (e.openAll urls dst cfg c sched).2.map Prod.fst = sched.map Prod.fst := by
  induction sched generalizing c with
  | nil => rfl
  | cons a rest ih =>
    obtain ⟨i, swap⟩ := a
    unfold RepoEnv.openAll
    dsimp only
    rw [List.map_cons, ih, List.map_cons]

theorem openAll_repo {e : RepoEnv} {urls : List RepoURL} {dst : SourceType} {cfg : GoMap RepoConfig} (sched : List (Nat × Bool)) (c : DbCache)
    {i : Nat} {db : RepoDb} (h : (i, Except.ok db) ∈ (e.openAll urls dst cfg c sched).2) : db.repo = urls.getD i {} := by
  induction sched generalizing c with
  | nil => cases h
  | cons a rest ih =>
    obtain ⟨j, swap⟩ := a
    unfold RepoEnv.openAll at h
    dsimp only at h
    rcases List.mem_cons.1 h with h | h
    · simp only [Prod.mk.injEq] at h
      obtain ⟨rfl, h⟩ := h
      exact newRepoDb_repo h.symm
    · exact ih _ h

theorem newPkgDb_repos {e : RepoEnv} {urls : List RepoURL} {dst : SourceType} {cfg : GoMap RepoConfig} {c : DbCache}
    {sched : List (Nat × Bool)} {nx : Nexus} (hsched : (sched.map Prod.fst).Perm (List.range urls.length))
    (h : (e.newPkgDb urls dst cfg c sched).2 = some nx) : nx.db.map RepoDb.repo = urls := by
  have hnd : (sched.map Prod.fst).Nodup := hsched.nodup_iff.2 List.nodup_range
  have hpos := openAll_positions e urls dst cfg sched c
  have heach : ∀ i db, (i, Except.ok db) ∈ (e.openAll urls dst cfg c sched).2 → db.repo = urls.getD i {} :=
    fun i db h => openAll_repo sched c h
  unfold RepoEnv.newPkgDb at h
  split at h
  · simp at h
  · dsimp only at h
    split at h
    · simp at h
    · rename_i hfail
      simp only [Option.some.injEq] at h
      generalize (e.openAll urls dst cfg c sched).2 = rs at *
      have hrs : ∀ i, i < urls.length → ∃ d, (i, Except.ok d) ∈ rs := by
        intro i hi
        have : i ∈ rs.map Prod.fst := by rw [hpos]; exact hsched.symm.subset (by simpa using hi)
        obtain ⟨⟨j, r⟩, hr, rfl⟩ := List.mem_map.1 this
        cases r with
        | ok d => exact ⟨d, hr⟩
        | error x => exact absurd (List.any_eq_true.2 ⟨_, hr, rfl⟩) hfail
      have hget : ∀ i, (hi : i < urls.length) → ∃ d, (rs.foldl slotStep (List.replicate urls.length none))[i]? = some (some d) ∧ d.repo = urls[i] := by
        intro i hi
        obtain ⟨d, hd⟩ := hrs i hi
        refine ⟨d, slots_set rs (List.replicate urls.length none) i d (hpos ▸ hnd) (by simpa using hi) hd, ?_⟩
        rw [heach i d hd, getD_eq urls i urls[i] (List.getElem?_eq_getElem hi)]
      have hlen : (rs.foldl slotStep (List.replicate urls.length none)).length = urls.length := by
        rw [slots_length, List.length_replicate]
      generalize rs.foldl slotStep (List.replicate urls.length none) = l at *
      have hmap := filterMap_slots l fun x hx => by
        obtain ⟨i, hi, rfl⟩ := List.getElem_of_mem hx
        obtain ⟨d, hd, -⟩ := hget i (hlen ▸ hi)
        rw [List.getElem?_eq_getElem hi, Option.some.injEq] at hd
        rw [hd]; rfl
      subst h
      dsimp only
      apply List.ext_getElem?
      intro i
      rw [List.getElem?_map]
      by_cases hi : i < urls.length
      · obtain ⟨d, hd, hr⟩ := hget i hi
        rw [← hmap, List.getElem?_map] at hd
        cases hx : (l.filterMap id)[i]? with
        | none => rw [hx] at hd; cases hd
        | some x =>
          rw [hx] at hd
          cases hd
          rw [List.getElem?_eq_getElem hi, ← hr]
          rfl
      · have : (l.filterMap id).length = urls.length := by rw [← hlen, ← congrArg List.length hmap, List.length_map]
        rw [List.getElem?_eq_none (by omega), List.getElem?_eq_none (by omega)]
        rfl

theorem repoURLs_mem {ρ : Order} (hρ : ρ.Fair) (custom : List (GoMap RepoCustom)) : ∀ (repos : List (GoMap Str)) (t : Nat),
    (∀ m ∈ repos, GoMap.WF m) → ∀ nm u, (∃ x, (nm, u, x) ∈ repoURLs ρ t custom repos) ↔ ∃ m ∈ repos, GoMap.get? m nm = some u
  | [], t, _, nm, u => by simp [repoURLs]
  | m :: ms, t, hwf, nm, u => by
    rw [repoURLs]
    have ih := repoURLs_mem hρ custom ms (t + 1) (fun m hm => hwf m (by simp [hm])) nm u
    simp only [List.mem_append, List.mem_map, (hρ t _).mem_iff, exists_or]
    rw [ih]
    simp only [List.mem_cons, exists_eq_or_imp]
    apply or_congr_left
    unfold repoURL
    constructor
    · rintro ⟨x, k, hk, h⟩
      simp only [Prod.mk.injEq] at h
      obtain ⟨rfl, h, -⟩ := h
      cases hg : GoMap.get? m k with
      | none => exact absurd hk ((GoMap.get?_eq_none_iff _ _).1 hg)
      | some v => rw [hg] at h; simp at h; rw [h]
    · intro h
      refine ⟨_, nm, ?_, by rw [h]; rfl⟩
      apply Classical.byContradiction
      intro hn
      rw [(GoMap.get?_eq_none_iff _ _).2 hn] at h
      cases h

theorem repoURLs_length {ρ : Order} (hρ : ρ.Fair) (custom : List (GoMap RepoCustom)) : ∀ (repos : List (GoMap Str)) (t : Nat),
    (repoURLs ρ t custom repos).length = (repos.flatMap GoMap.keys).length
  | [], t => rfl
  | m :: ms, t => by
    rw [repoURLs, List.length_append, List.length_map, (hρ t _).length_eq, repoURLs_length hρ custom ms, List.flatMap_cons, List.length_append]

/-- The repositories as they are opened. -/
def cleanURLs (s : CleanEnv) : List RepoURL := (repoURLs s.ρ₁ 0 s.custom s.repos).map fun r => { name := r.1, url := r.2.1, suffix := r.2.2 }

theorem cleanURLs_mem {s : CleanEnv} (ho : Orderly s) (nm u : Str) :
    (∃ url ∈ cleanURLs s, url.name = nm ∧ url.url = u) ↔ Configured s nm u := by
  unfold Configured
  rw [← repoURLs_mem ho.orders.1 s.custom s.repos 0 ho.items]
  unfold cleanURLs
  simp only [List.mem_map]
  constructor
  · rintro ⟨url, ⟨r, hr, rfl⟩, rfl, rfl⟩
    exact ⟨r.2.2, hr⟩
  · rintro ⟨x, hx⟩
    exact ⟨_, ⟨_, hx, rfl⟩, rfl, rfl⟩

theorem cleanURLs_turns {s : CleanEnv} (ho : Orderly s) : (s.sched.map Prod.fst).Perm (List.range (cleanURLs s).length) := by
  unfold cleanURLs
  rw [List.length_map, repoURLs_length ho.orders.1]
  exact ho.turns

/-! ### Planning, as far as cleaning is concerned -/

theorem ignore_repos (nx : Nexus) (ignore : List Str) : (ignorePackages nx ignore).db.map RepoDb.repo = nx.db.map RepoDb.repo := by
  unfold ignorePackages
  dsimp only
  rw [List.map_map]
  apply List.map_congr_left
  intro db _
  exact (ignore_fold_meta ignore db).1

theorem planned_db {cfg : PlanCfg} {nx nx' : Nexus} {installed : GoMap Desc} {libEx : Bool} {tb ds : List Desc}
    {add : GoMap AdditionalPkg} {ρ ρ' ρ'' : Order} {req : List Str} {ip : InstallPlan}
    (h : planInstall cfg nx installed libEx tb ds add ρ ρ' ρ'' = .planned req nx' ip) : nx'.db = (ignorePackages nx cfg.ignore).db := by
  unfold planInstall at h
  dsimp only at h
  split at h
  · cases h
  · next cfgs nx1 hset =>
    split at h
    · cases h
    · split at h
      · cases h
      · cases h
        exact (setPlan_uniform hset).2.1

/-- What `planInstall` leaves when it comes to its end. -/
theorem plan_done {s : CleanEnv} (ho : Orderly s) {w w' : CacheWorld} {dbs : List RepoDb} (h : s.plan w = .done w' dbs) :
    w'.dbs = (s.repo.openConfigured s.ρ₁ s.ρ₂ s.custom s.repos w.dbs s.sched).1 ∧ dbs.map RepoDb.repo = cleanURLs s ∧
    ∃ tb table, unpackTarballs s.digest s.names s.parse (userCache s.cfgCache s.cwd s.base) w.fs [] [] s.tarballs = some (w'.fs, tb, table) := by
  unfold CleanEnv.plan at h
  cases hop : s.repo.openConfigured s.ρ₁ s.ρ₂ s.custom s.repos w.dbs s.sched with
  | mk c o =>
    rw [hop] at h
    cases o with
    | none => cases h
    | some nx =>
      dsimp only at h
      have hrep : nx.db.map RepoDb.repo = cleanURLs s := by
        refine newPkgDb_repos (e := s.repo) (dst := defaultType s.repo.platform) (cfg := repoSettings s.ρ₂ 0 s.custom []) (c := w.dbs)
          (cleanURLs_turns ho) ?_
        show (s.repo.openConfigured s.ρ₁ s.ρ₂ s.custom s.repos w.dbs s.sched).2 = some nx
        rw [hop]
      cases hu : unpackTarballs s.digest s.names s.parse (userCache s.cfgCache s.cwd s.base) w.fs [] [] s.tarballs with
      | none => rw [hu] at h; cases h
      | some x =>
        obtain ⟨fs, tb, table⟩ := x
        rw [hu] at h
        dsimp only at h
        cases hd : unpackDescriptions s.parse fs s.descriptions with
        | none => rw [hd] at h; cases h
        | some ds =>
          rw [hd] at h
          dsimp only at h
          cases hp : planInstall s.cfg nx s.installed s.libraryExists tb ds table s.ρ s.ρ' s.ρ'' with
          | badCustomization => rw [hp] at h; cases h
          | failed e => rw [hp] at h; cases h
          | missing l =>
            rw [hp] at h
            cases h
            exact ⟨rfl, (ignore_repos nx _).trans hrep, tb, table, rfl⟩
          | planned req nx' ip =>
            rw [hp] at h
            cases h
            exact ⟨rfl, by rw [planned_db hp, ignore_repos, hrep], tb, table, rfl⟩

theorem dropDb_fold (s : CleanEnv) (name : Str) : ∀ (dbs : List RepoDb) (c : DbCache) (k : Str),
    dbs.foldl (s.dropDb name) c k = if ∃ db ∈ dbs, db.repo.name = name ∧ dbFileOf s.repo db.repo.name db.repo.url = k then none else c k
  | [], c, k => by simp
  | db :: dbs, c, k => by
    rw [List.foldl_cons, dropDb_fold s name dbs]
    unfold CleanEnv.dropDb
    rw [dbFile_repo]
    by_cases h1 : ∃ db ∈ dbs, db.repo.name = name ∧ dbFileOf s.repo db.repo.name db.repo.url = k
    · rw [if_pos h1, if_pos (by obtain ⟨d, hd, h⟩ := h1; exact ⟨d, by simp [hd], h⟩)]
    · rw [if_neg h1]
      by_cases h2 : db.repo.name = name ∧ dbFileOf s.repo db.repo.name db.repo.url = k
      · rw [if_pos h2.1, if_pos ⟨db, by simp, h2⟩]
        unfold DbCache.put
        rw [if_pos h2.2.symm]
      · have h5 : ¬ ∃ db' ∈ db :: dbs, db'.repo.name = name ∧ dbFileOf s.repo db'.repo.name db'.repo.url = k := by
          rintro ⟨d, hd, h⟩
          rcases List.mem_cons.1 hd with rfl | hd
          · exact h2 h
          · exact h1 ⟨d, hd, h⟩
        by_cases h3 : db.repo.name = name
        · rw [if_pos h3]
          unfold DbCache.put
          rw [if_neg fun h4 => h2 ⟨h3, h4.symm⟩, if_neg h5]
        · rw [if_neg h3, if_neg h5]

theorem dropDbs_fold (s : CleanEnv) (dbs : List RepoDb) : ∀ (names : List Str) (c : DbCache) (k : Str),
    names.foldl (s.dropDbs dbs) c k = if ∃ db ∈ dbs, db.repo.name ∈ names ∧ dbFileOf s.repo db.repo.name db.repo.url = k then none else c k
  | [], c, k => by simp
  | n :: ns, c, k => by
    rw [List.foldl_cons, dropDbs_fold s dbs ns]
    unfold CleanEnv.dropDbs
    rw [dropDb_fold]
    by_cases h1 : ∃ db ∈ dbs, db.repo.name ∈ ns ∧ dbFileOf s.repo db.repo.name db.repo.url = k
    · rw [if_pos h1, if_pos (by obtain ⟨d, hd, h, h'⟩ := h1; exact ⟨d, hd, by simp [h], h'⟩)]
    · rw [if_neg h1]
      by_cases h2 : ∃ db ∈ dbs, db.repo.name = n ∧ dbFileOf s.repo db.repo.name db.repo.url = k
      · rw [if_pos h2, if_pos (by obtain ⟨d, hd, h, h'⟩ := h2; exact ⟨d, hd, by simp [h], h'⟩)]
      · rw [if_neg h2, if_neg]
        rintro ⟨d, hd, h, h'⟩
        rcases List.mem_cons.1 h with h | h
        · exact h2 ⟨d, hd, h, h'⟩
        · exact h1 ⟨d, hd, h, h'⟩

theorem namesOf_iff {s : CleanEnv} (ho : Orderly s) {arg nm u : Str} (hc : Configured s nm u) : nm ∈ s.namesOf arg ↔ SelectsRepo arg nm := by
  unfold CleanEnv.namesOf SelectsRepo
  rw [commaItem_iff]
  by_cases h : arg = s%"ALL"
  · rw [if_pos h]
    simp only [h, true_or, iff_true, List.mem_flatMap]
    obtain ⟨m, hm, hg⟩ := hc
    refine ⟨m, hm, ((ho.orders.2.2 0 _).mem_iff).2 ?_⟩
    apply Classical.byContradiction
    intro hn
    rw [(GoMap.get?_eq_none_iff _ _).2 hn] at hg
    cases hg
  · rw [if_neg h]
    simp [h]

/-- The databases after `clean pkgdbs`. -/
theorem cleanPkgdbs_dbs {s : CleanEnv} (ho : Orderly s) {arg : Str} {w w' : CacheWorld} (h : s.cleanPkgdbs arg w = .done w' ()) (k : Str) :
    (open Classical in w'.dbs k = if ∃ nm u, Configured s nm u ∧ SelectsRepo arg nm ∧ dbFileOf s.repo nm u = k then none
      else (s.repo.openConfigured s.ρ₁ s.ρ₂ s.custom s.repos w.dbs s.sched).1 k) ∧
    ∃ tb table, unpackTarballs s.digest s.names s.parse (userCache s.cfgCache s.cwd s.base) w.fs [] [] s.tarballs = some (w'.fs, tb, table) := by
  unfold CleanEnv.cleanPkgdbs at h
  cases hp : s.plan w with
  | ended c => rw [hp] at h; cases h
  | done w1 dbs =>
    rw [hp] at h
    cases h
    obtain ⟨h1, h2, h3⟩ := plan_done ho hp
    refine ⟨?_, h3⟩
    dsimp only
    rw [dropDbs_fold, h1]
    have hiff : (∃ db ∈ dbs, db.repo.name ∈ s.namesOf arg ∧ dbFileOf s.repo db.repo.name db.repo.url = k) ↔
        ∃ nm u, Configured s nm u ∧ SelectsRepo arg nm ∧ dbFileOf s.repo nm u = k := by
      constructor
      · rintro ⟨db, hd, hn, hk⟩
        have hc : Configured s db.repo.name db.repo.url :=
          (cleanURLs_mem ho _ _).1 ⟨db.repo, by rw [← h2]; exact List.mem_map.2 ⟨db, hd, rfl⟩, rfl, rfl⟩
        exact ⟨_, _, hc, (namesOf_iff ho hc).1 hn, hk⟩
      · rintro ⟨nm, u, hc, hs, hk⟩
        obtain ⟨url, hu, rfl, rfl⟩ := (cleanURLs_mem ho _ _).2 hc
        rw [← h2] at hu
        obtain ⟨db, hd, rfl⟩ := List.mem_map.1 hu
        exact ⟨db, hd, (namesOf_iff ho hc).2 hs, hk⟩
    by_cases hx : ∃ db ∈ dbs, db.repo.name ∈ s.namesOf arg ∧ dbFileOf s.repo db.repo.name db.repo.url = k
    · rw [if_pos hx, if_pos (hiff.1 hx)]
    · rw [if_neg hx, if_neg fun h => hx (hiff.2 h)]

/-! ### C125 -/

theorem dbFileOf_same {e later : RepoEnv} (h : SameMachine e later) (nm u : Str) : dbFileOf later nm u = dbFileOf e nm u := by
  unfold dbFileOf
  rw [h.digest, h.version]

/-- C125: once `pkgr clean pkgdbs` has come to its end, the next run with this R does not know anything about the
selected repositories but what they publish by then. -/
theorem C125_asks_again {s : CleanEnv} (ho : Orderly s) {arg : Str} {w w' : CacheWorld} (h : s.cleanPkgdbs arg w = .done w' ())
    {nm u : Str} (hc : Configured s nm u) (hs : SelectsRepo arg nm) {later : RepoEnv} (hl : SameMachine s.repo later) (hrv : SmallR later.rv)
    (suffix : Str) (dst : SourceType) (rc : RepoConfig) (swap : Bool) {c : DbCache} {db : RepoDb}
    (hopen : later.newRepoDb w'.dbs { name := nm, url := u, suffix := suffix } dst rc swap = (c, .ok db)) :
    ∀ st p d, Offers db st p d ↔ Publishes later { name := nm, url := u, suffix := suffix } rc st p d := by
  have hgone : w'.dbs (later.fileOf { name := nm, url := u, suffix := suffix } dst rc) = none := by
    rw [fileOf_dbFile, dbFileOf_same hl, (cleanPkgdbs_dbs ho h _).1, if_pos ⟨nm, u, hc, hs, rfl⟩]
  rw [newRepoDb_fetch fun f hf => by rw [hgone] at hf; cases hf] at hopen
  exact (fetched_published hrv hopen).2.2

/-- C125 for the whole next run after all databases were cleaned: every configured repository offers what it publishes
by then. -/
theorem C125_next_run {s : CleanEnv} (ho : Orderly s) {w w' : CacheWorld} (h : s.cleanPkgdbs (s%"ALL") w = .done w' ())
    {later : RepoEnv} (hl : SameMachine s.repo later) (hrv : SmallR later.rv)
    {ρ ρ' : Order} (hρ : ρ.Fair) {sched : List (Nat × Bool)}
    (hsched : (sched.map Prod.fst).Perm (List.range (s.repos.flatMap GoMap.keys).length))
    (hfiles : ((repoURLs ρ 0 s.custom s.repos).map fun r => dbFileOf later r.1 r.2.1).Nodup) {nx : Nexus}
    (hopen : (later.openConfigured ρ ρ' s.custom s.repos w'.dbs sched).2 = some nx) {nm u : Str} (hc : Configured s nm u) :
    ∃ db ∈ nx.db, db.repo.name = nm ∧ db.repo.url = u ∧
      ∀ st p d, Offers db st p d ↔ Publishes later db.repo ((GoMap.get? (repoSettings ρ' 0 s.custom []) nm).getD {}) st p d := by
  obtain ⟨x, hx⟩ := (repoURLs_mem hρ s.custom s.repos 0 ho.items nm u).2 hc
  unfold RepoEnv.openConfigured at hopen
  obtain ⟨-, -, -, hall⟩ := databases_old hrv (by rw [List.length_map, repoURLs_length hρ]; exact hsched)
    (by rw [List.map_map]; exact hfiles) (fun url hurl f hf => by
      obtain ⟨r, hr, rfl⟩ := List.mem_map.1 hurl
      obtain ⟨m, hm, hg⟩ := (repoURLs_mem hρ s.custom s.repos 0 ho.items r.1 r.2.1).1 ⟨r.2.2, hr⟩
      rw [fileOf_dbFile, dbFileOf_same hl, (cleanPkgdbs_dbs ho h _).1, if_pos ⟨r.1, r.2.1, ⟨m, hm, hg⟩, Or.inl rfl, rfl⟩] at hf
      cases hf) hopen
  obtain ⟨i, hi, hxi⟩ := List.mem_iff_getElem.1 hx
  obtain ⟨db, hdb, hrep, -, hoff⟩ := hall i { name := nm, url := u, suffix := x } (by
    rw [List.getElem?_map, List.getElem?_eq_getElem hi, hxi]; rfl)
  refine ⟨db, List.mem_of_getElem? hdb, by rw [hrep], by rw [hrep], ?_⟩
  rw [hrep]
  exact hoff

theorem openConfigured_other {s : CleanEnv} (ho : Orderly s) (c : DbCache) {k : Str} (hk : ∀ nm u, Configured s nm u → dbFileOf s.repo nm u ≠ k) :
    (s.repo.openConfigured s.ρ₁ s.ρ₂ s.custom s.repos c s.sched).1 k = c k := by
  have hurl : ∀ i ∈ s.sched.map Prod.fst, dbFileOf s.repo ((cleanURLs s).getD i {}).name ((cleanURLs s).getD i {}).url ≠ k := by
    intro i hi
    have hi' : i < (cleanURLs s).length := by simpa using (cleanURLs_turns ho).subset hi
    rw [getD_eq (cleanURLs s) i (cleanURLs s)[i] (List.getElem?_eq_getElem hi')]
    exact hk _ _ ((cleanURLs_mem ho _ _).1 ⟨_, List.getElem_mem hi', rfl, rfl⟩)
  have hall : ∀ (sched : List (Nat × Bool)) (c : DbCache),
      (∀ i ∈ sched.map Prod.fst, dbFileOf s.repo ((cleanURLs s).getD i {}).name ((cleanURLs s).getD i {}).url ≠ k) →
      (s.repo.openAll (cleanURLs s) (defaultType s.repo.platform) (repoSettings s.ρ₂ 0 s.custom []) c sched).1 k = c k := by
    intro sched
    induction sched with
    | nil => intro c _; rfl
    | cons a rest ih =>
      intro c hne
      unfold RepoEnv.openAll
      dsimp only
      rw [ih _ fun i hi => hne i (by simp at hi ⊢; exact Or.inr hi)]
      exact newRepoDb_other _ _ _ _ _ _ (by rw [fileOf_dbFile]; exact fun h => hne a.1 (by simp) h.symm)
  show (s.repo.newPkgDb (cleanURLs s) (defaultType s.repo.platform) (repoSettings s.ρ₂ 0 s.custom []) c s.sched).1 k = c k
  unfold RepoEnv.newPkgDb
  split
  · rfl
  · dsimp only
    split <;> exact hall s.sched c hurl

theorem openConfigured_keeps {s : CleanEnv} {c : DbCache} {k : Str} {f : DbFile} (hf : c k = some f) (hy : Recent s.repo f.mtime) :
    (s.repo.openConfigured s.ρ₁ s.ρ₂ s.custom s.repos c s.sched).1 k = some f :=
  newPkgDb_keeps hy _ _ _ _ _ hf

/-- C125 (no more than that): databases of repositories that are not selected stay, if they are young or not of this
configuration. -/
theorem C125_others {s : CleanEnv} (ho : Orderly s) {arg : Str} {w w' : CacheWorld} (h : s.cleanPkgdbs arg w = .done w' ()) {k : Str}
    (hk : ∀ nm u, Configured s nm u → SelectsRepo arg nm → dbFileOf s.repo nm u ≠ k)
    (hold : (∃ f, w.dbs k = some f ∧ Recent s.repo f.mtime) ∨ ∀ nm u, Configured s nm u → dbFileOf s.repo nm u ≠ k) :
    w'.dbs k = w.dbs k := by
  rw [(cleanPkgdbs_dbs ho h k).1, if_neg (by rintro ⟨nm, u, hc, hs, hx⟩; exact hk nm u hc hs hx)]
  rcases hold with ⟨f, hf, hy⟩ | hno
  · rw [openConfigured_keeps hf hy, hf]
  · exact openConfigured_other ho w.dbs hno

/-! ### C126 -/

theorem ended_of_open {s : CleanEnv} {w : CacheWorld} (arg : Str)
    (h : (s.repo.openConfigured s.ρ₁ s.ρ₂ s.custom s.repos w.dbs s.sched).2 = none) :
    s.cleanPkgdbs arg w = .ended (s.repo.openConfigured s.ρ₁ s.ρ₂ s.custom s.repos w.dbs s.sched).1 := by
  unfold CleanEnv.cleanPkgdbs CleanEnv.plan
  cases hop : s.repo.openConfigured s.ρ₁ s.ρ₂ s.custom s.repos w.dbs s.sched with
  | mk c o =>
    rw [hop] at h
    cases h
    rfl

theorem open_failed {s : CleanEnv} {c : DbCache} (h : ∃ r ∈ (s.repo.openAll (cleanURLs s) (defaultType s.repo.platform)
    (repoSettings s.ρ₂ 0 s.custom []) c s.sched).2, failedOpen r = true) :
    (s.repo.openConfigured s.ρ₁ s.ρ₂ s.custom s.repos c s.sched).2 = none := by
  show (s.repo.newPkgDb (cleanURLs s) (defaultType s.repo.platform) (repoSettings s.ρ₂ 0 s.custom []) c s.sched).2 = none
  unfold RepoEnv.newPkgDb
  split
  · rfl
  · dsimp only
    rw [if_pos (List.any_eq_true.2 h)]

theorem turn_of {s : CleanEnv} (ho : Orderly s) {nm u : Str} (hc : Configured s nm u) :
    ∃ i ∈ s.sched.map Prod.fst, ((cleanURLs s).getD i {}).name = nm ∧ ((cleanURLs s).getD i {}).url = u := by
  obtain ⟨url, hu, rfl, rfl⟩ := (cleanURLs_mem ho nm u).2 hc
  obtain ⟨i, hi, rfl⟩ := List.mem_iff_getElem.1 hu
  refine ⟨i, (cleanURLs_turns ho).symm.subset (by simpa using hi), ?_⟩
  rw [getD_eq (cleanURLs s) i (cleanURLs s)[i] (List.getElem?_eq_getElem hi)]
  exact ⟨rfl, rfl⟩

/-- C126 is violated by a young database that cannot be read, as an interrupted run leaves it: `clean pkgdbs`, which
would get rid of it, ends at once, and the file stays. -/
theorem C126_violated_unreadable {s : CleanEnv} (ho : Orderly s) (arg : Str) {w : CacheWorld} {nm u : Str} (hc : Configured s nm u)
    {f : DbFile} (hf : w.dbs (dbFileOf s.repo nm u) = some f) (hy : Recent s.repo f.mtime) (hbad : f.tables = none) :
    ∃ c, s.cleanPkgdbs arg w = .ended c ∧ c (dbFileOf s.repo nm u) = some f := by
  obtain ⟨i, hi, rfl, rfl⟩ := turn_of ho hc
  have hall : ∀ (sched : List (Nat × Bool)) (c : DbCache), i ∈ sched.map Prod.fst →
      c (dbFileOf s.repo ((cleanURLs s).getD i {}).name ((cleanURLs s).getD i {}).url) = some f →
      ∃ r ∈ (s.repo.openAll (cleanURLs s) (defaultType s.repo.platform) (repoSettings s.ρ₂ 0 s.custom []) c sched).2, failedOpen r = true := by
    intro sched
    induction sched with
    | nil => intro c hi _; cases hi
    | cons a rest ih =>
      obtain ⟨j, swap⟩ := a
      intro c hi hf
      unfold RepoEnv.openAll
      dsimp only
      by_cases hj : j = i
      · subst hj
        refine ⟨_, List.mem_cons_self .., ?_⟩
        unfold failedOpen
        dsimp only
        have : (s.repo.newRepoDb c ((cleanURLs s).getD j {}) (defaultType s.repo.platform)
            ((GoMap.get? (repoSettings s.ρ₂ 0 s.custom []) ((cleanURLs s).getD j {}).name).getD {}) swap).2 = .error .decode := by
          rw [← fileOf_dbFile s.repo _ (defaultType s.repo.platform)
            ((GoMap.get? (repoSettings s.ρ₂ 0 s.custom []) ((cleanURLs s).getD j {}).name).getD {})] at hf
          unfold RepoEnv.newRepoDb RepoEnv.fetchPackages
          dsimp only
          have ha := (young_iff s.repo c _).2 ⟨f, hf, hy⟩
          unfold RepoEnv.fileOf at ha hf
          rw [ha, hf]
          dsimp only [Option.bind_some]
          rw [hbad]
        rw [this]
      · have hi' : i ∈ rest.map Prod.fst := by
          rcases List.mem_cons.1 hi with h | h
          · exact absurd h.symm hj
          · exact h
        obtain ⟨r, hr, hfail⟩ := ih (s.repo.newRepoDb c ((cleanURLs s).getD j {}) (defaultType s.repo.platform)
          ((GoMap.get? (repoSettings s.ρ₂ 0 s.custom []) ((cleanURLs s).getD j {}).name).getD {}) swap).1 hi' (newRepoDb_keeps hf hy _ _ _ _)
        exact ⟨r, List.mem_cons_of_mem _ hr, hfail⟩
  exact ⟨_, ended_of_open arg (open_failed (hall s.sched w.dbs hi hf)), openConfigured_keeps hf hy⟩

theorem offline_abort {e : RepoEnv} (hoff : ∀ x, e.server x = .unreachable) (c : DbCache) (k : Str) (url : RepoURL) (dst : SourceType) (rc : RepoConfig) (swap : Bool) :
    e.fetchAndStore c k (initRepoDb e.platform url dst rc) swap = (c.put k none, .error .abort) := by
  unfold RepoEnv.fetchAndStore
  dsimp only
  rw [if_pos]
  rw [List.any_eq_true]
  refine ⟨.source, by unfold RepoDb.types; split <;> simp, ?_⟩
  unfold RepoEnv.aborts
  rw [hoff]
  rfl

/-- C126 is violated without a network: if a single configured repository has no young database, `clean pkgdbs` ends
without removing any young one. -/
theorem C126_violated_offline {s : CleanEnv} (ho : Orderly s) (arg : Str) {w : CacheWorld} (hoff : ∀ x, s.repo.server x = .unreachable)
    {nm u : Str} (hc : Configured s nm u) (hold : ∀ f, w.dbs (dbFileOf s.repo nm u) = some f → ¬ Recent s.repo f.mtime) :
    ∃ c, s.cleanPkgdbs arg w = .ended c ∧ ∀ k f, w.dbs k = some f → Recent s.repo f.mtime → c k = some f := by
  obtain ⟨i, hi, rfl, rfl⟩ := turn_of ho hc
  have hall : ∀ (sched : List (Nat × Bool)) (c : DbCache), i ∈ sched.map Prod.fst →
      (∀ f, c (dbFileOf s.repo ((cleanURLs s).getD i {}).name ((cleanURLs s).getD i {}).url) = some f → ¬ Recent s.repo f.mtime) →
      ∃ r ∈ (s.repo.openAll (cleanURLs s) (defaultType s.repo.platform) (repoSettings s.ρ₂ 0 s.custom []) c sched).2, failedOpen r = true := by
    intro sched
    induction sched with
    | nil => intro c hi _; cases hi
    | cons a rest ih =>
      obtain ⟨j, swap⟩ := a
      intro c hi hold
      unfold RepoEnv.openAll
      dsimp only
      generalize hrc : ((GoMap.get? (repoSettings s.ρ₂ 0 s.custom []) ((cleanURLs s).getD j {}).name).getD {}) = rc
      by_cases hj : j = i
      · subst hj
        refine ⟨_, List.mem_cons_self .., ?_⟩
        rw [newRepoDb_fetch (by rw [fileOf_dbFile]; exact hold), offline_abort hoff]
        rfl
      · have hi' : i ∈ rest.map Prod.fst := by
          rcases List.mem_cons.1 hi with h | h
          · exact absurd h.symm hj
          · exact h
        obtain ⟨r, hr, hfail⟩ := ih (s.repo.newRepoDb c ((cleanURLs s).getD j {}) (defaultType s.repo.platform) rc swap).1 hi' (by
          intro f hf
          by_cases hk : dbFileOf s.repo ((cleanURLs s).getD i {}).name ((cleanURLs s).getD i {}).url =
              s.repo.fileOf ((cleanURLs s).getD j {}) (defaultType s.repo.platform) rc
          · rw [newRepoDb_fetch (by rw [← hk]; exact hold), offline_abort hoff, ← hk] at hf
            simp [DbCache.put] at hf
          · rw [newRepoDb_other _ _ _ _ _ _ hk] at hf
            exact hold f hf)
        exact ⟨r, List.mem_cons_of_mem _ hr, hfail⟩
  exact ⟨_, ended_of_open arg (open_failed (hall s.sched w.dbs hi hold)), fun k f hf hy => openConfigured_keeps hf hy⟩

/-- C126 is violated when no packages are configured: planning crashes (C30) before anything is removed. -/
theorem C126_violated_no_packages {s : CleanEnv} (arg : Str) {w : CacheWorld} (ht : s.tarballs = []) (hd : s.descriptions = [])
    (hp : s.cfg.packages = []) :
    ∃ c, s.cleanPkgdbs arg w = .ended c ∧ ∀ k f, w.dbs k = some f → Recent s.repo f.mtime → c k = some f := by
  refine ⟨(s.repo.openConfigured s.ρ₁ s.ρ₂ s.custom s.repos w.dbs s.sched).1, ?_, fun k f hf hy => openConfigured_keeps hf hy⟩
  unfold CleanEnv.cleanPkgdbs CleanEnv.plan
  rw [ht, hd]
  cases hop : s.repo.openConfigured s.ρ₁ s.ρ₂ s.custom s.repos w.dbs s.sched with
  | mk c o =>
    cases o with
    | none => rfl
    | some nx =>
      have hreq : requestedPackages s.cfg [] [] s.ρ s.ρ' = [] := by
        unfold requestedPackages requestAll requestAll
        rw [hp]
        rfl
      have hu : unpackTarballs s.digest s.names s.parse (userCache s.cfgCache s.cwd s.base) w.fs [] [] [] = some (w.fs, [], []) := rfl
      have hds : unpackDescriptions s.parse w.fs [] = some [] := rfl
      dsimp only
      rw [hu]
      dsimp only
      rw [hds]
      dsimp only
      cases hx : planInstall s.cfg nx s.installed s.libraryExists [] [] [] s.ρ s.ρ' s.ρ'' with
      | badCustomization => rfl
      | failed e => rfl
      | missing l =>
        exfalso
        unfold planInstall at hx
        dsimp only at hx
        rw [hreq] at hx
        split at hx
        · cases hx
        · rw [if_neg (by simp [getPackages])] at hx
          split at hx <;> cases hx
      | planned req nx' ip =>
        exfalso
        unfold planInstall at hx
        dsimp only at hx
        rw [hreq] at hx
        split at hx
        · cases hx
        · rw [if_neg (by simp [getPackages])] at hx
          rename_i cfgs nx1 _
          obtain ⟨e, he, _⟩ := resolve_empty s.installed cfgs nx1 (!s.cfg.noUpdate) s.libraryExists s.cfg.noRecommended s.ρ''
          rw [he] at hx
          cases hx

theorem newRepoDb_opens {e : RepoEnv} {c : DbCache} {url : RepoURL} {dst : SourceType} {rc : RepoConfig} (swap : Bool)
    (hy : YoungReadable e c) (hw : e.writes = true)
    (hs : ∃ b, e.server (indexAt e url.url rc.repoSuffix .source) = .text b ∧ Usable e.decode b)
    (hb : HasBinaries e.platform rc.repoType → e.server (indexAt e url.url rc.repoSuffix .binary) = .refused ∨
      ∃ b, e.server (indexAt e url.url rc.repoSuffix .binary) = .text b ∧ Usable e.decode b) :
    (∃ db, (e.newRepoDb c url dst rc swap).2 = .ok db) ∧ YoungReadable e (e.newRepoDb c url dst rc swap).1 := by
  by_cases hyoung : ∃ f, c (e.fileOf url dst rc) = some f ∧ Recent e f.mtime
  · have ha := (young_iff e c _).2 hyoung
    obtain ⟨f, hf, hr⟩ := hyoung
    have ht := hy _ f hf hr
    cases hft : f.tables with
    | none => exact absurd hft ht
    | some x =>
      obtain ⟨src, bin⟩ := x
      have heq : e.newRepoDb c url dst rc swap = (c, .ok (decodeInto (initRepoDb e.platform url dst rc) { src := src, bin := bin })) := by
        unfold RepoEnv.newRepoDb RepoEnv.fetchPackages
        dsimp only
        unfold RepoEnv.fileOf at ha hf
        rw [ha, hf]
        dsimp only [Option.bind_some]
        rw [hft]
      rw [heq]
      exact ⟨⟨_, rfl⟩, hy⟩
  · have hold : ∀ f, c (e.fileOf url dst rc) = some f → ¬ Recent e f.mtime := fun f hf hr => hyoung ⟨f, hf, hr⟩
    obtain ⟨db, hdb⟩ := opens_old (dst := dst) swap hold hw hs hb
    refine ⟨⟨db, hdb⟩, ?_⟩
    have hq : e.fetchAndStore c (e.fileOf url dst rc) (initRepoDb e.platform url dst rc) swap =
        ((e.newRepoDb c url dst rc swap).1, .ok db) := by rw [← newRepoDb_fetch hold, ← hdb]
    obtain ⟨-, hc, -⟩ := fetchAndStore_ok hq
    rw [hc]
    intro k f hf hr
    unfold DbCache.put at hf
    split at hf
    · cases hf; simp
    · exact hy k f hf hr

/-- C126, as far as it holds: whatever databases are cached, old or young, `clean pkgdbs` does its work if the young
ones can be read, the repositories answer, and planning (of packages: there are no tarballs or DESCRIPTION files here)
neither meets a wrong customization nor crashes. Packages that are missing do no harm. -/
theorem C126_works_partial {s : CleanEnv} (ho : Orderly s) (arg : Str) {w : CacheWorld} (hy : YoungReadable s.repo w.dbs)
    (hw : s.repo.writes = true) (hsome : ∃ nm u, Configured s nm u) (hans : Answering s)
    (ht : s.tarballs = []) (hd : s.descriptions = [])
    (hplan : ∀ nx, (s.repo.openConfigured s.ρ₁ s.ρ₂ s.custom s.repos w.dbs s.sched).2 = some nx →
      planInstall s.cfg nx s.installed s.libraryExists [] [] [] s.ρ s.ρ' s.ρ'' ≠ .badCustomization ∧
      ∀ e, planInstall s.cfg nx s.installed s.libraryExists [] [] [] s.ρ s.ρ' s.ρ'' ≠ .failed e) :
    ∃ w', s.cleanPkgdbs arg w = .done w' () ∧ w'.fs = w.fs ∧
      ∀ nm u, Configured s nm u → SelectsRepo arg nm → w'.dbs (dbFileOf s.repo nm u) = none := by
  have hall : ∀ (sched : List (Nat × Bool)) (c : DbCache), (∀ i ∈ sched.map Prod.fst, i < (cleanURLs s).length) → YoungReadable s.repo c →
      (s.repo.openAll (cleanURLs s) (defaultType s.repo.platform) (repoSettings s.ρ₂ 0 s.custom []) c sched).2.any failedOpen = false := by
    intro sched
    induction sched with
    | nil => intro c _ _; rfl
    | cons a rest ih =>
      obtain ⟨j, swap⟩ := a
      intro c hi hc
      unfold RepoEnv.openAll
      dsimp only
      have hj : j < (cleanURLs s).length := hi j (by simp)
      have hconf := (cleanURLs_mem ho _ _).1 ⟨_, List.getElem_mem hj, rfl, rfl⟩
      obtain ⟨h1, h2⟩ := hans _ _ hconf _ rfl
      rw [getD_eq (cleanURLs s) j (cleanURLs s)[j] (List.getElem?_eq_getElem hj)]
      obtain ⟨⟨db, hdb⟩, hc'⟩ := newRepoDb_opens (url := (cleanURLs s)[j]) (dst := defaultType s.repo.platform) swap hc hw h1 h2
      rw [List.any_cons, ih _ (fun i hi' => hi i (by simp at hi' ⊢; exact Or.inr hi')) hc', Bool.or_false]
      unfold failedOpen
      dsimp only
      rw [hdb]
  have hopen : ∃ nx, (s.repo.openConfigured s.ρ₁ s.ρ₂ s.custom s.repos w.dbs s.sched).2 = some nx := by
    show ∃ nx, (s.repo.newPkgDb (cleanURLs s) (defaultType s.repo.platform) (repoSettings s.ρ₂ 0 s.custom []) w.dbs s.sched).2 = some nx
    unfold RepoEnv.newPkgDb
    rw [if_neg (by
      intro h
      obtain ⟨nm, u, hc⟩ := hsome
      obtain ⟨x, hx, -⟩ := (cleanURLs_mem ho _ _).2 hc
      rw [h] at hx
      cases hx)]
    dsimp only
    rw [if_neg (by rw [hall s.sched w.dbs (fun i hi => by simpa using (cleanURLs_turns ho).subset hi) hy]; simp)]
    exact ⟨_, rfl⟩
  obtain ⟨nx, hnx⟩ := hopen
  obtain ⟨hb, hf⟩ := hplan nx hnx
  have hdone : ∃ w', s.cleanPkgdbs arg w = .done w' () ∧ w'.fs = w.fs := by
    unfold CleanEnv.cleanPkgdbs CleanEnv.plan
    rw [ht, hd]
    have hu : unpackTarballs s.digest s.names s.parse (userCache s.cfgCache s.cwd s.base) w.fs [] [] [] = some (w.fs, [], []) := rfl
    have hds : unpackDescriptions s.parse w.fs [] = some [] := rfl
    cases hop : s.repo.openConfigured s.ρ₁ s.ρ₂ s.custom s.repos w.dbs s.sched with
    | mk c o =>
      rw [hop] at hnx
      cases hnx
      dsimp only
      rw [hu]
      dsimp only
      rw [hds]
      dsimp only
      cases hx : planInstall s.cfg nx s.installed s.libraryExists [] [] [] s.ρ s.ρ' s.ρ'' with
      | badCustomization => exact absurd hx hb
      | failed e => exact absurd hx (hf e)
      | missing l => exact ⟨_, rfl, rfl⟩
      | planned req nx' ip => exact ⟨_, rfl, rfl⟩
  obtain ⟨w', hw', hfs⟩ := hdone
  refine ⟨w', hw', hfs, fun nm u hc hs => ?_⟩
  rw [(cleanPkgdbs_dbs ho hw' _).1, if_pos ⟨nm, u, hc, hs, rfl⟩]

/-! ### C127 -/

/-- C127, without `--all`: `pkgr clean` removes nothing (it prints its help). -/
theorem C127_nothing_without_all (s : CleanEnv) (w : CacheWorld) : s.clean false w = .done w () := rfl

theorem clean_all {s : CleanEnv} {w w' : CacheWorld} (h : s.clean true w = .done w' ()) :
    ∃ fs, cleanCacheFolders s.digest s.names s.cfgCache s.cwd s.base {} (s.tarballs.map fun t => t.2.map Tarball.bytes) w.fs = some fs ∧
      CleanEnv.cleanPkgdbs { s with repo := { s.repo with maxAge := some 0 } } (s%"ALL") { w with fs := fs } = .done w' () := by
  unfold CleanEnv.clean at h
  rw [if_pos rfl] at h
  split at h
  · cases h
  · exact ⟨_, by assumption, h⟩

theorem orderly_age {s : CleanEnv} (ho : Orderly s) (a : Option Int) : Orderly { s with repo := { s.repo with maxAge := a } } :=
  ⟨ho.items, ho.turns, ho.orders⟩

/-- C127 is violated by tarballs: cleaning the databases plans an installation, which unpacks them into the cache
again, right after their folders were removed. -/
theorem C127_violated_tarballs {s : CleanEnv} (ho : Orderly s) {w w' : CacheWorld} (h : s.clean true w = .done w' ()) {path : Str}
    {t : Option Tarball} (ht : (path, t) ∈ s.tarballs) :
    ∃ tb, t = some tb ∧ w'.fs (userCache s.cfgCache s.cwd s.base ++ [s.digest tb.bytes]) = some .dir := by
  obtain ⟨fs, -, h2⟩ := clean_all h
  obtain ⟨-, tb, table, hu⟩ := cleanPkgdbs_dbs (orderly_age ho _) h2 []
  obtain ⟨rows, hrows, -, hin, -⟩ := unpackTarballs_spec s.digest s.names s.parse (userCache s.cfgCache s.cwd s.base) s.tarballs fs [] [] (w'.fs, tb, table)
    (by simp) (by intro name a; constructor
                  · intro h; cases h
                  · rintro ⟨r, ⟨pre, post, hr, -⟩, -⟩; simp at hr) hu
  rw [hrows] at ht
  obtain ⟨r, hr, heq⟩ := List.mem_map.1 ht
  cases heq
  refine ⟨r.tarball, rfl, ?_⟩
  have := (hin r (by simpa using hr)).2
  unfold Fs.isDir at this
  simpa using this

theorem unpackTarballs_frame (digest : Str → Str) (names : List Str) (parse : Str → Option Desc) (cache : Path) {q : Path} :
    ∀ (ts : List (Str × Option Tarball)) (fs : Fs) (ds : List Desc) (m : GoMap AdditionalPkg) (out : Fs × List Desc × GoMap AdditionalPkg),
    (∀ p t, (p, some t) ∈ ts → ¬ (cache ++ [digest t.bytes]) <+: q ∧ ¬ q <+: cache ++ [digest t.bytes]) →
    unpackTarballs digest names parse cache fs ds m ts = some out → out.1 q = fs q
  | [], fs, ds, m, out, _, h => by
    simp only [unpackTarballs, Option.some.injEq] at h
    rw [← h]
  | (path, file) :: ts, fs, ds, m, out, hq, h => by
    rw [unpackTarballs] at h
    cases file with
    | none => simp [unpackOne] at h
    | some t =>
      obtain ⟨h1, h2⟩ := hq path t (by simp)
      cases ho : unpackOne digest names parse cache fs path (some t) with
      | none => rw [ho] at h; cases h
      | some x =>
        obtain ⟨fs1, d, a⟩ := x
        rw [ho] at h
        dsimp only at h
        have hfs1 : fs1 = lastState fs (untar digest names fs cache t).1 := by
          unfold unpackOne at ho
          dsimp only at ho
          split at ho
          · cases ho
          · split at ho
            · split at ho
              · cases ho
              · cases ho; rfl
            · cases ho
        rw [unpackTarballs_frame digest names parse cache ts fs1 _ _ out (fun p t ht => hq p t (by simp [ht])) h, hfs1]
        rcases untar_frame digest names fs cache t q h1 with h | ⟨h, -⟩
        · exact h
        · exact absurd h h2

/-- C127, as far as it holds: `pkgr clean --all`, when it comes to its end, has removed every package (source or binary)
from the folder of every repository in the cache, whether or not the repository is configured, and the database of
every configured one. Left out: folders that have the name of an unpacked tarball. -/
theorem C127_gone_partial {s : CleanEnv} (ho : Orderly s) {w w' : CacheWorld} (h : s.clean true w = .done w' ()) (ht : TreeFs w.fs)
    (hall : AllNames s.names w.fs) (hc : w.fs.ex (userCache s.cfgCache s.cwd s.base) = true) :
    (∀ r k q, w.fs (userCache s.cfgCache s.cwd s.base ++ [r]) = some .dir → (k = s%"src" ∨ k = s%"binary") →
      (∀ p t, (p, some t) ∈ s.tarballs → s.digest t.bytes ≠ r) →
      userCache s.cfgCache s.cwd s.base ++ [r, k] <+: q → w'.fs q = none) ∧
    ∀ nm u, Configured s nm u → w'.dbs (dbFileOf s.repo nm u) = none := by
  obtain ⟨fs, h1, h2⟩ := clean_all h
  constructor
  · intro r k q hr hk htar hq
    obtain ⟨-, tb, table, hu⟩ := cleanPkgdbs_dbs (orderly_age ho _) h2 []
    obtain ⟨fs', h1', hfs⟩ := C72_exact_partial s.digest s.names s.cfgCache s.cwd s.base {} (s.tarballs.map fun t => t.2.map Tarball.bytes) w.fs ht hall hc (by decide)
    rw [h1] at h1'
    cases h1'
    have hgone : fs q = none := (hfs q).1 (Or.inl ⟨r, k, hq, hr, Or.inl rfl, by unfold SelectsKind; simpa using hk⟩)
    have hq1 : (userCache s.cfgCache s.cwd s.base ++ [r]) <+: q := List.IsPrefix.trans ⟨[k], by simp⟩ hq
    refine (unpackTarballs_frame s.digest s.names s.parse (userCache s.cfgCache s.cwd s.base) s.tarballs fs [] [] (w'.fs, tb, table) (fun p t hpt => ?_) hu).trans hgone
    · exact ⟨fun hp => htar p t hpt (sibling_prefix hp (.inl hq1)), fun hp => htar p t hpt (sibling_prefix hq1 (.inr hp)).symm⟩
  · intro nm u hcf
    rw [(cleanPkgdbs_dbs (orderly_age ho _) h2 _).1, if_pos ⟨nm, u, hcf, Or.inl rfl, rfl⟩]

/-! ### The hypotheses are met -/

/-- The project of Props/EndToEnd.lean, and a tarball if `tar`. -/
def clEnv (tar : Bool) : CleanEnv :=
  { repo := exEnv, custom := exProject.custom, repos := exProject.repos.map fun r => [r], ρ₁ := idOrder, ρ₂ := idOrder, ρ₃ := idOrder,
    sched := [(1, false), (0, true)], cfg := exProject.cfg, installed := [], libraryExists := true, ρ := idOrder, ρ' := idOrder, ρ'' := idOrder,
    tarballs := if tar then [(s%"R6_1.tar.gz", some ⟨s%"v1", [(⟨s%"R6/DESCRIPTION", .regular (s%"one")⟩, .ok)], true⟩)] else [],
    descriptions := [], parse := fun c => some { package := s%"R6", version := c }, digest := fun _ => s%"abc",
    names := s%"R6" :: toyTwoRepos_fileNames, cfgCache := s%"/c", cwd := [], base := [] }

theorem clEnv_orderly (tar : Bool) : Orderly (clEnv tar) where
  items := by show ∀ m ∈ exProject.repos.map (fun r => [r]), GoMap.WF m; (simp [exProject, GoMap.WF, GoMap.keys])
  turns := by show ([1, 0] : List Nat).Perm (List.range ((exProject.repos.map fun r => [r]).flatMap GoMap.keys).length); decide
  orders := ⟨fun _ _ => List.Perm.refl _, fun _ _ => List.Perm.refl _, fun _ _ => List.Perm.refl _⟩

/-- The caches of the examples: two repositories and an unpacked tarball; the database of MPN is young. -/
def clWorld : CacheWorld :=
  { fs := toyTwoRepos, dbs := fun k => if k = dbFileOf exEnv (s%"MPN") (s%"http://m/") then some { mtime := 99000, tables := some ([], none) } else none }

theorem clConfigured (tar : Bool) : Configured (clEnv tar) (s%"MPN") (s%"http://m/") := ⟨[(s%"MPN", s%"http://m/")], by show _ ∈ exProject.repos.map (fun r => [r]); decide, by decide⟩

/-- A command has come to its end, and what it left has the property. -/
def CleanEnd.doneWith (e : CleanEnd Unit) (p : CacheWorld → Bool) : Bool := match e with | .ended _ => false | .done w _ => p w

theorem CleanEnd.of_doneWith {e : CleanEnd Unit} {p : CacheWorld → Bool} (h : e.doneWith p = true) : ∃ w, e = .done w () ∧ p w = true := by
  cases e with
  | ended c => cases h
  | done w x => exact ⟨w, rfl, h⟩

/-- C125: the cleaning of MPN's database comes to its end; the young database, which was empty, is gone, so that the
next run sees what MPN publishes. -/
example : ∃ w', (clEnv false).cleanPkgdbs (s%"x,MPN") clWorld = .done w' () ∧ w'.dbs (dbFileOf exEnv (s%"MPN") (s%"http://m/")) = none ∧
    ∃ c db, exEnv.newRepoDb w'.dbs { name := s%"MPN", url := s%"http://m/", suffix := [] } .source {} false = (c, .ok db) ∧
      ∀ st p d, Offers db st p d ↔ Publishes exEnv { name := s%"MPN", url := s%"http://m/", suffix := [] } {} st p d := by
  have h : ((clEnv false).cleanPkgdbs (s%"x,MPN") clWorld).doneWith (fun w =>
      match (exEnv.newRepoDb w.dbs { name := s%"MPN", url := s%"http://m/", suffix := [] } .source {} false).2 with
      | .ok _ => true | .error _ => false) = true := by decide +kernel
  obtain ⟨w', hw, hok⟩ := CleanEnd.of_doneWith h
  have hsel : SelectsRepo (s%"x,MPN") (s%"MPN") := Or.inr ((commaItem_iff _ _).2 (by decide))
  refine ⟨w', hw, ?_, ?_⟩
  · rw [show exEnv = (clEnv false).repo from rfl, (cleanPkgdbs_dbs (clEnv_orderly false) hw _).1, if_pos ⟨_, _, clConfigured false, hsel, rfl⟩]
  · generalize hr : exEnv.newRepoDb w'.dbs { name := s%"MPN", url := s%"http://m/", suffix := [] } .source {} false = r at hok
    obtain ⟨c, r⟩ := r
    cases r with
    | error e => cases hok
    | ok db => exact ⟨c, db, rfl, C125_asks_again (clEnv_orderly false) hw (clConfigured false) hsel ⟨rfl, rfl, rfl⟩ (by decide) [] .source {} false hr⟩

/-- C125 for all databases. -/
example : ∃ w' nx, (clEnv false).cleanPkgdbs (s%"ALL") clWorld = .done w' () ∧
    (exEnv.openConfigured idOrder idOrder exProject.custom (exProject.repos.map fun r => [r]) w'.dbs [(0, true), (1, false)]).2 = some nx ∧
    ∃ db ∈ nx.db, db.repo.name = s%"MPN" ∧ db.repo.url = s%"http://m/" ∧
      ∀ st p d, Offers db st p d ↔ Publishes exEnv db.repo ((GoMap.get? (repoSettings idOrder 0 exProject.custom []) (s%"MPN")).getD {}) st p d := by
  have h : ((clEnv false).cleanPkgdbs (s%"ALL") clWorld).doneWith (fun w => (exEnv.openConfigured idOrder idOrder exProject.custom
      (exProject.repos.map fun r => [r]) w.dbs [(0, true), (1, false)]).2.isSome) = true := by decide +kernel
  obtain ⟨w', hw, hok⟩ := CleanEnd.of_doneWith h
  obtain ⟨nx, hnx⟩ := Option.isSome_iff_exists.1 hok
  exact ⟨w', nx, hw, hnx, C125_next_run (clEnv_orderly false) hw ⟨rfl, rfl, rfl⟩ (by decide) (fun _ _ => List.Perm.refl _)
    (by decide) (by show ((repoURLs idOrder 0 exProject.custom (exProject.repos.map fun r => [r])).map fun r => dbFileOf exEnv r.1 r.2.1).Nodup; decide +kernel) hnx (clConfigured false)⟩

/-- C125, the others: cleaning CRAN's database leaves that of MPN. -/
example : ∃ w', (clEnv false).cleanPkgdbs (s%"CRAN") clWorld = .done w' () ∧
    w'.dbs (dbFileOf exEnv (s%"MPN") (s%"http://m/")) = some { mtime := 99000, tables := some ([], none) } := by
  have h : ((clEnv false).cleanPkgdbs (s%"CRAN") clWorld).doneWith (fun _ => true) = true := by decide +kernel
  obtain ⟨w', hw, -⟩ := CleanEnd.of_doneWith h
  refine ⟨w', hw, (C125_others (clEnv_orderly false) hw ?_ (Or.inl ⟨_, by rfl, by show (100000 : Int) - 99000 < 3600; decide⟩)).trans (by rfl)⟩
  intro nm u hc hs
  have hn : nm ≠ s%"MPN" := by
    rintro rfl
    rcases hs with hs | hs
    · exact absurd hs (by decide)
    · exact absurd ((commaItem_iff _ _).1 hs) (by decide)
  obtain ⟨m, hm, hg⟩ := hc
  have hm' : m ∈ exProject.repos.map (fun r => [r]) := hm
  have : (m, nm, u) = ([(s%"CRAN", s%"http://c")], s%"CRAN", s%"http://c") := by
    revert hm'
    show m ∈ [[(s%"MPN", s%"http://m/")], [(s%"CRAN", s%"http://c")]] → _
    intro hm'
    simp only [List.mem_cons, List.not_mem_nil, or_false] at hm'
    rcases hm' with rfl | rfl
    · simp [GoMap.get?, Ne.symm hn] at hg
    · by_cases hx : nm = s%"CRAN"
      · subst hx
        have : u = s%"http://c" := by
          have h2 : GoMap.get? [(s%"CRAN", s%"http://c")] (s%"CRAN") = some (s%"http://c") := by decide
          rw [h2] at hg; cases hg; rfl
        rw [this]
      · simp [GoMap.get?, Ne.symm hx] at hg
  cases this
  decide +kernel

/-- C126_violated_unreadable and C126_violated_offline: a file that cannot be read, and a run without a network. -/
example : (∃ c, (clEnv false).cleanPkgdbs (s%"ALL") { fs := toyTwoRepos, dbs := fun k => if k = dbFileOf exEnv (s%"MPN") (s%"http://m/") then some { mtime := 99000, tables := none } else none } = .ended c ∧
      c (dbFileOf exEnv (s%"MPN") (s%"http://m/")) = some { mtime := 99000, tables := none }) ∧
    ∃ c, CleanEnv.cleanPkgdbs { clEnv false with repo := { exEnv with server := fun _ => .unreachable } } (s%"MPN") clWorld = .ended c ∧
      c (dbFileOf exEnv (s%"MPN") (s%"http://m/")) = some { mtime := 99000, tables := some ([], none) } := by
  constructor
  · exact C126_violated_unreadable (clEnv_orderly false) _ (clConfigured false) (by rfl) (by show (100000 : Int) - 99000 < 3600; decide) rfl
  · have ho := clEnv_orderly false
    obtain ⟨c, hc, hk⟩ := C126_violated_offline (s := { clEnv false with repo := { exEnv with server := fun _ => .unreachable } })
      ⟨ho.items, ho.turns, ho.orders⟩ (s%"MPN") (w := clWorld) (fun _ => rfl) (nm := s%"CRAN") (u := s%"http://c")
      ⟨[(s%"CRAN", s%"http://c")], by show _ ∈ exProject.repos.map (fun r => [r]); decide, by decide⟩
      (by
        intro f hf
        have : clWorld.dbs (dbFileOf exEnv (s%"CRAN") (s%"http://c")) = none := by decide +kernel
        exact absurd (hf.symm.trans this) (by simp))
    exact ⟨c, hc, hk _ _ (by rfl) (by show (100000 : Int) - 99000 < 3600; decide)⟩

/-- C126_violated_no_packages. -/
example : ∃ c, CleanEnv.cleanPkgdbs { clEnv false with cfg := {} } (s%"ALL") clWorld = .ended c ∧
    c (dbFileOf exEnv (s%"MPN") (s%"http://m/")) = some { mtime := 99000, tables := some ([], none) } := by
  obtain ⟨c, hc, hk⟩ := C126_violated_no_packages (s := { clEnv false with cfg := {} }) (s%"ALL") (w := clWorld) rfl rfl rfl
  exact ⟨c, hc, hk _ _ (by rfl) (by show (100000 : Int) - 99000 < 3600; decide)⟩

/-- C127: with a tarball, whose folder comes back; the packages of both repositories and their databases are gone. -/
example : ∃ w', (clEnv true).clean true clWorld = .done w' () ∧ w'.fs [s%"c", s%"abc"] = some .dir ∧
    w'.fs [s%"c", s%"CRAN", s%"src", s%"R6.tar.gz"] = none ∧ w'.dbs (dbFileOf exEnv (s%"MPN") (s%"http://m/")) = none := by
  have h : ((clEnv true).clean true clWorld).doneWith (fun _ => true) = true := by decide +kernel
  obtain ⟨w', hw, -⟩ := CleanEnd.of_doneWith h
  have hnames : AllNames (clEnv true).names clWorld.fs := fun p n h => List.mem_cons_of_mem _ (toyTwoRepos_names p n h)
  obtain ⟨h1, h2⟩ := C127_gone_partial (clEnv_orderly true) hw toyTwoRepos_tree hnames (by decide)
  obtain ⟨tb, -, h3⟩ := C127_violated_tarballs (clEnv_orderly true) hw (path := s%"R6_1.tar.gz")
    (t := some ⟨s%"v1", [(⟨s%"R6/DESCRIPTION", .regular (s%"one")⟩, .ok)], true⟩) (by show _ ∈ [_]; simp)
  refine ⟨w', hw, h3, h1 (s%"CRAN") (s%"src") _ (by decide) (.inl rfl) ?_ ⟨[s%"R6.tar.gz"], by decide⟩, h2 _ _ (clConfigured true)⟩
  intro p t _
  show s%"abc" ≠ s%"CRAN"
  decide

/-- C126_works_partial. -/
example : ∃ w', (clEnv false).cleanPkgdbs (s%"MPN") clWorld = .done w' () ∧ w'.dbs (dbFileOf exEnv (s%"MPN") (s%"http://m/")) = none := by
  have husable : ∀ body ∈ [s%"b\n\nB", s%"b", s%"a\r\n\r\nb\n\nc"], Usable exEnv.decode body := by
    have : ∀ body ∈ [s%"b\n\nB", s%"b", s%"a\r\n\r\nb\n\nc"], (match fetchOne exEnv.decode exEnv.rv (some body) with | .ok _ => true | .error _ => false) = true := by decide +kernel
    intro body hb
    have h := this body hb
    refine (usable_iff _ exEnv.rv _).2 ?_
    cases hf : fetchOne exEnv.decode exEnv.rv (some body) with
    | error e => rw [hf] at h; cases h
    | ok m => exact ⟨m, rfl⟩
  suffices H : ∃ w', (clEnv false).cleanPkgdbs (s%"MPN") clWorld = .done w' () ∧ w'.fs = clWorld.fs ∧
      ∀ nm u, Configured (clEnv false) nm u → SelectsRepo (s%"MPN") nm → w'.dbs (dbFileOf (clEnv false).repo nm u) = none by
    obtain ⟨w', h1, -, h3⟩ := H
    exact ⟨w', h1, h3 _ _ (clConfigured false) (Or.inr ((commaItem_iff _ _).2 (by decide)))⟩
  refine C126_works_partial (s := clEnv false) (clEnv_orderly false) (s%"MPN") (w := clWorld) ?_ rfl ⟨_, _, clConfigured false⟩ ?_ rfl rfl ?_
  · intro k f hf _
    unfold clWorld at hf
    dsimp only at hf
    split at hf
    · cases hf; simp
    · cases hf
  · rintro nm u ⟨m, hm, hg⟩ rc hrc
    have hm' : m ∈ exProject.repos.map (fun r => [r]) := hm
    change m ∈ [[(s%"MPN", s%"http://m/")], [(s%"CRAN", s%"http://c")]] at hm'
    simp only [List.mem_cons, List.not_mem_nil, or_false] at hm'
    rcases hm' with rfl | rfl
    · have hx : nm = s%"MPN" ∧ u = s%"http://m/" := by
        by_cases hx : nm = s%"MPN"
        · subst hx
          have h2 : GoMap.get? [(s%"MPN", s%"http://m/")] (s%"MPN") = some (s%"http://m/") := by decide
          rw [h2] at hg; cases hg; exact ⟨rfl, rfl⟩
        · simp [GoMap.get?, Ne.symm hx] at hg
      obtain ⟨rfl, rfl⟩ := hx
      subst hrc
      exact ⟨⟨s%"b\n\nB", by decide +kernel, husable _ (by simp)⟩, fun _ => .inr ⟨s%"b", by decide +kernel, husable _ (by simp)⟩⟩
    · have hx : nm = s%"CRAN" ∧ u = s%"http://c" := by
        by_cases hx : nm = s%"CRAN"
        · subst hx
          have h2 : GoMap.get? [(s%"CRAN", s%"http://c")] (s%"CRAN") = some (s%"http://c") := by decide
          rw [h2] at hg; cases hg; exact ⟨rfl, rfl⟩
        · simp [GoMap.get?, Ne.symm hx] at hg
      obtain ⟨rfl, rfl⟩ := hx
      subst hrc
      exact ⟨⟨s%"a\r\n\r\nb\n\nc", by decide +kernel, husable _ (by simp)⟩, fun _ => .inl (by decide +kernel)⟩
  · intro nx hnx
    have h : (match (exEnv.openConfigured idOrder idOrder exProject.custom (exProject.repos.map fun r => [r]) clWorld.dbs [(1, false), (0, true)]).2 with
        | none => false
        | some nx => match planInstall exProject.cfg nx [] true [] [] [] idOrder idOrder idOrder with
          | .badCustomization => false | .failed _ => false | _ => true) = true := by decide +kernel
    have hnx' : (exEnv.openConfigured idOrder idOrder exProject.custom (exProject.repos.map fun r => [r]) clWorld.dbs [(1, false), (0, true)]).2 = some nx := hnx
    rw [hnx'] at h
    dsimp only at h
    constructor
    · intro hb
      have hb' : planInstall exProject.cfg nx [] true [] [] [] idOrder idOrder idOrder = .badCustomization := hb
      rw [hb'] at h; cases h
    · intro e hb
      have hb' : planInstall exProject.cfg nx [] true [] [] [] idOrder idOrder idOrder = .failed e := hb
      rw [hb'] at h; cases h

end Pkgr
