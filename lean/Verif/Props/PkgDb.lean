/- C86-C89: opening the repositories, with their cache. -/
import Verif.Spec.PkgDb
import Verif.Proof.RepoDb
import Verif.Props.RepoDb
import Verif.Props.Repos

namespace Pkgr
open Spec

/-! ### Lemmas -/

theorem supportsBinary_iff (p : Platform) (rt : RepoType) : supportsBinary p rt = true ↔ HasBinaries p rt := by
  unfold supportsBinary HasBinaries
  cases p.os <;> simp

theorem trimSlash_eq (u : Str) : trimSlash u = noSlash u := by
  unfold trimSlash noSlash
  split
  · exact List.dropLast_eq_take
  · rfl

theorem platformDir_eq (p : Platform) (l : Str) (rv : RVersion) : cranBinaryURL p.os l rv = platformDir p l rv := by
  unfold cranBinaryURL platformDir
  cases p.os <;> rfl

theorem indexURL_eq (e : RepoEnv) (url : RepoURL) (dst : SourceType) (rc : RepoConfig) (st : SourceType) :
    e.indexURL (initRepoDb e.platform url dst rc) st = indexAt e url.url rc.repoSuffix st := by
  unfold RepoEnv.indexURL packagesDirURL indexAt initRepoDb RVersion.toStr
  simp only [trimSlash_eq, platformDir_eq]
  split
  · simp
  · split <;> simp

/-- The pieces of a text. -/
theorem usable_iff (decode : Str → Option RawDesc) (rv : RVersion) (body : Str) :
    Usable decode body ↔ ∃ m, fetchOne decode rv (some body) = .ok m := by
  constructor
  · rintro ⟨text, xs, h1, h2, h3⟩
    exact (C07_loads_iff h1 h2).2 h3
  · intro h
    exact ⟨_, _, unixText_normalize body, splitBlank_stanzas _, (C07_loads_iff (unixText_normalize body) (splitBlank_stanzas _)).1 h⟩

theorem lists_iff {decode : Str → Option RawDesc} {rv : RVersion} (hrv : SmallR rv) {body : Str} {m : GoMap Desc}
    (h : fetchOne decode rv (some body) = .ok m) (k : Str) (d : Desc) :
    Lists decode rv body k d ↔ GoMap.get? m k = some d := by
  constructor
  · rintro ⟨text, xs, h1, h2, h3⟩
    exact (C07_last_acceptable_wins hrv h1 h2 h k d).2 h3
  · intro hk
    exact ⟨_, _, unixText_normalize body, splitBlank_stanzas _,
      (C07_last_acceptable_wins hrv (unixText_normalize body) (splitBlank_stanzas _) h k d).1 hk⟩

/-- The table a fetch contributes: what was loaded, or nothing. -/
def loadedOr (r : Except LoadErr (GoMap Desc)) : GoMap Desc := match r with | .ok m => m | .error _ => []

theorem loaded_iff {e : RepoEnv} (hrv : SmallR e.rv) (u : Str) (k : Str) (d : Desc) :
    GoMap.get? (loadedOr (fetchOne e.decode e.rv (e.server u).body)) k = some d ↔
      ∃ body, e.server u = .text body ∧ Usable e.decode body ∧ Lists e.decode e.rv body k d := by
  cases hs : e.server u with
  | text b =>
    simp only [Answer.body, Answer.text.injEq]
    cases hf : fetchOne e.decode e.rv (some b) with
    | ok m =>
      simp only [loadedOr]
      constructor
      · intro h
        exact ⟨b, rfl, (usable_iff _ e.rv _).2 ⟨m, hf⟩, (lists_iff hrv hf k d).2 h⟩
      · rintro ⟨_, rfl, _, h⟩
        exact (lists_iff hrv hf k d).1 h
    | error x =>
      simp only [loadedOr, GoMap.get?_nil, reduceCtorEq, false_iff]
      rintro ⟨_, rfl, h, _⟩
      obtain ⟨m, hm⟩ := (usable_iff _ e.rv _).1 h
      rw [hf] at hm
      cases hm
  | refused => simp [Answer.body, fetchOne, loadedOr]
  | unreachable => simp [Answer.body, fetchOne, loadedOr]

theorem collect_init (e : RepoEnv) (url : RepoURL) (dst : SourceType) (rc : RepoConfig) (swap : Bool) {db' : RepoDb}
    (h : collectFetches (initRepoDb e.platform url dst rc) ((if swap then (initRepoDb e.platform url dst rc).types.reverse
      else (initRepoDb e.platform url dst rc).types).map (e.fetchType (initRepoDb e.platform url dst rc))) = .ok db') :
    db' = { (initRepoDb e.platform url dst rc) with
      src := loadedOr (e.fetchType (initRepoDb e.platform url dst rc) .source).2,
      bin := if supportsBinary e.platform rc.repoType then some (loadedOr (e.fetchType (initRepoDb e.platform url dst rc) .binary).2) else none } := by
  generalize hi : initRepoDb e.platform url dst rc = i at h ⊢
  have hsrc : i.src = [] := by rw [← hi]; rfl
  have hbin : i.bin = if supportsBinary e.platform rc.repoType then some [] else none := by rw [← hi]; rfl
  generalize supportsBinary e.platform rc.repoType = sb at hbin ⊢
  cases i with
  | mk src bin repo dt suf =>
  simp only at hsrc hbin
  subst hsrc hbin
  have ht : ∀ (db : RepoDb) (st : SourceType), e.fetchType db st = (st, (e.fetchType db st).2) := fun _ _ => rfl
  cases sb with
  | false =>
    simp only [RepoDb.types, Option.isSome_none, Bool.false_eq_true, if_false, List.reverse_singleton, ite_self, List.map_cons,
      List.map_nil, collectFetches, RepoDb.numTypes, List.foldl_cons, List.foldl_nil] at h ⊢
    rw [ht] at h
    generalize (e.fetchType _ SourceType.source).2 = rs at h ⊢
    cases rs <;> simp [collectFetchStep, RepoDb.setTable, loadedOr] at h ⊢ <;> exact h.symm
  | true =>
    simp only [RepoDb.types, Option.isSome_some, if_true, collectFetches, RepoDb.numTypes] at h ⊢
    cases swap <;>
    simp only [Bool.false_eq_true, if_false, if_true, List.reverse_cons, List.reverse_nil, List.nil_append, List.cons_append,
      List.map_cons, List.map_nil, List.foldl_cons, List.foldl_nil] at h <;>
    rw [ht _ SourceType.source, ht _ SourceType.binary] at h <;>
    generalize (e.fetchType _ SourceType.source).2 = rs at h ⊢ <;>
    generalize (e.fetchType _ SourceType.binary).2 = rb at h ⊢ <;>
    cases rs <;> cases rb <;> simp [collectFetchStep, RepoDb.setTable, loadedOr] at h ⊢ <;> exact h.symm

theorem young_iff (e : RepoEnv) (c : DbCache) (k : Str) :
    cacheAction ((c k).map DbFile.mtime) e.now e.maxAge = .decode ↔ ∃ f, c k = some f ∧ Recent e f.mtime := by
  rw [C10_freshness]
  unfold Recent
  cases c k <;> cases e.maxAge <;> simp

theorem action_cases (a : CacheAction) : a = .decode ∨ a = .fetch := by cases a <;> simp

/-- The cache file of a repository. -/
def RepoEnv.fileOf (e : RepoEnv) (url : RepoURL) (dst : SourceType) (rc : RepoConfig) : Str :=
  repoDbCacheFile e.md5hex e.platform (initRepoDb e.platform url dst rc) e.rv

theorem newRepoDb_fetch {e : RepoEnv} {c : DbCache} {url : RepoURL} {dst : SourceType} {rc : RepoConfig} {swap : Bool}
    (hold : ∀ f, c (e.fileOf url dst rc) = some f → ¬ Recent e f.mtime) :
    e.newRepoDb c url dst rc swap = e.fetchAndStore c (e.fileOf url dst rc) (initRepoDb e.platform url dst rc) swap := by
  unfold RepoEnv.newRepoDb RepoEnv.fetchPackages
  have hn : cacheAction ((c (e.fileOf url dst rc)).map DbFile.mtime) e.now e.maxAge = .fetch := by
    rcases action_cases (cacheAction ((c (e.fileOf url dst rc)).map DbFile.mtime) e.now e.maxAge) with h | h
    · obtain ⟨f, hf, hy⟩ := (young_iff _ _ _).1 h
      exact absurd hy (hold f hf)
    · exact h
  show (match cacheAction ((c (e.fileOf url dst rc)).map DbFile.mtime) e.now e.maxAge with
    | .fetch => _ | .decode => _) = _
  rw [hn]
  rfl

theorem fetchAndStore_ok {e : RepoEnv} {c c' : DbCache} {k : Str} {url : RepoURL} {dst : SourceType} {rc : RepoConfig} {swap : Bool}
    {db : RepoDb} (h : e.fetchAndStore c k (initRepoDb e.platform url dst rc) swap = (c', .ok db)) :
    db = { (initRepoDb e.platform url dst rc) with
      src := loadedOr (e.fetchType (initRepoDb e.platform url dst rc) .source).2,
      bin := if supportsBinary e.platform rc.repoType then some (loadedOr (e.fetchType (initRepoDb e.platform url dst rc) .binary).2) else none } ∧
    c' = (c.put k none).put k (some { mtime := e.now, tables := some (db.src, db.bin) }) ∧ e.writes = true := by
  unfold RepoEnv.fetchAndStore at h
  dsimp only at h
  split at h
  · simp at h
  · split at h
    · simp at h
    · rename_i db' hc
      split at h
      · rename_i hw
        simp only [Prod.mk.injEq, Except.ok.injEq] at h
        obtain ⟨h1, rfl⟩ := h
        exact ⟨collect_init e url dst rc swap hc, h1.symm, hw⟩
      · simp at h

theorem fetched_published {e : RepoEnv} (hrv : SmallR e.rv) {c c' : DbCache} {k : Str} {url : RepoURL} {dst : SourceType}
    {rc : RepoConfig} {swap : Bool} {db : RepoDb} (h : e.fetchAndStore c k (initRepoDb e.platform url dst rc) swap = (c', .ok db)) :
    db.repo = url ∧ db.defaultSourceType = Spec.repoType rc dst ∧
    ∀ st p d, Offers db st p d ↔ Publishes e url rc st p d := by
  obtain ⟨hdb, _, _⟩ := fetchAndStore_ok h
  refine ⟨by rw [hdb]; rfl, ?_, ?_⟩
  · rw [hdb]
    show (if rc.defaultSourceType = .default then dst else rc.defaultSourceType) = _
    unfold Spec.repoType
    cases rc.defaultSourceType <;> simp
  · intro st p d
    unfold Offers Publishes
    have hf : ∀ st, (e.fetchType (initRepoDb e.platform url dst rc) st).2 =
        fetchOne e.decode e.rv (e.server (indexAt e url.url rc.repoSuffix st)).body := by
      intro st
      rw [← indexURL_eq e url dst rc st]
      rfl
    cases st with
    | default => simp [RepoDb.table]
    | source =>
      rw [hdb]
      simp only [RepoDb.table, hf, loaded_iff hrv, true_or, true_and]
    | binary =>
      rw [hdb, ← supportsBinary_iff]
      cases supportsBinary e.platform rc.repoType with
      | true => simp [RepoDb.table, hf, loaded_iff hrv]
      | false => simp [RepoDb.table]

/-! ### C86: what is in the database -/

/-- C86: a repository that is opened without a usable cache file has exactly the packages its indices list, in the
source types the platform has; it keeps its name and URL, and its type is the one set for it, else the given one. -/
theorem C86_one_repository {e : RepoEnv} (hrv : SmallR e.rv) {c c' : DbCache} {url : RepoURL} {dst : SourceType} {rc : RepoConfig}
    {swap : Bool} {db : RepoDb} (hold : ∀ k f, c k = some f → ¬ Recent e f.mtime)
    (h : e.newRepoDb c url dst rc swap = (c', .ok db)) :
    db.repo = url ∧ db.defaultSourceType = Spec.repoType rc dst ∧
    ∀ st p d, Offers db st p d ↔ Publishes e url rc st p d := by
  rw [newRepoDb_fetch fun f => hold _ f] at h
  exact fetched_published hrv h

theorem aborts_false {e : RepoEnv} {url : RepoURL} {dst : SourceType} {rc : RepoConfig} {st : SourceType} {body : Str}
    (h : e.server (indexAt e url.url rc.repoSuffix st) = .text body) (hu : Usable e.decode body) :
    e.aborts (initRepoDb e.platform url dst rc) st = false ∧
    ∃ m, (e.fetchType (initRepoDb e.platform url dst rc) st).2 = .ok m := by
  obtain ⟨m, hm⟩ := (usable_iff _ e.rv _).1 hu
  have : (e.fetchType (initRepoDb e.platform url dst rc) st).2 = .ok m := by
    show fetchOne e.decode e.rv (e.server (e.indexURL _ st)).body = _
    rw [indexURL_eq, h]
    exact hm
  refine ⟨?_, m, this⟩
  unfold RepoEnv.aborts
  rw [this, indexURL_eq, h]
  simp

theorem refused_result {e : RepoEnv} {url : RepoURL} {dst : SourceType} {rc : RepoConfig} {st : SourceType}
    (h : e.server (indexAt e url.url rc.repoSuffix st) = .refused) :
    e.aborts (initRepoDb e.platform url dst rc) st = false ∧
    (e.fetchType (initRepoDb e.platform url dst rc) st).2 = .error .fetch := by
  have : (e.fetchType (initRepoDb e.platform url dst rc) st).2 = .error .fetch := by
    show fetchOne e.decode e.rv (e.server (e.indexURL _ st)).body = _
    rw [indexURL_eq, h]
    rfl
  refine ⟨?_, this⟩
  unfold RepoEnv.aborts
  rw [this, indexURL_eq, h]
  simp

theorem opens_old {e : RepoEnv} {c : DbCache} {url : RepoURL} {dst : SourceType} {rc : RepoConfig} (swap : Bool)
    (hold : ∀ f, c (e.fileOf url dst rc) = some f → ¬ Recent e f.mtime) (hw : e.writes = true)
    (hs : ∃ b, e.server (indexAt e url.url rc.repoSuffix .source) = .text b ∧ Usable e.decode b)
    (hb : HasBinaries e.platform rc.repoType → e.server (indexAt e url.url rc.repoSuffix .binary) = .refused ∨
      ∃ b, e.server (indexAt e url.url rc.repoSuffix .binary) = .text b ∧ Usable e.decode b) :
    ∃ db, (e.newRepoDb c url dst rc swap).2 = .ok db := by
  rw [newRepoDb_fetch hold]
  obtain ⟨b, hs, hu⟩ := hs
  obtain ⟨ha, m, hm⟩ := aborts_false (dst := dst) (rc := rc) hs hu
  have hb' : supportsBinary e.platform rc.repoType = true → e.aborts (initRepoDb e.platform url dst rc) .binary = false ∧
      ((e.fetchType (initRepoDb e.platform url dst rc) .binary).2 = .error .fetch ∨
        ∃ m, (e.fetchType (initRepoDb e.platform url dst rc) .binary).2 = .ok m) := by
    intro h
    rcases hb ((supportsBinary_iff _ _).1 h) with hr | ⟨b', h1, h2⟩
    · exact ⟨(refused_result hr).1, .inl (refused_result hr).2⟩
    · exact ⟨(aborts_false h1 h2).1, .inr (aborts_false h1 h2).2⟩
  have hbin : (initRepoDb e.platform url dst rc).bin = if supportsBinary e.platform rc.repoType then some [] else none := rfl
  unfold RepoEnv.fetchAndStore
  dsimp only
  generalize initRepoDb e.platform url dst rc = i at *
  have ht : ∀ (st : SourceType), e.fetchType i st = (st, (e.fetchType i st).2) := fun _ => rfl
  cases hsb : supportsBinary e.platform rc.repoType with
  | false =>
    rw [hsb] at hbin
    simp only [RepoDb.types, hbin, Option.isSome_none, Bool.false_eq_true, if_false, List.any_cons, ha, List.any_nil, Bool.or_self,
      List.reverse_singleton, ite_self, List.map_cons, List.map_nil]
    rw [ht, hm]
    simp [collectFetches, collectFetchStep, RepoDb.numTypes, hbin, hw]
  | true =>
    rw [hsb] at hbin
    obtain ⟨hab, hres⟩ := hb' hsb
    simp only [RepoDb.types, hbin, Option.isSome_some, if_true, List.any_cons, ha, hab, List.any_nil, Bool.or_self, Bool.false_eq_true,
      if_false]
    cases swap <;> simp only [Bool.false_eq_true, if_false, if_true, List.map_cons, List.map_nil, List.reverse_cons, List.reverse_nil,
      List.nil_append, List.cons_append] <;> rw [ht .source, hm, ht .binary] <;> rcases hres with hr | ⟨m', hr⟩ <;> rw [hr] <;>
      simp [collectFetches, collectFetchStep, RepoDb.numTypes, hbin, hw]

/-- C86: the repository does open when its source index is usable and its binary index, where the platform has
binaries, is usable or not there. -/
theorem C86_opens {e : RepoEnv} {c : DbCache} {url : RepoURL} {dst : SourceType} {rc : RepoConfig} (swap : Bool)
    (hold : ∀ k f, c k = some f → ¬ Recent e f.mtime) (hw : e.writes = true)
    (hs : ∃ b, e.server (indexAt e url.url rc.repoSuffix .source) = .text b ∧ Usable e.decode b)
    (hb : HasBinaries e.platform rc.repoType → e.server (indexAt e url.url rc.repoSuffix .binary) = .refused ∨
      ∃ b, e.server (indexAt e url.url rc.repoSuffix .binary) = .text b ∧ Usable e.decode b) :
    ∃ db, (e.newRepoDb c url dst rc swap).2 = .ok db := by
  exact opens_old swap (fun f => hold _ f) hw hs hb

theorem fetchAndStore_other (e : RepoEnv) (c : DbCache) (k : Str) (db : RepoDb) (swap : Bool) {q : Str} (hq : q ≠ k) :
    (e.fetchAndStore c k db swap).1 q = c q := by
  unfold RepoEnv.fetchAndStore
  dsimp only
  split
  · simp [DbCache.put, hq]
  · split
    · simp [DbCache.put, hq]
    · split <;> simp [DbCache.put, hq]

theorem newRepoDb_other (e : RepoEnv) (c : DbCache) (url : RepoURL) (dst : SourceType) (rc : RepoConfig) (swap : Bool) {q : Str}
    (hq : q ≠ e.fileOf url dst rc) : (e.newRepoDb c url dst rc swap).1 q = c q := by
  unfold RepoEnv.newRepoDb RepoEnv.fetchPackages
  dsimp only
  split
  · exact fetchAndStore_other e c _ _ swap hq
  · split <;> rfl

theorem fileOf_eq (e : RepoEnv) (url : RepoURL) (dst : SourceType) (rc : RepoConfig) : e.fileOf url dst rc = dbFileOf e url.name url.url := by
  unfold RepoEnv.fileOf repoDbCacheFile hashInput dbFileOf initRepoDb
  have hs : ∀ db : RepoDb, sourceTypeString e.platform (stsum db) = s%"source" := by
    intro db; unfold stsum sourceTypeString; split <;> simp
  rw [hs]

theorem published_same {e e' : RepoEnv} (hs : e'.server = e.server) (hd : e'.decode = e.decode) (hp : e'.platform = e.platform)
    (hl : e'.linuxUri = e.linuxUri) (hv : e'.rv = e.rv) (url : RepoURL) (rc : RepoConfig) (st : SourceType) (k : Str) (d : Desc) :
    Publishes e' url rc st k d ↔ Publishes e url rc st k d := by
  unfold Publishes indexAt
  rw [hs, hd, hp, hl, hv]

/-- A repository whose cache file, if it is young, says what it publishes, is opened as it publishes itself, and its cache file
says so afterwards. -/
theorem newRepoDb_published {e : RepoEnv} (hrv : SmallR e.rv) {c c' : DbCache} {url : RepoURL} {dst : SourceType} {rc : RepoConfig}
    {swap : Bool} {db : RepoDb} (hc : ∀ f, c (e.fileOf url dst rc) = some f → Recent e f.mtime → SaysPublished e url rc f)
    (h : e.newRepoDb c url dst rc swap = (c', .ok db)) :
    (db.repo = url ∧ db.defaultSourceType = Spec.repoType rc dst ∧ ∀ st p d, Offers db st p d ↔ Publishes e url rc st p d) ∧
    ∃ f, c' (e.fileOf url dst rc) = some f ∧ SaysPublished e url rc f := by
  rcases Classical.em (∃ f, c (e.fileOf url dst rc) = some f ∧ Recent e f.mtime) with ⟨f, hf, hy⟩ | hno
  · obtain ⟨src, bin, h1, h2, h3⟩ := hc f hf hy
    have hact := (young_iff e c (e.fileOf url dst rc)).2 ⟨f, hf, hy⟩
    unfold RepoEnv.newRepoDb RepoEnv.fetchPackages at h
    dsimp only at h
    have hf' := hf
    unfold RepoEnv.fileOf at hact hf'
    rw [hact, hf'] at h
    dsimp only [Option.bind_some] at h
    rw [h1] at h
    simp only [Prod.mk.injEq, Except.ok.injEq] at h
    obtain ⟨rfl, rfl⟩ := h
    refine ⟨⟨rfl, ?_, ?_⟩, f, hf, src, bin, h1, h2, h3⟩
    · show (if rc.defaultSourceType = .default then dst else rc.defaultSourceType) = _
      unfold Spec.repoType
      cases rc.defaultSourceType <;> simp
    · intro st p d
      rw [← h3]
      unfold Offers decodeInto
      cases st with
      | default => rfl
      | source => rfl
      | binary =>
        cases bin with
        | some b => rfl
        | none =>
          have : supportsBinary e.platform rc.repoType = false := by
            rw [Bool.eq_false_iff, ne_eq, supportsBinary_iff, ← h2]; simp
          simp [RepoDb.table, initRepoDb, this]
  · have hold : ∀ f, c (e.fileOf url dst rc) = some f → ¬ Recent e f.mtime := fun f hf hy => hno ⟨f, hf, hy⟩
    rw [newRepoDb_fetch hold] at h
    have hpub := fetched_published hrv h
    obtain ⟨hdb, hc', _⟩ := fetchAndStore_ok h
    refine ⟨hpub, _, by rw [hc']; simp only [DbCache.put, if_true]; rfl, db.src, db.bin, rfl, ?_, ?_⟩
    · rw [hdb, ← supportsBinary_iff]
      dsimp only
      cases supportsBinary e.platform rc.repoType <;> simp
    · intro st p d
      rw [← hpub.2.2]
      cases st <;> rfl

theorem openAll_each {e : RepoEnv} {urls : List RepoURL} {dst : SourceType} {cfg : GoMap RepoConfig}
    (hdist : ∀ i j, i < urls.length → j < urls.length → i ≠ j →
      dbFileOf e (urls.getD i {}).name (urls.getD i {}).url ≠ dbFileOf e (urls.getD j {}).name (urls.getD j {}).url)
    (sched : List (Nat × Bool)) (hnd : (sched.map Prod.fst).Nodup) (hlt : ∀ i ∈ sched.map Prod.fst, i < urls.length) (c : DbCache) :
    ((e.openAll urls dst cfg c sched).2.map Prod.fst = sched.map Prod.fst) ∧
    (∀ x ∈ (e.openAll urls dst cfg c sched).2, ∃ (c0 : DbCache) (swap : Bool), ∀ u rc, u = urls.getD x.1 {} → rc = (GoMap.get? cfg u.name).getD {} →
      c0 (e.fileOf u dst rc) = c (e.fileOf u dst rc) ∧ x.2 = (e.newRepoDb c0 u dst rc swap).2 ∧
      (e.openAll urls dst cfg c sched).1 (e.fileOf u dst rc) = (e.newRepoDb c0 u dst rc swap).1 (e.fileOf u dst rc)) ∧
    ∀ j, j < urls.length → j ∉ sched.map Prod.fst → ∀ rc, (e.openAll urls dst cfg c sched).1 (e.fileOf (urls.getD j {}) dst rc) =
      c (e.fileOf (urls.getD j {}) dst rc) := by
  induction sched generalizing c with
  | nil => simp [RepoEnv.openAll]
  | cons a rest ih =>
    obtain ⟨i, swap⟩ := a
    simp only [List.map_cons, List.nodup_cons, List.mem_cons, forall_eq_or_imp] at hnd hlt
    unfold RepoEnv.openAll
    dsimp only
    generalize hr : e.newRepoDb c (urls.getD i {}) dst ((GoMap.get? cfg (urls.getD i {}).name).getD {}) swap = r
    have hother : ∀ j, j < urls.length → j ≠ i → ∀ rc, r.1 (e.fileOf (urls.getD j {}) dst rc) = c (e.fileOf (urls.getD j {}) dst rc) := by
      intro j hj hij rc
      rw [← hr]
      exact newRepoDb_other e c _ dst _ swap (by rw [fileOf_eq, fileOf_eq]; exact hdist j i hj hlt.1 hij)
    obtain ⟨i1, i2, i3⟩ := ih hnd.2 hlt.2 r.1
    refine ⟨by rw [List.map_cons, i1, List.map_cons], ?_, ?_⟩
    · intro x hx
      rcases List.mem_cons.1 hx with rfl | hx
      · refine ⟨c, swap, ?_⟩
        rintro u rc rfl rfl
        dsimp only
        exact ⟨rfl, by rw [← hr], by rw [hr]; exact i3 i hlt.1 hnd.1 _⟩
      · obtain ⟨c0, sw, h⟩ := i2 x hx
        refine ⟨c0, sw, fun u rc hu hrc => ?_⟩
        obtain ⟨h1, h2, h3⟩ := h u rc hu hrc
        have hx1 : x.1 ∈ rest.map Prod.fst := by rw [← i1]; exact List.mem_map.2 ⟨x, hx, rfl⟩
        refine ⟨?_, h2, h3⟩
        rw [h1, hu]
        exact hother x.1 (hlt.2 _ hx1) (fun h => hnd.1 (h ▸ hx1)) rc
    · intro j hj hjn rc
      simp only [List.map_cons, List.mem_cons, not_or] at hjn
      rw [i3 j hj hjn.2 rc, hother j hj hjn.1 rc]

theorem slots_length (rs : List (Nat × Except OpenErr RepoDb)) (slots : List (Option RepoDb)) :
    (rs.foldl slotStep slots).length = slots.length := by
  induction rs generalizing slots with
  | nil => rfl
  | cons r rs ih =>
    rw [List.foldl_cons, ih]
    unfold slotStep
    split <;> simp

theorem slots_unset (rs : List (Nat × Except OpenErr RepoDb)) (slots : List (Option RepoDb)) (i : Nat) (h : i ∉ rs.map Prod.fst) :
    (rs.foldl slotStep slots)[i]? = slots[i]? := by
  induction rs generalizing slots with
  | nil => rfl
  | cons r rs ih =>
    simp only [List.map_cons, List.mem_cons, not_or] at h
    rw [List.foldl_cons, ih _ h.2]
    unfold slotStep
    split
    · rw [List.getElem?_set_ne (fun e => h.1 e.symm)]
    · rfl

theorem slots_set (rs : List (Nat × Except OpenErr RepoDb)) (slots : List (Option RepoDb)) (i : Nat) (d : RepoDb)
    (hnd : (rs.map Prod.fst).Nodup) (hi : i < slots.length) (h : (i, Except.ok d) ∈ rs) :
    (rs.foldl slotStep slots)[i]? = some (some d) := by
  induction rs generalizing slots with
  | nil => simp at h
  | cons r rs ih =>
    simp only [List.map_cons, List.nodup_cons] at hnd
    rw [List.foldl_cons]
    rcases List.mem_cons.1 h with rfl | h
    · rw [slots_unset _ _ _ hnd.1]
      simp [slotStep, hi]
    · exact ih _ hnd.2 (by unfold slotStep; split <;> simp [hi]) h

theorem filterMap_slots (l : List (Option RepoDb)) (h : ∀ x ∈ l, x.isSome) : (l.filterMap id).map some = l := by
  induction l with
  | nil => rfl
  | cons x l ih =>
    cases x with
    | none => simp at h
    | some d =>
      simp only [List.filterMap_cons_some (f := id) rfl, List.map_cons]
      rw [ih fun y hy => h y (by simp [hy])]

theorem getD_eq (urls : List RepoURL) (i : Nat) (url : RepoURL) (h : urls[i]? = some url) : urls.getD i {} = url := by
  simp [List.getD, h]

theorem databases_true {e : RepoEnv} (hrv : SmallR e.rv) {urls : List RepoURL} {dst : SourceType} {cfg : GoMap RepoConfig}
    {c : DbCache} {sched : List (Nat × Bool)} {nx : Nexus} (hsched : (sched.map Prod.fst).Perm (List.range urls.length))
    (hfiles : (urls.map fun u => dbFileOf e u.name u.url).Nodup)
    (hold : ∀ url ∈ urls, ∀ f, c (e.fileOf url dst ((GoMap.get? cfg url.name).getD {})) = some f → Recent e f.mtime →
      SaysPublished e url ((GoMap.get? cfg url.name).getD {}) f) (h : (e.newPkgDb urls dst cfg c sched).2 = some nx) :
    nx.packages = [] ∧ nx.defaultSourceType = dst ∧ nx.db.length = urls.length ∧
    ∀ (i : Nat) (url : RepoURL), urls[i]? = some url → ∃ db, nx.db[i]? = some db ∧ db.repo = url ∧
      db.defaultSourceType = Spec.repoType ((GoMap.get? cfg url.name).getD {}) dst ∧
      (∀ st p d, Offers db st p d ↔ Publishes e url ((GoMap.get? cfg url.name).getD {}) st p d) ∧
      ∃ f, (e.newPkgDb urls dst cfg c sched).1 (e.fileOf url dst ((GoMap.get? cfg url.name).getD {})) = some f ∧
        SaysPublished e url ((GoMap.get? cfg url.name).getD {}) f := by
  have hnd : (sched.map Prod.fst).Nodup := hsched.nodup_iff.2 List.nodup_range
  have hdist' : ∀ i j, i < urls.length → j < urls.length → i ≠ j →
      dbFileOf e (urls.getD i {}).name (urls.getD i {}).url ≠ dbFileOf e (urls.getD j {}).name (urls.getD j {}).url := by
    intro i j hi hj hij heq
    have := (List.getElem_inj (h₀ := by simpa using hi) (h₁ := by simpa using hj) hfiles).1
      (by simpa [List.getD, hi, hj] using heq)
    exact hij this
  obtain ⟨hpos, heach, _⟩ := openAll_each (e := e) (urls := urls) (dst := dst) (cfg := cfg) hdist' sched hnd
    (fun i hi => by simpa using hsched.subset hi) c
  unfold RepoEnv.newPkgDb at h ⊢
  split at h
  · simp at h
  · rename_i hne
    rw [if_neg hne]
    dsimp only at h ⊢
    split at h
    · simp at h
    · rename_i hfail
      rw [if_neg hfail]
      simp only [Option.some.injEq] at h
      generalize (e.openAll urls dst cfg c sched).1 = cEnd at *
      generalize (e.openAll urls dst cfg c sched).2 = rs at *
      have hrs : ∀ i, i < urls.length → ∃ d, (i, Except.ok d) ∈ rs := by
        intro i hi
        have : i ∈ rs.map Prod.fst := by rw [hpos]; exact hsched.symm.subset (by simpa using hi)
        obtain ⟨⟨j, r⟩, hr, rfl⟩ := List.mem_map.1 this
        cases r with
        | ok d => exact ⟨d, hr⟩
        | error x => exact absurd (List.any_eq_true.2 ⟨_, hr, rfl⟩) hfail
      have hall : ∀ x ∈ rs.foldl slotStep (List.replicate urls.length none), x.isSome := by
        intro x hx
        obtain ⟨i, hi, rfl⟩ := List.getElem_of_mem hx
        rw [slots_length, List.length_replicate] at hi
        obtain ⟨d, hd⟩ := hrs i hi
        have := slots_set rs (List.replicate urls.length none) i d (hpos ▸ hnd) (by simpa using hi) hd
        rw [List.getElem?_eq_getElem (by rw [slots_length]; simpa using hi), Option.some.injEq] at this
        rw [this]; rfl
      have hmap := filterMap_slots _ hall
      subst h
      refine ⟨rfl, rfl, ?_, ?_⟩
      · have := congrArg List.length hmap
        rw [List.length_map, slots_length, List.length_replicate] at this
        exact this
      · intro i url hurl
        have hi : i < urls.length := (List.getElem?_eq_some_iff.1 hurl).1
        obtain ⟨d, hd⟩ := hrs i hi
        have hget := slots_set rs (List.replicate urls.length none) i d (hpos ▸ hnd) (by simpa using hi) hd
        rw [← hmap, List.getElem?_map] at hget
        obtain ⟨c0, swap, hx⟩ := heach _ hd
        obtain ⟨x1, x2, x3⟩ := hx url _ (getD_eq urls i url hurl).symm rfl
        dsimp only at x2
        obtain ⟨⟨p1, p2, p3⟩, p4⟩ := newRepoDb_published hrv (c := c0) (url := url) (dst := dst) (rc := (GoMap.get? cfg url.name).getD {}) (swap := swap)
          (c' := (e.newRepoDb c0 url dst ((GoMap.get? cfg url.name).getD {}) swap).1) (db := d)
          (fun f hf hy => hold url (List.mem_of_getElem? hurl) f (by rw [← x1]; exact hf) hy) (by rw [x2])
        refine ⟨d, ?_, p1, p2, p3, ?_⟩
        · revert hget
          show Option.map some ((rs.foldl slotStep (List.replicate urls.length none)).filterMap id)[i]? = some (some d) → _
          cases ((rs.foldl slotStep (List.replicate urls.length none)).filterMap id)[i]? with
          | none => simp
          | some x => simp
        · rw [x3]
          exact p4

theorem databases_old {e : RepoEnv} (hrv : SmallR e.rv) {urls : List RepoURL} {dst : SourceType} {cfg : GoMap RepoConfig}
    {c : DbCache} {sched : List (Nat × Bool)} {nx : Nexus} (hsched : (sched.map Prod.fst).Perm (List.range urls.length))
    (hfiles : (urls.map fun u => dbFileOf e u.name u.url).Nodup)
    (hold : ∀ url ∈ urls, ∀ f, c (e.fileOf url dst ((GoMap.get? cfg url.name).getD {})) = some f → ¬ Recent e f.mtime) (h : (e.newPkgDb urls dst cfg c sched).2 = some nx) :
    nx.packages = [] ∧ nx.defaultSourceType = dst ∧ nx.db.length = urls.length ∧
    ∀ (i : Nat) (url : RepoURL), urls[i]? = some url → ∃ db, nx.db[i]? = some db ∧ db.repo = url ∧
      db.defaultSourceType = Spec.repoType ((GoMap.get? cfg url.name).getD {}) dst ∧
      ∀ st p d, Offers db st p d ↔ Publishes e url ((GoMap.get? cfg url.name).getD {}) st p d := by
  obtain ⟨h1, h2, h3, h4⟩ := databases_true hrv hsched hfiles (fun url hu f hf hy => absurd hy (hold url hu f hf)) h
  refine ⟨h1, h2, h3, fun i url hi => ?_⟩
  obtain ⟨db, d1, d2, d3, d4, _⟩ := h4 i url hi
  exact ⟨db, d1, d2, d3, d4⟩

/-- C86: whatever order the repositories answer in, the database has one repository for every configured one, in the
same order, each with exactly the packages that its indices list. -/
theorem C86_databases {e : RepoEnv} (hrv : SmallR e.rv) {urls : List RepoURL} {dst : SourceType} {cfg : GoMap RepoConfig}
    {c : DbCache} {sched : List (Nat × Bool)} {nx : Nexus} (hsched : (sched.map Prod.fst).Perm (List.range urls.length))
    (hfiles : (urls.map fun u => dbFileOf e u.name u.url).Nodup)
    (hold : ∀ k f, c k = some f → ¬ Recent e f.mtime) (h : (e.newPkgDb urls dst cfg c sched).2 = some nx) :
    nx.packages = [] ∧ nx.defaultSourceType = dst ∧ nx.db.length = urls.length ∧
    ∀ (i : Nat) (url : RepoURL), urls[i]? = some url → ∃ db, nx.db[i]? = some db ∧ db.repo = url ∧
      db.defaultSourceType = Spec.repoType ((GoMap.get? cfg url.name).getD {}) dst ∧
      ∀ st p d, Offers db st p d ↔ Publishes e url ((GoMap.get? cfg url.name).getD {}) st p d := by
  exact databases_old hrv hsched hfiles (fun _ _ f => hold _ f) h

/-! ### C87: the cache over time -/

theorem newRepoDb_keeps {e : RepoEnv} {c : DbCache} {k : Str} {f : DbFile} (hf : c k = some f) (hy : Recent e f.mtime) (url : RepoURL)
    (dst : SourceType) (rc : RepoConfig) (swap : Bool) : (e.newRepoDb c url dst rc swap).1 k = some f := by
  by_cases hk : k = e.fileOf url dst rc
  · unfold RepoEnv.newRepoDb RepoEnv.fetchPackages
    dsimp only
    have : cacheAction ((c (e.fileOf url dst rc)).map DbFile.mtime) e.now e.maxAge = .decode :=
      (young_iff _ _ _).2 ⟨f, hk ▸ hf, hy⟩
    unfold RepoEnv.fileOf at this
    rw [this]
    dsimp only
    split <;> exact hf
  · rw [newRepoDb_other e c url dst rc swap hk, hf]

theorem openAll_keeps {e : RepoEnv} {k : Str} {f : DbFile} (hy : Recent e f.mtime) (urls : List RepoURL)
    (dst : SourceType) (cfg : GoMap RepoConfig) (sched : List (Nat × Bool)) (c : DbCache) (hf : c k = some f) :
    (e.openAll urls dst cfg c sched).1 k = some f := by
  induction sched generalizing c with
  | nil => exact hf
  | cons a rest ih =>
    obtain ⟨i, swap⟩ := a
    exact ih _ (newRepoDb_keeps hf hy _ _ _ _)

theorem newPkgDb_keeps {e : RepoEnv} {k : Str} {f : DbFile} (hy : Recent e f.mtime) (urls : List RepoURL)
    (dst : SourceType) (cfg : GoMap RepoConfig) (sched : List (Nat × Bool)) (c : DbCache) (hf : c k = some f) :
    (e.newPkgDb urls dst cfg c sched).1 k = some f := by
  unfold RepoEnv.newPkgDb
  split
  · exact hf
  · dsimp only
    split <;> exact openAll_keeps hy urls dst cfg sched c hf

theorem afterAll_keeps {k : Str} {f : DbFile} (os : List Opening) (hy : ∀ o ∈ os, Recent o.env f.mtime) (c : DbCache) (hf : c k = some f) :
    afterAll c os k = some f := by
  induction os generalizing c with
  | nil => exact hf
  | cons o os ih =>
    exact ih (fun x hx => hy x (by simp [hx])) _ (newPkgDb_keeps (hy o (by simp)) _ _ _ _ _ hf)

/-- C87 (partial: of the same repository settings, and when the first run got its cache file written to the end).
Once a repository was opened from the network, every later run that takes the file for young gets the very same
database, whatever the servers answer by then and whatever was opened in between, by runs that also take the file for
young. -/
theorem C87_same_answer_partial {e : RepoEnv} {c c' : DbCache} {url : RepoURL} {dst : SourceType} {rc : RepoConfig}
    {swap : Bool} {db : RepoDb} (hold : ∀ k f, c k = some f → ¬ Recent e f.mtime) (h : e.newRepoDb c url dst rc swap = (c', .ok db))
    (between : List Opening) (hb : ∀ o ∈ between, Recent o.env e.now)
    (later : RepoEnv) (hl : Recent later e.now) (hp : later.platform = e.platform)
    (hm : later.md5hex = e.md5hex) (hv : later.rv = e.rv) (swap' : Bool) :
    later.newRepoDb (afterAll c' between) url dst rc swap' = (afterAll c' between, .ok db) := by
  rw [newRepoDb_fetch fun f => hold _ f] at h
  obtain ⟨hdb, hc, _⟩ := fetchAndStore_ok h
  generalize hfile : ({ mtime := e.now, tables := some (db.src, db.bin) } : DbFile) = f at hc
  have hmt : f.mtime = e.now := by rw [← hfile]
  have hk : e.fileOf url dst rc = later.fileOf url dst rc := by
    unfold RepoEnv.fileOf
    rw [hp, hm, hv]
  have hget : afterAll c' between (later.fileOf url dst rc) = some f := by
    apply afterAll_keeps _ fun o ho => hmt ▸ hb o ho
    rw [hc, hk]
    simp [DbCache.put]
  have hact := (young_iff later (afterAll c' between) (later.fileOf url dst rc)).2 ⟨f, hget, hmt ▸ hl⟩
  unfold RepoEnv.newRepoDb RepoEnv.fetchPackages
  dsimp only
  unfold RepoEnv.fileOf at hact hget
  rw [hact, hget]
  dsimp only
  rw [← hfile]
  dsimp only [Option.bind_some]
  have : decodeInto (initRepoDb later.platform url dst rc) { src := db.src, bin := db.bin } = db := by
    rw [hp]
    unfold decodeInto
    rw [hdb]
    dsimp only [initRepoDb]
    cases supportsBinary e.platform rc.repoType <;> simp
  rw [this]

/-- C87: when the young cache files of the repositories say what these publish (in particular when there are none), opening
them, in whatever order they answer, gives what they publish, and leaves cache files that say so: thus every further opening
gives the same, as long as what is published does not change. -/
theorem C87_true_cache {e : RepoEnv} (hrv : SmallR e.rv) {urls : List RepoURL} {dst : SourceType} {cfg : GoMap RepoConfig}
    {c c' : DbCache} {sched : List (Nat × Bool)} {nx : Nexus} (hsched : (sched.map Prod.fst).Perm (List.range urls.length))
    (hfiles : (urls.map fun u => dbFileOf e u.name u.url).Nodup)
    (htrue : ∀ url ∈ urls, ∀ f, c (dbFileOf e url.name url.url) = some f → Recent e f.mtime → SaysPublished e url ((GoMap.get? cfg url.name).getD {}) f)
    (h : e.newPkgDb urls dst cfg c sched = (c', some nx)) :
    (∀ (i : Nat) (url : RepoURL), urls[i]? = some url → ∃ db, nx.db[i]? = some db ∧ db.repo = url ∧
      ∀ st p d, Offers db st p d ↔ Publishes e url ((GoMap.get? cfg url.name).getD {}) st p d) ∧
    ∀ url ∈ urls, ∃ f, c' (dbFileOf e url.name url.url) = some f ∧ SaysPublished e url ((GoMap.get? cfg url.name).getD {}) f := by
  have h' : (e.newPkgDb urls dst cfg c sched).2 = some nx := by rw [h]
  obtain ⟨_, _, _, h4⟩ := databases_true hrv hsched hfiles (fun url hu f hf => htrue url hu f (by rw [← fileOf_eq e url dst]; exact hf)) h'
  constructor
  · intro i url hi
    obtain ⟨db, d1, d2, _, d4, _⟩ := h4 i url hi
    exact ⟨db, d1, d2, d4⟩
  · intro url hu
    obtain ⟨i, hi⟩ := List.getElem?_of_mem hu
    obtain ⟨_, _, _, _, _, f, hf, hs⟩ := h4 i url hi
    rw [h, fileOf_eq] at hf
    exact ⟨f, hf, hs⟩

/-- C87 fails when the run ends while the cache file is written: as long as the file is young, every later run, whatever
the servers answer, ends with an error. -/
theorem C87_violated_interrupted {e : RepoEnv} {c c' : DbCache} {url : RepoURL} {dst : SourceType} {rc : RepoConfig}
    {swap : Bool} (hold : ∀ k f, c k = some f → ¬ Recent e f.mtime) (h : e.newRepoDb c url dst rc swap = (c', .error .write))
    (later : RepoEnv) (hl : Recent later e.now) (hp : later.platform = e.platform)
    (hm : later.md5hex = e.md5hex) (hv : later.rv = e.rv) (swap' : Bool) :
    (later.newRepoDb c' url dst rc swap').2 = .error .decode := by
  rw [newRepoDb_fetch fun f => hold _ f] at h
  have hk : e.fileOf url dst rc = later.fileOf url dst rc := by
    unfold RepoEnv.fileOf
    rw [hp, hm, hv]
  have hget : c' (later.fileOf url dst rc) = some { mtime := e.now, tables := none } := by
    unfold RepoEnv.fetchAndStore at h
    dsimp only at h
    split at h
    · simp at h
    · split at h
      · simp at h
      · split at h
        · simp at h
        · simp only [Prod.mk.injEq] at h
          rw [← h.1, hk]
          simp [DbCache.put]
  have hact := (young_iff later c' (later.fileOf url dst rc)).2 ⟨_, hget, hl⟩
  unfold RepoEnv.newRepoDb RepoEnv.fetchPackages
  dsimp only
  unfold RepoEnv.fileOf at hact hget
  rw [hact, hget]
  rfl

end Pkgr
