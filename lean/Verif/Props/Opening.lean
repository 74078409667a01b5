/- C139: how opening a repository ends. -/
import Verif.Props.PkgDb
import Verif.Spec.Opening

namespace Pkgr
open Spec

theorem loadStanzas_panic (decode : Str → Option RawDesc) (rv : RVersion) (xs : List Str) (m : GoMap Desc) :
    loadStanzas decode rv xs m = .error .panic ↔
      ∃ pre x post, xs = pre ++ x :: post ∧ (∀ y ∈ pre, y ≠ [] → GoodRecord decode y) ∧ x ≠ [] ∧
        ∃ raw, decode x = some raw ∧ ∃ y ∈ raw.imports ++ raw.suggests ++ raw.depends ++ raw.linkingTo, parseDep y = none := by
  induction xs generalizing m with
  | nil => simp [loadStanzas]
  | cons x xs ih =>
    have hskip : (x ≠ [] → GoodRecord decode x) → (∀ m', (∃ pre x' post, xs = pre ++ x' :: post ∧ (∀ y ∈ pre, y ≠ [] → GoodRecord decode y) ∧ x' ≠ [] ∧
          ∃ raw, decode x' = some raw ∧ ∃ y ∈ raw.imports ++ raw.suggests ++ raw.depends ++ raw.linkingTo, parseDep y = none) ↔
        loadStanzas decode rv xs m' = .error .panic) → ∀ m',
        (loadStanzas decode rv xs m' = .error .panic ↔
        ∃ pre x' post, x :: xs = pre ++ x' :: post ∧ (∀ y ∈ pre, y ≠ [] → GoodRecord decode y) ∧ x' ≠ [] ∧
          ∃ raw, decode x' = some raw ∧ ∃ y ∈ raw.imports ++ raw.suggests ++ raw.depends ++ raw.linkingTo, parseDep y = none) := by
      intro hg hih m'
      rw [← hih m']
      constructor
      · rintro ⟨pre, x', post, rfl, h1, h2⟩
        exact ⟨x :: pre, x', post, rfl, by
          intro y hy
          rcases List.mem_cons.1 hy with rfl | hy
          · exact hg
          · exact h1 y hy, h2⟩
      · rintro ⟨pre, x', post, he, h1, h2, raw, h3, y, h4, h5⟩
        cases pre with
        | nil =>
          obtain ⟨rfl, rfl⟩ : x = x' ∧ xs = post := by simpa using he
          obtain ⟨raw', g1, g2⟩ := hg h2
          rw [h3] at g1
          cases g1
          exact absurd h5 (g2 y h4)
        | cons a pre =>
          obtain ⟨rfl, rfl⟩ : x = a ∧ xs = pre ++ x' :: post := by simpa using he
          exact ⟨pre, x', post, rfl, fun y hy => h1 y (List.mem_cons_of_mem _ hy), h2, raw, h3, y, h4, h5⟩
    rw [loadStanzas]
    by_cases hne : x = []
    · rw [if_pos (by simp [hne])]
      exact hskip (fun h => absurd hne h) (fun m' => (ih m').symm) m
    · rw [if_neg (by simpa using hne)]
      cases hd : decode x with
      | none =>
        simp only [reduceCtorEq, Except.error.injEq, false_iff]
        rintro ⟨pre, x', post, he, h1, h2, raw, h3, _⟩
        cases pre with
        | nil =>
          obtain ⟨rfl, rfl⟩ : x = x' ∧ xs = post := by simpa using he
          rw [hd] at h3; cases h3
        | cons a pre =>
          obtain ⟨rfl, rfl⟩ : x = a ∧ xs = pre ++ x' :: post := by simpa using he
          obtain ⟨raw', g1, _⟩ := h1 x List.mem_cons_self hne
          rw [hd] at g1; cases g1
      | some raw =>
        dsimp only
        cases hr : newDesc raw with
        | none =>
          obtain ⟨y, hy1, hy2⟩ := (newDesc_none_iff raw).1 hr
          simp only [true_iff]
          exact ⟨[], x, xs, rfl, by simp, hne, raw, hd, y, hy1, hy2⟩
        | some d =>
          dsimp only
          have hg : x ≠ [] → GoodRecord decode x := by
            intro _
            refine ⟨raw, hd, fun y hy hn => ?_⟩
            rw [(newDesc_none_iff raw).2 ⟨y, hy, hn⟩] at hr
            cases hr
          cases hc : isRVersionCompatible d rv with
          | none => exact absurd hc (C06_total d rv)
          | some valid =>
            dsimp only
            split <;> exact hskip hg (fun m' => (ih m').symm) _

theorem malformed_iff (decode : Str → Option RawDesc) (rv : RVersion) (body : Str) :
    Malformed decode body ↔ fetchOne decode rv (some body) = .error .panic := by
  constructor
  · rintro ⟨text, xs, h1, h2, h3⟩
    have h' : fetchOne decode rv (some body) = loadStanzas decode rv xs [] := by
      rw [fetchOne, ← unixText_unique h1, stanzas_unique h2]
    rw [h']
    exact (loadStanzas_panic ..).2 h3
  · intro h
    exact ⟨_, _, unixText_normalize body, splitBlank_stanzas _, (loadStanzas_panic ..).1 h⟩

theorem aborts_iff {e : RepoEnv} {url : RepoURL} {dst : SourceType} {rc : RepoConfig} (st : SourceType) :
    e.aborts (initRepoDb e.platform url dst rc) st = true ↔ Stops e url rc st := by
  unfold RepoEnv.aborts RepoEnv.fetchType Stops
  rw [indexURL_eq]
  cases h : e.server (indexAt e url.url rc.repoSuffix st) with
  | unreachable => simp
  | refused => simp [Answer.body, fetchOne]
  | text b =>
    simp only [reduceCtorEq, decide_false, Bool.false_or, false_or, Answer.text.injEq, exists_eq_left', Answer.body, malformed_iff e.decode e.rv]
    split
    · rename_i h'; simp [h']
    · rename_i h'; simp; exact fun hh => h' hh

theorem types_iff {e : RepoEnv} {url : RepoURL} {dst : SourceType} {rc : RepoConfig} (st : SourceType) :
    st ∈ (initRepoDb e.platform url dst rc).types ↔ AskedFor e rc st := by
  unfold RepoDb.types AskedFor
  have hbin : (initRepoDb e.platform url dst rc).bin = if supportsBinary e.platform rc.repoType then some [] else none := rfl
  rw [hbin, ← supportsBinary_iff]
  cases supportsBinary e.platform rc.repoType <;> simp

/-- C139: opening a repository from the network stops the program exactly when an index that is asked for cannot be connected to or has a
malformed dependency (and nothing unreadable before it). -/
theorem C139_stops {e : RepoEnv} {c : DbCache} {url : RepoURL} {dst : SourceType} {rc : RepoConfig} {swap : Bool}
    (hold : ∀ f, c (dbFileOf e url.name url.url) = some f → ¬ Recent e f.mtime) :
    (e.newRepoDb c url dst rc swap).2 = .error .abort ↔ ∃ st, AskedFor e rc st ∧ Stops e url rc st := by
  rw [newRepoDb_fetch (by rw [fileOf_eq]; exact hold)]
  unfold RepoEnv.fetchAndStore
  dsimp only
  split
  · rename_i h
    simp only [true_iff]
    obtain ⟨st, h1, h2⟩ := List.any_eq_true.1 h
    exact ⟨st, (types_iff st).1 h1, (aborts_iff st).1 h2⟩
  · rename_i h
    refine ⟨?_, fun ⟨st, h1, h2⟩ => absurd (List.any_eq_true.2 ⟨st, (types_iff (dst := dst) st).2 h1, (aborts_iff st).2 h2⟩) h⟩
    split
    · simp
    · split <;> simp

/-- C139: when it is not stopped, it fails exactly when the platform has binaries and neither index can be used. -/
theorem C139_fails {e : RepoEnv} {c : DbCache} {url : RepoURL} {dst : SourceType} {rc : RepoConfig} {swap : Bool}
    (hold : ∀ f, c (dbFileOf e url.name url.url) = some f → ¬ Recent e f.mtime)
    (hns : ¬ ∃ st, AskedFor e rc st ∧ Stops e url rc st) :
    (e.newRepoDb c url dst rc swap).2 = .error .fetch ↔
      HasBinaries e.platform rc.repoType ∧ ¬ Readable e url rc .source ∧ ¬ Readable e url rc .binary := by
  rw [newRepoDb_fetch (by rw [fileOf_eq]; exact hold)]
  have hread : ∀ st, Readable e url rc st ↔ ∃ m, (e.fetchType (initRepoDb e.platform url dst rc) st).2 = .ok m := by
    intro st
    unfold Readable RepoEnv.fetchType
    rw [indexURL_eq]
    cases h : e.server (indexAt e url.url rc.repoSuffix st) with
    | unreachable => simp [Answer.body, fetchOne]
    | refused => simp [Answer.body, fetchOne]
    | text b => simp [Answer.body, usable_iff e.decode e.rv]
  have hbin : (initRepoDb e.platform url dst rc).bin = if supportsBinary e.platform rc.repoType then some [] else none := rfl
  have hna : (initRepoDb e.platform url dst rc).types.any (e.aborts (initRepoDb e.platform url dst rc)) = false := by
    rw [Bool.eq_false_iff]
    intro h
    obtain ⟨st, h1, h2⟩ := List.any_eq_true.1 h
    exact hns ⟨st, (types_iff st).1 h1, (aborts_iff st).1 h2⟩
  rw [hread, hread, ← supportsBinary_iff]
  unfold RepoEnv.fetchAndStore
  dsimp only
  rw [hna]
  generalize initRepoDb e.platform url dst rc = i at *
  have ht : ∀ (st : SourceType), e.fetchType i st = (st, (e.fetchType i st).2) := fun _ => rfl
  simp only [Bool.false_eq_true, if_false]
  cases hsb : supportsBinary e.platform rc.repoType with
  | false =>
    rw [hsb] at hbin
    simp only [RepoDb.types, hbin, Option.isSome_none, Bool.false_eq_true, if_false, List.reverse_singleton, ite_self, List.map_cons, List.map_nil]
    simp only [collectFetches, RepoDb.numTypes, hbin, Option.isSome_none]
    simp
    split <;> simp
  | true =>
    rw [hsb] at hbin
    simp only [RepoDb.types, hbin, Option.isSome_some, if_true]
    cases hs : (e.fetchType i .source).2 <;> cases hb : (e.fetchType i .binary).2 <;> cases swap <;>
      simp only [Bool.false_eq_true, if_false, if_true, List.map_cons, List.map_nil, List.reverse_cons, List.reverse_nil,
        List.nil_append, List.cons_append] <;> rw [ht .source, hs, ht .binary, hb] <;>
      simp [collectFetches, collectFetchStep, RepoDb.numTypes, hbin] <;> split <;> simp

/-- C139: otherwise it opens, unless the cache file cannot be written. -/
theorem C139_opens {e : RepoEnv} {c : DbCache} {url : RepoURL} {dst : SourceType} {rc : RepoConfig} {swap : Bool}
    (hold : ∀ f, c (dbFileOf e url.name url.url) = some f → ¬ Recent e f.mtime) (hw : e.writes = true)
    (hns : ¬ ∃ st, AskedFor e rc st ∧ Stops e url rc st) (hr : HasBinaries e.platform rc.repoType → Readable e url rc .source ∨ Readable e url rc .binary) :
    ∃ db, (e.newRepoDb c url dst rc swap).2 = .ok db := by
  have h1 : (e.newRepoDb c url dst rc swap).2 ≠ .error .abort := fun h => hns ((C139_stops hold).1 h)
  have h2 : (e.newRepoDb c url dst rc swap).2 ≠ .error .fetch := by
    intro h
    obtain ⟨a, b, d⟩ := (C139_fails hold hns).1 h
    rcases hr a with h | h
    · exact b h
    · exact d h
  rw [newRepoDb_fetch (by rw [fileOf_eq]; exact hold)] at *
  revert h1 h2
  unfold RepoEnv.fetchAndStore
  dsimp only
  split
  · simp
  · split
    · simp
    · rename_i db _
      exact fun _ _ => ⟨db, rfl⟩

/-- C139: when opening a repository from the network does not succeed, and not for the cache file, then there is no cache file of it afterwards, and those of other
repositories are as before. -/
theorem C139_nothing_cached {e : RepoEnv} {c c' : DbCache} {url : RepoURL} {dst : SourceType} {rc : RepoConfig} {swap : Bool} {err : OpenErr}
    (hold : ∀ f, c (dbFileOf e url.name url.url) = some f → ¬ Recent e f.mtime)
    (h : e.newRepoDb c url dst rc swap = (c', .error err)) (hw : e.writes = true) :
    c' (dbFileOf e url.name url.url) = none ∧ ∀ k, k ≠ dbFileOf e url.name url.url → c' k = c k := by
  refine ⟨?_, fun k hk => ?_⟩
  · rw [newRepoDb_fetch (by rw [fileOf_eq]; exact hold)] at h
    unfold RepoEnv.fetchAndStore at h
    rw [fileOf_eq] at h
    dsimp only at h
    split at h
    · cases h; simp [DbCache.put]
    · split at h
      · cases h; simp [DbCache.put]
      · cases h
  · have := newRepoDb_other e c url dst rc swap (q := k) (by rw [fileOf_eq]; exact hk)
    rw [h] at this
    exact this

/-- C139 is violated by platforms without binaries: if the only index is refused, the repository opens, without any
package, and this is written to the cache. -/
theorem C139_violated_empty {e : RepoEnv} {c : DbCache} {url : RepoURL} {dst : SourceType} {rc : RepoConfig} {swap : Bool}
    (hold : ∀ f, c (dbFileOf e url.name url.url) = some f → ¬ Recent e f.mtime) (hw : e.writes = true)
    (hb : ¬ HasBinaries e.platform rc.repoType) (hr : e.server (indexAt e url.url rc.repoSuffix .source) = .refused) :
    ∃ c' db, e.newRepoDb c url dst rc swap = (c', .ok db) ∧ db.src = [] ∧ db.bin = none ∧
      c' (dbFileOf e url.name url.url) = some { mtime := e.now, tables := some ([], none) } := by
  have hsb : supportsBinary e.platform rc.repoType = false := by
    rw [Bool.eq_false_iff]; exact fun h => hb ((supportsBinary_iff _ _).1 h)
  obtain ⟨ha, hm⟩ := refused_result (dst := dst) (rc := rc) hr
  have hbin : (initRepoDb e.platform url dst rc).bin = if supportsBinary e.platform rc.repoType then some [] else none := rfl
  have hsrc : (initRepoDb e.platform url dst rc).src = [] := rfl
  rw [newRepoDb_fetch (by rw [fileOf_eq]; exact hold), fileOf_eq]
  unfold RepoEnv.fetchAndStore
  dsimp only
  generalize initRepoDb e.platform url dst rc = i at *
  have ht : ∀ (st : SourceType), e.fetchType i st = (st, (e.fetchType i st).2) := fun _ => rfl
  rw [hsb] at hbin
  simp only [RepoDb.types, hbin, Option.isSome_none, Bool.false_eq_true, if_false, List.any_cons, ha, List.any_nil, Bool.or_self,
    List.reverse_singleton, ite_self, List.map_cons, List.map_nil]
  rw [ht, hm]
  simp [collectFetches, collectFetchStep, RepoDb.numTypes, hbin, hw, hsrc]
  exact ⟨_, _, ⟨rfl, rfl⟩, hsrc, hbin, by simp [DbCache.put]⟩

/-- An index with a malformed dependency: the second record has one. -/
def opBad : RepoEnv :=
  { platform := { os := .linux }, decode := fun r => some { package := r, version := s%"1.0", imports := if r = s%"b" then [s%"x (>= 1"] else [] }
    md5hex := fun x => x, linuxUri := [], rv := ⟨4, 1, 0⟩, now := 100000,
    server := fun u => if u = s%"http://r/src/contrib/PACKAGES" then .text (s%"a\n\nb") else .unreachable }

/-- Non-vacuity of C139: this index stops the program; nothing is cached; the old cache file is gone. -/
example : (opBad.newRepoDb (fun _ => some { mtime := 0, tables := none }) { name := s%"r", url := s%"http://r" } .source {} false).2 = .error .abort ∧
    ∃ st, AskedFor opBad {} st ∧ Stops opBad { name := s%"r", url := s%"http://r" } {} st := by
  have h : (opBad.newRepoDb (fun _ => some { mtime := 0, tables := none }) { name := s%"r", url := s%"http://r" } .source {} false).2 = .error .abort := by
    have : (match (opBad.newRepoDb (fun _ => some { mtime := 0, tables := none }) { name := s%"r", url := s%"http://r" } .source {} false).2 with
      | .error .abort => true | _ => false) = true := by decide +kernel
    revert this
    cases (opBad.newRepoDb (fun _ => some { mtime := 0, tables := none }) { name := s%"r", url := s%"http://r" } .source {} false).2 with
    | ok a => intro h; cases h
    | error x => cases x <;> intro h <;> first | rfl | cases h
  refine ⟨h, (C139_stops ?_).1 h⟩
  rintro f hf
  cases hf
  simp [Recent, opBad]

/-- The same without malformed dependencies: the repository opens (C139_opens); and with the index refused: it opens too, empty (C139_violated_empty). -/
example : (∃ db, (({ opBad with decode := fun r => some { package := r, version := s%"1.0" } } : RepoEnv).newRepoDb (fun _ => none)
      { name := s%"r", url := s%"http://r" } .source {} false).2 = .ok db) ∧
    ∃ c' db, ({ opBad with server := fun _ => .refused } : RepoEnv).newRepoDb (fun _ => none) { name := s%"r", url := s%"http://r" } .source {} false = (c', .ok db) ∧
      db.src = [] := by
  constructor
  · refine C139_opens (by simp) rfl ?_ ?_
    · intro h
      have h' := (C139_stops (c := fun _ => none) (dst := .source) (swap := false) (by simp)).2 h
      have : (match (({ opBad with decode := fun r => some { package := r, version := s%"1.0" } } : RepoEnv).newRepoDb (fun _ => none)
        { name := s%"r", url := s%"http://r" } .source {} false).2 with | .error .abort => true | _ => false) = false := by decide +kernel
      rw [h'] at this
      cases this
    · intro h
      exact absurd h (by simp [HasBinaries, opBad])
  · obtain ⟨c', db, h1, h2, _⟩ := C139_violated_empty (e := { opBad with server := fun _ => .refused }) (c := fun _ => none)
      (url := { name := s%"r", url := s%"http://r" }) (dst := .source) (rc := {}) (swap := false) (by simp) rfl (by simp [HasBinaries, opBad]) rfl
    exact ⟨c', db, h1, h2⟩

end Pkgr
