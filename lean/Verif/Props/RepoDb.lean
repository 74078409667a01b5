/- C06-C10: repository indices and their cache. -/
import Verif.Proof.RepoDb
import Verif.Props.Dep
import Verif.Props.VersionDep

namespace Pkgr
open Spec

/-! ### C06: the R version filter -/

/-- C06: a stanza without an R requirement is always compatible. -/
theorem C06_no_requirement (d : Desc) (rv : RVersion) (h : GoMap.get? d.depends (s%"R") = none) :
    isRVersionCompatible d rv = some true := by
  unfold isRVersionCompatible; rw [h]

/-- C06: a stanza that requires `R (op v)`, `v` a text of two to four numbers, is compatible with the
running R iff the operator holds between the numbers. -/
theorem C06_requirement {d : Desc} {rv : RVersion} {op : Constraint} {v : Str} {ns : List Nat}
    (hop : op ≠ .none) (hv : Denotes v ns) (hlen : 2 ≤ ns.length ∧ ns.length ≤ 4)
    (hns : ∀ n ∈ ns, n < 2 ^ 63) (hrv : SmallR rv)
    (h : GoMap.get? d.depends (s%"R") = parseDep (s%"R (" ++ op.toStr ++ s%" " ++ v ++ s%")")) :
    ∃ b, isRVersionCompatible d rv = some b ∧
      (b = true ↔ Holds op (cmpPadded [rv.major, rv.minor, rv.patch] ns)) := by
  obtain ⟨hv0, hvc⟩ := trimmed_of_denotes hv
  have hch := fun c hc => versionChar_not (hvc c hc)
  have htrim : Trimmed v := by
    refine ⟨fun c hc => (hch c ?_).1, fun c hc => (hch c ?_).1⟩
    · exact List.mem_of_mem_head? hc
    · exact List.mem_of_mem_getLast? hc
  have hp := C04_parse_written (name := s%"R") (w0 := []) (w1 := s%" ") (w2 := []) (w3 := s%" ") (w4 := [])
    (w5 := []) hop (by constructor <;> simp [isSpace]) (by decide) (by decide) htrim hv0
    ⟨fun hc => (hch _ hc).2.1 rfl, fun hc => (hch _ hc).2.2.1 rfl, fun hc => (hch _ hc).2.2.2.1 rfl,
      fun hc => (hch _ hc).2.2.2.2.1 rfl, fun hc => (hch _ hc).2.2.2.2.2 rfl⟩ (by decide)
  obtain ⟨pv, hpv⟩ : ∃ pv, parseVersion v = some pv := by
    rw [parseVersion_denotes hv hns]
    match ns, hlen with
    | [a, b], _ => exact ⟨_, rfl⟩
    | [a, b, c], _ => exact ⟨_, rfl⟩
    | [a, b, c, d], _ => exact ⟨_, rfl⟩
  have hcmp := C02_text_compare (denotes_rversion rv) hv ⟨by simp, by simp⟩ hlen
    (by obtain ⟨h1, h2, h3⟩ := hrv; simp [h1, h2, h3]) hns
  unfold compareVersionStrings at hcmp
  rw [hpv, parseVersion_rversion hrv] at hcmp
  have hget : GoMap.get? d.depends (s%"R") = some { name := s%"R", version := pv, constraint := op } := by
    rw [h]
    rw [hpv] at hp
    simpa using hp
  unfold isRVersionCompatible checkRVersionCompatibility
  rw [hget, parseVersion_rversion hrv]
  injection hcmp with hcmp
  refine ⟨_, rfl, ?_⟩
  rw [← hcmp]
  cases op <;> simp [Holds] at *

/-- Non-vacuity of C06: R 4.0.2 meets `R (>= 3.6)` and not `R (< 3.6)`. -/
example : isRVersionCompatible { depends := [(s%"R", ⟨s%"R", ⟨3, 6, 0, 0, 0, s%"3.6"⟩, .gte⟩)] } ⟨4, 0, 2⟩ = some true ∧
    isRVersionCompatible { depends := [(s%"R", ⟨s%"R", ⟨3, 6, 0, 0, 0, s%"3.6"⟩, .lt⟩)] } ⟨4, 0, 2⟩ = some false := by
  decide

/-- C06: "compatible" is never undetermined — the check itself cannot panic. -/
theorem C06_total (d : Desc) (rv : RVersion) : isRVersionCompatible d rv ≠ none := by
  unfold isRVersionCompatible checkRVersionCompatibility
  split
  · simpa using parseVersion_rversion_ne_none rv
  · simp

/-- C06 is false for a package that says `Depends: R` without a version: it is filtered out under every
version of R. -/
theorem C06_bare_R_violated (rv : RVersion) :
    ∃ d, newDesc { package := s%"p", version := s%"1.0", depends := [s%"R"] } = some d ∧
      isRVersionCompatible d rv = some false := by
  refine ⟨_, rfl, ?_⟩
  unfold isRVersionCompatible checkRVersionCompatibility
  cases h : parseVersion rv.toFullString with
  | none => exact absurd h (parseVersion_rversion_ne_none rv)
  | some v => rfl

/-! ### C07: loading an index -/

/-- C05: a description says what the decoded stanza says, the dependency tables being filled from the items of
the corresponding fields (the last one of a name counts). -/
theorem C05_description {raw : RawDesc} {d : Desc} (h : newDesc raw = some d) : Describes raw d :=
  newDesc_describes h

/-- C05: building a description panics iff one of the items of the four dependency fields does. -/
theorem C05_description_panics_iff (raw : RawDesc) :
    newDesc raw = none ↔ ∃ x ∈ raw.imports ++ raw.suggests ++ raw.depends ++ raw.linkingTo, parseDep x = none :=
  newDesc_none_iff raw

/-- Non-vacuity of C05: a description with two requirements on `b`. -/
example : (newDesc { package := s%"a", imports := [s%"b (>= 1.0)", s%"c", s%"b (>= 2.0)"] }).map
    (fun d => (GoMap.get? d.imports (s%"b")).map (·.version.major)) = some (some 2) := by decide

/-- C07: every index text has stanzas, and only one way to be divided into them. -/
theorem C07_stanzas_exist (body : Str) : ∃ text xs, UnixText body text ∧ Stanzas text xs ∧
    ∀ text' xs', UnixText body text' → Stanzas text' xs' → xs' = xs :=
  ⟨_, _, unixText_normalize body, splitBlank_stanzas _, fun _ _ h1 h2 => by
    rw [unixText_unique h1] at h2; exact (stanzas_unique h2).symm⟩

/-- C07: after loading an index, a lookup gives exactly the last acceptable stanza of that name. -/
theorem C07_last_acceptable_wins {decode : Str → Option RawDesc} {rv : RVersion} (hrv : SmallR rv) {body text : Str}
    {xs : List Str} (ht : UnixText body text) (hx : Stanzas text xs)
    {m : GoMap Desc} (h : fetchOne decode rv (some body) = .ok m) (k : Str) (d : Desc) :
    GoMap.get? m k = some d ↔
      ∃ pre x post, xs = pre ++ x :: post ∧ Accepts decode rv x k d ∧
        ∀ y ∈ post, ¬ ∃ d', Accepts decode rv y k d' := by
  have h' : loadStanzas decode rv (splitBlank (normalizeCRLF body)) [] = .ok m := h
  rw [← unixText_unique ht, stanzas_unique hx] at h'
  rw [loadStanzas_ok h', foldl_put_get?]
  clear h' hx
  generalize xs = l
  simp only [accepts_iff hrv, GoMap.get?_nil]
  constructor
  · intro hf
    split at hf
    · rename_i d' hd'
      injection hf with hf
      subst hf
      rw [List.find?_eq_some_iff_append] at hd'
      obtain ⟨hk, as, bs, heq, has⟩ := hd'
      have hrev : l.filterMap (filed decode rv) = bs.reverse ++ d' :: as.reverse := by
        have := congrArg List.reverse heq
        simpa using this
      rw [List.filterMap_eq_append_iff] at hrev
      obtain ⟨l1, l2, rfl, _, h2⟩ := hrev
      rw [List.filterMap_eq_cons_iff] at h2
      obtain ⟨l3, x, l4, rfl, h3, hx, h4⟩ := h2
      refine ⟨l1 ++ l3, x, l4, by simp, ⟨hx, by simpa using hk⟩, ?_⟩
      rintro y hy ⟨e, he, hek⟩
      have : e ∈ as.reverse := by
        rw [← h4]; exact List.mem_filterMap.2 ⟨y, hy, he⟩
      have := has e (by simpa using this)
      simp [hek] at this
    · simp at hf
  · rintro ⟨pre, x, post, rfl, ⟨hx, hk⟩, hpost⟩
    have : (List.filterMap (filed decode rv) (pre ++ x :: post)).reverse.find? (fun d => decide (d.package = k))
        = some d := by
      rw [List.find?_eq_some_iff_append]
      refine ⟨by simpa using hk, (post.filterMap (filed decode rv)).reverse,
        (pre.filterMap (filed decode rv)).reverse, by simp [hx], ?_⟩
      intro e he
      simp only [List.mem_reverse, List.mem_filterMap] at he
      obtain ⟨y, hy, hye⟩ := he
      have := hpost y hy
      simp only [not_exists, not_and] at this
      simpa using this e hye
    rw [this]

/-- C07: every entry is filed under its own name, in the main directory, compatible with R. -/
theorem C07_entries_keyed {decode : Str → Option RawDesc} {rv : RVersion} (hrv : SmallR rv) {body : Str}
    {m : GoMap Desc} (h : fetchOne decode rv (some body) = .ok m) {k : Str} {d : Desc}
    (hk : GoMap.get? m k = some d) : d.package = k ∧ d.path = [] ∧ RunsOn rv d := by
  obtain ⟨_, _, _, _, ⟨_, raw, _, _, h1, h2, h3⟩, _⟩ :=
    (C07_last_acceptable_wins hrv (unixText_normalize body) (splitBlank_stanzas _) h k d).1 hk
  exact ⟨h1, h2, h3⟩

/-- C07: loading succeeds iff every stanza that is not empty decodes and none of its dependencies is malformed:
one bad stanza makes the whole index unusable. -/
theorem C07_loads_iff {decode : Str → Option RawDesc} {rv : RVersion} {body text : Str}
    {xs : List Str} (ht : UnixText body text) (hx : Stanzas text xs) :
    (∃ m, fetchOne decode rv (some body) = .ok m) ↔
      ∀ x ∈ xs, x ≠ [] → ∃ raw, decode x = some raw ∧
        ∀ y ∈ raw.imports ++ raw.suggests ++ raw.depends ++ raw.linkingTo, parseDep y ≠ none := by
  have h' : fetchOne decode rv (some body) = loadStanzas decode rv xs [] := by
    rw [fetchOne, ← unixText_unique ht, stanzas_unique hx]
  rw [h']
  clear h' hx
  generalize ([] : GoMap Desc) = m0
  induction xs generalizing m0 with
  | nil => simp [loadStanzas]
  | cons x xs ih =>
    rw [loadStanzas]
    by_cases hne : x = []
    · subst hne
      simp only [List.length_nil, if_true, ih, List.mem_cons, forall_eq_or_imp, ne_eq, not_true_eq_false, false_imp_iff, true_and]
    · have hl : ¬ x.length = 0 := by simpa using hne
      simp only [hl, if_false, List.mem_cons, forall_eq_or_imp]
      cases hd : decode x with
      | none => simp [hne]
      | some raw =>
        dsimp only
        cases hr : newDesc raw with
        | none =>
          obtain ⟨y, hy1, hy2⟩ := (newDesc_none_iff raw).1 hr
          simp only [reduceCtorEq, exists_false, false_iff, not_and]
          intro hh
          obtain ⟨raw', e, hall⟩ := hh hne
          injection e with e
          subst e
          exact absurd hy2 (hall y hy1)
        | some d =>
          dsimp only
          cases hc : isRVersionCompatible d rv with
          | none => exact absurd hc (C06_total d rv)
          | some valid =>
            have hgood : x ≠ [] → ∃ raw', some raw = some raw' ∧
                ∀ y ∈ raw'.imports ++ raw'.suggests ++ raw'.depends ++ raw'.linkingTo, parseDep y ≠ none := by
              intro _
              refine ⟨raw, rfl, fun y hy hn => ?_⟩
              rw [(newDesc_none_iff raw).2 ⟨y, hy, hn⟩] at hr
              cases hr
            dsimp only
            rw [and_iff_right hgood]
            split <;> exact ih _

/-- A small decoder for the examples: the stanza text is the package name; version 1.0. -/
def toyDecode : Str → Option RawDesc
  | 'o' :: r => some { package := r, version := s%"1.0", path := s%"older" }
  | r => some { package := r, version := s%"2.0" }

/-- Non-vacuity of C07: an index with a superseded stanza loads and both lookups are as stated. -/
example : ∃ m, fetchOne toyDecode ⟨4, 0, 0⟩ (some (s%"a\r\n\r\nb\n\noa")) = .ok m ∧
    (GoMap.get? m (s%"a")).isSome = true ∧ (GoMap.get? m (s%"b")).isSome = true := ⟨_, rfl, by decide, by decide⟩

/-! ### C08: failed fetches -/

/-- C08 is false: with a single source type (every repository on Linux that is not an MPN one) a failed
fetch is not an error; the repository is treated as empty — for every database without binaries. -/
theorem C08_violated (decode : Str → Option RawDesc) (rv : RVersion) (db : RepoDb) (h : db.bin = none)
    (body : SourceType → Option Str) (hb : body .source = none) :
    collectFetches db (fetchResults decode rv db body) = .ok db := by
  simp [collectFetches, collectFetchStep, fetchResults, h, hb, fetchOne, RepoDb.numTypes]

/-- C08, the part that holds: with both source types, if every index fails the error is reported,
whichever fails first. -/
theorem C08_both_types_partial (decode : Str → Option RawDesc) (rv : RVersion) (db : RepoDb)
    (h : db.bin.isSome) (body : SourceType → Option Str)
    (arrivals : List (SourceType × Except LoadErr (GoMap Desc)))
    (hperm : arrivals.Perm (fetchResults decode rv db body))
    (hs : ∃ e, fetchOne decode rv (body .source) = .error e)
    (hb : ∃ e, fetchOne decode rv (body .binary) = .error e) :
    ∃ e, collectFetches db arrivals = .error e := by
  obtain ⟨e1, he1⟩ := hs
  obtain ⟨e2, he2⟩ := hb
  simp only [fetchResults, h, if_true, he1, he2] at hperm
  have hn : db.numTypes = 2 := by simp [RepoDb.numTypes, h]
  rcases perm_pair hperm with rfl | rfl
  · exact ⟨e2, by simp [collectFetches, collectFetchStep, hn]⟩
  · exact ⟨e1, by simp [collectFetches, collectFetchStep, hn]⟩

/-- C08: when the source index loads, it is used exactly, whatever happens to the binary index and in
whatever order the two fetches finish. -/
theorem C08_source_loaded (decode : Str → Option RawDesc) (rv : RVersion) (db : RepoDb)
    (body : SourceType → Option Str) (arrivals : List (SourceType × Except LoadErr (GoMap Desc)))
    (hperm : arrivals.Perm (fetchResults decode rv db body)) {m : GoMap Desc}
    (hs : fetchOne decode rv (body .source) = .ok m) :
    ∃ db', collectFetches db arrivals = .ok db' ∧ db'.src = m ∧ db'.repo = db.repo ∧
      ∀ b, fetchOne decode rv (body .binary) = .ok b → db.bin.isSome → db'.bin = some b := by
  by_cases hbin : db.bin.isSome
  · simp only [fetchResults, hbin, if_true, hs] at hperm
    have hn : db.numTypes = 2 := by simp [RepoDb.numTypes, hbin]
    rcases perm_pair hperm with rfl | rfl
    all_goals
      cases hb : fetchOne decode rv (body .binary) with
      | error e => simp [collectFetches, collectFetchStep, hn, RepoDb.setTable]
      | ok b => simp [collectFetches, collectFetchStep, hn, RepoDb.setTable]
  · have hn : db.numTypes = 1 := by simp [RepoDb.numTypes, hbin]
    simp only [fetchResults, hbin, hs, Bool.false_eq_true, if_false, List.perm_singleton] at hperm
    subst hperm
    simp [collectFetches, collectFetchStep, hn, RepoDb.setTable, hbin]

/-- Non-vacuity of C08_both_types_partial / C08_source_loaded. -/
example : (∃ e, fetchOne toyDecode ⟨4, 0, 0⟩ none = .error e) ∧
    (∃ m, fetchOne toyDecode ⟨4, 0, 0⟩ (some (s%"a\n\nb")) = .ok m) := ⟨⟨_, rfl⟩, ⟨_, rfl⟩⟩

/-! ### C09: cache file names -/

/-- C09 is false for source types: whatever the digest, a database with binaries and one without use the
same cache file (the sum of source types is printed through a method that maps it to "source"). -/
theorem C09_violated_source_types (md5hex : Str → Str) (p : Platform) (db : RepoDb) (rv : RVersion) (b : GoMap Desc) :
    repoDbCacheFile md5hex p { db with bin := none } rv = repoDbCacheFile md5hex p { db with bin := some b } rv := by
  simp [repoDbCacheFile, hashInput, stsum, sourceTypeString]

/-- C09 is false for names and URLs: name and URL are concatenated without separator. -/
theorem C09_violated_concatenation : ∃ r1 r2 : RepoURL, r1.name ≠ r2.name ∧ r1.url ≠ r2.url ∧
    ∀ (md5hex : Str → Str) (p : Platform) (rv : RVersion),
      repoDbCacheFile md5hex p { repo := r1 } rv = repoDbCacheFile md5hex p { repo := r2 } rv :=
  ⟨{ name := s%"A", url := s%"/x/y" }, { name := s%"A/x", url := s%"/y" }, by decide, by decide,
    fun _ _ _ => rfl⟩

/-- C09, the part that holds: for one repository name and a digest that does not collide on the two texts at hand, different URLs or different
R versions give different cache files. -/
theorem C09_same_name_partial (md5hex : Str → Str) (p : Platform) (db1 db2 : RepoDb) (rv1 rv2 : RVersion)
    (hinj : md5hex (db1.repo.name ++ db1.repo.url ++ s%"source" ++ rv1.toFullString) = md5hex (db2.repo.name ++ db2.repo.url ++ s%"source" ++ rv2.toFullString) →
      db1.repo.name ++ db1.repo.url ++ s%"source" ++ rv1.toFullString = db2.repo.name ++ db2.repo.url ++ s%"source" ++ rv2.toFullString) (hname : db1.repo.name = db2.repo.name)
    (h : repoDbCacheFile md5hex p db1 rv1 = repoDbCacheFile md5hex p db2 rv2) :
    db1.repo.url = db2.repo.url ∧ rv1.toFullString = rv2.toFullString := by
  have hs : ∀ db : RepoDb, sourceTypeString p (stsum db) = s%"source" := by
    intro db; unfold stsum sourceTypeString; split <;> simp
  unfold repoDbCacheFile hashInput at h
  rw [hs, hs] at h
  have h := hinj h
  rw [hname] at h
  simp only [List.append_assoc] at h
  have h := List.append_cancel_left h
  -- the R version is the longest suffix of digits and dots
  have key : ∀ (u1 u2 r1 r2 : Str), (∀ c ∈ r1, c ≠ 'e') → (∀ c ∈ r2, c ≠ 'e') →
      u1 ++ 'e' :: r1 = u2 ++ 'e' :: r2 → u1 = u2 ∧ r1 = r2 := by
    intro u1 u2 r1 r2 h1 h2 heq
    rcases List.append_eq_append_iff.1 heq with ⟨a, ha, hb⟩ | ⟨a, ha, hb⟩
    · cases a with
      | nil => simp at ha hb; exact ⟨ha.symm, hb⟩
      | cons x a =>
        simp only [List.cons_append, List.cons.injEq] at hb
        exact absurd rfl (h1 'e' (by rw [hb.2]; simp))
    · cases a with
      | nil => simp at ha hb; exact ⟨ha, hb.symm⟩
      | cons x a =>
        simp only [List.cons_append, List.cons.injEq] at hb
        exact absurd rfl (h2 'e' (by rw [hb.2]; simp))
  have hr : ∀ rv : RVersion, ∀ c ∈ rv.toFullString, c ≠ 'e' := by
    intro rv c hc he
    subst he
    have := (trimmed_of_denotes (denotes_rversion rv)).2 'e' hc
    revert this; decide
  have e : ∀ (u r : Str), u ++ (s%"source" ++ r) = (u ++ s%"sourc") ++ 'e' :: r := by simp
  rw [e, e] at h
  obtain ⟨h1, h2⟩ := key _ _ _ _ (hr rv1) (hr rv2) h
  exact ⟨List.append_cancel_right h1, h2⟩

/-- Non-vacuity of C09_same_name_partial: a digest with collisions, and two URLs on which it does not collide. -/
example : ({ name := s%"A", url := s%"u/1" } : RepoURL).url ≠ s%"u/2" ∧
    repoDbCacheFile (fun t => t.take 4) { os := .linux } { repo := { name := s%"A", url := s%"u/1" } } ⟨4, 1, 0⟩ ≠
      repoDbCacheFile (fun t => t.take 4) { os := .linux } { repo := { name := s%"A", url := s%"u/2" } } ⟨4, 1, 0⟩ := by
  refine ⟨by decide, fun h => ?_⟩
  have := (C09_same_name_partial (fun t => t.take 4) { os := .linux } { repo := { name := s%"A", url := s%"u/1" } }
    { repo := { name := s%"A", url := s%"u/2" } } ⟨4, 1, 0⟩ ⟨4, 1, 0⟩ (by decide +kernel) rfl h).1
  exact absurd this (by decide)

/-- C09 consequence: after the repository type is changed so that binaries become available, a fresh cache
file written without binaries is still decoded, and no binary package is offered. -/
theorem C09_stale_binaries (db cached : RepoDb) (h : db.bin = some []) (hc : cached.bin = none) (k : Str) :
    GoMap.get? ((decodeInto db cached).table .binary) k = none := by
  simp [decodeInto, hc, h, RepoDb.table]

/-! ### C10: freshness -/

/-- C10: the cache is used iff the file exists and is younger than the maximal age. -/
theorem C10_freshness (cached : Option Int) (now : Int) (env : Option Int) :
    cacheAction cached now env = .decode ↔
      ∃ mtime, cached = some mtime ∧ now - mtime < (match env with | some s => s | none => 3600) := by
  unfold cacheAction cacheIsFresh
  cases cached with
  | none => simp
  | some m =>
    cases env with
    | none => simp; omega
    | some s => simp; omega

example : cacheAction (some 1000) 4599 none = .decode ∧ cacheAction (some 1000) 4600 none = .fetch := by decide

end Pkgr
