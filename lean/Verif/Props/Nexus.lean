/- C11-C17: resolving packages to repositories. -/
import Verif.Proof.Nexus

namespace Pkgr
open Spec

/-- C11: whatever order the concurrent repository fetches finish in, the repositories end up in
configuration order, and an error is reported iff some fetch failed. `results` is in configuration order. -/
theorem C11_arrival_order_irrelevant (results : List (Except LoadErr RepoDb)) (arrivals : List RepoResult)
    (h : arrivals.Perm (results.mapIdx fun i r => (i, r))) :
    (collectRepos results.length arrivals).1 = results.map Except.toOption ∧
    ((collectRepos results.length arrivals).2.isSome ↔ ∃ e, Except.error e ∈ results) := by
  constructor
  · apply List.ext_getElem?
    intro j
    have hlen : (collectRepos results.length arrivals).1.length = results.length := by
      unfold collectRepos
      suffices hh : ∀ (as : List RepoResult) (s : List (Option RepoDb)) (o : Option LoadErr),
          (as.foldl collectStep (s, o)).1.length = s.length by
        simpa using hh arrivals (List.replicate results.length none) none
      intro as
      induction as with
      | nil => simp
      | cons r rs ih =>
        intro s o
        rw [List.foldl_cons, collectStep]
        split
        · exact ih _ _
        · rw [ih]; simp
    by_cases hj : j < results.length
    · have hnd : (arrivals.map Prod.fst).Nodup := by
        have h1 := h.map Prod.fst
        have : (results.mapIdx fun i r => (i, r)).map Prod.fst = List.range results.length := by
          apply List.ext_getElem <;> simp
        rw [this] at h1
        exact h1.symm.nodup List.nodup_range
      have := collectRepos_slots (List.replicate results.length none) none arrivals hnd j (by simpa using hj)
      unfold collectRepos
      rw [this]
      have hmem : (j, results[j]) ∈ arrivals := h.symm.subset (by
        rw [List.mem_mapIdx]; exact ⟨j, hj, rfl⟩)
      have hfind : arrivals.find? (fun r => decide (r.1 = j)) = some (j, results[j]) := by
        cases hf : arrivals.find? (fun r => decide (r.1 = j)) with
        | none =>
          rw [List.find?_eq_none] at hf
          exact absurd (by simp) (hf _ hmem)
        | some x =>
          have hx := List.mem_of_find?_eq_some hf
          have hxj := List.find?_some hf
          have := h.subset hx
          rw [List.mem_mapIdx] at this
          obtain ⟨i, hi, rfl⟩ := this
          simp only [decide_eq_true_eq] at hxj
          subst hxj
          rfl
      rw [hfind, List.getElem?_map, List.getElem?_eq_getElem hj]
      cases results[j] <;> simp [Except.toOption]
    · rw [List.getElem?_eq_none (by omega), List.getElem?_eq_none (by simpa using hj)]
  · rw [collectRepos_err]
    constructor
    · rintro ⟨i, e, he⟩
      have := h.subset he
      rw [List.mem_mapIdx] at this
      obtain ⟨k, hk, heq⟩ := this
      injection heq with h1 h2
      exact ⟨e, by rw [← h2]; exact List.getElem_mem hk⟩
    · rintro ⟨e, he⟩
      obtain ⟨i, hi, heq⟩ := List.mem_iff_getElem.1 he
      exact ⟨i, e, h.symm.subset (by rw [List.mem_mapIdx]; exact ⟨i, hi, by rw [heq]⟩)⟩

/-- Non-vacuity of C11: two repositories answering in reverse order. -/
example : ([(1, Except.ok {}), (0, Except.error .fetch)] : List RepoResult).Perm
    (([Except.error .fetch, Except.ok {}] : List (Except LoadErr RepoDb)).mapIdx fun i r => (i, r)) :=
  List.Perm.swap _ _ _

/-- C12: what a package resolves to, for all settings. -/
theorem C12_resolution (nx : Nexus) (pkg : Str) (dl : PkgDl) : getPackage nx pkg = some dl ↔ Resolves nx pkg dl :=
  resolves_iff.symm

/-- C12: a package without settings resolves to the first repository offering it in the type in force. -/
theorem C12_first_repo_wins (nx : Nexus) (pkg : Str) (hcfg : GoMap.get? nx.packages pkg = none) (dl : PkgDl) :
    getPackage nx pkg = some dl ↔
      ∃ db, FirstWith (fun db => ∃ d, Offers db (unsetType nx db) pkg d) nx.db db ∧
        Offers db (unsetType nx db) pkg dl.package ∧
        dl.config = { repo := db.repo, type := unsetType nx db } := by
  have ht : ∀ db, typeInRepo nx pkg db = unsetType nx db := by
    intro db
    unfold typeInRepo wantedType unsetType
    rw [hcfg]
    by_cases h1 : db.defaultSourceType = .default
    · simp [h1]
    · by_cases h2 : db.defaultSourceType = nx.defaultSourceType <;> simp [h1, h2]
  have hc : ∀ r, isCorrectRepo pkg r nx.packages = true := by intro r; simp [isCorrectRepo, hcfg]
  unfold getPackage
  rw [getPackageLoop_eq_some_iff]
  simp only [ht, hc, and_true, true_and]
  constructor
  · rintro ⟨pre, db, post, h1, h2, h3, h4⟩
    refine ⟨db, ⟨pre, post, h1, ⟨_, h2⟩, ?_⟩, h2, h3⟩
    rintro d hd ⟨x, hx⟩
    exact h4 d hd (by unfold Offers at hx; simp [GoMap.has, hx])
  · rintro ⟨db, ⟨pre, post, h1, _, h4⟩, h2, h3⟩
    refine ⟨pre, db, post, h1, h2, h3, ?_⟩
    intro d hd hh
    rw [GoMap.has, Option.isSome_iff_exists] at hh
    exact h4 d hd hh

/-- C12: resolution of a package without settings fails iff no repository offers it. -/
theorem C12_unresolved_iff (nx : Nexus) (pkg : Str) (hcfg : GoMap.get? nx.packages pkg = none) :
    getPackage nx pkg = none ↔ ∀ db ∈ nx.db, ¬ ∃ d, Offers db (unsetType nx db) pkg d := by
  cases h : getPackage nx pkg with
  | none =>
    simp only [true_iff]
    rintro db hdb ⟨d, hd⟩
    have ht : typeInRepo nx pkg db = unsetType nx db := by
      unfold typeInRepo wantedType unsetType
      rw [hcfg]
      by_cases h1 : db.defaultSourceType = .default
      · simp [h1]
      · by_cases h2 : db.defaultSourceType = nx.defaultSourceType <;> simp [h1, h2]
    have := (getPackageLoop_eq_none_iff nx pkg nx.db).1 h db hdb
    rw [ht] at this
    unfold Offers at hd
    exact this ⟨by simp [GoMap.has, hd], by simp [isCorrectRepo, hcfg]⟩
  | some dl =>
    obtain ⟨db, ⟨pre, post, h1, h2, _⟩, _, _⟩ := (C12_first_repo_wins nx pkg hcfg dl).1 h
    simp only [reduceCtorEq, false_iff, Classical.not_forall]
    exact ⟨db, by rw [h1]; simp, fun hn => hn h2⟩

/-- Two repositories; `a` is offered by both, `b` only by the second and only as binary. -/
def toyNexus : Nexus :=
  { defaultSourceType := .source,
    db := [{ src := [(s%"a", { package := s%"a", version := s%"1.0" })], repo := { name := s%"R1", url := s%"u1" },
             defaultSourceType := .source },
           { src := [(s%"a", { package := s%"a", version := s%"2.0" })],
             bin := some [(s%"a", { package := s%"a", version := s%"2.0" }), (s%"b", { package := s%"b", version := s%"3.0" })],
             repo := { name := s%"R2", url := s%"u2" }, defaultSourceType := .binary }] }

example : (getPackage toyNexus (s%"a")).map (·.package.version) = some (s%"1.0") ∧
    (getPackage toyNexus (s%"b")).map (·.config.repo.name) = some (s%"R2") ∧
    getPackage toyNexus (s%"c") = none := by decide

/-- C13: pinning succeeds iff a repository of that name is configured. -/
theorem C13_pin_succeeds_iff (nx : Nexus) (pkg repo : Str) :
    (setPackageRepo nx pkg repo).isSome ↔ ∃ db ∈ nx.db, db.repo.name = repo := by
  unfold setPackageRepo
  cases h : nx.db.find? (fun r => decide (r.repo.name = repo)) with
  | none => rw [List.find?_eq_none] at h; simpa using h
  | some r => exact ⟨fun _ => ⟨r, List.mem_of_find?_eq_some h, by simpa using List.find?_some h⟩, fun _ => rfl⟩

/-- C13: after pinning a package to a repository (a non-empty name), it is obtained exactly from the first
repository of that name that offers it (in the type set for the package before, else the global one); nothing
else of the settings changes. -/
theorem C13_pin_honoured {nx nx' : Nexus} {pkg repo : Str} (h : setPackageRepo nx pkg repo = some nx')
    (hne : repo ≠ []) :
    (∀ dl, getPackage nx' pkg = some dl ↔ ObtainedFrom nx (fun db => db.repo.name = repo) (ownType nx pkg) pkg dl) ∧
    nx'.db = nx.db ∧ nx'.defaultSourceType = nx.defaultSourceType := by
  unfold setPackageRepo at h
  cases hf : nx.db.find? (fun r => decide (r.repo.name = repo)) with
  | none => rw [hf] at h; simp at h
  | some r =>
    rw [hf] at h
    simp only [Option.some.injEq] at h
    have hr : r.repo.name = repo := by simpa using List.find?_some hf
    have hget : GoMap.get? nx'.packages pkg =
        some { (GoMap.get? nx.packages pkg).getD {} with repo := r.repo } := by
      rw [← h]; simp [GoMap.get?_put]
    have hdb : nx'.db = nx.db := by rw [← h]
    have hdef : nx'.defaultSourceType = nx.defaultSourceType := by rw [← h]
    have hpin : ∀ db, PinAllows nx' pkg db ↔ db.repo.name = repo := by
      intro db
      simp only [PinAllows, hget, Option.some.injEq, forall_eq', hr, hne, false_or]
      exact eq_comm
    have ht : ∀ db, typeFor nx' pkg db = ownType nx pkg := by
      intro db
      simp only [typeFor, hget, ownType, hdef]
      cases GoMap.get? nx.packages pkg with
      | none => rfl
      | some c => rfl
    refine ⟨fun dl => ?_, hdb, hdef⟩
    rw [← resolves_iff]
    simp only [Resolves, ObtainedFrom, Serves, FirstWith, hpin, ht, hdb]

/-- C13: pinning a package does not change how other packages resolve. -/
theorem C13_pin_local {nx nx' : Nexus} {pkg repo other : Str} (h : setPackageRepo nx pkg repo = some nx')
    (hne : other ≠ pkg) : getPackage nx' other = getPackage nx other := by
  unfold setPackageRepo at h
  split at h
  · rename_i r _
    simp only [Option.some.injEq] at h
    have hget : GoMap.get? nx'.packages other = GoMap.get? nx.packages other := by
      rw [← h]; simp [GoMap.get?_put, hne]
    have hdef : nx'.defaultSourceType = nx.defaultSourceType := by rw [← h]
    have hdb : nx'.db = nx.db := by rw [← h]
    unfold getPackage
    rw [hdb]
    have ht : ∀ db, typeInRepo nx' other db = typeInRepo nx other db := by
      intro db; simp [typeInRepo, wantedType, hget, hdef]
    have hc : ∀ u, isCorrectRepo other u nx'.packages = isCorrectRepo other u nx.packages := by
      intro u; simp [isCorrectRepo, hget]
    generalize nx.db = l
    induction l with
    | nil => rfl
    | cons db l ih => simp only [getPackageLoop, ht, hc, ih]
  · simp at h

example : ∃ nx', setPackageRepo toyNexus (s%"a") (s%"R2") = some nx' ∧
    (getPackage nx' (s%"a")).map (·.package.version) = some (s%"2.0") := ⟨_, rfl, by decide⟩

/-- C14: the two words `source` and `binary` are accepted in any capitalisation, and no other text is. -/
theorem C14_type_words (nx : Nexus) (pkg t : Str) :
    (setPackageType nx pkg t).isSome ↔ ∃ ty, SaysType t ty := by
  rw [setPackageType, Option.isSome_map, Option.isSome_iff_exists]
  simp only [parseType_iff]

/-- C14: after pinning a package to a type, it is obtained in exactly that type, from the first repository that
its settings allow and that offers it in that type; nothing else of the settings changes. -/
theorem C14_pin_honoured {nx : Nexus} {pkg t : Str} {ty : SourceType} (ht : SaysType t ty) :
    ∃ nx', setPackageType nx pkg t = some nx' ∧
      (∀ dl, getPackage nx' pkg = some dl ↔ ObtainedFrom nx (PinAllows nx pkg) ty pkg dl) ∧
      nx'.db = nx.db ∧ nx'.defaultSourceType = nx.defaultSourceType ∧
      ∀ other, other ≠ pkg → getPackage nx' other = getPackage nx other := by
  have hty := parseType_iff.2 ht
  have hne : ty ≠ .default := by rcases ht with ⟨_, rfl⟩ | ⟨_, rfl⟩ <;> simp
  unfold setPackageType
  rw [hty]
  refine ⟨_, rfl, fun dl => ?_, rfl, rfl, fun other ho => ?_⟩
  · rw [← resolves_iff]
    have hpin : ∀ (db : RepoDb) (c : PkgConfig), PinAllows
        { nx with packages := GoMap.put nx.packages pkg { (GoMap.get? nx.packages pkg).getD {} with type := ty } } pkg db ↔
        PinAllows nx pkg db := by
      intro db _
      simp only [PinAllows, GoMap.get?_put, if_true, Option.some.injEq, forall_eq']
      cases GoMap.get? nx.packages pkg with
      | none => simp
      | some c => simp
    simp only [Resolves, ObtainedFrom, Serves, FirstWith, hpin _ {}, typeFor, GoMap.get?_put, if_true, hne, if_false]
  · apply Option.ext
    intro dl
    rw [← resolves_iff, ← resolves_iff]
    simp only [Resolves, Serves, FirstWith, PinAllows, typeFor, GoMap.get?_put, ho, if_false, unsetType]

example : ∃ nx', setPackageType toyNexus (s%"a") (s%"Binary") = some nx' ∧
    (getPackage nx' (s%"a")).map (·.config.repo.name) = some (s%"R2") ∧
    setPackageType toyNexus (s%"a") (s%"bin") = none := ⟨_, rfl, by decide, by decide⟩

/-- C15, the part that holds: without any package setting, a repository's default type is the one used. -/
theorem C15_default_type_partial (nx : Nexus) (pkg : Str) (hcfg : GoMap.get? nx.packages pkg = none) {dl : PkgDl}
    (h : getPackage nx pkg = some dl) :
    ∃ db ∈ nx.db, dl.config.repo = db.repo ∧ Offers db dl.config.type pkg dl.package ∧
      (db.defaultSourceType ≠ .default → dl.config.type = db.defaultSourceType) := by
  obtain ⟨db, ⟨pre, post, h1, _⟩, h2, h3⟩ := (C12_first_repo_wins nx pkg hcfg dl).1 h
  refine ⟨db, by rw [h1]; simp, by rw [h3], by rw [h3]; exact h2, ?_⟩
  intro hd
  rw [h3]; simp [unsetType, hd]

/-- C15 is false once the package is pinned to that very repository: the pin switches the repository's
default type off, so package `b`, offered by R2 in R2's default type, resolves without a pin and becomes
unavailable when pinned to R2. -/
theorem C15_violated : ∃ nx', setPackageRepo toyNexus (s%"b") (s%"R2") = some nx' ∧
    (getPackage toyNexus (s%"b")).map (·.config.repo.name) = some (s%"R2") ∧ getPackage nx' (s%"b") = none :=
  ⟨_, rfl, by decide, by decide⟩

/-- C16: an ignored package resolves from nowhere, whatever the settings. -/
theorem C16_ignored_unresolvable (nx : Nexus) (ignore : List Str) (pkg : Str) (h : pkg ∈ ignore) :
    getPackage (ignorePackages nx ignore) pkg = none := by
  unfold getPackage
  rw [getPackageLoop_eq_none_iff]
  rintro d hd ⟨h1, _⟩
  simp only [ignorePackages, List.mem_map] at hd
  obtain ⟨db, _, rfl⟩ := hd
  rw [GoMap.has, ignore_fold_get?, if_pos h] at h1
  simp at h1

/-- C16: ignoring packages does not change how other packages resolve. -/
theorem C16_others_unchanged (nx : Nexus) (ignore : List Str) (pkg : Str) (h : pkg ∉ ignore) :
    getPackage (ignorePackages nx ignore) pkg = getPackage nx pkg := by
  unfold getPackage ignorePackages
  simp only
  suffices hl : ∀ l l' : List RepoDb, getPackageLoop { nx with db := l' } pkg (l.map fun db => ignore.foldl RepoDb.drop db)
      = getPackageLoop nx pkg l from hl _ _
  intro l l'
  induction l with
  | nil => rfl
  | cons db l ih =>
    have hm := ignore_fold_meta ignore db
    simp only at hm
    have ht : ∀ (d : RepoDb) (l : List RepoDb), typeInRepo { nx with db := l } pkg d
        = typeInRepo nx pkg d := fun d l => rfl
    have ht2 : typeInRepo nx pkg (List.foldl RepoDb.drop db ignore) = typeInRepo nx pkg db := by
      simp [typeInRepo, hm.2]
    simp only [List.map_cons, getPackageLoop]
    simp only [ht, ht2, ignore_fold_get?, h, if_false, hm.1]
    split
    · split
      · rfl
      · exact ih
    · exact ih

example : getPackage (ignorePackages toyNexus [s%"b"]) (s%"b") = none ∧
    (getPackage toyNexus (s%"b")).isSome = true := by decide

/-- C17: `Missing` is exactly the requested packages that do not resolve, in request order, and the i-th
entry of `Packages` is the i-th request's resolution (empty when missing). -/
theorem C17_missing_exact (nx : Nexus) (pkgs : List Str) :
    (∀ p, p ∈ (getPackages nx pkgs).missing ↔ p ∈ pkgs ∧ getPackage nx p = none) ∧
    (getPackages nx pkgs).missing.Sublist pkgs ∧
    (getPackages nx pkgs).packages.length = pkgs.length ∧
    (∀ (i : Nat) (h : i < pkgs.length), (getPackages nx pkgs).packages[i]? = some ((getPackage nx pkgs[i]).getD {})) ∧
    (checkAllAvailable nx pkgs = true ↔ ∀ p ∈ pkgs, getPackage nx p ≠ none) := by
  unfold checkAllAvailable
  rw [getPackages_eq]
  refine ⟨by simp, List.filter_sublist, by simp, ?_, ?_⟩
  · intro i h
    simp [h]
  · simp only [List.length_eq_zero_iff, decide_eq_true_eq, List.filter_eq_nil_iff,
      Option.isNone_iff_eq_none, ne_eq]

example : (getPackages toyNexus [s%"a", s%"z"]).missing = [s%"z"] := by decide

end Pkgr
