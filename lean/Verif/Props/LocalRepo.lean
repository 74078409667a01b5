/- C149: repositories that are directories. -/
import Verif.Spec.LocalRepo
import Verif.Spec.Download
import Verif.Props.PkgDb
import Verif.Props.Opening
import Verif.Props.Session
import Verif.Props.Settings

namespace Pkgr
open Spec

theorem noSlash_prefix (u : Str) : noSlash u <+: u := by
  unfold noSlash
  split
  · exact List.take_prefix _ _
  · exact List.prefix_refl _

theorem noSlash_cases (u : Str) : noSlash u = u ∨ u = noSlash u ++ ['/'] := by
  unfold noSlash
  split
  · rename_i h
    right
    rw [← List.dropLast_eq_take]
    obtain ⟨l, hl⟩ := List.getLast?_eq_some_iff.1 h
    rw [hl]; simp
  · exact Or.inl rfl

/-- The rest of the URL is followed from the repository's directory. -/
theorem under_leads {cwd d f : Path} {url rest : Str} (hne : url ≠ []) (h : Leads cwd url d) :
    Leads cwd (noSlash url ++ '/' :: rest) f ↔ ∃ cs, Components '/' rest cs ∧ Walk d cs f := by
  rw [leads_iff] at h ⊢
  have hh : (noSlash url ++ '/' :: rest).head? = url.head? := by
    rcases noSlash_cases url with e | e
    · rw [e]; cases url with
      | nil => exact absurd rfl hne
      | cons c u => rfl
    · rw [e]
      generalize noSlash url = t
      have : noSlash (t ++ ['/']) = t := by unfold noSlash; simp
      rw [this]
      cases t <;> rfl
  have hf : (splitOn '/' (noSlash url)).foldl joinComp (if url.head? = some '/' then [] else cwd) = d := by
    rcases noSlash_cases url with e | e
    · rw [e]; exact h
    · generalize noSlash url = t at e
      subst e
      rw [splitOn_append_any, List.foldl_append] at h
      simpa [splitOn, joinComp] using h
  rw [hh, splitOn_append_any, List.foldl_append, hf]
  simp only [components_iff, exists_eq_left', walk_iff]

theorem http_under (url rest : Str) : hasPrefix (noSlash url ++ '/' :: rest) (s%"http") = true ↔ s%"http" <+: url := by
  rw [hasPrefix_iff]
  have hn : '/' ∉ s%"http" := by decide
  constructor
  · rintro ⟨t, ht⟩
    rcases List.append_eq_append_iff.1 ht with ⟨a, ha, _⟩ | ⟨a, ha, hb⟩
    · exact (show s%"http" <+: noSlash url from ⟨a, ha.symm⟩).trans (noSlash_prefix url)
    · cases a with
      | nil => rw [List.append_nil] at ha; rw [ha]; exact noSlash_prefix url
      | cons c a =>
        obtain ⟨rfl, _⟩ := List.cons.inj hb
        exact absurd (by rw [ha]; simp) hn
  · rintro ⟨t, ht⟩
    rcases noSlash_cases url with e | e
    · rw [e, ← ht]; exact ⟨t ++ '/' :: rest, by simp⟩
    · rw [e] at ht
      rcases List.append_eq_append_iff.1 ht with ⟨a, ha, _⟩ | ⟨a, ha, hb⟩
      · exact ⟨a ++ '/' :: rest, by rw [ha]; simp⟩
      · cases a with
        | nil => rw [List.append_nil] at ha; rw [ha]; exact List.prefix_append _ _
        | cons c a =>
          obtain ⟨rfl, _⟩ := List.cons.inj hb
          exact absurd (by rw [ha]; simp) hn

theorem tilde_under {url : Str} (hne : url ≠ []) (h : url.head? ≠ some '~') (rest : Str) (home : Option Str) :
    (expandTilde home (noSlash url ++ '/' :: rest)).getD [] = noSlash url ++ '/' :: rest := by
  rw [(C101_tilde home).1]
  · rfl
  · rcases noSlash_cases url with e | e
    · rw [e]
      cases url with
      | nil => exact absurd rfl hne
      | cons c u => simpa using h
    · rw [e] at h
      cases hn : noSlash url with
      | nil => simp
      | cons c u => rw [hn] at h; simpa using h

theorem onTheWay_iff (m : Computer) (p : Path) (hp : m.fs p = none) : m.fs.fileOnTheWay p = false ↔ Missing m p := by
  unfold Fs.fileOnTheWay
  rw [List.any_eq_false]
  constructor
  · intro h
    refine ⟨hp, fun q c hq hc => ?_⟩
    obtain ⟨r, rfl⟩ := hq
    cases r with
    | nil => rw [List.append_nil] at hp; rw [hp] at hc; cases hc
    | cons x r =>
      have := h q.length (by simp)
      rw [List.take_left] at this
      rw [hc] at this
      exact this rfl
  · intro h k hk
    cases hq : m.fs (p.take k) with
    | none => simp
    | some n =>
      cases n with
      | dir => simp
      | file c => exact absurd hq (h.2 _ c (List.take_prefix _ _))

/-- C149 (partial). A repository given as a directory: the index of a source type is the file one finds by following, from that
directory, the rest of the index's URL (`src/contrib/PACKAGES`, or the platform's directory of binaries). If the file can be
read, its text is the index; if it is missing, it is reported as such. Missing: a file that is there and cannot be read, and
what was cached, see the `violated` theorems. -/
theorem C149_index_partial (e : RepoEnv) (m : Computer) {url : Str} {d f : Path} (hu : GivenAs m url d) (suffix : Str) (st : SourceType)
    {rest : Str} {cs : List Str} (hrest : indexAt e url suffix st = noSlash url ++ '/' :: rest) (hcs : Components '/' rest cs) (hf : Walk d cs f) :
    (∀ b, HasText m f b → (e.on m).server (indexAt e url suffix st) = .text b) ∧
    ((e.on m).server (indexAt e url suffix st) = .refused ↔ Missing m f) := by
  obtain ⟨hne, hh, ht, hl⟩ := hu
  have hp : absIn m.cwd (noSlash url ++ '/' :: rest) = f := (absIn_iff _ _ _).2 ((under_leads hne hl).2 ⟨cs, hcs, hf⟩)
  have key : (e.on m).server (indexAt e url suffix st) =
      match m.fs f with
      | none => if m.fs.fileOnTheWay f then .text [] else .refused
      | some .dir => .text []
      | some (.file b) => .text (if m.readable f then b else []) := by
    rw [hrest]
    show m.index _ = _
    unfold Computer.index
    rw [if_neg (fun h => hh ((http_under _ _).1 h)), tilde_under hne ht]
    dsimp only
    rw [hp]
    rfl
  rw [key]
  constructor
  · rintro b ⟨h1, h2⟩
    rw [h1]; simp [h2]
  · cases hm : m.fs f with
    | none =>
      dsimp only
      rw [← onTheWay_iff m f hm]
      cases m.fs.fileOnTheWay f <;> simp
    | some n =>
      have : ¬ Missing m f := fun h => by rw [h.1] at hm; cases hm
      cases n <;> simp [this]

/-- C149 (partial), of the source index: it is `src/contrib/PACKAGES` in the directory. -/
theorem C149_source_index_partial (e : RepoEnv) (m : Computer) {url : Str} {d : Path} (hu : GivenAs m url d) (suffix : Str) :
    (∀ b, HasText m (d ++ [s%"src", s%"contrib", s%"PACKAGES"]) b → (e.on m).server (indexAt e url suffix .source) = .text b) ∧
    ((e.on m).server (indexAt e url suffix .source) = .refused ↔ Missing m (d ++ [s%"src", s%"contrib", s%"PACKAGES"])) := by
  refine C149_index_partial e m hu suffix .source (rest := s%"src/contrib/PACKAGES") (cs := [s%"src", s%"contrib", s%"PACKAGES"]) (by simp [indexAt]) ?_ ?_
  · rw [components_iff]; decide
  · rw [walk_iff]; simp [joinComp]

/-- C149 (partial). The source file of a package of a repository given as a directory, if it has to be fetched, is a copy of the file
of that name in `src/contrib` of the directory; if that file is missing or may not be read the run ends. Missing: what is in the cache already,
see the `violated` theorems. -/
theorem C149_package_partial (e : DlEnv) (m : Computer) {d : PkgDl} {dir : Path} (hu : GivenAs m d.config.repo.url dir)
    (hty : d.config.type = .source) (hn : PlainNames d) (fs : Fs) (hex : fs (e.dest d) = none) :
    (∀ b, HasText m (dir ++ [s%"src", s%"contrib", sourceName d.package.package d.package.version]) b → fs (dirPath (e.dest d)) = some .dir →
      ((e.on m).downloadPackage fs d (e.dest d)).1 = fs.set (e.dest d) (.file b) ∧
      ∃ dl, ((e.on m).downloadPackage fs d (e.dest d)).2 = .ok dl ∧ dl.path = .abs (e.dest d)) ∧
    (m.fs (dir ++ [s%"src", s%"contrib", sourceName d.package.package d.package.version]) ≠ some .dir →
      (¬ ∃ b, HasText m (dir ++ [s%"src", s%"contrib", sourceName d.package.package d.package.version]) b) →
      (e.on m).downloadPackage fs d (e.dest d) = (fs, .fatal)) := by
  obtain ⟨hne, hh, ht, hl⟩ := hu
  have hpl : joinComp ∘ id = joinComp := rfl
  have hnm : '/' ∉ sourceName d.package.package d.package.version := by
    unfold sourceName
    simp [hn.2.1, hn.2.2.1]
  have hlen : 7 ≤ (sourceName d.package.package d.package.version).length := by
    unfold sourceName; simp; omega
  have hjc : ∀ p : Path, joinComp p (sourceName d.package.package d.package.version) = p ++ [sourceName d.package.package d.package.version] := by
    intro p
    unfold joinComp
    rw [if_neg, if_neg]
    · intro h; rw [h] at hlen; simp at hlen
    · rintro (h | h) <;> (rw [h] at hlen; simp at hlen)
  have hbase : basePath (e.dest d) = sourceName d.package.package d.package.version := by
    unfold DlEnv.dest
    rw [show resolveType e.platform d.config.type = .source from by rw [hty]; rfl]
    dsimp only
    unfold joinPaths
    simp only [List.foldl_cons, List.foldl_nil]
    generalize joinPath (joinPath e.base _) _ = q
    unfold joinPath
    rw [splitOn_of_not_mem _ _ hnm, List.foldl_cons, List.foldl_nil, hjc]
    simp [basePath]
  have hurl : (e.on m).url d (e.dest d) = noSlash d.config.repo.url ++ '/' :: (s%"src/contrib/" ++ sourceName d.package.package d.package.version) := by
    unfold DlEnv.url
    rw [if_pos hty, hbase, trimSlash_eq]
    simp
  have hp : absIn m.cwd (noSlash d.config.repo.url ++ '/' :: (s%"src/contrib/" ++ sourceName d.package.package d.package.version)) =
      dir ++ [s%"src", s%"contrib", sourceName d.package.package d.package.version] := by
    refine (absIn_iff _ _ _).2 ((under_leads hne hl).2 ⟨[s%"src", s%"contrib", sourceName d.package.package d.package.version], ?_, ?_⟩)
    · rw [components_iff]
      rw [show s%"src/contrib/" ++ sourceName d.package.package d.package.version = s%"src" ++ '/' :: (s%"contrib" ++ '/' :: sourceName d.package.package d.package.version) from rfl,
        splitOn_append_any, splitOn_append_any, splitOn_of_not_mem _ _ hnm]
      rfl
    · rw [walk_iff, List.foldl_cons, List.foldl_cons, List.foldl_cons, hjc]
      simp [joinComp]
  have key : (e.on m).server ((e.on m).url d (e.dest d)) =
      match m.fs (dir ++ [s%"src", s%"contrib", sourceName d.package.package d.package.version]) with
      | none => .noLocalFile
      | some .dir => .body [] false
      | some (.file b) => if m.readable (dir ++ [s%"src", s%"contrib", sourceName d.package.package d.package.version]) then .body b true else .noLocalFile := by
    rw [hurl]
    show m.file _ = _
    unfold Computer.file
    rw [if_neg (fun h => hh ((http_under _ _).1 h))]
    dsimp only
    rw [hp]
    rfl
  have hx : fs.ex (e.dest d) = false := by unfold Fs.ex; rw [hex]; rfl
  constructor
  · rintro b ⟨h1, h2⟩ hdir
    unfold DlEnv.downloadPackage
    rw [if_neg (by rw [hx]; simp), key, h1]
    dsimp only
    rw [if_pos h2]
    dsimp only
    rw [if_neg (by unfold Fs.isDir; rw [hdir]; simp), if_pos rfl]
    exact ⟨rfl, _, rfl, rfl⟩
  · intro hnd hno
    unfold DlEnv.downloadPackage
    rw [if_neg (by rw [hx]; simp), key]
    cases hf : m.fs (dir ++ [s%"src", s%"contrib", sourceName d.package.package d.package.version]) with
    | none => rfl
    | some n =>
      cases n with
      | dir => exact absurd hf hnd
      | file b =>
        dsimp only
        rw [if_neg fun h => hno ⟨b, hf, h⟩]

/-- C149: a repository given by its absolute path is the same directory for all projects; so what is cached for it by one of them is
right for the others too. -/
theorem C149_absolute (m : Computer) (cwd : Path) {url rest : Str} (h : url.head? = some '/') :
    ({ m with cwd := cwd } : Computer).index (noSlash url ++ '/' :: rest) = m.index (noSlash url ++ '/' :: rest) ∧
    ({ m with cwd := cwd } : Computer).file (noSlash url ++ '/' :: rest) = m.file (noSlash url ++ '/' :: rest) := by
  have hne : url ≠ [] := by rintro rfl; cases h
  have ht : url.head? ≠ some '~' := by rw [h]; decide
  have hh : (noSlash url ++ '/' :: rest).head? = some '/' := by
    rcases noSlash_cases url with e | e
    · rw [e]; cases url with
      | nil => cases h
      | cons c u => exact h
    · rw [e] at h
      cases hn : noSlash url with
      | nil => rfl
      | cons c u => rw [hn] at h; exact h
  have ha : ∀ c : Path, absIn c (noSlash url ++ '/' :: rest) = joinPath [] (noSlash url ++ '/' :: rest) := by
    intro c; unfold absIn; rw [if_pos hh]
  constructor
  · unfold Computer.index
    rw [tilde_under hne ht]
    dsimp only
    rw [ha, ha]
  · unfold Computer.file
    dsimp only
    rw [ha, ha]

/-- Two projects, `/a` and `/b`, each with a repository in its directory `repo`: that of `/a` has the package `x`, that of `/b` the
package `y`. -/
def locComputer (cwd : Path) : Computer :=
  { fs := fun q =>
      if q = [s%"a", s%"repo", s%"src", s%"contrib", s%"PACKAGES"] then some (.file (s%"x"))
      else if q = [s%"b", s%"repo", s%"src", s%"contrib", s%"PACKAGES"] then some (.file (s%"y"))
      else if q = [s%"a", s%"repo", s%"src", s%"contrib", s%"x_2.0.tar.gz"] then some (.file (s%"of a"))
      else if q = [s%"b", s%"repo", s%"src", s%"contrib", s%"x_2.0.tar.gz"] then some (.file (s%"of b"))
      else none
    readable := fun _ => true
    web := fun _ => .unreachable
    webFile := fun _ => .netError
    home := some (s%"/home/u")
    cwd := cwd }

/-- Surroundings of these projects. -/
def locEnv : RepoEnv :=
  { platform := { os := .linux }, decode := toyDecode, md5hex := fun x => x, rv := ⟨4, 1, 0⟩, now := 100000, server := fun _ => .unreachable }

/-- Both projects name their repository by this relative path. -/
def locUrl : RepoURL := { name := s%"local", url := s%"repo" }

/-- A concrete case of `C149_index_partial`, `C149_source_index_partial`. -/
example : GivenAs (locComputer [s%"a"]) (s%"repo") [s%"a", s%"repo"] ∧ GivenAs (locComputer [s%"a"]) (s%"../b/repo/") [s%"b", s%"repo"] ∧
    HasText (locComputer [s%"a"]) [s%"a", s%"repo", s%"src", s%"contrib", s%"PACKAGES"] (s%"x") ∧
    Missing (locComputer [s%"a"]) [s%"c", s%"repo", s%"src", s%"contrib", s%"PACKAGES"] := by
  refine ⟨⟨by decide, by decide, by decide, (leads_iff _ _ _).2 (by decide)⟩, ⟨by decide, by decide, by decide, (leads_iff _ _ _).2 (by decide)⟩,
    ⟨by decide, rfl⟩, (onTheWay_iff _ _ (by decide)).1 (by decide)⟩

/-- C149 is violated by the cache of databases: with one and the same relative path in two projects, the second project gets, for an
hour, the packages of the repository of the first; those that are published in its own repository are not found. -/
theorem C149_violated_database : ∃ c' db db' : _,
    (locEnv.on (locComputer [s%"a"])).newRepoDb (fun _ => none) locUrl .source {} false = (c', .ok db) ∧
    (locEnv.on (locComputer [s%"b"])).newRepoDb c' locUrl .source {} false = (c', .ok db') ∧
    (∃ d, Offers db' .source (s%"x") d) ∧ (∀ d, ¬ Publishes (locEnv.on (locComputer [s%"b"])) locUrl {} .source (s%"x") d) ∧
    (∀ d, ¬ Offers db' .source (s%"y") d) ∧ (∃ d, Publishes (locEnv.on (locComputer [s%"b"])) locUrl {} .source (s%"y") d) := by
  have hsmall : ∀ a, SmallR (locEnv.on (locComputer a)).rv := fun _ => (by decide : SmallR locEnv.rv)
  have h1 : (match (locEnv.on (locComputer [s%"a"])).newRepoDb (fun _ => none) locUrl .source {} false with
      | (_, .ok db) => (GoMap.get? db.src (s%"x")).isSome && !(GoMap.get? db.src (s%"y")).isSome | _ => false) = true := by decide +kernel
  have h2 : (match (locEnv.on (locComputer [s%"b"])).newRepoDb (fun _ => none) locUrl .source {} false with
      | (_, .ok db) => (GoMap.get? db.src (s%"y")).isSome && !(GoMap.get? db.src (s%"x")).isSome | _ => false) = true := by decide +kernel
  generalize hr : (locEnv.on (locComputer [s%"a"])).newRepoDb (fun _ => none) locUrl .source {} false = r at h1
  generalize hq : (locEnv.on (locComputer [s%"b"])).newRepoDb (fun _ => none) locUrl .source {} false = q at h2
  obtain ⟨c', res⟩ := r
  obtain ⟨c2, res2⟩ := q
  cases res with
  | error _ => cases h1
  | ok db =>
    cases res2 with
    | error _ => cases h2
    | ok db2 =>
      dsimp only at h1 h2
      rw [Bool.and_eq_true, Bool.not_eq_true'] at h1 h2
      obtain ⟨dx, hx⟩ := Option.isSome_iff_exists.1 h1.1
      obtain ⟨dy, hy⟩ := Option.isSome_iff_exists.1 h2.1
      have hof : ∀ (b : RepoDb) (k : Str) (d : Desc), Offers b .source k d ↔ GoMap.get? b.src k = some d := fun _ _ _ => Iff.rfl
      have hpub := (C86_one_repository (hsmall _) (by simp) hq).2.2
      refine ⟨c', db, db, rfl, C87_same_answer_partial (by simp) hr [] (by simp) (locEnv.on (locComputer [s%"b"]))
        (by show (100000 : Int) - 100000 < 3600; decide) rfl rfl rfl false, ⟨dx, (hof _ _ _).2 hx⟩, fun d h => ?_, fun d h => ?_, ⟨dy, (hpub _ _ _).1 ((hof _ _ _).2 hy)⟩⟩
      · have := (hof _ _ _).1 ((hpub _ _ _).2 h)
        rw [this] at h2
        exact absurd h2.2 (by simp)
      · rw [(hof _ _ _).1 h] at h1
        exact absurd h1.2 (by simp)

/-- The packages of these projects. -/
def locDl : DlEnv := { server := fun _ => .netError, digest := fun u => (u ++ List.replicate 12 'x').take 12, platform := { os := .linux }, rv := ⟨4, 1, 0⟩, base := [s%"cache"] }

/-- `x`, as both repositories have it. -/
def locPkg : PkgDl := { config := { repo := locUrl, type := .source }, package := { package := s%"x", version := s%"2.0" } }

/-- The cache before the first download. -/
def locCache : Fs := fun q => if q = [s%"cache", s%"local-repoxxxxxxxx", s%"src"] then some .dir else none

/-- A concrete case of `C149_package_partial`. -/
example : ((locDl.on (locComputer [s%"b"])).downloadPackage locCache locPkg (locDl.dest locPkg)).1 (locDl.dest locPkg) = some (.file (s%"of b")) := by
  have h := (C149_package_partial locDl (locComputer [s%"b"]) (d := locPkg) (dir := [s%"b", s%"repo"])
    ⟨by decide, by decide, by decide, (leads_iff _ _ _).2 (by decide)⟩ rfl (by decide) locCache (by decide)).1 (s%"of b") ⟨by decide, rfl⟩ (by decide)
  rw [h.1]
  simp [Fs.set]

/-- C149 is violated by a directory in the place of the package file: the download fails, but leaves an empty file, which the next run takes for
the package. -/
theorem C149_violated_directory : ∃ (m : Computer) (fs : Fs), m.fs [s%"a", s%"repo", s%"src", s%"contrib", s%"x_2.0.tar.gz"] = some .dir ∧
    (locDl.on m).downloadPackage locCache locPkg (locDl.dest locPkg) = (fs, .err) ∧ fs (locDl.dest locPkg) = some (.file []) ∧
    ∃ dl, (locDl.on m).downloadPackage fs locPkg (locDl.dest locPkg) = (fs, .ok dl) ∧ dl.path = .abs (locDl.dest locPkg) := by
  refine ⟨{ locComputer [s%"a"] with fs := fun q => if q = [s%"a", s%"repo", s%"src", s%"contrib", s%"x_2.0.tar.gz"] then some .dir else none },
    locCache.set (locDl.dest locPkg) (.file []), by decide, ?_, by simp [Fs.set], { path := .abs (locDl.dest locPkg), new := false, metadata := locPkg, size := 0 }, ?_, rfl⟩
  · unfold DlEnv.downloadPackage
    rw [if_neg (by decide), show (DlEnv.on locDl _).server ((DlEnv.on locDl _).url locPkg (locDl.dest locPkg)) = .body [] false from by decide]
    rfl
  · unfold DlEnv.downloadPackage
    rw [if_pos (by simp [Fs.ex, Fs.set])]

/-- C149 is violated by the cache of packages, for ever: what the first project has downloaded is used by the second one in place of
the package in its own repository. -/
theorem C149_violated_package : ∃ (fs : Fs) (d1 d2 : Download),
    (locDl.on (locComputer [s%"a"])).downloadPackage locCache locPkg (locDl.dest locPkg) = (fs, .ok d1) ∧
    (locDl.on (locComputer [s%"b"])).downloadPackage fs locPkg (locDl.dest locPkg) = (fs, .ok d2) ∧
    d2.path = .abs (locDl.dest locPkg) ∧ fs (locDl.dest locPkg) = some (.file (s%"of a")) ∧
    HasText (locComputer [s%"b"]) [s%"b", s%"repo", s%"src", s%"contrib", s%"x_2.0.tar.gz"] (s%"of b") := by
  refine ⟨locCache.set (locDl.dest locPkg) (.file (s%"of a")), { path := .abs (locDl.dest locPkg), new := true, metadata := locPkg, size := 4 },
    { path := .abs (locDl.dest locPkg), new := false, metadata := locPkg, size := 0 }, ?_, ?_, rfl, ?_, by decide, rfl⟩
  · unfold DlEnv.downloadPackage
    rw [if_neg (by decide), show (locDl.on (locComputer [s%"a"])).server ((locDl.on (locComputer [s%"a"])).url locPkg (locDl.dest locPkg)) = .body (s%"of a") true from by decide]
    rfl
  · unfold DlEnv.downloadPackage
    rw [if_pos (by simp [Fs.ex, Fs.set])]
  · simp [Fs.set]

/-- C149 is violated when the index is there and cannot be read (no permission, a directory, or a file where a directory should be): on a
platform without binaries the repository opens, without any package and without an error, and this is cached. -/
theorem C149_violated_unreadable {e : RepoEnv} (m : Computer) {c : DbCache} {url : RepoURL} {dst : SourceType} {rc : RepoConfig} {swap : Bool} {d : Path}
    (hold : ∀ f, c (dbFileOf e url.name url.url) = some f → ¬ Recent e f.mtime) (hw : e.writes = true) (hb : ¬ HasBinaries e.platform rc.repoType)
    (hu : GivenAs m url.url d) (hm : ¬ Missing m (d ++ [s%"src", s%"contrib", s%"PACKAGES"]))
    (hr : ∀ b, ¬ HasText m (d ++ [s%"src", s%"contrib", s%"PACKAGES"]) b) :
    ∃ c' db, (e.on m).newRepoDb c url dst rc swap = (c', .ok db) ∧ db.src = [] ∧ db.bin = none ∧
      c' (dbFileOf e url.name url.url) = some { mtime := e.now, tables := some ([], none) } := by
  have hp : absIn m.cwd (noSlash url.url ++ '/' :: s%"src/contrib/PACKAGES") = d ++ [s%"src", s%"contrib", s%"PACKAGES"] := by
    refine (absIn_iff _ _ _).2 ((under_leads hu.1 hu.2.2.2).2 ⟨[s%"src", s%"contrib", s%"PACKAGES"], ?_, ?_⟩)
    · rw [components_iff]; decide
    · rw [walk_iff]; simp [joinComp]
  have hs : m.index (noSlash url.url ++ '/' :: s%"src/contrib/PACKAGES") = .text [] := by
    unfold Computer.index
    rw [if_neg (fun h => hu.2.1 ((http_under _ _).1 h)), tilde_under hu.1 hu.2.2.1]
    dsimp only
    rw [hp]
    cases hf : m.fs (d ++ [s%"src", s%"contrib", s%"PACKAGES"]) with
    | none =>
      dsimp only
      rw [if_pos]
      cases ho : m.fs.fileOnTheWay (d ++ [s%"src", s%"contrib", s%"PACKAGES"]) with
      | true => rfl
      | false => exact absurd ((onTheWay_iff m _ hf).1 ho) hm
    | some n =>
      cases n with
      | dir => rfl
      | file b =>
        dsimp only
        rw [if_neg fun h => hr b ⟨hf, h⟩]
  have hserver : (e.on m).server ((e.on m).indexURL (initRepoDb (e.on m).platform url dst rc) .source) = .text [] := by
    rw [indexURL_eq (e.on m) url dst rc .source]
    have : indexAt (e.on m) url.url rc.repoSuffix .source = noSlash url.url ++ '/' :: s%"src/contrib/PACKAGES" := by simp [indexAt]
    rw [this]
    exact hs
  have hsb : supportsBinary (e.on m).platform rc.repoType = false := by
    rw [Bool.eq_false_iff]; exact fun h => hb ((supportsBinary_iff _ _).1 h)
  have hfetch : ((e.on m).fetchType (initRepoDb (e.on m).platform url dst rc) .source).2 = .ok [] := by
    unfold RepoEnv.fetchType
    rw [hserver]
    rfl
  have ha : (e.on m).aborts (initRepoDb (e.on m).platform url dst rc) .source = false := by
    unfold RepoEnv.aborts
    rw [hserver, hfetch]
    rfl
  have hbin : (initRepoDb (e.on m).platform url dst rc).bin = if supportsBinary (e.on m).platform rc.repoType then some [] else none := rfl
  have hsrc : (initRepoDb (e.on m).platform url dst rc).src = [] := rfl
  rw [newRepoDb_fetch (e := e.on m) (by rw [fileOf_eq]; exact hold), fileOf_eq]
  unfold RepoEnv.fetchAndStore
  dsimp only
  generalize initRepoDb (e.on m).platform url dst rc = i at *
  have ht : ∀ (st : SourceType), (e.on m).fetchType i st = (st, ((e.on m).fetchType i st).2) := fun _ => rfl
  rw [hsb] at hbin
  simp only [RepoDb.types, hbin, Option.isSome_none, Bool.false_eq_true, if_false, List.any_cons, ha, List.any_nil, Bool.or_self,
    List.reverse_singleton, ite_self, List.map_cons, List.map_nil]
  rw [ht, hfetch]
  have hw' : (e.on m).writes = true := hw
  simp only [collectFetches, collectFetchStep, RepoDb.numTypes, hbin, hw', List.foldl_cons, List.foldl_nil]
  refine ⟨_, _, rfl, ?_, ?_, ?_⟩
  all_goals first | rfl | exact hbin | skip
  show (_ : DbCache) (dbFileOf (e.on m) url.name url.url) = _
  simp [DbCache.put]
  all_goals first | rfl | exact ⟨rfl, rfl, hbin⟩ | exact hbin

/-- A concrete case of `C149_violated_unreadable`: nobody may read the index. -/
example : let m := { locComputer [s%"a"] with readable := fun _ => false }
    GivenAs m (s%"repo") [s%"a", s%"repo"] ∧ ¬ Missing m [s%"a", s%"repo", s%"src", s%"contrib", s%"PACKAGES"] ∧
    (∀ b, ¬ HasText m [s%"a", s%"repo", s%"src", s%"contrib", s%"PACKAGES"] b) ∧ ¬ HasBinaries locEnv.platform ({} : RepoConfig).repoType := by
  refine ⟨⟨by decide, by decide, by decide, (leads_iff _ _ _).2 (by decide)⟩, fun h => ?_, fun b h => ?_, ?_⟩
  · have := h.1; revert this; decide
  · exact absurd h.2 (by simp)
  · simp [HasBinaries, locEnv]

/-- C149 is violated for directories whose name begins with `http`: they are taken for servers. -/
theorem C149_violated_name : ∃ (m : Computer) (url : Str) (d : Path), url ≠ [] ∧ url.head? ≠ some '~' ∧ Leads m.cwd url d ∧
    HasText m (d ++ [s%"src", s%"contrib", s%"PACKAGES"]) (s%"x") ∧ (locEnv.on m).server (indexAt locEnv url [] .source) = .unreachable :=
  ⟨{ locComputer [s%"a"] with fs := fun q => if q = [s%"a", s%"http-mirror", s%"src", s%"contrib", s%"PACKAGES"] then some (.file (s%"x")) else none },
    s%"http-mirror", [s%"a", s%"http-mirror"], by decide, by decide, (leads_iff _ _ _).2 (by decide), ⟨by decide, rfl⟩, by decide⟩

end Pkgr
