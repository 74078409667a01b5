/- C44, C48: which package file R is given, and what the installed DESCRIPTION says. -/
import Verif.Props.Env
import Verif.Props.Install

namespace Pkgr
open Spec

/-- C44: when the package is not installed and its binary is in the cache, R is called exactly once, on the cached
binary, with the library as its target and without building anything, and the result is R's. -/
theorem C44_cached_binary_used (e : InstallEnv) (tmp : Path) (fs : Fs) (ir : InstallReq) (bp : Path)
    (hnew : fs (ir.lib ++ [ir.pkg]) ≠ some .dir) (hbp : e.cachedBinary ir.download.metadata = some bp) (hex : fs bp ≠ none) :
    (e.installThroughBinary tmp fs ir).calls = [{ pkg := ir.pkg, lib := ir.lib, build := false, src := bp, workDir := e.cwd }] ∧
    ∃ r, (e.installThroughBinary tmp fs ir).val = some r ∧
      (r.err = false ↔ (e.R { pkg := ir.pkg, lib := ir.lib, build := false, src := bp, workDir := e.cwd } fs).2 = .ok) := by
  have h1 : fs.isDir (ir.lib ++ [ir.pkg]) = false := by
    unfold Fs.isDir
    simpa using hnew
  have h2 : fs.ex bp = true := by
    unfold Fs.ex
    cases hh : fs bp with
    | none => exact absurd hh hex
    | some _ => rfl
  unfold InstallEnv.installThroughBinary
  rw [h1, hbp]
  simp only [Bool.false_eq_true, if_false]
  rw [if_pos h2]
  dsimp only
  unfold install
  dsimp only [PathArg.resolve]
  rw [if_neg (by simp), if_neg (by simp [h2])]
  refine ⟨rfl, _, rfl, ?_⟩
  dsimp only [Option.getD_none]
  cases (e.R { pkg := ir.pkg, lib := ir.lib, build := false, src := bp, workDir := e.cwd } fs).2 <;> simp [exitOf]

/-- C44: otherwise the package file is built first: R's first call is on the package file, with the temporary directory
as its target. -/
theorem C44_source_built (e : InstallEnv) (tmp : Path) (fs : Fs) (ir : InstallReq)
    (hnew : fs (ir.lib ++ [ir.pkg]) ≠ some .dir) (hos : e.platform.os ≠ .other)
    (hcache : ∀ bp, e.cachedBinary ir.download.metadata = some bp → fs bp = none)
    (htmp : ∀ c, fs tmp ≠ some (.file c)) (hsrc : fs (ir.download.path.resolve e.cwd) ≠ none) :
    ∃ rest, (e.installThroughBinary tmp fs ir).calls =
      { pkg := ir.pkg, lib := tmp, build := true, src := ir.download.path.resolve e.cwd, workDir := tmp } :: rest := by
  have h1 : fs.isDir (ir.lib ++ [ir.pkg]) = false := by
    unfold Fs.isDir
    simpa using hnew
  obtain ⟨bp, hbp⟩ : ∃ bp, e.cachedBinary ir.download.metadata = some bp := by
    unfold InstallEnv.cachedBinary binaryNameOs
    cases ho : e.platform.os with
    | other => exact absurd ho hos
    | _ => exact ⟨_, rfl⟩
  have h2 : fs.ex bp = false := by
    unfold Fs.ex
    rw [hcache bp hbp]; rfl
  unfold InstallEnv.installThroughBinary
  rw [h1, hbp]
  simp only [Bool.false_eq_true, if_false]
  rw [h2]
  simp only [Bool.false_eq_true, if_false]
  unfold InstallEnv.build
  dsimp only
  have hwd : (fs.mkdirAll tmp).isDir tmp = true := by
    unfold Fs.isDir Fs.mkdirAll
    cases hh : fs tmp with
    | none => simp [List.prefix_refl]
    | some n =>
      cases n with
      | dir => simp [hh]
      | file c => exact absurd hh (htmp c)
  have hsx : (fs.mkdirAll tmp).ex (ir.download.path.resolve e.cwd) = true := by
    unfold Fs.ex Fs.mkdirAll
    cases hh : fs (ir.download.path.resolve e.cwd) with
    | none => exact absurd hh hsrc
    | some n => simp [hh]
  rw [install_run _ _ _ _ _ _ _ _ _ hwd hsx]
  dsimp only
  split
  · split
    · exact ⟨_, rfl⟩
    · generalize cleanTmp _ (tmp ++ [ir.pkg]) = fs1
      split
      · exact ⟨_, rfl⟩
      · exact ⟨_, rfl⟩
  · exact ⟨_, rfl⟩

/-- Non-vacuity of the two theorems: the small world with and without a cached binary of `b`. -/
example : toyFs (toyReq.lib ++ [toyReq.pkg]) ≠ some .dir ∧ (toyEnv true).platform.os ≠ .other ∧
    toyFs (toyReq.download.path.resolve (toyEnv true).cwd) ≠ none ∧ toyFs [s%"tmp", s%"t"] = none ∧
    ∃ bp, (toyEnv true).cachedBinary toyReq.download.metadata = some bp ∧ toyFs bp = none ∧ (toyFs.set bp (.file [])) bp ≠ none ∧
      (toyFs.set bp (.file [])) (toyReq.lib ++ [toyReq.pkg]) ≠ some .dir := by
  refine ⟨by decide, by decide, by decide, by decide,
    [s%"cache", s%"-0123456789ab", s%"binary", s%"4.1", s%"b_1_R_x86_64-pc-linux-gnu.tar.gz"], by decide, by decide, by decide, by decide⟩

/-! ### C48 -/

/-- The DESCRIPTION with pkgr's stamp. -/
theorem stampFile_at (fs : Fs) (lib : Path) (pkg : Str) (st : Stamp) (c : Str) (h : fs (lib ++ [pkg, s%"DESCRIPTION"]) = some (.file c)) :
    stampFile fs lib pkg st (lib ++ [pkg, s%"DESCRIPTION"]) = some (.file (writeLines (stampLines (readLines c) st))) := by
  unfold stampFile
  rw [h]
  simp [Fs.set]

/-- What a successful `Install` has done. -/
theorem install_ok {R : ROracle} {cwd : Path} {fs : Fs} {pkg : Str} {path : PathArg} {lib : Path} {b : Bool} {wd : Option Path} {st : Stamp} {r : CmdRet}
    (h : (install R cwd fs pkg path lib b wd st).val = some r) (he : r.err = false) (hx : r.exitCode = 0) :
    ∃ call, (install R cwd fs pkg path lib b wd st).calls = [call] ∧ call.lib = lib ∧ call.pkg = pkg ∧ (R call fs).2 = .ok ∧
      (install R cwd fs pkg path lib b wd st).fs = stampFile (R call fs).1 lib pkg st := by
  unfold install at h ⊢
  dsimp only at h ⊢
  split at h
  · simp at h
  rename_i h1
  rw [if_neg h1]
  split at h
  · simp only [Option.some.injEq] at h
    subst h
    simp at hx
  rename_i h2
  rw [if_neg h2]
  simp only [Option.some.injEq] at h
  refine ⟨_, rfl, rfl, rfl, ?_⟩
  have hok : (R { pkg := pkg, lib := lib, build := b, src := path.resolve (wd.getD cwd), workDir := wd.getD cwd } fs).2 = .ok := by
    subst h
    revert he
    cases (R { pkg := pkg, lib := lib, build := b, src := path.resolve (wd.getD cwd), workDir := wd.getD cwd } fs).2 <;> simp [exitOf]
  exact ⟨hok, by dsimp only; rw [if_pos hok]⟩

/-- C48, installations: when the package was installed (exit code 0, no error), the last R call installed it into the
library, and the DESCRIPTION it wrote is in the library with pkgr's stamp: pkgr's version, the repository and its URL,
and the type, which is `binary` when a cached binary was installed and the type of the package otherwise. -/
theorem C48_installed (e : InstallEnv) (tmp : Path) (fs : Fs) (ir : InstallReq) (r : InstallRet)
    (h : (e.installThroughBinary tmp fs ir).val = some r) (he : r.err = false) (hx : r.exitCode = 0) :
    ∃ pre call at_, (e.installThroughBinary tmp fs ir).calls = pre ++ [call] ∧ call.lib = ir.lib ∧ call.pkg = ir.pkg ∧ (e.R call at_).2 = .ok ∧
      ∀ c, (e.R call at_).1 (ir.lib ++ [ir.pkg, s%"DESCRIPTION"]) = some (.file c) →
        (e.installThroughBinary tmp fs ir).fs (ir.lib ++ [ir.pkg, s%"DESCRIPTION"]) =
          some (.file (writeLines (stampLines (readLines c)
            { version := e.pkgrVersion,
              installType := if pre = [] then s%"binary" else if resolveType e.platform ir.download.metadata.config.type = .binary then s%"binary" else s%"source",
              repoURL := ir.download.metadata.config.repo.url, repo := ir.download.metadata.config.repo.name }))) := by
  have htype : sourceTypeString e.platform ir.download.metadata.config.type.toNat =
      if resolveType e.platform ir.download.metadata.config.type = .binary then s%"binary" else s%"source" := by
    unfold sourceTypeString resolveType SourceType.toNat
    cases ir.download.metadata.config.type with
    | default => dsimp only; rw [if_pos rfl]; cases defaultType e.platform <;> simp
    | source => simp
    | binary => simp
  unfold InstallEnv.installThroughBinary at h ⊢
  split at h
  · simp only [Option.some.injEq] at h
    subst h
    simp at hx
  rename_i h1
  rw [if_neg h1]
  cases hbp : e.cachedBinary ir.download.metadata with
  | none => rw [hbp] at h; simp at h
  | some bp =>
    rw [hbp] at h
    dsimp only at h ⊢
    split at h
    · rename_i h2
      rw [if_pos h2]
      dsimp only at h ⊢
      cases hv : (install e.R e.cwd fs ir.pkg (.abs bp) ir.lib false none (e.stamp { ir.download.metadata.config with type := .binary })).val with
      | none => rw [hv] at h; simp at h
      | some c0 =>
        rw [hv] at h
        simp only [Option.map_some, Option.some.injEq] at h
        subst h
        obtain ⟨call, q1, q2, q3, q4, q5⟩ := install_ok hv he hx
        refine ⟨[], call, fs, q1, q2, q3, q4, fun c hc => ?_⟩
        rw [q5, stampFile_at _ _ _ _ c hc]
        rfl
    · rename_i h2
      rw [if_neg h2]
      unfold InstallEnv.build at h ⊢
      dsimp only at h ⊢
      cases hv : (install e.R e.cwd (fs.mkdirAll tmp) ir.pkg (.abs (ir.download.path.resolve e.cwd)) tmp true (some tmp) (e.stamp ir.download.metadata.config)).val with
      | none => rw [hv] at h; simp at h
      | some c0 =>
        rw [hv] at h
        dsimp only at h ⊢
        split at h
        · rename_i hc0
          rw [if_pos hc0]
          have hc0' : c0.err = false ∧ c0.exitCode = 0 := by simpa using hc0
          obtain ⟨callb, b1, _⟩ := install_ok hv hc0'.1 hc0'.2
          cases hbb : binaryExtOs e.platform.os (basePath (ir.download.path.resolve e.cwd)) e.rPlatform with
          | none => rw [hbb] at h; simp at h
          | some bbp =>
            rw [hbb] at h
            dsimp only at h ⊢
            split at h
            · simp only [Option.some.injEq] at h
              subst h
              simp at he
            rename_i h3
            rw [if_neg h3]
            dsimp only at h ⊢
            rw [b1]
            generalize cleanTmp (install e.R e.cwd (fs.mkdirAll tmp) ir.pkg (.abs (ir.download.path.resolve e.cwd)) tmp true (some tmp) (e.stamp ir.download.metadata.config)).fs (tmp ++ [ir.pkg]) = fs1 at h h3 ⊢
            cases hf : (install e.R e.cwd fs1 ir.pkg (.abs (joinPath tmp bbp)) ir.lib false (some tmp) (e.stamp ir.download.metadata.config)).val with
            | none => rw [hf] at h; simp at h
            | some c1 =>
              rw [hf] at h
              simp only [Option.map_some, Option.some.injEq] at h
              subst h
              obtain ⟨call, q1, q2, q3, q4, q5⟩ := install_ok hf he hx
              refine ⟨[callb], call, fs1, by rw [q1], q2, q3, q4, fun c hc => ?_⟩
              rw [q5, stampFile_at _ _ _ _ c hc, if_neg (by simp), ← htype]
              rfl
        · rename_i hc0
          exfalso
          simp only [Option.some.injEq] at h
          subst h
          dsimp only at he hx
          exact hc0 (by simp [he, hx])

/-- see the example below -/
def descR : ROracle := fun c fs =>
  (fun p => if p = c.lib ++ [c.pkg] then some .dir else if p = c.lib ++ [c.pkg, s%"DESCRIPTION"] then some (.file (s%"Package: b\nRepository: RSPM\n")) else fs p, .ok)

/-- Non-vacuity of `C48_installed`: the cached binary of `b` is installed. -/
example : let e := { toyEnv true with R := descR }
    let r := e.installThroughBinary [s%"tmp", s%"t"]
      (toyFs.set [s%"cache", s%"-0123456789ab", s%"binary", s%"4.1", s%"b_1_R_x86_64-pc-linux-gnu.tar.gz"] (.file [])) toyReq
    r.val = some { exitCode := 0, binary := none, err := false } ∧
    r.fs [s%"lib", s%"b", s%"DESCRIPTION"] =
      some (.file (s%"Package: b\nOriginalRepository: RSPM\nRepository: \nPkgrVersion: 1\nPkgrInstallType: binary\nPkgrRepositoryURL: \n")) := by
  decide +kernel

/-- C48: after stamping, every line that gives the repository gives the one the package was taken from. -/
theorem C48_repository (lines : List Str) (st : Stamp) :
    ∀ l ∈ stampLines lines st, (s%"Repository:") <+: l → trimSpace l = trimSpace (s%"Repository: " ++ st.repo) := by
  intro l hl hpre
  unfold stampLines at hl
  rcases List.mem_append.1 hl with hl | hl
  · obtain ⟨x, _, hx⟩ := List.mem_flatMap.1 hl
    unfold stampLine at hx
    split at hx
    · cases hx
    · split at hx
      · rcases List.mem_cons.1 hx with rfl | hx
        · exact absurd hpre (by simp [List.cons_prefix_cons])
        · rcases List.mem_cons.1 hx with rfl | hx
          · rfl
          · cases hx
      · rename_i h
        rcases List.mem_cons.1 hx with rfl | hx
        · refine Classical.byContradiction fun hne => ?_
          exact h (by
            rw [Bool.and_eq_true, decide_eq_true_eq]
            exact ⟨(hasPrefix_iff _ _).2 hpre, hne⟩)
        · cases hx
  · exfalso
    revert hpre
    rcases List.mem_cons.1 hl with rfl | hl
    · simp [List.cons_prefix_cons]
    rcases List.mem_cons.1 hl with rfl | hl
    · simp [List.cons_prefix_cons]
    rcases List.mem_cons.1 hl with rfl | hl
    · simp [List.cons_prefix_cons]
    · cases hl

/-- C48: the repository a DESCRIPTION named before is kept as the original one, when its name contains no colon. -/
theorem C48_original_kept_partial (before after : List Str) (name : Str) (st : Stamp) (hc : ':' ∉ name) (hu : Unpadded name)
    (hm : NoMarker (s%"Repository: " ++ name)) (hdiff : trimSpace (s%"Repository: " ++ name) ≠ trimSpace (s%"Repository: " ++ st.repo)) :
    (s%"OriginalRepository: " ++ name) ∈ stampLines (before ++ (s%"Repository: " ++ name) :: after) st := by
  unfold stampLines
  refine List.mem_append_left _ (List.mem_flatMap.2 ⟨s%"Repository: " ++ name, by simp, ?_⟩)
  have h1 : isPkgrLine (s%"Repository: " ++ name) = false := by
    exact (isPkgrLine_false_iff _).2 hm
  unfold stampLine
  rw [h1]
  simp only [Bool.false_eq_true, if_false]
  rw [if_pos (by
    rw [Bool.and_eq_true, decide_eq_true_eq]
    exact ⟨(hasPrefix_iff _ _).2 ⟨' ' :: name, rfl⟩, hdiff⟩)]
  have h2 : (splitOn ':' (s%"Repository: " ++ name))[1]?.getD [] = ' ' :: name := by
    have := splitOn_joinWith ':' [s%"Repository", ' ' :: name] (by simp) (by
      intro x hx
      rcases List.mem_cons.1 hx with rfl | hx
      · decide
      · rcases List.mem_cons.1 hx with rfl | hx
        · simpa using hc
        · cases hx)
    have he : s%"Repository: " ++ name = joinWith ':' [s%"Repository", ' ' :: name] := rfl
    rw [he, this]
    rfl
  rw [h2]
  have h3 : trimBlanks (' ' :: name) = name := by
    rw [show trimBlanks (' ' :: name) = trimBlanks name from rfl, trimBlanks_of_unpadded hu]
  rw [h3]
  exact List.mem_cons_self ..

/-- Non-vacuity of `C48_repository` and `C48_original_kept_partial`. -/
example : stampLines [s%"Package: b", s%"Repository: RSPM"] { repo := s%"CRAN", version := s%"1", installType := s%"source", repoURL := s%"u" } =
      [s%"Package: b", s%"OriginalRepository: RSPM", s%"Repository: CRAN", s%"PkgrVersion: 1", s%"PkgrInstallType: source", s%"PkgrRepositoryURL: u"] ∧
    trimSpace (s%"Repository: RSPM") ≠ trimSpace (s%"Repository: CRAN") := by decide +kernel

end Pkgr
