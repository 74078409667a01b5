/- C156: a package that was downloaded as a binary is installed from the downloaded file. -/
import Verif.Props.InstallMore
import Verif.Props.RealRun
import Verif.Spec.AsDownloaded
import Verif.Props.TempDir

namespace Pkgr
open Spec

/-- What a download that was delivered says. -/
theorem downloadPackage_abs {de : DlEnv} {fs : Fs} {d : PkgDl} {dest p : Path} {dl : Download}
    (h : (de.downloadPackage fs d dest).2 = .ok dl) (hp : dl.path = .abs p) : p = dest ∧ dl.metadata = d := by
  unfold DlEnv.downloadPackage at h
  split at h
  · simp only [DlResult.ok.injEq] at h
    subst h
    exact ⟨(by cases hp; rfl), rfl⟩
  · split at h
    · cases h
    · simp only [DlResult.ok.injEq] at h
      subst h
      cases hp
    · cases h
    · split at h
      · cases h
      · split at h
        · simp only [DlResult.ok.injEq] at h
          subst h
          exact ⟨(by cases hp; rfl), rfl⟩
        · cases h

theorem dest_binary {e : InstallEnv} {de : DlEnv} (hc : OneComputer e de) {d : PkgDl} (hty : resolveType de.platform d.config.type = .binary) :
    de.dest d = joinPaths e.cache [repoUrlHash e.digest d.config.repo, s%"binary", e.rv.toStr,
      cranBinaryName e.platform.os de.rhel d.package.package d.package.version] := by
  unfold DlEnv.dest
  rw [hty, hc.digest, hc.cache, hc.rv, hc.platform]

/-- C156, when R's platform is the one the repository's binaries are made for (macOS and Windows, or a Linux whose R names its
platform as expected): a package that was downloaded as a binary is installed by exactly one call of R, on the downloaded
file and into the library, nothing is built, the outcome is R's, and no built binary is handed back.
Missing: other platforms, see `C156_violated_platform`. -/
theorem C156_one_call_partial {e : InstallEnv} {de : DlEnv} (hc : OneComputer e de) (d : PkgDl)
    (hty : resolveType de.platform d.config.type = .binary)
    (hos : e.platform.os = .darwin ∨ e.platform.os = .windows ∨ (e.platform.os = .linux ∧ e.rPlatform = linuxPlatform de.rhel))
    {fs : Fs} {dl : Download} {p : Path} (hdl : (de.downloadPackage fs (de.resolved d) (de.dest d)).2 = .ok dl) (hp : dl.path = .abs p)
    (tmp : Path) (fs' : Fs) (pkg : Str) (lib : Path) (hthere : fs' p ≠ none) (hnew : fs' (lib ++ [pkg]) ≠ some .dir) :
    let run := e.installThroughBinary tmp fs' { pkg := pkg, download := dl, lib := lib }
    run.calls = [{ pkg := pkg, lib := lib, build := false, src := p, workDir := e.cwd }] ∧
    ∃ r, run.val = some r ∧ r.binary = none ∧
      (r.err = false ↔ (e.R { pkg := pkg, lib := lib, build := false, src := p, workDir := e.cwd } fs').2 = .ok) := by
  obtain ⟨rfl, hm⟩ := downloadPackage_abs hdl hp
  have hcb : e.cachedBinary dl.metadata = some (de.dest d) := by
    rw [hm, dest_binary hc hty]
    unfold InstallEnv.cachedBinary
    show Option.map _ (binaryNameOs e.platform.os d.package.package d.package.version e.rPlatform) = _
    rcases hos with h | h | ⟨h, h'⟩
    · rw [h]; rfl
    · rw [h]; rfl
    · rw [h, h']
      unfold linuxPlatform
      cases de.rhel <;> simp [binaryNameOs, cranBinaryName, DlEnv.resolved]
  dsimp only
  refine ⟨(C44_cached_binary_used e tmp fs' { pkg := pkg, download := dl, lib := lib } _ hnew hcb hthere).1, ?_⟩
  obtain ⟨r, h1, h2⟩ := (C44_cached_binary_used e tmp fs' { pkg := pkg, download := dl, lib := lib } _ hnew hcb hthere).2
  refine ⟨r, h1, ?_, h2⟩
  have hd : fs'.isDir (lib ++ [pkg]) = false := by unfold Fs.isDir; simpa using hnew
  have hx : fs'.ex (de.dest d) = true := by
    unfold Fs.ex
    cases hh : fs' (de.dest d) with
    | none => exact absurd hh hthere
    | some _ => rfl
  unfold InstallEnv.installThroughBinary at h1
  rw [hd] at h1
  simp only [Bool.false_eq_true, if_false] at h1
  rw [hcb] at h1
  dsimp only at h1
  rw [if_pos hx] at h1
  simp only [Option.map_eq_some_iff] at h1
  obtain ⟨c, _, rfl⟩ := h1
  rfl

/-- pkgr's idea of the name of the binary that R builds from the downloaded binary is neither R's name of it nor the name of
the package. -/
theorem wrong_name {pkg ver plat : Str} {rhel : Bool} (hne : plat ≠ linuxPlatform rhel) (x : Str)
    (hx : x = replaceFirst (cranBinaryName .linux rhel pkg ver) (s%".tar.gz") (s%"_R_" ++ plat ++ s%".tar.gz")) :
    x ≠ pkg ∧ x ≠ pkg ++ s%"_" ++ ver ++ s%"_R_" ++ plat ++ s%".tar.gz" := by
  have hb : cranBinaryName .linux rhel pkg ver = pkg ++ s%"_" ++ ver ++ s%"_R_" ++ linuxPlatform rhel ++ s%".tar.gz" := by
    unfold cranBinaryName linuxPlatform
    cases rhel <;> simp
  rw [hb] at hx
  rcases replaceFirst_cases (pkg ++ s%"_" ++ ver ++ s%"_R_" ++ linuxPlatform rhel ++ s%".tar.gz") (s%".tar.gz")
    (s%"_R_" ++ plat ++ s%".tar.gz") with h | ⟨a, b, h1, h2⟩
  · rw [h] at hx
    refine ⟨fun h' => ?_, fun h' => ?_⟩
    · have := congrArg List.length (hx.symm.trans h')
      simp at this
    · have h3 := hx.symm.trans h'
      have h4 := List.append_cancel_right h3
      exact hne (List.append_cancel_left h4).symm
  · rw [h2] at hx
    have hl := congrArg List.length h1
    simp only [List.length_append] at hl
    have hp : 0 < (linuxPlatform rhel).length := by unfold linuxPlatform; cases rhel <;> simp
    refine ⟨fun h' => ?_, fun h' => ?_⟩ <;>
    · have h3 := congrArg List.length (hx.symm.trans h')
      simp only [List.length_append] at h3
      omega

/-- C156 is violated on every Linux whose R names its platform differently (such as `x86_64-redhat-linux-gnu` on a CentOS, or
`aarch64-unknown-linux-gnu`): pkgr does not recognise the file it has downloaded, and has R build a binary from it; R, which
names what it builds as it always does, succeeds, but pkgr looks for another name.  So the installation fails, whatever
R does, without a call of R into the library; and as nothing but the temporary directory has changed it fails every time. -/
theorem C156_violated_platform {e : InstallEnv} {de : DlEnv} (hc : OneComputer e de) (d : PkgDl)
    (hty : resolveType de.platform d.config.type = .binary)
    (hos : e.platform.os = .linux) (hplat : e.rPlatform ≠ linuxPlatform de.rhel)
    (hslash : '/' ∉ d.package.package ++ d.package.version ++ e.rPlatform)
    (hR : NamesBuilt e.R d.package.version e.rPlatform)
    {fs : Fs} {dl : Download} {p : Path} (hdl : (de.downloadPackage fs (de.resolved d) (de.dest d)).2 = .ok dl) (hp : dl.path = .abs p)
    (tmp : Path) (fs' : Fs) (lib : Path) (hthere : fs' p ≠ none) (hnew : fs' (lib ++ [d.package.package]) ≠ some .dir)
    (hcache : ∀ b, e.cachedBinary d = some b → fs' b = none) (hfresh : ∀ q, tmp <+: q → fs' q = none) :
    let run := e.installThroughBinary tmp fs' { pkg := d.package.package, download := dl, lib := lib }
    (∃ r, run.val = some r ∧ r.err = true) ∧ (∀ c ∈ run.calls, c.lib = tmp) ∧
    (∀ q, ¬ tmp <+: q → ¬ q <+: tmp → run.fs q = fs' q) := by
  obtain ⟨rfl, hm⟩ := downloadPackage_abs hdl hp
  have hcb : e.cachedBinary dl.metadata = e.cachedBinary d := by rw [hm]; rfl
  have hd : fs'.isDir (lib ++ [d.package.package]) = false := by unfold Fs.isDir; simpa using hnew
  obtain ⟨bp, hbp⟩ : ∃ bp, e.cachedBinary d = some bp := by
    unfold InstallEnv.cachedBinary binaryNameOs
    rw [hos]
    exact ⟨_, rfl⟩
  have hnx : fs'.ex bp = false := by unfold Fs.ex; rw [hcache bp hbp]; rfl
  have hbase : basePath (de.dest d) = cranBinaryName .linux de.rhel d.package.package d.package.version := by
    rw [dest_binary hc hty, hos]
    simp only [joinPaths, List.foldl_cons, List.foldl_nil]
    simp only [List.mem_append, not_or] at hslash
    rw [joinPath_long]
    · simp [basePath]
    · unfold cranBinaryName; cases de.rhel <;> simp <;> omega
    · unfold cranBinaryName; cases de.rhel <;> simp [hslash.1.1, hslash.1.2]
  have hwd : (fs'.mkdirAll tmp).isDir tmp = true := mkdirAll_isDir _ _ (fun c h => by rw [hfresh tmp (List.prefix_refl _)] at h; cases h)
  have hsx : (fs'.mkdirAll tmp).ex (de.dest d) = true := by
    unfold Fs.ex
    cases hh : fs' (de.dest d) with
    | none => exact absurd hh hthere
    | some n => rw [mkdirAll_dir hh]; rfl
  have hbelow : ∀ x, (fs'.mkdirAll tmp) (tmp ++ [x]) = none := by
    intro x
    rw [mkdirAll_below (List.prefix_append _ _) (by simp)]
    exact hfresh _ (List.prefix_append _ _)
  have hout : ∀ q, ¬ tmp <+: q → ¬ q <+: tmp → (fs'.mkdirAll tmp) q = fs' q := by
    intro q _ h2
    rcases mkdirAll_cases fs' tmp q with h | ⟨h, _⟩
    · exact h
    · exact absurd h h2
  dsimp only
  unfold InstallEnv.installThroughBinary
  rw [hd]
  simp only [Bool.false_eq_true, if_false]
  rw [hcb, hbp]
  dsimp only
  rw [hnx]
  simp only [Bool.false_eq_true, if_false]
  unfold InstallEnv.build
  have hres : dl.path.resolve e.cwd = de.dest d := by rw [hp]; rfl
  dsimp only
  rw [hres]
  generalize hst : e.stamp dl.metadata.config = st
  have hrun := install_run e.R e.cwd (fs'.mkdirAll tmp) d.package.package (de.dest d) tmp true tmp st hwd hsx
  generalize hcall : ({ pkg := d.package.package, lib := tmp, build := true, src := de.dest d, workDir := tmp } : RCall) = call at hrun
  have hq := hR call (fs'.mkdirAll tmp) (by rw [← hcall]) (by rw [← hcall])
  have hlib : call.lib = tmp := by rw [← hcall]
  have hpkg : call.pkg = d.package.package := by rw [← hcall]
  rw [hlib, hpkg] at hq
  generalize hinst : install e.R e.cwd (fs'.mkdirAll tmp) d.package.package (PathArg.abs (de.dest d)) tmp true (some tmp) st = b at hrun
  have hcl : ∀ q, ¬ tmp <+: q → ¬ q <+: tmp → cleanTmp b.fs (tmp ++ [d.package.package]) q = fs' q := by
    intro q h1 h2
    have h3 : cleanTmp b.fs (tmp ++ [d.package.package]) q = b.fs q := by
      unfold cleanTmp Fs.removeAll
      split
      · dsimp only
        rw [if_neg]
        exact fun h => h1 ((List.prefix_append _ _).trans h)
      · rfl
    rw [h3, hrun, ← hout q h1 h2, ← hq.1 q h1]
    dsimp only
    split
    · rw [stampFile_other]
      rintro rfl
      exact h1 (List.prefix_append _ _)
    · rfl
  rw [hrun] at hinst
  have hbv : b.val = some (exitOf (e.R call (fs'.mkdirAll tmp)).2) := by rw [hrun]
  have hbc : b.calls = [call] := by rw [hrun]
  rw [hbv]
  dsimp only
  by_cases hok : (e.R call (fs'.mkdirAll tmp)).2 = .ok
  · rw [hok]
    have ht : (!(exitOf RExit.ok).err && decide ((exitOf RExit.ok).exitCode = 0)) = true := by decide
    rw [if_pos ht, hbase, hos]
    dsimp only [binaryExtOs]
    generalize hx : replaceFirst (cranBinaryName OS.linux de.rhel d.package.package d.package.version) (s%".tar.gz")
      (s%"_R_" ++ e.rPlatform ++ s%".tar.gz") = x
    obtain ⟨w1, w2⟩ := wrong_name hplat x hx.symm
    have hlong : 3 ≤ x.length ∧ '/' ∉ x := by
      simp only [List.mem_append, not_or] at hslash
      rw [← hx]
      refine replaceFirst_plain ⟨?_, ?_⟩ ⟨?_, ?_⟩
      · unfold cranBinaryName; cases de.rhel <;> simp <;> omega
      · unfold cranBinaryName; cases de.rhel <;> simp [hslash.1.1, hslash.1.2]
      · simp
      · simp [hslash.2]
    have hno : (cleanTmp b.fs (tmp ++ [d.package.package])).ex (joinPath tmp x) = false := by
      rw [joinPath_long tmp x hlong.1 hlong.2]
      unfold Fs.ex
      cases hh : cleanTmp b.fs (tmp ++ [d.package.package]) (tmp ++ [x]) with
      | none => rfl
      | some n =>
        exfalso
        have h3 : b.fs (tmp ++ [x]) = some n := by
          unfold cleanTmp Fs.removeAll at hh
          split at hh
          · dsimp only at hh
            split at hh
            · cases hh
            · exact hh
          · exact hh
        have h4 : (e.R call (fs'.mkdirAll tmp)).1 (tmp ++ [x]) = some n := by
          rw [hrun] at h3
          dsimp only at h3
          rw [if_pos hok, stampFile_other _ _ _ _ _ (by simp)] at h3
          exact h3
        rcases hq.2 hok x (by rw [h4]; simp) with h | h | h
        · exact h (hbelow x)
        · exact w1 h
        · exact w2 h
    rw [hno]
    simp only [Bool.not_false, if_true]
    exact ⟨⟨_, rfl, rfl⟩, (fun c h => by rw [hbc] at h; rw [List.mem_singleton.1 h, hlib]), hcl⟩
  · have hne : (!(exitOf (e.R call (fs'.mkdirAll tmp)).2).err && decide ((exitOf (e.R call (fs'.mkdirAll tmp)).2).exitCode = 0)) = false := by
      cases hh : (e.R call (fs'.mkdirAll tmp)).2 with
      | ok => exact absurd hh hok
      | status n => simp [exitOf]
      | notRun => simp [exitOf]
    rw [hne]
    simp only [Bool.false_eq_true, if_false]
    refine ⟨⟨_, rfl, ?_⟩, (fun c h => by rw [hbc] at h; rw [List.mem_singleton.1 h, hlib]), hcl⟩
    cases hh : (e.R call (fs'.mkdirAll tmp)).2 with
    | ok => exact absurd hh hok
    | status n => rfl
    | notRun => rfl

/-- A CentOS or Debian: R6 2.5.1 is downloaded as a binary. -/
def centosDl : DlEnv :=
  { server := fun _ => .body (s%"binary of R6") true, digest := fun _ => s%"0123456789ab", platform := { os := .linux }, rv := ⟨4, 1, 0⟩,
    base := [s%"cache"] }

/-- see `centosDl`: an R that installs whatever it is given and builds when told to. -/
def centosR (platform : Str) : ROracle := fun c fs =>
  (fun p => if p = c.lib ++ [c.pkg] then some .dir
    else if c.build = true ∧ p = c.lib ++ [c.pkg ++ s%"_" ++ s%"2.5.1" ++ s%"_R_" ++ platform ++ s%".tar.gz"] then some (.file (s%"bin"))
    else fs p, .ok)

/-- see `centosDl` -/
def centosE (platform : Str) : InstallEnv :=
  { R := centosR platform, digest := fun _ => s%"0123456789ab", platform := { os := .linux }, rPlatform := platform,
    rv := ⟨4, 1, 0⟩, cwd := [s%"w"], cache := [s%"cache"], pkgrVersion := s%"1" }

/-- see `centosDl` -/
def centosD : PkgDl :=
  { package := { package := s%"R6", version := s%"2.5.1" }, config := { repo := { name := s%"MPN", url := s%"https://mpn" }, type := .binary } }

/-- see `centosDl` -/
def centosFs : Fs := fun p =>
  if p = [s%"lib"] ∨ p = [s%"cache"] ∨ p = [s%"cache", s%"MPN-0123456789ab"] ∨ p = [s%"cache", s%"MPN-0123456789ab", s%"binary"] ∨
    p = [s%"cache", s%"MPN-0123456789ab", s%"binary", s%"4.1"] ∨ p = [s%"w"] ∨ p = [s%"t"] then some .dir else none

theorem centosR_names (platform : Str) : NamesBuilt (centosR platform) (s%"2.5.1") platform := by
  intro c fs hb _
  refine ⟨fun q hq => ?_, fun _ x hx => ?_⟩
  · show (if q = c.lib ++ [c.pkg] then _ else _) = fs q
    rw [if_neg (by rintro rfl; exact hq (List.prefix_append _ _)), if_neg (by rintro ⟨_, rfl⟩; exact hq (List.prefix_append _ _))]
  · change (if c.lib ++ [x] = c.lib ++ [c.pkg] then some Node.dir else if c.build = true ∧ c.lib ++ [x] =
      c.lib ++ [c.pkg ++ s%"_" ++ s%"2.5.1" ++ s%"_R_" ++ platform ++ s%".tar.gz"] then some (Node.file (s%"bin")) else fs (c.lib ++ [x])) ≠ none at hx
    by_cases h1 : x = c.pkg
    · exact .inr (.inl h1)
    · rw [if_neg (by simpa using h1)] at hx
      by_cases h2 : c.lib ++ [x] = c.lib ++ [c.pkg ++ s%"_" ++ s%"2.5.1" ++ s%"_R_" ++ platform ++ s%".tar.gz"]
      · have h3 := List.append_cancel_left h2
        simp only [List.cons.injEq, and_true] at h3
        exact .inr (.inr h3)
      · rw [if_neg (fun h => h2 h.2)] at hx
        exact .inl hx

/-- Non-vacuity of the two theorems: the same download, on a Debian (where the package is installed in one call) and on a CentOS
with its own R (where it is not installed although R never fails). -/
example : OneComputer (centosE (s%"x86_64-redhat-linux-gnu")) centosDl ∧ OneComputer (centosE (s%"x86_64-pc-linux-gnu")) centosDl ∧
    resolveType centosDl.platform centosD.config.type = .binary ∧
    (centosE (s%"x86_64-pc-linux-gnu")).rPlatform = linuxPlatform centosDl.rhel ∧
    (centosE (s%"x86_64-redhat-linux-gnu")).rPlatform ≠ linuxPlatform centosDl.rhel ∧
    '/' ∉ centosD.package.package ++ centosD.package.version ++ (centosE (s%"x86_64-redhat-linux-gnu")).rPlatform ∧
    (∃ dl p, (centosDl.downloadPackage centosFs (centosDl.resolved centosD) (centosDl.dest centosD)).2 = .ok dl ∧ dl.path = .abs p ∧
      (let fs' := (centosDl.downloadPackage centosFs (centosDl.resolved centosD) (centosDl.dest centosD)).1
       fs' p ≠ none ∧ fs' ([s%"lib"] ++ [s%"R6"]) ≠ some .dir ∧
       (∀ b, (centosE (s%"x86_64-redhat-linux-gnu")).cachedBinary centosD = some b → fs' b = none) ∧
       (∀ q, [s%"t", s%"x"] <+: q → fs' q = none) ∧
       ((centosE (s%"x86_64-pc-linux-gnu")).installThroughBinary [s%"t", s%"x"] fs' { pkg := s%"R6", download := dl, lib := [s%"lib"] }).fs
         [s%"lib", s%"R6"] = some .dir ∧
       ((centosE (s%"x86_64-redhat-linux-gnu")).installThroughBinary [s%"t", s%"x"] fs' { pkg := s%"R6", download := dl, lib := [s%"lib"] }).fs
         [s%"lib", s%"R6"] = none)) := by
  refine ⟨⟨rfl, rfl, rfl, rfl⟩, ⟨rfl, rfl, rfl, rfl⟩, by decide, by decide, by decide, by decide,
    { path := .abs (centosDl.dest centosD), new := true, metadata := centosDl.resolved centosD, size := 12 }, centosDl.dest centosD,
    by decide +kernel, rfl, ?_⟩
  dsimp only
  refine ⟨by decide +kernel, by decide +kernel, ?_, ?_, by decide +kernel, by decide +kernel⟩
  · intro b hb
    have h : (centosE (s%"x86_64-redhat-linux-gnu")).cachedBinary centosD = some [s%"cache", s%"MPN-0123456789ab", s%"binary", s%"4.1", s%"R6_2.5.1_R_x86_64-redhat-linux-gnu.tar.gz"] := by
      decide +kernel
    rw [h] at hb
    cases hb
    decide +kernel
  · rintro q ⟨r, rfl⟩
    have h : (centosDl.downloadPackage centosFs (centosDl.resolved centosD) (centosDl.dest centosD)).1 =
      centosFs.set [s%"cache", s%"MPN-0123456789ab", s%"binary", s%"4.1", s%"R6_2.5.1_R_x86_64-pc-linux-gnu.tar.gz"] (.file (s%"binary of R6")) := rfl
    rw [h]
    simp [Fs.set, centosFs]

end Pkgr
