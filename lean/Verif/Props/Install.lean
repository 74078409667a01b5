/- C41-C44, C48, C81: installing one package. -/
import Verif.Proof.Install
import Verif.Proof.RepoDb
import Verif.Model.Download

namespace Pkgr
open Spec

/-! ## C41, C42: number of workers -/

/-- C41: a thread count of at least one is used as it is; otherwise the number of CPUs, but at most 8.  On any
machine (at least one CPU) there is at least one worker. -/
theorem C41_worker_count (threads cpus : Int) :
    (1 ≤ threads → getWorkerCount threads cpus = threads) ∧
    (threads < 1 → getWorkerCount threads cpus = min 8 cpus) ∧
    (1 ≤ cpus → 1 ≤ getWorkerCount threads cpus) := by
  unfold getWorkerCount
  refine ⟨fun h => by rw [if_neg (by omega)], fun h => ?_, fun h => ?_⟩
  · rw [if_pos h]; split <;> omega
  · split <;> (try split) <;> omega

example : getWorkerCount 0 64 = 8 ∧ getWorkerCount 0 4 = 4 ∧ getWorkerCount 12 4 = 12 := by decide

/-- C42 does not hold: when neither the flag nor the configuration sets a thread count, the number of workers
is the number of CPUs, however large. -/
theorem C42_violated (n : Int) (h : 1 ≤ n) : installWorkers none none n = n := by
  simp [installWorkers, cfgThreads, getWorkerCount]; omega

example : ¬ installWorkers none none 64 ≤ 8 := by decide

/-- C42, what does hold: the cap applies when the thread count is explicitly set to a value below one, and
explicit positive settings are obeyed, the flag winning over the configuration. -/
theorem C42_explicit_partial (n : Int) (t : Int) (config : Option Int) :
    (t < 1 → installWorkers (some t) config n ≤ 8) ∧
    (t < 1 → installWorkers none (some t) n ≤ 8) ∧
    (1 ≤ t → installWorkers (some t) config n = t ∧ installWorkers none (some t) n = t) := by
  have h := C41_worker_count t n
  refine ⟨fun ht => ?_, fun ht => ?_, fun ht => ⟨?_, ?_⟩⟩
  · show getWorkerCount t n ≤ 8; rw [h.2.1 ht]; omega
  · show getWorkerCount t n ≤ 8; rw [h.2.1 ht]; omega
  · exact h.1 ht
  · exact h.1 ht

example : installWorkers (some 0) none 64 = 8 ∧ installWorkers (some 3) (some 5) 64 = 3 := by decide

/-! ## C43: the target library and a failing build -/

/-- C43: when the package's directory is already in the library nothing at all happens. -/
theorem C43_present_untouched (e : InstallEnv) (tmp : Path) (fs : Fs) (ir : InstallReq)
    (h : fs (ir.lib ++ [ir.pkg]) = some .dir) :
    (e.installThroughBinary tmp fs ir).fs = fs ∧ (e.installThroughBinary tmp fs ir).calls = [] ∧
    (e.installThroughBinary tmp fs ir).val = some { exitCode := -999, binary := none, err := false } := by
  unfold InstallEnv.installThroughBinary
  rw [if_pos (by simp [Fs.isDir, h])]
  exact ⟨rfl, rfl, rfl⟩

/-- When no R call targets the library, the library is unchanged. -/
theorem unchanged_of_no_call (e : InstallEnv) (tmp : Path) (fs : Fs) (ir : InstallReq)
    (hR : RConfined e.R ir.lib) (hA : Apart ir.lib tmp)
    (hc : ∀ c ∈ (e.installThroughBinary tmp fs ir).calls, c.lib ≠ ir.lib) :
    SameIn ir.lib fs (e.installThroughBinary tmp fs ir).fs := by
  intro p hp
  unfold InstallEnv.installThroughBinary at hc ⊢
  split
  · rfl
  rename_i h0
  rw [if_neg h0] at hc
  cases hcb : e.cachedBinary ir.download.metadata with
  | none => rfl
  | some bp =>
    simp only [hcb] at hc
    dsimp only
    have key : ∀ (fs : Fs) (path : PathArg) (b : Bool) (wd : Option Path) (st : Stamp),
        (∀ c ∈ (install e.R e.cwd fs ir.pkg path ir.lib b wd st).calls, c.lib ≠ ir.lib) →
        (install e.R e.cwd fs ir.pkg path ir.lib b wd st).fs p = fs p := by
      intro fs path b wd st hcc
      unfold install at hcc ⊢
      dsimp only at hcc ⊢
      split
      · rfl
      rename_i h1
      rw [if_neg h1] at hcc
      split
      · rfl
      rename_i h2
      rw [if_neg h2] at hcc
      exact absurd rfl (hcc _ (List.mem_singleton.2 rfl))
    split
    · rename_i h1
      rw [if_pos h1] at hc
      exact key _ _ _ _ _ hc
    · rename_i h1
      rw [if_neg h1] at hc
      unfold InstallEnv.build at hc ⊢
      dsimp only at hc ⊢
      have hfp := firstPass_same hR hA e.cwd fs ir.pkg (.abs (ir.download.path.resolve e.cwd)) true (some tmp)
        (e.stamp ir.download.metadata.config) p hp
      split
      · show (install _ _ _ _ _ _ _ _ _).fs p = fs p
        rw [install_other_lib hR hA _ _ _ _ _ _ _ _ hp, mkdirAll_other hA hp]
      · rename_i r hr
        simp only [hr] at hc
        split
        · rename_i h2
          rw [if_pos h2] at hc
          split
          · exact hfp
          · rename_i bbp hb
            simp only [hb] at hc
            split
            · exact hfp
            · rename_i h3
              rw [if_neg h3] at hc
              dsimp only at hc ⊢
              rw [key _ _ _ _ _ (fun c hcm => hc c (List.mem_append_right _ hcm))]
              exact hfp
        · exact hfp

/-- C43: when R's build pass (into the temporary directory) fails, R is never called on the target library
and the target library is exactly as before; when there was a source to build, a failure is reported. -/
theorem C43_failed_build (e : InstallEnv) (tmp : Path) (fs : Fs) (ir : InstallReq)
    (hR : RConfined e.R ir.lib) (hA : Apart ir.lib tmp)
    (hcache : ∀ bp, e.cachedBinary ir.download.metadata = some bp → fs bp = none)
    (hfail : BuildFails e tmp fs ir) :
    (∀ c ∈ (e.installThroughBinary tmp fs ir).calls, c.lib ≠ ir.lib) ∧
    SameIn ir.lib fs (e.installThroughBinary tmp fs ir).fs ∧
    (fs (ir.lib ++ [ir.pkg]) ≠ some .dir → e.platform.os ≠ .other → fs (ir.download.path.resolve e.cwd) ≠ none →
      (∀ c, fs tmp ≠ some (.file c)) →
      ∃ code, (e.installThroughBinary tmp fs ir).val = some { exitCode := code, binary := none, err := true }) := by
  have hne : tmp ≠ ir.lib := by rintro h; exact hA.1 (h ▸ List.prefix_refl _)
  have h1 : ∀ c ∈ (e.installThroughBinary tmp fs ir).calls, c.lib ≠ ir.lib := by
    unfold InstallEnv.installThroughBinary
    split
    · simp
    cases hcb : e.cachedBinary ir.download.metadata with
    | none => simp
    | some bp =>
      dsimp only
      rw [if_neg (by simp [Fs.ex, hcache bp hcb])]
      unfold InstallEnv.build
      dsimp only
      have hfirst : ∀ c ∈ (install e.R e.cwd (fs.mkdirAll tmp) ir.pkg (.abs (ir.download.path.resolve e.cwd)) tmp
          true (some tmp) (e.stamp ir.download.metadata.config)).calls, c.lib ≠ ir.lib := by
        intro c hc
        rw [(install_calls_lib hc).1]; exact hne
      split
      · exact hfirst
      · rename_i r hr
        split
        · rename_i hok
          exfalso
          obtain ⟨x, hx, hxn⟩ := hfail
          unfold install at hr
          dsimp only at hr
          split at hr
          · simp at hr
          · split at hr
            · simp at hr; subst hr; simp at hok
            · simp only [Option.getD_some, PathArg.resolve] at hr hx
              rw [hx] at hr
              simp only [Option.some.injEq] at hr
              subst hr
              cases x with
              | ok => exact hxn rfl
              | status n => simp [exitOf] at hok
              | notRun => simp [exitOf] at hok
        · exact hfirst
  refine ⟨h1, unchanged_of_no_call e tmp fs ir hR hA h1, ?_⟩
  intro hnd hos hsrc htmp
  unfold InstallEnv.installThroughBinary
  rw [if_neg (by simp [Fs.isDir, hnd])]
  cases hcb : e.cachedBinary ir.download.metadata with
  | none =>
    exfalso
    unfold InstallEnv.cachedBinary binaryNameOs at hcb
    cases ho : e.platform.os <;> simp [ho] at hcb hos
  | some bp =>
    dsimp only
    rw [if_neg (by simp [Fs.ex, hcache bp hcb])]
    unfold InstallEnv.build
    dsimp only
    have hexs : (fs.mkdirAll tmp).ex (ir.download.path.resolve e.cwd) = true := by
      unfold Fs.ex Fs.mkdirAll
      split
      · rfl
      · cases hz : fs (ir.download.path.resolve e.cwd) with
        | none => exact absurd hz hsrc
        | some n => rfl
    obtain ⟨x, hx, hxn⟩ := hfail
    have hv : (install e.R e.cwd (fs.mkdirAll tmp) ir.pkg (.abs (ir.download.path.resolve e.cwd)) tmp
          true (some tmp) (e.stamp ir.download.metadata.config)).val = some (exitOf x) := by
      rw [install_run _ _ _ _ _ _ _ _ _ (mkdirAll_isDir fs tmp htmp) hexs]
      dsimp only
      rw [hx]
    rw [hv]
    cases x with
    | ok => exact absurd rfl hxn
    | status n => exact ⟨n, by simp [exitOf]⟩
    | notRun => exact ⟨1, by simp [exitOf]⟩

/-- A small world: a library /lib with package a, a cache with the tarball of b, and an R that always creates
the package directory but fails when building. -/
def toyFs : Fs := fun p =>
  if p = [s%"lib"] ∨ p = [s%"lib", s%"a"] ∨ p = [s%"c"] ∨ p = [s%"tmp"] ∨ p = [s%"w"] then some .dir
  else if p = [s%"c", s%"b_1.tar.gz"] then some (.file (s%"source of b"))
  else none

/-- see `toyFs` -/
def toyR (buildOk : Bool) : ROracle := fun c fs =>
  (fun p => if p = c.lib ++ [c.pkg] ∧ (c.lib = [s%"lib"] ∨ c.lib = [s%"tmp", s%"t"]) then some .dir else fs p,
   if c.build && !buildOk then .status 1 else .ok)

/-- see `toyFs` -/
def toyEnv (buildOk : Bool) : InstallEnv :=
  { R := toyR buildOk, digest := fun _ => s%"0123456789ab", platform := { os := .linux }, rPlatform := s%"x86_64-pc-linux-gnu",
    rv := ⟨4, 1, 0⟩, cwd := [s%"w"], cache := [s%"cache"], pkgrVersion := s%"1" }

/-- see `toyFs` -/
def toyReq : InstallReq :=
  { pkg := s%"b", lib := [s%"lib"],
    download := { path := .abs [s%"c", s%"b_1.tar.gz"], metadata := { package := { package := s%"b", version := s%"1" } } } }

theorem toyR_confined (b : Bool) : RConfined (toyR b) [s%"lib"] := by
  intro c fs p hp h
  show (if p = c.lib ++ [c.pkg] ∧ (c.lib = [s%"lib"] ∨ c.lib = [s%"tmp", s%"t"]) then some Node.dir else fs p) = fs p
  split
  · rename_i hc
    obtain ⟨hc1, hc2⟩ := hc
    rcases hc2 with hc2 | hc2
    · rcases h with h | h
      · exact absurd hc2 h
      · exact absurd (by rw [hc1, hc2]; exact List.prefix_refl _) h.1
    · rw [hc1, hc2] at hp
      simp [List.cons_prefix_cons] at hp
  · rfl

/-- The hypotheses of `C43_failed_build` are met by the small world, and the library has something in it. -/
example : RConfined (toyEnv false).R toyReq.lib ∧ Apart toyReq.lib [s%"tmp", s%"t"] ∧
    (∀ bp, (toyEnv false).cachedBinary toyReq.download.metadata = some bp → toyFs bp = none) ∧
    BuildFails (toyEnv false) [s%"tmp", s%"t"] toyFs toyReq ∧
    toyFs (toyReq.lib ++ [toyReq.pkg]) ≠ some .dir ∧ toyFs (toyReq.download.path.resolve (toyEnv false).cwd) ≠ none ∧
    toyFs (toyReq.lib ++ [s%"a"]) = some .dir :=
  ⟨toyR_confined false, by decide, by
    intro bp h
    have : bp = [s%"cache", s%"-0123456789ab", s%"binary", s%"4.1", s%"b_1_R_x86_64-pc-linux-gnu.tar.gz"] := by
      have h2 : (toyEnv false).cachedBinary toyReq.download.metadata =
        some [s%"cache", s%"-0123456789ab", s%"binary", s%"4.1", s%"b_1_R_x86_64-pc-linux-gnu.tar.gz"] := by decide
      rw [h2] at h; simpa using h.symm
    subst this; decide,
   ⟨.status 1, by decide, by decide⟩, by decide, by decide, by decide⟩

/-- C43: whatever happens, everything in the library outside the package's own directory (and R's lock) is
unchanged. -/
theorem C43_only_own_package (e : InstallEnv) (tmp : Path) (fs : Fs) (ir : InstallReq)
    (hR : RConfined e.R ir.lib) (hA : Apart ir.lib tmp) (p : Path) (hp : ir.lib <+: p)
    (h1 : ¬ (ir.lib ++ [ir.pkg]) <+: p) (h2 : ¬ (ir.lib ++ [lockName ir.pkg]) <+: p) :
    (e.installThroughBinary tmp fs ir).fs p = fs p := by
  unfold InstallEnv.installThroughBinary
  split
  · rfl
  cases hcb : e.cachedBinary ir.download.metadata with
  | none => rfl
  | some bp =>
    dsimp only
    split
    · exact install_this_lib hR _ _ _ _ _ _ _ _ hp h1 h2
    · unfold InstallEnv.build
      dsimp only
      have hfp := firstPass_same hR hA e.cwd fs ir.pkg (.abs (ir.download.path.resolve e.cwd)) true (some tmp)
        (e.stamp ir.download.metadata.config) p hp
      split
      · show (install _ _ _ _ _ _ _ _ _).fs p = fs p
        rw [install_other_lib hR hA _ _ _ _ _ _ _ _ hp, mkdirAll_other hA hp]
      · split
        · split
          · exact hfp
          · split
            · exact hfp
            · dsimp only
              rw [install_this_lib hR _ _ _ _ _ _ _ _ hp h1 h2]
              exact hfp
        · exact hfp

/-- C43: R is called on the target library at most once, as the last call, with an already built binary. -/
theorem C43_target_last (e : InstallEnv) (tmp : Path) (fs : Fs) (ir : InstallReq) (hne : tmp ≠ ir.lib) :
    ∀ pre c post, (e.installThroughBinary tmp fs ir).calls = pre ++ c :: post → c.lib = ir.lib →
      post = [] ∧ c.build = false ∧ (∀ c' ∈ pre, c'.lib = tmp ∧ c'.build = true) := by
  have one : ∀ (l : List RCall), l.length ≤ 1 → ∀ pre c post, l = pre ++ c :: post → pre = [] ∧ post = [] ∧ l = [c] := by
    intro l hl pre c post he
    subst he
    simp only [List.length_append, List.length_cons] at hl
    have h1 : pre = [] := List.eq_nil_of_length_eq_zero (by omega)
    have h2 : post = [] := List.eq_nil_of_length_eq_zero (by omega)
    subst h1; subst h2; simp
  intro pre c post hc hl
  unfold InstallEnv.installThroughBinary at hc
  split at hc
  · simp at hc
  cases hcb : e.cachedBinary ir.download.metadata with
  | none => simp [hcb] at hc
  | some bp =>
    simp only [hcb] at hc
    split at hc
    · dsimp only at hc
      obtain ⟨a1, a2, a3⟩ := one _ (install_calls_length ..) _ _ _ hc
      subst a1; subst a2
      have := install_calls_lib (c := c) (by rw [a3]; simp)
      exact ⟨rfl, this.2.2, by simp⟩
    · unfold InstallEnv.build at hc
      dsimp only at hc
      have hfirst : ∀ pre post, (install e.R e.cwd (fs.mkdirAll tmp) ir.pkg (.abs (ir.download.path.resolve e.cwd)) tmp
          true (some tmp) (e.stamp ir.download.metadata.config)).calls = pre ++ c :: post → False := by
        intro pre post h
        have := install_calls_lib (c := c) (by rw [h]; simp)
        rw [this.1] at hl
        exact hne hl
      split at hc
      · exact (hfirst _ _ hc).elim
      · split at hc
        · split at hc
          · exact (hfirst _ _ hc).elim
          · split at hc
            · exact (hfirst _ _ hc).elim
            · dsimp only at hc
              rcases List.append_eq_append_iff.1 hc with ⟨a, ha, hb⟩ | ⟨a, ha, hb⟩
              · obtain ⟨a1, a2, a3⟩ := one _ (install_calls_length ..) _ _ _ hb
                subst a1; subst a2
                have h3 := install_calls_lib (c := c) (by rw [a3]; simp)
                refine ⟨rfl, h3.2.2, ?_⟩
                intro c' hc'
                rw [ha] at hc'
                simp only [List.append_nil] at hc'
                have h4 := install_calls_lib hc'
                exact ⟨h4.1, h4.2.2⟩
              · cases a with
                | nil =>
                  simp only [List.append_nil] at ha
                  simp only [List.nil_append] at hb
                  have h5 := one _ (install_calls_length e.R e.cwd _ ir.pkg _ ir.lib false (some tmp) _) [] c post hb.symm
                  have h3 := install_calls_lib (c := c) (by rw [h5.2.2]; simp)
                  refine ⟨h5.2.1, h3.2.2, ?_⟩
                  intro c' hc'
                  rw [← ha] at hc'
                  have h4 := install_calls_lib hc'
                  exact ⟨h4.1, h4.2.2⟩
                | cons x a =>
                  simp only [List.cons_append, List.cons.injEq] at hb
                  obtain ⟨rfl, _⟩ := hb
                  exact (hfirst _ _ ha).elim
        · exact (hfirst _ _ hc).elim

/-! ## C81: reported success -/

/-- C81 does not hold: when the package file is missing, no R process is run, the package is not installed, and
the error is nil (so `InstallPackagePlan` counts the package as installed). -/
theorem C81_violated (e : InstallEnv) (tmp : Path) (fs : Fs) (ir : InstallReq)
    (hnd : fs (ir.lib ++ [ir.pkg]) = none) (hos : e.platform.os ≠ .other)
    (hcache : ∀ bp, e.cachedBinary ir.download.metadata = some bp → fs bp = none)
    (htmp : ∀ c, fs tmp ≠ some (.file c)) (hA : Apart ir.lib tmp)
    (hsrc : fs (ir.download.path.resolve e.cwd) = none) (hs2 : ¬ ir.download.path.resolve e.cwd <+: tmp) :
    (e.installThroughBinary tmp fs ir).calls = [] ∧
    (e.installThroughBinary tmp fs ir).val = some { exitCode := 1, binary := none, err := false } ∧
    (e.installThroughBinary tmp fs ir).fs (ir.lib ++ [ir.pkg]) = none := by
  unfold InstallEnv.installThroughBinary
  rw [if_neg (by simp [Fs.isDir, hnd])]
  cases hcb : e.cachedBinary ir.download.metadata with
  | none =>
    exfalso
    unfold InstallEnv.cachedBinary binaryNameOs at hcb
    cases ho : e.platform.os <;> simp [ho] at hcb hos
  | some bp =>
    dsimp only
    rw [if_neg (by simp [Fs.ex, hcache bp hcb])]
    unfold InstallEnv.build
    dsimp only
    have hexs : (fs.mkdirAll tmp).ex (ir.download.path.resolve e.cwd) = false := by
      unfold Fs.ex Fs.mkdirAll
      rw [if_neg (fun h => hs2 h.1), hsrc]; rfl
    rw [install_missing _ _ _ _ _ _ _ _ _ (mkdirAll_isDir fs tmp htmp) hexs]
    refine ⟨by simp, by simp, ?_⟩
    simp only [Int.reduceEq, decide_false, Bool.and_false, Bool.false_eq_true, if_false, Bool.not_false]
    unfold cleanTmp
    split
    · rw [removeAll_other hA (List.prefix_append _ _), mkdirAll_other hA (List.prefix_append _ _), hnd]
    · rw [mkdirAll_other hA (List.prefix_append _ _), hnd]

example : toyFs (toyReq.lib ++ [toyReq.pkg]) = none ∧ (toyEnv true).platform.os ≠ .other ∧
    toyFs (({ toyReq with download := { toyReq.download with path := .abs [s%"c", s%"gone.tar.gz"] } } : InstallReq).download.path.resolve
      (toyEnv true).cwd) = none ∧ ¬ [s%"c", s%"gone.tar.gz"] <+: [s%"tmp", s%"t"] := by decide

/-- What a build that succeeded has left in the temporary directory, apart from the package's own directory there, was
put there by R. -/
theorem install_built {R : ROracle} {cwd : Path} {fs : Fs} {pkg : Str} {path : PathArg} {lib : Path} {b : Bool}
    {wd : Option Path} {st : Stamp} {r : CmdRet}
    (h : (install R cwd fs pkg path lib b wd st).val = some r) (he : r.err = false) (hx : r.exitCode = 0) (x : Str) (n : Node)
    (hn : cleanTmp (install R cwd fs pkg path lib b wd st).fs (lib ++ [pkg]) (lib ++ [x]) = some n) :
    (R { pkg := pkg, lib := lib, build := b, src := path.resolve (wd.getD cwd), workDir := wd.getD cwd } fs).2 = .ok ∧
    (R { pkg := pkg, lib := lib, build := b, src := path.resolve (wd.getD cwd), workDir := wd.getD cwd } fs).1 (lib ++ [x]) = some n := by
  have hn' : (install R cwd fs pkg path lib b wd st).fs (lib ++ [x]) = some n := by
    unfold cleanTmp Fs.removeAll at hn
    split at hn
    · dsimp only at hn
      split at hn
      · cases hn
      · exact hn
    · exact hn
  unfold install at h hn'
  dsimp only at h hn'
  split at h
  · simp at h
  · rename_i h0
    rw [if_neg h0] at hn'
    split at h
    · simp at h; subst h; simp at hx
    · rename_i h1
      rw [if_neg h1] at hn'
      dsimp only at h hn'
      simp only [Option.some.injEq] at h
      subst h
      have hok : (R { pkg := pkg, lib := lib, build := b, src := path.resolve (wd.getD cwd), workDir := wd.getD cwd } fs).2 = .ok := by
        revert he
        cases (R { pkg := pkg, lib := lib, build := b, src := path.resolve (wd.getD cwd), workDir := wd.getD cwd } fs).2 <;> simp [exitOf]
      rw [if_pos hok, stampFile_other] at hn'
      · exact ⟨hok, hn'⟩
      · simp

/-- C81, what does hold: if R keeps its promise that status 0 means installed when it is given a package file of the
package, if the downloaded file and a cached binary that is there are such files, then a result with nil error
and exit code 0 means that the package's directory is in the library, on every path through the code. -/
theorem C81_success_partial (e : InstallEnv) (tmp : Path) (fs : Fs) (ir : InstallReq) {Src : Str → Node → Prop}
    (hI : RInstalls e.R Src) (hB : RBuilds e Src)
    (hsrc : ∃ n, fs (ir.download.path.resolve e.cwd) = some n ∧ Src ir.pkg n)
    (hcache : ∀ b n, e.cachedBinary ir.download.metadata = some b → fs b = some n → Src ir.pkg n)
    (hname : ∀ bbp, binaryExtOs e.platform.os (basePath (ir.download.path.resolve e.cwd)) e.rPlatform = some bbp →
      joinPath tmp bbp = tmp ++ [bbp])
    (r : InstallRet) (h : (e.installThroughBinary tmp fs ir).val = some r) (he : r.err = false)
    (hx : r.exitCode = 0 ∨ r.exitCode = -999) :
    (e.installThroughBinary tmp fs ir).fs (ir.lib ++ [ir.pkg]) = some .dir := by
  unfold InstallEnv.installThroughBinary at h ⊢
  split
  · rename_i h0; simpa [Fs.isDir] using h0
  rename_i h0
  rw [if_neg h0] at h
  cases hcb : e.cachedBinary ir.download.metadata with
  | none => simp [hcb] at h
  | some bp =>
    simp only [hcb] at h
    dsimp only
    split
    · rename_i h1
      rw [if_pos h1] at h
      dsimp only at h ⊢
      simp only [Option.map_eq_some_iff] at h
      obtain ⟨c, hc, rfl⟩ := h
      dsimp only at he hx
      have hz : c.exitCode = 0 := install_err_of_exists (by simpa [PathArg.resolve] using h1) hc he
      exact install_success hI (fun n hn => hcache bp n hcb hn) hc he hz
    · rename_i h1
      rw [if_neg h1] at h
      unfold InstallEnv.build at h ⊢
      dsimp only at h ⊢
      split
      · rename_i hr1
        simp [hr1] at h
      · rename_i r1 hr1
        simp only [hr1] at h
        split at h
        · rename_i h2
          rw [if_pos h2]
          split
          · rename_i hb
            simp [hb] at h
          · rename_i bbp hb
            simp only [hb] at h
            split at h
            · simp only [Option.some.injEq] at h; subst h; simp at he
            · rename_i h3
              rw [if_neg h3]
              simp only [Option.map_eq_some_iff] at h
              obtain ⟨c, hc, rfl⟩ := h
              dsimp only at he hx
              have hz : c.exitCode = 0 := install_err_of_exists (by simpa [PathArg.resolve] using h3) hc he
              refine install_success hI (fun n hn => ?_) hc he hz
              rw [Bool.and_eq_true] at h2
              have hj := hname bbp hb
              simp only [PathArg.resolve] at hn
              rw [hj] at hn
              obtain ⟨g1, g2⟩ := install_built hr1 (by simpa using h2.1) (by simpa using h2.2) bbp n hn
              obtain ⟨m, hm1, hm2⟩ := hsrc
              refine hB _ _ m g1 rfl ?_ hm2 bbp n hb g2
              show (fs.mkdirAll tmp) (ir.download.path.resolve e.cwd) = some m
              unfold Fs.mkdirAll
              rw [if_neg]
              · exact hm1
              · rintro ⟨_, h⟩; rw [hm1] at h; cases h
        · rename_i h2
          exfalso
          simp only [Option.some.injEq] at h
          subst h
          dsimp only at he hx
          rcases hx with hx | hx
          · apply h2; simp [he, hx]
          · -- exit code -999 is never returned by `Install` with a nil error
            have h5 : r1.err = false → r1.exitCode = 0 ∨ r1.exitCode = 1 := install_codes hr1
            have := h5 he
            omega

/-- An R that installs, and builds if told to, whatever file it is given that is not empty. -/
def fileR : ROracle := fun c fs =>
  match fs c.src with
  | some (.file (_ :: _)) =>
    (fun p => if p = c.lib ++ [c.pkg] then some .dir
      else if c.build = true ∧ some p = (binaryExtOs .linux (basePath c.src) (s%"x86_64-pc-linux-gnu")).map fun x => c.workDir ++ [x] then
        some (.file (s%"bin"))
      else fs p,
      if some (c.lib ++ [c.pkg]) = (binaryExtOs .linux (basePath c.src) (s%"x86_64-pc-linux-gnu")).map (fun x => c.workDir ++ [x]) then .status 1
      else .ok)
  | _ => (fs, .status 1)

/-- see `fileR` -/
def fileEnv : InstallEnv := { toyEnv true with R := fileR }

/-- A file that is not empty. -/
def FileSrc (_ : Str) (n : Node) : Prop := ∃ c cs, n = .file (c :: cs)

/-- Non-vacuity of C81: `b` is built and installed. -/
example : RInstalls fileEnv.R FileSrc ∧ RBuilds fileEnv FileSrc ∧
    (∃ n, toyFs (toyReq.download.path.resolve fileEnv.cwd) = some n ∧ FileSrc toyReq.pkg n) ∧
    (∃ b, fileEnv.cachedBinary toyReq.download.metadata = some b ∧ toyFs b = none) ∧
    (∃ bbp, binaryExtOs fileEnv.platform.os (basePath (toyReq.download.path.resolve fileEnv.cwd)) fileEnv.rPlatform = some bbp ∧
      joinPath [s%"tmp", s%"t"] bbp = [s%"tmp", s%"t"] ++ [bbp]) ∧
    (fileEnv.installThroughBinary [s%"tmp", s%"t"] toyFs toyReq).val =
      some { exitCode := 0, binary := some [s%"tmp", s%"t", s%"b_1_R_x86_64-pc-linux-gnu.tar.gz"], err := false } := by
  refine ⟨?_, ?_, ⟨_, rfl, 's', s%"ource of b", rfl⟩, ⟨_, rfl, by decide⟩, ⟨_, rfl, by decide⟩, by decide +kernel⟩
  · rintro c fs n h hf ⟨x, xs, rfl⟩
    show (fileR c fs).1 _ = _
    simp [fileR, hf]
  · rintro c fs n h hb hf ⟨x, xs, rfl⟩ bbp n' he hn
    change (fileR c fs).1 _ = _ at hn
    have he' : binaryExtOs .linux (basePath c.src) (s%"x86_64-pc-linux-gnu") = some bbp := he
    simp only [fileR, hf] at hn
    by_cases h1 : c.workDir ++ [bbp] = c.lib ++ [c.pkg]
    · exfalso
      change (fileR c fs).2 = _ at h
      simp only [fileR, hf] at h
      rw [if_pos (by rw [he', ← h1]; rfl)] at h
      cases h
    · rw [if_neg h1, if_pos ⟨hb, by rw [he']; rfl⟩] at hn
      cases hn
      exact ⟨_, _, rfl⟩

/-! ## C44: names of binaries -/

/-- C44: the name R gives the built binary (as pkgr derives it from the tarball's name) is the name under which
the cache is searched. -/
theorem C44_names_agree_partial (os : OS) (pkg version platform : Str)
    (h : ¬ (s%"tar.gz") <:+: (pkg ++ s%"_" ++ version)) :
    binaryExtOs os (sourceName pkg version) platform = binaryNameOs os pkg version platform := by
  have h2 : ¬ (s%".tar.gz") <:+: (pkg ++ s%"_" ++ version) := fun hi =>
    h (List.IsInfix.trans ⟨s%".", [], rfl⟩ hi)
  unfold binaryExtOs binaryNameOs sourceName
  cases os with
  | darwin => simp only [replaceFirst_targz _ _ h]; simp
  | windows => simp only [replaceFirst_targz _ _ h]; simp
  | linux => simp only [replaceFirst_dottargz _ _ h2]; simp
  | other => rfl

example : ¬ (s%"tar.gz") <:+: (s%"R6" ++ s%"_" ++ s%"2.5.0") ∧
    binaryExtOs .linux (sourceName (s%"R6") (s%"2.5.0")) (s%"x86_64-pc-linux-gnu") = some (s%"R6_2.5.0_R_x86_64-pc-linux-gnu.tar.gz") := by
  decide

/-- C44 does not hold for every legal R package name. -/
theorem C44_violated_name : ∀ os ∈ [OS.darwin, OS.windows, OS.linux],
    binaryExtOs os (sourceName (s%"a.tar.gz") (s%"1.0")) (s%"p") ≠ binaryNameOs os (s%"a.tar.gz") (s%"1.0") (s%"p") := by
  decide

/-- C44: the place where the built binary of a downloaded source package is stored is the place where the next
run looks for it. -/
theorem C44_stored_where_searched_partial (e : InstallEnv) (de : DlEnv) (d : PkgDl) (tmp : Path) (bbp : Str)
    (hd : de.digest = e.digest) (hb : de.base = e.cache) (hty : resolveType de.platform d.config.type ≠ .binary)
    (hn : '/' ∉ d.package.package ++ d.package.version ++ e.rPlatform)
    (ht : ¬ (s%"tar.gz") <:+: (d.package.package ++ s%"_" ++ d.package.version))
    (hbbp : binaryExtOs e.platform.os (basePath (de.dest d)) e.rPlatform = some bbp) :
    e.cachedBinary d = some (e.storeBinary { path := .abs (de.dest d) } (joinPath tmp bbp)) := by
  simp only [List.mem_append, not_or] at hn
  obtain ⟨⟨hn1, hn2⟩, hn3⟩ := hn
  have hsl : '/' ∉ sourceName d.package.package d.package.version := by
    simp [sourceName, hn1, hn2]
  have hlen : 3 ≤ (sourceName d.package.package d.package.version).length := by simp [sourceName]; omega
  have hdest : de.dest d = joinPaths e.cache [repoUrlHash e.digest d.config.repo] ++
      [s%"src", sourceName d.package.package d.package.version] := by
    have : de.dest d = joinPaths de.base [repoUrlHash de.digest d.config.repo, s%"src", sourceName d.package.package d.package.version] := by
      unfold DlEnv.dest
      cases hr : resolveType de.platform d.config.type with
      | binary => exact absurd hr hty
      | source => rfl
      | default => rfl
    rw [this, hd, hb]
    simp only [joinPaths, List.foldl_cons, List.foldl_nil]
    rw [joinPath_long _ _ hlen hsl, joinPath_long _ (s%"src") (by decide) (by decide)]
    simp
  have hbase : basePath (de.dest d) = sourceName d.package.package d.package.version := by
    rw [hdest]; simp [basePath]
  rw [hbase, C44_names_agree_partial _ _ _ _ ht] at hbbp
  have hsb : '/' ∉ bbp ∧ 3 ≤ bbp.length := by
    unfold binaryNameOs at hbbp
    cases ho : e.platform.os <;> simp only [ho, Option.some.injEq, reduceCtorEq] at hbbp <;> subst hbbp <;>
      simp [hn1, hn2, hn3] <;> omega
  have hbp : basePath (joinPath tmp bbp) = bbp := by
    rw [joinPath_long _ _ hsb.2 hsb.1]; simp [basePath]
  unfold InstallEnv.cachedBinary InstallEnv.storeBinary
  rw [hbbp, hbp, hdest]
  simp only [Option.map_some, PathArg.dirDir, dirPath, joinPaths, List.foldl_cons, List.foldl_nil]
  congr 3
  simp [List.dropLast_append_of_ne_nil]

/-- C44: a downloaded Linux binary is found in the cache exactly when R's platform string is the one pkgr
hard-codes. -/
theorem C44_downloaded_binary (e : InstallEnv) (de : DlEnv) (d : PkgDl)
    (hd : de.digest = e.digest) (hb : de.base = e.cache) (hrv : de.rv = e.rv) (hp : de.platform = e.platform)
    (hos : e.platform.os = .linux) (hrh : de.rhel = false) (hty : d.config.type = .binary)
    (hn : '/' ∉ d.package.package ++ d.package.version ++ e.rPlatform) :
    e.cachedBinary d = some (de.dest d) ↔ e.rPlatform = s%"x86_64-pc-linux-gnu" := by
  simp only [List.mem_append, not_or] at hn
  obtain ⟨⟨hn1, hn2⟩, hn3⟩ := hn
  unfold InstallEnv.cachedBinary DlEnv.dest
  rw [hd, hb, hrv, hp, hty]
  simp only [resolveType, hos, binaryNameOs, cranBinaryName, hrh, Bool.false_eq_true, if_false, Option.map_some,
    Option.some.injEq, joinPaths, List.foldl_cons, List.foldl_nil, reduceCtorEq]
  generalize joinPath _ e.rv.toStr = X
  rw [joinPath_long X (d.package.package ++ _ ++ _ ++ _ ++ _ ++ _) (by simp; omega) (by simp [hn1, hn2, hn3]),
    joinPath_long X (d.package.package ++ _ ++ _ ++ _) (by simp; omega) (by simp [hn1, hn2])]
  constructor
  · intro h
    have h3 : e.rPlatform ++ s%".tar.gz" = s%"x86_64-pc-linux-gnu" ++ s%".tar.gz" := by
      simpa using h
    exact List.append_cancel_right h3
  · intro h; rw [h]; simp

example : (toyEnv true).rPlatform = s%"x86_64-pc-linux-gnu" := rfl

/-! ## C48: stamping a DESCRIPTION -/

theorem notInfix_append_of_char {m a b : Str} {c : Char} (hm : m.head? = some c) (ha : c ∉ a) (h : m <:+: a ++ b) :
    m <:+: b := by
  induction a with
  | nil => simpa using h
  | cons x a ih =>
    rw [List.cons_append, List.infix_cons_iff] at h
    rcases h with h | h
    · cases m with
      | nil => simp at hm
      | cons y m =>
        simp only [List.head?_cons, Option.some.injEq] at hm
        rw [List.cons_prefix_cons] at h
        exact absurd (by rw [← hm, h.1]; simp) ha
    · exact ih (fun hc => ha (List.mem_cons_of_mem _ hc)) h

theorem trimBlanks_infix (s : Str) : trimBlanks s <:+: s :=
  (trimRightBy_prefix _ _).isInfix.trans (List.dropWhile_suffix _).isInfix

theorem splitOn_mem_infix (c : Char) (s w : Str) (h : w ∈ splitOn c s) : w <:+: s := by
  induction s generalizing w with
  | nil => simp [splitOn] at h; subst h; exact List.infix_refl _
  | cons x s ih =>
    have key : ∀ w ∈ splitOn c s, w <:+: x :: s := fun w hw => (ih w hw).trans (List.suffix_cons x s).isInfix
    unfold splitOn at h
    split at h
    · rcases List.mem_cons.1 h with rfl | h
      · exact List.nil_infix
      · exact key w h
    · rename_i hne
      cases hs : splitOn c s with
      | nil => exact absurd hs (splitOn_ne_nil c s)
      | cons y ys =>
        simp only [hs] at h
        rcases List.mem_cons.1 h with rfl | h
        · -- the first piece is a prefix
          have hp : ∀ (s : Str) y ys, splitOn c s = y :: ys → y <+: s := by
            intro s
            induction s with
            | nil => intro y ys h; simp [splitOn] at h; rw [h.1]; exact List.nil_prefix
            | cons z s ihs =>
              intro y ys h
              unfold splitOn at h
              split at h
              · simp only [List.cons.injEq] at h; rw [← h.1]; exact List.nil_prefix
              · cases hs2 : splitOn c s with
                | nil => exact absurd hs2 (splitOn_ne_nil c s)
                | cons u us =>
                  simp only [hs2, List.cons.injEq] at h
                  rw [← h.1]
                  exact List.cons_prefix_cons.2 ⟨rfl, ihs u us hs2⟩
          exact (List.cons_prefix_cons.2 ⟨rfl, hp s y ys hs⟩).isInfix
        · exact key w (by rw [hs]; exact List.mem_cons_of_mem _ h)

theorem isPkgrLine_false_iff (l : Str) : isPkgrLine l = false ↔ NoMarker l := by
  unfold isPkgrLine NoMarker
  rw [← contains_iff, ← contains_iff, ← contains_iff]
  cases contains l (s%"PkgrVersion:") <;> cases contains l (s%"PkgrInstallType:") <;>
    cases contains l (s%"PkgrRepositoryURL") <;> simp

theorem Spec.NoMarker.of_infix {a b : Str} (h : a <:+: b) (hb : NoMarker b) : NoMarker a :=
  ⟨fun h1 => hb.1 (h1.trans h), fun h1 => hb.2.1 (h1.trans h), fun h1 => hb.2.2 (h1.trans h)⟩

theorem Spec.NoMarker.append {a b : Str} (ha : 'P' ∉ a) (hb : NoMarker b) : NoMarker (a ++ b) :=
  ⟨fun h => hb.1 (notInfix_append_of_char rfl ha h), fun h => hb.2.1 (notInfix_append_of_char rfl ha h),
   fun h => hb.2.2 (notInfix_append_of_char rfl ha h)⟩

/-- C48: the three pkgr lines are at the end and say what they should; nothing else in the result mentions
them; and all lines that are neither about pkgr nor about the repository are kept, in order. -/
theorem C48_other_lines_partial (lines : List Str) (st : Stamp) :
    (∃ body, stampLines lines st = body ++ [s%"PkgrVersion: " ++ st.version, s%"PkgrInstallType: " ++ st.installType,
        s%"PkgrRepositoryURL: " ++ st.repoURL] ∧
      (NoMarker st.repo → ∀ l ∈ body, NoMarker l)) ∧
    otherLines (stampLines lines st) = otherLines lines := by
  constructor
  · refine ⟨lines.flatMap (stampLine st.repo), rfl, ?_⟩
    intro hrepo l hl
    obtain ⟨x, _, hx⟩ := List.mem_flatMap.1 hl
    unfold stampLine at hx
    split at hx
    · simp at hx
    · rename_i h1
      have hxm : NoMarker x := (isPkgrLine_false_iff x).1 (by simpa using h1)
      split at hx
      · simp only [List.mem_cons, List.not_mem_nil, or_false] at hx
        rcases hx with rfl | rfl
        · refine NoMarker.append (by decide) (NoMarker.of_infix (trimBlanks_infix _) ?_)
          cases hg : (splitOn ':' x)[1]? with
          | none => simp only [Option.getD_none]; decide
          | some w => exact NoMarker.of_infix (splitOn_mem_infix _ _ _ (List.mem_of_getElem? hg)) hxm
        · exact NoMarker.append (by decide) hrepo
      · simp only [List.mem_singleton] at hx; subst hx; exact hxm
  · have hl : ∀ x, otherLines (stampLine st.repo x) = if decide (otherLine x) = true then [x] else [] := by
      intro x
      unfold stampLine
      split
      · rename_i h1
        rw [if_neg]
        · rfl
        · simp only [decide_eq_true_eq]
          intro ho
          have := (isPkgrLine_false_iff x).2 ⟨ho.1, ho.2.1, ho.2.2.1⟩
          rw [this] at h1; exact Bool.false_ne_true h1
      · split
        · rename_i h2
          simp only [Bool.and_eq_true] at h2
          have h3 := (hasPrefix_iff _ _).1 h2.1
          rw [if_neg (by simp only [decide_eq_true_eq]; exact fun ho => ho.2.2.2.1 h3)]
          have ha : ∀ y, ¬ otherLine (s%"OriginalRepository: " ++ y) := fun y ho => ho.2.2.2.2 ⟨s%" " ++ y, by simp⟩
          have hb : ∀ y, ¬ otherLine (s%"Repository: " ++ y) := fun y ho => ho.2.2.2.1 ⟨s%" " ++ y, by simp⟩
          simp only [otherLines, List.filter_cons, decide_eq_true_eq]
          rw [if_neg (ha _), if_neg (hb _)]
          rfl
        · simp only [otherLines, List.filter_cons, List.filter_nil]
    unfold stampLines
    have htail : otherLines [s%"PkgrVersion: " ++ st.version, s%"PkgrInstallType: " ++ st.installType,
        s%"PkgrRepositoryURL: " ++ st.repoURL] = [] := by
      have ha : ∀ y, ¬ otherLine (s%"PkgrVersion: " ++ y) := fun y ho => ho.1 ⟨[], s%" " ++ y, by simp⟩
      have hb : ∀ y, ¬ otherLine (s%"PkgrInstallType: " ++ y) := fun y ho => ho.2.1 ⟨[], s%" " ++ y, by simp⟩
      have hc : ∀ y, ¬ otherLine (s%"PkgrRepositoryURL: " ++ y) := fun y ho => ho.2.2.1 ⟨[], s%": " ++ y, by simp⟩
      simp only [otherLines, List.filter_cons, decide_eq_true_eq]
      rw [if_neg (ha _), if_neg (hb _), if_neg (hc _)]
      rfl
    have happ : ∀ a b, otherLines (a ++ b) = otherLines a ++ otherLines b := fun a b => List.filter_append a b
    rw [happ, htail, List.append_nil]
    induction lines with
    | nil => rfl
    | cons x xs ih =>
      rw [List.flatMap_cons, happ, hl, ih]
      simp only [otherLines, List.filter_cons]
      split <;> simp

/-- C48: stamping again with the same data changes nothing. -/
theorem C48_idempotent (lines : List Str) (st : Stamp) (h : NoMarker st.repo) :
    stampLines (stampLines lines st) st = stampLines lines st := by
  have hfix : ∀ x, ∀ y ∈ stampLine st.repo x, stampLine st.repo y = [y] := by
    intro x y hy
    unfold stampLine at hy
    split at hy
    · simp at hy
    · rename_i h1
      have hxm : NoMarker x := (isPkgrLine_false_iff x).1 (by simpa using h1)
      split at hy
      · rename_i h2
        simp only [List.mem_cons, List.not_mem_nil, or_false] at hy
        rcases hy with rfl | rfl
        · unfold stampLine
          have hm : NoMarker (s%"OriginalRepository: " ++ trimBlanks ((splitOn ':' x)[1]?.getD [])) := by
            refine NoMarker.append (by decide) (NoMarker.of_infix (trimBlanks_infix _) ?_)
            cases hg : (splitOn ':' x)[1]? with
            | none => simp only [Option.getD_none]; decide
            | some w => exact NoMarker.of_infix (splitOn_mem_infix _ _ _ (List.mem_of_getElem? hg)) hxm
          rw [(isPkgrLine_false_iff _).2 hm]
          have hp : hasPrefix (s%"OriginalRepository: " ++ trimBlanks ((splitOn ':' x)[1]?.getD [])) (s%"Repository:") = false := by
            simp [hasPrefix]
          rw [hp]; simp
        · unfold stampLine
          rw [(isPkgrLine_false_iff _).2 (NoMarker.append (by decide) h)]
          simp
      · rename_i h2
        simp only [List.mem_singleton] at hy
        subst hy
        unfold stampLine
        rw [if_neg h1, if_neg h2]
  unfold stampLines
  rw [List.flatMap_append]
  have h1 : (lines.flatMap (stampLine st.repo)).flatMap (stampLine st.repo) = lines.flatMap (stampLine st.repo) := by
    have : ∀ l : List Str, (∀ y ∈ l, stampLine st.repo y = [y]) → l.flatMap (stampLine st.repo) = l := by
      intro l hl
      induction l with
      | nil => rfl
      | cons y l ih =>
        rw [List.flatMap_cons, hl y (by simp), ih (fun z hz => hl z (by simp [hz]))]
        rfl
    apply this
    intro y hy
    obtain ⟨x, _, hx⟩ := List.mem_flatMap.1 hy
    exact hfix x y hx
  rw [h1]
  have hz : ∀ l, isPkgrLine l = true → stampLine st.repo l = [] := fun l hl => by unfold stampLine; rw [if_pos hl]
  have e1 : isPkgrLine (s%"PkgrVersion: " ++ st.version) = true := by
    have := (contains_iff (s%"PkgrVersion: " ++ st.version) (s%"PkgrVersion:")).2 ⟨[], s%" " ++ st.version, by simp⟩
    simp only [isPkgrLine, this, Bool.true_or]
  have e2 : isPkgrLine (s%"PkgrInstallType: " ++ st.installType) = true := by
    have := (contains_iff (s%"PkgrInstallType: " ++ st.installType) (s%"PkgrInstallType:")).2 ⟨[], s%" " ++ st.installType, by simp⟩
    simp only [isPkgrLine, this, Bool.true_or, Bool.or_true]
  have e3 : isPkgrLine (s%"PkgrRepositoryURL: " ++ st.repoURL) = true := by
    have := (contains_iff (s%"PkgrRepositoryURL: " ++ st.repoURL) (s%"PkgrRepositoryURL")).2 ⟨[], s%": " ++ st.repoURL, by simp⟩
    simp only [isPkgrLine, this, Bool.or_true]
  simp only [List.flatMap_cons, List.flatMap_nil, hz _ e1, hz _ e2, hz _ e3, List.append_nil]

example : NoMarker (s%"CRAN") ∧
    stampLines [s%"Package: a", s%"Repository: MPN", s%"PkgrVersion: 0"] ⟨s%"1", s%"source", s%"u", s%"CRAN"⟩ =
      [s%"Package: a", s%"OriginalRepository: MPN", s%"Repository: CRAN", s%"PkgrVersion: 1", s%"PkgrInstallType: source",
       s%"PkgrRepositoryURL: u"] := by decide

/-- C48 does not hold in full: a line that merely mentions the marker text is deleted, whatever field it
belongs to. -/
theorem C48_violated_dropped : ∃ line, ¬ (s%"PkgrRepositoryURL") <+: line ∧ (s%"Description: ") <+: line ∧
    ∀ st : Stamp, line ∉ stampLines [line] st ∨ line = s%"PkgrRepositoryURL: " ++ st.repoURL := by
  refine ⟨s%"Description: reads the PkgrRepositoryURL field", by decide, by decide, fun st => Or.inl ?_⟩
  have h : stampLine st.repo (s%"Description: reads the PkgrRepositoryURL field") = [] := by
    unfold stampLine; rw [if_pos (by decide)]
  simp [stampLines, h]

/-- C48 does not hold in full: an original repository given as a URL is cut at its second colon, so the
original value is lost. -/
theorem C48_violated_url (st : Stamp) (h : trimSpace (s%"Repository: " ++ st.repo) ≠ s%"Repository: https://cran.r-project.org") :
    stampLine st.repo (s%"Repository: https://cran.r-project.org") =
      [s%"OriginalRepository: https", s%"Repository: " ++ st.repo] := by
  unfold stampLine
  rw [if_neg (by decide), if_pos]
  · have : trimBlanks ((splitOn ':' (s%"Repository: https://cran.r-project.org"))[1]?.getD []) = s%"https" := by decide
    rw [this]; rfl
  · have h2 : trimSpace (s%"Repository: https://cran.r-project.org") = s%"Repository: https://cran.r-project.org" := by decide
    rw [h2]
    simp only [Bool.and_eq_true, decide_eq_true_eq, ne_eq]
    exact ⟨by decide, fun hh => h hh.symm⟩

example : trimSpace (s%"Repository: " ++ s%"CRAN") ≠ s%"Repository: https://cran.r-project.org" := by decide

/-- C48 does not hold in full: stamping with one repository and then another accumulates OriginalRepository
lines. -/
theorem C48_violated_accumulates :
    stampLines (stampLines [s%"Repository: A"] ⟨[], [], [], s%"B"⟩) ⟨[], [], [], s%"C"⟩ =
      [s%"OriginalRepository: A", s%"OriginalRepository: B", s%"Repository: C", s%"PkgrVersion: ", s%"PkgrInstallType: ",
       s%"PkgrRepositoryURL: "] := by decide

end Pkgr
