import Verif.Spec.RProcs
import Verif.Props.Env
import Verif.Props.RSettings
import Verif.Props.Inspect
import Verif.Props.Session
import Verif.Props.TarballsMore
import Verif.Props.Twice
import Verif.Props.ConfigFile

namespace Pkgr
open Pkgr.Spec

/-! ### C157: packages are built against the project's library -/

theorem pathStr_head (p : Path) : (pathStr p).head? = some '/' := by
  unfold pathStr
  split
  · rfl
  · cases p with
    | nil => contradiction
    | cons a p => rw [List.flatMap_cons]; rfl

theorem pathStr_ne (p : Path) : pathStr p ≠ [] := by
  intro h
  have := pathStr_head p
  rw [h] at this
  cases this

/-- C157: the process of a pass is the call that the model of the installation makes: the same working directory, file,
library and `--build`. -/
theorem C157_same_call (e : QEnv) (x : Inherited) (rs : RSettings) (p : Str) (k : Pass) :
    let pr := e.rProc x rs p k
    let c := e.rcall p k
    pr.dir = c.workDir ∧ pr.args.getLast? = some (pathStr c.src) ∧ (s%"--library=" ++ pathStr c.lib) ∈ pr.args ∧
    (c.build = true ↔ s%"--build" ∈ pr.args.dropLast) := by
  have h1 := pathStr_ne e.lib
  have h2 := pathStr_ne (e.tmp p)
  cases k <;> refine ⟨rfl, ?_, ?_, ?_⟩ <;>
    simp [QEnv.rProc, rCmdInstall, rArgs, passArgs, Pass.argPass, InstallArgs.cliArgs, flagArg, QEnv.rcall, defaultInstallArgs, h1, h2, List.dropLast]

/-- C157: the process that installs a tarball is told the project's library and to build, and is given the folder the tarball was
unpacked to, in the directory that contains it (the call of `C106_installed_from`). -/
theorem C157_same_call_tarball (e : RunEnv) (x : Inherited) (rs : RSettings) (lib : Path) (name : Str) (a : AdditionalPkg) (folder : Path)
    (hl : ∀ y, Leads e.ie.cwd a.installPath y ↔ y = folder) :
    let pr := e.tarballProc x rs lib name a
    pr.dir = folder.dropLast ∧ pr.args.getLast? = some (pathStr folder) ∧ (s%"--library=" ++ pathStr lib) ∈ pr.args ∧
    s%"--build" ∈ pr.args.dropLast := by
  have habs : absPath e.ie.cwd a.installPath = folder := by
    have : Leads e.ie.cwd a.installPath (absPath e.ie.cwd a.installPath) := by
      rw [leads_iff]
      unfold absPath joinPath
      by_cases h : a.installPath.head? = some '/'
      · rw [if_pos h, if_pos]
        cases hi : a.installPath with
        | nil => rw [hi] at h; cases h
        | cons c r => rw [hi] at h; simp at h; subst h; exact (hasPrefix_iff _ _).mpr ⟨r, rfl⟩
      · rw [if_neg h, if_neg]
        intro hc
        obtain ⟨r, hr⟩ := (hasPrefix_iff _ _).mp hc
        exact h (by rw [← hr]; rfl)
    exact (hl _).mp this
  have h1 := pathStr_ne lib
  refine ⟨?_, ?_, ?_, ?_⟩ <;>
    simp [RunEnv.tarballProc, habs, dirPath, rCmdInstall, rArgs, InstallArgs.cliArgs, flagArg, defaultInstallArgs, h1, List.dropLast]

example : (let pr := twIdle.tarballProc ⟨fun _ l => l, 0, [], s%"/tmp/empty", false⟩ (installSettings (s%"R") []) [s%"lib"] (s%"t") { installPath := s%"/cache/0123/t" }
    pr.dir = [s%"cache", s%"0123"] ∧ pr.args.getLast? = some (s%"/cache/0123/t") ∧ s%"--library=/lib" ∈ pr.args ∧ s%"--build" ∈ pr.args.dropLast) :=
  C157_same_call_tarball twIdle _ _ [s%"lib"] (s%"t") { installPath := s%"/cache/0123/t" } [s%"cache", s%"0123", s%"t"]
    fun x => pathStr_leads [s%"cache", s%"0123", s%"t"] (by decide) _ x

theorem setCustom_other (custom : List (List (Str × Option (GoMap Str)))) (pkg : Str) :
    ∀ (m : GoMap (GoMap Str)), (∀ c ∈ custom, ∀ e ∈ c, e.1 ≠ pkg) →
      GoMap.get? (setCustomizations m custom) pkg = GoMap.get? m pkg := by
  have inner : ∀ (c : List (Str × Option (GoMap Str))) (m : GoMap (GoMap Str)), (∀ e ∈ c, e.1 ≠ pkg) →
      GoMap.get? (c.foldl setCustomizations.setCustomStep m) pkg = GoMap.get? m pkg := by
    intro c
    induction c with
    | nil => intro m _; rfl
    | cons a c ih =>
      intro m h
      rw [List.foldl_cons, ih _ fun e he => h e (List.mem_cons_of_mem _ he)]
      have ha := h a List.mem_cons_self
      unfold setCustomizations.setCustomStep
      cases a.2 with
      | none => rfl
      | some env => exact (GoMap.get?_put _ _ _ _).trans (if_neg (Ne.symm ha))
  unfold setCustomizations
  induction custom with
  | nil => intro m _; rfl
  | cons c cs ih =>
    intro m h
    rw [List.foldl_cons, ih _ fun x hx => h x (List.mem_cons_of_mem _ hx), inner c m (h c List.mem_cons_self)]

/-- C157, for packages of repositories (and libraries whose path has no equals sign or colon in it, and no blank at its end):
the R that builds a package and the one that installs what was built have the project's library as their only site
library, and an empty directory as the user's, whatever is inherited and whatever the configuration sets.
Missing: tarballs and binaries from the cache, see `C157_violated_tarball`, `C157_violated_cached`. -/
theorem C157_project_library_partial (e : QEnv) (x : Inherited) (rpath : Str) (custom : List (List (Str × Option (GoMap Str)))) (p : Str) (k : Pass)
    (hk : ∀ b, k ≠ .cached b) (heq : '=' ∉ pathStr e.lib) (hcol : ':' ∉ pathStr e.lib) (hend : (pathStr e.lib).getLast? ≠ some ' ')
    (hu : Unpadded x.userDir) :
    Libraries (e.rProc x (installSettings rpath custom) p k) (s%"R_LIBS_SITE") [pathStr e.lib] ∧
    Sees (e.rProc x (installSettings rpath custom) p k) (s%"R_LIBS_USER") = some x.userDir := by
  have hs : passSettings (installSettings rpath custom) (pathStr e.lib) k = { installSettings rpath custom with libPaths := [pathStr e.lib] } := by
    cases k with
    | cached b => exact absurd rfl (hk b)
    | build => rfl
    | final b => rfl
  have h0 : Unpadded (pathStr e.lib) := ⟨by rw [pathStr_head]; decide, hend⟩
  refine ⟨⟨pathStr e.lib, ?_, ?_⟩, ?_⟩
  · show seen (configureEnv x.order x.visit x.userDir x.sys (passSettings _ _ k) p) _ = _
    rw [hs]
    exact C68_library_paths_partial _ _ _ _ { installSettings rpath custom with libPaths := [pathStr e.lib] } p (by simp)
      (by simp [pathStr_ne]) (by simpa using heq) h0
  · rw [components_iff, splitOn_of_not_mem _ _ hcol]
  · exact C63_user_library _ _ _ _ _ _ hu

/-- C157 is violated for tarballs: the R that builds one has no R_LIBS_SITE, so it also finds packages in the site libraries
that are R's default (as on Debian), whatever the project's library is. -/
theorem C157_violated_tarball (e : RunEnv) (x : Inherited) (rpath : Str) (custom : List (List (Str × Option (GoMap Str)))) (lib : Path)
    (name : Str) (a : AdditionalPkg) (hsys : ∀ v ∈ x.sys, Unpadded (nameOf v)) (hc : ∀ c ∈ custom, ∀ v ∈ c, v.1 ≠ name) :
    s%"--build" ∈ (e.tarballProc x (installSettings rpath custom) lib name a).args ∧
    Sees (e.tarballProc x (installSettings rpath custom) lib name a) (s%"R_LIBS_SITE") = none := by
  refine ⟨by simp [RunEnv.tarballProc, rCmdInstall, rArgs, InstallArgs.cliArgs, flagArg, defaultInstallArgs], ?_⟩
  exact C63_site_unset_partial x.order x.visit x.userDir x.sys (installSettings rpath custom) name rfl rfl
    ((setCustom_other custom name [] hc).trans rfl) hsys

/-- C157 is violated for binaries from the cache in the same way. -/
theorem C157_violated_cached (e : QEnv) (x : Inherited) (rpath : Str) (custom : List (List (Str × Option (GoMap Str)))) (p : Str) (b : Path)
    (hsys : ∀ v ∈ x.sys, Unpadded (nameOf v)) (hc : ∀ c ∈ custom, ∀ v ∈ c, v.1 ≠ p) :
    Sees (e.rProc x (installSettings rpath custom) p (.cached b)) (s%"R_LIBS_SITE") = none :=
  C63_site_unset_partial x.order x.visit x.userDir x.sys (installSettings rpath custom) p rfl rfl
    ((setCustom_other custom p [] hc).trans rfl) hsys

/-- An inherited environment with libraries of its own. -/
def procX : Inherited :=
  { order := fun _ l => l, visit := 0, sys := [s%"HOME=/root", s%"R_LIBS_SITE=/usr/lib/R/site", s%"R_LIBS_USER=/root/R"],
    userDir := s%"/tmp/empty", windows := false }

/-- Customizations that try to set the library for the package `b`. -/
def procCustom : List (List (Str × Option (GoMap Str))) := [[(s%"b", some [(s%"R_LIBS_SITE", s%"/mine"), (s%"CC", s%"gcc")])]]

example : Libraries (toyQ.rProc procX (installSettings (s%"/opt/R/bin/R") procCustom) (s%"b") .build) (s%"R_LIBS_SITE") [s%"/lib"] ∧
    Sees (toyQ.rProc procX (installSettings (s%"/opt/R/bin/R") procCustom) (s%"b") .build) (s%"R_LIBS_USER") = some (s%"/tmp/empty") :=
  C157_project_library_partial toyQ procX _ procCustom (s%"b") .build (fun _ h => by cases h) (by decide) (by decide) (by decide) (by decide)

example : toyQ.rProc procX (installSettings (s%"/opt/R/bin/R") procCustom) (s%"b") .build =
    { prog := s%"/opt/R/bin/R",
      args := [s%"--vanilla", s%"CMD", s%"INSTALL", s%"--build", s%"--install-tests", s%"--no-multiarch", s%"--with-keep.source",
        s%"--library=/tmp/b", s%"/cache/r-0/src/b_1.tar.gz"],
      dir := [s%"tmp", s%"b"],
      env := some [s%"R_LIBS_SITE=/mine", s%"CC=gcc", s%"HOME=/root", s%"R_LIBS_USER=/tmp/empty", s%"R_LIBS_SITE=/lib"] } := by decide +kernel

example : Sees (twIdle.tarballProc procX (installSettings (s%"/opt/R/bin/R") procCustom) [s%"lib"] (s%"t") { installPath := s%"/cache/0123/t" })
    (s%"R_LIBS_SITE") = none :=
  (C157_violated_tarball twIdle procX _ procCustom [s%"lib"] (s%"t") _ (by decide) (by decide)).2

example : Sees (toyQ.rProc procX (installSettings (s%"/opt/R/bin/R") procCustom) (s%"a") (.cached [s%"cache", s%"b.tgz"])) (s%"R_LIBS_SITE") = none :=
  C157_violated_cached toyQ procX _ procCustom (s%"a") _ (by decide) (by decide)

/-! ### C158: every R process is the configured R -/

theorem prog_slash (rs : RSettings) (h : rs.rpath ≠ []) (hroot : rs.rpath ≠ s%"/") (f : Path) (hf : 2 ≤ f.length)
    (hl : Leads [] rs.rpath f) : '/' ∈ rs.R false := by
  refine Classical.byContradiction fun hno => ?_
  have := (C79_same_file rs h hroot [] f).mpr hl
  rw [leads_iff, splitOn_of_not_mem _ _ hno] at this
  rw [← this] at hf
  revert hf
  simp only [ite_self, List.foldl_cons, List.foldl_nil]
  unfold joinComp
  split
  · simp
  · split <;> simp

theorem abs_slash (rs : RSettings) (h : rs.rpath.head? = some '/') (hroot : rs.rpath ≠ s%"/") : '/' ∈ rs.R false := by
  have hne : rs.rpath ≠ [] := by intro h'; rw [h'] at h; cases h
  unfold RSettings.R
  simp only [ne_eq, hne, not_false_eq_true, if_true, Bool.false_and, Bool.false_eq_true, if_false]
  have hh : (RSettings.R.trimSlash' rs.rpath).head? = some '/' := by
    unfold RSettings.R.trimSlash'
    split
    · obtain ⟨c, l, hcl⟩ := List.exists_cons_of_ne_nil hne
      rw [hcl] at h hroot ⊢
      cases l with
      | nil => exact absurd (by simpa using h) (by simpa using hroot)
      | cons d l => exact h
    · exact h
  unfold cleanPath
  rw [hh]
  simp

theorem abs_leads {s : Str} (h : s.head? = some '/') (d d' f : Path) : Leads d s f ↔ Leads d' s f := by
  rw [leads_iff, leads_iff, if_pos h, if_pos h]

theorem executes_abs (which : Str → Option Path) {rpath : Str} (h : rpath.head? = some '/') (hroot : rpath ≠ s%"/")
    {pr : Proc} {rs : RSettings} (hp : pr.prog = rs.R false) (hr : rs.rpath = rpath) (f : Path) :
    Executes which pr f ↔ Leads [] rpath f := by
  subst hr
  have hne : rs.rpath ≠ [] := by intro h'; rw [h'] at h; cases h
  unfold Executes
  rw [hp, if_pos (abs_slash rs h hroot), C79_same_file rs hne hroot]
  exact abs_leads h _ _ _

theorem passSettings_rpath (rs : RSettings) (lib : Str) (k : Pass) : (passSettings rs lib k).rpath = rs.rpath := by cases k <;> rfl

/-- C158, for an R that is configured by its absolute path: every R process of every command - the question for the version, each
pass of each installation, each tarball, `load` and `run` - is this file, whatever the directory it runs in.  (Not on windows.)
Missing: relative paths, see `C158_violated_relative`. -/
theorem C158_absolute_partial (which : Str → Option Path) (rpath : Str) (habs : rpath.head? = some '/') (hroot : rpath ≠ s%"/")
    (custom : List (List (Str × Option (GoMap Str)))) (x : Inherited) (hx : x.windows = false) (e : QEnv) (re : RunEnv) (f : Path) :
    (∀ cwd, Executes which (versionProc x (installSettings rpath custom) cwd) f ↔ Leads [] rpath f) ∧
    (∀ p k, Executes which (e.rProc x (installSettings rpath custom) p k) f ↔ Leads [] rpath f) ∧
    (∀ lib name a, Executes which (re.tarballProc x (installSettings rpath custom) lib name a) f ↔ Leads [] rpath f) ∧
    (∀ dir expr, Executes which (loadProc { rpath := rpath } dir expr) f ↔ Leads [] rpath f) ∧
    (∀ R ρ tmp sys cwd library pkg, Executes which (rRun R ρ tmp sys cwd rpath library pkg custom).1 f ↔ Leads [] rpath f) := by
  refine ⟨fun cwd => ?_, fun p k => ?_, fun lib name a => ?_, fun dir expr => ?_, fun R ρ tmp sys cwd library pkg => ?_⟩
  · exact executes_abs which habs hroot (rs := installSettings rpath custom) (by rw [← hx]; rfl) rfl f
  · exact executes_abs which habs hroot (rs := passSettings (installSettings rpath custom) (pathStr e.lib) k) (by rw [← hx]; rfl)
      (passSettings_rpath _ _ _) f
  · exact executes_abs which habs hroot (rs := installSettings rpath custom) (by rw [← hx]; rfl) rfl f
  · exact executes_abs which habs hroot (rs := { rpath := rpath }) rfl rfl f
  · refine executes_abs which habs hroot (rs := runSettings rpath library pkg custom) ?_ rfl f
    unfold rRun
    dsimp only
    split <;> rfl

/-- C158: without a configured path (the default is `R`), or with a mere name, every R process is the program of that name found in PATH.
(Not on windows.) -/
theorem C158_name_partial (which : Str → Option Path) (rpath : Str) (n : Str) (hn : (rpath = [] ∧ n = s%"R") ∨ (PlainName rpath ∧ n = rpath))
    (custom : List (List (Str × Option (GoMap Str)))) (x : Inherited) (hx : x.windows = false) (e : QEnv) (re : RunEnv) (f : Path) :
    (∀ cwd, Executes which (versionProc x (installSettings rpath custom) cwd) f ↔ which n = some f) ∧
    (∀ p k, Executes which (e.rProc x (installSettings rpath custom) p k) f ↔ which n = some f) ∧
    (∀ lib name a, Executes which (re.tarballProc x (installSettings rpath custom) lib name a) f ↔ which n = some f) ∧
    (∀ dir expr, Executes which (loadProc { rpath := rpath } dir expr) f ↔ which n = some f) ∧
    (∀ R ρ tmp sys cwd library pkg, Executes which (rRun R ρ tmp sys cwd rpath library pkg custom).1 f ↔ which n = some f) := by
  have key : ∀ (pr : Proc) (rs : RSettings), pr.prog = rs.R false → rs.rpath = rpath → (Executes which pr f ↔ which n = some f) := by
    intro pr rs hp hr
    unfold Executes
    rcases hn with ⟨h, hn⟩ | ⟨h, hn⟩
    · rw [hp, (C79_default rs (hr.trans h)).1, if_neg (by decide), hn]
    · have : rs.R false = n := by
        obtain ⟨h1, _, _, h4⟩ := id h
        have hl : ¬ rpath.getLast? = some '/' := fun hl => h4 (List.mem_of_getLast? hl)
        unfold RSettings.R RSettings.R.trimSlash'
        rw [hr]
        simp only [ne_eq, h1, not_false_eq_true, if_true, Bool.false_and, Bool.false_eq_true, if_false, hl]
        rw [cleanPath_plain _ h, hn]
      rw [hp, this, if_neg (by rw [hn]; exact h.2.2.2)]
  refine ⟨fun cwd => ?_, fun p k => ?_, fun lib name a => ?_, fun dir expr => ?_, fun R ρ tmp sys cwd library pkg => ?_⟩
  · exact key _ (installSettings rpath custom) (by rw [← hx]; rfl) rfl
  · exact key _ (passSettings (installSettings rpath custom) (pathStr e.lib) k) (by rw [← hx]; rfl) (passSettings_rpath _ _ _)
  · exact key _ (installSettings rpath custom) (by rw [← hx]; rfl) rfl
  · exact key _ { rpath := rpath } rfl rfl
  · refine key _ (runSettings rpath library pkg custom) ?_ rfl
    unfold rRun
    dsimp only
    split <;> rfl

/-- C158 is violated for every R that is configured by a relative path (with a slash in it): the question for the version goes to
the file it denotes in the project's directory, as does a cached binary's installation, but a package is built with the
file of that name in the temporary directory - where there is none - and a tarball with the one in the directory it was unpacked in. -/
theorem C158_violated_relative (which : Str → Option Path) (comps : List Str) (hc : ∀ c ∈ comps, PlainName c) (h2 : 2 ≤ comps.length)
    (custom : List (List (Str × Option (GoMap Str)))) (x : Inherited) (hx : x.windows = false) (e : QEnv) (re : RunEnv) (f : Path) :
    (∀ cwd, Executes which (versionProc x (installSettings (separated '/' comps) custom) cwd) f ↔ f = cwd ++ comps) ∧
    (∀ p b, Executes which (e.rProc x (installSettings (separated '/' comps) custom) p (.cached b)) f ↔ f = e.ie.cwd ++ comps) ∧
    (∀ p k, (∀ b, k ≠ .cached b) → (Executes which (e.rProc x (installSettings (separated '/' comps) custom) p k) f ↔ f = e.tmp p ++ comps)) ∧
    (∀ lib name a, Executes which (re.tarballProc x (installSettings (separated '/' comps) custom) lib name a) f ↔
      f = dirPath (absPath re.ie.cwd a.installPath) ++ comps) := by
  have hcomp : Components '/' (separated '/' comps) comps := by
    refine ⟨?_, fun c hc' => (hc c hc').2.2.2, rfl⟩
    intro h; rw [h] at h2; simp at h2
  have hsplit : splitOn '/' (separated '/' comps) = comps := (components_iff _ _ _).mp hcomp
  have hhead : (separated '/' comps).head? ≠ some '/' := by
    intro h
    match comps, h2 with
    | a :: b :: l, _ =>
      obtain ⟨h1, _, _, h4⟩ := hc a List.mem_cons_self
      cases a with
      | nil => exact h1 rfl
      | cons c cs =>
        have : c = '/' := by simpa [separated] using h
        exact h4 (by simp [this])
  have hlead : ∀ d f, Leads d (separated '/' comps) f ↔ f = d ++ comps := by
    intro d f
    rw [leads_iff, if_neg hhead, hsplit, foldl_joinComp_plain _ _ hc]
    exact ⟨fun h => h.symm, fun h => h.symm⟩
  have hne : separated '/' comps ≠ [] := by
    intro h
    rw [h] at hsplit
    have : comps = [[]] := hsplit.symm
    rw [this] at h2; simp at h2
  have hroot : separated '/' comps ≠ s%"/" := by intro h; rw [h] at hhead; exact hhead rfl
  have key : ∀ (pr : Proc) (rs : RSettings), pr.prog = rs.R false → rs.rpath = separated '/' comps → (Executes which pr f ↔ f = pr.dir ++ comps) := by
    intro pr rs hp hr
    unfold Executes
    rw [hp, if_pos (prog_slash rs (by rw [hr]; exact hne) (by rw [hr]; exact hroot) comps h2 (by rw [hr, hlead]; rfl)),
      C79_same_file rs (by rw [hr]; exact hne) (by rw [hr]; exact hroot), hr, hlead]
  refine ⟨fun cwd => ?_, fun p b => ?_, fun p k hk => ?_, fun lib name a => ?_⟩
  · exact key _ (installSettings _ custom) (by rw [← hx]; rfl) rfl
  · exact key _ (passSettings (installSettings _ custom) (pathStr e.lib) (.cached b)) (by rw [← hx]; rfl) (passSettings_rpath _ _ _)
  · have hd : (e.rProc x (installSettings (separated '/' comps) custom) p k).dir = e.tmp p := by
      cases k with
      | cached b => exact absurd rfl (hk b)
      | build => rfl
      | final b => rfl
    rw [← hd]
    exact key _ (passSettings (installSettings _ custom) (pathStr e.lib) k) (by rw [← hx]; rfl) (passSettings_rpath _ _ _)
  · exact key _ (installSettings _ custom) (by rw [← hx]; rfl) rfl

/-- C158: the question for the version is put to R in the project's directory with the one argument `--version`, and R is given an empty
user library and no site library whatever it inherits (the libraries of the project are not yet among the settings). -/
theorem C158_question_partial (x : Inherited) (rpath : Str) (custom : List (List (Str × Option (GoMap Str)))) (cwd : Path)
    (hsys : ∀ v ∈ x.sys, Unpadded (nameOf v)) (hu : Unpadded x.userDir) (hc : ∀ c ∈ custom, ∀ v ∈ c, v.1 ≠ []) :
    (versionProc x (installSettings rpath custom) cwd).args = [s%"--version"] ∧
    (versionProc x (installSettings rpath custom) cwd).dir = cwd ∧
    Sees (versionProc x (installSettings rpath custom) cwd) (s%"R_LIBS_USER") = some x.userDir ∧
    Sees (versionProc x (installSettings rpath custom) cwd) (s%"R_LIBS_SITE") = none :=
  ⟨rfl, rfl, C63_user_library x.order x.visit x.userDir x.sys (installSettings rpath custom) [] hu,
    C63_site_unset_partial x.order x.visit x.userDir x.sys (installSettings rpath custom) [] rfl rfl
      ((setCustom_other custom [] [] hc).trans rfl) hsys⟩

example : Sees (versionProc procX (installSettings (s%"R") procCustom) [s%"w"]) (s%"R_LIBS_SITE") = none ∧
    Sees (versionProc procX (installSettings (s%"R") procCustom) [s%"w"]) (s%"R_LIBS_USER") = some (s%"/tmp/empty") :=
  ⟨(C158_question_partial procX (s%"R") procCustom [s%"w"] (by decide) (by decide) (by decide)).2.2.2,
   (C158_question_partial procX (s%"R") procCustom [s%"w"] (by decide) (by decide) (by decide)).2.2.1⟩

example (which : Str → Option Path) : Executes which (toyQ.rProc procX (installSettings (s%"/opt/R/bin/R") procCustom) (s%"b") .build) [s%"opt", s%"R", s%"bin", s%"R"] :=
  ((C158_absolute_partial which (s%"/opt/R/bin/R") rfl (by decide) procCustom procX rfl toyQ twIdle _).2.1 _ _).mpr
    ((leads_iff _ _ _).mpr (by decide))

example (which : Str → Option Path) (h : which (s%"R") = some [s%"usr", s%"bin", s%"R"]) :
    Executes which (toyQ.rProc procX (installSettings (s%"R") procCustom) (s%"b") .build) [s%"usr", s%"bin", s%"R"] :=
  ((C158_name_partial which (s%"R") (s%"R") (.inr ⟨by decide, rfl⟩) procCustom procX rfl toyQ twIdle _).2.1 _ _).mpr h

example (which : Str → Option Path) :
    Executes which (versionProc procX (installSettings (s%"tools/R") []) [s%"w"]) [s%"w", s%"tools", s%"R"] ∧
    Executes which (toyQ.rProc procX (installSettings (s%"tools/R") []) (s%"b") .build) [s%"tmp", s%"b", s%"tools", s%"R"] :=
  ⟨((C158_violated_relative which [s%"tools", s%"R"] (by decide) (by decide) [] procX rfl toyQ twIdle _).1 [s%"w"]).mpr rfl,
   ((C158_violated_relative which [s%"tools", s%"R"] (by decide) (by decide) [] procX rfl toyQ twIdle _).2.2.1 (s%"b") .build
     (fun _ h => by cases h)).mpr rfl⟩

end Pkgr
