/- C142: several runs in one library.

The downloads and the installations of a run are arbitrary functions of the file system here (no hypothesis `Behaves`):
what they do to the library includes whatever other processes do to it in the meantime. -/
import Verif.Props.Rollback2

namespace Pkgr
open Spec

/-- The world when a run has installed all it could and is about to decide whether it rolls back. -/
def Spec.installed (e : RunEnv) (cfg : RunCfg) (ip : InstallPlan) (pre : GoMap Desc) (fs : Fs) : World :=
  (e.phases cfg ip (e.tag cfg { fs := fs } (createRollbackPlan cfg.lib ip pre e.ρ)).1).1

theorem installed_eq {e : RunEnv} {cfg : RunCfg} {ip : InstallPlan} {pre : GoMap Desc} {fs : Fs} (hn : GoodNames ip) (hρ : e.ρ.Fair) :
    installed e cfg ip pre fs = afterPhases e cfg ip pre fs := by
  unfold installed afterPhases
  rw [tag_eq hn hρ]
  rfl

/-- C142, as far as it holds: on a library that exists, whatever happened to the library while a run was
installing, the run itself - setting packages aside before, its rollback and the deletion of its backups, finished or killed half-way - changes
nothing but the packages of its own plan and their backups, so what other runs install beside its plan stays.
Missing: packages in the plans of two runs, and libraries that both find missing; see `C142_violated_new`,
`C142_violated_library` and `C142_violated_lost`. -/
theorem C142_others_kept_partial (e : RunEnv) (cfg : RunCfg) (ip : InstallPlan) (pre : GoMap Desc) (fs : Fs)
    (hrem : RemovalOK e.disk) (hρ : e.ρ.Fair) (hn : GoodNames ip) (hc : ip.createLibrary = false) :
    (∀ st ∈ (e.tag cfg { fs := fs } (createRollbackPlan cfg.lib ip pre e.ρ)).1.states,
      Keeps cfg.lib (fun n => ∃ p ∈ members ip, n = p ∨ n = backupName p) fs st) ∧
    ∀ st ∈ (e.rInstall cfg ip pre fs).1.states, st ∈ (installed e cfg ip pre fs).states ∨
      Keeps cfg.lib (fun n => ∃ p ∈ members ip, n = p ∨ n = backupName p) (installed e cfg ip pre fs).fs st := by
  have hmem : ∀ p ∈ setAside e cfg ip pre, p ∈ members ip := by
    intro p hp
    rcases List.mem_append.1 hp with h | h
    · exact ((mem_updatesOf hρ).1 h).2.2
    · exact List.mem_append_right _ ((mem_overwritesOf hρ).1 h).1
  constructor
  · intro st hst
    rw [tag_eq hn hρ] at hst
    rcases (goes_tagAll e.disk cfg.lib _ (fun p hp => (hn p (hmem p hp)).1) { fs := fs }).2 st hst with h | h
    · have : st = fs := by simpa [World.states] using h
      subst this
      exact Keeps.refl _ _ _
    · refine h.mono ?_
      rintro n ⟨p, hp, h⟩
      exact ⟨p, hmem p hp, h⟩
  suffices h : Goes cfg.lib (fun n => ∃ p ∈ members ip, n = p ∨ n = backupName p) (installed e cfg ip pre fs) (e.rInstall cfg ip pre fs).1 from h.2
  rw [installed_eq hn hρ, run_eq hn hρ hc]
  change Goes _ _ (e.phases cfg ip (afterTag e cfg ip pre { fs := fs })).1 _
  split
  · exact Goes.refl _ _ _
  · dsimp only
    have gd : ∀ w, Goes cfg.lib (fun n => ∃ p ∈ members ip, n = p ∨ n = backupName p) w (RollbackPlan.deleteBackupFolders (taggedPlan e cfg ip pre) e.disk w) := by
      intro w
      unfold RollbackPlan.deleteBackupFolders
      refine Goes.trans ((goes_deleteBackups hrem cfg.lib _ w).mono ?_) ((goes_deleteBackups hrem cfg.lib _ _).mono ?_)
      · rintro n ⟨p, hp, h⟩
        exact ⟨p, hmem p (List.mem_append_left _ hp), Or.inr h⟩
      · rintro n ⟨p, hp, h⟩
        exact ⟨p, hmem p (List.mem_append_right _ hp), Or.inr h⟩
    refine Goes.trans ?_ (gd _)
    unfold RunEnv.undo
    split
    · have hre := rollback_eq (e := e) (cfg := cfg) (pre := pre) hc (updatesOf cfg ip pre e.ρ) (overwritesOf cfg ip pre e.ρ)
        (e.phases cfg ip (afterTag e cfg ip pre { fs := fs })).1
      change rollbackEnvironment e.disk _ (taggedPlan e cfg ip pre) = _ at hre
      rw [hre]
      have g := (goes_removeNew hrem cfg.lib (createRollbackPlan cfg.lib ip pre e.ρ).new
        (fun p hp => (hn p ((mem_new hρ).1 hp).1).1) (e.phases cfg ip (afterTag e cfg ip pre { fs := fs })).1).mono
        (T := fun n => ∃ p ∈ members ip, n = p ∨ n = backupName p) (fun n h => ⟨n, ((mem_new hρ).1 h).1, Or.inl rfl⟩)
      split
      · exact g
      · refine g.trans ((goes_restoreAll hrem cfg.lib _ _).mono ?_)
        rintro n ⟨p, hp, h⟩
        exact ⟨p, hmem p hp, h⟩
    · exact Goes.refl _ _ _

/-- The hypotheses are met by the toy run, and when another process installs `c` in the meantime, `c` is there afterwards. -/
example : let e := { libRun .failed with planned := fun fs => { fs := fun q => if q = [s%"lib", s%"b"] ∨ q = [s%"lib", s%"c"] then some .dir else fs q, out := .failed } }
    RemovalOK e.disk ∧ e.ρ.Fair ∧ GoodNames toyPlan ∧ toyPlan.createLibrary = false ∧
    (e.rInstall { lib := [s%"lib"] } toyPlan toyPre toyLib).2 = .exit0 true ∧
    (e.rInstall { lib := [s%"lib"] } toyPlan toyPre toyLib).1.fs [s%"lib", s%"b"] = none ∧
    (e.rInstall { lib := [s%"lib"] } toyPlan toyPre toyLib).1.fs [s%"lib", s%"c"] = some .dir :=
  ⟨(libRun_behaves .failed).removal, (libRun_behaves .failed).order, toy_goodNames, rfl, by decide, by decide, by decide⟩

/-- C142 does not hold for a package that two runs plan: a run that fails deletes every package of its plan that was not
there when it made its plan, also one that another run has installed and reported as installed in the meantime. -/
theorem C142_violated_new (e : RunEnv) (cfg : RunCfg) (ip : InstallPlan) (pre : GoMap Desc) (fs : Fs)
    (hrem : RemovalOK e.disk) (hnf : NoFaults e.disk) (hρ : e.ρ.Fair) (hn : GoodNames ip) (hc : ip.createLibrary = false)
    (hp : ∀ o ∈ ip.outdated, GoMap.has pre o.package = true)
    (hrb : cfg.noRollback = false) (hfail : (e.rInstall cfg ip pre fs).2 = .exit0 true)
    (p : Str) (hm : p ∈ members ip) (hnew : GoMap.has pre p = false) :
    Gone cfg.lib (e.rInstall cfg ip pre fs).1.fs p := by
  intro r
  have hplainNew : ∀ p ∈ (createRollbackPlan cfg.lib ip pre e.ρ).new, PlainName p := fun p h => (hn p ((mem_new hρ).1 h).1).1
  obtain ⟨x1, x2⟩ := removeNew_exact hnf (lib := cfg.lib) _ hplainNew (afterPhases e cfg ip pre fs)
  have hnb : ∀ q, p ≠ backupName q := fun q h => (hn p hm).2.2 (h ▸ backup_prefix q)
  have hns : p ∉ setAside e cfg ip pre := by
    intro h
    have : GoMap.has pre p = true := by
      rcases List.mem_append.1 h with h | h
      · obtain ⟨_, ⟨o, ho, rfl⟩, _⟩ := (mem_updatesOf hρ).1 h
        exact hp o ho
      · exact ((mem_overwritesOf hρ).1 h).2
    rw [hnew] at this
    cases this
  rw [run_failed hn hρ hc hrb hfail]
  have hb1 : ∀ ps : List Str, ¬ ∃ q ∈ ps, p = backupName q := fun ps ⟨q, _, h⟩ => hnb q h
  rw [(goes_deleteBackups hrem cfg.lib _ _).1.at (hb1 _), (goes_deleteBackups hrem cfg.lib _ _).1.at (hb1 _)]
  unfold afterRestore
  have hnr : (afterRemoval e cfg ip pre fs).2 = false := x1
  rw [hnr]
  simp only [Bool.false_eq_true, if_false]
  rw [(goes_restoreAll hrem cfg.lib _ _).1.at (n := p)]
  · show (removeNew e.disk cfg.lib (afterPhases e cfg ip pre fs) _).1.fs _ = none
    rw [x2, if_pos ((mem_new hρ).2 ⟨hm, hnew⟩)]
  · rintro ⟨q, hq, h | h⟩
    · exact hns (h ▸ hq)
    · exact hnb q h

/-- In the toy run `b` is such a package, complete in the library before the run `e` rolls back. -/
example : NoFaults (libRun .failed).disk ∧ (∀ o ∈ toyPlan.outdated, GoMap.has toyPre o.package = true) ∧
    s%"b" ∈ members toyPlan ∧ GoMap.has toyPre (s%"b") = false ∧
    ((libRun .failed).rInstall { lib := [s%"lib"] } toyPlan toyPre toyLib).2 = .exit0 true ∧
    (installed (libRun .failed) { lib := [s%"lib"] } toyPlan toyPre toyLib).fs [s%"lib", s%"b"] = some .dir :=
  ⟨⟨fun _ _ _ => rfl, fun _ _ => rfl⟩, by decide, by decide, by decide, by decide, by decide⟩

/-- C142 does not hold for a library that is missing when two runs begin: each of them creates it, and if one fails, it
deletes the whole library, with all that the other has installed. -/
theorem C142_violated_library (e : RunEnv) (cfg : RunCfg) (ip : InstallPlan) (pre : GoMap Desc) (fs : Fs)
    (hnf : NoFaults e.disk) (hρ : e.ρ.Fair) (hn : GoodNames ip) (hc : ip.createLibrary = true)
    (hrb : cfg.noRollback = false) (hfail : (e.rInstall cfg ip pre fs).2 = .exit0 true) :
    ∀ q, cfg.lib <+: q → (e.rInstall cfg ip pre fs).1.fs q = none := by
  intro q hq
  unfold RunEnv.rInstall at hfail ⊢
  dsimp only at hfail ⊢
  generalize e.ensureLibrary cfg ip fs = l at hfail ⊢
  split at hfail
  · simp at hfail
  rename_i hl
  rw [if_neg hl]
  rw [body_eq hn hρ] at hfail ⊢
  by_cases hdead : (e.phases cfg ip (afterTag e cfg ip pre l.1)).2 = .dead
  · rw [if_pos hdead] at hfail
    simp at hfail
  rw [if_neg hdead] at hfail ⊢
  have hff : (e.phases cfg ip (afterTag e cfg ip pre l.1)).2 = .failed := by simpa using hfail
  dsimp only
  rw [hff]
  unfold RunEnv.undo
  rw [if_pos (by simp [hrb])]
  have hre : rollbackEnvironment e.disk (e.phases cfg ip (afterTag e cfg ip pre l.1)).1 (taggedPlan e cfg ip pre) =
      e.disk.removeAll (e.phases cfg ip (afterTag e cfg ip pre l.1)).1 cfg.lib := by
    unfold rollbackEnvironment
    rw [if_pos (show (taggedPlan e cfg ip pre).plan.createLibrary = true from hc)]
    rfl
  rw [hre, removeAll_ok _ _ (hnf.2 _ _)]
  unfold RollbackPlan.deleteBackupFolders
  have d1 := deleteBackups_gone (lib := cfg.lib) hnf.2 (updatesOf cfg ip pre e.ρ)
    ((e.phases cfg ip (afterTag e cfg ip pre l.1)).1.move (e.disk.removing (e.phases cfg ip (afterTag e cfg ip pre l.1)).1.fs cfg.lib).1
      ((e.phases cfg ip (afterTag e cfg ip pre l.1)).1.fs.removeAll cfg.lib))
  have d2 := deleteBackups_gone (lib := cfg.lib) hnf.2 (overwritesOf cfg ip pre e.ρ)
    (deleteBackups e.disk ((e.phases cfg ip (afterTag e cfg ip pre l.1)).1.move (e.disk.removing (e.phases cfg ip (afterTag e cfg ip pre l.1)).1.fs cfg.lib).1
      ((e.phases cfg ip (afterTag e cfg ip pre l.1)).1.fs.removeAll cfg.lib)) (attempts cfg.lib (updatesOf cfg ip pre e.ρ)))
  refine d2.2.1 q (d1.2.1 q ?_)
  show Fs.removeAll _ cfg.lib q = none
  rw [removeAll_at, if_pos hq]

/-- The toy plan on a missing library: `c` was installed by another run. -/
example : let e := { libRun .failed with planned := fun fs => { fs := fun q => if q = [s%"lib", s%"c"] then some .dir else fs q, out := .failed } }
    let ip := { toyPlan with createLibrary := true, outdated := [], additional := [] }
    NoFaults e.disk ∧ e.ρ.Fair ∧ (e.rInstall { lib := [s%"lib"] } ip [] (fun _ => none)).2 = .exit0 true ∧
    (some Node.dir) ∈ ((e.rInstall { lib := [s%"lib"] } ip [] (fun _ => none)).1.states).map (fun st => st [s%"lib", s%"c"]) ∧
    (e.rInstall { lib := [s%"lib"] } ip [] (fun _ => none)).1.fs [s%"lib", s%"c"] = none :=
  ⟨⟨fun _ _ _ => rfl, fun _ _ => rfl⟩, (libRun_behaves .failed).order, by decide, by decide, by decide⟩

/-- What the rollback does when the backup of the first package set aside has disappeared. -/
theorem lost_backup {e : RunEnv} {cfg : RunCfg} {ip : InstallPlan} {pre : GoMap Desc} {fs : Fs}
    (hnf : NoFaults e.disk) (hρ : e.ρ.Fair) (hn : GoodNames ip) (hc : ip.createLibrary = false)
    (o : OutdatedPackage) (os : List OutdatedPackage) (hup : cfg.noUpdate = false) (hout : ip.outdated = o :: os) (hm : o.package ∈ members ip)
    (hrb : cfg.noRollback = false) (hfail : (e.rInstall cfg ip pre fs).2 = .exit0 true)
    (hlost : (afterPhases e cfg ip pre fs).fs (cfg.lib ++ [backupName o.package]) = none) :
    (e.rInstall cfg ip pre fs).1.fs (cfg.lib ++ [o.package]) = none ∧
    (e.rInstall cfg ip pre fs).1.fs (cfg.lib ++ [backupName o.package]) = none := by
  obtain ⟨ps, hs⟩ := setAside_first (pre := pre) hρ hup hout hm
  have hplainNew : ∀ p ∈ (createRollbackPlan cfg.lib ip pre e.ρ).new, PlainName p := fun p h => (hn p ((mem_new hρ).1 h).1).1
  obtain ⟨x1, x2⟩ := removeNew_exact hnf (lib := cfg.lib) _ hplainNew (afterPhases e cfg ip pre fs)
  have hlost2 : (afterRemoval e cfg ip pre fs).1.fs (cfg.lib ++ [backupName o.package]) = none := by
    show (removeNew e.disk cfg.lib (afterPhases e cfg ip pre fs) _).1.fs (cfg.lib ++ backupName o.package :: []) = none
    rw [x2]
    split
    · rfl
    · exact hlost
  rw [run_failed hn hρ hc hrb hfail]
  have d1 := deleteBackups_gone (lib := cfg.lib) hnf.2 (updatesOf cfg ip pre e.ρ) (afterRestore e cfg ip pre fs).1
  have d2 := deleteBackups_gone (lib := cfg.lib) hnf.2 (overwritesOf cfg ip pre e.ρ)
    (deleteBackups e.disk (afterRestore e cfg ip pre fs).1 (attempts cfg.lib (updatesOf cfg ip pre e.ρ)))
  refine ⟨d2.2.1 _ (d1.2.1 _ ?_), d2.2.1 _ (d1.1 _ ((mem_updatesOf hρ).2 ⟨hup, ⟨o, by rw [hout]; exact List.mem_cons_self .., rfl⟩, hm⟩))⟩
  unfold afterRestore
  rw [show (afterRemoval e cfg ip pre fs).2 = false from x1, hs]
  simp only [Bool.false_eq_true, if_false, attempts, List.map_cons, restoreAll]
  generalize (afterRemoval e cfg ip pre fs).1 = w at hlost2 ⊢
  have hnren : ∀ w' : World, w'.fs (cfg.lib ++ [backupName o.package]) = none →
      e.disk.rename w' (cfg.lib ++ [backupName o.package]) (cfg.lib ++ [o.package]) = (w', true) := by
    intro w' h
    unfold Disk.rename
    rw [if_neg (by simp [Fs.renameOk, h])]
  have hone : (restoreOne e.disk w { package := o.package, active := cfg.lib ++ [o.package], backup := cfg.lib ++ [backupName o.package] }).2 = true ∧
      (restoreOne e.disk w { package := o.package, active := cfg.lib ++ [o.package], backup := cfg.lib ++ [backupName o.package] }).1.fs (cfg.lib ++ [o.package]) = none := by
    unfold restoreOne
    dsimp only
    by_cases hex : w.fs.ex (cfg.lib ++ [o.package]) = true
    · rw [if_pos hex, removeAll_ok w _ (hnf.2 _ _)]
      simp only [Bool.false_eq_true, if_false]
      rw [hnren]
      · refine ⟨rfl, ?_⟩
        show w.fs.removeAll (cfg.lib ++ [o.package]) _ = none
        rw [removeAll_at, if_pos (List.prefix_refl _)]
      · show w.fs.removeAll (cfg.lib ++ [o.package]) _ = none
        rw [removeAll_at]
        split
        · rfl
        · exact hlost2
    · rw [if_neg hex]
      simp only [Bool.false_eq_true, if_false]
      rw [hnren w hlost2]
      exact ⟨rfl, by simpa [Fs.ex] using hex⟩
  rw [hone.1]
  simp only [if_true]
  exact hone.2

/-- C142 does not hold for a package that two runs update: both keep their backups under the same names. Let the run
`b` of the same plan do its work while the run `a` is installing (`b` finds its backups already made), and succeed: it deletes
the backups. If then `a` fails, its rollback deletes the first outdated package in the version that `b` has installed and has no backup to put
in its place: neither the old nor the new version is left. -/
theorem C142_violated_lost (a b : RunEnv) (cfg : RunCfg) (ip : InstallPlan) (pre : GoMap Desc) (fs : Fs)
    (hnfA : NoFaults a.disk) (hρA : a.ρ.Fair) (hnfB : NoFaults b.disk) (hρB : b.ρ.Fair)
    (hn : GoodNames ip) (hc : ip.createLibrary = false) (hadd : ip.additional = [])
    (o : OutdatedPackage) (os : List OutdatedPackage) (hup : cfg.noUpdate = false) (hout : ip.outdated = o :: os) (hm : o.package ∈ members ip)
    (hrb : cfg.noRollback = false)
    (hwhile : ∀ st, (a.planned st).fs = (b.rInstall cfg ip pre st).1.fs) (hB : ∀ st, (b.rInstall cfg ip pre st).2 = .exit0 false)
    (hfail : (a.rInstall cfg ip pre fs).2 = .exit0 true) :
    (a.rInstall cfg ip pre fs).1.fs (cfg.lib ++ [o.package]) = none ∧
    (a.rInstall cfg ip pre fs).1.fs (cfg.lib ++ [backupName o.package]) = none := by
  refine lost_backup hnfA hρA hn hc o os hup hout hm hrb hfail ?_
  -- what a run that reports no failure does to the backups
  have key : ∀ st, (b.rInstall cfg ip pre st).1.fs (cfg.lib ++ [backupName o.package]) = none := by
    intro st
    have h := hB st
    rw [run_eq hn hρB hc] at h ⊢
    split at h
    · simp at h
    rename_i hdead
    rw [if_neg hdead]
    dsimp only
    unfold RollbackPlan.deleteBackupFolders
    generalize b.undo cfg (taggedPlan b cfg ip pre) _ _ = w
    have d1 := deleteBackups_gone (lib := cfg.lib) hnfB.2 (updatesOf cfg ip pre b.ρ) w
    have d2 := deleteBackups_gone (lib := cfg.lib) hnfB.2 (overwritesOf cfg ip pre b.ρ)
      (deleteBackups b.disk w (attempts cfg.lib (updatesOf cfg ip pre b.ρ)))
    exact d2.2.1 _ (d1.1 _ ((mem_updatesOf hρB).2 ⟨hup, ⟨o, by rw [hout]; exact List.mem_cons_self .., rfl⟩, hm⟩))
  have hph : (afterPhases a cfg ip pre fs).fs = (b.rInstall cfg ip pre (a.download (afterTag a cfg ip pre { fs := fs }).fs).fs).1.fs := by
    rw [run_eq hn hρA hc] at hfail
    split at hfail
    · simp at hfail
    rename_i hdead
    unfold afterPhases
    unfold RunEnv.phases at hdead ⊢
    dsimp only at hdead ⊢
    split at hdead
    · simp at hdead
    rename_i h1
    rw [if_neg h1]
    split at hdead
    · simp at hdead
    rename_i h2
    rw [if_neg h2, hadd]
    have hk : a.ρ 3 (GoMap.keys ([] : GoMap AdditionalPkg)) = [] := List.perm_nil.1 (hρA 3 [])
    rw [hk]
    exact hwhile _
  rw [hph]
  exact key _

/-- The second run of the example below: installs `a` in version 2 and succeeds. -/
def besideRun : RunEnv :=
  { libRun .ok with planned := fun fs => { fs := fun q => if q = [s%"lib", s%"a"] then some .dir else if q = [s%"lib", s%"a", s%"DESCRIPTION"] then some (.file (s%"a 2")) else fs q, out := .ok } }

/-- Two runs of the plan that updates `a` from version 1 to version 2 meet the hypotheses; when both are over, `a` is in
the library in no version at all, although one of them reported no failure. -/
example : let a := { libRun .failed with planned := fun st => { fs := (besideRun.rInstall { lib := [s%"lib"] } { toyPlan with additional := [] } toyPre st).1.fs, out := .failed } }
    let ip := { toyPlan with additional := [] }
    NoFaults a.disk ∧ NoFaults besideRun.disk ∧ a.ρ.Fair ∧ besideRun.ρ.Fair ∧ GoodNames ip ∧
    (∀ st, (a.planned st).fs = (besideRun.rInstall { lib := [s%"lib"] } ip toyPre st).1.fs) ∧
    (∀ st, (besideRun.rInstall { lib := [s%"lib"] } ip toyPre st).2 = .exit0 false) ∧
    (a.rInstall { lib := [s%"lib"] } ip toyPre toyLib).2 = .exit0 true ∧
    toyLib [s%"lib", s%"a", s%"DESCRIPTION"] = some (.file (s%"a 1")) ∧
    (some (Node.file (s%"a 2"))) ∈ ((a.rInstall { lib := [s%"lib"] } ip toyPre toyLib).1.states).map (fun st => st [s%"lib", s%"a", s%"DESCRIPTION"]) ∧
    (a.rInstall { lib := [s%"lib"] } ip toyPre toyLib).1.fs [s%"lib", s%"a", s%"DESCRIPTION"] = none ∧
    (a.rInstall { lib := [s%"lib"] } ip toyPre toyLib).1.fs [s%"lib", s%"__OLD__a", s%"DESCRIPTION"] = none :=
  ⟨⟨fun _ _ _ => rfl, fun _ _ => rfl⟩, ⟨fun _ _ _ => rfl, fun _ _ => rfl⟩, (libRun_behaves .failed).order, (libRun_behaves .failed).order,
   fun p hp => toy_goodNames p (by simp [members, queued, tarballs, toyPlan, GoMap.keys] at hp ⊢; grind),
   fun _ => rfl, fun _ => rfl, by decide, by decide, by decide, by decide, by decide⟩

end Pkgr
