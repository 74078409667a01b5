/- C112: runs with the rollback switched off; C54 for tarballs. -/
import Verif.Props.WholeRun

namespace Pkgr
open Spec

variable {e : RunEnv} {q : QEnv} {cfg : RunCfg} {ip : InstallPlan} {pre : GoMap Desc} {fs : Fs}
  {Scratch : Path → Prop} {Complete : Str → (Path → Option Node) → Prop} {Holds : Str → Str → Prop}

/-! ### C54: tarballs -/

/-- An `R CMD INSTALL` of the tarball was run, and succeeded. -/
theorem tarball_exit {lib : Path} {w : World} {n : Str} {a : AdditionalPkg} (hex : w.fs (absPath e.ie.cwd a.installPath) ≠ none)
    (h : (e.installTarball lib w n a).2 = .ok) :
    (e.ie.R { pkg := n, lib := lib, build := true, src := absPath e.ie.cwd a.installPath, workDir := dirPath (absPath e.ie.cwd a.installPath) } w.fs).2 = .ok := by
  unfold RunEnv.installTarball at h
  dsimp only [World.move] at h
  by_cases hwd : w.fs.isDir (dirPath (absPath e.ie.cwd a.installPath)) = true
  · have hx : w.fs.ex (absPath e.ie.cwd a.installPath) = true := by
      unfold Fs.ex
      cases hh : w.fs (absPath e.ie.cwd a.installPath) with
      | none => exact absurd hh hex
      | some _ => rfl
    rw [install_run _ _ _ _ _ _ _ _ _ hwd hx] at h
    dsimp only at h
    revert h
    cases (e.ie.R { pkg := n, lib := lib, build := true, src := absPath e.ie.cwd a.installPath, workDir := dirPath (absPath e.ie.cwd a.installPath) } w.fs).2 <;>
      simp [exitOf]
  · unfold install at h
    dsimp only at h
    rw [if_pos (by simp [hwd])] at h
    simp at h

theorem tarballs_exit {lib : Path} {m : GoMap AdditionalPkg} (ns : List Str) (w : World)
    (hex : ∀ st ∈ (e.installTarballs lib m w ns).1.states, ∀ n ∈ ns, st (absPath e.ie.cwd ((GoMap.get? m n).getD {}).installPath) ≠ none)
    (h : (e.installTarballs lib m w ns).2 = .ok) :
    ∀ n ∈ ns, ∃ st ∈ (e.installTarballs lib m w ns).1.states,
      ∃ c, c.pkg = n ∧ (e.ie.R c st).2 = .ok := by
  induction ns generalizing w with
  | nil => intro n hn; cases hn
  | cons n ns ih =>
    obtain ⟨h1, h2, h3⟩ := tarball_of_ok h
    rw [h2] at hex ⊢
    have hmem : w.fs ∈ (e.installTarballs lib m (e.installTarball lib w n ((GoMap.get? m n).getD {})).1 ns).1.states :=
      states_mono_tarballs (states_mono_move (mem_states_fs w))
    intro k hk
    rcases List.mem_cons.1 hk with rfl | hk
    · exact ⟨w.fs, hmem, _, rfl, tarball_exit (hex w.fs hmem k (List.mem_cons_self ..)) h1⟩
    · exact ih _ (fun st hst n hn => hex st hst n (List.mem_cons_of_mem _ hn)) h3 k hk

/-- C54 for tarballs: when R fails on a tarball that is there, the run does not report success. -/
theorem C54_tarball_partial (hn : GoodNames ip) (hρ : e.ρ.Fair) (t : Str) (ht : t ∈ tarballs ip)
    (hex : ∀ t ∈ tarballs ip, ∀ st ∈ (e.rInstall cfg ip pre fs).1.states,
      st (absPath e.ie.cwd ((GoMap.get? ip.additional t).getD {}).installPath) ≠ none)
    (hfail : ∀ c st, c.pkg = t → (e.ie.R c st).2 ≠ .ok) :
    (e.rInstall cfg ip pre fs).2 ≠ .exit0 false := by
  intro hok
  obtain ⟨_, hph, hrun⟩ := run_ok (pre := pre) hn hρ hok
  obtain ⟨_, _, w2, _, p3, p4⟩ := phases_ok hph
  have hstates : ∀ st ∈ (e.installTarballs cfg.lib ip.additional w2 (e.ρ 3 (tarballs ip))).1.states,
      st ∈ (e.rInstall cfg ip pre fs).1.states := by
    intro st hst
    rw [hrun, p4]
    exact states_mono_deleteBackups (states_mono_deleteBackups hst)
  obtain ⟨st, _, c, hc, hst⟩ := tarballs_exit (e.ρ 3 (tarballs ip)) w2
    (fun st hst n hn => hex n ((hρ 3 _).mem_iff.1 hn) st (hstates st hst)) p3 t ((hρ 3 _).mem_iff.2 ht)
  exact hfail _ _ hc hst

/-- `phases_ok`, with the moments at which the parts begin. -/
theorem phases_moments {w : World} (h : (e.phases cfg ip w).2 = .ok) :
    ∃ w2 : World, (w.fs ∈ w2.states ∧ (e.download w.fs).fs ∈ w2.states ∧ w2.fs = (e.planned (e.download w.fs).fs).fs) ∧
      (e.installTarballs cfg.lib ip.additional w2 (e.ρ 3 (tarballs ip))).2 = .ok ∧
      (e.phases cfg ip w).1 = (e.installTarballs cfg.lib ip.additional w2 (e.ρ 3 (tarballs ip))).1 := by
  unfold RunEnv.phases at h ⊢
  dsimp only at h ⊢
  split at h
  · simp at h
  rename_i h1
  rw [if_neg h1]
  split at h
  · simp at h
  rename_i h2
  rw [if_neg h2]
  split at h
  · simp at h
  rename_i h3
  split at h
  · simp at h
  rename_i h4
  obtain ⟨_, h6⟩ := not_or.1 h4
  have aux : ∀ o : PhaseEnd, o ≠ .dead → o ≠ .failed → o = .ok := by intro o; cases o <;> simp
  exact ⟨_, ⟨states_mono_move (states_mono_move (mem_states_fs _)), states_mono_move (mem_states_fs _), rfl⟩, aux _ h3 h6, rfl⟩

theorem tarballs_states {lib : Path} {m : GoMap AdditionalPkg} (a b : List Str) (w : World) (h : (e.installTarballs lib m w (a ++ b)).2 = .ok) :
    (e.installTarballs lib m w a).1.fs ∈ (e.installTarballs lib m w (a ++ b)).1.states := by
  induction a generalizing w with
  | nil => exact states_mono_tarballs (mem_states_fs w)
  | cons n ns ih =>
    rw [List.cons_append] at h ⊢
    obtain ⟨h1, h2, h3⟩ := tarball_of_ok h
    rw [h2]
    have h4 : (e.installTarballs lib m w (n :: ns)).1 = (e.installTarballs lib m (e.installTarball lib w n ((GoMap.get? m n).getD {})).1 ns).1 := by
      simp only [RunEnv.installTarballs]
      rw [h1]
    rw [h4]
    exact ih _ h3

/-- C54, what holds: a run that does not report failure had no failure: the downloads that it made succeeded, the queue that it started
afterwards reported no error, and then every tarball was installed without error, one after the other. -/
theorem C54_reported_partial (e : RunEnv) (cfg : RunCfg) (ip : InstallPlan) (pre : GoMap Desc) (fs : Fs)
    (h : (e.rInstall cfg ip pre fs).2 = .exit0 false) :
    ∃ w0 w1 : World, w0.fs ∈ (e.rInstall cfg ip pre fs).1.states ∧ (e.download w0.fs).out = .ok ∧
      (e.download w0.fs).fs ∈ (e.rInstall cfg ip pre fs).1.states ∧ (e.planned (e.download w0.fs).fs).out = .ok ∧
      w1.fs = (e.planned (e.download w0.fs).fs).fs ∧
      ∀ a n b, e.ρ 3 (tarballs ip) = a ++ n :: b →
        (e.installTarballs cfg.lib ip.additional w1 a).1.fs ∈ (e.rInstall cfg ip pre fs).1.states ∧
        (e.installTarball cfg.lib (e.installTarballs cfg.lib ip.additional w1 a).1 n ((GoMap.get? ip.additional n).getD {})).2 = .ok := by
  have hl : (e.ensureLibrary cfg ip fs).2 = true := by
    cases hl : (e.ensureLibrary cfg ip fs).2 with
    | true => rfl
    | false => unfold RunEnv.rInstall at h; dsimp only at h; rw [hl] at h; simp at h
  obtain ⟨w, hph, hrun⟩ : ∃ w : World, (e.phases cfg ip w).2 = .ok ∧ ∀ st ∈ (e.phases cfg ip w).1.states, st ∈ (e.rInstall cfg ip pre fs).1.states := by
    unfold RunEnv.rInstall RunEnv.body at h ⊢
    dsimp only at h ⊢
    rw [hl] at h ⊢
    rw [if_neg (by simp)] at h ⊢
    generalize (e.tag cfg (e.ensureLibrary cfg ip fs).1 (createRollbackPlan cfg.lib ip pre e.ρ)) = t at h
    refine ⟨t.1, ?_⟩
    cases ho : (e.phases cfg ip t.1).2 with
    | dead => rw [ho] at h; simp at h
    | failed => rw [ho] at h; simp at h
    | ok =>
      refine ⟨rfl, fun st hst => ?_⟩
      unfold RunEnv.undo RollbackPlan.deleteBackupFolders
      simp
      exact states_mono_deleteBackups (states_mono_deleteBackups hst)
  obtain ⟨p1, p2, _⟩ := phases_ok hph
  obtain ⟨w2, hw2, p3, p4⟩ := phases_moments hph
  refine ⟨w, w2, hrun _ ?_, p1, hrun _ ?_, p2, hw2.2.2, ?_⟩
  · rw [p4]; exact states_mono_tarballs hw2.1
  · rw [p4]; exact states_mono_tarballs hw2.2.1
  · intro a n b hab
    refine ⟨hrun _ ?_, installTarballs_failed e cfg.lib ip.additional _ _ p3 a n b hab⟩
    rw [p4, hab]
    rw [hab] at p3
    exact tarballs_states a (n :: b) w2 p3

/-! ### C112 -/

/-- A run without rollback that comes to its end. -/
theorem run_kept (hn : GoodNames ip) (hρ : e.ρ.Fair) (hnr : cfg.noRollback = true) {f : Bool}
    (h : (e.rInstall cfg ip pre fs).2 = .exit0 f) :
    (e.ensureLibrary cfg ip fs).2 = true ∧
    (e.phases cfg ip (afterTag e cfg ip pre (e.ensureLibrary cfg ip fs).1)).2 ≠ .dead ∧
    (e.rInstall cfg ip pre fs).1 = (taggedPlan e cfg ip pre).deleteBackupFolders e.disk
      (e.phases cfg ip (afterTag e cfg ip pre (e.ensureLibrary cfg ip fs).1)).1 := by
  unfold RunEnv.rInstall at h ⊢
  dsimp only at h ⊢
  split at h
  · simp at h
  rename_i hl
  rw [if_neg hl]
  have hl' : (e.ensureLibrary cfg ip fs).2 = true := by simpa using hl
  rw [body_eq hn hρ] at h ⊢
  by_cases hdead : (e.phases cfg ip (afterTag e cfg ip pre (e.ensureLibrary cfg ip fs).1)).2 = .dead
  · rw [if_pos hdead] at h
    simp at h
  rw [if_neg hdead] at h ⊢
  dsimp only at h ⊢
  refine ⟨hl', hdead, ?_⟩
  unfold RunEnv.undo
  rw [if_neg (by simp [hnr])]

/-- The phases, when the process survives them. -/
theorem phases_alive {w : World} (h : (e.phases cfg ip w).2 ≠ .dead) :
    (e.download w.fs).out = .ok ∧
    ∃ w2 : World, w2.fs = (e.planned (e.download w.fs).fs).fs ∧ (e.download w.fs).fs ∈ w2.states ∧
      (e.phases cfg ip w).1 = (e.installTarballs cfg.lib ip.additional w2 (e.ρ 3 (tarballs ip))).1 := by
  unfold RunEnv.phases at h ⊢
  dsimp only at h ⊢
  split at h
  · simp at h
  rename_i h1
  rw [if_neg h1]
  split at h
  · simp at h
  rename_i h2
  rw [if_neg h2]
  exact ⟨by simpa using h1, _, rfl, states_mono_move (mem_states_fs _), rfl⟩

/-- Deleting the backups at the end of a run touches nothing but backups. -/
theorem del_keeps (hb : Behaves e cfg.lib ip) (w : World) :
    Keeps cfg.lib (fun n => ∃ p ∈ setAside e cfg ip pre, n = backupName p) w.fs ((taggedPlan e cfg ip pre).deleteBackupFolders e.disk w).fs := by
  unfold RollbackPlan.deleteBackupFolders
  refine Keeps.trans ((goes_deleteBackups hb.removal cfg.lib (updatesOf cfg ip pre e.ρ) _).1.mono ?_)
    ((goes_deleteBackups hb.removal cfg.lib (overwritesOf cfg ip pre e.ρ) _).1.mono ?_)
  · rintro n ⟨p, hp, h⟩; exact ⟨p, List.mem_append_left _ hp, h⟩
  · rintro n ⟨p, hp, h⟩; exact ⟨p, List.mem_append_right _ hp, h⟩

/-- C112: with `NoRollback`, a run that comes to its end, failed or not, undoes nothing: what the installation queue
left in the library is there at the end, the packages of tarballs (installed afterwards), locks and backups aside. -/
theorem C112_nothing_undone (hb : Behaves e cfg.lib ip) (hn : GoodNames ip) (hnr : cfg.noRollback = true) {f : Bool}
    (h : (e.rInstall cfg ip pre fs).2 = .exit0 f) :
    ∃ st ∈ (e.rInstall cfg ip pre fs).1.states, ∀ n, (∀ p ∈ members ip, n ≠ backupName p) → n ∉ tarballs ip → ¬ IsLock n →
      contentOf (e.rInstall cfg ip pre fs).1.fs cfg.lib n = contentOf (e.planned st).fs cfg.lib n := by
  obtain ⟨_, hdead, hrun⟩ := run_kept (pre := pre) hn hb.order hnr h
  obtain ⟨_, w2, hw2, hst, p4⟩ := phases_alive hdead
  refine ⟨(e.download (afterTag e cfg ip pre (e.ensureLibrary cfg ip fs).1).fs).fs, ?_, ?_⟩
  · rw [hrun, p4]
    exact states_mono_deleteBackups (states_mono_deleteBackups (states_mono_tarballs hst))
  · intro n hnb hnt hnl
    rw [hrun, goes_content (del_keeps hb _), p4, goes_content (goes_installTarballs hb ip.additional (e.ρ 3 (tarballs ip)) w2).1, hw2]
    · rintro (h | h)
      · exact hnt ((hb.order 3 _).mem_iff.1 h)
      · exact hnl h
    · rintro ⟨p, hp, h⟩
      exact hnb p (setAside_member hb.order hp) h

/-- C112: with `NoRollback`, every package that the queue reported as installed before something else failed is
completely installed at the end, in any interleaving (`st` is the moment the queue was started, `s` its end). -/
theorem C112_installed_stay (hq : QueueIs e q cfg.lib ip Scratch Complete Holds) (ha : Around e cfg.lib) (hd : NoFaults e.disk)
    (hn : GoodNames ip) (hp : PlanOK ip pre) (ho : InOrder cfg.lib ip pre fs) (hdl : Delivers e q ip Scratch Holds cfg.lib fs)
    (hwhole : ∀ p ∈ queued ip, GoMap.has pre p = true → ¬ Replaced cfg ip p → Complete p (contentOf fs cfg.lib p))
    (hnr : cfg.noRollback = true) {f : Bool} (h : (e.rInstall cfg ip pre fs).2 = .exit0 f) :
    ∃ st ∈ (e.rInstall cfg ip pre fs).1.states, (∃ s, QReach q st s ∧ s.fs = (e.planned st).fs) ∧
      ∀ s, QReach q st s → s.fs = (e.planned st).fs → ∀ p ∈ queued ip, p ∉ tarballs ip → .finished p true ∈ s.run.log →
        Complete p (contentOf (e.rInstall cfg ip pre fs).1.fs cfg.lib p) := by
  have hb := hq.behaves ha
  obtain ⟨hl, hdead, hrun⟩ := run_kept (pre := pre) hn hb.order hnr h
  obtain ⟨hdok, w2, hw2, hst, p4⟩ := phases_alive hdead
  refine ⟨(e.download (afterTag e cfg ip pre (e.ensureLibrary cfg ip fs).1).fs).fs, ?_, hq.moments _ _ (by simp), ?_⟩
  · rw [hrun, p4]
    exact states_mono_deleteBackups (states_mono_deleteBackups (states_mono_tarballs hst))
  · intro s hs hsf p hpq hnt hfin
    have hm : p ∈ members ip := List.mem_append_left _ hpq
    rw [hrun, goes_content (del_keeps hb _), p4, goes_content (goes_installTarballs hb ip.additional (e.ρ 3 (tarballs ip)) w2).1, hw2]
    · rw [← hsf, ← hq.library]
      refine (qreach_invB hq.layout hq.contract hq.wf ?_ (run_files hq ha hd hn hp ho hdl hwhole hl hdok) hs).fin p ?_ hfin
      · intro x hx
        rw [hq.plan] at hx
        exact (hn x (List.mem_append_left _ hx)).2.1
      · rw [hq.plan]; exact hpq
    · rintro (h | h)
      · exact hnt ((hb.order 3 _).mem_iff.1 h)
      · exact (hn p hm).2.1 h
    · rintro ⟨x, _, hx⟩
      exact (hn p hm).2.2 (hx ▸ backup_prefix x)

/-- C112 fails for packages that were installed before: an outdated package whose update fails is lost.  It was set
aside before, nothing has taken its place, and the backup is deleted all the same. -/
theorem C112_violated_old_version_lost (hb : Behaves e cfg.lib ip) (hd : NoFaults e.disk) (hn : GoodNames ip)
    (hp : PlanOK ip pre) (ho : InOrder cfg.lib ip pre fs) (hnr : cfg.noRollback = true) {f : Bool}
    (h : (e.rInstall cfg ip pre fs).2 = .exit0 f) (o : OutdatedPackage) (hup : cfg.noUpdate = false) (hout : o ∈ ip.outdated)
    (hm : o.package ∈ members ip)
    (hfail : ∀ st, Gone cfg.lib st o.package → Gone cfg.lib (e.planned st).fs o.package) :
    fs (cfg.lib ++ [o.package]) = some .dir ∧
    Gone cfg.lib (e.rInstall cfg ip pre fs).1.fs o.package ∧ Gone cfg.lib (e.rInstall cfg ip pre fs).1.fs (backupName o.package) := by
  obtain ⟨hl, hdead, hrun⟩ := run_kept (pre := pre) hn hb.order hnr h
  have hlow := ensureLibrary_below (e := e) (cfg := cfg) (ip := ip) (fs := fs) hl
  generalize hw0 : (e.ensureLibrary cfg ip fs).1 = w0 at *
  have ho0 : InOrder cfg.lib ip pre w0.fs :=
    ⟨fun p h1 h2 => (hlow p []).trans (ho.found p h1 h2), fun p h1 h2 r => (hlow p r).trans (ho.notFound p h1 h2 r),
     fun p h1 r => (hlow _ r).trans (ho.noBackup p h1 r)⟩
  have hf := tagFacts (e := e) hb.order hn hp ho0
  obtain ⟨t1, _⟩ := tagAll_exact w0.fs (setAside e cfg ip pre) hf.nodup hf.names (fun p _ f => hd.1 _ _ _) hf.dir w0
    (fun p hp => ⟨fun r => rfl, hf.noOld p hp⟩)
  change ∀ p ∈ setAside e cfg ip pre, Saved cfg.lib w0.fs (afterTag e cfg ip pre w0).fs p ∧ Gone cfg.lib (afterTag e cfg ip pre w0).fs p at t1
  have hu : o.package ∈ updatesOf cfg ip pre e.ρ := (mem_updatesOf hb.order).2 ⟨hup, ⟨o, hout, rfl⟩, hm⟩
  have hs : o.package ∈ setAside e cfg ip pre := List.mem_append_left _ hu
  obtain ⟨hsav, hgone⟩ := t1 _ hs
  obtain ⟨_, w2, hw2, hst, p4⟩ := phases_alive hdead
  have hnt : o.package ∉ tarballs ip := hp.disjoint o hout
  have gph := goes_phases hb (fun p hp => (hn p (List.mem_append_left _ hp)).2.1) (afterTag e cfg ip pre w0)
  refine ⟨ho.found _ hm (hp.outdatedFound o hout), ?_, ?_⟩
  · have hg : Gone cfg.lib (e.planned (e.download (afterTag e cfg ip pre w0).fs).fs).fs o.package := by
      refine hfail _ fun r => ?_
      exact (hb.download _ _ (by simp) _ (List.prefix_append _ _)).trans (hgone r)
    intro r
    rw [hrun, (del_keeps hb _).at, p4, (goes_installTarballs hb ip.additional (e.ρ 3 (tarballs ip)) w2).1.at, hw2]
    · exact hg r
    · rintro (h | h)
      · exact hnt ((hb.order 3 _).mem_iff.1 h)
      · exact (hn _ hm).2.1 h
    · rintro ⟨x, _, hx⟩
      exact (hn _ hm).2.2 (hx ▸ backup_prefix x)
  · have hsv : (e.phases cfg ip (afterTag e cfg ip pre w0)).1.fs (cfg.lib ++ [backupName o.package]) ≠ none := by
      rw [gph.1.at_dir (phases_keep_backup hn _ _ _)]
      rw [hsav [], hf.dir _ hs]
      simp
    rw [hrun]
    unfold RollbackPlan.deleteBackupFolders
    have d1 := deleteBackups_gone (lib := cfg.lib) hd.2 (updatesOf cfg ip pre e.ρ) (e.phases cfg ip (afterTag e cfg ip pre w0)).1
    have d2 := deleteBackups_gone (lib := cfg.lib) hd.2 (overwritesOf cfg ip pre e.ρ)
      (deleteBackups e.disk (e.phases cfg ip (afterTag e cfg ip pre w0)).1 (attempts cfg.lib (updatesOf cfg ip pre e.ρ)))
    exact fun r => d2.2.1 _ (d1.2.2 _ hu hsv r)

/-- Non-vacuity of C112: in the run of `libRun` that fails, with `NoRollback`, the new package `b` stays and the
outdated package `a`, whose update is not installed, is lost. -/
example : Behaves (libRun .failed) [s%"lib"] toyPlan ∧ NoFaults (libRun .failed).disk ∧ GoodNames toyPlan ∧ PlanOK toyPlan toyPre ∧
    InOrder [s%"lib"] toyPlan toyPre toyLib ∧
    ((libRun .failed).rInstall { lib := [s%"lib"], noRollback := true } toyPlan toyPre toyLib).2 = .exit0 true ∧
    (∀ st, Gone [s%"lib"] st (s%"a") → Gone [s%"lib"] ((libRun .failed).planned st).fs (s%"a")) ∧
    ((libRun .failed).rInstall { lib := [s%"lib"], noRollback := true } toyPlan toyPre toyLib).1.fs [s%"lib", s%"b"] = some .dir := by
  refine ⟨libRun_behaves _, ⟨fun _ _ _ => rfl, fun _ _ => rfl⟩, toy_goodNames, toy_planOK, toy_inOrder, by decide, ?_, by decide⟩
  intro st h r
  show (if [s%"lib"] ++ s%"a" :: r = [s%"lib", s%"b"] then some Node.dir else st ([s%"lib"] ++ s%"a" :: r)) = none
  rw [if_neg (by simp)]
  exact h r

/-- Non-vacuity of `C112_installed_stay`: the run of `C110`, with `NoRollback`. -/
example : QueueIs wholeRun toyQ [s%"lib"] wholePlan (fun _ => False) ToyComplete ToyHolds ∧ Around wholeRun [s%"lib"] ∧ NoFaults wholeRun.disk ∧
    GoodNames wholePlan ∧ PlanOK wholePlan wholePre ∧ InOrder [s%"lib"] wholePlan wholePre wholeFs ∧
    Delivers wholeRun toyQ wholePlan (fun _ => False) ToyHolds [s%"lib"] wholeFs ∧
    (∀ p ∈ queued wholePlan, GoMap.has wholePre p = true → ToyComplete p (contentOf wholeFs [s%"lib"] p)) ∧
    (wholeRun.rInstall { lib := [s%"lib"], noRollback := true } wholePlan wholePre wholeFs).2 = .exit0 false ∧
    s%"b" ∈ queued wholePlan ∧ .finished (s%"b") true ∈ wholeS3.run.log := by
  have heq : wholeRun'.rInstall { lib := [s%"lib"], noRollback := true } wholePlan wholePre wholeFs =
      wholeRun.rInstall { lib := [s%"lib"], noRollback := true } wholePlan wholePre wholeFs :=
    rInstall_planned wholeRun _ rfl (if_pos rfl).symm
  rw [← heq]
  refine ⟨whole_queueIs, whole_around, ⟨fun _ _ _ => rfl, fun _ _ => rfl⟩, whole_goodNames, ⟨by decide, by decide, by decide, by decide⟩,
    whole_inOrder, whole_delivers, ?_, by decide +kernel, by decide, by decide +kernel⟩
  intro p hp h
  have : p = s%"a" ∨ p = s%"b" := by simpa [wholePlan, queued, GoMap.keys] using hp
  rcases this with rfl | rfl
  · show wholeFs _ = _
    decide
  · exact absurd h (by decide)

/-- Non-vacuity of `C54_tarball_partial`: an R that fails on every tarball, in the run of `toyPlan`. -/
example : ∃ (e : RunEnv), e.ρ.Fair ∧ GoodNames toyPlan ∧ s%"t" ∈ tarballs toyPlan ∧ (∀ c st, c.pkg = s%"t" → (e.ie.R c st).2 ≠ .ok) ∧
    (∀ t ∈ tarballs toyPlan, ∀ st ∈ (e.rInstall { lib := [s%"lib"] } toyPlan toyPre toyLib).1.states,
      st (absPath e.ie.cwd ((GoMap.get? toyPlan.additional t).getD {}).installPath) ≠ none) ∧
    (e.rInstall { lib := [s%"lib"] } toyPlan toyPre toyLib).2 = .exit0 true :=
  ⟨{ libRun .ok with ie := { toyEnv true with R := fun _ fs => (fs, .status 1) } }, fun _ l => List.Perm.refl l, toy_goodNames, by decide,
    fun _ _ _ => (by intro h; cases h), by
      intro t ht
      have : t = s%"t" := by simpa [toyPlan, tarballs, GoMap.keys] using ht
      subst this
      decide +kernel, by decide +kernel⟩

end Pkgr
