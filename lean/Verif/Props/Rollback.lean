/- C49-C57: the library before, during and after a run. -/
import Verif.Proof.Restore
import Verif.Props.Install

namespace Pkgr
open Spec

/-- The rollback plan after tagging. -/
def taggedPlan (e : RunEnv) (cfg : RunCfg) (ip : InstallPlan) (pre : GoMap Desc) : RollbackPlan :=
  { createRollbackPlan cfg.lib ip pre e.ρ with
    updates := attempts cfg.lib (updatesOf cfg ip pre e.ρ), additional := attempts cfg.lib (overwritesOf cfg ip pre e.ρ) }

/-- All packages set aside. -/
def setAside (e : RunEnv) (cfg : RunCfg) (ip : InstallPlan) (pre : GoMap Desc) : List Str :=
  updatesOf cfg ip pre e.ρ ++ overwritesOf cfg ip pre e.ρ

/-- The state when the phases begin. -/
def afterTag (e : RunEnv) (cfg : RunCfg) (ip : InstallPlan) (pre : GoMap Desc) (w : World) : World :=
  (tagAll e.disk cfg.lib w (setAside e cfg ip pre)).1

theorem body_eq {e : RunEnv} {cfg : RunCfg} {ip : InstallPlan} {pre : GoMap Desc} (hn : GoodNames ip) (hρ : e.ρ.Fair) (w : World) :
    e.body cfg ip pre w =
      if (e.phases cfg ip (afterTag e cfg ip pre w)).2 = .dead then ((e.phases cfg ip (afterTag e cfg ip pre w)).1, none)
      else (e.undo cfg (taggedPlan e cfg ip pre) (e.phases cfg ip (afterTag e cfg ip pre w)).1 (e.phases cfg ip (afterTag e cfg ip pre w)).2,
        some (taggedPlan e cfg ip pre, decide ((e.phases cfg ip (afterTag e cfg ip pre w)).2 = .failed))) := by
  unfold RunEnv.body
  rw [tag_eq hn hρ]
  rfl

theorem run_eq {e : RunEnv} {cfg : RunCfg} {ip : InstallPlan} {pre : GoMap Desc} (hn : GoodNames ip) (hρ : e.ρ.Fair)
    (hc : ip.createLibrary = false) (fs : Fs) :
    e.rInstall cfg ip pre fs =
      if (e.phases cfg ip (afterTag e cfg ip pre { fs := fs })).2 = .dead then ((e.phases cfg ip (afterTag e cfg ip pre { fs := fs })).1, .died)
      else ((taggedPlan e cfg ip pre).deleteBackupFolders e.disk
          (e.undo cfg (taggedPlan e cfg ip pre) (e.phases cfg ip (afterTag e cfg ip pre { fs := fs })).1 (e.phases cfg ip (afterTag e cfg ip pre { fs := fs })).2),
        .exit0 ((e.phases cfg ip (afterTag e cfg ip pre { fs := fs })).2 = .failed)) := by
  have hl : e.ensureLibrary cfg ip fs = ({ fs := fs }, true) := by
    unfold RunEnv.ensureLibrary; rw [hc]; rfl
  unfold RunEnv.rInstall
  rw [hl]
  simp only [Bool.not_true, Bool.false_eq_true, if_false]
  rw [body_eq hn hρ]
  by_cases h : (e.phases cfg ip (afterTag e cfg ip pre { fs := fs })).2 = .dead
  · simp only [if_pos h]
  · simp only [if_neg h]

/-- What follows from a plan and a library in order. -/
structure TagFacts (e : RunEnv) (cfg : RunCfg) (ip : InstallPlan) (pre : GoMap Desc) (fs : Fs) : Prop where
  nodup : (setAside e cfg ip pre).Nodup
  names : NotBackups (setAside e cfg ip pre)
  dir : ∀ p ∈ setAside e cfg ip pre, fs (cfg.lib ++ [p]) = some .dir
  noOld : ∀ p ∈ setAside e cfg ip pre, Gone cfg.lib fs (backupName p)
  mem : ∀ p ∈ setAside e cfg ip pre, p ∈ members ip ∧ GoMap.has pre p = true

theorem tagFacts {e : RunEnv} {cfg : RunCfg} {ip : InstallPlan} {pre : GoMap Desc} {fs : Fs} (hρ : e.ρ.Fair) (hn : GoodNames ip)
    (hp : PlanOK ip pre) (ho : InOrder cfg.lib ip pre fs) : TagFacts e cfg ip pre fs := by
  have hm : ∀ p ∈ setAside e cfg ip pre, p ∈ members ip ∧ GoMap.has pre p = true := by
    intro p hp'
    rcases List.mem_append.1 hp' with h | h
    · obtain ⟨_, ⟨o, ho, rfl⟩, h3⟩ := (mem_updatesOf hρ).1 h
      exact ⟨h3, hp.outdatedFound o ho⟩
    · obtain ⟨h1, h2⟩ := (mem_overwritesOf hρ).1 h
      exact ⟨List.mem_append_right _ h1, h2⟩
  refine ⟨?_, fun p h => ⟨(hn p (hm p h).1).1, (hn p (hm p h).1).2.2⟩, fun p h => ho.found p (hm p h).1 (hm p h).2,
    fun p h => ho.noBackup p (hm p h).1, hm⟩
  refine List.nodup_append.2 ⟨?_, ?_, ?_⟩
  · unfold updatesOf
    split
    · simp
    · exact hp.outdatedOnce.sublist (List.filter_sublist ..)
  · exact (((hρ 2 _).nodup_iff).2 hp.tarballOnce).sublist (List.filter_sublist ..)
  · rintro a ha b hb rfl
    obtain ⟨_, ⟨o, ho, rfl⟩, _⟩ := (mem_updatesOf hρ).1 ha
    exact hp.disjoint o ho ((mem_overwritesOf hρ).1 hb).1

/-- What the phases cannot touch once the packages are set aside. -/
theorem phases_keep_backup {ip : InstallPlan} (hn : GoodNames ip) (lib : Path) (fs : Fs) (p : Str) : ¬ PhaseTouch lib ip fs (backupName p) := by
  rintro (⟨h, _⟩ | h | h)
  · exact (hn _ (List.mem_append_left _ h)).2.2 (backup_prefix p)
  · exact (hn _ (List.mem_append_right _ h)).2.2 (backup_prefix p)
  · exact backup_not_lock p h

theorem phases_saved {e : RunEnv} {cfg : RunCfg} {ip : InstallPlan} {pre : GoMap Desc} {fs : Fs} (hb : Behaves e cfg.lib ip) (hn : GoodNames ip)
    (hf : TagFacts e cfg ip pre fs) (hd : TagsOK e.disk cfg.lib (setAside e cfg ip pre)) :
    (∀ p ∈ setAside e cfg ip pre, Saved cfg.lib fs (e.phases cfg ip (afterTag e cfg ip pre { fs := fs })).1.fs p) ∧
    ∀ st ∈ (e.phases cfg ip (afterTag e cfg ip pre { fs := fs })).1.states, ∀ p ∈ setAside e cfg ip pre,
      (Intact cfg.lib fs st p ∧ Gone cfg.lib st (backupName p)) ∨ Saved cfg.lib fs st p := by
  obtain ⟨t1, t2⟩ := tagAll_exact fs (setAside e cfg ip pre) hf.nodup hf.names hd hf.dir { fs := fs }
    (fun p hp => ⟨fun r => rfl, hf.noOld p hp⟩)
  have g := goes_phases hb (fun p hp => (hn p (List.mem_append_left _ hp)).2.1) (afterTag e cfg ip pre { fs := fs })
  refine ⟨fun p hp r => ?_, fun st hst p hp => ?_⟩
  · rw [g.1.at (phases_keep_backup hn _ _ p)]
    exact (t1 p hp).1 r
  · rcases g.2 st hst with h | h
    · rcases t2 st h with h | h
      · have : st = fs := by simpa [World.states] using h
        subst this
        exact Or.inl ⟨fun r => rfl, hf.noOld p hp⟩
      · exact h p hp
    · refine Or.inr fun r => ?_
      rw [h.at (phases_keep_backup hn _ _ p)]
      exact (t1 p hp).1 r

/-! ## C49: rollback restores the library -/

/-- C49, for a library that the run itself has made: if an installation fails with rollback enabled and no I/O error occurs, then
after the run the library is gone, with everything in it (R's lock directories included). -/
theorem C49_made_is_removed (e : RunEnv) (cfg : RunCfg) (ip : InstallPlan) (pre : GoMap Desc) (fs : Fs)
    (hb : Behaves e cfg.lib ip) (hd : NoFaults e.disk) (hn : GoodNames ip) (hc : ip.createLibrary = true)
    (hrb : cfg.noRollback = false) (hfail : (e.rInstall cfg ip pre fs).2 = .exit0 true) :
    ∀ q, cfg.lib <+: q → (e.rInstall cfg ip pre fs).1.fs q = none := by
  -- the library did not exist: it is removed altogether
  have hgone : ∀ w : World, ∀ q, cfg.lib <+: q → (e.disk.removeAll w cfg.lib).1.fs q = none := by
    intro w q hq
    unfold Disk.removeAll
    have := hd.2 w.fs cfg.lib
    split
    · show w.fs.removeAll cfg.lib q = none
      rw [removeAll_at, if_pos hq]
    · rename_i mid he
      rw [he] at this
      simp at this
  intro q hq
  unfold RunEnv.rInstall at hfail ⊢
  dsimp only at hfail ⊢
  split at hfail
  · simp at hfail
  rename_i hl
  rw [if_neg hl]
  rw [body_eq hn hb.order] at hfail ⊢
  by_cases hdead : (e.phases cfg ip (afterTag e cfg ip pre (e.ensureLibrary cfg ip fs).1)).2 = .dead
  · simp only [if_pos hdead] at hfail
    simp at hfail
  simp only [if_neg hdead] at hfail ⊢
  have hf : (e.phases cfg ip (afterTag e cfg ip pre (e.ensureLibrary cfg ip fs).1)).2 = .failed := by simpa using hfail
  unfold RunEnv.undo
  rw [if_pos (by simp [hrb, hf])]
  have hr : ∀ w, rollbackEnvironment e.disk w (taggedPlan e cfg ip pre) = e.disk.removeAll w cfg.lib := by
    intro w
    unfold rollbackEnvironment
    rw [if_pos (show (taggedPlan e cfg ip pre).plan.createLibrary = true from hc)]
    rfl
  rw [hr]
  unfold RollbackPlan.deleteBackupFolders
  have hgn : ∀ w : World, ∀ p, Gone cfg.lib (e.disk.removeAll w cfg.lib).1.fs (backupName p) :=
    fun w p r => hgone w _ (List.prefix_append _ _)
  show (deleteBackups e.disk (deleteBackups e.disk _ (attempts cfg.lib _)) (attempts cfg.lib _)).fs q = none
  rw [deleteBackups_noop _ _ (fun p _ => hgn _ p), deleteBackups_noop _ _ (fun p _ => hgn _ p)]
  exact hgone _ q hq

/-- C49, for libraries in order: if an installation fails with rollback enabled and no I/O error occurs, then
after the run every file and directory of the library (R's lock directories aside) is what it was before. -/
theorem C49_restored_partial (e : RunEnv) (cfg : RunCfg) (ip : InstallPlan) (pre : GoMap Desc) (fs : Fs)
    (hb : Behaves e cfg.lib ip) (hd : NoFaults e.disk) (hn : GoodNames ip) (hp : PlanOK ip pre) (ho : InOrder cfg.lib ip pre fs)
    (hnew : ip.createLibrary = true → ∀ q, cfg.lib <+: q → fs q = none)
    (hrb : cfg.noRollback = false) (hfail : (e.rInstall cfg ip pre fs).2 = .exit0 true) :
    Keeps cfg.lib IsLock fs (e.rInstall cfg ip pre fs).1.fs := by
  cases hc : ip.createLibrary with
  | true =>
    intro q hq _
    rw [hnew hc q hq]
    exact C49_made_is_removed e cfg ip pre fs hb hd hn hc hrb hfail q hq
  | false =>
    have hf := tagFacts (e := e) hb.order hn hp ho
    have hT : TagsOK e.disk cfg.lib (setAside e cfg ip pre) := fun p _ fs' => hd.1 _ _ _
    have grun := goes_run (pre := pre) hb hn hc fs
    obtain ⟨s1, _⟩ := phases_saved hb hn hf hT
    rw [run_eq hn hb.order hc] at hfail grun ⊢
    by_cases hdead : (e.phases cfg ip (afterTag e cfg ip pre { fs := fs })).2 = .dead
    · rw [if_pos hdead] at hfail
      simp at hfail
    rw [if_neg hdead] at hfail grun ⊢
    have hff : (e.phases cfg ip (afterTag e cfg ip pre { fs := fs })).2 = .failed := by simpa using hfail
    have hu : ∀ w, e.undo cfg (taggedPlan e cfg ip pre) w .failed = (rollbackEnvironment e.disk w (taggedPlan e cfg ip pre)).1 := by
      intro w
      unfold RunEnv.undo
      rw [if_pos (by simp [hrb])]
    rw [hff, hu] at grun ⊢
    dsimp only at grun ⊢
    generalize hwp : (e.phases cfg ip (afterTag e cfg ip pre { fs := fs })).1 = wp at s1 grun ⊢
    have hplainNew : ∀ p ∈ (createRollbackPlan cfg.lib ip pre e.ρ).new, PlainName p := fun p h => (hn p ((mem_new hb.order).1 h).1).1
    obtain ⟨n1, n2⟩ := removeNew_exact hd (lib := cfg.lib) _ hplainNew wp
    have hre := rollback_eq (e := e) (cfg := cfg) (pre := pre) hc (updatesOf cfg ip pre e.ρ) (overwritesOf cfg ip pre e.ρ) wp
    rw [n1] at hre
    simp only [Bool.false_eq_true, if_false] at hre
    change rollbackEnvironment e.disk wp (taggedPlan e cfg ip pre) = restoreAll e.disk _ (attempts cfg.lib (setAside e cfg ip pre)) at hre
    rw [hre] at grun ⊢
    generalize hwn : (removeNew e.disk cfg.lib wp (createRollbackPlan cfg.lib ip pre e.ρ).new).1 = wn at n2 grun ⊢
    have hbn : ∀ p, backupName p ∉ (createRollbackPlan cfg.lib ip pre e.ρ).new := fun p h =>
      (hn _ ((mem_new hb.order).1 h).1).2.2 (backup_prefix p)
    obtain ⟨_, r2, r3⟩ := restoreAll_exact hb.removal fs (setAside e cfg ip pre) hf.nodup hf.names hf.dir wn
      (fun p hp r => by rw [n2, if_neg (hbn p), s1 p hp r])
    have hr := r2 (r3 hd)
    have gr := goes_restoreAll hb.removal cfg.lib (setAside e cfg ip pre) wn
    generalize hwr : (restoreAll e.disk wn (attempts cfg.lib (setAside e cfg ip pre))).1 = wr at hr gr grun ⊢
    have hdel : (taggedPlan e cfg ip pre).deleteBackupFolders e.disk wr = wr := by
      unfold RollbackPlan.deleteBackupFolders
      show deleteBackups e.disk (deleteBackups e.disk wr (attempts cfg.lib _)) (attempts cfg.lib _) = wr
      rw [deleteBackups_noop _ _ (fun p h => (hr p (List.mem_append_left _ h)).2),
        deleteBackups_noop _ _ (fun p h => (hr p (List.mem_append_right _ h)).2)]
    rw [hdel] at grun ⊢
    intro q hq hlock
    rcases inLib_cases hq with rfl | ⟨n, r, rfl⟩
    · exact grun.1 _ hq fun n _ => not_below_lib _ n
    · by_cases h1 : PkgOrBackup (setAside e cfg ip pre) n
      · obtain ⟨p, hp', rfl | rfl⟩ := h1
        · exact (hr n hp').1 r
        · rw [(hr p hp').2 r, hf.noOld p hp' r]
      · by_cases h2 : n ∈ (createRollbackPlan cfg.lib ip pre e.ρ).new
        · rw [gr.1.at h1, n2, if_pos h2]
          have h3 := (mem_new hb.order).1 h2
          rw [ho.notFound n h3.1 h3.2 r]
        · refine grun.1.at ?_ r
          have hnl : ¬ IsLock n := fun h => hlock n h (by rw [below_iff])
          have hmem : n ∈ members ip → GoMap.has pre n = true := fun h => by
            cases h' : GoMap.has pre n with
            | true => rfl
            | false => exact absurd ((mem_new hb.order).2 ⟨h, h'⟩) h2
          rintro (h | ⟨h, h'⟩ | ⟨h, h'⟩ | h | h)
          · exact h1 h
          · rw [hmem h] at h'; simp at h'
          · exact h' (ho.found n (List.mem_append_left _ h) (hmem (List.mem_append_left _ h)))
          · refine h1 ⟨n, List.mem_append_right _ ((mem_overwritesOf hb.order).2 ⟨h, hmem (List.mem_append_right _ h)⟩), Or.inl rfl⟩
          · exact hnl h


/-! ### A toy run: package `a` is outdated, `b` is new, `t` is overwritten by a tarball; installing fails. -/

/-- see above -/
def toyLib : Fs := fun q =>
  if q = [s%"lib"] ∨ q = [s%"lib", s%"a"] ∨ q = [s%"lib", s%"t"] ∨ q = [s%"w"] then some .dir
  else if q = [s%"lib", s%"a", s%"DESCRIPTION"] then some (.file (s%"a 1"))
  else if q = [s%"w", s%"t.tar.gz"] then some (.file (s%"t"))
  else none

/-- see above -/
def toyPlan : InstallPlan :=
  { starting := [s%"a"], depDb := [(s%"b", [])], outdated := [⟨s%"a", s%"1", s%"2"⟩],
    additional := [(s%"t", { installPath := s%"/w/t.tar.gz" })] }

/-- see above -/
def toyPre : GoMap Desc := [(s%"a", { package := s%"a", version := s%"1" }), (s%"t", { package := s%"t", version := s%"1" })]

/-- see above; the queue leaves a directory for `b` and ends as `o` says -/
def libRun (o : PhaseEnd) : RunEnv :=
  { disk := { renameFails := fun _ _ _ => false, removing := fun _ _ => ([], false) }
    ρ := fun _ l => l
    mkdirFails := fun _ => false
    download := fun fs => { fs := fs, out := .ok }
    planned := fun fs => { fs := fun q => if q = [s%"lib", s%"b"] then some .dir else fs q, out := o }
    ie := toyEnv true
    during := fun _ _ => [] }

theorem libRun_behaves (o : PhaseEnd) : Behaves (libRun o) [s%"lib"] toyPlan where
  download := by
    intro fs st hst
    have : st = fs := by simpa [libRun] using hst
    subst this
    exact fun p _ => rfl
  queue := by
    intro fs st hst
    have : st = fun q => if q = [s%"lib", s%"b"] then some .dir else fs q := by simpa [libRun] using hst
    subst this
    by_cases h : fs ([s%"lib"] ++ [s%"b"]) = some .dir
    · refine ⟨[], ?_⟩
      have : (fun q => if q = [s%"lib", s%"b"] then some Node.dir else fs q) = fs := by
        funext q
        split
        · rename_i hq; rw [hq]; exact h.symm
        · rfl
      rw [this]
      exact .start
    · refine ⟨[s%"b"], .write fs _ _ (s%"b") (.begin fs [] (s%"b") .start (by decide) h) (by simp) ?_⟩
      intro q _ hn
      have := hn (s%"b") (Or.inl rfl)
      show (if q = [s%"lib", s%"b"] then some Node.dir else fs q) = fs q
      rw [if_neg]
      rintro rfl
      exact this (List.prefix_refl _)
  R := toyR_confined true
  during := by intro n fs st h; simp [libRun] at h
  removal := by intro fs p st h; simp [libRun] at h
  order := fun _ l => List.Perm.refl l

theorem toy_inOrder : InOrder [s%"lib"] toyPlan toyPre toyLib where
  found := by decide
  notFound := by
    intro p hp h r
    have hp' : p = s%"a" ∨ p = s%"b" ∨ p = s%"t" := by simpa [toyPlan, members, queued, tarballs, GoMap.keys] using hp
    rcases hp' with rfl | rfl | rfl
    · exact absurd h (by decide)
    · simp [toyLib]
    · exact absurd h (by decide)
  noBackup := by
    intro p hp r
    have hp' : p = s%"a" ∨ p = s%"b" ∨ p = s%"t" := by simpa [toyPlan, members, queued, tarballs, GoMap.keys] using hp
    rcases hp' with rfl | rfl | rfl <;> simp [toyLib, backupName]

theorem toy_goodNames : GoodNames toyPlan := by
  intro p hp
  have hp' : p = s%"a" ∨ p = s%"b" ∨ p = s%"t" := by simpa [toyPlan, members, queued, tarballs, GoMap.keys] using hp
  rcases hp' with rfl | rfl | rfl <;> decide

theorem toy_planOK : PlanOK toyPlan toyPre := ⟨by decide, by decide, by decide, by decide⟩

/-- The hypotheses of C49 are met by a run that sets two packages aside, creates a third and fails. -/
example : Behaves (libRun .failed) [s%"lib"] toyPlan ∧ NoFaults (libRun .failed).disk ∧ GoodNames toyPlan ∧ PlanOK toyPlan toyPre ∧
    InOrder [s%"lib"] toyPlan toyPre toyLib ∧ ((libRun .failed).rInstall { lib := [s%"lib"] } toyPlan toyPre toyLib).2 = .exit0 true ∧
    none ∈ (((libRun .failed).rInstall { lib := [s%"lib"] } toyPlan toyPre toyLib).1.states).map (fun st => st [s%"lib", s%"a"]) :=
  ⟨libRun_behaves _, ⟨fun _ _ _ => rfl, fun _ _ => rfl⟩, toy_goodNames, toy_planOK, toy_inOrder, by decide, by decide⟩

/-- The same files, without a library. -/
def madeFs : Fs := fun q => if [s%"lib"] <+: q then none else toyLib q

/-- Non-vacuity of C49_made_is_removed: the run has made the library, and something in it; after the failure it is gone. -/
example : (((libRun .failed).rInstall { lib := [s%"lib"] } { toyPlan with createLibrary := true } [] madeFs).1.states).any (fun st => (st [s%"lib", s%"b"]).isSome) = true ∧
    ∀ q, [s%"lib"] <+: q → ((libRun .failed).rInstall { lib := [s%"lib"] } { toyPlan with createLibrary := true } [] madeFs).1.fs q = none := by
  have hb := libRun_behaves .failed
  refine ⟨by decide, C49_made_is_removed (libRun .failed) { lib := [s%"lib"] } { toyPlan with createLibrary := true } [] madeFs
    ⟨hb.download, hb.queue, hb.R, hb.during, hb.removal, hb.order⟩ ⟨fun _ _ _ => rfl, fun _ _ => rfl⟩ toy_goodNames rfl rfl (by decide)⟩

/-- C49 does not hold for a library in disorder: a directory without (readable) DESCRIPTION that bears the name of
a planned package is deleted by the rollback, although it was there before the run. -/
theorem C49_violated_stray (e : RunEnv) (cfg : RunCfg) (ip : InstallPlan) (pre : GoMap Desc) (fs : Fs)
    (hb : Behaves e cfg.lib ip) (hd : NoFaults e.disk) (hn : GoodNames ip) (hc : ip.createLibrary = false)
    (hout : ∀ o ∈ ip.outdated, GoMap.has pre o.package = true)
    (hrb : cfg.noRollback = false) (hfail : (e.rInstall cfg ip pre fs).2 = .exit0 true)
    (p : Str) (hp : p ∈ members ip) (hstray : GoMap.has pre p = false) :
    ∀ r, (e.rInstall cfg ip pre fs).1.fs (cfg.lib ++ p :: r) = none := by
  intro r
  have hT : ¬ PkgOrBackup (setAside e cfg ip pre) p := by
    rintro ⟨q, hq, h⟩
    have hq' : q ∈ members ip ∧ GoMap.has pre q = true := by
      rcases List.mem_append.1 hq with h | h
      · obtain ⟨_, ⟨o, ho, rfl⟩, h3⟩ := (mem_updatesOf hb.order).1 h
        exact ⟨h3, hout o ho⟩
      · obtain ⟨h1, h2⟩ := (mem_overwritesOf hb.order).1 h
        exact ⟨List.mem_append_right _ h1, h2⟩
    rcases h with rfl | rfl
    · rw [hq'.2] at hstray; simp at hstray
    · exact (hn _ hp).2.2 (backup_prefix q)
  rw [run_eq hn hb.order hc] at hfail ⊢
  by_cases hdead : (e.phases cfg ip (afterTag e cfg ip pre { fs := fs })).2 = .dead
  · rw [if_pos hdead] at hfail
    simp at hfail
  rw [if_neg hdead] at hfail ⊢
  have hff : (e.phases cfg ip (afterTag e cfg ip pre { fs := fs })).2 = .failed := by simpa using hfail
  rw [hff]
  unfold RunEnv.undo
  rw [if_pos (by simp [hrb])]
  dsimp only
  generalize (e.phases cfg ip (afterTag e cfg ip pre { fs := fs })).1 = wp
  obtain ⟨n1, n2⟩ := removeNew_exact hd (lib := cfg.lib) (createRollbackPlan cfg.lib ip pre e.ρ).new
    (fun p h => (hn p ((mem_new hb.order).1 h).1).1) wp
  have hre := rollback_eq (e := e) (cfg := cfg) (pre := pre) hc (updatesOf cfg ip pre e.ρ) (overwritesOf cfg ip pre e.ρ) wp
  rw [n1] at hre
  simp only [Bool.false_eq_true, if_false] at hre
  change rollbackEnvironment e.disk wp (taggedPlan e cfg ip pre) = restoreAll e.disk _ (attempts cfg.lib (setAside e cfg ip pre)) at hre
  rw [hre]
  have g1 := goes_restoreAll hb.removal cfg.lib (setAside e cfg ip pre) (removeNew e.disk cfg.lib wp (createRollbackPlan cfg.lib ip pre e.ρ).new).1
  have hdel : Goes cfg.lib (PkgOrBackup (setAside e cfg ip pre)) (restoreAll e.disk (removeNew e.disk cfg.lib wp (createRollbackPlan cfg.lib ip pre e.ρ).new).1 (attempts cfg.lib (setAside e cfg ip pre))).1
      ((taggedPlan e cfg ip pre).deleteBackupFolders e.disk (restoreAll e.disk (removeNew e.disk cfg.lib wp (createRollbackPlan cfg.lib ip pre e.ρ).new).1 (attempts cfg.lib (setAside e cfg ip pre))).1) := by
    unfold RollbackPlan.deleteBackupFolders
    refine Goes.trans ((goes_deleteBackups hb.removal cfg.lib _ _).mono ?_) ((goes_deleteBackups hb.removal cfg.lib _ _).mono ?_)
    · rintro n ⟨p, hp, h⟩
      exact ⟨p, List.mem_append_left _ hp, Or.inr h⟩
    · rintro n ⟨p, hp, h⟩
      exact ⟨p, List.mem_append_right _ hp, Or.inr h⟩
  rw [(g1.trans hdel).1.at hT, n2, if_pos ((mem_new hb.order).2 ⟨hp, hstray⟩)]

/-- A directory `b` without DESCRIPTION in the toy library: the hypotheses of `C49_violated_stray` are met. -/
example : let fs : Fs := fun q => if q = [s%"lib", s%"b"] then some .dir else toyLib q
    fs ([s%"lib"] ++ [s%"b"]) = some .dir ∧ GoMap.has toyPre (s%"b") = false ∧
    ((libRun .failed).rInstall { lib := [s%"lib"] } toyPlan toyPre fs).2 = .exit0 true ∧
    ((libRun .failed).rInstall { lib := [s%"lib"] } toyPlan toyPre fs).1.fs [s%"lib", s%"b"] = none := by decide

/-- C49 does not hold when a backup is left over from a killed run: the rollback then installs the left-over
backup instead of the version that was there before the run. -/
theorem C49_violated_stale_backup :
    ∃ (fs : Fs) (new old : Str), fs [s%"lib", s%"a", s%"DESCRIPTION"] = some (.file new) ∧ new ≠ old ∧
      Behaves (libRun .failed) [s%"lib"] toyPlan ∧
      ((libRun .failed).rInstall { lib := [s%"lib"] } toyPlan toyPre fs).2 = .exit0 true ∧
      ((libRun .failed).rInstall { lib := [s%"lib"] } toyPlan toyPre fs).1.fs [s%"lib", s%"a", s%"DESCRIPTION"] = some (.file old) :=
  ⟨fun q => if q = [s%"lib", s%"__OLD__a"] then some .dir else if q = [s%"lib", s%"__OLD__a", s%"DESCRIPTION"] then some (.file (s%"a 0")) else toyLib q,
    s%"a 1", s%"a 0", by decide, by decide, libRun_behaves _, by decide, by decide⟩

/-- C49 does not hold when the run dies while downloading (a missing local package file, for example): every
package set aside has left its place. -/
theorem C49_violated_dead_download (e : RunEnv) (cfg : RunCfg) (ip : InstallPlan) (pre : GoMap Desc) (fs : Fs)
    (hb : Behaves e cfg.lib ip) (hd : NoFaults e.disk) (hn : GoodNames ip) (hp : PlanOK ip pre) (ho : InOrder cfg.lib ip pre fs)
    (hc : ip.createLibrary = false) (hdl : ∀ fs', (e.download fs').out = .dead)
    (o : OutdatedPackage) (hup : cfg.noUpdate = false) (hout : o ∈ ip.outdated) (hmem : o.package ∈ members ip) :
    (e.rInstall cfg ip pre fs).2 = .died ∧
    fs (cfg.lib ++ [o.package]) = some .dir ∧ (e.rInstall cfg ip pre fs).1.fs (cfg.lib ++ [o.package]) = none := by
  have hf := tagFacts (e := e) hb.order hn hp ho
  have hin : o.package ∈ setAside e cfg ip pre := List.mem_append_left _ ((mem_updatesOf hb.order).2 ⟨hup, ⟨o, hout, rfl⟩, hmem⟩)
  obtain ⟨t1, _⟩ := tagAll_exact fs (setAside e cfg ip pre) hf.nodup hf.names (fun p _ fs' => hd.1 _ _ _) hf.dir { fs := fs }
    (fun p hp => ⟨fun r => rfl, hf.noOld p hp⟩)
  have hph : e.phases cfg ip (afterTag e cfg ip pre { fs := fs }) =
      ((afterTag e cfg ip pre { fs := fs }).move (e.download (afterTag e cfg ip pre { fs := fs }).fs).mid (e.download (afterTag e cfg ip pre { fs := fs }).fs).fs, .dead) := by
    unfold RunEnv.phases
    dsimp only
    rw [if_pos (by rw [hdl]; decide)]
  rw [run_eq hn hb.order hc, hph]
  refine ⟨by simp, hf.dir _ hin, ?_⟩
  rw [if_pos rfl]
  show (e.download (afterTag e cfg ip pre { fs := fs }).fs).fs (cfg.lib ++ [o.package]) = none
  have h1 := hb.download (afterTag e cfg ip pre { fs := fs }).fs (e.download (afterTag e cfg ip pre { fs := fs }).fs).fs (by simp)
  exact (h1 (cfg.lib ++ [o.package]) (List.prefix_append _ _)).trans ((t1 _ hin).2 [])

example : let e := { libRun .failed with download := fun fs => { fs := fs, out := .dead } }
    (e.rInstall { lib := [s%"lib"] } toyPlan toyPre toyLib).2 = .died ∧
    (e.rInstall { lib := [s%"lib"] } toyPlan toyPre toyLib).1.fs [s%"lib", s%"a"] = none ∧
    (e.rInstall { lib := [s%"lib"] } toyPlan toyPre toyLib).1.fs [s%"lib", s%"__OLD__a", s%"DESCRIPTION"] = some (.file (s%"a 1")) := by decide

/-! ## C50: packages outside the plan -/

theorem outside_not_touched {e : RunEnv} {cfg : RunCfg} {ip : InstallPlan} {pre : GoMap Desc} (hρ : e.ρ.Fair) (fs : Fs) {n : Str}
    (h1 : n ∉ members ip) (h2 : ∀ p ∈ members ip, n ≠ backupName p) (h3 : ¬ IsLock n) : ¬ RunTouch cfg ip pre e.ρ fs n := by
  have hm : ∀ p ∈ updatesOf cfg ip pre e.ρ ++ overwritesOf cfg ip pre e.ρ, p ∈ members ip := by
    intro p hp
    rcases List.mem_append.1 hp with h | h
    · exact ((mem_updatesOf hρ).1 h).2.2
    · exact List.mem_append_right _ ((mem_overwritesOf hρ).1 h).1
  rintro (⟨p, hp, h | h⟩ | ⟨h, _⟩ | ⟨h, _⟩ | h | h)
  · exact h1 (h ▸ hm p hp)
  · exact h2 p (hm p hp) h
  · exact h1 h
  · exact h1 (List.mem_append_left _ h)
  · exact h1 (List.mem_append_right _ h)
  · exact h3 h

/-- C50: in every state that the file system goes through, whatever fails (I/O errors included) and wherever the
process dies, everything in the library whose name is not that of a planned package, of the backup of one, or of an
R lock is unchanged. -/
theorem C50_outside_untouched (e : RunEnv) (cfg : RunCfg) (ip : InstallPlan) (pre : GoMap Desc) (fs : Fs)
    (hb : Behaves e cfg.lib ip) (hn : GoodNames ip) (hnew : ip.createLibrary = true → ∀ q, cfg.lib <+: q → fs q = none)
    (n : Str) (h1 : n ∉ members ip) (h2 : ∀ p ∈ members ip, n ≠ backupName p) (h3 : ¬ IsLock n) :
    ∀ st ∈ (e.rInstall cfg ip pre fs).1.states, ∀ r, st (cfg.lib ++ n :: r) = fs (cfg.lib ++ n :: r) := by
  intro st hst r
  have hout := fun fs' => outside_not_touched (e := e) (cfg := cfg) (pre := pre) hb.order fs' h1 h2 h3
  cases hc : ip.createLibrary with
  | false =>
    rcases (goes_run (pre := pre) hb hn hc fs).2 st hst with h | h
    · have : st = fs := by simpa [World.states] using h
      rw [this]
    · exact h.at (hout fs) r
  | true =>
    have hz := hnew hc _ (List.prefix_append cfg.lib (n :: r))
    rw [hz]
    -- all states: nothing is there
    let P : Fs → Prop := fun st => st (cfg.lib ++ n :: r) = none
    have hgo : ∀ {w w' : World} {fs'}, Goes cfg.lib (RunTouch cfg ip pre e.ρ fs') w w' → (∀ st ∈ w.states, P st) → ∀ st ∈ w'.states, P st := by
      intro w w' fs' g hw st hst
      rcases g.2 st hst with h | h
      · exact hw st h
      · show st _ = none
        rw [h.at (hout fs') r]
        exact hw w.fs (by simp [World.states])
    have hl : ∀ st ∈ (e.ensureLibrary cfg ip fs).1.states, P st := by
      intro st hst
      unfold RunEnv.ensureLibrary at hst
      rw [if_pos hc] at hst
      split at hst
      · have : st = fs := by simpa [World.states] using hst
        rw [this]; exact hz
      · split at hst
        · have : st = fs := by simpa [World.states] using hst
          rw [this]; exact hz
        · rcases mem_states_move hst with h | h | h
          · have : st = fs := by simpa [World.states] using h
            rw [this]; exact hz
          · simp at h
          · rw [h]
            show fs.mkdirAll cfg.lib _ = none
            unfold Fs.mkdirAll
            rw [if_neg, hz]
            rintro ⟨hp, _⟩
            have := hp.length_le
            simp at this
            omega
    unfold RunEnv.rInstall at hst
    dsimp only at hst
    split at hst
    · exact hl st hst
    · unfold RunEnv.body at hst
      have g1 := goes_tag_phases (pre := pre) hb hn (e.ensureLibrary cfg ip fs).1
      rw [tag_eq hn hb.order] at g1 hst
      dsimp only at g1 hst
      have hw1 := hgo g1 hl
      split at hst
      · rename_i h
        split at h
        · rename_i hd
          rw [if_pos hd] at hst
          exact hw1 st hst
        · simp at h
      · rename_i rp failed h
        split at h
        · simp at h
        · rename_i hd
          rw [if_neg hd] at hst
          simp only [Option.some.injEq, Prod.mk.injEq] at h
          obtain ⟨rfl, rfl⟩ := h
          refine hgo (goes_deleteBackupFolders (pre := pre) (cfg := cfg) (ip := ip) hb.removal fs _) ?_ st hst
          intro st hst
          unfold RunEnv.undo at hst
          split at hst
          · unfold rollbackEnvironment at hst
            rw [if_pos (show (createRollbackPlan cfg.lib ip pre e.ρ).plan.createLibrary = true from hc)] at hst
            change st ∈ (e.disk.removeAll _ cfg.lib).1.states at hst
            unfold Disk.removeAll at hst
            have hwp := hw1 (e.phases cfg ip (tagAll e.disk cfg.lib (e.ensureLibrary cfg ip fs).1
                (updatesOf cfg ip pre e.ρ ++ overwritesOf cfg ip pre e.ρ)).1).1.fs (by simp [World.states])
            have hmid : ∀ st ∈ (e.disk.removing (e.phases cfg ip (tagAll e.disk cfg.lib (e.ensureLibrary cfg ip fs).1
                (updatesOf cfg ip pre e.ρ ++ overwritesOf cfg ip pre e.ρ)).1).1.fs cfg.lib).1, P st := by
              intro st hst
              rcases (hb.removal _ _ st hst).2 (cfg.lib ++ n :: r) with h | h
              · exact h.trans hwp
              · exact h
            split at hst
            · rename_i mid he
              rcases mem_states_move hst with h | h | h
              · exact hw1 st h
              · exact hmid st (by rw [he]; exact h)
              · rw [h]
                show Fs.removeAll _ cfg.lib _ = none
                rw [removeAll_at, if_pos (List.prefix_append _ _)]
            · rename_i mid he
              rcases mem_states_move hst with h | h | h
              · exact hw1 st h
              · exact hmid st (by rw [he]; exact h)
              · rw [h]
                cases hlast : mid.getLast? with
                | none => exact hwp
                | some x => exact hmid x (by rw [he]; exact List.mem_of_getLast? hlast)
          · exact hw1 st hst

/-- The installer modelled in C43 is such a queue: each installation it makes, started in a state of the queue, leads
to a state of the queue. -/
theorem C50_queue_of_installer (e : InstallEnv) (lib tmp : Path) (jobs : List Str) (fs0 fs : Fs) (act : List Str) (ir : InstallReq)
    (hl : ir.lib = lib) (hj : ir.pkg ∈ jobs) (hR : RConfined e.R lib) (hA : Apart lib tmp) (h : JobRun lib jobs fs0 fs act) :
    ∃ act', JobRun lib jobs fs0 (e.installThroughBinary tmp fs ir).fs act' := by
  subst hl
  by_cases hd : fs (ir.lib ++ [ir.pkg]) = some .dir
  · rw [(C43_present_untouched e tmp fs ir hd).1]
    exact ⟨act, h⟩
  · refine ⟨ir.pkg :: act, .write fs _ _ ir.pkg (.begin fs act ir.pkg h hj hd) (by simp) ?_⟩
    intro q hq hn
    exact C43_only_own_package e tmp fs ir hR hA q hq (hn _ (Or.inl rfl)) (hn _ (Or.inr rfl))

/-- A package that is not planned, in the toy library. -/
example : s%"z" ∉ members toyPlan ∧ (∀ p ∈ members toyPlan, s%"z" ≠ backupName p) ∧ ¬ IsLock (s%"z") := by decide

end Pkgr
