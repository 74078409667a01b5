/- C51-C57: crashes, backups, exit status, strict mode, no-update, second runs. -/
import Verif.Props.Rollback
import Verif.Props.Plan

namespace Pkgr
open Spec

/-- The state when the phases are over. -/
def afterPhases (e : RunEnv) (cfg : RunCfg) (ip : InstallPlan) (pre : GoMap Desc) (fs : Fs) : World :=
  (e.phases cfg ip (afterTag e cfg ip pre { fs := fs })).1

/-- The state when the new packages have been removed. -/
def afterRemoval (e : RunEnv) (cfg : RunCfg) (ip : InstallPlan) (pre : GoMap Desc) (fs : Fs) : World × Bool :=
  removeNew e.disk cfg.lib (afterPhases e cfg ip pre fs) (createRollbackPlan cfg.lib ip pre e.ρ).new

/-- The state when the rollback is over. -/
def afterRestore (e : RunEnv) (cfg : RunCfg) (ip : InstallPlan) (pre : GoMap Desc) (fs : Fs) : World × Bool :=
  if (afterRemoval e cfg ip pre fs).2 then ((afterRemoval e cfg ip pre fs).1, true)
  else restoreAll e.disk (afterRemoval e cfg ip pre fs).1 (attempts cfg.lib (setAside e cfg ip pre))

theorem run_failed {e : RunEnv} {cfg : RunCfg} {ip : InstallPlan} {pre : GoMap Desc} {fs : Fs} (hn : GoodNames ip) (hρ : e.ρ.Fair)
    (hc : ip.createLibrary = false) (hrb : cfg.noRollback = false) (hfail : (e.rInstall cfg ip pre fs).2 = .exit0 true) :
    (e.rInstall cfg ip pre fs).1 = deleteBackups e.disk
      (deleteBackups e.disk (afterRestore e cfg ip pre fs).1 (attempts cfg.lib (updatesOf cfg ip pre e.ρ)))
      (attempts cfg.lib (overwritesOf cfg ip pre e.ρ)) := by
  rw [run_eq hn hρ hc] at hfail ⊢
  by_cases hdead : (e.phases cfg ip (afterTag e cfg ip pre { fs := fs })).2 = .dead
  · rw [if_pos hdead] at hfail
    simp at hfail
  rw [if_neg hdead] at hfail ⊢
  have hff : (e.phases cfg ip (afterTag e cfg ip pre { fs := fs })).2 = .failed := by simpa using hfail
  rw [hff]
  unfold RunEnv.undo
  rw [if_pos (by simp [hrb])]
  have hre := rollback_eq (e := e) (cfg := cfg) (pre := pre) hc (updatesOf cfg ip pre e.ρ) (overwritesOf cfg ip pre e.ρ)
    (afterPhases e cfg ip pre fs)
  change rollbackEnvironment e.disk _ (taggedPlan e cfg ip pre) = _ at hre
  dsimp only
  change RollbackPlan.deleteBackupFolders _ _ (rollbackEnvironment e.disk (afterPhases e cfg ip pre fs) (taggedPlan e cfg ip pre)).1 = _
  rw [hre]
  rfl

/-! ## C51: no crash loses an old version -/

/-- A member of the plan that was found but not set aside is not touched by anything. -/
theorem not_setAside_untouched {e : RunEnv} {cfg : RunCfg} {ip : InstallPlan} {pre : GoMap Desc} {fs : Fs} (hρ : e.ρ.Fair) (hn : GoodNames ip)
    {p : Str} (hp : p ∈ members ip) (hpre : GoMap.has pre p = true) (hdir : fs (cfg.lib ++ [p]) = some .dir)
    (hns : p ∉ setAside e cfg ip pre) : ¬ RunTouch cfg ip pre e.ρ fs p := by
  rintro (⟨q, hq, h | h⟩ | ⟨_, h⟩ | ⟨_, h⟩ | h | h)
  · exact hns (h ▸ hq)
  · exact (hn p hp).2.2 (h ▸ backup_prefix q)
  · rw [hpre] at h; simp at h
  · exact h hdir
  · exact hns (List.mem_append_right _ ((mem_overwritesOf hρ).2 ⟨h, hpre⟩))
  · exact (hn p hp).2.1 h

theorem goes_body {e : RunEnv} {cfg : RunCfg} {ip : InstallPlan} {pre : GoMap Desc} (hb : Behaves e cfg.lib ip)
    (hn : GoodNames ip) (hc : ip.createLibrary = false) (fs : Fs) :
    Goes cfg.lib (RunTouch cfg ip pre e.ρ fs) { fs := fs } (e.body cfg ip pre { fs := fs }).1 := by
  have g1 := goes_tag_phases (pre := pre) hb hn { fs := fs }
  rw [tag_eq hn hb.order] at g1
  change Goes cfg.lib _ _ (e.phases cfg ip (afterTag e cfg ip pre { fs := fs })).1 at g1
  rw [body_eq hn hb.order]
  split
  · exact g1
  · unfold RunEnv.undo
    split
    · exact g1.trans (goes_rollback hb.removal hb.order hn hc fs _)
    · exact g1

/-- C51, when no rename that sets a package aside fails: at every moment of the run until the backups are deleted,
the rollback included, every package of the plan that was in the library is either untouched at its place (and there is no backup) or complete
in its backup, whatever else fails and wherever the process dies. -/
theorem C51_no_loss_partial (e : RunEnv) (cfg : RunCfg) (ip : InstallPlan) (pre : GoMap Desc) (fs : Fs)
    (hb : Behaves e cfg.lib ip) (hn : GoodNames ip) (hp : PlanOK ip pre) (ho : InOrder cfg.lib ip pre fs) (hc : ip.createLibrary = false)
    (hT : TagsOK e.disk cfg.lib (members ip)) (p : Str) (hm : p ∈ members ip) (hpre : GoMap.has pre p = true) :
    ∀ st ∈ (e.body cfg ip pre { fs := fs }).1.states, (Intact cfg.lib fs st p ∧ Gone cfg.lib st (backupName p)) ∨ Saved cfg.lib fs st p := by
  intro st hst
  have hf := tagFacts (e := e) hb.order hn hp ho
  by_cases hs : p ∈ setAside e cfg ip pre
  · obtain ⟨s1, s2⟩ := phases_saved hb hn hf (fun q hq => hT q (hf.mem q hq).1)
    rw [body_eq hn hb.order] at hst
    split at hst
    · exact s2 st hst p hs
    · unfold RunEnv.undo at hst
      split at hst
      · have hre := rollback_eq (e := e) (cfg := cfg) (pre := pre) hc (updatesOf cfg ip pre e.ρ) (overwritesOf cfg ip pre e.ρ)
          (e.phases cfg ip (afterTag e cfg ip pre { fs := fs })).1
        change rollbackEnvironment e.disk _ (taggedPlan e cfg ip pre) = _ at hre
        dsimp only at hst
        rw [hre] at hst
        have hplainNew : ∀ p ∈ (createRollbackPlan cfg.lib ip pre e.ρ).new, PlainName p := fun p h => (hn p ((mem_new hb.order).1 h).1).1
        have g := goes_removeNew hb.removal cfg.lib (createRollbackPlan cfg.lib ip pre e.ρ).new hplainNew
          (e.phases cfg ip (afterTag e cfg ip pre { fs := fs })).1
        have hbn : ∀ p, backupName p ∉ (createRollbackPlan cfg.lib ip pre e.ρ).new := fun p h =>
          (hn _ ((mem_new hb.order).1 h).1).2.2 (backup_prefix p)
        have hrem : ∀ st ∈ (removeNew e.disk cfg.lib (e.phases cfg ip (afterTag e cfg ip pre { fs := fs })).1
            (createRollbackPlan cfg.lib ip pre e.ρ).new).1.states, (Intact cfg.lib fs st p ∧ Gone cfg.lib st (backupName p)) ∨ Saved cfg.lib fs st p := by
          intro st hst
          rcases g.2 st hst with h | h
          · exact s2 st h p hs
          · exact Or.inr fun r => by rw [h.at (hbn p), s1 p hs r]
        split at hst
        · exact hrem st hst
        · obtain ⟨r1, _, _⟩ := restoreAll_exact hb.removal fs (setAside e cfg ip pre) hf.nodup hf.names hf.dir _
            (fun q hq r => by rw [g.1.at (hbn q), s1 q hq r])
          rcases r1 st hst with h | h
          · exact hrem st h
          · exact h p hs
      · exact s2 st hst p hs
  · have hu := not_setAside_untouched hb.order hn hm hpre (ho.found p hm hpre) hs
    have hub : ¬ RunTouch cfg ip pre e.ρ fs (backupName p) := by
      rintro (⟨q, hq, h | h⟩ | ⟨h, _⟩ | ⟨h, _⟩ | h | h)
      · exact hf.names.ne hq p h.symm
      · exact hs (backup_inj h ▸ hq)
      · exact (hn _ h).2.2 (backup_prefix p)
      · exact (hn _ (List.mem_append_left _ h)).2.2 (backup_prefix p)
      · exact (hn _ (List.mem_append_right _ h)).2.2 (backup_prefix p)
      · exact backup_not_lock p h
    rcases (goes_body (pre := pre) hb hn hc fs).2 st hst with h | h
    · have : st = fs := by simpa [World.states] using h
      subst this
      exact Or.inl ⟨fun r => rfl, ho.noBackup p hm⟩
    · exact Or.inl ⟨fun r => h.at hu r, fun r => (h.at hub r).trans (ho.noBackup p hm r)⟩

/-- C51 with arbitrary I/O errors, until the rollback begins: every package of the plan that was in the library and is
not overwritten by a tarball is untouched at its place or complete in its backup. -/
theorem C51_until_rollback_partial (e : RunEnv) (cfg : RunCfg) (ip : InstallPlan) (pre : GoMap Desc) (fs : Fs)
    (hb : Behaves e cfg.lib ip) (hn : GoodNames ip) (hp : PlanOK ip pre) (ho : InOrder cfg.lib ip pre fs)
    (p : Str) (hm : p ∈ members ip) (hpre : GoMap.has pre p = true) (ht : p ∉ tarballs ip) :
    ∀ st ∈ (e.phases cfg ip (e.tag cfg { fs := fs } (createRollbackPlan cfg.lib ip pre e.ρ)).1).1.states,
      Intact cfg.lib fs st p ∨ Saved cfg.lib fs st p := by
  intro st hst
  have hf := tagFacts (e := e) hb.order hn hp ho
  by_cases hs : p ∈ setAside e cfg ip pre
  · rw [tag_eq hn hb.order] at hst
    change st ∈ (e.phases cfg ip (afterTag e cfg ip pre { fs := fs })).1.states at hst
    obtain ⟨t1, t2⟩ := tagAll_any (d := e.disk) (lib := cfg.lib) fs (setAside e cfg ip pre) hf.nodup hf.names { fs := fs } (fun p _ r => rfl)
    change ∀ st ∈ (afterTag e cfg ip pre { fs := fs }).states, _ at t2
    have g := goes_phases hb (fun p hp => (hn p (List.mem_append_left _ hp)).2.1) (afterTag e cfg ip pre { fs := fs })
    rcases g.2 st hst with h | h
    · rcases t2 st h with h | h
      · have : st = fs := by simpa [World.states] using h
        subst this
        exact Or.inl fun r => rfl
      · exact h p hs
    · rcases t1 p hs with h1 | h1
      · exact Or.inr fun r => by rw [h.at (phases_keep_backup hn _ _ p)]; exact h1 r
      · refine Or.inl fun r => ?_
        rw [h.at]
        · exact h1 r
        · rintro (⟨_, h2⟩ | h2 | h2)
          · exact h2 ((h1 []).trans (hf.dir p hs))
          · exact ht h2
          · exact (hn p hm).2.1 h2
  · have hu := not_setAside_untouched hb.order hn hm hpre (ho.found p hm hpre) hs
    rcases (goes_tag_phases (pre := pre) hb hn { fs := fs }).2 st hst with h | h
    · have : st = fs := by simpa [World.states] using h
      subst this
      exact Or.inl fun r => rfl
    · exact Or.inl fun r => h.at hu r

/-- The hypotheses of the two theorems above are met by the toy run. -/
example : TagsOK (libRun .failed).disk [s%"lib"] (members toyPlan) ∧ s%"a" ∈ members toyPlan ∧ GoMap.has toyPre (s%"a") = true ∧
    s%"a" ∉ tarballs toyPlan ∧ toyPlan.createLibrary = false := ⟨fun _ _ _ => rfl, by decide, by decide, by decide, by decide⟩

theorem tagAll_stuck {d : Disk} {lib : Path} (ps : List Str) (hp : ∀ p ∈ ps, PlainName p)
    (hd : ∀ p ∈ ps, ∀ fs, d.renameFails fs (lib ++ [p]) (lib ++ [backupName p]) = true) (w : World) : (tagAll d lib w ps).1 = w := by
  induction ps generalizing w with
  | nil => rfl
  | cons p ps ih =>
    simp only [tagAll]
    rw [tagOld_eq d lib w (hp p (List.mem_cons_self ..))]
    have : d.rename w (lib ++ [p]) (lib ++ [backupName p]) = (w, true) := by
      unfold Disk.rename
      rw [if_neg]
      simp [hd p (List.mem_cons_self ..)]
    rw [this]
    exact ih (fun q hq => hp q (List.mem_cons_of_mem _ hq)) (fun q hq => hd q (List.mem_cons_of_mem _ hq)) w

/-- What the rollback does to the first package set aside when its backup cannot be renamed back. -/
theorem first_lost {e : RunEnv} {cfg : RunCfg} {ip : InstallPlan} {pre : GoMap Desc} {fs : Fs} {p : Str} {ps : List Str}
    (hn : GoodNames ip) (hρ : e.ρ.Fair) (hrem : ∀ fs q, (e.disk.removing fs q).2 = false)
    (hs : setAside e cfg ip pre = p :: ps) (hpm : p ∈ members ip)
    (hstuck : ∀ w : World, Keeps cfg.lib (fun n => n = p) (afterRemoval e cfg ip pre fs).1.fs w.fs →
      w.fs (cfg.lib ++ [backupName p]) = none ∨ e.disk.renameFails w.fs (cfg.lib ++ [backupName p]) (cfg.lib ++ [p]) = true)
    (hex : (afterRemoval e cfg ip pre fs).1.fs (cfg.lib ++ [p]) ≠ none ∨ Gone cfg.lib (afterRemoval e cfg ip pre fs).1.fs p) :
    Gone cfg.lib (afterRestore e cfg ip pre fs).1.fs p ∧
    ∀ r, (afterRestore e cfg ip pre fs).1.fs (cfg.lib ++ backupName p :: r) = (afterRemoval e cfg ip pre fs).1.fs (cfg.lib ++ backupName p :: r) := by
  have hne : backupName p ≠ p := fun h => (hn p hpm).2.2 (h ▸ backup_prefix p)
  have hnr : (afterRemoval e cfg ip pre fs).2 = false := by
    unfold afterRemoval
    generalize afterPhases e cfg ip pre fs = w
    have : ∀ q ∈ (createRollbackPlan cfg.lib ip pre e.ρ).new, PlainName q := fun q h => (hn q ((mem_new hρ).1 h).1).1
    generalize (createRollbackPlan cfg.lib ip pre e.ρ).new = qs at this
    induction qs generalizing w with
    | nil => rfl
    | cons q qs ih =>
      simp only [removeNew]
      rw [removeAll_ok w _ (hrem _ _)]
      simp only [Bool.false_eq_true, if_false]
      exact ih _ fun x hx => this x (List.mem_cons_of_mem _ hx)
  unfold afterRestore
  rw [hnr, hs]
  simp only [Bool.false_eq_true, if_false, attempts, List.map_cons, restoreAll]
  generalize (afterRemoval e cfg ip pre fs).1 = w at hstuck hex ⊢
  -- the removal of the active directory
  have hr : ∃ w1 : World, (if w.fs.ex (cfg.lib ++ [p]) then e.disk.removeAll w (cfg.lib ++ [p]) else (w, false)) = (w1, false) ∧
      Gone cfg.lib w1.fs p ∧ Keeps cfg.lib (fun n => n = p) w.fs w1.fs := by
    split
    · refine ⟨_, removeAll_ok w _ (hrem _ _), ?_, ?_⟩
      · intro r
        show w.fs.removeAll (cfg.lib ++ [p]) _ = none
        rw [removeAll_at, if_pos ((below_iff ..).2 rfl)]
      · intro q _ hq
        show w.fs.removeAll (cfg.lib ++ [p]) q = _
        rw [removeAll_at, if_neg (hq p rfl)]
    · rename_i h
      have h0 : w.fs (cfg.lib ++ [p]) = none := by simpa [Fs.ex] using h
      refine ⟨w, rfl, ?_, Keeps.refl _ _ _⟩
      rcases hex with h | h
      · exact absurd h0 h
      · exact h
  obtain ⟨w1, h1, h2, h3⟩ := hr
  have hone : restoreOne e.disk w { package := p, active := cfg.lib ++ [p], backup := cfg.lib ++ [backupName p] } = (w1, true) := by
    unfold restoreOne
    dsimp only
    rw [h1]
    simp only [Bool.false_eq_true, if_false]
    unfold Disk.rename
    rw [if_neg]
    rcases hstuck w1 h3 with h | h
    · simp [Fs.renameOk, h]
    · simp [h]
  rw [hone]
  simp only [if_true]
  exact ⟨h2, fun r => h3.at hne r⟩

theorem setAside_first {e : RunEnv} {cfg : RunCfg} {ip : InstallPlan} {pre : GoMap Desc} (hρ : e.ρ.Fair) {o : OutdatedPackage} {os : List OutdatedPackage}
    (hup : cfg.noUpdate = false) (hout : ip.outdated = o :: os) (hm : o.package ∈ members ip) : ∃ ps, setAside e cfg ip pre = o.package :: ps := by
  unfold setAside updatesOf
  rw [hup]
  simp only [Bool.false_eq_true, if_false]
  unfold RollbackPlan.toUpdate
  have h1 : (createRollbackPlan cfg.lib ip pre e.ρ).plan.outdated = o :: os := hout
  have h2 : (createRollbackPlan cfg.lib ip pre e.ρ).all.contains o.package = true := by
    simpa [createRollbackPlan] using (mem_all hρ o.package).2 hm
  rw [h1, List.map_cons, List.filter_cons, if_pos h2]
  exact ⟨_, rfl⟩

/-- C51 does not hold when setting a package aside fails (the error is only logged): the installer then leaves the old
version alone, but if anything else fails the rollback deletes it, and no backup exists. -/
theorem C51_violated_rename_fault (e : RunEnv) (cfg : RunCfg) (ip : InstallPlan) (pre : GoMap Desc) (fs : Fs)
    (hb : Behaves e cfg.lib ip) (hn : GoodNames ip) (hp : PlanOK ip pre) (ho : InOrder cfg.lib ip pre fs) (hc : ip.createLibrary = false)
    (hren : ∀ fs a b, e.disk.renameFails fs a b = true) (hrem : ∀ fs p, (e.disk.removing fs p).2 = false)
    (hrb : cfg.noRollback = false) (hfail : (e.rInstall cfg ip pre fs).2 = .exit0 true)
    (o : OutdatedPackage) (os : List OutdatedPackage) (hup : cfg.noUpdate = false) (hout : ip.outdated = o :: os) (hm : o.package ∈ members ip) :
    fs (cfg.lib ++ [o.package]) = some .dir ∧
    Gone cfg.lib (e.rInstall cfg ip pre fs).1.fs o.package ∧ Gone cfg.lib (e.rInstall cfg ip pre fs).1.fs (backupName o.package) := by
  have hf := tagFacts (e := e) hb.order hn hp ho
  obtain ⟨ps, hs⟩ := setAside_first (pre := pre) hb.order hup hout hm
  have hin : o.package ∈ setAside e cfg ip pre := by rw [hs]; exact List.mem_cons_self ..
  refine ⟨hf.dir _ hin, ?_⟩
  -- tagging changes nothing
  have ht : afterTag e cfg ip pre { fs := fs } = { fs := fs } :=
    tagAll_stuck _ (fun p hp => (hf.names p hp).1) (fun p _ fs' => hren _ _ _) _
  have g := goes_phases hb (fun p hp => (hn p (List.mem_append_left _ hp)).2.1) (afterTag e cfg ip pre { fs := fs })
  have hplainNew : ∀ p ∈ (createRollbackPlan cfg.lib ip pre e.ρ).new, PlainName p := fun p h => (hn p ((mem_new hb.order).1 h).1).1
  have g2 := goes_removeNew hb.removal cfg.lib (createRollbackPlan cfg.lib ip pre e.ρ).new hplainNew (afterPhases e cfg ip pre fs)
  have hgb : ∀ r, (afterRemoval e cfg ip pre fs).1.fs (cfg.lib ++ backupName o.package :: r) = none := by
    intro r
    refine (g2.1.at (n := backupName o.package) ?_ r).trans ?_
    · exact fun h => (hn _ ((mem_new hb.order).1 h).1).2.2 (backup_prefix o.package)
    · refine (g.1.at (phases_keep_backup hn _ _ o.package) r).trans ?_
      rw [ht]
      exact hf.noOld _ hin r
  have hpd : (afterRemoval e cfg ip pre fs).1.fs (cfg.lib ++ [o.package]) ≠ none := by
    have h1 : (afterRemoval e cfg ip pre fs).1.fs (cfg.lib ++ o.package :: []) = (afterPhases e cfg ip pre fs).fs (cfg.lib ++ o.package :: []) := by
      refine g2.1.at (n := o.package) ?_ []
      intro h
      have := ((mem_new hb.order).1 h).2
      rw [(hf.mem _ hin).2] at this
      simp at this
    have h2 : (afterPhases e cfg ip pre fs).fs (cfg.lib ++ o.package :: []) = fs (cfg.lib ++ o.package :: []) := by
      refine (g.1.at (n := o.package) ?_ []).trans (by rw [ht])
      rintro (⟨_, h⟩ | h | h)
      · rw [ht] at h
        exact h (hf.dir _ hin)
      · exact hp.disjoint o (by rw [hout]; exact List.mem_cons_self ..) h
      · exact (hn _ hm).2.1 h
    rw [h1, h2, hf.dir _ hin]
    simp
  obtain ⟨l1, l2⟩ := first_lost hn hb.order hrem hs hm (fs := fs) (fun w _ => Or.inr (hren _ _ _)) (Or.inl hpd)
  rw [run_failed hn hb.order hc hrb hfail]
  have d1 := deleteBackups_gone (lib := cfg.lib) hrem (updatesOf cfg ip pre e.ρ) (afterRestore e cfg ip pre fs).1
  have d2 := deleteBackups_gone (lib := cfg.lib) hrem (overwritesOf cfg ip pre e.ρ)
    (deleteBackups e.disk (afterRestore e cfg ip pre fs).1 (attempts cfg.lib (updatesOf cfg ip pre e.ρ)))
  exact ⟨fun r => d2.2.1 _ (d1.2.1 _ (l1 r)), fun r => d2.2.1 _ (d1.2.1 _ ((l2 r).trans (hgb r)))⟩

/-- A disk on which no rename succeeds: the toy run meets the hypotheses. -/
example : let e := { libRun .failed with disk := { renameFails := fun _ _ _ => true, removing := fun _ _ => ([], false) } }
    (e.rInstall { lib := [s%"lib"] } toyPlan toyPre toyLib).2 = .exit0 true ∧
    (e.rInstall { lib := [s%"lib"] } toyPlan toyPre toyLib).1.fs [s%"lib", s%"a"] = none ∧
    (e.rInstall { lib := [s%"lib"] } toyPlan toyPre toyLib).1.fs [s%"lib", s%"__OLD__a"] = none := by decide

/-! ## C52: a failed rollback keeps the backups -/

/-- C52 does not hold: when renaming a backup to its place fails, the rollback stops there, and then the backups are
deleted all the same. The first package set aside is lost altogether, and of the others no backup is left. -/
theorem C52_violated (e : RunEnv) (cfg : RunCfg) (ip : InstallPlan) (pre : GoMap Desc) (fs : Fs)
    (hb : Behaves e cfg.lib ip) (hn : GoodNames ip) (hp : PlanOK ip pre) (ho : InOrder cfg.lib ip pre fs) (hc : ip.createLibrary = false)
    (hrem : ∀ fs p, (e.disk.removing fs p).2 = false)
    (o : OutdatedPackage) (os : List OutdatedPackage) (hup : cfg.noUpdate = false) (hout : ip.outdated = o :: os) (hm : o.package ∈ members ip)
    (hren : ∀ fs, e.disk.renameFails fs (cfg.lib ++ [backupName o.package]) (cfg.lib ++ [o.package]) = true)
    (hrb : cfg.noRollback = false) (hfail : (e.rInstall cfg ip pre fs).2 = .exit0 true) :
    fs (cfg.lib ++ [o.package]) = some .dir ∧
    (e.rInstall cfg ip pre fs).1.fs (cfg.lib ++ [o.package]) = none ∧
    ∀ p ∈ members ip, GoMap.has pre p = true → ((∃ o' ∈ ip.outdated, o'.package = p) ∨ p ∈ tarballs ip) →
      (e.rInstall cfg ip pre fs).1.fs (cfg.lib ++ [backupName p]) = none := by
  have hf := tagFacts (e := e) hb.order hn hp ho
  obtain ⟨ps, hs⟩ := setAside_first (pre := pre) hb.order hup hout hm
  have hin : o.package ∈ setAside e cfg ip pre := by rw [hs]; exact List.mem_cons_self ..
  have hlost : (e.rInstall cfg ip pre fs).1.fs (cfg.lib ++ [o.package]) = none ∧
      ∀ p ∈ setAside e cfg ip pre, (e.rInstall cfg ip pre fs).1.fs (cfg.lib ++ [backupName p]) = none := by
    rw [run_failed hn hb.order hc hrb hfail]
    have d1 := deleteBackups_gone (lib := cfg.lib) hrem (updatesOf cfg ip pre e.ρ) (afterRestore e cfg ip pre fs).1
    have d2 := deleteBackups_gone (lib := cfg.lib) hrem (overwritesOf cfg ip pre e.ρ)
      (deleteBackups e.disk (afterRestore e cfg ip pre fs).1 (attempts cfg.lib (updatesOf cfg ip pre e.ρ)))
    refine ⟨d2.2.1 _ (d1.2.1 _ ?_), ?_⟩
    · unfold afterRestore
      have hnr : (afterRemoval e cfg ip pre fs).2 = false := by
        unfold afterRemoval
        generalize afterPhases e cfg ip pre fs = w
        generalize (createRollbackPlan cfg.lib ip pre e.ρ).new = qs
        induction qs generalizing w with
        | nil => rfl
        | cons q qs ih =>
          simp only [removeNew]
          rw [removeAll_ok w _ (hrem _ _)]
          simp only [Bool.false_eq_true, if_false]
          exact ih _
      rw [hnr, hs]
      simp only [Bool.false_eq_true, if_false, attempts, List.map_cons, restoreAll]
      generalize (afterRemoval e cfg ip pre fs).1 = w
      have hone : (restoreOne e.disk w { package := o.package, active := cfg.lib ++ [o.package], backup := cfg.lib ++ [backupName o.package] }).2 = true ∧
          (restoreOne e.disk w { package := o.package, active := cfg.lib ++ [o.package], backup := cfg.lib ++ [backupName o.package] }).1.fs (cfg.lib ++ [o.package]) = none := by
        unfold restoreOne
        dsimp only
        have hnren : ∀ w', e.disk.rename w' (cfg.lib ++ [backupName o.package]) (cfg.lib ++ [o.package]) = (w', true) := by
          intro w'
          unfold Disk.rename
          rw [if_neg (by simp [hren])]
        by_cases hex : w.fs.ex (cfg.lib ++ [o.package]) = true
        · rw [if_pos hex, removeAll_ok w _ (hrem _ _)]
          simp only [Bool.false_eq_true, if_false]
          rw [hnren]
          refine ⟨rfl, ?_⟩
          show w.fs.removeAll (cfg.lib ++ [o.package]) _ = none
          rw [removeAll_at, if_pos (List.prefix_refl _)]
        · rw [if_neg hex]
          simp only [Bool.false_eq_true, if_false]
          rw [hnren]
          exact ⟨rfl, by simpa [Fs.ex] using hex⟩
      rw [hone.1]
      simp only [if_true]
      exact hone.2
    · intro p hp'
      rcases List.mem_append.1 hp' with h | h
      · exact d2.2.1 _ (d1.1 p h)
      · exact d2.1 p h
  refine ⟨hf.dir _ hin, hlost.1, fun p hpm hpre hq => hlost.2 p ?_⟩
  rcases hq with h | h
  · exact List.mem_append_left _ ((mem_updatesOf hb.order).2 ⟨hup, h, hpm⟩)
  · exact List.mem_append_right _ ((mem_overwritesOf hb.order).2 ⟨h, hpre⟩)

/-- A disk on which backups cannot be renamed back: the toy run meets the hypotheses; the installation of `a` had
failed, and the version that was in the library is nowhere. -/
example : let e := { libRun .failed with disk := { renameFails := fun _ a _ => decide (a = [s%"lib", s%"__OLD__a"]), removing := fun _ _ => ([], false) } }
    (e.rInstall { lib := [s%"lib"] } toyPlan toyPre toyLib).2 = .exit0 true ∧
    toyLib [s%"lib", s%"a", s%"DESCRIPTION"] = some (.file (s%"a 1")) ∧
    (e.rInstall { lib := [s%"lib"] } toyPlan toyPre toyLib).1.fs [s%"lib", s%"a", s%"DESCRIPTION"] = none ∧
    (e.rInstall { lib := [s%"lib"] } toyPlan toyPre toyLib).1.fs [s%"lib", s%"__OLD__a", s%"DESCRIPTION"] = none ∧
    (e.rInstall { lib := [s%"lib"] } toyPlan toyPre toyLib).1.fs [s%"lib", s%"__OLD__t"] = none := by decide

theorem removeNew_stops {d : Disk} {lib : Path} {n : Str} (hpl : PlainName n) (hst : ∀ fs, (d.removing fs (lib ++ [n])).2 = true) (ns : List Str)
    (hn : n ∈ ns) (w : World) : (removeNew d lib w ns).2 = true := by
  induction ns generalizing w with
  | nil => cases hn
  | cons m ns ih =>
    simp only [removeNew]
    split
    · rfl
    · rename_i h
      rcases List.mem_cons.1 hn with rfl | hn
      · exfalso
        apply h
        rw [joinPath_simple _ _ hpl.1 hpl.2.1 hpl.2.2.1 hpl.2.2.2]
        have := hst w.fs
        unfold Disk.removeAll
        split
        · rename_i he; rw [he] at this; simp at this
        · rfl
      · exact ih hn _

/-- C52 does not hold either when a package that the failed run has brought in cannot be removed: the rollback stops
there, no package that was set aside is restored - each is left as the failed run left it, for example missing -, and all
backups are deleted. -/
theorem C52_violated_removal (e : RunEnv) (cfg : RunCfg) (ip : InstallPlan) (pre : GoMap Desc) (fs : Fs)
    (hb : Behaves e cfg.lib ip) (hn : GoodNames ip) (hc : ip.createLibrary = false)
    (n : Str) (hnm : n ∈ members ip) (hnew : GoMap.has pre n = false) (hstuck : ∀ fs, (e.disk.removing fs (cfg.lib ++ [n])).2 = true)
    (hrem : ∀ fs p, (e.disk.removing fs (cfg.lib ++ [backupName p])).2 = false)
    (hup : cfg.noUpdate = false) (hrb : cfg.noRollback = false) (hfail : (e.rInstall cfg ip pre fs).2 = .exit0 true) :
    ∀ p ∈ members ip, GoMap.has pre p = true → ((∃ o ∈ ip.outdated, o.package = p) ∨ p ∈ tarballs ip) →
      (e.rInstall cfg ip pre fs).1.fs (cfg.lib ++ [backupName p]) = none ∧
      ∀ r, (e.rInstall cfg ip pre fs).1.fs (cfg.lib ++ p :: r) =
        (e.phases cfg ip (e.tag cfg { fs := fs } (createRollbackPlan cfg.lib ip pre e.ρ)).1).1.fs (cfg.lib ++ p :: r) := by
  intro p hm hpre hq
  have hplainNew : ∀ p ∈ (createRollbackPlan cfg.lib ip pre e.ρ).new, PlainName p := fun p h => (hn p ((mem_new hb.order).1 h).1).1
  have g2 := goes_removeNew hb.removal cfg.lib (createRollbackPlan cfg.lib ip pre e.ρ).new hplainNew (afterPhases e cfg ip pre fs)
  have hst : (afterRemoval e cfg ip pre fs).2 = true :=
    removeNew_stops (hn n hnm).1 hstuck _ ((mem_new hb.order).2 ⟨hnm, hnew⟩) _
  have hre : (afterRestore e cfg ip pre fs).1 = (afterRemoval e cfg ip pre fs).1 := by
    unfold afterRestore
    rw [if_pos hst]
  rw [run_failed hn hb.order hc hrb hfail, hre, tag_eq hn hb.order]
  have d1 := deleteBackups_gone_of (lib := cfg.lib) hrem (updatesOf cfg ip pre e.ρ) (afterRemoval e cfg ip pre fs).1
  have d2 := deleteBackups_gone_of (lib := cfg.lib) hrem (overwritesOf cfg ip pre e.ρ)
    (deleteBackups e.disk (afterRemoval e cfg ip pre fs).1 (attempts cfg.lib (updatesOf cfg ip pre e.ρ)))
  constructor
  · rcases hq with h | h
    · exact d2.2.1 _ (d1.1 p ((mem_updatesOf hb.order).2 ⟨hup, h, hm⟩))
    · exact d2.1 p ((mem_overwritesOf hb.order).2 ⟨h, hpre⟩)
  · intro r
    have hb1 : ∀ ps : List Str, ¬ ∃ q ∈ ps, p = backupName q := fun ps ⟨q, _, h⟩ => (hn p hm).2.2 (h ▸ backup_prefix q)
    rw [(goes_deleteBackups hb.removal cfg.lib _ _).1.at (hb1 _), (goes_deleteBackups hb.removal cfg.lib _ _).1.at (hb1 _)]
    refine g2.1.at (n := p) ?_ r
    intro h
    have := ((mem_new hb.order).1 h).2
    rw [hpre] at this
    cases this

/-- A disk from which `b` cannot be removed: the toy run meets the hypotheses; of `a`, whose installation failed, nothing
is left. -/
example : let e := { libRun .failed with disk := { renameFails := fun _ _ _ => false, removing := fun _ q => ([], decide (q = [s%"lib", s%"b"])) } }
    s%"b" ∈ members toyPlan ∧ GoMap.has toyPre (s%"b") = false ∧
    (∀ fs, (e.disk.removing fs ([s%"lib"] ++ [s%"b"])).2 = true) ∧ (∀ fs p, (e.disk.removing fs ([s%"lib"] ++ [backupName p])).2 = false) ∧
    (e.rInstall { lib := [s%"lib"] } toyPlan toyPre toyLib).2 = .exit0 true ∧
    toyLib [s%"lib", s%"a", s%"DESCRIPTION"] = some (.file (s%"a 1")) ∧
    (e.rInstall { lib := [s%"lib"] } toyPlan toyPre toyLib).1.fs [s%"lib", s%"a"] = none ∧
    (e.rInstall { lib := [s%"lib"] } toyPlan toyPre toyLib).1.fs [s%"lib", s%"__OLD__a"] = none := by
  refine ⟨by decide, by decide, fun _ => rfl, fun _ p => ?_, by decide, by decide, by decide, by decide⟩
  have : [s%"lib"] ++ [backupName p] ≠ [s%"lib", s%"b"] := by
    intro h
    have h2 : backupName p = s%"b" := by simpa using h
    exact absurd (congrArg List.head? h2) (by simp [backupName])
  exact decide_eq_false this

/-- C52, as far as it holds: until the very end of the run, where the backups are deleted, a package that is not back at
its place (because a removal or a rename of the rollback failed, or because the process died before it was restored) is
complete in its backup. Missing: the deletion itself, see `C52_violated`. -/
theorem C52_before_deletion_partial (e : RunEnv) (cfg : RunCfg) (ip : InstallPlan) (pre : GoMap Desc) (fs : Fs)
    (hb : Behaves e cfg.lib ip) (hn : GoodNames ip) (hp : PlanOK ip pre) (ho : InOrder cfg.lib ip pre fs) (hc : ip.createLibrary = false)
    (hT : TagsOK e.disk cfg.lib (members ip)) (p : Str) (hm : p ∈ members ip) (hpre : GoMap.has pre p = true)
    (hlost : ¬ Intact cfg.lib fs (e.body cfg ip pre { fs := fs }).1.fs p) :
    Saved cfg.lib fs (e.body cfg ip pre { fs := fs }).1.fs p := by
  rcases C51_no_loss_partial e cfg ip pre fs hb hn hp ho hc hT p hm hpre _ (List.mem_append_right _ (List.mem_singleton.2 rfl)) with h | h
  · exact absurd h.1 hlost
  · exact h

/-- The case of `C52_before_deletion_partial`: the rollback cannot rename the backup of `a`, which is complete then. -/
example : let e := { libRun .failed with disk := { renameFails := fun _ a _ => decide (a = [s%"lib", s%"__OLD__a"]), removing := fun _ _ => ([], false) } }
    TagsOK e.disk [s%"lib"] (members toyPlan) ∧
    ¬ Intact [s%"lib"] toyLib (e.body { lib := [s%"lib"] } toyPlan toyPre { fs := toyLib }).1.fs (s%"a") ∧
    (e.body { lib := [s%"lib"] } toyPlan toyPre { fs := toyLib }).1.fs [s%"lib", s%"__OLD__a", s%"DESCRIPTION"] = some (.file (s%"a 1")) := by
  refine ⟨?_, ?_, by decide⟩
  · intro p hp fs
    have : ∀ q ∈ members toyPlan, decide (([s%"lib"] : Path) ++ [q] = [s%"lib", s%"__OLD__a"]) = false := by decide
    exact this p hp
  · intro h
    have h2 := h [s%"DESCRIPTION"]
    revert h2
    decide

/-! ## C53: outdated and given as a tarball -/

/-- With `NoUpdate` a run does not look at the outdated packages. -/
theorem rInstall_noUpdate (e : RunEnv) (cfg : RunCfg) (ip : InstallPlan) (pre : GoMap Desc) (fs : Fs) (hup : cfg.noUpdate = true)
    (os : List OutdatedPackage) : (e.rInstall cfg { ip with outdated := os } pre fs) = (e.rInstall cfg ip pre fs) := by
  have htag : ∀ w, (e.tag cfg w (createRollbackPlan cfg.lib { ip with outdated := os } pre e.ρ)).1 = (e.tag cfg w (createRollbackPlan cfg.lib ip pre e.ρ)).1 := by
    intro w
    unfold RunEnv.tag
    simp only [hup, if_true]
    rfl
  have hrp : ∀ w, (e.tag cfg w (createRollbackPlan cfg.lib { ip with outdated := os } pre e.ρ)).2 =
      { (e.tag cfg w (createRollbackPlan cfg.lib ip pre e.ρ)).2 with plan := { ip with outdated := os } } := by
    intro w
    unfold RunEnv.tag
    simp only [hup, if_true]
    rfl
  have hplan : ∀ w, (e.tag cfg w (createRollbackPlan cfg.lib ip pre e.ρ)).2.plan = ip := by
    intro w
    unfold RunEnv.tag
    simp only [hup, if_true]
    rfl
  have hph : ∀ w, e.phases cfg { ip with outdated := os } w = e.phases cfg ip w := fun w => rfl
  have hroll : ∀ (rp : RollbackPlan) (ip' : InstallPlan) w, ip'.createLibrary = rp.plan.createLibrary →
      rollbackEnvironment e.disk w { rp with plan := ip' } = rollbackEnvironment e.disk w rp := by
    intro rp ip' w h
    unfold rollbackEnvironment
    dsimp only
    rw [h]
  have hens : e.ensureLibrary cfg { ip with outdated := os } fs = e.ensureLibrary cfg ip fs := rfl
  unfold RunEnv.rInstall
  dsimp only
  rw [hens]
  split
  · rfl
  · have hbody : ∀ w, (e.body cfg { ip with outdated := os } pre w) =
        ((e.body cfg ip pre w).1, (e.body cfg ip pre w).2.map fun x => ({ x.1 with plan := { ip with outdated := os } }, x.2)) := by
      intro w
      unfold RunEnv.body
      dsimp only
      rw [htag, hph, hrp]
      split
      · rfl
      · dsimp only [Option.map_some]
        congr 1
        unfold RunEnv.undo
        rw [hroll _ { ip with outdated := os } _ (by rw [hplan])]
    rw [hbody]
    dsimp only
    cases (e.body cfg ip pre (e.ensureLibrary cfg ip fs).1).2 with
    | none => rfl
    | some x => rfl

/-- C53, as far as it holds: with `NoUpdate`, a failed run leaves the library as it was even if packages given as
tarballs are outdated. Missing: without `NoUpdate`, see `C53_violated`. -/
theorem C53_noUpdate_partial (e : RunEnv) (cfg : RunCfg) (ip : InstallPlan) (pre : GoMap Desc) (fs : Fs)
    (hb : Behaves e cfg.lib ip) (hd : NoFaults e.disk) (hn : GoodNames ip) (ho : InOrder cfg.lib ip pre fs)
    (ht : (tarballs ip).Nodup) (hnew : ip.createLibrary = true → ∀ q, cfg.lib <+: q → fs q = none) (hup : cfg.noUpdate = true)
    (hrb : cfg.noRollback = false) (hfail : (e.rInstall cfg ip pre fs).2 = .exit0 true) :
    Keeps cfg.lib IsLock fs (e.rInstall cfg ip pre fs).1.fs := by
  have hr := rInstall_noUpdate e cfg ip pre fs hup []
  rw [← hr] at hfail ⊢
  exact C49_restored_partial e cfg { ip with outdated := [] } pre fs ⟨hb.download, hb.queue, hb.R, hb.during, hb.removal, hb.order⟩ hd hn
    ⟨by simp, by simp, ht, by simp⟩ ⟨ho.found, ho.notFound, ho.noBackup⟩ hnew hrb hfail

/-- C53 does not hold: a package that is outdated and given as a tarball is set aside once, but the rollback restores
it twice: the second time it deletes the restored version and finds no backup. -/
theorem C53_violated (e : RunEnv) (cfg : RunCfg) (ip : InstallPlan) (pre : GoMap Desc) (fs : Fs)
    (hb : Behaves e cfg.lib ip) (hd : NoFaults e.disk) (hn : GoodNames ip) (ho : InOrder cfg.lib ip pre fs) (hc : ip.createLibrary = false)
    (hfound : ∀ o ∈ ip.outdated, GoMap.has pre o.package = true) (hnd : (ip.outdated.map OutdatedPackage.package).Nodup)
    (o : OutdatedPackage) (hup : cfg.noUpdate = false) (hout : o ∈ ip.outdated) (htar : tarballs ip = [o.package])
    (hrb : cfg.noRollback = false) (hfail : (e.rInstall cfg ip pre fs).2 = .exit0 true) :
    fs (cfg.lib ++ [o.package]) = some .dir ∧
    Gone cfg.lib (e.rInstall cfg ip pre fs).1.fs o.package ∧ Gone cfg.lib (e.rInstall cfg ip pre fs).1.fs (backupName o.package) := by
  have hm : o.package ∈ members ip := List.mem_append_right _ (by rw [htar]; simp)
  have hU : ∀ p ∈ updatesOf cfg ip pre e.ρ, p ∈ members ip ∧ GoMap.has pre p = true := by
    intro p hp
    obtain ⟨_, ⟨o', ho', rfl⟩, h⟩ := (mem_updatesOf hb.order).1 hp
    exact ⟨h, hfound o' ho'⟩
  have hoU : o.package ∈ updatesOf cfg ip pre e.ρ := (mem_updatesOf hb.order).2 ⟨hup, ⟨o, hout, rfl⟩, hm⟩
  have hA : overwritesOf cfg ip pre e.ρ = [o.package] := by
    have h1 : (e.ρ 2 (tarballs ip)) = [o.package] := by
      have := hb.order 2 (tarballs ip)
      rw [htar] at this ⊢
      exact List.perm_singleton.1 this
    unfold overwritesOf RollbackPlan.toOverwrite createRollbackPlan
    show (e.ρ 2 (tarballs ip)).filter _ = _
    rw [h1]
    simp [hfound o hout]
  have hUn : NotBackups (updatesOf cfg ip pre e.ρ) := fun p hp => ⟨(hn p (hU p hp).1).1, (hn p (hU p hp).1).2.2⟩
  have hUd : (updatesOf cfg ip pre e.ρ).Nodup := by
    unfold updatesOf
    split
    · simp
    · exact hnd.sublist (List.filter_sublist ..)
  have hdir : ∀ p ∈ updatesOf cfg ip pre e.ρ, fs (cfg.lib ++ [p]) = some .dir := fun p hp => ho.found p (hU p hp).1 (hU p hp).2
  refine ⟨hdir _ hoU, ?_⟩
  obtain ⟨t1, _⟩ := tagAll_exact (d := e.disk) fs (updatesOf cfg ip pre e.ρ) hUd hUn (fun p _ fs' => hd.1 _ _ _) hdir { fs := fs }
    (fun p hp => ⟨fun r => rfl, ho.noBackup p (hU p hp).1⟩)
  -- the second tagging of the package fails
  have hat : afterTag e cfg ip pre { fs := fs } = (tagAll e.disk cfg.lib { fs := fs } (updatesOf cfg ip pre e.ρ)).1 := by
    unfold afterTag setAside
    rw [tagAll_append, hA]
    simp only [tagAll]
    rw [tagOld_eq _ _ _ (hn _ hm).1]
    dsimp only
    unfold Disk.rename
    rw [if_neg]
    have := (t1 _ hoU).2 []
    simp [Fs.renameOk, this]
  have g := goes_phases hb (fun p hp => (hn p (List.mem_append_left _ hp)).2.1) (afterTag e cfg ip pre { fs := fs })
  have hplainNew : ∀ p ∈ (createRollbackPlan cfg.lib ip pre e.ρ).new, PlainName p := fun p h => (hn p ((mem_new hb.order).1 h).1).1
  obtain ⟨n1, n2⟩ := removeNew_exact hd (lib := cfg.lib) _ hplainNew (afterPhases e cfg ip pre fs)
  change (afterRemoval e cfg ip pre fs).2 = false at n1
  change ∀ n r, (afterRemoval e cfg ip pre fs).1.fs _ = _ at n2
  have hsv : ∀ p ∈ updatesOf cfg ip pre e.ρ, Saved cfg.lib fs (afterRemoval e cfg ip pre fs).1.fs p := by
    intro p hp r
    rw [n2, if_neg (fun h => (hn _ ((mem_new hb.order).1 h).1).2.2 (backup_prefix p))]
    refine (g.1.at (phases_keep_backup hn _ _ p) r).trans ?_
    rw [hat]
    exact (t1 p hp).1 r
  obtain ⟨_, r2, r3⟩ := restoreAll_exact hb.removal fs (updatesOf cfg ip pre e.ρ) hUd hUn hdir _ hsv
  have hr := r2 (r3 hd)
  have hR : Gone cfg.lib (afterRestore e cfg ip pre fs).1.fs o.package ∧ Gone cfg.lib (afterRestore e cfg ip pre fs).1.fs (backupName o.package) := by
    unfold afterRestore setAside
    rw [n1]
    simp only [Bool.false_eq_true, if_false]
    rw [attempts_append, restoreAll_append, r3 hd, hA]
    simp only [Bool.false_eq_true, if_false]
    obtain ⟨h1, h2⟩ := hr _ hoU
    generalize (restoreAll e.disk (afterRemoval e cfg ip pre fs).1 (attempts cfg.lib (updatesOf cfg ip pre e.ρ))).1 = w at h1 h2 ⊢
    have hex : w.fs.ex (cfg.lib ++ [o.package]) = true := by
      unfold Fs.ex
      rw [h1 [], hdir _ hoU]
      rfl
    have hne : backupName o.package ≠ o.package := fun h => (hn _ hm).2.2 (h ▸ backup_prefix _)
    have hb0 : (w.fs.removeAll (cfg.lib ++ [o.package])) (cfg.lib ++ [backupName o.package]) = none := by
      rw [removeAll_at]
      split
      · rfl
      · exact h2 []
    have hone : restoreOne e.disk w { package := o.package, active := cfg.lib ++ [o.package], backup := cfg.lib ++ [backupName o.package] } =
        (w.move (e.disk.removing w.fs (cfg.lib ++ [o.package])).1 (w.fs.removeAll (cfg.lib ++ [o.package])), true) := by
      unfold restoreOne
      dsimp only
      rw [if_pos hex, removeAll_ok w _ (hd.2 _ _)]
      simp only [Bool.false_eq_true, if_false]
      unfold Disk.rename
      rw [if_neg]
      have : (w.move (e.disk.removing w.fs (cfg.lib ++ [o.package])).1 (w.fs.removeAll (cfg.lib ++ [o.package]))).fs = w.fs.removeAll (cfg.lib ++ [o.package]) := rfl
      rw [this]
      simp [Fs.renameOk, hb0]
    simp only [attempts, List.map_cons, List.map_nil, restoreAll]
    rw [hone]
    simp only [if_true]
    refine ⟨fun r => ?_, fun r => ?_⟩
    · show w.fs.removeAll (cfg.lib ++ [o.package]) _ = none
      rw [removeAll_at, if_pos ((below_iff ..).2 rfl)]
    · show w.fs.removeAll (cfg.lib ++ [o.package]) _ = none
      rw [removeAll_at]
      split
      · rfl
      · exact h2 r
  rw [run_failed hn hb.order hc hrb hfail]
  have d1 := deleteBackups_gone (lib := cfg.lib) hd.2 (updatesOf cfg ip pre e.ρ) (afterRestore e cfg ip pre fs).1
  have d2 := deleteBackups_gone (lib := cfg.lib) hd.2 (overwritesOf cfg ip pre e.ρ)
    (deleteBackups e.disk (afterRestore e cfg ip pre fs).1 (attempts cfg.lib (updatesOf cfg ip pre e.ρ)))
  exact ⟨fun r => d2.2.1 _ (d1.2.1 _ (hR.1 r)), fun r => d2.2.1 _ (d1.2.1 _ (hR.2 r))⟩

/-- The toy library with `t` outdated and given as a tarball. -/
example : let ip := { toyPlan with outdated := [⟨s%"a", s%"1", s%"2"⟩, ⟨s%"t", s%"1", s%"2"⟩] }
    tarballs ip = [s%"t"] ∧ ((libRun .failed).rInstall { lib := [s%"lib"] } ip toyPre toyLib).2 = .exit0 true ∧
    ((libRun .failed).rInstall { lib := [s%"lib"] } ip toyPre toyLib).1.fs [s%"lib", s%"t"] = none := by decide

/-- The same plan with `NoUpdate`: everything is back. -/
example : let ip := { toyPlan with outdated := [⟨s%"a", s%"1", s%"2"⟩, ⟨s%"t", s%"1", s%"2"⟩] }
    (tarballs ip).Nodup ∧ ((libRun .failed).rInstall { lib := [s%"lib"], noUpdate := true } ip toyPre toyLib).2 = .exit0 true ∧
    ((libRun .failed).rInstall { lib := [s%"lib"], noUpdate := true } ip toyPre toyLib).1.fs [s%"lib", s%"t"] = some .dir := by decide

/-! ## C54: the exit status -/

/-- The exit status of the process. -/
def exitStatus : RunEnd → Nat
  | .died => 1
  | .exit0 _ => 0

/-- C54 does not hold: when the installation queue reports an error (and nothing kills the process), the exit status
is 0. -/
theorem C54_violated (e : RunEnv) (cfg : RunCfg) (ip : InstallPlan) (pre : GoMap Desc) (fs : Fs)
    (hc : ip.createLibrary = false) (ht : tarballs ip = []) (hρ : e.ρ.Fair)
    (hdl : ∀ fs, (e.download fs).out = .ok) (hq : ∀ fs, (e.planned fs).out = .failed) :
    (e.rInstall cfg ip pre fs).2 = .exit0 true ∧ exitStatus (e.rInstall cfg ip pre fs).2 = 0 := by
  have hp : ∀ w, (e.phases cfg ip w).2 = .failed := by
    intro w
    unfold RunEnv.phases
    dsimp only
    rw [if_neg (by simp [hdl]), if_neg (by simp [hq])]
    have : e.ρ 3 (GoMap.keys ip.additional) = [] := by
      have h := hρ 3 (GoMap.keys ip.additional)
      rw [show GoMap.keys ip.additional = [] from ht] at h ⊢
      exact h.eq_nil
    rw [this]
    simp [RunEnv.installTarballs, hq]
  have hl : e.ensureLibrary cfg ip fs = ({ fs := fs }, true) := by
    unfold RunEnv.ensureLibrary; rw [hc]; rfl
  have h : (e.rInstall cfg ip pre fs).2 = .exit0 true := by
    unfold RunEnv.rInstall
    rw [hl]
    simp only [Bool.not_true, Bool.false_eq_true, if_false]
    unfold RunEnv.body
    simp only [hp]
    rfl
  exact ⟨h, by rw [h]; rfl⟩

/-- The toy run, without the tarball. -/
example : tarballs { toyPlan with additional := [] } = [] ∧ (∀ fs, ((libRun .failed).planned fs).out = .failed) ∧
    ((libRun .failed).rInstall { lib := [s%"lib"] } { toyPlan with additional := [] } toyPre toyLib).2 = .exit0 true :=
  ⟨rfl, fun _ => rfl, by decide⟩

theorem installTarballs_failed (e : RunEnv) (lib : Path) (m : GoMap AdditionalPkg) (ns : List Str) (w : World)
    (h : (e.installTarballs lib m w ns).2 = .ok) :
    ∀ pre n post, ns = pre ++ n :: post →
      (e.installTarball lib (e.installTarballs lib m w pre).1 n ((GoMap.get? m n).getD {})).2 = .ok := by
  induction ns generalizing w with
  | nil => intro pre n post he; simp at he
  | cons x xs ih =>
    intro pre n post he
    simp only [RunEnv.installTarballs] at h
    cases hx : (e.installTarball lib w x ((GoMap.get? m x).getD {})).2 with
    | dead => rw [hx] at h; simp at h
    | failed =>
      rw [hx] at h
      simp only [if_true] at h
      split at h <;> simp at h
    | ok =>
      rw [hx] at h
      have h' : (e.installTarballs lib m (e.installTarball lib w x ((GoMap.get? m x).getD {})).1 xs).2 = .ok := by
        cases hy : (e.installTarballs lib m (e.installTarball lib w x ((GoMap.get? m x).getD {})).1 xs).2 <;> rw [hy] at h <;> simp at h
      cases pre with
      | nil =>
        simp at he
        obtain ⟨rfl, _⟩ := he
        exact hx
      | cons y ys =>
        simp at he
        obtain ⟨rfl, he⟩ := he
        simp only [RunEnv.installTarballs]
        rw [hx]
        exact ih _ h' ys n post he

/-- The toy run that succeeds. -/
example : ((libRun .ok).rInstall { lib := [s%"lib"] } toyPlan toyPre toyLib).2 = .exit0 false := by decide

/-! ## C55: strict mode -/

/-- C55: with `Strict` and no library, the command dies without any change to the file system. -/
theorem C55_strict (e : RunEnv) (cfg : RunCfg) (ip : InstallPlan) (pre : GoMap Desc) (fs : Fs)
    (hs : cfg.strict = true) (hc : ip.createLibrary = true) :
    (e.rInstall cfg ip pre fs).1.states = [fs] ∧ (e.rInstall cfg ip pre fs).2 = .died := by
  have : e.ensureLibrary cfg ip fs = ({ fs := fs }, false) := by
    unfold RunEnv.ensureLibrary; rw [if_pos hc, if_pos hs]
  unfold RunEnv.rInstall
  rw [this]
  exact ⟨rfl, rfl⟩

example : ((libRun .ok).rInstall { lib := [s%"new"], strict := true } { toyPlan with createLibrary := true } [] toyLib).2 = .died := by decide

/-- C55: the plan asks for a library exactly if there is none (see `Model/Plan.lean`). -/
theorem C55_asked_iff_missing {pkgs : List Str} {installed : GoMap Desc} {cfgs : InstallDeps} {nx : Nexus} {update libEx nr : Bool}
    {ρ : Order} {ip : InstallPlan} (h : resolveInstallationReqs pkgs installed cfgs nx update libEx nr ρ = .ok ip) :
    ip.createLibrary = !libEx := by
  unfold resolveInstallationReqs at h
  repeat' split at h
  all_goals first
    | (cases h; done)
    | (cases h; rfl)

/-- C55: without `Strict`, a missing library is created: after a run that reports no failure it is a directory. -/
theorem C55_created (e : RunEnv) (cfg : RunCfg) (ip : InstallPlan) (pre : GoMap Desc) (fs : Fs)
    (hb : Behaves e cfg.lib ip) (hn : GoodNames ip) (hc : ip.createLibrary = true) (hmiss : fs cfg.lib = none)
    (hok : (e.rInstall cfg ip pre fs).2 = .exit0 false) :
    cfg.strict = false ∧ (e.rInstall cfg ip pre fs).1.fs cfg.lib = some .dir := by
  have hs : cfg.strict = false := by
    cases h : cfg.strict with
    | false => rfl
    | true => rw [(C55_strict e cfg ip pre fs h hc).2] at hok; simp at hok
  refine ⟨hs, ?_⟩
  have hat : ∀ {S : Str → Prop} {a b : Fs}, Keeps cfg.lib S a b → b cfg.lib = a cfg.lib := fun h =>
    h _ (List.prefix_refl _) fun n _ => not_below_lib _ n
  unfold RunEnv.rInstall at hok ⊢
  dsimp only at hok ⊢
  split at hok
  · simp at hok
  rename_i hl
  rw [if_neg hl]
  have hlib : (e.ensureLibrary cfg ip fs).1.fs cfg.lib = some .dir := by
    unfold RunEnv.ensureLibrary at hl ⊢
    rw [if_pos hc, if_neg (by simp [hs])] at hl ⊢
    split at hl
    · simp at hl
    · rename_i h
      rw [if_neg h]
      show fs.mkdirAll cfg.lib cfg.lib = _
      unfold Fs.mkdirAll
      rw [if_pos ⟨List.prefix_refl _, hmiss⟩]
  have g1 := goes_tag_phases (pre := pre) hb hn (e.ensureLibrary cfg ip fs).1
  rw [body_eq hn hb.order] at hok ⊢
  rw [tag_eq hn hb.order] at g1
  change Goes cfg.lib _ _ (e.phases cfg ip (afterTag e cfg ip pre (e.ensureLibrary cfg ip fs).1)).1 at g1
  by_cases hd : (e.phases cfg ip (afterTag e cfg ip pre (e.ensureLibrary cfg ip fs).1)).2 = .dead
  · simp only [if_pos hd] at hok
    simp at hok
  simp only [if_neg hd] at hok ⊢
  have hf : ¬ (e.phases cfg ip (afterTag e cfg ip pre (e.ensureLibrary cfg ip fs).1)).2 = .failed := by simpa using hok
  unfold RunEnv.undo
  rw [if_neg (by simp [hf])]
  have g2 := goes_deleteBackupFolders (cfg := cfg) (ip := ip) (pre := pre) hb.removal fs
    (e.phases cfg ip (afterTag e cfg ip pre (e.ensureLibrary cfg ip fs).1)).1
  exact (hat g2.1).trans ((hat g1.1).trans hlib)

/-- C55: without `Strict`, when a library is to be created and cannot be, the command dies without any change; when it
can be, the directory is the first thing that changes, and the run goes on: it does not die if the downloads
succeed, the installation of the planned packages ends and there are no tarballs. -/
theorem C55_goes_on (e : RunEnv) (cfg : RunCfg) (ip : InstallPlan) (pre : GoMap Desc) (fs : Fs)
    (hs : cfg.strict = false) (hc : ip.createLibrary = true) :
    (e.mkdirFails fs = true → (e.rInstall cfg ip pre fs).1.states = [fs] ∧ (e.rInstall cfg ip pre fs).2 = .died) ∧
    (e.mkdirFails fs = false → Order.Fair e.ρ → ip.additional = [] → (∀ st, (e.download st).out = .ok) → (∀ st, (e.planned st).out ≠ .dead) →
      ∃ failed, (e.rInstall cfg ip pre fs).2 = .exit0 failed) := by
  constructor
  · intro hm
    have : e.ensureLibrary cfg ip fs = ({ fs := fs }, false) := by
      unfold RunEnv.ensureLibrary; rw [if_pos hc, if_neg (by simp [hs]), if_pos hm]
    unfold RunEnv.rInstall
    rw [this]
    exact ⟨rfl, rfl⟩
  · intro hm hρ hadd hd hp
    have : (e.ensureLibrary cfg ip fs).2 = true := by
      unfold RunEnv.ensureLibrary; rw [if_pos hc, if_neg (by simp [hs]), if_neg (by simp [hm])]
    have hph : ∀ w, (e.phases cfg ip w).2 ≠ .dead := by
      intro w
      have hk : e.ρ 3 (GoMap.keys ip.additional) = [] := by
        have := hρ 3 (GoMap.keys ip.additional)
        rw [hadd] at this ⊢
        exact this.eq_nil
      unfold RunEnv.phases
      dsimp only
      rw [if_neg (by simp [hd]), if_neg (hp _), hk]
      unfold RunEnv.installTarballs
      rw [if_neg (by simp)]
      split <;> simp
    unfold RunEnv.rInstall
    dsimp only
    rw [this]
    unfold RunEnv.body
    dsimp only
    rw [if_neg (hph _)]
    exact ⟨_, rfl⟩

/-- A run that creates a library. -/
example : ((libRun .ok).rInstall { lib := [s%"new"] } { toyPlan with createLibrary := true, additional := [] } [] toyLib).2 = .exit0 false ∧
    ((libRun .ok).rInstall { lib := [s%"new"] } { toyPlan with createLibrary := true, additional := [] } [] toyLib).1.fs [s%"new"] = some .dir ∧
    toyLib [s%"new"] = none ∧ (libRun .ok).mkdirFails toyLib = false := by decide

/-! ## C56: no updates -/

/-- C56: with `NoUpdate`, an installed package that is not given as a tarball is the same in every state of the run,
whatever happens. -/
theorem C56_noUpdate (e : RunEnv) (cfg : RunCfg) (ip : InstallPlan) (pre : GoMap Desc) (fs : Fs)
    (hb : Behaves e cfg.lib ip) (hn : GoodNames ip) (hc : ip.createLibrary = false) (hnu : cfg.noUpdate = true)
    (p : Str) (hdir : fs (cfg.lib ++ [p]) = some .dir) (hpre : GoMap.has pre p = true) (ht : p ∉ tarballs ip)
    (hl : ¬ IsLock p) (hbk : ¬ (s%"__OLD__") <+: p) :
    ∀ st ∈ (e.rInstall cfg ip pre fs).1.states, Intact cfg.lib fs st p := by
  intro st hst r
  have hu : ¬ RunTouch cfg ip pre e.ρ fs p := by
    rintro (⟨q, hq, h | h⟩ | ⟨_, h⟩ | ⟨_, h⟩ | h | h)
    · rcases List.mem_append.1 hq with h' | h'
      · have := ((mem_updatesOf hb.order).1 h').1
        rw [hnu] at this
        simp at this
      · exact ht (h ▸ ((mem_overwritesOf hb.order).1 h').1)
    · exact hbk (h ▸ backup_prefix q)
    · rw [hpre] at h; simp at h
    · exact h hdir
    · exact ht h
    · exact hl h
  rcases (goes_run (pre := pre) hb hn hc fs).2 st hst with h | h
  · have : st = fs := by simpa [World.states] using h
    rw [this]
  · exact h.at hu r

/-- The outdated package `a` of the toy library, kept. -/
example : ((libRun .ok).rInstall { lib := [s%"lib"], noUpdate := true } toyPlan toyPre toyLib).1.fs [s%"lib", s%"a", s%"DESCRIPTION"]
      = some (.file (s%"a 1")) ∧
    ((libRun .ok).rInstall { lib := [s%"lib"], noUpdate := true } toyPlan toyPre toyLib).2 = .exit0 false ∧
    ((libRun .ok).rInstall { lib := [s%"lib"] } toyPlan toyPre toyLib).1.fs [s%"lib", s%"a", s%"DESCRIPTION"] = none ∧
    ¬ IsLock (s%"a") ∧ ¬ (s%"__OLD__") <+: (s%"a") := by decide

/-! ## C57: a second run -/

/-- C57: planning again finds no package outdated whose installed version is not older than the offered one. -/
theorem C57_nothing_outdated {nx : Nexus} {ρ : Order} {cfgs : InstallDeps} {nr : Bool} (hk : Keyed nx)
    (hR : NoR nx) (hρ : ρ.Fair) (hu : Uniform cfgs nr) {pkgs : List Str} (hnp : pkgs ≠ [])
    (hav : ∀ p ∈ pkgs, Available nx p) {installed : GoMap Desc} (hwf : (GoMap.keys installed).Nodup)
    (hne : GoMap.get? installed [] = none) {update libEx : Bool} {ip : InstallPlan}
    (h : resolveInstallationReqs pkgs installed cfgs nx update libEx nr ρ = .ok ip)
    (p : Str) (d : Desc) (dl : PkgDl) (hd : GoMap.get? installed p = some d) (hdl : Resolves nx p dl)
    (hcur : compareVersionStrings d.version dl.package.version ≠ some (-1)) : p ∉ ip.outdated.map OutdatedPackage.package := by
  intro hp
  obtain ⟨o, ho, rfl⟩ := List.mem_map.1 hp
  obtain ⟨d', dl', h1, h2, _, _, h5⟩ := ((C31_outdated_exact hk hR hρ hu hnp hav hwf hne h).1 o).1 ho
  rw [hd] at h1
  rw [resolves_iff] at hdl h2
  rw [hdl] at h2
  cases h1
  cases h2
  exact hcur h5

/-- A version is not older than itself. -/
theorem not_older_self (v : Str) : compareVersionStrings v v ≠ some (-1) := by
  intro h5
  unfold compareVersionStrings at h5
  cases hv : parseVersion v with
  | none => rw [hv] at h5; simp at h5
  | some v =>
    rw [hv] at h5
    have := (C01_compare_eq_iff v v).2 ⟨rfl, rfl, rfl, rfl, rfl⟩
    simp [this] at h5

/-- C57: when every package that the plan takes from the repositories is installed and none of the plan's packages is outdated, a run
changes nothing in the library but the packages given as tarballs (and their backups, and R's locks), at any moment and whatever
happens. -/
theorem C57_stable_tarballs_partial (e : RunEnv) (cfg : RunCfg) (ip : InstallPlan) (pre : GoMap Desc) (fs : Fs)
    (hb : Behaves e cfg.lib ip) (hn : GoodNames ip) (hc : ip.createLibrary = false)
    (hall : ∀ p ∈ queued ip, GoMap.has pre p = true ∧ fs (cfg.lib ++ [p]) = some .dir)
    (hcur : ∀ p ∈ members ip, p ∉ ip.outdated.map OutdatedPackage.package) :
    ∀ st ∈ (e.rInstall cfg ip pre fs).1.states, Keeps cfg.lib (fun n => IsLock n ∨ ∃ t ∈ tarballs ip, n = t ∨ n = backupName t) fs st := by
  intro st hst
  rcases (goes_run (pre := pre) hb hn hc fs).2 st hst with h | h
  · have : st = fs := by simpa [World.states] using h
    rw [this]
    exact Keeps.refl _ _ _
  · refine h.mono ?_
    have hno : ∀ q ∈ updatesOf cfg ip pre e.ρ ++ overwritesOf cfg ip pre e.ρ, q ∈ tarballs ip := by
      intro q hq
      rcases List.mem_append.1 hq with h' | h'
      · obtain ⟨_, ⟨o, ho, rfl⟩, h3⟩ := (mem_updatesOf hb.order).1 h'
        exact absurd (List.mem_map_of_mem ho) (hcur _ h3)
      · exact ((mem_overwritesOf hb.order).1 h').1
    rintro n (⟨q, hq, h⟩ | ⟨h1, h2⟩ | ⟨h1, h2⟩ | h | h)
    · exact .inr ⟨q, hno q hq, h⟩
    · rcases List.mem_append.1 h1 with h1 | h1
      · rw [(hall n h1).1] at h2; simp at h2
      · exact .inr ⟨n, h1, .inl rfl⟩
    · exact absurd (hall n h1).2 h2
    · exact .inr ⟨n, h, .inl rfl⟩
    · exact .inl h

/-- C57: when every package of the plan is installed, none of them is outdated and no tarballs are given, a run
changes nothing in the library (R's locks aside), at any moment and whatever happens. -/
theorem C57_stable_partial (e : RunEnv) (cfg : RunCfg) (ip : InstallPlan) (pre : GoMap Desc) (fs : Fs)
    (hb : Behaves e cfg.lib ip) (hn : GoodNames ip) (hc : ip.createLibrary = false)
    (hall : ∀ p ∈ members ip, GoMap.has pre p = true ∧ fs (cfg.lib ++ [p]) = some .dir)
    (hcur : ∀ p ∈ members ip, p ∉ ip.outdated.map OutdatedPackage.package) (ht : tarballs ip = []) :
    ∀ st ∈ (e.rInstall cfg ip pre fs).1.states, Keeps cfg.lib IsLock fs st := by
  intro st hst
  refine (C57_stable_tarballs_partial e cfg ip pre fs hb hn hc (fun p hp => hall p (List.mem_append_left _ hp)) hcur st hst).mono ?_
  rintro n (h | ⟨t, h, _⟩)
  · exact h
  · rw [ht] at h; cases h

theorem scan_get {parse : Str → Option Desc} {fs : Fs} {lib : Path}
    (hsane : ∀ n d, described parse fs lib n = some d → d.package = n ∧ n ≠ []) (names : List Str) (m : GoMap Desc) (p : Str) :
    GoMap.get? (names.foldl (scanInstalled parse fs lib) m) p =
      if p ∈ names ∧ fs.isDir (lib ++ [p]) ∧ (described parse fs lib p).isSome then described parse fs lib p else GoMap.get? m p := by
  induction names generalizing m with
  | nil => simp
  | cons n ns ih =>
    rw [List.foldl_cons, ih]
    have hstep : GoMap.get? (scanInstalled parse fs lib m n) p =
        if p = n ∧ fs.isDir (lib ++ [n]) ∧ (described parse fs lib n).isSome then described parse fs lib n else GoMap.get? m p := by
      unfold scanInstalled
      by_cases hd : fs.isDir (lib ++ [n]) = true
      · rw [if_pos hd]
        cases hde : described parse fs lib n with
        | none =>
          have : ∀ c, fs (lib ++ [n, s%"DESCRIPTION"]) = some (.file c) → parse c = none := by
            intro c hc
            unfold described at hde
            rw [hc] at hde
            exact hde
          simp only [Option.isSome_none, Bool.false_eq_true, and_false, if_false]
          split
          · rename_i c hc
            rw [this c hc]
          · rfl
        | some d =>
          obtain ⟨h1, h2⟩ := hsane n d hde
          have : ∃ c, fs (lib ++ [n, s%"DESCRIPTION"]) = some (.file c) ∧ parse c = some d := by
            unfold described at hde
            split at hde
            · rename_i c hc
              exact ⟨c, hc, hde⟩
            · simp at hde
          obtain ⟨c, hc, hpc⟩ := this
          rw [hc]
          simp only [hpc]
          rw [if_neg (by rw [h1]; exact h2), h1, GoMap.get?_put]
          by_cases hpn : p = n
          · simp [hpn, hd]
          · simp [hpn]
      · rw [if_neg hd, if_neg (fun h => hd h.2.1)]
    rw [hstep]
    by_cases h1 : p ∈ ns ∧ fs.isDir (lib ++ [p]) ∧ (described parse fs lib p).isSome
    · rw [if_pos h1, if_pos ⟨List.mem_cons_of_mem _ h1.1, h1.2⟩]
    · rw [if_neg h1]
      by_cases h2 : p = n ∧ fs.isDir (lib ++ [n]) ∧ (described parse fs lib n).isSome
      · rw [if_pos h2, if_pos ⟨by rw [h2.1]; exact List.mem_cons_self .., by rw [h2.1]; exact h2.2⟩, h2.1]
      · rw [if_neg h2, if_neg]
        rintro ⟨h3, h4⟩
        rcases List.mem_cons.1 h3 with h | h
        · exact h2 ⟨h, h ▸ h4⟩
        · exact h1 ⟨h, h4⟩

theorem scan_nodup {parse : Str → Option Desc} {fs : Fs} {lib : Path} (names : List Str) (m : GoMap Desc) (h : (GoMap.keys m).Nodup) :
    (GoMap.keys (names.foldl (scanInstalled parse fs lib) m)).Nodup := by
  induction names generalizing m with
  | nil => exact h
  | cons n ns ih =>
    refine ih _ ?_
    unfold scanInstalled
    repeat' split
    all_goals first
      | exact h
      | exact GoMap.wf_put h _ _

/-- C57: the second run as a whole. If every directory of the library holds the package it is named after, and every
package of the plan is installed in a version not older than the offered one, then a new plan made from this library finds none of its
packages outdated, and running it changes nothing in the library (R's locks aside), at any moment and whatever happens. -/
theorem C57_second_run {nx : Nexus} {cfgs : InstallDeps} {nr : Bool} (hk : Keyed nx) (hR : NoR nx)
    (hu : Uniform cfgs nr) {pkgs : List Str} (hnp : pkgs ≠ []) (hav : ∀ p ∈ pkgs, Available nx p)
    (e : RunEnv) (cfg : RunCfg) (fs : Fs) (parse : Str → Option Desc) (names : List Str)
    (hsane : ∀ n d, described parse fs cfg.lib n = some d → d.package = n ∧ n ≠ [])
    {update : Bool} {ip : InstallPlan} {ρ : Order} (hρ : ρ.Fair)
    (h : resolveInstallationReqs pkgs (getPriorInstalled parse fs cfg.lib names) cfgs nx update true nr ρ = .ok ip)
    (hcur : ∀ p ∈ members ip, p ∈ names ∧ fs (cfg.lib ++ [p]) = some .dir ∧
      ∃ d dl, described parse fs cfg.lib p = some d ∧ Resolves nx p dl ∧
        compareVersionStrings d.version dl.package.version ≠ some (-1))
    (hb : Behaves e cfg.lib ip) (hn : GoodNames ip) :
    (∀ p ∈ members ip, p ∉ ip.outdated.map OutdatedPackage.package) ∧
    ∀ st ∈ (e.rInstall cfg ip (getPriorInstalled parse fs cfg.lib names) fs).1.states, Keeps cfg.lib IsLock fs st := by
  have hget : ∀ p d, p ∈ names → fs (cfg.lib ++ [p]) = some .dir → described parse fs cfg.lib p = some d →
      GoMap.get? (getPriorInstalled parse fs cfg.lib names) p = some d := by
    intro p d h1 h2 h3
    unfold getPriorInstalled
    rw [scan_get hsane, if_pos ⟨h1, by simp [Fs.isDir, h2], by simp [h3]⟩, h3]
  have hadd : ip.additional = [] := by
    unfold resolveInstallationReqs at h
    repeat' split at h
    all_goals first
      | (cases h; done)
      | (cases h; rfl)
  have hout : ∀ p ∈ members ip, p ∉ ip.outdated.map OutdatedPackage.package := by
    intro p hp
    obtain ⟨h1, h2, d, dl, h3, h4, h5⟩ := hcur p hp
    refine C57_nothing_outdated hk hR hρ hu hnp hav (scan_nodup _ _ (by simp [GoMap.keys])) ?_ h p d dl (hget p d h1 h2 h3) h4 h5
    rw [scan_get hsane, if_neg]
    · rfl
    · rintro ⟨_, _, h⟩
      cases hd : described parse fs cfg.lib [] with
      | none => rw [hd] at h; simp at h
      | some d => exact (hsane [] d hd).2 rfl
  refine ⟨hout, C57_stable_partial e cfg ip _ fs hb hn ?_ ?_ hout ?_⟩
  · simpa using C55_asked_iff_missing h
  · intro p hp
    obtain ⟨h1, h2, d, dl, h3, h4, h5⟩ := hcur p hp
    exact ⟨by unfold GoMap.has; rw [hget p d h1 h2 h3]; rfl, h2⟩
  · unfold tarballs
    rw [hadd]
    rfl

/-- A library with `b` and `c`, in the versions offered by `planNexus`. -/
def currentLib : Fs := fun q =>
  if q = [s%"lib"] ∨ q = [s%"lib", s%"b"] ∨ q = [s%"lib", s%"c"] then some .dir
  else if q = [s%"lib", s%"b", s%"DESCRIPTION"] then some (.file (s%"b"))
  else if q = [s%"lib", s%"c", s%"DESCRIPTION"] then some (.file (s%"c"))
  else none

/-- see `currentLib` -/
def currentParse (c : Str) : Option Desc :=
  if c = s%"b" then some { package := s%"b", version := s%"1.1" } else if c = s%"c" then some { package := s%"c", version := s%"2.0" } else none

theorem current_sane (n : Str) (d : Desc) (h : described currentParse currentLib [s%"lib"] n = some d) : d.package = n ∧ n ≠ [] := by
  unfold described currentLib at h
  by_cases hb : n = s%"b"
  · subst hb
    have : d = { package := s%"b", version := s%"1.1" } := by simpa [currentParse] using h.symm
    subst this
    exact ⟨rfl, by decide⟩
  · by_cases hc : n = s%"c"
    · subst hc
      have : d = { package := s%"c", version := s%"2.0" } := by simpa [currentParse] using h.symm
      subst this
      exact ⟨rfl, by decide⟩
    · simp [hb, hc] at h

/-- The hypotheses of `C57_second_run` are met by a plan with two packages, one needed by the other. -/
example : ∃ ip, resolveInstallationReqs [s%"b"] (getPriorInstalled currentParse currentLib [s%"lib"] [s%"c", s%"b"]) (defaultCfgs true)
      planNexus true true true idOrder = .ok ip ∧ members ip = [s%"c", s%"b"] ∧
    (∀ p ∈ members ip, p ∈ [s%"c", s%"b"] ∧ currentLib ([s%"lib"] ++ [p]) = some .dir ∧
      ∃ d dl, described currentParse currentLib [s%"lib"] p = some d ∧ getPackage planNexus p = some dl ∧
        compareVersionStrings d.version dl.package.version ≠ some (-1)) := by
  cases h : resolveInstallationReqs [s%"b"] (getPriorInstalled currentParse currentLib [s%"lib"] [s%"c", s%"b"]) (defaultCfgs true)
      planNexus true true true idOrder with
  | error e =>
    exact absurd h (by
      have : (match resolveInstallationReqs [s%"b"] (getPriorInstalled currentParse currentLib [s%"lib"] [s%"c", s%"b"]) (defaultCfgs true)
        planNexus true true true idOrder with | .ok _ => true | _ => false) = true := by decide
      intro h'
      rw [h'] at this
      simp at this)
  | ok ip =>
    have hm : members ip = [s%"c", s%"b"] := by
      have : (match resolveInstallationReqs [s%"b"] (getPriorInstalled currentParse currentLib [s%"lib"] [s%"c", s%"b"]) (defaultCfgs true)
        planNexus true true true idOrder with | .ok ip => members ip | _ => []) = [s%"c", s%"b"] := by decide
      rw [h] at this
      exact this
    refine ⟨ip, rfl, hm, ?_⟩
    rw [hm]
    intro p hp
    refine ⟨hp, ?_⟩
    have : p = s%"c" ∨ p = s%"b" := by simpa using hp
    rcases this with rfl | rfl
    · exact ⟨by decide, { package := s%"c", version := s%"2.0" }, (getPackage planNexus (s%"c")).getD {}, by decide, by decide, by decide⟩
    · exact ⟨by decide, { package := s%"b", version := s%"1.1" }, (getPackage planNexus (s%"b")).getD {}, by decide, by decide, by decide⟩

/-- A plan whose only package is installed in the toy library. -/
example : let ip : InstallPlan := { starting := [s%"a"] }
    (∀ p ∈ members ip, GoMap.has toyPre p = true ∧ toyLib ([s%"lib"] ++ [p]) = some .dir) ∧ tarballs ip = [] ∧ members ip ≠ [] := by decide

/-- C57 does not hold with tarballs: the package of a tarball is set aside and installed again by every run, even if
it is installed already. -/
theorem C57_violated_tarball (e : RunEnv) (cfg : RunCfg) (ip : InstallPlan) (pre : GoMap Desc) (fs : Fs)
    (hb : Behaves e cfg.lib ip) (hd : NoFaults e.disk) (hn : GoodNames ip) (hp : PlanOK ip pre) (ho : InOrder cfg.lib ip pre fs)
    (t : Str) (ht : t ∈ tarballs ip) (hpre : GoMap.has pre t = true) :
    ∃ st, (∃ rest, ((e.tag cfg { fs := fs } (createRollbackPlan cfg.lib ip pre e.ρ)).1).states = rest ++ [st]) ∧
      fs (cfg.lib ++ [t]) = some .dir ∧ st (cfg.lib ++ [t]) = none := by
  have hf := tagFacts (e := e) hb.order hn hp ho
  have hin : t ∈ setAside e cfg ip pre := List.mem_append_right _ ((mem_overwritesOf hb.order).2 ⟨ht, hpre⟩)
  obtain ⟨t1, _⟩ := tagAll_exact fs (setAside e cfg ip pre) hf.nodup hf.names (fun p _ fs' => hd.1 _ _ _) hf.dir { fs := fs }
    (fun p hp => ⟨fun r => rfl, hf.noOld p hp⟩)
  rw [tag_eq hn hb.order]
  exact ⟨_, ⟨_, rfl⟩, hf.dir t hin, (t1 t hin).2 []⟩

end Pkgr
