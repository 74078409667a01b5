/- C134: the run after an interrupted one. -/
import Verif.Props.Rollback2
import Verif.Spec.Retry

namespace Pkgr
open Spec

/-! ### What the next run finds -/

theorem scan_has_step {parse : Str → Option Desc} {fs : Fs} {lib : Path} (m : GoMap Desc) (n p : Str) :
    GoMap.has (scanInstalled parse fs lib m n) p = true ↔
      GoMap.has m p = true ∨ (p ≠ [] ∧ fs.isDir (lib ++ [n]) = true ∧ ∃ d, described parse fs lib n = some d ∧ d.package = p) := by
  unfold scanInstalled
  by_cases hd : fs.isDir (lib ++ [n]) = true
  · rw [if_pos hd]
    split
    · rename_i c hc
      have hde : described parse fs lib n = parse c := by unfold described; rw [hc]
      rw [hde]
      split
      · rename_i d hp
        split
        · rename_i he
          refine ⟨Or.inl, ?_⟩
          rintro (h | ⟨h1, _, d', h2, h3⟩)
          · exact h
          · rw [hp] at h2
            cases h2
            exact absurd (h3.symm.trans he) h1
        · rename_i he
          unfold GoMap.has
          rw [GoMap.get?_put]
          by_cases hpd : p = d.package
          · rw [if_pos hpd]
            refine ⟨fun _ => Or.inr ⟨hpd ▸ he, hd, d, hp, hpd.symm⟩, fun _ => rfl⟩
          · rw [if_neg hpd]
            refine ⟨Or.inl, ?_⟩
            rintro (h | ⟨_, _, d', h2, h3⟩)
            · exact h
            · rw [hp] at h2
              cases h2
              exact absurd h3.symm hpd
      · rename_i hp
        refine ⟨Or.inl, ?_⟩
        rintro (h | ⟨_, _, d', h2, _⟩)
        · exact h
        · rw [hp] at h2; cases h2
    · rename_i hc
      refine ⟨Or.inl, ?_⟩
      rintro (h | ⟨_, _, d', h2, _⟩)
      · exact h
      · unfold described at h2
        split at h2
        · rename_i c hc'
          exact absurd hc' (hc c)
        · cases h2
  · rw [if_neg hd]
    exact ⟨Or.inl, fun h => h.elim id fun h => absurd h.2.1 hd⟩

theorem scan_has {parse : Str → Option Desc} {fs : Fs} {lib : Path} (names : List Str) (m : GoMap Desc) (p : Str) :
    GoMap.has (names.foldl (scanInstalled parse fs lib) m) p = true ↔
      GoMap.has m p = true ∨ (p ≠ [] ∧ ∃ n ∈ names, fs.isDir (lib ++ [n]) = true ∧ ∃ d, described parse fs lib n = some d ∧ d.package = p) := by
  induction names generalizing m with
  | nil => simp
  | cons n ns ih =>
    rw [List.foldl_cons, ih, scan_has_step]
    constructor
    · rintro ((h | ⟨h1, h2, h3⟩) | ⟨h1, k, hk, h3⟩)
      · exact Or.inl h
      · exact Or.inr ⟨h1, n, List.mem_cons_self .., h2, h3⟩
      · exact Or.inr ⟨h1, k, List.mem_cons_of_mem _ hk, h3⟩
    · rintro (h | ⟨h1, k, hk, h3⟩)
      · exact Or.inl (Or.inl h)
      · rcases List.mem_cons.1 hk with rfl | hk
        · exact Or.inl (Or.inr ⟨h1, h3⟩)
        · exact Or.inr ⟨h1, k, hk, h3⟩

/-! ### The version a package had, in a state with backups -/

/-- The package's backup if there is one, its directory otherwise. -/
def versionAt (lib : Path) (st : Fs) (n : Str) (r : Path) : Option Node :=
  if st (lib ++ [backupName n]) = none then st (lib ++ n :: r) else st (lib ++ backupName n :: r)

/-- The library with each package's version taken as `versionAt` says. -/
def asItWas (lib : Path) (st : Fs) : Fs := fun q =>
  match q.drop lib.length with
  | n :: r => versionAt lib st n r
  | [] => st q

theorem asItWas_at (lib : Path) (st : Fs) (n : Str) (r : Path) : asItWas lib st (lib ++ n :: r) = versionAt lib st n r := by
  unfold asItWas
  rw [List.drop_left]

/-- What a package must look like to be set aside and restored: a backup, or no backup and a directory. -/
def Resumable (lib : Path) (st : Fs) (p : Str) : Prop :=
  st (lib ++ [backupName p]) = some .dir ∨ (st (lib ++ [backupName p]) = none ∧ st (lib ++ [p]) = some .dir)

theorem resumable_dir {lib : Path} {st : Fs} {p : Str} (h : Resumable lib st p) : asItWas lib st (lib ++ [p]) = some .dir := by
  rw [asItWas_at]
  unfold versionAt
  rcases h with h | ⟨h1, h2⟩
  · rw [if_neg (by rw [h]; simp), h]
  · rw [if_pos h1, h2]

theorem tagAll_resume {d : Disk} {lib : Path} (hd : ∀ fs a b, d.renameFails fs a b = false) (st : Fs) (ps : List Str) (hps : ps.Nodup)
    (hn : NotBackups ps) (w : World) (hR : ∀ p ∈ ps, Resumable lib st p)
    (h0 : ∀ p ∈ ps, Intact lib st w.fs p ∧ Intact lib st w.fs (backupName p)) :
    ∀ p ∈ ps, Saved lib (asItWas lib st) (tagAll d lib w ps).1.fs p := by
  induction ps generalizing w with
  | nil => simp
  | cons p ps ih =>
    obtain ⟨hpn, hps⟩ := List.nodup_cons.1 hps
    have hplain := (hn p (List.mem_cons_self ..)).1
    have hne : p ≠ backupName p := hn.ne (List.mem_cons_self ..) p
    obtain ⟨hi, hg⟩ := h0 p (List.mem_cons_self ..)
    simp only [tagAll]
    rw [tagOld_eq d lib w hplain]
    dsimp only
    have g1 : Goes lib (PkgOrBackup [p]) w (d.rename w (lib ++ [p]) (lib ++ [backupName p])).1 :=
      goes_rename d lib _ w p (backupName p) ⟨p, by simp, Or.inl rfl⟩ ⟨p, by simp, Or.inr rfl⟩
    have hS : Saved lib (asItWas lib st) (d.rename w (lib ++ [p]) (lib ++ [backupName p])).1.fs p := by
      intro r
      rw [asItWas_at]
      unfold versionAt
      rcases hR p (List.mem_cons_self ..) with h | ⟨h1, h2⟩
      · rw [if_neg (by rw [h]; simp)]
        have hb : w.fs (lib ++ [backupName p]) = some .dir := by rw [hg [], h]
        have : w.fs.renameOk (lib ++ [p]) (lib ++ [backupName p]) = false := by
          unfold Fs.renameOk
          rw [hb]
          cases w.fs (lib ++ [p]) with
          | none => rfl
          | some x => cases x <;> rfl
        unfold Disk.rename
        rw [this]
        simp only [Bool.false_and, Bool.false_eq_true, if_false]
        exact hg r
      · rw [if_pos h1, rename_ok (by rw [hi []]; exact h2) (by rw [hg []]; exact h1) (hd _ _ _)]
        show w.fs.rename _ _ _ = _
        rw [rename_at, if_pos rfl, hi r]
    generalize (d.rename w (lib ++ [p]) (lib ++ [backupName p])).1 = w1 at g1 hS
    have hn' : NotBackups ps := fun q hq => hn q (List.mem_cons_of_mem _ hq)
    have g := goes_tagAll d lib ps (fun q hq => (hn' q hq).1) w1
    intro q hq
    rcases List.mem_cons.1 hq with rfl | hq
    · exact fun r => by rw [g.1.at (backup_not_mem_pob hn hpn), hS r]
    · refine ih hps hn' w1 (fun q hq => hR q (List.mem_cons_of_mem _ hq)) ?_ q hq
      intro q hq
      have hqp : q ≠ p := fun h => hpn (h ▸ hq)
      obtain ⟨a, b⟩ := h0 q (List.mem_cons_of_mem _ hq)
      constructor
      · intro r
        rw [g1.1.at (n := q), a r]
        rintro ⟨x, hx, h | h⟩
        · exact hqp (by rw [h]; simpa using hx)
        · exact hn'.ne hq x h
      · intro r
        rw [g1.1.at (n := backupName q), b r]
        rintro ⟨x, hx, h | h⟩
        · have : x = p := by simpa using hx
          exact hn.ne (List.mem_cons_self ..) q (this ▸ h.symm)
        · have : x = p := by simpa using hx
          exact hqp (this ▸ backup_inj h)

theorem setAside_mem {e : RunEnv} {cfg : RunCfg} {ip : InstallPlan} {pre : GoMap Desc} (hρ : e.ρ.Fair) (hp : PlanOK ip pre) {p : Str}
    (h : p ∈ setAside e cfg ip pre) : p ∈ members ip ∧ GoMap.has pre p = true := by
  rcases List.mem_append.1 h with h | h
  · obtain ⟨_, ⟨o, ho, rfl⟩, h3⟩ := (mem_updatesOf hρ).1 h
    exact ⟨h3, hp.outdatedFound o ho⟩
  · obtain ⟨h1, h2⟩ := (mem_overwritesOf hρ).1 h
    exact ⟨List.mem_append_right _ h1, h2⟩

theorem setAside_nodup {e : RunEnv} {cfg : RunCfg} {ip : InstallPlan} {pre : GoMap Desc} (hρ : e.ρ.Fair) (hp : PlanOK ip pre) :
    (setAside e cfg ip pre).Nodup := by
  refine List.nodup_append.2 ⟨?_, ?_, ?_⟩
  · unfold updatesOf
    split
    · simp
    · exact hp.outdatedOnce.sublist (List.filter_sublist ..)
  · exact (((hρ 2 _).nodup_iff).2 hp.tarballOnce).sublist (List.filter_sublist ..)
  · rintro a ha b hb rfl
    obtain ⟨_, ⟨o, ho, rfl⟩, _⟩ := (mem_updatesOf hρ).1 ha
    exact hp.disjoint o ho ((mem_overwritesOf hρ).1 hb).1

/-- After the phases of a run that began in a state with backups. -/
theorem phases_resume {e : RunEnv} {cfg : RunCfg} {ip : InstallPlan} {pre : GoMap Desc} {st : Fs} (hb : Behaves e cfg.lib ip) (hn : GoodNames ip)
    (hp : PlanOK ip pre) (hd : NoFaults e.disk) (hR : ∀ p ∈ setAside e cfg ip pre, Resumable cfg.lib st p) :
    ∀ p ∈ setAside e cfg ip pre, Saved cfg.lib (asItWas cfg.lib st) (e.phases cfg ip (afterTag e cfg ip pre { fs := st })).1.fs p := by
  have hnb : NotBackups (setAside e cfg ip pre) := fun p h =>
    ⟨(hn p (setAside_mem hb.order hp h).1).1, (hn p (setAside_mem hb.order hp h).1).2.2⟩
  have t := tagAll_resume (lib := cfg.lib) hd.1 st _ (setAside_nodup hb.order hp) hnb { fs := st } hR (fun p _ => ⟨fun r => rfl, fun r => rfl⟩)
  have g := goes_phases hb (fun p hp => (hn p (List.mem_append_left _ hp)).2.1) (afterTag e cfg ip pre { fs := st })
  intro p h r
  rw [g.1.at (phases_keep_backup hn _ _ p)]
  exact t p h r

/-- A failing run with rollback, from a state with backups: what was set aside is what it was. -/
theorem failed_resume {e : RunEnv} {cfg : RunCfg} {ip : InstallPlan} {pre : GoMap Desc} {st : Fs} (hb : Behaves e cfg.lib ip) (hn : GoodNames ip)
    (hp : PlanOK ip pre) (hd : NoFaults e.disk) (hc : ip.createLibrary = false) (hR : ∀ p ∈ setAside e cfg ip pre, Resumable cfg.lib st p)
    (hrb : cfg.noRollback = false) (hfail : (e.rInstall cfg ip pre st).2 = .exit0 true) :
    ∀ p ∈ setAside e cfg ip pre, Intact cfg.lib (asItWas cfg.lib st) (e.rInstall cfg ip pre st).1.fs p ∧
      Gone cfg.lib (e.rInstall cfg ip pre st).1.fs (backupName p) := by
  have s1 := phases_resume hb hn hp hd hR
  have hnb : NotBackups (setAside e cfg ip pre) := fun p h =>
    ⟨(hn p (setAside_mem hb.order hp h).1).1, (hn p (setAside_mem hb.order hp h).1).2.2⟩
  rw [run_eq hn hb.order hc] at hfail ⊢
  by_cases hdead : (e.phases cfg ip (afterTag e cfg ip pre { fs := st })).2 = .dead
  · rw [if_pos hdead] at hfail
    simp at hfail
  rw [if_neg hdead] at hfail ⊢
  have hff : (e.phases cfg ip (afterTag e cfg ip pre { fs := st })).2 = .failed := by simpa using hfail
  have hu : ∀ w, e.undo cfg (taggedPlan e cfg ip pre) w .failed = (rollbackEnvironment e.disk w (taggedPlan e cfg ip pre)).1 := by
    intro w
    unfold RunEnv.undo
    rw [if_pos (by simp [hrb])]
  rw [hff, hu]
  dsimp only
  generalize (e.phases cfg ip (afterTag e cfg ip pre { fs := st })).1 = wp at s1 ⊢
  have hplainNew : ∀ p ∈ (createRollbackPlan cfg.lib ip pre e.ρ).new, PlainName p := fun p h => (hn p ((mem_new hb.order).1 h).1).1
  obtain ⟨n1, n2⟩ := removeNew_exact hd (lib := cfg.lib) _ hplainNew wp
  have hre := rollback_eq (e := e) (cfg := cfg) (pre := pre) hc (updatesOf cfg ip pre e.ρ) (overwritesOf cfg ip pre e.ρ) wp
  rw [n1] at hre
  simp only [Bool.false_eq_true, if_false] at hre
  change rollbackEnvironment e.disk wp (taggedPlan e cfg ip pre) = restoreAll e.disk _ (attempts cfg.lib (setAside e cfg ip pre)) at hre
  rw [hre]
  generalize (removeNew e.disk cfg.lib wp (createRollbackPlan cfg.lib ip pre e.ρ).new).1 = wn at n2 ⊢
  have hbn : ∀ p, backupName p ∉ (createRollbackPlan cfg.lib ip pre e.ρ).new := fun p h =>
    (hn _ ((mem_new hb.order).1 h).1).2.2 (backup_prefix p)
  obtain ⟨_, r2, r3⟩ := restoreAll_exact hb.removal (asItWas cfg.lib st) (setAside e cfg ip pre) (setAside_nodup hb.order hp) hnb
    (fun p h => resumable_dir (hR p h)) wn (fun p hp r => by rw [n2, if_neg (hbn p), s1 p hp r])
  have hr := r2 (r3 hd)
  generalize (restoreAll e.disk wn (attempts cfg.lib (setAside e cfg ip pre))).1 = wr at hr ⊢
  have hdel : (taggedPlan e cfg ip pre).deleteBackupFolders e.disk wr = wr := by
    unfold RollbackPlan.deleteBackupFolders
    show deleteBackups e.disk (deleteBackups e.disk wr (attempts cfg.lib _)) (attempts cfg.lib _) = wr
    rw [deleteBackups_noop _ _ (fun p h => (hr p (List.mem_append_left _ h)).2),
      deleteBackups_noop _ _ (fun p h => (hr p (List.mem_append_right _ h)).2)]
  rw [hdel]
  exact hr

/-! ### One interrupted run -/

theorem Spec.Kept.of_keeps {lib : Path} {S : Str → Prop} {fs a b : Fs} {p : Str} (h : Kept lib fs a p) (hk : Keeps lib S a b) (h1 : ¬ S p)
    (h2 : ¬ S (backupName p)) : Kept lib fs b p := by
  rcases h with ⟨h, k⟩ | h
  · exact Or.inl ⟨fun r => by rw [hk.at h1, h r], fun r => by rw [hk.at h2, k r]⟩
  · exact Or.inr fun r => by rw [hk.at h2, h r]

theorem not_pob_one {ps : List Str} {p q : Str} (hp : ¬ (s%"__OLD__") <+: p) (hn : NotBackups ps) (hq : q ∈ ps) (h : p ≠ q) :
    ¬ PkgOrBackup [q] p ∧ ¬ PkgOrBackup [q] (backupName p) := by
  constructor
  · rintro ⟨x, hx, k | k⟩
    · have : x = q := by simpa using hx
      exact h (k.trans this)
    · exact hp (k ▸ backup_prefix x)
  · rintro ⟨x, hx, k | k⟩
    · have : x = q := by simpa using hx
      exact hn.ne hq p (this ▸ k.symm)
    · have : x = q := by simpa using hx
      exact h (this ▸ backup_inj k)

theorem tagAll_kept {d : Disk} {lib : Path} (fs : Fs) (p : Str) (hnp : ¬ (s%"__OLD__") <+: p) (hdir : fs (lib ++ [p]) = some .dir)
    (hd : TagsOK d lib [p]) (ps : List Str) (hps : ps.Nodup) (hn : NotBackups ps) (w : World) (h0 : Kept lib fs w.fs p) :
    (p ∈ ps → Saved lib fs (tagAll d lib w ps).1.fs p) ∧ (∀ st ∈ (tagAll d lib w ps).1.states, st ∈ w.states ∨ Kept lib fs st p) := by
  induction ps generalizing w with
  | nil => exact ⟨by simp, fun st h => Or.inl h⟩
  | cons q ps ih =>
    obtain ⟨hqn, hps⟩ := List.nodup_cons.1 hps
    have hn' : NotBackups ps := fun q hq => hn q (List.mem_cons_of_mem _ hq)
    simp only [tagAll]
    rw [tagOld_eq d lib w (hn q (List.mem_cons_self ..)).1]
    dsimp only
    have g1 : Goes lib (PkgOrBackup [q]) w (d.rename w (lib ++ [q]) (lib ++ [backupName q])).1 :=
      goes_rename d lib _ w q (backupName q) ⟨q, by simp, Or.inl rfl⟩ ⟨q, by simp, Or.inr rfl⟩
    by_cases hpq : p = q
    · subst hpq
      have hS : Saved lib fs (d.rename w (lib ++ [p]) (lib ++ [backupName p])).1.fs p := by
        rcases h0 with ⟨h1, h2⟩ | h
        · rw [rename_ok (by rw [h1 []]; exact hdir) (h2 []) (hd p (by simp) _)]
          exact fun r => (rename_at ..).trans (by rw [if_pos rfl, h1 r])
        · have hb : w.fs (lib ++ [backupName p]) = some .dir := by rw [h []]; exact hdir
          have : w.fs.renameOk (lib ++ [p]) (lib ++ [backupName p]) = false := by
            unfold Fs.renameOk
            rw [hb]
            cases w.fs (lib ++ [p]) with
            | none => rfl
            | some x => cases x <;> rfl
          unfold Disk.rename
          rw [this]
          simp only [Bool.false_and, Bool.false_eq_true, if_false]
          exact h
      have hst1 : ∀ st ∈ (d.rename w (lib ++ [p]) (lib ++ [backupName p])).1.states, st ∈ w.states ∨ Kept lib fs st p := by
        unfold Disk.rename at hS ⊢
        intro st hst
        split at hst
        · rename_i hok
          rw [if_pos hok] at hS
          rcases mem_states_move hst with h | h | h
          · exact Or.inl h
          · simp at h
          · exact Or.inr (Or.inr (h ▸ hS))
        · exact Or.inl hst
      generalize (d.rename w (lib ++ [p]) (lib ++ [backupName p])).1 = w1 at hS hst1
      have g := goes_tagAll d lib ps (fun q hq => (hn' q hq).1) w1
      refine ⟨fun _ r => by rw [g.1.at (backup_not_mem_pob hn hqn), hS r], fun st hst => ?_⟩
      rcases g.2 st hst with h | h
      · exact hst1 st h
      · exact Or.inr (Or.inr fun r => by rw [h.at (backup_not_mem_pob hn hqn), hS r])
    · obtain ⟨k1, k2⟩ := not_pob_one hnp hn (List.mem_cons_self ..) hpq
      obtain ⟨i1, i2⟩ := ih hps hn' _ (h0.of_keeps g1.1 k1 k2)
      refine ⟨fun hp => i1 ((List.mem_cons.1 hp).resolve_left hpq), fun st hst => ?_⟩
      rcases i2 st hst with h | h
      · rcases g1.2 st h with h | h
        · exact Or.inl h
        · exact Or.inr (h0.of_keeps h k1 k2)
      · exact Or.inr h

theorem restoreAll_kept {d : Disk} (hd : RemovalOK d) {lib : Path} (fs : Fs) (p : Str) (hnp : ¬ (s%"__OLD__") <+: p)
    (hdir : fs (lib ++ [p]) = some .dir) (ps : List Str) (hps : ps.Nodup) (hn : NotBackups ps) (w : World) (h0 : Saved lib fs w.fs p) :
    ∀ st ∈ (restoreAll d w (attempts lib ps)).1.states, st ∈ w.states ∨ Kept lib fs st p := by
  induction ps generalizing w with
  | nil => exact fun st h => Or.inl h
  | cons q ps ih =>
    obtain ⟨hqn, hps⟩ := List.nodup_cons.1 hps
    have hn' : NotBackups ps := fun q hq => hn q (List.mem_cons_of_mem _ hq)
    have g1 := goes_restoreOne hd lib w q (PkgOrBackup [q]) ⟨q, by simp, Or.inl rfl⟩ ⟨q, by simp, Or.inr rfl⟩
    simp only [attempts, List.map_cons, restoreAll]
    by_cases hpq : p = q
    · subst hpq
      obtain ⟨a1, a2, _⟩ := restoreOne_exact hd fs p (hn.ne (List.mem_cons_self ..) p) w hdir h0
      generalize restoreOne d w { package := p, active := lib ++ [p], backup := lib ++ [backupName p] } = r1 at a1 a2 g1
      cases hr : r1.2 with
      | true =>
        simp only [if_true]
        exact a1
      | false =>
        simp only [Bool.false_eq_true, if_false]
        have g := goes_restoreAll hd lib ps r1.1
        intro st hst
        rcases g.2 st hst with h | h
        · exact a1 st h
        · exact Or.inr (Spec.Kept.of_keeps (Or.inl (a2 hr)) h (not_mem_pob hn hqn) (backup_not_mem_pob hn hqn))
    · obtain ⟨k1, k2⟩ := not_pob_one hnp hn (List.mem_cons_self ..) hpq
      generalize restoreOne d w { package := q, active := lib ++ [q], backup := lib ++ [backupName q] } = r1 at g1
      have hst1 : ∀ st ∈ r1.1.states, st ∈ w.states ∨ Kept lib fs st p := fun st hst =>
        (g1.2 st hst).imp id fun h => Spec.Kept.of_keeps (Or.inr h0) h k1 k2
      cases r1.2 with
      | true =>
        simp only [if_true]
        exact hst1
      | false =>
        simp only [Bool.false_eq_true, if_false]
        intro st hst
        rcases ih hps hn' r1.1 (fun r => by rw [g1.1.at k2, h0 r]) st hst with h | h
        · exact hst1 st h
        · exact Or.inr h

/-- A package that is kept when a run begins, and found by it, is kept all along, until the backups are deleted. -/
theorem body_kept {e : RunEnv} {cfg : RunCfg} {ip : InstallPlan} {pre : GoMap Desc} {fs st : Fs} (hb : Behaves e cfg.lib ip) (hn : GoodNames ip)
    (hp : PlanOK ip pre) (hc : ip.createLibrary = false) (hT : TagsOK e.disk cfg.lib (members ip)) {p : Str} (hnl : ¬ IsLock p)
    (hnp : ¬ (s%"__OLD__") <+: p) (hdir : fs (cfg.lib ++ [p]) = some .dir) (h0 : Kept cfg.lib fs st p) (hpre : GoMap.has pre p = true) :
    ∀ st' ∈ (e.body cfg ip pre { fs := st }).1.states, Kept cfg.lib fs st' p := by
  intro st' hst
  have hnb : NotBackups (setAside e cfg ip pre) := fun p h =>
    ⟨(hn p (setAside_mem hb.order hp h).1).1, (hn p (setAside_mem hb.order hp h).1).2.2⟩
  have hnd := setAside_nodup (e := e) (cfg := cfg) hb.order hp
  by_cases hs : p ∈ setAside e cfg ip pre
  · obtain ⟨t1, t2⟩ := tagAll_kept fs p hnp hdir (fun q hq => hT q (by
        have : q = p := by simpa using hq
        exact this ▸ (setAside_mem hb.order hp hs).1)) _ hnd hnb { fs := st } h0
    have g := goes_phases hb (fun p hp => (hn p (List.mem_append_left _ hp)).2.1) (afterTag e cfg ip pre { fs := st })
    have s1 : Saved cfg.lib fs (e.phases cfg ip (afterTag e cfg ip pre { fs := st })).1.fs p := fun r =>
      (g.1.at (phases_keep_backup hn _ _ p) r).trans (t1 hs r)
    have s2 : ∀ st' ∈ (e.phases cfg ip (afterTag e cfg ip pre { fs := st })).1.states, Kept cfg.lib fs st' p := by
      intro st' hst
      rcases g.2 st' hst with h | h
      · rcases t2 st' h with h | h
        · have : st' = st := by simpa [World.states] using h
          exact this ▸ h0
        · exact h
      · exact Or.inr fun r => (h.at (phases_keep_backup hn _ _ p) r).trans (t1 hs r)
    rw [body_eq hn hb.order] at hst
    split at hst
    · exact s2 st' hst
    · unfold RunEnv.undo at hst
      split at hst
      · have hre := rollback_eq (e := e) (cfg := cfg) (pre := pre) hc (updatesOf cfg ip pre e.ρ) (overwritesOf cfg ip pre e.ρ)
          (e.phases cfg ip (afterTag e cfg ip pre { fs := st })).1
        change rollbackEnvironment e.disk _ (taggedPlan e cfg ip pre) = _ at hre
        dsimp only at hst
        rw [hre] at hst
        have hplainNew : ∀ p ∈ (createRollbackPlan cfg.lib ip pre e.ρ).new, PlainName p := fun p h => (hn p ((mem_new hb.order).1 h).1).1
        have gn := goes_removeNew hb.removal cfg.lib (createRollbackPlan cfg.lib ip pre e.ρ).new hplainNew
          (e.phases cfg ip (afterTag e cfg ip pre { fs := st })).1
        have hbn : backupName p ∉ (createRollbackPlan cfg.lib ip pre e.ρ).new := fun h =>
          (hn _ ((mem_new hb.order).1 h).1).2.2 (backup_prefix p)
        have hrem : ∀ st' ∈ (removeNew e.disk cfg.lib (e.phases cfg ip (afterTag e cfg ip pre { fs := st })).1
            (createRollbackPlan cfg.lib ip pre e.ρ).new).1.states, Kept cfg.lib fs st' p := by
          intro st' hst
          rcases gn.2 st' hst with h | h
          · exact s2 st' h
          · exact Or.inr fun r => by rw [h.at hbn, s1 r]
        split at hst
        · exact hrem st' hst
        · rcases restoreAll_kept hb.removal fs p hnp hdir _ hnd hnb _ (fun r => by rw [gn.1.at hbn, s1 r]) st' hst with h | h
          · exact hrem st' h
          · exact h
      · exact s2 st' hst
  · have hub : ¬ RunTouch cfg ip pre e.ρ st (backupName p) := by
      rintro (⟨q, hq, h | h⟩ | ⟨h, _⟩ | ⟨h, _⟩ | h | h)
      · exact hnb.ne hq p h.symm
      · exact hs (backup_inj h ▸ hq)
      · exact (hn _ h).2.2 (backup_prefix p)
      · exact (hn _ (List.mem_append_left _ h)).2.2 (backup_prefix p)
      · exact (hn _ (List.mem_append_right _ h)).2.2 (backup_prefix p)
      · exact backup_not_lock p h
    rcases (goes_body (pre := pre) hb hn hc st).2 st' hst with h | h
    · have : st' = st := by simpa [World.states] using h
      exact this ▸ h0
    · rcases h0 with ⟨k1, k2⟩ | k
      · refine Or.inl ⟨fun r => ?_, fun r => (h.at hub r).trans (k2 r)⟩
        rw [← k1 r]
        refine h.at ?_ r
        by_cases hm : p ∈ members ip
        · exact not_setAside_untouched hb.order hn hm hpre (by rw [k1 []]; exact hdir) hs
        · exact outside_not_touched hb.order st hm (fun q _ h => hnp (h ▸ backup_prefix q)) hnl
      · exact Or.inr fun r => (h.at hub r).trans (k r)

section
variable {parse : Str → Option Desc} {lib : Path} {fs st : Fs} {p : Str}

/-- A package that is kept is found by the next run. -/
theorem kept_found (hp : InstalledOK parse lib fs p) (h : Kept lib fs st p) {listed : List Str} (hl : ListsAll st lib listed) :
    GoMap.has (getPriorInstalled parse st lib listed) p = true := by
  obtain ⟨d, hd, hdp⟩ := hp.desc
  refine (scan_has listed [] p).2 (Or.inr ⟨hp.plain.1, ?_⟩)
  rcases h with h | h
  · have h0 : st (lib ++ [p]) = some .dir := by rw [h.1 [], hp.dir]
    refine ⟨p, hl p h0, by simp [Fs.isDir, h0], d, ?_, hdp⟩
    rw [← hd]
    unfold described
    rw [h.1]
  · have h0 : st (lib ++ [backupName p]) = some .dir := by rw [h [], hp.dir]
    refine ⟨backupName p, hl _ h0, by simp [Fs.isDir, h0], d, ?_, hdp⟩
    rw [← hd]
    unfold described
    rw [h]

theorem interrupted_kept (hp : InstalledOK parse lib fs p) (h : Kept lib fs st p) {st' : Fs} (hr : InterruptedRun parse lib st st') :
    Kept lib fs st' p := by
  obtain ⟨e, cfg, ip, listed, rfl, hl, hb, hn, hpl, hc, hT, hst⟩ := hr
  exact body_kept hb hn hpl hc hT hp.noLock hp.noOld hp.dir h (kept_found hp h hl) st' hst

theorem kept_version (hdir : fs (lib ++ [p]) = some .dir) (h : Kept lib fs st p) (r : Path) :
    asItWas lib st (lib ++ p :: r) = fs (lib ++ p :: r) := by
  rw [asItWas_at]
  unfold versionAt
  rcases h with h | h
  · rw [if_pos (h.2 []), h.1 r]
  · rw [if_neg (by rw [h [], hdir]; simp), h r]

/-! ## C134 -/

/-- C134, a part: after any number of runs of `pkgr install`, each interrupted at any moment before it deletes backups, an installed
package is complete at its place or in its backup, and the next run finds it. -/
theorem C134_never_lost_partial (hp : InstalledOK parse lib fs p) (h : Interruptions parse lib fs st) :
    ((Intact lib fs st p ∧ Gone lib st (backupName p)) ∨ Saved lib fs st p) ∧
    ∀ listed, ListsAll st lib listed → GoMap.has (getPriorInstalled parse st lib listed) p = true := by
  have : Kept lib fs st p := by
    induction h with
    | none => exact Or.inl ⟨fun r => rfl, hp.noBackup⟩
    | more _ hr ih => exact interrupted_kept hp ih hr
  exact ⟨this, fun listed hl => kept_found hp this hl⟩

/-- C134, a part: when after any number of interrupted runs a run fails with rollback on (and without an I/O error), each
package that was installed before all of them is complete at its place or in its backup; and it is at its place, without
backup, if the last run set it aside (because it is outdated or replaced by a tarball). -/
theorem C134_retry_failed_partial (hp : InstalledOK parse lib fs p) (h : Interruptions parse lib fs st)
    (e : RunEnv) (cfg : RunCfg) (ip : InstallPlan) (listed : List Str) (hlib : cfg.lib = lib)
    (hl : ListsAll st lib listed) (hs : NamedRight parse st lib) (hfile : ∀ q ∈ members ip, ∀ c, st (lib ++ [backupName q]) ≠ some (.file c))
    (hb : Behaves e lib ip) (hd : NoFaults e.disk) (hn : GoodNames ip) (hc : ip.createLibrary = false)
    (hpl : PlanOK ip (getPriorInstalled parse st lib listed)) (hrb : cfg.noRollback = false)
    (hfail : (e.rInstall cfg ip (getPriorInstalled parse st lib listed) st).2 = .exit0 true) :
    let final := (e.rInstall cfg ip (getPriorInstalled parse st lib listed) st).1.fs
    (Intact lib fs final p ∨ Saved lib fs final p) ∧
    ((cfg.noUpdate = false ∧ p ∈ members ip ∧ ∃ o ∈ ip.outdated, o.package = p) ∨ p ∈ tarballs ip →
      Intact lib fs final p ∧ Gone lib final (backupName p)) := by
  subst hlib
  obtain ⟨hk, hf⟩ := C134_never_lost_partial hp h
  have hfound := hf listed hl
  have hR : ∀ q ∈ setAside e cfg ip (getPriorInstalled parse st cfg.lib listed), Resumable cfg.lib st q := by
    intro q hq
    obtain ⟨h1, h2⟩ := setAside_mem hb.order hpl hq
    cases hbk : st (cfg.lib ++ [backupName q]) with
    | some x =>
      cases x with
      | dir => exact Or.inl hbk
      | file c => exact absurd hbk (hfile q h1 c)
    | none =>
      refine Or.inr ⟨hbk, ?_⟩
      rcases (scan_has listed [] q).1 h2 with h' | ⟨_, n, _, hd, d, hde, rfl⟩
      · simp [GoMap.has, GoMap.get?] at h'
      · have hd' : st (cfg.lib ++ [n]) = some .dir := by simpa [Fs.isDir] using hd
        rcases hs n d hde with h | h
        · exact h ▸ hd'
        · rw [h, hbk] at hd'
          cases hd'
  have hset : p ∈ setAside e cfg ip (getPriorInstalled parse st cfg.lib listed) →
      Intact cfg.lib fs (e.rInstall cfg ip (getPriorInstalled parse st cfg.lib listed) st).1.fs p ∧
      Gone cfg.lib (e.rInstall cfg ip (getPriorInstalled parse st cfg.lib listed) st).1.fs (backupName p) := by
    intro h
    obtain ⟨a, b⟩ := failed_resume hb hn hpl hd hc hR hrb hfail p h
    exact ⟨fun r => (a r).trans (kept_version hp.dir hk r), b⟩
  refine ⟨?_, ?_⟩
  · by_cases h : p ∈ setAside e cfg ip (getPriorInstalled parse st cfg.lib listed)
    · exact Or.inl (hset h).1
    · have g := goes_run (pre := getPriorInstalled parse st cfg.lib listed) hb hn hc st
      have hub : ¬ RunTouch cfg ip (getPriorInstalled parse st cfg.lib listed) e.ρ st (backupName p) := by
        rintro (⟨q, hq, h' | h'⟩ | ⟨h', _⟩ | ⟨h', _⟩ | h' | h')
        · exact (hn q (setAside_mem hb.order hpl hq).1).2.2 (h' ▸ backup_prefix p)
        · exact h (backup_inj h' ▸ hq)
        · exact (hn _ h').2.2 (backup_prefix p)
        · exact (hn _ (List.mem_append_left _ h')).2.2 (backup_prefix p)
        · exact (hn _ (List.mem_append_right _ h')).2.2 (backup_prefix p)
        · exact backup_not_lock p h'
      rcases hk with k | k
      · refine Or.inl fun r => ?_
        rw [← k.1 r]
        refine g.1.at ?_ r
        by_cases hm2 : p ∈ members ip
        · exact not_setAside_untouched hb.order hn hm2 hfound (by rw [k.1 []]; exact hp.dir) h
        · exact outside_not_touched hb.order st hm2 (fun q _ h => hp.noOld (h ▸ backup_prefix q)) hp.noLock
      · exact Or.inr fun r => by rw [← k r]; exact g.1.at hub r
  · intro h
    refine hset ?_
    rcases h with ⟨h1, h2, h3⟩ | h
    · exact List.mem_append_left _ ((mem_updatesOf hb.order).2 ⟨h1, h3, h2⟩)
    · exact List.mem_append_right _ ((mem_overwritesOf hb.order).2 ⟨h, hfound⟩)

/-- C134, a part: when a run on a library with backups left over from interrupted runs reports no failure (and no removal
fails), no backup is left of the packages it found outdated or replaced by a tarball. -/
theorem C134_retry_ok_partial (e : RunEnv) (cfg : RunCfg) (ip : InstallPlan) (pre : GoMap Desc) (st : Fs)
    (hb : Behaves e cfg.lib ip) (hd : ∀ fs p, (e.disk.removing fs p).2 = false) (hn : GoodNames ip) (hc : ip.createLibrary = false)
    (hok : (e.rInstall cfg ip pre st).2 = .exit0 false) (p : Str)
    (hp : (cfg.noUpdate = false ∧ p ∈ members ip ∧ ∃ o ∈ ip.outdated, o.package = p) ∨ (p ∈ tarballs ip ∧ GoMap.has pre p = true)) :
    (e.rInstall cfg ip pre st).1.fs (cfg.lib ++ [backupName p]) = none := by
  have hs : p ∈ updatesOf cfg ip pre e.ρ ∨ p ∈ overwritesOf cfg ip pre e.ρ := by
    rcases hp with ⟨h1, h2, h3⟩ | h
    · exact Or.inl ((mem_updatesOf hb.order).2 ⟨h1, h3, h2⟩)
    · exact Or.inr ((mem_overwritesOf hb.order).2 h)
  rw [run_eq hn hb.order hc] at hok ⊢
  by_cases hdead : (e.phases cfg ip (afterTag e cfg ip pre { fs := st })).2 = .dead
  · rw [if_pos hdead] at hok
    simp at hok
  rw [if_neg hdead]
  unfold RollbackPlan.deleteBackupFolders
  show (deleteBackups e.disk (deleteBackups e.disk _ (attempts cfg.lib _)) (attempts cfg.lib _)).fs _ = none
  rcases hs with h | h
  · exact (deleteBackups_gone hd _ _).2.1 _ ((deleteBackups_gone hd _ _).1 p h)
  · exact (deleteBackups_gone hd _ _).1 p h

/-- C134 does not hold for a backup whose package the next run does not find outdated (its listing of the library has the new
version last): that backup stays, whatever the run does and however it ends. -/
theorem C134_violated_leftover (e : RunEnv) (cfg : RunCfg) (ip : InstallPlan) (pre : GoMap Desc) (st : Fs)
    (hb : Behaves e cfg.lib ip) (hn : GoodNames ip) (hc : ip.createLibrary = false) (p : Str)
    (hout : p ∉ ip.outdated.map OutdatedPackage.package) (ht : p ∉ tarballs ip) :
    ∀ st' ∈ (e.rInstall cfg ip pre st).1.states, ∀ r, st' (cfg.lib ++ backupName p :: r) = st (cfg.lib ++ backupName p :: r) := by
  have hub : ¬ RunTouch cfg ip pre e.ρ st (backupName p) := by
    have hmem : ∀ q ∈ setAside e cfg ip pre, q ∈ members ip ∧ q ≠ p := by
      intro q hq
      rcases List.mem_append.1 hq with h | h
      · obtain ⟨_, ⟨o, ho, rfl⟩, h3⟩ := (mem_updatesOf hb.order).1 h
        exact ⟨h3, fun h => hout (h ▸ List.mem_map_of_mem ho)⟩
      · obtain ⟨h1, _⟩ := (mem_overwritesOf hb.order).1 h
        exact ⟨List.mem_append_right _ h1, fun h => ht (h ▸ h1)⟩
    rintro (⟨q, hq, h' | h'⟩ | ⟨h', _⟩ | ⟨h', _⟩ | h' | h')
    · exact (hn q (hmem q hq).1).2.2 (h' ▸ backup_prefix p)
    · exact (hmem q hq).2 (backup_inj h').symm
    · exact (hn _ h').2.2 (backup_prefix p)
    · exact (hn _ (List.mem_append_left _ h')).2.2 (backup_prefix p)
    · exact (hn _ (List.mem_append_right _ h')).2.2 (backup_prefix p)
    · exact backup_not_lock p h'
  intro st' hst r
  rcases (goes_run (pre := pre) hb hn hc st).2 st' hst with h | h
  · have : st' = st := by simpa [World.states] using h
    rw [this]
  · exact h.at hub r

end

/-! ### The update of `a` from 1 to 2, interrupted and repeated -/

/-- Version 1 of `a` is installed. -/
def retryFs : Fs := fun q =>
  if q = [s%"lib"] ∨ q = [s%"lib", s%"a"] then some .dir
  else if q = [s%"lib", s%"a", s%"DESCRIPTION"] then some (.file (s%"a 1"))
  else if q = [s%"lib", s%"a", s%"R"] then some (.file (s%"code 1"))
  else none

/-- see above -/
def retryPlan : InstallPlan := { starting := [s%"a"], outdated := [⟨s%"a", s%"1", s%"2"⟩] }

/-- see above -/
def retryParse (c : Str) : Option Desc :=
  if c = s%"a 1" then some { package := s%"a", version := s%"1" } else if c = s%"a 2" then some { package := s%"a", version := s%"2" } else none

/-- The new version of `a` at its place. -/
def retryNew (fs : Fs) : Fs := fun q =>
  if q = [s%"lib", s%"a"] then some .dir
  else if q = [s%"lib", s%"a", s%"DESCRIPTION"] then some (.file (s%"a 2"))
  else if q = [s%"lib", s%"a", s%"R"] then some (.file (s%"code 2"))
  else fs q

/-- A run: the queue installs `a` (if its directory is not there) and ends as `o` says; a removal first removes the file `R`. -/
def retryRun (o : PhaseEnd) : RunEnv :=
  { disk := { renameFails := fun _ _ _ => false, removing := fun fs p => ([fun q => if q = p ++ [s%"R"] then none else fs q], false) }
    ρ := fun _ l => l
    mkdirFails := fun _ => false
    download := fun fs => { fs := fs, out := .ok }
    planned := fun fs => { fs := if fs [s%"lib", s%"a"] = some .dir then fs else retryNew fs, out := o }
    ie := toyEnv true
    during := fun _ _ => [] }

theorem retryRun_behaves (o : PhaseEnd) : Behaves (retryRun o) [s%"lib"] retryPlan where
  download := by
    intro fs st hst
    have : st = fs := by simpa [retryRun] using hst
    subst this
    exact fun p _ => rfl
  queue := by
    intro fs st hst
    have : st = if fs [s%"lib", s%"a"] = some .dir then fs else retryNew fs := by simpa [retryRun] using hst
    subst this
    by_cases h : fs [s%"lib", s%"a"] = some .dir
    · rw [if_pos h]
      exact ⟨[], .start⟩
    · rw [if_neg h]
      refine ⟨[s%"a"], .write fs _ _ (s%"a") (.begin fs [] (s%"a") .start (by decide) h) (by simp) ?_⟩
      intro q _ hn
      have := hn (s%"a") (Or.inl rfl)
      unfold retryNew
      rw [if_neg, if_neg, if_neg]
      · rintro rfl
        exact this ⟨[s%"R"], rfl⟩
      · rintro rfl
        exact this ⟨[s%"DESCRIPTION"], rfl⟩
      · rintro rfl
        exact this (List.prefix_refl _)
  R := toyR_confined true
  during := by intro n fs st h; simp [retryRun] at h
  removal := by
    intro fs p st h
    have : st = fun q => if q = p ++ [s%"R"] then none else fs q := by simpa [retryRun] using h
    subst this
    refine ⟨fun q hq => ?_, fun q => ?_⟩
    · show (if q = p ++ [s%"R"] then none else fs q) = fs q
      rw [if_neg]
      rintro rfl
      exact hq (List.prefix_append _ _)
    · show (if q = p ++ [s%"R"] then none else fs q) = fs q ∨ (if q = p ++ [s%"R"] then none else fs q) = none
      split
      · exact Or.inr rfl
      · exact Or.inl rfl
  order := fun _ l => List.Perm.refl l

theorem retry_goodNames : GoodNames retryPlan := by
  intro p hp
  have hp' : p = s%"a" := by simpa [retryPlan, members, queued, tarballs, GoMap.keys] using hp
  subst hp'
  decide

/-- `a` is installed in order. -/
theorem retry_installed : InstalledOK retryParse [s%"lib"] retryFs (s%"a") :=
  ⟨by decide, by decide, by decide, by decide, ⟨{ package := s%"a", version := s%"1" }, by decide, rfl⟩, fun r => by
    simp [retryFs, backupName]⟩

/-- The new version is in place, and the process dies before the backups are deleted. -/
def retryDead : Fs := ((retryRun .ok).body { lib := [s%"lib"] } retryPlan (getPriorInstalled retryParse retryFs [s%"lib"] [s%"a"]) { fs := retryFs }).1.fs

theorem retry_lists : ListsAll retryFs [s%"lib"] [s%"a"] := by
  intro n h
  simp only [retryFs, List.cons_append, List.nil_append] at h
  split at h
  · rename_i h'
    rcases h' with h' | h'
    · simp at h'
    · have : n = s%"a" := by simpa using h'
      simp [this]
  · split at h
    · cases h
    · split at h <;> cases h

/-- see above -/
def retryFirst : InterruptedRun retryParse [s%"lib"] retryFs retryDead where
  env := retryRun .ok
  cfg := { lib := [s%"lib"] }
  plan := retryPlan
  listed := [s%"a"]
  lib_eq := rfl
  lists := retry_lists
  behaves := retryRun_behaves _
  names := retry_goodNames
  planOK := ⟨by decide, by decide, by decide, by decide⟩
  exists_ := rfl
  tags := fun _ _ _ => rfl
  state := List.mem_append_right _ (List.mem_singleton.2 rfl)

theorem retryDead_eq : retryDead = retryNew (retryFs.rename [s%"lib", s%"a"] [s%"lib", s%"__OLD__a"]) := rfl

/-- What is in the library after the interruption. -/
theorem retryDead_at (n : Str) (r : Path) (x : Node) (h : retryDead (s%"lib" :: n :: r) = some x) :
    (n = s%"a" ∧ (r = [] ∧ x = .dir ∨ r = [s%"DESCRIPTION"] ∧ x = .file (s%"a 2") ∨ r = [s%"R"] ∧ x = .file (s%"code 2"))) ∨
    (n = s%"__OLD__a" ∧ (r = [] ∧ x = .dir ∨ r = [s%"DESCRIPTION"] ∧ x = .file (s%"a 1") ∨ r = [s%"R"] ∧ x = .file (s%"code 1"))) := by
  rw [retryDead_eq] at h
  unfold retryNew at h
  split at h
  · rename_i h'
    simp at h' h
    exact Or.inl ⟨h'.1, Or.inl ⟨h'.2, h.symm⟩⟩
  split at h
  · rename_i h'
    simp at h' h
    exact Or.inl ⟨h'.1, Or.inr (Or.inl ⟨h'.2, h.symm⟩)⟩
  split at h
  · rename_i h'
    simp at h' h
    exact Or.inl ⟨h'.1, Or.inr (Or.inr ⟨h'.2, h.symm⟩)⟩
  have hr := rename_at retryFs [s%"lib"] (s%"a") (s%"__OLD__a") n r
  change retryFs.rename [s%"lib", s%"a"] [s%"lib", s%"__OLD__a"] (s%"lib" :: n :: r) = _ at hr
  rw [hr] at h
  split at h
  · rename_i hn
    refine Or.inr ⟨hn, ?_⟩
    simp only [retryFs, List.cons_append, List.nil_append] at h
    split at h
    · rename_i h'
      simp at h' h
      exact Or.inl ⟨h', h.symm⟩
    split at h
    · rename_i h'
      simp at h' h
      exact Or.inr (Or.inl ⟨h', h.symm⟩)
    split at h
    · rename_i h'
      simp at h' h
      exact Or.inr (Or.inr ⟨h', h.symm⟩)
    · cases h
  · split at h
    · cases h
    · rename_i h1 h2
      simp only [retryFs, List.cons_append, List.nil_append] at h
      simp [h2] at h

theorem retryDead_named : NamedRight retryParse retryDead [s%"lib"] := by
  intro n d h
  unfold described at h
  split at h
  · rename_i c hc
    rcases retryDead_at n [s%"DESCRIPTION"] _ hc with ⟨rfl, h'⟩ | ⟨rfl, h'⟩
    · have : c = s%"a 2" := by simpa using h'
      subst this
      have : d = { package := s%"a", version := s%"2" } := by rw [← Option.some_inj, ← h]; decide
      subst this
      exact Or.inl rfl
    · have : c = s%"a 1" := by simpa using h'
      subst this
      have : d = { package := s%"a", version := s%"1" } := by rw [← Option.some_inj, ← h]; decide
      subst this
      exact Or.inr rfl
  · cases h

/-- The hypotheses of C134 are met: version 2 of `a` is in place and version 1 in the backup when the first run dies; the second run
finds version 1 (the backup is listed last), fails, and puts version 1 back. -/
example : InstalledOK retryParse [s%"lib"] retryFs (s%"a") ∧ Interruptions retryParse [s%"lib"] retryFs retryDead ∧
    ListsAll retryDead [s%"lib"] [s%"a", s%"__OLD__a"] ∧ NamedRight retryParse retryDead [s%"lib"] ∧
    (∀ q ∈ members retryPlan, ∀ c, retryDead ([s%"lib"] ++ [backupName q]) ≠ some (.file c)) ∧
    NoFaults (retryRun .failed).disk ∧
    PlanOK retryPlan (getPriorInstalled retryParse retryDead [s%"lib"] [s%"a", s%"__OLD__a"]) ∧
    retryDead [s%"lib", s%"a", s%"DESCRIPTION"] = some (.file (s%"a 2")) ∧
    ((retryRun .failed).rInstall { lib := [s%"lib"] } retryPlan (getPriorInstalled retryParse retryDead [s%"lib"] [s%"a", s%"__OLD__a"]) retryDead).2 = .exit0 true ∧
    ((retryRun .failed).rInstall { lib := [s%"lib"] } retryPlan (getPriorInstalled retryParse retryDead [s%"lib"] [s%"a", s%"__OLD__a"]) retryDead).1.fs
      [s%"lib", s%"a", s%"DESCRIPTION"] = some (.file (s%"a 1")) := by
  refine ⟨retry_installed, .more .none retryFirst, ?_, retryDead_named, ?_, ⟨fun _ _ _ => rfl, fun _ _ => rfl⟩,
    ⟨by decide, by decide, by decide, by decide⟩, by decide, by decide, by decide⟩
  · intro n h
    rcases retryDead_at n [] _ h with ⟨rfl, _⟩ | ⟨rfl, _⟩ <;> simp
  · intro q hq c h
    have hq' : q = s%"a" := by simpa [retryPlan, members, queued, tarballs, GoMap.keys] using hq
    subst hq'
    rcases retryDead_at _ [] _ h with ⟨h', _⟩ | ⟨_, h'⟩
    · exact absurd h' (by decide)
    · simp at h'

/-- The same with a second run that succeeds: version 2 is in place and the backup is gone. -/
example : ((retryRun .ok).rInstall { lib := [s%"lib"] } retryPlan (getPriorInstalled retryParse retryDead [s%"lib"] [s%"a", s%"__OLD__a"]) retryDead).2 = .exit0 false ∧
    ((retryRun .ok).rInstall { lib := [s%"lib"] } retryPlan (getPriorInstalled retryParse retryDead [s%"lib"] [s%"a", s%"__OLD__a"]) retryDead).1.fs
      [s%"lib", s%"a", s%"DESCRIPTION"] = some (.file (s%"a 2")) ∧
    ((retryRun .ok).rInstall { lib := [s%"lib"] } retryPlan (getPriorInstalled retryParse retryDead [s%"lib"] [s%"a", s%"__OLD__a"]) retryDead).1.fs
      [s%"lib", s%"__OLD__a"] = none := by decide

/-- A second run whose listing has the new version last: `a` is not outdated, the run succeeds and leaves the backup. -/
example : GoMap.get? (getPriorInstalled retryParse retryDead [s%"lib"] [s%"__OLD__a", s%"a"]) (s%"a") = some { package := s%"a", version := s%"2" } ∧
    ((retryRun .ok).rInstall { lib := [s%"lib"] } { retryPlan with outdated := [] } (getPriorInstalled retryParse retryDead [s%"lib"] [s%"__OLD__a", s%"a"]) retryDead).2 = .exit0 false ∧
    ((retryRun .ok).rInstall { lib := [s%"lib"] } { retryPlan with outdated := [] } (getPriorInstalled retryParse retryDead [s%"lib"] [s%"__OLD__a", s%"a"]) retryDead).1.fs
      [s%"lib", s%"__OLD__a", s%"R"] = some (.file (s%"code 1")) := by decide

/-- C134 does not hold for a run that is killed while it deletes the backups: version 2 of `a` is complete in its place and the backup
of version 1 has lost a file. The second run finds version 1 (the backup is listed last) and takes `a` to be outdated; when it
fails, the rollback deletes the complete version 2 and puts the incomplete version 1 in its place. -/
theorem C134_violated_half_deleted :
    ∃ (e1 e2 : RunEnv) (cfg : RunCfg) (ip : InstallPlan) (parse : Str → Option Desc) (fs st : Fs) (n1 n2 : List Str) (file : Str),
      InstalledOK parse cfg.lib fs (s%"a") ∧ Behaves e1 cfg.lib ip ∧ Behaves e2 cfg.lib ip ∧ NoFaults e1.disk ∧ NoFaults e2.disk ∧ GoodNames ip ∧
      PlanOK ip (getPriorInstalled parse fs cfg.lib n1) ∧ PlanOK ip (getPriorInstalled parse st cfg.lib n2) ∧
      cfg.noRollback = false ∧
      (e1.rInstall cfg ip (getPriorInstalled parse fs cfg.lib n1) fs).2 = .exit0 false ∧
      st ∈ (e1.rInstall cfg ip (getPriorInstalled parse fs cfg.lib n1) fs).1.states ∧
      (fs (cfg.lib ++ [s%"a", file])).isSome ∧ (st (cfg.lib ++ [s%"a", file])).isSome ∧
      (e2.rInstall cfg ip (getPriorInstalled parse st cfg.lib n2) st).2 = .exit0 true ∧
      (e2.rInstall cfg ip (getPriorInstalled parse st cfg.lib n2) st).1.fs (cfg.lib ++ [s%"a", s%"DESCRIPTION"]) = fs (cfg.lib ++ [s%"a", s%"DESCRIPTION"]) ∧
      (e2.rInstall cfg ip (getPriorInstalled parse st cfg.lib n2) st).1.fs (cfg.lib ++ [s%"a", file]) = none := by
  refine ⟨retryRun .ok, retryRun .failed, { lib := [s%"lib"] }, retryPlan, retryParse, retryFs,
    (fun q => if q = [s%"lib", s%"__OLD__a"] ++ [s%"R"] then none else retryDead q), [s%"a"], [s%"a", s%"__OLD__a"], s%"R",
    retry_installed, retryRun_behaves _, retryRun_behaves _, ⟨fun _ _ _ => rfl, fun _ _ => rfl⟩, ⟨fun _ _ _ => rfl, fun _ _ => rfl⟩, retry_goodNames,
    ⟨by decide, by decide, by decide, by decide⟩, ⟨by decide, by decide, by decide, by decide⟩, rfl, by decide, ?_, by decide, by decide, by decide, by decide, by decide⟩
  have : ((retryRun .ok).rInstall { lib := [s%"lib"] } retryPlan (getPriorInstalled retryParse retryFs [s%"lib"] [s%"a"]) retryFs).1.states =
      ((retryRun .ok).body { lib := [s%"lib"] } retryPlan (getPriorInstalled retryParse retryFs [s%"lib"] [s%"a"]) { fs := retryFs }).1.states ++
        [(fun q => if q = [s%"lib", s%"__OLD__a"] ++ [s%"R"] then none else retryDead q), retryDead.removeAll [s%"lib", s%"__OLD__a"]] := rfl
  show _ ∈ ((retryRun .ok).rInstall { lib := [s%"lib"] } retryPlan (getPriorInstalled retryParse retryFs [s%"lib"] [s%"a"]) retryFs).1.states
  rw [this]
  exact List.mem_append_right _ (List.mem_cons_self ..)

end Pkgr
