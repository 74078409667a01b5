/- Lemmas for C49-C57. -/
import Verif.Spec.Rollback
import Verif.Proof.Install

namespace Pkgr
open Spec

/-! ### Names and paths in the library -/

theorem below_iff (lib : Path) (a n : Str) (r : Path) : (lib ++ [a]) <+: (lib ++ n :: r) ↔ a = n := by
  rw [List.prefix_append_right_inj, List.cons_prefix_cons]
  simp

theorem below_inj {lib : Path} {a b : Str} {q : Path} (h1 : (lib ++ [a]) <+: q) (h2 : (lib ++ [b]) <+: q) : a = b := by
  obtain ⟨r, rfl⟩ := h1
  rw [List.append_assoc, List.singleton_append] at h2
  exact ((below_iff lib b a r).1 h2).symm

theorem not_below_lib (lib : Path) (a : Str) : ¬ (lib ++ [a]) <+: lib := by
  intro h
  have := h.length_le
  simp at this
  omega

theorem inLib_cases {lib q : Path} (h : lib <+: q) : q = lib ∨ ∃ n r, q = lib ++ n :: r := by
  obtain ⟨t, rfl⟩ := h
  cases t with
  | nil => left; simp
  | cons n r => right; exact ⟨n, r, rfl⟩

theorem removeAll_at (fs : Fs) (p q : Path) : fs.removeAll p q = if p <+: q then none else fs q := rfl

theorem rename_at (fs : Fs) (lib : Path) (a b n : Str) (r : Path) :
    fs.rename (lib ++ [a]) (lib ++ [b]) (lib ++ n :: r) =
      if n = b then fs (lib ++ a :: r) else if n = a then none else fs (lib ++ n :: r) := by
  unfold Fs.rename
  simp only [below_iff]
  by_cases h : n = b
  · subst h
    simp
  · rw [if_neg (fun h' => h h'.symm), if_neg h]
    by_cases h2 : n = a
    · rw [if_pos h2.symm, if_pos h2]
    · rw [if_neg (fun h' => h2 h'.symm), if_neg h2]

theorem backup_inj {p q : Str} (h : backupName p = backupName q) : p = q := by
  unfold backupName at h
  exact List.append_cancel_left h

theorem backup_prefix (p : Str) : (s%"__OLD__") <+: backupName p := List.prefix_append _ _

theorem backup_not_lock (p : Str) : ¬ IsLock (backupName p) := by
  unfold IsLock backupName
  intro h
  rw [List.cons_append, List.cons_prefix_cons] at h
  exact absurd h.1 (by decide)

theorem lockName_isLock (p : Str) : IsLock (lockName p) := by
  unfold IsLock lockName
  exact ⟨s%"-" ++ p, by simp⟩

theorem join_plain (lib : Path) {n : Str} (h : PlainName n) : joinPath lib n = lib ++ [n] :=
  joinPath_simple lib n h.1 h.2.1 h.2.2.1 h.2.2.2

theorem join_backup (lib : Path) {n : Str} (h : PlainName n) : joinPath lib (s%"__OLD__" ++ n) = lib ++ [backupName n] := by
  rw [joinPath_long]
  · rfl
  · simp
  · simp only [List.mem_append, not_or]
    exact ⟨by decide, h.2.2.2⟩

/-! ### `Keeps` -/

theorem Spec.Keeps.refl (lib : Path) (S : Str → Prop) (fs : Fs) : Keeps lib S fs fs := fun _ _ _ => rfl

theorem Spec.Keeps.trans {lib : Path} {S : Str → Prop} {a b c : Fs} (h1 : Keeps lib S a b) (h2 : Keeps lib S b c) :
    Keeps lib S a c := fun q hq hn => (h2 q hq hn).trans (h1 q hq hn)

theorem Spec.Keeps.mono {lib : Path} {S T : Str → Prop} {a b : Fs} (h : Keeps lib S a b) (hST : ∀ n, S n → T n) :
    Keeps lib T a b := fun q hq hn => h q hq fun n hs => hn n (hST n hs)

theorem Spec.Keeps.at {lib : Path} {S : Str → Prop} {a b : Fs} (h : Keeps lib S a b) {n : Str} (hn : ¬ S n) (r : Path) :
    b (lib ++ n :: r) = a (lib ++ n :: r) :=
  h _ (List.prefix_append _ _) fun m hm hb => hn ((below_iff lib m n r).1 hb ▸ hm)

theorem Spec.Keeps.at_dir {lib : Path} {S : Str → Prop} {a b : Fs} (h : Keeps lib S a b) {n : Str} (hn : ¬ S n) :
    b (lib ++ [n]) = a (lib ++ [n]) := h.at hn []

theorem keeps_removeAll (lib : Path) (n : Str) (S : Str → Prop) (fs : Fs) (h : S n) :
    Keeps lib S fs (fs.removeAll (lib ++ [n])) := by
  intro q _ hn
  rw [removeAll_at, if_neg (hn n h)]

theorem keeps_rename (lib : Path) (a b : Str) (S : Str → Prop) (fs : Fs) (ha : S a) (hb : S b) :
    Keeps lib S fs (fs.rename (lib ++ [a]) (lib ++ [b])) := by
  intro q _ hn
  unfold Fs.rename
  rw [if_neg (hn b hb), if_neg (hn a ha)]

/-! ### Going through states -/

/-- From `w` to `w'` only names in `S` are touched, in every state on the way. -/
def Goes (lib : Path) (S : Str → Prop) (w w' : World) : Prop :=
  Keeps lib S w.fs w'.fs ∧ ∀ st ∈ w'.states, st ∈ w.states ∨ Keeps lib S w.fs st

theorem Goes.refl (lib : Path) (S : Str → Prop) (w : World) : Goes lib S w w := ⟨Keeps.refl _ _ _, fun _ h => Or.inl h⟩

theorem Goes.trans {lib : Path} {S : Str → Prop} {a b c : World} (h1 : Goes lib S a b) (h2 : Goes lib S b c) :
    Goes lib S a c := by
  refine ⟨h1.1.trans h2.1, fun st hst => ?_⟩
  rcases h2.2 st hst with h | h
  · exact h1.2 st h
  · exact Or.inr (h1.1.trans h)

theorem Goes.mono {lib : Path} {S T : Str → Prop} {a b : World} (h : Goes lib S a b) (hST : ∀ n, S n → T n) :
    Goes lib T a b := ⟨h.1.mono hST, fun st hst => (h.2 st hst).imp id fun k => k.mono hST⟩

theorem mem_states_move {w : World} {mid : List Fs} {fs st : Fs} (h : st ∈ (w.move mid fs).states) :
    st ∈ w.states ∨ st ∈ mid ∨ st = fs := by
  unfold World.states World.move at h
  unfold World.states
  simp only [List.mem_append, List.mem_cons, List.not_mem_nil, or_false] at h ⊢
  rcases h with (h | h | h) | h
  · exact Or.inl (Or.inl h)
  · exact Or.inl (Or.inr h)
  · exact Or.inr (Or.inl h)
  · exact Or.inr (Or.inr h)

theorem goes_move {lib : Path} {S : Str → Prop} {w : World} {mid : List Fs} {fs : Fs} (h1 : Keeps lib S w.fs fs)
    (h2 : ∀ st ∈ mid, Keeps lib S w.fs st) : Goes lib S w (w.move mid fs) := by
  refine ⟨h1, fun st hst => ?_⟩
  rcases mem_states_move hst with h | h | h
  · exact Or.inl h
  · exact Or.inr (h2 st h)
  · exact Or.inr (h ▸ h1)

/-- The removal clause of `Behaves`. -/
def RemovalOK (d : Disk) : Prop :=
  ∀ fs p, ∀ st ∈ (d.removing fs p).1, (∀ q, ¬ p <+: q → st q = fs q) ∧ (∀ q, st q = fs q ∨ st q = none)

theorem goes_removeAll {d : Disk} (hd : RemovalOK d) (lib : Path) (S : Str → Prop) (w : World) (n : Str) (h : S n) :
    Goes lib S w (d.removeAll w (lib ++ [n])).1 := by
  have hk : ∀ st ∈ (d.removing w.fs (lib ++ [n])).1, Keeps lib S w.fs st := by
    intro st hst q _ hn
    exact (hd _ _ st hst).1 q (hn n h)
  unfold Disk.removeAll
  split
  · rename_i mid he
    exact goes_move (keeps_removeAll lib n S _ h) (by rw [he] at hk; exact hk)
  · rename_i mid he
    rw [he] at hk
    refine goes_move ?_ hk
    cases hl : mid.getLast? with
    | none => exact Keeps.refl _ _ _
    | some st => exact hk st (List.mem_of_getLast? hl)

theorem goes_rename (d : Disk) (lib : Path) (S : Str → Prop) (w : World) (a b : Str) (ha : S a) (hb : S b) :
    Goes lib S w (d.rename w (lib ++ [a]) (lib ++ [b])).1 := by
  unfold Disk.rename
  split
  · exact goes_move (keeps_rename lib a b S _ ha hb) (by simp)
  · exact Goes.refl _ _ _

/-- A package and its backup. -/
def PkgOrBackup (ps : List Str) (n : Str) : Prop := ∃ p ∈ ps, n = p ∨ n = backupName p

theorem tagOld_eq (d : Disk) (lib : Path) (w : World) {p : Str} (h : PlainName p) :
    tagOld d lib w p = ((d.rename w (lib ++ [p]) (lib ++ [backupName p])).1,
      { package := p, active := lib ++ [p], backup := lib ++ [backupName p] }) := by
  unfold tagOld
  simp only [join_plain lib h, join_backup lib h]

/-- The attempts that tagging `ps` records. -/
def attempts (lib : Path) (ps : List Str) : List UpdateAttempt :=
  ps.map fun p => { package := p, active := lib ++ [p], backup := lib ++ [backupName p] }

theorem tagAll_attempts (d : Disk) (lib : Path) (ps : List Str) (h : ∀ p ∈ ps, PlainName p) (w : World) :
    (tagAll d lib w ps).2 = attempts lib ps := by
  induction ps generalizing w with
  | nil => rfl
  | cons p ps ih =>
    simp only [tagAll, attempts, List.map_cons]
    rw [ih (fun q hq => h q (List.mem_cons_of_mem _ hq)), tagOld_eq d lib w (h p (List.mem_cons_self ..))]
    rfl

theorem goes_tagAll (d : Disk) (lib : Path) (ps : List Str) (h : ∀ p ∈ ps, PlainName p) (w : World) :
    Goes lib (PkgOrBackup ps) w (tagAll d lib w ps).1 := by
  induction ps generalizing w with
  | nil => exact Goes.refl _ _ _
  | cons p ps ih =>
    simp only [tagAll]
    rw [tagOld_eq d lib w (h p (List.mem_cons_self ..))]
    refine Goes.trans (goes_rename d lib _ w p (backupName p) ⟨p, List.mem_cons_self .., Or.inl rfl⟩
      ⟨p, List.mem_cons_self .., Or.inr rfl⟩) ?_
    refine (ih (fun q hq => h q (List.mem_cons_of_mem _ hq)) _).mono ?_
    rintro n ⟨q, hq, hn⟩
    exact ⟨q, List.mem_cons_of_mem _ hq, hn⟩

theorem goes_restoreOne {d : Disk} (hd : RemovalOK d) (lib : Path) (w : World) (p : Str) (S : Str → Prop)
    (h1 : S p) (h2 : S (backupName p)) :
    Goes lib S w (restoreOne d w { package := p, active := lib ++ [p], backup := lib ++ [backupName p] }).1 := by
  unfold restoreOne
  dsimp only
  split
  · have g := goes_removeAll hd lib S w p h1
    split
    · exact g
    · exact g.trans (goes_rename d lib S _ _ _ h2 h1)
  · simp only [Bool.false_eq_true, if_false]
    exact goes_rename d lib S _ _ _ h2 h1

theorem goes_restoreAll {d : Disk} (hd : RemovalOK d) (lib : Path) (ps : List Str) (w : World) :
    Goes lib (PkgOrBackup ps) w (restoreAll d w (attempts lib ps)).1 := by
  induction ps generalizing w with
  | nil => exact Goes.refl _ _ _
  | cons p ps ih =>
    simp only [attempts, List.map_cons, restoreAll]
    have g := goes_restoreOne hd lib w p (PkgOrBackup (p :: ps)) ⟨p, List.mem_cons_self .., Or.inl rfl⟩
      ⟨p, List.mem_cons_self .., Or.inr rfl⟩
    split
    · exact g
    · refine g.trans ((ih _).mono ?_)
      rintro n ⟨q, hq, hn⟩
      exact ⟨q, List.mem_cons_of_mem _ hq, hn⟩

theorem goes_removeNew {d : Disk} (hd : RemovalOK d) (lib : Path) (ps : List Str) (h : ∀ p ∈ ps, PlainName p) (w : World) :
    Goes lib (· ∈ ps) w (removeNew d lib w ps).1 := by
  induction ps generalizing w with
  | nil => exact Goes.refl _ _ _
  | cons p ps ih =>
    simp only [removeNew]
    rw [join_plain lib (h p (List.mem_cons_self ..))]
    have g := goes_removeAll hd lib (· ∈ p :: ps) w p (List.mem_cons_self ..)
    split
    · exact g
    · exact g.trans ((ih (fun q hq => h q (List.mem_cons_of_mem _ hq)) _).mono fun n hn => List.mem_cons_of_mem _ hn)

theorem goes_deleteBackups {d : Disk} (hd : RemovalOK d) (lib : Path) (ps : List Str) (w : World) :
    Goes lib (fun n => ∃ p ∈ ps, n = backupName p) w (deleteBackups d w (attempts lib ps)) := by
  induction ps generalizing w with
  | nil => exact Goes.refl _ _ _
  | cons p ps ih =>
    simp only [attempts, List.map_cons, deleteBackups]
    have hm : ∀ n, (∃ q ∈ ps, n = backupName q) → ∃ q ∈ p :: ps, n = backupName q :=
      fun n ⟨q, hq, hn⟩ => ⟨q, List.mem_cons_of_mem _ hq, hn⟩
    split
    · have g := goes_removeAll hd lib (fun n => ∃ q ∈ p :: ps, n = backupName q) w (backupName p)
        ⟨p, List.mem_cons_self .., rfl⟩
      split
      · exact g
      · exact g.trans ((ih _).mono hm)
    · exact (ih _).mono hm

/-! ### The phases -/

/-- What the queue may touch when it starts in `fs`. -/
def QueueTouch (lib : Path) (jobs : List Str) (fs : Fs) (n : Str) : Prop :=
  (n ∈ jobs ∧ fs (lib ++ [n]) ≠ some .dir) ∨ IsLock n

theorem jobRun_keeps {lib : Path} {jobs : List Str} {fs0 st : Fs} {act : List Str} (hj : ∀ p ∈ jobs, ¬ IsLock p)
    (h : JobRun lib jobs fs0 st act) :
    (∀ p ∈ act, p ∈ jobs ∧ fs0 (lib ++ [p]) ≠ some .dir) ∧ Keeps lib (QueueTouch lib jobs fs0) fs0 st := by
  induction h with
  | start => exact ⟨by simp, Keeps.refl _ _ _⟩
  | «begin» fs act p _ hp hnd ih =>
    refine ⟨?_, ih.2⟩
    intro q hq
    rcases List.mem_cons.1 hq with rfl | hq
    · refine ⟨hp, fun hdir => hnd ?_⟩
      rw [ih.2.at_dir (n := q), hdir]
      rintro (⟨_, h2⟩ | h2)
      · exact h2 hdir
      · exact hj q hp h2
    · exact ih.1 q hq
  | write fs fs' act p _ hp hk ih =>
    refine ⟨ih.1, ih.2.trans (hk.mono ?_)⟩
    rintro n (rfl | rfl)
    · exact Or.inl (ih.1 n hp)
    · exact Or.inr (lockName_isLock p)

/-- What the tarball installation may touch. -/
def TarTouch (ns : List Str) (n : Str) : Prop := n ∈ ns ∨ IsLock n

theorem goes_installTarball {e : RunEnv} {lib : Path} {ip : InstallPlan} (hb : Behaves e lib ip) (w : World) (n : Str)
    (a : AdditionalPkg) : Goes lib (fun m => m = n ∨ IsLock m) w (e.installTarball lib w n a).1 := by
  unfold RunEnv.installTarball
  dsimp only
  refine goes_move ?_ ?_
  · intro q hq hn
    exact install_this_lib hb.R _ _ _ _ _ _ _ _ hq (hn n (Or.inl rfl)) (hn (lockName n) (Or.inr (lockName_isLock n)))
  · intro st hst
    refine (hb.during n w.fs st hst).mono ?_
    rintro m (rfl | rfl)
    · exact Or.inl rfl
    · exact Or.inr (lockName_isLock n)

theorem goes_installTarballs {e : RunEnv} {lib : Path} {ip : InstallPlan} (hb : Behaves e lib ip)
    (m : GoMap AdditionalPkg) (ns : List Str) (w : World) :
    Goes lib (TarTouch ns) w (e.installTarballs lib m w ns).1 := by
  induction ns generalizing w with
  | nil => exact Goes.refl _ _ _
  | cons n ns ih =>
    have g : Goes lib (TarTouch (n :: ns)) w (e.installTarball lib w n ((GoMap.get? m n).getD {})).1 := by
      refine (goes_installTarball hb w n _).mono ?_
      rintro k (rfl | hk)
      · exact Or.inl (List.mem_cons_self ..)
      · exact Or.inr hk
    have g2 : Goes lib (TarTouch (n :: ns)) w
        (e.installTarballs lib m (e.installTarball lib w n ((GoMap.get? m n).getD {})).1 ns).1 := by
      refine g.trans ((ih _).mono ?_)
      rintro k (hk | hk)
      · exact Or.inl (List.mem_cons_of_mem _ hk)
      · exact Or.inr hk
    simp only [RunEnv.installTarballs]
    split
    · exact g
    · exact g2

theorem sameIn_keeps {lib : Path} {a b : Fs} (S : Str → Prop) (h : SameIn lib a b) : Keeps lib S a b :=
  fun q hq _ => h q hq

/-- What the phases may touch when they start in `fs`. -/
def PhaseTouch (lib : Path) (ip : InstallPlan) (fs : Fs) (n : Str) : Prop :=
  (n ∈ queued ip ∧ fs (lib ++ [n]) ≠ some .dir) ∨ n ∈ tarballs ip ∨ IsLock n

theorem goes_phases {e : RunEnv} {cfg : RunCfg} {ip : InstallPlan} (hb : Behaves e cfg.lib ip)
    (hj : ∀ p ∈ queued ip, ¬ IsLock p) (w : World) :
    Goes cfg.lib (PhaseTouch cfg.lib ip w.fs) w (e.phases cfg ip w).1 := by
  have hdl : Goes cfg.lib (PhaseTouch cfg.lib ip w.fs) w (w.move (e.download w.fs).mid (e.download w.fs).fs) :=
    goes_move (sameIn_keeps _ (hb.download _ _ (by simp))) fun st hst => sameIn_keeps _ (hb.download _ _ (by simp [hst]))
  unfold RunEnv.phases
  dsimp only
  split
  · exact hdl
  generalize hw1 : w.move (e.download w.fs).mid (e.download w.fs).fs = w1 at hdl ⊢
  have hsame : ∀ q, cfg.lib <+: q → w1.fs q = w.fs q := by
    intro q hq
    rw [← hw1]
    exact hb.download w.fs (e.download w.fs).fs (by simp) q hq
  have hq : ∀ st ∈ (e.planned w1.fs).mid ++ [(e.planned w1.fs).fs], Keeps cfg.lib (PhaseTouch cfg.lib ip w.fs) w1.fs st := by
    intro st hst
    obtain ⟨act, hr⟩ := hb.queue w1.fs st hst
    refine (jobRun_keeps hj hr).2.mono ?_
    rintro n (⟨h1, h2⟩ | h)
    · exact Or.inl ⟨h1, by rw [← hsame _ (List.prefix_append _ _)]; exact h2⟩
    · exact Or.inr (Or.inr h)
  have hpl : Goes cfg.lib (PhaseTouch cfg.lib ip w.fs) w1 (w1.move (e.planned w1.fs).mid (e.planned w1.fs).fs) :=
    goes_move (hq _ (by simp)) fun st hst => hq st (by simp [hst])
  split
  · exact hdl.trans hpl
  · refine hdl.trans (hpl.trans ((goes_installTarballs hb _ _ _).mono ?_))
    rintro n (h | h)
    · exact Or.inr (Or.inl ((hb.order 3 _).mem_iff.1 h))
    · exact Or.inr (Or.inr h)

/-! ### The run -/

theorem mem_all {ip : InstallPlan} {ρ : Order} (h : ρ.Fair) (p : Str) : p ∈ ip.allPackages ρ 0 ↔ p ∈ members ip := by
  unfold InstallPlan.allPackages members queued tarballs
  simp only [List.mem_append, (h _ _).mem_iff]

/-- The packages set aside for update. -/
def updatesOf (cfg : RunCfg) (ip : InstallPlan) (pre : GoMap Desc) (ρ : Order) : List Str :=
  if cfg.noUpdate then [] else (createRollbackPlan cfg.lib ip pre ρ).toUpdate

/-- The packages set aside for a tarball. -/
def overwritesOf (cfg : RunCfg) (ip : InstallPlan) (pre : GoMap Desc) (ρ : Order) : List Str :=
  (createRollbackPlan cfg.lib ip pre ρ).toOverwrite ρ

theorem mem_updatesOf {cfg : RunCfg} {ip : InstallPlan} {pre : GoMap Desc} {ρ : Order} (h : ρ.Fair) {p : Str} :
    p ∈ updatesOf cfg ip pre ρ ↔ cfg.noUpdate = false ∧ (∃ o ∈ ip.outdated, o.package = p) ∧ p ∈ members ip := by
  unfold updatesOf
  cases cfg.noUpdate with
  | true => simp
  | false =>
    simp only [Bool.false_eq_true, if_false, RollbackPlan.toUpdate, createRollbackPlan, List.mem_filter, List.mem_map,
      List.contains_iff_mem, mem_all h, true_and]

theorem mem_overwritesOf {cfg : RunCfg} {ip : InstallPlan} {pre : GoMap Desc} {ρ : Order} (h : ρ.Fair) {p : Str} :
    p ∈ overwritesOf cfg ip pre ρ ↔ p ∈ tarballs ip ∧ GoMap.has pre p = true := by
  unfold overwritesOf RollbackPlan.toOverwrite createRollbackPlan tarballs
  simp only [List.mem_filter, (h _ _).mem_iff]

theorem tagAll_append (d : Disk) (lib : Path) (w : World) (xs ys : List Str) :
    tagAll d lib w (xs ++ ys) = ((tagAll d lib (tagAll d lib w xs).1 ys).1, (tagAll d lib w xs).2 ++ (tagAll d lib (tagAll d lib w xs).1 ys).2) := by
  induction xs generalizing w with
  | nil => simp [tagAll]
  | cons x xs ih => simp only [List.cons_append, tagAll, ih]

theorem restoreAll_append (d : Disk) (w : World) (xs ys : List UpdateAttempt) :
    restoreAll d w (xs ++ ys) = if (restoreAll d w xs).2 then ((restoreAll d w xs).1, true) else restoreAll d (restoreAll d w xs).1 ys := by
  induction xs generalizing w with
  | nil => simp [restoreAll]
  | cons x xs ih =>
    simp only [List.cons_append, restoreAll]
    split
    · simp
    · exact ih _

theorem attempts_append (lib : Path) (xs ys : List Str) : attempts lib (xs ++ ys) = attempts lib xs ++ attempts lib ys := by
  simp [attempts]

theorem tag_eq {e : RunEnv} {cfg : RunCfg} {ip : InstallPlan} {pre : GoMap Desc} (hn : GoodNames ip) (hρ : e.ρ.Fair) (w : World) :
    e.tag cfg w (createRollbackPlan cfg.lib ip pre e.ρ) =
      ((tagAll e.disk cfg.lib w (updatesOf cfg ip pre e.ρ ++ overwritesOf cfg ip pre e.ρ)).1,
       { createRollbackPlan cfg.lib ip pre e.ρ with
         updates := attempts cfg.lib (updatesOf cfg ip pre e.ρ), additional := attempts cfg.lib (overwritesOf cfg ip pre e.ρ) }) := by
  have hu : ∀ p ∈ updatesOf cfg ip pre e.ρ, PlainName p := fun p hp => (hn p ((mem_updatesOf hρ).1 hp).2.2).1
  have ho : ∀ p ∈ overwritesOf cfg ip pre e.ρ, PlainName p := fun p hp =>
    (hn p (by unfold members; exact List.mem_append_right _ ((mem_overwritesOf hρ).1 hp).1)).1
  rw [tagAll_append]
  unfold RunEnv.tag
  by_cases hnu : cfg.noUpdate
  · have hU : updatesOf cfg ip pre e.ρ = [] := by simp [updatesOf, hnu]
    rw [if_pos hnu]
    unfold prepareForOverwrite
    dsimp only
    rw [show RollbackPlan.toOverwrite (createRollbackPlan cfg.lib ip pre e.ρ) e.ρ = overwritesOf cfg ip pre e.ρ from rfl,
      tagAll_attempts _ _ _ ho, hU]
    rfl
  · have hU : (createRollbackPlan cfg.lib ip pre e.ρ).toUpdate = updatesOf cfg ip pre e.ρ := by simp [updatesOf, hnu]
    rw [if_neg hnu]
    unfold prepareForUpdate prepareForOverwrite
    dsimp only
    rw [hU]
    rw [← tagAll_attempts e.disk cfg.lib _ hu w, ← tagAll_attempts e.disk cfg.lib _ ho (tagAll e.disk cfg.lib w (updatesOf cfg ip pre e.ρ)).1]
    rfl

theorem mem_new {lib : Path} {ip : InstallPlan} {pre : GoMap Desc} {ρ : Order} (h : ρ.Fair) {p : Str} :
    p ∈ (createRollbackPlan lib ip pre ρ).new ↔ p ∈ members ip ∧ GoMap.has pre p = false := by
  unfold createRollbackPlan discernNewPackages
  simp only [List.mem_filter, mem_all h, Bool.not_eq_true']

/-- What a whole run, started in `fs`, may touch. -/
def RunTouch (cfg : RunCfg) (ip : InstallPlan) (pre : GoMap Desc) (ρ : Order) (fs : Fs) (n : Str) : Prop :=
  PkgOrBackup (updatesOf cfg ip pre ρ ++ overwritesOf cfg ip pre ρ) n ∨ (n ∈ members ip ∧ GoMap.has pre n = false) ∨
  (n ∈ queued ip ∧ fs (cfg.lib ++ [n]) ≠ some .dir) ∨ n ∈ tarballs ip ∨ IsLock n

theorem goes_tag_phases {e : RunEnv} {cfg : RunCfg} {ip : InstallPlan} {pre : GoMap Desc} (hb : Behaves e cfg.lib ip)
    (hn : GoodNames ip) (w : World) :
    Goes cfg.lib (RunTouch cfg ip pre e.ρ w.fs) w (e.phases cfg ip (e.tag cfg w (createRollbackPlan cfg.lib ip pre e.ρ)).1).1 := by
  have hT : ∀ p ∈ updatesOf cfg ip pre e.ρ ++ overwritesOf cfg ip pre e.ρ, PlainName p := by
    intro p hp
    rcases List.mem_append.1 hp with h | h
    · exact (hn p ((mem_updatesOf hb.order).1 h).2.2).1
    · exact (hn p (by unfold members; exact List.mem_append_right _ ((mem_overwritesOf hb.order).1 h).1)).1
  rw [tag_eq hn hb.order]
  have g1 := goes_tagAll e.disk cfg.lib _ hT w
  refine (g1.mono fun n h => Or.inl h).trans ((goes_phases hb (fun p hp => (hn p (by unfold members; exact List.mem_append_left _ hp)).2.1) _).mono ?_)
  rintro n (⟨h1, h2⟩ | h | h)
  · by_cases ht : PkgOrBackup (updatesOf cfg ip pre e.ρ ++ overwritesOf cfg ip pre e.ρ) n
    · exact Or.inl ht
    · exact Or.inr (Or.inr (Or.inl ⟨h1, by rw [← g1.1.at_dir ht]; exact h2⟩))
  · exact Or.inr (Or.inr (Or.inr (Or.inl h)))
  · exact Or.inr (Or.inr (Or.inr (Or.inr h)))

/-- The result of `RollbackPackageEnvironment` on an existing library. -/
theorem rollback_eq {e : RunEnv} {cfg : RunCfg} {ip : InstallPlan} {pre : GoMap Desc} (hc : ip.createLibrary = false)
    (U A : List Str) (w : World) :
    rollbackEnvironment e.disk w { createRollbackPlan cfg.lib ip pre e.ρ with
      updates := attempts cfg.lib U, additional := attempts cfg.lib A } =
    if (removeNew e.disk cfg.lib w (createRollbackPlan cfg.lib ip pre e.ρ).new).2 then
      ((removeNew e.disk cfg.lib w (createRollbackPlan cfg.lib ip pre e.ρ).new).1, true)
    else restoreAll e.disk (removeNew e.disk cfg.lib w (createRollbackPlan cfg.lib ip pre e.ρ).new).1 (attempts cfg.lib (U ++ A)) := by
  unfold rollbackEnvironment
  rw [show (({ createRollbackPlan cfg.lib ip pre e.ρ with
      updates := attempts cfg.lib U, additional := attempts cfg.lib A } : RollbackPlan).plan).createLibrary = false from hc]
  simp only [Bool.false_eq_true, if_false]
  rw [attempts_append, restoreAll_append]
  rfl

theorem goes_rollback {e : RunEnv} {cfg : RunCfg} {ip : InstallPlan} {pre : GoMap Desc} (hd : RemovalOK e.disk) (hρ : e.ρ.Fair)
    (hn : GoodNames ip) (hc : ip.createLibrary = false) (fs : Fs) (w : World) :
    Goes cfg.lib (RunTouch cfg ip pre e.ρ fs) w
      (rollbackEnvironment e.disk w { createRollbackPlan cfg.lib ip pre e.ρ with
        updates := attempts cfg.lib (updatesOf cfg ip pre e.ρ), additional := attempts cfg.lib (overwritesOf cfg ip pre e.ρ) }).1 := by
  rw [rollback_eq hc]
  have g := (goes_removeNew hd cfg.lib (createRollbackPlan cfg.lib ip pre e.ρ).new
    (fun p hp => (hn p ((mem_new hρ).1 hp).1).1) w).mono (T := RunTouch cfg ip pre e.ρ fs)
    (fun n h => Or.inr (Or.inl ((mem_new hρ).1 h)))
  split
  · exact g
  · exact g.trans ((goes_restoreAll hd cfg.lib _ _).mono fun n h => Or.inl h)

theorem goes_deleteBackupFolders {e : RunEnv} {cfg : RunCfg} {ip : InstallPlan} {pre : GoMap Desc} (hd : RemovalOK e.disk) (fs : Fs) (w : World) :
    Goes cfg.lib (RunTouch cfg ip pre e.ρ fs) w (RollbackPlan.deleteBackupFolders { createRollbackPlan cfg.lib ip pre e.ρ with
        updates := attempts cfg.lib (updatesOf cfg ip pre e.ρ), additional := attempts cfg.lib (overwritesOf cfg ip pre e.ρ) } e.disk w) := by
  unfold RollbackPlan.deleteBackupFolders
  refine Goes.trans ((goes_deleteBackups hd cfg.lib _ w).mono ?_) ((goes_deleteBackups hd cfg.lib _ _).mono ?_)
  · rintro n ⟨p, hp, h⟩
    exact Or.inl ⟨p, List.mem_append_left _ hp, Or.inr h⟩
  · rintro n ⟨p, hp, h⟩
    exact Or.inl ⟨p, List.mem_append_right _ hp, Or.inr h⟩

/-- A run on an existing library. -/
theorem goes_run {e : RunEnv} {cfg : RunCfg} {ip : InstallPlan} {pre : GoMap Desc} (hb : Behaves e cfg.lib ip)
    (hn : GoodNames ip) (hc : ip.createLibrary = false) (fs : Fs) :
    Goes cfg.lib (RunTouch cfg ip pre e.ρ fs) { fs := fs } (e.rInstall cfg ip pre fs).1 := by
  have hl : e.ensureLibrary cfg ip fs = ({ fs := fs }, true) := by
    unfold RunEnv.ensureLibrary; rw [hc]; rfl
  have g1 := goes_tag_phases (pre := pre) hb hn { fs := fs }
  unfold RunEnv.rInstall
  rw [hl]
  simp only [Bool.not_true, Bool.false_eq_true, if_false]
  unfold RunEnv.body
  rw [tag_eq hn hb.order] at g1 ⊢
  dsimp only at g1 ⊢
  split
  · rename_i h
    split at h
    · rename_i h2
      rw [if_pos h2]
      exact g1
    · simp at h
  · rename_i rp failed h
    split at h
    · simp at h
    · rename_i h2
      rw [if_neg h2]
      simp only [Option.some.injEq, Prod.mk.injEq] at h
      obtain ⟨rfl, rfl⟩ := h
      refine Goes.trans ?_ (goes_deleteBackupFolders hb.removal fs _)
      refine g1.trans ?_
      unfold RunEnv.undo
      split
      · exact goes_rollback hb.removal hb.order hn hc fs _
      · exact Goes.refl _ _ _

end Pkgr
