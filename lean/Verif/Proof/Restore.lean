/- Exactness of setting aside and restoring packages (C49, C51). -/
import Verif.Proof.Rollback

namespace Pkgr
open Spec

/-- Names that are not backups. -/
def NotBackups (ps : List Str) : Prop := ∀ p ∈ ps, PlainName p ∧ ¬ (s%"__OLD__") <+: p

theorem NotBackups.ne {ps : List Str} (h : NotBackups ps) {p : Str} (hp : p ∈ ps) (q : Str) : p ≠ backupName q := by
  intro he
  exact (h p hp).2 (he ▸ backup_prefix q)

theorem not_mem_pob {ps : List Str} {p : Str} (h : NotBackups (p :: ps)) (hp : p ∉ ps) : ¬ PkgOrBackup ps p := by
  rintro ⟨q, hq, rfl | he⟩
  · exact hp hq
  · exact h.ne (List.mem_cons_self ..) q he

theorem backup_not_mem_pob {ps : List Str} {p : Str} (h : NotBackups (p :: ps)) (hp : p ∉ ps) : ¬ PkgOrBackup ps (backupName p) := by
  rintro ⟨q, hq, he | he⟩
  · exact h.ne (List.mem_cons_of_mem _ hq) p he.symm
  · exact hp (backup_inj he ▸ hq)

theorem rename_ok {d : Disk} {w : World} {a b : Path} (ha : w.fs a = some .dir) (hb : w.fs b = none)
    (hd : d.renameFails w.fs a b = false) : d.rename w a b = (w.move [] (w.fs.rename a b), false) := by
  unfold Disk.rename
  rw [if_pos]
  simp [Fs.renameOk, ha, hb, hd]

theorem tagAll_exact {d : Disk} {lib : Path} (fs0 : Fs) (ps : List Str) (hps : ps.Nodup) (hn : NotBackups ps)
    (hd : TagsOK d lib ps) (hdir : ∀ p ∈ ps, fs0 (lib ++ [p]) = some .dir) (w : World)
    (h0 : ∀ p ∈ ps, Intact lib fs0 w.fs p ∧ Gone lib w.fs (backupName p)) :
    (∀ p ∈ ps, Saved lib fs0 (tagAll d lib w ps).1.fs p ∧ Gone lib (tagAll d lib w ps).1.fs p) ∧
    (∀ st ∈ (tagAll d lib w ps).1.states, st ∈ w.states ∨ ∀ p ∈ ps, (Intact lib fs0 st p ∧ Gone lib st (backupName p)) ∨ Saved lib fs0 st p) := by
  induction ps generalizing w with
  | nil => exact ⟨by simp, fun st hst => Or.inl hst⟩
  | cons p ps ih =>
    obtain ⟨hpn, hps⟩ := List.nodup_cons.1 hps
    have hplain := (hn p (List.mem_cons_self ..)).1
    obtain ⟨hi, hg⟩ := h0 p (List.mem_cons_self ..)
    have hpd : w.fs (lib ++ [p]) = some .dir := by rw [hi [], hdir p (List.mem_cons_self ..)]
    have hne : p ≠ backupName p := hn.ne (List.mem_cons_self ..) p
    have hr := rename_ok (d := d) (w := w) hpd (hg []) (hd p (List.mem_cons_self ..) _)
    simp only [tagAll]
    rw [tagOld_eq d lib w hplain, hr]
    dsimp only
    generalize hw1 : w.move [] (w.fs.rename (lib ++ [p]) (lib ++ [backupName p])) = w1
    have hfs1 : w1.fs = w.fs.rename (lib ++ [p]) (lib ++ [backupName p]) := by rw [← hw1]; rfl
    have hS : Saved lib fs0 w1.fs p := fun r => by rw [hfs1, rename_at, if_pos rfl, hi r]
    have hG : Gone lib w1.fs p := fun r => by rw [hfs1, rename_at, if_neg hne, if_pos rfl]
    have hk : Keeps lib (PkgOrBackup [p]) w.fs w1.fs := by
      rw [hfs1]
      exact keeps_rename lib _ _ _ _ ⟨p, by simp, Or.inl rfl⟩ ⟨p, by simp, Or.inr rfl⟩
    have hn' : NotBackups ps := fun q hq => hn q (List.mem_cons_of_mem _ hq)
    have h1 : ∀ q ∈ ps, Intact lib fs0 w1.fs q ∧ Gone lib w1.fs (backupName q) := by
      intro q hq
      have hqp : q ≠ p := fun h => hpn (h ▸ hq)
      obtain ⟨a, b⟩ := h0 q (List.mem_cons_of_mem _ hq)
      constructor
      · intro r
        rw [hk.at (n := q), a r]
        rintro ⟨x, hx, h | h⟩
        · exact hqp (by rw [h]; simpa using hx)
        · exact hn'.ne hq x h
      · intro r
        rw [hk.at (n := backupName q), b r]
        rintro ⟨x, hx, h | h⟩
        · have : x = p := by simpa using hx
          exact hn.ne (List.mem_cons_self ..) q (this ▸ h.symm)
        · have : x = p := by simpa using hx
          exact hqp (this ▸ backup_inj h)
    obtain ⟨i1, i2⟩ := ih hps hn' (fun q hq => hd q (List.mem_cons_of_mem _ hq)) (fun q hq => hdir q (List.mem_cons_of_mem _ hq)) w1 h1
    have g := goes_tagAll d lib ps (fun q hq => (hn' q hq).1) w1
    refine ⟨?_, ?_⟩
    · intro q hq
      rcases List.mem_cons.1 hq with rfl | hq
      · exact ⟨fun r => by rw [g.1.at (backup_not_mem_pob hn hpn), hS r], fun r => by rw [g.1.at (not_mem_pob hn hpn), hG r]⟩
      · exact i1 q hq
    · intro st hst
      have hw1st : st ∈ w1.states → st ∈ w.states ∨ ∀ q ∈ p :: ps, (Intact lib fs0 st q ∧ Gone lib st (backupName q)) ∨ Saved lib fs0 st q := by
        intro h
        rw [← hw1] at h
        rcases mem_states_move h with h | h | h
        · exact Or.inl h
        · simp at h
        · right
          rw [h, ← hfs1]
          intro q hq
          rcases List.mem_cons.1 hq with rfl | hq
          · exact Or.inr hS
          · exact Or.inl (h1 q hq)
      rcases i2 st hst with h | h
      · exact hw1st h
      · rcases g.2 st hst with h' | h'
        · exact hw1st h'
        · right
          intro q hq
          rcases List.mem_cons.1 hq with rfl | hq
          · exact Or.inr fun r => by rw [h'.at (backup_not_mem_pob hn hpn), hS r]
          · exact h q hq

theorem restoreOne_exact {d : Disk} (hd : RemovalOK d) {lib : Path} (fs0 : Fs) (p : Str) (hp : p ≠ backupName p) (w : World)
    (hdir : fs0 (lib ++ [p]) = some .dir) (h0 : Saved lib fs0 w.fs p) :
    let r := restoreOne d w { package := p, active := lib ++ [p], backup := lib ++ [backupName p] }
    (∀ st ∈ r.1.states, st ∈ w.states ∨ (Intact lib fs0 st p ∧ Gone lib st (backupName p)) ∨ Saved lib fs0 st p) ∧
    (r.2 = false → Intact lib fs0 r.1.fs p ∧ Gone lib r.1.fs (backupName p)) ∧
    (NoFaults d → r.2 = false) := by
  dsimp only
  unfold restoreOne
  dsimp only
  generalize hr1 : (if w.fs.ex (lib ++ [p]) then d.removeAll w (lib ++ [p]) else (w, false)) = r1
  have g : Goes lib (fun n => n = p) w r1.1 := by
    rw [← hr1]
    split
    · exact goes_removeAll hd lib _ w p rfl
    · exact Goes.refl _ _ _
  have hsv : ∀ st, Keeps lib (fun n => n = p) w.fs st → Saved lib fs0 st p := by
    intro st hk r
    rw [hk.at (fun h => hp h.symm), h0 r]
  have hst1 : ∀ st ∈ r1.1.states, st ∈ w.states ∨ (Intact lib fs0 st p ∧ Gone lib st (backupName p)) ∨ Saved lib fs0 st p := fun st hst =>
    (g.2 st hst).imp id fun hk => Or.inr (hsv st hk)
  have hS1 := hsv _ g.1
  cases hr : r1.2 with
  | true =>
    simp only [if_true]
    refine ⟨hst1, by simp, ?_⟩
    intro hnf
    rw [← hr1] at hr
    split at hr
    · unfold Disk.removeAll at hr
      have := hnf.2 w.fs (lib ++ [p])
      split at hr
      · simp at hr
      · rename_i mid he
        rw [he] at this
        exact this
    · simp at hr
  | false =>
    simp only [Bool.false_eq_true, if_false]
    unfold Disk.rename
    split
    · rename_i hok
      have hI : Intact lib fs0 (r1.1.fs.rename (lib ++ [backupName p]) (lib ++ [p])) p := fun r => by
        rw [rename_at, if_pos rfl, hS1 r]
      have hG : Gone lib (r1.1.fs.rename (lib ++ [backupName p]) (lib ++ [p])) (backupName p) := fun r => by
        rw [rename_at, if_neg (fun h => hp h.symm), if_pos rfl]
      refine ⟨?_, fun _ => ⟨hI, hG⟩, fun _ => rfl⟩
      intro st hst
      rcases mem_states_move hst with h | h | h
      · exact hst1 st h
      · simp at h
      · rw [h]; exact Or.inr (Or.inl ⟨hI, hG⟩)
    · rename_i hno
      refine ⟨hst1, by simp, ?_⟩
      intro hnf
      exfalso
      apply hno
      have h1 : r1.1.fs (lib ++ [backupName p]) = some .dir := by rw [hS1 [], hdir]
      have h2 : r1.1.fs (lib ++ [p]) = none := by
        rw [← hr1]
        split
        · unfold Disk.removeAll
          split
          · show w.fs.removeAll (lib ++ [p]) (lib ++ [p]) = none
            rw [removeAll_at, if_pos (List.prefix_refl _)]
          · rename_i mid he
            have := hnf.2 w.fs (lib ++ [p])
            rw [he] at this
            simp at this
        · rename_i hex
          simpa [Fs.ex] using hex
      simp [Fs.renameOk, h1, h2, hnf.1]

theorem restoreAll_exact {d : Disk} (hd : RemovalOK d) {lib : Path} (fs0 : Fs) (ps : List Str) (hps : ps.Nodup) (hn : NotBackups ps)
    (hdir : ∀ p ∈ ps, fs0 (lib ++ [p]) = some .dir) (w : World) (h0 : ∀ p ∈ ps, Saved lib fs0 w.fs p) :
    let r := restoreAll d w (attempts lib ps)
    (∀ st ∈ r.1.states, st ∈ w.states ∨ ∀ p ∈ ps, (Intact lib fs0 st p ∧ Gone lib st (backupName p)) ∨ Saved lib fs0 st p) ∧
    (r.2 = false → ∀ p ∈ ps, Intact lib fs0 r.1.fs p ∧ Gone lib r.1.fs (backupName p)) ∧
    (NoFaults d → r.2 = false) := by
  induction ps generalizing w with
  | nil => exact ⟨fun st h => Or.inl h, by simp, fun _ => rfl⟩
  | cons p ps ih =>
    obtain ⟨hpn, hps⟩ := List.nodup_cons.1 hps
    have hne : p ≠ backupName p := hn.ne (List.mem_cons_self ..) p
    have hn' : NotBackups ps := fun q hq => hn q (List.mem_cons_of_mem _ hq)
    obtain ⟨a1, a2, a3⟩ := restoreOne_exact hd fs0 p hne w (hdir p (List.mem_cons_self ..)) (h0 p (List.mem_cons_self ..))
    have g1 := goes_restoreOne hd lib w p (PkgOrBackup [p]) ⟨p, by simp, Or.inl rfl⟩ ⟨p, by simp, Or.inr rfl⟩
    have hother : ∀ st, Keeps lib (PkgOrBackup [p]) w.fs st → ∀ q ∈ ps, Saved lib fs0 st q := by
      intro st hk q hq r
      rw [hk.at (n := backupName q), h0 q (List.mem_cons_of_mem _ hq) r]
      rintro ⟨x, hx, h | h⟩
      · have : x = p := by simpa using hx
        exact hn.ne (List.mem_cons_self ..) q (this ▸ h.symm)
      · have : x = p := by simpa using hx
        exact hpn (this ▸ backup_inj h ▸ hq)
    dsimp only
    simp only [attempts, List.map_cons, restoreAll]
    generalize hr1 : restoreOne d w { package := p, active := lib ++ [p], backup := lib ++ [backupName p] } = r1 at a1 a2 a3 g1
    have hst1 : ∀ st ∈ r1.1.states, st ∈ w.states ∨ ∀ q ∈ p :: ps, (Intact lib fs0 st q ∧ Gone lib st (backupName q)) ∨ Saved lib fs0 st q := by
      intro st hst
      rcases a1 st hst with h | h
      · exact Or.inl h
      · rcases g1.2 st hst with h' | h'
        · exact Or.inl h'
        · right
          intro q hq
          rcases List.mem_cons.1 hq with rfl | hq
          · exact h
          · exact Or.inr (hother st h' q hq)
    cases hr : r1.2 with
    | true =>
      simp only [if_true]
      refine ⟨hst1, by simp, fun hnf => ?_⟩
      rw [hr] at a3
      exact a3 hnf
    | false =>
      simp only [Bool.false_eq_true, if_false]
      obtain ⟨i1, i2, i3⟩ := ih hps hn' (fun q hq => hdir q (List.mem_cons_of_mem _ hq)) r1.1 (hother _ g1.1)
      have g2 := goes_restoreAll hd lib ps r1.1
      obtain ⟨b1, b2⟩ := a2 hr
      refine ⟨?_, ?_, ?_⟩
      · intro st hst
        rcases i1 st hst with h | h
        · exact hst1 st h
        · rcases g2.2 st hst with h' | h'
          · exact hst1 st h'
          · right
            intro q hq
            rcases List.mem_cons.1 hq with rfl | hq
            · exact Or.inl ⟨fun r => by rw [h'.at (not_mem_pob hn hpn), b1 r], fun r => by rw [h'.at (backup_not_mem_pob hn hpn), b2 r]⟩
            · exact h q hq
      · intro he q hq
        rcases List.mem_cons.1 hq with rfl | hq
        · exact ⟨fun r => (g2.1.at (not_mem_pob hn hpn) r).trans (b1 r),
            fun r => (g2.1.at (backup_not_mem_pob hn hpn) r).trans (b2 r)⟩
        · exact i2 he q hq
      · exact i3

theorem removeNew_exact {d : Disk} (hnf : NoFaults d) {lib : Path} (ps : List Str) (hp : ∀ p ∈ ps, PlainName p) (w : World) :
    (removeNew d lib w ps).2 = false ∧ ∀ n r, (removeNew d lib w ps).1.fs (lib ++ n :: r) = if n ∈ ps then none else w.fs (lib ++ n :: r) := by
  induction ps generalizing w with
  | nil => exact ⟨rfl, fun n r => by simp [removeNew]⟩
  | cons p ps ih =>
    simp only [removeNew]
    rw [join_plain lib (hp p (List.mem_cons_self ..))]
    have h1 : d.removeAll w (lib ++ [p]) = (w.move (d.removing w.fs (lib ++ [p])).1 (w.fs.removeAll (lib ++ [p])), false) := by
      unfold Disk.removeAll
      have := hnf.2 w.fs (lib ++ [p])
      split
      · rename_i mid he
        rw [he]
      · rename_i mid he
        rw [he] at this
        simp at this
    rw [h1]
    simp only [Bool.false_eq_true, if_false]
    obtain ⟨i1, i2⟩ := ih (fun q hq => hp q (List.mem_cons_of_mem _ hq)) (w.move (d.removing w.fs (lib ++ [p])).1 (w.fs.removeAll (lib ++ [p])))
    refine ⟨i1, fun n r => ?_⟩
    rw [i2]
    show (if n ∈ ps then none else w.fs.removeAll (lib ++ [p]) (lib ++ n :: r)) = _
    rw [removeAll_at]
    simp only [below_iff, List.mem_cons]
    by_cases h : n ∈ ps
    · simp [h]
    · by_cases h2 : p = n
      · simp [h2]
      · have : n ≠ p := fun h => h2 h.symm
        simp [h, h2, this]

theorem deleteBackups_noop {d : Disk} {lib : Path} (ps : List Str) (w : World)
    (h : ∀ p ∈ ps, Gone lib w.fs (backupName p)) : deleteBackups d w (attempts lib ps) = w := by
  induction ps with
  | nil => rfl
  | cons p ps ih =>
    simp only [attempts, List.map_cons, deleteBackups]
    rw [if_neg]
    · exact ih fun q hq => h q (List.mem_cons_of_mem _ hq)
    · simp [Fs.ex, h p (List.mem_cons_self ..) []]

/-- Tagging with arbitrary rename failures: each package is set aside, or still where it was. -/
theorem tagAll_any {d : Disk} {lib : Path} (fs0 : Fs) (ps : List Str) (hps : ps.Nodup) (hn : NotBackups ps) (w : World)
    (h0 : ∀ p ∈ ps, Intact lib fs0 w.fs p) :
    (∀ p ∈ ps, Saved lib fs0 (tagAll d lib w ps).1.fs p ∨ Intact lib fs0 (tagAll d lib w ps).1.fs p) ∧
    (∀ st ∈ (tagAll d lib w ps).1.states, st ∈ w.states ∨ ∀ p ∈ ps, Intact lib fs0 st p ∨ Saved lib fs0 st p) := by
  induction ps generalizing w with
  | nil => exact ⟨by simp, fun st hst => Or.inl hst⟩
  | cons p ps ih =>
    obtain ⟨hpn, hps⟩ := List.nodup_cons.1 hps
    have hplain := (hn p (List.mem_cons_self ..)).1
    have hi := h0 p (List.mem_cons_self ..)
    simp only [tagAll]
    rw [tagOld_eq d lib w hplain]
    dsimp only
    have g1 : Goes lib (PkgOrBackup [p]) w (d.rename w (lib ++ [p]) (lib ++ [backupName p])).1 :=
      goes_rename d lib _ w p (backupName p) ⟨p, by simp, Or.inl rfl⟩ ⟨p, by simp, Or.inr rfl⟩
    have hp1 : Saved lib fs0 (d.rename w (lib ++ [p]) (lib ++ [backupName p])).1.fs p ∨
        Intact lib fs0 (d.rename w (lib ++ [p]) (lib ++ [backupName p])).1.fs p := by
      unfold Disk.rename
      split
      · exact Or.inl fun r => (rename_at ..).trans (by rw [if_pos rfl, hi r])
      · exact Or.inr hi
    have hst0 : ∀ st ∈ (d.rename w (lib ++ [p]) (lib ++ [backupName p])).1.states,
        st ∈ w.states ∨ st = (d.rename w (lib ++ [p]) (lib ++ [backupName p])).1.fs := by
      intro st
      unfold Disk.rename
      split
      · intro h
        rcases mem_states_move h with h | h | h
        · exact Or.inl h
        · simp at h
        · exact Or.inr h
      · exact Or.inl
    generalize hw1 : (d.rename w (lib ++ [p]) (lib ++ [backupName p])).1 = w1 at g1 hp1 hst0
    have hn' : NotBackups ps := fun q hq => hn q (List.mem_cons_of_mem _ hq)
    have h1 : ∀ q ∈ ps, Intact lib fs0 w1.fs q := by
      intro q hq r
      have hqp : q ≠ p := fun h => hpn (h ▸ hq)
      rw [g1.1.at (n := q), h0 q (List.mem_cons_of_mem _ hq) r]
      rintro ⟨x, hx, h | h⟩
      · exact hqp (by rw [h]; simpa using hx)
      · exact hn'.ne hq x h
    obtain ⟨i1, i2⟩ := ih hps hn' w1 h1
    have g := goes_tagAll d lib ps (fun q hq => (hn' q hq).1) w1
    have hpk : ∀ st, Keeps lib (PkgOrBackup ps) w1.fs st → Saved lib fs0 st p ∨ Intact lib fs0 st p := by
      intro st hk
      rcases hp1 with h | h
      · exact Or.inl fun r => by rw [hk.at (backup_not_mem_pob hn hpn), h r]
      · exact Or.inr fun r => by rw [hk.at (not_mem_pob hn hpn), h r]
    refine ⟨?_, ?_⟩
    · intro q hq
      rcases List.mem_cons.1 hq with rfl | hq
      · exact hpk _ g.1
      · exact i1 q hq
    · intro st hst
      have hw1st : st ∈ w1.states → st ∈ w.states ∨ ∀ q ∈ p :: ps, Intact lib fs0 st q ∨ Saved lib fs0 st q := by
        intro h
        rcases hst0 st h with h | h
        · exact Or.inl h
        · right
          rw [h]
          intro q hq
          rcases List.mem_cons.1 hq with rfl | hq
          · exact hp1.symm
          · exact Or.inl (h1 q hq)
      rcases i2 st hst with h | h
      · exact hw1st h
      · rcases g.2 st hst with h' | h'
        · exact hw1st h'
        · right
          intro q hq
          rcases List.mem_cons.1 hq with rfl | hq
          · exact (hpk st h').symm
          · exact h q hq

theorem removeAll_ok {d : Disk} (w : World) (p : Path) (h : (d.removing w.fs p).2 = false) :
    d.removeAll w p = (w.move (d.removing w.fs p).1 (w.fs.removeAll p), false) := by
  unfold Disk.removeAll
  split
  · rename_i mid he
    rw [he]
  · rename_i mid he
    rw [he] at h
    simp at h

/-- Deleting backups when removals succeed. -/
theorem deleteBackups_gone_of {d : Disk} {lib : Path} (hd : ∀ fs p, (d.removing fs (lib ++ [backupName p])).2 = false) (ps : List Str) (w : World) :
    (∀ p ∈ ps, (deleteBackups d w (attempts lib ps)).fs (lib ++ [backupName p]) = none) ∧
    (∀ q, w.fs q = none → (deleteBackups d w (attempts lib ps)).fs q = none) ∧
    (∀ p ∈ ps, w.fs (lib ++ [backupName p]) ≠ none → Gone lib (deleteBackups d w (attempts lib ps)).fs (backupName p)) := by
  induction ps generalizing w with
  | nil => exact ⟨by simp, fun q h => h, by simp⟩
  | cons p ps ih =>
    simp only [attempts, List.map_cons, deleteBackups]
    rw [removeAll_ok w _ (hd _ _)]
    simp only [Bool.false_eq_true, if_false]
    split
    · rename_i hex
      obtain ⟨i1, i2, i3⟩ := ih (w.move (d.removing w.fs (lib ++ [backupName p])).1 (w.fs.removeAll (lib ++ [backupName p])))
      have hz : ∀ r, (w.fs.removeAll (lib ++ [backupName p])) (lib ++ backupName p :: r) = none := fun r => by
        rw [removeAll_at, if_pos ((below_iff ..).2 rfl)]
      refine ⟨?_, ?_, ?_⟩
      · intro q hq
        rcases List.mem_cons.1 hq with rfl | hq
        · exact i2 _ (hz [])
        · exact i1 q hq
      · intro q hq
        refine i2 q ?_
        show w.fs.removeAll (lib ++ [backupName p]) q = none
        rw [removeAll_at]
        split
        · rfl
        · exact hq
      · intro q hq hne
        by_cases hqp : q = p
        · subst hqp
          exact fun r => i2 _ (hz r)
        · have hq : q ∈ ps := by
            rcases List.mem_cons.1 hq with h | h
            · exact absurd h hqp
            · exact h
          refine i3 q hq ?_
          show w.fs.removeAll (lib ++ [backupName p]) (lib ++ [backupName q]) ≠ none
          rw [removeAll_at, if_neg]
          · exact hne
          · rw [below_iff]
            exact fun h => hqp (backup_inj h).symm
    · rename_i hex
      obtain ⟨i1, i2, i3⟩ := ih w
      have hz : w.fs (lib ++ [backupName p]) = none := by simpa [Fs.ex] using hex
      refine ⟨?_, i2, ?_⟩
      · intro q hq
        rcases List.mem_cons.1 hq with rfl | hq
        · exact i2 _ hz
        · exact i1 q hq
      · intro q hq hne
        rcases List.mem_cons.1 hq with rfl | hq
        · exact absurd hz hne
        · exact i3 q hq hne

/-- see above -/
theorem deleteBackups_gone {d : Disk} {lib : Path} (hd : ∀ fs p, (d.removing fs p).2 = false) (ps : List Str) (w : World) :
    (∀ p ∈ ps, (deleteBackups d w (attempts lib ps)).fs (lib ++ [backupName p]) = none) ∧
    (∀ q, w.fs q = none → (deleteBackups d w (attempts lib ps)).fs q = none) ∧
    (∀ p ∈ ps, w.fs (lib ++ [backupName p]) ≠ none → Gone lib (deleteBackups d w (attempts lib ps)).fs (backupName p)) :=
  deleteBackups_gone_of (fun _ _ => hd _ _) ps w

end Pkgr
