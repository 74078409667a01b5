/- Invariants of the queue acting on the file system. -/
import Verif.Spec.Queue
import Verif.Proof.Sched2
import Verif.Proof.Install
import Verif.Proof.Rollback

namespace Pkgr
open Spec

set_option linter.unusedSimpArgs false

/-! ### Projection to the scheduler -/

theorem reach_step {j : Job} {s s' : RunState} {ev : Event} (h : Reach j s) (hs : j.step s ev = some s') :
    Reach j s' := by
  obtain ⟨es, h⟩ := h
  refine ⟨es ++ [ev], ?_⟩
  rw [run_append, h]
  simp [Job.run, hs]

theorem qstep_sched {e : QEnv} {s s' : QState} (h : e.Step s s') :
    s'.run = s.run ∨ ∃ ev, e.job.step s.run ev = some s'.run := by
  cases h
  case sched ev r _ _ hr => exact .inr ⟨ev, hr⟩
  case take i r _ hr => exact .inr ⟨_, hr⟩
  case prog => exact .inl rfl
  case rWrite => exact .inl rfl
  case rExit => exact .inl rfl
  case finish r _ _ _ hr => exact .inr ⟨_, hr⟩
  case mkStore => exact .inl rfl
  case copying => exact .inl rfl
  case copied hr => exact .inr ⟨_, hr⟩
  case copyFails hr => exact .inr ⟨_, hr⟩

theorem qreach_reach {e : QEnv} {fs0 : Fs} {s : QState} (h : QReach e fs0 s) : Reach e.job s.run := by
  induction h with
  | refl => exact ⟨[], rfl⟩
  | tail _ hs ih =>
    rcases qstep_sched hs with h | ⟨ev, h⟩
    · rw [h]; exact ih
    · exact reach_step ih h

/-! ### Facts about the scheduler -/

/-- The package the updater is dealing with. -/
def updPkg : Updater → Option Str
  | .scan p _ _ => some p
  | .send _ p _ _ => some p
  | .copy p => some p
  | _ => none

theorem updPkg_installed {j : Job} {s : RunState} (h : Reach j s) {p : Str} (hp : updPkg s.updater = some p) :
    p ∈ s.installed := by
  obtain ⟨es, h⟩ := h
  refine run_induction (P := fun s => ∀ p, updPkg s.updater = some p → p ∈ s.installed) ?_ ?_ h p hp
  · clear h hp p s es
    intro s s' e ih hs p hp
    cases e with
    | mainAdd => simp only [Job.step, stepMainAdd] at hs; split at hs <;> cases hs; exact ih p hp
    | mainSend => simp only [Job.step, stepMainSend] at hs; split at hs <;> cases hs; exact ih p hp
    | mainReturn =>
      simp only [Job.step, stepMainReturn] at hs
      split at hs
      · split at hs <;> cases hs
        exact ih p hp
      · cases hs
    | reqCheck =>
      simp only [Job.step, stepReqCheck] at hs
      split at hs
      · split at hs
        · cases hs; exact ih p hp
        · split at hs <;> cases hs <;> exact ih p hp
      · cases hs
    | reqPush =>
      simp only [Job.step, stepReqPush] at hs
      split at hs
      · split at hs <;> cases hs
        exact ih p hp
      · cases hs
    | take i => simp only [Job.step, stepTake] at hs; split at hs <;> cases hs; exact ih p hp
    | finish i o => simp only [Job.step, stepFinish] at hs; split at hs <;> cases hs; exact ih p hp
    | post i =>
      simp only [Job.step, stepPost] at hs
      split at hs
      · split at hs <;> cases hs
        exact ih p hp
      · cases hs
    | updTake =>
      simp only [Job.step, stepUpdTake] at hs
      split at hs <;> cases hs
      · simp [updPkg] at hp
      · simp only [updPkg, Option.some.injEq] at hp; subst hp; exact List.mem_cons_self
    | updScan =>
      simp only [Job.step, stepUpdScan] at hs
      split at hs
      · next q x xs b hu =>
        have := ih q (by rw [hu]; rfl)
        split at hs <;> cases hs <;> simp only [updPkg, Option.some.injEq] at hp <;> subst hp <;> exact this
      · next q b hu =>
        have := ih q (by rw [hu]; rfl)
        cases hs
        cases b <;> simp [updPkg] at hp
        subst hp; exact this
      · cases hs
    | updSend =>
      simp only [Job.step, stepUpdSend] at hs
      split at hs
      · next x q xs b hu _ =>
        have := ih q (by rw [hu]; rfl)
        cases hs
        simp only [updPkg, Option.some.injEq] at hp; subst hp; exact this
      · cases hs
    | updCopy ok =>
      simp only [Job.step, stepUpdCopy] at hs
      split at hs
      · split at hs <;> cases hs <;> simp [updPkg] at hp
      · cases hs
    | updDone =>
      simp only [Job.step, stepUpdDone] at hs
      split at hs
      · cases hs; simp [updPkg] at hp
      · cases hs
  · intro p hp; simp [Job.init, updPkg] at hp

theorem count_pos_of_get {ws : List Worker} {i : Nat} {w : Worker} (h : ws[i]? = some w) : 1 ≤ ws.count w :=
  List.count_pos_iff.2 (List.mem_of_getElem? h)

theorem index_unique {ws : List Worker} {w : Worker} (hc : ws.count w ≤ 1) {i k : Nat} (hi : ws[i]? = some w)
    (hk : ws[k]? = some w) : i = k := by
  induction ws generalizing i k with
  | nil => simp at hi
  | cons a ws ih =>
    rw [List.count_cons] at hc
    cases i with
    | zero =>
      cases k with
      | zero => rfl
      | succ k =>
        simp only [List.getElem?_cons_zero, Option.some.injEq, List.getElem?_cons_succ] at hi hk
        have := count_pos_of_get hk
        subst hi
        simp at hc; omega
    | succ i =>
      cases k with
      | zero =>
        simp only [List.getElem?_cons_zero, Option.some.injEq, List.getElem?_cons_succ] at hi hk
        have := count_pos_of_get hi
        subst hk
        simp at hc; omega
      | succ k =>
        simp only [List.getElem?_cons_succ] at hi hk
        have := ih (by omega) hi hk
        omega

/-- Only one worker installs a package, and nobody does once an installation of it has ended. -/
theorem running_unique {j : Job} {s : RunState} (h : Reach j s) {p : Str} {i k : Nat}
    (hi : s.workers[i]? = some (.running p)) (hk : s.workers[k]? = some (.running p)) : i = k := by
  have hv := reach_inv h
  have h1 := hv.req p; have h2 := hv.once p
  exact index_unique (by omega) hi hk

theorem running_not_finished {j : Job} {s : RunState} (h : Reach j s) {p : Str} {i : Nat}
    (hi : s.workers[i]? = some (.running p)) : .finished p true ∉ s.log ∧ p ∉ s.installed := by
  have hv := reach_inv h
  have h1 := hv.req p; have h2 := hv.once p; have h3 := hv.finOk p
  have h4 := count_pos_of_get hi
  constructor
  · intro hf; have := List.count_pos_iff.2 hf; omega
  · intro hf; have := List.count_pos_iff.2 hf; omega

theorem running_started {j : Job} {s : RunState} (h : Reach j s) {p : Str} {i : Nat}
    (hi : s.workers[i]? = some (.running p)) : .started p ∈ s.log := by
  have hv := reach_inv h
  have h1 := hv.started p
  have h4 := count_pos_of_get hi
  exact List.count_pos_iff.1 (by omega)

theorem running_planned {j : Job} (hw : WellFormed j) {s : RunState} (h : Reach j s) {p : Str} {i : Nat}
    (hi : s.workers[i]? = some (.running p)) : p ∈ Job.plan j := by
  have hv := reach_inv h
  have h1 := hv.req p
  have h4 := count_pos_of_get hi
  exact (reach_inv2 hw h).inPlan p (by unfold sentC; omega)

/-! ### What a step may change -/

/-- What worker and R change while installing `p`. -/
def Own (e : QEnv) (Scratch : Path → Prop) (p : Str) (q : Path) : Prop :=
  (e.lib ++ [p]) <+: q ∨ (e.lib ++ [lockName p]) <+: q ∨ e.tmp p <+: q ∨ Scratch q

/-- `fs'` comes from `fs` by a step of the installation of `p`. -/
def WFrame (e : QEnv) (Scratch : Path → Prop) (p : Str) (fs fs' : Fs) : Prop :=
  ∀ q, fs' q = fs q ∨ Own e Scratch p q ∨ (fs' q = some .dir ∧ fs q = none ∧ q <+: e.tmp p)

/-- The same, within the library. -/
theorem WFrame.keeps {e : QEnv} {Scratch : Path → Prop} (hl : Layout e Scratch) {p : Str} {fs fs' : Fs}
    (h : WFrame e Scratch p fs fs') : Keeps e.lib (fun n => n = p ∨ n = lockName p) fs fs' := by
  intro q hq hn
  rcases h q with h | h | ⟨_, _, h⟩
  · exact h
  · rcases h with h | h | h | h
    · exact absurd h (hn p (.inl rfl))
    · exact absurd h (hn _ (.inr rfl))
    · exact absurd hq (not_prefix_ext (hl.tmpLib p) h)
    · exact absurd hq (hl.scratch q h).1
  · exact absurd (hq.trans h) (hl.tmpLib p).1

/-- The binary that a phase works with. -/
def phaseBin : IPhase → Option Path
  | .call (.final b) => some b
  | .inR (.final b) => some b
  | .stamp (.final b) => some b
  | .stampWrite (.final b) _ => some b
  | .returned (.final b) _ => some b
  | .done r => r.binary
  | _ => none

theorem rcall_lib_own {e : QEnv} {Scratch : Path → Prop} {p : Str} {k : Pass} {q : Path} {n : Str}
    (hn : n = p ∨ n = lockName p) (h : ((e.rcall p k).lib ++ [n]) <+: q) : Own e Scratch p q := by
  cases k with
  | cached b => rcases hn with rfl | rfl <;> [exact .inl h; exact .inr (.inl h)]
  | build => exact .inr (.inr (.inl ((List.prefix_append _ _).trans h)))
  | final b => rcases hn with rfl | rfl <;> [exact .inl h; exact .inr (.inl h)]

theorem write_frame {e : QEnv} {Scratch : Path → Prop} {Complete : Str → (Path → Option Node) → Prop} {Holds : Str → Str → Prop} (hr : RContract e Scratch Complete Holds) {p : Str} {k : Pass} {fs fs' : Fs}
    (h : e.proc.writes (e.rcall p k) fs fs') : WFrame e Scratch p fs fs' := by
  intro q
  by_cases hq : fs' q = fs q
  · exact .inl hq
  refine .inr (.inl ?_)
  have hpk : (e.rcall p k).pkg = p := by cases k <;> rfl
  have := hr.confined _ _ _ h q hq
  rw [hpk] at this
  rcases this with h | h | ⟨h1, h2⟩ | h
  · exact rcall_lib_own (.inl rfl) h
  · exact rcall_lib_own (.inr rfl) h
  · cases k with
    | cached b => simp [QEnv.rcall] at h1
    | build => exact .inr (.inr (.inl h2))
    | final b => simp [QEnv.rcall] at h1
  · exact .inr (.inr (.inr h))

theorem descOf_own {e : QEnv} {Scratch : Path → Prop} {p : Str} (k : Pass) : Own e Scratch p (e.descOf p k) := by
  refine rcall_lib_own (k := k) (n := p) (.inl rfl) ?_
  unfold QEnv.descOf
  exact ⟨[s%"DESCRIPTION"], by simp⟩

theorem set_frame {e : QEnv} {Scratch : Path → Prop} {p : Str} {fs : Fs} {d : Path} (n : Node)
    (h : Own e Scratch p d) : WFrame e Scratch p fs (fs.set d n) := by
  intro q
  by_cases hq : q = d
  · exact .inr (.inl (hq ▸ h))
  · exact .inl (by simp [Fs.set, hq])

theorem WFrame.refl {e : QEnv} {Scratch : Path → Prop} {p : Str} (fs : Fs) : WFrame e Scratch p fs fs :=
  fun _ => .inl rfl

theorem progStep_frame {e : QEnv} {Scratch : Path → Prop} {p : Str} {fs fs' : Fs} {ph ph' : IPhase}
    (h : e.progStep p fs ph = some (fs', ph')) : WFrame e Scratch p fs fs' := by
  cases ph with
  | «begin» => simp only [QEnv.progStep] at h; split at h <;> cases h <;> exact WFrame.refl _
  | lookup => simp only [QEnv.progStep] at h; cases h; exact WFrame.refl _
  | mkTmp =>
    simp only [QEnv.progStep] at h; cases h
    intro q
    unfold Fs.mkdirAll
    split
    · next hc => exact .inr (.inr ⟨rfl, hc.2, hc.1⟩)
    · exact .inl rfl
  | call k => simp only [QEnv.progStep] at h; cases h; exact WFrame.refl _
  | inR k => simp [QEnv.progStep] at h
  | stamp k =>
    simp only [QEnv.progStep, QEnv.stampStep] at h
    split at h <;> cases h
    · exact set_frame _ (descOf_own k)
    · exact WFrame.refl _
  | stampWrite k c => simp only [QEnv.progStep] at h; cases h; exact set_frame _ (descOf_own k)
  | returned k c =>
    simp only [QEnv.progStep, QEnv.returnStep] at h
    cases k <;> cases h
    · exact WFrame.refl _
    · intro q
      unfold cleanTmp
      split
      · unfold Fs.removeAll
        split
        · next hc => exact .inr (.inl (.inr (.inr (.inl ((List.prefix_append _ _).trans hc)))))
        · exact .inl rfl
      · exact .inl rfl
    · exact WFrame.refl _
  | find => simp only [QEnv.progStep] at h; cases h; exact WFrame.refl _
  | done r => simp [QEnv.progStep] at h
  | dead => simp [QEnv.progStep] at h

/-- A binary in the temporary directory of `p`. -/
def InTmp (e : QEnv) (p : Str) (b : Path) : Prop :=
  ∃ x, b = e.tmp p ++ [x] ∧ binaryExtOs e.ie.platform.os (basePath (e.src p)) e.ie.rPlatform = some x

theorem progStep_bin {e : QEnv} {Scratch : Path → Prop} (hl : Layout e Scratch) {p : Str} {fs fs' : Fs} {ph ph' : IPhase}
    (hpl : p ∈ Job.plan e.job) (h : e.progStep p fs ph = some (fs', ph')) (hb : ∀ b, phaseBin ph = some b → InTmp e p b) {b : Path}
    (hb' : phaseBin ph' = some b) : InTmp e p b := by
  cases ph with
  | «begin» => simp only [QEnv.progStep] at h; split at h <;> cases h <;> simp [phaseBin] at hb'
  | lookup =>
    simp only [QEnv.progStep, QEnv.lookupStep] at h; cases h
    split at hb'
    · simp [phaseBin] at hb'
    · split at hb' <;> simp [phaseBin] at hb'
  | mkTmp => simp only [QEnv.progStep] at h; cases h; simp [phaseBin] at hb'
  | call k =>
    simp only [QEnv.progStep, QEnv.callStep] at h; cases h
    split at hb'
    · simp [phaseBin] at hb'
    · split at hb' <;> cases k <;> simp [phaseBin] at hb' <;> subst hb' <;> exact hb _ rfl
  | inR k => simp [QEnv.progStep] at h
  | stamp k =>
    simp only [QEnv.progStep, QEnv.stampStep] at h
    split at h <;> cases h <;> cases k <;> simp [phaseBin] at hb' <;> subst hb' <;> exact hb _ rfl
  | stampWrite k c =>
    simp only [QEnv.progStep] at h; cases h
    cases k <;> simp [phaseBin] at hb'
    subst hb'; exact hb _ rfl
  | returned k c =>
    simp only [QEnv.progStep, QEnv.returnStep] at h
    cases k <;> cases h
    · simp [phaseBin] at hb'
    · split at hb' <;> simp [phaseBin] at hb'
    · simp [phaseBin] at hb'; subst hb'; exact hb _ rfl
  | find =>
    simp only [QEnv.progStep, QEnv.findStep] at h; cases h
    split at hb'
    · simp [phaseBin] at hb'
    · next bbp hbbp =>
      split at hb' <;> simp [phaseBin] at hb'
      exact ⟨bbp, by rw [← hb']; exact (hl.ball p hpl bbp hbbp).1, hbbp⟩
  | done r => simp [QEnv.progStep] at h
  | dead => simp [QEnv.progStep] at h

theorem mkdir_cases (fs : Fs) (d q : Path) :
    fs.mkdir d q = fs q ∨ (fs q = none ∧ fs.mkdir d q = some .dir ∧ q = d) := by
  unfold Fs.mkdir
  split
  · next h =>
    unfold Fs.set
    by_cases hq : q = d
    · exact .inr ⟨hq ▸ h.1, by simp [hq], hq⟩
    · exact .inl (by simp [hq])
  · exact .inl rfl

/-! ### Invariants of the composed system -/

/-- An installation that has begun to change things or may do so. -/
def Active : IPhase → Prop
  | .begin => False
  | .done _ => False
  | _ => True

theorem workers_running_of_step {j : Job} {s r : RunState} {ev : Event} (h : j.step s ev = some r)
    (ht : ∀ i, ev ≠ .take i) {i : Nat} {p : Str} (hi : r.workers[i]? = some (.running p)) :
    s.workers[i]? = some (.running p) := by
  have hset : ∀ (k : Nat) (w : Worker), (∀ p, w ≠ .running p) → (s.workers.set k w)[i]? = some (.running p) →
      s.workers[i]? = some (.running p) := by
    intro k w hw h
    rw [List.getElem?_set] at h
    split at h
    · split at h
      · simp at h; exact absurd h (hw p)
      · cases h
    · exact h
  cases ev with
  | mainAdd => simp only [Job.step, stepMainAdd] at h; split at h <;> cases h; exact hi
  | mainSend => simp only [Job.step, stepMainSend] at h; split at h <;> cases h; exact hi
  | mainReturn =>
    simp only [Job.step, stepMainReturn] at h
    split at h
    · split at h <;> cases h
      exact hi
    · cases h
  | reqCheck =>
    simp only [Job.step, stepReqCheck] at h
    split at h
    · split at h
      · cases h; exact hi
      · split at h <;> cases h <;> exact hi
    · cases h
  | reqPush =>
    simp only [Job.step, stepReqPush] at h
    split at h
    · split at h <;> cases h
      exact hi
    · cases h
  | take k => exact absurd rfl (ht k)
  | finish k o =>
    simp only [Job.step, stepFinish] at h
    split at h <;> cases h
    exact hset _ _ (by simp) hi
  | post k =>
    simp only [Job.step, stepPost] at h
    split at h
    · split at h <;> cases h
      exact hset _ _ (by simp) hi
    · cases h
  | updTake => simp only [Job.step, stepUpdTake] at h; split at h <;> cases h <;> exact hi
  | updScan =>
    simp only [Job.step, stepUpdScan] at h
    split at h
    · split at h <;> cases h <;> exact hi
    · cases h; exact hi
    · cases h
  | updSend => simp only [Job.step, stepUpdSend] at h; split at h <;> cases h; exact hi
  | updCopy ok =>
    simp only [Job.step, stepUpdCopy] at h
    split at h
    · split at h <;> cases h <;> exact hi
    · cases h
  | updDone => simp only [Job.step, stepUpdDone] at h; split at h <;> cases h; exact hi

theorem workers_running_of_take {s r : RunState} {k : Nat} (h : stepTake s k = some r)
    {i : Nat} {p : Str} (hi : r.workers[i]? = some (.running p)) :
    i = k ∨ (i ≠ k ∧ s.workers[i]? = some (.running p)) := by
  simp only [stepTake] at h
  split at h <;> cases h
  by_cases hik : i = k
  · exact .inl hik
  · dsimp only at hi
    rw [List.getElem?_set_ne (by omega)] at hi
    exact .inr ⟨hik, hi⟩

theorem plain_not_take {ev : Event} (h : ev.plain = true) : ∀ i, ev ≠ .take i := by
  rintro i rfl; simp [Event.plain] at h

/-- Jobs on the library, and where built binaries are. -/
structure QInvA (e : QEnv) (fs0 : Fs) (s : QState) (act : List Str) : Prop where
  jobs : JobRun e.lib (Job.plan e.job) fs0 s.fs act
  active : ∀ (i : Nat) (p : Str), s.run.workers[i]? = some (Worker.running p) → Active (s.progs i) → p ∈ act
  bin : ∀ (i : Nat) (p : Str), s.run.workers[i]? = some (Worker.running p) → ∀ b, phaseBin (s.progs i) = some b →
    InTmp e p b ∧ p ∈ act
  bins : ∀ p b, s.bins p = some b → InTmp e p b ∧ p ∈ act

theorem jobRun_planned {lib : Path} {jobs : List Str} {fs0 fs : Fs} {act : List Str} (h : JobRun lib jobs fs0 fs act) :
    ∀ p ∈ act, p ∈ jobs := by
  induction h with
  | start => simp
  | «begin» fs act p _ hp _ ih =>
    intro q hq
    rcases List.mem_cons.1 hq with rfl | hq
    · exact hp
    · exact ih q hq
  | write fs fs' act p _ _ _ ih => exact ih

theorem QInvA.store {e : QEnv} {Scratch : Path → Prop} (hl : Layout e Scratch) {fs0 : Fs} {s : QState} {act : List Str}
    (h : QInvA e fs0 s act) {p : Str} {b : Path} (hb : s.bins p = some b) :
    ¬ e.lib <+: e.store p b ∧ ¬ e.lib <+: e.storeDir p := by
  obtain ⟨⟨x, rfl, hx⟩, hp⟩ := h.bins p b hb
  have := (hl.ball p (jobRun_planned h.jobs p hp) x hx).2
  exact ⟨this.1.1, this.2.1.1⟩

theorem active_of_bin {ph : IPhase} (h : ¬ Active ph) : ph = .begin ∨ ∃ r, ph = .done r := by
  cases ph <;> simp [Active] at h ⊢

/-- The common part of the steps of a worker. -/
theorem qinvA_work {e : QEnv} {Scratch : Path → Prop} (hl : Layout e Scratch) (hw : WellFormed e.job) {fs0 : Fs}
    {s : QState} {act : List Str} (hs : Reach e.job s.run) (h : QInvA e fs0 s act) {i : Nat} {p : Str} {fs : Fs} {ph : IPhase}
    (hi : s.run.workers[i]? = some (Worker.running p)) (hf : WFrame e Scratch p s.fs fs)
    (hbegin : ¬ Active (s.progs i) → fs = s.fs ∧ (Active ph → s.fs (e.lib ++ [p]) ≠ some .dir))
    (hb : ∀ b, phaseBin ph = some b → InTmp e p b ∧ Active (s.progs i)) :
    ∃ act', QInvA e fs0 (s.work i fs ph) act' := by
  by_cases ha : Active (s.progs i)
  · have hp := h.active i p hi ha
    refine ⟨act, JobRun.write _ _ _ p h.jobs hp (hf.keeps hl), ?_, ?_, h.bins⟩
    · intro k q hk hq
      by_cases hki : k = i
      · subst hki
        rw [show (s.work k fs ph).run = s.run from rfl, hi] at hk
        cases hk; exact hp
      · exact h.active k q hk (by simpa [QState.work, upd, hki] using hq)
    · intro k q hk b hq
      by_cases hki : k = i
      · subst hki
        rw [show (s.work k fs ph).run = s.run from rfl, hi] at hk
        cases hk
        exact ⟨(hb b (by simpa [QState.work, upd] using hq)).1, hp⟩
      · exact h.bin k q hk b (by simpa [QState.work, upd, hki] using hq)
  · obtain ⟨rfl, hnd⟩ := hbegin ha
    by_cases hph : Active ph
    · refine ⟨p :: act, JobRun.begin _ _ p h.jobs (running_planned hw hs hi) (hnd hph), ?_, ?_, ?_⟩
      · intro k q hk hq
        by_cases hki : k = i
        · subst hki
          rw [show (s.work k s.fs ph).run = s.run from rfl, hi] at hk
          cases hk; exact List.mem_cons_self
        · exact List.mem_cons_of_mem _ (h.active k q hk (by simpa [QState.work, upd, hki] using hq))
      · intro k q hk b hq
        by_cases hki : k = i
        · subst hki
          exact absurd (hb b (by simpa [QState.work, upd] using hq)).2 ha
        · have := h.bin k q hk b (by simpa [QState.work, upd, hki] using hq)
          exact ⟨this.1, List.mem_cons_of_mem _ this.2⟩
      · intro q b hq
        exact ⟨(h.bins q b hq).1, List.mem_cons_of_mem _ (h.bins q b hq).2⟩
    · refine ⟨act, h.jobs, ?_, ?_, h.bins⟩
      · intro k q hk hq
        by_cases hki : k = i
        · subst hki
          exact absurd (by simpa [QState.work, upd] using hq) hph
        · exact h.active k q hk (by simpa [QState.work, upd, hki] using hq)
      · intro k q hk b hq
        by_cases hki : k = i
        · subst hki
          exact absurd (hb b (by simpa [QState.work, upd] using hq)).2 ha
        · exact h.bin k q hk b (by simpa [QState.work, upd, hki] using hq)

theorem progStep_not_done {e : QEnv} {p : Str} {fs fs' : Fs} {ph ph' : IPhase}
    (h : e.progStep p fs ph = some (fs', ph')) (ha : ¬ Active ph) : ph = .begin := by
  rcases active_of_bin ha with h1 | ⟨r, h1⟩
  · exact h1
  · subst h1; simp [QEnv.progStep] at h

theorem qinvA_step {e : QEnv} {Scratch : Path → Prop} {Complete : Str → (Path → Option Node) → Prop} {Holds : Str → Str → Prop} (hl : Layout e Scratch) (hr : RContract e Scratch Complete Holds)
    (hw : WellFormed e.job) {fs0 : Fs} {s s' : QState} {act : List Str} (hs : Reach e.job s.run)
    (h : QInvA e fs0 s act) (hstep : e.Step s s') : ∃ act', QInvA e fs0 s' act' := by
  cases hstep
  case sched ev r _ hp hr' =>
    exact ⟨act, h.jobs, fun i p hi => h.active i p (workers_running_of_step hr' (plain_not_take hp) hi),
      fun i p hi => h.bin i p (workers_running_of_step hr' (plain_not_take hp) hi), h.bins⟩
  case take i r _ hr' =>
    refine ⟨act, h.jobs, ?_, ?_, h.bins⟩
    · intro k p hk ha
      rcases workers_running_of_take hr' hk with rfl | ⟨hki, hk'⟩
      · simp [upd, Active] at ha
      · exact h.active k p hk' (by simpa [upd, hki] using ha)
    · intro k p hk b hb
      rcases workers_running_of_take hr' hk with rfl | ⟨hki, hk'⟩
      · simp [upd, phaseBin] at hb
      · exact h.bin k p hk' b (by simpa [upd, hki] using hb)
  case prog i p fs ph _ hi hp =>
    refine qinvA_work hl hw hs h hi (progStep_frame hp) ?_ ?_
    · intro ha
      have hbg := progStep_not_done hp ha
      rw [hbg] at hp
      simp only [QEnv.progStep] at hp
      split at hp
      · cases hp; exact ⟨rfl, fun h => by simp [Active] at h⟩
      · next hd => cases hp; exact ⟨rfl, fun _ => by simpa [Fs.isDir] using hd⟩
    · intro b hb
      refine ⟨progStep_bin hl (running_planned hw hs hi) hp (fun b hb => (h.bin i p hi b hb).1) hb, ?_⟩
      apply Classical.byContradiction
      intro ha
      have hbg := progStep_not_done hp ha
      rw [hbg] at hp
      simp only [QEnv.progStep] at hp
      split at hp <;> cases hp <;> simp [phaseBin] at hb
  case rWrite i p k fs _ hi hk hwr =>
    have ha : Active (s.progs i) := by rw [hk]; trivial
    refine qinvA_work hl hw hs h hi (write_frame hr hwr) (fun hn => absurd ha hn) ?_
    intro b hb
    exact ⟨(h.bin i p hi b (by rw [hk]; exact hb)).1, ha⟩
  case rExit i p k x _ hi hk hx =>
    have ha : Active (s.progs i) := by rw [hk]; trivial
    refine qinvA_work hl hw hs h hi (WFrame.refl _) (fun hn => absurd ha hn) ?_
    intro b hb
    refine ⟨(h.bin i p hi b ?_).1, ha⟩
    rw [hk]
    unfold afterR at hb
    split at hb <;> cases k <;> simp [phaseBin] at hb ⊢ <;> exact hb
  case finish i p ret r _ hi hk hr' =>
    refine ⟨act, h.jobs, fun k q hk => h.active k q (workers_running_of_step hr' (by simp) hk),
      fun k q hk => h.bin k q (workers_running_of_step hr' (by simp) hk), ?_⟩
    intro q b hb
    by_cases hq : q = p
    · subst hq
      exact h.bin i q hi b (by rw [hk]; simpa [upd, phaseBin] using hb)
    · exact h.bins q b (by simpa [upd, hq] using hb)
  case mkStore p b _ hu hb =>
    refine ⟨act, JobRun.write _ _ _ p h.jobs (h.bins p b hb).2 ?_, h.active, h.bin, h.bins⟩
    intro q hq _
    rcases mkdir_cases s.fs (e.storeDir p) q with h1 | ⟨_, _, rfl⟩
    · exact h1
    · exact absurd hq (h.store hl hb).2
  case copying p b c n _ hu hb hc hd =>
    refine ⟨act, JobRun.write _ _ _ p h.jobs (h.bins p b hb).2 ?_, h.active, h.bin, h.bins⟩
    intro q hq _
    unfold Fs.set
    dsimp only
    rw [if_neg (by rintro rfl; exact (h.store hl hb).1 hq)]
    rcases mkdir_cases s.fs (e.storeDir p) q with h1 | ⟨_, _, rfl⟩
    · exact h1
    · exact absurd hq (h.store hl hb).2
  case copied p b c r _ hu hb hc hc' hr' =>
    refine ⟨act, JobRun.write _ _ _ p h.jobs (h.bins p b hb).2 ?_,
      fun k q hk => h.active k q (workers_running_of_step hr' (by simp) hk),
      fun k q hk => h.bin k q (workers_running_of_step hr' (by simp) hk), h.bins⟩
    intro q hq _
    dsimp only
    rw [if_neg]
    rintro rfl
    obtain ⟨x, hx, _⟩ := (h.bins p q hb).1
    exact not_prefix_ext (hl.tmpLib p) ⟨[x], hx.symm⟩ hq
  case copyFails r _ hr' =>
    exact ⟨act, h.jobs, fun k q hk => h.active k q (workers_running_of_step hr' (by simp) hk),
      fun k q hk => h.bin k q (workers_running_of_step hr' (by simp) hk), h.bins⟩

theorem qreach_invA {e : QEnv} {Scratch : Path → Prop} {Complete : Str → (Path → Option Node) → Prop} {Holds : Str → Str → Prop} (hl : Layout e Scratch) (hr : RContract e Scratch Complete Holds)
    (hw : WellFormed e.job) {fs0 : Fs} {s : QState} (h : QReach e fs0 s) : ∃ act, QInvA e fs0 s act := by
  have h' : QReach e fs0 s := h
  induction h with
  | refl =>
    refine ⟨[], JobRun.start, ?_, ?_, ?_⟩
    · intro i p _ ha; simp [QEnv.init, Active] at ha
    · intro i p _ b hb; simp [QEnv.init, phaseBin] at hb
    · intro p b hb; simp [QEnv.init] at hb
  | tail hs hst ih =>
    obtain ⟨act, ih⟩ := ih hs
    exact qinvA_step hl hr hw (qreach_reach hs) ih hst

/-! ### Packages are there -/

/-- There is a package file of `p` at `b`. -/
def HasFile (Holds : Str → Str → Prop) (p : Str) (fs : Fs) (b : Path) : Prop := ∃ x, fs b = some (.file x) ∧ Holds p x

/-- If there is something at `b`, it is a package file of `p`. -/
def MayFile (Holds : Str → Str → Prop) (p : Str) (fs : Fs) (b : Path) : Prop := ∀ n, fs b = some n → ∃ x, n = .file x ∧ Holds p x

/-- What R has built, if anything, is a binary of `p`. -/
def BuiltOK (e : QEnv) (Holds : Str → Str → Prop) (p : Str) (fs : Fs) : Prop :=
  ∀ b, InTmp e p b → MayFile Holds p fs b

/-- What is known of the package and its files at each point of its installation. -/
def Good (e : QEnv) (Complete : Str → (Path → Option Node) → Prop) (Holds : Str → Str → Prop)
    (fs0 : Fs) (p : Str) (fs : Fs) : IPhase → Prop
  | .begin => contentOf fs e.lib p = contentOf fs0 e.lib p
  | .call (.cached b) => HasFile Holds p fs b ∧ e.ie.cachedBinary (e.download p).metadata = some b
  | .call (.final b) => HasFile Holds p fs b
  | .inR (.cached b) => HasFile Holds p fs b ∧ e.ie.cachedBinary (e.download p).metadata = some b
  | .inR (.final b) => HasFile Holds p fs b
  | .stamp k => (k ≠ .build → Complete p (contentOf fs e.lib p)) ∧ (k = .build → BuiltOK e Holds p fs)
  | .stampWrite k c => (k ≠ .build → Complete p (withDescription (contentOf fs e.lib p) c)) ∧ (k = .build → BuiltOK e Holds p fs)
  | .returned k c => c.err = false → (k ≠ .build → Complete p (contentOf fs e.lib p)) ∧
      (k = .build → c.exitCode = 0 ∧ BuiltOK e Holds p fs)
  | .find => BuiltOK e Holds p fs
  | .done r => r.err = false → Complete p (contentOf fs e.lib p)
  | _ => True

structure QInvB (e : QEnv) (Complete : Str → (Path → Option Node) → Prop) (Holds : Str → Str → Prop)
    (fs0 : Fs) (s : QState) : Prop where
  good : ∀ (i : Nat) (p : Str), s.run.workers[i]? = some (Worker.running p) → Good e Complete Holds fs0 p s.fs (s.progs i)
  fin : ∀ p, p ∈ Job.plan e.job → LogEntry.finished p true ∈ s.run.log → Complete p (contentOf s.fs e.lib p)
  unstarted : ∀ p, p ∈ Job.plan e.job → LogEntry.started p ∉ s.run.log → contentOf s.fs e.lib p = contentOf fs0 e.lib p
  src : ∀ p ∈ Job.plan e.job, s.fs (e.src p) = fs0 (e.src p)
  cache : ∀ p ∈ Job.plan e.job, LogEntry.finished p true ∉ s.run.log → ∀ b,
    e.ie.cachedBinary (e.download p).metadata = some b → MayFile Holds p s.fs b

/-- What the other installations and the updater leave alone. -/
structure Spares (e : QEnv) (p : Str) (fs fs' : Fs) : Prop where
  dir : contentOf fs' e.lib p = contentOf fs e.lib p
  safe : ∀ q, e.ie.cachedBinary (e.download p).metadata = some q → fs q ≠ none → fs' q = fs q
  ball : ∀ b, InTmp e p b → fs' b = fs b

theorem HasFile.of_eq {Holds : Str → Str → Prop} {p : Str} {fs fs' : Fs} {b : Path} (h : HasFile Holds p fs b)
    (he : fs' b = fs b) : HasFile Holds p fs' b := by
  unfold HasFile; rw [he]; exact h

theorem MayFile.of_eq {Holds : Str → Str → Prop} {p : Str} {fs fs' : Fs} {b : Path} (h : MayFile Holds p fs b)
    (he : fs' b = fs b) : MayFile Holds p fs' b := by
  unfold MayFile; rw [he]; exact h

theorem HasFile.ne {Holds : Str → Str → Prop} {p : Str} {fs : Fs} {b : Path} (h : HasFile Holds p fs b) : fs b ≠ none := by
  obtain ⟨x, h, _⟩ := h
  rw [h]; simp

theorem BuiltOK.spared {e : QEnv} {Holds : Str → Str → Prop} {p : Str} {fs fs' : Fs} (h : BuiltOK e Holds p fs)
    (hs : Spares e p fs fs') : BuiltOK e Holds p fs' := fun b hb => (h b hb).of_eq (hs.ball b hb)

theorem Good.spared {e : QEnv} {Complete : Str → (Path → Option Node) → Prop} {Holds : Str → Str → Prop} {fs0 : Fs} {p : Str} {fs fs' : Fs} {ph : IPhase}
    (h : Good e Complete Holds fs0 p fs ph) (hs : Spares e p fs fs') (hb : ∀ b, phaseBin ph = some b → InTmp e p b) :
    Good e Complete Holds fs0 p fs' ph := by
  cases ph with
  | «begin» => exact hs.dir.trans h
  | call k =>
    cases k with
    | cached b => exact ⟨h.1.of_eq (hs.safe b h.2 h.1.ne), h.2⟩
    | build => trivial
    | final b => exact HasFile.of_eq h (hs.ball b (hb b rfl))
  | inR k =>
    cases k with
    | cached b => exact ⟨h.1.of_eq (hs.safe b h.2 h.1.ne), h.2⟩
    | build => trivial
    | final b => exact HasFile.of_eq h (hs.ball b (hb b rfl))
  | stamp k => unfold Good; rw [hs.dir]; exact ⟨h.1, fun hk => (h.2 hk).spared hs⟩
  | stampWrite k c => unfold Good; rw [hs.dir]; exact ⟨h.1, fun hk => (h.2 hk).spared hs⟩
  | returned k c => unfold Good; rw [hs.dir]; exact fun he => ⟨(h he).1, fun hk => ⟨((h he).2 hk).1, ((h he).2 hk).2.spared hs⟩⟩
  | find => exact BuiltOK.spared h hs
  | done r => unfold Good; rw [hs.dir]; exact h
  | _ => trivial

theorem lib_not_tmp {e : QEnv} {Scratch : Path → Prop} (hl : Layout e Scratch) (p : Str) {q : Path}
    (hq : e.lib <+: q) : ¬ e.tmp p <+: q := fun h => not_prefix_ext (hl.tmpLib p) h hq

theorem own_not_content {e : QEnv} {Scratch : Path → Prop} (hl : Layout e Scratch) {p p' : Str} (hp : ¬ IsLock p)
    (hne : p ≠ p') (r : Path) : ¬ Own e Scratch p' (e.lib ++ p :: r) := by
  have hx : ∀ x : Str, (e.lib ++ [x]) <+: (e.lib ++ p :: r) → x = p := by
    intro x h
    have := (List.prefix_append_right_inj _).1 h
    simpa using this
  rintro (h | h | h | h)
  · exact hne (hx _ h).symm
  · apply hp
    have := hx _ h
    rw [← this]
    unfold IsLock lockName
    exact ⟨s%"-" ++ p', rfl⟩
  · exact lib_not_tmp hl p' (List.prefix_append _ _) h
  · exact (hl.scratch _ h).1 (List.prefix_append _ _)

theorem safe_not_own {e : QEnv} {Scratch : Path → Prop} {p : Str} {q : Path} (h : SafePlace e Scratch q) :
    ¬ Own e Scratch p q := by
  rintro (h1 | h1 | h1 | h1)
  · exact h.1 ((List.prefix_append _ _).trans h1)
  · exact h.1 ((List.prefix_append _ _).trans h1)
  · exact h.2.1 p h1
  · exact h.2.2 h1

theorem frame_safe {e : QEnv} {Scratch : Path → Prop} {p' : Str} {fs fs' : Fs} (hf : WFrame e Scratch p' fs fs') :
    ∀ q, SafePlace e Scratch q → fs q ≠ none → fs' q = fs q := by
  intro q hq hne
  rcases hf q with h | h | ⟨_, h, _⟩
  · exact h
  · exact absurd h (safe_not_own hq)
  · exact absurd h hne

theorem frame_may {e : QEnv} {Scratch : Path → Prop} {Holds : Str → Str → Prop} {p p' : Str} {fs fs' : Fs} {b : Path}
    (hf : WFrame e Scratch p' fs fs') (hs : SafePlace e Scratch b) (ht : ¬ b <+: e.tmp p') (h : MayFile Holds p fs b) :
    MayFile Holds p fs' b := by
  refine h.of_eq ?_
  rcases hf b with h | h | ⟨_, _, h⟩
  · exact h
  · exact absurd h (safe_not_own hs)
  · exact absurd h ht

theorem frame_spares {e : QEnv} {Scratch : Path → Prop} (hl : Layout e Scratch) {p p' : Str} {fs fs' : Fs}
    (hp : ¬ IsLock p) (hpp : p ∈ Job.plan e.job) (hpp' : p' ∈ Job.plan e.job) (hne : p ≠ p')
    (hc : ∀ b, e.ie.cachedBinary (e.download p).metadata = some b → SafePlace e Scratch b)
    (hf : WFrame e Scratch p' fs fs') : Spares e p fs fs' := by
  refine ⟨?_, fun q hq => frame_safe hf q (hc q hq), ?_⟩
  · funext r
    unfold contentOf
    rcases hf (e.lib ++ p :: r) with h | h | ⟨_, _, h⟩
    · exact h
    · exact absurd h (own_not_content hl hp hne r)
    · exact absurd ((List.prefix_append _ _).trans h) (hl.tmpLib p').1
  · rintro b ⟨x, rfl, _⟩
    have htmp : e.tmp p <+: e.tmp p ++ [x] := List.prefix_append _ _
    have hlib : ¬ e.lib <+: e.tmp p ++ [x] := not_prefix_ext (hl.tmpLib p) htmp
    rcases hf (e.tmp p ++ [x]) with h | h | ⟨_, _, h⟩
    · exact h
    · exfalso
      rcases h with h | h | h | h
      · exact hlib ((List.prefix_append _ _).trans h)
      · exact hlib ((List.prefix_append _ _).trans h)
      · exact not_prefix_ext (hl.tmpTmp p hpp p' hpp' hne) h htmp
      · exact (hl.scratch _ h).2 p htmp
    · exact absurd (htmp.trans h) (hl.tmpTmp p hpp p' hpp' hne).1

/-- Setting the DESCRIPTION that is stamped after a pass into the library. -/
theorem content_set {e : QEnv} (p : Str) {k : Pass} (hk : k ≠ .build) (fs : Fs) (x : Str) :
    contentOf (fs.set (e.descOf p k) (.file x)) e.lib p = withDescription (contentOf fs e.lib p) x := by
  have hd : e.descOf p k = e.lib ++ [p, s%"DESCRIPTION"] := by
    cases k with
    | cached b => rfl
    | build => exact absurd rfl hk
    | final b => rfl
  funext r
  unfold contentOf withDescription Fs.set
  rw [hd]
  by_cases hr : r = [s%"DESCRIPTION"]
  · subst hr; simp
  · rw [if_neg hr, if_neg]
    intro h
    have := List.append_cancel_left h
    simp at this
    exact hr this

theorem withDescription_twice (D : Path → Option Node) (a b : Str) :
    withDescription (withDescription D a) b = withDescription D b := by
  funext r
  unfold withDescription
  split <;> rfl

theorem withDescription_same {D : Path → Option Node} {c : Str} (h : D [s%"DESCRIPTION"] = some (.file c)) :
    withDescription D c = D := by
  funext r
  unfold withDescription
  split
  · next hr => rw [hr, h]
  · rfl

theorem desc_content {e : QEnv} {p : Str} {k : Pass} (hk : k ≠ .build) (fs : Fs) :
    contentOf fs e.lib p [s%"DESCRIPTION"] = fs (e.descOf p k) := by
  cases k with
  | cached b => rfl
  | build => exact absurd rfl hk
  | final b => rfl

/-- Stamping in the temporary directory and cleaning it up leave what R has built. -/
theorem built_set {e : QEnv} {Holds : Str → Str → Prop} {p : Str} {fs : Fs} (n : Node) (h : BuiltOK e Holds p fs) :
    BuiltOK e Holds p (fs.set (e.descOf p .build) n) := by
  rintro b ⟨x, rfl, hx⟩
  refine (h _ ⟨x, rfl, hx⟩).of_eq ?_
  unfold Fs.set
  rw [if_neg]
  intro hh
  have := congrArg List.length hh
  simp [QEnv.descOf, QEnv.rcall] at this

theorem built_clean {e : QEnv} {Holds : Str → Str → Prop} {p : Str} {fs : Fs} {d : Path} (h : BuiltOK e Holds p fs) :
    BuiltOK e Holds p (cleanTmp fs d) := by
  intro b hb n hn
  refine h b hb n ?_
  unfold cleanTmp at hn
  split at hn
  · unfold Fs.removeAll at hn
    split at hn
    · cases hn
    · exact hn
  · exact hn

theorem progStep_good {e : QEnv} {Scratch : Path → Prop} {Complete : Str → (Path → Option Node) → Prop} {Holds : Str → Str → Prop}
    (hl : Layout e Scratch) (hc : RContract e Scratch Complete Holds) {fs0 : Fs} {p : Str} (hpl : p ∈ Job.plan e.job) {fs fs' : Fs}
    {ph ph' : IPhase} (hsrc : fs (e.src p) ≠ none)
    (hcached : ∀ b, e.ie.cachedBinary (e.download p).metadata = some b → MayFile Holds p fs b)
    (hwhole : fs0 (e.lib ++ [p]) = some .dir → Complete p (contentOf fs0 e.lib p))
    (h : e.progStep p fs ph = some (fs', ph')) (hg : Good e Complete Holds fs0 p fs ph) :
    Good e Complete Holds fs0 p fs' ph' := by
  cases ph with
  | «begin» =>
    have hg' : contentOf fs e.lib p = contentOf fs0 e.lib p := hg
    simp only [QEnv.progStep] at h
    split at h
    · next hd =>
      cases h
      intro _
      rw [hg']
      apply hwhole
      have := congrFun hg' []
      unfold contentOf at this
      rw [← this]
      simpa [Fs.isDir] using hd
    · cases h; trivial
  | lookup =>
    simp only [QEnv.progStep, QEnv.lookupStep] at h; cases h
    split
    · trivial
    · next b hb =>
      split
      · next hex =>
        refine ⟨?_, hb⟩
        obtain ⟨n, hn⟩ := Option.isSome_iff_exists.1 hex
        obtain ⟨x, rfl, hx⟩ := hcached b hb n hn
        exact ⟨x, hn, hx⟩
      · trivial
  | mkTmp => simp only [QEnv.progStep] at h; cases h; trivial
  | call k =>
    simp only [QEnv.progStep, QEnv.callStep] at h; cases h
    split
    · trivial
    · split
      · next hex =>
        exfalso
        simp only [Fs.ex, Bool.not_eq_true', Option.isSome_eq_false_iff, Option.isNone_iff_eq_none] at hex
        cases k with
        | cached b => exact hg.1.ne hex
        | build => exact hsrc hex
        | final b => exact HasFile.ne hg hex
      · cases k with
        | cached b => exact hg
        | build => trivial
        | final b => exact hg
  | inR k => simp [QEnv.progStep] at h
  | stamp k =>
    simp only [QEnv.progStep, QEnv.stampStep] at h
    split at h <;> cases h
    · next c hf =>
      refine ⟨fun hk => ?_, fun hk => ?_⟩
      · rw [content_set p hk, withDescription_twice, withDescription_same]
        · exact hg.1 hk
        · rw [desc_content hk]; exact hf
      · subst hk
        exact built_set _ (hg.2 rfl)
    · exact fun _ => ⟨hg.1, fun hk => ⟨rfl, hg.2 hk⟩⟩
  | stampWrite k c =>
    simp only [QEnv.progStep] at h; cases h
    refine fun _ => ⟨fun hk => ?_, fun hk => ⟨rfl, ?_⟩⟩
    · rw [content_set p hk, ← withDescription_twice _ c]
      exact hc.stamp p _ c _ (hc.stamps p hpl k) (hg.1 hk) (by simp [withDescription])
    · subst hk
      exact built_set _ (hg.2 rfl)
  | returned k c =>
    simp only [QEnv.progStep, QEnv.returnStep] at h
    cases k <;> cases h
    · exact fun hc => (hg hc).1 (by simp)
    · split
      · next hok =>
        have he : c.err = false := by
          rw [Bool.and_eq_true] at hok
          simpa using hok.1
        exact built_clean ((hg he).2 rfl).2
      · next hn =>
        intro hc
        have := ((hg hc).2 rfl).1
        dsimp only at hc
        rw [hc, this] at hn
        simp at hn
    · exact fun hc => (hg hc).1 (by simp)
  | find =>
    simp only [QEnv.progStep, QEnv.findStep] at h; cases h
    split
    · trivial
    · next bbp hbbp =>
      have hj := (hl.ball p hpl bbp hbbp).1
      split
      · intro hc; simp at hc
      · next hex =>
        have hex' : fs.ex (joinPath (e.tmp p) bbp) = true := by simpa using hex
        obtain ⟨n, hn⟩ := Option.isSome_iff_exists.1 hex'
        obtain ⟨x, rfl, hx⟩ := hg _ ⟨bbp, hj, hbbp⟩ n hn
        exact ⟨x, hn, hx⟩
  | done r => simp [QEnv.progStep] at h
  | dead => simp [QEnv.progStep] at h

theorem log_of_step {j : Job} {s r : RunState} {ev : Event} (h : j.step s ev = some r)
    (hf : ∀ i b, ev ≠ .finish i (.ok b)) {p : Str} (hi : LogEntry.finished p true ∈ r.log) : LogEntry.finished p true ∈ s.log := by
  cases ev with
  | mainAdd => simp only [Job.step, stepMainAdd] at h; split at h <;> cases h; exact hi
  | mainSend => simp only [Job.step, stepMainSend] at h; split at h <;> cases h; exact hi
  | mainReturn =>
    simp only [Job.step, stepMainReturn] at h
    split at h
    · split at h <;> cases h
      exact hi
    · cases h
  | reqCheck =>
    simp only [Job.step, stepReqCheck] at h
    split at h
    · split at h
      · cases h; exact hi
      · split at h <;> cases h <;> exact hi
    · cases h
  | reqPush =>
    simp only [Job.step, stepReqPush] at h
    split at h
    · split at h <;> cases h
      exact hi
    · cases h
  | take k => simp only [Job.step, stepTake] at h; split at h <;> cases h; simpa using hi
  | finish k o =>
    simp only [Job.step, stepFinish] at h
    split at h <;> cases h
    cases o with
    | failed => simpa using hi
    | ok b => exact absurd rfl (hf k b)
  | post k =>
    simp only [Job.step, stepPost] at h
    split at h
    · split at h <;> cases h
      exact hi
    · cases h
  | updTake => simp only [Job.step, stepUpdTake] at h; split at h <;> cases h <;> exact hi
  | updScan =>
    simp only [Job.step, stepUpdScan] at h
    split at h
    · split at h <;> cases h <;> exact hi
    · cases h; exact hi
    · cases h
  | updSend => simp only [Job.step, stepUpdSend] at h; split at h <;> cases h; exact hi
  | updCopy ok =>
    simp only [Job.step, stepUpdCopy] at h
    split at h
    · split at h <;> cases h <;> exact hi
    · cases h
  | updDone => simp only [Job.step, stepUpdDone] at h; split at h <;> cases h; exact hi

theorem log_of_finish {j : Job} {s r : RunState} {i : Nat} {o : Outcome} {p : Str}
    (hi : s.workers[i]? = some (Worker.running p)) (h : j.step s (.finish i o) = some r) {q : Str}
    (hq : LogEntry.finished q true ∈ r.log) : LogEntry.finished q true ∈ s.log ∨ (q = p ∧ o ≠ .failed) := by
  simp only [Job.step, stepFinish, hi] at h
  cases h
  rcases List.mem_append.1 hq with h | h
  · exact .inl h
  · simp only [List.mem_singleton, LogEntry.finished.injEq] at h
    exact .inr ⟨h.1, by simpa using h.2.symm⟩

theorem plain_not_finish {ev : Event} (h : ev.plain = true) : ∀ i b, ev ≠ .finish i (.ok b) := by
  rintro i b rfl; simp [Event.plain] at h

theorem started_mono {j : Job} {s r : RunState} {ev : Event} (h : j.step s ev = some r) {p : Str}
    (hp : LogEntry.started p ∉ r.log) : LogEntry.started p ∉ s.log := by
  intro hs
  apply hp
  cases ev with
  | mainAdd => simp only [Job.step, stepMainAdd] at h; split at h <;> cases h; exact hs
  | mainSend => simp only [Job.step, stepMainSend] at h; split at h <;> cases h; exact hs
  | mainReturn =>
    simp only [Job.step, stepMainReturn] at h
    split at h
    · split at h <;> cases h
      exact hs
    · cases h
  | reqCheck =>
    simp only [Job.step, stepReqCheck] at h
    split at h
    · split at h
      · cases h; exact hs
      · split at h <;> cases h <;> exact hs
    · cases h
  | reqPush =>
    simp only [Job.step, stepReqPush] at h
    split at h
    · split at h <;> cases h
      exact hs
    · cases h
  | take k => simp only [Job.step, stepTake] at h; split at h <;> cases h; exact List.mem_append_left _ hs
  | finish k o => simp only [Job.step, stepFinish] at h; split at h <;> cases h; exact List.mem_append_left _ hs
  | post k =>
    simp only [Job.step, stepPost] at h
    split at h
    · split at h <;> cases h
      exact hs
    · cases h
  | updTake => simp only [Job.step, stepUpdTake] at h; split at h <;> cases h <;> exact hs
  | updScan =>
    simp only [Job.step, stepUpdScan] at h
    split at h
    · split at h <;> cases h <;> exact hs
    · cases h; exact hs
    · cases h
  | updSend => simp only [Job.step, stepUpdSend] at h; split at h <;> cases h; exact hs
  | updCopy ok =>
    simp only [Job.step, stepUpdCopy] at h
    split at h
    · split at h <;> cases h <;> exact hs
    · cases h
  | updDone => simp only [Job.step, stepUpdDone] at h; split at h <;> cases h; exact hs

/-- The package a worker takes had not been started. -/
theorem take_unstarted {j : Job} {s r : RunState} (hs : Reach j s) {i : Nat} (h : j.step s (.take i) = some r) {p : Str}
    (hp : r.workers[i]? = some (Worker.running p)) : LogEntry.started p ∉ s.log := by
  have hr := (reach_inv (reach_step hs h)).started p
  have hr2 := (reach_inv (reach_step hs h)).req p
  have hr3 := (reach_inv (reach_step hs h)).once p
  have hc := count_pos_of_get hp
  simp only [Job.step, stepTake] at h
  split at h
  · next q ws hw hq =>
    cases h
    dsimp only at hp hr hr2 hr3
    have hlt : i < s.workers.length := by
      rw [List.getElem?_eq_some_iff] at hw
      exact hw.1
    rw [List.getElem?_set_self hlt] at hp
    cases hp
    rw [List.count_append] at hr
    simp at hr
    intro hm
    have := List.count_pos_iff.2 hm
    omega
  · cases h

/-- Log entries of successful installations stay. -/
theorem finished_mono {j : Job} {s r : RunState} {ev : Event} (h : j.step s ev = some r) {p : Str}
    (hp : LogEntry.finished p true ∉ r.log) : LogEntry.finished p true ∉ s.log := by
  intro hs
  apply hp
  cases ev with
  | mainAdd => simp only [Job.step, stepMainAdd] at h; split at h <;> cases h; exact hs
  | mainSend => simp only [Job.step, stepMainSend] at h; split at h <;> cases h; exact hs
  | mainReturn =>
    simp only [Job.step, stepMainReturn] at h
    split at h
    · split at h <;> cases h
      exact hs
    · cases h
  | reqCheck =>
    simp only [Job.step, stepReqCheck] at h
    split at h
    · split at h
      · cases h; exact hs
      · split at h <;> cases h <;> exact hs
    · cases h
  | reqPush =>
    simp only [Job.step, stepReqPush] at h
    split at h
    · split at h <;> cases h
      exact hs
    · cases h
  | take k => simp only [Job.step, stepTake] at h; split at h <;> cases h; exact List.mem_append_left _ hs
  | finish k o => simp only [Job.step, stepFinish] at h; split at h <;> cases h; exact List.mem_append_left _ hs
  | post k =>
    simp only [Job.step, stepPost] at h
    split at h
    · split at h <;> cases h
      exact hs
    · cases h
  | updTake => simp only [Job.step, stepUpdTake] at h; split at h <;> cases h <;> exact hs
  | updScan =>
    simp only [Job.step, stepUpdScan] at h
    split at h
    · split at h <;> cases h <;> exact hs
    · cases h; exact hs
    · cases h
  | updSend => simp only [Job.step, stepUpdSend] at h; split at h <;> cases h; exact hs
  | updCopy ok =>
    simp only [Job.step, stepUpdCopy] at h
    split at h
    · split at h <;> cases h <;> exact hs
    · cases h
  | updDone => simp only [Job.step, stepUpdDone] at h; split at h <;> cases h; exact hs

theorem installed_finished {j : Job} {s : RunState} (h : Reach j s) {p : Str} (hp : p ∈ s.installed) :
    LogEntry.finished p true ∈ s.log := by
  have hv := reach_inv h
  have h3 := hv.finOk p
  have := List.count_pos_iff.2 hp
  exact List.count_pos_iff.1 (by omega)

/-- The common part of the steps of a worker. -/
theorem qinvB_work {e : QEnv} {Scratch : Path → Prop} {Complete : Str → (Path → Option Node) → Prop} {Holds : Str → Str → Prop} (hl : Layout e Scratch) (hw : WellFormed e.job)
    (hn : ∀ p ∈ Job.plan e.job, ¬ IsLock p) {fs0 : Fs} (hft : FilesThere e Scratch Complete Holds fs0) {s : QState} {act : List Str}
    (hs : Reach e.job s.run) (ha : QInvA e fs0 s act) (h : QInvB e Complete Holds fs0 s) {i : Nat} {p : Str} {fs : Fs} {ph : IPhase}
    (hi : s.run.workers[i]? = some (Worker.running p)) (hf : WFrame e Scratch p s.fs fs)
    (hg : Good e Complete Holds fs0 p fs ph) : QInvB e Complete Holds fs0 (s.work i fs ph) := by
  have hsp : ∀ q ∈ Job.plan e.job, q ≠ p → Spares e q s.fs fs := fun q hq hne =>
    frame_spares hl (hn q hq) hq (running_planned hw hs hi) hne (fun b hb => (hft.cached q hq b hb).1) hf
  refine ⟨?_, ?_, ?_, ?_, ?_⟩
  · intro k q hk
    by_cases hki : k = i
    · subst hki
      rw [show (s.work k fs ph).run = s.run from rfl, hi] at hk
      cases hk
      simpa [QState.work, upd] using hg
    · have hqp : q ≠ p := by
        rintro rfl
        exact hki (running_unique hs hk hi)
      have := (h.good k q hk).spared (hsp q (running_planned hw hs hk) hqp) (fun b hb => (ha.bin k q hk b hb).1)
      simpa [QState.work, upd, hki] using this
  · intro q hqp hq
    have hne : q ≠ p := by
      rintro rfl
      exact (running_not_finished hs hi).1 hq
    have := (hsp q hqp hne).dir
    show Complete q (contentOf fs e.lib q)
    rw [this]
    exact h.fin q hqp hq
  · intro q hqp hq
    have hne : q ≠ p := by
      rintro rfl
      exact hq (running_started hs hi)
    exact ((hsp q hqp hne).dir).trans (h.unstarted q hqp hq)
  · intro q hq
    rw [← h.src q hq]
    refine frame_safe hf _ (hft.src q hq).2 ?_
    rw [h.src q hq]
    exact HasFile.ne (hft.src q hq).1
  · intro q hq hlog b hb
    exact frame_may hf (hft.cached q hq b hb).1 (hl.cached p (running_planned hw hs hi) q hq b hb) (h.cache q hq hlog b hb)

theorem qinvB_step {e : QEnv} {Scratch : Path → Prop} {Complete : Str → (Path → Option Node) → Prop} {Holds : Str → Str → Prop} (hl : Layout e Scratch) (hr : RContract e Scratch Complete Holds)
    (hw : WellFormed e.job) (hn : ∀ p ∈ Job.plan e.job, ¬ IsLock p) {fs0 : Fs} (hft : FilesThere e Scratch Complete Holds fs0)
    {s s' : QState} {act : List Str} (hs : Reach e.job s.run) (ha : QInvA e fs0 s act) (h : QInvB e Complete Holds fs0 s)
    (hstep : e.Step s s') : QInvB e Complete Holds fs0 s' := by
  cases hstep
  case sched ev r _ hp hr' =>
    exact ⟨fun i p hi => h.good i p (workers_running_of_step hr' (plain_not_take hp) hi),
      fun p hp' hlog => h.fin p hp' (log_of_step hr' (plain_not_finish hp) hlog),
      fun p hp' hlog => h.unstarted p hp' (started_mono hr' hlog), h.src,
      fun p hp' hlog => h.cache p hp' (finished_mono hr' hlog)⟩
  case take i r _ hr' =>
    refine ⟨?_, fun p hp' hlog => h.fin p hp' (log_of_step hr' (by simp) hlog),
      fun p hp' hlog => h.unstarted p hp' (started_mono hr' hlog), h.src,
      fun p hp' hlog => h.cache p hp' (finished_mono hr' hlog)⟩
    intro k p hk
    rcases workers_running_of_take hr' hk with rfl | ⟨hki, hk'⟩
    · have hpl := running_planned hw (reach_step hs hr') hk
      have := h.unstarted p hpl (take_unstarted hs hr' hk)
      simpa [upd, Good] using this
    · simpa [upd, hki] using h.good k p hk'
  case prog i p fs ph _ hi hp =>
    have hpl := running_planned hw hs hi
    refine qinvB_work hl hw hn hft hs ha h hi (progStep_frame hp) ?_
    refine progStep_good hl hr hpl ?_ ?_ (hft.whole p hpl) hp (h.good i p hi)
    · rw [h.src p hpl]; exact HasFile.ne (hft.src p hpl).1
    · exact h.cache p hpl (running_not_finished hs hi).1
  case rWrite i p k fs _ hi hk hwr =>
    refine qinvB_work hl hw hn hft hs ha h hi (write_frame hr hwr) ?_
    have hg := h.good i p hi
    rw [hk] at hg
    have hpl := running_planned hw hs hi
    cases k with
    | cached b =>
      exact ⟨hg.1.of_eq (frame_safe (write_frame hr hwr) b (hft.cached p hpl b hg.2).1 hg.1.ne), hg.2⟩
    | build => trivial
    | final b =>
      refine HasFile.of_eq hg ?_
      obtain ⟨x, hx, _⟩ := (ha.bin i p hi b (by rw [hk]; rfl)).1
      have htmp : e.tmp p <+: b := ⟨[x], hx.symm⟩
      have hlib : ¬ e.lib <+: b := not_prefix_ext (hl.tmpLib p) htmp
      apply Classical.byContradiction
      intro hne
      rcases hr.confined _ _ _ hwr b hne with h | h | h | h
      · exact hlib ((List.prefix_append _ _).trans h)
      · exact hlib ((List.prefix_append _ _).trans h)
      · simp [QEnv.rcall] at h
      · exact (hl.scratch _ h).2 p htmp
  case rExit i p k x _ hi hk hx =>
    refine qinvB_work hl hw hn hft hs ha h hi (WFrame.refl _) ?_
    have hpl := running_planned hw hs hi
    have hg := h.good i p hi
    rw [hk] at hg
    unfold afterR
    split
    · next hx' =>
      subst hx'
      refine ⟨fun hkb => ?_, fun hkb => ?_⟩
      · cases k with
        | cached b => obtain ⟨⟨x, h1, h2⟩, _⟩ := hg; exact hr.installs _ _ x hx h1 h2
        | build => exact absurd rfl hkb
        | final b => obtain ⟨x, h1, h2⟩ := hg; exact hr.installs _ _ x hx h1 h2
      · subst hkb
        obtain ⟨x, h1, h2⟩ := (hft.src p hpl).1
        rw [← h.src p hpl] at h1
        rintro b ⟨y, rfl, hy⟩ n hb
        exact hr.builds _ _ x hx rfl h1 h2 y n hy hb
    · next hx' =>
      intro hc
      cases x <;> simp [exitOf] at hc hx'
  case finish i p ret r _ hi hk hr' =>
    refine ⟨fun k q hk => h.good k q (workers_running_of_step hr' (by simp) hk), ?_,
      fun p hp' hlog => h.unstarted p hp' (started_mono hr' hlog), h.src,
      fun p hp' hlog => h.cache p hp' (finished_mono hr' hlog)⟩
    intro q hq hlog
    rcases log_of_finish hi hr' hlog with h1 | ⟨rfl, ho⟩
    · exact h.fin q hq h1
    · have := h.good i q hi
      rw [hk] at this
      refine this ?_
      unfold outcomeOf at ho
      cases he : ret.err
      · rfl
      · rw [he] at ho; simp at ho
  case mkStore p b _ hu hb =>
    obtain ⟨⟨x, hbx, hx⟩, hpa⟩ := ha.bins p b hb
    have hpl := jobRun_planned ha.jobs p hpa
    obtain ⟨_, hst, hsd, hne⟩ := hl.ball p hpl x hx
    rw [← hbx] at hst hne
    have hpi : p ∈ s.run.installed := updPkg_installed hs (by rw [hu]; rfl)
    have hother : ∀ q, q ≠ e.store p b → (q = e.storeDir p → s.fs q ≠ none) →
        (s.fs.mkdir (e.storeDir p)) q = s.fs q := by
      intro q h1 h2
      rcases mkdir_cases s.fs (e.storeDir p) q with h | ⟨h3, _, h4⟩
      · exact h
      · exact absurd h3 (h2 h4)
    have hlib : ∀ q, contentOf (s.fs.mkdir (e.storeDir p)) e.lib q = contentOf s.fs e.lib q := by
      intro q
      funext r
      have hq : e.lib <+: e.lib ++ q :: r := List.prefix_append _ _
      unfold contentOf
      generalize e.lib ++ q :: r = z at hq ⊢
      refine hother z ?_ ?_
      · rintro rfl; exact hst.1 hq
      · rintro rfl; exact absurd hq hsd.1
    refine ⟨?_, ?_, ?_, ?_, ?_⟩
    · intro k q hk
      have hqpl := running_planned hw hs hk
      have hqp : p ≠ q := by rintro rfl; exact (running_not_finished hs hk).2 hpi
      refine (h.good k q hk).spared ⟨hlib q, ?_, ?_⟩ (fun b hb => (ha.bin k q hk b hb).1)
      · intro z hz hzn
        exact hother z (((hne q hqpl).2 z hz).2 hqp) (fun _ => hzn)
      · rintro z ⟨y, rfl, _⟩
        have ht : e.tmp q <+: e.tmp q ++ [y] := List.prefix_append _ _
        refine hother _ ?_ ?_
        · intro hh; rw [hh] at ht; exact hst.2.1 q ht
        · intro hh; rw [hh] at ht; exact absurd ht (hsd.2.1 q)
    · intro q hq hlog
      show Complete q (contentOf (s.fs.mkdir (e.storeDir p)) e.lib q)
      rw [hlib]
      exact h.fin q hq hlog
    · intro q hq hlog
      exact (hlib q).trans (h.unstarted q hq hlog)
    · intro q hq
      rw [← h.src q hq]
      refine hother _ (hne q hq).1.symm (fun _ => ?_)
      rw [h.src q hq]
      exact HasFile.ne (hft.src q hq).1
    · intro q hq hlog z hz
      have hqp : p ≠ q := by rintro rfl; exact hlog (installed_finished hs hpi)
      refine (h.cache q hq hlog z hz).of_eq (hother z (((hne q hq).2 z hz).2 hqp) ?_)
      intro hh
      exact absurd hh ((hne q hq).2 z hz).1
  case copying p b c n _ hu hb hc hd =>
    obtain ⟨⟨x, hbx, hx⟩, hpa⟩ := ha.bins p b hb
    have hpl := jobRun_planned ha.jobs p hpa
    obtain ⟨_, hst, hsd, hne⟩ := hl.ball p hpl x hx
    rw [← hbx] at hst hne
    have hpi : p ∈ s.run.installed := updPkg_installed hs (by rw [hu]; rfl)
    have hother : ∀ q, q ≠ e.store p b → (q = e.storeDir p → s.fs q ≠ none) →
        ((s.fs.mkdir (e.storeDir p)).set (e.store p b) (.file (c.take n))) q = s.fs q := by
      intro q h1 h2
      unfold Fs.set
      rw [if_neg h1]
      rcases mkdir_cases s.fs (e.storeDir p) q with h | ⟨h3, _, h4⟩
      · exact h
      · exact absurd h3 (h2 h4)
    have hlib : ∀ q, contentOf ((s.fs.mkdir (e.storeDir p)).set (e.store p b) (.file (c.take n))) e.lib q = contentOf s.fs e.lib q := by
      intro q
      funext r
      have hq : e.lib <+: e.lib ++ q :: r := List.prefix_append _ _
      unfold contentOf
      generalize e.lib ++ q :: r = z at hq ⊢
      refine hother z ?_ ?_
      · rintro rfl; exact hst.1 hq
      · rintro rfl; exact absurd hq hsd.1
    refine ⟨?_, ?_, ?_, ?_, ?_⟩
    · intro k q hk
      have hqpl := running_planned hw hs hk
      have hqp : p ≠ q := by rintro rfl; exact (running_not_finished hs hk).2 hpi
      refine (h.good k q hk).spared ⟨hlib q, ?_, ?_⟩ (fun b hb => (ha.bin k q hk b hb).1)
      · intro z hz hzn
        exact hother z (((hne q hqpl).2 z hz).2 hqp) (fun _ => hzn)
      · rintro z ⟨y, rfl, _⟩
        have ht : e.tmp q <+: e.tmp q ++ [y] := List.prefix_append _ _
        refine hother _ ?_ ?_
        · intro hh; rw [hh] at ht; exact hst.2.1 q ht
        · intro hh; rw [hh] at ht; exact absurd ht (hsd.2.1 q)
    · intro q hq hlog
      show Complete q (contentOf ((s.fs.mkdir (e.storeDir p)).set (e.store p b) (.file (c.take n))) e.lib q)
      rw [hlib]
      exact h.fin q hq hlog
    · intro q hq hlog
      exact (hlib q).trans (h.unstarted q hq hlog)
    · intro q hq
      rw [← h.src q hq]
      refine hother _ (hne q hq).1.symm (fun _ => ?_)
      rw [h.src q hq]
      exact HasFile.ne (hft.src q hq).1
    · intro q hq hlog z hz
      have hqp : p ≠ q := by rintro rfl; exact hlog (installed_finished hs hpi)
      refine (h.cache q hq hlog z hz).of_eq (hother z (((hne q hq).2 z hz).2 hqp) ?_)
      intro hh
      exact absurd hh ((hne q hq).2 z hz).1
  case copied p b c r _ hu hb hc hc' hr' =>
    obtain ⟨x, hx, _⟩ := (ha.bins p b hb).1
    have hpl := jobRun_planned ha.jobs p (ha.bins p b hb).2
    have hpi : p ∈ s.run.installed := updPkg_installed hs (by rw [hu]; rfl)
    have htmp : e.tmp p <+: b := ⟨[x], hx.symm⟩
    have hlib : ∀ q, contentOf (fun q => if q = b then none else s.fs q) e.lib q = contentOf s.fs e.lib q := by
      intro q
      funext r
      unfold contentOf
      dsimp only
      rw [if_neg]
      rintro rfl
      exact lib_not_tmp hl p (List.prefix_append _ _) htmp
    have hsafe : ∀ q, SafePlace e Scratch q → q ≠ b := by
      rintro q hq rfl; exact hq.2.1 p htmp
    refine ⟨?_, ?_, ?_, ?_, ?_⟩
    · intro k q hk
      have hk' := workers_running_of_step hr' (by simp) hk
      have hqp : q ≠ p := by rintro rfl; exact (running_not_finished hs hk').2 hpi
      refine (h.good k q hk').spared ⟨hlib q, ?_, ?_⟩ (fun b hb => (ha.bin k q hk' b hb).1)
      · intro z hz _
        dsimp only
        rw [if_neg (hsafe z (hft.cached q (running_planned hw hs hk') z hz).1)]
      · rintro b' ⟨y, rfl, _⟩
        dsimp only
        rw [if_neg]
        rintro rfl
        exact not_prefix_ext (hl.tmpTmp q (running_planned hw hs hk') p hpl hqp) htmp (List.prefix_append _ _)
    · intro q hq hlog
      show Complete q (contentOf (fun q => if q = b then none else s.fs q) e.lib q)
      rw [hlib]
      exact h.fin q hq (log_of_step hr' (by simp) hlog)
    · intro q hq hlog
      exact (hlib q).trans (h.unstarted q hq (started_mono hr' hlog))
    · intro q hq
      dsimp only
      rw [if_neg (hsafe _ (hft.src q hq).2)]; exact h.src q hq
    · intro q hq hlog z hz
      refine (h.cache q hq (finished_mono hr' hlog) z hz).of_eq ?_
      dsimp only
      rw [if_neg (hsafe z (hft.cached q hq z hz).1)]
  case copyFails r _ hr' =>
    exact ⟨fun k q hk => h.good k q (workers_running_of_step hr' (by simp) hk),
      fun p hp' hlog => h.fin p hp' (log_of_step hr' (by simp) hlog),
      fun p hp' hlog => h.unstarted p hp' (started_mono hr' hlog), h.src,
      fun p hp' hlog => h.cache p hp' (finished_mono hr' hlog)⟩

theorem qreach_invB {e : QEnv} {Scratch : Path → Prop} {Complete : Str → (Path → Option Node) → Prop} {Holds : Str → Str → Prop} (hl : Layout e Scratch) (hr : RContract e Scratch Complete Holds)
    (hw : WellFormed e.job) (hn : ∀ p ∈ Job.plan e.job, ¬ IsLock p) {fs0 : Fs} (hft : FilesThere e Scratch Complete Holds fs0)
    {s : QState} (h : QReach e fs0 s) : QInvB e Complete Holds fs0 s := by
  have h' : QReach e fs0 s := h
  induction h with
  | refl =>
    refine ⟨?_, ?_, fun _ _ _ => rfl, fun _ _ => rfl, fun p hp _ b hb => (hft.cached p hp b hb).2⟩
    · intro i p _; simp [QEnv.init, Good]
    · intro p _ h; simp [QEnv.init, Job.init] at h
  | tail hs hst ih =>
    obtain ⟨act, ha⟩ := qreach_invA hl hr hw hs
    exact qinvB_step hl hr hw hn hft (qreach_reach hs) ha (ih hs) hst

end Pkgr
