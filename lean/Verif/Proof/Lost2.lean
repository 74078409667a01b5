/- Proofs for C119: if R has put something that is no file in the place of the binary, the binary is never copied. -/
import Verif.Proof.Lost
import Verif.Props.Sched

namespace Pkgr
open Spec

variable {e : QEnv} {Scratch : Path → Prop} {Complete : Str → (Path → Option Node) → Prop} {Holds : Str → Str → Prop}

/-! ### The scheduler: a built binary waits for its copy -/

/-- The binary of `p` is still to be copied, or something went wrong. -/
def Owes (p : Str) (s : RunState) : Prop :=
  (∃ i : Nat, s.workers[i]? = some (Worker.holding p (.ok true))) ∨ (p, Outcome.ok true) ∈ s.updQ ∨
    (∃ xs, s.updater = .scan p xs true) ∨ (∃ x xs, s.updater = .send x p xs true) ∨ s.updater = .copy p ∨ 0 < s.leaked

theorem updater_of_step {j : Job} {s r : RunState} {ev : Event} (h : j.step s ev = some r) (h1 : ev ≠ .updTake)
    (h2 : ev ≠ .updScan) (h3 : ev ≠ .updSend) (h4 : ∀ ok, ev ≠ .updCopy ok) (h5 : ev ≠ .updDone) : r.updater = s.updater := by
  cases ev with
  | take k => simp only [Job.step, stepTake] at h; split at h <;> cases h; rfl
  | finish k o => simp only [Job.step, stepFinish] at h; split at h <;> cases h; rfl
  | post k =>
    simp only [Job.step, stepPost] at h
    split at h
    · split at h <;> cases h
      rfl
    · cases h
  | mainAdd => simp only [Job.step, stepMainAdd] at h; split at h <;> cases h; rfl
  | mainSend => simp only [Job.step, stepMainSend] at h; split at h <;> cases h; rfl
  | mainReturn =>
    simp only [Job.step, stepMainReturn] at h
    split at h
    · split at h <;> cases h; rfl
    · cases h
  | reqCheck =>
    simp only [Job.step, stepReqCheck] at h
    split at h
    · split at h
      · cases h; rfl
      · split at h <;> cases h <;> rfl
    · cases h
  | reqPush =>
    simp only [Job.step, stepReqPush] at h
    split at h
    · split at h <;> cases h; rfl
    · cases h
  | updTake => exact absurd rfl h1
  | updScan => exact absurd rfl h2
  | updSend => exact absurd rfl h3
  | updCopy ok => exact absurd rfl (h4 ok)
  | updDone => exact absurd rfl h5

theorem owes_set {p : Str} {ws : List Worker} {k : Nat} {w w' : Worker} (hk : ws[k]? = some w)
    (hw : ∀ p o, w ≠ .holding p o) (h : ∃ i : Nat, ws[i]? = some (Worker.holding p (.ok true))) :
    ∃ i : Nat, (ws.set k w')[i]? = some (Worker.holding p (.ok true)) := by
  obtain ⟨i, hi⟩ := h
  refine ⟨i, ?_⟩
  by_cases hik : k = i
  · subst hik; rw [hk] at hi; cases hi; exact absurd rfl (hw _ _)
  · rw [List.getElem?_set_ne hik]; exact hi

theorem owes_step {j : Job} {p : Str} {s r : RunState} {ev : Event} (ho : Owes p s) (h : j.step s ev = some r)
    (hc : ev = .updCopy true → s.updater ≠ .copy p) : Owes p r := by
  have hlk := (leaked_mono h).1
  rcases ho with ho | ho | ho | ho | ho | ho
  · cases ev with
    | take k =>
      simp only [Job.step, stepTake] at h; split at h <;> cases h
      next hk _ => exact .inl (owes_set hk (by simp) ho)
    | finish k o =>
      simp only [Job.step, stepFinish] at h; split at h <;> cases h
      next hk => exact .inl (owes_set hk (by simp) ho)
    | post k =>
      simp only [Job.step, stepPost] at h
      split at h
      · next p' o hk =>
        split at h <;> cases h
        obtain ⟨i, hi⟩ := ho
        by_cases hik : k = i
        · subst hik; rw [hk] at hi; cases hi; exact .inr (.inl (by simp))
        · exact .inl ⟨i, by dsimp only; rw [List.getElem?_set_ne hik]; exact hi⟩
      · cases h
    | mainAdd => simp only [Job.step, stepMainAdd] at h; split at h <;> cases h; exact .inl ho
    | mainSend => simp only [Job.step, stepMainSend] at h; split at h <;> cases h; exact .inl ho
    | mainReturn =>
      simp only [Job.step, stepMainReturn] at h
      split at h
      · split at h <;> cases h; exact .inl ho
      · cases h
    | reqCheck =>
      simp only [Job.step, stepReqCheck] at h
      split at h
      · split at h
        · cases h; exact .inl ho
        · split at h <;> cases h <;> exact .inl ho
      · cases h
    | reqPush =>
      simp only [Job.step, stepReqPush] at h
      split at h
      · split at h <;> cases h; exact .inl ho
      · cases h
    | updTake => simp only [Job.step, stepUpdTake] at h; split at h <;> cases h <;> exact .inl ho
    | updScan =>
      simp only [Job.step, stepUpdScan] at h
      split at h
      · split at h <;> cases h <;> exact .inl ho
      · cases h; exact .inl ho
      · cases h
    | updSend => simp only [Job.step, stepUpdSend] at h; split at h <;> cases h; exact .inl ho
    | updCopy ok =>
      simp only [Job.step, stepUpdCopy] at h
      split at h
      · split at h <;> cases h <;> exact .inl ho
      · cases h
    | updDone => simp only [Job.step, stepUpdDone] at h; split at h <;> cases h; exact .inl ho
  · cases ev with
    | take k => simp only [Job.step, stepTake] at h; split at h <;> cases h; exact .inr (.inl ho)
    | finish k o => simp only [Job.step, stepFinish] at h; split at h <;> cases h; exact .inr (.inl ho)
    | post k =>
      simp only [Job.step, stepPost] at h
      split at h
      · split at h <;> cases h
        exact .inr (.inl (List.mem_append_left _ ho))
      · cases h
    | mainAdd => simp only [Job.step, stepMainAdd] at h; split at h <;> cases h; exact .inr (.inl ho)
    | mainSend => simp only [Job.step, stepMainSend] at h; split at h <;> cases h; exact .inr (.inl ho)
    | mainReturn =>
      simp only [Job.step, stepMainReturn] at h
      split at h
      · split at h <;> cases h; exact .inr (.inl ho)
      · cases h
    | reqCheck =>
      simp only [Job.step, stepReqCheck] at h
      split at h
      · split at h
        · cases h; exact .inr (.inl ho)
        · split at h <;> cases h <;> exact .inr (.inl ho)
      · cases h
    | reqPush =>
      simp only [Job.step, stepReqPush] at h
      split at h
      · split at h <;> cases h; exact .inr (.inl ho)
      · cases h
    | updTake =>
      simp only [Job.step, stepUpdTake] at h
      split at h
      · next p' q _ hq =>
        cases h
        rw [hq] at ho
        rcases List.mem_cons.1 ho with ho | ho
        · cases ho
        · exact .inr (.inl ho)
      · next p' b q _ hq =>
        cases h
        rw [hq] at ho
        rcases List.mem_cons.1 ho with ho | ho
        · cases ho; exact .inr (.inr (.inl ⟨_, rfl⟩))
        · exact .inr (.inl ho)
      · cases h
    | updScan =>
      simp only [Job.step, stepUpdScan] at h
      split at h
      · split at h <;> cases h <;> exact .inr (.inl ho)
      · cases h; exact .inr (.inl ho)
      · cases h
    | updSend => simp only [Job.step, stepUpdSend] at h; split at h <;> cases h; exact .inr (.inl ho)
    | updCopy ok =>
      simp only [Job.step, stepUpdCopy] at h
      split at h
      · split at h <;> cases h <;> exact .inr (.inl ho)
      · cases h
    | updDone => simp only [Job.step, stepUpdDone] at h; split at h <;> cases h; exact .inr (.inl ho)
  · obtain ⟨xs, ho⟩ := ho
    have hsame : r.updater = s.updater → Owes p r := fun hr => .inr (.inr (.inl ⟨xs, hr.trans ho⟩))
    cases ev with
    | updTake => simp [Job.step, stepUpdTake, ho] at h
    | updScan =>
      simp only [Job.step, stepUpdScan, ho] at h
      cases xs with
      | nil => simp at h; subst h; exact .inr (.inr (.inr (.inr (.inl rfl))))
      | cons x xs =>
        simp only at h
        split at h <;> cases h
        · exact .inr (.inr (.inr (.inl ⟨_, _, rfl⟩)))
        · exact .inr (.inr (.inl ⟨_, rfl⟩))
    | updSend => simp [Job.step, stepUpdSend, ho] at h
    | updCopy ok => simp [Job.step, stepUpdCopy, ho] at h
    | updDone => simp [Job.step, stepUpdDone, ho] at h
    | _ => exact hsame (updater_of_step h (by simp) (by simp) (by simp) (by simp) (by simp))
  · obtain ⟨x, xs, ho⟩ := ho
    have hsame : r.updater = s.updater → Owes p r := fun hr => .inr (.inr (.inr (.inl ⟨x, xs, hr.trans ho⟩)))
    cases ev with
    | updTake => simp [Job.step, stepUpdTake, ho] at h
    | updScan => simp [Job.step, stepUpdScan, ho] at h
    | updSend =>
      simp only [Job.step, stepUpdSend, ho] at h
      split at h
      · next heq _ => cases heq; cases h; exact .inr (.inr (.inl ⟨_, rfl⟩))
      · cases h
    | updCopy ok => simp [Job.step, stepUpdCopy, ho] at h
    | updDone => simp [Job.step, stepUpdDone, ho] at h
    | _ => exact hsame (updater_of_step h (by simp) (by simp) (by simp) (by simp) (by simp))
  · have hsame : r.updater = s.updater → Owes p r := fun hr => .inr (.inr (.inr (.inr (.inl (hr.trans ho)))))
    cases ev with
    | updTake => simp [Job.step, stepUpdTake, ho] at h
    | updScan => simp [Job.step, stepUpdScan, ho] at h
    | updSend => simp [Job.step, stepUpdSend, ho] at h
    | updCopy ok =>
      cases ok with
      | true => exact absurd ho (hc rfl)
      | false =>
        simp only [Job.step, stepUpdCopy, ho] at h
        cases h
        exact .inr (.inr (.inr (.inr (.inr (by simp)))))
    | updDone => simp [Job.step, stepUpdDone, ho] at h
    | _ => exact hsame (updater_of_step h (by simp) (by simp) (by simp) (by simp) (by simp))
  · exact .inr (.inr (.inr (.inr (.inr (by omega)))))

theorem owes_not_returned {j : Job} {p : Str} {s : RunState} (hs : Reach j s) (h : Owes p s) : s.ret = none := by
  cases hr : s.ret with
  | none => rfl
  | some r =>
    exfalso
    obtain ⟨_, _, _, _, h1, h2, h3, h4⟩ := returned_idle (reach_inv hs) hr
    rcases h with ⟨i, hi⟩ | h | ⟨xs, h⟩ | ⟨x, xs, h⟩ | h | h
    · cases h1 _ (List.mem_of_getElem? hi)
    · rw [h2] at h; cases h
    · rw [h3] at h; cases h
    · rw [h3] at h; cases h
    · rw [h3] at h; cases h
    · omega

/-! ### The queue -/

/-- There is no regular file that pkgr would take for the binary of `p`. -/
def NoFileBin (e : QEnv) (p : Str) (fs : Fs) : Prop := ∀ b, InTmp e p b → ∀ x, fs b ≠ some (.file x)

/-- What is known at each point of the installation of a package that was not delivered. -/
def GoodM (e : QEnv) (p : Str) (fs : Fs) : IPhase → Prop
  | .begin => fs (e.lib ++ [p]) ≠ some .dir
  | .call k => (∀ b, k ≠ .cached b) ∧ (k ≠ .build → NoFileBin e p fs)
  | .inR k => (∀ b, k ≠ .cached b) ∧ (k ≠ .build → NoFileBin e p fs)
  | .stamp k => (∀ b, k ≠ .cached b) ∧ NoFileBin e p fs
  | .stampWrite k _ => (∀ b, k ≠ .cached b) ∧ NoFileBin e p fs
  | .returned k c => (∀ b, k ≠ .cached b) ∧ (c.err = false → NoFileBin e p fs ∧ (k = .build → c.exitCode = 0))
  | .find => NoFileBin e p fs
  | .done r => r.err = false → r.binary.isSome = true ∧ NoFileBin e p fs
  | _ => True

theorem GoodM.same {p : Str} {fs fs' : Fs} {ph : IPhase} (h : GoodM e p fs ph) (hd : fs' (e.lib ++ [p]) = fs (e.lib ++ [p]))
    (hb : ∀ b, InTmp e p b → ∀ x, fs' b = some (.file x) → fs b = some (.file x)) : GoodM e p fs' ph := by
  have hn : NoFileBin e p fs → NoFileBin e p fs' := fun h b hi x hx => h b hi x (hb b hi x hx)
  cases ph with
  | «begin» => unfold GoodM; rw [hd]; exact h
  | call k => exact ⟨h.1, fun hk => hn (h.2 hk)⟩
  | inR k => exact ⟨h.1, fun hk => hn (h.2 hk)⟩
  | stamp k => exact ⟨h.1, hn h.2⟩
  | stampWrite k c => exact ⟨h.1, hn h.2⟩
  | returned k c => exact ⟨h.1, fun hc => ⟨hn (h.2 hc).1, (h.2 hc).2⟩⟩
  | find => exact hn h
  | done r => exact fun hr => ⟨(h hr).1, hn (h hr).2⟩
  | _ => exact h

structure QInvM (e : QEnv) (p : Str) (s : QState) : Prop where
  good : ∀ i : Nat, s.run.workers[i]? = some (Worker.running p) → GoodM e p s.fs (s.progs i)
  fin : LogEntry.finished p true ∈ s.run.log → Owes p s.run ∧ NoFileBin e p s.fs
  unstarted : LogEntry.started p ∉ s.run.log → s.fs (e.lib ++ [p]) ≠ some .dir
  cwd : s.fs e.ie.cwd = some .dir
  binary : ∀ b, e.ie.cachedBinary (e.download p).metadata = some b → s.fs b = none

theorem noFileBin_set {p : Str} {fs : Fs} (k : Pass) (hl : Layout e Scratch) (n : Node) (h : NoFileBin e p fs) :
    NoFileBin e p (fs.set (e.descOf p k) n) := by
  rintro b ⟨y, rfl, hy⟩ x hx
  refine h _ ⟨y, rfl, hy⟩ x ?_
  unfold Fs.set at hx
  rw [if_neg] at hx
  · exact hx
  · intro hh
    cases k with
    | build =>
      have := congrArg List.length hh
      simp [QEnv.descOf, QEnv.rcall] at this
    | cached b =>
      have hq : e.lib <+: e.descOf p (.cached b) := List.prefix_append _ _
      rw [← hh] at hq
      exact lib_not_tmp hl p hq (List.prefix_append _ _)
    | final b =>
      have hq : e.lib <+: e.descOf p (.final b) := List.prefix_append _ _
      rw [← hh] at hq
      exact lib_not_tmp hl p hq (List.prefix_append _ _)

theorem noFileBin_clean {p : Str} {fs : Fs} {d : Path} (h : NoFileBin e p fs) : NoFileBin e p (cleanTmp fs d) := by
  intro b hb x
  unfold cleanTmp
  split
  · unfold Fs.removeAll
    split
    · simp
    · exact h b hb x
  · exact h b hb x

/-- A step of pkgr's own code in the installation of the undelivered package. -/
theorem progStep_lostM (hl : Layout e Scratch) {p : Str} {fs fs' : Fs} {ph ph' : IPhase}
    (hcwd : fs (e.src p) = some .dir) (hbin : ∀ b, e.ie.cachedBinary (e.download p).metadata = some b → fs b = none)
    (h : e.progStep p fs ph = some (fs', ph')) (hg : GoodM e p fs ph) : GoodM e p fs' ph' := by
  cases ph with
  | «begin» =>
    simp only [QEnv.progStep] at h
    split at h
    · next hd => exact absurd (by simpa [Fs.isDir] using hd) hg
    · cases h; trivial
  | lookup =>
    simp only [QEnv.progStep, QEnv.lookupStep] at h; cases h
    split
    · trivial
    · next b hb => rw [if_neg (by simp [Fs.ex, hbin b hb])]; trivial
  | mkTmp => simp only [QEnv.progStep] at h; cases h; exact ⟨by simp, fun h => absurd rfl h⟩
  | call k =>
    simp only [QEnv.progStep, QEnv.callStep] at h; cases h
    split
    · trivial
    · split
      · next hex =>
        refine ⟨hg.1, fun _ => ?_⟩
        have hk : k ≠ .build := by
          rintro rfl
          simp [Fs.ex, QEnv.rcall, hcwd] at hex
        exact ⟨hg.2 hk, fun h => absurd h hk⟩
      · exact hg
  | inR k => simp [QEnv.progStep] at h
  | stamp k =>
    simp only [QEnv.progStep, QEnv.stampStep] at h
    split at h <;> cases h
    · exact ⟨hg.1, noFileBin_set k hl _ hg.2⟩
    · exact ⟨hg.1, fun _ => ⟨hg.2, fun _ => rfl⟩⟩
  | stampWrite k c =>
    simp only [QEnv.progStep] at h; cases h
    exact ⟨hg.1, fun _ => ⟨noFileBin_set k hl _ hg.2, fun _ => rfl⟩⟩
  | returned k c =>
    simp only [QEnv.progStep, QEnv.returnStep] at h
    cases k with
    | cached b => exact absurd rfl (hg.1 b)
    | build =>
      cases h
      split
      · next hok =>
        have he : c.err = false := by
          rw [Bool.and_eq_true] at hok
          simpa using hok.1
        exact noFileBin_clean (hg.2 he).1
      · next hno =>
        intro he
        dsimp only at he
        rw [he, (hg.2 he).2 rfl] at hno
        simp at hno
    | final b => cases h; exact fun he => ⟨rfl, (hg.2 he).1⟩
  | find =>
    simp only [QEnv.progStep, QEnv.findStep] at h; cases h
    split
    · trivial
    · split
      · intro he; simp at he
      · exact ⟨by simp, fun _ => hg⟩
  | done r => simp [QEnv.progStep] at h
  | dead => simp [QEnv.progStep] at h

/-- The common part of the steps of a worker. -/
theorem qinvM_work (hl : Layout e Scratch) (hw : WellFormed e.job) {fs0 : Fs} {p : Str} (hpl : p ∈ Job.plan e.job)
    (hlk : ¬ IsLock p) (hu : Undelivered e Scratch fs0 p) {s : QState} (hs : Reach e.job s.run) (h : QInvM e p s) {i : Nat}
    {p' : Str} {fs : Fs} {ph : IPhase} (hi : s.run.workers[i]? = some (Worker.running p')) (hf : WFrame e Scratch p' s.fs fs)
    (hg : p' = p → GoodM e p fs ph) : QInvM e p (s.work i fs ph) := by
  have hsp : p ≠ p' → Spares e p s.fs fs := fun hne => frame_spares hl hlk hpl (running_planned hw hs hi) hne (fun b hb => (hu.binary b hb).2) hf
  have hdir : p ≠ p' → fs (e.lib ++ [p]) = s.fs (e.lib ++ [p]) := fun hne => congrFun (hsp hne).dir []
  refine ⟨?_, ?_, ?_, ?_, ?_⟩
  · intro k hk
    by_cases hki : k = i
    · subst hki
      rw [show (s.work k fs ph).run = s.run from rfl, hi] at hk
      cases hk
      simpa [QState.work, upd] using hg rfl
    · have hne : p ≠ p' := by
        rintro rfl
        exact hki (running_unique hs hk hi)
      have := (h.good k hk).same (hdir hne) (fun b hb x hx => by rw [← (hsp hne).ball b hb]; exact hx)
      simpa [QState.work, upd, hki] using this
  · intro hlog
    have hne : p ≠ p' := by rintro rfl; exact (running_not_finished hs hi).1 hlog
    refine ⟨(h.fin hlog).1, fun b hb x => ?_⟩
    show fs b ≠ _
    rw [(hsp hne).ball b hb]
    exact (h.fin hlog).2 b hb x
  · intro hlog
    have hne : p ≠ p' := by rintro rfl; exact hlog (running_started hs hi)
    show fs (e.lib ++ [p]) ≠ some .dir
    rw [hdir hne]
    exact h.unstarted hlog
  · show fs e.ie.cwd = some .dir
    rw [frame_safe hf _ hu.cwd.2 (by rw [h.cwd]; simp)]
    exact h.cwd
  · intro b hb
    show fs b = none
    have := frame_may (Holds := fun _ _ => False) (p := p) hf (hu.binary b hb).2 (hl.cached p' (running_planned hw hs hi) p hpl b hb)
      (fun n hn => by rw [h.binary b hb] at hn; cases hn)
    cases hx : fs b with
    | none => rfl
    | some n => obtain ⟨_, _, hf⟩ := this n hx; exact absurd hf id

theorem owes_finish {j : Job} {p : Str} {s r : RunState} {i : Nat} (hi : s.workers[i]? = some (Worker.running p))
    (h : j.step s (.finish i (.ok true)) = some r) : Owes p r := by
  simp only [Job.step, stepFinish, hi] at h
  cases h
  refine .inl ⟨i, ?_⟩
  dsimp only
  rw [List.getElem?_set_self]
  exact (List.getElem?_eq_some_iff.1 hi).1

theorem qinvM_step (hl : Layout e Scratch) (hr : RContract e Scratch Complete Holds) (hns : NoStrayFile e)
    (hw : WellFormed e.job) {fs0 : Fs} {p : Str} (hpl : p ∈ Job.plan e.job) (hlk : ¬ IsLock p)
    (hu : Undelivered e Scratch fs0 p) {s s' : QState} {act : List Str} (hs : Reach e.job s.run) (ha : QInvA e fs0 s act)
    (h : QInvM e p s) (hstep : e.Step s s') : QInvM e p s' := by
  have hsrc := lost_src hu
  cases hstep
  case sched ev r _ hp hr' =>
    refine ⟨fun i hi => h.good i (workers_running_of_step hr' (plain_not_take hp) hi), ?_,
      fun hlog => h.unstarted (started_mono hr' hlog), h.cwd, h.binary⟩
    intro hlog
    have := h.fin (log_of_step hr' (plain_not_finish hp) hlog)
    exact ⟨owes_step this.1 hr' (by rintro rfl; simp [Event.plain] at hp), this.2⟩
  case take i r _ hr' =>
    refine ⟨?_, ?_, fun hlog => h.unstarted (started_mono hr' hlog), h.cwd, h.binary⟩
    · intro k hk
      rcases workers_running_of_take hr' hk with rfl | ⟨hki, hk'⟩
      · have := h.unstarted (take_unstarted hs hr' hk)
        simpa [upd, GoodM] using this
      · simpa [upd, hki] using h.good k hk'
    · intro hlog
      have := h.fin (log_of_step hr' (by simp) hlog)
      exact ⟨owes_step this.1 hr' (by simp), this.2⟩
  case prog i p' fs ph _ hi hp =>
    refine qinvM_work hl hw hpl hlk hu hs h hi (progStep_frame hp) ?_
    rintro rfl
    exact progStep_lostM hl (by rw [hsrc]; exact h.cwd) h.binary hp (h.good i hi)
  case rWrite i p' k fs _ hi hk hwr =>
    refine qinvM_work hl hw hpl hlk hu hs h hi (write_frame hr hwr) ?_
    rintro rfl
    have hg := h.good i hi
    rw [hk] at hg
    refine ⟨hg.1, fun hkb => ?_⟩
    rintro b ⟨y, rfl, hy⟩ x
    rw [show fs (e.tmp p' ++ [y]) = s.fs (e.tmp p' ++ [y]) from ?_]
    · exact hg.2 hkb _ ⟨y, rfl, hy⟩ x
    have htmp : e.tmp p' <+: e.tmp p' ++ [y] := List.prefix_append _ _
    have hlib : ¬ e.lib <+: e.tmp p' ++ [y] := not_prefix_ext (hl.tmpLib p') htmp
    cases k with
    | cached b => exact absurd rfl (hg.1 b)
    | build => exact absurd rfl hkb
    | final b =>
      apply Classical.byContradiction
      intro hne
      rcases hr.confined _ _ _ hwr _ hne with h | h | h | h
      · exact hlib ((List.prefix_append _ _).trans h)
      · exact hlib ((List.prefix_append _ _).trans h)
      · simp [QEnv.rcall] at h
      · exact (hl.scratch _ h).2 p' htmp
  case rExit i p' k x _ hi hk hx =>
    refine qinvM_work hl hw hpl hlk hu hs h hi (WFrame.refl _) ?_
    rintro rfl
    have hg := h.good i hi
    rw [hk] at hg
    unfold afterR
    split
    · next hx' =>
      subst hx'
      refine ⟨hg.1, ?_⟩
      by_cases hkb : k = .build
      · subst hkb
        rintro b ⟨y, rfl, hy⟩
        refine hns _ _ hx rfl ?_ y hy
        show s.fs (e.src p') = some .dir
        rw [hsrc]; exact h.cwd
      · exact hg.2 hkb
    · next hx' =>
      refine ⟨hg.1, fun hc => ?_⟩
      cases x <;> simp [exitOf] at hc hx'
  case finish i p' ret r _ hi hk hr' =>
    refine ⟨fun k hk => h.good k (workers_running_of_step hr' (by simp) hk), ?_, fun hlog => h.unstarted (started_mono hr' hlog),
      h.cwd, h.binary⟩
    intro hlog
    rcases log_of_finish hi hr' hlog with h1 | ⟨rfl, ho⟩
    · exact ⟨owes_step (h.fin h1).1 hr' (by simp), (h.fin h1).2⟩
    · have hg := h.good i hi
      rw [hk] at hg
      have hre : ret.err = false := by
        unfold outcomeOf at ho
        cases he : ret.err
        · rfl
        · rw [he] at ho; simp at ho
      obtain ⟨hb, hn⟩ := hg hre
      refine ⟨?_, hn⟩
      have hout : outcomeOf ret = .ok true := by unfold outcomeOf; rw [hre, hb]; rfl
      rw [hout] at hr'
      exact owes_finish hi hr'
  case mkStore p' b _ hup hb =>
    obtain ⟨⟨x, hbx, hx⟩, hpa⟩ := ha.bins p' b hb
    have hpl' := jobRun_planned ha.jobs p' hpa
    obtain ⟨_, hst, hsd, hne⟩ := hl.ball p' hpl' x hx
    rw [← hbx] at hst hne
    have hpi : p' ∈ s.run.installed := updPkg_installed hs (by rw [hup]; rfl)
    have hother : ∀ q, q ≠ e.store p' b → (q = e.storeDir p' → s.fs q ≠ none) →
        (s.fs.mkdir (e.storeDir p')) q = s.fs q := by
      intro q h1 h2
      rcases mkdir_cases s.fs (e.storeDir p') q with h | ⟨h3, _, h4⟩
      · exact h
      · exact absurd h3 (h2 h4)
    have hball : ∀ z, InTmp e p z →
        (s.fs.mkdir (e.storeDir p')) z = s.fs z := by
      rintro z ⟨y, rfl, _⟩
      have ht : e.tmp p <+: e.tmp p ++ [y] := List.prefix_append _ _
      refine hother _ ?_ ?_
      · intro hh; rw [hh] at ht; exact hst.2.1 p ht
      · intro hh; rw [hh] at ht; exact absurd ht (hsd.2.1 p)
    have hlib : (s.fs.mkdir (e.storeDir p')) (e.lib ++ [p]) = s.fs (e.lib ++ [p]) := by
      have hq : e.lib <+: e.lib ++ [p] := List.prefix_append _ _
      refine hother (e.lib ++ [p]) ?_ ?_
      · intro hh; rw [hh] at hq; exact hst.1 hq
      · intro hh; rw [hh] at hq; exact absurd hq hsd.1
    refine ⟨?_, ?_, ?_, ?_, ?_⟩
    · intro k hk
      exact (h.good k hk).same hlib (fun z hz y hy => (hball z hz).symm.trans hy)
    · intro hlog
      refine ⟨(h.fin hlog).1, fun z hz y => ?_⟩
      dsimp only
      rw [hball z hz]
      exact (h.fin hlog).2 z hz y
    · intro hlog
      dsimp only
      rw [hlib]
      exact h.unstarted hlog
    · refine (hother e.ie.cwd ?_ ?_).trans h.cwd
      · rw [← hsrc]; exact (hne p hpl).1.symm
      · intro _; rw [h.cwd]; simp
    · intro z hz
      rcases mkdir_cases s.fs (e.storeDir p') z with h1 | ⟨_, _, h4⟩
      · exact h1.trans (h.binary z hz)
      · exact absurd h4 ((hne p hpl).2 z hz).1
  case copying p' b c n _ hup hb hc hd =>
    obtain ⟨⟨x, hbx, hx⟩, hpa⟩ := ha.bins p' b hb
    have hpl' := jobRun_planned ha.jobs p' hpa
    obtain ⟨_, hst, hsd, hne⟩ := hl.ball p' hpl' x hx
    rw [← hbx] at hst hne
    have hpi : p' ∈ s.run.installed := updPkg_installed hs (by rw [hup]; rfl)
    have hpp : p' ≠ p := by
      rintro rfl
      exact (h.fin (installed_finished hs hpi)).2 b (ha.bins p' b hb).1 c hc
    have hother : ∀ q, q ≠ e.store p' b → (q = e.storeDir p' → s.fs q ≠ none) →
        ((s.fs.mkdir (e.storeDir p')).set (e.store p' b) (.file (c.take n))) q = s.fs q := by
      intro q h1 h2
      unfold Fs.set
      rw [if_neg h1]
      rcases mkdir_cases s.fs (e.storeDir p') q with h | ⟨h3, _, h4⟩
      · exact h
      · exact absurd h3 (h2 h4)
    have hball : ∀ z, InTmp e p z →
        ((s.fs.mkdir (e.storeDir p')).set (e.store p' b) (.file (c.take n))) z = s.fs z := by
      rintro z ⟨y, rfl, _⟩
      have ht : e.tmp p <+: e.tmp p ++ [y] := List.prefix_append _ _
      refine hother _ ?_ ?_
      · intro hh; rw [hh] at ht; exact hst.2.1 p ht
      · intro hh; rw [hh] at ht; exact absurd ht (hsd.2.1 p)
    have hlib : ((s.fs.mkdir (e.storeDir p')).set (e.store p' b) (.file (c.take n))) (e.lib ++ [p]) = s.fs (e.lib ++ [p]) := by
      have hq : e.lib <+: e.lib ++ [p] := List.prefix_append _ _
      refine hother (e.lib ++ [p]) ?_ ?_
      · intro hh; rw [hh] at hq; exact hst.1 hq
      · intro hh; rw [hh] at hq; exact absurd hq hsd.1
    refine ⟨?_, ?_, ?_, ?_, ?_⟩
    · intro k hk
      exact (h.good k hk).same hlib (fun z hz y hy => (hball z hz).symm.trans hy)
    · intro hlog
      refine ⟨(h.fin hlog).1, fun z hz y => ?_⟩
      dsimp only
      rw [hball z hz]
      exact (h.fin hlog).2 z hz y
    · intro hlog
      dsimp only
      rw [hlib]
      exact h.unstarted hlog
    · refine (hother e.ie.cwd ?_ ?_).trans h.cwd
      · rw [← hsrc]; exact (hne p hpl).1.symm
      · intro _; rw [h.cwd]; simp
    · intro z hz
      refine (hother z (((hne p hpl).2 z hz).2 hpp) ?_).trans (h.binary z hz)
      intro hh
      exact absurd hh ((hne p hpl).2 z hz).1
  case copied p' b c r _ hup hb hc hc' hr' =>
    obtain ⟨x, hx, _⟩ := (ha.bins p' b hb).1
    have hpi : p' ∈ s.run.installed := updPkg_installed hs (by rw [hup]; rfl)
    have hpp : p' ≠ p := by
      rintro rfl
      exact (h.fin (installed_finished hs hpi)).2 b (ha.bins p' b hb).1 c hc
    have htmp : e.tmp p' <+: b := ⟨[x], hx.symm⟩
    have hlib : (fun q => if q = b then none else s.fs q) (e.lib ++ [p]) = s.fs (e.lib ++ [p]) := by
      dsimp only
      rw [if_neg]
      intro hh
      rw [← hh] at htmp
      exact lib_not_tmp hl p' (List.prefix_append _ _) htmp
    have hball : ∀ z x, (fun q => if q = b then none else s.fs q) z = some (Node.file x) → s.fs z = some (.file x) := by
      intro z x hz
      dsimp only at hz
      split at hz
      · cases hz
      · exact hz
    refine ⟨?_, ?_, ?_, ?_, ?_⟩
    · intro k hk
      exact (h.good k (workers_running_of_step hr' (by simp) hk)).same hlib (fun z _ y hy => hball z y hy)
    · intro hlog
      have := h.fin (log_of_step hr' (by simp) hlog)
      refine ⟨owes_step this.1 hr' (fun _ hh => hpp ?_), fun z hz y hy => this.2 z hz y (hball z y hy)⟩
      rw [hup] at hh
      exact Updater.copy.inj hh
    · intro hlog
      dsimp only at hlib ⊢
      rw [hlib]
      exact h.unstarted (started_mono hr' hlog)
    · dsimp only
      rw [if_neg]
      · exact h.cwd
      · intro hh
        rw [← hh] at htmp
        exact hu.cwd.2.2.1 p' htmp
    · intro z hz
      dsimp only
      rw [h.binary z hz]; simp
  case copyFails r _ hr' =>
    refine ⟨fun k hk => h.good k (workers_running_of_step hr' (by simp) hk), ?_,
      fun hlog => h.unstarted (started_mono hr' hlog), h.cwd, h.binary⟩
    intro hlog
    have := h.fin (log_of_step hr' (by simp) hlog)
    exact ⟨owes_step this.1 hr' (by simp), this.2⟩

theorem qreach_invM (hl : Layout e Scratch) (hr : RContract e Scratch Complete Holds) (hns : NoStrayFile e)
    (hw : WellFormed e.job) {fs0 : Fs} {p : Str} (hpl : p ∈ Job.plan e.job) (hlk : ¬ IsLock p)
    (hu : Undelivered e Scratch fs0 p) {s : QState} (h : QReach e fs0 s) : QInvM e p s := by
  induction h with
  | refl =>
    exact ⟨fun i _ => by simpa [QEnv.init, GoodM] using hu.library, fun hlog => by simp [QEnv.init, Job.init] at hlog,
      fun _ => hu.library, hu.cwd.1, fun b hb => (hu.binary b hb).1⟩
  | tail hs hst ih =>
    obtain ⟨act, ha⟩ := qreach_invA hl hr hw hs
    exact qinvM_step hl hr hns hw hpl hlk hu (qreach_reach hs) ha ih hst

end Pkgr
