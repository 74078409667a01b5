/- C38: when exactly a run comes to its end. -/
import Verif.Props.Sched

namespace Pkgr
open Spec

/-- The event hands a package over to be installed. -/
def Spec.HandsOver : Event → Bool
  | .mainSend => true
  | .updSend => true
  | _ => false

/-- The entry says that an installation started. -/
def Spec.IsStart : LogEntry → Bool
  | .started _ => true
  | _ => false

/-- What was handed over has been started, is queued or looked at, or was dropped. -/
structure HandInv (h c : Nat) (s : RunState) : Prop where
  tok : h + c = s.log.countP IsStart + s.workQ.length + reqTok s.requester + s.leaked
  copies : c ≤ s.leaked

theorem handInv_step {j : Job} {s s' : RunState} {e : Event} {h c : Nat} (hi : HandInv h c s) (hs : j.step s e = some s') :
    HandInv (h + if HandsOver e then 1 else 0) (c + if e = .updCopy false then 1 else 0) s' := by
  obtain ⟨h1, h2⟩ := hi
  cases e with
  | mainAdd =>
    simp only [Job.step, stepMainAdd] at hs
    split at hs <;> cases hs
    exact ⟨by simpa [HandsOver] using h1, by simpa using h2⟩
  | mainSend =>
    simp only [Job.step, stepMainSend] at hs
    split at hs <;> cases hs
    next _ hr =>
    exact ⟨by rw [hr] at h1; simp [HandsOver, reqTok] at h1 ⊢; omega, by simpa using h2⟩
  | mainReturn =>
    simp only [Job.step, stepMainReturn] at hs
    split at hs
    · split at hs <;> cases hs
      exact ⟨by simpa [HandsOver] using h1, by simpa using h2⟩
    · cases hs
  | reqCheck =>
    simp only [Job.step, stepReqCheck] at hs
    split at hs
    · next hr =>
      rw [hr] at h1
      split at hs
      · cases hs
        exact ⟨by simp [HandsOver, reqTok] at h1 ⊢; omega, by simp; omega⟩
      · split at hs <;> cases hs
        · exact ⟨by simp [HandsOver, reqTok] at h1 ⊢; omega, by simp; omega⟩
        · exact ⟨by simp [HandsOver, reqTok] at h1 ⊢; omega, by simp; omega⟩
    · cases hs
  | reqPush =>
    simp only [Job.step, stepReqPush] at hs
    split at hs
    · next hr =>
      rw [hr] at h1
      split at hs <;> cases hs
      exact ⟨by simp [HandsOver, reqTok] at h1 ⊢; omega, by simp; omega⟩
    · cases hs
  | take i =>
    simp only [Job.step, stepTake] at hs
    split at hs <;> cases hs
    next _ hq =>
    exact ⟨by rw [hq] at h1; simp [HandsOver, List.countP_append, IsStart] at h1 ⊢; omega, by simp; omega⟩
  | finish i o =>
    simp only [Job.step, stepFinish] at hs
    split at hs <;> cases hs
    exact ⟨by simp [HandsOver, List.countP_append, IsStart] at h1 ⊢; omega, by simp; omega⟩
  | post i =>
    simp only [Job.step, stepPost] at hs
    split at hs
    · split at hs <;> cases hs
      exact ⟨by simpa [HandsOver] using h1, by simpa using h2⟩
    · cases hs
  | updTake =>
    simp only [Job.step, stepUpdTake] at hs
    split at hs <;> cases hs
    · exact ⟨by simpa [HandsOver] using h1, by simpa using h2⟩
    · exact ⟨by simpa [HandsOver] using h1, by simpa using h2⟩
  | updScan =>
    simp only [Job.step, stepUpdScan] at hs
    split at hs
    · split at hs <;> cases hs
      · exact ⟨by simpa [HandsOver] using h1, by simpa using h2⟩
      · exact ⟨by simpa [HandsOver] using h1, by simpa using h2⟩
    · cases hs
      exact ⟨by simpa [HandsOver] using h1, by simpa using h2⟩
    · cases hs
  | updSend =>
    simp only [Job.step, stepUpdSend] at hs
    split at hs <;> cases hs
    next _ hr =>
    exact ⟨by rw [hr] at h1; simp [HandsOver, reqTok] at h1 ⊢; omega, by simpa using h2⟩
  | updCopy ok =>
    simp only [Job.step, stepUpdCopy] at hs
    split at hs
    · cases ok <;> simp at hs <;> cases hs
      · exact ⟨by simp [HandsOver] at h1 ⊢; omega, by simp; omega⟩
      · exact ⟨by simp [HandsOver] at h1 ⊢; omega, by simp; omega⟩
    · cases hs
  | updDone =>
    simp only [Job.step, stepUpdDone] at hs
    split at hs <;> cases hs
    exact ⟨by simpa [HandsOver] using h1, by simpa using h2⟩

theorem handInv_run {j : Job} : ∀ (es : List Event) {s s' : RunState} {h c : Nat}, HandInv h c s → j.run s es = some s' →
    HandInv (h + es.countP HandsOver) (c + es.count (.updCopy false)) s' := by
  intro es
  induction es with
  | nil => intro s s' h c hi hr; cases hr; simpa using hi
  | cons e es ih =>
    intro s s' h c hi hr
    unfold Job.run at hr
    split at hr
    · cases hr
    · next s1 h1 =>
      have := ih (handInv_step hi h1) hr
      rw [List.countP_cons, List.count_cons]
      have e1 : h + (if HandsOver e = true then 1 else 0) + es.countP HandsOver = h + (es.countP HandsOver + if HandsOver e = true then 1 else 0) := by omega
      have e2 : c + (if e = .updCopy false then 1 else 0) + es.count (.updCopy false) =
          c + (es.count (.updCopy false) + if (e == .updCopy false) = true then 1 else 0) := by
        simp only [beq_iff_eq]; omega
      rw [e1, e2] at this
      exact this

/-- C38, exactly: an execution of a plan (with a worker, and within the capacity of the queues) that can go no further has returned
iff every package that was handed over to be installed was started, and no copy of a built binary failed; by `C36_bounded` every
execution comes to such a point. Missing: that these always hold, see `C38_violated` and `C38_violated_copy`. -/
theorem C38_returns_iff_partial {j : Job} (hw : WellFormed j) (hn : 0 < j.ncpu) (hc : j.caps = {})
    (hsize : (Job.plan j).length ≤ 2500 + j.ncpu) {es : List Event} {s : RunState} (h : j.run j.init es = some s)
    (hend : ∀ e, j.step s e = none) :
    s.ret ≠ none ↔ es.countP HandsOver = s.log.countP IsStart ∧ .updCopy false ∉ es := by
  have hinv := handInv_run es (h := 0) (c := 0) (s := j.init) ⟨by simp [Job.init, reqTok], Nat.zero_le _⟩ h
  obtain ⟨h1, h2⟩ := hinv
  have hs : Reach j s := ⟨es, h⟩
  constructor
  · intro hr
    cases hret : s.ret with
    | none => exact absurd hret hr
    | some r =>
      obtain ⟨_, _, h3, h4, _, _, _, h8⟩ := returned_idle (reach_inv hs) hret
      rw [h3, h4, h8] at h1
      rw [h8] at h2
      simp [reqTok] at h1 h2
      exact ⟨by omega, List.count_eq_zero.1 h2⟩
  · rintro ⟨h3, h4⟩ hr
    have h0 := List.count_eq_zero.2 h4
    have hl : s.leaked = 0 := by omega
    obtain ⟨e, s', he, _⟩ := C38_returns_partial hw hn hc hsize hs hr hl
    rw [hend e] at he; cases he

example : (∃ s, toyJob.run toyJob.init toyRun = some s ∧ s.ret ≠ none ∧ (∀ e, toyJob.step s e = none) ∧
    toyRun.countP HandsOver = 5) ∧ 0 < toyJob.ncpu ∧ toyJob.caps = {} ∧ WellFormed toyJob :=
  ⟨⟨_, rfl, by decide, ((C39_quiet_after_return ⟨toyRun, rfl⟩).2 .nil rfl).2.2.2.2, by decide⟩, by decide, rfl, toyJob_wellFormed⟩

end Pkgr
