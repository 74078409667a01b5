/- Invariants of installation runs. -/
import Verif.Spec.Sched
import Verif.Proof.Base
import Mathlib.Tactic.SplitIfs
import Mathlib.Tactic.ByContra

namespace Pkgr
open Spec

set_option linter.unusedSimpArgs false

theorem countP_set_eq {α : Type} (p : α → Bool) {l : List α} {i : Nat} {w : α} (w' : α) (h : l[i]? = some w) :
    (l.set i w').countP p + (if p w then 1 else 0) = l.countP p + (if p w' then 1 else 0) := by
  induction l generalizing i with
  | nil => simp at h
  | cons a l ih =>
    cases i with
    | zero =>
      simp only [List.getElem?_cons_zero, Option.some.injEq] at h
      subst h
      simp only [List.set_cons_zero, List.countP_cons]
      omega
    | succ i =>
      simp only [List.getElem?_cons_succ] at h
      have := ih h
      simp only [List.set_cons_succ, List.countP_cons]
      omega

theorem count_set_eq {α : Type} [DecidableEq α] (a : α) {l : List α} {i : Nat} {w : α} (w' : α) (h : l[i]? = some w) :
    (l.set i w').count a + (if w = a then 1 else 0) = l.count a + (if w' = a then 1 else 0) := by
  have := countP_set_eq (· == a) w' h
  simpa [List.count] using this

/-! ### Counters -/

/-- Wait-group units held by main, requester, updater. -/
def mainTok (s : RunState) : Nat := if s.mainSend = none then 0 else 1

def reqTok : Requester → Nat
  | .idle => 0
  | _ => 1

def updTok : Updater → Nat
  | .idle => 0
  | .send .. => 2
  | _ => 1

/-- Is the requester about to push `x`? -/
def pushC (x : Str) : Requester → Nat
  | .push p => if p = x then 1 else 0
  | _ => 0

def gotC (x : Str) : Requester → Nat
  | .got p => if p = x then 1 else 0
  | _ => 0

def sendC (x : Str) : Updater → Nat
  | .send y _ _ _ => if y = x then 1 else 0
  | _ => 0

def mainC (x : Str) : Option Str → Nat
  | some p => if p = x then 1 else 0
  | none => 0

def isBusy (w : Worker) : Bool := w ≠ .idle

/-- Occurrences of `x` with a successful / failed outcome waiting for the updater. -/
def pendOk (s : RunState) (x : Str) : Nat :=
  s.workers.count (.holding x (.ok true)) + s.workers.count (.holding x (.ok false)) +
    s.updQ.count (x, .ok true) + s.updQ.count (x, .ok false)

def pendFail (s : RunState) (x : Str) : Nat :=
  s.workers.count (.holding x .failed) + s.updQ.count (x, .failed)

/-- Invariants that hold for every job. -/
structure Inv (j : Job) (s : RunState) : Prop where
  len : s.workers.length = j.ncpu
  req : ∀ x, s.requested.count x = pushC x s.requester + s.workQ.count x + s.workers.count (.running x) +
    pendOk s x + pendFail s x + s.installed.count x + s.failedPkgs.count x
  once : ∀ x, s.requested.count x ≤ 1
  started : ∀ x, s.log.count (.started x) = s.workers.count (.running x) +
    pendOk s x + pendFail s x + s.installed.count x + s.failedPkgs.count x
  finOk : ∀ x, s.log.count (.finished x true) = pendOk s x + s.installed.count x
  finFail : ∀ x, s.log.count (.finished x false) = pendFail s x + s.failedPkgs.count x
  tok : s.wg = mainTok s + reqTok s.requester + s.workQ.length + s.workers.countP isBusy +
    s.updQ.length + updTok s.updater + s.leaked
  failed : s.anyFailed = true ↔ s.failedPkgs ≠ []
  ret : ∀ r, s.ret = some r → s.wg = 0 ∧ s.todo = [] ∧ s.mainSend = none ∧
    r = if s.anyFailed then .error s.failedPkgs else .nil

theorem inv_init (j : Job) : Inv j j.init := by
  constructor <;> simp [Job.init, pushC, pendOk, pendFail, mainTok, reqTok, updTok, List.count_replicate,
    List.countP_replicate, isBusy]

theorem inv_step {j : Job} {s s' : RunState} {e : Event} (hi : Inv j s) (h : j.step s e = some s') : Inv j s' := by
  obtain ⟨h1, h2, h3, h4, h5, h6, h7, h8, h9⟩ := hi
  cases e with
  | mainAdd =>
    simp only [Job.step, stepMainAdd] at h
    split at h <;> cases h
    next hm ht =>
    refine ⟨h1, h2, h3, h4, h5, h6, ?_, h8, ?_⟩
    · simp [mainTok, hm] at h7 ⊢; omega
    · intro r hr; have := (h9 r hr).2.1; rw [ht] at this; cases this
  | mainSend =>
    simp only [Job.step, stepMainSend] at h
    split at h <;> cases h
    next hm hr =>
    refine ⟨h1, ?_, h3, h4, h5, h6, ?_, h8, ?_⟩
    · intro x; have := h2 x; rw [hr] at this; exact this
    · simp [mainTok, hm, hr, reqTok] at h7 ⊢; omega
    · intro r hr'; have := (h9 r hr').2.2.1; rw [hm] at this; cases this
  | mainReturn =>
    simp only [Job.step, stepMainReturn] at h
    split at h
    · next a b c =>
      split at h
      · next hw =>
        cases h
        refine ⟨h1, h2, h3, h4, h5, h6, h7, h8, ?_⟩
        intro r hr
        simp only [Option.some.injEq] at hr
        exact ⟨hw, c, b, hr.symm⟩
      · cases h
    · cases h
  | reqCheck =>
    simp only [Job.step, stepReqCheck] at h
    split at h
    · next p hr =>
      split at h
      · cases h
        refine ⟨h1, ?_, h3, h4, h5, h6, ?_, h8, h9⟩
        · intro x; have := h2 x; rw [hr] at this; exact this
        · simp [mainTok, hr, reqTok] at h7 ⊢; omega
      · split at h
        · cases h
          refine ⟨h1, ?_, h3, h4, h5, h6, ?_, h8, h9⟩
          · intro x; have := h2 x; rw [hr] at this; exact this
          · simp [mainTok, hr, reqTok] at h7 ⊢; omega
        · next hc =>
          cases h
          refine ⟨h1, ?_, ?_, h4, h5, h6, ?_, h8, h9⟩
          · intro x; have := h2 x; rw [hr] at this
            simp only [pushC, List.count_cons, pendOk, pendFail, beq_iff_eq] at this ⊢; omega
          · intro x
            have := h3 x
            rw [List.count_cons]
            split
            · next hx =>
              simp only [beq_iff_eq] at hx; subst hx
              have : s.requested.count p = 0 := by
                rw [List.count_eq_zero]; intro hm; exact hc (by simpa using hm)
              omega
            · omega
          · simp [mainTok, hr, reqTok] at h7 ⊢; omega
    · cases h
  | reqPush =>
    simp only [Job.step, stepReqPush] at h
    split at h
    · next p hr =>
      split at h
      · cases h
        refine ⟨h1, ?_, h3, h4, h5, h6, ?_, h8, h9⟩
        · intro x; have := h2 x; rw [hr] at this
          simp only [pushC, List.count_append, List.count_cons, List.count_nil, pendOk, pendFail, beq_iff_eq] at this ⊢
          omega
        · simp [mainTok, hr, reqTok] at h7 ⊢; omega
      · cases h
    · cases h
  | take i =>
    simp only [Job.step, stepTake] at h
    split at h <;> cases h
    next p q hw hq =>
    have hcR := fun x => count_set_eq (Worker.running x) (.running p) hw
    have hcH := fun x o => count_set_eq (Worker.holding x o) (.running p) hw
    have hb := countP_set_eq isBusy (.running p) hw
    simp only [reduceCtorEq, if_false, Worker.running.injEq] at hcR hcH
    refine ⟨by simpa using h1, ?_, h3, ?_, ?_, ?_, ?_, h8, h9⟩
    · intro x; have := h2 x; have := hcR x; have := hcH x .failed; have := hcH x (.ok true)
      have := hcH x (.ok false)
      simp only [pendOk, pendFail, hq, List.count_cons, beq_iff_eq] at *; omega
    · intro x; have := h4 x; have := hcR x; have := hcH x .failed; have := hcH x (.ok true)
      have := hcH x (.ok false)
      simp only [pendOk, pendFail, hq, List.count_cons, List.count_append, List.count_nil, beq_iff_eq,
        LogEntry.started.injEq] at *; omega
    · intro x; have := h5 x; have := hcR x; have := hcH x .failed; have := hcH x (.ok true)
      have := hcH x (.ok false)
      simp only [pendOk, pendFail, List.count_append, List.count_cons, List.count_nil, beq_iff_eq,
        reduceCtorEq, if_false] at *; omega
    · intro x; have := h6 x; have := hcR x; have := hcH x .failed; have := hcH x (.ok true)
      have := hcH x (.ok false)
      simp only [pendOk, pendFail, List.count_append, List.count_cons, List.count_nil, beq_iff_eq,
        reduceCtorEq, if_false] at *; omega
    · simp [mainTok, hq, isBusy] at h7 hb ⊢; omega
  | finish i o =>
    simp only [Job.step, stepFinish] at h
    split at h <;> cases h
    next p hw =>
    have hcR := fun x => count_set_eq (Worker.running x) (.holding p o) hw
    have hcH := fun x o' => count_set_eq (Worker.holding x o') (.holding p o) hw
    have hb := countP_set_eq isBusy (.holding p o) hw
    simp only [reduceCtorEq, if_false, Worker.running.injEq, Worker.holding.injEq] at hcR hcH
    have hall : ∀ x, (s.workers.set i (.holding p o)).count (.running x) + (if p = x then 1 else 0) =
          s.workers.count (.running x) ∧
        (s.workers.set i (.holding p o)).count (.holding x .failed) =
          s.workers.count (.holding x .failed) + (if p = x ∧ o = .failed then 1 else 0) ∧
        (s.workers.set i (.holding p o)).count (.holding x (.ok true)) =
          s.workers.count (.holding x (.ok true)) + (if p = x ∧ o = .ok true then 1 else 0) ∧
        (s.workers.set i (.holding p o)).count (.holding x (.ok false)) =
          s.workers.count (.holding x (.ok false)) + (if p = x ∧ o = .ok false then 1 else 0) := by
      intro x; have := hcR x; have := hcH x .failed; have := hcH x (.ok true); have := hcH x (.ok false)
      refine ⟨?_, ?_, ?_, ?_⟩ <;> omega
    clear hcR hcH
    refine ⟨by simpa using h1, ?_, h3, ?_, ?_, ?_, ?_, h8, h9⟩
    · intro x; have := h2 x; obtain ⟨a, b, c, d⟩ := hall x
      simp only [pendOk, pendFail] at *
      rcases o with _ | _ | _ <;> simp at b c d <;> omega
    · intro x; have := h4 x; obtain ⟨a, b, c, d⟩ := hall x
      simp only [pendOk, pendFail, List.count_append, List.count_cons, List.count_nil, beq_iff_eq,
        reduceCtorEq, if_false] at *
      rcases o with _ | _ | _ <;> simp at b c d <;> omega
    · intro x; have := h5 x; obtain ⟨a, b, c, d⟩ := hall x
      simp only [pendOk, pendFail, List.count_append, List.count_cons, List.count_nil, beq_iff_eq,
        LogEntry.finished.injEq] at *
      rcases o with _ | _ | _ <;> simp at b c d ⊢ <;> omega
    · intro x; have := h6 x; obtain ⟨a, b, c, d⟩ := hall x
      simp only [pendOk, pendFail, List.count_append, List.count_cons, List.count_nil, beq_iff_eq,
        LogEntry.finished.injEq] at *
      rcases o with _ | _ | _ <;> simp at b c d ⊢ <;> omega
    · simp [mainTok, isBusy] at h7 hb ⊢; omega
  | post i =>
    simp only [Job.step, stepPost] at h
    split at h
    · next p o hw =>
      split at h
      · cases h
        have hcR := fun x => count_set_eq (Worker.running x) .idle hw
        have hcH := fun x o' => count_set_eq (Worker.holding x o') .idle hw
        have hb := countP_set_eq isBusy .idle hw
        simp only [reduceCtorEq, if_false, Worker.running.injEq, Worker.holding.injEq] at hcR hcH
        have hpend : ∀ x, pendOk { s with workers := s.workers.set i .idle, updQ := s.updQ ++ [(p, o)] } x = pendOk s x ∧
            pendFail { s with workers := s.workers.set i .idle, updQ := s.updQ ++ [(p, o)] } x = pendFail s x := by
          intro x; have := hcH x .failed; have := hcH x (.ok true); have := hcH x (.ok false)
          simp only [pendOk, pendFail, List.count_append, List.count_cons, List.count_nil, beq_iff_eq,
            Prod.mk.injEq] at *
          constructor <;> omega
        have hrun : ∀ x, (s.workers.set i .idle).count (.running x) = s.workers.count (.running x) := by
          intro x; have := hcR x; omega
        refine ⟨by simpa using h1, ?_, h3, ?_, ?_, ?_, ?_, h8, h9⟩
        · intro x; rw [(hpend x).1, (hpend x).2]; have := h2 x; have := hrun x; simp only at *; omega
        · intro x; rw [(hpend x).1, (hpend x).2]; have := h4 x; have := hrun x; simp only at *; omega
        · intro x; rw [(hpend x).1]; exact h5 x
        · intro x; rw [(hpend x).2]; exact h6 x
        · simp [mainTok, isBusy] at h7 hb ⊢; omega
      · cases h
    · cases h
  | updTake =>
    simp only [Job.step, stepUpdTake] at h
    split at h
    · next p q hu hq =>
      cases h
      refine ⟨h1, ?_, h3, ?_, ?_, ?_, ?_, ?_, ?_⟩
      · intro x; have := h2 x
        simp only [pendOk, pendFail, hq, List.count_cons, List.count_append, List.count_nil, beq_iff_eq, Prod.mk.injEq,
          reduceCtorEq, and_false, and_true, if_false] at *; omega
      · intro x; have := h4 x
        simp only [pendOk, pendFail, hq, List.count_cons, List.count_append, List.count_nil, beq_iff_eq, Prod.mk.injEq,
          reduceCtorEq, and_false, and_true, if_false] at *; omega
      · intro x; have := h5 x
        simp only [pendOk, pendFail, hq, List.count_cons, List.count_append, List.count_nil, beq_iff_eq, Prod.mk.injEq,
          reduceCtorEq, and_false, and_true, if_false] at *; omega
      · intro x; have := h6 x
        simp only [pendOk, pendFail, hq, List.count_cons, List.count_append, List.count_nil, beq_iff_eq, Prod.mk.injEq,
          reduceCtorEq, and_false, and_true, if_false] at *; omega
      · simp [mainTok, hu, hq, updTok] at h7 ⊢; omega
      · simp
      · intro r hr
        obtain ⟨a, b, c, d⟩ := h9 r hr
        exfalso
        rw [a, hq] at h7
        simp at h7; omega
    · next p b q hu hq =>
      cases h
      refine ⟨h1, ?_, h3, ?_, ?_, ?_, ?_, h8, h9⟩
      · intro x; have := h2 x
        simp only [pendOk, pendFail, hq, List.count_cons, List.count_append, List.count_nil, beq_iff_eq, Prod.mk.injEq,
          reduceCtorEq, and_false, and_true, if_false, Outcome.ok.injEq] at *
        cases b <;> simp at * <;> omega
      · intro x; have := h4 x
        simp only [pendOk, pendFail, hq, List.count_cons, List.count_append, List.count_nil, beq_iff_eq, Prod.mk.injEq,
          reduceCtorEq, and_false, and_true, if_false, Outcome.ok.injEq] at *
        cases b <;> simp at * <;> omega
      · intro x; have := h5 x
        simp only [pendOk, pendFail, hq, List.count_cons, List.count_append, List.count_nil, beq_iff_eq, Prod.mk.injEq,
          reduceCtorEq, and_false, and_true, if_false, Outcome.ok.injEq] at *
        cases b <;> simp at * <;> omega
      · intro x; have := h6 x
        simp only [pendOk, pendFail, hq, List.count_cons, List.count_append, List.count_nil, beq_iff_eq, Prod.mk.injEq,
          reduceCtorEq, and_false, and_true, if_false] at *; omega
      · simp [mainTok, hu, hq, updTok] at h7 ⊢; omega
    · cases h
  | updScan =>
    simp only [Job.step, stepUpdScan] at h
    split at h
    · next p x xs b hu =>
      split at h <;> cases h
      · refine ⟨h1, h2, h3, h4, h5, h6, ?_, h8, ?_⟩
        · simp [mainTok, hu, updTok] at h7 ⊢; omega
        · intro r hr
          obtain ⟨a, b, c, d⟩ := h9 r hr
          exfalso
          rw [a, hu] at h7
          simp [updTok] at h7; omega
      · refine ⟨h1, h2, h3, h4, h5, h6, ?_, h8, h9⟩
        simp [mainTok, hu, updTok] at h7 ⊢; omega
    · next p b hu =>
      cases h
      refine ⟨h1, h2, h3, h4, h5, h6, ?_, h8, h9⟩
      cases b <;> simp [mainTok, hu, updTok] at h7 ⊢ <;> omega
    · cases h
  | updSend =>
    simp only [Job.step, stepUpdSend] at h
    split at h <;> cases h
    next x p xs b hu hr =>
    refine ⟨h1, ?_, h3, h4, h5, h6, ?_, h8, h9⟩
    · intro y; have := h2 y; rw [hr] at this; exact this
    · simp [mainTok, hu, hr, updTok, reqTok] at h7 ⊢; omega
  | updCopy ok =>
    simp only [Job.step, stepUpdCopy] at h
    split at h
    · next p hu =>
      split at h <;> cases h
      · refine ⟨h1, h2, h3, h4, h5, h6, ?_, h8, h9⟩
        simp [mainTok, hu, updTok] at h7 ⊢; omega
      · refine ⟨h1, h2, h3, h4, h5, h6, ?_, h8, h9⟩
        simp [mainTok, hu, updTok] at h7 ⊢; omega
    · cases h
  | updDone =>
    simp only [Job.step, stepUpdDone] at h
    split at h <;> cases h
    next hu =>
    refine ⟨h1, h2, h3, h4, h5, h6, ?_, h8, ?_⟩
    · simp [mainTok, hu, updTok] at h7 ⊢; omega
    · intro r hr
      obtain ⟨a, b, c, d⟩ := h9 r hr
      exfalso
      rw [a, hu] at h7
      simp [updTok] at h7; omega

theorem run_induction {j : Job} {P : RunState → Prop} (hstep : ∀ s s' e, P s → j.step s e = some s' → P s')
    {s s' : RunState} {es : List Event} (h0 : P s) (h : j.run s es = some s') : P s' := by
  induction es generalizing s with
  | nil => cases h; exact h0
  | cons e es ih =>
    simp only [Job.run] at h
    split at h
    · cases h
    · next s1 hs => exact ih (hstep _ _ _ h0 hs) h

theorem run_append {j : Job} {s : RunState} (es es' : List Event) :
    j.run s (es ++ es') = (j.run s es).bind fun s' => j.run s' es' := by
  induction es generalizing s with
  | nil => rfl
  | cons e es ih =>
    simp only [List.cons_append, Job.run]
    cases j.step s e with
    | none => rfl
    | some s1 => exact ih

theorem reach_inv {j : Job} {s : RunState} (h : Reach j s) : Inv j s := by
  obtain ⟨es, h⟩ := h
  exact run_induction (fun _ _ _ h hs => inv_step h hs) (inv_init j) h

end Pkgr
