/- Invariants of installation runs of well-formed plans, termination measure, progress. -/
import Verif.Proof.Sched
import Mathlib.Data.List.Perm.Subperm

namespace Pkgr
open Spec

set_option linter.unusedSimpArgs false

/-- How often `x` is on its way to being requested, or has been. -/
def sentC (s : RunState) (x : Str) : Nat :=
  s.todo.count x + mainC x s.mainSend + gotC x s.requester + sendC x s.updater + s.requested.count x

def scanRest : Updater → List Str
  | .scan _ xs _ => xs
  | .send _ _ xs _ => xs
  | _ => []

structure Inv2 (j : Job) (s : RunState) : Prop where
  inPlan : ∀ x, 1 ≤ sentC s x → x ∈ Job.plan j
  uniq : ∀ x, sentC s x ≤ 1
  deps : ∀ x, 1 ≤ sentC s x → ∀ d ∈ Job.deps j x, d ∈ s.installed
  scanNodup : (scanRest s.updater).Nodup
  scan : ∀ x ∈ scanRest s.updater, x ∈ Job.plan j ∧ sentC s x = 0
  cover : s.anyFailed = false → ∀ x ∈ Job.plan j, (∀ d ∈ Job.deps j x, d ∈ s.installed) →
    1 ≤ sentC s x ∨ x ∈ scanRest s.updater
  order : ∀ l1 l2 p, s.log = l1 ++ .started p :: l2 → ∀ d ∈ Job.deps j p, .finished d true ∈ l1

theorem plan_of_deps {j : Job} {x d : Str} (h : d ∈ Job.deps j x) : x ∈ GoMap.keys j.depDb := by
  unfold Job.deps at h
  cases hx : GoMap.get? j.depDb x with
  | none => rw [hx] at h; simp at h
  | some ds => exact GoMap.mem_keys_of_get? hx

theorem deps_starting {j : Job} (hw : WellFormed j) {x : Str} (h : x ∈ j.starting) : Job.deps j x = [] := by
  rw [List.eq_nil_iff_forall_not_mem]
  intro d hd
  have := hw.nodup
  unfold Job.plan at this
  rw [List.nodup_append] at this
  exact this.2.2 x h x (plan_of_deps hd) rfl

theorem inv2_init {j : Job} (hw : WellFormed j) : Inv2 j j.init := by
  have hs : ∀ x, sentC j.init x = j.starting.count x := by
    intro x; simp [sentC, Job.init, mainC, gotC, sendC]
  have hnd := (List.nodup_append.1 hw.nodup).1
  refine ⟨?_, ?_, ?_, ?_, ?_, ?_, ?_⟩
  · intro x hx; rw [hs] at hx
    exact List.mem_append_left _ (List.count_pos_iff.1 hx)
  · intro x; rw [hs]; exact List.nodup_iff_count.1 hnd x
  · intro x hx d hd; rw [hs] at hx
    rw [deps_starting hw (List.count_pos_iff.1 hx)] at hd; cases hd
  · simp [Job.init, scanRest]
  · simp [Job.init, scanRest]
  · intro _ x hx hd
    left
    rw [hs]
    rcases List.mem_append.1 hx with h | h
    · exact List.count_pos_iff.2 h
    · exfalso
      have := hw.depsNonempty x h
      obtain ⟨d, hd'⟩ := List.exists_mem_of_ne_nil _ this
      have := hd d hd'
      simp [Job.init] at this
  · intro l1 l2 p h; simp [Job.init] at h

/-- A step that only moves names around. -/
theorem inv2_of_same {j : Job} {s s' : RunState} (h : Inv2 j s) (hs : ∀ x, sentC s' x = sentC s x)
    (hi : s'.installed = s.installed) (hu : scanRest s'.updater = scanRest s.updater)
    (hf : s'.anyFailed = false → s.anyFailed = false) (hl : s'.log = s.log) : Inv2 j s' := by
  obtain ⟨h1, h2, h3, h4, h5, h6, h7⟩ := h
  refine ⟨?_, ?_, ?_, ?_, ?_, ?_, ?_⟩
  · intro x hx; rw [hs] at hx; exact h1 x hx
  · intro x; rw [hs]; exact h2 x
  · intro x hx; rw [hs] at hx; rw [hi]; exact h3 x hx
  · rw [hu]; exact h4
  · intro x hx; rw [hu] at hx; rw [hs]; exact h5 x hx
  · intro hf' x hx hd; rw [hi] at hd; rw [hs, hu]; exact h6 (hf hf') x hx hd
  · rw [hl]; exact h7

theorem order_append {j : Job} {log : List LogEntry} {e : LogEntry}
    (h : ∀ l1 l2 p, log = l1 ++ .started p :: l2 → ∀ d ∈ Job.deps j p, .finished d true ∈ l1)
    (he : ∀ p, e = .started p → ∀ d ∈ Job.deps j p, .finished d true ∈ log) :
    ∀ l1 l2 p, log ++ [e] = l1 ++ .started p :: l2 → ∀ d ∈ Job.deps j p, .finished d true ∈ l1 := by
  intro l1 l2 p heq
  rcases List.eq_nil_or_concat l2 with rfl | ⟨l3, a, rfl⟩
  · have := List.append_inj' heq (by simp)
    obtain ⟨rfl, h2⟩ := this
    exact he p (by simpa using h2)
  · have : log ++ [e] = (l1 ++ .started p :: l3) ++ [a] := by simpa using heq
    have := List.append_inj' this (by simp)
    exact h l1 l3 p this.1

theorem inv2_step {j : Job} (hw : WellFormed j) {s s' : RunState} {e : Event} (hv : Inv j s) (hi : Inv2 j s)
    (h : j.step s e = some s') : Inv2 j s' := by
  cases e with
  | mainAdd =>
    simp only [Job.step, stepMainAdd] at h
    split at h <;> cases h
    next p ps hm ht =>
    refine inv2_of_same hi (fun x => ?_) rfl rfl id rfl
    simp only [sentC, hm, ht, mainC, List.count_cons, beq_iff_eq]; omega
  | mainSend =>
    simp only [Job.step, stepMainSend] at h
    split at h <;> cases h
    next p hm hr =>
    refine inv2_of_same hi (fun x => ?_) rfl rfl id rfl
    simp only [sentC, hm, hr, mainC, gotC]; omega
  | mainReturn =>
    simp only [Job.step, stepMainReturn] at h
    split at h
    · split at h
      · cases h
        exact inv2_of_same hi (fun x => rfl) rfl rfl id rfl
      · cases h
    · cases h
  | reqCheck =>
    simp only [Job.step, stepReqCheck] at h
    split at h
    · next p hr =>
      split at h
      · next hf =>
        cases h
        obtain ⟨h1, h2, h3, h4, h5, h6, h7⟩ := hi
        have hs : ∀ x, sentC { s with requester := Requester.idle, leaked := s.leaked + 1 } x ≤ sentC s x := by
          intro x; simp only [sentC, hr, gotC]; omega
        refine ⟨?_, ?_, ?_, h4, ?_, ?_, h7⟩
        · intro x hx; exact h1 x (Nat.le_trans hx (hs x))
        · intro x; exact Nat.le_trans (hs x) (h2 x)
        · intro x hx; exact h3 x (Nat.le_trans hx (hs x))
        · intro x hx; have := h5 x hx; exact ⟨this.1, by have := hs x; omega⟩
        · intro hf'; rw [hf] at hf'; cases hf'
      · split at h
        · next hc =>
          -- a package is never requested twice
          exfalso
          have := hi.uniq p
          have : 0 < s.requested.count p := List.count_pos_iff.2 (by simpa using hc)
          simp only [sentC, hr, gotC, if_true] at *
          omega
        · cases h
          refine inv2_of_same hi (fun x => ?_) rfl rfl id rfl
          simp only [sentC, hr, gotC, List.count_cons, beq_iff_eq]; omega
    · cases h
  | reqPush =>
    simp only [Job.step, stepReqPush] at h
    split at h
    · next p hr =>
      split at h
      · cases h
        refine inv2_of_same hi (fun x => ?_) rfl rfl id rfl
        simp only [sentC, hr, gotC]
      · cases h
    · cases h
  | take i =>
    simp only [Job.step, stepTake] at h
    split at h <;> cases h
    next p q hwk hq =>
    obtain ⟨h1, h2, h3, h4, h5, h6, h7⟩ := hi
    refine ⟨h1, h2, h3, h4, h5, h6, ?_⟩
    refine order_append h7 ?_
    rintro p' hp' d hd
    cases hp'
    have hr := hv.req p
    rw [hq, List.count_cons_self] at hr
    have := h3 p (by unfold sentC; omega) d hd
    have h8 := hv.finOk d
    have := List.count_pos_iff.2 this
    exact List.count_pos_iff.1 (by omega)
  | finish i o =>
    simp only [Job.step, stepFinish] at h
    split at h <;> cases h
    obtain ⟨h1, h2, h3, h4, h5, h6, h7⟩ := hi
    refine ⟨h1, h2, h3, h4, h5, h6, ?_⟩
    exact order_append h7 (fun p hp => by cases hp)
  | post i =>
    simp only [Job.step, stepPost] at h
    split at h
    · split at h
      · cases h
        exact inv2_of_same hi (fun x => rfl) rfl rfl id rfl
      · cases h
    · cases h
  | updTake =>
    simp only [Job.step, stepUpdTake] at h
    split at h
    · next p q hu hq =>
      cases h
      refine inv2_of_same hi (fun x => ?_) rfl (by rw [hu]; rfl) (fun h => by cases h) rfl
      simp only [sentC, hu, sendC]
    · next p b q hu hq =>
      cases h
      obtain ⟨h1, h2, h3, h4, h5, h6, h7⟩ := hi
      have hs : ∀ x, sentC { s with updQ := q, updater := .scan p ((GoMap.get? j.iDeps p).getD []) b, installed := p :: s.installed } x = sentC s x := by
        intro x; simp only [sentC, hu, sendC]
      have hp : p ∉ s.installed := by
        intro hp
        have h8 := hv.req p
        have h9 := hv.once p
        have : 0 < s.installed.count p := List.count_pos_iff.2 hp
        have : 1 ≤ pendOk s p := by
          unfold pendOk; rw [hq]
          cases b <;> simp only [List.count_cons_self] <;> omega
        omega
      refine ⟨?_, ?_, ?_, hw.inverseNodup p, ?_, ?_, h7⟩
      · intro x hx; rw [hs] at hx; exact h1 x hx
      · intro x; rw [hs]; exact h2 x
      · intro x hx d hd; rw [hs] at hx; exact List.mem_cons_of_mem _ (h3 x hx d hd)
      · intro x hx
        have hx' := (hw.inverse p x).1 hx
        refine ⟨List.mem_append_right _ (plan_of_deps hx'), ?_⟩
        rw [hs]
        by_contra hne
        exact hp (h3 x (by omega) p hx')
      · intro hf x hx hd
        rw [hs]
        by_cases hpx : p ∈ Job.deps j x
        · right; exact (hw.inverse p x).2 hpx
        · left
          have := h6 hf x hx (fun d hd' => by
            rcases List.mem_cons.1 (hd d hd') with rfl | h
            · exact absurd hd' hpx
            · exact h)
          rw [hu] at this
          simpa [scanRest] using this
    · cases h
  | updScan =>
    simp only [Job.step, stepUpdScan] at h
    split at h
    · next p x xs b hu =>
      have hx0 := hi.scan x (by rw [hu]; simp [scanRest])
      have hnd := hi.scanNodup
      rw [hu] at hnd
      simp only [scanRest, List.nodup_cons] at hnd
      have hmem : ∀ y ∈ xs, y ∈ scanRest s.updater := by intro y hy; rw [hu]; simp [scanRest, hy]
      split at h
      · next hc =>
        cases h
        simp only [Bool.and_eq_true, depsInstalled, List.all_eq_true, List.contains_iff_mem, Bool.not_eq_true'] at hc
        obtain ⟨h1, h2, h3, h4, h5, h6, h7⟩ := hi
        have hs : ∀ y, sentC { s with updater := .send x p xs b, wg := s.wg + 1 } y =
            sentC s y + (if x = y then 1 else 0) := by
          intro y; simp only [sentC, hu, sendC]; omega
        refine ⟨?_, ?_, ?_, hnd.2, ?_, ?_, h7⟩
        · intro y hy; rw [hs] at hy
          by_cases hxy : x = y
          · subst hxy; exact hx0.1
          · exact h1 y (by simpa [hxy] using hy)
        · intro y; rw [hs]
          by_cases hxy : x = y
          · subst hxy; simp [hx0.2]
          · simpa [hxy] using h2 y
        · intro y hy; rw [hs] at hy
          by_cases hxy : x = y
          · subst hxy; exact hc.1
          · exact h3 y (by simpa [hxy] using hy)
        · intro y hy
          have hne : x ≠ y := fun h => hnd.1 (h ▸ hy)
          rw [hs, if_neg hne]
          exact h5 y (hmem y hy)
        · intro hf y hy hd
          rw [hs]
          by_cases hxy : x = y
          · left; rw [if_pos hxy]; omega
          · rw [if_neg hxy]
            have := h6 hf y hy hd
            rw [hu] at this
            simp only [scanRest, List.mem_cons] at this ⊢
            rcases this with h | h | h
            · left; omega
            · exact absurd h.symm hxy
            · exact Or.inr h
      · next hc =>
        cases h
        obtain ⟨h1, h2, h3, h4, h5, h6, h7⟩ := hi
        have hs : ∀ y, sentC { s with updater := .scan p xs b } y = sentC s y := by
          intro y; simp only [sentC, hu, sendC]
        refine ⟨?_, ?_, ?_, hnd.2, ?_, ?_, h7⟩
        · intro y hy; rw [hs] at hy; exact h1 y hy
        · intro y; rw [hs]; exact h2 y
        · intro y hy; rw [hs] at hy; exact h3 y hy
        · intro y hy; rw [hs]; exact h5 y (hmem y hy)
        · intro hf y hy hd
          rw [hs]
          have := h6 hf y hy hd
          rw [hu] at this
          simp only [scanRest, List.mem_cons] at this ⊢
          rcases this with h | rfl | h
          · exact Or.inl h
          · exfalso
            apply hc
            simp only [Bool.and_eq_true, depsInstalled, List.all_eq_true, List.contains_iff_mem, Bool.not_eq_true']
            exact ⟨hd, hf⟩
          · exact Or.inr h
    · next p b hu =>
      cases h
      refine inv2_of_same hi (fun x => ?_) rfl (by rw [hu]; cases b <;> rfl) id rfl
      simp only [sentC, hu, sendC]
      cases b <;> simp [sendC]
    · cases h
  | updSend =>
    simp only [Job.step, stepUpdSend] at h
    split at h <;> cases h
    next x p xs b hu hr =>
    refine inv2_of_same hi (fun y => ?_) rfl (by rw [hu]; rfl) id rfl
    simp only [sentC, hu, hr, sendC, gotC]; omega
  | updCopy ok =>
    simp only [Job.step, stepUpdCopy] at h
    split at h
    · next p hu =>
      split at h <;> cases h
      · refine inv2_of_same hi (fun y => ?_) rfl (by rw [hu]; rfl) id rfl
        simp only [sentC, hu, sendC]
      · refine inv2_of_same hi (fun y => ?_) rfl (by rw [hu]; rfl) id rfl
        simp only [sentC, hu, sendC]
    · cases h
  | updDone =>
    simp only [Job.step, stepUpdDone] at h
    split at h <;> cases h
    next hu =>
    refine inv2_of_same hi (fun y => ?_) rfl (by rw [hu]; rfl) id rfl
    simp only [sentC, hu, sendC]

theorem reach_inv2 {j : Job} (hw : WellFormed j) {s : RunState} (h : Reach j s) : Inv2 j s := by
  obtain ⟨es, h⟩ := h
  exact (run_induction (P := fun s => Inv j s ∧ Inv2 j s)
    (fun _ _ _ h hs => ⟨inv_step h.1 hs, inv2_step hw h.1 h.2 hs⟩) ⟨inv_init j, inv2_init hw⟩ h).2

/-! ### Termination -/

/-- Steps left for a package that is about to be pushed. -/
def cost (j : Job) (p : Str) : Nat := 8 + 3 * ((GoMap.get? j.iDeps p).getD []).length

def sumBy {α : Type} (f : α → Nat) (l : List α) : Nat := (l.map f).sum

theorem sumBy_cons {α : Type} (f : α → Nat) (a : α) (l : List α) : sumBy f (a :: l) = f a + sumBy f l := by
  simp [sumBy]

theorem sumBy_append {α : Type} (f : α → Nat) (l l' : List α) : sumBy f (l ++ l') = sumBy f l + sumBy f l' := by
  simp [sumBy]

theorem sumBy_nil {α : Type} (f : α → Nat) : sumBy f [] = 0 := rfl

theorem sumBy_set {α : Type} (f : α → Nat) {l : List α} {i : Nat} {w : α} (w' : α) (h : l[i]? = some w) :
    sumBy f (l.set i w') + f w = sumBy f l + f w' := by
  induction l generalizing i with
  | nil => simp at h
  | cons a l ih =>
    cases i with
    | zero =>
      simp only [List.getElem?_cons_zero, Option.some.injEq] at h
      subst h
      simp only [List.set_cons_zero, sumBy_cons]; omega
    | succ i =>
      simp only [List.getElem?_cons_succ] at h
      have := ih h
      simp only [List.set_cons_succ, sumBy_cons]; omega

def workerCost (j : Job) : Worker → Nat
  | .idle => 0
  | .running p => cost j p - 2
  | .holding p _ => cost j p - 3

def reqCost (j : Job) : Requester → Nat
  | .idle => 0
  | .got _ => 1
  | .push p => cost j p

def updCost : Updater → Nat
  | .idle => 0
  | .scan _ xs _ => 3 + 3 * xs.length
  | .send _ _ xs _ => 5 + 3 * xs.length
  | .copy _ => 2
  | .finish => 1

/-- Upper bound on the number of remaining steps. -/
def measure (j : Job) (s : RunState) : Nat :=
  3 * s.todo.length + 2 * mainTok s + reqCost j s.requester +
  sumBy (fun p => cost j p - 1) s.workQ + sumBy (workerCost j) s.workers +
  sumBy (fun (e : Str × Outcome) => cost j e.1 - 4) s.updQ + updCost s.updater +
  (if s.ret = none then 1 else 0) +
  sumBy (cost j) ((Job.plan j).filter fun x => !s.requested.contains x)

theorem sumBy_filter_insert (f : Str → Nat) (P R : List Str) {p : Str} (hp : p ∈ P) (hr : p ∉ R) :
    sumBy f (P.filter fun x => !(p :: R).contains x) + f p ≤ sumBy f (P.filter fun x => !R.contains x) := by
  have hle : ∀ Q : List Str, sumBy f (Q.filter fun x => !(p :: R).contains x) ≤
      sumBy f (Q.filter fun x => !R.contains x) := by
    intro Q
    induction Q with
    | nil => exact Nat.le_refl _
    | cons a Q ih =>
      simp only [List.filter_cons, List.contains_cons, Bool.not_or]
      by_cases h1 : R.contains a = true
      · simp only [h1, Bool.not_true, Bool.and_false, Bool.false_eq_true, if_false]
        simpa only [List.contains_cons, Bool.not_or] using ih
      · simp only [Bool.not_eq_true] at h1
        simp only [h1, Bool.not_false, Bool.and_true, if_true, sumBy_cons]
        split
        · rw [sumBy_cons]; simp only [List.contains_cons, Bool.not_or] at ih; omega
        · simp only [List.contains_cons, Bool.not_or] at ih; omega
  induction P with
  | nil => cases hp
  | cons a P ih =>
    by_cases hap : a = p
    · subst hap
      have := hle P
      have h1 : (R.contains a) = false := by
        rw [Bool.eq_false_iff]; intro h; exact hr (by simpa using h)
      simp only [List.filter_cons, List.contains_cons, beq_self_eq_true, Bool.true_or, Bool.not_true, Bool.false_eq_true,
        if_false, h1, Bool.not_false, if_true, sumBy_cons] at this ⊢
      omega
    · have hpP : p ∈ P := by
        rcases List.mem_cons.1 hp with h | h
        · exact absurd h.symm hap
        · exact h
      have := ih hpP
      have hb : (a == p) = false := by simpa using hap
      simp only [List.filter_cons, List.contains_cons, hb, Bool.false_or] at this ⊢
      split
      · simp only [sumBy_cons]; omega
      · exact this

theorem measure_step {j : Job} {s s' : RunState} {e : Event} (hi : Inv2 j s)
    (h : j.step s e = some s') : measure j s' < measure j s := by
  have hc8 : ∀ p, 8 ≤ cost j p := fun p => by unfold cost; omega
  cases e with
  | mainAdd =>
    simp only [Job.step, stepMainAdd] at h
    split at h <;> cases h
    next p ps hm ht =>
    simp only [measure, mainTok, hm, ht, List.length_cons, if_true, reduceCtorEq, if_false]; omega
  | mainSend =>
    simp only [Job.step, stepMainSend] at h
    split at h <;> cases h
    next p hm hr =>
    simp only [measure, mainTok, hm, hr, reqCost, if_true, reduceCtorEq, if_false]; omega
  | mainReturn =>
    simp only [Job.step, stepMainReturn] at h
    split at h
    · next a b c =>
      split at h
      · cases h
        simp only [measure, mainTok, a, b, c, if_true, reduceCtorEq, if_false]; omega
      · cases h
    · cases h
  | reqCheck =>
    simp only [Job.step, stepReqCheck] at h
    split at h
    · next p hr =>
      split at h
      · cases h
        simp only [measure, mainTok, hr, reqCost]; omega
      · split at h
        · cases h
          simp only [measure, mainTok, hr, reqCost]; omega
        · next hc =>
          cases h
          have hp : p ∈ Job.plan j := hi.inPlan p (by simp only [sentC, hr, gotC, if_true]; omega)
          have := sumBy_filter_insert (cost j) (Job.plan j) s.requested hp (fun h => hc (by simpa using h))
          simp only [measure, mainTok, hr, reqCost]; omega
    · cases h
  | reqPush =>
    simp only [Job.step, stepReqPush] at h
    split at h
    · next p hr =>
      split at h
      · cases h
        have := hc8 p
        simp only [measure, mainTok, hr, reqCost, sumBy_append, sumBy_cons, sumBy_nil]; omega
      · cases h
    · cases h
  | take i =>
    simp only [Job.step, stepTake] at h
    split at h <;> cases h
    next p q hwk hq =>
    have := hc8 p
    have h2 := sumBy_set (workerCost j) (.running p) hwk
    simp only [workerCost] at h2
    simp only [measure, mainTok, hq, sumBy_cons]; omega
  | finish i o =>
    simp only [Job.step, stepFinish] at h
    split at h <;> cases h
    next p hwk =>
    have := hc8 p
    have h2 := sumBy_set (workerCost j) (.holding p o) hwk
    simp only [workerCost] at h2
    simp only [measure, mainTok]; omega
  | post i =>
    simp only [Job.step, stepPost] at h
    split at h
    · next p o hwk =>
      split at h
      · cases h
        have := hc8 p
        have h2 := sumBy_set (workerCost j) .idle hwk
        simp only [workerCost] at h2
        simp only [measure, mainTok, sumBy_append, sumBy_cons, sumBy_nil]; omega
      · cases h
    · cases h
  | updTake =>
    simp only [Job.step, stepUpdTake] at h
    split at h
    · next p q hu hq =>
      cases h
      have := hc8 p
      simp only [measure, mainTok, hu, hq, sumBy_cons, updCost]; omega
    · next p b q hu hq =>
      cases h
      have : cost j p = 8 + 3 * ((GoMap.get? j.iDeps p).getD []).length := rfl
      simp only [measure, mainTok, hu, hq, sumBy_cons, updCost]; omega
    · cases h
  | updScan =>
    simp only [Job.step, stepUpdScan] at h
    split at h
    · next p x xs b hu =>
      split at h <;> cases h
      · simp only [measure, mainTok, hu, updCost, List.length_cons]; omega
      · simp only [measure, mainTok, hu, updCost, List.length_cons]; omega
    · next p b hu =>
      cases h
      cases b <;> simp only [measure, mainTok, hu, updCost, List.length_nil, if_true, if_false, Bool.false_eq_true] <;> omega
    · cases h
  | updSend =>
    simp only [Job.step, stepUpdSend] at h
    split at h <;> cases h
    next x p xs b hu hr =>
    simp only [measure, mainTok, hu, hr, updCost, reqCost]; omega
  | updCopy ok =>
    simp only [Job.step, stepUpdCopy] at h
    split at h
    · next p hu =>
      split at h <;> cases h
      · simp only [measure, mainTok, hu, updCost]; omega
      · simp only [measure, mainTok, hu, updCost]; omega
    · cases h
  | updDone =>
    simp only [Job.step, stepUpdDone] at h
    split at h <;> cases h
    next hu =>
    simp only [measure, mainTok, hu, updCost]; omega

theorem run_length {j : Job} (hw : WellFormed j) {s s' : RunState} (hv : Inv j s) (hi : Inv2 j s) {es : List Event}
    (h : j.run s es = some s') : es.length + measure j s' ≤ measure j s := by
  induction es generalizing s with
  | nil => cases h; simp
  | cons e es ih =>
    simp only [Job.run] at h
    split at h
    · cases h
    · next s1 hs =>
      have h1 := ih (inv_step hv hs) (inv2_step hw hv hi hs) h
      have h2 := measure_step hi hs
      simp only [List.length_cons]; omega

/-! ### Progress -/

theorem requester_step {j : Job} {s : RunState} (h : s.requester ≠ .idle)
    (hq : ∀ q, s.requester = .push q → s.workQ.length < j.caps.work) :
    ∃ e s', j.step s e = some s' ∧ Benign e := by
  cases hr : s.requester with
  | idle => exact absurd hr h
  | got q =>
    refine ⟨.reqCheck, ?_⟩
    simp only [Job.step, stepReqCheck, hr]
    split
    · exact ⟨_, rfl, by simp [Benign]⟩
    · split
      · exact ⟨_, rfl, by simp [Benign]⟩
      · exact ⟨_, rfl, by simp [Benign]⟩
  | push q =>
    exact ⟨.reqPush, _, by simp only [Job.step, stepReqPush, hr, hq q hr, if_true]; rfl, by simp [Benign]⟩

theorem busy_step {j : Job} {s : RunState} {w : Worker} (hw : w ∈ s.workers) (hne : w ≠ .idle)
    (hq : s.updQ.length < j.caps.update ∨ ∃ p, w = .running p) :
    ∃ e s', j.step s e = some s' ∧ Benign e := by
  obtain ⟨i, hi, hwi⟩ := List.mem_iff_getElem.1 hw
  have hwi' : s.workers[i]? = some w := by rw [List.getElem?_eq_getElem hi, hwi]
  cases w with
  | idle => exact absurd rfl hne
  | running p' =>
    exact ⟨.finish i (.ok false), _, by simp only [Job.step, stepFinish, hwi']; rfl, by simp [Benign]⟩
  | holding p' o' =>
    have hq' : s.updQ.length < j.caps.update := by
      rcases hq with h | ⟨p, h⟩
      · exact h
      · cases h
    exact ⟨.post i, _, by simp only [Job.step, stepPost, hwi', hq', if_true]; rfl, by simp [Benign]⟩

theorem idle_step {j : Job} {s : RunState} (hw : .idle ∈ s.workers) (hq : s.workQ ≠ []) :
    ∃ e s', j.step s e = some s' ∧ Benign e := by
  obtain ⟨i, hi, hwi⟩ := List.mem_iff_getElem.1 hw
  have hwi' : s.workers[i]? = some .idle := by rw [List.getElem?_eq_getElem hi, hwi]
  cases hQ : s.workQ with
  | nil => exact absurd hQ hq
  | cons a l => exact ⟨.take i, _, by simp only [Job.step, stepTake, hwi', hQ]; rfl, by simp [Benign]⟩

/-- A run that has not returned can make a step unless it waits for a lost wait-group unit, or all queues
are full; no failing outcome is needed for that. -/
theorem progress {j : Job} {s : RunState} (hv : Inv j s) (hn : 0 < j.ncpu) (hcw : 0 < j.caps.work)
    (hcu : 0 < j.caps.update) (hr : s.ret = none) (hl : s.leaked = 0)
    (hcap : ∀ x p xs b q, s.updater = .send x p xs b → s.requester = .push q → j.caps.work ≤ s.workQ.length →
      j.caps.update ≤ s.updQ.length → (∀ w ∈ s.workers, ∃ p o, w = .holding p o) → False) :
    ∃ e s', j.step s e = some s' ∧ Benign e := by
  have hpos : 0 < s.workers.length := by rw [hv.len]; exact hn
  have hlong : ∀ {l : List Str}, ¬ l.length < j.caps.work → l ≠ [] := by
    intro l h h0; rw [h0] at h; exact h hcw
  cases hu : s.updater with
  | scan p xs b =>
    refine ⟨.updScan, ?_⟩
    cases xs with
    | nil => exact ⟨_, by simp only [Job.step, stepUpdScan, hu]; rfl, by simp [Benign]⟩
    | cons x xs =>
      simp only [Job.step, stepUpdScan, hu]
      split
      · exact ⟨_, rfl, by simp [Benign]⟩
      · exact ⟨_, rfl, by simp [Benign]⟩
  | copy p => exact ⟨.updCopy true, _, by simp only [Job.step, stepUpdCopy, hu]; rfl, by simp [Benign]⟩
  | finish => exact ⟨.updDone, _, by simp only [Job.step, stepUpdDone, hu]; rfl, by simp [Benign]⟩
  | send x p xs b =>
    by_cases hq : s.requester = .idle
    · exact ⟨.updSend, _, by simp only [Job.step, stepUpdSend, hu, hq]; rfl, by simp [Benign]⟩
    · by_cases hwq : s.workQ.length < j.caps.work
      · exact requester_step hq (fun _ _ => hwq)
      · by_cases hgot : ∃ q, s.requester = .push q
        · obtain ⟨q, hq'⟩ := hgot
          by_cases hall : ∀ w ∈ s.workers, ∃ p o, w = .holding p o
          · by_cases huq : s.updQ.length < j.caps.update
            · have hm := List.getElem_mem hpos
              obtain ⟨p', o', hw0⟩ := hall _ hm
              exact busy_step hm (by rw [hw0]; simp) (Or.inl huq)
            · exact (hcap x p xs b q hu hq' (by omega) (by omega) hall).elim
          · have : ∃ w ∈ s.workers, ¬ ∃ p o, w = .holding p o := by
              by_contra hno
              exact hall fun w hw => by
                by_contra h; exact hno ⟨w, hw, h⟩
            obtain ⟨w, hwm, hwn⟩ := this
            cases w with
            | idle => exact idle_step hwm (hlong hwq)
            | running p' => exact busy_step hwm (by simp) (Or.inr ⟨p', rfl⟩)
            | holding p' o' => exact absurd ⟨p', o', rfl⟩ hwn
        · exact requester_step hq (fun q h => absurd ⟨q, h⟩ hgot)
  | idle =>
    cases hQ : s.updQ with
    | cons e q =>
      obtain ⟨p, o⟩ := e
      refine ⟨.updTake, ?_⟩
      cases o with
      | failed => exact ⟨_, by simp only [Job.step, stepUpdTake, hu, hQ]; rfl, by simp [Benign]⟩
      | ok b => exact ⟨_, by simp only [Job.step, stepUpdTake, hu, hQ]; rfl, by simp [Benign]⟩
    | nil =>
      by_cases hbusy : ∃ w ∈ s.workers, w ≠ .idle
      · obtain ⟨w, hwm, hwn⟩ := hbusy
        exact busy_step hwm hwn (Or.inl (by rw [hQ]; exact hcu))
      · have hidle : ∀ w ∈ s.workers, w = .idle := fun w hw => by
          by_contra h; exact hbusy ⟨w, hw, h⟩
        have hm := List.getElem_mem hpos
        have h0 := hidle _ hm
        by_cases hW : s.workQ = []
        · by_cases hq : s.requester = .idle
          · cases hm' : s.mainSend with
            | some p => exact ⟨.mainSend, _, by simp only [Job.step, stepMainSend, hm', hq]; rfl, by simp [Benign]⟩
            | none =>
              cases ht : s.todo with
              | cons p ps => exact ⟨.mainAdd, _, by simp only [Job.step, stepMainAdd, hm', ht]; rfl, by simp [Benign]⟩
              | nil =>
                have hb : s.workers.countP isBusy = 0 := by
                  rw [List.countP_eq_zero]
                  intro w hw
                  rw [hidle w hw]; simp [isBusy]
                have := hv.tok
                simp only [mainTok, hm', hq, reqTok, hW, hb, hQ, hu, updTok, hl, if_true, List.length_nil] at this
                have hz : s.wg = 0 := by omega
                exact ⟨.mainReturn, _, by simp only [Job.step, stepMainReturn, hr, hm', ht, hz, if_true]; rfl,
                  by simp [Benign]⟩
          · exact requester_step hq (fun _ _ => by rw [hW]; exact hcw)
        · exact idle_step (by rw [← h0]; exact hm) hW

/-! ### Runs in which nothing goes wrong -/

theorem noFail_pend {j : Job} {s : RunState} (hv : Inv j s) (h : ∀ x, s.log.count (.finished x false) = 0) (x : Str) :
    pendFail s x = 0 ∧ s.failedPkgs.count x = 0 := by
  have := hv.finFail x; rw [h x] at this; omega

theorem noFail_anyFailed {j : Job} {s : RunState} (hv : Inv j s) (h : ∀ x, s.log.count (.finished x false) = 0) :
    s.anyFailed = false := by
  rw [Bool.eq_false_iff]
  intro hf
  obtain ⟨x, hx⟩ := List.exists_mem_of_ne_nil _ (hv.failed.1 hf)
  have := List.count_pos_iff.2 hx
  have := (noFail_pend hv h x).2
  omega

theorem clean_step {j : Job} {s s' : RunState} {e : Event} (hv : Inv j s) (hi : Inv2 j s)
    (hf : ∀ x, s.log.count (.finished x false) = 0) (hl : s.leaked = 0) (he : Benign e) (h : j.step s e = some s') :
    (∀ x, s'.log.count (.finished x false) = 0) ∧ s'.leaked = 0 := by
  cases e with
  | mainAdd => simp only [Job.step, stepMainAdd] at h; split at h <;> cases h; exact ⟨hf, hl⟩
  | mainSend => simp only [Job.step, stepMainSend] at h; split at h <;> cases h; exact ⟨hf, hl⟩
  | mainReturn =>
    simp only [Job.step, stepMainReturn] at h
    split at h
    · split at h
      · cases h; exact ⟨hf, hl⟩
      · cases h
    · cases h
  | reqCheck =>
    simp only [Job.step, stepReqCheck] at h
    split at h
    · next p hr =>
      split at h
      · next ha => rw [noFail_anyFailed hv hf] at ha; cases ha
      · split at h
        · next hc =>
          exfalso
          have := hi.uniq p
          have : 0 < s.requested.count p := List.count_pos_iff.2 (by simpa using hc)
          simp only [sentC, hr, gotC, if_true] at *
          omega
        · cases h; exact ⟨hf, hl⟩
    · cases h
  | reqPush =>
    simp only [Job.step, stepReqPush] at h
    split at h
    · split at h
      · cases h; exact ⟨hf, hl⟩
      · cases h
    · cases h
  | take i =>
    simp only [Job.step, stepTake] at h
    split at h <;> cases h
    exact ⟨fun x => by simp [List.count_append, hf x, List.count_cons], hl⟩
  | finish i o =>
    simp only [Job.step, stepFinish] at h
    split at h <;> cases h
    refine ⟨fun x => ?_, hl⟩
    have ho : o ≠ .failed := fun h => he.1 i (by rw [h])
    simp [List.count_append, hf x, List.count_cons, ho]
  | post i =>
    simp only [Job.step, stepPost] at h
    split at h
    · split at h
      · cases h; exact ⟨hf, hl⟩
      · cases h
    · cases h
  | updTake => simp only [Job.step, stepUpdTake] at h; split at h <;> cases h <;> exact ⟨hf, hl⟩
  | updScan =>
    simp only [Job.step, stepUpdScan] at h
    split at h
    · split at h <;> cases h <;> exact ⟨hf, hl⟩
    · cases h; exact ⟨hf, hl⟩
    · cases h
  | updSend => simp only [Job.step, stepUpdSend] at h; split at h <;> cases h; exact ⟨hf, hl⟩
  | updCopy ok =>
    simp only [Job.step, stepUpdCopy] at h
    split at h
    · split at h <;> cases h
      · exact ⟨hf, hl⟩
      · next hok => exact absurd (by simpa using hok) (fun h : ok = false => he.2 (by rw [h]))
    · cases h
  | updDone => simp only [Job.step, stepUpdDone] at h; split at h <;> cases h; exact ⟨hf, hl⟩

theorem clean_inv {j : Job} (hw : WellFormed j) {s : RunState} (h : ReachClean j s) :
    Inv j s ∧ Inv2 j s ∧ (∀ x, s.log.count (.finished x false) = 0) ∧ s.leaked = 0 := by
  obtain ⟨es, he, h⟩ := h
  suffices H : ∀ (es : List Event) (s0 s : RunState), (∀ e ∈ es, Benign e) → j.run s0 es = some s →
      Inv j s0 ∧ Inv2 j s0 ∧ (∀ x, s0.log.count (.finished x false) = 0) ∧ s0.leaked = 0 →
      Inv j s ∧ Inv2 j s ∧ (∀ x, s.log.count (.finished x false) = 0) ∧ s.leaked = 0 by
    refine H es _ s he h ⟨inv_init j, inv2_init hw, ?_, ?_⟩ <;> simp [Job.init]
  intro es
  induction es with
  | nil => intro s0 s _ h h0; cases h; exact h0
  | cons e es ih =>
    intro s0 s he h h0
    simp only [Job.run] at h
    split at h
    · cases h
    · next s1 hs =>
      obtain ⟨a, b, c, d⟩ := h0
      obtain ⟨c', d'⟩ := clean_step a b c d (he e (by simp)) hs
      exact ih s1 s (fun e' h' => he e' (by simp [h'])) h ⟨inv_step a hs, inv2_step hw a b hs, c', d'⟩

/-! ### Counting the packages on their way -/

def workerName : Worker → List Str
  | .idle => []
  | .running p => [p]
  | .holding p _ => [p]

theorem count_workerNames (x : Str) (ws : List Worker) : (ws.flatMap workerName).count x =
    ws.count (.running x) + ws.count (.holding x .failed) + ws.count (.holding x (.ok true)) +
      ws.count (.holding x (.ok false)) := by
  induction ws with
  | nil => rfl
  | cons w ws ih =>
    rw [List.flatMap_cons, List.count_append, ih]
    cases w with
    | idle => simp [workerName]
    | running p => simp only [workerName, List.count_cons, List.count_nil, beq_iff_eq, Worker.running.injEq,
        reduceCtorEq, if_false]; omega
    | holding p o =>
      rcases o with _ | _ | _ <;>
        simp [workerName, List.count_cons, List.count_nil] <;> omega

theorem count_updNames (x : Str) (q : List (Str × Outcome)) : (q.map Prod.fst).count x =
    q.count (x, .failed) + q.count (x, .ok true) + q.count (x, .ok false) := by
  induction q with
  | nil => rfl
  | cons e q ih =>
    obtain ⟨p, o⟩ := e
    rw [List.map_cons, List.count_cons, ih]
    rcases o with _ | _ | _ <;> simp [List.count_cons] <;> omega

theorem subset_length {l l' : List Str} (h : l.Nodup) (hs : ∀ x ∈ l, x ∈ l') : l.length ≤ l'.length :=
  (List.subperm_of_subset h hs).length_le

/-- The full-queue situation needs more packages than the plan has. -/
theorem no_full_queues {j : Job} {s : RunState} (hv : Inv j s) (hi : Inv2 j s)
    (hsize : (Job.plan j).length ≤ j.caps.work + j.caps.update + j.ncpu + 1) :
    ∀ x p xs b q, s.updater = .send x p xs b → s.requester = .push q → j.caps.work ≤ s.workQ.length →
      j.caps.update ≤ s.updQ.length → (∀ w ∈ s.workers, ∃ p o, w = .holding p o) → False := by
  intro x p xs b q hu hq h1 h2 h3
  have hsent : ∀ y, 1 ≤ s.requested.count y → y ∈ Job.plan j := fun y hy =>
    hi.inPlan y (by unfold sentC; omega)
  have hx1 : 1 ≤ sentC s x := by simp only [sentC, hu, sendC, if_true]; omega
  have hx0 : s.requested.count x = 0 := by
    have := hi.uniq x; simp only [sentC, hu, sendC, if_true] at this; omega
  have hcnt : ∀ y, (q :: (s.workQ ++ (s.workers.flatMap workerName ++ s.updQ.map Prod.fst))).count y ≤
      s.requested.count y := by
    intro y
    have := hv.req y
    rw [hq] at this
    simp only [List.count_cons, List.count_append, count_workerNames, count_updNames, pushC, pendOk, pendFail,
      beq_iff_eq] at this ⊢
    omega
  have hlen : ∀ ws : List Worker, (∀ w ∈ ws, ∃ p o, w = .holding p o) → (ws.flatMap workerName).length = ws.length := by
    intro ws
    induction ws with
    | nil => intro _; rfl
    | cons w ws ih =>
      intro h
      obtain ⟨p', o', hw⟩ := h w (by simp)
      rw [List.flatMap_cons, List.length_append, ih (fun w' h' => h w' (by simp [h'])), hw, List.length_cons]
      simp [workerName]; omega
  have hnd : (x :: q :: (s.workQ ++ (s.workers.flatMap workerName ++ s.updQ.map Prod.fst))).Nodup := by
    rw [List.nodup_iff_count]
    intro y
    rw [List.count_cons]
    have h4 := hcnt y
    have h5 := hv.once y
    split
    · next hxy => simp only [beq_iff_eq] at hxy; subst hxy; omega
    · omega
  have := subset_length hnd (l' := Job.plan j) (by
    intro y hy
    rcases List.mem_cons.1 hy with rfl | hy
    · exact hi.inPlan _ hx1
    · have := List.count_pos_iff.2 hy
      have := hcnt y
      exact hsent y (by omega))
  simp only [List.length_cons, List.length_append, List.length_map, hlen _ h3, hv.len] at this
  omega

theorem countP_isBusy_zero {ws : List Worker} (h : ws.countP isBusy = 0) : ∀ w ∈ ws, w = .idle := by
  rw [List.countP_eq_zero] at h
  intro w hw
  have := h w hw
  simpa [isBusy] using this

/-- When the run has returned everything is at rest. -/
theorem returned_idle {j : Job} {s : RunState} (hv : Inv j s) {r : RunResult} (hr : s.ret = some r) :
    s.todo = [] ∧ s.mainSend = none ∧ s.requester = .idle ∧ s.workQ = [] ∧ (∀ w ∈ s.workers, w = .idle) ∧
    s.updQ = [] ∧ s.updater = .idle ∧ s.leaked = 0 := by
  obtain ⟨h1, h2, h3, _⟩ := hv.ret r hr
  have ht := hv.tok
  rw [h1] at ht
  have hr0 : reqTok s.requester = 0 := by omega
  have hu0 : updTok s.updater = 0 := by omega
  refine ⟨h2, h3, ?_, List.length_eq_zero_iff.1 (by omega), countP_isBusy_zero (by omega),
    List.length_eq_zero_iff.1 (by omega), ?_, by omega⟩
  · revert hr0; cases s.requester <;> simp [reqTok]
  · revert hu0; cases s.updater <;> simp [updTok]

theorem count_idle {ws : List Worker} (h : ∀ w ∈ ws, w = .idle) (w : Worker) (hw : w ≠ .idle) : ws.count w = 0 := by
  rw [List.count_eq_zero]; intro hm; exact hw (h w hm)

end Pkgr
