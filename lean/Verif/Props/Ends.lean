/- Theorems C155: an installation in which nothing goes wrong comes to its end. -/
import Verif.Spec.Ends
import Verif.Proof.QueueEnds
import Verif.Props.Queue

namespace Pkgr
open Spec

theorem measure_init_le (j : Job) : measure j j.init ≤ 11 * (Job.plan j).length +
    3 * ((Job.plan j).map fun p => ((GoMap.get? j.iDeps p).getD []).length).sum + 1 := by
  have hsum : ∀ l : List Str, sumBy (cost j) l =
      8 * l.length + 3 * (l.map fun p => ((GoMap.get? j.iDeps p).getD []).length).sum := by
    intro l
    induction l with
    | nil => rfl
    | cons a l ih => rw [sumBy_cons, ih]; simp only [cost, List.length_cons, List.map_cons, List.sum_cons]; omega
  have h2 : measure j j.init = 3 * j.starting.length + 1 + sumBy (cost j) (Job.plan j) := by
    have hz : ∀ n, sumBy (workerCost j) (List.replicate n Worker.idle) = 0 := by
      intro n
      induction n with
      | zero => rfl
      | succ n ih => rw [List.replicate_succ, sumBy_cons, ih]; rfl
    have hfil : (Job.plan j).filter (fun x => !([] : List Str).contains x) = Job.plan j := by
      rw [List.filter_eq_self]; intro a _; simp
    simp only [measure, Job.init, mainTok, reqCost, updCost, hz, sumBy_nil, hfil, if_true]
  have h3 : j.starting.length ≤ (Job.plan j).length := by simp [Job.plan]
  rw [hsum] at h2
  omega

/-- C155: whatever happens, however R behaves and whatever fails: apart from the files that R writes and the updater copies,
an execution has a bounded number of steps.  So unless an R process or a copy goes on for ever, every execution comes to rest. -/
theorem C155_bounded {e : QEnv} (hw : WellFormed e.job) {fs0 : Fs} {n : Nat} {s : QState} (h : Takes e (e.init fs0) n s) :
    n ≤ 15 * (11 * (Job.plan e.job).length +
      3 * ((Job.plan e.job).map fun p => ((GoMap.get? e.job.iDeps p).getD []).length).sum + 1) := by
  have h1 := takes_measure hw h
  have h2 : qmeasure e (e.init fs0) = 15 * measure e.job e.job.init := by
    unfold qmeasure
    have : sumBy (workRank (e.init fs0)) (List.range e.job.ncpu) = 0 := by
      have hz : ∀ i, workRank (e.init fs0) i = 0 := by
        intro i
        unfold workRank QEnv.init Job.init
        dsimp only
        split
        · next p h => simp [List.getElem?_replicate] at h
        · rfl
      have : workRank (e.init fs0) = fun _ => 0 := funext hz
      rw [this]
      simp [sumBy]
    rw [this]
    rfl
  have h3 := measure_init_le e.job
  omega

theorem onlyFiles_trans {a b c : QState} (h : OnlyFiles a b) (h' : OnlyFiles b c) : OnlyFiles a c :=
  ⟨h'.1.trans h.1, h'.2.1.trans h.2.1, h'.2.2.1.trans h.2.2.1, h'.2.2.2.trans h.2.2.2⟩

/-- C155: however R behaves and whatever fails, every execution can be continued to one that has come to rest: nothing can happen any more but changes of files
(with or without copies that fail). -/
theorem C155_rests {e : QEnv} (hw : WellFormed e.job) {fs0 : Fs} {s : QState} (h : QReach e fs0 s) (T : QState → QState → Prop) (hT : ∀ a b, T a b → e.Step a b) :
    ∃ s', Relation.ReflTransGen T s s' ∧ ∀ t, Relation.ReflTransGen T s' t → OnlyFiles s' t := by
  have hlift : ∀ {a b : QState}, Relation.ReflTransGen T a b → Relation.ReflTransGen e.Step a b := by
    intro a b hab
    induction hab with
    | refl => exact .refl
    | tail _ h ih => exact ih.tail (hT _ _ h)
  have hle : ∀ {a b : QState}, QReach e fs0 a → Relation.ReflTransGen T a b → OnlyFiles a b ∨ qmeasure e b < qmeasure e a := by
    intro a b ha hab
    induction hab with
    | refl => exact .inl ⟨rfl, rfl, rfl, rfl⟩
    | @tail c d hac hcd ih =>
      have hr := qreach_reach (ha.trans (hlift hac))
      rcases qmeasure_step (reach_inv hr) (reach_inv2 hw hr) (hT _ _ hcd) with h1 | h1
      · rcases ih with h2 | h2
        · exact .inr (by rw [qmeasure_files h2] at h1; exact h1)
        · exact .inr (by omega)
      · rcases ih with h2 | h2
        · exact .inl (onlyFiles_trans h2 h1)
        · exact .inr (by rw [qmeasure_files h1]; exact h2)
  generalize hm : qmeasure e s = m
  induction m using Nat.strongRecOn generalizing s with
  | _ m ih =>
    by_cases hrest : ∀ t, Relation.ReflTransGen T s t → OnlyFiles s t
    · exact ⟨s, .refl, hrest⟩
    · have : ∃ t, Relation.ReflTransGen T s t ∧ ¬ OnlyFiles s t := by
        apply Classical.byContradiction
        intro hc
        exact hrest fun t ht => Classical.byContradiction fun hn => hc ⟨t, ht, hn⟩
      obtain ⟨t, ht, hn⟩ := this
      have hlt := (hle h ht).resolve_left hn
      obtain ⟨s', h1, h2⟩ := ih _ (hm ▸ hlt) (h.trans (hlift ht)) rfl
      exact ⟨s', ht.trans h1, h2⟩

/-- Every execution in which no copy has failed has lost nothing. -/
theorem leaked_none {e : QEnv} {Scratch : Path → Prop} {Complete : Str → (Path → Option Node) → Prop} {Holds : Str → Str → Prop}
    (hl : Layout e Scratch) (hr : RContract e Scratch Complete Holds) (hw : WellFormed e.job) (hn : ∀ p ∈ Job.plan e.job, ¬ IsLock p)
    {fs0 : Fs} (hft : FilesThere e Scratch Complete Holds fs0) (hos : e.ie.platform.os ≠ .other) (hR : RSucceeds e Complete Holds)
    (hroom : RoomThere e Scratch fs0) {s : QState} (h : Relation.ReflTransGen (Unfailing e) (e.init fs0) s) :
    s.run.leaked = 0 := by
  induction h with
  | refl => rfl
  | tail hs hst ih =>
    have hq := unfailing_reach hs
    have hv := qreach_reach (fs0 := fs0) hq
    exact unfailing_leaked (reach_inv hv) (reach_inv2 hw hv) (qreach_invE hl hr hw hn hft hos hR hroom.tmp hq) ih hst

/-- C155: an installation in which R does its work and no copy fails is never stuck, whatever has happened so far and in
whatever order: it can go on until it returns, without an error and with every planned package completely installed. -/
theorem C155_can_finish {e : QEnv} {Scratch : Path → Prop} {Complete : Str → (Path → Option Node) → Prop} {Holds : Str → Str → Prop}
    (hl : Layout e Scratch) (hr : RContract e Scratch Complete Holds) (hw : WellFormed e.job) (hn : ∀ p ∈ Job.plan e.job, ¬ IsLock p)
    {fs0 : Fs} (hft : FilesThere e Scratch Complete Holds fs0) (hos : e.ie.platform.os ≠ .other) (hR : RSucceeds e Complete Holds)
    (hroom : RoomThere e Scratch fs0) (hcpu : 0 < e.job.ncpu) (hc : e.job.caps = {}) (hsize : (Job.plan e.job).length ≤ 2500 + e.job.ncpu)
    {s : QState} (h : Relation.ReflTransGen (Unfailing e) (e.init fs0) s) :
    ∃ s', Relation.ReflTransGen (Unfailing e) s s' ∧ s'.run.ret = some .nil ∧
      ∀ p ∈ Job.plan e.job, Complete p (contentOf s'.fs e.lib p) := by
  have hq : QReach e fs0 s := unfailing_reach h
  obtain ⟨s', h1, h2⟩ := can_return hl hr hw hn hft hos hR hroom hcpu hc hsize _ (Nat.le_refl _) hq
    (leaked_none hl hr hw hn hft hos hR hroom h)
  exact ⟨s', h1, h2, C92_all_present_partial hl hr hw hn hft (hq.trans (unfailing_reach h1)) h2⟩

/-- C155: so when it has come to rest (nothing can happen any more but a change of files, whatever R and the updater do), it
has returned without an error and every planned package is completely installed. -/
theorem C155_completes {e : QEnv} {Scratch : Path → Prop} {Complete : Str → (Path → Option Node) → Prop} {Holds : Str → Str → Prop}
    (hl : Layout e Scratch) (hr : RContract e Scratch Complete Holds) (hw : WellFormed e.job) (hn : ∀ p ∈ Job.plan e.job, ¬ IsLock p)
    {fs0 : Fs} (hft : FilesThere e Scratch Complete Holds fs0) (hos : e.ie.platform.os ≠ .other) (hR : RSucceeds e Complete Holds)
    (hroom : RoomThere e Scratch fs0) (hcpu : 0 < e.job.ncpu) (hc : e.job.caps = {}) (hsize : (Job.plan e.job).length ≤ 2500 + e.job.ncpu)
    {s : QState} (h : Relation.ReflTransGen (Unfailing e) (e.init fs0) s)
    (hrest : ∀ s', Relation.ReflTransGen (Unfailing e) s s' → OnlyFiles s s') :
    s.run.ret = some .nil ∧ ∀ p ∈ Job.plan e.job, Complete p (contentOf s.fs e.lib p) := by
  obtain ⟨s', h1, h2, _⟩ := C155_can_finish hl hr hw hn hft hos hR hroom hcpu hc hsize h
  have h3 : s.run.ret = some .nil := by rw [← (hrest s' h1).1]; exact h2
  exact ⟨h3, C92_all_present_partial hl hr hw hn hft (unfailing_reach h) h3⟩

/-! ### Examples -/

/-- An R that does what it is told, in any way that keeps the contract; but it fails for `b` if `a`, which `b` needs, is not installed. -/
def sureR : RProc :=
  { writes := anyR.writes
    exits := fun c fs x => (x = .ok ↔ (c.pkg = s%"b" → fs [s%"lib", s%"a"] = some .dir)) ∧ (x = .ok → toyHasFile fs c.src → fs (c.lib ++ [c.pkg]) = some .dir ∧
      (c.build = true → fs c.workDir = some .dir ∧ ∀ bbp, binaryExtOs .darwin (basePath c.src) (s%"x") = some bbp →
        ∃ y, fs (c.workDir ++ [bbp]) = some (.file y) ∧ y ≠ [])) }

def sureQ : QEnv := { toyQ with proc := sureR }

theorem sureQ_layout : Layout sureQ (fun _ => False) :=
  ⟨toyQ_layout.tmpLib, toyQ_layout.tmpTmp, toyQ_layout.scratch, toyQ_layout.ball, toyQ_layout.cached⟩

theorem sureQ_contract : RContract sureQ (fun _ => False) ToyComplete ToyHolds := by
  refine ⟨toyQ_contract.confined, ?_, ?_, toyQ_contract.isDir, fun p _ k => toyQ_stamps p k, toyQ_contract.stamp⟩
  · intro c fs x h h1 h2; exact (h.2 rfl ⟨x, h1, h2⟩).1
  · intro c fs x h hb h1 h2 bbp n hx hn
    obtain ⟨y, hy, hne⟩ := ((h.2 rfl ⟨x, h1, h2⟩).2 hb).2 bbp hx
    rw [hy] at hn
    exact ⟨y, (Option.some.inj hn).symm, hne⟩

theorem sureQ_files : FilesThere sureQ (fun _ => False) ToyComplete ToyHolds toyQFs :=
  ⟨toyQ_files.src, toyQ_files.cached, toyQ_files.whole⟩

theorem sureQ_room : RoomThere sureQ (fun _ => False) toyQFs := by
  refine ⟨?_, ?_⟩
  · intro p hp x
    rcases toyQ_plan hp with rfl | rfl <;> exact fun h => by cases h
  · intro p hp _ x hx
    rcases toyQ_plan hp with rfl | rfl <;>
    · have hx' := Option.some.inj hx
      rw [← hx']
      refine ⟨by decide, toyQ_safe _ rfl, ?_⟩
      rintro ⟨q, hq, h⟩
      rcases toyQ_plan hq with rfl | rfl <;>
      · rcases h with h | ⟨y, hy, h⟩
        · revert h; decide
        · have hy' := Option.some.inj hy
          rw [← hy'] at h
          revert h; decide

theorem sureQ_succeeds : RSucceeds sureQ ToyComplete ToyHolds := by
  have hneed : ∀ p ∈ Job.plan sureQ.job, ∀ fs, NeedsThere sureQ ToyComplete p fs → p = s%"b" → fs [s%"lib", s%"a"] = some .dir := by
    intro p _ fs hn hp
    subst hp
    exact hn (s%"a") (.single (by decide))
  have hpkg : ∀ p k, (sureQ.rcall p k).pkg = p := by intro p k; cases k <;> rfl
  refine ⟨fun p hp k fs x y h _ _ hn => h.1.2 (fun hb => hneed p hp fs hn ((hpkg p k).symm.trans hb)), ?_, ?_⟩
  · intro p _ fs x h h1 h2
    obtain ⟨h3, h4⟩ := (h.2 rfl ⟨x, h1, h2⟩).2 rfl
    refine ⟨h3, fun bbp hb => ?_⟩
    obtain ⟨y, hy, _⟩ := h4 bbp hb
    rw [show fs (sureQ.tmp p ++ [bbp]) = _ from hy]
    simp
  · intro p hp k fs x _ _ hn
    have hd := hneed p hp fs hn
    by_cases hk : k = .build
    · subst hk
      have hbin : ∃ z, binaryExtOs .darwin (basePath (sureQ.rcall p .build).src) (s%"x") = some z ∧ z ≠ p := by
        rcases toyQ_plan hp with rfl | rfl <;> exact ⟨_, rfl, by decide⟩
      obtain ⟨z, hz, hzp⟩ := hbin
      refine ⟨((fs.set [s%"tmp", p] .dir).set [s%"tmp", p, p] .dir).set [s%"tmp", p, z] (.file (s%"bin")), .ok, .single ?_, ⟨fun _ hb => ?_, fun _ => rfl⟩, fun _ _ => ⟨?_, fun _ => ⟨?_, ?_⟩⟩⟩
      · intro q hq
        refine .inr (.inr ⟨rfl, ?_⟩)
        show [s%"tmp", p] <+: q
        apply Classical.byContradiction
        intro hn
        apply hq
        unfold Fs.set
        rw [if_neg, if_neg, if_neg]
        · rintro rfl; exact hn (List.prefix_refl _)
        · rintro rfl; exact hn ⟨[p], rfl⟩
        · rintro rfl; exact hn ⟨[z], rfl⟩
      · show ((fs.set [s%"tmp", p] .dir).set [s%"tmp", p, p] .dir).set [s%"tmp", p, z] (.file (s%"bin")) [s%"lib", s%"a"] = _
        simpa [Fs.set] using hd hb
      · show ((fs.set [s%"tmp", p] .dir).set [s%"tmp", p, p] .dir).set [s%"tmp", p, z] (.file (s%"bin")) [s%"tmp", p, p] = _
        simp [Fs.set, Ne.symm hzp]
      · show ((fs.set [s%"tmp", p] .dir).set [s%"tmp", p, p] .dir).set [s%"tmp", p, z] (.file (s%"bin")) [s%"tmp", p] = _
        simp [Fs.set]
      · intro bbp hb
        rw [hz] at hb
        cases hb
        refine ⟨s%"bin", ?_, by simp⟩
        show ((fs.set [s%"tmp", p] .dir).set [s%"tmp", p, p] .dir).set [s%"tmp", p, z] (.file (s%"bin")) [s%"tmp", p, z] = _
        simp [Fs.set]
    · have hb : (sureQ.rcall p k).build = false ∧ (sureQ.rcall p k).lib = [s%"lib"] ∧ (sureQ.rcall p k).pkg = p := by
        cases k with
        | build => exact absurd rfl hk
        | cached b => exact ⟨rfl, rfl, rfl⟩
        | final b => exact ⟨rfl, rfl, rfl⟩
      refine ⟨fs.set [s%"lib", p] .dir, .ok, .single ?_, ⟨fun _ hb' => ?_, fun _ => rfl⟩, fun _ _ => ⟨?_, fun h => ?_⟩⟩
      · intro q hq
        refine .inl ?_
        rw [hb.2.1, hb.2.2]
        apply Classical.byContradiction
        intro hn
        apply hq
        unfold Fs.set
        rw [if_neg]
        rintro rfl
        exact hn (List.prefix_refl _)
      · have := hd (hb.2.2.symm.trans hb')
        simp only [Fs.set]
        split
        · rfl
        · exact this
      · rw [hb.2.1, hb.2.2]
        simp [Fs.set]
      · rw [hb.1] at h; cases h

/-- Non-vacuity of C155: all its assumptions hold of a queue with two packages, one of which is built. -/
example : ∃ s', Relation.ReflTransGen (Unfailing sureQ) (sureQ.init toyQFs) s' ∧ s'.run.ret = some .nil ∧
    s'.fs [s%"lib", s%"b"] = some .dir := by
  obtain ⟨s', h1, h2, h3⟩ := C155_can_finish sureQ_layout sureQ_contract toyQ_wf toyQ_names sureQ_files (by decide) sureQ_succeeds
    sureQ_room (by decide) rfl (by decide) .refl
  exact ⟨s', h1, h2, h3 (s%"b") (by decide)⟩

/-- The steps of a run are counted: after its first step. -/
example : ∃ s, Takes sureQ (sureQ.init toyQFs) 1 s := by
  refine ⟨_, .act 0 _ _ .start (.sched _ .mainAdd _ rfl rfl rfl) ?_⟩
  rintro ⟨h, _⟩
  have := congrArg RunState.wg h
  revert this
  decide

/-- Non-vacuity of `C155_rests`: the queue above, with the steps in which no copy fails, comes to rest, and then it is done. -/
example : ∃ s', Relation.ReflTransGen (Unfailing sureQ) (sureQ.init toyQFs) s' ∧ s'.run.ret = some .nil := by
  obtain ⟨s', h1, h2⟩ := C155_rests (e := sureQ) toyQ_wf (fs0 := toyQFs) .refl (Unfailing sureQ) (fun _ _ h => h.1)
  exact ⟨s', h1, (C155_completes sureQ_layout sureQ_contract toyQ_wf toyQ_names sureQ_files (by decide) sureQ_succeeds
    sureQ_room (by decide) rfl (by decide) h1 h2).1⟩

end Pkgr
