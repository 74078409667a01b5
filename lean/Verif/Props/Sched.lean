/- C33-C40: parallel installation of a plan. -/
import Verif.Proof.Sched2
import Verif.Proof.Layers
import Verif.Props.Plan

namespace Pkgr
open Spec

/-- A small plan used in examples: `d` needs `b` and `c`, which both need `a`; `e` stands alone. -/
def toyJob : Job :=
  { starting := [s%"a", s%"e"],
    depDb := [(s%"b", [s%"a"]), (s%"c", [s%"a"]), (s%"d", [s%"b", s%"c", s%"a"])],
    iDeps := [(s%"a", [s%"b", s%"c", s%"d"]), (s%"b", [s%"d"]), (s%"c", [s%"d"])],
    ncpu := 2 }

/-- A decidable sufficient condition for `WellFormed`, used for examples only. -/
theorem wellFormed_of_check (j : Job) (ord : List Str) (h1 : (Job.plan j).Nodup)
    (h2 : ∀ x ∈ GoMap.keys j.depDb, (Job.deps j x).Nodup ∧ Job.deps j x ≠ [] ∧
      ∀ d ∈ Job.deps j x, d ∈ Job.plan j ∧ ord.idxOf d < ord.idxOf x ∧ x ∈ (GoMap.get? j.iDeps d).getD [])
    (h3 : ∀ d ∈ GoMap.keys j.iDeps, ((GoMap.get? j.iDeps d).getD []).Nodup ∧
      ∀ x ∈ (GoMap.get? j.iDeps d).getD [], d ∈ Job.deps j x) : WellFormed j := by
  refine ⟨h1, ?_, ?_, ?_, ?_, ?_, ?_⟩
  · intro x
    by_cases hx : x ∈ GoMap.keys j.depDb
    · exact (h2 x hx).1
    · unfold Job.deps; rw [(GoMap.get?_eq_none_iff _ _).2 hx]; exact List.nodup_nil
  · intro x d hd; exact ((h2 x (plan_of_deps hd)).2.2 d hd).1
  · intro x hx; exact (h2 x hx).2.1
  · intro x hx
    have : ∀ y, Relation.TransGen (fun a b => b ∈ Job.deps j a) x y → ord.idxOf y < ord.idxOf x := by
      intro y hy
      induction hy with
      | single h => exact ((h2 _ (plan_of_deps h)).2.2 _ h).2.1
      | tail _ h ih => exact Nat.lt_trans ((h2 _ (plan_of_deps h)).2.2 _ h).2.1 ih
    exact Nat.lt_irrefl _ (this x hx)
  · intro d x
    constructor
    · intro hx
      by_cases hd : d ∈ GoMap.keys j.iDeps
      · exact (h3 d hd).2 x hx
      · rw [(GoMap.get?_eq_none_iff _ _).2 hd] at hx; cases hx
    · intro hd; exact ((h2 x (plan_of_deps hd)).2.2 d hd).2.2
  · intro d
    by_cases hd : d ∈ GoMap.keys j.iDeps
    · exact (h3 d hd).1
    · rw [(GoMap.get?_eq_none_iff _ _).2 hd]; exact List.nodup_nil

theorem toyJob_wellFormed : WellFormed toyJob :=
  wellFormed_of_check toyJob [s%"a", s%"e", s%"b", s%"c", s%"d"] (by decide) (by decide) (by decide)

/-- A complete successful run of `toyJob`. -/
def toyRun : List Event :=
  [.mainAdd, .mainSend, .mainAdd, .reqCheck, .reqPush, .take 0, .mainSend, .reqCheck, .finish 0 (.ok false),
   .reqPush, .take 1, .post 0, .updTake, .updScan, .updSend, .updScan, .reqCheck, .reqPush, .updSend, .updScan,
   .updScan, .updDone, .reqCheck, .reqPush, .take 0, .finish 0 (.ok true), .post 0, .take 0, .updTake, .updScan,
   .updScan, .updCopy true, .updDone, .finish 0 (.ok false), .post 0, .updTake, .updScan, .updSend, .reqCheck, .updScan,
   .reqPush, .updDone, .finish 1 (.ok false), .post 1, .take 0, .updTake, .updScan, .updDone, .finish 0 (.ok false), .post 0,
   .updTake, .updScan, .updDone, .mainReturn]

/-! ### C33 -/

/-- C33: every plan that planning returns satisfies the hypothesis `WellFormed` of the theorems below, for
any number of workers and any iteration order. -/
theorem C33_plans_are_well_formed {cfg : PlanCfg} {nx nx' : Nexus} {installed : GoMap Desc} {libEx : Bool}
    {tb ds : List Desc} {add : GoMap AdditionalPkg} {ρ ρ' ρ'' ρi : Order} {req : List Str} {ip : InstallPlan}
    (hk : Keyed nx) (hR : NoR nx) (hρ : ρ''.Fair) (hρi : ρi.Fair)
    (h : planInstall cfg nx installed libEx tb ds add ρ ρ' ρ'' = .planned req nx' ip) (n t : Nat) :
    WellFormed (jobOf ip n ρi t) := by
  obtain ⟨hst, hdb, hs1, hs2, _⟩ := C25_starting_packages hk hR hρ h
  obtain ⟨cfgs, _, _, hnd⟩ := C19_plan_packages hk hR hρ h
  have hl := fun {p deps} hp => C24_dependency_lists hk hR hρ h (p := p) (deps := deps) hp
  have hdeps : ∀ x, Job.deps (jobOf ip n ρi t) x = (GoMap.get? ip.depDb x).getD [] := fun x => rfl
  have hneeds : ∀ x d, d ∈ Job.deps (jobOf ip n ρi t) x → Relation.TransGen (Needs nx' cfg.noRecommended) x d := by
    intro x d hd
    rw [hdeps] at hd
    cases hx : GoMap.get? ip.depDb x with
    | none => rw [hx] at hd; simp at hd
    | some l => rw [hx] at hd; exact ((hl hx).2.1 d).1 hd
  have hinv := fun d => C27_inverse_exact hρi t hs2 (fun p ds hp => (hl hp).1) d
  refine ⟨hnd, ?_, ?_, ?_, ?_, ?_, ?_⟩
  · intro x; rw [hdeps]
    cases hx : GoMap.get? ip.depDb x with
    | none => simp
    | some l => exact (hl hx).1
  · intro x d hd; rw [hdeps] at hd
    cases hx : GoMap.get? ip.depDb x with
    | none => rw [hx] at hd; simp at hd
    | some l => rw [hx] at hd; exact (hl hx).2.2.1 d hd
  · intro x hx
    rw [hdeps]
    obtain ⟨l, hl'⟩ := GoMap.exists_get?_of_mem (m := ip.depDb) hx
    rw [hl']
    obtain ⟨_, b, hb⟩ := (hdb x).1 hx
    intro h0
    have : b ∈ l := ((hl hl').2.1 b).2 (.single hb)
    rw [Option.getD_some] at h0
    rw [h0] at this; cases this
  · intro x hx
    have hx' : Relation.TransGen (Needs nx' cfg.noRecommended) x x := by
      have : ∀ y, Relation.TransGen (fun a b => b ∈ Job.deps (jobOf ip n ρi t) a) x y →
          Relation.TransGen (Needs nx' cfg.noRecommended) x y := by
        intro y hy
        induction hy with
        | single h => exact hneeds _ _ h
        | tail _ h ih => exact ih.trans (hneeds _ _ h)
      exact this x hx
    obtain ⟨y, hy, _⟩ := Relation.TransGen.head'_iff.1 hx
    have hxk : x ∈ GoMap.keys ip.depDb := plan_of_deps hy
    obtain ⟨l, hl'⟩ := GoMap.exists_get?_of_mem hxk
    exact (hl hl').2.2.2 (((hl hl').2.1 x).2 hx')
  · intro d x
    show x ∈ (GoMap.get? (invertDependencies ρi t ip.depDb) d).getD [] ↔ _
    rw [hdeps]
    have hmem : (∃ ds, GoMap.get? ip.depDb x = some ds ∧ d ∈ ds) ↔ d ∈ (GoMap.get? ip.depDb x).getD [] := by
      cases GoMap.get? ip.depDb x <;> simp
    rw [← hmem]
    cases hd : GoMap.get? (invertDependencies ρi t ip.depDb) d with
    | none =>
      simp only [Option.getD_none, List.not_mem_nil, false_iff]
      rintro ⟨ds, h1, h2⟩
      exact (hinv d).2.1 hd x ds h1 h2
    | some l => exact ((hinv d).1 l hd).1 x
  · intro d
    show ((GoMap.get? (invertDependencies ρi t ip.depDb) d).getD []).Nodup
    cases hd : GoMap.get? (invertDependencies ρi t ip.depDb) d with
    | none => simp
    | some l => exact ((hinv d).1 l hd).2.1

/-- C33: in every execution, at every moment and for every installation started so far, all dependencies of
the package had been installed successfully before it started. -/
theorem C33_dependencies_first {j : Job} (hw : WellFormed j) {s : RunState} (hs : Reach j s)
    {before after : List LogEntry} {p : Str} (hlog : s.log = before ++ .started p :: after) {d : Str}
    (hd : d ∈ Job.deps j p) : .finished d true ∈ before :=
  (reach_inv2 hw hs).order before after p hlog d hd

/-- C33, from planning to installation: whatever a package transitively needs according to the repositories
was installed successfully before the package's installation started. -/
theorem C33_needed_first {cfg : PlanCfg} {nx nx' : Nexus} {installed : GoMap Desc} {libEx : Bool}
    {tb ds : List Desc} {add : GoMap AdditionalPkg} {ρ ρ' ρ'' ρi : Order} {req : List Str} {ip : InstallPlan}
    (hk : Keyed nx) (hR : NoR nx) (hρ : ρ''.Fair) (hρi : ρi.Fair)
    (h : planInstall cfg nx installed libEx tb ds add ρ ρ' ρ'' = .planned req nx' ip) {n t : Nat}
    {s : RunState} (hs : Reach (jobOf ip n ρi t) s)
    {before after : List LogEntry} {p : Str} (hlog : s.log = before ++ .started p :: after) {q : Str}
    (hq : Relation.TransGen (Needs nx' cfg.noRecommended) p q) : .finished q true ∈ before := by
  have hw := C33_plans_are_well_formed hk hR hρ hρi h n t
  refine C33_dependencies_first hw hs hlog ?_
  -- p is planned and has a dependency list
  have hpin : p ∈ ip.packages := by
    have hv := reach_inv hs
    have h1 := hv.started p
    have h2 := hv.req p
    have : 0 < s.log.count (.started p) := List.count_pos_iff.2 (by rw [hlog]; simp)
    exact (reach_inv2 hw hs).inPlan p (by unfold sentC; omega)
  obtain ⟨b, hb, _⟩ := Relation.TransGen.head'_iff.1 hq
  obtain ⟨l, hl⟩ := GoMap.exists_get?_of_mem (((C25_starting_packages hk hR hρ h).2.1 p).2 ⟨hpin, b, hb⟩)
  show q ∈ (GoMap.get? ip.depDb p).getD []
  rw [hl]
  exact ((C24_dependency_lists hk hR hρ h hl).2.1 q).2 hq

/-- Non-vacuity of C33: a run of a well-formed job in which `d` starts after `b`, `c` and `a`. -/
example : (∃ s, toyJob.run toyJob.init toyRun = some s ∧ s.ret = some .nil ∧
    s.log = [.started (s%"a"), .finished (s%"a") true, .started (s%"e"), .started (s%"b"), .finished (s%"b") true,
      .started (s%"c"), .finished (s%"c") true, .finished (s%"e") true, .started (s%"d"), .finished (s%"d") true]) :=
  ⟨_, rfl, by decide, by decide⟩

/-! ### C34 -/

/-- C34: in every execution of every plan (well-formed or not), each package's installation is started at
most once. -/
theorem C34_started_once {j : Job} {s : RunState} (hs : Reach j s) (p : Str) :
    s.log.count (.started p) ≤ 1 := by
  have hv := reach_inv hs
  have := hv.started p; have := hv.req p; have := hv.once p
  omega

/-- C34: only planned packages are started, and an installation ends at most once and only after it
started. -/
theorem C34_only_planned {j : Job} (hw : WellFormed j) {s : RunState} (hs : Reach j s) (p : Str) :
    (.started p ∈ s.log → p ∈ Job.plan j) ∧
    s.log.count (.finished p true) + s.log.count (.finished p false) ≤ s.log.count (.started p) := by
  have hv := reach_inv hs
  have h1 := hv.started p; have h2 := hv.req p; have h3 := hv.finOk p; have h4 := hv.finFail p
  constructor
  · intro h
    have := List.count_pos_iff.2 h
    exact (reach_inv2 hw hs).inPlan p (by unfold sentC; omega)
  · omega

/-! ### C35 -/

/-- C35: if the run returns without error, every package of the plan was installed successfully. -/
theorem C35_all_installed {j : Job} (hw : WellFormed j) {s : RunState} (hs : Reach j s)
    (hr : s.ret = some .nil) : ∀ p ∈ Job.plan j, .finished p true ∈ s.log := by
  have hv := reach_inv hs
  have hi := reach_inv2 hw hs
  obtain ⟨h1, h2, h3, h4, h5, h6, h7, _⟩ := returned_idle hv hr
  have hnf : s.anyFailed = false := by
    have := (hv.ret _ hr).2.2.2
    cases hf : s.anyFailed
    · rfl
    · rw [hf] at this; simp at this
  have hfp : s.failedPkgs = [] := by
    by_contra hne; have := hv.failed.2 hne; rw [hnf] at this; cases this
  suffices hinst : ∀ p ∈ Job.plan j, p ∈ s.installed by
    intro p hp
    have := List.count_pos_iff.2 (hinst p hp)
    have h8 := hv.finOk p
    exact List.count_pos_iff.1 (by omega)
  by_contra hno
  have hex : ∃ p, p ∈ Job.plan j ∧ p ∉ s.installed := by
    by_contra hx; exact hno fun p hp => by by_contra hc; exact hx ⟨p, hp, hc⟩
  obtain ⟨x, hx⟩ := exists_cycle (r := fun a b => b ∈ Job.deps j a) (Job.plan j)
    (fun p => p ∈ Job.plan j ∧ p ∉ s.installed) hex (fun p h => h.1) (by
      rintro p ⟨hp, hpn⟩
      by_contra hdep
      have hall : ∀ d ∈ Job.deps j p, d ∈ s.installed := by
        intro d hd
        by_contra hdn
        exact hdep ⟨d, ⟨hw.depsIn p d hd, hdn⟩, hd⟩
      have := hi.cover hnf p hp hall
      rw [h7] at this
      simp only [scanRest, List.not_mem_nil, or_false] at this
      simp only [sentC, h1, h2, h3, h7, mainC, gotC, sendC, List.count_nil] at this
      have h8 := hv.req p
      simp only [h3, h4, h6, hfp, pushC, pendOk, pendFail, List.count_nil, count_idle h5 (.running p) (by simp),
        count_idle h5 (.holding p (.ok true)) (by simp), count_idle h5 (.holding p (.ok false)) (by simp),
        count_idle h5 (.holding p .failed) (by simp)] at h8
      have : s.installed.count p = 0 := List.count_eq_zero.2 hpn
      omega)
  exact hw.acyclic x hx

/-- Non-vacuity of C35 (and of C39): the run above returns without error. -/
example : ∃ s, Reach toyJob s ∧ s.ret = some .nil ∧ s.installed.length = 5 := ⟨_, ⟨toyRun, rfl⟩, rfl, rfl⟩

/-! ### C36 -/

/-- C36: as long as nothing goes wrong (and there is a worker), a run of a plan with at most 2500 packages
plus the number of workers that has not returned can always take a step. -/
theorem C36_progress {j : Job} (hw : WellFormed j) (hn : 0 < j.ncpu) (hc : j.caps = {})
    (hsize : (Job.plan j).length ≤ 2500 + j.ncpu) {s : RunState} (hs : ReachClean j s) (hr : s.ret = none) :
    ∃ e s', j.step s e = some s' ∧ Benign e := by
  obtain ⟨hv, hi, _, hl⟩ := clean_inv hw hs
  refine progress hv hn (by rw [hc]; decide) (by rw [hc]; decide) hr hl (no_full_queues hv hi ?_)
  have h1 : j.caps.work = 2000 := by rw [hc]
  have h2 : j.caps.update = 500 := by rw [hc]
  omega

/-- C36: every execution, whatever happens in it, has at most this many steps: eleven for every package and
three for every pair of a package and a dependent of it, plus the return. -/
theorem C36_bounded {j : Job} (hw : WellFormed j) {s : RunState} {es : List Event}
    (h : j.run j.init es = some s) :
    es.length ≤ 11 * (Job.plan j).length +
      3 * ((Job.plan j).map fun p => ((GoMap.get? j.iDeps p).getD []).length).sum + 1 := by
  have h1 := run_length hw (inv_init j) (inv2_init hw) h
  have hsum : ∀ l : List Str, sumBy (cost j) l =
      8 * l.length + 3 * (l.map fun p => ((GoMap.get? j.iDeps p).getD []).length).sum := by
    intro l
    induction l with
    | nil => rfl
    | cons a l ih => rw [sumBy_cons, ih]; simp only [cost, List.length_cons, List.map_cons, List.sum_cons]; omega
  have h2 : measure j j.init = 3 * j.starting.length + 1 + sumBy (cost j) (Job.plan j) := by
    have hz : ∀ n, sumBy (workerCost j) (List.replicate n Worker.idle) = 0 := by
      intro n
      induction n with
      | zero => rfl
      | succ n ih => rw [List.replicate_succ, sumBy_cons, ih]; rfl
    have hfil : (Job.plan j).filter (fun x => !([] : List Str).contains x) = Job.plan j := by
      rw [List.filter_eq_self]; intro a _; simp
    simp only [measure, Job.init, mainTok, reqCost, updCost, hz, sumBy_nil, hfil, if_true]
  have h3 : j.starting.length ≤ (Job.plan j).length := by simp [Job.plan]
  rw [hsum] at h2
  omega

/-- C36: so a run in which nothing goes wrong and that has gone as far as it can has returned, without an
error, with the whole plan installed. -/
theorem C36_completes {j : Job} (hw : WellFormed j) (hn : 0 < j.ncpu) (hc : j.caps = {})
    (hsize : (Job.plan j).length ≤ 2500 + j.ncpu) {s : RunState} (hs : ReachClean j s)
    (hmax : ∀ e s', j.step s e = some s' → ¬ Benign e) :
    s.ret = some .nil ∧ ∀ p ∈ Job.plan j, .finished p true ∈ s.log := by
  have hret : s.ret = some .nil := by
    cases hr : s.ret with
    | none =>
      obtain ⟨e, s', h, hb⟩ := C36_progress hw hn hc hsize hs hr
      exact absurd hb (hmax e s' h)
    | some r =>
      obtain ⟨hv, _, hf, _⟩ := clean_inv hw hs
      have := (hv.ret r hr).2.2.2
      rw [noFail_anyFailed hv hf] at this
      simp only [Bool.false_eq_true, if_false] at this
      rw [this]
  exact ⟨hret, C35_all_installed hw (by obtain ⟨es, _, h⟩ := hs; exact ⟨es, h⟩) hret⟩

/-- A plan in which `a` unlocks five packages, run with one worker and queue capacities 1. -/
def tightJob : Job :=
  { starting := [s%"a"],
    depDb := [(s%"b", [s%"a"]), (s%"c", [s%"a"]), (s%"d", [s%"a"]), (s%"e", [s%"a"]), (s%"f", [s%"a"])],
    iDeps := [(s%"a", [s%"b", s%"c", s%"d", s%"e", s%"f"])],
    ncpu := 1, caps := { work := 1, update := 1 } }

/-- The size condition is needed: with queue capacities 1 instead of 2000 and 500, a plan in which one package
unlocks five others can deadlock although nothing goes wrong. -/
theorem C36_capacity_needed : ∃ (j : Job) (s : RunState), WellFormed j ∧ 0 < j.ncpu ∧ ReachClean j s ∧ s.ret = none ∧
    ∀ e, j.step s e = none := by
  refine ⟨tightJob, _, wellFormed_of_check _ [s%"a", s%"b", s%"c", s%"d", s%"e", s%"f"] (by decide) (by decide) (by decide),
    by decide, ⟨[.mainAdd, .mainSend, .reqCheck, .reqPush, .take 0, .finish 0 (.ok false), .post 0, .updTake,
      .updScan, .updSend, .reqCheck, .reqPush, .take 0, .finish 0 (.ok false), .post 0,
      .updScan, .updSend, .reqCheck, .reqPush, .take 0, .finish 0 (.ok false),
      .updScan, .updSend, .reqCheck, .reqPush, .updScan, .updSend, .reqCheck, .updScan], ?_, rfl⟩, by decide, ?_⟩
  · simp [Benign]
  · intro e
    cases e with
    | take i => cases i <;> rfl
    | finish i o => cases i <;> rfl
    | post i => cases i <;> rfl
    | _ => rfl

example : ReachClean toyJob toyJob.init ∧ toyJob.init.ret = none ∧ toyJob.caps = {} ∧
    (Job.plan toyJob).length ≤ 2500 + toyJob.ncpu := ⟨⟨[], by simp, rfl⟩, rfl, rfl, by decide⟩

/-! ### C37 -/

/-- C37: if an installation failed, no package that depends on it, directly or not, is ever started. -/
theorem C37_dependents_not_started {j : Job} (hw : WellFormed j) {s : RunState} (hs : Reach j s) {p q : Str}
    (hq : .finished q false ∈ s.log) (hp : Relation.TransGen (fun a b => b ∈ Job.deps j a) p q) :
    .started p ∉ s.log := by
  have hv := reach_inv hs
  have hi := reach_inv2 hw hs
  -- started packages have successfully installed dependencies
  have hdep : ∀ x y, .started x ∈ s.log → y ∈ Job.deps j x → .finished y true ∈ s.log := by
    intro x y hx hy
    obtain ⟨l1, l2, hl⟩ := List.append_of_mem hx
    rw [hl]
    exact List.mem_append_left _ (hi.order l1 l2 x hl y hy)
  have hfin : ∀ x, .finished x true ∈ s.log → .started x ∈ s.log ∧ .finished x false ∉ s.log := by
    intro x hx
    have h1 := List.count_pos_iff.2 hx
    have h2 := (C34_only_planned hw hs x).2
    have h3 := C34_started_once hs x
    constructor
    · exact List.count_pos_iff.1 (by omega)
    · intro h; have := List.count_pos_iff.2 h; omega
  intro hst
  have : .finished q true ∈ s.log := by
    clear hq
    induction hp with
    | single h => exact hdep _ _ hst h
    | tail _ h ih => exact hdep _ _ (hfin _ ih).1 h
  exact (hfin q this).2 hq

/-- C37: if the run returns, it returns an error exactly if some installation failed, and the error names
exactly the packages whose installation failed. -/
theorem C37_error_iff {j : Job} {s : RunState} (hs : Reach j s) {r : RunResult} (hr : s.ret = some r) :
    (r = .nil ↔ ∀ p, .finished p false ∉ s.log) ∧
    (∀ l, r = .error l → l ≠ [] ∧ ∀ p, p ∈ l ↔ .finished p false ∈ s.log) := by
  have hv := reach_inv hs
  obtain ⟨_, _, _, _, h5, h6, _, _⟩ := returned_idle hv hr
  have hret := (hv.ret _ hr).2.2.2
  have hmem : ∀ p, p ∈ s.failedPkgs ↔ .finished p false ∈ s.log := by
    intro p
    have := hv.finFail p
    simp only [pendFail, h6, List.count_nil, count_idle h5 (.holding p .failed) (by simp)] at this
    rw [← List.count_pos_iff, ← List.count_pos_iff]; omega
  cases hf : s.anyFailed with
  | true =>
    rw [hf] at hret
    simp only [if_true] at hret
    have hne := hv.failed.1 hf
    constructor
    · constructor
      · intro h; rw [h] at hret; cases hret
      · intro h
        obtain ⟨p, hp⟩ := List.exists_mem_of_ne_nil _ hne
        exact absurd ((hmem p).1 hp) (h p)
    · intro l hl; rw [hl] at hret; cases hret; exact ⟨hne, hmem⟩
  | false =>
    rw [hf] at hret
    simp only [Bool.false_eq_true, if_false] at hret
    have hnil : s.failedPkgs = [] := by
      by_contra hne; have := hv.failed.2 hne; rw [hf] at this; cases this
    constructor
    · refine ⟨fun _ p hp => ?_, fun _ => hret⟩
      have := (hmem p).2 hp; rw [hnil] at this; cases this
    · intro l hl; rw [hl] at hret; cases hret

/-- Non-vacuity of C37: `a` fails alone, the run returns an error naming it. -/
example : ∃ s, Reach { toyJob with starting := [s%"a"] } s ∧ s.ret = some (.error [s%"a"]) ∧
    s.log = [.started (s%"a"), .finished (s%"a") false] :=
  ⟨_, ⟨[.mainAdd, .mainSend, .reqCheck, .reqPush, .take 0, .finish 0 .failed, .post 0, .updTake, .updDone, .mainReturn],
    rfl⟩, rfl, rfl⟩

/-! ### C38 -/

/-- Lost wait-group units stay lost, and a recorded failure stays recorded. -/
theorem leaked_mono {j : Job} {s s' : RunState} {e : Event} (h : j.step s e = some s') :
    s.leaked ≤ s'.leaked ∧ (s.anyFailed = true → s'.anyFailed = true) := by
  cases e with
  | mainAdd => simp only [Job.step, stepMainAdd] at h; split at h <;> cases h; exact ⟨Nat.le_refl _, id⟩
  | mainSend => simp only [Job.step, stepMainSend] at h; split at h <;> cases h; exact ⟨Nat.le_refl _, id⟩
  | mainReturn =>
    simp only [Job.step, stepMainReturn] at h
    split at h
    · split at h
      · cases h; exact ⟨Nat.le_refl _, id⟩
      · cases h
    · cases h
  | reqCheck =>
    simp only [Job.step, stepReqCheck] at h
    split at h
    · split at h
      · cases h; exact ⟨Nat.le_succ _, id⟩
      · split at h
        · cases h; exact ⟨Nat.le_succ _, id⟩
        · cases h; exact ⟨Nat.le_refl _, id⟩
    · cases h
  | reqPush =>
    simp only [Job.step, stepReqPush] at h
    split at h
    · split at h
      · cases h; exact ⟨Nat.le_refl _, id⟩
      · cases h
    · cases h
  | take i => simp only [Job.step, stepTake] at h; split at h <;> cases h; exact ⟨Nat.le_refl _, id⟩
  | finish i o => simp only [Job.step, stepFinish] at h; split at h <;> cases h; exact ⟨Nat.le_refl _, id⟩
  | post i =>
    simp only [Job.step, stepPost] at h
    split at h
    · split at h
      · cases h; exact ⟨Nat.le_refl _, id⟩
      · cases h
    · cases h
  | updTake =>
    simp only [Job.step, stepUpdTake] at h
    split at h <;> cases h
    · exact ⟨Nat.le_refl _, fun _ => rfl⟩
    · exact ⟨Nat.le_refl _, id⟩
  | updScan =>
    simp only [Job.step, stepUpdScan] at h
    split at h
    · split at h <;> cases h <;> exact ⟨Nat.le_refl _, id⟩
    · cases h; exact ⟨Nat.le_refl _, id⟩
    · cases h
  | updSend => simp only [Job.step, stepUpdSend] at h; split at h <;> cases h; exact ⟨Nat.le_refl _, id⟩
  | updCopy ok =>
    simp only [Job.step, stepUpdCopy] at h
    split at h
    · split at h <;> cases h
      · exact ⟨Nat.le_refl _, id⟩
      · exact ⟨Nat.le_succ _, id⟩
    · cases h
  | updDone => simp only [Job.step, stepUpdDone] at h; split at h <;> cases h; exact ⟨Nat.le_refl _, id⟩

/-- Only `mainReturn` ends the run. -/
theorem ret_step {j : Job} {s s' : RunState} {e : Event} (h : j.step s e = some s') (hr : s.ret = none) :
    s'.ret = none ∨ (s.wg = 0 ∧ s.todo = [] ∧ s.mainSend = none) := by
  cases e with
  | mainReturn =>
    simp only [Job.step, stepMainReturn] at h
    split at h
    · next a b c =>
      split at h
      · next hw => exact Or.inr ⟨hw, c, b⟩
      · cases h
    · cases h
  | mainAdd => left; simp only [Job.step, stepMainAdd] at h; split at h <;> cases h; exact hr
  | mainSend => left; simp only [Job.step, stepMainSend] at h; split at h <;> cases h; exact hr
  | reqCheck =>
    left; simp only [Job.step, stepReqCheck] at h
    split at h
    · split at h
      · cases h; exact hr
      · split at h <;> cases h <;> exact hr
    · cases h
  | reqPush =>
    left; simp only [Job.step, stepReqPush] at h
    split at h
    · split at h <;> cases h; exact hr
    · cases h
  | take i => left; simp only [Job.step, stepTake] at h; split at h <;> cases h; exact hr
  | finish i o => left; simp only [Job.step, stepFinish] at h; split at h <;> cases h; exact hr
  | post i =>
    left; simp only [Job.step, stepPost] at h
    split at h
    · split at h <;> cases h; exact hr
    · cases h
  | updTake => left; simp only [Job.step, stepUpdTake] at h; split at h <;> cases h <;> exact hr
  | updScan =>
    left; simp only [Job.step, stepUpdScan] at h
    split at h
    · split at h <;> cases h <;> exact hr
    · cases h; exact hr
    · cases h
  | updSend => left; simp only [Job.step, stepUpdSend] at h; split at h <;> cases h; exact hr
  | updCopy ok =>
    left; simp only [Job.step, stepUpdCopy] at h
    split at h
    · split at h <;> cases h <;> exact hr
    · cases h
  | updDone => left; simp only [Job.step, stepUpdDone] at h; split at h <;> cases h; exact hr

/-- A name still to be looked at stays so until it is handed on or, after a failure, dropped. -/
theorem pending_step {j : Job} {s s' : RunState} {e : Event} (h : j.step s e = some s') (hf : s.anyFailed = true)
    (hp : s.todo ≠ [] ∨ s.mainSend ≠ none ∨ ∃ p, s.requester = .got p) :
    0 < s'.leaked ∨ s'.todo ≠ [] ∨ s'.mainSend ≠ none ∨ ∃ p, s'.requester = .got p := by
  cases e with
  | mainAdd =>
    simp only [Job.step, stepMainAdd] at h; split at h <;> cases h
    right; right; left; simp
  | mainSend =>
    simp only [Job.step, stepMainSend] at h; split at h <;> cases h
    next p _ _ => exact Or.inr (Or.inr (Or.inr ⟨p, rfl⟩))
  | mainReturn =>
    simp only [Job.step, stepMainReturn] at h
    split at h
    · split at h
      · cases h; exact Or.inr hp
      · cases h
    · cases h
  | reqCheck =>
    simp only [Job.step, stepReqCheck, hf, if_true] at h
    split at h
    · cases h; left; exact Nat.succ_pos _
    · cases h
  | reqPush =>
    simp only [Job.step, stepReqPush] at h
    split at h
    · next p hr =>
      split at h <;> cases h
      right
      rcases hp with hp | hp | ⟨q, hq⟩
      · exact Or.inl hp
      · exact Or.inr (Or.inl hp)
      · rw [hr] at hq; cases hq
    · cases h
  | take i => simp only [Job.step, stepTake] at h; split at h <;> cases h; exact Or.inr hp
  | finish i o => simp only [Job.step, stepFinish] at h; split at h <;> cases h; exact Or.inr hp
  | post i =>
    simp only [Job.step, stepPost] at h
    split at h
    · split at h <;> cases h; exact Or.inr hp
    · cases h
  | updTake => simp only [Job.step, stepUpdTake] at h; split at h <;> cases h <;> exact Or.inr hp
  | updScan =>
    simp only [Job.step, stepUpdScan] at h
    split at h
    · split at h <;> cases h <;> exact Or.inr hp
    · cases h; exact Or.inr hp
    · cases h
  | updSend =>
    simp only [Job.step, stepUpdSend] at h; split at h <;> cases h
    next x p xs b _ _ => exact Or.inr (Or.inr (Or.inr ⟨x, rfl⟩))
  | updCopy ok =>
    simp only [Job.step, stepUpdCopy] at h
    split at h
    · split at h <;> cases h <;> exact Or.inr hp
    · cases h
  | updDone => simp only [Job.step, stepUpdDone] at h; split at h <;> cases h; exact Or.inr hp

/-- A run in which a wait-group unit is lost, or will be, never returns. -/
theorem never_returns {j : Job} {s : RunState} (hv : Inv j s) (hr : s.ret = none)
    (hp : 0 < s.leaked ∨ (s.anyFailed = true ∧ (s.todo ≠ [] ∨ s.mainSend ≠ none ∨ ∃ p, s.requester = .got p)))
    {es : List Event} {s' : RunState} (h : j.run s es = some s') : s'.ret = none := by
  refine (run_induction (P := fun s => Inv j s ∧ s.ret = none ∧ (0 < s.leaked ∨ (s.anyFailed = true ∧
    (s.todo ≠ [] ∨ s.mainSend ≠ none ∨ ∃ p, s.requester = .got p)))) ?_ ⟨hv, hr, hp⟩ h).2.1
  rintro s s' e ⟨hv, hr, hp⟩ h
  obtain ⟨hm1, hm2⟩ := leaked_mono h
  refine ⟨inv_step hv h, ?_, ?_⟩
  · rcases ret_step h hr with h | ⟨h1, h2, h3⟩
    · exact h
    · exfalso
      have ht := hv.tok
      rw [h1] at ht
      rcases hp with hp | ⟨_, hp | hp | ⟨p, hp⟩⟩
      · omega
      · exact hp h2
      · exact hp h3
      · rw [hp] at ht; simp only [reqTok] at ht; omega
  · rcases hp with hp | ⟨hf, hp⟩
    · left; omega
    · rcases pending_step h hf hp with h | h
      · exact Or.inl h
      · exact Or.inr ⟨hm2 hf, h⟩

/-- C38 is violated in general: once a failure has been recorded while some package has still to be looked at by
the requester (a starting package not yet handed over, or a name just received), the run can never return:
the name is dropped without telling the wait group. -/
theorem C38_violated_lost_request {j : Job} {s : RunState} (hs : Reach j s) (hr : s.ret = none)
    (hf : s.anyFailed = true) (hp : s.todo ≠ [] ∨ s.mainSend ≠ none ∨ ∃ p, s.requester = .got p)
    {es : List Event} {s' : RunState} (h : j.run s es = some s') : s'.ret = none :=
  never_returns (reach_inv hs) hr (Or.inr ⟨hf, hp⟩) h

/-- C38 is violated: an example with a well-formed plan and two workers: the first package fails before the
second, independent one has been handed over; the run never returns. -/
theorem C38_violated : ∃ (j : Job) (s : RunState), WellFormed j ∧ Reach j s ∧ .finished (s%"a") false ∈ s.log ∧
    ∀ es s', j.run s es = some s' → s'.ret = none := by
  refine ⟨toyJob, _, toyJob_wellFormed,
    ⟨[.mainAdd, .mainSend, .reqCheck, .reqPush, .take 0, .finish 0 .failed, .post 0, .updTake], rfl⟩, by decide, ?_⟩
  intro es s' h
  refine C38_violated_lost_request (s := _)
    ⟨[.mainAdd, .mainSend, .reqCheck, .reqPush, .take 0, .finish 0 .failed, .post 0, .updTake], rfl⟩ rfl rfl ?_ h
  left; decide

/-- C38 is violated even without a failed installation: when the copy of a built binary into the cache fails,
the run can never return. -/
theorem C38_violated_copy {j : Job} {s s1 : RunState} (hs : Reach j s) (h1 : j.step s (.updCopy false) = some s1)
    {es : List Event} {s' : RunState} (h : j.run s1 es = some s') : s'.ret = none := by
  have hv := reach_inv hs
  have hv1 := inv_step hv h1
  have h2 : 0 < s1.leaked ∧ s1.ret = s.ret ∧ updTok s.updater = 1 := by
    simp only [Job.step, stepUpdCopy] at h1
    split at h1
    · next p hu => simp only [Bool.false_eq_true, if_false] at h1; cases h1; exact ⟨Nat.succ_pos _, rfl, by rw [hu]; rfl⟩
    · cases h1
  refine never_returns hv1 ?_ (Or.inl h2.1) h
  rw [h2.2.1]
  cases hr : s.ret with
  | none => rfl
  | some r => have := (returned_idle hv hr).2.2.2.2.2.2.1; rw [this] at h2; simp [updTok] at h2

/-- Non-vacuity of C38_violated_copy. -/
example : ∃ s s1, Reach toyJob s ∧ toyJob.step s (.updCopy false) = some s1 :=
  ⟨_, _, ⟨[.mainAdd, .mainSend, .reqCheck, .reqPush, .mainAdd, .mainSend, .reqCheck, .reqPush, .take 0, .take 1,
    .finish 1 (.ok true), .post 1, .updTake, .updScan], rfl⟩, rfl⟩

/-- C38, the part that holds: as long as no name has been dropped and no copy of a binary failed
(`leaked = 0`), the run can go on after a failure until it returns; by `C36_bounded` it does so after
finitely many steps.  Missing: see `C38_violated`. -/
theorem C38_returns_partial {j : Job} (hw : WellFormed j) (hn : 0 < j.ncpu) (hc : j.caps = {})
    (hsize : (Job.plan j).length ≤ 2500 + j.ncpu) {s : RunState} (hs : Reach j s) (hr : s.ret = none)
    (hl : s.leaked = 0) : ∃ e s', j.step s e = some s' ∧ Benign e := by
  have hv := reach_inv hs
  have hi := reach_inv2 hw hs
  refine progress hv hn (by rw [hc]; decide) (by rw [hc]; decide) hr hl (no_full_queues hv hi ?_)
  have h1 : j.caps.work = 2000 := by rw [hc]
  have h2 : j.caps.update = 500 := by rw [hc]
  omega

/-! ### C39, C40 -/

/-- C39: when the run has returned nothing is being installed, queued or waiting to be processed, and nothing
can happen any more; the wait-group counter is never negative. -/
theorem C39_quiet_after_return {j : Job} {s : RunState} (hs : Reach j s) :
    0 ≤ s.wg ∧ (∀ r, s.ret = some r → running s = [] ∧ s.workQ = [] ∧ s.updQ = [] ∧
      (∀ p, .started p ∈ s.log → .finished p true ∈ s.log ∨ .finished p false ∈ s.log) ∧
      ∀ e, j.step s e = none) := by
  have hv := reach_inv hs
  refine ⟨by have := hv.tok; omega, ?_⟩
  intro r hr
  obtain ⟨h1, h2, h3, h4, h5, h6, h7, h8⟩ := returned_idle hv hr
  have hw : ∀ (i : Nat) (w : Worker), s.workers[i]? = some w → w = .idle := fun i w h => h5 w (List.mem_of_getElem? h)
  refine ⟨?_, h4, h6, ?_, ?_⟩
  · unfold running
    rw [List.filterMap_eq_nil_iff]
    intro w hw'; rw [h5 w hw']; rfl
  · intro p hp
    have := List.count_pos_iff.2 hp
    have a := hv.started p; have b := hv.finOk p; have c := hv.finFail p
    rw [count_idle h5 (.running p) (by simp)] at a
    rw [← List.count_pos_iff, ← List.count_pos_iff]; omega
  · intro e
    cases e with
    | mainAdd => simp [Job.step, stepMainAdd, h1]
    | mainSend => simp [Job.step, stepMainSend, h2]
    | mainReturn => simp [Job.step, stepMainReturn, hr]
    | reqCheck => simp [Job.step, stepReqCheck, h3]
    | reqPush => simp [Job.step, stepReqPush, h3]
    | take i => simp [Job.step, stepTake, h4]
    | finish i o =>
      simp only [Job.step, stepFinish]
      split
      · next p hp => have := hw i _ hp; cases this
      · rfl
    | post i =>
      simp only [Job.step, stepPost]
      split
      · next p o hp => have := hw i _ hp; cases this
      · rfl
    | updTake => simp [Job.step, stepUpdTake, h7, h6]
    | updScan => simp [Job.step, stepUpdScan, h7]
    | updSend => simp [Job.step, stepUpdSend, h7]
    | updCopy ok => simp [Job.step, stepUpdCopy, h7]
    | updDone => simp [Job.step, stepUpdDone, h7]

/-- C40: at any moment at most as many packages are being installed as there are workers, and they are
different packages. -/
theorem C40_concurrency {j : Job} {s : RunState} (hs : Reach j s) :
    (running s).length ≤ j.ncpu ∧ (running s).Nodup := by
  have hv := reach_inv hs
  constructor
  · rw [← hv.len]; exact List.length_filterMap_le _ _
  · rw [List.nodup_iff_count]
    intro p
    have hc : ∀ ws : List Worker, (ws.filterMap installing).count p =
        ws.count (.running p) := by
      intro ws
      induction ws with
      | nil => rfl
      | cons w ws ih => cases w <;> simp [List.filterMap_cons, installing, List.count_cons, ih]
    have h1 := hv.req p; have h2 := hv.once p
    unfold running
    rw [hc]; omega

/-- C40, for the run of a plan with `n` threads: at most `n` packages are being installed at once. -/
theorem C40_threads {ip : InstallPlan} {n t : Nat} {ρ : Order} {s : RunState} (hs : Reach (jobOf ip n ρ t) s) :
    (running s).length ≤ n :=
  (C40_concurrency hs).1

/-- Non-vacuity of C40: both workers of `toyJob` can be busy at once. -/
example : ∃ s, Reach toyJob s ∧ running s = [s%"a", s%"e"] :=
  ⟨_, ⟨[.mainAdd, .mainSend, .mainAdd, .reqCheck, .reqPush, .take 0, .mainSend, .reqCheck, .reqPush, .take 1], rfl⟩, rfl⟩

end Pkgr
