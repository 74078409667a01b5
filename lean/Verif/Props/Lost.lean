/- C119: a package that cannot be obtained is not passed over silently. -/
import Verif.Proof.Lost2
import Verif.Props.Queue

namespace Pkgr
open Spec

/-- C119 (part).  If nothing was downloaded for a package of the plan, it is not in the library, and no cached binary
could be taken for it, then the queue never returns without an error: for every interleaving, every moment and every R
within its contract.  What is missing: R is also supposed to leave no regular file in its working directory that has the
name of the directory pkgr was started in, because pkgr makes R build that directory in the place of the missing file;
the place of the cached binary of a package without a name is supposed to be empty; and that the package is not counted
as installed needs more (`C119_not_counted_partial`, `C119_violated_own_directory`). -/
theorem C119_reported_partial {e : QEnv} {Scratch : Path → Prop} {Complete : Str → (Path → Option Node) → Prop}
    {Holds : Str → Str → Prop} (hl : Layout e Scratch) (hr : RContract e Scratch Complete Holds) (hns : NoStrayFile e)
    (hw : WellFormed e.job) {fs0 : Fs} {p : Str} (hp : p ∈ Job.plan e.job) (hlk : ¬ IsLock p)
    (hu : Undelivered e Scratch fs0 p) {s : QState} (h : QReach e fs0 s) : s.run.ret ≠ some .nil := by
  intro hret
  have hv := qreach_invM hl hr hns hw hp hlk hu h
  have := owes_not_returned (qreach_reach h) (hv.fin (C35_all_installed hw (qreach_reach h) hret p hp)).1
  rw [hret] at this
  cases this

/-- C119 (part).  If R leaves nothing at all under that name, the package is never counted as installed, its directory
does not appear in the library, and no package that needs it is started. -/
theorem C119_not_counted_partial {e : QEnv} {Scratch : Path → Prop} {Complete : Str → (Path → Option Node) → Prop}
    {Holds : Str → Str → Prop} (hl : Layout e Scratch) (hr : RContract e Scratch Complete Holds) (hns : NoStray e)
    (hw : WellFormed e.job) {fs0 : Fs} {p : Str} (hp : p ∈ Job.plan e.job) (hlk : ¬ IsLock p)
    (hu : Undelivered e Scratch fs0 p) {s : QState} (h : QReach e fs0 s) :
    LogEntry.finished p true ∉ s.run.log ∧ s.fs (e.lib ++ [p]) ≠ some .dir ∧
      ∀ q, p ∈ Job.deps e.job q → LogEntry.started q ∉ s.run.log := by
  have hv := qreach_invL hl hr hns hw hp hlk hu h
  refine ⟨hv.log, hv.library, fun q hq hst => ?_⟩
  obtain ⟨before, after, hlog⟩ := List.append_of_mem hst
  refine hv.log ?_
  rw [hlog]
  exact List.mem_append_left _ (C33_dependencies_first hw (qreach_reach h) hlog hq)

/-! ### The directory pkgr is started in -/

/-- Two independent packages, one worker; nothing was downloaded for `a`; pkgr runs in the directory `home/m`. -/
def lostQ : QEnv :=
  { toyQ with
    ie := { toyQ.ie with cwd := [s%"home", s%"m"] }
    job := { starting := [s%"a", s%"b"], depDb := [], iDeps := [], ncpu := 1 }
    download := fun p => if p = s%"a" then {} else toyQ.download p }

/-- `b` is in the library. -/
def lostFs : Fs := fun q =>
  if q = [s%"lib", s%"b"] ∨ q = [s%"lib"] ∨ q = [s%"home", s%"m"] then some .dir else none

theorem lostQ_plan {p : Str} (hp : p ∈ Job.plan lostQ.job) : p = s%"a" ∨ p = s%"b" := by
  simpa [Job.plan, lostQ, GoMap.keys] using hp

theorem lostQ_safe (q : Path) (h : q.head? = some (s%"cache") ∨ q.head? = some (s%"home")) :
    SafePlace lostQ (fun _ => False) q := by
  cases q with
  | nil => simp at h
  | cons c q =>
    rcases h with h | h <;>
    · simp at h; subst h
      refine ⟨by simp [lostQ, toyQ], fun p => by simp [lostQ, toyQ], id⟩

theorem lostQ_layout : Layout lostQ (fun _ => False) := by
  refine ⟨?_, ?_, ?_, ?_, ?_⟩
  · intro p; constructor <;> simp [lostQ, toyQ]
  · intro p _ q _ h
    constructor <;> simp [lostQ, toyQ, h, Ne.symm h]
  · intro q h; exact h.elim
  · intro p hp bbp hb
    rcases lostQ_plan hp with rfl | rfl
    · have hb' := Option.some.inj hb
      rw [← hb']
      refine ⟨by decide, lostQ_safe _ (.inr (by decide)), lostQ_safe _ (.inr (by decide)), ?_⟩
      intro q hq
      rcases lostQ_plan hq with rfl | rfl <;>
      · refine ⟨by decide, ?_⟩
        intro b hb
        have hb'' := Option.some.inj hb
        rw [← hb'']
        decide
    · have hb' := Option.some.inj hb
      rw [← hb']
      refine ⟨by decide, lostQ_safe _ (.inl (by decide)), lostQ_safe _ (.inl (by decide)), ?_⟩
      intro q hq
      rcases lostQ_plan hq with rfl | rfl <;>
      · refine ⟨by decide, ?_⟩
        intro b hb
        have hb'' := Option.some.inj hb
        rw [← hb'']
        decide
  · intro p hp q hq b hb
    rcases lostQ_plan hp with rfl | rfl <;> rcases lostQ_plan hq with rfl | rfl <;>
    · have hb' := Option.some.inj hb
      rw [← hb']
      decide

theorem lostQ_wf : WellFormed lostQ.job :=
  wellFormed_of_check lostQ.job [s%"a", s%"b"] (by decide) (by decide) (by decide)

theorem lostQ_stamps (p : Str) (k : Pass) : PlainStamp (lostQ.stampOf p k) := by
  have h : lostQ.download p = {} ∨ lostQ.download p = toyQ.download p := by
    unfold lostQ
    dsimp only
    split
    · exact Or.inl rfl
    · exact Or.inr rfl
  rcases h with h | h
  · have h1 : PlainStamp (lostQ.ie.stamp { ({} : PkgConfig) with type := .binary }) := plainStamp_of (by decide +kernel) (by decide)
    have h2 : PlainStamp (lostQ.ie.stamp {}) := plainStamp_of (by decide +kernel) (by decide)
    cases k <;> unfold QEnv.stampOf <;> rw [h]
    · exact h1
    · exact h2
    · exact h2
  · have := toyQ_stamps p k
    cases k <;> unfold QEnv.stampOf at this ⊢ <;> rw [h] <;> exact this

theorem lostQ_contract : RContract lostQ (fun _ => False) ToyComplete ToyHolds :=
  ⟨toyQ_contract.confined, toyQ_contract.installs, toyQ_contract.builds, toyQ_contract.isDir, fun p _ k => lostQ_stamps p k,
    toyQ_contract.stamp⟩

theorem lostQ_undelivered : Undelivered lostQ (fun _ => False) lostFs (s%"a") := by
  refine ⟨rfl, by decide, ⟨by decide, lostQ_safe _ (.inr rfl)⟩, ?_⟩
  intro b hb
  have hb' := Option.some.inj hb
  rw [← hb']
  exact ⟨by decide, lostQ_safe _ (.inl (by decide))⟩

/-- Any R that keeps the contract and leaves no regular file under the name of a directory it builds. -/
def dirR : RProc :=
  { writes := anyR.writes
    exits := fun c fs x => anyR.exits c fs x ∧ ∀ bbp y, binaryExtOs .darwin (basePath c.src) (s%"x") = some bbp →
      fs c.src = some .dir → fs (c.workDir ++ [bbp]) ≠ some (.file y) }
/-- Any R that keeps the contract and leaves nothing under the name of a directory it builds. -/
def shyR : RProc :=
  { writes := anyR.writes
    exits := fun c fs x => anyR.exits c fs x ∧ ∀ bbp, binaryExtOs .darwin (basePath c.src) (s%"x") = some bbp →
      fs c.src = some .dir → fs (c.workDir ++ [bbp]) = none }

/-- `lostQ` with these. -/
def dirQ : QEnv := { lostQ with proc := dirR }
/-- see `dirQ` -/
def shyQ : QEnv := { lostQ with proc := shyR }

theorem dirQ_layout : Layout dirQ (fun _ => False) :=
  ⟨lostQ_layout.tmpLib, lostQ_layout.tmpTmp, lostQ_layout.scratch, lostQ_layout.ball, lostQ_layout.cached⟩
theorem shyQ_layout : Layout shyQ (fun _ => False) :=
  ⟨lostQ_layout.tmpLib, lostQ_layout.tmpTmp, lostQ_layout.scratch, lostQ_layout.ball, lostQ_layout.cached⟩
theorem dirQ_contract : RContract dirQ (fun _ => False) ToyComplete ToyHolds :=
  ⟨lostQ_contract.confined, fun c fs x h => lostQ_contract.installs c fs x h.1, fun c fs x h => lostQ_contract.builds c fs x h.1,
    lostQ_contract.isDir, fun p _ k => lostQ_stamps p k, lostQ_contract.stamp⟩
theorem shyQ_contract : RContract shyQ (fun _ => False) ToyComplete ToyHolds :=
  ⟨lostQ_contract.confined, fun c fs x h => lostQ_contract.installs c fs x h.1, fun c fs x h => lostQ_contract.builds c fs x h.1,
    lostQ_contract.isDir, fun p _ k => lostQ_stamps p k, lostQ_contract.stamp⟩
theorem dirQ_noStray : NoStrayFile dirQ := fun _ _ h _ hd bbp hb x => h.2 bbp x hb hd
theorem shyQ_noStray : NoStray shyQ := fun _ _ h _ hd bbp hb => h.2 bbp hb hd
theorem dirQ_undelivered : Undelivered dirQ (fun _ => False) lostFs (s%"a") :=
  ⟨lostQ_undelivered.nothing, lostQ_undelivered.library, lostQ_undelivered.cwd, lostQ_undelivered.binary⟩
theorem shyQ_undelivered : Undelivered shyQ (fun _ => False) lostFs (s%"a") :=
  ⟨lostQ_undelivered.nothing, lostQ_undelivered.library, lostQ_undelivered.cwd, lostQ_undelivered.binary⟩

/-- R is started for `a`. -/
def lost1 : List QEvent :=
  [.sched .mainAdd, .sched .mainSend, .sched .reqCheck, .sched .reqPush, .sched .mainAdd, .sched .mainSend, .sched .reqCheck,
   .sched .reqPush, .take 0, .prog 0, .prog 0, .prog 0, .prog 0]
def lostS1 : QState := (dirQ.execs (dirQ.init lostFs) lost1).getD (dirQ.init lostFs)
/-- R has built the directory pkgr was started in, a package `m`. -/
def lostW1 : Fs := (lostS1.fs.set [s%"tmp", s%"a", s%"m"] .dir)
def lostS1' : QState := (lostS1.work 0 lostW1 (.inR .build)).work 0 lostW1 (afterR .build .ok)
def lost2 : List QEvent := [.prog 0, .prog 0, .prog 0, .prog 0]
def lostS2 : QState := (dirQ.execs lostS1' lost2).getD lostS1'
def lostPass : Pass := .final [s%"tmp", s%"a", s%"m"]
def lostS2' : QState := lostS2.work 0 lostS2.fs (afterR lostPass .ok)
/-- `a` counts as installed; its "binary" cannot be copied; `b` is dealt with. -/
def lost3 : List QEvent :=
  [.prog 0, .prog 0, .finish 0, .sched (.post 0), .sched .updTake, .sched .updScan]
def lostS3 : QState := (dirQ.execs lostS2' lost3).getD lostS2'
def lostRun4 : RunState := (dirQ.job.step lostS3.run (.updCopy false)).getD lostS3.run
def lostS4 : QState := { run := lostRun4, fs := lostS3.fs, progs := lostS3.progs, bins := lostS3.bins, dead := lostS3.dead }
def lost5 : List QEvent :=
  [.take 0, .prog 0, .finish 0, .sched (.post 0), .sched .updTake, .sched .updScan, .sched .updDone]
def lostS5 : QState := (dirQ.execs lostS4 lost5).getD lostS4

theorem lostS5_reach : QReach dirQ lostFs lostS5 := by
  have h1 : QReach dirQ lostFs lostS1 := execs_reach (evs := lost1) (by rfl)
  have h2 : Relation.ReflTransGen dirQ.Step lostS1 lostS1' := by
    refine .head (.rWrite lostS1 0 (s%"a") .build lostW1 rfl rfl rfl ?_) (.single (.rExit _ 0 (s%"a") .build .ok rfl rfl rfl ?_))
    · intro q hq
      refine .inr (.inr ⟨rfl, ?_⟩)
      apply Classical.byContradiction
      intro hn
      apply hq
      unfold lostW1 Fs.set
      rw [if_neg]
      rintro rfl; exact hn (by decide)
    · refine ⟨fun _ h => ?_, ?_⟩
      · obtain ⟨x, hx, _⟩ := h; revert hx; rw [show (lostS1.work 0 lostW1 (.inR .build)).fs (dirQ.rcall (s%"a") .build).src = some .dir from rfl]; simp
      · intro bbp y hb _
        have := Option.some.inj hb
        rw [← this]
        rw [show (lostS1.work 0 lostW1 (.inR .build)).fs _ = some .dir from rfl]
        simp
  have h3 : Relation.ReflTransGen dirQ.Step lostS1' lostS2 := execs_reach (evs := lost2) (by rfl)
  have h4 : Relation.ReflTransGen dirQ.Step lostS2 lostS2' := by
    refine .single (.rExit _ 0 (s%"a") lostPass .ok rfl rfl rfl ?_)
    refine ⟨fun _ h => ?_, ?_⟩
    · obtain ⟨x, hx, _⟩ := h; revert hx; rw [show lostS2.fs (dirQ.rcall (s%"a") lostPass).src = some .dir from rfl]; simp
    · intro bbp y hb _
      have := Option.some.inj hb
      rw [← this]
      rw [show lostS2.fs _ = some .dir from rfl]
      simp
  have h5 : Relation.ReflTransGen dirQ.Step lostS2' lostS3 := execs_reach (evs := lost3) (by rfl)
  have h6 : Relation.ReflTransGen dirQ.Step lostS3 lostS4 := .single (.copyFails lostS3 lostRun4 rfl rfl)
  exact (((((h1.trans h2).trans h3).trans h4).trans h5).trans h6).trans (execs_reach (evs := lost5) (by rfl))

/-- C119 does not hold when pkgr is started in the directory of a package: for the package `a`, for which nothing was
downloaded, R is made to build that directory; `a` is then counted as installed, though it is not in the library, and the
run does not end with an error but never ends. -/
theorem C119_violated_own_directory : ∃ (e : QEnv) (fs0 : Fs) (s : QState) (p : Str), Layout e (fun _ => False) ∧
    RContract e (fun _ => False) ToyComplete ToyHolds ∧ NoStrayFile e ∧ WellFormed e.job ∧ p ∈ Job.plan e.job ∧
    Undelivered e (fun _ => False) fs0 p ∧ QReach e fs0 s ∧ LogEntry.finished p true ∈ s.run.log ∧
    s.fs (e.lib ++ [p]) = none ∧ s.run.failedPkgs = [] ∧ ∀ s', Relation.ReflTransGen e.Step s s' → s'.run.ret = none := by
  refine ⟨dirQ, lostFs, lostS5, s%"a", dirQ_layout, dirQ_contract, dirQ_noStray, lostQ_wf, by decide, dirQ_undelivered,
    lostS5_reach, by decide, by decide, by decide, fun s' h => ?_⟩
  have hfin : LogEntry.finished (s%"a") true ∈ s'.run.log := by
    have h0 : LogEntry.finished (s%"a") true ∈ lostS5.run.log := by decide
    induction h with
    | refl => exact h0
    | tail _ hst ih =>
      rcases qstep_sched hst with h | ⟨ev, h⟩
      · rw [h]; exact ih
      · exact Classical.byContradiction fun hn => finished_mono h hn ih
  have hreach := lostS5_reach.trans h
  have hv := qreach_invM dirQ_layout dirQ_contract dirQ_noStray lostQ_wf (p := s%"a") (by decide) (by decide) dirQ_undelivered hreach
  exact owes_not_returned (qreach_reach hreach) (hv.fin hfin).1

/-- With an R that builds nothing from that directory. -/
def lost6 : List QEvent := [.prog 0, .finish 0, .sched (.post 0), .sched .updTake, .sched .updDone,
  .take 0, .prog 0, .finish 0, .sched (.post 0), .sched .updTake, .sched .updScan, .sched .updDone, .sched .mainReturn]
def shyS1 : QState := (shyQ.execs (shyQ.init lostFs) lost1).getD (shyQ.init lostFs)
def shyS2 : QState := (shyQ.execs (shyS1.work 0 shyS1.fs (afterR .build (.status 1))) lost6).getD (shyQ.init lostFs)

/-- Non-vacuity of C119: a complete run in which the package `a` was not delivered; it returns with an error that names
`a`, and `b` is installed. -/
example : Layout shyQ (fun _ => False) ∧ RContract shyQ (fun _ => False) ToyComplete ToyHolds ∧ NoStray shyQ ∧
    NoStrayFile dirQ ∧ WellFormed shyQ.job ∧ Undelivered shyQ (fun _ => False) lostFs (s%"a") ∧ QReach shyQ lostFs shyS2 ∧
    shyS2.run.ret = some (.error [s%"a"]) ∧ LogEntry.finished (s%"b") true ∈ shyS2.run.log := by
  refine ⟨shyQ_layout, shyQ_contract, shyQ_noStray, dirQ_noStray, lostQ_wf, shyQ_undelivered, ?_, by decide, by decide⟩
  have h1 : QReach shyQ lostFs shyS1 := execs_reach (evs := lost1) (by rfl)
  refine (h1.tail (.rExit shyS1 0 (s%"a") .build (.status 1) rfl rfl rfl ?_)).trans (execs_reach (evs := lost6) (by rfl))
  refine ⟨fun h => (by cases h), ?_⟩
  intro bbp hb _
  have := Option.some.inj hb
  rw [← this]
  rfl

end Pkgr
