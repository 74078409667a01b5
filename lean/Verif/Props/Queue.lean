/- Theorems C90-C92 about the installation queue acting on the file system. -/
import Verif.Proof.Queue
import Verif.Proof.Split
import Verif.Props.Sched
import Verif.Props.Rollback

namespace Pkgr
open Spec

set_option linter.unusedSimpArgs false

/-! ### The small steps and the sequential model agree -/

/-- The steps of the installation of `p` alone. -/
inductive QEnv.Solo (e : QEnv) (p : Str) : Fs × IPhase → Fs × IPhase → Prop where
  | prog (fs fs' : Fs) (ph ph' : IPhase) : e.progStep p fs ph = some (fs', ph') → Solo e p (fs, ph) (fs', ph')
  | rWrite (fs fs' : Fs) (k : Pass) : e.proc.writes (e.rcall p k) fs fs' → Solo e p (fs, .inR k) (fs', .inR k)
  | rExit (fs : Fs) (k : Pass) (x : RExit) : e.proc.exits (e.rcall p k) fs x → Solo e p (fs, .inR k) (fs, afterR k x)

/-- The process `R` runs as: it does all of the oracle's changes at once. -/
def ActsAs (proc : RProc) (R : ROracle) : Prop :=
  ∀ c fs, proc.writes c fs (R c fs).1 ∧ proc.exits c (R c fs).1 (R c fs).2

/-- How the end of an installation looks in the small-step model. -/
def endOf : Option InstallRet → IPhase
  | none => .dead
  | some r => .done r

theorem solo_head {e : QEnv} {p : Str} {fs fs' : Fs} {ph ph' : IPhase} {z : Fs × IPhase}
    (h : e.progStep p fs ph = some (fs', ph')) (h' : Relation.ReflTransGen (e.Solo p) (fs', ph') z) :
    Relation.ReflTransGen (e.Solo p) (fs, ph) z := Relation.ReflTransGen.head (.prog _ _ _ _ h) h'

/-- `Install` in small steps. -/
theorem solo_install {e : QEnv} {p : Str} (hR : ActsAs e.proc e.ie.R) (k : Pass) (fs : Fs) :
    Relation.ReflTransGen (e.Solo p) (fs, .call k)
      ((install e.ie.R e.ie.cwd fs p (.abs (e.rcall p k).src) (e.rcall p k).lib (e.rcall p k).build
          (if k.checksDir then some (e.rcall p k).workDir else none) (e.stampOf p k)).fs,
        match (install e.ie.R e.ie.cwd fs p (.abs (e.rcall p k).src) (e.rcall p k).lib (e.rcall p k).build
          (if k.checksDir then some (e.rcall p k).workDir else none) (e.stampOf p k)).val with
        | none => .dead
        | some c => .returned k c) := by
  have hwd : (if k.checksDir then some (e.rcall p k).workDir else none).getD e.ie.cwd = (e.rcall p k).workDir := by
    cases k <;> rfl
  have hsome : (if k.checksDir then some (e.rcall p k).workDir else none).isSome = k.checksDir := by
    cases k <;> rfl
  have hcall : ({ pkg := p, lib := (e.rcall p k).lib, build := (e.rcall p k).build, src := (e.rcall p k).src, workDir := (e.rcall p k).workDir } : RCall) = e.rcall p k := by cases k <;> rfl
  unfold install
  simp only [hwd, hsome, PathArg.resolve, hcall]
  by_cases h1 : (k.checksDir && !fs.isDir (e.rcall p k).workDir) = true
  · rw [if_pos h1]
    refine solo_head (ph' := .dead) (fs' := fs) ?_ .refl
    simp only [QEnv.progStep, QEnv.callStep, if_pos h1]
  · rw [if_neg h1]
    by_cases h2 : (!fs.ex (e.rcall p k).src) = true
    · rw [if_pos h2]
      refine solo_head (ph' := .returned k { exitCode := 1, err := false }) (fs' := fs) ?_ .refl
      simp only [QEnv.progStep, QEnv.callStep, if_neg h1, if_pos h2]
    · rw [if_neg h2]
      refine solo_head (ph' := .inR k) (fs' := fs) ?_ ?_
      · simp only [QEnv.progStep, QEnv.callStep, if_neg h1, if_neg h2]
      obtain ⟨hwr, hex⟩ := hR (e.rcall p k) fs
      refine Relation.ReflTransGen.head (.rWrite _ _ k hwr) (Relation.ReflTransGen.head (.rExit _ k _ hex) ?_)
      unfold afterR
      generalize (e.ie.R (e.rcall p k) fs).1 = fs1
      generalize (e.ie.R (e.rcall p k) fs).2 = x
      by_cases hx : x = .ok
      · subst hx
        simp only [if_true, exitOf]
        unfold stampFile
        have hd : e.descOf p k = (e.rcall p k).lib ++ [p, s%"DESCRIPTION"] := rfl
        rw [← hd]
        rcases hf : fs1 (e.descOf p k) with _ | _ | c
        · refine solo_head (ph' := .returned k { exitCode := 0, err := false }) (fs' := fs1) ?_ .refl
          simp only [QEnv.progStep, QEnv.stampStep, hf]
        · refine solo_head (ph' := .returned k { exitCode := 0, err := false }) (fs' := fs1) ?_ .refl
          simp only [QEnv.progStep, QEnv.stampStep, hf]
        · refine solo_head (ph' := .stampWrite k c) (fs' := fs1.set (e.descOf p k) (.file [])) ?_ ?_
          · simp only [QEnv.progStep, QEnv.stampStep, hf]
          · refine solo_head (ph' := .returned k { exitCode := 0, err := false })
              (fs' := fs1.set (e.descOf p k) (.file (writeLines (stampLines (readLines c) (e.stampOf p k))))) ?_ .refl
            simp only [QEnv.progStep]
            congr 2
            funext q
            unfold Fs.set
            split <;> rfl
      · simp only [if_neg hx]
        exact .refl

/-- C90: the steps of one installation, run without interruption and with an R that behaves as the oracle of the
sequential model, lead from the beginning exactly to the files and the result that the sequential model
(`InstallThroughBinary` as one function, theorems C41-C44 and C81) gives. -/
theorem C90_sequential (e : QEnv) (p : Str) (hR : ActsAs e.proc e.ie.R) (fs : Fs) :
    Relation.ReflTransGen (e.Solo p) (fs, .begin)
      ((e.ie.installThroughBinary (e.tmp p) fs (e.req p)).fs,
        endOf (e.ie.installThroughBinary (e.tmp p) fs (e.req p)).val) := by
  unfold InstallEnv.installThroughBinary
  have hreq : (e.req p).lib = e.lib ∧ (e.req p).pkg = p ∧ (e.req p).download = e.download p := ⟨rfl, rfl, rfl⟩
  simp only [hreq]
  by_cases h1 : fs.isDir (e.lib ++ [p]) = true
  · rw [if_pos h1]
    refine solo_head (fs' := fs) (ph' := .done { exitCode := -999, binary := none, err := false }) ?_ .refl
    simp only [QEnv.progStep, if_pos h1]
  rw [if_neg h1]
  refine solo_head (fs' := fs) (ph' := .lookup) (by simp only [QEnv.progStep, if_neg h1]) ?_
  cases hc : e.ie.cachedBinary (e.download p).metadata with
  | none =>
    refine solo_head (fs' := fs) (ph' := .dead) ?_ .refl
    simp only [QEnv.progStep, QEnv.lookupStep, hc]
  | some bp =>
    dsimp only
    by_cases h2 : fs.ex bp = true
    · rw [if_pos h2]
      refine solo_head (fs' := fs) (ph' := .call (.cached bp)) ?_ ?_
      · simp only [QEnv.progStep, QEnv.lookupStep, hc, if_pos h2]
      have := solo_install (p := p) hR (.cached bp) fs
      simp only [Pass.checksDir, QEnv.rcall, QEnv.stampOf, Bool.false_eq_true, if_false] at this
      refine this.trans ?_
      generalize install e.ie.R e.ie.cwd fs p (.abs bp) e.lib false none
        (e.ie.stamp { (e.download p).metadata.config with type := .binary }) = r
      rcases r with ⟨rfs, rc, _ | c⟩
      · exact .refl
      · refine solo_head (fs' := rfs) (ph' := .done { exitCode := c.exitCode, binary := none, err := c.err }) ?_ .refl
        simp only [QEnv.progStep, QEnv.returnStep]
    · rw [if_neg h2]
      refine solo_head (fs' := fs) (ph' := .mkTmp) ?_ ?_
      · simp only [QEnv.progStep, QEnv.lookupStep, hc, if_neg h2]
      refine solo_head (fs' := fs.mkdirAll (e.tmp p)) (ph' := .call .build) (by simp only [QEnv.progStep]) ?_
      generalize fs.mkdirAll (e.tmp p) = fs0
      unfold InstallEnv.build
      simp only [hreq]
      have := solo_install (p := p) hR .build fs0
      simp only [Pass.checksDir, QEnv.rcall, QEnv.stampOf, if_true] at this
      refine this.trans ?_
      have hsrc : (e.download p).path.resolve e.ie.cwd = e.src p := rfl
      rw [hsrc]
      generalize install e.ie.R e.ie.cwd fs0 p (.abs (e.src p)) (e.tmp p) true (some (e.tmp p))
        (e.ie.stamp (e.download p).metadata.config) = r
      rcases r with ⟨rfs, rc, _ | c⟩
      · exact .refl
      dsimp only
      by_cases h3 : (!c.err && decide (c.exitCode = 0)) = true
      · refine solo_head (fs' := cleanTmp rfs (e.tmp p ++ [p])) (ph' := .find) ?_ ?_
        · simp only [QEnv.progStep, QEnv.returnStep, if_pos h3]
        rw [if_pos h3]
        generalize cleanTmp rfs (e.tmp p ++ [p]) = fs1
        cases hb : binaryExtOs e.ie.platform.os (basePath (e.src p)) e.ie.rPlatform with
        | none =>
          refine solo_head (fs' := fs1) (ph' := .dead) ?_ .refl
          simp only [QEnv.progStep, QEnv.findStep, hb]
        | some bbp =>
          dsimp only
          by_cases h4 : (!fs1.ex (joinPath (e.tmp p) bbp)) = true
          · rw [if_pos h4]
            refine solo_head (fs' := fs1) (ph' := .done { exitCode := 1, binary := none, err := true }) ?_ .refl
            simp only [QEnv.progStep, QEnv.findStep, hb, if_pos h4]
          · rw [if_neg h4]
            refine solo_head (fs' := fs1) (ph' := .call (.final (joinPath (e.tmp p) bbp))) ?_ ?_
            · simp only [QEnv.progStep, QEnv.findStep, hb, if_neg h4]
            have := solo_install (p := p) hR (.final (joinPath (e.tmp p) bbp)) fs1
            simp only [Pass.checksDir, QEnv.rcall, QEnv.stampOf, if_true] at this
            refine this.trans ?_
            generalize install e.ie.R e.ie.cwd fs1 p (.abs (joinPath (e.tmp p) bbp)) e.lib false (some (e.tmp p))
              (e.ie.stamp (e.download p).metadata.config) = r'
            rcases r' with ⟨rfs', rc', _ | c'⟩
            · exact .refl
            · refine solo_head (fs' := rfs') (ph' := .done { exitCode := c'.exitCode, binary := some (joinPath (e.tmp p) bbp), err := c'.err }) ?_ .refl
              simp only [QEnv.progStep, QEnv.returnStep]
      · rw [if_neg h3]
        refine solo_head (fs' := cleanTmp rfs (e.tmp p ++ [p])) (ph' := .done { exitCode := c.exitCode, binary := none, err := c.err }) ?_ .refl
        simp only [QEnv.progStep, QEnv.returnStep, if_neg h3]

/-! ### The library during a run -/

/-- C90: whatever the interleaving, every moment of a run of the queue is a moment of the scheduler's executions, so
that C33-C40 hold of it. -/
theorem C90_scheduler {e : QEnv} {fs0 : Fs} {s : QState} (h : QReach e fs0 s) : Reach e.job s.run := qreach_reach h

/-- `jobRun_keeps` with the locks named. -/
theorem jobRun_touch {lib : Path} {jobs : List Str} {fs0 st : Fs} {act : List Str} (hj : ∀ p ∈ jobs, ¬ IsLock p)
    (h : JobRun lib jobs fs0 st act) :
    (∀ p ∈ act, p ∈ jobs ∧ fs0 (lib ++ [p]) ≠ some .dir) ∧
    Keeps lib (fun n => ∃ p ∈ jobs, fs0 (lib ++ [p]) ≠ some .dir ∧ (n = p ∨ n = lockName p)) fs0 st := by
  refine ⟨(jobRun_keeps hj h).1, ?_⟩
  induction h with
  | start => exact Keeps.refl _ _ _
  | «begin» fs act p _ _ _ ih => exact ih
  | write fs fs' act p hrun hp hk ih =>
    have hpj := (jobRun_keeps hj hrun).1 p hp
    refine ih.trans (hk.mono ?_)
    intro n hn
    exact ⟨p, hpj.1, hpj.2, hn⟩

/-- C90: at every moment of every run, whatever the interleaving and whatever R does within its contract, the library
differs from what it was at the start only in directories (and locks) of planned packages that were not there at the
start; in particular a planned package that was there is as it was, and so is everything that is not planned. -/
theorem C90_library {e : QEnv} {Scratch : Path → Prop} {Complete : Str → (Path → Option Node) → Prop} {Holds : Str → Str → Prop}
    (hl : Layout e Scratch) (hr : RContract e Scratch Complete Holds)
    (hw : WellFormed e.job) (hn : ∀ p ∈ Job.plan e.job, ¬ IsLock p) {fs0 : Fs} {s : QState} (h : QReach e fs0 s) :
    Keeps e.lib (fun n => ∃ p ∈ Job.plan e.job, fs0 (e.lib ++ [p]) ≠ some .dir ∧ (n = p ∨ n = lockName p)) fs0 s.fs := by
  obtain ⟨act, ha⟩ := qreach_invA hl hr hw h
  exact (jobRun_touch hn ha.jobs).2

/-- C90: so the hypothesis on the queue under which C49-C57 are proved is met by every run of this model. -/
theorem C90_queue_behaves {e : QEnv} {Scratch : Path → Prop} {Complete : Str → (Path → Option Node) → Prop} {Holds : Str → Str → Prop}
    (hl : Layout e Scratch) (hr : RContract e Scratch Complete Holds)
    {ip : InstallPlan} {n t : Nat} {ρ : Order} (hj : e.job = jobOf ip n ρ t) (hw : WellFormed e.job) {fs0 : Fs} {s : QState}
    (h : QReach e fs0 s) : ∃ act, JobRun e.lib (queued ip) fs0 s.fs act := by
  obtain ⟨act, ha⟩ := qreach_invA hl hr hw h
  refine ⟨act, ?_⟩
  have := ha.jobs
  rw [hj] at this
  exact this

/-! ### C91, C92 -/

/-- C91: whenever an R process runs for a package (building it or installing it), all its dependencies are
completely installed in the library, whatever the interleaving, provided every package file is there and what was in
the library at the start was complete. -/
theorem C91_dependencies_present_partial {e : QEnv} {Scratch : Path → Prop} {Complete : Str → (Path → Option Node) → Prop} {Holds : Str → Str → Prop}
    (hl : Layout e Scratch) (hr : RContract e Scratch Complete Holds)
    (hw : WellFormed e.job) (hn : ∀ p ∈ Job.plan e.job, ¬ IsLock p) {fs0 : Fs} (hf : FilesThere e Scratch Complete Holds fs0)
    {s : QState} (h : QReach e fs0 s) {p d : Str} (hp : RRunning s p)
    (hd : Relation.TransGen (fun a b => b ∈ Job.deps e.job a) p d) : Complete d (contentOf s.fs e.lib d) := by
  obtain ⟨i, k, hi, _⟩ := hp
  have hreach := qreach_reach h
  have hB := qreach_invB hl hr hw hn hf h
  have key : ∀ x y, LogEntry.started x ∈ s.run.log → y ∈ Job.deps e.job x → LogEntry.finished y true ∈ s.run.log := by
    intro x y hx hy
    obtain ⟨l1, l2, hlog⟩ := List.append_of_mem hx
    have := C33_dependencies_first hw hreach hlog hy
    rw [hlog]; exact List.mem_append_left _ this
  have hst : ∀ x, LogEntry.finished x true ∈ s.run.log → LogEntry.started x ∈ s.run.log := by
    intro x hx
    have h1 := (C34_only_planned hw hreach x).2
    have h2 := List.count_pos_iff.2 hx
    exact List.count_pos_iff.1 (by omega)
  have hfin : LogEntry.finished d true ∈ s.run.log := by
    induction hd with
    | single h => exact key _ _ (running_started hreach hi) h
    | tail _ h ih => exact key _ _ (hst _ ih) h
  exact hB.fin d ((C34_only_planned hw hreach d).1 (hst d hfin)) hfin

/-- C92: when the run returns without error every package of the plan is completely installed in the library,
provided every package file was there and what was in the library at the start was complete. -/
theorem C92_all_present_partial {e : QEnv} {Scratch : Path → Prop} {Complete : Str → (Path → Option Node) → Prop} {Holds : Str → Str → Prop}
    (hl : Layout e Scratch) (hr : RContract e Scratch Complete Holds)
    (hw : WellFormed e.job) (hn : ∀ p ∈ Job.plan e.job, ¬ IsLock p) {fs0 : Fs} (hf : FilesThere e Scratch Complete Holds fs0)
    {s : QState} (h : QReach e fs0 s) (hret : s.run.ret = some .nil) :
    ∀ p ∈ Job.plan e.job, Complete p (contentOf s.fs e.lib p) :=
  fun p hp => (qreach_invB hl hr hw hn hf h).fin p hp (C35_all_installed hw (qreach_reach h) hret p hp)

/-- C91, C92: at any moment at most one R process per package and at most as many as there are workers run. -/
theorem C91_one_process_each {e : QEnv} {fs0 : Fs} {s : QState} (h : QReach e fs0 s) :
    (running s.run).length ≤ e.job.ncpu ∧ (running s.run).Nodup ∧ ∀ p, RRunning s p → p ∈ running s.run := by
  obtain ⟨h1, h2⟩ := C40_concurrency (qreach_reach h)
  refine ⟨h1, h2, ?_⟩
  rintro p ⟨i, k, hi, _⟩
  unfold running
  rw [List.mem_filterMap]
  exact ⟨_, List.mem_of_getElem? hi, rfl⟩

/-! ### C93: the cache of binaries -/

/-- C93 does not hold: whenever the updater is about to copy a non-empty binary, the process may be interrupted at a
moment that leaves a part of it where every later run looks for the binary of this package, and a later run in which
the package is to be installed goes on to install that part. -/
theorem C93_violated_interrupted (e : QEnv) (s : QState) (p : Str) (b : Path) (c : Str)
    (hd : s.dead = false) (hu : s.run.updater = .copy p) (hb : s.bins p = some b) (hf : s.fs b = some (.file c)) (hc : c ≠ [])
    (hdir : s.fs (dirPath (e.store p b)) = some .dir)
    (hcache : e.ie.cachedBinary (e.download p).metadata = some (e.store p b)) :
    ∃ s', e.Step s s' ∧ ∃ part, s'.fs (e.store p b) = some (.file part) ∧ part ≠ c ∧
      ∀ fs2 : Fs, fs2 (e.store p b) = s'.fs (e.store p b) → fs2 (e.lib ++ [p]) ≠ some .dir →
        e.progStep p fs2 .begin = some (fs2, .lookup) ∧
        e.progStep p fs2 .lookup = some (fs2, .call (.cached (e.store p b))) ∧
        e.progStep p fs2 (.call (.cached (e.store p b))) = some (fs2, .inR (.cached (e.store p b))) := by
  refine ⟨_, .copying s p b c 0 hd hu hb hf ?_, [], ?_, hc.symm, ?_⟩
  · rcases mkdir_cases s.fs (e.storeDir p) (dirPath (e.store p b)) with h | ⟨_, h, _⟩
    · rw [h]; exact hdir
    · exact h
  · simp [Fs.set]
  · intro fs2 h2 hnd
    have hex : fs2.ex (e.store p b) = true := by
      unfold Fs.ex; rw [h2]; simp [Fs.set]
    have hnd' : fs2.isDir (e.lib ++ [p]) = false := by simpa [Fs.isDir] using hnd
    refine ⟨?_, ?_, ?_⟩
    · simp [QEnv.progStep, hnd']
    · simp [QEnv.progStep, QEnv.lookupStep, hcache, hex]
    · simp [QEnv.progStep, QEnv.callStep, Pass.checksDir, QEnv.rcall, hex]

theorem updater_of_plain {j : Job} {s r : RunState} {ev : Event} (h : j.step s ev = some r) (hp : ev.plain = true)
    {p : Str} (hu : s.updater = .copy p) : r.updater = .copy p := by
  cases ev with
  | mainAdd => simp only [Job.step, stepMainAdd] at h; split at h <;> cases h; exact hu
  | mainSend => simp only [Job.step, stepMainSend] at h; split at h <;> cases h; exact hu
  | mainReturn =>
    simp only [Job.step, stepMainReturn] at h
    split at h
    · split at h <;> cases h
      exact hu
    · cases h
  | reqCheck =>
    simp only [Job.step, stepReqCheck] at h
    split at h
    · split at h
      · cases h; exact hu
      · split at h <;> cases h <;> exact hu
    · cases h
  | reqPush =>
    simp only [Job.step, stepReqPush] at h
    split at h
    · split at h <;> cases h
      exact hu
    · cases h
  | take i => simp [Event.plain] at hp
  | finish i o => simp [Event.plain] at hp
  | post i =>
    simp only [Job.step, stepPost] at h
    split at h
    · split at h <;> cases h
      exact hu
    · cases h
  | updTake => simp [Job.step, stepUpdTake, hu] at h
  | updScan => simp [Job.step, stepUpdScan, hu] at h
  | updSend => simp [Job.step, stepUpdSend, hu] at h
  | updCopy ok => simp [Event.plain] at hp
  | updDone => simp [Job.step, stepUpdDone, hu] at h

/-- C93, what does hold: when the updater has finished copying a binary, the complete content that R built is at the
destination, and the original is gone. -/
theorem C93_complete_partial {e : QEnv} {s s' : QState} (hstep : e.Step s s') {p : Str}
    (hu : s.run.updater = .copy p) (hu' : s'.run.updater = .finish) (hne : ∀ b, s.bins p = some b → e.store p b ≠ b) :
    ∃ b c, s.bins p = some b ∧ s.fs b = some (.file c) ∧ s'.fs (e.store p b) = some (.file c) ∧ s'.fs b = none := by
  cases hstep
  case sched ev r _ hp hr => rw [updater_of_plain hr hp hu] at hu'; cases hu'
  case take i r _ hr =>
    simp only [Job.step, stepTake] at hr
    split at hr <;> cases hr
    dsimp only at hu'; rw [hu] at hu'; cases hu'
  case prog => simp [QState.work, hu] at hu'
  case rWrite => simp [QState.work, hu] at hu'
  case rExit => simp [QState.work, hu] at hu'
  case finish hr =>
    simp only [Job.step, stepFinish] at hr
    split at hr <;> cases hr
    dsimp only at hu'; rw [hu] at hu'; cases hu'
  case mkStore => dsimp only at hu'; rw [hu] at hu'; cases hu'
  case copying => dsimp only at hu'; rw [hu] at hu'; cases hu'
  case copied p' b c r _ hu2 hb hf hs hr =>
    rw [hu] at hu2; cases hu2
    refine ⟨b, c, hb, hf, ?_, ?_⟩
    · dsimp only; rw [if_neg (hne b hb)]; exact hs
    · simp
  case copyFails r _ hr =>
    simp only [Job.step, stepUpdCopy, hu] at hr
    simp at hr; subst hr; cases hu'

theorem storeDir_eq (e : QEnv) (p : Str) : e.storeDir p = repoDir e p ++ [s%"binary"] := by
  unfold QEnv.storeDir PathArg.dirDir repoDir dirPath
  cases (e.download p).path <;> rfl

theorem store_eq (e : QEnv) (p x : Str) :
    e.store p (e.tmp p ++ [x]) = joinPaths (repoDir e p) [s%"binary", e.ie.rv.toStr, x] := by
  have : basePath (e.tmp p ++ [x]) = x := by simp [basePath]
  unfold QEnv.store InstallEnv.storeBinary PathArg.dirDir repoDir dirPath
  rw [this]
  cases (e.download p).path <;> rfl

/-- C93: nothing else outside the library, the temporary directories (and those above them) and R's scratch files is
ever changed: package files and other cached binaries stay what they are. -/
theorem C93_cache_kept {e : QEnv} {Scratch : Path → Prop} {Complete : Str → (Path → Option Node) → Prop} {Holds : Str → Str → Prop}
    (hl : Layout e Scratch) (hr : RContract e Scratch Complete Holds)
    (hw : WellFormed e.job) {fs0 : Fs} {s : QState} (h : QReach e fs0 s) {q : Path} (hq : SafePlace e Scratch q)
    (ht : ∀ p, ¬ q <+: e.tmp p) (hs : ¬ Stored e q) : s.fs q = fs0 q := by
  have h' : QReach e fs0 s := h
  have hframe : ∀ (p : Str) (fs fs' : Fs), WFrame e Scratch p fs fs' → fs' q = fs q := by
    intro p fs fs' hf
    rcases hf q with h | h | ⟨_, _, h⟩
    · exact h
    · exact absurd h (safe_not_own hq)
    · exact absurd h (ht p)
  induction h with
  | refl => rfl
  | @tail s1 s2 h1 hst ih =>
    obtain ⟨act, ha⟩ := qreach_invA hl hr hw h1
    rw [← ih h1]
    cases hst
    case sched => rfl
    case take => rfl
    case prog p fs ph _ hi hp => exact hframe p _ _ (progStep_frame hp)
    case rWrite p k fs _ hi hk hwr => exact hframe p _ _ (write_frame hr hwr)
    case rExit => rfl
    case finish => rfl
    case mkStore p b _ hu hb =>
      have hpl := jobRun_planned ha.jobs p (ha.bins p b hb).2
      rcases mkdir_cases s1.fs (e.storeDir p) q with h | ⟨_, _, h⟩
      · exact h
      · exact absurd ⟨p, hpl, .inl (h.trans (storeDir_eq e p))⟩ hs
    case copying p b c n _ hu hb hf hd =>
      obtain ⟨⟨x, hx, hbb⟩, hp⟩ := ha.bins p b hb
      have hpl := jobRun_planned ha.jobs p hp
      show ((s1.fs.mkdir (e.storeDir p)).set (e.store p b) (.file (c.take n))) q = s1.fs q
      unfold Fs.set
      rw [if_neg]
      · rcases mkdir_cases s1.fs (e.storeDir p) q with h | ⟨_, _, h⟩
        · exact h
        · exact absurd ⟨p, hpl, .inl (h.trans (storeDir_eq e p))⟩ hs
      · intro hqs
        exact hs ⟨p, hpl, .inr ⟨x, hbb, by rw [hqs, hx]; exact store_eq e p x⟩⟩
    case copied p b c r _ hu hb hf hs' hr' =>
      obtain ⟨⟨x, hx, hbb⟩, hp⟩ := ha.bins p b hb
      dsimp only
      rw [if_neg]
      rintro rfl
      exact hq.2.1 p ⟨[x], hx.symm⟩
    case copyFails => rfl

/-! ### Examples -/

/-- Steps of the queue that can be computed (for the examples). -/
inductive QEvent where
  | sched (ev : Event)
  | take (i : Nat)
  | prog (i : Nat)
  | finish (i : Nat)
  | copying (n : Nat)
  | copied
deriving DecidableEq

/-- `s` with another scheduler state. -/
def QState.sched (s : QState) (r : RunState) : QState :=
  { run := r, fs := s.fs, progs := s.progs, bins := s.bins, dead := s.dead }

/-- see `QEvent` -/
def QEnv.exec (e : QEnv) (s : QState) : QEvent → Option QState
  | .sched ev => if s.dead = false ∧ ev.plain = true then (e.job.step s.run ev).map s.sched else none
  | .take i =>
    if s.dead = false then
      (e.job.step s.run (.take i)).map fun r =>
        { run := r, fs := s.fs, progs := upd s.progs i .begin, bins := s.bins, dead := s.dead }
    else none
  | .prog i =>
    if s.dead = false then
      match s.run.workers[i]? with
      | some (.running p) => (e.progStep p s.fs (s.progs i)).map fun x => s.work i x.1 x.2
      | _ => none
    else none
  | .finish i =>
    if s.dead = false then
      match s.run.workers[i]?, s.progs i with
      | some (.running p), .done ret =>
        (e.job.step s.run (.finish i (outcomeOf ret))).map fun r =>
          { run := r, fs := s.fs, progs := s.progs, bins := upd s.bins p ret.binary, dead := s.dead }
      | _, _ => none
    else none
  | .copying n =>
    if s.dead = false then
      match s.run.updater with
      | .copy p => match s.bins p with
        | some b => match s.fs b with
          | some (.file c) =>
            if (s.fs.mkdir (e.storeDir p)) (dirPath (e.store p b)) = some .dir then
              some { run := s.run, fs := (s.fs.mkdir (e.storeDir p)).set (e.store p b) (.file (c.take n)),
                     progs := s.progs, bins := s.bins, dead := s.dead }
            else none
          | _ => none
        | none => none
      | _ => none
    else none
  | .copied =>
    if s.dead = false then
      match s.run.updater with
      | .copy p => match s.bins p with
        | some b => match s.fs b with
          | some (.file c) =>
            if s.fs (e.store p b) = some (.file c) then
              (e.job.step s.run (.updCopy true)).map fun r =>
                { run := r, fs := fun q => if q = b then none else s.fs q, progs := s.progs, bins := s.bins, dead := s.dead }
            else none
          | _ => none
        | none => none
      | _ => none
    else none

theorem exec_step {e : QEnv} {s s' : QState} {ev : QEvent} (h : e.exec s ev = some s') : e.Step s s' := by
  cases ev with
  | sched ev =>
    simp only [QEnv.exec] at h
    split at h
    · next hc =>
      cases hr : e.job.step s.run ev with
      | none => rw [hr] at h; simp at h
      | some r => rw [hr] at h; simp at h; subst h; exact .sched s ev r hc.1 hc.2 hr
    · cases h
  | take i =>
    simp only [QEnv.exec] at h
    split at h
    · next hc =>
      cases hr : e.job.step s.run (.take i) with
      | none => rw [hr] at h; simp at h
      | some r => rw [hr] at h; simp at h; subst h; exact .take s i r hc hr
    · cases h
  | prog i =>
    simp only [QEnv.exec] at h
    split at h
    · next hc =>
      split at h
      · next p hp =>
        cases hr : e.progStep p s.fs (s.progs i) with
        | none => rw [hr] at h; simp at h
        | some x => rw [hr] at h; simp at h; subst h; exact .prog s i p x.1 x.2 hc hp hr
      · cases h
    · cases h
  | finish i =>
    simp only [QEnv.exec] at h
    split at h
    · next hc =>
      split at h
      · next p ret hp hret =>
        cases hr : e.job.step s.run (.finish i (outcomeOf ret)) with
        | none => rw [hr] at h; simp at h
        | some r => rw [hr] at h; simp at h; subst h; exact .finish s i p ret r hc hp hret hr
      · cases h
    · cases h
  | copying n =>
    simp only [QEnv.exec] at h
    split at h
    · next hc =>
      split at h
      · next p hu =>
        split at h
        · next b hb =>
          split at h
          · next c hf =>
            split at h
            · next hd => cases h; exact .copying s p b c n hc hu hb hf hd
            · cases h
          · cases h
        · cases h
      · cases h
    · cases h
  | copied =>
    simp only [QEnv.exec] at h
    split at h
    · next hc =>
      split at h
      · next p hu =>
        split at h
        · next b hb =>
          split at h
          · next c hf =>
            split at h
            · next hd =>
              cases hr : e.job.step s.run (.updCopy true) with
              | none => rw [hr] at h; simp at h
              | some r => rw [hr] at h; simp at h; subst h; exact .copied s p b c r hc hu hb hf hd hr
            · cases h
          · cases h
        · cases h
      · cases h
    · cases h

/-- Several steps. -/
def QEnv.execs (e : QEnv) : QState → List QEvent → Option QState
  | s, [] => some s
  | s, ev :: evs => match e.exec s ev with
    | none => none
    | some s' => QEnv.execs e s' evs

theorem execs_reach {e : QEnv} {s s' : QState} {evs : List QEvent} (h : e.execs s evs = some s') :
    Relation.ReflTransGen e.Step s s' := by
  induction evs generalizing s with
  | nil => cases h; exact .refl
  | cons ev evs ih =>
    simp only [QEnv.execs] at h
    split at h
    · cases h
    · next s1 hs => exact .head (exec_step hs) (ih h)

/-- A file is a package unless it is empty. -/
def ToyHolds (_ : Str) (x : Str) : Prop := x ≠ []

/-- There is a package file at `q`. -/
def toyHasFile (fs : Fs) (q : Path) : Prop := ∃ x, fs q = some (.file x) ∧ x ≠ []

/-- If R has built something (for the platform of `toyQ`), it is a package file. -/
def toyBuilt (c : RCall) (fs : Fs) : Prop :=
  c.build = true → ∀ bbp n, binaryExtOs .darwin (basePath c.src) (s%"x") = some bbp →
    fs (c.workDir ++ [bbp]) = some n → ∃ y, n = .file y ∧ y ≠ []

/-- Any R that keeps the contract (without scratch files). -/
def anyR : RProc :=
  { writes := fun c fs fs' => ∀ q, fs' q ≠ fs q →
      (c.lib ++ [c.pkg]) <+: q ∨ (c.lib ++ [lockName c.pkg]) <+: q ∨ (c.build = true ∧ c.workDir <+: q)
    exits := fun c fs x => x = .ok → toyHasFile fs c.src → fs (c.lib ++ [c.pkg]) = some .dir ∧ toyBuilt c fs }

/-- A queue with two packages `a` and `b`, `b` depending on `a`, and one worker. -/
def toyQ : QEnv :=
  { ie := { R := fun _ fs => (fs, .notRun), digest := fun _ => s%"0", platform := { os := .darwin },
            rPlatform := s%"x", rv := { major := 4, minor := 1, patch := 0 }, cwd := [s%"w"], cache := [s%"cache"], pkgrVersion := s%"3" }
    job := { starting := [s%"a"], depDb := [(s%"b", [s%"a"])], iDeps := [(s%"a", [s%"b"])], ncpu := 1 }
    lib := [s%"lib"]
    download := fun p =>
      { path := .abs [s%"cache", s%"r-0", s%"src", p ++ s%"_1.tar.gz"],
        metadata := { config := { type := .source, repo := { url := s%"u", name := s%"r" } }, package := { package := p, version := s%"1" } } }
    tmp := fun p => [s%"tmp", p]
    proc := anyR }

/-- The files at the start: `a` is installed already, the package files are there. -/
def toyQFs : Fs := fun q =>
  if q = [s%"lib", s%"a"] ∨ q = [s%"lib"] ∨ q = [s%"w"] ∨ q = [s%"cache", s%"r-0", s%"binary", s%"4.1"] then some .dir
  else if q = [s%"cache", s%"r-0", s%"src", s%"a_1.tar.gz"] ∨ q = [s%"cache", s%"r-0", s%"src", s%"b_1.tar.gz"] then some (.file (s%"code"))
  else none

/-- The least one may ask of an installed package: its directory is there. -/
def ToyComplete (_ : Str) (D : Path → Option Node) : Prop := D [] = some .dir

theorem oneLine_of {v : Str} (h : trimSpace v = v ∧ '\n' ∉ v ∧ '\r' ∉ v) : OneLineText v := ⟨(trimSpace_iff _ _).1 h.1, h.2⟩

instance (l : Str) : Decidable (NoMarker l) := by unfold NoMarker; infer_instance

theorem plainStamp_of {st : Stamp} (h : ∀ v ∈ [st.version, st.installType, st.repoURL, st.repo], trimSpace v = v ∧ '\n' ∉ v ∧ '\r' ∉ v)
    (hm : NoMarker st.repo) : PlainStamp st :=
  ⟨oneLine_of (h _ (by simp)), oneLine_of (h _ (by simp)), oneLine_of (h _ (by simp)), oneLine_of (h _ (by simp)), hm⟩

theorem stampOf_plain {e : QEnv} {p : Str} (h1 : PlainStamp (e.stampOf p (.cached []))) (h2 : PlainStamp (e.stampOf p .build)) (k : Pass) :
    PlainStamp (e.stampOf p k) := by
  cases k
  · exact h1
  · exact h2
  · exact h2

theorem toyQ_stamps (p : Str) (k : Pass) : PlainStamp (toyQ.stampOf p k) := by
  have h1 : PlainStamp (toyQ.stampOf [] (.cached [])) := plainStamp_of (by decide +kernel) (by decide)
  have h2 : PlainStamp (toyQ.stampOf [] .build) := plainStamp_of (by decide +kernel) (by decide)
  cases k
  · exact h1
  · exact h2
  · exact h2

theorem toyQ_contract : RContract toyQ (fun _ => False) ToyComplete ToyHolds := by
  refine ⟨?_, ?_, ?_, fun p D h => h, fun p _ k => toyQ_stamps p k, fun p D c st _ h _ => ?_⟩
  · intro c fs fs' h q hq
    rcases h q hq with h | h | h
    · exact .inl h
    · exact .inr (.inl h)
    · exact .inr (.inr (.inl h))
  · intro c fs x h h1 h2; exact (h rfl ⟨x, h1, h2⟩).1
  · intro c fs x h hb h1 h2; exact (h rfl ⟨x, h1, h2⟩).2 hb
  · unfold ToyComplete withDescription
    rw [if_neg (by simp)]
    exact h

theorem toyQ_plan {p : Str} (hp : p ∈ Job.plan toyQ.job) : p = s%"a" ∨ p = s%"b" := by
  simpa [Job.plan, toyQ, GoMap.keys] using hp

theorem toyQ_safe (q : Path) (h : q.head? = some (s%"cache")) : SafePlace toyQ (fun _ => False) q := by
  cases q with
  | nil => simp at h
  | cons c q =>
    simp at h; subst h
    refine ⟨by simp [toyQ], fun p => by simp [toyQ], id⟩

theorem toyQ_layout : Layout toyQ (fun _ => False) := by
  refine ⟨?_, ?_, ?_, ?_, ?_⟩
  · intro p; constructor <;> simp [toyQ]
  · intro p _ q _ h
    constructor <;> simp [toyQ, h, Ne.symm h]
  · intro q h; exact h.elim
  · intro p hp bbp hb
    rcases toyQ_plan hp with rfl | rfl <;>
    · have hb' := Option.some.inj hb
      rw [← hb']
      refine ⟨by decide, toyQ_safe _ rfl, toyQ_safe _ rfl, ?_⟩
      intro q hq
      rcases toyQ_plan hq with rfl | rfl <;>
      · refine ⟨by decide, ?_⟩
        intro b hb
        have hb'' := Option.some.inj hb
        rw [← hb'']
        decide
  · intro p hp q hq b hb
    rcases toyQ_plan hp with rfl | rfl <;> rcases toyQ_plan hq with rfl | rfl <;>
    · have hb' := Option.some.inj hb
      rw [← hb']
      decide

theorem toyQ_wf : WellFormed toyQ.job :=
  wellFormed_of_check toyQ.job [s%"a", s%"b"] (by decide) (by decide) (by decide)

theorem toyQ_names : ∀ p ∈ Job.plan toyQ.job, ¬ IsLock p := by decide

theorem toyQ_files : FilesThere toyQ (fun _ => False) ToyComplete ToyHolds toyQFs := by
  refine ⟨?_, ?_, fun p hp h => h⟩
  · intro p hp
    rcases toyQ_plan hp with rfl | rfl <;> exact ⟨⟨s%"code", by decide, by simp [ToyHolds]⟩, toyQ_safe _ rfl⟩
  · intro p hp b hb
    rcases toyQ_plan hp with rfl | rfl <;>
    · have hb' := Option.some.inj hb
      rw [← hb']
      refine ⟨toyQ_safe _ rfl, ?_⟩
      intro n hn
      revert hn
      rw [show toyQFs _ = none from rfl]
      simp

/-- `a` is found installed; `b` is requested and its build begins. -/
def toyQ1 : List QEvent :=
  [.sched .mainAdd, .sched .mainSend, .sched .reqCheck, .sched .reqPush, .take 0, .prog 0, .finish 0, .sched (.post 0),
   .sched .updTake, .sched .updScan, .sched .updSend, .sched .updScan, .sched .updDone, .sched .reqCheck, .sched .reqPush,
   .take 0, .prog 0, .prog 0, .prog 0, .prog 0]
/-- The build of `b` has ended; its binary is being installed. -/
def toyQ2 : List QEvent := [.prog 0, .prog 0, .prog 0, .prog 0]
/-- `b` is installed, its binary is copied, the run returns. -/
def toyQ3 : List QEvent :=
  [.prog 0, .prog 0, .finish 0, .sched (.post 0), .sched .updTake, .sched .updScan, .copying 1, .copying 3, .copied,
   .sched .updDone, .sched .mainReturn]

def toyS1 : QState := (toyQ.execs (toyQ.init toyQFs) toyQ1).getD (toyQ.init toyQFs)
/-- R's changes during the build. -/
def toyW1 : Fs := (toyS1.fs.set [s%"tmp", s%"b", s%"b"] .dir).set [s%"tmp", s%"b", s%"b_1.tgz"] (.file (s%"bin"))
def toyS1' : QState := (toyS1.work 0 toyW1 (.inR .build)).work 0 toyW1 (afterR .build .ok)
def toyS2 : QState := (toyQ.execs toyS1' toyQ2).getD toyS1'
/-- R's changes during the installation. -/
def toyW2 : Fs := toyS2.fs.set [s%"lib", s%"b"] .dir
def toyPass : Pass := .final [s%"tmp", s%"b", s%"b_1.tgz"]
def toyS2' : QState := (toyS2.work 0 toyW2 (.inR toyPass)).work 0 toyW2 (afterR toyPass .ok)
def toyS3 : QState := (toyQ.execs toyS2' toyQ3).getD toyS2'

theorem toyS1_reach : QReach toyQ toyQFs toyS1 := execs_reach (evs := toyQ1) (by rfl)

theorem toyBuilt_bin {c : RCall} {fs : Fs} {x : Str} (h : binaryExtOs .darwin (basePath c.src) (s%"x") = some x)
    {b : Str} (hf : fs (c.workDir ++ [x]) = some (.file b)) (hb : b.isEmpty = false) : toyBuilt c fs := by
  intro _ bbp n h1 h2
  rw [h] at h1
  cases h1
  rw [hf] at h2
  cases h2
  exact ⟨b, rfl, by rintro rfl; cases hb⟩

theorem toyS2_reach : QReach toyQ toyQFs toyS2 := by
  refine (toyS1_reach.trans ?_).trans (execs_reach (evs := toyQ2) (s := toyS1') (by rfl))
  refine .head (.rWrite toyS1 0 (s%"b") .build toyW1 rfl rfl rfl ?_) (.single (.rExit _ 0 (s%"b") .build .ok rfl rfl rfl ?_))
  · intro q hq
    refine .inr (.inr ⟨rfl, ?_⟩)
    apply Classical.byContradiction
    intro hn
    apply hq
    unfold toyW1 Fs.set
    rw [if_neg, if_neg]
    · rintro rfl; exact hn (by decide)
    · rintro rfl; exact hn (by decide)
  · intro _ _
    refine ⟨rfl, toyBuilt_bin rfl rfl rfl⟩

theorem toyS3_reach : QReach toyQ toyQFs toyS3 := by
  refine (toyS2_reach.trans ?_).trans (execs_reach (evs := toyQ3) (s := toyS2') (by rfl))
  refine .head (.rWrite toyS2 0 (s%"b") toyPass toyW2 rfl rfl rfl ?_) (.single (.rExit _ 0 (s%"b") toyPass .ok rfl rfl rfl ?_))
  · intro q hq
    refine .inl ?_
    apply Classical.byContradiction
    intro hn
    apply hq
    unfold toyW2 Fs.set
    rw [if_neg]
    rintro rfl; exact hn (by decide)
  · intro _ _; exact ⟨rfl, fun h => by cases h⟩

/-- Non-vacuity of C90-C92: a complete run of the queue with a build; R runs for `b`, which depends on `a`, in the
middle; at the end the binary is in the cache and nothing is left in the temporary directory. -/
example : Layout toyQ (fun _ => False) ∧ RContract toyQ (fun _ => False) ToyComplete ToyHolds ∧ WellFormed toyQ.job ∧
    FilesThere toyQ (fun _ => False) ToyComplete ToyHolds toyQFs ∧
    RRunning toyS1 (s%"b") ∧ RRunning toyS2 (s%"b") ∧ s%"a" ∈ Job.deps toyQ.job (s%"b") ∧
    QReach toyQ toyQFs toyS3 ∧ toyS3.run.ret = some .nil ∧ toyS3.fs [s%"lib", s%"b"] = some .dir ∧
    toyS3.fs [s%"cache", s%"r-0", s%"binary", s%"4.1", s%"b_1.tgz"] = some (.file (s%"bin")) ∧
    toyS3.fs [s%"tmp", s%"b", s%"b_1.tgz"] = none :=
  ⟨toyQ_layout, toyQ_contract, toyQ_wf, toyQ_files, ⟨0, .build, rfl, rfl⟩, ⟨0, toyPass, rfl, rfl⟩, by decide,
    toyS3_reach, rfl, rfl, rfl, rfl⟩

/-- The state in which the copy of `b`'s binary begins. -/
def toySCopy : QState := (toyQ.execs toyS2' (toyQ3.take 6)).getD toyS2'

/-- Non-vacuity of C93: this state is reachable and meets the hypotheses of the theorems; and the package file of `b`
is a file that `C93_cache_kept` speaks of. -/
example : QReach toyQ toyQFs toySCopy ∧ toySCopy.dead = false ∧ toySCopy.run.updater = .copy (s%"b") ∧
    toySCopy.bins (s%"b") = some [s%"tmp", s%"b", s%"b_1.tgz"] ∧
    toySCopy.fs [s%"tmp", s%"b", s%"b_1.tgz"] = some (.file (s%"bin")) ∧
    toySCopy.fs (dirPath (toyQ.store (s%"b") [s%"tmp", s%"b", s%"b_1.tgz"])) = some .dir ∧
    toyQ.ie.cachedBinary (toyQ.download (s%"b")).metadata = some (toyQ.store (s%"b") [s%"tmp", s%"b", s%"b_1.tgz"]) ∧
    (∃ s', toyQ.execs toySCopy [.copying 3, .copied] = some s' ∧ s'.run.updater = .finish) ∧
    SafePlace toyQ (fun _ => False) (toyQ.src (s%"b")) ∧ ¬ Stored toyQ (toyQ.src (s%"b")) := by
  refine ⟨?_, rfl, rfl, rfl, rfl, rfl, rfl, ⟨_, rfl, rfl⟩, toyQ_safe _ rfl, ?_⟩
  · refine (toyS2_reach.trans ?_).trans (execs_reach (evs := toyQ3.take 6) (s := toyS2') (by rfl))
    refine .head (.rWrite toyS2 0 (s%"b") toyPass toyW2 rfl rfl rfl ?_) (.single (.rExit _ 0 (s%"b") toyPass .ok rfl rfl rfl ?_))
    · intro q hq
      refine .inl ?_
      apply Classical.byContradiction
      intro hn
      apply hq
      unfold toyW2 Fs.set
      rw [if_neg]
      rintro rfl; exact hn (by decide)
    · intro _ _; exact ⟨rfl, fun h => by cases h⟩
  · rintro ⟨p, hp, h⟩
    have : p = s%"a" ∨ p = s%"b" := by simpa [Job.plan, toyQ, GoMap.keys] using hp
    rcases h with h | ⟨x, hx, h⟩
    · have := congrArg List.length h
      simp [QEnv.src, repoDir, toyQ, PathArg.resolve] at this
    · rcases this with rfl | rfl <;>
      · have hx' := Option.some.inj hx
        rw [← hx'] at h
        revert h
        decide

/-! ### What happens without the package files -/

/-- The same without the file of `a`, which is not installed. -/
def toyQNone : Fs := fun q => if q = [s%"lib"] then some .dir else none

def toyQ4 : List QEvent :=
  [.sched .mainAdd, .sched .mainSend, .sched .reqCheck, .sched .reqPush, .take 0, .prog 0, .prog 0, .prog 0, .prog 0, .prog 0,
   .finish 0, .sched (.post 0),
   .sched .updTake, .sched .updScan, .sched .updSend, .sched .updScan, .sched .updDone, .sched .reqCheck, .sched .reqPush,
   .take 0, .prog 0, .prog 0, .prog 0, .prog 0, .prog 0, .finish 0, .sched (.post 0), .sched .updTake, .sched .updScan,
   .sched .updDone, .sched .mainReturn]
def toyS4 : QState := (toyQ.execs (toyQ.init toyQNone) toyQ4).getD (toyQ.init toyQNone)

/-- C92 does not hold without the package files: a run in which no package file exists returns without an error, and
no package is in the library. -/
theorem C92_violated_missing_files : ∃ (e : QEnv) (fs0 : Fs) (s : QState), Layout e (fun _ => False) ∧
    RContract e (fun _ => False) ToyComplete ToyHolds ∧ WellFormed e.job ∧ QReach e fs0 s ∧ s.run.ret = some .nil ∧
    Job.plan e.job = [s%"a", s%"b"] ∧ ∀ p ∈ Job.plan e.job, s.fs (e.lib ++ [p]) = none :=
  ⟨toyQ, toyQNone, toyS4, toyQ_layout, toyQ_contract, toyQ_wf, execs_reach (evs := toyQ4) (by rfl), rfl, rfl, by decide⟩

/-- The files: the package file of `b` is there, that of `a` is not. -/
def toyQOnly : Fs := fun q =>
  if q = [s%"lib"] then some .dir
  else if q = [s%"cache", s%"r-0", s%"src", s%"b_1.tar.gz"] then some (.file (s%"code"))
  else none
def toyQ5 : List QEvent := toyQ4.take 24
def toyS5 : QState := (toyQ.execs (toyQ.init toyQOnly) toyQ5).getD (toyQ.init toyQOnly)

/-- C91 does not hold either when a dependency's file is missing: `b` is built although `a`, which it needs, is not in
the library. -/
theorem C91_violated_missing_file : ∃ (e : QEnv) (fs0 : Fs) (s : QState), Layout e (fun _ => False) ∧
    RContract e (fun _ => False) ToyComplete ToyHolds ∧ WellFormed e.job ∧ QReach e fs0 s ∧ RRunning s (s%"b") ∧
    s%"a" ∈ Job.deps e.job (s%"b") ∧ s.fs (e.lib ++ [s%"a"]) = none :=
  ⟨toyQ, toyQOnly, toyS5, toyQ_layout, toyQ_contract, toyQ_wf, execs_reach (evs := toyQ5) (by rfl),
    ⟨0, .build, rfl, rfl⟩, by decide, by decide⟩

/-! ### C94: after an interruption -/

/-- C94 does not hold: whatever is in the directory of a planned package when a run begins - say what an interrupted
run has left there - is in it unchanged at every moment of the run.  No run ever completes it. -/
theorem C94_violated_leftover_kept {e : QEnv} {Scratch : Path → Prop} {Complete : Str → (Path → Option Node) → Prop} {Holds : Str → Str → Prop}
    (hl : Layout e Scratch) (hr : RContract e Scratch Complete Holds)
    (hw : WellFormed e.job) (hn : ∀ p ∈ Job.plan e.job, ¬ IsLock p) {fs0 : Fs} {s : QState} (h : QReach e fs0 s)
    {p : Str} (hp : ¬ IsLock p) (hdir : fs0 (e.lib ++ [p]) = some .dir) :
    contentOf s.fs e.lib p = contentOf fs0 e.lib p := by
  obtain ⟨act, ha⟩ := qreach_invA hl hr hw h
  have hk := (jobRun_touch hn ha.jobs).2
  funext r
  refine hk _ (List.prefix_append _ _) ?_
  rintro n ⟨q, _, hq, hnq⟩ hpre
  have hnp : n = p := by
    obtain ⟨t, ht⟩ := hpre
    rw [List.append_assoc, List.append_cancel_left_eq] at ht
    exact (List.cons.inj ht).1
  rcases hnq with rfl | rfl
  · rw [hnp] at hq; exact hq hdir
  · rw [← hnp] at hp; exact hp ⟨_, rfl⟩

/-- R, which is content with nothing less than a directory with a DESCRIPTION. -/
def strictR : RProc :=
  { writes := anyR.writes
    exits := fun c fs x => x = .ok → toyHasFile fs c.src →
      (fs (c.lib ++ [c.pkg]) = some .dir ∧ fs (c.lib ++ [c.pkg, s%"DESCRIPTION"]) ≠ none) ∧ toyBuilt c fs }

/-- The directory and the DESCRIPTION are there. -/
def StrictComplete (_ : Str) (D : Path → Option Node) : Prop := D [] = some .dir ∧ D [s%"DESCRIPTION"] ≠ none

def strictQ : QEnv := { toyQ with proc := strictR }

theorem strictQ_contract : RContract strictQ (fun _ => False) StrictComplete ToyHolds := by
  refine ⟨?_, ?_, ?_, fun p D h => h.1, fun p _ k => toyQ_stamps p k, fun p D c st _ h _ => ?_⟩
  · intro c fs fs' h q hq
    rcases h q hq with h | h | h
    · exact .inl h
    · exact .inr (.inl h)
    · exact .inr (.inr (.inl h))
  · intro c fs x h h1 h2; exact (h rfl ⟨x, h1, h2⟩).1
  · intro c fs x h hb h1 h2; exact (h rfl ⟨x, h1, h2⟩).2 hb
  · refine ⟨?_, ?_⟩
    · unfold withDescription
      rw [if_neg (by simp)]
      exact h.1
    · unfold withDescription
      rw [if_pos rfl]
      simp

theorem strictQ_layout : Layout strictQ (fun _ => False) :=
  ⟨toyQ_layout.tmpLib, toyQ_layout.tmpTmp, toyQ_layout.scratch, toyQ_layout.ball, toyQ_layout.cached⟩

/-- `a` is there and complete; the binary of `b` is in the cache, so that it is installed in one pass. -/
def strictFs : Fs := fun q =>
  if q = [s%"lib", s%"a", s%"DESCRIPTION"] then some (.file (s%"Package: a"))
  else if q = [s%"cache", s%"r-0", s%"binary", s%"4.1", s%"b_1.tgz"] then some (.file (s%"bin"))
  else toyQFs q

theorem strictQ_files : FilesThere strictQ (fun _ => False) StrictComplete ToyHolds strictFs := by
  refine ⟨?_, ?_, ?_⟩
  · intro p hp
    rcases toyQ_plan hp with rfl | rfl <;> exact ⟨⟨s%"code", by decide, by simp [ToyHolds]⟩, toyQ_safe _ rfl⟩
  · intro p hp b hb
    rcases toyQ_plan hp with rfl | rfl
    · have hb' := Option.some.inj hb
      rw [← hb']
      refine ⟨toyQ_safe _ rfl, fun n hn => ?_⟩
      exact absurd ((show strictFs _ = none from rfl).symm.trans hn) (by simp)
    · have hb' := Option.some.inj hb
      rw [← hb']
      refine ⟨toyQ_safe _ rfl, fun n hn => ⟨s%"bin", ?_, by simp [ToyHolds]⟩⟩
      exact (Option.some.inj ((show strictFs _ = some (.file (s%"bin")) from rfl).symm.trans hn)).symm
  · intro p hp h
    rcases toyQ_plan hp with rfl | rfl
    · exact ⟨by decide, by decide⟩
    · exact absurd h (by decide)

/-- R begins to install `b`. -/
def strict1 : List QEvent := toyQ1.take 18 ++ [.prog 0]
def strictS1 : QState := (strictQ.execs (strictQ.init strictFs) strict1).getD (strictQ.init strictFs)
def strictPass : Pass := .cached [s%"cache", s%"r-0", s%"binary", s%"4.1", s%"b_1.tgz"]
/-- R has made the directory of `b` and nothing else when everything is killed. -/
def strictS1' : QState := strictS1.work 0 (strictS1.fs.set [s%"lib", s%"b"] .dir) (.inR strictPass)

/-- The run after that. -/
def strict2 : List QEvent :=
  [.sched .mainAdd, .sched .mainSend, .sched .reqCheck, .sched .reqPush, .take 0, .prog 0, .finish 0, .sched (.post 0),
   .sched .updTake, .sched .updScan, .sched .updSend, .sched .updScan, .sched .updDone, .sched .reqCheck, .sched .reqPush,
   .take 0, .prog 0, .finish 0, .sched (.post 0), .sched .updTake, .sched .updScan, .sched .updDone, .sched .mainReturn]
def strictS2 : QState := (strictQ.execs (strictQ.init strictS1'.fs) strict2).getD (strictQ.init strictS1'.fs)

/-- C94 does not hold: a run that starts from a sound state is interrupted while R installs a package; the next run
returns without an error although the package is not complete. -/
theorem C94_violated_interrupted : ∃ (e : QEnv) (Complete : Str → (Path → Option Node) → Prop) (fs0 : Fs) (s s' : QState) (p : Str),
    Layout e (fun _ => False) ∧ RContract e (fun _ => False) Complete ToyHolds ∧ WellFormed e.job ∧
    FilesThere e (fun _ => False) Complete ToyHolds fs0 ∧ p ∈ Job.plan e.job ∧
    QReach e fs0 s ∧ RRunning s p ∧
    QReach e s.fs s' ∧ s'.run.ret = some .nil ∧ ¬ Complete p (contentOf s'.fs e.lib p) := by
  refine ⟨strictQ, StrictComplete, strictFs, strictS1', strictS2, s%"b", strictQ_layout, strictQ_contract, toyQ_wf,
    strictQ_files, by decide, ?_, ⟨0, strictPass, rfl, rfl⟩, execs_reach (evs := strict2) (by rfl), rfl, ?_⟩
  · refine (execs_reach (e := strictQ) (evs := strict1) (s' := strictS1) (by rfl)).tail (.rWrite strictS1 0 (s%"b") strictPass _ rfl rfl rfl ?_)
    intro q hq
    refine .inl ?_
    apply Classical.byContradiction
    intro hn
    apply hq
    unfold Fs.set
    rw [if_neg]
    rintro rfl; exact hn (by decide)
  · intro h; exact h.2 (by decide)

/-- C94, what does hold: if what the interrupted run left in the library is removed first (or is complete), and so are
binaries it left half-copied in the cache, a run that returns without an error leaves every package complete; and so
does every further run. -/
theorem C94_next_run_partial {e : QEnv} {Scratch : Path → Prop} {Complete : Str → (Path → Option Node) → Prop} {Holds : Str → Str → Prop}
    (hl : Layout e Scratch) (hr : RContract e Scratch Complete Holds)
    (hw : WellFormed e.job) (hn : ∀ p ∈ Job.plan e.job, ¬ IsLock p) {fs0 : Fs} (hf : FilesThere e Scratch Complete Holds fs0)
    {s s' : QState} (h : QReach e fs0 s)
    (hleft : ∀ p ∈ Job.plan e.job, s.fs (e.lib ++ [p]) = some .dir → Complete p (contentOf s.fs e.lib p))
    (hbin : ∀ p ∈ Job.plan e.job, ∀ b n, e.ie.cachedBinary (e.download p).metadata = some b → s.fs b = some n →
      ∃ x, n = .file x ∧ Holds p x)
    (h' : QReach e s.fs s') (hret : s'.run.ret = some .nil) :
    ∀ p ∈ Job.plan e.job, Complete p (contentOf s'.fs e.lib p) := by
  have hB := qreach_invB hl hr hw hn hf h
  refine C92_all_present_partial hl hr hw hn ⟨?_, ?_, hleft⟩ h' hret
  · intro p hp
    refine ⟨?_, (hf.src p hp).2⟩
    rw [hB.src p hp]
    exact (hf.src p hp).1
  · exact fun p hp b hb => ⟨(hf.cached p hp b hb).1, fun n hn => hbin p hp b n hb hn⟩

/-- Non-vacuity of C94: the interrupted run of the counterexample and a directory left by it. -/
example : FilesThere strictQ (fun _ => False) StrictComplete ToyHolds strictFs ∧ strictS1'.fs (strictQ.lib ++ [s%"b"]) = some .dir ∧
    strictS1.fs (strictQ.lib ++ [s%"b"]) = none ∧ strictS1.fs (strictQ.lib ++ [s%"a"]) = some .dir :=
  ⟨strictQ_files, by decide, by decide, by decide⟩

end Pkgr
