/- Proofs for C119: an installation of a package for which nothing was downloaded. -/
import Verif.Proof.Queue
import Verif.Spec.Lost

namespace Pkgr
open Spec

variable {e : QEnv} {Scratch : Path → Prop} {Complete : Str → (Path → Option Node) → Prop} {Holds : Str → Str → Prop}

/-- R has built nothing that pkgr would take for the binary of `p`. -/
def NoBin (e : QEnv) (p : Str) (fs : Fs) : Prop := ∀ b, InTmp e p b → fs b = none

/-- What is known at each point of the installation of a package that was not delivered. -/
def GoodL (e : QEnv) (p : Str) (fs : Fs) : IPhase → Prop
  | .call k => k = .build
  | .inR k => k = .build
  | .stamp k => k = .build ∧ NoBin e p fs
  | .stampWrite k _ => k = .build ∧ NoBin e p fs
  | .returned k c => k = .build ∧ (c.err = false → c.exitCode = 0 ∧ NoBin e p fs)
  | .find => NoBin e p fs
  | .done r => r.err = true
  | _ => True

theorem GoodL.same {p : Str} {fs fs' : Fs} {ph : IPhase} (h : GoodL e p fs ph) (hb : ∀ b, InTmp e p b → fs' b = fs b) :
    GoodL e p fs' ph := by
  have hn : NoBin e p fs → NoBin e p fs' := fun h b hi => by rw [hb b hi]; exact h b hi
  cases ph with
  | stamp k => exact ⟨h.1, hn h.2⟩
  | stampWrite k c => exact ⟨h.1, hn h.2⟩
  | returned k c => exact ⟨h.1, fun hc => ⟨(h.2 hc).1, hn (h.2 hc).2⟩⟩
  | find => exact hn h
  | _ => exact h

structure QInvL (e : QEnv) (p : Str) (s : QState) : Prop where
  good : ∀ i : Nat, s.run.workers[i]? = some (Worker.running p) → GoodL e p s.fs (s.progs i)
  log : LogEntry.finished p true ∉ s.run.log
  library : s.fs (e.lib ++ [p]) ≠ some .dir
  cwd : s.fs e.ie.cwd = some .dir
  binary : ∀ b, e.ie.cachedBinary (e.download p).metadata = some b → s.fs b = none

theorem lost_src {fs0 : Fs} {p : Str} (h : Undelivered e Scratch fs0 p) : e.src p = e.ie.cwd := by
  unfold QEnv.src
  rw [h.nothing]
  simp [PathArg.resolve]

theorem noBin_clean {p : Str} {fs : Fs} {d : Path} (h : NoBin e p fs) : NoBin e p (cleanTmp fs d) := by
  intro b hb
  unfold cleanTmp
  split
  · unfold Fs.removeAll
    split
    · rfl
    · exact h b hb
  · exact h b hb

theorem noBin_set {p : Str} {fs : Fs} (n : Node) (h : NoBin e p fs) : NoBin e p (fs.set (e.descOf p .build) n) := by
  rintro b ⟨x, rfl, hx⟩
  rw [show (fs.set (e.descOf p .build) n) (e.tmp p ++ [x]) = fs (e.tmp p ++ [x]) from ?_]
  · exact h _ ⟨x, rfl, hx⟩
  unfold Fs.set
  rw [if_neg]
  intro hh
  have := congrArg List.length hh
  simp [QEnv.descOf, QEnv.rcall] at this

/-- A step of pkgr's own code in the installation of the undelivered package. -/
theorem progStep_lost (hl : Layout e Scratch) {p : Str} (hpl : p ∈ Job.plan e.job) {fs fs' : Fs} {ph ph' : IPhase}
    (hlib : fs (e.lib ++ [p]) ≠ some .dir) (hcwd : fs (e.src p) = some .dir)
    (hbin : ∀ b, e.ie.cachedBinary (e.download p).metadata = some b → fs b = none)
    (h : e.progStep p fs ph = some (fs', ph')) (hg : GoodL e p fs ph) :
    GoodL e p fs' ph' ∧ fs' (e.lib ++ [p]) ≠ some .dir := by
  have htmp : ∀ q, e.tmp p <+: q → q ≠ e.lib ++ [p] := by
    rintro q hq rfl
    exact lib_not_tmp hl p (List.prefix_append _ _) hq
  have hdesc : ∀ n, (fs.set (e.descOf p .build) n) (e.lib ++ [p]) = fs (e.lib ++ [p]) := by
    intro n
    unfold Fs.set
    rw [if_neg]
    intro hh
    exact htmp (e.descOf p .build) (List.prefix_append _ _) hh.symm
  cases ph with
  | «begin» =>
    simp only [QEnv.progStep] at h
    split at h
    · next hd => exact absurd (by simpa [Fs.isDir] using hd) hlib
    · cases h; exact ⟨trivial, hlib⟩
  | lookup =>
    simp only [QEnv.progStep, QEnv.lookupStep] at h; cases h
    refine ⟨?_, hlib⟩
    split
    · trivial
    · next b hb => rw [if_neg (by simp [Fs.ex, hbin b hb])]; trivial
  | mkTmp =>
    simp only [QEnv.progStep] at h; cases h
    refine ⟨rfl, ?_⟩
    unfold Fs.mkdirAll
    rw [if_neg]
    · exact hlib
    · rintro ⟨h1, _⟩
      exact (hl.tmpLib p).1 ((List.prefix_append _ _).trans h1)
  | call k =>
    simp only [QEnv.progStep, QEnv.callStep] at h; cases h
    refine ⟨?_, hlib⟩
    have hk : k = .build := hg
    subst hk
    split
    · trivial
    · rw [if_neg (by simp [Fs.ex, QEnv.rcall, hcwd])]; rfl
  | inR k => simp [QEnv.progStep] at h
  | stamp k =>
    obtain ⟨rfl, hn⟩ := hg
    simp only [QEnv.progStep, QEnv.stampStep] at h
    split at h <;> cases h
    · exact ⟨⟨rfl, noBin_set _ hn⟩, by rw [hdesc]; exact hlib⟩
    · exact ⟨⟨rfl, fun _ => ⟨rfl, hn⟩⟩, hlib⟩
  | stampWrite k c =>
    obtain ⟨rfl, hn⟩ := hg
    simp only [QEnv.progStep] at h; cases h
    exact ⟨⟨rfl, fun _ => ⟨rfl, noBin_set _ hn⟩⟩, by rw [hdesc]; exact hlib⟩
  | returned k c =>
    obtain ⟨rfl, hn⟩ := hg
    simp only [QEnv.progStep, QEnv.returnStep] at h; cases h
    refine ⟨?_, ?_⟩
    · split
      · next hok =>
        have he : c.err = false := by
          rw [Bool.and_eq_true] at hok
          simpa using hok.1
        exact noBin_clean (hn he).2
      · next hno =>
        cases he : c.err
        · rw [he, (hn he).1] at hno; simp at hno
        · rfl
    · unfold cleanTmp
      split
      · unfold Fs.removeAll
        split
        · simp
        · exact hlib
      · exact hlib
  | find =>
    simp only [QEnv.progStep, QEnv.findStep] at h; cases h
    refine ⟨?_, hlib⟩
    split
    · trivial
    · next bbp hbbp =>
      have hj := (hl.ball p hpl bbp hbbp).1
      rw [if_pos (by rw [hj]; simp [Fs.ex, hg (e.tmp p ++ [bbp]) ⟨bbp, rfl, hbbp⟩])]
      rfl
  | done r => simp [QEnv.progStep] at h
  | dead => simp [QEnv.progStep] at h

/-- The common part of the steps of a worker. -/
theorem qinvL_work (hl : Layout e Scratch) (hw : WellFormed e.job) {fs0 : Fs} {p : Str} (hpl : p ∈ Job.plan e.job)
    (hlk : ¬ IsLock p) (hu : Undelivered e Scratch fs0 p) {s : QState} (hs : Reach e.job s.run) (h : QInvL e p s) {i : Nat}
    {p' : Str} {fs : Fs} {ph : IPhase} (hi : s.run.workers[i]? = some (Worker.running p')) (hf : WFrame e Scratch p' s.fs fs)
    (hg : p' = p → GoodL e p fs ph ∧ fs (e.lib ++ [p]) ≠ some .dir) : QInvL e p (s.work i fs ph) := by
  have hsp : p ≠ p' → Spares e p s.fs fs := fun hne => frame_spares hl hlk hpl (running_planned hw hs hi) hne (fun b hb => (hu.binary b hb).2) hf
  refine ⟨?_, h.log, ?_, ?_, ?_⟩
  · intro k hk
    by_cases hki : k = i
    · subst hki
      rw [show (s.work k fs ph).run = s.run from rfl, hi] at hk
      cases hk
      simpa [QState.work, upd] using (hg rfl).1
    · have hne : p ≠ p' := by
        rintro rfl
        exact hki (running_unique hs hk hi)
      have := (h.good k hk).same (hsp hne).ball
      simpa [QState.work, upd, hki] using this
  · show fs (e.lib ++ [p]) ≠ some .dir
    by_cases hp : p' = p
    · exact (hg hp).2
    · have := congrFun (hsp (Ne.symm hp)).dir []
      unfold contentOf at this
      rw [this]
      exact h.library
  · show fs e.ie.cwd = some .dir
    rw [frame_safe hf _ hu.cwd.2 (by rw [h.cwd]; simp)]
    exact h.cwd
  · intro b hb
    show fs b = none
    have := frame_may (Holds := fun _ _ => False) (p := p) hf (hu.binary b hb).2 (hl.cached p' (running_planned hw hs hi) p hpl b hb)
      (fun n hn => by rw [h.binary b hb] at hn; cases hn)
    cases hx : fs b with
    | none => rfl
    | some n => obtain ⟨_, _, hf⟩ := this n hx; exact absurd hf id

theorem qinvL_step (hl : Layout e Scratch) (hr : RContract e Scratch Complete Holds) (hns : NoStray e)
    (hw : WellFormed e.job) {fs0 : Fs} {p : Str} (hpl : p ∈ Job.plan e.job) (hlk : ¬ IsLock p)
    (hu : Undelivered e Scratch fs0 p) {s s' : QState} {act : List Str} (hs : Reach e.job s.run) (ha : QInvA e fs0 s act)
    (h : QInvL e p s) (hstep : e.Step s s') : QInvL e p s' := by
  have hsrc := lost_src hu
  cases hstep
  case sched ev r _ hp hr' =>
    exact ⟨fun i hi => h.good i (workers_running_of_step hr' (plain_not_take hp) hi),
      fun hlog => h.log (log_of_step hr' (plain_not_finish hp) hlog), h.library, h.cwd, h.binary⟩
  case take i r _ hr' =>
    refine ⟨?_, fun hlog => h.log (log_of_step hr' (by simp) hlog), h.library, h.cwd, h.binary⟩
    intro k hk
    rcases workers_running_of_take hr' hk with rfl | ⟨hki, hk'⟩
    · simp [upd, GoodL]
    · simpa [upd, hki] using h.good k hk'
  case prog i p' fs ph _ hi hp =>
    refine qinvL_work hl hw hpl hlk hu hs h hi (progStep_frame hp) ?_
    rintro rfl
    exact progStep_lost hl hpl h.library (by rw [hsrc]; exact h.cwd) h.binary hp (h.good i hi)
  case rWrite i p' k fs _ hi hk hwr =>
    refine qinvL_work hl hw hpl hlk hu hs h hi (write_frame hr hwr) ?_
    rintro rfl
    have hg := h.good i hi
    rw [hk] at hg
    have hkb : k = .build := hg
    subst hkb
    refine ⟨rfl, ?_⟩
    rw [show fs (e.lib ++ [p']) = s.fs (e.lib ++ [p']) from ?_]
    · exact h.library
    apply Classical.byContradiction
    intro hne
    have hq : e.lib <+: e.lib ++ [p'] := List.prefix_append _ _
    rcases hr.confined _ _ _ hwr _ hne with h | h | h | h
    · exact lib_not_tmp hl p' hq ((List.prefix_append _ _).trans h)
    · exact lib_not_tmp hl p' hq ((List.prefix_append _ _).trans h)
    · exact lib_not_tmp hl p' hq h.2
    · exact (hl.scratch _ h).1 hq
  case rExit i p' k x _ hi hk hx =>
    refine qinvL_work hl hw hpl hlk hu hs h hi (WFrame.refl _) ?_
    rintro rfl
    refine ⟨?_, h.library⟩
    have hg := h.good i hi
    rw [hk] at hg
    have hkb : k = .build := hg
    subst hkb
    unfold afterR
    split
    · next hx' =>
      subst hx'
      refine ⟨rfl, ?_⟩
      rintro b ⟨y, rfl, hy⟩
      refine hns _ _ hx rfl ?_ y hy
      show s.fs (e.src p') = some .dir
      rw [hsrc]; exact h.cwd
    · next hx' =>
      refine ⟨rfl, fun hc => ?_⟩
      cases x <;> simp [exitOf] at hc hx'
  case finish i p' ret r _ hi hk hr' =>
    refine ⟨fun k hk => h.good k (workers_running_of_step hr' (by simp) hk), ?_, h.library, h.cwd, h.binary⟩
    intro hlog
    rcases log_of_finish hi hr' hlog with h1 | ⟨rfl, ho⟩
    · exact h.log h1
    · have := h.good i hi
      rw [hk] at this
      have hre : ret.err = true := this
      unfold outcomeOf at ho
      rw [hre] at ho
      simp at ho
  case mkStore p' b _ hup hb =>
    obtain ⟨⟨x, hbx, hx⟩, hpa⟩ := ha.bins p' b hb
    have hpl' := jobRun_planned ha.jobs p' hpa
    obtain ⟨_, hst, hsd, hne⟩ := hl.ball p' hpl' x hx
    rw [← hbx] at hst hne
    have hpi : p' ∈ s.run.installed := updPkg_installed hs (by rw [hup]; rfl)
    have hpp : p' ≠ p := by rintro rfl; exact h.log (installed_finished hs hpi)
    have hother : ∀ q, q ≠ e.store p' b → (q = e.storeDir p' → s.fs q ≠ none) →
        (s.fs.mkdir (e.storeDir p')) q = s.fs q := by
      intro q h1 h2
      rcases mkdir_cases s.fs (e.storeDir p') q with h | ⟨h3, _, h4⟩
      · exact h
      · exact absurd h3 (h2 h4)
    refine ⟨?_, h.log, ?_, ?_, ?_⟩
    · intro k hk
      refine (h.good k hk).same ?_
      rintro z ⟨y, rfl, _⟩
      have ht : e.tmp p <+: e.tmp p ++ [y] := List.prefix_append _ _
      refine hother _ ?_ ?_
      · intro hh; rw [hh] at ht; exact hst.2.1 p ht
      · intro hh; rw [hh] at ht; exact absurd ht (hsd.2.1 p)
    · have hq : e.lib <+: e.lib ++ [p] := List.prefix_append _ _
      dsimp only
      rw [hother (e.lib ++ [p]) ?_ ?_]
      · exact h.library
      · intro hh; rw [hh] at hq; exact hst.1 hq
      · intro hh; rw [hh] at hq; exact absurd hq hsd.1
    · refine (hother e.ie.cwd ?_ ?_).trans h.cwd
      · rw [← hsrc]; exact (hne p hpl).1.symm
      · intro _; rw [h.cwd]; simp
    · intro z hz
      refine (hother z (((hne p hpl).2 z hz).2 hpp) ?_).trans (h.binary z hz)
      intro hh
      exact absurd hh ((hne p hpl).2 z hz).1
  case copying p' b c n _ hup hb hc hd =>
    obtain ⟨⟨x, hbx, hx⟩, hpa⟩ := ha.bins p' b hb
    have hpl' := jobRun_planned ha.jobs p' hpa
    obtain ⟨_, hst, hsd, hne⟩ := hl.ball p' hpl' x hx
    rw [← hbx] at hst hne
    have hpi : p' ∈ s.run.installed := updPkg_installed hs (by rw [hup]; rfl)
    have hpp : p' ≠ p := by rintro rfl; exact h.log (installed_finished hs hpi)
    have hother : ∀ q, q ≠ e.store p' b → (q = e.storeDir p' → s.fs q ≠ none) →
        ((s.fs.mkdir (e.storeDir p')).set (e.store p' b) (.file (c.take n))) q = s.fs q := by
      intro q h1 h2
      unfold Fs.set
      rw [if_neg h1]
      rcases mkdir_cases s.fs (e.storeDir p') q with h | ⟨h3, _, h4⟩
      · exact h
      · exact absurd h3 (h2 h4)
    refine ⟨?_, h.log, ?_, ?_, ?_⟩
    · intro k hk
      refine (h.good k hk).same ?_
      rintro z ⟨y, rfl, _⟩
      have ht : e.tmp p <+: e.tmp p ++ [y] := List.prefix_append _ _
      refine hother _ ?_ ?_
      · intro hh; rw [hh] at ht; exact hst.2.1 p ht
      · intro hh; rw [hh] at ht; exact absurd ht (hsd.2.1 p)
    · have hq : e.lib <+: e.lib ++ [p] := List.prefix_append _ _
      dsimp only
      rw [hother (e.lib ++ [p]) ?_ ?_]
      · exact h.library
      · intro hh; rw [hh] at hq; exact hst.1 hq
      · intro hh; rw [hh] at hq; exact absurd hq hsd.1
    · refine (hother e.ie.cwd ?_ ?_).trans h.cwd
      · rw [← hsrc]; exact (hne p hpl).1.symm
      · intro _; rw [h.cwd]; simp
    · intro z hz
      refine (hother z (((hne p hpl).2 z hz).2 hpp) ?_).trans (h.binary z hz)
      intro hh
      exact absurd hh ((hne p hpl).2 z hz).1
  case copied p' b c r _ hup hb hc hc' hr' =>
    obtain ⟨x, hx, _⟩ := (ha.bins p' b hb).1
    have hpi : p' ∈ s.run.installed := updPkg_installed hs (by rw [hup]; rfl)
    have hpp : p ≠ p' := by rintro rfl; exact h.log (installed_finished hs hpi)
    have hpl' := jobRun_planned ha.jobs p' (ha.bins p' b hb).2
    have htmp : e.tmp p' <+: b := ⟨[x], hx.symm⟩
    refine ⟨?_, fun hlog => h.log (log_of_step hr' (by simp) hlog), ?_, ?_, ?_⟩
    · intro k hk
      refine (h.good k (workers_running_of_step hr' (by simp) hk)).same ?_
      rintro b' ⟨y, rfl, _⟩
      dsimp only
      rw [if_neg]
      rintro rfl
      exact not_prefix_ext (hl.tmpTmp p hpl p' hpl' hpp) htmp (List.prefix_append _ _)
    · dsimp only
      rw [if_neg]
      · exact h.library
      · intro hh
        rw [← hh] at htmp
        exact lib_not_tmp hl p' (List.prefix_append _ _) htmp
    · dsimp only
      rw [if_neg]
      · exact h.cwd
      · intro hh
        rw [← hh] at htmp
        exact hu.cwd.2.2.1 p' htmp
    · intro z hz
      dsimp only
      rw [h.binary z hz]; simp
  case copyFails r _ hr' =>
    exact ⟨fun k hk => h.good k (workers_running_of_step hr' (by simp) hk),
      fun hlog => h.log (log_of_step hr' (by simp) hlog), h.library, h.cwd, h.binary⟩

theorem qreach_invL (hl : Layout e Scratch) (hr : RContract e Scratch Complete Holds) (hns : NoStray e)
    (hw : WellFormed e.job) {fs0 : Fs} {p : Str} (hpl : p ∈ Job.plan e.job) (hlk : ¬ IsLock p)
    (hu : Undelivered e Scratch fs0 p) {s : QState} (h : QReach e fs0 s) : QInvL e p s := by
  induction h with
  | refl =>
    refine ⟨fun i _ => by simp [QEnv.init, GoodL], by simp [QEnv.init, Job.init], hu.library, hu.cwd.1, fun b hb => (hu.binary b hb).1⟩
  | tail hs hst ih =>
    obtain ⟨act, ha⟩ := qreach_invA hl hr hw hs
    exact qinvL_step hl hr hns hw hpl hlk hu (qreach_reach hs) ha ih hst

end Pkgr
