/- Theorems C154: what is built once is not built again. -/
import Verif.Spec.Once
import Verif.Proof.QueueStore
import Verif.Props.Install
import Verif.Props.Queue

namespace Pkgr
open Spec

/-- C93, C154: when a run has returned without an error, there is a complete binary, where later runs look for it, of every
planned package that was not in the library at the start: the one that was there, or the one built in this run. -/
theorem C154_left_in_cache {e : QEnv} {Scratch : Path → Prop} {Complete : Str → (Path → Option Node) → Prop} {Holds : Str → Str → Prop}
    (hl : Layout e Scratch) (hr : RContract e Scratch Complete Holds)
    (hw : WellFormed e.job) (hn : ∀ p ∈ Job.plan e.job, ¬ IsLock p) {fs0 : Fs} (hf : FilesThere e Scratch Complete Holds fs0)
    (hsrc : ∀ p ∈ Job.plan e.job, (∀ b, LooksAt e p b → fs0 b = none) → ∃ de, GotAsSource e de p)
    {s : QState} (h : QReach e fs0 s) (hret : s.run.ret = some .nil) :
    ∀ p ∈ Job.plan e.job, fs0 (e.lib ++ [p]) ≠ some .dir → BinaryThere e Holds p s.fs := by
  intro p hp hnew
  have hplace : ∀ p ∈ Job.plan e.job, NotCached e p fs0 → ∀ x, binaryExtOs e.ie.platform.os (basePath (e.src p)) e.ie.rPlatform = some x →
      e.ie.cachedBinary (e.download p).metadata = some (e.store p (e.tmp p ++ [x])) := by
    intro p hp hnc x hx
    obtain ⟨de, hg⟩ := hsrc p hp hnc
    have hs : e.src p = de.dest (e.download p).metadata := by unfold QEnv.src; rw [hg.file]; rfl
    rw [hs] at hx
    have := C44_stored_where_searched_partial e.ie de (e.download p).metadata (e.tmp p) x hg.digest hg.cache hg.source hg.plain hg.usual hx
    rw [this]
    congr 1
    rw [(hl.ball p hp x (by rw [hs]; exact hx)).1]
    unfold QEnv.store InstallEnv.storeBinary
    rw [hg.file]
  have hc := qreach_invC hl hr hw hn hf hplace h
  have hfin := C35_all_installed hw (qreach_reach h) hret p hp
  have hin : InCache e Holds p s.fs := by
    cases hb : s.bins p with
    | none => exact hc.finNone p hp hnew hfin hb
    | some b =>
      obtain ⟨h1, h2⟩ := ret_not_waiting (qreach_reach h) hret p
      rcases (hc.finSome p hp hnew hfin b hb).2.2 h1 with h | h
      · exact h
      · omega
  obtain ⟨b, hb, x, hx, hh⟩ := hin
  exact ⟨b, x, hb, hx, hh⟩

/-! ### The next run -/

/-- A phase in which the cached binary is used, or nothing at all (`new`: the package was not in the library). -/
def NoBuild (new : Prop) : IPhase → Prop
  | .lookup => new
  | .call k | .inR k | .stamp k | .stampWrite k _ | .returned k _ => ∃ b, k = .cached b
  | .mkTmp | .find => False
  | .done r => r.binary = none
  | _ => True

structure QInvD (e : QEnv) (Holds : Str → Str → Prop) (fs0 : Fs) (s : QState) : Prop where
  phase : ∀ (i : Nat) (p : Str), s.run.workers[i]? = some (Worker.running p) →
    NoBuild (fs0 (e.lib ++ [p]) ≠ some .dir) (s.progs i)
  bins : ∀ p, s.bins p = none
  there : ∀ p ∈ Job.plan e.job, fs0 (e.lib ++ [p]) ≠ some .dir → BinaryThere e Holds p s.fs

theorem qinvD_step {e : QEnv} {Scratch : Path → Prop} {Complete : Str → (Path → Option Node) → Prop} {Holds : Str → Str → Prop}
    (hr : RContract e Scratch Complete Holds)
    (hw : WellFormed e.job) {fs0 : Fs} (hft : FilesThere e Scratch Complete Holds fs0)
    {s s' : QState} (hs : Reach e.job s.run) (hB : QInvB e Complete Holds fs0 s) (h : QInvD e Holds fs0 s)
    (hstep : e.Step s s') : QInvD e Holds fs0 s' := by
  have hframe : ∀ (p : Str) (fs : Fs), WFrame e Scratch p s.fs fs →
      ∀ q ∈ Job.plan e.job, fs0 (e.lib ++ [q]) ≠ some .dir → BinaryThere e Holds q fs := by
    intro p fs hf q hq hnew
    obtain ⟨b, x, hb, hx, hh⟩ := h.there q hq hnew
    refine ⟨b, x, hb, ?_, hh⟩
    rw [frame_safe hf b (hft.cached q hq b hb).1 (by rw [hx]; simp)]
    exact hx
  have hwork : ∀ (i : Nat) (p : Str) (fs : Fs) (ph : IPhase), s.run.workers[i]? = some (Worker.running p) → WFrame e Scratch p s.fs fs →
      NoBuild (fs0 (e.lib ++ [p]) ≠ some .dir) ph → QInvD e Holds fs0 (s.work i fs ph) := by
    intro i p fs ph hi hf hph
    refine ⟨?_, h.bins, hframe p fs hf⟩
    intro k q hk
    by_cases hki : k = i
    · subst hki
      rw [show (s.work k fs ph).run = s.run from rfl, hi] at hk
      cases hk
      have hpp : (s.work k fs ph).progs k = ph := by simp [QState.work, upd]
      rw [hpp]
      exact hph
    · have hpp : (s.work i fs ph).progs k = s.progs k := by simp [QState.work, upd, hki]
      rw [hpp]
      exact h.phase k q hk
  cases hstep
  case sched ev r _ hp hr' => exact ⟨fun i p hi => h.phase i p (workers_running_of_step hr' (plain_not_take hp) hi), h.bins, h.there⟩
  case take i r _ hr' =>
    refine ⟨?_, h.bins, h.there⟩
    intro k p hk
    rcases workers_running_of_take hr' hk with rfl | ⟨hki, hk'⟩
    · simp [upd, NoBuild]
    · simpa [upd, hki] using h.phase k p hk'
  case prog i p fs ph _ hi hp =>
    refine hwork i p fs ph hi (progStep_frame hp) ?_
    have hph := h.phase i p hi
    have hpl := running_planned hw hs hi
    cases hk : s.progs i with
    | «begin» =>
      have hg := hB.good i p hi
      rw [hk] at hp hg
      have hg' : contentOf s.fs e.lib p = contentOf fs0 e.lib p := hg
      simp only [QEnv.progStep] at hp
      split at hp
      · cases hp; rfl
      · next hd =>
        cases hp
        show fs0 (e.lib ++ [p]) ≠ some .dir
        have := congrFun hg' []
        unfold contentOf at this
        rw [← this]
        simpa [Fs.isDir] using hd
    | lookup =>
      obtain ⟨b, x, hb, hx, _⟩ := h.there p hpl (by rw [hk] at hph; exact hph)
      have hb' : e.ie.cachedBinary (e.download p).metadata = some b := hb
      have hex : s.fs.ex b = true := by unfold Fs.ex; rw [hx]; rfl
      rw [hk] at hp; simp only [QEnv.progStep, QEnv.lookupStep, hb', hex, if_true] at hp
      cases hp
      exact ⟨b, rfl⟩
    | mkTmp => rw [hk] at hph; exact hph.elim
    | call k =>
      rw [hk] at hph hp
      simp only [QEnv.progStep, QEnv.callStep] at hp; cases hp
      split
      · trivial
      · split <;> exact hph
    | inR k => rw [hk] at hp; simp [QEnv.progStep] at hp
    | stamp k =>
      rw [hk] at hph hp
      simp only [QEnv.progStep, QEnv.stampStep] at hp
      split at hp <;> cases hp <;> exact hph
    | stampWrite k c =>
      rw [hk] at hph hp
      simp only [QEnv.progStep] at hp; cases hp; exact hph
    | returned k c =>
      rw [hk] at hph hp
      obtain ⟨b, rfl⟩ := hph
      simp only [QEnv.progStep, QEnv.returnStep] at hp; cases hp; rfl
    | find => rw [hk] at hph; exact hph.elim
    | done r => rw [hk] at hp; simp [QEnv.progStep] at hp
    | dead => rw [hk] at hp; simp [QEnv.progStep] at hp
  case rWrite i p k fs _ hi hk hwr =>
    have hph := h.phase i p hi
    rw [hk] at hph
    exact hwork i p fs _ hi (write_frame hr hwr) hph
  case rExit i p k x _ hi hk hx =>
    have hph := h.phase i p hi
    rw [hk] at hph
    refine hwork i p s.fs _ hi (WFrame.refl _) ?_
    unfold afterR
    split <;> exact hph
  case finish i p ret r _ hi hk hr' =>
    refine ⟨fun k q hk => h.phase k q (workers_running_of_step hr' (by simp) hk), ?_, h.there⟩
    intro q
    have hph := h.phase i p hi
    rw [hk] at hph
    show upd s.bins p ret.binary q = none
    unfold upd
    split
    · exact hph
    · exact h.bins q
  case mkStore p b _ hu hb => rw [h.bins p] at hb; cases hb
  case copying p b c n _ hu hb hc hd => rw [h.bins p] at hb; cases hb
  case copied p b c r _ hu hb hc hc' hr' => rw [h.bins p] at hb; cases hb
  case copyFails r _ hr' => exact ⟨fun k q hk => h.phase k q (workers_running_of_step hr' (by simp) hk), h.bins, h.there⟩

theorem qreach_invD {e : QEnv} {Scratch : Path → Prop} {Complete : Str → (Path → Option Node) → Prop} {Holds : Str → Str → Prop}
    (hl : Layout e Scratch) (hr : RContract e Scratch Complete Holds)
    (hw : WellFormed e.job) (hn : ∀ p ∈ Job.plan e.job, ¬ IsLock p) {fs0 : Fs} (hft : FilesThere e Scratch Complete Holds fs0)
    (hc : ∀ p ∈ Job.plan e.job, fs0 (e.lib ++ [p]) ≠ some .dir → BinaryThere e Holds p fs0)
    {s : QState} (h : QReach e fs0 s) : QInvD e Holds fs0 s := by
  have h' : QReach e fs0 s := h
  induction h with
  | refl => exact ⟨fun i p _ => by simp [QEnv.init, NoBuild], fun _ => rfl, hc⟩
  | @tail s1 s2 hs hst ih => exact qinvD_step hr hw hft (qreach_reach hs) (qreach_invB hl hr hw hn hft hs) (ih hs) hst

/-- C154: when a binary of every planned package that is not in the library is where the run looks for it, nothing is built, at
no moment of the run, whatever the interleaving: every R process installs the binary that was found.  The cached binaries stay
where they are. -/
theorem C154_from_cache {e : QEnv} {Scratch : Path → Prop} {Complete : Str → (Path → Option Node) → Prop} {Holds : Str → Str → Prop}
    (hl : Layout e Scratch) (hr : RContract e Scratch Complete Holds)
    (hw : WellFormed e.job) (hn : ∀ p ∈ Job.plan e.job, ¬ IsLock p) {fs0 : Fs} (hft : FilesThere e Scratch Complete Holds fs0)
    (hc : ∀ p ∈ Job.plan e.job, fs0 (e.lib ++ [p]) ≠ some .dir → BinaryThere e Holds p fs0)
    {s : QState} (h : QReach e fs0 s) :
    (∀ (i : Nat) (p : Str) (k : Pass), s.run.workers[i]? = some (Worker.running p) → s.progs i = .inR k →
      (e.rcall p k).build = false ∧ LooksAt e p (e.rcall p k).src) ∧
    (∀ p, s.bins p = none) ∧ ∀ p ∈ Job.plan e.job, fs0 (e.lib ++ [p]) ≠ some .dir → BinaryThere e Holds p s.fs := by
  have hd := qreach_invD hl hr hw hn hft hc h
  refine ⟨?_, hd.bins, hd.there⟩
  intro i p k hi hk
  have hph := hd.phase i p hi
  rw [hk] at hph
  obtain ⟨b, rfl⟩ := hph
  have hg := (qreach_invB hl hr hw hn hft h).good i p hi
  rw [hk] at hg
  exact ⟨rfl, hg.2⟩

/-- C154: when a run has returned without an error, a later run over the same cache - into the same library or another, with any part
of the plan - builds no package that the first run had to install. -/
theorem C154_not_built_again {e e' : QEnv} {Scratch Scratch' : Path → Prop} {Complete Complete' : Str → (Path → Option Node) → Prop} {Holds : Str → Str → Prop}
    (hl : Layout e Scratch) (hr : RContract e Scratch Complete Holds)
    (hw : WellFormed e.job) (hn : ∀ p ∈ Job.plan e.job, ¬ IsLock p) {fs0 : Fs} (hf : FilesThere e Scratch Complete Holds fs0)
    (hsrc : ∀ p ∈ Job.plan e.job, (∀ b, LooksAt e p b → fs0 b = none) → ∃ de, GotAsSource e de p)
    {s : QState} (h : QReach e fs0 s) (hret : s.run.ret = some .nil)
    (hl' : Layout e' Scratch') (hr' : RContract e' Scratch' Complete' Holds)
    (hw' : WellFormed e'.job) (hn' : ∀ p ∈ Job.plan e'.job, ¬ IsLock p) {fs1 : Fs} (hf' : FilesThere e' Scratch' Complete' Holds fs1)
    (hsame : ∀ p ∈ Job.plan e'.job, fs1 (e'.lib ++ [p]) ≠ some .dir →
      p ∈ Job.plan e.job ∧ fs0 (e.lib ++ [p]) ≠ some .dir ∧ ∀ b, LooksAt e p b → LooksAt e' p b ∧ fs1 b = s.fs b)
    {s' : QState} (h' : QReach e' fs1 s') :
    ∀ (i : Nat) (p : Str) (k : Pass), s'.run.workers[i]? = some (Worker.running p) → s'.progs i = .inR k →
      (e'.rcall p k).build = false ∧ LooksAt e' p (e'.rcall p k).src := by
  refine (C154_from_cache hl' hr' hw' hn' hf' ?_ h').1
  intro p hp hnew
  obtain ⟨hpe, h0, hloc⟩ := hsame p hp hnew
  obtain ⟨b, x, hb, hx, hh⟩ := C154_left_in_cache hl hr hw hn hf hsrc h hret p hpe h0
  exact ⟨b, x, (hloc b hb).1, by rw [(hloc b hb).2]; exact hx, hh⟩

/-! ### Example -/

/-- The same queue with another library. -/
def onceQ : QEnv := { toyQ with lib := [s%"lib2"] }

/-- What the run of `toyQ` left, with a second library in which `a` is installed already. -/
def onceFs : Fs := fun q => if q = [s%"lib2"] ∨ q = [s%"lib2", s%"a"] then some .dir else toyS3.fs q

theorem toyQ_source (p : Str) (hp : p ∈ Job.plan toyQ.job) : ∃ de, GotAsSource toyQ de p := by
  refine ⟨{ server := fun _ => .netError, digest := fun _ => s%"0", base := [s%"cache"], platform := { os := .darwin }, rhel := false, rv := { major := 4, minor := 1, patch := 0 }}, ?_⟩
  rcases toyQ_plan hp with rfl | rfl <;>
    exact ⟨by decide, rfl, rfl, by decide, by decide, by decide⟩

/-- R installs the cached binary of `b` into the second library. -/
def once1 : List QEvent := toyQ1.take 18 ++ [.prog 0]
def onceS : QState := (onceQ.execs (onceQ.init onceFs) once1).getD (onceQ.init onceFs)

theorem onceQ_safe (q : Path) (h : q.head? = some (s%"cache")) : SafePlace onceQ (fun _ => False) q := by
  cases q with
  | nil => simp at h
  | cons c q =>
    simp at h; subst h
    refine ⟨by simp [onceQ], fun p => by simp [onceQ, toyQ], id⟩

theorem onceQ_layout : Layout onceQ (fun _ => False) := by
  refine ⟨?_, toyQ_layout.tmpTmp, ?_, ?_, toyQ_layout.cached⟩
  · intro p; constructor <;> simp [onceQ, toyQ]
  · intro q h; exact h.elim
  · intro p hp bbp hb
    have h := toyQ_layout.ball p hp bbp hb
    refine ⟨h.1, ?_, ?_, h.2.2.2⟩ <;>
    · rcases toyQ_plan hp with rfl | rfl <;>
      · have hb' := Option.some.inj hb
        subst hb'
        exact onceQ_safe _ rfl

theorem onceQ_contract : RContract onceQ (fun _ => False) ToyComplete ToyHolds :=
  ⟨toyQ_contract.confined, toyQ_contract.installs, toyQ_contract.builds, toyQ_contract.isDir, fun p _ k => toyQ_stamps p k, toyQ_contract.stamp⟩

theorem onceQ_files : FilesThere onceQ (fun _ => False) ToyComplete ToyHolds onceFs := by
  refine ⟨?_, ?_, fun p hp h => h⟩
  · intro p hp
    rcases toyQ_plan hp with rfl | rfl
    · exact ⟨⟨s%"code", by rfl, by simp [ToyHolds]⟩, onceQ_safe _ rfl⟩
    · exact ⟨⟨s%"code", by rfl, by simp [ToyHolds]⟩, onceQ_safe _ rfl⟩
  · intro p hp b hb
    rcases toyQ_plan hp with rfl | rfl
    · have hb' := Option.some.inj hb
      rw [← hb']
      refine ⟨onceQ_safe _ rfl, fun n hn => ?_⟩
      exact absurd ((show onceFs _ = none from rfl).symm.trans hn) (by simp)
    · have hb' := Option.some.inj hb
      rw [← hb']
      refine ⟨onceQ_safe _ rfl, fun n hn => ⟨s%"bin", ?_, by simp [ToyHolds]⟩⟩
      exact (Option.some.inj ((show onceFs _ = some (.file (s%"bin")) from rfl).symm.trans hn)).symm

/-- Non-vacuity of C154: the run of `toyQ`, which built `b`, and a run into a second library, in which R is at work on the binary of
`b` in the cache. -/
example : FilesThere toyQ (fun _ => False) ToyComplete ToyHolds toyQFs ∧ QReach toyQ toyQFs toyS3 ∧ toyS3.run.ret = some .nil ∧
    toyQFs [s%"lib", s%"b"] = none ∧ RRunning toyS1 (s%"b") ∧ (toyQ.rcall (s%"b") .build).build = true ∧
    (∀ p ∈ Job.plan toyQ.job, ∃ de, GotAsSource toyQ de p) ∧
    Layout onceQ (fun _ => False) ∧ RContract onceQ (fun _ => False) ToyComplete ToyHolds ∧
    FilesThere onceQ (fun _ => False) ToyComplete ToyHolds onceFs ∧
    (∀ p ∈ Job.plan onceQ.job, onceFs (onceQ.lib ++ [p]) ≠ some .dir →
      p ∈ Job.plan toyQ.job ∧ toyQFs (toyQ.lib ++ [p]) ≠ some .dir ∧ ∀ b, LooksAt toyQ p b → LooksAt onceQ p b ∧ onceFs b = toyS3.fs b) ∧
    QReach onceQ onceFs onceS ∧ RRunning onceS (s%"b") ∧
    onceS.progs 0 = .inR (.cached [s%"cache", s%"r-0", s%"binary", s%"4.1", s%"b_1.tgz"]) := by
  refine ⟨toyQ_files, toyS3_reach, rfl, rfl, ⟨0, .build, rfl, rfl⟩, rfl, toyQ_source, onceQ_layout, onceQ_contract, onceQ_files, ?_,
    execs_reach (evs := once1) (by rfl), ⟨0, _, rfl, rfl⟩, rfl⟩
  intro p hp hnew
  rcases toyQ_plan hp with rfl | rfl
  · exact absurd rfl hnew
  · refine ⟨by decide, by decide, fun b hb => ⟨hb, ?_⟩⟩
    have hb' := Option.some.inj hb
    rw [← hb']
    rfl

/-- The theorems applied to it. -/
example : BinaryThere toyQ ToyHolds (s%"b") toyS3.fs :=
  C154_left_in_cache toyQ_layout toyQ_contract toyQ_wf toyQ_names toyQ_files (fun p hp _ => toyQ_source p hp) toyS3_reach rfl _ (by decide) (by decide)

end Pkgr
