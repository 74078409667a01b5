/- How long a run of the queue can last, and why it cannot get stuck when nothing goes wrong. -/
import Verif.Spec.Ends
import Verif.Proof.QueueStore
import Verif.Props.Queue

namespace Pkgr
open Spec

set_option linter.unusedSimpArgs false

/-! ### The measure -/

/-- Steps left in the installation of a package, R's own not counted. -/
def passRank : Pass → Nat
  | .build => 7
  | _ => 1

def phaseRank : IPhase → Nat
  | .begin => 14
  | .lookup => 13
  | .mkTmp => 12
  | .call k => passRank k + 4
  | .inR k => passRank k + 3
  | .stamp k => passRank k + 2
  | .stampWrite k _ => passRank k + 1
  | .returned k _ => passRank k
  | .find => 6
  | .done _ => 0
  | .dead => 0

theorem progStep_rank {e : QEnv} {p : Str} {fs fs' : Fs} {ph ph' : IPhase} (h : e.progStep p fs ph = some (fs', ph')) :
    phaseRank ph' < phaseRank ph := by
  cases ph with
  | «begin» => simp only [QEnv.progStep] at h; split at h <;> cases h <;> simp [phaseRank]
  | lookup =>
    simp only [QEnv.progStep, QEnv.lookupStep] at h; cases h
    split
    · simp [phaseRank]
    · split <;> simp [phaseRank, passRank]
  | mkTmp => simp only [QEnv.progStep] at h; cases h; simp [phaseRank, passRank]
  | call k =>
    simp only [QEnv.progStep, QEnv.callStep] at h; cases h
    split
    · simp [phaseRank]
    · split <;> simp [phaseRank]
  | inR k => simp [QEnv.progStep] at h
  | stamp k =>
    simp only [QEnv.progStep, QEnv.stampStep] at h
    split at h <;> cases h <;> simp [phaseRank]
  | stampWrite k c => simp only [QEnv.progStep] at h; cases h; simp [phaseRank]
  | returned k c =>
    simp only [QEnv.progStep, QEnv.returnStep] at h
    cases k <;> cases h
    · simp [phaseRank, passRank]
    · split <;> simp [phaseRank, passRank]
    · simp [phaseRank, passRank]
  | find =>
    simp only [QEnv.progStep, QEnv.findStep] at h; cases h
    split
    · simp [phaseRank]
    · split <;> simp [phaseRank, passRank]
  | done r => simp [QEnv.progStep] at h
  | dead => simp [QEnv.progStep] at h

theorem afterR_rank (k : Pass) (x : RExit) : phaseRank (afterR k x) < phaseRank (.inR k) := by
  unfold afterR
  split <;> simp [phaseRank]

/-- What worker `i` has left to do. -/
def workRank (s : QState) (i : Nat) : Nat :=
  match s.run.workers[i]? with
  | some (.running _) => phaseRank (s.progs i)
  | _ => 0

/-- Upper bound on the number of remaining steps that do more than change files. -/
def qmeasure (e : QEnv) (s : QState) : Nat :=
  15 * measure e.job s.run + sumBy (workRank s) (List.range e.job.ncpu)

theorem sumBy_le {f g : Nat → Nat} {l : List Nat} (h : ∀ i ∈ l, g i ≤ f i) : sumBy g l ≤ sumBy f l := by
  induction l with
  | nil => exact Nat.le_refl _
  | cons a l ih =>
    rw [sumBy_cons, sumBy_cons]
    exact Nat.add_le_add (h a (by simp)) (ih fun i hi => h i (by simp [hi]))

theorem sumBy_le_add {f g : Nat → Nat} {l : List Nat} {k c : Nat} (hl : l.Nodup) (h : ∀ i ∈ l, i ≠ k → g i ≤ f i) (hk : g k ≤ c) :
    sumBy g l ≤ sumBy f l + c := by
  induction l with
  | nil => simp [sumBy]
  | cons a l ih =>
    rw [sumBy_cons, sumBy_cons]
    obtain ⟨ha, hl'⟩ := List.nodup_cons.1 hl
    by_cases hak : a = k
    · subst hak
      have : sumBy g l ≤ sumBy f l := sumBy_le fun i hi => h i (by simp [hi]) (by rintro rfl; exact ha hi)
      omega
    · have h1 := ih hl' fun i hi => h i (by simp [hi])
      have h2 := h a (by simp) hak
      omega

theorem sumBy_lt {f g : Nat → Nat} {l : List Nat} {k : Nat} (hl : l.Nodup) (h : ∀ i ∈ l, i ≠ k → g i ≤ f i) (hkl : k ∈ l)
    (hk : g k < f k) : sumBy g l < sumBy f l := by
  induction l with
  | nil => cases hkl
  | cons a l ih =>
    rw [sumBy_cons, sumBy_cons]
    obtain ⟨ha, hl'⟩ := List.nodup_cons.1 hl
    by_cases hak : a = k
    · subst hak
      have : sumBy g l ≤ sumBy f l := sumBy_le fun i hi => h i (by simp [hi]) (by rintro rfl; exact ha hi)
      omega
    · have hkl' : k ∈ l := by
        rcases List.mem_cons.1 hkl with h | h
        · exact absurd h.symm hak
        · exact h
      have h1 := ih hl' (fun i hi => h i (by simp [hi])) hkl'
      have h2 := h a (by simp) hak
      omega

/-- A step of the scheduler that starts no installation. -/
theorem qmeasure_run {e : QEnv} {s : QState} {ev : Event} {r : RunState} (hi : Inv2 e.job s.run) (hr : e.job.step s.run ev = some r)
    (ht : ∀ i, ev ≠ .take i) (fs : Fs) (bins : Str → Option Path) (dead : Bool) :
    qmeasure e { run := r, fs := fs, progs := s.progs, bins := bins, dead := dead } < qmeasure e s := by
  have h1 := measure_step hi hr
  have h2 : sumBy (workRank { run := r, fs := fs, progs := s.progs, bins := bins, dead := dead }) (List.range e.job.ncpu) ≤
      sumBy (workRank s) (List.range e.job.ncpu) := by
    refine sumBy_le fun i _ => ?_
    unfold workRank
    dsimp only
    split
    · next p hp =>
      rw [workers_running_of_step hr ht hp]
    · exact Nat.zero_le _
  unfold qmeasure
  dsimp only
  omega

theorem qmeasure_work {e : QEnv} {s : QState} (hv : Inv e.job s.run) {i : Nat} {p : Str} {ph : IPhase} (fs : Fs)
    (hi : s.run.workers[i]? = some (Worker.running p)) (hlt : phaseRank ph < phaseRank (s.progs i)) :
    qmeasure e (s.work i fs ph) < qmeasure e s := by
  have hlen : i < e.job.ncpu := by
    rw [← hv.len]
    rcases Nat.lt_or_ge i s.run.workers.length with h | h
    · exact h
    · rw [List.getElem?_eq_none h] at hi; cases hi
  have : sumBy (workRank (s.work i fs ph)) (List.range e.job.ncpu) < sumBy (workRank s) (List.range e.job.ncpu) := by
    refine sumBy_lt (k := i) List.nodup_range (fun k _ hk => ?_) (List.mem_range.2 hlen) ?_
    · unfold workRank QState.work upd
      dsimp only
      rw [if_neg hk]
    · unfold workRank QState.work upd
      dsimp only
      rw [hi]
      simpa using hlt
  unfold qmeasure
  rw [show (s.work i fs ph).run = s.run from rfl]
  omega

theorem qmeasure_step {e : QEnv} {s s' : QState} (hv : Inv e.job s.run) (hi : Inv2 e.job s.run) (h : e.Step s s') :
    qmeasure e s' < qmeasure e s ∨ OnlyFiles s s' := by
  cases h
  case sched ev r _ hp hr => exact .inl (qmeasure_run hi hr (plain_not_take hp) _ _ _)
  case take i r _ hr =>
    refine .inl ?_
    have h1 := measure_step hi hr
    have h2 : sumBy (workRank { run := r, fs := s.fs, progs := upd s.progs i .begin, bins := s.bins, dead := s.dead }) (List.range e.job.ncpu) ≤
        sumBy (workRank s) (List.range e.job.ncpu) + 14 := by
      refine sumBy_le_add (k := i) List.nodup_range (fun k _ hk => ?_) ?_
      · unfold workRank
        dsimp only
        split
        · next p hp =>
          rcases workers_running_of_take hr hp with h | ⟨_, h⟩
          · exact absurd h hk
          · rw [h]; simp [upd, hk]
        · exact Nat.zero_le _
      · unfold workRank
        dsimp only
        split
        · simp [upd, phaseRank]
        · exact Nat.zero_le _
    unfold qmeasure
    dsimp only
    omega
  case prog i p fs ph _ hi' hp => exact .inl (qmeasure_work hv fs hi' (progStep_rank hp))
  case rWrite i p k fs _ hi' hk hw =>
    refine .inr ⟨rfl, ?_, rfl, ?_⟩
    · funext j
      by_cases hj : j = i
      · subst hj; simp [QState.work, upd, hk]
      · simp [QState.work, upd, hj]
    · simp [QState.work]
  case rExit i p k x _ hi' hk hx =>
    refine .inl (qmeasure_work hv _ hi' ?_)
    rw [hk]; exact afterR_rank k x
  case finish i p ret r _ hi' hk hr => exact .inl (qmeasure_run hi hr (by simp) _ _ _)
  case mkStore => exact .inr ⟨rfl, rfl, rfl, rfl⟩
  case copying => exact .inr ⟨rfl, rfl, rfl, rfl⟩
  case copied p b c r _ hu hb hc hc' hr => exact .inl (qmeasure_run hi hr (by simp) _ _ _)
  case copyFails r _ hr => exact .inl (qmeasure_run hi hr (by simp) _ _ _)

theorem qmeasure_files {e : QEnv} {s s' : QState} (h : OnlyFiles s s') : qmeasure e s' = qmeasure e s := by
  obtain ⟨h1, h2, _, _⟩ := h
  have : workRank s' = workRank s := by
    funext i
    unfold workRank
    rw [h1, h2]
  unfold qmeasure
  rw [h1, this]

theorem takes_reach {e : QEnv} {fs0 : Fs} {n : Nat} {s : QState} (h : Takes e (e.init fs0) n s) : QReach e fs0 s := by
  induction h with
  | start => exact .refl
  | quiet n a b _ hst _ ih => exact ih.tail hst
  | act n a b _ hst _ ih => exact ih.tail hst

theorem takes_measure {e : QEnv} (hw : WellFormed e.job) {fs0 : Fs} {n : Nat} {s : QState} (h : Takes e (e.init fs0) n s) :
    n + qmeasure e s ≤ qmeasure e (e.init fs0) := by
  induction h with
  | start => omega
  | quiet n a b _ hst ho ih => rw [qmeasure_files ho]; exact ih
  | act n a b ht hst ho ih =>
    have hr := qreach_reach (takes_reach ht)
    rcases qmeasure_step (reach_inv hr) (reach_inv2 hw hr) hst with h | h
    · omega
    · exact absurd h ho

/-! ### Nothing goes wrong -/

/-- What the later steps of a pass need. -/
def ReadyFor (e : QEnv) (p : Str) (fs : Fs) : Pass → Prop
  | .cached _ => True
  | .build => fs (e.tmp p) = some .dir ∧ ∀ b, InTmp e p b → ∃ c, fs b = some (.file c)
  | .final b => fs (e.tmp p) = some .dir ∧ ∃ c, fs b = some (.file c)

/-- The same at each point of an installation in which nothing has gone wrong. -/
def Fine (e : QEnv) (p : Str) (fs : Fs) : IPhase → Prop
  | .begin => ∀ c, fs (e.tmp p) ≠ some (.file c)
  | .lookup => ∀ c, fs (e.tmp p) ≠ some (.file c)
  | .mkTmp => ∀ c, fs (e.tmp p) ≠ some (.file c)
  | .call k => (k = .build → fs (e.tmp p) = some .dir) ∧ (k ≠ .build → ReadyFor e p fs k)
  | .inR k => k ≠ .build → ReadyFor e p fs k
  | .stamp k => ReadyFor e p fs k
  | .stampWrite k _ => ReadyFor e p fs k
  | .returned k c => c = { exitCode := 0, err := false } ∧ ReadyFor e p fs k
  | .find => ReadyFor e p fs .build
  | .done r => r.err = false ∧ ∀ b, r.binary = some b → ∃ c, fs b = some (.file c)
  | .dead => False

/-- The temporary directory of `p` and the binary in it are the same. -/
structure TmpSame (e : QEnv) (p : Str) (fs fs' : Fs) : Prop where
  dir : fs' (e.tmp p) = fs (e.tmp p)
  ball : ∀ b, InTmp e p b → fs' b = fs b

theorem TmpSame.refl (e : QEnv) (p : Str) (fs : Fs) : TmpSame e p fs fs := ⟨rfl, fun _ _ => rfl⟩

theorem ReadyFor.same {e : QEnv} {p : Str} {fs fs' : Fs} {k : Pass} (h : ReadyFor e p fs k) (hs : TmpSame e p fs fs')
    (hb : ∀ b, k = .final b → InTmp e p b) : ReadyFor e p fs' k := by
  cases k with
  | cached b => trivial
  | build => exact ⟨hs.dir.trans h.1, fun b hb => by rw [hs.ball b hb]; exact h.2 b hb⟩
  | final b => exact ⟨hs.dir.trans h.1, by rw [hs.ball b (hb b rfl)]; exact h.2⟩

theorem Fine.same {e : QEnv} {p : Str} {fs fs' : Fs} {ph : IPhase} (h : Fine e p fs ph) (hs : TmpSame e p fs fs')
    (hb : ∀ b, phaseBin ph = some b → InTmp e p b) : Fine e p fs' ph := by
  cases ph with
  | «begin» => intro c; rw [hs.dir]; exact h c
  | lookup => intro c; rw [hs.dir]; exact h c
  | mkTmp => intro c; rw [hs.dir]; exact h c
  | call k =>
    exact ⟨fun hk => hs.dir.trans (h.1 hk), fun hk => (h.2 hk).same hs (by rintro b rfl; exact hb b rfl)⟩
  | inR k => exact fun hk => (h hk).same hs (by rintro b rfl; exact hb b rfl)
  | stamp k => exact ReadyFor.same h hs (by rintro b rfl; exact hb b rfl)
  | stampWrite k c => exact ReadyFor.same h hs (by rintro b rfl; exact hb b rfl)
  | returned k c => exact ⟨h.1, h.2.same hs (by rintro b rfl; exact hb b rfl)⟩
  | find => exact ReadyFor.same (k := .build) h hs (fun b h => by cases h)
  | done r => exact ⟨h.1, fun b hbr => by rw [hs.ball b (hb b hbr)]; exact h.2 b hbr⟩
  | dead => exact h

/-- Steps of other installations leave the temporary directory. -/
theorem frame_tmp {e : QEnv} {Scratch : Path → Prop} (hl : Layout e Scratch) {p p' : Str} (hpp : p ∈ Job.plan e.job) (hpp' : p' ∈ Job.plan e.job)
    (hne : p ≠ p') {fs fs' : Fs} (hf : WFrame e Scratch p' fs fs') : TmpSame e p fs fs' := by
  have key : ∀ q, e.tmp p <+: q → fs' q = fs q := by
    intro q hq
    have hlib : ¬ e.lib <+: q := not_prefix_ext (hl.tmpLib p) hq
    rcases hf q with h | h | ⟨_, _, h⟩
    · exact h
    · exfalso
      rcases h with h | h | h | h
      · exact hlib ((List.prefix_append _ _).trans h)
      · exact hlib ((List.prefix_append _ _).trans h)
      · exact not_prefix_ext (hl.tmpTmp p hpp p' hpp' hne) h hq
      · exact (hl.scratch _ h).2 p hq
    · exact absurd (hq.trans h) (hl.tmpTmp p hpp p' hpp' hne).1
  refine ⟨key _ (List.prefix_refl _), ?_⟩
  rintro b ⟨x, rfl, _⟩
  exact key _ (List.prefix_append _ _)

/-- So does a DESCRIPTION. -/
theorem desc_tmp {e : QEnv} {Scratch : Path → Prop} (hl : Layout e Scratch) (p : Str) (k : Pass) (fs : Fs) (n : Node) :
    TmpSame e p fs (fs.set (e.descOf p k) n) := by
  have hd : ∀ q, (q = e.tmp p ∨ InTmp e p q) → q ≠ e.descOf p k := by
    intro q hq hh
    cases k with
    | build =>
      have h2 : q.length = (e.tmp p).length + 2 := by rw [hh]; simp [QEnv.descOf, QEnv.rcall]
      rcases hq with rfl | ⟨x, rfl, _⟩
      · omega
      · simp at h2
    | cached b =>
      have hlib : e.lib <+: q := by rw [hh]; exact List.prefix_append _ _
      rcases hq with rfl | ⟨x, rfl, _⟩
      · exact lib_not_tmp hl p hlib (List.prefix_refl _)
      · exact lib_not_tmp hl p hlib (List.prefix_append _ _)
    | final b =>
      have hlib : e.lib <+: q := by rw [hh]; exact List.prefix_append _ _
      rcases hq with rfl | ⟨x, rfl, _⟩
      · exact lib_not_tmp hl p hlib (List.prefix_refl _)
      · exact lib_not_tmp hl p hlib (List.prefix_append _ _)
  refine ⟨?_, fun b hb => ?_⟩
  · unfold Fs.set; rw [if_neg (hd _ (.inl rfl))]
  · unfold Fs.set; rw [if_neg (hd _ (.inr hb))]

theorem exts_some {e : QEnv} (hos : e.ie.platform.os ≠ .other) (p : Str) :
    (∃ b, e.ie.cachedBinary (e.download p).metadata = some b) ∧
    ∃ x, binaryExtOs e.ie.platform.os (basePath (e.src p)) e.ie.rPlatform = some x := by
  unfold InstallEnv.cachedBinary
  cases h : e.ie.platform.os <;> first | exact absurd h hos | exact ⟨⟨_, rfl⟩, ⟨_, rfl⟩⟩

/-- A step of pkgr's own code. -/
theorem progStep_fine {e : QEnv} {Scratch : Path → Prop} {Complete : Str → (Path → Option Node) → Prop} {Holds : Str → Str → Prop}
    (hl : Layout e Scratch) (hos : e.ie.platform.os ≠ .other) {fs0 : Fs} {p : Str} (hpl : p ∈ Job.plan e.job) {fs fs' : Fs} {ph ph' : IPhase}
    (hsrc : fs (e.src p) ≠ none) (h : e.progStep p fs ph = some (fs', ph')) (hb : ∀ b, phaseBin ph = some b → InTmp e p b)
    (hg : Good e Complete Holds fs0 p fs ph) (hc : Fine e p fs ph) : Fine e p fs' ph' := by
  cases ph with
  | «begin» =>
    simp only [QEnv.progStep] at h
    split at h <;> cases h
    · exact ⟨rfl, fun b hb => by cases hb⟩
    · exact hc
  | lookup =>
    simp only [QEnv.progStep, QEnv.lookupStep] at h; cases h
    obtain ⟨⟨b, hb⟩, _⟩ := exts_some hos p
    rw [hb]
    dsimp only
    split
    · exact ⟨fun h => (by cases h), fun _ => trivial⟩
    · exact hc
  | mkTmp =>
    simp only [QEnv.progStep] at h; cases h
    refine ⟨fun _ => ?_, fun h => absurd rfl h⟩
    unfold Fs.mkdirAll
    cases hq : fs (e.tmp p) with
    | none => simp
    | some n =>
      cases n with
      | file c => exact absurd hq (hc c)
      | dir => simp
  | call k =>
    simp only [QEnv.progStep, QEnv.callStep] at h; cases h
    cases k with
    | cached b =>
      have hex : fs.ex (e.rcall p (.cached b)).src = true := Option.isSome_iff_ne_none.2 hg.1.ne
      rw [hex]
      simp [Pass.checksDir, Fine, ReadyFor]
    | build =>
      replace hc := hc.1 rfl
      have hex : fs.ex (e.rcall p .build).src = true := Option.isSome_iff_ne_none.2 hsrc
      have hdr : fs.isDir (e.rcall p .build).workDir = true := by simp [Fs.isDir, QEnv.rcall, hc]
      rw [hex, hdr]
      simp [Fine]
    | final b =>
      replace hc := hc.2 (by simp)
      have hex : fs.ex (e.rcall p (.final b)).src = true := Option.isSome_iff_ne_none.2 (HasFile.ne hg)
      have hdr : fs.isDir (e.rcall p (.final b)).workDir = true := by simp [Fs.isDir, QEnv.rcall, hc.1]
      rw [hex, hdr]
      simp only [Bool.not_true, Bool.and_false, Bool.false_eq_true, if_false]
      exact fun _ => hc
  | inR k => simp [QEnv.progStep] at h
  | stamp k =>
    simp only [QEnv.progStep, QEnv.stampStep] at h
    split at h <;> cases h
    · exact ReadyFor.same hc (desc_tmp hl p k fs _) (by rintro b rfl; exact hb b rfl)
    · exact ⟨rfl, hc⟩
  | stampWrite k c =>
    simp only [QEnv.progStep] at h; cases h
    exact ⟨rfl, ReadyFor.same hc (desc_tmp hl p k fs _) (by rintro b rfl; exact hb b rfl)⟩
  | returned k c =>
    simp only [QEnv.progStep, QEnv.returnStep] at h
    obtain ⟨rfl, hc⟩ := hc
    cases k <;> cases h
    · exact ⟨rfl, fun b hb => by cases hb⟩
    · rw [if_pos (by simp)]
      obtain ⟨h1, h2⟩ := hc
      unfold cleanTmp
      split
      · next hd =>
        have hd' : fs (e.tmp p ++ [p]) = some .dir := by simpa [Fs.isDir] using hd
        refine ⟨?_, ?_⟩
        · unfold Fs.removeAll
          rw [if_neg]
          · exact h1
          · intro hh
            have := hh.length_le
            simp only [List.length_append, List.length_cons, List.length_nil] at this
            omega
        · rintro b ⟨x, rfl, hx⟩
          obtain ⟨y, hy⟩ := h2 _ ⟨x, rfl, hx⟩
          refine ⟨y, ?_⟩
          unfold Fs.removeAll
          rw [if_neg]
          · exact hy
          · intro hh
            have := (List.prefix_append_right_inj _).1 hh
            have hxp : p = x := by simpa using this
            subst hxp
            rw [hd'] at hy; cases hy
      · exact ⟨h1, h2⟩
    · exact ⟨rfl, fun b hb => by cases hb; exact hc.2⟩
  | find =>
    simp only [QEnv.progStep, QEnv.findStep] at h; cases h
    obtain ⟨_, x, hx⟩ := exts_some hos p
    have hj := (hl.ball p hpl x hx).1
    obtain ⟨y, hy⟩ := hc.2 _ ⟨x, rfl, hx⟩
    rw [hx]
    dsimp only
    rw [if_neg, hj]
    · exact ⟨fun h => (by cases h), fun _ => ⟨hc.1, y, hy⟩⟩
    · rw [hj]; simp [Fs.ex, hy]
  | done r => simp [QEnv.progStep] at h
  | dead => simp [QEnv.progStep] at h

theorem failLog_of_step {j : Job} {s r : RunState} {ev : Event} (h : j.step s ev = some r) (hnf : ∀ i, ev ≠ .finish i .failed)
    (x : Str) : r.log.count (.finished x false) = s.log.count (.finished x false) := by
  cases ev with
  | mainAdd => simp only [Job.step, stepMainAdd] at h; split at h <;> cases h; rfl
  | mainSend => simp only [Job.step, stepMainSend] at h; split at h <;> cases h; rfl
  | mainReturn =>
    simp only [Job.step, stepMainReturn] at h
    split at h
    · split at h <;> cases h; rfl
    · cases h
  | reqCheck =>
    simp only [Job.step, stepReqCheck] at h
    split at h
    · split at h
      · cases h; rfl
      · split at h <;> cases h <;> rfl
    · cases h
  | reqPush =>
    simp only [Job.step, stepReqPush] at h
    split at h
    · split at h <;> cases h; rfl
    · cases h
  | take i =>
    simp only [Job.step, stepTake] at h
    split at h <;> cases h
    simp [List.count_append, List.count_cons]
  | finish i o =>
    simp only [Job.step, stepFinish] at h
    split at h <;> cases h
    have ho : o ≠ .failed := fun h => hnf i (by rw [h])
    simp [List.count_append, List.count_cons, ho]
  | post i =>
    simp only [Job.step, stepPost] at h
    split at h
    · split at h <;> cases h; rfl
    · cases h
  | updTake => simp only [Job.step, stepUpdTake] at h; split at h <;> cases h <;> rfl
  | updScan =>
    simp only [Job.step, stepUpdScan] at h
    split at h
    · split at h <;> cases h <;> rfl
    · cases h; rfl
    · cases h
  | updSend => simp only [Job.step, stepUpdSend] at h; split at h <;> cases h; rfl
  | updCopy ok =>
    simp only [Job.step, stepUpdCopy] at h
    split at h
    · split at h <;> cases h <;> rfl
    · cases h
  | updDone => simp only [Job.step, stepUpdDone] at h; split at h <;> cases h; rfl

theorem plain_benign {ev : Event} (h : ev.plain = true) : Benign ev := by
  cases ev <;> simp [Event.plain] at h <;> exact ⟨by simp, by simp⟩

/-- A copied binary is dealt with. -/
theorem copied_not_waiting {j : Job} {s r : RunState} (hs : Reach j s) {p : Str} (hu : s.updater = .copy p)
    (hr : j.step s (.updCopy true) = some r) : ¬ Waiting r p := by
  intro hw
  have hpi : p ∈ s.installed := updPkg_installed hs (by rw [hu]; rfl)
  have hv := reach_inv (reach_step hs hr)
  have h5 := hv.req p
  have h6 := hv.once p
  have hri : r.installed = s.installed ∧ r.updater = .finish := by
    simp only [Job.step, stepUpdCopy, hu] at hr
    simp at hr; subst hr; simp
  have h7 : 1 ≤ r.installed.count p := by rw [hri.1]; exact List.count_pos_iff.2 hpi
  rcases hw with ⟨k, hk⟩ | hq' | ⟨_, hu'⟩ | ⟨_, _, hu'⟩ | hu'
  · have : 1 ≤ r.workers.count (.holding p (.ok true)) := List.count_pos_iff.2 (List.mem_of_getElem? hk)
    unfold pendOk at h5; omega
  · have : 1 ≤ r.updQ.count (p, .ok true) := List.count_pos_iff.2 hq'
    unfold pendOk at h5; omega
  · rw [hri.2] at hu'; cases hu'
  · rw [hri.2] at hu'; cases hu'
  · rw [hri.2] at hu'; cases hu'

structure QInvE (e : QEnv) (s : QState) : Prop where
  fine : ∀ (i : Nat) (p : Str), s.run.workers[i]? = some (Worker.running p) → Fine e p s.fs (s.progs i)
  wait : ∀ p, Waiting s.run p → ∃ b c, s.bins p = some b ∧ s.fs b = some (.file c)
  unstarted : ∀ p ∈ Job.plan e.job, LogEntry.started p ∉ s.run.log → ∀ c, s.fs (e.tmp p) ≠ some (.file c)
  alive : s.dead = false
  noFail : ∀ x, s.run.log.count (.finished x false) = 0

/-- The common part of the steps of a worker. -/
theorem qinvE_work {e : QEnv} {Scratch : Path → Prop} (hl : Layout e Scratch) (hw : WellFormed e.job) {fs0 : Fs} {s : QState} {act : List Str}
    (hs : Reach e.job s.run) (ha : QInvA e fs0 s act) (h : QInvE e s) {i : Nat} {p : Str} {fs : Fs} {ph : IPhase}
    (hi : s.run.workers[i]? = some (Worker.running p)) (hf : WFrame e Scratch p s.fs fs) (hg : Fine e p fs ph) :
    QInvE e (s.work i fs ph) := by
  refine ⟨?_, ?_, ?_, ?_, h.noFail⟩
  · intro k q hk
    by_cases hki : k = i
    · subst hki
      rw [show (s.work k fs ph).run = s.run from rfl, hi] at hk
      cases hk
      simpa [QState.work, upd] using hg
    · have hqp : q ≠ p := by
        rintro rfl
        exact hki (running_unique hs hk hi)
      have := (h.fine k q hk).same (frame_tmp hl (running_planned hw hs hk) (running_planned hw hs hi) hqp hf) (fun b hb => (ha.bin k q hk b hb).1)
      simpa [QState.work, upd, hki] using this
  · intro q hq
    have hqp : q ≠ p := by
      rintro rfl
      exact (running_not_finished hs hi).1 (waiting_finished hs hq)
    obtain ⟨b, c, h1, h2⟩ := h.wait q hq
    exact ⟨b, c, h1, ((frame_tmp hl (jobRun_planned ha.jobs q (ha.bins q b h1).2) (running_planned hw hs hi) hqp hf).ball b (ha.bins q b h1).1).trans h2⟩
  · intro q hq hlog c
    have hqp : q ≠ p := by
      rintro rfl
      exact hlog (running_started hs hi)
    have := h.unstarted q hq hlog c
    show fs (e.tmp q) ≠ _
    rw [(frame_tmp hl hq (running_planned hw hs hi) hqp hf).dir]
    exact this
  · show (s.dead || decide (ph = .dead)) = false
    rw [h.alive]
    cases ph <;> first | exact absurd hg id | simp

/-- The common part of the steps of the updater that change files. -/
theorem qinvE_files {e : QEnv} {fs0 : Fs} {s : QState} {act : List Str} (ha : QInvA e fs0 s act) (h : QInvE e s) {fs : Fs}
    (hsame : ∀ q, TmpSame e q s.fs fs) :
    QInvE e { run := s.run, fs := fs, progs := s.progs, bins := s.bins, dead := s.dead } := by
  refine ⟨fun i p hi => (h.fine i p hi).same (hsame p) (fun b hb => (ha.bin i p hi b hb).1), ?_, ?_, h.alive, h.noFail⟩
  · intro q hq
    obtain ⟨b, c, h1, h2⟩ := h.wait q hq
    exact ⟨b, c, h1, ((hsame q).ball b (ha.bins q b h1).1).trans h2⟩
  · intro q hq hlog c
    show fs (e.tmp q) ≠ _
    rw [(hsame q).dir]
    exact h.unstarted q hq hlog c

theorem qinvE_step {e : QEnv} {Scratch : Path → Prop} {Complete : Str → (Path → Option Node) → Prop} {Holds : Str → Str → Prop}
    (hl : Layout e Scratch) (hr : RContract e Scratch Complete Holds) (hw : WellFormed e.job)
    {fs0 : Fs} (hft : FilesThere e Scratch Complete Holds fs0) (hos : e.ie.platform.os ≠ .other) (hR : RSucceeds e Complete Holds)
    {s s' : QState} {act : List Str} (hs : Reach e.job s.run) (ha : QInvA e fs0 s act) (hB : QInvB e Complete Holds fs0 s)
    (hneed : ∀ p, RRunning s p → NeedsThere e Complete p s.fs)
    (h : QInvE e s) (hstep : e.Step s s') : QInvE e s' := by
  cases hstep
  case sched ev r _ hp hr' =>
    refine ⟨fun i p hi => h.fine i p (workers_running_of_step hr' (plain_not_take hp) hi), ?_,
      fun p hp' hlog => h.unstarted p hp' (started_mono hr' hlog), h.alive, ?_⟩
    · intro p hw'
      rcases (waiting_step hr' p).2 hw' with h1 | ⟨i, rfl, _⟩
      · exact h.wait p h1
      · simp [Event.plain] at hp
    · intro x
      exact (failLog_of_step hr' (plain_benign hp).1 x).trans (h.noFail x)
  case take i r _ hr' =>
    refine ⟨?_, ?_, fun p hp' hlog => h.unstarted p hp' (started_mono hr' hlog), h.alive, ?_⟩
    · intro k p hk
      rcases workers_running_of_take hr' hk with rfl | ⟨hki, hk'⟩
      · have := h.unstarted p (running_planned hw (reach_step hs hr') hk) (take_unstarted hs hr' hk)
        simpa [upd, Fine] using this
      · simpa [upd, hki] using h.fine k p hk'
    · intro p hw'
      rcases (waiting_step hr' p).2 hw' with h1 | ⟨i, h1, _⟩
      · exact h.wait p h1
      · cases h1
    · intro x
      exact (failLog_of_step hr' (by simp) x).trans (h.noFail x)
  case prog i p fs ph _ hi hp =>
    have hpl := running_planned hw hs hi
    refine qinvE_work hl hw hs ha h hi (progStep_frame hp) ?_
    refine progStep_fine hl hos hpl ?_ hp (fun b hb => (ha.bin i p hi b hb).1) (hB.good i p hi) (h.fine i p hi)
    rw [hB.src p hpl]; exact HasFile.ne (hft.src p hpl).1
  case rWrite i p k fs _ hi hk hwr =>
    refine qinvE_work hl hw hs ha h hi (write_frame hr hwr) ?_
    have hg := h.fine i p hi
    rw [hk] at hg
    intro hkb
    cases k with
    | cached b => trivial
    | build => exact absurd rfl hkb
    | final b =>
      have key : ∀ q, e.tmp p <+: q → fs q = s.fs q := by
        intro q htmp
        have hlib : ¬ e.lib <+: q := not_prefix_ext (hl.tmpLib p) htmp
        apply Classical.byContradiction
        intro hne
        rcases hr.confined _ _ _ hwr q hne with h | h | h | h
        · exact hlib ((List.prefix_append _ _).trans h)
        · exact hlib ((List.prefix_append _ _).trans h)
        · simp [QEnv.rcall] at h
        · exact (hl.scratch _ h).2 p htmp
      obtain ⟨x, hx, _⟩ := (ha.bin i p hi b (by rw [hk]; rfl)).1
      obtain ⟨h1, h2⟩ := hg hkb
      exact ⟨(key _ (List.prefix_refl _)).trans h1, by rw [key b ⟨[x], hx.symm⟩]; exact h2⟩
  case rExit i p k x _ hi hk hx =>
    refine qinvE_work hl hw hs ha h hi (WFrame.refl _) ?_
    have hpl := running_planned hw hs hi
    have hgood := hB.good i p hi
    have hfine := h.fine i p hi
    rw [hk] at hgood hfine
    have hfile : ∃ y, s.fs (e.rcall p k).src = some (.file y) ∧ Holds p y := by
      cases k with
      | cached b => exact hgood.1
      | build =>
        obtain ⟨y, h1, h2⟩ := (hft.src p hpl).1
        rw [← hB.src p hpl] at h1
        exact ⟨y, h1, h2⟩
      | final b => exact hgood
    obtain ⟨y, h1, h2⟩ := hfile
    have hok := hR.ok p hpl k _ y _ hx h1 h2 (hneed p ⟨i, k, hi, hk⟩)
    subst hok
    unfold afterR
    rw [if_pos rfl]
    show ReadyFor e p s.fs k
    by_cases hkb : k = .build
    · subst hkb
      obtain ⟨h3, h4⟩ := hR.built p hpl _ y hx h1 h2
      refine ⟨h3, ?_⟩
      rintro b ⟨z, rfl, hz⟩
      obtain ⟨n, hn⟩ := Option.ne_none_iff_exists'.1 (h4 z hz)
      obtain ⟨c, rfl, _⟩ := hr.builds _ _ y hx rfl h1 h2 z n hz hn
      exact ⟨c, hn⟩
    · exact hfine hkb
  case finish i p ret r _ hi hk hr' =>
    have hf := h.fine i p hi
    rw [hk] at hf
    have hok : outcomeOf ret = .ok ret.binary.isSome := by
      unfold outcomeOf; rw [hf.1]; simp
    refine ⟨fun k q hk => h.fine k q (workers_running_of_step hr' (by simp) hk), ?_,
      fun p hp' hlog => h.unstarted p hp' (started_mono hr' hlog), h.alive, ?_⟩
    · intro q hw'
      by_cases hqp : q = p
      · subst hqp
        rcases (waiting_step hr' q).2 hw' with h1 | ⟨k, h1, _⟩
        · exact absurd (waiting_finished hs h1) (running_not_finished hs hi).1
        · rw [hok] at h1
          injection h1 with _ h1
          injection h1 with h1
          obtain ⟨b, hb⟩ := Option.isSome_iff_exists.1 h1
          obtain ⟨c, hc⟩ := hf.2 b hb
          exact ⟨b, c, by simp [upd, hb], hc⟩
      · rcases (waiting_step hr' q).2 hw' with h1 | ⟨k, h1, h2⟩
        · obtain ⟨b, c, h3, h4⟩ := h.wait q h1
          exact ⟨b, c, by simp [upd, hqp, h3], h4⟩
        · injection h1 with h1 _
          subst h1
          rw [hi] at h2
          injection h2 with h2
          injection h2 with h2
          exact absurd h2.symm hqp
    · intro x
      refine (failLog_of_step hr' ?_ x).trans (h.noFail x)
      rw [hok]
      intro k hh
      injection hh with _ hh
      cases hh
  case mkStore p b _ hu hb =>
    obtain ⟨⟨x, hbx, hx⟩, hpa⟩ := ha.bins p b hb
    have hpl := jobRun_planned ha.jobs p hpa
    obtain ⟨_, hst, hsd, hne⟩ := hl.ball p hpl x hx
    refine qinvE_files ha h fun q => ?_
    have key : ∀ z, e.tmp q <+: z → (s.fs.mkdir (e.storeDir p)) z = s.fs z := by
      intro z hz
      rcases mkdir_cases s.fs (e.storeDir p) z with h | ⟨_, _, h4⟩
      · exact h
      · exact absurd (h4 ▸ hz) (hsd.2.1 q)
    refine ⟨key _ (List.prefix_refl _), ?_⟩
    rintro z ⟨y, rfl, _⟩
    exact key _ (List.prefix_append _ _)
  case copying p b c n _ hu hb hc hd =>
    obtain ⟨⟨x, hbx, hx⟩, hpa⟩ := ha.bins p b hb
    have hpl := jobRun_planned ha.jobs p hpa
    obtain ⟨_, hst, hsd, hne⟩ := hl.ball p hpl x hx
    rw [← hbx] at hst
    refine qinvE_files ha h fun q => ?_
    have key : ∀ z, e.tmp q <+: z → ((s.fs.mkdir (e.storeDir p)).set (e.store p b) (.file (c.take n))) z = s.fs z := by
      intro z hz
      unfold Fs.set
      rw [if_neg]
      · rcases mkdir_cases s.fs (e.storeDir p) z with h | ⟨_, _, h4⟩
        · exact h
        · exact absurd (h4 ▸ hz) (hsd.2.1 q)
      · intro hh
        exact hst.2.1 q (hh ▸ hz)
    refine ⟨key _ (List.prefix_refl _), ?_⟩
    rintro z ⟨y, rfl, _⟩
    exact key _ (List.prefix_append _ _)
  case copied p b c r _ hu hb hc hc' hr' =>
    obtain ⟨x, hbx, hx⟩ := (ha.bins p b hb).1
    have hpi : p ∈ s.run.installed := updPkg_installed hs (by rw [hu]; rfl)
    have htmp : e.tmp p <+: b := ⟨[x], hbx.symm⟩
    have hpl := jobRun_planned ha.jobs p (ha.bins p b hb).2
    have hdir : ∀ q ∈ Job.plan e.job, e.tmp q ≠ b := by
      intro q hqpl hh
      by_cases hqp : q = p
      · subst hqp
        have := congrArg List.length (hh.trans hbx)
        simp at this
      · exact (hl.tmpTmp q hqpl p hpl hqp).2 (hh ▸ htmp)
    have hsame : ∀ q ∈ Job.plan e.job, q ≠ p → TmpSame e q s.fs (fun z => if z = b then none else s.fs z) := by
      intro q hqpl hqp
      refine ⟨if_neg (hdir q hqpl), ?_⟩
      rintro z ⟨y, rfl, _⟩
      refine if_neg ?_
      rintro rfl
      exact not_prefix_ext (hl.tmpTmp q hqpl p hpl hqp) htmp (List.prefix_append _ _)
    refine ⟨?_, ?_, ?_, h.alive, ?_⟩
    · intro k q hk
      have hk' := workers_running_of_step hr' (by simp) hk
      have hqp : q ≠ p := by rintro rfl; exact (running_not_finished hs hk').2 hpi
      exact (h.fine k q hk').same (hsame q (running_planned hw hs hk') hqp) (fun b hb => (ha.bin k q hk' b hb).1)
    · intro q hw'
      have hqp : q ≠ p := by rintro rfl; exact copied_not_waiting hs hu hr' hw'
      rcases (waiting_step hr' q).2 hw' with h1 | ⟨i, h1, _⟩
      · obtain ⟨z, y, h3, h4⟩ := h.wait q h1
        exact ⟨z, y, h3, ((hsame q (jobRun_planned ha.jobs q (ha.bins q z h3).2) hqp).ball z (ha.bins q z h3).1).trans h4⟩
      · cases h1
    · intro q hq hlog y
      show (if e.tmp q = b then none else s.fs (e.tmp q)) ≠ _
      rw [if_neg (hdir q hq)]
      exact h.unstarted q hq (started_mono hr' hlog) y
    · intro x
      exact (failLog_of_step hr' (by simp) x).trans (h.noFail x)
  case copyFails r _ hr' =>
    refine ⟨fun i p hi => h.fine i p (workers_running_of_step hr' (by simp) hi), ?_,
      fun p hp' hlog => h.unstarted p hp' (started_mono hr' hlog), h.alive, ?_⟩
    · intro p hw'
      rcases (waiting_step hr' p).2 hw' with h1 | ⟨i, h1, _⟩
      · exact h.wait p h1
      · cases h1
    · intro x
      exact (failLog_of_step hr' (by simp) x).trans (h.noFail x)

theorem qreach_invE {e : QEnv} {Scratch : Path → Prop} {Complete : Str → (Path → Option Node) → Prop} {Holds : Str → Str → Prop}
    (hl : Layout e Scratch) (hr : RContract e Scratch Complete Holds) (hw : WellFormed e.job) (hn : ∀ p ∈ Job.plan e.job, ¬ IsLock p)
    {fs0 : Fs} (hft : FilesThere e Scratch Complete Holds fs0) (hos : e.ie.platform.os ≠ .other) (hR : RSucceeds e Complete Holds)
    (ht : ∀ p ∈ Job.plan e.job, ∀ x, fs0 (e.tmp p) ≠ some (.file x)) {s : QState} (h : QReach e fs0 s) : QInvE e s := by
  have h' : QReach e fs0 s := h
  induction h with
  | refl =>
    refine ⟨?_, ?_, fun p hp _ => ht p hp, rfl, ?_⟩
    · intro i p hi
      have := running_planned hw (qreach_reach (e := e) (fs0 := fs0) .refl) hi
      exact ht p this
    · intro p hp
      rcases hp with ⟨i, hi⟩ | h | ⟨_, h⟩ | ⟨_, _, h⟩ | h
      · simp [QEnv.init, Job.init, List.getElem?_replicate] at hi
      · simp [QEnv.init, Job.init] at h
      · simp [QEnv.init, Job.init] at h
      · simp [QEnv.init, Job.init] at h
      · simp [QEnv.init, Job.init] at h
    · intro x; simp [QEnv.init, Job.init]
  | tail hs hst ih =>
    obtain ⟨act, ha⟩ := qreach_invA hl hr hw hs
    exact qinvE_step hl hr hw hft hos hR (qreach_reach hs) ha (qreach_invB hl hr hw hn hft hs)
      (fun p hp d hd => C91_dependencies_present_partial hl hr hw hn hft hs hp hd) (ih hs) hst

/-- Directories in a safe place where nothing is stored stay. -/
theorem safe_kept {e : QEnv} {Scratch : Path → Prop} {Complete : Str → (Path → Option Node) → Prop} {Holds : Str → Str → Prop}
    (hl : Layout e Scratch) (hr : RContract e Scratch Complete Holds)
    (hw : WellFormed e.job) {fs0 : Fs} {s : QState} (h : QReach e fs0 s) {q : Path} (hq : SafePlace e Scratch q)
    (h0 : fs0 q ≠ none) (hs : ¬ Stored e q) : s.fs q = fs0 q := by
  have h' : QReach e fs0 s := h
  induction h with
  | refl => rfl
  | @tail s1 s2 h1 hst ih =>
    obtain ⟨act, ha⟩ := qreach_invA hl hr hw h1
    have ih := ih h1
    have hn1 : s1.fs q ≠ none := by rw [ih]; exact h0
    rw [← ih]
    cases hst
    case sched => rfl
    case take => rfl
    case prog p fs ph _ hi hp => exact frame_safe (Scratch := Scratch) (progStep_frame hp) q hq hn1
    case rWrite p k fs _ hi hk hwr => exact frame_safe (write_frame hr hwr) q hq hn1
    case rExit => rfl
    case finish => rfl
    case mkStore p b _ hu hb =>
      rcases mkdir_cases s1.fs (e.storeDir p) q with h | ⟨h, _, _⟩
      · exact h
      · exact absurd h hn1
    case copying p b c n _ hu hb hf hd =>
      obtain ⟨⟨x, hx, hbb⟩, hp⟩ := ha.bins p b hb
      have hpl := jobRun_planned ha.jobs p hp
      show ((s1.fs.mkdir (e.storeDir p)).set (e.store p b) (.file (c.take n))) q = s1.fs q
      unfold Fs.set
      rw [if_neg]
      · rcases mkdir_cases s1.fs (e.storeDir p) q with h | ⟨h, _, _⟩
        · exact h
        · exact absurd h hn1
      · intro hqs
        exact hs ⟨p, hpl, .inr ⟨x, hbb, by rw [hqs, hx]; exact store_eq e p x⟩⟩
    case copied p b c r _ hu hb hf hs' hr' =>
      obtain ⟨⟨x, hx, hbb⟩, hp⟩ := ha.bins p b hb
      dsimp only
      rw [if_neg]
      rintro rfl
      exact hq.2.1 p ⟨[x], hx.symm⟩
    case copyFails => rfl

/-! ### Only what was not cached is built -/

/-- What is built was not in the cache at the start. -/
def BuiltNew (e : QEnv) (fs0 : Fs) (p : Str) : IPhase → Prop
  | .call k | .inR k | .stamp k | .stampWrite k _ | .returned k _ => (∀ b, k ≠ .cached b) → NotCached e p fs0
  | .mkTmp | .find => NotCached e p fs0
  | .done r => r.binary ≠ none → NotCached e p fs0
  | _ => True

structure QInvN (e : QEnv) (fs0 : Fs) (s : QState) : Prop where
  phase : ∀ (i : Nat) (p : Str), s.run.workers[i]? = some (Worker.running p) → BuiltNew e fs0 p (s.progs i)
  bins : ∀ p, s.bins p ≠ none → NotCached e p fs0
  there : ∀ p ∈ Job.plan e.job, ∀ b, e.ie.cachedBinary (e.download p).metadata = some b → fs0 b ≠ none → s.fs b ≠ none

theorem qreach_invN {e : QEnv} {Scratch : Path → Prop} {Complete : Str → (Path → Option Node) → Prop} {Holds : Str → Str → Prop}
    (hl : Layout e Scratch) (hr : RContract e Scratch Complete Holds)
    (hw : WellFormed e.job) {fs0 : Fs} (hft : FilesThere e Scratch Complete Holds fs0)
    {s : QState} (h : QReach e fs0 s) : QInvN e fs0 s := by
  induction h with
  | refl => exact ⟨fun i p _ => by simp [QEnv.init, BuiltNew], fun p hp => absurd rfl hp, fun _ _ _ _ h => h⟩
  | @tail s1 s2 h1 hst ih =>
    obtain ⟨act, ha⟩ := qreach_invA hl hr hw h1
    have hframe : ∀ (p : Str) (fs : Fs), WFrame e Scratch p s1.fs fs →
        ∀ q ∈ Job.plan e.job, ∀ b, e.ie.cachedBinary (e.download q).metadata = some b → fs0 b ≠ none → fs b ≠ none := by
      intro p fs hf q hq b hb h0
      have := ih.there q hq b hb h0
      rw [frame_safe hf b (hft.cached q hq b hb).1 this]
      exact this
    have hwork : ∀ (i : Nat) (p : Str) (fs : Fs) (ph : IPhase), s1.run.workers[i]? = some (Worker.running p) → WFrame e Scratch p s1.fs fs →
        BuiltNew e fs0 p ph → QInvN e fs0 (s1.work i fs ph) := by
      intro i p fs ph hi hf hph
      refine ⟨?_, ih.bins, hframe p fs hf⟩
      intro k q hk
      by_cases hki : k = i
      · subst hki
        rw [show (s1.work k fs ph).run = s1.run from rfl, hi] at hk
        cases hk
        have hpp : (s1.work k fs ph).progs k = ph := by simp [QState.work, upd]
        rw [hpp]
        exact hph
      · have hpp : (s1.work i fs ph).progs k = s1.progs k := by simp [QState.work, upd, hki]
        rw [hpp]
        exact ih.phase k q hk
    have hmk : ∀ (d b : Path), s1.fs b ≠ none → (s1.fs.mkdir d) b ≠ none := by
      intro d b hb
      rcases mkdir_cases s1.fs d b with h | ⟨h, _, _⟩
      · rw [h]; exact hb
      · exact absurd h hb
    cases hst
    case sched ev r _ hp hr' => exact ⟨fun i p hi => ih.phase i p (workers_running_of_step hr' (plain_not_take hp) hi), ih.bins, ih.there⟩
    case take i r _ hr' =>
      refine ⟨?_, ih.bins, ih.there⟩
      intro k p hk
      rcases workers_running_of_take hr' hk with rfl | ⟨hki, hk'⟩
      · simp [upd, BuiltNew]
      · simpa [upd, hki] using ih.phase k p hk'
    case prog i p fs ph _ hi hp =>
      refine hwork i p fs ph hi (progStep_frame hp) ?_
      have hph := ih.phase i p hi
      have hpl := running_planned hw (qreach_reach h1) hi
      cases hk : s1.progs i with
      | «begin» =>
        rw [hk] at hp
        simp only [QEnv.progStep] at hp
        split at hp <;> cases hp
        · exact fun h => absurd rfl h
        · trivial
      | lookup =>
        rw [hk] at hp
        simp only [QEnv.progStep, QEnv.lookupStep] at hp
        cases hp
        cases hb : e.ie.cachedBinary (e.download p).metadata with
        | none => trivial
        | some b =>
          dsimp only
          split
          · exact fun h => absurd rfl (h b)
          · rename_i hex
            intro b' hb'
            rw [hb] at hb'; cases hb'
            apply Classical.byContradiction
            intro h0
            have := ih.there p hpl b hb h0
            unfold Fs.ex at hex
            cases hx : s1.fs b with
            | none => exact this hx
            | some _ => rw [hx] at hex; exact hex rfl
      | mkTmp =>
        rw [hk] at hph hp
        simp only [QEnv.progStep] at hp; cases hp
        exact fun _ => hph
      | call k =>
        rw [hk] at hph hp
        simp only [QEnv.progStep, QEnv.callStep] at hp; cases hp
        split
        · trivial
        · split <;> exact hph
      | inR k => rw [hk] at hp; simp [QEnv.progStep] at hp
      | stamp k =>
        rw [hk] at hph hp
        simp only [QEnv.progStep, QEnv.stampStep] at hp
        split at hp <;> cases hp <;> exact hph
      | stampWrite k c =>
        rw [hk] at hph hp
        simp only [QEnv.progStep] at hp; cases hp; exact hph
      | returned k c =>
        rw [hk] at hph hp
        simp only [QEnv.progStep, QEnv.returnStep] at hp
        cases k with
        | cached b => cases hp; exact fun h => absurd rfl h
        | final b => cases hp; exact fun _ => hph (by simp)
        | build =>
          dsimp only at hp
          cases hp
          split
          · exact hph (by simp)
          · exact fun h => absurd rfl h
      | find =>
        rw [hk] at hph hp
        simp only [QEnv.progStep, QEnv.findStep] at hp
        cases hp
        split
        · trivial
        · split
          · exact fun _ => hph
          · exact fun _ => hph
      | done r => rw [hk] at hp; simp [QEnv.progStep] at hp
      | dead => rw [hk] at hp; simp [QEnv.progStep] at hp
    case rWrite i p k fs _ hi hk hwr =>
      have hph := ih.phase i p hi
      rw [hk] at hph
      exact hwork i p fs _ hi (write_frame hr hwr) hph
    case rExit i p k x _ hi hk hx =>
      have hph := ih.phase i p hi
      rw [hk] at hph
      refine hwork i p s1.fs _ hi (WFrame.refl _) ?_
      unfold afterR
      split <;> exact hph
    case finish i p ret r _ hi hk hr' =>
      refine ⟨fun k q hk => ih.phase k q (workers_running_of_step hr' (by simp) hk), ?_, ih.there⟩
      intro q
      have hph := ih.phase i p hi
      rw [hk] at hph
      show upd s1.bins p ret.binary q ≠ none → _
      unfold upd
      split
      · rename_i hq; subst hq; exact hph
      · exact ih.bins q
    case mkStore p b _ hu hb => exact ⟨ih.phase, ih.bins, fun q hq b hb h0 => hmk _ _ (ih.there q hq b hb h0)⟩
    case copying p b c n _ hu hb hc hd =>
      refine ⟨ih.phase, ih.bins, fun q hq b' hb' h0 => ?_⟩
      show ((s1.fs.mkdir (e.storeDir p)).set (e.store p b) (.file (c.take n))) b' ≠ none
      unfold Fs.set
      split
      · simp
      · exact hmk _ _ (ih.there q hq b' hb' h0)
    case copied p b c r _ hu hb hc hc' hr' =>
      refine ⟨fun k q hk => ih.phase k q (workers_running_of_step hr' (by simp) hk), ih.bins, fun q hq b' hb' h0 => ?_⟩
      obtain ⟨⟨x, hx, hbb⟩, hp⟩ := ha.bins p b hb
      dsimp only
      rw [if_neg]
      · exact ih.there q hq b' hb' h0
      · rintro rfl
        exact (hft.cached q hq b' hb').1.2.1 p ⟨[x], hx.symm⟩
    case copyFails r _ hr' => exact ⟨fun k q hk => ih.phase k q (workers_running_of_step hr' (by simp) hk), ih.bins, ih.there⟩

/-! ### Progress -/

theorem unfailing_of {e : QEnv} {s s' : QState} (h : e.Step s s') (hl : s'.run.leaked = 0) : Unfailing e s s' := by
  refine ⟨h, fun hh => ?_⟩
  simp only [Job.step, stepUpdCopy] at hh
  split at hh
  · simp only [Bool.false_eq_true, if_false, Option.some.injEq] at hh
    rw [← hh] at hl
    simp at hl
  · cases hh

theorem unfailing_reach {e : QEnv} {s s' : QState} (h : Relation.ReflTransGen (Unfailing e) s s') : Relation.ReflTransGen e.Step s s' := by
  induction h with
  | refl => exact .refl
  | tail _ hst ih => exact ih.tail hst.1

/-- Without failing copies nothing is lost. -/
theorem unfailing_leaked {e : QEnv} {s s' : QState} (hv : Inv e.job s.run) (hi : Inv2 e.job s.run) (hE : QInvE e s)
    (hl : s.run.leaked = 0) (h : Unfailing e s s') : s'.run.leaked = 0 := by
  have key : ∀ {ev : Event} {r : RunState}, e.job.step s.run ev = some r → Benign ev → r.leaked = 0 :=
    fun hr hb => (clean_step hv hi hE.noFail hl hb hr).2
  obtain ⟨hst, hnc⟩ := h
  cases hst
  case sched ev r _ hp hr => exact key hr (plain_benign hp)
  case take i r _ hr => exact key hr ⟨by simp, by simp⟩
  case prog => exact hl
  case rWrite => exact hl
  case rExit => exact hl
  case finish i p ret r _ hi' hk hr =>
    refine key hr ⟨fun k hh => ?_, by simp⟩
    have hf := hE.fine i p hi'
    rw [hk] at hf
    injection hh with _ hh
    unfold outcomeOf at hh
    rw [hf.1] at hh
    simp at hh
  case mkStore => exact hl
  case copying => exact hl
  case copied p b c r _ hu hb hc hc' hr => exact key hr ⟨by simp, by simp⟩
  case copyFails r _ hr => exact absurd hr hnc

/-- R comes to its end. -/
theorem r_ends {e : QEnv} {s : QState} (hd : s.dead = false) (hl : s.run.leaked = 0) {i : Nat} {p : Str} {k : Pass}
    (hi : s.run.workers[i]? = some (Worker.running p)) (hk : s.progs i = .inR k) {fs' : Fs}
    (h : Relation.ReflTransGen (e.proc.writes (e.rcall p k)) s.fs fs') :
    ∃ s1, Relation.ReflTransGen (Unfailing e) s s1 ∧ OnlyFiles s s1 ∧ s1.fs = fs' := by
  induction h with
  | refl => exact ⟨s, .refl, ⟨rfl, rfl, rfl, rfl⟩, rfl⟩
  | @tail a b _ hw ih =>
    obtain ⟨s1, h1, ⟨o1, o2, o3, o4⟩, rfl⟩ := ih
    have hi1 : s1.run.workers[i]? = some (Worker.running p) := by rw [o1]; exact hi
    have hk1 : s1.progs i = .inR k := by rw [o2]; exact hk
    have hd1 : s1.dead = false := o4.trans hd
    refine ⟨s1.work i b (.inR k), h1.tail (unfailing_of (.rWrite s1 i p k b hd1 hi1 hk1 hw) ?_), ⟨o1, ?_, o3, ?_⟩, rfl⟩
    · show s1.run.leaked = 0
      rw [o1]; exact hl
    · rw [← o2]
      funext j
      by_cases hj : j = i
      · subst hj; simp [QState.work, upd, hk1]
      · simp [QState.work, upd, hj]
    · show (s1.dead || decide (IPhase.inR k = .dead)) = s.dead
      rw [hd1, hd]; simp

/-- A run that has not returned, and in which nothing has gone wrong, can go on. -/
theorem unstuck {e : QEnv} {Scratch : Path → Prop} {Complete : Str → (Path → Option Node) → Prop} {Holds : Str → Str → Prop}
    (hl : Layout e Scratch) (hr : RContract e Scratch Complete Holds) (hw : WellFormed e.job) (hn : ∀ p ∈ Job.plan e.job, ¬ IsLock p)
    {fs0 : Fs} (hft : FilesThere e Scratch Complete Holds fs0) (hos : e.ie.platform.os ≠ .other) (hR : RSucceeds e Complete Holds)
    (hroom : RoomThere e Scratch fs0) (hcpu : 0 < e.job.ncpu) (hc : e.job.caps = {}) (hsize : (Job.plan e.job).length ≤ 2500 + e.job.ncpu)
    {s : QState} (h : QReach e fs0 s) (hlk : s.run.leaked = 0) (hret : s.run.ret = none) :
    ∃ s', Relation.ReflTransGen (Unfailing e) s s' ∧ s'.run.leaked = 0 ∧ qmeasure e s' < qmeasure e s := by
  have hreach := qreach_reach h
  have hv := reach_inv hreach
  have hi2 := reach_inv2 hw hreach
  have hE := qreach_invE hl hr hw hn hft hos hR hroom.tmp h
  have hB := qreach_invB hl hr hw hn hft h
  obtain ⟨act, ha⟩ := qreach_invA hl hr hw h
  obtain ⟨ev, r, hst, hben⟩ := progress hv hcpu (by rw [hc]; decide) (by rw [hc]; decide) hret hlk (no_full_queues hv hi2 (by
    have h1 : e.job.caps.work = 2000 := by rw [hc]
    have h2 : e.job.caps.update = 500 := by rw [hc]
    omega))
  have hrl := (clean_step hv hi2 hE.noFail hlk hben hst).2
  by_cases hp : ev.plain = true
  · refine ⟨_, .single (unfailing_of (.sched s ev r hE.alive hp hst) hrl), hrl, qmeasure_run hi2 hst (plain_not_take hp) _ _ _⟩
  · cases ev with
    | take i =>
      have hstep := QEnv.Step.take (e := e) s i r hE.alive hst
      refine ⟨_, .single (unfailing_of hstep hrl), hrl, ?_⟩
      rcases qmeasure_step hv hi2 hstep with h | h
      · exact h
      · have h1 := measure_step hi2 hst
        rw [show r = s.run from h.1] at h1
        omega
    | finish i o =>
      simp only [Job.step, stepFinish] at hst
      split at hst
      · next p hi =>
        clear hst hrl
        have hpl := running_planned hw hreach hi
        cases hph : s.progs i with
        | inR k =>
          have hgood := hB.good i p hi
          rw [hph] at hgood
          have hfile : ∃ y, s.fs (e.rcall p k).src = some (.file y) ∧ Holds p y := by
            cases k with
            | cached b => exact hgood.1
            | build =>
              obtain ⟨y, h1, h2⟩ := (hft.src p hpl).1
              rw [← hB.src p hpl] at h1
              exact ⟨y, h1, h2⟩
            | final b => exact hgood
          obtain ⟨y, h1, h2⟩ := hfile
          obtain ⟨fs', x, h3, h4⟩ := hR.ends p hpl k _ y h1 h2 (fun d hd => C91_dependencies_present_partial hl hr hw hn hft h ⟨i, k, hi, hph⟩ hd)
          obtain ⟨s1, h5, h6, rfl⟩ := r_ends hE.alive hlk hi hph h3
          have hi1 : s1.run.workers[i]? = some (Worker.running p) := by rw [h6.1]; exact hi
          have hk1 : s1.progs i = .inR k := by rw [h6.2.1]; exact hph
          have hl1 : s1.run.leaked = 0 := by rw [h6.1]; exact hlk
          have hv1 : Inv e.job s1.run := by rw [h6.1]; exact hv
          refine ⟨_, h5.tail (unfailing_of (.rExit s1 i p k x (h6.2.2.2.trans hE.alive) hi1 hk1 h4) hl1), hl1, ?_⟩
          have := qmeasure_work hv1 s1.fs hi1 (ph := afterR k x) (by rw [hk1]; exact afterR_rank k x)
          rw [qmeasure_files h6] at this
          exact this
        | done ret =>
          have hf := hE.fine i p hi
          rw [hph] at hf
          have hfin : e.job.step s.run (.finish i (outcomeOf ret)) =
              some { s.run with workers := s.run.workers.set i (.holding p (outcomeOf ret)), log := s.run.log ++ [.finished p (outcomeOf ret ≠ .failed)] } := by
            simp only [Job.step, stepFinish, hi]
          exact ⟨_, .single (unfailing_of (.finish s i p ret _ hE.alive hi hph hfin) hlk), hlk, qmeasure_run hi2 hfin (by simp) _ _ _⟩
        | dead =>
          have hf := hE.fine i p hi
          rw [hph] at hf
          exact hf.elim
        | _ =>
          have hsome : (e.progStep p s.fs (s.progs i)).isSome = true := by
            rw [hph]
            simp only [QEnv.progStep]
            first | rfl | (split <;> rfl)
          obtain ⟨⟨fs', ph'⟩, hps⟩ := Option.isSome_iff_exists.1 hsome
          exact ⟨_, .single (unfailing_of (.prog s i p fs' ph' hE.alive hi hps) hlk), hlk, qmeasure_work hv fs' hi (progStep_rank hps)⟩
      · cases hst
    | updCopy ok =>
      cases ok with
      | false => exact absurd rfl hben.2
      | true =>
        have hu : ∃ p, s.run.updater = .copy p := by
          simp only [Job.step, stepUpdCopy] at hst
          split at hst
          · next p hu => exact ⟨p, hu⟩
          · cases hst
        obtain ⟨p, hu⟩ := hu
        obtain ⟨b, c, hb, hf⟩ := hE.wait p (.inr (.inr (.inr (.inr hu))))
        obtain ⟨⟨x, hbx, hx⟩, hpa⟩ := ha.bins p b hb
        have hpl := jobRun_planned ha.jobs p hpa
        obtain ⟨_, hsafe, hsd, _⟩ := hl.ball p hpl x hx
        obtain ⟨h1, h2, h3⟩ := hroom.store p hpl ((qreach_invN hl hr hw hft h).bins p (by rw [hb]; simp)) x hx
        rw [← hbx] at hsafe h1 h2 h3
        have htmp : e.tmp p <+: b := ⟨[x], hbx.symm⟩
        have hdir : (s.fs.mkdir (e.storeDir p)) (dirPath (e.store p b)) = some .dir := by
          have h4 := safe_kept hl hr hw h h2 (by rw [h1]; simp) h3
          rw [h1] at h4
          rcases mkdir_cases s.fs (e.storeDir p) (dirPath (e.store p b)) with h | ⟨_, h, _⟩
          · exact h.trans h4
          · exact h
        have hst1 := QEnv.Step.copying (e := e) s p b c c.length hE.alive hu hb hf hdir
        rw [List.take_length] at hst1
        have hfb : ((s.fs.mkdir (e.storeDir p)).set (e.store p b) (.file c)) b = some (.file c) := by
          unfold Fs.set
          rw [if_neg]
          · rcases mkdir_cases s.fs (e.storeDir p) b with h | ⟨_, _, h⟩
            · exact h.trans hf
            · exact absurd (h ▸ htmp) (hsd.2.1 p)
          · intro hh
            exact hsafe.2.1 p (hh ▸ htmp)
        have hfs : ((s.fs.mkdir (e.storeDir p)).set (e.store p b) (.file c)) (e.store p b) = some (.file c) := by
          simp [Fs.set]
        have hst2 := QEnv.Step.copied (e := e) { run := s.run, fs := (s.fs.mkdir (e.storeDir p)).set (e.store p b) (.file c), progs := s.progs, bins := s.bins, dead := s.dead } p b c r hE.alive hu hb hfb hfs hst
        refine ⟨_, (Relation.ReflTransGen.single (unfailing_of hst1 hlk)).tail (unfailing_of hst2 hrl), hrl, ?_⟩
        exact qmeasure_run (s := s) hi2 hst (by simp) _ _ _
    | _ => exact absurd rfl hp

/-- So it can go on until it returns. -/
theorem can_return {e : QEnv} {Scratch : Path → Prop} {Complete : Str → (Path → Option Node) → Prop} {Holds : Str → Str → Prop}
    (hl : Layout e Scratch) (hr : RContract e Scratch Complete Holds) (hw : WellFormed e.job) (hn : ∀ p ∈ Job.plan e.job, ¬ IsLock p)
    {fs0 : Fs} (hft : FilesThere e Scratch Complete Holds fs0) (hos : e.ie.platform.os ≠ .other) (hR : RSucceeds e Complete Holds)
    (hroom : RoomThere e Scratch fs0) (hcpu : 0 < e.job.ncpu) (hc : e.job.caps = {}) (hsize : (Job.plan e.job).length ≤ 2500 + e.job.ncpu)
    (n : Nat) {s : QState} (hm : qmeasure e s ≤ n) (h : QReach e fs0 s) (hlk : s.run.leaked = 0) :
    ∃ s', Relation.ReflTransGen (Unfailing e) s s' ∧ s'.run.ret = some .nil := by
  induction n using Nat.strongRecOn generalizing s with
  | _ n ih =>
    cases hret : s.run.ret with
    | some r =>
      refine ⟨s, .refl, ?_⟩
      have hv := reach_inv (qreach_reach h)
      have hE := qreach_invE hl hr hw hn hft hos hR hroom.tmp h
      have := (hv.ret r hret).2.2.2
      rw [noFail_anyFailed hv hE.noFail] at this
      simp only [Bool.false_eq_true, if_false] at this
      rw [hret, this]
    | none =>
      obtain ⟨s1, h1, h2, h3⟩ := unstuck hl hr hw hn hft hos hR hroom hcpu hc hsize h hlk hret
      obtain ⟨s2, h4, h5⟩ := ih (qmeasure e s1) (by omega) (Nat.le_refl _) (h.trans (unfailing_reach h1)) h2
      exact ⟨s2, h1.trans h4, h5⟩

end Pkgr
