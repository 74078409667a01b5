/- The binaries that a run of the queue leaves in the cache. -/
import Verif.Proof.Queue
import Verif.Props.Sched

namespace Pkgr
open Spec

set_option linter.unusedSimpArgs false

/-! ### Results on their way to the updater -/

/-- The result of `p`, with a binary, has not been dealt with completely. -/
def Waiting (s : RunState) (p : Str) : Prop :=
  (∃ i : Nat, s.workers[i]? = some (Worker.holding p (.ok true))) ∨ (p, Outcome.ok true) ∈ s.updQ ∨
  (∃ xs, s.updater = .scan p xs true) ∨ (∃ x xs, s.updater = .send x p xs true) ∨ s.updater = .copy p

theorem waiting_congr {s s' : RunState} (hw : s'.workers = s.workers) (hq : s'.updQ = s.updQ) (hu : s'.updater = s.updater)
    (p : Str) : Waiting s' p ↔ Waiting s p := by
  unfold Waiting; rw [hw, hq, hu]

theorem holding_set {ws : List Worker} {k : Nat} {a w : Worker} (hk : ws[k]? = some a) {p : Str} {o : Outcome} (i : Nat) :
    (ws.set k w)[i]? = some (.holding p o) ↔ (i = k ∧ w = .holding p o) ∨ (i ≠ k ∧ ws[i]? = some (.holding p o)) := by
  have hlt : k < ws.length := by
    rcases Nat.lt_or_ge k ws.length with h | h
    · exact h
    · rw [List.getElem?_eq_none h] at hk; cases hk
  rw [List.getElem?_set]
  by_cases h : k = i
  · subst h; simp [hlt]
  · simp [h, Ne.symm h]

/-- What a step of the scheduler does to the results that are under way: it loses none but by copying, and adds none but by
the end of an installation. -/
theorem waiting_step {j : Job} {s s' : RunState} {ev : Event} (h : j.step s ev = some s') (p : Str) :
    (Waiting s p → Waiting s' p ∨ (∃ ok, ev = .updCopy ok ∧ s.updater = .copy p)) ∧
    (Waiting s' p → Waiting s p ∨ ∃ i, ev = .finish i (.ok true) ∧ s.workers[i]? = some (.running p)) := by
  have same : s'.workers = s.workers → s'.updQ = s.updQ → s'.updater = s.updater →
      (Waiting s p → Waiting s' p ∨ (∃ ok, ev = .updCopy ok ∧ s.updater = .copy p)) ∧
      (Waiting s' p → Waiting s p ∨ ∃ i, ev = .finish i (.ok true) ∧ s.workers[i]? = some (.running p)) := by
    intro a b c
    exact ⟨fun h => .inl ((waiting_congr a b c p).2 h), fun h => .inl ((waiting_congr a b c p).1 h)⟩
  cases ev with
  | mainAdd => simp only [Job.step, stepMainAdd] at h; split at h <;> cases h; exact same rfl rfl rfl
  | mainSend => simp only [Job.step, stepMainSend] at h; split at h <;> cases h; exact same rfl rfl rfl
  | mainReturn =>
    simp only [Job.step, stepMainReturn] at h
    split at h
    · split at h <;> cases h
      exact same rfl rfl rfl
    · cases h
  | reqCheck =>
    simp only [Job.step, stepReqCheck] at h
    split at h
    · split at h
      · cases h; exact same rfl rfl rfl
      · split at h <;> cases h <;> exact same rfl rfl rfl
    · cases h
  | reqPush =>
    simp only [Job.step, stepReqPush] at h
    split at h
    · split at h <;> cases h
      exact same rfl rfl rfl
    · cases h
  | take k =>
    simp only [Job.step, stepTake] at h
    split at h <;> cases h
    next q ps hk hq =>
    have hh : ∀ i : Nat, (s.workers.set k (.running q))[i]? = some (.holding p (.ok true)) ↔ s.workers[i]? = some (.holding p (.ok true)) := by
      intro i
      rw [holding_set hk]
      constructor
      · rintro (⟨_, h⟩ | ⟨_, h⟩)
        · cases h
        · exact h
      · intro h
        refine .inr ⟨?_, h⟩
        rintro rfl; rw [hk] at h; cases h
    unfold Waiting
    simp only [hh]
    exact ⟨.inl, .inl⟩
  | finish k o =>
    simp only [Job.step, stepFinish] at h
    split at h <;> cases h
    next q hk =>
    unfold Waiting
    simp only [holding_set hk]
    constructor
    · rintro (⟨i, hi⟩ | h)
      · refine .inl (.inl ⟨i, .inr ⟨?_, hi⟩⟩)
        rintro rfl; rw [hk] at hi; cases hi
      · exact .inl (.inr h)
    · rintro (⟨i, ⟨rfl, hi⟩ | ⟨_, hi⟩⟩ | h)
      · cases hi
        exact .inr ⟨_, rfl, hk⟩
      · exact .inl (.inl ⟨i, hi⟩)
      · exact .inl (.inr h)
  | post k =>
    simp only [Job.step, stepPost] at h
    split at h
    · next q o hk =>
      split at h <;> cases h
      unfold Waiting
      simp only [holding_set hk, List.mem_append, List.mem_singleton, Prod.mk.injEq]
      constructor
      · rintro (⟨i, hi⟩ | h | h)
        · by_cases hik : i = k
          · subst hik
            rw [hk] at hi; cases hi
            exact .inl (.inr (.inl (.inr ⟨rfl, rfl⟩)))
          · exact .inl (.inl ⟨i, .inr ⟨hik, hi⟩⟩)
        · exact .inl (.inr (.inl (.inl h)))
        · exact .inl (.inr (.inr h))
      · rintro (⟨i, ⟨_, hi⟩ | ⟨_, hi⟩⟩ | (h | ⟨rfl, rfl⟩) | h)
        · cases hi
        · exact .inl (.inl ⟨i, hi⟩)
        · exact .inl (.inr (.inl h))
        · exact .inl (.inl ⟨k, hk⟩)
        · exact .inl (.inr (.inr h))
    · cases h
  | updTake =>
    simp only [Job.step, stepUpdTake] at h
    split at h <;> cases h
    · next q ps hu hq =>
      unfold Waiting
      simp [hu, hq]
    · next q b ps hu hq =>
      unfold Waiting
      simp only [hu, hq, List.mem_cons, Prod.mk.injEq, Outcome.ok.injEq]
      constructor
      · rintro (h | (⟨rfl, rfl⟩ | h) | ⟨_, h⟩ | ⟨_, _, h⟩ | h)
        · exact .inl (.inl h)
        · exact .inl (.inr (.inr (.inl ⟨_, rfl⟩)))
        · exact .inl (.inr (.inl h))
        · cases h
        · cases h
        · cases h
      · rintro (h | h | ⟨xs, h⟩ | ⟨_, _, h⟩ | h)
        · exact .inl (.inl h)
        · exact .inl (.inr (.inl (.inr h)))
        · cases h
          exact .inl (.inr (.inl (.inl ⟨rfl, rfl⟩)))
        · cases h
        · cases h
  | updScan =>
    simp only [Job.step, stepUpdScan] at h
    split at h
    · next q x xs b hu =>
      split at h <;> cases h
      · unfold Waiting
        simp only [hu]
        constructor
        · rintro (h | h | ⟨xs', h⟩ | ⟨_, _, h⟩ | h)
          · exact .inl (.inl h)
          · exact .inl (.inr (.inl h))
          · cases h; exact .inl (.inr (.inr (.inr (.inl ⟨_, _, rfl⟩))))
          · cases h
          · cases h
        · rintro (h | h | ⟨xs', h⟩ | ⟨_, _, h⟩ | h)
          · exact .inl (.inl h)
          · exact .inl (.inr (.inl h))
          · cases h
          · cases h; exact .inl (.inr (.inr (.inl ⟨_, rfl⟩)))
          · cases h
      · unfold Waiting
        simp only [hu]
        constructor
        · rintro (h | h | ⟨xs', h⟩ | ⟨_, _, h⟩ | h)
          · exact .inl (.inl h)
          · exact .inl (.inr (.inl h))
          · cases h; exact .inl (.inr (.inr (.inl ⟨_, rfl⟩)))
          · cases h
          · cases h
        · rintro (h | h | ⟨xs', h⟩ | ⟨_, _, h⟩ | h)
          · exact .inl (.inl h)
          · exact .inl (.inr (.inl h))
          · cases h; exact .inl (.inr (.inr (.inl ⟨_, rfl⟩)))
          · cases h
          · cases h
    · next q b hu =>
      cases h
      unfold Waiting
      simp only [hu]
      constructor
      · rintro (h | h | ⟨xs', h⟩ | ⟨_, _, h⟩ | h)
        · exact .inl (.inl h)
        · exact .inl (.inr (.inl h))
        · cases h; exact .inl (.inr (.inr (.inr (.inr rfl))))
        · cases h
        · cases h
      · rintro (h | h | ⟨xs', h⟩ | ⟨_, _, h⟩ | h)
        · exact .inl (.inl h)
        · exact .inl (.inr (.inl h))
        · cases b <;> cases h
        · cases b <;> cases h
        · cases b <;> cases h
          exact .inl (.inr (.inr (.inl ⟨_, rfl⟩)))
    · cases h
  | updSend =>
    simp only [Job.step, stepUpdSend] at h
    split at h
    · next x q xs b hu _ =>
      cases h
      unfold Waiting
      simp only [hu]
      constructor
      · rintro (h | h | ⟨xs', h⟩ | ⟨_, _, h⟩ | h)
        · exact .inl (.inl h)
        · exact .inl (.inr (.inl h))
        · cases h
        · cases h; exact .inl (.inr (.inr (.inl ⟨_, rfl⟩)))
        · cases h
      · rintro (h | h | ⟨xs', h⟩ | ⟨_, _, h⟩ | h)
        · exact .inl (.inl h)
        · exact .inl (.inr (.inl h))
        · cases h; exact .inl (.inr (.inr (.inr (.inl ⟨_, _, rfl⟩))))
        · cases h
        · cases h
    · cases h
  | updCopy ok =>
    simp only [Job.step, stepUpdCopy] at h
    split at h
    · next q hu =>
      have hup : s'.updater = .finish ∨ s'.updater = .idle := by
        split at h <;> cases h <;> simp
      have hrest : s'.workers = s.workers ∧ s'.updQ = s.updQ := by
        split at h <;> cases h <;> simp
      unfold Waiting
      rw [hu, hrest.1, hrest.2]
      constructor
      · rintro (h | h | ⟨xs', h⟩ | ⟨_, _, h⟩ | h)
        · exact .inl (.inl h)
        · exact .inl (.inr (.inl h))
        · cases h
        · cases h
        · exact .inr ⟨ok, rfl, h⟩
      · rintro (h | h | ⟨xs', h⟩ | ⟨_, _, h⟩ | h)
        · exact .inl (.inl h)
        · exact .inl (.inr (.inl h))
        · rcases hup with e | e <;> rw [e] at h <;> cases h
        · rcases hup with e | e <;> rw [e] at h <;> cases h
        · rcases hup with e | e <;> rw [e] at h <;> cases h
    · cases h
  | updDone =>
    simp only [Job.step, stepUpdDone] at h
    split at h
    · next hu =>
      cases h
      unfold Waiting
      simp [hu]
    · cases h

/-- When the run has returned nothing is under way. -/
theorem ret_not_waiting {j : Job} {s : RunState} (h : Reach j s) {r : RunResult} (hr : s.ret = some r) (p : Str) :
    ¬ Waiting s p ∧ s.leaked = 0 := by
  have hv := reach_inv h
  have h0 := (hv.ret r hr).1
  have ht := hv.tok
  have h1 : s.updQ.length = 0 ∧ s.workers.countP isBusy = 0 ∧ updTok s.updater = 0 ∧ s.leaked = 0 := by
    refine ⟨by omega, by omega, by omega, by omega⟩
  refine ⟨?_, h1.2.2.2⟩
  rintro (⟨i, hi⟩ | hq | ⟨xs, hu⟩ | ⟨x, xs, hu⟩ | hu)
  · have := List.countP_eq_zero.1 h1.2.1 _ (List.mem_of_getElem? hi)
    simp [isBusy] at this
  · rw [List.length_eq_zero_iff.1 h1.1] at hq; cases hq
  · rw [hu] at h1; simp [updTok] at h1
  · rw [hu] at h1; simp [updTok] at h1
  · rw [hu] at h1; simp [updTok] at h1

/-- A result under way is that of a successful installation. -/
theorem waiting_finished {j : Job} {s : RunState} (h : Reach j s) {p : Str} (hw : Waiting s p) :
    LogEntry.finished p true ∈ s.log := by
  have hv := reach_inv h
  have h3 := hv.finOk p
  refine List.count_pos_iff.1 ?_
  rcases hw with ⟨i, hi⟩ | hq | ⟨xs, hu⟩ | ⟨x, xs, hu⟩ | hu
  · have : 1 ≤ s.workers.count (.holding p (.ok true)) := List.count_pos_iff.2 (List.mem_of_getElem? hi)
    unfold pendOk at h3; omega
  · have : 1 ≤ s.updQ.count (p, .ok true) := List.count_pos_iff.2 hq
    unfold pendOk at h3; omega
  · exact List.count_pos_iff.2 (installed_finished h (updPkg_installed h (by rw [hu]; rfl)))
  · exact List.count_pos_iff.2 (installed_finished h (updPkg_installed h (by rw [hu]; rfl)))
  · exact List.count_pos_iff.2 (installed_finished h (updPkg_installed h (by rw [hu]; rfl)))

/-! ### Files -/

/-- There is a binary of `p` where it is looked for. -/
def InCache (e : QEnv) (Holds : Str → Str → Prop) (p : Str) (fs : Fs) : Prop :=
  ∃ b, e.ie.cachedBinary (e.download p).metadata = some b ∧ HasFile Holds p fs b

/-- There was nothing where the binary of `p` is looked for. -/
def NotCached (e : QEnv) (p : Str) (fs0 : Fs) : Prop :=
  ∀ b, e.ie.cachedBinary (e.download p).metadata = some b → fs0 b = none

/-- What is known of the binary in the pass of an installation of a package that was not in the library. -/
def PassBin (e : QEnv) (Holds : Str → Str → Prop) (fs0 : Fs) (p : Str) (fs : Fs) : Pass → Prop
  | .cached _ => InCache e Holds p fs
  | .build => NotCached e p fs0
  | .final b => NotCached e p fs0 ∧ HasFile Holds p fs b

/-- The same at each point of the installation. -/
def PhaseBin (e : QEnv) (Holds : Str → Str → Prop) (fs0 : Fs) (p : Str) (fs : Fs) : IPhase → Prop
  | .call k => PassBin e Holds fs0 p fs k
  | .inR k => PassBin e Holds fs0 p fs k
  | .stamp k => PassBin e Holds fs0 p fs k
  | .stampWrite k _ => PassBin e Holds fs0 p fs k
  | .returned k _ => PassBin e Holds fs0 p fs k
  | .mkTmp => NotCached e p fs0
  | .find => NotCached e p fs0
  | .done r => r.err = false → (r.binary = none → InCache e Holds p fs) ∧
      ∀ b, r.binary = some b → NotCached e p fs0 ∧ HasFile Holds p fs b
  | _ => True

/-- `fs'` comes from `fs` without harm to the binaries of `p`. -/
structure Keeps2 (e : QEnv) (p : Str) (fs fs' : Fs) : Prop where
  cached : ∀ b, e.ie.cachedBinary (e.download p).metadata = some b → fs b ≠ none → fs' b = fs b
  ball : ∀ b, InTmp e p b → fs b ≠ none → fs' b = fs b

theorem InCache.kept {e : QEnv} {Holds : Str → Str → Prop} {p : Str} {fs fs' : Fs} (h : InCache e Holds p fs) (hk : Keeps2 e p fs fs') :
    InCache e Holds p fs' := by
  obtain ⟨b, hb, hf⟩ := h
  exact ⟨b, hb, hf.of_eq (hk.cached b hb hf.ne)⟩

theorem HasFile.kept {e : QEnv} {Holds : Str → Str → Prop} {p : Str} {fs fs' : Fs} {b : Path} (h : HasFile Holds p fs b)
    (hb : InTmp e p b) (hk : Keeps2 e p fs fs') : HasFile Holds p fs' b := h.of_eq (hk.ball b hb h.ne)

theorem PassBin.kept {e : QEnv} {Holds : Str → Str → Prop} {fs0 : Fs} {p : Str} {fs fs' : Fs} {k : Pass} (h : PassBin e Holds fs0 p fs k)
    (hb : ∀ b, k = .final b → InTmp e p b) (hk : Keeps2 e p fs fs') : PassBin e Holds fs0 p fs' k := by
  cases k with
  | cached b => exact InCache.kept h hk
  | build => exact h
  | final b => exact ⟨h.1, h.2.kept (hb b rfl) hk⟩

theorem PhaseBin.kept {e : QEnv} {Holds : Str → Str → Prop} {fs0 : Fs} {p : Str} {fs fs' : Fs} {ph : IPhase} (h : PhaseBin e Holds fs0 p fs ph)
    (hb : ∀ b, phaseBin ph = some b → InTmp e p b) (hk : Keeps2 e p fs fs') : PhaseBin e Holds fs0 p fs' ph := by
  cases ph with
  | call k => exact PassBin.kept h (by rintro b rfl; exact hb b rfl) hk
  | inR k => exact PassBin.kept h (by rintro b rfl; exact hb b rfl) hk
  | stamp k => exact PassBin.kept h (by rintro b rfl; exact hb b rfl) hk
  | stampWrite k c => exact PassBin.kept h (by rintro b rfl; exact hb b rfl) hk
  | returned k c => exact PassBin.kept h (by rintro b rfl; exact hb b rfl) hk
  | mkTmp => exact h
  | find => exact h
  | done r => exact fun he => ⟨fun hn => ((h he).1 hn).kept hk, fun b hbr => ⟨((h he).2 b hbr).1, ((h he).2 b hbr).2.kept (hb b hbr) hk⟩⟩
  | _ => trivial

theorem keeps2_refl (e : QEnv) (p : Str) (fs : Fs) : Keeps2 e p fs fs := ⟨fun _ _ _ => rfl, fun _ _ _ => rfl⟩

theorem Spares.keeps2 {e : QEnv} {p : Str} {fs fs' : Fs} (h : Spares e p fs fs') : Keeps2 e p fs fs' :=
  ⟨h.safe, fun b hb _ => h.ball b hb⟩

/-- Writing a DESCRIPTION in the library does no harm to binaries. -/
theorem keeps2_desc {e : QEnv} {Scratch : Path → Prop} (hl : Layout e Scratch) {p : Str}
    (hsafe : ∀ b, e.ie.cachedBinary (e.download p).metadata = some b → SafePlace e Scratch b) (fs : Fs) {k : Pass} (hk : k ≠ .build) (n : Node) :
    Keeps2 e p fs (fs.set (e.descOf p k) n) := by
  have hlib : e.lib <+: e.descOf p k := by
    cases k with
    | cached b => exact List.prefix_append _ _
    | build => exact absurd rfl hk
    | final b => exact List.prefix_append _ _
  refine ⟨?_, ?_⟩
  · intro b hb _
    unfold Fs.set
    rw [if_neg]
    rintro rfl
    exact (hsafe _ hb).1 hlib
  · rintro b ⟨x, rfl, _⟩ _
    unfold Fs.set
    rw [if_neg]
    intro h
    rw [← h] at hlib
    exact lib_not_tmp hl p hlib (List.prefix_append _ _)

/-- A step of pkgr's own code. -/
theorem progStep_phaseBin {e : QEnv} {Scratch : Path → Prop} {Complete : Str → (Path → Option Node) → Prop} {Holds : Str → Str → Prop}
    (hl : Layout e Scratch) {fs0 : Fs} {p : Str} (hpl : p ∈ Job.plan e.job) {fs fs' : Fs} {ph ph' : IPhase}
    (hnew : fs0 (e.lib ++ [p]) ≠ some .dir)
    (hsafe : ∀ b, e.ie.cachedBinary (e.download p).metadata = some b → SafePlace e Scratch b)
    (hcached : ∀ b, e.ie.cachedBinary (e.download p).metadata = some b → MayFile Holds p fs b)
    (hkeep : ∀ b, e.ie.cachedBinary (e.download p).metadata = some b → fs0 b ≠ none → fs b ≠ none)
    (h : e.progStep p fs ph = some (fs', ph')) (hb : ∀ b, phaseBin ph = some b → InTmp e p b)
    (hg : Good e Complete Holds fs0 p fs ph) (hc : PhaseBin e Holds fs0 p fs ph) :
    PhaseBin e Holds fs0 p fs' ph' := by
  cases ph with
  | «begin» =>
    have hg' : contentOf fs e.lib p = contentOf fs0 e.lib p := hg
    simp only [QEnv.progStep] at h
    split at h
    · next hd =>
      exfalso
      apply hnew
      have := congrFun hg' []
      unfold contentOf at this
      rw [← this]
      simpa [Fs.isDir] using hd
    · cases h; trivial
  | lookup =>
    simp only [QEnv.progStep, QEnv.lookupStep] at h; cases h
    split
    · trivial
    · next b hb =>
      split
      · next hex =>
        obtain ⟨n, hn⟩ := Option.isSome_iff_exists.1 hex
        obtain ⟨x, rfl, hx⟩ := hcached b hb n hn
        exact ⟨b, hb, x, hn, hx⟩
      · next hex =>
        intro b' hb'
        rw [hb] at hb'; cases hb'
        apply Classical.byContradiction
        intro hne
        refine hex ?_
        unfold Fs.ex
        exact Option.isSome_iff_ne_none.2 (hkeep b hb hne)
  | mkTmp => simp only [QEnv.progStep] at h; cases h; exact hc
  | call k =>
    simp only [QEnv.progStep, QEnv.callStep] at h; cases h
    split
    · trivial
    · split <;> exact hc
  | inR k => simp [QEnv.progStep] at h
  | stamp k =>
    simp only [QEnv.progStep, QEnv.stampStep] at h
    by_cases hk : k = .build
    · subst hk
      split at h <;> cases h <;> exact hc
    · split at h <;> cases h
      · exact PassBin.kept hc (by rintro b rfl; exact hb b rfl) (keeps2_desc hl hsafe fs hk _)
      · exact hc
  | stampWrite k c =>
    simp only [QEnv.progStep] at h; cases h
    by_cases hk : k = .build
    · subst hk; exact hc
    · exact PassBin.kept hc (by rintro b rfl; exact hb b rfl) (keeps2_desc hl hsafe fs hk _)
  | returned k c =>
    simp only [QEnv.progStep, QEnv.returnStep] at h
    cases k <;> cases h
    · exact fun _ => ⟨fun _ => hc, fun b hb => (by cases hb)⟩
    · split
      · exact hc
      · next hn =>
        intro he
        have hg' : c.err = false → _ := hg
        have := ((hg' he).2 rfl).1
        dsimp only at he
        rw [he, this] at hn
        simp at hn
    · next b =>
      refine fun _ => ⟨fun h => (by cases h), fun b' hb' => ?_⟩
      cases hb'
      exact hc
  | find =>
    simp only [QEnv.progStep, QEnv.findStep] at h; cases h
    split
    · trivial
    · next bbp hbbp =>
      have hj := (hl.ball p hpl bbp hbbp).1
      split
      · intro he; simp at he
      · next hex =>
        have hex' : fs.ex (joinPath (e.tmp p) bbp) = true := by simpa using hex
        obtain ⟨n, hn⟩ := Option.isSome_iff_exists.1 hex'
        have hg' : BuiltOK e Holds p fs := hg
        obtain ⟨x, rfl, hx⟩ := hg' _ ⟨bbp, hj, hbbp⟩ n hn
        exact ⟨hc, x, hn, hx⟩
  | done r => simp [QEnv.progStep] at h
  | dead => simp [QEnv.progStep] at h

/-! ### The invariant -/

structure QInvC (e : QEnv) (Holds : Str → Str → Prop) (fs0 : Fs) (s : QState) : Prop where
  phase : ∀ (i : Nat) (p : Str), s.run.workers[i]? = some (Worker.running p) → fs0 (e.lib ++ [p]) ≠ some .dir →
    PhaseBin e Holds fs0 p s.fs (s.progs i)
  keep : ∀ p ∈ Job.plan e.job, LogEntry.finished p true ∉ s.run.log → ∀ b,
    e.ie.cachedBinary (e.download p).metadata = some b → fs0 b ≠ none → s.fs b ≠ none
  finNone : ∀ p ∈ Job.plan e.job, fs0 (e.lib ++ [p]) ≠ some .dir → LogEntry.finished p true ∈ s.run.log → s.bins p = none →
    InCache e Holds p s.fs
  finSome : ∀ p ∈ Job.plan e.job, fs0 (e.lib ++ [p]) ≠ some .dir → LogEntry.finished p true ∈ s.run.log → ∀ b, s.bins p = some b →
    NotCached e p fs0 ∧ (Waiting s.run p → HasFile Holds p s.fs b) ∧ (¬ Waiting s.run p → InCache e Holds p s.fs ∨ 0 < s.run.leaked)

/-- The common part of the steps of a worker. -/
theorem qinvC_work {e : QEnv} {Scratch : Path → Prop} {Complete : Str → (Path → Option Node) → Prop} {Holds : Str → Str → Prop}
    (hl : Layout e Scratch) (hw : WellFormed e.job) (hn : ∀ p ∈ Job.plan e.job, ¬ IsLock p) {fs0 : Fs}
    (hft : FilesThere e Scratch Complete Holds fs0) {s : QState} {act : List Str}
    (hs : Reach e.job s.run) (ha : QInvA e fs0 s act) (h : QInvC e Holds fs0 s) {i : Nat} {p : Str} {fs : Fs} {ph : IPhase}
    (hi : s.run.workers[i]? = some (Worker.running p)) (hf : WFrame e Scratch p s.fs fs)
    (hg : fs0 (e.lib ++ [p]) ≠ some .dir → PhaseBin e Holds fs0 p fs ph) : QInvC e Holds fs0 (s.work i fs ph) := by
  have hsp : ∀ q ∈ Job.plan e.job, q ≠ p → Keeps2 e q s.fs fs := fun q hq hne =>
    (frame_spares hl (hn q hq) hq (running_planned hw hs hi) hne (fun b hb => (hft.cached q hq b hb).1) hf).keeps2
  refine ⟨?_, ?_, ?_, ?_⟩
  · intro k q hk hnew
    by_cases hki : k = i
    · subst hki
      rw [show (s.work k fs ph).run = s.run from rfl, hi] at hk
      cases hk
      simpa [QState.work, upd] using hg hnew
    · have hqp : q ≠ p := by
        rintro rfl
        exact hki (running_unique hs hk hi)
      have := (h.phase k q hk hnew).kept (fun b hb => (ha.bin k q hk b hb).1) (hsp q (running_planned hw hs hk) hqp)
      simpa [QState.work, upd, hki] using this
  · intro q hq hlog b hb h0
    have h1 := h.keep q hq hlog b hb h0
    show fs b ≠ none
    rw [frame_safe hf b (hft.cached q hq b hb).1 h1]
    exact h1
  · intro q hq hnew hlog hbin
    have hne : q ≠ p := by
      rintro rfl
      exact (running_not_finished hs hi).1 hlog
    exact (h.finNone q hq hnew hlog hbin).kept (hsp q hq hne)
  · intro q hq hnew hlog b hbin
    have hne : q ≠ p := by
      rintro rfl
      exact (running_not_finished hs hi).1 hlog
    obtain ⟨h1, h2, h3⟩ := h.finSome q hq hnew hlog b hbin
    refine ⟨h1, fun hw' => (h2 hw').kept (ha.bins q b hbin).1 (hsp q hq hne), fun hw' => ?_⟩
    rcases h3 hw' with h3 | h3
    · exact .inl (h3.kept (hsp q hq hne))
    · exact .inr h3

theorem qinvC_step {e : QEnv} {Scratch : Path → Prop} {Complete : Str → (Path → Option Node) → Prop} {Holds : Str → Str → Prop}
    (hl : Layout e Scratch) (hr : RContract e Scratch Complete Holds)
    (hw : WellFormed e.job) (hn : ∀ p ∈ Job.plan e.job, ¬ IsLock p) {fs0 : Fs} (hft : FilesThere e Scratch Complete Holds fs0)
    (hplace : ∀ p ∈ Job.plan e.job, NotCached e p fs0 → ∀ x, binaryExtOs e.ie.platform.os (basePath (e.src p)) e.ie.rPlatform = some x →
      e.ie.cachedBinary (e.download p).metadata = some (e.store p (e.tmp p ++ [x])))
    {s s' : QState} {act : List Str} (hs : Reach e.job s.run) (ha : QInvA e fs0 s act) (hB : QInvB e Complete Holds fs0 s)
    (hB' : QInvB e Complete Holds fs0 s') (h : QInvC e Holds fs0 s)
    (hstep : e.Step s s') : QInvC e Holds fs0 s' := by
  have hsame : ∀ {ev : Event} {r : RunState}, e.job.step s.run ev = some r → (∀ i b, ev ≠ .finish i (.ok b)) → (∀ ok, ev ≠ .updCopy ok) →
      (∀ p ∈ Job.plan e.job, fs0 (e.lib ++ [p]) ≠ some .dir → LogEntry.finished p true ∈ r.log → s.bins p = none → InCache e Holds p s.fs) ∧
      (∀ p ∈ Job.plan e.job, fs0 (e.lib ++ [p]) ≠ some .dir → LogEntry.finished p true ∈ r.log → ∀ b, s.bins p = some b →
        NotCached e p fs0 ∧ (Waiting r p → HasFile Holds p s.fs b) ∧ (¬ Waiting r p → InCache e Holds p s.fs ∨ 0 < r.leaked)) := by
    intro ev r hr' hnf hnc
    refine ⟨fun p hp hnew hlog hbin => h.finNone p hp hnew (log_of_step hr' hnf hlog) hbin, ?_⟩
    intro p hp hnew hlog b hbin
    obtain ⟨h1, h2, h3⟩ := h.finSome p hp hnew (log_of_step hr' hnf hlog) b hbin
    obtain ⟨w1, w2⟩ := waiting_step hr' p
    refine ⟨h1, fun hw' => ?_, fun hw' => ?_⟩
    · rcases w2 hw' with hw' | ⟨i, hi, _⟩
      · exact h2 hw'
      · exact absurd hi (hnf i true)
    · have : ¬ Waiting s.run p := by
        intro hw''
        rcases w1 hw'' with hw'' | ⟨ok, hok, _⟩
        · exact hw' hw''
        · exact hnc ok hok
      rcases h3 this with h3 | h3
      · exact .inl h3
      · exact .inr (Nat.lt_of_lt_of_le h3 (leaked_mono hr').1)
  cases hstep
  case sched ev r _ hp hr' =>
    obtain ⟨h1, h2⟩ := hsame hr' (plain_not_finish hp) (by rintro ok rfl; simp [Event.plain] at hp)
    exact ⟨fun i p hi hnew => h.phase i p (workers_running_of_step hr' (plain_not_take hp) hi) hnew,
      fun p hp' hlog => h.keep p hp' (finished_mono hr' hlog), h1, h2⟩
  case take i r _ hr' =>
    obtain ⟨h1, h2⟩ := hsame hr' (by simp) (by simp)
    refine ⟨?_, fun p hp' hlog => h.keep p hp' (finished_mono hr' hlog), h1, h2⟩
    intro k p hk hnew
    rcases workers_running_of_take hr' hk with rfl | ⟨hki, hk'⟩
    · simp [upd, PhaseBin]
    · simpa [upd, hki] using h.phase k p hk' hnew
  case prog i p fs ph _ hi hp =>
    have hpl := running_planned hw hs hi
    have hnf := (running_not_finished hs hi).1
    refine qinvC_work hl hw hn hft hs ha h hi (progStep_frame hp) (fun hnew => ?_)
    exact progStep_phaseBin hl hpl hnew (fun b hb => (hft.cached p hpl b hb).1) (hB.cache p hpl hnf) (h.keep p hpl hnf) hp
      (fun b hb => (ha.bin i p hi b hb).1) (hB.good i p hi) (h.phase i p hi hnew)
  case rWrite i p k fs _ hi hk hwr =>
    have hpl := running_planned hw hs hi
    refine qinvC_work hl hw hn hft hs ha h hi (write_frame hr hwr) (fun hnew => ?_)
    have hc := h.phase i p hi hnew
    rw [hk] at hc
    have hg := hB'.good i p hi
    have hph : (s.work i fs (.inR k)).progs i = .inR k := by simp [QState.work, upd]
    rw [hph] at hg
    cases k with
    | cached b => exact ⟨b, hg.2, hg.1⟩
    | build => exact hc
    | final b => exact ⟨hc.1, hg⟩
  case rExit i p k x _ hi hk hx =>
    refine qinvC_work hl hw hn hft hs ha h hi (WFrame.refl _) (fun hnew => ?_)
    have hc := h.phase i p hi hnew
    rw [hk] at hc
    unfold afterR
    split <;> exact hc
  case finish i p ret r _ hi hk hr' =>
    have hpl := running_planned hw hs hi
    have hnf := (running_not_finished hs hi).1
    have hold : ∀ q, q ≠ p → LogEntry.finished q true ∈ r.log → LogEntry.finished q true ∈ s.run.log := by
      intro q hq hlog
      rcases log_of_finish hi hr' hlog with h1 | ⟨h1, _⟩
      · exact h1
      · exact absurd h1 hq
    have herr : LogEntry.finished p true ∈ r.log → ret.err = false := by
      intro hlog
      rcases log_of_finish hi hr' hlog with h1 | ⟨_, ho⟩
      · exact absurd h1 hnf
      · unfold outcomeOf at ho
        cases he : ret.err
        · rfl
        · rw [he] at ho; simp at ho
    have hdone : fs0 (e.lib ++ [p]) ≠ some .dir → PhaseBin e Holds fs0 p s.fs (.done ret) := by
      intro hnew
      have := h.phase i p hi hnew
      rw [hk] at this
      exact this
    refine ⟨fun k q hk hnew => h.phase k q (workers_running_of_step hr' (by simp) hk) hnew,
      fun p hp' hlog => h.keep p hp' (finished_mono hr' hlog), ?_, ?_⟩
    · intro q hq hnew hlog hbin
      by_cases hqp : q = p
      · subst hqp
        have hb : ret.binary = none := by simpa [upd] using hbin
        exact (hdone hnew (herr hlog)).1 hb
      · exact h.finNone q hq hnew (hold q hqp hlog) (by simpa [upd, hqp] using hbin)
    · intro q hq hnew hlog b hbin
      by_cases hqp : q = p
      · subst hqp
        have hb : ret.binary = some b := by simpa [upd] using hbin
        have hd := (hdone hnew (herr hlog)).2 b hb
        refine ⟨hd.1, fun _ => hd.2, fun hw' => absurd ?_ hw'⟩
        have ho : outcomeOf ret = .ok true := by unfold outcomeOf; rw [herr hlog, hb]; rfl
        refine .inl ⟨i, ?_⟩
        rw [ho] at hr'
        simp only [Job.step, stepFinish, hi] at hr'
        cases hr'
        exact (holding_set hi i).2 (.inl ⟨rfl, rfl⟩)
      · have hbin' : s.bins q = some b := by simpa [upd, hqp] using hbin
        obtain ⟨h1, h2, h3⟩ := h.finSome q hq hnew (hold q hqp hlog) b hbin'
        obtain ⟨w1, w2⟩ := waiting_step hr' q
        refine ⟨h1, fun hw' => ?_, fun hw' => ?_⟩
        · rcases w2 hw' with hw' | ⟨k, hke, hkr⟩
          · exact h2 hw'
          · have hke' : k = i := by injection hke with a b; exact a.symm
            subst hke'
            rw [hi] at hkr; cases hkr
            exact absurd rfl hqp
        · have : ¬ Waiting s.run q := by
            intro hw''
            rcases w1 hw'' with hw'' | ⟨ok, hok, _⟩
            · exact hw' hw''
            · cases hok
          rcases h3 this with h3 | h3
          · exact .inl h3
          · exact .inr (Nat.lt_of_lt_of_le h3 (leaked_mono hr').1)
  case mkStore p b _ hu hb =>
    obtain ⟨⟨x, hbx, hx⟩, hpa⟩ := ha.bins p b hb
    have hpl := jobRun_planned ha.jobs p hpa
    obtain ⟨_, hst, hsd, hne⟩ := hl.ball p hpl x hx
    rw [← hbx] at hst hne
    have hpi : p ∈ s.run.installed := updPkg_installed hs (by rw [hu]; rfl)
    have hpw : Waiting s.run p := .inr (.inr (.inr (.inr hu)))
    have hother : ∀ q, q ≠ e.store p b → (q = e.storeDir p → s.fs q ≠ none) →
        (s.fs.mkdir (e.storeDir p)) q = s.fs q := by
      intro q h1 h2
      rcases mkdir_cases s.fs (e.storeDir p) q with h | ⟨h3, _, h4⟩
      · exact h
      · exact absurd h3 (h2 h4)
    have hball : ∀ q z, InTmp e q z →
        (s.fs.mkdir (e.storeDir p)) z = s.fs z := by
      rintro q z ⟨y, rfl, _⟩
      have ht : e.tmp q <+: e.tmp q ++ [y] := List.prefix_append _ _
      refine hother _ ?_ ?_
      · intro hh; rw [hh] at ht; exact hst.2.1 q ht
      · intro hh; rw [hh] at ht; exact absurd ht (hsd.2.1 q)
    have hkp : ∀ q ∈ Job.plan e.job, q ≠ p →
        Keeps2 e q s.fs (s.fs.mkdir (e.storeDir p)) := by
      intro q hq hqp
      refine ⟨?_, fun z hz _ => hball q z hz⟩
      intro z hz hzn
      exact hother z (((hne q hq).2 z hz).2 (Ne.symm hqp)) (fun _ => hzn)
    refine ⟨?_, ?_, ?_, ?_⟩
    · intro k q hk hnew
      have hqp : q ≠ p := by rintro rfl; exact (running_not_finished hs hk).2 hpi
      exact (h.phase k q hk hnew).kept (fun b hb => (ha.bin k q hk b hb).1) (hkp q (running_planned hw hs hk) hqp)
    · intro q hq hlog z hz h0
      have hqp : q ≠ p := by rintro rfl; exact hlog (installed_finished hs hpi)
      have h1 := h.keep q hq hlog z hz h0
      show _ ≠ none
      dsimp only
      rw [(hkp q hq hqp).cached z hz h1]
      exact h1
    · intro q hq hnew hlog hbin
      have hqp : q ≠ p := by rintro rfl; rw [hb] at hbin; cases hbin
      exact (h.finNone q hq hnew hlog hbin).kept (hkp q hq hqp)
    · intro q hq hnew hlog z hbin
      obtain ⟨h1, h2, h3⟩ := h.finSome q hq hnew hlog z hbin
      refine ⟨h1, fun hw' => (h2 hw').of_eq (hball q z (ha.bins q z hbin).1), fun hw' => ?_⟩
      have hqp : q ≠ p := by rintro rfl; exact hw' hpw
      rcases h3 hw' with h3 | h3
      · exact .inl (h3.kept (hkp q hq hqp))
      · exact .inr h3
  case copying p b c n _ hu hb hc hd =>
    obtain ⟨⟨x, hbx, hx⟩, hpa⟩ := ha.bins p b hb
    have hpl := jobRun_planned ha.jobs p hpa
    obtain ⟨_, hst, hsd, hne⟩ := hl.ball p hpl x hx
    rw [← hbx] at hst hne
    have hpi : p ∈ s.run.installed := updPkg_installed hs (by rw [hu]; rfl)
    have hpw : Waiting s.run p := .inr (.inr (.inr (.inr hu)))
    have hother : ∀ q, q ≠ e.store p b → (q = e.storeDir p → s.fs q ≠ none) →
        ((s.fs.mkdir (e.storeDir p)).set (e.store p b) (.file (c.take n))) q = s.fs q := by
      intro q h1 h2
      unfold Fs.set
      rw [if_neg h1]
      rcases mkdir_cases s.fs (e.storeDir p) q with h | ⟨h3, _, h4⟩
      · exact h
      · exact absurd h3 (h2 h4)
    have hball : ∀ q z, InTmp e q z →
        ((s.fs.mkdir (e.storeDir p)).set (e.store p b) (.file (c.take n))) z = s.fs z := by
      rintro q z ⟨y, rfl, _⟩
      have ht : e.tmp q <+: e.tmp q ++ [y] := List.prefix_append _ _
      refine hother _ ?_ ?_
      · intro hh; rw [hh] at ht; exact hst.2.1 q ht
      · intro hh; rw [hh] at ht; exact absurd ht (hsd.2.1 q)
    have hkp : ∀ q ∈ Job.plan e.job, q ≠ p →
        Keeps2 e q s.fs ((s.fs.mkdir (e.storeDir p)).set (e.store p b) (.file (c.take n))) := by
      intro q hq hqp
      refine ⟨?_, fun z hz _ => hball q z hz⟩
      intro z hz hzn
      exact hother z (((hne q hq).2 z hz).2 (Ne.symm hqp)) (fun _ => hzn)
    refine ⟨?_, ?_, ?_, ?_⟩
    · intro k q hk hnew
      have hqp : q ≠ p := by rintro rfl; exact (running_not_finished hs hk).2 hpi
      exact (h.phase k q hk hnew).kept (fun b hb => (ha.bin k q hk b hb).1) (hkp q (running_planned hw hs hk) hqp)
    · intro q hq hlog z hz h0
      have hqp : q ≠ p := by rintro rfl; exact hlog (installed_finished hs hpi)
      have h1 := h.keep q hq hlog z hz h0
      show _ ≠ none
      dsimp only
      rw [(hkp q hq hqp).cached z hz h1]
      exact h1
    · intro q hq hnew hlog hbin
      have hqp : q ≠ p := by rintro rfl; rw [hb] at hbin; cases hbin
      exact (h.finNone q hq hnew hlog hbin).kept (hkp q hq hqp)
    · intro q hq hnew hlog z hbin
      obtain ⟨h1, h2, h3⟩ := h.finSome q hq hnew hlog z hbin
      refine ⟨h1, fun hw' => (h2 hw').of_eq (hball q z (ha.bins q z hbin).1), fun hw' => ?_⟩
      have hqp : q ≠ p := by rintro rfl; exact hw' hpw
      rcases h3 hw' with h3 | h3
      · exact .inl (h3.kept (hkp q hq hqp))
      · exact .inr h3
  case copied p b c r _ hu hb hc hc' hr' =>
    obtain ⟨x, hbx, hx⟩ := (ha.bins p b hb).1
    have hpl := jobRun_planned ha.jobs p (ha.bins p b hb).2
    have hpi : p ∈ s.run.installed := updPkg_installed hs (by rw [hu]; rfl)
    have hpw : Waiting s.run p := .inr (.inr (.inr (.inr hu)))
    have htmp : e.tmp p <+: b := ⟨[x], hbx.symm⟩
    have hsafe : ∀ q, SafePlace e Scratch q → q ≠ b := by
      rintro q hq rfl; exact hq.2.1 p htmp
    have hkp : ∀ q ∈ Job.plan e.job, q ≠ p → Keeps2 e q s.fs (fun q => if q = b then none else s.fs q) := by
      intro q hq hqp
      refine ⟨?_, ?_⟩
      · intro z hz _
        rw [if_neg (hsafe z (hft.cached q hq z hz).1)]
      · rintro z ⟨y, rfl, _⟩ _
        rw [if_neg]
        rintro rfl
        exact not_prefix_ext (hl.tmpTmp q hq p hpl hqp) htmp (List.prefix_append _ _)
    have hlog' : ∀ q, LogEntry.finished q true ∈ r.log → LogEntry.finished q true ∈ s.run.log := fun q => log_of_step hr' (by simp)
    refine ⟨?_, ?_, ?_, ?_⟩
    · intro k q hk hnew
      have hk' := workers_running_of_step hr' (by simp) hk
      have hqp : q ≠ p := by rintro rfl; exact (running_not_finished hs hk').2 hpi
      exact (h.phase k q hk' hnew).kept (fun b hb => (ha.bin k q hk' b hb).1) (hkp q (running_planned hw hs hk') hqp)
    · intro q hq hlog z hz h0
      have hlog2 := finished_mono hr' hlog
      have h1 := h.keep q hq hlog2 z hz h0
      dsimp only
      rw [if_neg (hsafe z (hft.cached q hq z hz).1)]
      exact h1
    · intro q hq hnew hlog hbin
      have hqp : q ≠ p := by rintro rfl; rw [hb] at hbin; cases hbin
      exact (h.finNone q hq hnew (hlog' q hlog) hbin).kept (hkp q hq hqp)
    · intro q hq hnew hlog z hbin
      obtain ⟨h1, h2, h3⟩ := h.finSome q hq hnew (hlog' q hlog) z hbin
      obtain ⟨w1, w2⟩ := waiting_step hr' q
      by_cases hqp : q = p
      · subst hqp
        rw [hb] at hbin; cases hbin
        have hin : InCache e Holds q (fun q => if q = b then none else s.fs q) := by
          obtain ⟨y, hy, hyh⟩ := h2 hpw
          rw [hc] at hy; cases hy
          have hpc := hplace q hq h1 x hx
          rw [← hbx] at hpc
          refine ⟨_, hpc, c, ?_, hyh⟩
          dsimp only
          rw [if_neg (hsafe _ (hft.cached q hq _ hpc).1)]
          exact hc'
        refine ⟨h1, fun hw' => ?_, fun _ => .inl hin⟩
        exfalso
        have hv := reach_inv (reach_step hs hr')
        have h5 := hv.req q
        have h6 := hv.once q
        have hri : r.installed = s.run.installed ∧ r.updater = .finish := by
          simp only [Job.step, stepUpdCopy, hu] at hr'
          simp at hr'; subst hr'; simp
        have h7 : 1 ≤ r.installed.count q := by rw [hri.1]; exact List.count_pos_iff.2 hpi
        rcases hw' with ⟨k, hk⟩ | hq' | ⟨_, hu'⟩ | ⟨_, _, hu'⟩ | hu'
        · have : 1 ≤ r.workers.count (.holding q (.ok true)) := List.count_pos_iff.2 (List.mem_of_getElem? hk)
          unfold pendOk at h5; omega
        · have : 1 ≤ r.updQ.count (q, .ok true) := List.count_pos_iff.2 hq'
          unfold pendOk at h5; omega
        · dsimp only at hu'; rw [hri.2] at hu'; cases hu'
        · dsimp only at hu'; rw [hri.2] at hu'; cases hu'
        · dsimp only at hu'; rw [hri.2] at hu'; cases hu'
      · refine ⟨h1, fun hw' => ?_, fun hw' => ?_⟩
        · rcases w2 hw' with hw' | ⟨k, hke, _⟩
          · exact (h2 hw').kept (ha.bins q z hbin).1 (hkp q hq hqp)
          · cases hke
        · have : ¬ Waiting s.run q := by
            intro hw''
            rcases w1 hw'' with hw'' | ⟨ok, _, hok⟩
            · exact hw' hw''
            · rw [hu] at hok; cases hok; exact hqp rfl
          rcases h3 this with h3 | h3
          · exact .inl (h3.kept (hkp q hq hqp))
          · exact .inr (Nat.lt_of_lt_of_le h3 (leaked_mono hr').1)
  case copyFails r _ hr' =>
    have hleak : 0 < r.leaked := by
      simp only [Job.step, stepUpdCopy] at hr'
      split at hr'
      · simp at hr'; subst hr'; simp
      · cases hr'
    refine ⟨fun k q hk hnew => h.phase k q (workers_running_of_step hr' (by simp) hk) hnew,
      fun p hp' hlog => h.keep p hp' (finished_mono hr' hlog),
      fun p hp hnew hlog hbin => h.finNone p hp hnew (log_of_step hr' (by simp) hlog) hbin, ?_⟩
    intro q hq hnew hlog z hbin
    obtain ⟨h1, h2, _⟩ := h.finSome q hq hnew (log_of_step hr' (by simp) hlog) z hbin
    refine ⟨h1, fun hw' => ?_, fun _ => .inr hleak⟩
    rcases (waiting_step hr' q).2 hw' with hw' | ⟨k, hke, _⟩
    · exact h2 hw'
    · cases hke

theorem qreach_invC {e : QEnv} {Scratch : Path → Prop} {Complete : Str → (Path → Option Node) → Prop} {Holds : Str → Str → Prop}
    (hl : Layout e Scratch) (hr : RContract e Scratch Complete Holds)
    (hw : WellFormed e.job) (hn : ∀ p ∈ Job.plan e.job, ¬ IsLock p) {fs0 : Fs} (hft : FilesThere e Scratch Complete Holds fs0)
    (hplace : ∀ p ∈ Job.plan e.job, NotCached e p fs0 → ∀ x, binaryExtOs e.ie.platform.os (basePath (e.src p)) e.ie.rPlatform = some x →
      e.ie.cachedBinary (e.download p).metadata = some (e.store p (e.tmp p ++ [x])))
    {s : QState} (h : QReach e fs0 s) : QInvC e Holds fs0 s := by
  have h' : QReach e fs0 s := h
  induction h with
  | refl =>
    refine ⟨?_, fun _ _ _ _ _ h => h, ?_, ?_⟩
    · intro i p _ _; simp [QEnv.init, PhaseBin]
    · intro p _ _ h; simp [QEnv.init, Job.init] at h
    · intro p _ _ h; simp [QEnv.init, Job.init] at h
  | @tail s1 s2 hs hst ih =>
    obtain ⟨act, ha⟩ := qreach_invA hl hr hw hs
    exact qinvC_step hl hr hw hn hft hplace (qreach_reach hs) ha (qreach_invB hl hr hw hn hft hs)
      (qreach_invB hl hr hw hn hft (hs.tail hst)) (ih hs) hst

end Pkgr
