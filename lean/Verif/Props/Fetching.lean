/- C47: downloads interleaved step by step; C141: several runs sharing a package cache at the same time. -/
import Verif.Proof.Fetching
import Verif.Props.Download

namespace Pkgr
open Spec

/-! ## C47, without the assumption that a download is one step -/

theorem fine_run_inv {e : DlEnv} {ds : List PkgDl} (P : FineState → Prop)
    (hstep : ∀ s s' ev, P s → e.fineStep ds s ev = some s' → P s') (evs : List FineEvent) (s s' : FineState) (hs : P s)
    (h : e.fineRun ds s evs = some s') : P s' := by
  induction evs generalizing s with
  | nil => cases h; exact hs
  | cons ev evs ih =>
    rw [DlEnv.fineRun] at h
    split at h
    · cases h
    · rename_i s1 h1; exact ih s1 (hstep _ _ _ hs h1) h

/-- A program that ended with an error has not returned. -/
theorem fine_returned_alive {e : DlEnv} {ds : List PkgDl} {fs : Fs} {s : FineState} (h : FineReach e ds fs s) (hr : s.returned = true) :
    s.dead = false := by
  obtain ⟨evs, hrun⟩ := h
  refine fine_run_inv (e := e) (ds := ds) (fun s => s.returned = true → s.dead = false) ?_ evs _ _ (by simp [DlEnv.fineInit]) hrun hr
  intro s s' ev hp hs hr'
  unfold DlEnv.fineStep at hs
  split at hs
  · cases hs
  rename_i hdr
  simp only [Bool.or_eq_true, not_or, Bool.not_eq_true] at hdr
  cases ev with
  | spawn => dsimp only at hs; split at hs <;> simp only [Option.some.injEq, reduceCtorEq] at hs; subst hs; exact hdr.1
  | acquire i => dsimp only at hs; split at hs <;> simp only [Option.some.injEq, reduceCtorEq] at hs; subst hs; exact hdr.1
  | io i a =>
    dsimp only at hs
    split at hs
    · simp only [Option.map_eq_some_iff] at hs
      obtain ⟨r, _, hm⟩ := hs
      unfold FineState.moved at hm
      split at hm <;> subst hm
      · exact absurd hr' (by simp [hdr.2])
      · exact hdr.1
    · cases hs
  | finish i =>
    dsimp only at hs
    split at hs
    · simp only [Option.some.injEq] at hs; subst hs; exact hdr.1
    · cases hs
  | ret => dsimp only at hs; split at hs <;> simp only [Option.some.injEq, reduceCtorEq] at hs; subst hs; exact hdr.1

/-- C47: at most ten downloads are in progress at any moment, whatever the interleaving of their single steps. -/
theorem C47_fine_at_most_ten (e : DlEnv) (ds : List PkgDl) (fs : Fs) (s : FineState) (h : FineReach e ds fs s) :
    s.phases.countP FinePhase.isHolding ≤ 10 := by
  obtain ⟨evs, hrun⟩ := h
  refine fine_run_inv (e := e) (ds := ds) (fun s => s.phases.countP FinePhase.isHolding ≤ 10) ?_ evs _ _ (by simp [DlEnv.fineInit]) hrun
  have hset : ∀ (l : List FinePhase) (i : Nat) (x : FinePhase), (l.set i x).countP FinePhase.isHolding ≤ l.countP FinePhase.isHolding + 1 := by
    intro l
    induction l with
    | nil => intro i x; simp
    | cons y l ih =>
      intro i x
      cases i with
      | zero => rw [List.set_cons_zero, List.countP_cons, List.countP_cons]; split <;> split <;> omega
      | succ i =>
        rw [List.set_cons_succ, List.countP_cons, List.countP_cons]
        have := ih i x
        omega
  have hsame : ∀ (l : List FinePhase) (i : Nat) (x y : FinePhase), l[i]? = some y → y.isHolding = true →
      (l.set i x).countP FinePhase.isHolding ≤ l.countP FinePhase.isHolding := by
    intro l
    induction l with
    | nil => intro i x y h; simp at h
    | cons z l ih =>
      intro i x y h hy
      cases i with
      | zero =>
        simp only [List.getElem?_cons_zero, Option.some.injEq] at h
        subst h
        rw [List.set_cons_zero, List.countP_cons, List.countP_cons, if_pos hy]
        split <;> omega
      | succ i =>
        rw [List.getElem?_cons_succ] at h
        rw [List.set_cons_succ, List.countP_cons, List.countP_cons]
        have := ih i x y h hy
        omega
  intro s s' ev hp hs
  unfold DlEnv.fineStep at hs
  split at hs
  · cases hs
  cases ev with
  | spawn =>
    dsimp only at hs
    split at hs <;> simp only [Option.some.injEq, reduceCtorEq] at hs
    subst hs
    simpa [List.countP_append, List.countP_cons, FinePhase.isHolding] using hp
  | acquire i =>
    dsimp only at hs
    split at hs <;> simp only [Option.some.injEq, reduceCtorEq] at hs
    rename_i hc
    subst hs
    have := hset s.phases i (.holding .start)
    have h10 : semCap = 10 := rfl
    dsimp only
    omega
  | io i a =>
    dsimp only at hs
    split at hs
    · rename_i pc d hpc _
      simp only [Option.map_eq_some_iff] at hs
      obtain ⟨r, _, hm⟩ := hs
      unfold FineState.moved at hm
      split at hm <;> subst hm
      · exact hp
      · have := hsame s.phases i (.holding r.2) _ hpc rfl
        dsimp only
        omega
    · cases hs
  | finish i =>
    dsimp only at hs
    split at hs
    · rename_i r d hpc _
      simp only [Option.some.injEq] at hs
      subst hs
      have := hsame s.phases i .done _ hpc rfl
      dsimp only
      omega
    · cases hs
  | ret =>
    dsimp only at hs
    split at hs <;> simp only [Option.some.injEq, reduceCtorEq] at hs
    subst hs
    exact hp

/-- C47: it does not matter that downloads are many steps: however the checks, requests and single writes of the downloads are
interleaved, when they return, the table and the files are, for each package, what downloading it alone gives, and nothing
else. -/
theorem C47_fine_schedule_independent (e : DlEnv) (ds : List PkgDl) (fs : Fs) (s : FineState)
    (hnames : (ds.map fun d => d.package.package).Nodup) (hdests : (ds.map e.dest).Nodup)
    (h : FineReach e ds fs s) (hr : s.returned = true) :
    (∀ d ∈ ds, GoMap.get? s.result d.package.package = entryOf (alone e ds fs d).2 ∧
      s.fs (e.dest d) = (alone e ds fs d).1 (e.dest d)) ∧
    (∀ k, (∀ d ∈ ds, d.package.package ≠ k) → GoMap.get? s.result k = none) ∧
    (∀ p, (∀ d ∈ ds, e.dest d ≠ p) → s.fs p = (e.mkDirs fs ds) p) := by
  obtain ⟨t, hsim, ht⟩ := fineSim_reach hdests h (fine_returned_alive h hr)
  have htr : t.returned = true := by rw [hsim.ret]; exact hr
  obtain ⟨_, hdone⟩ := all_done ht htr
  have hfs : s.fs = t.fs := by
    funext p
    apply hsim.others
    intro i d pc _ hpc
    have : DlPhase.holding ∈ t.phases := by
      rw [hsim.phases]
      exact List.mem_map.2 ⟨_, List.mem_of_getElem? hpc, rfl⟩
    exact absurd (hdone _ this) (by simp)
  have key := C47_schedule_independent e ds fs t hnames hdests ht htr
  rw [hfs, ← hsim.result]
  exact key

/-- C47: the finely interleaved downloads never get stuck: unless the program died, some step is possible until they return. -/
theorem C47_fine_progress (e : DlEnv) (ds : List PkgDl) (fs : Fs) (s : FineState) (hdests : (ds.map e.dest).Nodup)
    (h : FineReach e ds fs s) (hd : s.dead = false) (hr : s.returned = false) : ∃ ev s', e.fineStep ds s ev = some s' := by
  obtain ⟨t, hsim, ht⟩ := fineSim_reach hdests h hd
  have hcount := dlCount_reach ht
  have hlen : s.phases.length ≤ ds.length := by have := hcount.len; rw [hsim.phases] at this; simpa using this
  have hgo : ¬ (s.dead || s.returned) = true := by simp [hd, hr]
  by_cases hh : ∃ (i : Nat) (pc : FetchPc), s.phases[i]? = some (.holding pc)
  · obtain ⟨i, pc, hi⟩ := hh
    have hil := (List.getElem?_eq_some_iff.1 hi).1
    obtain ⟨d, hdi⟩ : ∃ d, ds[i]? = some d := ⟨ds[i], List.getElem?_eq_some_iff.2 ⟨by omega, rfl⟩⟩
    have hjob := hsim.jobs i d pc hdi hi
    have hio : ∀ a r, e.fetchAct (e.resolved d) (e.dest d) s.fs pc a = some r → ∃ ev s', e.fineStep ds s ev = some s' := by
      intro a r ha
      refine ⟨.io i a, s.moved i r, ?_⟩
      unfold DlEnv.fineStep
      rw [if_neg hgo]
      dsimp only
      rw [hi, hdi]
      dsimp only
      rw [ha]
      rfl
    cases pc with
    | start =>
      by_cases hx : s.fs.ex (e.dest d) = true
      · exact hio .check _ (by simp only [DlEnv.fetchAct]; rw [if_pos hx])
      · exact hio .check _ (by simp only [DlEnv.fetchAct]; rw [if_neg hx])
    | asking =>
      have : ∃ r, e.fetchAct (e.resolved d) (e.dest d) s.fs .asking .reply = some r := by
        simp only [DlEnv.fetchAct]; split <;> exact ⟨_, rfl⟩
      exact hio _ _ this.choose_spec
    | opening c b =>
      have : ∃ r, e.fetchAct (e.resolved d) (e.dest d) s.fs (.opening c b) .create = some r := by
        simp only [DlEnv.fetchAct]; split <;> exact ⟨_, rfl⟩
      exact hio _ _ this.choose_spec
    | writing k c b =>
      simp only [JobAt] at hjob
      obtain ⟨_, _, _, hk, hf⟩ := hjob
      by_cases hkl : k = c.length
      · exact hio .close _ (by simp only [DlEnv.fetchAct]; rw [if_pos hkl])
      · exact hio (.write 1) _ (by simp only [DlEnv.fetchAct]; rw [if_pos ⟨by omega, by omega⟩, hf])
    | ended r =>
      refine ⟨.finish i, { s with phases := s.phases.set i .done, wg := s.wg - 1, result := storeResult s.result d.package.package r }, ?_⟩
      unfold DlEnv.fineStep
      rw [if_neg hgo]
      dsimp only
      rw [hi, hdi]
  · have hno : ∀ x ∈ s.phases, x.isHolding = false := by
      intro x hx
      obtain ⟨i, hi⟩ := List.getElem?_of_mem hx
      cases x with
      | holding pc => exact absurd ⟨i, pc, hi⟩ hh
      | waiting => rfl
      | done => rfl
    have hz : s.phases.countP FinePhase.isHolding = 0 := by
      rw [List.countP_eq_zero]; intro x hx; simp [hno x hx]
    by_cases hw : FinePhase.waiting ∈ s.phases
    · obtain ⟨i, hi⟩ := List.getElem?_of_mem hw
      refine ⟨.acquire i, { s with phases := s.phases.set i (.holding .start) }, ?_⟩
      unfold DlEnv.fineStep
      rw [if_neg hgo]
      dsimp only
      rw [if_pos ⟨hi, by rw [hz]; decide⟩]
    · by_cases hl : s.phases.length < ds.length
      · refine ⟨.spawn, { s with phases := s.phases ++ [.waiting], wg := s.wg + 1 }, ?_⟩
        unfold DlEnv.fineStep
        rw [if_neg hgo]
        dsimp only
        rw [if_pos hl]
      · refine ⟨.ret, { s with returned := true }, ?_⟩
        unfold DlEnv.fineStep
        rw [if_neg hgo]
        dsimp only
        rw [if_pos]
        refine ⟨by omega, ?_⟩
        have hwg := hcount.wg hsim.dead'
        have h1 : t.phases.count .holding = 0 := by rw [hsim.phases, coarse_count]; exact hz
        have h2 : t.phases.count .waiting = 0 := by
          rw [List.count_eq_zero, hsim.phases]
          intro hm
          obtain ⟨x, hx, hxw⟩ := List.mem_map.1 hm
          cases x with
          | waiting => exact hw hx
          | holding pc => cases hxw
          | done => cases hxw
        rw [h1, h2, hsim.wg] at hwg
        simpa using hwg

/-- Non-vacuity: two packages downloaded in turns, a few characters at a time. -/
example : ∃ s, FineReach (toyDl (.body (s%"data") true)) [toyPkg (s%"a"), toyPkg (s%"b")] (fun _ => none) s ∧ s.returned = true ∧
    s.result.map Prod.fst = [s%"a", s%"b"] := by
  refine ⟨_, ⟨[.spawn, .acquire 0, .io 0 .check, .spawn, .acquire 1, .io 1 .check, .io 0 .reply, .io 1 .reply, .io 1 .create, .io 0 .create,
    .io 0 (.write 1), .io 1 (.write 4), .io 0 (.write 2), .io 1 .close, .finish 1, .io 0 (.write 1), .io 0 .close, .finish 0, .ret], rfl⟩, rfl, by decide⟩

/-! ## C141: several runs at the same time -/

theorem fetch_run_inv {js : List FetchJob} (P : Fetching → Prop) (hstep : ∀ s s' i a, P s → fetchStep js s i a = some s' → P s')
    (evs : List (Nat × FetchAct)) (s s' : Fetching) (hs : P s) (h : fetchRun js s evs = some s') : P s' := by
  induction evs generalizing s with
  | nil => cases h; exact hs
  | cons ev evs ih =>
    obtain ⟨i, a⟩ := ev
    rw [fetchRun] at h
    split at h
    · cases h
    · rename_i s1 h1; exact ih s1 (hstep _ _ _ _ hs h1) h

/-- A step is a step of one download. -/
theorem fetchStep_some {js : List FetchJob} {s s' : Fetching} {i : Nat} {a : FetchAct} (h : fetchStep js s i a = some s') :
    ∃ j pc fs' pc', js[i]? = some j ∧ s.pcs[i]? = some pc ∧ j.env.fetchAct j.d j.dest s.fs pc a = some (fs', pc') ∧
      s' = { fs := fs', pcs := s.pcs.set i pc' } := by
  unfold fetchStep at h
  split at h
  · rename_i j pc hj hp
    simp only [Option.map_eq_some_iff] at h
    obtain ⟨⟨fs', pc'⟩, ha, rfl⟩ := h
    exact ⟨j, pc, fs', pc', hj, hp, ha, rfl⟩
  · cases h

theorem fetchInit_pc (js : List FetchJob) (fs : Fs) (i : Nat) (pc : FetchPc) (h : (fetchInit js fs).pcs[i]? = some pc) : pc = .start := by
  simp only [fetchInit, List.getElem?_map, Option.map_eq_some_iff] at h
  obtain ⟨_, _, rfl⟩ := h
  rfl

/-- C141: a package file that is in the cache when the runs begin stays as it is at every moment of all of them; so does
everything that is not the destination of one of the downloads. -/
theorem C141_existing_kept (js : List FetchJob) (fs : Fs) (s : Fetching) (h : Together js fs s) (p : Path)
    (hp : fs p ≠ none ∨ ∀ j ∈ js, j.dest ≠ p) : s.fs p = fs p := by
  obtain ⟨evs, hr⟩ := h
  refine (fetch_run_inv (js := js) (fun s => s.fs p = fs p ∧ (fs p ≠ none → ∀ (i : Nat) (j : FetchJob) (pc : FetchPc), js[i]? = some j →
    j.dest = p → s.pcs[i]? = some pc → pc = .start ∨ Returned pc)) ?_ evs _ _ ⟨rfl, fun _ i j pc _ _ hpc => Or.inl (fetchInit_pc js fs i pc hpc)⟩ hr).1
  intro s s' i a hs hst
  obtain ⟨j, pc, fs', pc', hj, hpc, ha, rfl⟩ := fetchStep_some hst
  have hil := (List.getElem?_eq_some_iff.1 hpc).1
  by_cases hd : j.dest = p
  · have hex : fs p ≠ none := by
      rcases hp with hp | hp
      · exact hp
      · exact absurd hd (hp j (List.mem_of_getElem? hj))
    have hnow : fs' p = fs p ∧ (pc' = .start ∨ Returned pc') := by
      rcases hs.2 hex i j pc hj hd hpc with rfl | ⟨r, rfl⟩
      · cases a <;> simp only [DlEnv.fetchAct, reduceCtorEq] at ha
        have hx : s.fs.ex j.dest = true := by
          unfold Fs.ex
          rw [hd, hs.1]
          exact Option.isSome_iff_ne_none.2 hex
        rw [if_pos hx] at ha
        cases ha
        exact ⟨hs.1, Or.inr ⟨_, rfl⟩⟩
      · cases a <;> simp [DlEnv.fetchAct] at ha
    refine ⟨hnow.1, fun _ i' j' q hj' hd' hq => ?_⟩
    change (s.pcs.set i pc')[i']? = _ at hq
    rw [List.getElem?_set] at hq
    split at hq
    · simp only [hil, if_true, Option.some.injEq] at hq
      subst hq
      exact hnow.2
    · exact hs.2 hex i' j' q hj' hd' hq
  · refine ⟨by show fs' p = _; rw [fetchAct_other ha p (fun hh => hd hh.symm)]; exact hs.1, fun hex i' j' q hj' hd' hq => ?_⟩
    change (s.pcs.set i pc')[i']? = _ at hq
    rw [List.getElem?_set] at hq
    split at hq
    · rename_i hii
      subst hii
      rw [hj] at hj'
      cases hj'
      exact absurd hd' hd
    · exact hs.2 hex i' j' q hj' hd' hq

/-- C141, runs that do not share a file: a download whose destination no other download has ends, whatever the others do, as
it would have ended alone, with the same file. -/
theorem C141_apart_partial (js : List FetchJob) (fs : Fs) (s : Fetching) (h : Together js fs s) (i : Nat) (j : FetchJob) (r : DlResult)
    (hj : js[i]? = some j) (halone : ∀ (i' : Nat) (j' : FetchJob), js[i']? = some j' → j'.dest = j.dest → i' = i)
    (hr : s.pcs[i]? = some (.ended r)) :
    r = (undisturbed j fs).2 ∧ s.fs j.dest = (undisturbed j fs).1 j.dest := by
  obtain ⟨evs, hrun⟩ := h
  have key := fetch_run_inv (js := js) (fun s => (∀ p, s.fs.isDir p = fs.isDir p) ∧
    ∀ pc, s.pcs[i]? = some pc → JobAt j.env j.d j.dest fs s.fs pc) ?_ evs _ _ ⟨fun _ => rfl, fun pc hpc => ?_⟩ hrun
  · have := key.2 _ hr
    simp only [JobAt] at this
    exact ⟨this.1.symm, this.2⟩
  · intro s s' i' a hs hst
    obtain ⟨j', pc, fs', pc', hj', hpc, ha, rfl⟩ := fetchStep_some hst
    have hil := (List.getElem?_eq_some_iff.1 hpc).1
    refine ⟨fun p => by rw [fetchAct_isDir ha]; exact hs.1 p, fun q hq => ?_⟩
    change (s.pcs.set i' pc')[i]? = _ at hq
    rw [List.getElem?_set] at hq
    split at hq
    · rename_i hii
      subst hii
      simp only [hil, if_true, Option.some.injEq] at hq
      subst hq
      rw [hj] at hj'
      cases hj'
      exact jobAt_step hs.1 (hs.2 pc hpc) ha
    · rename_i hii
      refine jobAt_congr rfl (fun _ => rfl) ?_ (hs.2 q hq)
      apply fetchAct_other ha
      intro hh
      exact hii (halone i' j' hj' hh.symm)
  · have := fetchInit_pc js fs i pc hpc
    subst this
    rfl

/-! ### Writing at an offset -/

theorem writeAt_length (f w : Str) (k : Nat) : (writeAt f k w).length = max f.length (k + w.length) := by
  unfold writeAt
  simp only [List.length_append, List.length_take, List.length_replicate, List.length_drop]
  omega

theorem writeAt_at (f w : Str) (k m : Nat) (h1 : k ≤ m) (h2 : m < k + w.length) : (writeAt f k w)[m]? = w[m - k]? := by
  unfold writeAt
  have hl : (f.take k ++ List.replicate (k - f.length) (Char.ofNat 0)).length = k := by
    simp only [List.length_append, List.length_take, List.length_replicate]; omega
  rw [List.getElem?_append_left (by simp only [List.length_append] at hl ⊢; omega), List.getElem?_append_right (by omega), hl]

theorem writeAt_other (f w : Str) (k m : Nat) (h0 : m < f.length) (h : m < k ∨ k + w.length ≤ m) : (writeAt f k w)[m]? = f[m]? := by
  unfold writeAt
  have hl : (f.take k ++ List.replicate (k - f.length) (Char.ofNat 0)).length = k := by
    simp only [List.length_append, List.length_take, List.length_replicate]; omega
  rcases h with h | h
  · rw [List.getElem?_append_left (by simp only [List.length_append] at hl ⊢; omega), List.getElem?_append_left (by omega),
      List.getElem?_append_left (by simp only [List.length_take]; omega), List.getElem?_take, if_pos h]
  · rw [List.getElem?_append_right (by simp only [List.length_append] at hl ⊢; omega), List.length_append, hl, List.getElem?_drop]
    congr 1
    omega

/-- What is known at every moment about the file `D` that several downloads fetch, all of them the same content `c`. -/
structure Settling (js : List FetchJob) (D : Path) (c : Str) (fs : Fs) (s : Fetching) : Prop where
  dirs : ∀ p, s.fs.isDir p = fs.isDir p
  opening : ∀ (i : Nat) (j : FetchJob) (c' : Str) (b : Bool), js[i]? = some j → j.dest = D → s.pcs[i]? = some (.opening c' b) → c' = c ∧ b = true
  writing : ∀ (i : Nat) (j : FetchJob) (k : Nat) (c' : Str) (b : Bool), js[i]? = some j → j.dest = D → s.pcs[i]? = some (.writing k c' b) →
    c' = c ∧ b = true ∧ k ≤ c.length ∧ s.fs D ≠ none
  ended : ∀ (i : Nat) (j : FetchJob) (r : DlResult), js[i]? = some j → j.dest = D → s.pcs[i]? = some (.ended r) →
    s.fs D ≠ none ∧ ∃ dl, r = .ok dl ∧ dl.path = .abs D
  file : ∀ n, s.fs D = some n → ∃ f, n = .file f ∧ f.length ≤ c.length ∧ ∀ m, m < c.length → f[m]? = c[m]? ∨
    ∃ (i : Nat) (j : FetchJob) (k : Nat), js[i]? = some j ∧ j.dest = D ∧ s.pcs[i]? = some (.writing k c true) ∧ k ≤ m

theorem settling_step {js : List FetchJob} {D : Path} {c : Str} {fs : Fs} (hdir : fs.isDir (dirPath D) = true)
    (hc : ∀ j ∈ js, j.dest = D → GivesWhole j c) (hD : fs D = none) {s s' : Fetching} {i : Nat} {a : FetchAct} (hs : Settling js D c fs s)
    (hst : fetchStep js s i a = some s') : Settling js D c fs s' := by
  obtain ⟨j, pc, fs', pc', hj, hpc, ha, rfl⟩ := fetchStep_some hst
  have hil := (List.getElem?_eq_some_iff.1 hpc).1
  have hself : (s.pcs.set i pc')[i]? = some pc' := by simp [hil]
  have hoth : ∀ i', i' ≠ i → (s.pcs.set i pc')[i']? = s.pcs[i']? := fun i' hne => by rw [List.getElem?_set, if_neg (Ne.symm hne)]
  have hdirs' : ∀ p, fs'.isDir p = fs.isDir p := fun p => by rw [fetchAct_isDir ha]; exact hs.dirs p
  by_cases hd : j.dest = D
  · -- a download of this very file moves
    subst hd
    have hGW : j.env.server (j.env.url j.d j.dest) = .body c true := hc j (List.mem_of_getElem? hj) rfl
    have hDd : s.fs.isDir j.dest = false := by rw [hs.dirs]; simp [Fs.isDir, hD]
    suffices hmain : (s.fs j.dest ≠ none → fs' j.dest ≠ none) ∧
        (∀ c' b, pc' = .opening c' b → c' = c ∧ b = true) ∧
        (∀ k c' b, pc' = .writing k c' b → c' = c ∧ b = true ∧ k ≤ c.length ∧ fs' j.dest ≠ none) ∧
        (∀ r, pc' = .ended r → fs' j.dest ≠ none ∧ ∃ dl, r = .ok dl ∧ dl.path = .abs j.dest) ∧
        (∀ n, fs' j.dest = some n → ∃ f, n = .file f ∧ f.length ≤ c.length ∧ ∀ m, m < c.length → f[m]? = c[m]? ∨
          (∃ k, pc' = .writing k c true ∧ k ≤ m) ∨
          ∃ (i' : Nat) (j' : FetchJob) (k : Nat), i' ≠ i ∧ js[i']? = some j' ∧ j'.dest = j.dest ∧ s.pcs[i']? = some (.writing k c true) ∧ k ≤ m) by
      obtain ⟨m0, m1, m2, m3, m4⟩ := hmain
      refine ⟨hdirs', ?_, ?_, ?_, ?_⟩
      · intro i' j' c' b hj' hd' hq
        by_cases hii : i' = i
        · subst hii
          have hq' : (s.pcs.set i' pc')[i']? = some (.opening c' b) := hq
          rw [hself] at hq'
          exact m1 c' b (Option.some.inj hq')
        · exact hs.opening i' j' c' b hj' hd' (by rw [← hoth i' hii]; exact hq)
      · intro i' j' k c' b hj' hd' hq
        by_cases hii : i' = i
        · subst hii
          have hq' : (s.pcs.set i' pc')[i']? = some (.writing k c' b) := hq
          rw [hself] at hq'
          exact m2 k c' b (Option.some.inj hq')
        · have := hs.writing i' j' k c' b hj' hd' (by rw [← hoth i' hii]; exact hq)
          exact ⟨this.1, this.2.1, this.2.2.1, m0 this.2.2.2⟩
      · intro i' j' r hj' hd' hq
        by_cases hii : i' = i
        · subst hii
          have hq' : (s.pcs.set i' pc')[i']? = some (.ended r) := hq
          rw [hself] at hq'
          exact m3 r (Option.some.inj hq')
        · have := hs.ended i' j' r hj' hd' (by rw [← hoth i' hii]; exact hq)
          exact ⟨m0 this.1, this.2⟩
      · intro n hn
        obtain ⟨f, rfl, hl, hm⟩ := m4 n hn
        refine ⟨f, rfl, hl, fun m hml => ?_⟩
        rcases hm m hml with h1 | ⟨k, hk, hkm⟩ | ⟨i', j', k, hne, h1, h2, h3, h4⟩
        · exact Or.inl h1
        · exact Or.inr ⟨i, j, k, hj, rfl, by rw [← hk]; exact hself, hkm⟩
        · exact Or.inr ⟨i', j', k, h1, h2, by rw [← h3]; exact hoth i' hne, h4⟩
    have hold : ∀ n, s.fs j.dest = some n → (∀ k c' b, pc ≠ .writing k c' b) → ∃ f, n = .file f ∧ f.length ≤ c.length ∧ ∀ m, m < c.length → f[m]? = c[m]? ∨
          (∃ k, pc' = .writing k c true ∧ k ≤ m) ∨
          ∃ (i' : Nat) (j' : FetchJob) (k : Nat), i' ≠ i ∧ js[i']? = some j' ∧ j'.dest = j.dest ∧ s.pcs[i']? = some (.writing k c true) ∧ k ≤ m := by
      intro n hn hnw
      obtain ⟨f, hf, hl, hm⟩ := hs.file n hn
      refine ⟨f, hf, hl, fun m hml => ?_⟩
      rcases hm m hml with h1 | ⟨i', j', k, h1, h2, h3, h4⟩
      · exact Or.inl h1
      · refine Or.inr (Or.inr ⟨i', j', k, ?_, h1, h2, h3, h4⟩)
        rintro rfl
        rw [hpc] at h3
        exact hnw _ _ _ (Option.some.inj h3)
    cases pc <;> cases a <;> simp only [DlEnv.fetchAct, reduceCtorEq] at ha
    · split at ha <;> rename_i hex <;> cases ha
      · have hne : s.fs j.dest ≠ none := Option.isSome_iff_ne_none.1 hex
        exact ⟨id, by simp, by simp, by rintro r hr; cases hr; exact ⟨hne, _, rfl, rfl⟩, fun n hn => hold n hn (by simp)⟩
      · have hne : s.fs j.dest = none := by simpa [Fs.ex] using hex
        exact ⟨id, by simp, by simp, by simp, fun n hn => by rw [hne] at hn; cases hn⟩
    · rw [hGW] at ha
      cases ha
      exact ⟨id, by rintro c' b h; cases h; exact ⟨rfl, rfl⟩, by simp, by simp, fun n hn => hold n hn (by simp)⟩
    · rename_i c' b
      obtain ⟨rfl, rfl⟩ := hs.opening i j c' b hj rfl hpc
      rw [if_pos (by rw [hDd, hs.dirs, hdir]; rfl)] at ha
      cases ha
      refine ⟨fun _ => by simp [Fs.set], by simp, ?_, by simp, ?_⟩
      · rintro k c'' b h
        cases h
        exact ⟨rfl, rfl, Nat.zero_le _, by simp [Fs.set]⟩
      · intro n hn
        simp only [Fs.set, if_true, Option.some.injEq] at hn
        exact ⟨[], hn.symm, Nat.zero_le _, fun m _ => Or.inr (Or.inl ⟨0, rfl, Nat.zero_le _⟩)⟩
    · rename_i k c' b n
      obtain ⟨rfl, rfl, hk, hne⟩ := hs.writing i j k c' b hj rfl hpc
      split at ha
      · rename_i hn
        split at ha <;> cases ha
        rename_i f hf
        obtain ⟨f', hff, hl, hm⟩ := hs.file _ hf
        cases hff
        have hwl : ((c'.drop k).take n).length = n := by simp; omega
        refine ⟨fun _ => by simp [Fs.set], by simp, ?_, by simp, ?_⟩
        · rintro k' c'' b h
          cases h
          exact ⟨rfl, rfl, hn.2, by simp [Fs.set]⟩
        · intro n' hn'
          simp only [Fs.set, if_true, Option.some.injEq] at hn'
          refine ⟨_, hn'.symm, by rw [writeAt_length, hwl]; omega, fun m hml => ?_⟩
          by_cases hin : k ≤ m ∧ m < k + n
          · left
            rw [writeAt_at _ _ _ _ hin.1 (by rw [hwl]; exact hin.2), List.getElem?_take, if_pos (by omega), List.getElem?_drop]
            congr 1
            omega
          · rcases hm m hml with h1 | ⟨i', j', k', h1, h2, h3, h4⟩
            · left
              have hfl : m < f.length := by
                have : c'[m]? ≠ none := by rw [List.getElem?_eq_getElem hml]; simp
                rw [← h1] at this
                exact Classical.byContradiction fun hh => this (List.getElem?_eq_none (by omega))
              rw [writeAt_other _ _ _ _ hfl (by rw [hwl]; omega), h1]
            · right
              by_cases hii : i' = i
              · subst hii
                rw [hpc] at h3
                cases h3
                exact Or.inl ⟨k + n, rfl, by omega⟩
              · exact Or.inr ⟨i', j', k', hii, h1, h2, h3, h4⟩
      · cases ha
    · rename_i k c' b
      obtain ⟨rfl, rfl, hk, hne⟩ := hs.writing i j k c' b hj rfl hpc
      split at ha <;> cases ha
      rename_i hkl
      refine ⟨id, by simp, by simp, ?_, ?_⟩
      · rintro r hr
        cases hr
        exact ⟨hne, _, rfl, rfl⟩
      · intro n hn
        obtain ⟨f, hf, hl, hm⟩ := hs.file n hn
        refine ⟨f, hf, hl, fun m hml => ?_⟩
        rcases hm m hml with h1 | ⟨i', j', k', h1, h2, h3, h4⟩
        · exact Or.inl h1
        · refine Or.inr (Or.inr ⟨i', j', k', ?_, h1, h2, h3, h4⟩)
          rintro rfl
          rw [hpc] at h3
          cases h3
          omega
  · -- a download of another file moves
    have hsame : fs' D = s.fs D := fetchAct_other ha D (fun hh => hd hh.symm)
    have hne : ∀ i' j', js[i']? = some j' → j'.dest = D → i' ≠ i := by
      rintro i' j' hj' hd' rfl
      rw [hj] at hj'
      cases hj'
      exact hd hd'
    refine ⟨hdirs', ?_, ?_, ?_, ?_⟩
    · intro i' j' c' b hj' hd' hq
      exact hs.opening i' j' c' b hj' hd' (by rw [← hoth i' (hne i' j' hj' hd')]; exact hq)
    · intro i' j' k c' b hj' hd' hq
      show _ ∧ _ ∧ _ ∧ fs' D ≠ none
      rw [hsame]
      exact hs.writing i' j' k c' b hj' hd' (by rw [← hoth i' (hne i' j' hj' hd')]; exact hq)
    · intro i' j' r hj' hd' hq
      show fs' D ≠ none ∧ _
      rw [hsame]
      exact hs.ended i' j' r hj' hd' (by rw [← hoth i' (hne i' j' hj' hd')]; exact hq)
    · intro n hn
      change fs' D = _ at hn
      rw [hsame] at hn
      obtain ⟨f, hf, hl, hm⟩ := hs.file n hn
      refine ⟨f, hf, hl, fun m hml => ?_⟩
      rcases hm m hml with h1 | ⟨i', j', k, h1, h2, h3, h4⟩
      · exact Or.inl h1
      · exact Or.inr ⟨i', j', k, h1, h2, by rw [← h3]; exact hoth i' (hne i' j' h1 h2), h4⟩

/-- C141, the part that holds: if the servers deliver the same complete content to all downloads of a file (and its directory
is there), then once all of them have returned, in whatever way their steps were interleaved, the file is complete, and every
one of them was given its path; missing: at the moments in between it may be incomplete, and downloads that have returned
already use it (`C141_violated_half_written`, `C141_violated_overwritten`). -/
theorem C141_settles_partial (js : List FetchJob) (fs : Fs) (s : Fetching) (D : Path) (c : Str) (h : Together js fs s)
    (hnew : fs D = none) (hdir : fs (dirPath D) = some .dir) (hc : ∀ j ∈ js, j.dest = D → GivesWhole j c) (hone : ∃ j ∈ js, j.dest = D)
    (hall : ∀ (i : Nat) (j : FetchJob) (pc : FetchPc), js[i]? = some j → j.dest = D → s.pcs[i]? = some pc → Returned pc) :
    s.fs D = some (.file c) ∧
    ∀ (i : Nat) (j : FetchJob), js[i]? = some j → j.dest = D → ∃ dl, s.pcs[i]? = some (.ended (.ok dl)) ∧ dl.path = .abs D := by
  obtain ⟨evs, hrun⟩ := h
  have hdir' : fs.isDir (dirPath D) = true := by unfold Fs.isDir; simpa using hdir
  have key := fetch_run_inv (js := js) (fun s => Settling js D c fs s ∧ s.pcs.length = js.length) (fun s s' i a hs hst => ⟨settling_step hdir' hc hnew hs.1 hst, by
      obtain ⟨j, pc, fs', pc', _, _, _, rfl⟩ := fetchStep_some hst
      simpa using hs.2⟩) evs _ _
    ⟨⟨fun _ => rfl, fun i j c' b _ _ hq => absurd (fetchInit_pc _ _ _ _ hq) (by simp), fun i j k c' b _ _ hq => absurd (fetchInit_pc _ _ _ _ hq) (by simp),
      fun i j r _ _ hq => absurd (fetchInit_pc _ _ _ _ hq) (by simp), fun n hn => by rw [show (fetchInit js fs).fs D = fs D from rfl, hnew] at hn; cases hn⟩,
      by simp [fetchInit]⟩ hrun
  obtain ⟨hS, hlen⟩ := key
  have hpc : ∀ (i : Nat) (j : FetchJob), js[i]? = some j → j.dest = D → ∃ r, s.pcs[i]? = some (.ended r) := by
    intro i j hj hd
    have hil := (List.getElem?_eq_some_iff.1 hj).1
    obtain ⟨r, hr⟩ := hall i j s.pcs[i] hj hd (List.getElem?_eq_some_iff.2 ⟨by omega, rfl⟩)
    exact ⟨r, by rw [← hr]; exact List.getElem?_eq_some_iff.2 ⟨by omega, rfl⟩⟩
  refine ⟨?_, ?_⟩
  · obtain ⟨j, hj, hd⟩ := hone
    obtain ⟨i, hi⟩ := List.getElem?_of_mem hj
    obtain ⟨r, hr⟩ := hpc i j hi hd
    obtain ⟨n, hn⟩ := Option.ne_none_iff_exists'.1 (hS.ended i j r hi hd hr).1
    obtain ⟨f, rfl, hl, hm⟩ := hS.file n hn
    have : f = c := by
      apply List.ext_getElem?
      intro m
      by_cases hml : m < c.length
      · rcases hm m hml with h1 | ⟨i', j', k, h1, h2, h3, _⟩
        · exact h1
        · obtain ⟨r', hr'⟩ := hpc i' j' h1 h2
          rw [hr'] at h3
          cases h3
      · rw [List.getElem?_eq_none (by omega), List.getElem?_eq_none (by omega)]
    rw [hn, this]
  · intro i j hj hd
    obtain ⟨r, hr⟩ := hpc i j hj hd
    obtain ⟨_, dl, rfl, hp⟩ := hS.ended i j r hj hd hr
    exact ⟨dl, hr, hp⟩

/-- C141 fails: whenever two runs need the same package file and it is not in the cache, the second may find the file while
the first is still writing it, and use what is there, without contacting the server. -/
theorem C141_violated_half_written (j j' : FetchJob) (fs : Fs) (c : Str) (b : Bool) (hsame : j'.dest = j.dest) (hne : fs j.dest = none)
    (hdir : fs (dirPath j.dest) = some .dir) (hsrv : j.env.server (j.env.url j.d j.dest) = .body c b) (hc : c ≠ []) :
    ∃ s dl f, Together [j, j'] fs s ∧ s.pcs[1]? = some (.ended (.ok dl)) ∧ dl.path = .abs j.dest ∧ dl.new = false ∧
      s.fs j.dest = some (.file f) ∧ f ≠ c := by
  have h1 : fs.ex j.dest = false := by simp [Fs.ex, hne]
  have h2 : fs.isDir (dirPath j.dest) = true := by simp [Fs.isDir, hdir]
  have h3 : fs.isDir j.dest = false := by simp [Fs.isDir, hne]
  refine ⟨{ fs := fs.set j.dest (.file []), pcs := [.writing 0 c b, .ended (.ok { path := .abs j'.dest, new := false, metadata := j'.d, size := 0 })] },
    { path := .abs j'.dest, new := false, metadata := j'.d, size := 0 }, [],
    ⟨[(0, .check), (0, .reply), (0, .create), (1, .check)], ?_⟩, rfl, by rw [hsame], rfl, by simp [Fs.set], fun h => hc h.symm⟩
  have h4 : (fs.set j.dest (.file [])).ex j.dest = true := by simp [Fs.ex, Fs.set]
  simp [fetchRun, fetchStep, fetchInit, DlEnv.fetchAct, h1, h2, h3, h4, hsrv, hsame]

/-- C141 fails also for the run that downloads the file completely: when both have asked for the file, the second run's download
empties the file that the first has just written, and the first returns with it. -/
theorem C141_violated_overwritten (j j' : FetchJob) (fs : Fs) (c c' : Str) (b' : Bool) (hsame : j'.dest = j.dest) (hne : fs j.dest = none)
    (hdir : fs (dirPath j.dest) = some .dir) (hsrv : GivesWhole j c) (hsrv' : j'.env.server (j'.env.url j'.d j'.dest) = .body c' b')
    (hc : c ≠ []) :
    ∃ s dl f, Together [j, j'] fs s ∧ s.pcs[0]? = some (.ended (.ok dl)) ∧ dl.path = .abs j.dest ∧ dl.new = true ∧ dl.size = c.length ∧
      s.fs j.dest = some (.file f) ∧ f ≠ c := by
  have h1 : fs.ex j.dest = false := by simp [Fs.ex, hne]
  have h2 : fs.isDir (dirPath j.dest) = true := by simp [Fs.isDir, hdir]
  have h3 : fs.isDir j.dest = false := by simp [Fs.isDir, hne]
  have h4 : ∀ p f, (fs.set j.dest (.file f)).isDir p = fs.isDir p := fun p f => set_isDir (by rw [hne]; simp) p
  have hlen : 0 < c.length := List.length_pos_iff.2 hc
  unfold GivesWhole at hsrv
  rw [hsame] at hsrv'
  refine ⟨{ fs := ((fs.set j.dest (.file [])).set j.dest (.file (writeAt [] 0 ((c.drop 0).take c.length)))).set j.dest (.file []),
            pcs := [.ended (.ok { path := .abs j.dest, new := true, metadata := j.d, size := c.length }), .writing 0 c' b'] },
    { path := .abs j.dest, new := true, metadata := j.d, size := c.length }, [],
    ⟨[(0, .check), (0, .reply), (1, .check), (1, .reply), (0, .create), (0, .write c.length), (1, .create), (0, .close)], ?_⟩,
    rfl, rfl, rfl, rfl, by simp [Fs.set], fun h => hc h.symm⟩
  have h5 : ∀ p f g, ((fs.set j.dest (.file f)).set j.dest (.file g)).isDir p = fs.isDir p := fun p f g => by
    rw [set_isDir (by simp [Fs.set]) p, h4]
  have hget : (fs.set j.dest (.file [])) j.dest = some (.file []) := by simp [Fs.set]
  simp [fetchRun, fetchStep, fetchInit, DlEnv.fetchAct, h1, h2, h3, h4, h5, hsrv, hsrv', hsame, hlen, hget]

/-- Non-vacuity of C141: two runs fetch the same file in turns; one overwrites the other's file; in the end it is complete. -/
example : let j : FetchJob := { env := toyDl (.body (s%"data") true), d := toyPkg (s%"a"), dest := [s%"c", s%"a.tar.gz"] }
    let fs : Fs := fun p => if p = [s%"c"] then some .dir else none
    fs j.dest = none ∧ fs (dirPath j.dest) = some .dir ∧ GivesWhole j (s%"data") ∧
    ∃ s, Together [j, j] fs s ∧ (s.pcs.all fun pc => match pc with | .ended (.ok _) => true | _ => false) = true ∧ s.fs j.dest = some (.file (s%"data")) := by
  intro j fs
  refine ⟨rfl, rfl, rfl, _, ⟨[(0, .check), (0, .reply), (1, .check), (1, .reply), (0, .create), (0, .write 3), (1, .create), (0, .write 1), (0, .close),
    (1, .write 2), (1, .write 2), (1, .close)], rfl⟩, by decide +kernel, by decide +kernel⟩

end Pkgr
