/- C75-C77: loading packages in parallel R sessions. -/
import Verif.Model.Load
import Verif.Proof.Base

namespace Pkgr

/-! ### The invariant -/

/-- The state after some steps: `idx` are the packages whose session is over, in that order, `res` their results. -/
structure LoadInv (cap : Nat) (pkgs : List Str) (sess : Nat → Session) (s : LoadState) (idx : List Nat) (res : List LoadResult) : Prop where
  all : (s.waiting ++ s.running ++ idx).Perm (List.range pkgs.length)
  results : idx.map (fun i => attemptLoad (pkgs[i]?.getD []) (sess i)) = res.map some
  report : s.report = (res.take s.received).foldl LoadReport.addResult {}
  queue : s.queue = res.drop s.received
  received : s.received ≤ res.length
  places : s.sem = s.running.length + s.releasing.length
  bound : s.sem ≤ cap
  calm : s.panicked = false
  over : s.closed = true → s.received = pkgs.length

theorem LoadInv.length {cap : Nat} {pkgs : List Str} {sess : Nat → Session} {s : LoadState} {idx : List Nat} {res : List LoadResult}
    (h : LoadInv cap pkgs sess s idx res) : s.waiting.length + s.running.length + idx.length = pkgs.length ∧ idx.length = res.length := by
  have h1 := h.all.length_eq
  have h2 := congrArg List.length h.results
  simp at h1 h2
  omega

theorem loadInv_start (cap : Nat) (pkgs : List Str) (sess : Nat → Session) :
    LoadInv cap pkgs sess { waiting := List.range pkgs.length } [] [] :=
  ⟨by simp, rfl, rfl, rfl, Nat.le_refl _, rfl, Nat.zero_le _, rfl, by simp⟩

theorem loadInv_step {cap : Nat} {pkgs : List Str} {sess : Nat → Session} {s t : LoadState} {idx : List Nat} {res : List LoadResult}
    (h : LoadInv cap pkgs sess s idx res) (st : LoadStep cap pkgs sess s t) : ∃ idx' res', LoadInv cap pkgs sess t idx' res' := by
  have hlen := h.length
  cases st with
  | acquire a b i h1 h2 h3 hw hs =>
    refine ⟨idx, res, ⟨?_, h.results, h.report, h.queue, h.received, ?_, hs, h.calm, h.over⟩⟩
    · have := h.all
      rw [hw] at this
      refine List.Perm.trans ?_ this
      simp only [List.append_assoc, List.cons_append]
      apply List.Perm.append_left
      have hp : (b ++ (i :: (s.running ++ idx))).Perm (i :: (b ++ (s.running ++ idx))) := List.perm_middle
      exact hp
    · have := h.places
      simp only [List.length_cons]
      omega
  | acquireClosed a b i h1 h2 h3 hw =>
    exfalso
    have := h.over h3
    have hr := h.received
    rw [hw] at hlen
    simp at hlen
    omega
  | finish a b i r h1 h2 h3 hr hres hq =>
    refine ⟨idx ++ [i], res ++ [r], ⟨?_, ?_, ?_, ?_, ?_, ?_, h.bound, h.calm, h.over⟩⟩
    · have := h.all
      rw [hr] at this
      refine List.Perm.trans ?_ this
      simp only [List.append_assoc, List.cons_append]
      apply List.Perm.append_left
      apply List.Perm.append_left
      have hp : (i :: (b ++ idx)).Perm ((b ++ idx) ++ [i]) := (List.perm_append_singleton i (b ++ idx)).symm
      rw [List.append_assoc] at hp
      exact hp.symm
    · rw [List.map_append, List.map_append, h.results]
      simp [hres]
    · show s.report = _
      rw [List.take_append_of_le_length h.received]
      exact h.report
    · show s.queue ++ [r] = _
      rw [List.drop_append_of_le_length h.received, h.queue]
    · have := h.received
      simp only [List.length_append, List.length_cons, List.length_nil]
      omega
    · have := h.places
      rw [hr] at this
      simp only [List.length_append, List.length_cons] at this ⊢
      omega
  | finishClosed a b i r h1 h2 h3 hr hres =>
    exfalso
    have := h.over h3
    have hr' := h.received
    rw [hr] at hlen
    simp at hlen
    omega
  | die a b i h1 h2 hr hres => exact ⟨idx, res, ⟨h.all, h.results, h.report, h.queue, h.received, h.places, h.bound, h.calm, h.over⟩⟩
  | release a b i h1 h2 hr hs =>
    refine ⟨idx, res, ⟨h.all, h.results, h.report, h.queue, h.received, ?_, ?_, h.calm, h.over⟩⟩
    · have := h.places
      rw [hr] at this
      simp only [List.length_append, List.length_cons] at this ⊢
      omega
    · have := h.bound
      show s.sem - 1 ≤ cap
      omega
  | receive r q h1 h2 hq hn =>
    have hd := h.queue
    rw [hq] at hd
    have hlt : s.received < res.length := by
      have := congrArg List.length hd
      simp only [List.length_cons, List.length_drop] at this
      omega
    have hcons := List.drop_eq_getElem_cons hlt
    rw [← hd] at hcons
    simp only [List.cons.injEq] at hcons
    refine ⟨idx, res, ⟨h.all, h.results, ?_, hcons.2, hlt, h.places, h.bound, h.calm, ?_⟩⟩
    · show s.report.addResult r = (res.take (s.received + 1)).foldl LoadReport.addResult {}
      rw [List.take_succ_eq_append_getElem hlt, List.foldl_append, ← h.report, hcons.1]
      rfl
    · intro hc
      have := h.over hc
      omega
  | close h1 h2 h3 hr => exact ⟨idx, res, ⟨h.all, h.results, h.report, h.queue, h.received, h.places, h.bound, h.calm, fun _ => hr⟩⟩

theorem loadInv_run {cap : Nat} {pkgs : List Str} {sess : Nat → Session} {k : Nat} {s t : LoadState}
    (hr : LoadRun cap pkgs sess k s t) (hs : ∃ idx res, LoadInv cap pkgs sess s idx res) : ∃ idx res, LoadInv cap pkgs sess t idx res := by
  induction hr with
  | refl => exact hs
  | step k s t u _ st ih =>
    obtain ⟨idx, res, h⟩ := ih hs
    exact loadInv_step h st

theorem loadStart_inv {threads : Int} {pkgs : List Str} {s : LoadState} (h : loadStart threads pkgs = some s)
    (sess : Nat → Session) : ∃ idx res, LoadInv (threads * 2).toNat pkgs sess s idx res := by
  unfold loadStart at h
  split at h
  · simp at h
  · simp only [Option.some.injEq] at h
    subst h
    exact ⟨[], [], loadInv_start _ _ _⟩

/-! ### The report -/

theorem addResult_failures (res : List LoadResult) (r : LoadReport) :
    (res.foldl LoadReport.addResult r).failures = r.failures + (res.filter fun x => !x.success).length := by
  induction res generalizing r with
  | nil => simp
  | cons x res ih =>
    rw [List.foldl_cons, ih]
    unfold LoadReport.addResult
    cases hx : x.success <;> simp [hx] <;> omega

theorem addResult_get (res : List LoadResult) (r : LoadReport) (k : Str) (hnd : (res.map LoadResult.package).Nodup) :
    (res.foldl LoadReport.addResult r).results.get? k = match res.find? (fun x => x.package = k) with
      | some x => some x
      | none => r.results.get? k := by
  induction res generalizing r with
  | nil => rfl
  | cons x res ih =>
    rw [List.map_cons, List.nodup_cons] at hnd
    rw [List.foldl_cons, ih _ hnd.2, List.find?_cons]
    by_cases hx : x.package = k
    · have hnone : res.find? (fun y => decide (y.package = k)) = none := by
        rw [List.find?_eq_none]
        intro y hy
        rw [decide_eq_true_eq]
        intro e
        exact hnd.1 (List.mem_map.2 ⟨y, hy, by rw [e, hx]⟩)
      rw [hnone]
      simp only [hx, decide_true]
      show (r.results.put x.package x).get? k = some x
      rw [GoMap.get?_put, if_pos hx.symm]
    · simp only [hx, decide_false]
      have : (r.addResult x).results.get? k = r.results.get? k := by
        show (r.results.put x.package x).get? k = _
        rw [GoMap.get?_put, if_neg (fun e => hx e.symm)]
      rw [this]

theorem attemptLoad_some {pkg : Str} {s : Session} {r : LoadResult} (h : attemptLoad pkg s = some r) :
    r.package = pkg ∧ (r.success = true ↔ s.ending = .zero) := by
  unfold attemptLoad at h
  dsimp only at h
  split at h
  · simp at h
  · rename_i e; simp only [Option.some.injEq] at h; subst h; simp [e]
  · rename_i e; simp only [Option.some.injEq] at h; subst h; simp [e]

theorem map_some_count (idx : List Nat) (res : List LoadResult) (f : Nat → Option LoadResult) (p : Nat → Bool)
    (h : idx.map f = res.map some) (hp : ∀ i r, f i = some r → (!r.success) = p i) :
    (res.filter fun x => !x.success).length = (idx.filter p).length := by
  induction idx generalizing res with
  | nil =>
    cases res with
    | nil => rfl
    | cons r res => simp at h
  | cons i idx ih =>
    cases res with
    | nil => simp at h
    | cons r res =>
      simp only [List.map_cons, List.cons.injEq] at h
      have := hp i r h.1
      rw [List.filter_cons, List.filter_cons, this]
      have hih := ih res h.2
      split <;> simp [hih]

theorem map_some_mem (idx : List Nat) (res : List LoadResult) (f : Nat → Option LoadResult) (h : idx.map f = res.map some) :
    (∀ i ∈ idx, ∃ r ∈ res, f i = some r) ∧ ∀ r ∈ res, ∃ i ∈ idx, f i = some r := by
  constructor
  · intro i hi
    have : f i ∈ idx.map f := List.mem_map_of_mem hi
    rw [h] at this
    obtain ⟨r, hr, e⟩ := List.mem_map.1 this
    exact ⟨r, hr, e.symm⟩
  · intro r hr
    have : some r ∈ res.map some := List.mem_map_of_mem hr
    rw [← h] at this
    obtain ⟨i, hi, e⟩ := List.mem_map.1 this
    exact ⟨i, hi, e⟩

theorem map_some_packages (idx : List Nat) (res : List LoadResult) (pkgs : List Str) (sess : Nat → Session)
    (h : idx.map (fun i => attemptLoad (pkgs[i]?.getD []) (sess i)) = res.map some) :
    res.map LoadResult.package = idx.map fun i => pkgs[i]?.getD [] := by
  induction idx generalizing res with
  | nil =>
    cases res with
    | nil => rfl
    | cons r res => simp at h
  | cons i idx ih =>
    cases res with
    | nil => simp at h
    | cons r res =>
      simp only [List.map_cons, List.cons.injEq] at h
      rw [List.map_cons, List.map_cons, ih res h.2, (attemptLoad_some h.1).1]

theorem range_map_getD (pkgs : List Str) : (List.range pkgs.length).map (fun i => pkgs[i]?.getD []) = pkgs := by
  apply List.ext_getElem
  · simp
  · intro i h1 h2
    simp [h2]

/-- The order in which the sessions end does not matter: in every finished run, all sessions are over and the report is
made of all their results in some order. -/
theorem load_final {threads : Int} {pkgs : List Str} {sess : Nat → Session} {k : Nat} {s t : LoadState}
    (h0 : loadStart threads pkgs = some s) (hr : LoadRun (threads * 2).toNat pkgs sess k s t) (hc : t.closed = true) :
    ∃ (idx : List Nat) (res : List LoadResult), idx.Perm (List.range pkgs.length) ∧
      idx.map (fun i => attemptLoad (pkgs[i]?.getD []) (sess i)) = res.map some ∧ t.report = res.foldl LoadReport.addResult {} := by
  obtain ⟨idx, res, h⟩ := loadInv_run hr (loadStart_inv h0 sess)
  have hlen := h.length
  have hrec := h.over hc
  have hle := h.received
  have hw : t.waiting = [] := List.length_eq_zero_iff.1 (by omega)
  have hru : t.running = [] := List.length_eq_zero_iff.1 (by omega)
  refine ⟨idx, res, ?_, h.results, ?_⟩
  · have := h.all
    rw [hw, hru] at this
    simpa using this
  · rw [h.report, List.take_of_length_le (by omega)]

/-- C75. Whatever the order in which the sessions end, the number of failures in the finished report is the number of
listed packages whose session did not end with status zero. -/
theorem C75_count {threads : Int} {pkgs : List Str} {sess : Nat → Session} {k : Nat} {s t : LoadState}
    (h0 : loadStart threads pkgs = some s) (hr : LoadRun (threads * 2).toNat pkgs sess k s t) (hc : t.closed = true) :
    t.report.failures = ((List.range pkgs.length).filter fun i => (sess i).ending ≠ .zero).length := by
  obtain ⟨idx, res, hp, hm, hrep⟩ := load_final h0 hr hc
  rw [hrep, addResult_failures]
  have hcount := map_some_count idx res _ (fun i => decide ((sess i).ending ≠ .zero)) hm (by
    intro i r hi
    have := (attemptLoad_some hi).2
    cases hx : r.success with
    | true => have := this.1 hx; simp [this]
    | false =>
      have hne : (sess i).ending ≠ .zero := fun e => by rw [this.2 e] at hx; simp at hx
      simp [hne])
  have hperm := (hp.filter fun i => decide ((sess i).ending ≠ .zero)).length_eq
  show 0 + _ = _
  omega

theorem additionalInfo_none (info : Option (List Str)) (hn : ∀ a b, info ≠ some [a, b]) :
    (additionalInfo info).1 = s%"could not retrieve" ∧ (additionalInfo info).2 = s%"could not retrieve" := by
  unfold additionalInfo
  split
  · exact absurd rfl (hn _ _)
  · exact ⟨rfl, rfl⟩

/-- C75 (partial). If no package is listed twice: the number of failures is the number of packages that cannot be loaded,
and the report has, whatever the order in which the sessions end, for every package the result of its own session and
nothing else. -/
theorem C75_exact_partial {threads : Int} {pkgs : List Str} {sess : Str → Session} {k : Nat} {s t : LoadState} (hnd : pkgs.Nodup)
    (h0 : loadStart threads pkgs = some s) (hr : LoadRun (threads * 2).toNat pkgs (fun i => sess (pkgs[i]?.getD [])) k s t)
    (hc : t.closed = true) :
    t.report.failures = (pkgs.filter fun p => (sess p).ending ≠ .zero).length ∧
    (∀ p ∈ pkgs, ∃ r, t.report.results.get? p = some r ∧ r.package = p ∧ (r.success = true ↔ (sess p).ending = .zero) ∧
      r.stdout = (sess p).stdout ∧ r.stderr = (sess p).stderr ∧ (∀ e, (sess p).ending = .nonzero e → r.exiterr = e) ∧
      ((sess p).ending = .zero → r.exiterr = []) ∧
      (∀ a b, (sess p).info = some [a, b] → r.path = a.filter (· ≠ '"') ∧ r.version = b.filter (· ≠ '"')) ∧
      ((∀ a b, (sess p).info ≠ some [a, b]) → r.path = s%"could not retrieve" ∧ r.version = s%"could not retrieve")) ∧
    (∀ p, p ∉ pkgs → t.report.results.get? p = none) := by
  have hcnt := C75_count h0 hr hc
  obtain ⟨idx, res, hp, hm, hrep⟩ := load_final h0 hr hc
  have hpk : res.map LoadResult.package = idx.map fun i => pkgs[i]?.getD [] := map_some_packages idx res pkgs _ hm
  have hperm : (res.map LoadResult.package).Perm pkgs := by
    rw [hpk]
    have := hp.map fun i => pkgs[i]?.getD []
    rwa [range_map_getD] at this
  have hndr : (res.map LoadResult.package).Nodup := hperm.nodup_iff.2 hnd
  have hget : ∀ p, t.report.results.get? p = res.find? (fun x => x.package = p) := by
    intro p
    rw [hrep, addResult_get res {} p hndr]
    split <;> simp [*]
  refine ⟨?_, ?_, ?_⟩
  · rw [hcnt]
    have : (pkgs.filter fun p => decide ((sess p).ending ≠ .zero)) =
        ((List.range pkgs.length).filter fun i => decide ((sess (pkgs[i]?.getD [])).ending ≠ .zero)).map fun i => pkgs[i]?.getD [] := by
      conv => lhs; rw [← range_map_getD pkgs]
      rw [List.filter_map]
      rfl
    rw [this, List.length_map]
  · intro p hpm
    rw [hget]
    have : p ∈ res.map LoadResult.package := hperm.mem_iff.2 hpm
    obtain ⟨x, hx, hxp⟩ := List.mem_map.1 this
    cases hf : res.find? (fun x => decide (x.package = p)) with
    | none =>
      rw [List.find?_eq_none] at hf
      exact absurd hxp (by simpa using hf x hx)
    | some r =>
      have hrm := List.mem_of_find?_eq_some hf
      have hrp : r.package = p := by simpa using List.find?_some hf
      obtain ⟨i, hi, he⟩ := (map_some_mem idx res _ hm).2 r hrm
      have hspec := attemptLoad_some he
      have hpi : pkgs[i]?.getD [] = p := hspec.1.symm.trans hrp
      rw [hpi] at hspec he
      refine ⟨r, rfl, hrp, hspec.2, ?_⟩
      unfold attemptLoad at he
      dsimp only at he
      split at he
      · simp at he
      · simp only [Option.some.injEq] at he; subst he; exact ⟨rfl, rfl, (fun e h => by simp_all), (fun h => by simp_all), (fun a b hi => by rw [hi]; exact ⟨rfl, rfl⟩), fun hn => additionalInfo_none _ hn⟩
      · simp only [Option.some.injEq] at he; subst he; exact ⟨rfl, rfl, (fun e h => by simp_all), (fun h => by simp_all), (fun a b hi => by rw [hi]; exact ⟨rfl, rfl⟩), fun hn => additionalInfo_none _ hn⟩
  · intro p hpm
    rw [hget, List.find?_eq_none]
    intro x hx
    rw [decide_eq_true_eq]
    intro e
    exact hpm (hperm.mem_iff.1 (List.mem_map.2 ⟨x, hx, e⟩))

/-! ### C76 -/

/-- C76. At no time in any schedule are more than twice as many R sessions running as there are threads. -/
theorem C76_sessions {threads : Int} {pkgs : List Str} {sess : Nat → Session} {k : Nat} {s t : LoadState}
    (h0 : loadStart threads pkgs = some s) (hr : LoadRun (threads * 2).toNat pkgs sess k s t) : (t.running.length : Int) ≤ 2 * threads := by
  obtain ⟨idx, res, h⟩ := loadInv_run hr (loadStart_inv h0 sess)
  have h1 := h.places
  have h2 := h.bound
  unfold loadStart at h0
  split at h0
  · simp at h0
  · omega

/-! ### C77 -/

/-- How many steps can still follow. -/
def LoadState.left (s : LoadState) : Nat :=
  4 * s.waiting.length + 3 * s.running.length + s.releasing.length + s.queue.length + (if s.closed then 0 else 1) +
    (if s.died ∨ s.panicked then 0 else 1)

theorem load_decreases {cap : Nat} {pkgs : List Str} {sess : Nat → Session} {s t : LoadState} (st : LoadStep cap pkgs sess s t) :
    t.left < s.left := by
  unfold LoadState.left
  cases st with
  | acquire a b i h1 h2 h3 hw hs => rw [hw]; simp [h1, h2, h3]; omega
  | acquireClosed a b i h1 h2 h3 hw => rw [hw]; simp [h1, h2, h3]
  | finish a b i r h1 h2 h3 hr hres hq => rw [hr]; simp [h1, h2, h3]; omega
  | finishClosed a b i r h1 h2 h3 hr hres => rw [hr]; simp [h1, h2, h3]
  | die a b i h1 h2 hr hres => rw [hr]; simp [h1, h2]
  | release a b i h1 h2 hr hs => rw [hr]; simp [h1, h2]
  | receive r q h1 h2 hq hn => rw [hq]; simp [h1, h2]
  | close h1 h2 h3 hr => simp [h1, h2, h3]

theorem load_run_left {cap : Nat} {pkgs : List Str} {sess : Nat → Session} {k : Nat} {s t : LoadState}
    (hr : LoadRun cap pkgs sess k s t) : k + t.left ≤ s.left := by
  induction hr with
  | refl => omega
  | step k s t u _ st ih =>
    have := load_decreases st
    omega

/-- C77 (partial). With at least one thread, `load` always finishes: no schedule has more than `4n + 2` steps for `n` packages,
no channel operation ever fails, and a state in which nothing more can happen is one in which the report is complete (or the
program has ended itself, because R could not be run at all). -/
theorem C77_finishes_partial {threads : Int} (ht : 1 ≤ threads) (pkgs : List Str) (sess : Nat → Session) :
    ∃ s, loadStart threads pkgs = some s ∧ ∀ k t, LoadRun (threads * 2).toNat pkgs sess k s t →
      k ≤ 4 * pkgs.length + 2 ∧ t.panicked = false ∧
      ((¬ ∃ u, LoadStep (threads * 2).toNat pkgs sess t u) → t.closed = true ∨ (t.died = true ∧ ∃ i < pkgs.length, (sess i).ending = .notRun)) := by
  have h0 : loadStart threads pkgs = some { waiting := List.range pkgs.length } := by
    unfold loadStart
    rw [if_neg (by omega)]
  refine ⟨_, h0, ?_⟩
  intro k t hr
  have hleft := load_run_left hr
  obtain ⟨idx, res, h⟩ := loadInv_run hr (loadStart_inv h0 sess)
  have hlen := h.length
  have hstart : LoadState.left { waiting := List.range pkgs.length } = 4 * pkgs.length + 2 := by
    simp [LoadState.left]
  refine ⟨by omega, h.calm, ?_⟩
  intro hstuck
  by_cases hc : t.closed = true
  · exact Or.inl hc
  right
  have hc' : t.closed = false := by simpa using hc
  -- if it died, a session could not be run
  have hdied : t.died = true → ∃ i < pkgs.length, (sess i).ending = .notRun := by
    have key : ∀ {k : Nat} {s t : LoadState}, LoadRun (threads * 2).toNat pkgs sess k s t → s.died = false →
        (∃ idx res, LoadInv (threads * 2).toNat pkgs sess s idx res) → t.died = true → ∃ i < pkgs.length, (sess i).ending = .notRun := by
      intro k s t hr
      induction hr with
      | refl => intro h1 _ h2; rw [h1] at h2; simp at h2
      | step k s t u hrun st ih =>
        intro h1 hinv h2
        obtain ⟨idx, res, hi⟩ := loadInv_run hrun hinv
        cases st with
        | die a b i e1 e2 e3 e4 =>
          refine ⟨i, ?_, ?_⟩
          · have : i ∈ t.waiting ++ t.running ++ idx := by rw [e3]; simp
            exact List.mem_range.1 (hi.all.mem_iff.1 this)
          · unfold attemptLoad at e4
            dsimp only at e4
            split at e4
            · assumption
            · simp at e4
            · simp at e4
        | _ => exact ih h1 hinv h2
    exact key hr rfl (loadStart_inv h0 sess)
  cases hd : t.died with
  | true => exact ⟨rfl, hdied hd⟩
  | false =>
    exfalso
    apply hstuck
    have hbound := h.bound
    have hplaces := h.places
    have hrec := h.received
    -- something can be received
    cases hq : t.queue with
    | cons r q =>
      refine ⟨_, LoadStep.receive t r q hd h.calm hq ?_⟩
      have hql := congrArg List.length h.queue
      rw [hq] at hql
      simp only [List.length_cons, List.length_drop] at hql
      omega
    | nil =>
      -- a place can be given back
      cases hrel : t.releasing with
      | cons i l =>
        refine ⟨_, LoadStep.release t [] l i hd h.calm hrel (Or.inl ?_)⟩
        rw [hrel] at hplaces
        simp only [List.length_cons] at hplaces
        omega
      | nil =>
        -- a session can end
        cases hrun : t.running with
        | cons i l =>
          cases hres : attemptLoad (pkgs[i]?.getD []) (sess i) with
          | some r =>
            refine ⟨_, LoadStep.finish t [] l i r hd h.calm hc' hrun hres ?_⟩
            rw [hq]
            rw [hrun] at hlen
            simp only [List.length_cons, List.length_nil] at hlen ⊢
            omega
          | none => exact ⟨_, LoadStep.die t [] l i hd h.calm hrun hres⟩
        | nil =>
          cases hw : t.waiting with
          | cons i l =>
            refine ⟨_, LoadStep.acquire t [] l i hd h.calm hc' hw ?_⟩
            rw [hrun, hrel] at hplaces
            simp only [List.length_nil] at hplaces
            omega
          | nil =>
            refine ⟨_, LoadStep.close t hd h.calm hc' ?_⟩
            have hql := congrArg List.length h.queue
            rw [hq] at hql
            rw [hw, hrun] at hlen
            simp only [List.length_nil, List.length_drop] at hql hlen
            omega

/-- C77 fails: with `threads` zero (which `install` understands as "choose yourself") and a package to load, no step is
possible at all: the load check hangs. -/
theorem C77_violated_zero (pkgs : List Str) (sess : Nat → Session) (hne : pkgs ≠ []) :
    ∃ s, loadStart 0 pkgs = some s ∧ s.closed = false ∧ s.died = false ∧ s.panicked = false ∧ ¬ ∃ u, LoadStep ((0 : Int) * 2).toNat pkgs sess s u := by
  refine ⟨{ waiting := List.range pkgs.length }, rfl, rfl, rfl, rfl, ?_⟩
  rintro ⟨u, st⟩
  cases st with
  | acquire a b i h1 h2 h3 hw hs => simp at hs
  | acquireClosed a b i h1 h2 h3 hw => simp at h3
  | finish a b i r h1 h2 h3 hr hres hq => simp at hr
  | finishClosed a b i r h1 h2 h3 hr hres => simp at hr
  | die a b i h1 h2 hr hres => simp at hr
  | release a b i h1 h2 hr hs => simp at hr
  | receive r q h1 h2 hq hn => simp at hq
  | close h1 h2 h3 hr =>
    cases pkgs with
    | nil => exact hne rfl
    | cons a l => simp at hr

/-- C77 fails: a negative number of threads crashes the program. -/
theorem C77_violated_negative (threads : Int) (h : threads < 0) (pkgs : List Str) : loadStart threads pkgs = none := by
  unfold loadStart
  rw [if_pos (by omega)]

/-! ### A concrete run -/

/-- R6 can be loaded, x cannot. -/
def toySess (p : Str) : Session := if p = s%"R6" then { ending := .zero } else { ending := .nonzero (s%"exit status 1") }

/-- With one thread for two packages, the second one ends first. -/
theorem toyRunTwo (p q : Str) (f : Str → Session) (rp rq : LoadResult) (h1 : attemptLoad p (f p) = some rp) (h2 : attemptLoad q (f q) = some rq) :
    LoadRun ((1 : Int) * 2).toNat [p, q] (fun i => f ([p, q][i]?.getD [])) 7 { waiting := [0, 1] }
      { waiting := [], running := [], releasing := [0, 1], sem := 2, queue := [], received := 2, report := (({} : LoadReport).addResult rq).addResult rp, closed := true } :=
  LoadRun.step _ _ _ _ (LoadRun.step _ _ _ _ (LoadRun.step _ _ _ _ (LoadRun.step _ _ _ _ (LoadRun.step _ _ _ _ (LoadRun.step _ _ _ _ (LoadRun.step _ _ _ _
      (LoadRun.refl _) (LoadStep.acquire _ [] [1] 0 rfl rfl rfl rfl (by decide)))
      (LoadStep.acquire _ [] [] 1 rfl rfl rfl rfl (by decide)))
      (LoadStep.finish _ [] [0] 1 rq rfl rfl rfl rfl h2 (show 0 < 2 by decide)))
      (LoadStep.finish _ [] [] 0 rp rfl rfl rfl rfl h1 (show 1 < 2 by decide)))
      (LoadStep.receive _ _ _ rfl rfl rfl (show 0 < 2 by decide)))
      (LoadStep.receive _ _ _ rfl rfl rfl (show 1 < 2 by decide)))
      (LoadStep.close _ rfl rfl rfl rfl)

example : ∃ s t, loadStart 1 [s%"R6", s%"x"] = some s ∧
    LoadRun ((1 : Int) * 2).toNat [s%"R6", s%"x"] (fun i => toySess ([s%"R6", s%"x"][i]?.getD [])) 7 s t ∧ t.closed = true ∧ t.report.failures = 1 :=
  ⟨_, _, rfl, toyRunTwo (s%"R6") (s%"x") toySess _ _ rfl rfl, rfl, by decide⟩

/-- C75 fails in the presence of duplicates: one package, listed twice, gives two failures. -/
theorem C75_violated_duplicates : ∃ (s t : LoadState) (k : Nat), loadStart 1 [s%"x", s%"x"] = some s ∧
    LoadRun ((1 : Int) * 2).toNat [s%"x", s%"x"] (fun i => toySess ([s%"x", s%"x"][i]?.getD [])) k s t ∧ t.closed = true ∧
    t.report.failures = 2 ∧ t.report.results.length = 1 :=
  ⟨_, _, 7, rfl, toyRunTwo (s%"x") (s%"x") toySess _ _ rfl rfl, rfl, by decide, by decide⟩

end Pkgr
