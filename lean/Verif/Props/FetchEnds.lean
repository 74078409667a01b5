/- C47, C141: downloads come to an end. -/
import Verif.Props.Fetching

namespace Pkgr
open Spec

/-- The steps a download can still make. -/
def fetchLeft (L : Nat) : FetchPc → Nat
  | .start => L + 4
  | .asking => L + 3
  | .opening c _ => c.length + 2
  | .writing k c _ => c.length - k + 1
  | .ended _ => 0

theorem fetchAct_left {e : DlEnv} {d : PkgDl} {dest : Path} {fs fs' : Fs} {pc pc' : FetchPc} {a : FetchAct}
    (h : e.fetchAct d dest fs pc a = some (fs', pc')) : fetchLeft (answerSize e d dest) pc' < fetchLeft (answerSize e d dest) pc := by
  unfold DlEnv.fetchAct at h
  split at h
  · split at h <;> cases h <;> simp [fetchLeft]
  · split at h <;> cases h
    · simp [fetchLeft]
    · simp [fetchLeft]
    · simp [fetchLeft]
    · rename_i hs; simp [fetchLeft, answerSize, hs]
  · split at h <;> cases h <;> simp [fetchLeft]
  · rename_i k c b n
    split at h
    · rename_i hk
      split at h
      · cases h; simp only [fetchLeft]; omega
      · cases h
    · cases h
  · split at h
    · cases h; simp [fetchLeft]
    · cases h
  · cases h

/-- The steps a goroutine can still make. -/
def fineLeft (L : Nat) : Option FinePhase → Nat
  | none => L + 7
  | some .waiting => L + 6
  | some (.holding pc) => fetchLeft L pc + 1
  | some .done => 0

theorem sum_one_less (f g : Nat → Nat) : ∀ (n i : Nat), i < n → (∀ j, j ≠ i → g j = f j) → g i < f i →
    ((List.range n).map g).sum < ((List.range n).map f).sum
  | 0, _, h, _, _ => absurd h (by omega)
  | n + 1, i, h, hne, hlt => by
    simp only [List.range_succ, List.map_append, List.map_cons, List.map_nil, List.sum_append, List.sum_cons, List.sum_nil, Nat.add_zero]
    by_cases hi : i = n
    · subst hi
      have : (List.range i).map g = (List.range i).map f := List.map_congr_left fun j hj => hne j (by have := List.mem_range.1 hj; omega)
      rw [this]
      omega
    · have := sum_one_less f g n i (by omega) hne hlt
      rw [hne n (by omega)]
      omega

/-- The steps all the goroutines together can still make. -/
def allLeft (e : DlEnv) (ds : List PkgDl) (phases : List FinePhase) : Nat :=
  ((List.range ds.length).map fun i => fineLeft (match ds[i]? with | some d => answerSize e (e.resolved d) (e.dest d) | none => 0) phases[i]?).sum

theorem allLeft_less {e : DlEnv} {ds : List PkgDl} {p q : List FinePhase} {i : Nat} {d : PkgDl} (hd : ds[i]? = some d) (hne : ∀ j, j ≠ i → q[j]? = p[j]?)
    (hlt : fineLeft (answerSize e (e.resolved d) (e.dest d)) q[i]? < fineLeft (answerSize e (e.resolved d) (e.dest d)) p[i]?) :
    allLeft e ds q < allLeft e ds p := by
  refine sum_one_less _ _ _ i ((List.getElem?_eq_some_iff.1 hd).1) (fun j hj => by rw [hne j hj]) ?_
  simp only [hd]
  exact hlt

theorem fine_left_step {e : DlEnv} {ds : List PkgDl} {s s' : FineState} {ev : FineEvent} (hl : s.phases.length ≤ ds.length) (h : e.fineStep ds s ev = some s') :
    s'.phases.length ≤ ds.length ∧
    allLeft e ds s'.phases + (if s'.dead || s'.returned then 0 else 1) < allLeft e ds s.phases + (if s.dead || s.returned then 0 else 1) := by
  unfold DlEnv.fineStep at h
  split at h
  · cases h
  rename_i hdr
  rw [if_neg hdr]
  have hle : ∀ b : Bool, (if b then 0 else 1) ≤ (1 : Nat) := by decide
  have hset : ∀ (i : Nat) (x : FinePhase) (j : Nat), j ≠ i → (s.phases.set i x)[j]? = s.phases[j]? := fun i x j hj => by
    rw [List.getElem?_set_ne (by omega)]
  have hat : ∀ (i : Nat) (x y : FinePhase), s.phases[i]? = some y → (s.phases.set i x)[i]? = some x := fun i x y hy => by
    rw [List.getElem?_set_self (List.getElem?_eq_some_iff.1 hy).1]
  cases ev with
  | spawn =>
    dsimp only at h
    split at h
    · rename_i hlt
      cases h
      refine ⟨by simp only [List.length_append, List.length_cons, List.length_nil]; omega, ?_⟩
      have := allLeft_less (e := e) (p := s.phases) (q := s.phases ++ [.waiting]) (List.getElem?_eq_getElem hlt)
        (fun j hj => by
          by_cases hj' : j < s.phases.length
          · rw [List.getElem?_append_left hj']
          · have h1 : (s.phases ++ [FinePhase.waiting]).length ≤ j := by simp only [List.length_append, List.length_cons, List.length_nil]; omega
            rw [List.getElem?_eq_none h1, List.getElem?_eq_none (by omega)])
        (by rw [List.getElem?_append_right (Nat.le_refl _), Nat.sub_self, List.getElem?_eq_none (Nat.le_refl _)]; simp [fineLeft])
      have := hle (s.dead || s.returned)
      dsimp only
      omega
    · cases h
  | acquire i =>
    dsimp only at h
    split at h
    · rename_i hw
      cases h
      have hi := (List.getElem?_eq_some_iff.1 hw.1).1
      refine ⟨by simpa using hl, ?_⟩
      have := allLeft_less (e := e) (p := s.phases) (q := s.phases.set i (.holding .start)) (List.getElem?_eq_getElem (by omega : i < ds.length))
        (hset i _) (by rw [hat i _ _ hw.1, hw.1]; simp [fineLeft, fetchLeft])
      have := hle (s.dead || s.returned)
      dsimp only
      omega
    · cases h
  | io i a =>
    dsimp only at h
    split at h
    · rename_i pc d hp hd
      simp only [Option.map_eq_some_iff] at h
      obtain ⟨⟨fs', pc'⟩, hr, hm⟩ := h
      unfold FineState.moved at hm
      split at hm <;> subst hm
      · refine ⟨hl, ?_⟩
        simp
      · refine ⟨by simpa using hl, ?_⟩
        have := allLeft_less (e := e) (p := s.phases) (q := s.phases.set i (.holding pc')) hd (hset i _) (by
          rw [hat i _ _ hp, hp]
          have := fetchAct_left hr
          simpa [fineLeft] using this)
        have := hle (s.dead || s.returned)
        dsimp only
        omega
    · cases h
  | finish i =>
    dsimp only at h
    split at h
    · rename_i r d hp hd
      cases h
      refine ⟨by simpa using hl, ?_⟩
      have := allLeft_less (e := e) (p := s.phases) (q := s.phases.set i .done) hd (hset i _) (by rw [hat i _ _ hp, hp]; simp [fineLeft])
      have := hle (s.dead || s.returned)
      dsimp only
      omega
    · cases h
  | ret =>
    dsimp only at h
    split at h
    · cases h; exact ⟨hl, by simp⟩
    · cases h

/-- C47: the finely interleaved downloads come to an end: whatever the interleaving, they make at most seven steps for each package, one for each
character that is delivered for it (or fewer, if several are written at once), and one to return. (By `C47_fine_progress` there is always a step until they
have returned.) -/
theorem C47_fine_bounded (e : DlEnv) (ds : List PkgDl) (fs : Fs) (evs : List FineEvent) (s : FineState) (h : e.fineRun ds (e.fineInit fs ds) evs = some s) :
    evs.length ≤ (ds.map fun d => answerSize e (settled e.platform d) (e.dest d) + 7).sum + 1 := by
  have hrun : ∀ (evs : List FineEvent) (s s' : FineState), s.phases.length ≤ ds.length → e.fineRun ds s evs = some s' →
      evs.length ≤ allLeft e ds s.phases + (if s.dead || s.returned then 0 else 1) := by
    intro evs
    induction evs with
    | nil => intro s s' _ _; exact Nat.zero_le _
    | cons ev evs ih =>
      intro s s' hl h
      rw [DlEnv.fineRun] at h
      split at h
      · cases h
      · rename_i s1 h1
        obtain ⟨hl1, hlt⟩ := fine_left_step hl h1
        have := ih s1 s' hl1 h
        simp only [List.length_cons]
        omega
  have h0 := hrun evs _ s (Nat.zero_le _) h
  have hsum : ∀ (ds : List PkgDl), allLeft e ds [] = (ds.map fun d => answerSize e (settled e.platform d) (e.dest d) + 7).sum := by
    intro ds
    unfold allLeft
    congr 1
    refine List.ext_getElem (by simp) fun i h1 h2 => ?_
    simp only [List.length_map] at h2
    simp [fineLeft, h2, settled, DlEnv.resolved]
  rw [show (e.fineInit fs ds).phases = [] from rfl, hsum] at h0
  simpa [DlEnv.fineInit] using h0

/-- Non-vacuity of `C47_fine_bounded`, and its bound is reached: a package with four characters, written one by one. -/
example : ∃ s, (toyDl (.body (s%"data") true)).fineRun [toyPkg (s%"a")] ((toyDl (.body (s%"data") true)).fineInit (fun _ => none) [toyPkg (s%"a")])
    [.spawn, .acquire 0, .io 0 .check, .io 0 .reply, .io 0 .create, .io 0 (.write 1), .io 0 (.write 1), .io 0 (.write 1), .io 0 (.write 1), .io 0 .close,
      .finish 0, .ret] = some s ∧ s.returned = true ∧
    ([toyPkg (s%"a")].map fun d => answerSize (toyDl (.body (s%"data") true)) (settled (toyDl (.body (s%"data") true)).platform d)
      ((toyDl (.body (s%"data") true)).dest d) + 7).sum + 1 = 12 := by
  exact ⟨_, rfl, rfl, by decide +kernel⟩

/-- C141: several runs over one cache do not hinder each other from ending: all their downloads together make at most four steps each, and one for each
character that is delivered. -/
theorem C141_bounded (js : List FetchJob) (fs : Fs) (evs : List (Nat × FetchAct)) (s : Fetching) (h : fetchRun js (fetchInit js fs) evs = some s) :
    evs.length ≤ (js.map fun j => answerSize j.env j.d j.dest + 4).sum := by
  let left : List FetchPc → Nat := fun pcs =>
    ((List.range js.length).map fun i => match js[i]?, pcs[i]? with | some j, some pc => fetchLeft (answerSize j.env j.d j.dest) pc | _, _ => 0).sum
  have hstep : ∀ (s s' : Fetching) (i : Nat) (a : FetchAct), fetchStep js s i a = some s' → left s'.pcs < left s.pcs := by
    intro s s' i a h
    unfold fetchStep at h
    split at h
    · rename_i j pc hj hp
      simp only [Option.map_eq_some_iff] at h
      obtain ⟨⟨fs', pc'⟩, hr, hm⟩ := h
      subst hm
      refine sum_one_less _ _ _ i (List.getElem?_eq_some_iff.1 hj).1 (fun k hk => by rw [List.getElem?_set_ne (by omega)]) ?_
      rw [List.getElem?_set_self (List.getElem?_eq_some_iff.1 hp).1]
      simp only [hj, hp]
      exact fetchAct_left hr
    · cases h
  have hrun : ∀ (evs : List (Nat × FetchAct)) (s s' : Fetching), fetchRun js s evs = some s' → evs.length ≤ left s.pcs := by
    intro evs
    induction evs with
    | nil => intro s s' _; exact Nat.zero_le _
    | cons ev evs ih =>
      intro s s' h
      rw [fetchRun] at h
      split at h
      · cases h
      · rename_i s1 h1
        have := hstep _ _ _ _ h1
        have := ih s1 s' h
        simp only [List.length_cons]
        omega
  have h0 := hrun evs _ s h
  have hsum : left (fetchInit js fs).pcs = (js.map fun j => answerSize j.env j.d j.dest + 4).sum := by
    change (List.map _ _).sum = _
    congr 1
    refine List.ext_getElem (by simp) fun i h1 h2 => ?_
    simp only [List.length_map] at h2
    simp [fetchInit, fetchLeft, h2]
  rw [hsum] at h0
  exact h0

/-- C141: nor do they ever get stuck: as long as one of the downloads has not returned, it can make a step, whatever the others
do. (With `C141_bounded`: all of them return.) -/
theorem C141_progress (js : List FetchJob) (fs : Fs) (s : Fetching) (h : Together js fs s) (i : Nat) (j : FetchJob) (pc : FetchPc) (hj : js[i]? = some j)
    (hp : s.pcs[i]? = some pc) (hr : ¬ Returned pc) : ∃ a s', fetchStep js s i a = some s' := by
  have hst : ∀ (a : FetchAct) (r : Fs × FetchPc), j.env.fetchAct j.d j.dest s.fs pc a = some r → ∃ a s', fetchStep js s i a = some s' := by
    intro a r ha
    refine ⟨a, { fs := r.1, pcs := s.pcs.set i r.2 }, ?_⟩
    unfold fetchStep
    simp only [hj, hp, ha, Option.map_some]
  -- a download that is writing has made its file
  have hinv : ∀ (i : Nat) (j : FetchJob) (k : Nat) (c : Str) (b : Bool), js[i]? = some j → s.pcs[i]? = some (.writing k c b) →
      k ≤ c.length ∧ ∃ f, s.fs j.dest = some (.file f) := by
    obtain ⟨evs, hrun⟩ := h
    refine fetch_run_inv (js := js) (fun s => ∀ (i : Nat) (j : FetchJob) (k : Nat) (c : Str) (b : Bool), js[i]? = some j → s.pcs[i]? = some (.writing k c b) →
      k ≤ c.length ∧ ∃ f, s.fs j.dest = some (.file f)) ?_ evs _ _ ?_ hrun
    · intro s s' i a hP hs i' j' k c b hj' hp'
      obtain ⟨j, pc, fs', pc', h1, h2, h3, h4⟩ := fetchStep_some hs
      subst h4
      dsimp only at hp' ⊢
      have hfile : ∀ q f, s.fs q = some (.file f) → ∃ f', fs' q = some (.file f') := by
        intro q f hq
        unfold DlEnv.fetchAct at h3
        split at h3
        · split at h3 <;> cases h3 <;> exact ⟨f, hq⟩
        · split at h3 <;> cases h3 <;> exact ⟨f, hq⟩
        · split at h3 <;> cases h3
          · by_cases hd : q = j.dest
            · exact ⟨[], by simp [Fs.set, hd]⟩
            · exact ⟨f, by simp [Fs.set, hd, hq]⟩
          · exact ⟨f, hq⟩
        · split at h3
          · split at h3
            · cases h3
              by_cases hd : q = j.dest
              · exact ⟨_, by simp [Fs.set, hd]; rfl⟩
              · exact ⟨f, by simp [Fs.set, hd, hq]⟩
            · cases h3
          · cases h3
        · split at h3
          · cases h3; exact ⟨f, hq⟩
          · cases h3
        · cases h3
      by_cases hi : i' = i
      · subst hi
        rw [List.getElem?_set_self (List.getElem?_eq_some_iff.1 h2).1] at hp'
        rw [h1] at hj'
        cases hj'
        cases hp'
        unfold DlEnv.fetchAct at h3
        split at h3
        · split at h3 <;> cases h3
        · split at h3 <;> cases h3
        · split at h3 <;> cases h3
          exact ⟨Nat.zero_le _, [], by simp [Fs.set]⟩
        · split at h3
          · rename_i hk
            split at h3
            · cases h3
              exact ⟨hk.2, _, by simp [Fs.set]; rfl⟩
            · cases h3
          · cases h3
        · split at h3 <;> cases h3
        · cases h3
      · rw [List.getElem?_set_ne (by omega)] at hp'
        obtain ⟨k1, f, k2⟩ := hP i' j' k c b hj' hp'
        exact ⟨k1, hfile _ f k2⟩
    · intro i j k c b _ hp
      have := fetchInit_pc js fs i _ hp
      cases this
  cases pc with
  | start =>
    by_cases hx : s.fs.ex j.dest = true
    · exact hst .check _ (by unfold DlEnv.fetchAct; dsimp only; rw [if_pos hx])
    · exact hst .check _ (by unfold DlEnv.fetchAct; dsimp only; rw [if_neg hx])
  | asking =>
    cases hsv : j.env.server (j.env.url j.d j.dest) <;> exact hst .reply _ (by unfold DlEnv.fetchAct; dsimp only; rw [hsv])
  | opening c b =>
    by_cases hx : (s.fs.isDir (dirPath j.dest) && !s.fs.isDir j.dest) = true
    · exact hst .create _ (by unfold DlEnv.fetchAct; dsimp only; rw [if_pos hx])
    · exact hst .create _ (by unfold DlEnv.fetchAct; dsimp only; rw [if_neg hx])
  | writing k c b =>
    obtain ⟨hk, f, hf⟩ := hinv i j k c b hj hp
    by_cases hk' : k = c.length
    · exact hst .close _ (by unfold DlEnv.fetchAct; dsimp only; rw [if_pos hk'])
    · exact hst (.write (c.length - k)) _ (by unfold DlEnv.fetchAct; dsimp only; rw [if_pos (by omega), hf])
  | ended r => exact absurd ⟨r, rfl⟩ hr

/-- Non-vacuity of `C141_bounded` and `C141_progress`: two downloads of one file, with the file created by both. -/
example : ∃ s, fetchRun [⟨toyDl (.body (s%"da") true), toyPkg (s%"a"), [s%"f"]⟩, ⟨toyDl (.body (s%"da") true), toyPkg (s%"a"), [s%"f"]⟩]
    (fetchInit [⟨toyDl (.body (s%"da") true), toyPkg (s%"a"), [s%"f"]⟩, ⟨toyDl (.body (s%"da") true), toyPkg (s%"a"), [s%"f"]⟩] (fun q => if q = [] then some .dir else none))
    [(0, .check), (1, .check), (0, .reply), (1, .reply), (0, .create), (0, .write 1), (1, .create)] = some s ∧
    s.pcs = [.writing 1 (s%"da") true, .writing 0 (s%"da") true] := by
  exact ⟨_, rfl, by decide +kernel⟩

end Pkgr
