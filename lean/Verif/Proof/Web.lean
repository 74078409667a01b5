/- What is in the files at every moment of the downloads, and what a client gets. -/
import Verif.Spec.Web
import Verif.Props.Fetching
import Verif.Props.Archive
import Verif.Props.LocalRepo

namespace Pkgr
open Spec

/-- How far the download of a goroutine is. -/
inductive StageOf : Option FinePhase → FetchPc → Prop where
  | unborn : StageOf none .start
  | waiting : StageOf (some .waiting) .start
  | holding (pc : FetchPc) : StageOf (some (.holding pc)) pc
  | done (r : DlResult) : StageOf (some .done) (.ended r)

/-- The downloads are what they are when each of them is alone, in files `fs0`. -/
structure EachAlone (e : DlEnv) (ds : List PkgDl) (fs0 : Fs) (s : FineState) : Prop where
  dirs : ∀ p, s.fs.isDir p = fs0.isDir p
  jobs : ∀ (i : Nat) (d : PkgDl), ds[i]? = some d → ∃ pc, StageOf s.phases[i]? pc ∧ JobAt e (e.resolved d) (e.dest d) fs0 s.fs pc
  others : ∀ p, (∀ d ∈ ds, e.dest d ≠ p) → s.fs p = fs0 p

theorem fatal_same {e : DlEnv} {d : PkgDl} {dest : Path} {fs : Fs} {pc : FetchPc} {a : FetchAct} {r : Fs × FetchPc}
    (h : e.fetchAct d dest fs pc a = some r) (hf : r.2 = .ended .fatal) : r.1 = fs := by
  cases pc <;> cases a <;> simp only [DlEnv.fetchAct, reduceCtorEq] at h
  · split at h <;> cases h <;> rfl
  · split at h <;> cases h <;> rfl
  · split at h <;> cases h
    · cases hf
    · rfl
  · split at h
    · split at h <;> cases h
      cases hf
    · cases h
  · split at h <;> cases h
    rfl

theorem eachAlone_step {e : DlEnv} {ds : List PkgDl} {fs0 : Fs} (hdests : (ds.map e.dest).Nodup) {s s' : FineState} {ev : FineEvent}
    (h : EachAlone e ds fs0 s) (hs : e.fineStep ds s ev = some s') : EachAlone e ds fs0 s' := by
  obtain ⟨h1, h2, h3⟩ := h
  unfold DlEnv.fineStep at hs
  split at hs
  · cases hs
  cases ev with
  | spawn =>
    dsimp only at hs
    split at hs <;> simp only [Option.some.injEq, reduceCtorEq] at hs
    subst hs
    refine ⟨h1, fun i d hd => ?_, h3⟩
    obtain ⟨pc, a, b⟩ := h2 i d hd
    by_cases hi : i < s.phases.length
    · exact ⟨pc, by dsimp only; rw [List.getElem?_append_left hi]; exact a, b⟩
    · rw [List.getElem?_eq_none (by omega)] at a
      cases a
      refine ⟨.start, ?_, b⟩
      dsimp only
      by_cases hi' : i = s.phases.length
      · subst hi'
        simp only [List.getElem?_concat_length]
        exact .waiting
      · rw [List.getElem?_eq_none (by simp; omega)]
        exact .unborn
  | acquire i =>
    dsimp only at hs
    split at hs <;> simp only [Option.some.injEq, reduceCtorEq] at hs
    rename_i hc
    subst hs
    refine ⟨h1, fun j d hd => ?_, h3⟩
    obtain ⟨pc, a, b⟩ := h2 j d hd
    dsimp only
    rw [List.getElem?_set]
    by_cases hij : i = j
    · subst hij
      rw [hc.1] at a
      cases a
      have hl := (List.getElem?_eq_some_iff.1 hc.1).1
      rw [if_pos rfl, if_pos hl]
      exact ⟨_, .holding _, b⟩
    · rw [if_neg hij]
      exact ⟨pc, a, b⟩
  | io i a =>
    dsimp only at hs
    split at hs
    · rename_i pc d hpc hd
      simp only [Option.map_eq_some_iff] at hs
      obtain ⟨r, ha, hm⟩ := hs
      obtain ⟨pc0, k1, k2⟩ := h2 i d hd
      rw [hpc] at k1
      cases k1
      have hmine : JobAt e (e.resolved d) (e.dest d) fs0 r.1 r.2 := jobAt_step h1 k2 ha
      have hdir : ∀ p, r.1.isDir p = fs0.isDir p := fun p => by rw [fetchAct_isDir ha p]; exact h1 p
      have hother : ∀ p, (∀ d ∈ ds, e.dest d ≠ p) → r.1 p = fs0 p := by
        intro p hp
        rw [fetchAct_other ha p (fun hh => hp d (List.mem_of_getElem? hd) hh.symm)]
        exact h3 p hp
      unfold FineState.moved at hm
      split at hm
      · rename_i hf
        subst hm
        have hsame := fatal_same ha hf
        exact ⟨hdir, fun j d' hd' => by dsimp only; rw [hsame]; exact h2 j d' hd', hother⟩
      · subst hm
        refine ⟨hdir, fun j d' hd' => ?_, hother⟩
        dsimp only
        rw [List.getElem?_set]
        by_cases hij : i = j
        · subst hij
          rw [hd] at hd'
          cases hd'
          rw [if_pos rfl, if_pos (List.getElem?_eq_some_iff.1 hpc).1]
          exact ⟨_, .holding _, hmine⟩
        · rw [if_neg hij]
          obtain ⟨pc', q1, q2⟩ := h2 j d' hd'
          refine ⟨pc', q1, jobAt_congr rfl (fun _ => rfl) ?_ q2⟩
          exact fetchAct_other ha _ (fun hh => hij (dests_uniq hdests hd hd' hh.symm))
    · cases hs
  | finish i =>
    dsimp only at hs
    split at hs
    · rename_i r d hpc hd
      simp only [Option.some.injEq] at hs
      subst hs
      refine ⟨h1, fun j d' hd' => ?_, h3⟩
      obtain ⟨pc', q1, q2⟩ := h2 j d' hd'
      dsimp only
      rw [List.getElem?_set]
      by_cases hij : i = j
      · subst hij
        rw [if_pos rfl, if_pos (List.getElem?_eq_some_iff.1 hpc).1]
        rw [hpc] at q1
        cases q1
        exact ⟨_, .done _, q2⟩
      · rw [if_neg hij]
        exact ⟨pc', q1, q2⟩
    · cases hs
  | ret =>
    dsimp only at hs
    split at hs <;> simp only [Option.some.injEq, reduceCtorEq] at hs
    subst hs
    exact ⟨h1, h2, h3⟩

theorem mkDirs_contents (e : DlEnv) (fs : Fs) (ds : List PkgDl) (p : Path) :
    e.mkDirs fs ds p = fs p ∨ (fs p = none ∧ e.mkDirs fs ds p = some .dir) := by
  unfold DlEnv.mkDirs
  generalize (getRepos ds).map Prod.snd = rs
  induction rs generalizing fs with
  | nil => exact .inl rfl
  | cons r rs ih =>
    rw [List.foldl_cons]
    have h1 : e.mkRepoDirs fs r p = fs p ∨ (fs p = none ∧ e.mkRepoDirs fs r p = some .dir) := by
      have hm : ∀ (g : Fs) (q : Path), g.mkdirAll q p = g p ∨ (g p = none ∧ g.mkdirAll q p = some .dir) := by
        intro g q
        unfold Fs.mkdirAll
        split
        · rename_i h; exact .inr ⟨h.2, rfl⟩
        · exact .inl rfl
      unfold DlEnv.mkRepoDirs
      generalize joinPaths e.base [repoUrlHash e.digest r, s%"src"] = p1
      generalize joinPaths e.base [repoUrlHash e.digest r, s%"binary", e.rv.toStr] = p2
      rcases hm (fs.mkdirAll p1) p2 with h | ⟨h, h'⟩ <;> rcases hm fs p1 with k | ⟨k, k'⟩
      · exact .inl (h.trans k)
      · exact .inr ⟨k, h.trans k'⟩
      · exact .inr ⟨by rw [← k]; exact h, h'⟩
      · rw [h] at k'; cases k'
    rcases ih (e.mkRepoDirs fs r) with h | ⟨h, h'⟩ <;> rcases h1 with k | ⟨k, k'⟩
    · exact .inl (h.trans k)
    · exact .inr ⟨k, h.trans k'⟩
    · exact .inr ⟨by rw [← k]; exact h, h'⟩
    · rw [h] at k'; cases k'

/-- At every moment of the downloads, every file either was there before, or is the file of one of the packages and has a first part of what the
server sends for it. -/
theorem fine_contents {e : DlEnv} {ds : List PkgDl} {fs : Fs} {s : FineState} (hdests : (ds.map e.dest).Nodup) (h : FineReach e ds fs s)
    {p : Path} {c : Str} (hp : s.fs p = some (.file c)) :
    fs p = some (.file c) ∨
    ∃ d ∈ ds, p = e.dest d ∧ fs p = none ∧ ∃ whole b, e.server (packageAt e d) = .body whole b ∧ c <+: whole := by
  obtain ⟨evs, hr⟩ := h
  have hinv : EachAlone e ds (e.mkDirs fs ds) s := by
    refine fine_run_inv (e := e) (ds := ds) (EachAlone e ds (e.mkDirs fs ds)) (fun s s' ev hs h => eachAlone_step hdests hs h) evs _ _ ?_ hr
    exact ⟨fun _ => rfl, fun i d _ => ⟨.start, by simp only [DlEnv.fineInit, List.getElem?_nil]; exact .unborn, rfl⟩, fun _ _ => rfl⟩
  have hback : ∀ c, e.mkDirs fs ds p = some (.file c) → fs p = some (.file c) := by
    intro c h
    rcases mkDirs_contents e fs ds p with k | ⟨_, k⟩
    · rw [← k]; exact h
    · rw [k] at h; cases h
  have hnone : e.mkDirs fs ds p = none → fs p = none := by
    intro h
    rcases mkDirs_contents e fs ds p with k | ⟨_, k⟩
    · rw [← k]; exact h
    · rw [k] at h; cases h
  by_cases hd : ∃ d ∈ ds, e.dest d = p
  · obtain ⟨d, hdm, rfl⟩ := hd
    obtain ⟨i, hi⟩ := List.getElem?_of_mem hdm
    obtain ⟨pc, _, hj⟩ := hinv.jobs i d hi
    have hurl : e.url (e.resolved d) (e.dest d) = packageAt e d := rfl
    cases pc with
    | start => exact .inl (hback c (by rw [← hj]; exact hp))
    | asking => rw [hj.2] at hp; cases hp
    | opening c' b => rw [hj.2.1] at hp; cases hp
    | writing k c' b =>
      obtain ⟨a1, a2, _, _, a5⟩ := hj
      rw [a5] at hp
      cases hp
      exact .inr ⟨d, hdm, rfl, hnone a1, c', b, a2, List.take_prefix _ _⟩
    | ended r =>
      obtain ⟨_, a2⟩ := hj
      rw [hp] at a2
      unfold DlEnv.downloadPackage at a2
      split at a2
      · exact .inl (hback c a2.symm)
      rename_i hex
      have hno : e.mkDirs fs ds (e.dest d) = none := by
        unfold Fs.ex at hex
        simpa using hex
      split at a2
      · simp only [hno, reduceCtorEq] at a2
      · simp only [hno, reduceCtorEq] at a2
      · simp only [hno, reduceCtorEq] at a2
      · rename_i c' b hsrv
        split at a2
        · simp only [hno, reduceCtorEq] at a2
        · have : c = c' := by
            split at a2 <;> · simp only [Fs.set, if_true, Option.some.injEq, Node.file.injEq] at a2; exact a2
          subst this
          exact .inr ⟨d, hdm, rfl, hnone hno, c, b, hsrv, List.prefix_refl _⟩
  · rw [hinv.others p (fun d hdm hh => hd ⟨d, hdm, hh⟩)] at hp
    exact .inl (hback c hp)

/-! ### Clients -/

theorem isTLS_iff (u : Str) : isTLS u = true ↔ AsksTLS u := by
  unfold isTLS AsksTLS
  rw [Bool.and_eq_true, decide_eq_true_iff, decide_eq_true_iff]
  constructor
  · rintro ⟨h1, h2⟩
    refine ⟨u.take 5, u.drop 6, ?_, h1⟩
    obtain ⟨hl, hc⟩ := List.getElem?_eq_some_iff.1 h2
    rw [← hc, ← List.drop_eq_getElem_cons hl]
    exact (List.take_append_drop 5 u).symm
  · rintro ⟨x, rest, rfl, hx⟩
    have hl : x.length = 5 := by
      have := congrArg List.length hx
      simpa using this
    constructor
    · rw [List.take_append, hl, List.take_of_length_le (by omega)]
      simpa using hx
    · rw [List.getElem?_append_right (by omega), hl]
      rfl

/-- What a client gets that verifies certificates. -/
theorem get_checked (c : Client) (w : Web) (hc : c.checks = true) (n : Nat) (url b : Str) (k : Bool) :
    c.get w n url = .body b k ↔ ∃ us, (url :: us).length ≤ n ∧ Trail (c.meets w) (url :: us) b k ∧
      ∀ u ∈ url :: us, AsksTLS u → (c.meets w u).trusted = true := by
  induction n generalizing url with
  | zero => simp [Client.get]
  | succ n ih =>
    unfold Client.get
    dsimp only
    by_cases hbad : (c.checks && isTLS url && !(c.meets w url).trusted) = true
    · rw [if_pos hbad]
      constructor
      · intro h; cases h
      rintro ⟨us, _, _, h3⟩
      exfalso
      simp only [hc, Bool.true_and, Bool.and_eq_true, Bool.not_eq_true'] at hbad
      have := h3 url (by simp) ((isTLS_iff url).1 hbad.1)
      rw [hbad.2] at this
      cases this
    · rw [if_neg hbad]
      have hok : AsksTLS url → (c.meets w url).trusted = true := by
        intro h
        rw [← isTLS_iff] at h
        simp only [hc, h, Bool.true_and, Bool.not_eq_true', Bool.not_eq_false] at hbad
        exact hbad
      cases hsv : (c.meets w url).served with
      | nothing =>
        simp only [reduceCtorEq, false_iff]
        rintro ⟨us, _, h2, _⟩
        cases h2 with
        | last h => rw [hsv] at h; cases h
        | step h _ => rw [hsv] at h; cases h
      | status =>
        simp only [reduceCtorEq, false_iff]
        rintro ⟨us, _, h2, _⟩
        cases h2 with
        | last h => rw [hsv] at h; cases h
        | step h _ => rw [hsv] at h; cases h
      | body b' k' =>
        simp only [Got.body.injEq]
        constructor
        · rintro ⟨rfl, rfl⟩
          exact ⟨[], by simp, .last hsv, by simpa using hok⟩
        · rintro ⟨us, _, h2, _⟩
          cases h2 with
          | last h => rw [hsv] at h; cases h; exact ⟨rfl, rfl⟩
          | step h _ => rw [hsv] at h; cases h
      | moved v =>
        dsimp only
        rw [ih v]
        constructor
        · rintro ⟨us, h1, h2, h3⟩
          refine ⟨v :: us, by simp only [List.length_cons] at h1 ⊢; omega, .step hsv h2, ?_⟩
          intro u hu
          rcases List.mem_cons.1 hu with rfl | hu
          · exact hok
          · exact h3 u hu
        · rintro ⟨us, h1, h2, h3⟩
          cases h2 with
          | last h => rw [hsv] at h; cases h
          | step h h' =>
            rw [hsv] at h
            cases h
            exact ⟨_, by simp only [List.length_cons] at h1 ⊢; omega, h', fun u hu => h3 u (List.mem_cons_of_mem _ hu)⟩

/-- What a client gets that does not. -/
theorem get_unchecked (c : Client) (w : Web) (hc : c.checks = false) (n : Nat) (url b : Str) (k : Bool) :
    c.get w n url = .body b k ↔ ∃ us, (url :: us).length ≤ n ∧ Trail (c.meets w) (url :: us) b k := by
  induction n generalizing url with
  | zero => simp [Client.get]
  | succ n ih =>
    unfold Client.get
    dsimp only
    rw [hc]
    simp only [Bool.false_and, Bool.false_eq_true, if_false]
    cases hsv : (c.meets w url).served with
    | nothing =>
      simp only [reduceCtorEq, false_iff]
      rintro ⟨us, _, h2⟩
      cases h2 with
      | last h => rw [hsv] at h; cases h
      | step h _ => rw [hsv] at h; cases h
    | status =>
      simp only [reduceCtorEq, false_iff]
      rintro ⟨us, _, h2⟩
      cases h2 with
      | last h => rw [hsv] at h; cases h
      | step h _ => rw [hsv] at h; cases h
    | body b' k' =>
      simp only [Got.body.injEq]
      constructor
      · rintro ⟨rfl, rfl⟩
        exact ⟨[], by simp, .last hsv⟩
      · rintro ⟨us, _, h2⟩
        cases h2 with
        | last h => rw [hsv] at h; cases h; exact ⟨rfl, rfl⟩
        | step h _ => rw [hsv] at h; cases h
    | moved v =>
      dsimp only
      rw [ih v]
      constructor
      · rintro ⟨us, h1, h2⟩
        exact ⟨v :: us, by simp only [List.length_cons] at h1 ⊢; omega, .step hsv h2⟩
      · rintro ⟨us, h1, h2⟩
        cases h2 with
        | last h => rw [hsv] at h; cases h
        | step h h' =>
          rw [hsv] at h
          cases h
          exact ⟨_, by simp only [List.length_cons] at h1 ⊢; omega, h'⟩

end Pkgr
