/- Lemmas for the finely interleaved downloads. -/
import Verif.Spec.Fetching
import Verif.Proof.Download

namespace Pkgr
open Spec

theorem fetchAct_other {e : DlEnv} {d : PkgDl} {dest : Path} {fs fs' : Fs} {pc pc' : FetchPc} {a : FetchAct}
    (h : e.fetchAct d dest fs pc a = some (fs', pc')) (p : Path) (hp : p ≠ dest) : fs' p = fs p := by
  cases pc <;> cases a <;> simp only [DlEnv.fetchAct, reduceCtorEq] at h
  · split at h <;> (cases h; rfl)
  · split at h <;> (cases h; rfl)
  · split at h <;> cases h
    · simp [Fs.set, hp]
    · rfl
  · split at h
    · split at h <;> cases h
      simp [Fs.set, hp]
    · cases h
  · split at h <;> cases h
    rfl

theorem set_isDir {fs : Fs} {dest : Path} {c : Str} (h : fs dest ≠ some .dir) (p : Path) : (fs.set dest (.file c)).isDir p = fs.isDir p := by
  unfold Fs.isDir Fs.set
  split
  · rename_i hp; subst hp; simp [h]
  · rfl

theorem fetchAct_isDir {e : DlEnv} {d : PkgDl} {dest : Path} {fs fs' : Fs} {pc pc' : FetchPc} {a : FetchAct}
    (h : e.fetchAct d dest fs pc a = some (fs', pc')) (p : Path) : fs'.isDir p = fs.isDir p := by
  cases pc <;> cases a <;> simp only [DlEnv.fetchAct, reduceCtorEq] at h
  · split at h <;> (cases h; rfl)
  · split at h <;> (cases h; rfl)
  · split at h <;> cases h
    · rename_i hc
      apply set_isDir
      simp [Fs.isDir] at hc
      exact hc.2
    · rfl
  · split at h
    · split at h <;> cases h
      rename_i hf
      apply set_isDir
      rw [hf]; simp
    · cases h
  · split at h <;> cases h
    rfl

/-- How far a download that nobody disturbs has got, relative to the file system `fs0` in which it would be one step. -/
def JobAt (e : DlEnv) (d : PkgDl) (dest : Path) (fs0 fs : Fs) : FetchPc → Prop
  | .start => fs dest = fs0 dest
  | .asking => fs0 dest = none ∧ fs dest = none
  | .opening c b => fs0 dest = none ∧ fs dest = none ∧ e.server (e.url d dest) = .body c b
  | .writing k c b => fs0 dest = none ∧ e.server (e.url d dest) = .body c b ∧ fs0.isDir (dirPath dest) = true ∧ k ≤ c.length ∧
      fs dest = some (.file (c.take k))
  | .ended r => (e.downloadPackage fs0 d dest).2 = r ∧ fs dest = (e.downloadPackage fs0 d dest).1 dest

theorem jobAt_congr {e : DlEnv} {d : PkgDl} {dest : Path} {fs0 fs0' fs fs' : Fs} {pc : FetchPc} (h0 : fs0' dest = fs0 dest)
    (hd : ∀ p, fs0'.isDir p = fs0.isDir p) (h : fs' dest = fs dest) (hj : JobAt e d dest fs0 fs pc) : JobAt e d dest fs0' fs' pc := by
  cases pc with
  | start => simp only [JobAt] at hj ⊢; rw [h, h0, hj]
  | asking => simp only [JobAt] at hj ⊢; rw [h, h0]; exact hj
  | opening c b => simp only [JobAt] at hj ⊢; rw [h, h0]; exact hj
  | writing k c b => simp only [JobAt] at hj ⊢; rw [h, h0, hd]; exact hj
  | ended r =>
    simp only [JobAt] at hj ⊢
    have := download_local e fs0' fs0 d dest h0 hd
    rw [this.1, this.2, h]; exact hj

theorem writeAt_take (c : Str) (k n : Nat) (h : k + n ≤ c.length) : writeAt (c.take k) k ((c.drop k).take n) = c.take (k + n) := by
  unfold writeAt
  have h1 : (c.take k).length = k := by simp; omega
  have h2 : ((c.drop k).take n).length = n := by simp; omega
  have h3 : (c.take k).take k = c.take k := List.take_of_length_le (by omega)
  have h4 : (c.take k).drop (k + n) = [] := List.drop_eq_nil_of_le (by omega)
  rw [h1, h2, h3, h4, Nat.sub_self]
  simp [List.take_add]

theorem jobAt_step {e : DlEnv} {d : PkgDl} {dest : Path} {fs0 fs fs' : Fs} {pc pc' : FetchPc} {a : FetchAct}
    (hd : ∀ p, fs.isDir p = fs0.isDir p) (hj : JobAt e d dest fs0 fs pc) (h : e.fetchAct d dest fs pc a = some (fs', pc')) :
    JobAt e d dest fs0 fs' pc' := by
  cases pc <;> cases a <;> simp only [DlEnv.fetchAct, reduceCtorEq] at h
  · simp only [JobAt] at hj
    split at h <;> rename_i hex <;> cases h
    · have : fs0.ex dest = true := by unfold Fs.ex at hex ⊢; rw [← hj]; exact hex
      simp only [JobAt, DlEnv.downloadPackage]
      rw [if_pos this]
      exact ⟨rfl, hj⟩
    · have : fs dest = none := by unfold Fs.ex at hex; simpa using hex
      exact ⟨by rw [← hj]; exact this, this⟩
  · simp only [JobAt] at hj
    obtain ⟨hj1, hj2⟩ := hj
    have hex : ¬ fs0.ex dest = true := by simp [Fs.ex, hj1]
    split at h <;> rename_i hs <;> cases h <;> simp only [JobAt, DlEnv.downloadPackage]
    · rw [if_neg hex, hs]; exact ⟨rfl, hj2.trans hj1.symm⟩
    · rw [if_neg hex, hs]; exact ⟨rfl, hj2.trans hj1.symm⟩
    · rw [if_neg hex, hs]; exact ⟨rfl, hj2.trans hj1.symm⟩
    · exact ⟨hj1, hj2, hs⟩
  · simp only [JobAt] at hj
    obtain ⟨hj1, hj2, hs⟩ := hj
    have hex : ¬ fs0.ex dest = true := by simp [Fs.ex, hj1]
    split at h <;> rename_i hc <;> cases h <;> simp only [JobAt]
    · simp only [Bool.and_eq_true] at hc
      exact ⟨hj1, hs, by rw [← hd]; exact hc.1, Nat.zero_le _, by simp [Fs.set]⟩
    · have hnd : fs.isDir dest = false := by simp [Fs.isDir, hj2]
      rw [hnd] at hc
      simp only [Bool.not_false, Bool.and_true, Bool.not_eq_true] at hc
      rw [hd] at hc
      simp only [DlEnv.downloadPackage]
      rw [if_neg hex, hs]
      simp only [hc, Bool.not_false, if_true]
      exact ⟨trivial, by rw [hj2, hj1]⟩
  · simp only [JobAt] at hj
    obtain ⟨hj1, hs, hdir, hk, hf⟩ := hj
    split at h
    · rename_i hn
      rw [hf] at h
      cases h
      simp only [JobAt]
      exact ⟨hj1, hs, hdir, hn.2, by simp only [Fs.set, if_true]; rw [writeAt_take _ _ _ hn.2]⟩
    · cases h
  · simp only [JobAt] at hj
    obtain ⟨hj1, hs, hdir, hk, hf⟩ := hj
    have hex : ¬ fs0.ex dest = true := by simp [Fs.ex, hj1]
    split at h <;> cases h
    rename_i hkl
    simp only [JobAt, DlEnv.downloadPackage]
    rw [if_neg hex, hs]
    rw [hkl, List.take_length] at hf
    simp only [hdir, Bool.not_true, Bool.false_eq_true, if_false]
    split <;> exact ⟨rfl, by simp [hf, Fs.set]⟩

/-! ### One process -/

/-- What is seen of a goroutine in the coarser model. -/
def FinePhase.coarse : FinePhase → DlPhase
  | .waiting => .waiting
  | .holding _ => .holding
  | .done => .done

/-- The finely interleaved state `s` and the state `t` of the coarser model, in which the downloads that are not stored yet
have not begun. -/
structure FineSim (e : DlEnv) (ds : List PkgDl) (s : FineState) (t : DlState) : Prop where
  dead : s.dead = false
  dead' : t.dead = false
  ret : t.returned = s.returned
  wg : t.wg = s.wg
  result : t.result = s.result
  phases : t.phases = s.phases.map FinePhase.coarse
  dirs : ∀ p, s.fs.isDir p = t.fs.isDir p
  jobs : ∀ (i : Nat) (d : PkgDl) (pc : FetchPc), ds[i]? = some d → s.phases[i]? = some (.holding pc) → JobAt e (e.resolved d) (e.dest d) t.fs s.fs pc
  live : ∀ i : Nat, s.phases[i]? ≠ some (.holding (.ended .fatal))
  others : ∀ p, (∀ (i : Nat) (d : PkgDl) (pc : FetchPc), ds[i]? = some d → s.phases[i]? = some (.holding pc) → e.dest d ≠ p) → s.fs p = t.fs p

theorem coarse_count (l : List FinePhase) : (l.map FinePhase.coarse).count .holding = l.countP FinePhase.isHolding := by
  induction l with
  | nil => rfl
  | cons x l ih =>
    rw [List.map_cons, List.count_cons, List.countP_cons, ih]
    cases x <;> rfl

theorem dests_uniq {e : DlEnv} {ds : List PkgDl} (hdests : (ds.map e.dest).Nodup) {i j : Nat} {d d' : PkgDl}
    (hi : ds[i]? = some d) (hj : ds[j]? = some d') (h : e.dest d = e.dest d') : i = j := by
  obtain ⟨li, hi'⟩ := List.getElem?_eq_some_iff.1 hi
  obtain ⟨lj, hj'⟩ := List.getElem?_eq_some_iff.1 hj
  exact (nodup_getElem_inj hdests (hi := by simpa using li) (hj := by simpa using lj)).1 (by simpa [hi', hj'] using h)

theorem fineSim_init (e : DlEnv) (ds : List PkgDl) (fs : Fs) : FineSim e ds (e.fineInit fs ds) (e.init fs ds) :=
  ⟨rfl, rfl, rfl, rfl, rfl, rfl, fun _ => rfl, fun _ _ _ _ h => by simp [DlEnv.fineInit] at h, fun _ => by simp [DlEnv.fineInit], fun _ _ => rfl⟩

/-- Every step of the fine model is matched by the coarser one: by the same step, or (a step inside a download) by none. -/
theorem fineSim_step {e : DlEnv} {ds : List PkgDl} (hdests : (ds.map e.dest).Nodup) {s s' : FineState} {t : DlState} {ev : FineEvent}
    (hs : FineSim e ds s t) (h : e.fineStep ds s ev = some s') :
    s'.dead = true ∨ ∃ t', FineSim e ds s' t' ∧ (t' = t ∨ ∃ ev', e.step ds t ev' = some t') := by
  obtain ⟨g1, g2, g3, g4, g5, g6, g7, g8, gl, g9⟩ := hs
  unfold DlEnv.fineStep at h
  split at h
  · cases h
  rename_i hdr
  have hret : s.returned = false := by simpa [g1] using hdr
  have hlen : t.phases.length = s.phases.length := by rw [g6]; simp
  have hgo : ¬ (t.dead || t.returned) = true := by rw [g2, g3, hret]; simp
  cases ev with
  | spawn =>
    dsimp only at h
    split at h <;> simp only [Option.some.injEq, reduceCtorEq] at h
    rename_i hl
    subst h
    have hph : ∀ (i : Nat) (pc : FetchPc), (s.phases ++ [FinePhase.waiting])[i]? = some (.holding pc) → s.phases[i]? = some (.holding pc) := by
      intro i pc hi
      rw [List.getElem?_append] at hi
      split at hi
      · exact hi
      · cases hx : i - s.phases.length <;> simp [hx] at hi
    refine Or.inr ⟨{ t with phases := t.phases ++ [.waiting], wg := t.wg + 1 }, ⟨g1, g2, g3, by simp [g4], g5, by simp [g6, FinePhase.coarse], g7,
      fun i d pc hd hi => g8 i d pc hd (hph i pc hi), fun i hi => gl i (hph i _ hi), fun p hp => g9 p fun i d pc hd hi => hp i d pc hd ?_⟩, Or.inr ⟨.spawn, ?_⟩⟩
    · show (s.phases ++ [FinePhase.waiting])[i]? = _
      rw [List.getElem?_append, if_pos (List.getElem?_eq_some_iff.1 hi).1]
      exact hi
    · unfold DlEnv.step
      rw [if_neg hgo]
      dsimp only
      rw [if_pos (by omega)]
  | acquire i =>
    dsimp only at h
    split at h <;> simp only [Option.some.injEq, reduceCtorEq] at h
    rename_i hc
    subst h
    have hil := (List.getElem?_eq_some_iff.1 hc.1).1
    refine Or.inr ⟨{ t with phases := t.phases.set i .holding }, ⟨g1, g2, g3, g4, g5, by simp [g6, List.map_set, FinePhase.coarse], g7, ?_, ?_, ?_⟩,
      Or.inr ⟨.acquire i, ?_⟩⟩
    · intro j d pc hd hj
      change (s.phases.set i (.holding .start))[j]? = _ at hj
      rw [List.getElem?_set] at hj
      split at hj
      · rename_i hij
        subst hij
        simp only [hil, if_true, Option.some.injEq, FinePhase.holding.injEq] at hj
        subst hj
        show s.fs (e.dest d) = t.fs (e.dest d)
        apply g9
        intro j' d' pc' hd' hj' he
        have := dests_uniq hdests hd' hd he
        subst this
        rw [hc.1] at hj'
        simp at hj'
      · exact g8 j d pc hd hj
    · intro j hj
      change (s.phases.set i (.holding .start))[j]? = _ at hj
      rw [List.getElem?_set] at hj
      split at hj
      · simp [hil] at hj
      · exact gl j hj
    · intro p hp
      apply g9
      intro j d pc hd hj
      by_cases hij : i = j
      · subst hij
        rw [hc.1] at hj
        simp at hj
      · refine hp j d pc hd ?_
        show (s.phases.set i (.holding .start))[j]? = _
        rw [List.getElem?_set, if_neg hij]
        exact hj
    · unfold DlEnv.step
      rw [if_neg hgo]
      dsimp only
      rw [if_pos]
      refine ⟨?_, ?_⟩
      · rw [g6, List.getElem?_map, hc.1]; rfl
      · rw [g6, coarse_count]; exact hc.2
  | io i a =>
    dsimp only at h
    split at h
    · rename_i pc d hp hd
      simp only [Option.map_eq_some_iff] at h
      obtain ⟨⟨fs', pc'⟩, ha, hm⟩ := h
      unfold FineState.moved at hm
      dsimp only at hm
      split at hm
      · subst hm; exact Or.inl rfl
      · rename_i hnf
        subst hm
        have hil := (List.getElem?_eq_some_iff.1 hp).1
        have hcoarse : (s.phases.set i (.holding pc')).map FinePhase.coarse = s.phases.map FinePhase.coarse := by
          rw [List.map_set]
          apply List.ext_getElem?
          intro j
          rw [List.getElem?_set]
          split
          · rename_i hij
            subst hij
            rw [List.getElem?_map, hp]
            simp [hil, FinePhase.coarse]
          · rfl
        refine Or.inr ⟨t, ⟨g1, g2, g3, g4, g5, by rw [hcoarse]; exact g6, ?_, ?_, ?_, ?_⟩, Or.inl rfl⟩
        · intro p; rw [fetchAct_isDir ha, g7]
        · intro j d' q hd' hj
          change (s.phases.set i (.holding pc'))[j]? = _ at hj
          rw [List.getElem?_set] at hj
          split at hj
          · rename_i hij
            subst hij
            simp only [hil, if_true, Option.some.injEq, FinePhase.holding.injEq] at hj
            subst hj
            have : d' = d := by rw [hd] at hd'; exact (Option.some.inj hd').symm
            subst this
            exact jobAt_step g7 (g8 i d' pc hd hp) ha
          · rename_i hij
            refine jobAt_congr rfl (fun _ => rfl) ?_ (g8 j d' q hd' hj)
            apply fetchAct_other ha
            intro he
            exact hij (dests_uniq hdests hd hd' he.symm)
        · intro j hj
          change (s.phases.set i (.holding pc'))[j]? = _ at hj
          rw [List.getElem?_set] at hj
          split at hj
          · simp only [hil, if_true, Option.some.injEq, FinePhase.holding.injEq] at hj
            exact hnf hj
          · exact gl j hj
        · intro p hpp
          have hne : p ≠ e.dest d := by
            intro he
            refine hpp i d pc' hd ?_ he.symm
            show (s.phases.set i (.holding pc'))[i]? = _
            simp [hil]
          show fs' p = t.fs p
          rw [fetchAct_other ha p hne]
          apply g9
          intro j d' q hd' hj
          by_cases hij : i = j
          · subst hij
            have : d' = d := by rw [hd] at hd'; exact (Option.some.inj hd').symm
            subst this
            exact hne.symm
          · refine hpp j d' q hd' ?_
            show (s.phases.set i (.holding pc'))[j]? = _
            rw [List.getElem?_set, if_neg hij]
            exact hj
    · cases h
  | finish i =>
    dsimp only at h
    split at h
    · rename_i r d hp hd
      simp only [Option.some.injEq] at h
      subst h
      have hil := (List.getElem?_eq_some_iff.1 hp).1
      have hj := g8 i d _ hd hp
      simp only [JobAt] at hj
      obtain ⟨hr, hf⟩ := hj
      by_cases hfat : r = .fatal
      · subst hfat; exact absurd hp (gl i)
      · refine Or.inr ⟨{ t with fs := (e.downloadPackage t.fs (e.resolved d) (e.dest d)).1, phases := t.phases.set i .done, wg := t.wg - 1, result := storeResult t.result d.package.package (e.downloadPackage t.fs (e.resolved d) (e.dest d)).2 },
          ⟨g1, g2, g3, by simp [g4], by simp [g5, hr], by simp [g6, List.map_set, FinePhase.coarse], ?_, ?_, ?_, ?_⟩, Or.inr ⟨.finish i, ?_⟩⟩
        · intro p; show s.fs.isDir p = _; rw [download_isDir, g7]
        · intro j d' q hd' hj
          change (s.phases.set i .done)[j]? = _ at hj
          rw [List.getElem?_set] at hj
          split at hj
          · simp [hil] at hj
          · rename_i hij
            refine jobAt_congr ?_ (fun p => download_isDir _ _ _ _ p) rfl (g8 j d' q hd' hj)
            apply download_other
            intro he
            exact hij (dests_uniq hdests hd hd' he.symm)
        · intro j hj
          change (s.phases.set i .done)[j]? = _ at hj
          rw [List.getElem?_set] at hj
          split at hj
          · simp [hil] at hj
          · exact gl j hj
        · intro p hpp
          by_cases hpe : p = e.dest d
          · subst hpe; exact hf
          · show s.fs p = (e.downloadPackage t.fs (e.resolved d) (e.dest d)).1 p
            rw [download_other _ _ _ _ _ hpe]
            apply g9
            intro j d' q hd' hj
            by_cases hij : i = j
            · subst hij
              have : d' = d := by rw [hd] at hd'; exact (Option.some.inj hd').symm
              subst this
              exact fun hh => hpe hh.symm
            · refine hpp j d' q hd' ?_
              show (s.phases.set i .done)[j]? = _
              rw [List.getElem?_set, if_neg hij]
              exact hj
        · unfold DlEnv.step
          rw [if_neg hgo]
          dsimp only
          have h1 : t.phases[i]? = some .holding := by rw [g6, List.getElem?_map, hp]; rfl
          rw [h1, hd]
          dsimp only
          unfold DlEnv.finishStep
          rw [if_neg (by rw [hr]; exact hfat)]
    · cases h
  | ret =>
    dsimp only at h
    split at h <;> simp only [Option.some.injEq, reduceCtorEq] at h
    rename_i hc
    subst h
    refine Or.inr ⟨{ t with returned := true }, ⟨g1, g2, rfl, g4, g5, g6, g7, g8, gl, g9⟩, Or.inr ⟨.ret, ?_⟩⟩
    unfold DlEnv.step
    rw [if_neg hgo]
    dsimp only
    rw [if_pos]
    rw [hlen, g4]; exact hc

theorem dl_run_append (e : DlEnv) (ds : List PkgDl) (t0 t t' : DlState) {pre : List DlEvent} {ev : DlEvent}
    (h : e.run ds t0 pre = some t) (hs : e.step ds t ev = some t') : e.run ds t0 (pre ++ [ev]) = some t' := by
  induction pre generalizing t0 with
  | nil => cases h; simp [DlEnv.run, hs]
  | cons x pre ih =>
    rw [List.cons_append, DlEnv.run] at *
    split at h
    · cases h
    · exact ih _ h

theorem fineSim_run {e : DlEnv} {ds : List PkgDl} (hdests : (ds.map e.dest).Nodup) (fs : Fs) (evs : List FineEvent) (s s' : FineState) (t : DlState)
    (hs : FineSim e ds s t) (ht : DlReach e ds fs t) (h : e.fineRun ds s evs = some s') :
    s'.dead = true ∨ ∃ t', FineSim e ds s' t' ∧ DlReach e ds fs t' := by
  induction evs generalizing s t with
  | nil => cases h; exact Or.inr ⟨t, hs, ht⟩
  | cons ev evs ih =>
    rw [DlEnv.fineRun] at h
    split at h
    · cases h
    · rename_i s1 h1
      rcases fineSim_step hdests hs h1 with hd | ⟨t', ht', hor⟩
      · left
        cases evs with
        | nil => cases h; exact hd
        | cons ev' evs' =>
          rw [DlEnv.fineRun] at h
          have : e.fineStep ds s1 ev' = none := by unfold DlEnv.fineStep; rw [if_pos (by simp [hd])]
          rw [this] at h
          cases h
      · refine ih s1 t' ht' ?_ h
        rcases hor with rfl | ⟨ev', hev⟩
        · exact ht
        · obtain ⟨pre, hpre⟩ := ht
          exact ⟨pre ++ [ev'], dl_run_append _ _ _ _ _ hpre hev⟩

theorem fineSim_reach {e : DlEnv} {ds : List PkgDl} {fs : Fs} {s : FineState} (hdests : (ds.map e.dest).Nodup) (h : FineReach e ds fs s)
    (hd : s.dead = false) : ∃ t, FineSim e ds s t ∧ DlReach e ds fs t := by
  obtain ⟨evs, hr⟩ := h
  rcases fineSim_run hdests fs evs _ _ _ (fineSim_init e ds fs) ⟨[], rfl⟩ hr with h1 | h1
  · rw [hd] at h1; cases h1
  · exact h1

end Pkgr
