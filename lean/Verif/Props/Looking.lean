/- C147: planning, inspecting and load checks leave the library and the project alone. -/
import Verif.Props.Tarballs
import Verif.Props.Logger

namespace Pkgr
open Spec

/-- What unpacking one tarball may do. -/
def OnlyMade (dir : Path) (fs st : Fs) : Prop :=
  ∀ q, ¬ dir <+: q → st q = fs q ∨ (q <+: dir ∧ fs q = none ∧ st q = some .dir)

theorem untar_states (digest : Str → Str) (names : List Str) (fs : Fs) (cache : Path) (t : Tarball) :
    ∀ st ∈ (untar digest names fs cache t).1, OnlyMade (cache ++ [digest t.bytes]) fs st := by
  intro st hst q hq
  unfold untar at hst
  dsimp only at hst
  by_cases hd : fs.isDir (cache ++ [digest t.bytes]) = true
  · rw [if_pos hd] at hst
    rw [List.mem_singleton.mp hst]
    exact .inl rfl
  · rw [if_neg hd] at hst
    refine C69_confined fs _ t.entries t.readOk st ?_ q hq
    generalize extract fs (cache ++ [digest t.bytes]) t.entries t.readOk = x at hst
    obtain ⟨l, b⟩ := x
    cases b <;> exact hst

theorem unpackStates_confined (digest : Str → Str) (names : List Str) (parse : Str → Option Desc) (cache : Path) :
    ∀ (ts : List (Str × Option Tarball)) (fs : Fs), ∀ st ∈ unpackStates digest names parse cache fs ts,
      ∀ q, (∀ p t, (p, some t) ∈ ts → ¬ (cache ++ [digest t.bytes]) <+: q) →
        st q = fs q ∨ ((∃ p t, (p, some t) ∈ ts ∧ q <+: (cache ++ [digest t.bytes])) ∧ fs q = none ∧ st q = some .dir) := by
  intro ts
  induction ts with
  | nil =>
    intro fs st hst q _
    unfold unpackStates at hst
    rw [List.mem_singleton.mp hst]
    exact .inl rfl
  | cons x ts ih =>
    obtain ⟨path, file⟩ := x
    intro fs st hst q hq
    unfold unpackStates at hst
    cases file with
    | none =>
      rw [List.mem_singleton.mp hst]
      exact .inl rfl
    | some t =>
      have hone : ∀ st ∈ (untar digest names fs cache t).1, st q = fs q ∨ (q <+: cache ++ [digest t.bytes] ∧ fs q = none ∧ st q = some .dir) :=
        fun st h => untar_states digest names fs cache t st h q (hq path t List.mem_cons_self)
      dsimp only at hst
      rcases List.mem_append.mp hst with hst | hst
      · rcases List.mem_cons.mp hst with rfl | hst
        · exact .inl rfl
        · rcases hone st (List.mem_reverse.mp hst) with h | ⟨h1, h2, h3⟩
          · exact .inl h
          · exact .inr ⟨⟨path, t, List.mem_cons_self, h1⟩, h2, h3⟩
      · cases hu : unpackOne digest names parse cache fs path (some t) with
        | none => rw [hu] at hst; cases hst
        | some y =>
          obtain ⟨fs', d, a⟩ := y
          rw [hu] at hst
          dsimp only at hst
          have hfs : fs' = lastState fs (untar digest names fs cache t).1 := by
            unfold unpackOne at hu
            dsimp only at hu
            repeat' split at hu
            all_goals first
              | (cases hu; done)
              | (cases hu; rfl)
          have hmid : fs' q = fs q ∨ (q <+: cache ++ [digest t.bytes] ∧ fs q = none ∧ fs' q = some .dir) := by
            rw [hfs]
            unfold lastState
            cases hl : (untar digest names fs cache t).1 with
            | nil => exact .inl rfl
            | cons s l => exact hone s (by rw [hl]; exact List.mem_cons_self)
          rcases ih fs' st hst q (fun p t' h => hq p t' (List.mem_cons_of_mem _ h)) with h | ⟨⟨p, t', h1, h2⟩, h3, h4⟩
          · rcases hmid with h' | ⟨h1, h2, h3⟩
            · exact .inl (h.trans h')
            · exact .inr ⟨⟨path, t, List.mem_cons_self, h1⟩, h2, h.trans h3⟩
          · rcases hmid with h' | ⟨g1, g2, _⟩
            · exact .inr ⟨⟨p, t', List.mem_cons_of_mem _ h1, h2⟩, h'.symm.trans h3, h4⟩
            · exact .inr ⟨⟨path, t, List.mem_cons_self, g1⟩, g2, h4⟩

/-- **C147**: at every moment of planning, also if it fails or is interrupted, everything that is not in the directory of
a configured tarball in the cache is as before, except that directories above these may have been made. -/
theorem C147_planning (digest : Str → Str) (names : List Str) (parse : Str → Option Desc) (cache : Path) (fs : Fs)
    (ts : List (Str × Option Tarball)) :
    ∀ st ∈ unpackStates digest names parse cache fs ts, ∀ q, (∀ p t, (p, some t) ∈ ts → ¬ (cache ++ [digest t.bytes]) <+: q) →
      st q = fs q ∨ ((∃ p t, (p, some t) ∈ ts ∧ q <+: (cache ++ [digest t.bytes])) ∧ fs q = none ∧ st q = some .dir) :=
  unpackStates_confined digest names parse cache ts fs

/-- **C147**: in particular, when neither the library (or the project, or any other directory) is in the cache nor the cache in it, it is exactly as before at
every moment of planning: no package added, removed or changed, and not even the library made when it is missing. Without tarballs, nothing at all
changes. -/
theorem C147_library (digest : Str → Str) (names : List Str) (parse : Str → Option Desc) (cache lib : Path) (fs : Fs)
    (ts : List (Str × Option Tarball)) (h1 : ¬ lib <+: cache) (h2 : ¬ cache <+: lib) :
    (∀ st ∈ unpackStates digest names parse cache fs ts, ∀ q, lib <+: q → st q = fs q) ∧
    (ts = [] → unpackStates digest names parse cache fs ts = [fs]) := by
  refine ⟨fun st hst q hq => ?_, fun e => by subst e; rfl⟩
  have hlib : ∀ d : Str, ¬ lib <+: cache ++ [d] := by
    intro d h
    obtain ⟨r, hr⟩ := h
    rcases List.eq_nil_or_concat r with e | ⟨r', x, e⟩
    · subst e
      rw [List.append_nil] at hr
      exact h2 (hr ▸ List.prefix_append _ _)
    · subst e
      rw [List.concat_eq_append, ← List.append_assoc] at hr
      have := List.append_inj' hr rfl
      exact h1 ⟨r', this.1⟩
  have hout : ∀ p t, (p, some t) ∈ ts → ¬ (cache ++ [digest t.bytes]) <+: q := by
    intro p t _ hp
    rcases List.prefix_or_prefix_of_prefix hq hp with h | h
    · exact hlib _ h
    · exact h2 ((List.prefix_append _ _).trans h)
  rcases unpackStates_confined digest names parse cache ts fs st hst q hout with h | ⟨⟨p, t, _, hp⟩, _⟩
  · exact h
  · exact absurd (hq.trans hp) (hlib _)

theorem fire_other (line : Str) (fs : Fs) {p q : Path} (h : q ≠ p) : fire line fs p q = fs q := by
  unfold fire
  cases fs p with
  | none => rfl
  | some n => cases n with
    | dir => rfl
    | file c => simp [Fs.set, h]

theorem say_other (f : LogFmt) (w : LogWorld) (s : Said) {q : Path} (h : q ∉ w.hooks) :
    (say f w s).fs q = w.fs q ∧ (say f w s).hooks = w.hooks := by
  have key : ∀ (line : Str) (l : List Path) (fs : Fs), q ∉ l → (l.foldl (fire line) fs) q = fs q := by
    intro line l
    induction l with
    | nil => intro fs _; rfl
    | cons p l ih =>
      intro fs hq
      rw [List.foldl_cons, ih _ fun hm => hq (List.mem_cons_of_mem _ hm)]
      exact fire_other line fs fun e => hq (by rw [e]; exact List.mem_cons_self)
  unfold say
  by_cases he : w.ended = true
  · rw [if_pos he]; exact ⟨rfl, rfl⟩
  · rw [if_neg he]
    cases s with
    | print t => exact ⟨rfl, rfl⟩
    | record r =>
      dsimp only
      by_cases hl : enabled w.level r.level = true
      · rw [if_pos hl]; exact ⟨key _ _ _ h, rfl⟩
      · rw [if_neg hl]; exact ⟨rfl, rfl⟩

theorem sayAll_other (f : LogFmt) {q : Path} : ∀ (l : List Said) (w : LogWorld), q ∉ w.hooks →
    (sayAll f w l).fs q = w.fs q ∧ (sayAll f w l).hooks = w.hooks
  | [], w, _ => ⟨rfl, rfl⟩
  | s :: l, w, h => by
    obtain ⟨h1, h2⟩ := say_other f w s h
    obtain ⟨g1, g2⟩ := sayAll_other f l (say f w s) (h2 ▸ h)
    exact ⟨g1.trans h1, g2.trans h2⟩

/-- **C147**: what is logged changes no file but the configured log file; `plan` and `load` have none, `inspect` has `Logging.all`. -/
theorem C147_log (f : LogFmt) (c : LogCmd) (r : LogRun) (fs : Fs) (hc : c = .plan ∨ (∃ json, c = .load json) ∨ ∃ json, c = .inspect json)
    (q : Path) (hq : ∀ json, c = .inspect json → r.logging.all ≠ [] → q ≠ absIn r.cwd r.logging.all) :
    (loggedRun f c r fs).fs q = fs q := by
  have h0 : (initLogging f r.word r.start (logStart fs)).fs q = fs q ∧ (initLogging f r.word r.start (logStart fs)).hooks = [] := by
    unfold initLogging
    exact sayAll_other f r.start _ (by simp [logStart])
  unfold loggedRun unlessEnded
  by_cases he : (initLogging f r.word r.start (logStart fs)).ended = true
  · rw [if_pos he]; exact h0.1
  · rw [if_neg he]
    generalize initLogging f r.word r.start (logStart fs) = w at h0
    obtain ⟨h1, h2⟩ := h0
    rcases hc with rfl | ⟨json, rfl⟩ | ⟨json, rfl⟩
    · exact (sayAll_other f _ _ (by rw [h2]; simp)).1.trans h1
    · refine (sayAll_other f _ _ ?_).1.trans ?_
      · cases json <;> simp [h2]
      · cases json <;> exact h1
    · have hadd : (initCommandLog r w).fs q = fs q ∧ q ∉ (initCommandLog r w).hooks := by
        unfold initCommandLog addLogFile
        by_cases ha : r.logging.all = []
        · rw [if_pos ha]; exact ⟨h1, by rw [h2]; simp⟩
        · rw [if_neg ha]
          have hne := hq json rfl ha
          cases ho : openLog w.fs (absIn r.cwd r.logging.all) r.logging.overwrite with
          | none => exact ⟨h1, by rw [h2]; simp⟩
          | some fs' =>
            refine ⟨?_, by rw [h2]; simpa using hne⟩
            dsimp only
            rw [← h1]
            unfold openLog at ho
            split at ho
            · cases ho
            · cases ho; simp [Fs.set, hne]
            · split at ho
              · cases ho; simp [Fs.set, hne]
              · cases ho
      refine (sayAll_other f _ _ ?_).1.trans ?_
      · cases json <;> exact hadd.2
      · cases json <;> exact hadd.1

/-- Non-vacuity: a library beside the cache, and a tarball that is unpacked, through several states. -/
example : ¬ [s%"lib"] <+: [s%"cache"] ∧ ¬ [s%"cache"] <+: [s%"lib"] ∧
    1 < (unpackStates (fun _ => s%"d1") [s%"R6"] (fun _ => some { package := s%"R6" }) [s%"cache"]
      (fun q => if q = [] ∨ q = [s%"cache"] then some .dir else none)
      [(s%"R6.tar.gz", some { bytes := [], entries := [({ name := s%"R6/DESCRIPTION", kind := .regular (s%"x") }, .ok)], readOk := true })]).length := by
  refine ⟨by decide, by decide, by decide +kernel⟩

end Pkgr
