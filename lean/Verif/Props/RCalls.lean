/- C133: one R for everything. -/
import Verif.Model.RCalls
import Verif.Props.Settings

namespace Pkgr
open Spec

/-- A version that R states is one with a positive major or minor number (all released versions are). -/
def Spec.RealVersion (v : RVer) : Prop := v.1 ≠ 0 ∨ v.2.1 ≠ 0

theorem getRVersion_known (windows : Bool) (answer : Nat → Str → Option Str) (st : RState) (h : RealVersion st.version) :
    getRVersion windows answer st = some (st.version, st) := by
  unfold getRVersion
  rw [if_neg]
  rintro ⟨h1, h2⟩
  rcases h with h | h
  · exact h h1
  · exact h h2

theorem newRSettings_eq (windows : Bool) (answer : Nat → Str → Option Str) (calls : List RQuery) (rpath : Str) (st : RState) :
    newRSettings windows answer calls rpath = some st ↔ ∃ out v p, answer calls.length (({ rpath := rpath : RSettings }).R windows) = some out ∧
      parseVersionData out = some (v, p) ∧
      st = { rpath := rpath, version := v, platform := p, calls := calls ++ [.version (({ rpath := rpath : RSettings }).R windows)] } := by
  unfold newRSettings getRVersion
  rw [if_pos ⟨rfl, rfl⟩]
  dsimp only
  cases ha : answer calls.length (({ rpath := rpath : RSettings }).R windows) with
  | none => simp
  | some out =>
    dsimp only
    cases hp : parseVersionData out with
    | none => simp [hp]
    | some x =>
      obtain ⟨v, p⟩ := x
      simp only [Option.map_some, Option.some.injEq]
      constructor
      · rintro rfl; exact ⟨out, v, p, rfl, hp, rfl⟩
      · rintro ⟨o, v', p', rfl, h, rfl⟩
        rw [hp] at h
        cases h
        rfl

/-- C133: the settings know the version that R stated for them, and however often they are asked for it afterwards, this is what
they say, without R being run again. -/
theorem C133_asked_once (windows : Bool) (answer : Nat → Str → Option Str) (calls : List RQuery) (rpath : Str) (st : RState)
    (h : newRSettings windows answer calls rpath = some st) :
    (∃ out, answer calls.length (({ rpath := rpath : RSettings }).R windows) = some out ∧ parseVersionData out = some (st.version, st.platform)) ∧
    (RealVersion st.version → ∀ n, askVersions windows answer n st = some (List.replicate n st.version, st)) ∧
    st.calls = calls ++ [.version (({ rpath := rpath : RSettings }).R windows)] := by
  obtain ⟨out, v, p, h1, h2, rfl⟩ := (newRSettings_eq _ _ _ _ _).mp h
  refine ⟨⟨out, h1, h2⟩, ?_, rfl⟩
  intro hv n
  induction n with
  | zero => rfl
  | succ n ih =>
    rw [askVersions, getRVersion_known _ _ _ hv]
    dsimp only
    rw [ih]
    rfl

/-- C133: when R cannot be run, or what it prints cannot be understood, the program ends. -/
theorem C133_no_version (windows : Bool) (answer : Nat → Str → Option Str) (calls : List RQuery) (rpath : Str)
    (h : ∀ out, answer calls.length (({ rpath := rpath : RSettings }).R windows) = some out → parseVersionData out = none) :
    newRSettings windows answer calls rpath = none := by
  cases hn : newRSettings windows answer calls rpath with
  | none => rfl
  | some st =>
    obtain ⟨out, v, p, h1, h2, _⟩ := (newRSettings_eq _ _ _ _ _).mp hn
    rw [h out h1] at h2
    cases h2

/-- The executable that the setting for R denotes, a tilde expanded. -/
def Spec.TheR (windows : Bool) (home : Option Str) (rpath exe : Str) : Prop :=
  ∃ p, expandTilde home rpath = some p ∧ exe = ({ rpath := p : RSettings }).R windows

/-- The processes of the given R: it is asked for its version, or its Rscript is asked about renv. -/
def Spec.OfR (windows : Bool) (home : Option Str) (rpath : Str) (c : RQuery) : Prop :=
  ∃ exe, TheR windows home rpath exe ∧ (c = .version exe ∨ c = .renv (convertToRscript exe))

theorem getRVersion_calls (windows : Bool) (answer : Nat → Str → Option Str) (st st' : RState) (v : RVer) (h : getRVersion windows answer st = some (v, st')) :
    st'.rpath = st.rpath ∧ (st'.calls = st.calls ∨ st'.calls = st.calls ++ [.version (({ rpath := st.rpath : RSettings }).R windows)]) := by
  unfold getRVersion at h
  split at h
  · dsimp only at h
    split at h
    · cases h
    · split at h
      · cases h
      · cases h
        exact ⟨rfl, Or.inr rfl⟩
  · cases h
    exact ⟨rfl, Or.inl rfl⟩

/-- C133, partial: unless the configured path starts with a tilde, every process a command starts until it has its settings is
of the R that is configured, and the command goes on with that R. Missing: a path with a tilde when the library is that of a
lockfile, see `C133_violated_tilde`. -/
theorem C133_same_R_partial (windows : Bool) (answer : Nat → Str → Option Str) (home : Option Str) (rpath : Str) (s : LibrarySources) (st : RState)
    (ht : rpath.head? ≠ some '~' ∨ configuredLibrary s ≠ []) (h : commandStart windows answer home rpath s = some st) :
    expandTilde home rpath = some st.rpath ∧ ∀ c ∈ st.calls, OfR windows home rpath c := by
  unfold commandStart at h
  cases hc : configCalls windows answer rpath s with
  | none => rw [hc] at h; cases h
  | some calls =>
    rw [hc] at h
    dsimp only at h
    cases he : expandTilde home rpath with
    | none => rw [he] at h; cases h
    | some rp =>
      rw [he] at h
      dsimp only at h
      obtain ⟨_, _, _, _, _, hst⟩ := (newRSettings_eq _ _ _ _ _).mp h
      subst hst
      refine ⟨rfl, ?_⟩
      have hthe : TheR windows home rpath (({ rpath := rp : RSettings }).R windows) := ⟨rp, he, rfl⟩
      suffices hcalls : ∀ c ∈ calls, OfR windows home rpath c by
        intro c hm
        rcases List.mem_append.mp hm with hm | hm
        · exact hcalls c hm
        · rw [List.mem_singleton.mp hm]
          exact ⟨_, hthe, Or.inl rfl⟩
      unfold configCalls at hc
      split at hc
      · rename_i hl
        have hrp : rp = rpath := by
          rcases ht with ht | ht
          · have := (C101_tilde home).1 rpath ht
            rw [he] at this
            exact Option.some.inj this
          · exact absurd hl ht
        subst hrp
        split at hc
        · cases hc
        · rename_i st0 h0
          obtain ⟨_, _, _, _, _, hst0⟩ := (newRSettings_eq _ _ _ _ _).mp h0
          split at hc
          · cases hc
          · rename_i v st1 h1
            obtain ⟨_, hcalls1⟩ := getRVersion_calls _ _ _ _ _ h1
            subst hst0
            have hver : ∀ c ∈ st1.calls, OfR windows home rp c := by
              intro c hm
              rcases hcalls1 with hq | hq <;> rw [hq] at hm <;> simp at hm
              · exact ⟨_, hthe, Or.inl hm⟩
              · exact ⟨_, hthe, Or.inl hm⟩
            split at hc
            · simp only [Option.map_eq_some_iff] at hc
              obtain ⟨st2, h2, rfl⟩ := hc
              obtain ⟨_, _, _, _, _, hst2⟩ := (newRSettings_eq _ _ _ _ _).mp h2
              subst hst2
              intro c hm
              simp only [List.append_assoc, List.mem_append, List.mem_singleton] at hm
              rcases hm with hm | hm | hm
              · exact hver c hm
              · exact ⟨_, hthe, Or.inl hm⟩
              · exact ⟨_, hthe, Or.inr hm⟩
            · simp only [Option.some.injEq] at hc
              subst hc
              exact hver
      · simp only [Option.some.injEq] at hc
        subst hc
        simp

/-- C133: renv is asked for its library exactly if a library is to be found and the lockfile is renv's. -/
theorem C133_renv_asked (windows : Bool) (answer : Nat → Str → Option Str) (home : Option Str) (rpath : Str) (s : LibrarySources) (st : RState)
    (h : commandStart windows answer home rpath s = some st) :
    (∃ exe, RQuery.renv exe ∈ st.calls) ↔ configuredLibrary s = [] ∧ s.lockfile = s%"renv" := by
  unfold commandStart at h
  cases hc : configCalls windows answer rpath s with
  | none => rw [hc] at h; cases h
  | some calls =>
    rw [hc] at h
    dsimp only at h
    cases he : expandTilde home rpath with
    | none => rw [he] at h; cases h
    | some rp =>
      rw [he] at h
      dsimp only at h
      obtain ⟨_, _, _, _, _, hst⟩ := (newRSettings_eq _ _ _ _ _).mp h
      subst hst
      have hcalls : (∃ exe, RQuery.renv exe ∈ calls ++ [.version (({ rpath := rp : RSettings }).R windows)]) ↔ ∃ exe, RQuery.renv exe ∈ calls := by simp
      refine hcalls.trans ?_
      unfold configCalls at hc
      split at hc
      · rename_i hl
        split at hc
        · cases hc
        · rename_i st0 h0
          obtain ⟨_, _, _, _, _, hst0⟩ := (newRSettings_eq _ _ _ _ _).mp h0
          split at hc
          · cases hc
          · rename_i v st1 h1
            obtain ⟨_, hcalls1⟩ := getRVersion_calls _ _ _ _ _ h1
            subst hst0
            split at hc
            · rename_i hr
              simp only [Option.map_eq_some_iff] at hc
              obtain ⟨st2, h2, rfl⟩ := hc
              exact ⟨fun _ => ⟨hl, hr⟩, fun _ => ⟨_, List.mem_append_right _ (List.mem_singleton.2 rfl)⟩⟩
            · rename_i hr
              cases hc
              refine ⟨?_, fun h => absurd h.2 hr⟩
              rintro ⟨exe, hm⟩
              rcases hcalls1 with hq | hq <;> rw [hq] at hm <;> simp at hm
      · rename_i hl
        cases hc
        exact ⟨fun ⟨_, h⟩ => by simp at h, fun h => absurd h.1 hl⟩

/-- An R that answers always in the same way, wherever it is. -/
def steadyR (_ : Nat) (exe : Str) : Option Str :=
  if exe = s%"/opt/R" ∨ exe = s%"/home/u/R" then some (textOf [s%"R version 4.3.1 (2023) -- Beagle", s%"Platform: x86_64-pc-linux-gnu (64-bit)"]) else none

/-- A configuration with an renv lockfile and without a library. -/
def renvOnly : LibrarySources := { lockfile := s%"renv" }

example : (commandStart false steadyR (some (s%"/home/u")) (s%"/opt/R") renvOnly).map (fun st => (st.version, st.calls)) =
    some ((4, 3, 1), [.version (s%"/opt/R"), .version (s%"/opt/R"), .renv (s%"/opt/Rscript"), .version (s%"/opt/R")]) := by decide +kernel

example : (s%"/opt/R").head? ≠ some '~' ∧ RealVersion (4, 3, 1) := by unfold RealVersion; decide

/-- C133 fails for a path of R that starts with a tilde when the library is left to a lockfile: the tilde is expanded only after R
has been run for the first time, so that R is not found and the command ends - although the same path works when a library is
given. -/
theorem C133_violated_tilde : commandStart false steadyR (some (s%"/home/u")) (s%"~/R") renvOnly = none ∧
    ((commandStart false steadyR (some (s%"/home/u")) (s%"~/R") { renvOnly with file := some (s%"lib") }).map fun st => st.rpath) = some (s%"/home/u/R") := by decide +kernel

/-- C133 fails for an R that states no version the way a release does ("R Under development"): it is asked again and again, and may
say something else. -/
theorem C133_violated_again : ∃ (answer : Nat → Str → Option Str) (st : RState), newRSettings false answer [] (s%"/opt/R") = some st ∧
    st.version = (0, 0, 0) ∧ ((askVersions false answer 2 st).map fun r => (r.1, r.2.calls.length)) = some ([(0, 0, 0), (4, 3, 1)], 3) :=
  ⟨fun n _ => if n < 2 then some (textOf [s%"R Under development (unstable)"]) else some (textOf [s%"R version 4.3.1 (2023)"]), _, rfl,
    by decide +kernel, by decide +kernel⟩

end Pkgr
