import Verif.Model.LoadEnd
import Verif.Props.Load

namespace Pkgr

/-- C160, partial: without `--json` and unless only fatal records are asked for, the user is told at the end, whatever the schedule,
how many of the listed packages could not be loaded, exactly if there are any.
Missing: the exit status, see `C160_violated_status`. -/
theorem C160_told_partial {threads : Int} {pkgs : List Str} {sess : Nat → Session} {k : Nat} {s t : LoadState}
    (h0 : loadStart threads pkgs = some s) (hr : LoadRun (threads * 2).toNat pkgs sess k s t) (hc : t.closed = true)
    (asked : Level) (ha : asked ≠ .panic ∧ asked ≠ .fatal) (n : Nat) :
    (loadSeen false asked t.report).closing = some (.error, some n) ↔
      0 < n ∧ ((List.range pkgs.length).filter fun i => (sess i).ending ≠ .zero).length = n := by
  have hcnt := C75_count h0 hr hc
  rw [← hcnt]
  have hlev : Level.error.num ≤ asked.num := by
    cases asked <;> first | decide | exact absurd rfl ha.1 | exact absurd rfl ha.2
  unfold loadSeen loadRecord
  simp only [Bool.false_eq_true, if_false]
  by_cases hz : t.report.failures = 0
  · rw [if_pos hz]
    constructor
    · intro h
      split at h
      · cases h
      · cases h
    · rintro ⟨h1, h2⟩; omega
  · rw [if_neg hz, if_pos hlev]
    constructor
    · intro h
      simp only [Option.some.injEq, Prod.mk.injEq, true_and] at h
      exact ⟨by omega, h⟩
    · rintro ⟨_, h⟩; rw [h]

/-- C160 is violated: whatever packages cannot be loaded, whatever the schedule, `load` ends with status 0; and with `--json`
nothing is said about it outside the report. -/
theorem C160_violated_status {threads : Int} {pkgs : List Str} {sess : Nat → Session} {k : Nat} {s t : LoadState}
    (_ : loadStart threads pkgs = some s) (_ : LoadRun (threads * 2).toNat pkgs sess k s t) (_ : t.closed = true)
    (_ : ∃ i < pkgs.length, (sess i).ending ≠ .zero) (asked : Level) :
    (loadSeen false asked t.report).status = 0 ∧ loadSeen true asked t.report = { closing := none, printed := true, status := 0 } := by
  refine ⟨rfl, ?_⟩
  have h : setLogLevel (s%"fatal") = .fatal := by decide
  unfold loadSeen loadRecord
  simp only [if_true, h]
  by_cases hz : t.report.failures = 0
  · rw [if_pos hz, if_neg (by decide)]
  · rw [if_neg hz, if_neg (show ¬ Level.error.num ≤ Level.fatal.num by decide)]

example : ∃ (s t : LoadState), loadStart 1 [s%"R6", s%"x"] = some s ∧
    LoadRun ((1 : Int) * 2).toNat [s%"R6", s%"x"] (fun i => toySess ([s%"R6", s%"x"][i]?.getD [])) 7 s t ∧ t.closed = true ∧
    loadSeen false .info t.report = { closing := some (.error, some 1), printed := false, status := 0 } :=
  ⟨_, _, rfl, toyRunTwo (s%"R6") (s%"x") toySess _ _ rfl rfl, rfl, by decide⟩

end Pkgr
