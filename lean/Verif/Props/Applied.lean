/-
The theorems about planning and about running the plan, applied to concrete cases: each example is one use of the theorem
it names, so that all of its hypotheses are met together.
-/
import Verif.Props.Outcome
import Verif.Props.Sched
import Verif.Props.SchedMore
import Verif.Props.VersionMore
import Verif.Props.Dep

namespace Pkgr
open Spec

theorem idOrder_ok : idOrder.Fair := fun _ l => List.Perm.refl l
theorem revOrder_ok : revOrder.Fair := fun _ l => List.reverse_perm l

instance (d : Str) : Decidable (IsNumeral d) := by unfold IsNumeral; infer_instance
instance (d : Str) : Decidable (Trimmed d) := by unfold Trimmed; infer_instance

theorem two_numbers (a b c d : Char) (ha : IsNumeral [a, b]) (hc : IsNumeral [c, d]) :
    Denotes ([a, b] ++ '.' :: [c, d]) [numeral [a, b], numeral [c, d]] := .more ha (.inl rfl) (.one hc)

/-- C01_compare_trans, C01_compare_trans_strict. -/
example : compareVersions { major := 1, minor := 9 } { major := 1, minor := 11 } < 0 :=
  C01_compare_trans_strict _ { major := 1, minor := 10 } _ (by decide) (by decide)
example : compareVersions { major := 1, minor := 9 } { major := 1, minor := 11 } ≤ 0 :=
  C01_compare_trans _ { major := 1, minor := 10 } _ (by decide) (by decide)

/-- C02_text_compare, C02_any_size, C31_never_a_downgrade. -/
example : compareVersionStrings (s%"1.10-3") (s%"10.11") = some (-1) ∧ cmpPadded [1, 10, 3] [10, 11] = -1 := by
  have h2 : Denotes (s%"10.11") [10, 11] := two_numbers '1' '0' '1' '1' (by decide) (by decide)
  have h := C02_text_compare denotes_example h2 (by decide) (by decide) (by decide) (by decide)
  have h' := C02_any_size denotes_example h2 (by decide) (by decide)
  have h3 : compareVersionStrings (s%"1.10-3") (s%"10.11") = some (-1) := by rw [h]; decide
  exact ⟨h3, C31_never_a_downgrade denotes_example h2 (by decide) (by decide) (by decide) (by decide) h3⟩

/-- C02_single_component_panics. -/
example : compareVersionStrings (s%"12") (s%"1.0") = none :=
  C02_single_component_panics (.one (d := s%"12") (by decide)) (by decide)

/-- C03_long_versions_partial. -/
example : compareVersionStrings (s%"1.2.3.4.5") (s%"1.2.3.4.5") = some (cmpPadded [1, 2, 3] [1, 2, 3]) := by
  have h : Denotes (s%"1.2.3.4.5") [1, 2, 3, 4, 5] :=
    .more (d := s%"1") (by decide) (.inl rfl) (.more (d := s%"2") (by decide) (.inl rfl) (.more (d := s%"3") (by decide) (.inl rfl)
      (.more (d := s%"4") (by decide) (.inl rfl) (.one (d := s%"5") (by decide)))))
  exact C03_long_versions_partial h h (by decide) (by decide) (by decide) (by decide)

/-- C04_parse_written, C04_roundtrip. -/
example : parseDep (s%"R6 (>= 2.10)") = (parseVersion (s%"2.10")).map fun x => { name := s%"R6", version := x, constraint := .gte } :=
  C04_parse_written (name := s%"R6") (v := s%"2.10") (w0 := []) (w1 := s%" ") (w2 := []) (w3 := s%" ") (w4 := []) (w5 := [])
    (op := .gte) (by decide) (by decide) (by decide) (by decide) (by decide) (by decide) (by decide) (by decide)
example : ∃ d : Dep, d.constraint = .lt ∧ parseDep d.toStr = some d :=
  ⟨⟨s%"R6", ⟨2, 10, 0, 0, 0, s%"2.10"⟩, .lt⟩, rfl, C04_roundtrip _ (by decide) (by decide) (by decide) (by decide) (by decide) (by decide) (by decide)⟩

/-- The plan of the following examples. -/
theorem planned_example : ∃ req nx ip, planInstall { packages := [s%"a"], suggests := true } planNexus [] true [] [] [] idOrder idOrder idOrder =
    .planned req nx ip ∧ GoMap.get? ip.depDb (s%"b") = some [s%"c"] ∧ s%"a" ∈ ip.packages ∧ s%"Matrix" ∈ ip.packages := ⟨_, _, _, rfl, by decide, by decide, by decide⟩

/-- C19_plan_packages, C24_dependency_lists, C25_starting_packages, C26_downloads, C28_suggests_partial, C33_plans_are_well_formed. -/
example : ∃ (nx : Nexus) (ip : InstallPlan), s%"c" ∈ ip.packages ∧ Relation.TransGen (Needs nx false) (s%"b") (s%"c") ∧ ip.starting ≠ [] ∧
    (ip.downloads.map fun dl => dl.package.package).Perm ip.packages ∧ WellFormed (jobOf ip 3 revOrder 7) := by
  obtain ⟨req, nx, ip, h, hb, ha, _⟩ := planned_example
  obtain ⟨_, h2, h3, _⟩ := C24_dependency_lists planNexus_keyed planNexus_noR idOrder_ok h hb
  have h19 := C19_plan_packages planNexus_keyed planNexus_noR idOrder_ok h
  have h28 := (C28_suggests_partial planNexus_keyed planNexus_noR idOrder_ok (by decide) h (s%"a")).1 ha
  exact ⟨nx, ip, h3 _ (by decide), (h2 _).1 (by decide), (C25_starting_packages planNexus_keyed planNexus_noR idOrder_ok h).2.2.2.2,
    (C26_downloads planNexus_keyed planNexus_noR idOrder_ok h).1,
    C33_plans_are_well_formed planNexus_keyed planNexus_noR idOrder_ok revOrder_ok h 3 7⟩

/-- C16_never_planned. -/
example : ∃ ip : InstallPlan, ip.packages ≠ [] ∧ s%"s" ∉ ip.packages := by
  obtain ⟨req, nx, ip, h, hp⟩ : ∃ req nx ip, planInstall { packages := [s%"a"], suggests := true, ignore := [s%"s"] } planNexus [] true [] [] []
      idOrder idOrder idOrder = .planned req nx ip ∧ ip.packages ≠ [] := ⟨_, _, _, rfl, by decide⟩
  exact ⟨ip, hp, (C16_never_planned planNexus_keyed planNexus_noR idOrder_ok h (by decide)).1⟩

/-- C18_collection_terminates, C18_planning_terminates. -/
example : resolveInstallationReqs [s%"x"] [] (defaultCfgs false) planNexus true true false revOrder ≠ .error .outOfFuel :=
  (C18_planning_terminates _ _ _ planNexus_keyed _ _ _ _).2
example : ∃ t m, appendToGraph (defaultCfgs false) planNexus revOrder ((offeredNames planNexus).length + 1) (0, []) { package := s%"q", imports := [toyDep (s%"x")] } = some (t, m) :=
  let ⟨t, m, h, _⟩ := C18_collection_terminates (defaultCfgs false) revOrder planNexus_keyed 0 [] { package := s%"q", imports := [toyDep (s%"x")] }
  ⟨t, m, h⟩

/-- C20_exclusion_partial: `Matrix` is planned although it ships with R, because it is suggested. -/
example : ∃ (nx : Nexus) (req : List Str) (ip : InstallPlan), (s%"Matrix" ∈ req ∧ s%"Matrix" ∉ basePkgs) ∨
    ∃ a dl, a ∈ ip.packages ∧ Resolves nx a dl ∧ s%"Matrix" ∈ GoMap.keys dl.package.suggests := by
  obtain ⟨req, nx, ip, h, hm⟩ : ∃ req nx ip, planInstall { packages := [s%"a"], suggests := true, noRecommended := true } planNexus [] true [] [] []
      idOrder idOrder idOrder = .planned req nx ip ∧ s%"Matrix" ∈ ip.packages := ⟨_, _, _, rfl, by decide⟩
  refine ⟨nx, req, ip, ?_⟩
  rcases C20_exclusion_partial planNexus_keyed planNexus_noR idOrder_ok h hm (Or.inr ⟨rfl, by decide⟩) with h | ⟨a, dl, h1, h2, h3, _⟩
  · exact .inl h
  · exact .inr ⟨a, dl, h1, h2, h3⟩

/-- C21_layering_sound, C22_circular_iff, C23_layers_deterministic, C27_inverse_exact. -/
example : (resolveLayers idOrder 0 [(s%"a", [s%"b"]), (s%"b", [])] false).isSome ∧
    ¬ ∃ a, Relation.TransGen (Edge [(s%"a", [s%"b"]), (s%"b", [])] false) a a := by
  have h := C22_circular_iff idOrder_ok 0 (g := [(s%"a", [s%"b"]), (s%"b", [])]) false (by decide)
  have h0 : (resolveLayers idOrder 0 [(s%"a", [s%"b"]), (s%"b", [])] false).isSome = true := by decide
  refine ⟨h0, fun hc => ?_⟩
  rw [h.2 (.inl hc)] at h0
  cases h0
example : ∃ L, resolveLayers idOrder 0 [(s%"a", [s%"b"]), (s%"b", [])] false = some L ∧ L.flatten.Perm [s%"a", s%"b"] :=
  ⟨[[s%"b"], [s%"a"]], rfl, (C21_layering_sound idOrder_ok (t := 0) (g := [(s%"a", [s%"b"]), (s%"b", [])]) (nr := false) (by decide) rfl).1⟩
example : GoMap.get? (invertDependencies revOrder 0 [(s%"a", [s%"c", s%"b"]), (s%"b", [s%"c"])]) (s%"a") = none :=
  (C27_inverse_exact revOrder_ok 0 (by decide) (by
    intro p ds h
    have : ds = [s%"c", s%"b"] ∨ ds = [s%"c"] := by
      simp only [GoMap.get?_cons, GoMap.get?_nil] at h
      split at h
      · exact .inl (Option.some.inj h).symm
      · split at h
        · exact .inr (Option.some.inj h).symm
        · cases h
    rcases this with rfl | rfl <;> decide) (s%"a")).2.2 (by
    intro b ds h
    simp only [GoMap.get?_cons, GoMap.get?_nil] at h
    split at h
    · cases h; decide
    · split at h
      · cases h; decide
      · cases h)

end Pkgr
