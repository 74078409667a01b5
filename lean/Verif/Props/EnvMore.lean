/- More about the environment of R: from the configuration file to R (C64), and letters outside ASCII (C66). -/
import Verif.Props.Env

namespace Pkgr
open Spec

/-- The entries of a customization list, item by item. -/
theorem setCustomizations_flat (m : GoMap (GoMap Str)) (custom : List (List (Str × Option (GoMap Str)))) :
    setCustomizations m custom = custom.flatten.foldl setCustomizations.setCustomStep m := by
  unfold setCustomizations
  induction custom generalizing m with
  | nil => rfl
  | cons e es ih =>
    rw [List.foldl_cons, ih, List.flatten_cons, List.foldl_append]

theorem setCustom_get (es : List (Str × Option (GoMap Str))) (m : GoMap (GoMap Str)) (pkg : Str)
    (h : ∀ e ∈ es, e.1 = pkg → e.2 = none) : GoMap.get? (es.foldl setCustomizations.setCustomStep m) pkg = GoMap.get? m pkg := by
  induction es generalizing m with
  | nil => rfl
  | cons e es ih =>
    rw [List.foldl_cons, ih _ fun x hx => h x (by simp [hx])]
    unfold setCustomizations.setCustomStep
    split
    · rename_i env he
      rw [GoMap.get?_put, if_neg]
      intro hp
      have := h e (by simp) hp.symm
      rw [he] at this
      cases this
    · rfl

/-- C64 (partial, exceptions as in `C64_package_env_wins_partial`). From the configuration file to R: the last entry of a
package under `Customizations` that has an `Env` gives the environment of R for this package, and no entry of another
package has an influence on it. -/
theorem C64_from_config_partial (ρ : Order) (hρ : ρ.Fair) (t : Nat) (tmp : Str) (sys : List Str) (rs : RSettings) (pkg : Str)
    (custom : List (List (Str × Option (GoMap Str)))) (before after : List (Str × Option (GoMap Str))) (env : GoMap Str)
    (hc : custom.flatten = before ++ (pkg, some env) :: after) (hlast : ∀ e ∈ after, e.1 = pkg → e.2 = none)
    (k v : Str) (hwf : GoMap.WF env) (hv : GoMap.get? env k = some v) (hk1 : k ≠ s%"R_LIBS_SITE") (hk2 : k ≠ s%"R_LIBS_USER")
    (hkeys : ∀ x ∈ GoMap.keys env, PlainVar x) (hu : Unpadded v) (hsys : ∀ e ∈ sys, Unpadded (nameOf e)) :
    seen (configureEnv ρ t tmp sys { rs with pkgEnv := setCustomizations rs.pkgEnv custom } pkg) k = some v := by
  refine C64_package_env_wins_partial ρ hρ t tmp sys _ pkg env k v hwf ?_ hv hk1 hk2 hkeys hu hsys
  show GoMap.get? (setCustomizations rs.pkgEnv custom) pkg = some env
  rw [setCustomizations_flat, hc, List.foldl_append, List.foldl_cons, setCustom_get _ _ _ hlast]
  show GoMap.get? (GoMap.put _ pkg env) pkg = some env
  rw [GoMap.get?_put, if_pos rfl]

/-- Non-vacuity: two entries of one package, the last one counts. -/
example (ρ : Order) (hρ : ρ.Fair) :
    seen (configureEnv ρ 0 (s%"/tmp/x") [s%"CC=gcc"]
      { rpath := s%"R", pkgEnv := setCustomizations [] [[(s%"R6", some [(s%"CC", s%"cc")])], [(s%"R6", some [(s%"CC", s%"clang")]), (s%"A", none)]] } (s%"R6")) (s%"CC") =
    some (s%"clang") :=
  C64_from_config_partial ρ hρ 0 _ _ { rpath := s%"R" } (s%"R6")
    [[(s%"R6", some [(s%"CC", s%"cc")])], [(s%"R6", some [(s%"CC", s%"clang")]), (s%"A", none)]]
    [(s%"R6", some [(s%"CC", s%"cc")])] [(s%"A", none)] [(s%"CC", s%"clang")] rfl (by decide) (s%"CC") (s%"clang")
    (by unfold GoMap.WF; decide) rfl (by decide) (by decide) (by decide) (by decide) (by decide)

/-- C66 fails for a variable that is none of the secrets, if its letters have the same upper case: with a dotless i
(U+0131) or a long s (U+017F). -/
theorem C66_violated_letters : ∃ (ρ : Order) (rs : RSettings), ρ.Fair ∧
    seen (configureEnv ρ 0 (s%"/tmp/x") [setting (s%"g\u0131thub_token") (s%"x")] rs (s%"R6")) (s%"g\u0131thub_token") = some (s%"**HIDDEN**") ∧
    seen (configureEnv ρ 0 (s%"/tmp/x") [setting (s%"aw\u017f_secret_key") (s%"x")] rs (s%"R6")) (s%"aw\u017f_secret_key") = some (s%"**HIDDEN**") ∧
    ¬ IsSecret (s%"g\u0131thub_token") ∧ ¬ IsSecret (s%"aw\u017f_secret_key") := by
  refine ⟨fun _ l => l, {}, fun _ _ => List.Perm.refl _, by decide, by decide, ?_, ?_⟩
  · unfold IsSecret; decide
  · unfold IsSecret; decide

end Pkgr
