/- C83, C85: the repositories and their settings, as read from the configuration. -/
import Verif.Spec.Repos
import Verif.Proof.Nexus
import Verif.Proof.Base
import Verif.Props.Config

namespace Pkgr
open Spec

theorem word_iff (w : Str) (hw : ∀ l ∈ w, l.toNat < 123 ∧ 97 ≤ l.toNat) (t : Str) {u v : Str}
    (hu : w.map Char.toUpper = u) (hv : v.map foldChar = w) : eqFold t v = true ↔ InWord u t := by
  unfold eqFold InWord
  rw [hv, ← hu, ← map_fold_iff w hw t]
  simp

/-- What is read from an entry is what its words say. -/
theorem repoSetting_readAs (v : RepoCustom) : ReadAs v (repoSetting v) := by
  have e1 := word_iff (s%"source") (by decide) v.type (u := s%"SOURCE") (v := s%"source") (by decide) (by decide)
  have e2 := word_iff (s%"binary") (by decide) v.type (u := s%"BINARY") (v := s%"binary") (by decide) (by decide)
  have e3 := word_iff (s%"mpn") (by decide) v.repoType (u := s%"MPN") (v := s%"MPN") (by decide) (by decide)
  have e4 := word_iff (s%"rspm") (by decide) v.repoType (u := s%"RSPM") (v := s%"RSPM") (by decide) (by decide)
  have d1 : ∀ t : Str, InWord (s%"SOURCE") t → ¬ InWord (s%"BINARY") t := by
    intro t h1 h2
    unfold InWord at h1 h2
    rw [h1] at h2
    exact absurd h2 (by decide)
  have d2 : ∀ t : Str, InWord (s%"MPN") t → ¬ InWord (s%"RSPM") t := by
    intro t h1 h2
    unfold InWord at h1 h2
    rw [h1] at h2
    exact absurd h2 (by decide)
  refine ⟨?_, ?_, ?_, ?_, rfl⟩
  · rw [← e3]
    unfold repoSetting
    by_cases h4 : eqFold v.repoType (s%"RSPM") = true
    · have : ¬ eqFold v.repoType (s%"MPN") = true := fun h => d2 _ (e3.1 h) (e4.1 h4)
      simp [h4, this]
    · by_cases h3 : eqFold v.repoType (s%"MPN") = true <;> simp [h3, h4]
  · rw [← e4]
    unfold repoSetting
    by_cases h4 : eqFold v.repoType (s%"RSPM") = true
    · simp [h4]
    · by_cases h3 : eqFold v.repoType (s%"MPN") = true <;> simp [h3, h4]
  · rw [← e1]
    unfold repoSetting
    dsimp only
    split
    · simp [*]
    · split
      · simp [*]
      · split <;> simp [*]
  · rw [← e1, ← e2, ← e3]
    unfold repoSetting
    dsimp only
    split
    · rename_i h
      have : ¬ eqFold v.type (s%"binary") = true := fun h2 => d1 _ (e1.1 h) (e2.1 h2)
      simp [h, this]
    · split
      · simp [*]
      · split <;> simp [*]

theorem settingFold_get (m : GoMap RepoCustom) (ks : List Str) (acc : GoMap RepoConfig) (nm : Str) :
    GoMap.get? (ks.foldl (repoSettingStep m) acc) nm =
      if nm ∈ ks then some (repoSetting ((GoMap.get? m nm).getD {})) else GoMap.get? acc nm := by
  induction ks generalizing acc with
  | nil => simp
  | cons k ks ih =>
    rw [List.foldl_cons, ih]
    unfold repoSettingStep
    rw [GoMap.get?_put]
    by_cases h1 : nm ∈ ks
    · simp [h1]
    · by_cases h2 : k = nm
      · subst h2; simp
      · have : ¬ nm = k := fun e => h2 e.symm
        simp [h1, this]

theorem repoSettings_get (ρ : Order) (hρ : ρ.Fair) (t : Nat) (custom : List (GoMap RepoCustom)) (acc : GoMap RepoConfig) (nm : Str) :
    GoMap.get? (repoSettings ρ t custom acc) nm =
      match (entriesFor nm custom).getLast? with
      | some v => some (repoSetting v)
      | none => GoMap.get? acc nm := by
  induction custom generalizing t acc with
  | nil => simp [repoSettings, entriesFor]
  | cons m ms ih =>
    rw [repoSettings, ih, settingFold_get]
    have hmem : nm ∈ ρ t (GoMap.keys m) ↔ nm ∈ GoMap.keys m := (hρ _ _).mem_iff
    have e : entriesFor nm (m :: ms) = (GoMap.get? m nm).toList ++ entriesFor nm ms := by
      unfold entriesFor
      rw [List.filterMap_cons]
      cases GoMap.get? m nm <;> simp
    rw [e, List.getLast?_append]
    cases hl : (entriesFor nm ms).getLast? with
    | some v => simp
    | none =>
      cases hg : GoMap.get? m nm with
      | some v =>
        have := GoMap.mem_keys_of_get? hg
        simp [hmem, this]
      | none =>
        have := (GoMap.get?_eq_none_iff m nm).1 hg
        simp [hmem, this]

theorem custom_head (nm : Str) (custom : List (GoMap RepoCustom)) : customizationByName nm custom = (entriesFor nm custom).head? := by
  unfold entriesFor
  induction custom with
  | nil => rfl
  | cons m ms ih =>
    rw [customizationByName, List.filterMap_cons]
    cases GoMap.get? m nm with
    | some v => simp
    | none => simpa using ih

theorem mem_repoURLs (ρ : Order) (t : Nat) (custom : List (GoMap RepoCustom)) (repos : List (GoMap Str)) (r : Str × Str × Str)
    (h : r ∈ repoURLs ρ t custom repos) : r.2.2 = ((customizationByName r.1 custom).getD {}).repoSuffix := by
  induction repos generalizing t with
  | nil => simp [repoURLs] at h
  | cons m ms ih =>
    rw [repoURLs, List.mem_append] at h
    rcases h with h | h
    · obtain ⟨nm, _, rfl⟩ := List.mem_map.1 h
      rfl
    · exact ih _ h

/-- C83, exactly: the source and repository type come from the last entry of that name, the URL suffix from the first;
a repository without entries has no settings. -/
theorem C83_sources_partial (ρ : Order) (hρ : ρ.Fair) (t t' : Nat) (custom : List (GoMap RepoCustom)) (repos : List (GoMap Str))
    (r : Str × Str × Str) (hr : r ∈ repoURLs ρ t custom repos) :
    (entriesFor r.1 custom = [] → GoMap.get? (repoSettings ρ t' custom []) r.1 = none ∧ r.2.2 = []) ∧
    ∀ (first last : RepoCustom), (entriesFor r.1 custom).head? = some first → (entriesFor r.1 custom).getLast? = some last →
      (∃ rc, GoMap.get? (repoSettings ρ t' custom []) r.1 = some rc ∧ ReadAs last rc) ∧ r.2.2 = first.repoSuffix := by
  rw [repoSettings_get ρ hρ, mem_repoURLs ρ t custom repos r hr, custom_head]
  refine ⟨?_, ?_⟩
  · intro h
    rw [h]
    simp
  · intro first last h1 h2
    rw [h1, h2]
    exact ⟨⟨_, rfl, repoSetting_readAs last⟩, rfl⟩

/-- C83 (partial). For a repository customized once, all settings come from that entry, in every iteration order. -/
theorem C83_one_entry_partial (ρ : Order) (hρ : ρ.Fair) (t t' : Nat) (custom : List (GoMap RepoCustom)) (repos : List (GoMap Str))
    (r : Str × Str × Str) (hr : r ∈ repoURLs ρ t custom repos) (v : RepoCustom) (hv : entriesFor r.1 custom = [v]) :
    (∃ rc, GoMap.get? (repoSettings ρ t' custom []) r.1 = some rc ∧ ReadAs v rc) ∧ r.2.2 = v.repoSuffix := by
  have h := (C83_sources_partial ρ hρ t t' custom repos r hr).2 v v
  rw [hv] at h
  exact h rfl rfl

example : (∃ rc, GoMap.get? (repoSettings (fun _ l => l) 0 [[(s%"MPN", { repoType := s%"mpn", repoSuffix := s%"x" })],
      [(s%"CRAN", { type := s%"binary" })]] []) (s%"MPN") = some rc ∧ ReadAs { repoType := s%"mpn", repoSuffix := s%"x" } rc) ∧
    (s%"x") = s%"x" :=
  C83_one_entry_partial (fun _ l => l) (fun _ _ => List.Perm.refl _) 0 0
    [[(s%"MPN", { repoType := s%"mpn", repoSuffix := s%"x" })], [(s%"CRAN", { type := s%"binary" })]] [[(s%"MPN", s%"u")]]
    (s%"MPN", s%"u", s%"x") (by decide) { repoType := s%"mpn", repoSuffix := s%"x" } (by decide)

/-- C83 fails: with two entries of one name the type is that of the second, the suffix that of the first. -/
theorem C83_violated : ∃ custom : List (GoMap RepoCustom), ∀ (ρ : Order), ρ.Fair → ∀ t t',
    GoMap.get? (repoSettings ρ t custom []) (s%"CRAN") = some { defaultSourceType := .binary } ∧
    repoURLs ρ t' custom [[(s%"CRAN", s%"http://c")]] = [(s%"CRAN", s%"http://c", s%"old")] := by
  refine ⟨[[(s%"CRAN", { repoSuffix := s%"old" })], [(s%"CRAN", { type := s%"binary" })]], ?_⟩
  intro ρ hρ t t'
  refine ⟨?_, ?_⟩
  · rw [repoSettings_get ρ hρ]
    have : entriesFor (s%"CRAN") [[(s%"CRAN", { repoSuffix := s%"old" })], [(s%"CRAN", { type := s%"binary" })]] =
      [{ repoSuffix := s%"old" }, { type := s%"binary" }] := by decide
    rw [this]
    decide
  · have hp : ρ t' [s%"CRAN"] = [s%"CRAN"] := List.perm_singleton.1 (hρ t' [s%"CRAN"])
    rw [repoURLs, repoURLs]
    simp only [GoMap.keys, List.map_cons, List.map_nil]
    rw [hp]
    decide

/-- C85 (partial: list items with one repository each). The repositories are searched in the order of the file. -/
theorem C85_order_partial (ρ : Order) (hρ : ρ.Fair) (t : Nat) (custom : List (GoMap RepoCustom)) (repos : List (Str × Str)) :
    (repoURLs ρ t custom (repos.map fun r => [r])).map (fun r => (r.1, r.2.1)) = repos := by
  induction repos generalizing t with
  | nil => rfl
  | cons r repos ih =>
    rw [List.map_cons, repoURLs, List.map_append, ih]
    have hp : ρ t (GoMap.keys [r]) = [r.1] := List.perm_singleton.1 (hρ t [r.1])
    rw [hp]
    simp [repoURL, GoMap.get?]

example : (repoURLs (fun _ l => l) 0 [] ([(s%"MPN", s%"u1"), (s%"CRAN", s%"u2")].map fun r => [r])).map (fun r => (r.1, r.2.1)) =
    [(s%"MPN", s%"u1"), (s%"CRAN", s%"u2")] := C85_order_partial _ (fun _ _ => List.Perm.refl _) _ _ _

/-- C85 fails: two repositories in one list item are searched in either order, from run to run. -/
theorem C85_violated : ∃ (repos : List (GoMap Str)) (ρ ρ' : Order), ρ.Fair ∧ ρ'.Fair ∧
    (repoURLs ρ 0 [] repos).map (fun r => r.1) = [s%"MPN", s%"CRAN"] ∧ (repoURLs ρ' 0 [] repos).map (fun r => r.1) = [s%"CRAN", s%"MPN"] :=
  ⟨[[(s%"MPN", s%"u1"), (s%"CRAN", s%"u2")]], fun _ l => l, fun _ l => l.reverse, fun _ _ => List.Perm.refl _,
    fun _ l => List.reverse_perm l, by decide, by decide⟩

end Pkgr
