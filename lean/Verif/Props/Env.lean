/- C63-C68, C84: the environment in which R is started. -/
import Verif.Proof.Env
import Verif.Proof.Split

namespace Pkgr
open Spec

/-! ### C63: isolation from the user's libraries -/

/-- C63. R processes never see an inherited `R_LIBS_USER`: for every inherited environment, every configuration and
every package, R_LIBS_USER is the fresh temporary directory. -/
theorem C63_user_library (ρ : Order) (t : Nat) (tmp : Str) (sys : List Str) (rs : RSettings) (pkg : Str) (htmp : Unpadded tmp) :
    seen (configureEnv ρ t tmp sys rs pkg) (s%"R_LIBS_USER") = some tmp := by
  unfold configureEnv
  dsimp only
  rw [addLibPaths_seen _ _ _ (by decide), seen_app _ _ _ _ (by decide), if_pos rfl, trimBlanks_of_unpadded htmp]

/-- C63. What R processes get does not depend at all on inherited R_LIBS_USER or R_LIBS_SITE settings. -/
theorem C63_inherited_ignored (ρ : Order) (t : Nat) (tmp : Str) (sys sys' : List Str) (rs : RSettings) (pkg : Str)
    (h : (sys.filter fun e => !setsLibrary e) = sys'.filter fun e => !setsLibrary e) :
    configureEnv ρ t tmp sys rs pkg = configureEnv ρ t tmp sys' rs pkg := by
  unfold configureEnv
  dsimp only
  rw [sysFold_filter _ sys, sysFold_filter _ sys', h]

/-- C63. Without library paths and without settings in the configuration, R_LIBS_SITE is not set at all, whatever is
inherited (under ordinary names). -/
theorem C63_site_unset_partial (ρ : Order) (t : Nat) (tmp : Str) (sys : List Str) (rs : RSettings) (pkg : Str)
    (hlib : rs.libPaths = []) (hg : rs.globalEnv = []) (hp : GoMap.get? rs.pkgEnv pkg = none)
    (hsys : ∀ e ∈ sys, Unpadded (nameOf e)) :
    seen (configureEnv ρ t tmp sys rs pkg) (s%"R_LIBS_SITE") = none := by
  unfold configureEnv addLibPaths
  have : rs.libPathsEnv = none := by unfold RSettings.libPathsEnv; simp [hlib]
  have hc : customList ρ t rs pkg = [] := by unfold customList; simp [hg, hp]
  rw [this, hc]
  dsimp only
  rw [seen_app _ _ _ _ (by decide), if_neg (by decide)]
  exact sysFold_library rs.rpath sys [] _ (Or.inr rfl) hsys rfl rfl

example : seen (configureEnv (fun _ l => l) 0 (s%"/tmp/abc") [s%"HOME=/root", s%"R_LIBS_USER=/u", s%"R_LIBS_SITE=/s"] {} (s%"R6"))
    (s%"R_LIBS_SITE") = none :=
  C63_site_unset_partial _ _ _ _ _ _ rfl rfl rfl (by decide)

example : seen (configureEnv (fun _ l => l) 0 (s%"/tmp/abc") [s%"HOME=/root", s%"R_LIBS_USER=/u"]
      { pkgEnv := [(s%"R6", [(s%"R_LIBS_USER", s%"/mine")])] } (s%"R6")) (s%"R_LIBS_USER") = some (s%"/tmp/abc") :=
  C63_user_library _ _ _ _ _ _ (by decide)

/-- C63 fails: R's third library variable, `R_LIBS`, which R puts before the two others, is inherited. -/
theorem C63_violated_r_libs : ∃ (ρ : Order) (sys : List Str) (rs : RSettings), ρ.Fair ∧ rs.libPaths = [s%"/proj/lib"] ∧
    seen (configureEnv ρ 0 (s%"/tmp/abc") sys rs (s%"R6")) (s%"R_LIBS") = some (s%"/home/me/R") :=
  ⟨fun _ l => l, [s%"R_LIBS=/home/me/R"], { libPaths := [s%"/proj/lib"] }, fun _ _ => List.Perm.refl _, rfl, by decide⟩

/-- C63 fails: a library path with an equals sign in it is dropped, and R_LIBS_SITE is not set at all. -/
theorem C63_violated_equals : ∃ (ρ : Order) (rs : RSettings), ρ.Fair ∧ rs.libPaths = [s%"/proj/a=b/lib"] ∧
    seen (configureEnv ρ 0 (s%"/tmp/abc") [] rs (s%"R6")) (s%"R_LIBS_SITE") = none :=
  ⟨fun _ l => l, { libPaths := [s%"/proj/a=b/lib"] }, fun _ _ => List.Perm.refl _, rfl, by decide⟩

/-! ### C68: all configured library paths reach R -/

theorem not_mem_separated (c sep : Char) (l : List Str) (hs : c ≠ sep) (h : ∀ x ∈ l, c ∉ x) : c ∉ separated sep l := by
  induction l with
  | nil => simp [separated]
  | cons a l ih =>
    cases l with
    | nil => simpa [separated] using h a (by simp)
    | cons b l =>
      rw [separated]
      simp only [List.mem_append, List.mem_singleton, not_or]
      exact ⟨⟨h a (by simp), hs⟩, ih fun x hx => h x (by simp [List.mem_cons.1 hx])⟩

/-- C68 (partial: paths with an equals sign, and a blank at the very beginning or end, excepted). R sees exactly the
configured library paths, in order, separated by colons, whatever is inherited or customized. -/
theorem C68_library_paths_partial (ρ : Order) (t : Nat) (tmp : Str) (sys : List Str) (rs : RSettings) (pkg : Str)
    (hne : rs.libPaths ≠ []) (hne' : rs.libPaths ≠ [[]]) (heq : ∀ p ∈ rs.libPaths, '=' ∉ p)
    (hpad : Unpadded (separated ':' rs.libPaths)) :
    seen (configureEnv ρ t tmp sys rs pkg) (s%"R_LIBS_SITE") = some (separated ':' rs.libPaths) := by
  unfold configureEnv addLibPaths
  have h1 : rs.libPathsEnv = some (s%"R_LIBS_SITE" ++ '=' :: separated ':' rs.libPaths) := by
    unfold RSettings.libPathsEnv
    rw [if_neg (by simpa using hne), if_neg hne', joinWith_eq]
    rfl
  rw [h1]
  dsimp only
  unfold NvpList.appNvp
  rw [splitOn_append _ _ _ (by decide), splitOn_of_not_mem _ _ (not_mem_separated '=' ':' _ (by decide) heq)]
  dsimp only
  rw [seen_app _ _ _ _ (by decide), if_pos rfl, trimBlanks_of_unpadded hpad]

/-- C68 (partial). Hence, when no path contains a colon, R splits the variable into exactly the configured paths. -/
theorem C68_split_partial (ρ : Order) (t : Nat) (tmp : Str) (sys : List Str) (rs : RSettings) (pkg : Str)
    (hne : rs.libPaths ≠ []) (hne' : rs.libPaths ≠ [[]]) (heq : ∀ p ∈ rs.libPaths, '=' ∉ p ∧ ':' ∉ p)
    (hpad : Unpadded (separated ':' rs.libPaths)) :
    (seen (configureEnv ρ t tmp sys rs pkg) (s%"R_LIBS_SITE")).map (splitOn ':') = some rs.libPaths := by
  rw [C68_library_paths_partial ρ t tmp sys rs pkg hne hne' (fun p hp => (heq p hp).1) hpad]
  have : ∀ l : List Str, l ≠ [] → (∀ p ∈ l, ':' ∉ p) → splitOn ':' (separated ':' l) = l := by
    intro l
    induction l with
    | nil => intro h; exact absurd rfl h
    | cons a l ih =>
      intro _ h
      cases l with
      | nil => exact splitOn_of_not_mem _ _ (h a (by simp))
      | cons b l =>
        rw [separated, List.append_assoc]
        exact (splitOn_append _ _ _ (h a (by simp))).trans (congrArg (a :: ·) (ih (by simp) fun p hp => h p (by simp [List.mem_cons.1 hp])))
  rw [Option.map_some, this _ hne fun p hp => (heq p hp).2]

example : (seen (configureEnv (fun _ l => l) 0 (s%"/tmp/x") [s%"R_LIBS_SITE=/other"] { libPaths := [s%"/a", s%"/b c"] } (s%"R6"))
    (s%"R_LIBS_SITE")).map (splitOn ':') = some [s%"/a", s%"/b c"] :=
  C68_split_partial _ _ _ _ _ _ (by decide) (by decide) (by decide) (by decide)

/-- C68 fails: with an equals sign in one of the paths, none of them reaches R; a path with a colon reaches it as two. -/
theorem C68_violated : (∃ (ρ : Order) (rs : RSettings), ρ.Fair ∧ rs.libPaths = [s%"/a", s%"/b=c"] ∧
      seen (configureEnv ρ 0 (s%"/tmp/x") [] rs (s%"R6")) (s%"R_LIBS_SITE") = none) ∧
    ∃ (ρ : Order) (rs : RSettings), ρ.Fair ∧ rs.libPaths = [s%"/a:b"] ∧
      (seen (configureEnv ρ 0 (s%"/tmp/x") [] rs (s%"R6")) (s%"R_LIBS_SITE")).map (splitOn ':') = some [s%"/a", s%"b"] :=
  ⟨⟨fun _ l => l, { libPaths := [s%"/a", s%"/b=c"] }, fun _ _ => List.Perm.refl _, rfl, by decide⟩,
   ⟨fun _ l => l, { libPaths := [s%"/a:b"] }, fun _ _ => List.Perm.refl _, rfl, by decide⟩⟩

/-! ### C64: package settings win -/

/-- C64 (partial: values with a blank at an end, and R's two library variables, excepted). Every variable set in the
package's customization has that value in the R process, whatever is inherited or set globally, and in whatever order
the settings are visited. -/
theorem C64_package_env_wins_partial (ρ : Order) (hρ : ρ.Fair) (t : Nat) (tmp : Str) (sys : List Str) (rs : RSettings) (pkg : Str)
    (env : GoMap Str) (k v : Str) (hwf : GoMap.WF env) (henv : GoMap.get? rs.pkgEnv pkg = some env)
    (hv : GoMap.get? env k = some v) (hk1 : k ≠ s%"R_LIBS_SITE") (hk2 : k ≠ s%"R_LIBS_USER")
    (hkeys : ∀ x ∈ GoMap.keys env, PlainVar x) (hu : Unpadded v) (hsys : ∀ e ∈ sys, Unpadded (nameOf e)) :
    seen (configureEnv ρ t tmp sys rs pkg) k = some v := by
  rw [seen_configureEnv _ _ _ _ _ _ _ hk1 hk2]
  have hperm := hρ t (GoMap.keys env)
  have h := pkgFold_sets env (ρ t (GoMap.keys env)) (rs.globalEnv.foldl globalStep []) k v (hperm.nodup_iff.2 hwf)
    (hperm.mem_iff.2 (GoMap.mem_keys_of_get? hv)) (fun x hx => hkeys x (hperm.mem_iff.1 hx)) hv hu
  have hc : customList ρ t rs pkg = (ρ t (GoMap.keys env)).foldl (pkgStep env) (rs.globalEnv.foldl globalStep []) := by
    unfold customList; simp [henv]
  rw [hc]
  exact (sysFold_keeps rs.rpath sys _ k v hsys h.1 h.2).2

example : seen (configureEnv (fun _ l => l.reverse) 0 (s%"/tmp/x") [s%"CC=gcc", s%"HOME=/root"]
    { globalEnv := [⟨s%"CC", s%"icc"⟩], pkgEnv := [(s%"R6", [(s%"CC", s%"clang"), (s%"A", s%"1")])] } (s%"R6")) (s%"CC") = some (s%"clang") :=
  C64_package_env_wins_partial _ (fun _ l => List.reverse_perm l) _ _ _ _ _ [(s%"CC", s%"clang"), (s%"A", s%"1")] _ _
    (by unfold GoMap.WF; decide) (by decide) (by decide) (by decide) (by decide) (by decide) (by decide) (by decide)

/-- C64 fails for `R_LIBS_USER`, for values with blanks at an end (they are cut off), and for inherited names with a
blank at the end (they are cut off too, and then win). -/
theorem C64_violated :
    (∃ (ρ : Order) (rs : RSettings), ρ.Fair ∧ GoMap.get? rs.pkgEnv (s%"R6") = some [(s%"R_LIBS_USER", s%"/mine")] ∧
      seen (configureEnv ρ 0 (s%"/tmp/x") [] rs (s%"R6")) (s%"R_LIBS_USER") = some (s%"/tmp/x")) ∧
    (∃ (ρ : Order) (rs : RSettings), ρ.Fair ∧ GoMap.get? rs.pkgEnv (s%"R6") = some [(s%"SEP", s%" ")] ∧
      seen (configureEnv ρ 0 (s%"/tmp/x") [] rs (s%"R6")) (s%"SEP") = some []) ∧
    (∃ (ρ : Order) (rs : RSettings), ρ.Fair ∧ GoMap.get? rs.pkgEnv (s%"R6") = some [(s%"CC", s%"clang")] ∧
      seen (configureEnv ρ 0 (s%"/tmp/x") [s%"CC =gcc"] rs (s%"R6")) (s%"CC") = some (s%"gcc")) :=
  ⟨⟨fun _ l => l, { pkgEnv := [(s%"R6", [(s%"R_LIBS_USER", s%"/mine")])] }, fun _ _ => List.Perm.refl _, rfl, by decide⟩,
   ⟨fun _ l => l, { pkgEnv := [(s%"R6", [(s%"SEP", s%" ")])] }, fun _ _ => List.Perm.refl _, rfl, by decide⟩,
   ⟨fun _ l => l, { pkgEnv := [(s%"R6", [(s%"CC", s%"clang")])] }, fun _ _ => List.Perm.refl _, rfl, by decide⟩⟩

/-! ### C66: other variables pass through -/

/-- The first inherited setting of a name that the configuration leaves alone. -/
theorem sysFold_first (ρ : Order) (hρ : ρ.Fair) (t : Nat) (rs : RSettings) (pkg n v : Str) (pre post : List Str)
    (hn : PlainVar n) (hn1 : n ≠ s%"R_LIBS_SITE") (hn2 : n ≠ s%"R_LIBS_USER") (hv : v ≠ [])
    (hcens : n.map upperChar ∉ censoredVars)
    (hpre : ∀ e ∈ pre, sets n e = false) (hsys : ∀ e ∈ pre ++ post, Unpadded (nameOf e))
    (hglob : ∀ q ∈ rs.globalEnv, PlainVar q.name ∧ q.name ≠ n)
    (hpkg : ∀ env, GoMap.get? rs.pkgEnv pkg = some env → ∀ k ∈ GoMap.keys env, PlainVar k ∧ k ≠ n) (w : Str)
    (hw : (if n = s%"PATH" then pathValue rs.rpath v else v) = w) (hwu : Unpadded w) :
    seen (((pre ++ setting n v :: post).foldl (sysStep rs.rpath) (customList ρ t rs pkg)).map Nvp.render) n = some w := by
  have hc : ∀ p ∈ customList ρ t rs pkg, '=' ∉ p.name ∧ p.name ≠ n := by
    intro p hp
    rcases customList_names ρ hρ t rs pkg p hp with ⟨q, hq, e⟩ | ⟨env, henv, k, hk, e⟩
    · have := hglob q hq
      rw [e, trimBlanks_of_unpadded this.1.2]
      exact ⟨this.1.1, this.2⟩
    · have := hpkg env henv k hk
      rw [e, trimBlanks_of_unpadded this.1.2]
      exact ⟨this.1.1, this.2⟩
  have h0 := sysFold_other rs.rpath pre (customList ρ t rs pkg) n (fun e he => hsys e (by simp [he])) hpre
    (get_none_of _ _ fun p hp => (hc p hp).2) (seen_none_of _ _ hc)
  rw [List.foldl_append, List.foldl_cons]
  generalize pre.foldl (sysStep rs.rpath) (customList ρ t rs pkg) = l at h0 ⊢
  have h1 : sysStep rs.rpath l (setting n v) = NvpList.app l n w := by
    rw [sysStep_setting _ _ _ _ hn.1, if_neg hv, if_neg hn2, if_neg hn1, hw]
    unfold sysAdd
    rw [h0.1, if_neg hcens]
  rw [h1]
  refine (sysFold_keeps rs.rpath post _ n w (fun e he => hsys e (by simp [he])) ?_ ?_).2
  · rw [get_app, trimBlanks_of_unpadded hn.2, if_pos rfl]; simp [h0.1]
  · rw [seen_app _ _ _ _ hn, if_pos rfl, trimBlanks_of_unpadded hwu]

theorem upperChar_ascii (c d : Char) (h : upperChar c = d) (hc : asciiUpper c ≠ d) : c.toNat = 0x131 ∨ c.toNat = 0x17F := by
  unfold upperChar at h
  split at h
  · rename_i hl
    exfalso
    apply hc
    unfold asciiUpper
    have hlow : c.isLower = true := by
      unfold Char.isLower
      simp only [Bool.and_eq_true, decide_eq_true_eq]
      exact ⟨by rw [ge_iff_le, UInt32.le_iff_toNat_le]; exact hl.1, by rw [UInt32.le_iff_toNat_le]; exact hl.2⟩
    rw [if_pos hlow, ← h]
    unfold Char.toUpper
    have h' : c.val ≥ 'a'.val ∧ c.val ≤ 'z'.val := by
      unfold Char.isLower at hlow
      simpa using hlow
    rw [dif_pos h']
    apply Char.ext
    apply UInt32.toNat.inj
    have hlt : c.toNat - 32 < 55296 := by omega
    have hv : Nat.isValidChar (c.toNat - 32) := Or.inl hlt
    have e1 : (Char.ofNat (c.toNat - 32)).toNat = c.toNat - 32 := by
      unfold Char.ofNat
      rw [dif_pos hv]
      rfl
    have e2 : (Char.ofNat (c.toNat - 32)).val.toNat = c.toNat - 32 := e1
    rw [e2]
    have e3 : c.val.toNat = c.toNat := rfl
    have h97 : 97 ≤ c.val.toNat := hl.1
    have h122 : c.val.toNat ≤ 122 := hl.2
    have : (c.val + ('A'.val - 'a'.val)).toNat = c.val.toNat - 32 := by
      rw [UInt32.toNat_add]
      have : ('A'.val - 'a'.val).toNat = 4294967264 := by decide
      rw [this]
      omega
    simpa [e3] using this
  · split at h
    · left; assumption
    · split at h
      · right; assumption
      · exfalso
        apply hc
        rename_i hl _ _
        unfold asciiUpper
        have : ¬ c.isLower = true := by
          intro hlow
          apply hl
          unfold Char.isLower at hlow
          simp only [Bool.and_eq_true, decide_eq_true_eq] at hlow
          refine ⟨?_, ?_⟩
          · have := hlow.1; rw [ge_iff_le, UInt32.le_iff_toNat_le] at this; exact this
          · have := hlow.2; rw [UInt32.le_iff_toNat_le] at this; exact this
        rw [if_neg this, h]

theorem upperChar_eq (c : Char) (h : c.toNat < 128) : upperChar c = asciiUpper c := by
  apply Decidable.byContradiction
  intro hne
  rcases upperChar_ascii c (upperChar c) rfl (fun e => hne e.symm) with h' | h' <;> omega

theorem asciiUpper_lt (c : Char) (h : (asciiUpper c).toNat < 128) : c.toNat < 128 := by
  unfold asciiUpper at h
  split at h
  · rename_i hl
    unfold Char.isLower at hl
    simp only [Bool.and_eq_true, decide_eq_true_eq] at hl
    have := hl.2
    rw [UInt32.le_iff_toNat_le] at this
    have h2 : 'z'.val.toNat = 122 := by decide
    have h3 : c.val.toNat = c.toNat := rfl
    omega
  · exact h

theorem map_upper_eq (n : Str) (h : ∀ c ∈ n, c.toNat < 128) : n.map upperChar = n.map asciiUpper :=
  List.map_congr_left fun c hc => upperChar_eq c (h c hc)

theorem secret_lists : secretNames.map String.toList = censoredVars := by decide

theorem secret_iff (n : Str) (h : ∀ c ∈ n, c.toNat < 128) : IsSecret n ↔ n.map upperChar ∈ censoredVars := by
  rw [map_upper_eq n h, ← secret_lists, List.mem_map]
  exact ⟨fun ⟨s, hs, e⟩ => ⟨s, hs, e.symm⟩, fun ⟨s, hs, e⟩ => ⟨s, hs, e.symm⟩⟩

theorem secret_ascii (n : Str) (h : IsSecret n) : ∀ c ∈ n, c.toNat < 128 := by
  obtain ⟨s, hs, e⟩ := h
  have hall : ∀ s ∈ secretNames, ∀ c ∈ s.toList, c.toNat < 128 := by decide
  intro c hc
  apply asciiUpper_lt
  apply hall s hs
  rw [← e]
  exact List.mem_map_of_mem hc

/-- C66 (partial: values with a blank at an end excepted; the other exceptions are part of the claim). The first
inherited setting of a variable that is neither set by the configuration, nor PATH, nor one of R's two library
variables, nor a secret, reaches R with the very same value. -/
theorem C66_passed_through_partial (ρ : Order) (hρ : ρ.Fair) (t : Nat) (tmp : Str) (rs : RSettings) (pkg n v : Str) (pre post : List Str)
    (hn : PlainVar n) (hascii : ∀ c ∈ n, c.toNat < 128) (hn1 : n ≠ s%"R_LIBS_SITE") (hn2 : n ≠ s%"R_LIBS_USER")
    (hn3 : n ≠ s%"PATH") (hsecret : ¬ IsSecret n) (hv : v ≠ []) (hu : Unpadded v)
    (hpre : ∀ e ∈ pre, sets n e = false) (hsys : ∀ e ∈ pre ++ post, Unpadded (nameOf e))
    (hglob : ∀ q ∈ rs.globalEnv, PlainVar q.name ∧ q.name ≠ n)
    (hpkg : ∀ env, GoMap.get? rs.pkgEnv pkg = some env → ∀ k ∈ GoMap.keys env, PlainVar k ∧ k ≠ n) :
    seen (configureEnv ρ t tmp (pre ++ setting n v :: post) rs pkg) n = some v := by
  rw [seen_configureEnv _ _ _ _ _ _ _ hn1 hn2]
  exact sysFold_first ρ hρ t rs pkg n v pre post hn hn1 hn2 hv (fun h => hsecret ((secret_iff n hascii).2 h)) hpre hsys hglob hpkg v
    (if_neg hn3) hu

theorem not_secret_http : ¬ IsSecret (s%"http_proxy") := by
  rw [secret_iff _ (by decide)]; decide

example : seen (configureEnv (fun _ l => l) 0 (s%"/tmp/x") ([s%"HOME=/root"] ++ setting (s%"http_proxy") (s%"http://p:3128/?a=b") :: [s%"PATH=/bin"])
    { pkgEnv := [(s%"R6", [(s%"CC", s%"clang")])] } (s%"R6")) (s%"http_proxy") = some (s%"http://p:3128/?a=b") :=
  C66_passed_through_partial _ (fun _ _ => List.Perm.refl _) _ _ _ _ _ _ _ _ (by decide) (by decide) (by decide) (by decide)
    (by decide) not_secret_http (by decide) (by decide) (by decide) (by decide) (by decide)
    (by intro env henv k hk
        simp only [GoMap.get?, if_true, Option.some.injEq] at henv
        subst henv
        simp only [GoMap.keys, List.map_cons, List.map_nil, List.mem_singleton] at hk
        subst hk
        decide)

/-- C66 fails for a value with a blank at an end: it is cut off. -/
theorem C66_violated : ∃ (ρ : Order) (rs : RSettings), ρ.Fair ∧
    seen (configureEnv ρ 0 (s%"/tmp/x") [setting (s%"IFS") (s%" ,")] rs (s%"R6")) (s%"IFS") = some (s%",") :=
  ⟨fun _ l => l, {}, fun _ _ => List.Perm.refl _, by decide⟩

/-! ### C65: secrets -/

/-- C65. The environment that R gets (and that is logged) does not depend on the values of inherited secrets: two
inherited environments that differ only there give the same result. -/
theorem C65_secrets_hidden (ρ : Order) (t : Nat) (tmp : Str) (sys sys' : List Str) (rs : RSettings) (pkg : Str)
    (h : SameButSecrets sys sys') : configureEnv ρ t tmp sys rs pkg = configureEnv ρ t tmp sys' rs pkg := by
  have hfold : ∀ l : NvpList, sys.foldl (sysStep rs.rpath) l = sys'.foldl (sysStep rs.rpath) l := by
    induction h with
    | nil => intro l; rfl
    | same e _ ih => intro l; rw [List.foldl_cons, List.foldl_cons]; exact ih _
    | secret n v w hn hs hv hw _ ih =>
      intro l
      rw [List.foldl_cons, List.foldl_cons, sysStep_setting _ _ _ _ hn, sysStep_setting _ _ _ _ hn, if_neg hv, if_neg hw]
      have hc : n.map upperChar ∈ censoredVars := (secret_iff n (secret_ascii n hs)).1 hs
      have hadd : ∀ x y : Str, sysAdd l n x = sysAdd l n y := by
        intro x y
        unfold sysAdd
        split
        · rfl
        · rw [if_pos hc, if_pos hc]
      rw [hadd (if n = s%"PATH" then pathValue rs.rpath v else v) (if n = s%"PATH" then pathValue rs.rpath w else w)]
      exact ih _
  unfold configureEnv
  rw [hfold]

example : configureEnv (fun _ l => l) 0 (s%"/tmp/x") [s%"HOME=/r", setting (s%"Github_Pat") (s%"abc")] {} (s%"R6") =
    configureEnv (fun _ l => l) 0 (s%"/tmp/x") [s%"HOME=/r", setting (s%"Github_Pat") (s%"xyz")] {} (s%"R6") :=
  C65_secrets_hidden _ _ _ _ _ _ _ (.same _ (.secret _ _ _ (by decide) ⟨"GITHUB_PAT", by decide, by decide⟩ (by decide) (by decide) .nil))

/-! ### C84: R's own directory in PATH -/

/-- C84 (partial: PATHs that begin with the text of the directory excepted). If the configured R is in the directory
`d`, and PATH is inherited and not customized, R processes see `d` followed by the inherited PATH. -/
theorem C84_path_prefix_partial (ρ : Order) (hρ : ρ.Fair) (t : Nat) (tmp : Str) (rs : RSettings) (pkg v : Str) (pre post : List Str)
    (hd : dirStr rs.rpath ≠ s%".") (hd' : dirStr rs.rpath ≠ []) (hpref : ¬ dirStr rs.rpath <+: v)
    (hv : v ≠ []) (hu : Unpadded (dirStr rs.rpath ++ ':' :: v))
    (hpre : ∀ e ∈ pre, sets (s%"PATH") e = false) (hsys : ∀ e ∈ pre ++ post, Unpadded (nameOf e))
    (hglob : ∀ q ∈ rs.globalEnv, PlainVar q.name ∧ q.name ≠ s%"PATH")
    (hpkg : ∀ env, GoMap.get? rs.pkgEnv pkg = some env → ∀ k ∈ GoMap.keys env, PlainVar k ∧ k ≠ s%"PATH") :
    seen (configureEnv ρ t tmp (pre ++ setting (s%"PATH") v :: post) rs pkg) (s%"PATH") = some (dirStr rs.rpath ++ ':' :: v) := by
  rw [seen_configureEnv _ _ _ _ _ _ _ (by decide) (by decide)]
  refine sysFold_first ρ hρ t rs pkg _ v pre post (by decide) (by decide) (by decide) hv (by decide) hpre hsys hglob hpkg _ ?_ hu
  rw [if_pos rfl]
  unfold pathValue
  have : hasPrefix v (dirStr rs.rpath) = false := by
    cases h : hasPrefix v (dirStr rs.rpath) with
    | false => rfl
    | true => exact absurd ((hasPrefix_iff _ _).1 h) hpref
  simp [hd, hd', this]

example : seen (configureEnv (fun _ l => l) 0 (s%"/tmp/x") ([s%"HOME=/root"] ++ setting (s%"PATH") (s%"/usr/bin:/bin") :: [])
    { rpath := s%"/opt/R/4.3/bin/R" } (s%"R6")) (s%"PATH") = some (s%"/opt/R/4.3/bin:/usr/bin:/bin") :=
  C84_path_prefix_partial _ (fun _ _ => List.Perm.refl _) _ _ { rpath := s%"/opt/R/4.3/bin/R" } _ _ _ _ (by decide) (by decide)
    (by decide) (by decide) (by decide) (by decide) (by decide) (by decide) (by intro env henv; simp [GoMap.get?] at henv)

/-- C84 fails: when PATH begins with another directory whose name merely starts with the same text, R's directory is
not added at all. -/
theorem C84_violated : ∃ (ρ : Order) (rs : RSettings), ρ.Fair ∧ rs.rpath = s%"/opt/R/bin/R" ∧
    seen (configureEnv ρ 0 (s%"/tmp/x") [setting (s%"PATH") (s%"/opt/R/bin-old:/usr/bin")] rs (s%"R6")) (s%"PATH") =
      some (s%"/opt/R/bin-old:/usr/bin") :=
  ⟨fun _ l => l, { rpath := s%"/opt/R/bin/R" }, fun _ _ => List.Perm.refl _, rfl, by decide⟩

/-! ### C67: name/value lists -/

/-- C67. After appending `n = v`, looking up `m` finds what it found before, or else, for `m` the (trimmed) name, the
(trimmed) value. -/
theorem C67_get_append (l : NvpList) (n v m : Str) (hn : Unpadded n) (hv : Unpadded v) :
    NvpList.get (NvpList.app l n v) m = if (NvpList.get l m).isSome then NvpList.get l m else if m = n then some v else none := by
  rw [get_app, trimBlanks_of_unpadded hn, trimBlanks_of_unpadded hv]
  cases NvpList.get l m <;> simp

/-- C67. Appending a text `n=v` is the same as appending the pair, if the value has no equals sign. -/
theorem C67_append_text (l : NvpList) (n v : Str) (hn : '=' ∉ n) (hv : '=' ∉ v) :
    NvpList.appNvp l (setting n v) = NvpList.app l n v := by
  unfold NvpList.appNvp setting
  rw [splitOn_append _ _ _ hn, splitOn_of_not_mem _ _ hv]

/-- C67. Updating never touches other names, in whatever list. -/
theorem C67_update_others (l l' : NvpList) (n v m : Str) (h : NvpList.update l n v = some l') (hm : m ≠ n) :
    NvpList.get l' m = NvpList.get l m := by
  induction l generalizing l' with
  | nil => simp [NvpList.update] at h
  | cons p l ih =>
    rw [NvpList.update] at h
    split at h
    · rename_i l'' h''
      simp only [Option.some.injEq] at h
      subst h
      rw [NvpList.get, NvpList.get, ih _ h'']
    · split at h
      · rename_i hp
        simp only [Option.some.injEq] at h
        subst h
        rw [NvpList.get, NvpList.get]
        simp [← hp, hm]
      · simp at h

/-- C67. Updating a name that is there once sets its value. -/
theorem C67_get_update (l : NvpList) (n v : Str) (hnd : (l.map Nvp.name).Nodup) (hn : n ∈ l.map Nvp.name) :
    ∃ l', NvpList.update l n v = some l' ∧ NvpList.get l' n = some v := by
  induction l with
  | nil => simp at hn
  | cons p l ih =>
    rw [List.map_cons, List.nodup_cons] at hnd
    by_cases hp : n = p.name
    · have hno : NvpList.update l n v = none := by
        have : ∀ (k : NvpList), n ∉ k.map Nvp.name → NvpList.update k n v = none := by
          intro k
          induction k with
          | nil => intro _; rfl
          | cons q k ihk =>
            intro hq
            simp only [List.map_cons, List.mem_cons, not_or] at hq
            rw [NvpList.update, ihk hq.2]
            simp [hq.1]
        exact this l (hp ▸ hnd.1)
      refine ⟨{ p with value := v } :: l, ?_, ?_⟩
      · rw [NvpList.update, hno]; simp [hp]
      · rw [NvpList.get]; simp [hp]
    · rw [List.map_cons, List.mem_cons] at hn
      rcases hn with hn | hn
      · exact absurd hn hp
      · obtain ⟨l', h1, h2⟩ := ih hnd.2 hn
        refine ⟨p :: l', ?_, ?_⟩
        · rw [NvpList.update, h1]
        · rw [NvpList.get, if_neg hp, h2]

/-- C67. Removing never touches other names. -/
theorem C67_remove_others (l : NvpList) (n m : Str) (hm : m ≠ n) : NvpList.get (NvpList.remove l n) m = NvpList.get l m := by
  induction l with
  | nil => rfl
  | cons p l ih =>
    rw [NvpList.remove]
    split
    · rename_i hp
      rw [NvpList.get, if_neg (hp ▸ hm)]
    · rw [NvpList.get, NvpList.get, ih]

/-- C67. After removing a name that is there at most once, it is not found. -/
theorem C67_get_remove (l : NvpList) (n : Str) (hnd : (l.map Nvp.name).Nodup) : NvpList.get (NvpList.remove l n) n = none := by
  induction l with
  | nil => rfl
  | cons p l ih =>
    rw [List.map_cons, List.nodup_cons] at hnd
    rw [NvpList.remove]
    split
    · rename_i hp
      apply get_none_of
      intro q hq e
      exact hnd.1 (List.mem_map.2 ⟨q, hq, by rw [e, hp]⟩)
    · rename_i hp
      rw [NvpList.get, if_neg hp, ih hnd.2]

/-- C67. Looking up a pair gives the first one that has exactly this name. -/
theorem C67_get_nvp (l : NvpList) (n : Str) (p : Nvp) :
    NvpList.getNvp l n = some p ↔ ∃ pre post, l = pre ++ p :: post ∧ p.name = n ∧ ∀ x ∈ pre, x.name ≠ n := by
  induction l with
  | nil => simp [NvpList.getNvp]
  | cons a l ih =>
    rw [NvpList.getNvp]
    by_cases h : n = a.name
    · rw [if_pos h]
      constructor
      · intro h'
        cases h'
        exact ⟨[], l, rfl, h.symm, by simp⟩
      · rintro ⟨pre, post, h1, h2, h3⟩
        cases pre with
        | nil => cases h1; rfl
        | cons b pre => cases h1; exact absurd h.symm (h3 a (by simp))
    · rw [if_neg h, ih]
      constructor
      · rintro ⟨pre, post, rfl, h2, h3⟩
        refine ⟨a :: pre, post, rfl, h2, ?_⟩
        intro x hx
        rcases List.mem_cons.1 hx with rfl | hx
        · exact fun h' => h h'.symm
        · exact h3 x hx
      · rintro ⟨pre, post, h1, h2, h3⟩
        cases pre with
        | nil => cases h1; exact absurd h2.symm h
        | cons b pre => cases h1; exact ⟨pre, post, rfl, h2, fun x hx => h3 x (by simp [hx])⟩

/-- C67. Looking up a value gives the value of the first pair that has exactly this name. -/
theorem C67_get_value (l : NvpList) (n : Str) : NvpList.get l n = (NvpList.getNvp l n).map Nvp.value := by
  induction l with
  | nil => rfl
  | cons a l ih =>
    rw [NvpList.get, NvpList.getNvp]
    split
    · rfl
    · exact ih

example : NvpList.getNvp [⟨s%"AB", s%"1"⟩, ⟨s%"A", s%"2"⟩, ⟨s%"A", s%"3"⟩] (s%"A") = some ⟨s%"A", s%"2"⟩ :=
  (C67_get_nvp _ _ _).2 ⟨[⟨s%"AB", s%"1"⟩], [⟨s%"A", s%"3"⟩], rfl, rfl, by decide⟩
example : NvpList.get (NvpList.remove [⟨s%"A", s%"1"⟩, ⟨s%"B", s%"2"⟩] (s%"A")) (s%"A") = none := C67_get_remove _ _ (by decide)
example : ∃ l', NvpList.update [⟨s%"A", s%"1"⟩, ⟨s%"B", s%"2"⟩] (s%"B") (s%"3") = some l' ∧ NvpList.get l' (s%"B") = some (s%"3") :=
  C67_get_update _ _ _ (by decide) (by decide)
example : NvpList.get (NvpList.app [⟨s%"A", s%"1"⟩] (s%"B") (s%"2")) (s%"B") = some (s%"2") :=
  (C67_get_append _ _ _ _ (by decide) (by decide)).trans (by decide)
example : NvpList.appNvp [] (setting (s%"B") (s%"2")) = [⟨s%"B", s%"2"⟩] := (C67_append_text _ _ _ (by decide) (by decide)).trans (by decide)

end Pkgr
