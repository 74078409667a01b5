/- Helper lemmas about environments. -/
import Verif.Model.Env
import Verif.Spec.Env
import Verif.Proof.Base

namespace Pkgr
open Spec

theorem trimBlanks_of_unpadded {s : Str} (h : Unpadded s) : trimBlanks s = s := by
  unfold trimBlanks
  have h1 : s.dropWhile (· = ' ') = s := by
    cases s with
    | nil => rfl
    | cons c s =>
      have : c ≠ ' ' := by simpa using h.1
      simp [List.dropWhile, this]
  rw [h1]
  apply trimRightBy_id
  intro c hc
  have : c ≠ ' ' := fun e => h.2 (e ▸ hc)
  simpa using this

theorem splitNBy_setting (n v : Str) (h : '=' ∉ n) : splitNBy (· = '=') 2 (setting n v) = [n, v] := by
  unfold setting
  induction n with
  | nil => simp [splitNBy]
  | cons c n ih =>
    simp only [List.mem_cons, not_or] at h
    have hc : ¬ (c = '=') := fun e => h.1 e.symm
    rw [List.cons_append, splitNBy, ih h.2]
    simp [hc]

theorem splitNBy_noeq (e : Str) (h : '=' ∉ e) : splitNBy (· = '=') 2 e = [e] := by
  induction e with
  | nil => simp [splitNBy]
  | cons c n ih =>
    simp only [List.mem_cons, not_or] at h
    have hc : ¬ (c = '=') := fun e => h.1 e.symm
    rw [splitNBy, ih h.2]
    simp [hc]

theorem nameOf_setting (n v : Str) (h : '=' ∉ n) : nameOf (setting n v) = n := by
  unfold nameOf setting
  induction n with
  | nil => simp
  | cons c n ih =>
    simp only [List.mem_cons, not_or] at h
    have hc : c ≠ '=' := fun e => h.1 e.symm
    simp only [List.cons_append, List.takeWhile, ne_eq, hc, not_false_eq_true, decide_true]
    rw [ih h.2]

theorem valueOf_setting (n v : Str) (h : '=' ∉ n) : valueOf (setting n v) = v := by
  unfold valueOf setting
  induction n with
  | nil => simp
  | cons c n ih =>
    simp only [List.mem_cons, not_or] at h
    have hc : c ≠ '=' := fun e => h.1 e.symm
    simp only [List.cons_append, List.dropWhile, ne_eq, hc, not_false_eq_true, decide_true]
    exact ih h.2

/-- Every string is a setting or has no equals sign. -/
theorem setting_or (e : Str) : (∃ n v, '=' ∉ n ∧ e = setting n v) ∨ '=' ∉ e := by
  induction e with
  | nil => right; simp
  | cons c e ih =>
    by_cases hc : c = '='
    · left; exact ⟨[], e, by simp, by simp [setting, hc]⟩
    · rcases ih with ⟨n, v, hn, rfl⟩ | h
      · left
        refine ⟨c :: n, v, ?_, by simp [setting]⟩
        simp only [List.mem_cons, not_or]
        exact ⟨fun e => hc e.symm, hn⟩
      · right
        simp only [List.mem_cons, not_or]
        exact ⟨fun e => hc e.symm, h⟩

theorem mem_setting (n v : Str) : '=' ∈ setting n v := by simp [setting]

theorem sets_setting (m n v : Str) (h : '=' ∉ n) : sets m (setting n v) = decide (n = m) := by
  unfold sets
  rw [nameOf_setting n v h]
  simp [mem_setting]

theorem sets_noeq (m e : Str) (h : '=' ∉ e) : sets m e = false := by
  unfold sets; simp [h]

theorem seen_nil (n : Str) : seen [] n = none := rfl

theorem seen_concat (env : List Str) (n m v : Str) (h : '=' ∉ m) :
    seen (env ++ [setting m v]) n = if m = n then some v else seen env n := by
  unfold seen
  rw [List.filter_append]
  simp only [List.filter_cons, List.filter_nil, sets_setting n m v h]
  by_cases e : m = n
  · subst e; simp [valueOf_setting m v h]
  · simp [e]

theorem render_eq (p : Nvp) : p.render = setting p.name p.value := rfl

/-! ### The list operations -/

theorem get_app (l : NvpList) (n v m : Str) :
    NvpList.get (NvpList.app l n v) m = (NvpList.get l m).or (if m = trimBlanks n then some (trimBlanks v) else none) := by
  unfold NvpList.app
  induction l with
  | nil => simp [NvpList.get]
  | cons p l ih =>
    simp only [List.cons_append, NvpList.get, ih]
    split <;> simp

/-- What a process sees of a list of pairs whose last pair is appended. -/
theorem seen_app (l : NvpList) (n v m : Str) (hn : PlainVar n) :
    seen ((NvpList.app l n v).map Nvp.render) m = if n = m then some (trimBlanks v) else seen (l.map Nvp.render) m := by
  unfold NvpList.app
  rw [trimBlanks_of_unpadded hn.2, List.map_append, List.map_singleton, render_eq, seen_concat _ _ _ _ hn.1]

theorem get_none_of (l : NvpList) (m : Str) (h : ∀ p ∈ l, p.name ≠ m) : NvpList.get l m = none := by
  induction l with
  | nil => rfl
  | cons p l ih =>
    rw [NvpList.get, if_neg (fun e => h p (by simp) e.symm)]
    exact ih fun q hq => h q (by simp [hq])

/-! ### Inherited variables -/

theorem sysStep_setting (rpath : Str) (l : NvpList) (n v : Str) (h : '=' ∉ n) :
    sysStep rpath l (setting n v) =
      if v = [] then l else if n = s%"R_LIBS_USER" then l else if n = s%"R_LIBS_SITE" then l
      else sysAdd l n (if n = s%"PATH" then pathValue rpath v else v) := by
  unfold sysStep
  rw [splitNBy_setting n v h]

theorem sysStep_noeq (rpath : Str) (l : NvpList) (e : Str) (h : '=' ∉ e) : sysStep rpath l e = l := by
  unfold sysStep
  rw [splitNBy_noeq e h]

theorem sysStep_library (rpath : Str) (l : NvpList) (e : Str) (h : setsLibrary e = true) : sysStep rpath l e = l := by
  rcases setting_or e with ⟨n, v, hn, rfl⟩ | h'
  · rw [sysStep_setting _ _ _ _ hn]
    unfold setsLibrary at h
    rw [sets_setting _ _ _ hn, sets_setting _ _ _ hn] at h
    simp only [Bool.or_eq_true, decide_eq_true_eq] at h
    split
    · rfl
    · rcases h with h | h
      · rw [if_pos h]
      · rw [if_pos h]; split <;> rfl
  · exact sysStep_noeq _ _ _ h'

theorem sysFold_filter (rpath : Str) (sys : List Str) (l : NvpList) :
    sys.foldl (sysStep rpath) l = (sys.filter fun e => !setsLibrary e).foldl (sysStep rpath) l := by
  induction sys generalizing l with
  | nil => rfl
  | cons e sys ih =>
    rw [List.foldl_cons, List.filter_cons]
    cases h : setsLibrary e with
    | true => rw [sysStep_library _ _ _ h]; simpa using ih l
    | false => simpa using ih _

/-- One inherited variable leaves a variable that is set as it is. -/
theorem sysStep_keeps (rpath : Str) (l : NvpList) (e n v : Str) (he : Unpadded (nameOf e))
    (hg : (NvpList.get l n).isSome) (hs : seen (l.map Nvp.render) n = some v) :
    (NvpList.get (sysStep rpath l e) n).isSome ∧ seen ((sysStep rpath l e).map Nvp.render) n = some v := by
  rcases setting_or e with ⟨m, w, hm, rfl⟩ | h'
  · rw [sysStep_setting _ _ _ _ hm]
    rw [nameOf_setting _ _ hm] at he
    split
    · exact ⟨hg, hs⟩
    split
    · exact ⟨hg, hs⟩
    split
    · exact ⟨hg, hs⟩
    unfold sysAdd
    split
    · exact ⟨hg, hs⟩
    rename_i hnone
    have hne : m ≠ n := by
      intro heq
      rw [heq] at hnone
      rw [hnone] at hg
      simp at hg
    refine ⟨?_, ?_⟩
    · rw [get_app]
      cases hx : NvpList.get l n with
      | none => rw [hx] at hg; simp at hg
      | some x => simp
    · rw [seen_app _ _ _ _ ⟨hm, he⟩, if_neg hne, hs]
  · rw [sysStep_noeq _ _ _ h']
    exact ⟨hg, hs⟩

theorem sysFold_keeps (rpath : Str) (sys : List Str) (l : NvpList) (n v : Str) (he : ∀ e ∈ sys, Unpadded (nameOf e))
    (hg : (NvpList.get l n).isSome) (hs : seen (l.map Nvp.render) n = some v) :
    (NvpList.get (sys.foldl (sysStep rpath) l) n).isSome ∧
      seen ((sys.foldl (sysStep rpath) l).map Nvp.render) n = some v := by
  induction sys generalizing l with
  | nil => exact ⟨hg, hs⟩
  | cons e sys ih =>
    rw [List.foldl_cons]
    have h := sysStep_keeps rpath l e n v (he e (by simp)) hg hs
    exact ih _ (fun x hx => he x (by simp [hx])) h.1 h.2

/-- Inherited variables of other names do not set `n`. -/
theorem sysStep_other (rpath : Str) (l : NvpList) (e n : Str) (he : Unpadded (nameOf e)) (hn : sets n e = false)
    (hg : NvpList.get l n = none) (hs : seen (l.map Nvp.render) n = none) :
    NvpList.get (sysStep rpath l e) n = none ∧ seen ((sysStep rpath l e).map Nvp.render) n = none := by
  rcases setting_or e with ⟨m, w, hm, rfl⟩ | h'
  · rw [sysStep_setting _ _ _ _ hm]
    rw [nameOf_setting _ _ hm] at he
    rw [sets_setting _ _ _ hm] at hn
    have hmn : m ≠ n := by simpa using hn
    split
    · exact ⟨hg, hs⟩
    split
    · exact ⟨hg, hs⟩
    split
    · exact ⟨hg, hs⟩
    unfold sysAdd
    split
    · exact ⟨hg, hs⟩
    refine ⟨?_, ?_⟩
    · rw [get_app, hg, trimBlanks_of_unpadded he, if_neg (Ne.symm hmn)]; rfl
    · rw [seen_app _ _ _ _ ⟨hm, he⟩, if_neg hmn, hs]
  · rw [sysStep_noeq _ _ _ h']
    exact ⟨hg, hs⟩

theorem sysFold_other (rpath : Str) (sys : List Str) (l : NvpList) (n : Str) (he : ∀ e ∈ sys, Unpadded (nameOf e))
    (hn : ∀ e ∈ sys, sets n e = false) (hg : NvpList.get l n = none) (hs : seen (l.map Nvp.render) n = none) :
    NvpList.get (sys.foldl (sysStep rpath) l) n = none ∧
      seen ((sys.foldl (sysStep rpath) l).map Nvp.render) n = none := by
  induction sys generalizing l with
  | nil => exact ⟨hg, hs⟩
  | cons e sys ih =>
    rw [List.foldl_cons]
    have h := sysStep_other rpath l e n (he e (by simp)) (hn e (by simp)) hg hs
    exact ih _ (fun x hx => he x (by simp [hx])) (fun x hx => hn x (by simp [hx])) h.1 h.2

/-- R's library variables are never taken from the inherited environment. -/
theorem sysFold_library (rpath : Str) (sys : List Str) (l : NvpList) (n : Str) (hn : n = s%"R_LIBS_USER" ∨ n = s%"R_LIBS_SITE")
    (he : ∀ e ∈ sys, Unpadded (nameOf e)) (hg : NvpList.get l n = none) (hs : seen (l.map Nvp.render) n = none) :
    seen ((sys.foldl (sysStep rpath) l).map Nvp.render) n = none := by
  rw [sysFold_filter]
  refine (sysFold_other rpath _ l n (fun e h => he e (List.mem_filter.1 h).1) (fun e h => ?_) hg hs).2
  have := (List.mem_filter.1 h).2
  unfold setsLibrary at this
  simp only [Bool.not_eq_true', Bool.or_eq_false_iff] at this
  rcases hn with rfl | rfl
  · exact this.1
  · exact this.2

/-! ### The settings of the configuration -/

/-- The names set by the configuration. -/
theorem customList_names (ρ : Order) (hρ : ρ.Fair) (t : Nat) (rs : RSettings) (pkg : Str) :
    ∀ p ∈ customList ρ t rs pkg, (∃ q ∈ rs.globalEnv, p.name = trimBlanks q.name) ∨
      ∃ env, GoMap.get? rs.pkgEnv pkg = some env ∧ ∃ k ∈ GoMap.keys env, p.name = trimBlanks k := by
  have hg : ∀ (qs : NvpList) (l : NvpList), ∀ p ∈ qs.foldl globalStep l, p ∈ l ∨ ∃ q ∈ qs, p.name = trimBlanks q.name := by
    intro qs
    induction qs with
    | nil => intro l p hp; exact Or.inl hp
    | cons q qs ih =>
      intro l p hp
      rw [List.foldl_cons] at hp
      rcases ih _ p hp with h | ⟨q', hq', e⟩
      · unfold globalStep at h
        split at h
        · exact Or.inl h
        · unfold NvpList.app at h
          rcases List.mem_append.1 h with h | h
          · exact Or.inl h
          · rw [List.mem_singleton] at h
            exact Or.inr ⟨q, by simp, by rw [h]⟩
      · exact Or.inr ⟨q', by simp [hq'], e⟩
  have hk : ∀ (env : GoMap Str) (ks : List Str) (l : NvpList), ∀ p ∈ ks.foldl (pkgStep env) l,
      p ∈ l ∨ ∃ k ∈ ks, p.name = trimBlanks k := by
    intro env ks
    induction ks with
    | nil => intro l p hp; exact Or.inl hp
    | cons k ks ih =>
      intro l p hp
      rw [List.foldl_cons] at hp
      rcases ih _ p hp with h | ⟨q', hq', e⟩
      · unfold pkgStep NvpList.app at h
        rcases List.mem_append.1 h with h | h
        · exact Or.inl h
        · rw [List.mem_singleton] at h
          exact Or.inr ⟨k, by simp, by rw [h]⟩
      · exact Or.inr ⟨q', by simp [hq'], e⟩
  intro p hp
  unfold customList at hp
  dsimp only at hp
  split at hp
  · rename_i env henv
    rcases hk env _ _ p hp with h | ⟨k, hk', e⟩
    · rcases hg _ _ p h with h | h
      · simp at h
      · exact Or.inl h
    · exact Or.inr ⟨env, henv, k, (hρ _ _).mem_iff.1 hk', e⟩
  · rcases hg _ _ p hp with h | h
    · simp at h
    · exact Or.inl h

theorem seen_none_of (l : NvpList) (n : Str) (h : ∀ p ∈ l, '=' ∉ p.name ∧ p.name ≠ n) : seen (l.map Nvp.render) n = none := by
  unfold seen
  have : (l.map Nvp.render).filter (sets n) = [] := by
    rw [List.filter_eq_nil_iff]
    intro e he
    obtain ⟨p, hp, rfl⟩ := List.mem_map.1 he
    rw [render_eq, sets_setting _ _ _ (h p hp).1]
    simpa using (h p hp).2
  rw [this]; rfl

/-- A package setting in a fold over distinct names. -/
theorem pkgFold_sets (env : GoMap Str) (ks : List Str) (l : NvpList) (k v : Str) (hnd : ks.Nodup) (hk : k ∈ ks)
    (hp : ∀ x ∈ ks, PlainVar x) (hv : GoMap.get? env k = some v) (hu : Unpadded v) :
    (NvpList.get (ks.foldl (pkgStep env) l) k).isSome ∧ seen ((ks.foldl (pkgStep env) l).map Nvp.render) k = some v := by
  have hkeep : ∀ (ks : List Str) (l : NvpList), k ∉ ks → (∀ x ∈ ks, PlainVar x) → (NvpList.get l k).isSome →
      seen (l.map Nvp.render) k = some v → (NvpList.get (ks.foldl (pkgStep env) l) k).isSome ∧
        seen ((ks.foldl (pkgStep env) l).map Nvp.render) k = some v := by
    intro ks
    induction ks with
    | nil => intro l _ _ h1 h2; exact ⟨h1, h2⟩
    | cons x ks ih =>
      intro l hn hp h1 h2
      rw [List.foldl_cons]
      simp only [List.mem_cons, not_or] at hn
      apply ih _ hn.2 (fun y hy => hp y (by simp [hy]))
      · unfold pkgStep
        rw [get_app]
        cases hx : NvpList.get l k with
        | none => rw [hx] at h1; simp at h1
        | some x => simp
      · unfold pkgStep
        rw [seen_app _ _ _ _ (hp x (by simp)), if_neg (Ne.symm hn.1), h2]
  induction ks generalizing l with
  | nil => simp at hk
  | cons x ks ih =>
    rw [List.foldl_cons]
    rw [List.nodup_cons] at hnd
    by_cases hx : x = k
    · subst hx
      apply hkeep _ _ hnd.1 (fun y hy => hp y (by simp [hy]))
      · unfold pkgStep
        rw [get_app, trimBlanks_of_unpadded (hp x (by simp)).2]
        cases NvpList.get l x <;> simp
      · unfold pkgStep
        rw [seen_app _ _ _ _ (hp x (by simp)), if_pos rfl, hv]
        simp [trimBlanks_of_unpadded hu]
    · apply ih _ hnd.2 _ (fun y hy => hp y (by simp [hy]))
      rcases List.mem_cons.1 hk with h | h
      · exact absurd h.symm hx
      · exact h

/-! ### The whole environment -/

theorem splitOn_head_append (a b : Str) (h : '=' ∉ a) : splitOn '=' (a ++ '=' :: b) = a :: splitOn '=' b := splitOn_append _ _ _ h

theorem mem_of_splitOn_single (s x : Str) (c : Char) (h : splitOn c s = [x]) : c ∉ s := by
  induction s generalizing x with
  | nil => simp
  | cons d s ih =>
    rw [splitOn] at h
    split at h
    · have := splitOn_ne_nil c s
      simp at h
      exact absurd h.2 this
    · rename_i hd
      split at h
      · exact absurd ‹_› (splitOn_ne_nil c s)
      · rename_i w ws hw
        simp only [List.cons.injEq] at h
        rw [h.2] at hw
        simp only [List.mem_cons, not_or]
        exact ⟨fun e => hd e.symm, ih _ hw⟩

/-- What the library path setting adds. -/
theorem addLibPaths_seen (rs : RSettings) (l : NvpList) (n : Str) (hn : n ≠ s%"R_LIBS_SITE") :
    seen ((addLibPaths rs l).map Nvp.render) n = seen (l.map Nvp.render) n := by
  unfold addLibPaths
  split
  · rename_i lp hlp
    unfold RSettings.libPathsEnv at hlp
    split at hlp
    · simp at hlp
    split at hlp
    · simp at hlp
    simp only [Option.some.injEq] at hlp
    have : lp = s%"R_LIBS_SITE" ++ '=' :: joinWith ':' rs.libPaths := by rw [← hlp]; rfl
    unfold NvpList.appNvp
    rw [this, splitOn_append _ _ _ (by decide)]
    split
    · rename_i a b hab
      simp only [List.cons.injEq] at hab
      rw [← hab.1, seen_app _ _ _ _ (by decide), if_neg (Ne.symm hn)]
    · rfl
  · rfl

theorem seen_configureEnv (ρ : Order) (t : Nat) (tmp : Str) (sys : List Str) (rs : RSettings) (pkg n : Str)
    (h1 : n ≠ s%"R_LIBS_SITE") (h2 : n ≠ s%"R_LIBS_USER") :
    seen (configureEnv ρ t tmp sys rs pkg) n =
      seen ((sys.foldl (sysStep rs.rpath) (customList ρ t rs pkg)).map Nvp.render) n := by
  unfold configureEnv
  dsimp only
  rw [addLibPaths_seen _ _ _ h1, seen_app _ _ _ _ (by decide), if_neg (Ne.symm h2)]

end Pkgr
