/- C72-C74: cleaning the cache and the package databases. -/
import Verif.Spec.Clean
import Verif.Model.Archive
import Verif.Props.RSettings
import Verif.Props.Env

namespace Pkgr
open Spec

/-! ### One pass -/

/-- What one repository folder loses. -/
def Loses (cache : Path) (sub : Str) (fs : Fs) (f : Str) (q : Path) : Prop :=
  cache ++ [f, sub] <+: q ∨ (q = cache ++ [f] ∧ ∀ n, fs (q ++ [n]) ≠ none → n = sub)

theorem ls_empty_iff (names : List Str) (fs : Fs) (p : Path) (hall : AllNames names fs) :
    (fs.ls names p).isEmpty = true ↔ ∀ n, fs (p ++ [n]) = none := by
  unfold Fs.ls
  rw [List.isEmpty_iff, List.filter_eq_nil_iff]
  constructor
  · intro h n
    cases hn : fs (p ++ [n]) with
    | none => rfl
    | some x =>
      have := h n (hall p n (by rw [hn]; simp))
      unfold Fs.ex at this
      rw [hn] at this
      simp at this
  · intro h n _
    unfold Fs.ex
    rw [h n]
    simp

theorem treeFs_below (fs : Fs) (ht : TreeFs fs) (r : List Str) : ∀ (p : Path) (a : Str), fs (p ++ a :: r) ≠ none →
    fs p = some .dir ∧ fs (p ++ [a]) ≠ none := by
  induction r with
  | nil => intro p a h; exact ⟨ht p a h, h⟩
  | cons b r ih =>
    intro p a h
    have h' : fs ((p ++ [a]) ++ b :: r) ≠ none := by rw [List.append_assoc]; exact h
    have h1 := (ih (p ++ [a]) b h').1
    have h2 : fs (p ++ [a]) ≠ none := by rw [h1]; simp
    exact ⟨ht p a h2, h2⟩

theorem append_one_ne (p : Path) (a : Str) : p ++ [a] ≠ p := by
  intro h
  have := congrArg List.length h
  simp at this

open Classical in
theorem clearFolder_eq (names : List Str) (cache : Path) (sub : Str) (fs : Fs) (f : Str) (ht : TreeFs fs) (hall : AllNames names fs)
    (q : Path) : clearFolder names cache sub fs f q = if Loses cache sub fs f q then none else fs q := by
  unfold clearFolder
  have hallA : AllNames names (fs.removeAll (cache ++ [f, sub])) := by
    intro p n h
    unfold Fs.removeAll at h
    split at h
    · exact absurd rfl h
    · exact hall p n h
  have hchild : ∀ n, (fs.removeAll (cache ++ [f, sub])) (cache ++ [f] ++ [n]) = if n = sub then none else fs (cache ++ [f] ++ [n]) := by
    intro n
    unfold Fs.removeAll
    by_cases hn : n = sub
    · subst hn
      rw [if_pos (by simp), if_pos rfl]
    · rw [if_neg hn, if_neg]
      rintro ⟨t, h⟩
      simp only [List.append_assoc, List.cons_append, List.nil_append, List.append_cancel_left_eq, List.cons.injEq, true_and] at h
      exact hn h.1.symm
  have hempty : ((fs.removeAll (cache ++ [f, sub])).ls names (cache ++ [f])).isEmpty = true ↔
      ∀ n, fs (cache ++ [f] ++ [n]) ≠ none → n = sub := by
    rw [ls_empty_iff _ _ _ hallA]
    constructor
    · intro h n hn
      have := h n
      rw [hchild] at this
      split at this
      · assumption
      · exact absurd this hn
    · intro h n
      rw [hchild]
      split
      · rfl
      · rename_i hn
        cases hx : fs (cache ++ [f] ++ [n]) with
        | none => rfl
        | some x => exact absurd (h n (by rw [hx]; simp)) hn
  unfold Loses
  split
  · rename_i he
    have he := hempty.1 he
    unfold Fs.removeAll
    by_cases h1 : cache ++ [f] <+: q
    · rw [if_pos h1]
      obtain ⟨t, rfl⟩ := h1
      cases t with
      | nil =>
        rw [if_pos]
        right
        simp only [List.append_nil, true_and]
        exact he
      | cons a t =>
        split
        · rfl
        · rename_i hno
          cases hx : fs (cache ++ [f] ++ a :: t) with
          | none => rfl
          | some x =>
            exfalso
            apply hno
            left
            have hb := treeFs_below fs ht t (cache ++ [f]) a (by rw [hx]; simp)
            have := he a hb.2
            subst this
            exact ⟨t, by simp⟩
    · rw [if_neg h1]
      have h2 : ¬ cache ++ [f, sub] <+: q := by
        rintro ⟨t, rfl⟩
        exact h1 ⟨sub :: t, by simp⟩
      rw [if_neg h2, if_neg]
      rintro (h | ⟨h, _⟩)
      · exact h2 h
      · exact h1 (by rw [h]; exact List.prefix_refl _)
  · rename_i he
    have he : ¬ ∀ n, fs (cache ++ [f] ++ [n]) ≠ none → n = sub := fun h => he (hempty.2 h)
    unfold Fs.removeAll
    by_cases h2 : cache ++ [f, sub] <+: q
    · rw [if_pos h2, if_pos (Or.inl h2)]
    · rw [if_neg h2, if_neg]
      rintro (h | ⟨h, h'⟩)
      · exact h2 h
      · subst h; exact he h'

theorem clearFolder_inv (names : List Str) (cache : Path) (sub : Str) (fs : Fs) (f : Str) (ht : TreeFs fs) (hall : AllNames names fs) :
    TreeFs (clearFolder names cache sub fs f) ∧ AllNames names (clearFolder names cache sub fs f) := by
  have heq := clearFolder_eq names cache sub fs f ht hall
  constructor
  · intro p n h
    rw [heq] at h ⊢
    split at h
    · exact absurd rfl h
    rename_i hno
    rw [if_neg]
    · exact ht p n h
    · rintro (⟨t, h'⟩ | ⟨h1, h2⟩)
      · exact hno (Or.inl ⟨t ++ [n], by rw [← h']; simp⟩)
      · have := h2 n h
        subst this
        subst h1
        exact hno (Or.inl ⟨[], by simp⟩)
  · intro p n h
    rw [heq] at h
    split at h
    · exact absurd rfl h
    · exact hall p n h

open Classical in
theorem clearFold_eq (names : List Str) (cache : Path) (sub : Str) (L : List Str) (fs : Fs) (ht : TreeFs fs) (hall : AllNames names fs) :
    TreeFs (L.foldl (clearFolder names cache sub) fs) ∧ AllNames names (L.foldl (clearFolder names cache sub) fs) ∧
    ∀ q, L.foldl (clearFolder names cache sub) fs q = if ∃ f, f ∈ L ∧ Loses cache sub fs f q then none else fs q := by
  induction L generalizing fs with
  | nil => exact ⟨ht, hall, fun q => by simp⟩
  | cons f L ih =>
    have hinv := clearFolder_inv names cache sub fs f ht hall
    have heq := clearFolder_eq names cache sub fs f ht hall
    obtain ⟨h1, h2, h3⟩ := ih _ hinv.1 hinv.2
    refine ⟨h1, h2, ?_⟩
    intro q
    rw [List.foldl_cons, h3]
    -- what the others lose does not depend on the first step
    have hsame : ∀ g, Loses cache sub (clearFolder names cache sub fs f) g q ↔ Loses cache sub fs g q := by
      intro g
      unfold Loses
      apply or_congr Iff.rfl
      apply and_congr_right
      intro hq
      subst hq
      constructor
      · intro h n hn
        have := h n
        rw [heq] at this
        split at this
        · rename_i hl
          rcases hl with ⟨t, hl⟩ | ⟨hl, _⟩
          · simp only [List.append_assoc, List.cons_append, List.nil_append, List.append_cancel_left_eq, List.cons.injEq] at hl
            exact hl.2.1.symm
          · have := congrArg List.length hl
            simp at this
        · exact this hn
      · intro h n hn
        rw [heq] at hn
        split at hn
        · exact absurd rfl hn
        · exact h n hn
    by_cases hf : Loses cache sub fs f q
    · have hr : (∃ g, g ∈ f :: L ∧ Loses cache sub fs g q) := ⟨f, List.mem_cons_self, hf⟩
      rw [heq, if_pos hf, if_pos hr]
      split <;> rfl
    · rw [heq, if_neg hf]
      have : (∃ g, g ∈ L ∧ Loses cache sub (clearFolder names cache sub fs f) g q) ↔ ∃ g, g ∈ f :: L ∧ Loses cache sub fs g q := by
        constructor
        · rintro ⟨g, hg, h⟩
          exact ⟨g, by simp [hg], (hsame g).1 h⟩
        · rintro ⟨g, hg, h⟩
          rcases List.mem_cons.1 hg with e | hg
          · subst e; exact absurd h hf
          · exact ⟨g, hg, (hsame g).2 h⟩
      simp only [this]

/-! ### The option -/

theorem commaItem_iff (text x : Str) : CommaItem text x ↔ x ∈ splitOn ',' text := by
  unfold CommaItem
  constructor
  · rintro ⟨l, hl, hc, rfl, hx⟩
    rw [← joinWith_eq, splitOn_joinWith _ _ hl hc]
    exact hx
  · intro h
    refine ⟨splitOn ',' text, splitOn_ne_nil _ _, splitOn_mem _ _, ?_, h⟩
    rw [← joinWith_eq, joinWith_splitOn]

theorem mem_foldersToClear (opt : Str) (folders : List Str) (f : Str) :
    f ∈ foldersToClear (reposOption opt) folders ↔ f ∈ folders ∧ SelectsRepo opt f := by
  unfold foldersToClear reposOption SelectsRepo
  rw [commaItem_iff]
  by_cases h : opt = s%"ALL"
  · rw [if_pos h]
    simp [h]
  · rw [if_neg h]
    have hne : (splitOn ',' opt).isEmpty = false := by
      cases hs : splitOn ',' opt with
      | nil => exact absurd hs (splitOn_ne_nil _ _)
      | cons a l => rfl
    rw [hne]
    simp only [Bool.false_eq_true, if_false, List.mem_flatMap, List.mem_filter, decide_eq_true_eq]
    constructor
    · rintro ⟨r, hr, hf, rfl⟩
      exact ⟨hf, Or.inr hr⟩
    · rintro ⟨hf, h' | h'⟩
      · exact absurd h' h
      · exact ⟨f, h', hf, rfl⟩

open Classical in
/-- One pass over the folders. -/
theorem deleteCacheSubfolders_eq (names : List Str) (fs fs' : Fs) (opt sub : Str) (cache : Path) (ht : TreeFs fs) (hall : AllNames names fs)
    (h : deleteCacheSubfolders names fs (reposOption opt) sub cache = some fs') :
    TreeFs fs' ∧ AllNames names fs' ∧
    ∀ q, fs' q = if SelectedBelow fs cache (SelectsRepo opt) (· = sub) q ∨ EmptiedFolder fs cache (SelectsRepo opt) (· = sub) q
      then none else fs q := by
  unfold deleteCacheSubfolders at h
  split at h
  case isFalse => simp at h
  dsimp only at h
  simp only [Option.some.injEq] at h
  obtain ⟨h1, h2, h3⟩ := clearFold_eq names cache sub
    (foldersToClear (reposOption opt) ((fs.ls names cache).filter fun n => fs.isDir (cache ++ [n]))) fs ht hall
  rw [h] at h1 h2 h3
  refine ⟨h1, h2, ?_⟩
  intro q
  rw [h3]
  have hmem : ∀ f, f ∈ foldersToClear (reposOption opt) ((fs.ls names cache).filter fun n => fs.isDir (cache ++ [n])) ↔
      fs (cache ++ [f]) = some .dir ∧ SelectsRepo opt f := by
    intro f
    rw [mem_foldersToClear, List.mem_filter]
    unfold Fs.ls Fs.isDir Fs.ex
    rw [List.mem_filter, decide_eq_true_eq]
    constructor
    · rintro ⟨⟨_, h⟩, h'⟩; exact ⟨h, h'⟩
    · rintro ⟨h, h'⟩
      exact ⟨⟨⟨hall cache f (by rw [h]; simp), by rw [h]; rfl⟩, h⟩, h'⟩
  have : (∃ f, f ∈ foldersToClear (reposOption opt) ((fs.ls names cache).filter fun n => fs.isDir (cache ++ [n])) ∧ Loses cache sub fs f q) ↔
      (SelectedBelow fs cache (SelectsRepo opt) (· = sub) q ∨ EmptiedFolder fs cache (SelectsRepo opt) (· = sub) q) := by
    constructor
    · rintro ⟨f, hf, hl⟩
      obtain ⟨hd, hs⟩ := (hmem f).1 hf
      rcases hl with hl | ⟨hl, hl'⟩
      · exact Or.inl ⟨f, sub, hl, hd, hs, rfl⟩
      · exact Or.inr ⟨f, hl, hd, hs, hl'⟩
    · rintro (⟨r, k, hp, hd, hs, hk⟩ | ⟨r, hq, hd, hs, hn⟩)
      · subst hk
        exact ⟨r, (hmem r).2 ⟨hd, hs⟩, Or.inl hp⟩
      · exact ⟨r, (hmem r).2 ⟨hd, hs⟩, Or.inr ⟨hq, hn⟩⟩
  simp only [this]

/-! ### C72 -/

theorem deleteCacheSubfolders_cache (names : List Str) (fs fs' : Fs) (opt sub : Str) (cache : Path) (ht : TreeFs fs) (hall : AllNames names fs)
    (h : deleteCacheSubfolders names fs (reposOption opt) sub cache = some fs') (hc : fs.ex cache = true) : fs'.ex cache = true := by
  obtain ⟨_, _, h3⟩ := deleteCacheSubfolders_eq names fs fs' opt sub cache ht hall h
  unfold Fs.ex at hc ⊢
  rw [h3, if_neg]
  · exact hc
  · rintro (⟨r, k, hp, _⟩ | ⟨r, hq, _⟩)
    · have := hp.length_le
      simp at this
      omega
    · have := congrArg List.length hq
      simp at this

theorem deleteCacheSubfolders_some (names : List Str) (fs : Fs) (repos : List Str) (sub : Str) (cache : Path) (hc : fs.ex cache = true) :
    ∃ fs', deleteCacheSubfolders names fs repos sub cache = some fs' := by
  unfold deleteCacheSubfolders
  rw [if_pos hc]
  exact ⟨_, rfl⟩

/-- What is removed below `cache` by cleaning, and that nothing else is. -/
def Cleaned (fs : Fs) (cache : Path) (R K : Str → Prop) (fs' : Fs) : Prop :=
  ∀ q, ((SelectedBelow fs cache R K q ∨ EmptiedFolder fs cache R K q) → fs' q = none) ∧
    (¬ SelectedBelow fs cache R K q → ¬ EmptiedFolder fs cache R K q → fs' q = fs q)

theorem cleaned_one (names : List Str) (fs fs' : Fs) (opt sub : Str) (cache : Path) (ht : TreeFs fs) (hall : AllNames names fs)
    (h : deleteCacheSubfolders names fs (reposOption opt) sub cache = some fs') : Cleaned fs cache (SelectsRepo opt) (· = sub) fs' := by
  obtain ⟨_, _, h3⟩ := deleteCacheSubfolders_eq names fs fs' opt sub cache ht hall h
  intro q
  refine ⟨fun h' => ?_, fun h1 h2 => ?_⟩
  · rw [h3, if_pos h']
  · rw [h3, if_neg]
    rintro (h' | h')
    · exact h1 h'
    · exact h2 h'

theorem cleaned_two (fs fs1 fs2 : Fs) (cache : Path) (R : Str → Prop) (a b : Str) (ht : TreeFs fs)
    (h1 : Cleaned fs cache R (· = a) fs1) (h2 : Cleaned fs1 cache R (· = b) fs2) (hab : a ≠ b) :
    Cleaned fs cache R (fun k => k = a ∨ k = b) fs2 := by
  -- nothing appears
  have hmono1 : ∀ q, fs q = none → fs1 q = none := by
    intro q hq
    by_cases hs : SelectedBelow fs cache R (· = a) q ∨ EmptiedFolder fs cache R (· = a) q
    · exact (h1 q).1 hs
    · rw [(h1 q).2 (fun h => hs (Or.inl h)) (fun h => hs (Or.inr h))]; exact hq
  have hmono2 : ∀ q, fs1 q = none → fs2 q = none := by
    intro q hq
    by_cases hs : SelectedBelow fs1 cache R (· = b) q ∨ EmptiedFolder fs1 cache R (· = b) q
    · exact (h2 q).1 hs
    · rw [(h2 q).2 (fun h => hs (Or.inl h)) (fun h => hs (Or.inr h))]; exact hq
  -- a repository folder stays a directory or everything in it is gone
  have hfold : ∀ r, fs (cache ++ [r]) = some .dir → fs1 (cache ++ [r]) = some .dir ∨
      (R r ∧ ∀ n, fs (cache ++ [r] ++ [n]) ≠ none → n = a) := by
    intro r hr
    by_cases he : EmptiedFolder fs cache R (· = a) (cache ++ [r])
    · obtain ⟨r', hq, _, hR, hn⟩ := he
      have hrr : r = r' := by simpa using hq
      subst hrr
      exact Or.inr ⟨hR, hn⟩
    · left
      rw [(h1 _).2 ?_ he]
      · exact hr
      · rintro ⟨r', k, hp, _⟩
        have := hp.length_le
        simp at this
  intro q
  refine ⟨?_, ?_⟩
  · rintro (⟨r, k, hp, hd, hR, hk⟩ | ⟨r, hq, hd, hR, hn⟩)
    · rcases hk with hk | hk
      · exact hmono2 q ((h1 q).1 (Or.inl ⟨r, k, hp, hd, hR, hk⟩))
      · rcases hfold r hd with hd1 | ⟨_, hgone⟩
        · exact (h2 q).1 (Or.inl ⟨r, k, hp, hd1, hR, hk⟩)
        · -- nothing was there
          obtain ⟨t, rfl⟩ := hp
          apply hmono2
          apply hmono1
          cases hx : fs (cache ++ [r, k] ++ t) with
          | none => rfl
          | some x =>
            exfalso
            have hb := treeFs_below fs ht t (cache ++ [r]) k (by
              have : cache ++ [r] ++ k :: t = cache ++ [r, k] ++ t := by simp
              rw [this, hx]; simp)
            have := hgone k hb.2
            exact hab (this.symm.trans hk)
    · subst hq
      rcases hfold r hd with hd1 | ⟨_, hgone⟩
      · apply (h2 _).1
        right
        refine ⟨r, rfl, hd1, hR, ?_⟩
        intro n hn'
        have hfsn : fs (cache ++ [r] ++ [n]) ≠ none := fun h => hn' (hmono1 _ h)
        rcases hn n hfsn with e | e
        · exfalso
          apply hn'
          apply (h1 _).1
          exact Or.inl ⟨r, n, by simp, hd, hR, e⟩
        · exact e
      · exact hmono2 _ ((h1 _).1 (Or.inr ⟨r, rfl, hd, hR, hgone⟩))
  · intro hs he
    have hq1 : fs1 q = fs q := by
      apply (h1 q).2
      · rintro ⟨r, k, hp, hd, hR, hk⟩
        exact hs ⟨r, k, hp, hd, hR, Or.inl hk⟩
      · rintro ⟨r, hq, hd, hR, hn⟩
        exact he ⟨r, hq, hd, hR, fun n h => Or.inl (hn n h)⟩
    have hdir : ∀ r, fs1 (cache ++ [r]) = some .dir → fs (cache ++ [r]) = some .dir := by
      intro r h
      by_cases hs' : SelectedBelow fs cache R (· = a) (cache ++ [r]) ∨ EmptiedFolder fs cache R (· = a) (cache ++ [r])
      · rw [(h1 _).1 hs'] at h; simp at h
      · rw [← (h1 _).2 (fun h => hs' (Or.inl h)) (fun h => hs' (Or.inr h))]; exact h
    rw [← hq1]
    apply (h2 q).2
    · rintro ⟨r, k, hp, hd, hR, hk⟩
      exact hs ⟨r, k, hp, hdir r hd, hR, Or.inr hk⟩
    · rintro ⟨r, hq, hd, hR, hn⟩
      subst hq
      refine he ⟨r, rfl, hdir r hd, hR, ?_⟩
      intro n hn'
      by_cases hna : n = a
      · exact Or.inl hna
      · right
        apply hn n
        rw [(h1 _).2]
        · exact hn'
        · rintro ⟨r', k, hp, _, _, hk⟩
          obtain ⟨t, ht'⟩ := hp
          simp only [List.append_assoc, List.cons_append, List.nil_append, List.append_cancel_left_eq, List.cons.injEq] at ht'
          exact hna (ht'.2.1.symm.trans hk)
        · rintro ⟨r', hq, _⟩
          have := congrArg List.length hq
          simp at this

theorem tarballs_eq (digest : Str → Str) (cfgCache : Str) (cwd : Path) (ts : List (Option Str)) (fs : Fs) (q : Path) :
    ((∃ b, some b ∈ ts ∧ tarballDir cfgCache cwd (digest b) <+: q) → ts.foldl (cleanTarball digest cfgCache cwd) fs q = none) ∧
    ((¬ ∃ b, some b ∈ ts ∧ tarballDir cfgCache cwd (digest b) <+: q) → ts.foldl (cleanTarball digest cfgCache cwd) fs q = fs q) := by
  induction ts generalizing fs with
  | nil => simp
  | cons t ts ih =>
    rw [List.foldl_cons]
    have hnone : fs q = none → ts.foldl (cleanTarball digest cfgCache cwd) fs q = none := by
      intro hq
      by_cases h : ∃ b, some b ∈ ts ∧ tarballDir cfgCache cwd (digest b) <+: q
      · exact (ih fs).1 h
      · rw [(ih fs).2 h]; exact hq
    cases t with
    | none =>
      have : cleanTarball digest cfgCache cwd fs none = fs := rfl
      rw [this]
      simpa using ih fs
    | some b =>
      refine ⟨?_, ?_⟩
      · rintro ⟨b', hb', hp⟩
        by_cases h : ∃ b, some b ∈ ts ∧ tarballDir cfgCache cwd (digest b) <+: q
        · exact (ih _).1 h
        · rw [(ih _).2 h]
          have hbb : b' = b := by
            rcases List.mem_cons.1 hb' with e | e
            · simpa using e
            · exact absurd ⟨b', e, hp⟩ h
          subst hbb
          show (fs.removeAll _) q = none
          unfold Fs.removeAll
          rw [if_pos hp]
      · intro h
        rw [(ih _).2 (fun ⟨b', h1, h2⟩ => h ⟨b', by simp [h1], h2⟩)]
        show (fs.removeAll _) q = fs q
        unfold Fs.removeAll
        rw [if_neg (fun hp => h ⟨b, by simp, hp⟩)]

/-- C72 (partial). If the cache directory exists and the flags make sense, cleaning removes exactly the files of the
selected kinds in the selected repositories, the repository folders with nothing else in them, and the unpacked
tarballs of the configuration; everything else is as before. (Partial: unpacked tarballs are removed whatever was selected.) -/
theorem C72_exact_partial (digest : Str → Str) (names : List Str) (cfgCache : Str) (cwd base : Path) (fl : CleanFlags)
    (tarballs : List (Option Str)) (fs : Fs) (ht : TreeFs fs) (hall : AllNames names fs)
    (hc : fs.ex (userCache cfgCache cwd base) = true) (hfl : ¬ (fl.srcOnly = true ∧ fl.binariesOnly = true)) :
    ∃ fs', cleanCacheFolders digest names cfgCache cwd base fl tarballs fs = some fs' ∧
      ∀ q, ((SelectedBelow fs (userCache cfgCache cwd base) (SelectsRepo fl.repos) (SelectsKind fl.srcOnly fl.binariesOnly) q ∨
          EmptiedFolder fs (userCache cfgCache cwd base) (SelectsRepo fl.repos) (SelectsKind fl.srcOnly fl.binariesOnly) q ∨
          ∃ b, some b ∈ tarballs ∧ tarballDir cfgCache cwd (digest b) <+: q) → fs' q = none) ∧
        (¬ SelectedBelow fs (userCache cfgCache cwd base) (SelectsRepo fl.repos) (SelectsKind fl.srcOnly fl.binariesOnly) q →
          ¬ EmptiedFolder fs (userCache cfgCache cwd base) (SelectsRepo fl.repos) (SelectsKind fl.srcOnly fl.binariesOnly) q →
          (¬ ∃ b, some b ∈ tarballs ∧ tarballDir cfgCache cwd (digest b) <+: q) → fs' q = fs q) := by
  have hkinds : ∃ fs1, cleanKinds names fs fl (userCache cfgCache cwd base) = some (fs1, true) ∧
      Cleaned fs (userCache cfgCache cwd base) (SelectsRepo fl.repos) (SelectsKind fl.srcOnly fl.binariesOnly) fs1 := by
    generalize userCache cfgCache cwd base = cache at hc
    unfold cleanKinds
    dsimp only
    split
    · rename_i e1 e2
      obtain ⟨fs1, h1⟩ := deleteCacheSubfolders_some names fs (reposOption fl.repos) (s%"src") cache hc
      have i1 := deleteCacheSubfolders_eq names fs fs1 _ _ _ ht hall h1
      obtain ⟨fs2, h2⟩ := deleteCacheSubfolders_some names fs1 (reposOption fl.repos) (s%"binary") cache
        (deleteCacheSubfolders_cache names fs fs1 _ _ _ ht hall h1 hc)
      refine ⟨fs2, ?_, ?_⟩
      · rw [h1]
        show ((deleteCacheSubfolders names fs1 (reposOption fl.repos) (s%"binary") cache).bind fun f => some (f, true)) = _
        rw [h2]
        rfl
      · have := cleaned_two fs fs1 fs2 cache (SelectsRepo fl.repos) (s%"src") (s%"binary") ht
          (cleaned_one _ _ _ _ _ _ ht hall h1) (cleaned_one _ _ _ _ _ _ i1.1 i1.2.1 h2) (by decide)
        have hk : SelectsKind fl.srcOnly fl.binariesOnly = fun k => k = s%"src" ∨ k = s%"binary" := by
          funext k
          unfold SelectsKind
          simp [e1, e2]
        rw [hk]
        exact this
    · rename_i e1 e2
      exact absurd ⟨e1, e2⟩ hfl
    · rename_i e1 e2
      obtain ⟨fs1, h1⟩ := deleteCacheSubfolders_some names fs (reposOption fl.repos) (s%"src") cache hc
      refine ⟨fs1, by rw [h1]; rfl, ?_⟩
      have hk : SelectsKind fl.srcOnly fl.binariesOnly = fun k => k = s%"src" := by
        funext k
        unfold SelectsKind
        simp [e1, e2]
      rw [hk]
      exact cleaned_one _ _ _ _ _ _ ht hall h1
    · rename_i e1 e2
      obtain ⟨fs1, h1⟩ := deleteCacheSubfolders_some names fs (reposOption fl.repos) (s%"binary") cache hc
      refine ⟨fs1, by rw [h1]; rfl, ?_⟩
      have hk : SelectsKind fl.srcOnly fl.binariesOnly = fun k => k = s%"binary" := by
        funext k
        unfold SelectsKind
        simp [e1, e2]
      rw [hk]
      exact cleaned_one _ _ _ _ _ _ ht hall h1
  obtain ⟨fs1, hk, hcl⟩ := hkinds
  unfold cleanCacheFolders
  rw [hk]
  refine ⟨_, rfl, ?_⟩
  intro q
  have htar := tarballs_eq digest cfgCache cwd tarballs fs1 q
  refine ⟨?_, ?_⟩
  · intro h
    by_cases hb : ∃ b, some b ∈ tarballs ∧ tarballDir cfgCache cwd (digest b) <+: q
    · exact htar.1 hb
    · rw [htar.2 hb]
      apply (hcl q).1
      rcases h with h | h | h
      · exact Or.inl h
      · exact Or.inr h
      · exact absurd h hb
  · intro h1 h2 h3
    rw [htar.2 h3]
    exact (hcl q).2 h1 h2

/-- C72. Asking for sources only and for binaries only at once is refused, and nothing is removed. -/
theorem C72_flags (digest : Str → Str) (names : List Str) (cfgCache : Str) (cwd base : Path) (repos : Str)
    (tarballs : List (Option Str)) (fs : Fs) :
    cleanCacheFolders digest names cfgCache cwd base ⟨true, true, repos⟩ tarballs fs = some fs := rfl

/-- A cache with two repositories and an unpacked tarball. -/
def toyTwoRepos : Fs := fun q =>
  if q ∈ [[], [s%"c"], [s%"c", s%"CRAN"], [s%"c", s%"CRAN", s%"src"], [s%"c", s%"CRAN", s%"binary"], [s%"c", s%"MPN"],
    [s%"c", s%"MPN", s%"src"], [s%"c", s%"abc"]] then some .dir
  else if q ∈ [[s%"c", s%"CRAN", s%"src", s%"R6.tar.gz"], [s%"c", s%"MPN", s%"src", s%"x.tar.gz"], [s%"c", s%"abc", s%"f"]] then some (.file [])
  else none

/-- Its file names. -/
def toyTwoRepos_fileNames : List Str := [s%"c", s%"CRAN", s%"MPN", s%"abc", s%"f", s%"src", s%"binary", s%"R6.tar.gz", s%"x.tar.gz"]

/-- Its paths. -/
def toyTwoRepos_allPaths : List Path := [[], [s%"c"], [s%"c", s%"CRAN"], [s%"c", s%"CRAN", s%"src"], [s%"c", s%"CRAN", s%"binary"], [s%"c", s%"MPN"],
    [s%"c", s%"MPN", s%"src"], [s%"c", s%"abc"], [s%"c", s%"CRAN", s%"src", s%"R6.tar.gz"], [s%"c", s%"MPN", s%"src", s%"x.tar.gz"], [s%"c", s%"abc", s%"f"]]

theorem toyTwoRepos_paths (q : Path) (h : toyTwoRepos q ≠ none) : q ∈ toyTwoRepos_allPaths := by
  unfold toyTwoRepos at h
  unfold toyTwoRepos_allPaths
  split at h
  · rename_i hm; revert hm; simp only [List.mem_cons, List.not_mem_nil, or_false]
    rintro (h | h | h | h | h | h | h | h) <;> simp [h]
  · split at h
    · rename_i hm; revert hm; simp only [List.mem_cons, List.not_mem_nil, or_false]
      rintro (h | h | h) <;> simp [h]
    · exact absurd rfl h

theorem toyTwoRepos_tree : TreeFs toyTwoRepos := by
  intro p n h
  have hm := toyTwoRepos_paths _ h
  have key : ∀ x ∈ toyTwoRepos_allPaths, x ≠ [] → toyTwoRepos x.dropLast = some .dir := by decide
  have := key _ hm (by simp)
  rwa [List.dropLast_concat] at this

theorem toyTwoRepos_names : AllNames toyTwoRepos_fileNames toyTwoRepos := by
  intro p n h
  have hm := toyTwoRepos_paths _ h
  have key : ∀ x ∈ toyTwoRepos_allPaths, ∀ y, x.getLast? = some y → y ∈ toyTwoRepos_fileNames := by decide
  exact key _ hm n (by simp)

example : ∃ fs', cleanCacheFolders id toyTwoRepos_fileNames (s%"/c") [] [] { srcOnly := true, repos := s%"x,MPN" } [] toyTwoRepos = some fs' ∧
    fs' [s%"c", s%"MPN"] = none ∧ fs' [s%"c", s%"CRAN", s%"src", s%"R6.tar.gz"] = some (.file []) := by
  obtain ⟨fs', h, hq⟩ := C72_exact_partial id toyTwoRepos_fileNames (s%"/c") [] [] { srcOnly := true, repos := s%"x,MPN" } [] toyTwoRepos
    toyTwoRepos_tree toyTwoRepos_names (by decide) (by decide)
  refine ⟨fs', h, ?_⟩
  have h' : some fs' = some fs' := rfl
  rw [← h] at h'
  constructor
  · have : (cleanCacheFolders id toyTwoRepos_fileNames (s%"/c") [] [] { srcOnly := true, repos := s%"x,MPN" } [] toyTwoRepos).map (· [s%"c", s%"MPN"]) = some none := by decide
    rw [h] at this
    simpa using this
  · have : (cleanCacheFolders id toyTwoRepos_fileNames (s%"/c") [] [] { srcOnly := true, repos := s%"x,MPN" } [] toyTwoRepos).map
      (· [s%"c", s%"CRAN", s%"src", s%"R6.tar.gz"]) = some (some (.file [])) := by decide
    rw [h] at this
    simpa using this

/-- C72 fails if there is no cache directory yet: the program crashes. -/
theorem C72_violated_crash (digest : Str → Str) (names : List Str) (cfgCache : Str) (cwd base : Path) (fl : CleanFlags)
    (tarballs : List (Option Str)) (fs : Fs) (hc : fs.ex (userCache cfgCache cwd base) = false)
    (hfl : ¬ (fl.srcOnly = true ∧ fl.binariesOnly = true)) :
    cleanCacheFolders digest names cfgCache cwd base fl tarballs fs = none := by
  have hdel : ∀ repos sub, deleteCacheSubfolders names fs repos sub (userCache cfgCache cwd base) = none := by
    intro repos sub
    unfold deleteCacheSubfolders
    rw [if_neg (by rw [hc]; simp)]
  unfold cleanCacheFolders cleanKinds
  dsimp only
  split
  · rfl
  · rename_i h
    exfalso
    split at h
    · rw [hdel] at h; simp at h
    · rename_i e1 e2; exact hfl ⟨e1, e2⟩
    · rw [hdel] at h; simp at h
    · rw [hdel] at h; simp at h
  · rename_i h
    exfalso
    split at h
    · rw [hdel] at h; simp at h
    · simp at h
    · rw [hdel] at h; simp at h
    · rw [hdel] at h; simp at h

/-- C72 fails: cleaning the sources of one repository also removes the unpacked tarballs. -/
theorem C72_violated_tarballs : ∃ (digest : Str → Str) (fl : CleanFlags) (fs' : Fs) (q : Path),
    fl.srcOnly = true ∧ fl.repos = s%"CRAN" ∧ TreeFs toyTwoRepos ∧ AllNames toyTwoRepos_fileNames toyTwoRepos ∧
    cleanCacheFolders digest toyTwoRepos_fileNames (s%"/c") [] [] fl [some (s%"tgz")] toyTwoRepos = some fs' ∧
    ¬ ([s%"c", s%"CRAN"] <+: q) ∧ toyTwoRepos q = some (.file []) ∧ fs' q = none := by
  obtain ⟨fs', h, hq⟩ := C72_exact_partial (fun _ => s%"abc") toyTwoRepos_fileNames (s%"/c") [] [] { srcOnly := true, repos := s%"CRAN" } [some (s%"tgz")] toyTwoRepos
    toyTwoRepos_tree toyTwoRepos_names (by decide) (by decide)
  refine ⟨fun _ => s%"abc", { srcOnly := true, repos := s%"CRAN" }, fs', [s%"c", s%"abc", s%"f"], rfl, rfl, toyTwoRepos_tree, toyTwoRepos_names, h,
    by decide, by decide, ?_⟩
  exact (hq _).1 (Or.inr (Or.inr ⟨s%"tgz", by simp, by decide⟩))

/-! ### C73 -/

theorem removeFile_eq (fs : Fs) (p q : Path) : (fs.removeFile p) q = if q = p ∧ fs.isDir p = false then none else fs q := by
  unfold Fs.removeFile Fs.isDir
  cases h : fs p with
  | none =>
    simp only
    split
    · rename_i h'; rw [h'.1, h]
    · rfl
  | some n =>
    cases n with
    | dir => simp
    | file c => simp

theorem removeDb_fold (file : RepoDb → Path) (name : Str) (dbs : List RepoDb) (fs : Fs) (q : Path) (hnd : fs.isDir q = false) :
    ((dbs.foldl (removeDb file name) fs).isDir q = false) ∧
    ((∃ db ∈ dbs, db.repo.name = name ∧ file db = q) → dbs.foldl (removeDb file name) fs q = none) ∧
    ((¬ ∃ db ∈ dbs, db.repo.name = name ∧ file db = q) → dbs.foldl (removeDb file name) fs q = fs q) := by
  induction dbs generalizing fs with
  | nil => exact ⟨hnd, by simp, by simp⟩
  | cons d dbs ih =>
    rw [List.foldl_cons]
    have hstep : removeDb file name fs d q = if d.repo.name = name ∧ file d = q then none else fs q := by
      unfold removeDb
      by_cases hn : d.repo.name = name
      · rw [if_pos hn, removeFile_eq]
        by_cases hf : file d = q
        · subst hf
          simp [hn, hnd]
        · rw [if_neg (fun h => hf h.1.symm), if_neg (fun h => hf h.2)]
      · rw [if_neg hn, if_neg (fun h => hn h.1)]
    have hnd' : (removeDb file name fs d).isDir q = false := by
      unfold Fs.isDir at hnd ⊢
      rw [hstep]
      split
      · simp
      · exact hnd
    obtain ⟨i1, i2, i3⟩ := ih _ hnd'
    refine ⟨i1, ?_, ?_⟩
    · rintro ⟨db, hm, hn, hf⟩
      by_cases h : ∃ db ∈ dbs, db.repo.name = name ∧ file db = q
      · exact i2 h
      · rw [i3 h, hstep]
        rcases List.mem_cons.1 hm with e | hm
        · subst e; rw [if_pos ⟨hn, hf⟩]
        · exact absurd ⟨db, hm, hn, hf⟩ h
    · intro h
      rw [i3 (fun ⟨db, hm, h'⟩ => h ⟨db, by simp [hm], h'⟩), hstep, if_neg (fun h' => h ⟨d, by simp, h'⟩)]

/-- C73. Cleaning the package databases removes exactly the database files of the selected repositories: a file is gone
if and only if it is the database file of a repository whose name was given (or of any one, for `ALL`). -/
theorem C73_exact (file : RepoDb → Path) (arg : Str) (repos : List Str) (dbs : List RepoDb) (fs : Fs) (q : Path)
    (hnd : fs.isDir q = false) (hcfg : ∀ db ∈ dbs, db.repo.name ∈ repos) :
    ((∃ db ∈ dbs, SelectsRepo arg db.repo.name ∧ file db = q) → removePackageDatabases file (dbNames arg repos) dbs fs q = none) ∧
    ((¬ ∃ db ∈ dbs, SelectsRepo arg db.repo.name ∧ file db = q) → removePackageDatabases file (dbNames arg repos) dbs fs q = fs q) := by
  have hfold : ∀ (names : List Str) (fs : Fs), fs.isDir q = false →
      ((∃ db ∈ dbs, db.repo.name ∈ names ∧ file db = q) → removePackageDatabases file names dbs fs q = none) ∧
      ((¬ ∃ db ∈ dbs, db.repo.name ∈ names ∧ file db = q) → removePackageDatabases file names dbs fs q = fs q) := by
    intro names
    induction names with
    | nil => intro fs _; exact ⟨by simp, fun _ => rfl⟩
    | cons n names ih =>
      intro fs hnd
      obtain ⟨s1, s2, s3⟩ := removeDb_fold file n dbs fs q hnd
      have hih := ih (removeDbs file dbs fs n) s1
      have hun : removePackageDatabases file (n :: names) dbs fs = removePackageDatabases file names dbs (removeDbs file dbs fs n) := rfl
      rw [hun]
      refine ⟨?_, ?_⟩
      · rintro ⟨db, hm, hn, hf⟩
        by_cases h : ∃ db ∈ dbs, db.repo.name ∈ names ∧ file db = q
        · exact hih.1 h
        · rw [hih.2 h]
          rcases List.mem_cons.1 hn with e | hn
          · exact s2 ⟨db, hm, e, hf⟩
          · exact absurd ⟨db, hm, hn, hf⟩ h
      · intro h
        rw [hih.2 (fun ⟨db, hm, hn, hf⟩ => h ⟨db, hm, by simp [hn], hf⟩)]
        exact s3 (fun ⟨db, hm, hn, hf⟩ => h ⟨db, hm, by simp [hn], hf⟩)
  have hsel : ∀ db ∈ dbs, (SelectsRepo arg db.repo.name ↔ db.repo.name ∈ dbNames arg repos) := by
    intro db hm
    unfold SelectsRepo dbNames
    rw [commaItem_iff]
    by_cases h : arg = s%"ALL"
    · simp [h, hcfg db hm]
    · simp [h]
  have := hfold (dbNames arg repos) fs hnd
  constructor
  · rintro ⟨db, hm, hs, hf⟩
    exact this.1 ⟨db, hm, (hsel db hm).1 hs, hf⟩
  · intro h
    exact this.2 fun ⟨db, hm, hs, hf⟩ => h ⟨db, hm, (hsel db hm).2 hs, hf⟩

example : let a : RepoDb := { repo := { name := s%"CRAN" } }
    let b : RepoDb := { repo := { name := s%"MPN" } }
    let file := fun d : RepoDb => [s%"db", d.repo.name]
    let fs : Fs := fun q => if q = [s%"db"] then some .dir else some (.file [])
    removePackageDatabases file (dbNames (s%"MPN,x") [s%"CRAN", s%"MPN"]) [a, b] fs [s%"db", s%"MPN"] = none ∧
    removePackageDatabases file (dbNames (s%"MPN,x") [s%"CRAN", s%"MPN"]) [a, b] fs [s%"db", s%"CRAN"] = some (.file []) := by decide

/-! ### C74 -/

/-- C74 fails: with no cache configured, tarballs are unpacked into the default cache directory, but the cleanup looks into
the working directory, leaves the unpacked tarball, and removes a directory of that name in the project if there is one. -/
theorem C74_violated : ∃ (digest : Str → Str) (cwd base : Path) (t : Tarball) (fs : Fs) (p : Path),
    (untar digest [s%"R6"] fs (userCache [] cwd base) t).2 = .folder p ∧
    (∀ q, userCache [] cwd base ++ [digest t.bytes] <+: q →
      cleanTarball digest [] cwd (lastState fs (untar digest [s%"R6"] fs (userCache [] cwd base) t).1) (some t.bytes) q =
        lastState fs (untar digest [s%"R6"] fs (userCache [] cwd base) t).1 q) ∧
    fs (cwd ++ [digest t.bytes]) = some .dir ∧ cleanTarball digest [] cwd fs (some t.bytes) (cwd ++ [digest t.bytes]) = none := by
  refine ⟨fun _ => s%"abc", [s%"proj"], [s%"home", s%".cache"], ⟨s%"tgz", [(⟨s%"R6/DESCRIPTION", .regular []⟩, .ok)], true⟩,
    fun q => if q = [] ∨ q = [s%"proj"] ∨ q = [s%"proj", s%"abc"] then some .dir else none, _, rfl, ?_, by decide, by decide⟩
  intro q hq
  show (Fs.removeAll _ _) q = _
  unfold Fs.removeAll
  rw [if_neg]
  intro h
  have h1 : tarballDir [] [s%"proj"] (s%"abc") = [s%"proj", s%"abc"] := by decide
  have h2 : userCache [] [s%"proj"] [s%"home", s%".cache"] = [s%"home", s%".cache", s%"pkgr"] := by decide
  rw [h1] at h
  rw [h2] at hq
  obtain ⟨t, rfl⟩ := h
  obtain ⟨t', ht'⟩ := hq
  simp at ht'

/-- C74 (partial). With a configured cache directory the cleanup removes exactly the directory the tarball was unpacked to. -/
theorem C74_same_partial (digest : Str → Str) (cfgCache : Str) (cwd base : Path) (fs : Fs) (t : Tarball) (hcfg : cfgCache ≠ []) (q : Path) :
    cleanTarball digest cfgCache cwd fs (some t.bytes) q =
      if userCache cfgCache cwd base ++ [digest t.bytes] <+: q then none else fs q := by
  show (fs.removeAll (tarballDir cfgCache cwd (digest t.bytes))) q = _
  unfold Fs.removeAll tarballDir userCache
  rw [if_pos hcfg]

/-- A cache directory with an unpacked tarball. -/
def toyUnpacked : Fs := fun q => if q = [] ∨ q = [s%"cache"] ∨ q = [s%"cache", s%"abc"] then some .dir else none

example : cleanTarball (fun _ => s%"abc") (s%"/cache") [] toyUnpacked (some (s%"tgz")) [s%"cache", s%"abc"] = none ∧
    toyUnpacked [s%"cache", s%"abc"] = some .dir := by decide

end Pkgr
