/- C167 for the commands `pkgr add` and `pkgr remove`, and for histories of them. -/
import Verif.Props.Edited
import Verif.Props.ConfigFile

namespace Pkgr
open Spec

/-- The command of an edit (cmd/add.go, cmd/remove.go): the states after the first one, and the end. -/
def runEdit (yaml : Str → Option (List Str)) (file : Path) (e : Edit) (fs : Fs) : List Fs × CmdEnd :=
  match e with
  | .add new => rAdd yaml file new fs
  | .remove old => rRemove file old fs

/-- The commands one after the other; `none` if one of them does not end well. -/
def runEdits (yaml : Str → Option (List Str)) (file : Path) : List Edit → Fs → Option Fs
  | [], fs => some fs
  | e :: es, fs => if (runEdit yaml file e fs).2 = .ok then runEdits yaml file es (finalState fs (runEdit yaml file e fs).1) else none

/-- The file is as C167 wants it, and these packages are read from it. -/
def EditShape {γ : Type} (read : Str → Option (List Str × γ)) (A D : List Str) (t : Str) (n : Nat) (ps : List Str) (r : γ) (c : Str) : Prop :=
  ∃ items below, ListingOk n items below ∧ c = textOf (A ++ header t :: (listing n items below ++ D)) ∧ read c = some (ps, r)

theorem shape_names {γ : Type} {read : Str → Option (List Str × γ)} (hread : ReadsLists read) {A D : List Str} {t : Str} {n : Nat} {items : List Item}
    {below ps : List Str} {r : γ} (hA : AroundPackages A D) (ht : LineTail t) (hh : SimpleLine (header t)) (hok : ListingOk n items below)
    (hr : read (textOf (A ++ header t :: (listing n items below ++ D))) = some (ps, r)) : ps = items.map Item.name :=
  (hread.exchange A D t n n items items below below ps r hA ht hh hok hok hr).1

theorem shape_add {γ : Type} {read : Str → Option (List Str × γ)} (hread : ReadsLists read) {A D : List Str} {t : Str} {n : Nat} {ps : List Str} {r : γ} {c : Str}
    (hA : AroundPackages A D) (ht : LineTail t) (hh : SimpleLine (header t)) (h : EditShape read A D t n ps r c) (new : List Str)
    (hf : (Edit.add new).Fine n (A ++ D) ps) :
    ∃ c', addPackages (fun c => (read c).map Prod.fst) c new = .written c' ∧ EditShape read A D t n ((Edit.add new).listed ps) r c' := by
  obtain ⟨items, below, hok, rfl, hr⟩ := h
  obtain ⟨_, hne, hp⟩ := hf
  cases items with
  | nil => exact absurd (shape_names hread hA ht hh hok hr) hne
  | cons i items =>
    obtain ⟨c', h1, h2⟩ := C167_added_partial read hread A D t n i items below new ps r hA ht hh hok hp hr
    refine ⟨c', h1, (new.filter fun p => !ps.contains p).map newItem ++ i :: items, below, ?_, ?_, h2⟩
    · refine ⟨?_, hok.2⟩
      intro j hj
      rcases List.mem_append.1 hj with hj | hj
      · obtain ⟨p, hp', rfl⟩ := List.mem_map.1 hj
        obtain ⟨k1, k2⟩ := hp p (List.mem_filter.1 hp').1
        exact ⟨by simp [newItem], k1, .inl rfl, by simpa [newItem] using k2⟩
      · exact hok.1 j hj
    · rw [added_text read A D t n i items below new ps r hA hh hok hr] at h1
      cases h1
      rfl

theorem shape_remove {γ : Type} {read : Str → Option (List Str × γ)} (hread : ReadsLists read) {A D : List Str} {t : Str} {n : Nat} {ps : List Str} {r : γ} {c : Str}
    (hA : AroundPackages A D) (ht : LineTail t) (hh : SimpleLine (header t)) (h : EditShape read A D t n ps r c) (p : Str) (hp : NameText p)
    (hother : ∀ x ∈ ps, p <+: x → x = p) (hout : ∀ l ∈ A ++ D, ¬ BeginsAs p l) :
    EditShape read A D t n (ps.filter fun x => decide (x ≠ p)) r (removePackage c p) := by
  classical
  obtain ⟨items, below, hok, rfl, hr⟩ := h
  exact ⟨_, _, without_ok (by simp) hok, removed_text A D t n items below p hA hh hok hp hout,
    C167_removed_partial read hread A D t n items below p ps r hA ht hh hok hp hout hother hr⟩

theorem final_append (fs : Fs) (file : Path) (c : Str) (l : List Fs) :
    finalState fs (writeStates fs file c ++ l) = finalState (fs.set file (.file c)) l := by
  cases l with
  | nil => rw [List.append_nil, writeStates_last]; rfl
  | cons a l => unfold finalState; rw [List.getLast?_append]; cases h : (a :: l).getLast? with
    | none => simp at h
    | some x => rfl

theorem shape_removeArgs {γ : Type} {read : Str → Option (List Str × γ)} (hread : ReadsLists read) {A D : List Str} {t : Str} {n : Nat} {r : γ} {file : Path}
    (hA : AroundPackages A D) (ht : LineTail t) (hh : SimpleLine (header t)) (old : List Str) (ps : List Str) (fs : Fs) (c : Str) (hfs : fs file = some (.file c))
    (h : EditShape read A D t n ps r c) (hf : ∀ p ∈ old, NameText p ∧ (∀ x ∈ ps, p <+: x → x = p) ∧ ∀ l ∈ A ++ D, ¬ BeginsAs p l) :
    ∃ c', (removeArgs file old fs).2 = .ok ∧ finalState fs (removeArgs file old fs).1 = fs.set file (.file c') ∧
      EditShape read A D t n (ps.filter fun p => !old.contains p) r c' := by
  induction old generalizing ps fs c with
  | nil => 
    refine ⟨c, rfl, ?_, ?_⟩
    · funext q
      unfold Fs.set
      by_cases hq : q = file
      · rw [if_pos hq, hq]; exact hfs
      · rw [if_neg hq]; rfl
    · rw [List.filter_eq_self.2 (by simp)]; exact h
  | cons a old ih =>
    obtain ⟨h1, h2, h3⟩ := hf a (by simp)
    have hs := shape_remove hread hA ht hh h a h1 h2 h3
    obtain ⟨c', k1, k2, k3⟩ := ih (ps.filter fun x => decide (x ≠ a)) (fs.set file (.file (removePackage c a))) (removePackage c a) (by simp [Fs.set]) hs
      (fun p hp => ⟨(hf p (by simp [hp])).1, fun x hx => (hf p (by simp [hp])).2.1 x (List.mem_filter.1 hx).1, (hf p (by simp [hp])).2.2⟩)
    refine ⟨c', ?_, ?_, ?_⟩
    · simp only [removeArgs, hfs]; exact k1
    · simp only [removeArgs, hfs]; rw [final_append, k2]
      funext q
      unfold Fs.set
      by_cases hq : q = file
      · rw [if_pos hq, if_pos hq]
      · rw [if_neg hq, if_neg hq, if_neg hq]
    · have : (ps.filter fun p => !(a :: old).contains p) = ((ps.filter fun x => decide (x ≠ a)).filter fun p => !old.contains p) := by
        rw [List.filter_filter]
        refine List.filter_congr fun x _ => ?_
        by_cases hx : x = a <;> simp [hx]
      rw [this]
      exact k3

/-- C167 for histories: after any sequence of the commands `add` and `remove`, all of which are fine for what is listed by then, all have ended well, no other file has
changed, and the configuration is read as listing exactly the packages that should be listed, in order, with everything else as it was read before the first of
them. Missing: what `Edit.Fine` excludes (C62, C167_violated). -/
theorem C167_history_partial {γ : Type} (read : Str → Option (List Str × γ)) (hread : ReadsLists read) (A D : List Str) (t : Str) (n : Nat) (items : List Item)
    (below : List Str) (ps : List Str) (r : γ) (file : Path) (fs : Fs) (es : List Edit)
    (hA : AroundPackages A D) (ht : LineTail t) (hh : SimpleLine (header t)) (hok : ListingOk n items below)
    (hfs : fs file = some (.file (textOf (A ++ header t :: (listing n items below ++ D)))))
    (hr : read (textOf (A ++ header t :: (listing n items below ++ D))) = some (ps, r)) (hf : AllFine n (A ++ D) ps es) :
    ∃ fs' c', runEdits (fun c => (read c).map Prod.fst) file es fs = some fs' ∧ fs' file = some (.file c') ∧ (∀ q, q ≠ file → fs' q = fs q) ∧
      read c' = some (es.foldl Edit.listed ps, r) := by
  have hs : EditShape read A D t n ps r (textOf (A ++ header t :: (listing n items below ++ D))) := ⟨items, below, hok, rfl, hr⟩
  revert hfs hs
  generalize textOf (A ++ header t :: (listing n items below ++ D)) = c
  clear hr
  intro hfs hs
  induction es generalizing ps fs c with
  | nil => obtain ⟨_, _, _, _, hr⟩ := hs; exact ⟨fs, c, rfl, hfs, fun _ _ => rfl, hr⟩
  | cons e es ih =>
    obtain ⟨h1, h2⟩ := hf
    have hstep : ∃ R c', runEdit (fun c => (read c).map Prod.fst) file e fs = R ∧ R.2 = .ok ∧
        finalState fs R.1 = fs.set file (.file c') ∧ EditShape read A D t n (e.listed ps) r c' := by
      cases e with
      | add new =>
        obtain ⟨c', k1, k2⟩ := shape_add hread hA ht hh hs new h1
        refine ⟨_, c', rfl, ?_, ?_, k2⟩
        · simp only [runEdit, rAdd, if_neg h1.1, hfs, k1]
        · simp only [runEdit, rAdd, if_neg h1.1, hfs, k1]; exact writeStates_last _ _ _ _
      | remove old =>
        obtain ⟨c', k1, k2, k3⟩ := shape_removeArgs hread hA ht hh old ps fs c hfs hs h1.2
        refine ⟨_, c', rfl, ?_, ?_, k3⟩
        · simp only [runEdit, rRemove, if_neg h1.1]; exact k1
        · simp only [runEdit, rRemove, if_neg h1.1]; exact k2
    obtain ⟨R, c', k1, k2, k3, k4⟩ := hstep
    obtain ⟨fs', c'', j1, j2, j3, j4⟩ := ih (e.listed ps) (fs.set file (.file c')) h2 c' (by simp [Fs.set]) k4
    refine ⟨fs', c'', ?_, j2, ?_, j4⟩
    · rw [runEdits, k1, if_pos k2, k3]; exact j1
    · intro q hq
      rw [j3 q hq]
      unfold Fs.set
      rw [if_neg hq]

/-- C167: adding packages and removing them again leaves the configuration read as it was. -/
theorem C167_undone_partial {γ : Type} (read : Str → Option (List Str × γ)) (hread : ReadsLists read) (A D : List Str) (t : Str) (n : Nat) (items : List Item)
    (below : List Str) (ps : List Str) (r : γ) (file : Path) (fs : Fs) (new : List Str)
    (hA : AroundPackages A D) (ht : LineTail t) (hh : SimpleLine (header t)) (hok : ListingOk n items below)
    (hfs : fs file = some (.file (textOf (A ++ header t :: (listing n items below ++ D)))))
    (hr : read (textOf (A ++ header t :: (listing n items below ++ D))) = some (ps, r)) (hne : ps ≠ []) (hnew : new ≠ [])
    (hp : ∀ p ∈ new, NameText p ∧ SimpleLine (entry n p) ∧ p ∉ ps ∧ (∀ x ∈ new ++ ps, p <+: x → x = p) ∧ ∀ l ∈ A ++ D, ¬ BeginsAs p l) :
    ∃ fs' c', runEdits (fun c => (read c).map Prod.fst) file [.add new, .remove new] fs = some fs' ∧ fs' file = some (.file c') ∧ read c' = some (ps, r) := by
  have hl : (Edit.add new).listed ps = new ++ ps := by
    have : (new.filter fun p => !ps.contains p) = new := List.filter_eq_self.2 fun p h => by simpa using (hp p h).2.2.1
    simp only [Edit.listed, this]
  obtain ⟨fs', c', h1, h2, _, h4⟩ := C167_history_partial read hread A D t n items below ps r file fs [.add new, .remove new] hA ht hh hok hfs hr
    ⟨⟨hnew, hne, fun p h => ⟨(hp p h).1, (hp p h).2.1⟩⟩, ⟨hnew, fun p h => ⟨(hp p h).1, by rw [hl]; exact (hp p h).2.2.2.1, (hp p h).2.2.2.2⟩⟩, trivial⟩
  refine ⟨fs', c', h1, h2, ?_⟩
  rw [h4]
  congr 2
  simp only [List.foldl_cons, List.foldl_nil]
  rw [hl]
  simp only [Edit.listed]
  rw [List.filter_append, List.filter_eq_nil_iff.2 (by intro a ha; simp [ha]), List.nil_append]
  refine List.filter_eq_self.2 fun x hx => ?_
  have : x ∉ new := fun h => (hp x h).2.2.1 hx
  simpa using this

/-- C116 and C167: with `add --install`, the file that is read again for the installation lists all given packages, and all that were listed before. -/
theorem C116_installs_added_partial {γ : Type} (read : Str → Option (List Str × γ)) (hread : ReadsLists read) (A D : List Str) (t : Str) (n : Nat) (items : List Item)
    (below : List Str) (ps : List Str) (r : γ) (home : Option Str) (cwd : Path) (config : Str) (fs : Fs) (new : List Str)
    (hA : AroundPackages A D) (ht : LineTail t) (hh : SimpleLine (header t)) (hok : ListingOk n items below)
    (hfs : fs (editedFile home cwd config) = some (.file (textOf (A ++ header t :: (listing n items below ++ D)))))
    (hr : read (textOf (A ++ header t :: (listing n items below ++ D))) = some (ps, r)) (hne : ps ≠ []) (hnew : new ≠ [])
    (hp : ∀ p ∈ new, NameText p ∧ SimpleLine (entry n p)) :
    ∃ c' ps', (rAdd (fun c => (read c).map Prod.fst) (editedFile home cwd config) new fs).2 = .ok ∧
      finalState fs (rAdd (fun c => (read c).map Prod.fst) (editedFile home cwd config) new fs).1 (rereadFile home cwd config) = some (.file c') ∧
      read c' = some (ps', r) ∧ ∀ p, p ∈ ps' ↔ p ∈ new ∨ p ∈ ps := by
  obtain ⟨fs', c', h1, h2, _, h4⟩ := C167_history_partial read hread A D t n items below ps r (editedFile home cwd config) fs [.add new] hA ht hh hok hfs hr
    ⟨⟨hnew, hne, hp⟩, trivial⟩
  rw [runEdits] at h1
  by_cases hk : (runEdit (fun c => (read c).map Prod.fst) (editedFile home cwd config) (.add new) fs).2 = .ok
  · rw [if_pos hk, runEdits] at h1
    refine ⟨c', _, hk, ?_, h4, ?_⟩
    · rw [C116_install_reads_edited, ← h2]
      exact congrArg (fun f : Fs => f (editedFile home cwd config)) (Option.some.inj h1)
    · intro p
      by_cases h : p ∈ ps <;> simp [Edit.listed, h]
  · rw [if_neg hk] at h1
    cases h1

theorem rd_fine : AllFine 2 ([s%"Version: 1"] ++ [s%"Repos:", s%"  - CRAN: https://cran"]) [s%"data", s%"data.table", s%"R6"]
      [.add [s%"glue", s%"R6"], .remove [s%"R6", s%"data.table"], .add [s%"rlang"]] ∧
    [Edit.add [s%"glue", s%"R6"], .remove [s%"R6", s%"data.table"], .add [s%"rlang"]].foldl Edit.listed [s%"data", s%"data.table", s%"R6"] =
      [s%"rlang", s%"glue", s%"data"] := by
  have h : ∀ p ∈ [s%"R6", s%"data.table"], ∀ l ∈ [s%"Version: 1"] ++ [s%"Repos:", s%"  - CRAN: https://cran"], dropsLine p l = false := by decide
  have hout : ∀ p ∈ [s%"R6", s%"data.table"], ∀ l ∈ [s%"Version: 1"] ++ [s%"Repos:", s%"  - CRAN: https://cran"], ¬ BeginsAs p l := by
    intro p hp l hl hb
    have := (drops_iff p l).2 hb
    rw [h p hp l hl] at this
    cases this
  refine ⟨⟨⟨by simp, by simp, ?_⟩, ⟨by simp, ?_⟩, ⟨by simp, by decide, ?_⟩, trivial⟩, by decide +kernel⟩
  · intro p hp
    simp only [List.mem_cons, List.not_mem_nil, or_false] at hp
    rcases hp with rfl | rfl
    · exact ⟨rd_name _ 'g' rfl (by decide) (by decide) (by decide), by decide⟩
    · exact ⟨rd_name _ 'R' rfl (by decide) (by decide) (by decide), by decide⟩
  · intro p hp
    refine ⟨?_, ?_, hout p hp⟩
    · simp only [List.mem_cons, List.not_mem_nil, or_false] at hp
      rcases hp with rfl | rfl
      · exact rd_name _ 'R' rfl (by decide) (by decide) (by decide)
      · exact rd_name _ 'd' rfl (by decide) (by decide) (by decide)
    · have h : ∀ p ∈ [s%"R6", s%"data.table"], ∀ x ∈ (Edit.add [s%"glue", s%"R6"]).listed [s%"data", s%"data.table", s%"R6"], p <+: x → x = p := by decide +kernel
      exact h p hp
  · intro p hp
    rw [List.mem_singleton.1 hp]
    exact ⟨rd_name _ 'r' rfl (by decide) (by decide) (by decide), by decide⟩

/-- Non-vacuity of `C167_history_partial`: three commands on the file of the examples of C167. -/
example : ∃ fs' c', runEdits (fun c => (rdRead c).map Prod.fst) [s%"p", s%"pkgr.yml"] [.add [s%"glue", s%"R6"], .remove [s%"R6", s%"data.table"], .add [s%"rlang"]]
      (fun q => if q = [s%"p", s%"pkgr.yml"] then some (.file rdText) else none) = some fs' ∧ fs' [s%"p", s%"pkgr.yml"] = some (.file c') ∧
    rdRead c' = some ([s%"rlang", s%"glue", s%"data"], [s%"Version: 1", s%"Repos:", s%"  - CRAN: https://cran"]) := by
  have ht : rdText = textOf ([s%"Version: 1"] ++ header (s%" # all") :: (listing 2 rdItems [[]] ++ [s%"Repos:", s%"  - CRAN: https://cran"])) := by decide +kernel
  obtain ⟨fs', c', h1, h2, _, h4⟩ := C167_history_partial rdRead rdRead_reads [s%"Version: 1"] [s%"Repos:", s%"  - CRAN: https://cran"] (s%" # all") 2 rdItems [[]]
    [s%"data", s%"data.table", s%"R6"] [s%"Version: 1", s%"Repos:", s%"  - CRAN: https://cran"] [s%"p", s%"pkgr.yml"]
    (fun q => if q = [s%"p", s%"pkgr.yml"] then some (.file rdText) else none) _ rd_around (.inr ⟨0, s%" all", rfl⟩) (by decide) rd_ok (by rw [if_pos rfl, ht]) (by rw [← ht]; decide +kernel)
    rd_fine.1
  exact ⟨fs', c', h1, h2, h4⟩

/-- Non-vacuity of `C167_undone_partial` and `C116_installs_added_partial`: `glue` can be added there and removed again. -/
example : NameText (s%"glue") ∧ SimpleLine (entry 2 (s%"glue")) ∧ s%"glue" ∉ [s%"data", s%"data.table", s%"R6"] ∧
    (∀ x ∈ [s%"glue"] ++ [s%"data", s%"data.table", s%"R6"], s%"glue" <+: x → x = s%"glue") ∧
    (∀ l ∈ [s%"Version: 1"] ++ [s%"Repos:", s%"  - CRAN: https://cran"], dropsLine (s%"glue") l = false) ∧
    editedFile none [s%"p"] [] = [s%"p", s%"pkgr.yml"] ∧ rereadFile none [s%"p"] [] = [s%"p", s%"pkgr.yml"] :=
  ⟨rd_name _ 'g' rfl (by decide) (by decide) (by decide), by decide, by decide, by decide, by decide, by decide +kernel, by decide +kernel⟩

end Pkgr
