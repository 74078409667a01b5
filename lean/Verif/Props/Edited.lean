/- C167: what is read in a file that `add` or `remove` have edited. -/
import Verif.Spec.Edited
import Verif.Props.Config

namespace Pkgr
open Spec

theorem remark_not_header {l : Str} (h : RemarkLine l) : ¬ IsHeader l := by
  obtain ⟨_, k, rest, rfl, hr⟩ := h
  rintro ⟨t, ht⟩
  cases k with
  | zero =>
    rcases hr with rfl | hr
    · simp [spaces] at ht
    · cases rest with
      | nil => cases hr
      | cons c r => simp at hr; subst hr; simp [spaces] at ht
  | succ k => simp [spaces, List.replicate_succ] at ht

theorem remark_not_dashed {l : Str} (h : RemarkLine l) : ¬ Dashed l := by
  obtain ⟨_, k, rest, rfl, hr⟩ := h
  rintro ⟨ws, r, hw, he⟩
  have hd : '-' ∈ spaces k ++ rest → False := by
    intro _
    -- the first character that is no blank
    have key : ∀ (k : Nat) (ws : Str), (∀ c ∈ ws, White c) → spaces k ++ rest = ws ++ '-' :: r → False := by
      intro k
      induction k with
      | zero =>
        intro ws hw he
        simp only [spaces, List.replicate_zero, List.nil_append] at he
        rcases hr with rfl | hr
        · cases ws <;> cases he
        · cases ws with
          | nil => rw [he] at hr; simp at hr
          | cons c cs =>
            rw [he] at hr
            simp at hr
            subst hr
            exact absurd (hw '#' (by simp)) (by decide)
      | succ k ih =>
        intro ws hw he
        cases ws with
        | nil => simp [spaces, List.replicate_succ] at he
        | cons c cs =>
          simp only [spaces, List.replicate_succ, List.cons_append, List.cons.injEq] at he
          exact ih cs (fun c hc => hw c (by simp [hc])) he.2
    exact key k ws hw he
  exact hd (by rw [he]; simp)

theorem remark_not_begins {l p : Str} (h : RemarkLine l) : ¬ BeginsAs p l := by
  rintro ⟨n, rest, rfl⟩
  refine remark_not_dashed h ?_
  have := spaces_dashed n (' ' :: p ++ rest)
  simpa [entry] using this

theorem entry_not_header (n : Nat) (x : Str) : ¬ IsHeader (entry n x) := by
  rintro ⟨t, ht⟩
  cases n <;> simp [entry, spaces, List.replicate_succ] at ht

theorem item_not_header {n : Nat} {i : Item} (h : i.Ok n) : ∀ l ∈ i.lines n, ¬ IsHeader l := by
  intro l hl
  rcases List.mem_append.1 hl with hl | hl
  · exact remark_not_header (h.1 l hl)
  · rw [List.mem_singleton.1 hl]
    have := entry_not_header n (i.name ++ i.tail)
    simpa [entry, List.append_assoc] using this

theorem item_simple {n : Nat} {i : Item} (h : i.Ok n) : ∀ l ∈ i.lines n, SimpleLine l := by
  intro l hl
  rcases List.mem_append.1 hl with hl | hl
  · exact (h.1 l hl).1
  · rw [List.mem_singleton.1 hl]; exact h.2.2.2

theorem listing_mem {n : Nat} {items : List Item} {below : List Str} {l : Str} (h : l ∈ listing n items below) :
    (∃ i ∈ items, l ∈ i.lines n) ∨ l ∈ below := by
  rcases List.mem_append.1 h with h | h
  · exact .inl (List.mem_flatMap.1 h)
  · exact .inr h

theorem around_not_header {A D : List Str} (h : AroundPackages A D) : ∀ l ∈ A ++ D, ¬ IsHeader l := by
  intro l hl
  rintro ⟨t, rfl⟩
  exact (h.1 _ hl).2 ⟨':' :: t.map Char.toLower, by rw [List.map_append]; rfl⟩

/-- A package that is not listed yet, as an entry. -/
def newItem (p : Str) : Item := { name := p }

theorem newItem_lines (n : Nat) (ps : List Str) : (ps.map newItem).flatMap (Item.lines n) = ps.map (entry n) := by
  induction ps with
  | nil => rfl
  | cons p ps ih => simp only [List.map_cons, List.flatMap_cons, ih]; simp [Item.lines, newItem]

theorem names_of_new (ps : List Str) : (ps.map newItem).map Item.name = ps := by
  rw [List.map_map]
  conv => rhs; rw [← List.map_id ps]
  rfl

theorem added_text {γ : Type} (read : Str → Option (List Str × γ)) (A D : List Str) (t : Str) (n : Nat) (i : Item) (items : List Item)
    (below : List Str) (pkgs ps : List Str) (r : γ) (hA : AroundPackages A D) (hh : SimpleLine (header t)) (hok : ListingOk n (i :: items) below)
    (hr : read (textOf (A ++ header t :: (listing n (i :: items) below ++ D))) = some (ps, r)) :
    addPackages (fun c => (read c).map Prod.fst) (textOf (A ++ header t :: (listing n (i :: items) below ++ D))) pkgs =
      .written (textOf (A ++ header t :: (listing n ((pkgs.filter fun p => !ps.contains p).map newItem ++ i :: items) below ++ D))) := by
  have hi : i.Ok n := hok.1 i (by simp)
  have hsplit : listing n (i :: items) below ++ D =
      i.above ++ (spaces n ++ '-' :: (' ' :: i.name ++ i.tail)) :: (items.flatMap (Item.lines n) ++ below ++ D) := by
    simp [listing, Item.lines, entry]
  have hB : ∀ x ∈ listing n (i :: items) below ++ D, ¬ IsHeader x ∧ SimpleLine x := by
    intro x hx
    rcases List.mem_append.1 hx with hx | hx
    · rcases listing_mem hx with ⟨j, hj, hx⟩ | hx
      · exact ⟨item_not_header (hok.1 j hj) x hx, item_simple (hok.1 j hj) x hx⟩
      · exact ⟨remark_not_header (hok.2 x hx), (hok.2 x hx).1⟩
    · exact ⟨around_not_header hA x (by simp [hx]), (hA.1 x (by simp [hx])).1⟩
  have hadd := C58_inserts (fun c => (read c).map Prod.fst) A i.above (items.flatMap (Item.lines n) ++ below ++ D) (header t) n (' ' :: i.name ++ i.tail) pkgs ps
    (by
      rw [← hsplit]
      intro x hx
      rcases List.mem_append.1 hx with hx | hx
      · exact (hA.1 x (by simp [hx])).1.1
      · rcases List.mem_cons.1 hx with rfl | hx
        · exact hh.1
        · exact (hB x hx).2.1)
    ⟨t, rfl⟩ (by rw [← hsplit]; exact fun x hx => (hB x hx).1) (fun x hx => remark_not_dashed (hi.1 x hx))
    (by rw [← hsplit, hr]; rfl)
  rw [← hsplit] at hadd
  have hlist : (pkgs.filter fun p => !ps.contains p).map (entry n) ++ (listing n (i :: items) below ++ D) =
      listing n ((pkgs.filter fun p => !ps.contains p).map newItem ++ i :: items) below ++ D := by
    simp only [listing, List.flatMap_append, newItem_lines, List.append_assoc]
  rw [hadd, ← hlist]

/-- C167, adding: if the file has a section `Packages` with an entry, then after `add` it is read as listing first the given packages that were not listed
before, then those that were, in the same order; and everything else in the configuration is read as before. Missing: an empty section (C62), packages
that are given twice (C58), lists in brackets (`C167_violated_brackets`). -/
theorem C167_added_partial {γ : Type} (read : Str → Option (List Str × γ)) (hread : ReadsLists read) (A D : List Str) (t : Str) (n : Nat) (i : Item) (items : List Item)
    (below : List Str) (pkgs ps : List Str) (r : γ) (hA : AroundPackages A D) (ht : LineTail t) (hh : SimpleLine (header t)) (hok : ListingOk n (i :: items) below)
    (hp : ∀ p ∈ pkgs, NameText p ∧ SimpleLine (entry n p))
    (hr : read (textOf (A ++ header t :: (listing n (i :: items) below ++ D))) = some (ps, r)) :
    ∃ new, addPackages (fun c => (read c).map Prod.fst) (textOf (A ++ header t :: (listing n (i :: items) below ++ D))) pkgs = .written new ∧
      read new = some ((pkgs.filter fun p => !ps.contains p) ++ ps, r) := by
  refine ⟨_, added_text read A D t n i items below pkgs ps r hA hh hok hr, ?_⟩
  obtain ⟨h1, h2⟩ := hread.exchange A D t n n (i :: items) ((pkgs.filter fun p => !ps.contains p).map newItem ++ i :: items) below below ps r hA ht hh hok
    ⟨by
      intro j hj
      rcases List.mem_append.1 hj with hj | hj
      · obtain ⟨p, hp', rfl⟩ := List.mem_map.1 hj
        obtain ⟨k1, k2⟩ := hp p (List.mem_filter.1 hp').1
        exact ⟨by simp [newItem], k1, .inl rfl, by simpa [newItem] using k2⟩
      · exact hok.1 j hj, hok.2⟩ hr
  rw [h2, List.map_append, names_of_new, ← h1]

/-- C167, adding to a file without a section `Packages`: it is read as listing the given packages, and everything else as before. -/
theorem C167_added_section_partial {γ : Type} (read : Str → Option (List Str × γ)) (hread : ReadsLists read) (A : List Str) (pkgs ps : List Str) (r : γ)
    (hA : AroundPackages A []) (hp : ∀ p ∈ pkgs, NameText p ∧ SimpleLine (entry 0 p)) (hr : read (textOf A) = some (ps, r)) :
    ps = [] ∧ ∃ new, addPackages (fun c => (read c).map Prod.fst) (textOf A) pkgs = .written new ∧ read new = some (pkgs, r) := by
  have hblank : RemarkLine [] := ⟨⟨by refine ⟨by simp, by simp, by decide⟩, by simp, by decide, by decide⟩, 0, [], rfl, .inl rfl⟩
  obtain ⟨h1, h2⟩ := hread.addition A [[]] 0 (pkgs.map newItem) ps r hA (by simpa using hblank)
    ⟨by
      intro j hj
      obtain ⟨p, hp', rfl⟩ := List.mem_map.1 hj
      obtain ⟨k1, k2⟩ := hp p hp'
      exact ⟨by simp [newItem], k1, .inl rfl, by simpa [newItem] using k2⟩, by simp⟩ hr
  subst h1
  refine ⟨rfl, _, C58_new_section (fun c => (read c).map Prod.fst) A pkgs [] (fun x hx => (hA.1 x (by simp [hx])).1.1)
    (fun x hx => around_not_header hA x (by simp [hx])) (by rw [hr]; rfl), ?_⟩
  have hf : (pkgs.filter fun p => !([] : List Str).contains p) = pkgs := by simp
  rw [hf]
  rw [names_of_new] at h2
  rw [← h2]
  have happ : ∀ a b : List Str, textOf a ++ textOf b = textOf (a ++ b) := by
    intro a b
    induction a with
    | nil => rfl
    | cons x a ih => simp [textOf, ih]
  rw [happ]
  simp [listing, newItem_lines, header]

/-- The comments above entries that are removed stay; the entries that stay, with the comments above them, and what is below. -/
def without (P : Str → Bool) : List Str → List Item → List Str → List Item × List Str
  | pending, [], below => ([], pending ++ below)
  | pending, i :: items, below =>
    if P i.name then without P (pending ++ i.above) items below
    else
      let r := without P [] items below
      ({ i with above := pending ++ i.above } :: r.1, r.2)

theorem without_names (P : Str → Bool) (pending : List Str) (items : List Item) (below : List Str) :
    (without P pending items below).1.map Item.name = (items.map Item.name).filter fun p => !P p := by
  induction items generalizing pending with
  | nil => rfl
  | cons i items ih =>
    unfold without
    by_cases h : P i.name = true
    · rw [if_pos h, ih]; simp [h]
    · rw [if_neg h]; simp [h, ih]

theorem without_ok {P : Str → Bool} {n : Nat} {pending : List Str} {items : List Item} {below : List Str} (hp : ∀ l ∈ pending, RemarkLine l) (h : ListingOk n items below) :
    ListingOk n (without P pending items below).1 (without P pending items below).2 := by
  induction items generalizing pending with
  | nil =>
    refine ⟨(fun i hi => by cases hi), ?_⟩
    intro l hl
    rcases List.mem_append.1 hl with hl | hl
    · exact hp l hl
    · exact h.2 l hl
  | cons i items ih =>
    have hi := h.1 i (by simp)
    have hrest : ListingOk n items below := ⟨fun j hj => h.1 j (by simp [hj]), h.2⟩
    unfold without
    by_cases hP : P i.name = true
    · rw [if_pos hP]
      refine ih ?_ hrest
      intro l hl
      rcases List.mem_append.1 hl with hl | hl
      · exact hp l hl
      · exact hi.1 l hl
    · rw [if_neg hP]
      dsimp only
      obtain ⟨k1, k2⟩ := ih (pending := []) (by simp) hrest
      refine ⟨?_, k2⟩
      intro j hj
      rcases List.mem_cons.1 hj with rfl | hj
      · refine ⟨?_, hi.2⟩
        intro l hl
        rcases List.mem_append.1 hl with hl | hl
        · exact hp l hl
        · exact hi.1 l hl
      · exact k1 j hj

open Classical in
theorem without_lines {p : Str} {n : Nat} {pending : List Str} {items : List Item} {below : List Str} (hp : ∀ l ∈ pending, RemarkLine l) (h : ListingOk n items below)
    (hb : ∀ i ∈ items, BeginsAs p (entry n i.name ++ i.tail) ↔ p <+: i.name) :
    listing n (without (fun x => decide (p <+: x)) pending items below).1 (without (fun x => decide (p <+: x)) pending items below).2 =
      pending ++ (listing n items below).filter fun l => decide (¬ BeginsAs p l) := by
  have hrem : ∀ (l : List Str), (∀ x ∈ l, RemarkLine x) → (l.filter fun l => decide (¬ BeginsAs p l)) = l := fun l hl =>
    List.filter_eq_self.2 fun x hx => decide_eq_true (remark_not_begins (hl x hx))
  induction items generalizing pending with
  | nil => simp only [without, listing, List.flatMap_nil, List.nil_append]; rw [hrem below h.2]
  | cons i items ih =>
    have hi := h.1 i (by simp)
    have hrest : ListingOk n items below := ⟨fun j hj => h.1 j (by simp [hj]), h.2⟩
    have hone : listing n (i :: items) below = i.above ++ (entry n i.name ++ i.tail) :: listing n items below := by simp [listing, Item.lines]
    rw [hone, List.filter_append, hrem i.above hi.1]
    unfold without
    by_cases hP : p <+: i.name
    · rw [if_pos (decide_eq_true hP), ih (fun l hl => (List.mem_append.1 hl).elim (hp l) (hi.1 l)) hrest (fun j hj => hb j (by simp [hj])),
        List.filter_cons_of_neg (by simpa using (hb i (by simp)).2 hP), List.append_assoc]
    · rw [if_neg (by simpa using hP), List.filter_cons_of_pos (by simpa using fun hc => hP ((hb i (by simp)).1 hc))]
      dsimp only
      have := ih (pending := []) (by simp) hrest (fun j hj => hb j (by simp [hj]))
      rw [List.nil_append] at this
      rw [← this]
      simp [listing, Item.lines]

theorem entry_inj {m n : Nat} {a b : Str} (h : entry m a = entry n b) : m = n ∧ a = b := by
  induction m generalizing n with
  | zero =>
    cases n with
    | zero => simpa [entry, spaces] using h
    | succ n => simp [entry, spaces, List.replicate_succ] at h
  | succ m ih =>
    cases n with
    | zero => simp [entry, spaces, List.replicate_succ] at h
    | succ n =>
      have : entry m a = entry n b := by
        simp only [entry, spaces, List.replicate_succ, List.cons_append, List.cons.injEq, true_and] at h
        simpa [entry, spaces] using h
      obtain ⟨h1, h2⟩ := ih this
      exact ⟨by rw [h1], h2⟩

theorem nameText_noBlank {p : Str} (h : NameText p) : ' ' ∉ p := fun hb => by
  rcases h.2.1 _ hb with h | h
  · revert h; decide
  · revert h; decide

theorem begins_iff {p : Str} {n : Nat} {i : Item} (hp : NameText p) (hi : i.Ok n) : BeginsAs p (entry n i.name ++ i.tail) ↔ p <+: i.name := by
  have hassoc : ∀ (m : Nat) (a b : Str), entry m a ++ b = entry m (a ++ b) := fun m a b => by simp [entry]
  constructor
  · rintro ⟨m, rest, h⟩
    rw [hassoc, hassoc] at h
    obtain ⟨_, h⟩ := entry_inj h
    rcases List.append_eq_append_iff.1 h with ⟨c, h1, h2⟩ | ⟨c, h1, _⟩
    · -- `p` goes beyond the name
      rcases hi.2.2.1 with ht | ⟨k, r, ht⟩
      · rw [ht] at h2
        obtain ⟨rfl, _⟩ := List.append_eq_nil_iff.1 h2.symm
        rw [List.append_nil] at h1
        rw [h1]
        exact List.prefix_refl _
      · cases c with
        | nil => rw [List.append_nil] at h1; rw [h1]; exact List.prefix_refl _
        | cons x c =>
          rw [ht] at h2
          simp only [List.cons_append, List.cons.injEq] at h2
          exact absurd (by rw [h1, ← h2.1]; simp) (nameText_noBlank hp)
    · exact ⟨c, h1.symm⟩
  · rintro ⟨c, h⟩
    exact ⟨n, c ++ i.tail, by rw [hassoc, hassoc, ← h, List.append_assoc]⟩

open Classical in
theorem removed_text (A D : List Str) (t : Str) (n : Nat) (items : List Item)
    (below : List Str) (p : Str) (hA : AroundPackages A D) (hh : SimpleLine (header t)) (hok : ListingOk n items below)
    (hp : NameText p) (hout : ∀ l ∈ A ++ D, ¬ BeginsAs p l) :
    removePackage (textOf (A ++ header t :: (listing n items below ++ D))) p =
      textOf (A ++ header t :: (listing n (without (fun x => decide (p <+: x)) [] items below).1 (without (fun x => decide (p <+: x)) [] items below).2 ++ D)) := by
  have hlines : ∀ l ∈ A ++ header t :: (listing n items below ++ D), SimpleLine l := by
    intro x hx
    rcases List.mem_append.1 hx with hx | hx
    · exact (hA.1 x (by simp [hx])).1
    rcases List.mem_cons.1 hx with rfl | hx
    · exact hh
    rcases List.mem_append.1 hx with hx | hx
    · rcases listing_mem hx with ⟨j, hj, hx⟩ | hx
      · exact item_simple (hok.1 j hj) x hx
      · exact (hok.2 x hx).1
    · exact (hA.1 x (by simp [hx])).1
  have hkeep : ∀ (l : List Str), (∀ x ∈ l, ¬ BeginsAs p x) → (l.filter fun l => decide (¬ BeginsAs p l)) = l := fun l hl =>
    List.filter_eq_self.2 fun x hx => decide_eq_true (hl x hx)
  have hhd : ¬ BeginsAs p (header t) := by
    rintro ⟨m, rest, h⟩
    cases m <;> simp [entry, spaces, header, List.replicate_succ] at h
  have := C60_exact_lines (A ++ header t :: (listing n items below ++ D)) p (fun l hl => (hlines l hl).1.1)
  rw [without_lines (by simp) hok (fun i hi => begins_iff hp (hok.1 i hi)), List.nil_append]
  have hf : (A ++ header t :: (listing n items below ++ D)).filter (fun l => decide (¬ BeginsAs p l)) =
      A ++ header t :: ((listing n items below).filter (fun l => decide (¬ BeginsAs p l)) ++ D) := by
    rw [List.filter_append, List.filter_cons_of_pos (by simpa using hhd), List.filter_append, hkeep A (fun x hx => hout x (by simp [hx])),
      hkeep D (fun x hx => hout x (by simp [hx]))]
  rw [this, ← hf]

open Classical in
/-- C167, removing, exactly: if nothing outside the section `Packages` begins like an entry for the package, then after `remove` the file is read as listing, in
the same order, the packages whose names do not begin with the given name; and everything else is read as before. -/
theorem C167_removed_exact_partial {γ : Type} (read : Str → Option (List Str × γ)) (hread : ReadsLists read) (A D : List Str) (t : Str) (n : Nat) (items : List Item)
    (below : List Str) (p : Str) (ps : List Str) (r : γ) (hA : AroundPackages A D) (ht : LineTail t) (hh : SimpleLine (header t)) (hok : ListingOk n items below)
    (hp : NameText p) (hout : ∀ l ∈ A ++ D, ¬ BeginsAs p l)
    (hr : read (textOf (A ++ header t :: (listing n items below ++ D))) = some (ps, r)) :
    read (removePackage (textOf (A ++ header t :: (listing n items below ++ D))) p) = some (ps.filter fun x => decide (¬ p <+: x), r) := by
  rw [removed_text A D t n items below p hA hh hok hp hout]
  obtain ⟨h1, h2⟩ := hread.exchange A D t n n items (without (fun x => decide (p <+: x)) [] items below).1 below (without (fun x => decide (p <+: x)) [] items below).2 ps r hA ht hh
    hok (without_ok (by simp) hok) hr
  rw [h2, without_names, ← h1]
  congr 2
  refine List.filter_congr fun x _ => ?_
  by_cases hx : p <+: x <;> simp [hx]

/-- C167, removing: if no other listed package's name begins with the given one, and nothing else in the file begins like an entry for it, then after `remove`
the file is read as listing the other packages, in the same order, and everything else is read as before. Missing: see `C167_violated`. -/
theorem C167_removed_partial {γ : Type} (read : Str → Option (List Str × γ)) (hread : ReadsLists read) (A D : List Str) (t : Str) (n : Nat) (items : List Item)
    (below : List Str) (p : Str) (ps : List Str) (r : γ) (hA : AroundPackages A D) (ht : LineTail t) (hh : SimpleLine (header t)) (hok : ListingOk n items below)
    (hp : NameText p) (hout : ∀ l ∈ A ++ D, ¬ BeginsAs p l) (hother : ∀ x ∈ ps, p <+: x → x = p)
    (hr : read (textOf (A ++ header t :: (listing n items below ++ D))) = some (ps, r)) :
    read (removePackage (textOf (A ++ header t :: (listing n items below ++ D))) p) = some (ps.filter fun x => decide (x ≠ p), r) := by
  classical
  rw [C167_removed_exact_partial read hread A D t n items below p ps r hA ht hh hok hp hout hr]
  congr 2
  refine List.filter_congr fun x hx => ?_
  by_cases h : x = p
  · subst h; simp
  · simp only [h, ne_eq, not_false_eq_true, decide_true]
    exact decide_eq_true fun hc => h (hother x hx hc)

/-- C167 is violated by names that begin alike: when `p` is removed, another package whose name begins with `p` is no longer listed either. -/
theorem C167_violated {γ : Type} (read : Str → Option (List Str × γ)) (hread : ReadsLists read) (A D : List Str) (t : Str) (n : Nat) (items : List Item)
    (below : List Str) (p q : Str) (ps : List Str) (r : γ) (hA : AroundPackages A D) (ht : LineTail t) (hh : SimpleLine (header t)) (hok : ListingOk n items below)
    (hp : NameText p) (hout : ∀ l ∈ A ++ D, ¬ BeginsAs p l) (_hq : q ∈ ps) (hpq : p <+: q) (_hne : q ≠ p)
    (hr : read (textOf (A ++ header t :: (listing n items below ++ D))) = some (ps, r)) :
    ∃ ps', read (removePackage (textOf (A ++ header t :: (listing n items below ++ D))) p) = some (ps', r) ∧ q ∉ ps' := by
  classical
  refine ⟨_, C167_removed_exact_partial read hread A D t n items below p ps r hA ht hh hok hp hout hr, ?_⟩
  intro h
  have := (List.mem_filter.1 h).2
  exact (of_decide_eq_true this) hpq

/-- C167 is violated by lists in brackets: when a package is added to a file with such a list of packages and with another list somewhere below, the file can
no longer be read at all. -/
theorem C167_violated_brackets {γ : Type} (read : Str → Option (List Str × γ)) (hrej : RejectsMixed read) (A C D : List Str) (names rest p : Str) (n : Nat)
    (ps : List Str) (r : γ) (hA : ∀ l ∈ A, SimpleLine l) (hnames : ∀ c ∈ names, c.isAlphanum = true ∨ c = '.' ∨ c = ' ' ∨ c = ',')
    (hplain : ∀ x ∈ (s%"Packages: [" ++ names ++ s%"]") :: (C ++ (spaces n ++ '-' :: rest) :: D), PlainLine x)
    (hB : ∀ x ∈ C ++ (spaces n ++ '-' :: rest) :: D, ¬ IsHeader x) (hC : ∀ x ∈ C, ¬ Dashed x) (hp : p ∉ ps) (hname : NameText p)
    (hr : read (textOf (A ++ (s%"Packages: [" ++ names ++ s%"]") :: (C ++ (spaces n ++ '-' :: rest) :: D))) = some (ps, r)) :
    ∃ new, addPackages (fun c => (read c).map Prod.fst) (textOf (A ++ (s%"Packages: [" ++ names ++ s%"]") :: (C ++ (spaces n ++ '-' :: rest) :: D))) [p] = .written new ∧
      read new = none := by
  refine ⟨_, C58_inserts (fun c => (read c).map Prod.fst) A C D (s%"Packages: [" ++ names ++ s%"]") n rest [p] ps ?_ ⟨s%" [" ++ names ++ s%"]", by simp⟩ hB hC (by rw [hr]; rfl), ?_⟩
  · intro x hx
    rcases List.mem_append.1 hx with hx | hx
    · exact (hA x hx).1
    · exact hplain x hx
  · have hf : ([p].filter fun p => !ps.contains p) = [p] := by simp [hp]
    rw [hf]
    exact hrej A _ names n p hA hnames (fun l hl => hplain l (List.mem_cons_of_mem _ (by simpa using hl))) hname

/-! ### A reader as it is supposed to be -/

def rdHeader (l : Str) : Bool := hasPrefix l (s%"Packages:")

def rdKey (l : Str) : Bool := match l with | [] => false | c :: _ => c.isAlpha

def rdRemark (l : Str) : Bool := match l.dropWhile (· = ' ') with | [] => true | c :: _ => c = '#'

def rdName (l : Str) : Option Str :=
  match l.dropWhile (· = ' ') with
  | '-' :: ' ' :: s => some (s.takeWhile (· ≠ ' '))
  | _ => none

/-- Reads the list of packages; the rest are the lines elsewhere that are not comments. -/
def rdRead (t : Str) : Option (List Str × List Str) :=
  let ls := (splitOn '\n' t).dropLast
  match ls.dropWhile fun l => !rdHeader l with
  | [] => some ([], ls.filter fun l => !rdRemark l)
  | _ :: rest =>
    some ((rest.takeWhile fun l => !rdKey l).filterMap rdName,
      ((ls.takeWhile fun l => !rdHeader l) ++ rest.dropWhile fun l => !rdKey l).filter fun l => !rdRemark l)

theorem dropBlanks (k : Nat) (s : Str) : (spaces k ++ s).dropWhile (· = ' ') = s.dropWhile (· = ' ') := by
  induction k with
  | zero => rfl
  | succ k ih => simp only [spaces, List.replicate_succ, List.cons_append]; rw [List.dropWhile_cons_of_pos (by simp)]; exact ih

theorem rd_remark {l : Str} (h : RemarkLine l) : rdRemark l = true ∧ rdKey l = false ∧ rdName l = none := by
  obtain ⟨_, k, rest, rfl, hr⟩ := h
  have hd : (spaces k ++ rest).dropWhile (· = ' ') = rest := by
    rw [dropBlanks]
    rcases hr with rfl | hr
    · rfl
    · cases rest with
      | nil => rfl
      | cons c r => simp at hr; subst hr; rfl
  refine ⟨?_, ?_, ?_⟩
  · unfold rdRemark
    rw [hd]
    rcases hr with rfl | hr
    · rfl
    · cases rest with
      | nil => rfl
      | cons c r => simpa using hr
  · cases k with
    | zero =>
      rcases hr with rfl | hr
      · rfl
      · cases rest with
        | nil => rfl
        | cons c r => simp at hr; subst hr; rfl
    | succ k => rfl
  · unfold rdName
    rw [hd]
    rcases hr with rfl | hr
    · rfl
    · cases rest with
      | nil => rfl
      | cons c r => simp at hr; subst hr; rfl

theorem rd_entry {n : Nat} {i : Item} (h : i.Ok n) : rdKey (entry n i.name ++ i.tail) = false ∧ rdName (entry n i.name ++ i.tail) = some i.name := by
  constructor
  · cases n <;> rfl
  · unfold rdName
    have h1 : entry n i.name ++ i.tail = spaces n ++ ('-' :: ' ' :: (i.name ++ i.tail)) := by simp [entry]
    rw [h1, dropBlanks]
    change some ((i.name ++ i.tail).takeWhile (· ≠ ' ')) = some i.name
    have hn : ∀ c ∈ i.name, decide (c ≠ ' ') = true := fun c hc => by
      refine decide_eq_true ?_
      rintro rfl
      exact nameText_noBlank h.2.1 hc
    rw [List.takeWhile_append_of_pos hn]
    rcases h.2.2.1 with ht | ⟨k, r, ht⟩
    · rw [ht]; simp
    · rw [ht]; simp

theorem rd_listing {n : Nat} {items : List Item} {below : List Str} (h : ListingOk n items below) :
    (∀ l ∈ listing n items below, rdKey l = false) ∧ (listing n items below).filterMap rdName = items.map Item.name := by
  have hrem : ∀ (l : List Str), (∀ x ∈ l, RemarkLine x) → l.filterMap rdName = [] := fun l hl => List.filterMap_eq_nil_iff.2 fun x hx => (rd_remark (hl x hx)).2.2
  constructor
  · intro l hl
    rcases listing_mem hl with ⟨i, hi, hl⟩ | hl
    · rcases List.mem_append.1 hl with hl | hl
      · exact (rd_remark ((h.1 i hi).1 l hl)).2.1
      · rw [List.mem_singleton.1 hl]; exact (rd_entry (h.1 i hi)).1
    · exact (rd_remark (h.2 l hl)).2.1
  · induction items with
    | nil => exact hrem below h.2
    | cons i items ih =>
      have hi := h.1 i (by simp)
      have hone : listing n (i :: items) below = i.above ++ (entry n i.name ++ i.tail) :: listing n items below := by simp [listing, Item.lines]
      rw [hone, List.filterMap_append, hrem i.above hi.1, List.nil_append, List.filterMap_cons_some (rd_entry hi).2, List.map_cons,
        ih ⟨fun j hj => h.1 j (by simp [hj]), h.2⟩]

theorem listing_simple {n : Nat} {items : List Item} {below : List Str} (h : ListingOk n items below) : ∀ l ∈ listing n items below, SimpleLine l := by
  intro l hl
  rcases listing_mem hl with ⟨i, hi, hl⟩ | hl
  · exact item_simple (h.1 i hi) l hl
  · exact (h.2 l hl).1

theorem rd_text (ls : List Str) (h : ∀ l ∈ ls, SimpleLine l) : (splitOn '\n' (textOf ls)).dropLast = ls := by
  rw [splitOn_textOf ls fun l hl => (h l hl).1.1, List.dropLast_concat]

theorem rd_section {A D : List Str} {t : Str} {n : Nat} {items : List Item} {below : List Str} (hA : ∀ l ∈ A, SimpleLine l ∧ ¬ IsHeader l) (hD : ∀ l ∈ D, SimpleLine l)
    (hk : ∀ l ∈ D.head?, KeyLine l) (hh : SimpleLine (header t)) (h : ListingOk n items below) :
    rdRead (textOf (A ++ header t :: (listing n items below ++ D))) = some (items.map Item.name, (A ++ D).filter fun l => !rdRemark l) := by
  unfold rdRead
  dsimp only
  rw [rd_text _ (by
    intro l hl
    rcases List.mem_append.1 hl with hl | hl
    · exact (hA l hl).1
    rcases List.mem_cons.1 hl with rfl | hl
    · exact hh
    rcases List.mem_append.1 hl with hl | hl
    · exact listing_simple h l hl
    · exact hD l hl)]
  have hnot : ∀ l ∈ A, (!rdHeader l) = true := fun l hl => by
    cases hc : rdHeader l with
    | false => rfl
    | true => exact absurd ((hasPrefix_iff _ _).1 hc) (fun ⟨r, hr⟩ => (hA l hl).2 ⟨r, hr⟩)
  have hyes : (!rdHeader (header t)) = false := by
    have : rdHeader (header t) = true := (hasPrefix_iff _ _).2 ⟨t, rfl⟩
    rw [this]; rfl
  have hkey : ∀ l ∈ listing n items below, (!rdKey l) = true := fun l hl => by rw [(rd_listing h).1 l hl]; rfl
  have h1 : (D.takeWhile fun l => !rdKey l) = [] ∧ (D.dropWhile fun l => !rdKey l) = D := by
    cases D with
    | nil => exact ⟨rfl, rfl⟩
    | cons d D =>
      obtain ⟨c, hc, ha⟩ := hk d rfl
      have : (!rdKey d) = false := by
        cases d with
        | nil => cases hc
        | cons x xs => simp at hc; subst hc; simp [rdKey, ha]
      exact ⟨List.takeWhile_cons_of_neg (by simp [this]), List.dropWhile_cons_of_neg (by simp [this])⟩
  rw [List.dropWhile_append_of_pos hnot, List.dropWhile_cons_of_neg (by simp [hyes]), List.takeWhile_append_of_pos hnot, List.takeWhile_cons_of_neg (by simp [hyes])]
  dsimp only
  rw [List.takeWhile_append_of_pos hkey, h1.1, List.append_nil, (rd_listing h).2, List.append_nil, List.dropWhile_append_of_pos hkey, h1.2]

/-- Non-vacuity of the assumption: there is such a reader. -/
theorem rdRead_reads : ReadsLists rdRead where
  exchange := by
    intro A D t n n' items items' below below' ps r hA ht hh h h' hr
    have hA' : ∀ l ∈ A, SimpleLine l ∧ ¬ IsHeader l := fun l hl => ⟨(hA.1 l (by simp [hl])).1, around_not_header hA l (by simp [hl])⟩
    have hD : ∀ l ∈ D, SimpleLine l := fun l hl => (hA.1 l (by simp [hl])).1
    rw [rd_section hA' hD hA.2.2 hh h] at hr
    cases hr
    exact ⟨rfl, rd_section hA' hD hA.2.2 hh h'⟩
  addition := by
    intro A blank n items ps r hA hb h hr
    have hA' : ∀ l ∈ A, SimpleLine l ∧ ¬ IsHeader l := fun l hl => ⟨(hA.1 l (by simp [hl])).1, around_not_header hA l (by simp [hl])⟩
    have h0 : rdRead (textOf A) = some ([], A.filter fun l => !rdRemark l) := by
      unfold rdRead
      dsimp only
      rw [rd_text A fun l hl => (hA' l hl).1]
      have : (A.dropWhile fun l => !rdHeader l) = [] := by
        rw [← List.append_nil A, List.dropWhile_append_of_pos]
        · rfl
        intro l hl
        cases hc : rdHeader l with
        | false => rfl
        | true => exact absurd ((hasPrefix_iff _ _).1 hc) (fun ⟨r, hr⟩ => (hA' l hl).2 ⟨r, hr⟩)
      rw [this]
    rw [h0] at hr
    cases hr
    refine ⟨rfl, ?_⟩
    have hhd : SimpleLine (header []) := ⟨by refine ⟨by decide, by decide, by decide⟩, by decide, by decide, by decide⟩
    have := rd_section (A := A ++ blank) (D := []) (t := []) (by
      intro l hl
      rcases List.mem_append.1 hl with hl | hl
      · exact hA' l hl
      · exact ⟨(hb l hl).1, remark_not_header (hb l hl)⟩) (by simp) (by simp) hhd h
    rw [List.append_nil] at this
    have hz : (blank.filter fun l => !rdRemark l) = [] := List.filter_eq_nil_iff.2 fun x hx => by simp [(rd_remark (hb x hx)).1]
    rw [this, List.append_nil, List.filter_append, hz, List.append_nil]

instance (l : Str) : Decidable (SimpleLine l) := by unfold SimpleLine PlainLine; infer_instance

theorem rd_around : AroundPackages [s%"Version: 1"] [s%"Repos:", s%"  - CRAN: https://cran"] := by
  refine ⟨by decide, ?_, ?_⟩
  · intro R l T h _ _
    cases R with
    | nil => cases h; exact ⟨'V', rfl, by decide⟩
    | cons x R => cases R <;> cases h
  · intro l hl
    cases hl
    exact ⟨'R', rfl, by decide⟩

def rdItems : List Item := [{ above := [s%"  # one"], name := s%"data" }, { name := s%"data.table", tail := s%" # fast" }, { name := s%"R6" }]

theorem rd_name (s : Str) (c : Char) (h : s.head? = some c) (hc : c.isAlpha = true) (h2 : ∀ c ∈ s, c.isAlphanum = true ∨ c = '.')
    (h3 : s.map Char.toLower ∉ [s%"null", s%"true", s%"false", s%"yes", s%"no", s%"on", s%"off", s%"y", s%"n"]) : NameText s := ⟨⟨c, h, hc⟩, h2, h3⟩

theorem rd_ok : ListingOk 2 rdItems [[]] := by
  refine ⟨?_, ?_⟩
  · intro i hi
    rcases List.mem_cons.1 hi with rfl | hi
    · refine ⟨?_, rd_name _ 'd' rfl (by decide) (by decide) (by decide), .inl rfl, by decide⟩
      intro l hl
      rw [List.mem_singleton.1 hl]
      exact ⟨by decide, 2, s%"# one", rfl, .inr rfl⟩
    rcases List.mem_cons.1 hi with rfl | hi
    · exact ⟨by simp, rd_name _ 'd' rfl (by decide) (by decide) (by decide), .inr ⟨0, s%" fast", rfl⟩, by decide⟩
    · rw [List.mem_singleton.1 hi]
      exact ⟨by simp, rd_name _ 'R' rfl (by decide) (by decide) (by decide), .inl rfl, by decide⟩
  · intro l hl
    rw [List.mem_singleton.1 hl]
    exact ⟨by decide, 0, [], rfl, .inl rfl⟩

/-- The text of the example. -/
def rdText : Str := s%"Version: 1\nPackages: # all\n  # one\n  - data\n  - data.table # fast\n  - R6\n\nRepos:\n  - CRAN: https://cran\n"

/-- Non-vacuity of `C167_added_partial`, `C167_removed_exact_partial`, `C167_removed_partial` and `C167_violated`: a file, the reader above. -/
example : rdText = textOf ([s%"Version: 1"] ++ header (s%" # all") :: (listing 2 rdItems [[]] ++ [s%"Repos:", s%"  - CRAN: https://cran"])) ∧
    LineTail (s%" # all") ∧ SimpleLine (header (s%" # all")) ∧ NameText (s%"data") ∧ NameText (s%"R6") ∧ NameText (s%"glue") ∧
    rdRead rdText = some ([s%"data", s%"data.table", s%"R6"], [s%"Version: 1", s%"Repos:", s%"  - CRAN: https://cran"]) ∧
    addPackages (fun c => (rdRead c).map Prod.fst) rdText [s%"glue", s%"R6"] =
      .written (s%"Version: 1\nPackages: # all\n  - glue\n  # one\n  - data\n  - data.table # fast\n  - R6\n\nRepos:\n  - CRAN: https://cran\n") ∧
    (rdRead (removePackage rdText (s%"R6"))).map Prod.fst = some [s%"data", s%"data.table"] ∧
    (rdRead (removePackage rdText (s%"data"))).map Prod.fst = some [s%"R6"] ∧
    (∀ x ∈ [s%"data", s%"data.table", s%"R6"], s%"R6" <+: x → x = s%"R6") ∧ ¬ (∀ x ∈ [s%"data", s%"data.table", s%"R6"], s%"data" <+: x → x = s%"data") :=
  ⟨by decide +kernel, .inr ⟨0, s%" all", rfl⟩, by decide, rd_name _ 'd' rfl (by decide) (by decide) (by decide), rd_name _ 'R' rfl (by decide) (by decide) (by decide),
    rd_name _ 'g' rfl (by decide) (by decide) (by decide), by decide +kernel, by decide +kernel, by decide +kernel, by decide +kernel, by decide, by decide⟩

/-- A line with a list in brackets, and right below it an entry. -/
def rdMixed : List Str → Bool
  | a :: b :: t => (hasPrefix a (s%"Packages: [") && (b.dropWhile (· = ' ')).head? = some '-') || rdMixed (b :: t)
  | _ => false

/-- A reader that knows lists in brackets only by their first line. -/
def rdBrackets (t : Str) : Option (List Str × Unit) := if rdMixed (splitOn '\n' t) then none else some ([], ())

theorem rdMixed_mid (A D : List Str) (h e : Str) (hh : hasPrefix h (s%"Packages: [") = true) (he : (e.dropWhile (· = ' ')).head? = some '-') :
    rdMixed (A ++ h :: e :: D) = true := by
  induction A with
  | nil => simp [rdMixed, hh, he]
  | cons a A ih =>
    cases A with
    | nil => simp only [List.nil_append] at ih; rw [List.cons_append, List.nil_append, rdMixed, ih, Bool.or_true]
    | cons b A => simp only [List.cons_append] at ih ⊢; rw [rdMixed, ih, Bool.or_true]

theorem rdBrackets_rejects : RejectsMixed rdBrackets := by
  intro A D names n p hA hnames hD hp
  have hl : ∀ l ∈ A ++ (s%"Packages: [" ++ names ++ s%"]") :: entry n p :: D, '\n' ∉ l := by
    intro l hl
    simp only [List.mem_append, List.mem_cons] at hl
    rcases hl with hl | rfl | rfl | hl
    · exact (hA l hl).1.1
    · intro hn
      simp only [List.mem_append] at hn
      rcases hn with (hn | hn) | hn
      · revert hn; decide
      · rcases hnames _ hn with h | h | h | h
        · revert h; decide
        all_goals (revert h; decide)
      · revert hn; decide
    · intro hn
      simp only [entry, spaces, List.mem_append, List.mem_replicate] at hn
      rcases hn with (hn | hn) | hn
      · have := hn.2; revert this; decide
      · revert hn; decide
      · rcases hp.2.1 _ hn with h | h <;> revert h <;> decide
    · exact (hD l hl).1
  have hd : ∀ n : Nat, ((entry n p).dropWhile (· = ' ')).head? = some '-' := by
    intro n
    induction n with
    | zero => rfl
    | succ n ih =>
      have : entry (n + 1) p = ' ' :: entry n p := by simp [entry, spaces, List.replicate_succ]
      rw [this, List.dropWhile_cons_of_pos (by decide)]
      exact ih
  unfold rdBrackets
  rw [splitOn_textOf _ hl, List.append_assoc]
  rw [if_pos]
  exact rdMixed_mid A (D ++ [[]]) _ _ ((hasPrefix_iff _ _).2 ⟨names ++ s%"]", (List.append_assoc _ _ _).symm⟩) (hd n)

/-- Non-vacuity of `C167_violated_brackets`: such a reader, and a file. -/
example : ∃ new, addPackages (fun c => (rdBrackets c).map Prod.fst) (s%"Packages: [R6]\nRepos:\n  - CRAN: https://cran\n") [s%"glue"] = .written new ∧ rdBrackets new = none :=
  C167_violated_brackets rdBrackets rdBrackets_rejects [] [s%"Repos:"] [] (s%"R6") (s%" CRAN: https://cran") (s%"glue") 2 [] () (by simp) (by decide)
    (by
      intro x hx
      have h : ∀ x ∈ [s%"Packages: [R6]", s%"Repos:", s%"  - CRAN: https://cran"], '\n' ∉ x ∧ x.getLast? ≠ some '\r' ∧ bytes x < 65536 := by decide
      exact h x hx)
    (by
      intro x hx h
      have h1 : ∀ x ∈ [s%"Repos:", s%"  - CRAN: https://cran"], hasPrefix x (s%"Packages:") = false := by decide
      have h2 := (hasPrefix_iff x (s%"Packages:")).2 h
      rw [h1 x hx] at h2
      cases h2)
    (by
      intro x hx h
      rw [List.mem_singleton.1 hx] at h
      exact absurd ((dashed_iff _).2 h) (by decide))
    (by simp) (rd_name _ 'g' rfl (by decide) (by decide) (by decide)) (by decide +kernel)

/-- Nothing around begins like an entry for these packages. -/
example : ∀ l ∈ [s%"Version: 1"] ++ [s%"Repos:", s%"  - CRAN: https://cran"], ¬ BeginsAs (s%"data") l := by
  intro l hl hb
  have hd := (drops_iff (s%"data") l).2 hb
  have h : ∀ l ∈ [s%"Version: 1"] ++ [s%"Repos:", s%"  - CRAN: https://cran"], dropsLine (s%"data") l = false := by decide
  rw [h l hl] at hd
  cases hd

/-- Non-vacuity of `C167_added_section_partial`. -/
example : AroundPackages [s%"Version: 1"] [] ∧ rdRead (textOf [s%"Version: 1"]) = some ([], [s%"Version: 1"]) := by
  refine ⟨⟨by decide, ?_, by simp⟩, by decide +kernel⟩
  intro R l T h _ _
  cases R with
  | nil => cases h; exact ⟨'V', rfl, by decide⟩
  | cons x R => cases R <;> cases h

end Pkgr
