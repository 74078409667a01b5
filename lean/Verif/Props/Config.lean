/- C58-C62, C78: editing the configuration file, looking up customizations. -/
import Verif.Model.Config
import Verif.Spec.Config
import Verif.Proof.Base
import Verif.Proof.Split

namespace Pkgr
open Spec

/-! ### Lemmas -/

theorem writeLines_eq (ls : List Str) : writeLines ls = textOf ls := by
  unfold writeLines
  induction ls with
  | nil => rfl
  | cons l ls ih => simp [textOf, ih]

theorem byteLen_eq (s : Str) : byteLen s = bytes s := by
  unfold bytes
  induction s with
  | nil => rfl
  | cons c s ih => simp [byteLen, ih]

theorem textOf_append (a b : List Str) : textOf (a ++ b) = textOf a ++ textOf b := by
  induction a with
  | nil => rfl
  | cons l a ih => simp [textOf, ih]

theorem splitOn_textOf (ls : List Str) (h : ∀ l ∈ ls, '\n' ∉ l) : splitOn '\n' (textOf ls) = ls ++ [[]] := by
  induction ls with
  | nil => rfl
  | cons l ls ih =>
    rw [textOf, splitOn_append _ _ _ (h l (by simp)), ih fun x hx => h x (List.mem_cons_of_mem _ hx)]
    rfl

theorem configLines_textOf (A B : List Str) (h : ∀ l ∈ A, PlainLine l) (hB : ∀ l ∈ B, '\n' ∉ l)
    (hlong : ∀ l r, B = l :: r → 65536 ≤ bytes l) : configLines (textOf (A ++ B)) = A := by
  have hn : ∀ l ∈ A ++ B, '\n' ∉ l := fun l hl => (List.mem_append.1 hl).elim (fun h' => (h l h').1) (hB l)
  unfold configLines
  rw [splitOn_textOf _ hn]
  simp only [List.getLast?_append, List.getLast?_singleton, Option.some_or, List.dropLast_concat, if_true]
  have h1 : (A ++ B).takeWhile (fun l => decide (byteLen l < scanLimit)) = A := by
    rw [List.takeWhile_append_of_pos]
    · cases B with
      | nil => simp
      | cons b r =>
        have := hlong b r rfl
        simp [List.takeWhile, byteLen_eq, scanLimit, Nat.not_lt.2 this]
    · intro l hl
      simpa [byteLen_eq, scanLimit] using (h l hl).2.2
  rw [h1]
  have : ∀ l ∈ A, dropCR l = l := fun l hl => by
    unfold dropCR
    rw [if_neg (h l hl).2.1]
  induction A with
  | nil => rfl
  | cons l A ih =>
    rw [List.map_cons, this l (by simp)]
    congr 1
    clear ih h h1 hn
    induction A with
    | nil => rfl
    | cons x xs ih =>
      rw [List.map_cons, this x (by simp)]
      congr 1
      refine ih fun y hy => this y ?_
      simp only [List.mem_cons] at hy ⊢
      rcases hy with rfl | hy
      · exact Or.inl rfl
      · exact Or.inr (Or.inr hy)

theorem lastHeader_none (ls : List Str) (h : ∀ l ∈ ls, ¬ IsHeader l) (i : Nat) : lastHeader i ls = none := by
  induction ls generalizing i with
  | nil => rfl
  | cons l ls ih =>
    simp only [lastHeader, ih (fun x hx => h x (List.mem_cons_of_mem _ hx))]
    rw [if_neg]
    intro h'
    exact h l (by simp) ((hasPrefix_iff _ _).1 h')

theorem lastHeader_at (A B : List Str) (l : Str) (hl : IsHeader l) (h : ∀ x ∈ B, ¬ IsHeader x) (i : Nat) :
    lastHeader i (A ++ l :: B) = some (i + A.length) := by
  induction A generalizing i with
  | nil =>
    simp only [List.nil_append, lastHeader, lastHeader_none B h]
    rw [if_pos ((hasPrefix_iff _ _).2 hl)]
    simp
  | cons a A ih =>
    simp only [List.cons_append, lastHeader, ih]
    simp
    omega

theorem dashed_iff (l : Str) : hasPrefix (trimSpace l) (s%"-") = true ↔ Dashed l := by
  rw [hasPrefix_iff]
  constructor
  · intro h
    have h2 : (s%"-") <+: l.dropWhile isSpace := h.trans (trimRightBy_prefix _ _)
    obtain ⟨rest, hr⟩ := h2
    refine ⟨l.takeWhile isSpace, rest, fun c hc => ?_, ?_⟩
    · exact (isSpace_iff c).1 ((List.all_eq_true.1 (List.all_takeWhile (l := l) (p := isSpace))) c hc)
    · conv => lhs; rw [← List.takeWhile_append_dropWhile (l := l) (p := isSpace)]
      rw [← hr]
      rfl
  · rintro ⟨ws, rest, hws, rfl⟩
    rw [trimSpace_spaces_append fun c hc => (isSpace_iff c).2 (hws c hc)]
    unfold trimSpace
    have : ('-' :: rest).dropWhile isSpace = '-' :: rest := by simp [List.dropWhile, show isSpace '-' = false by decide]
    rw [this]
    simp only [trimRightBy]
    split
    · simp [show isSpace '-' = false by decide]
    · exact ⟨_, rfl⟩

theorem header_not_dashed {l : Str} (h : IsHeader l) : ¬ Dashed l := by
  rintro ⟨ws, rest, hws, rfl⟩
  obtain ⟨t, ht⟩ := h
  cases ws with
  | nil => simp at ht
  | cons c ws =>
    simp at ht
    have := hws c (by simp)
    rw [← ht.1] at this
    exact absurd this (by decide)

theorem firstEntry_at (C D : List Str) (e : Str) (hC : ∀ l ∈ C, ¬ Dashed l) (he : Dashed e) (i : Nat) :
    firstEntry i (C ++ e :: D) = i + C.length := by
  induction C generalizing i with
  | nil => simp [firstEntry, (dashed_iff e).2 he]
  | cons c C ih =>
    have : ¬ hasPrefix (trimSpace c) (s%"-") = true := fun h => hC c (by simp) ((dashed_iff c).1 h)
    simp only [List.cons_append, firstEntry]
    rw [if_neg this, ih fun x hx => hC x (List.mem_cons_of_mem _ hx)]
    simp
    omega

theorem firstEntry_none (C : List Str) (hC : ∀ l ∈ C, ¬ Dashed l) (i : Nat) : firstEntry i C = 0 := by
  induction C generalizing i with
  | nil => rfl
  | cons c C ih =>
    have : ¬ hasPrefix (trimSpace c) (s%"-") = true := fun h => hC c (by simp) ((dashed_iff c).1 h)
    simp only [firstEntry]
    rw [if_neg this, ih fun x hx => hC x (List.mem_cons_of_mem _ hx)]

theorem indexDash_spaces (n : Nat) (rest : Str) : indexDash (spaces n ++ '-' :: rest) = some n := by
  unfold spaces
  induction n with
  | zero => simp [indexDash]
  | succ n ih =>
    rw [List.replicate_succ, List.cons_append, indexDash, if_neg (by decide), ih]
    simp
    decide

theorem spaces_dashed (n : Nat) (rest : Str) : Dashed (spaces n ++ '-' :: rest) :=
  ⟨spaces n, rest, fun c hc => by
    have : c = ' ' := List.eq_of_mem_replicate hc
    subst this
    decide, rfl⟩

theorem insert_at (A C D : List Str) (l : Str) (n : Nat) (rest : Str) (pkgs : List Str) (hl : IsHeader l)
    (hB : ∀ x ∈ C ++ (spaces n ++ '-' :: rest) :: D, ¬ IsHeader x) (hC : ∀ x ∈ C, ¬ Dashed x) :
    insertPackages (A ++ l :: (C ++ (spaces n ++ '-' :: rest) :: D)) pkgs =
      some (A ++ l :: (pkgs.map (entry n) ++ (C ++ (spaces n ++ '-' :: rest) :: D))) := by
  unfold insertPackages
  rw [lastHeader_at _ _ _ hl hB]
  dsimp only
  have h1 : List.drop (0 + A.length) (A ++ l :: (C ++ (spaces n ++ '-' :: rest) :: D)) = (l :: C) ++ (spaces n ++ '-' :: rest) :: D := by
    simp
  have hC' : ∀ x ∈ l :: C, ¬ Dashed x := by
    intro x hx
    rcases List.mem_cons.1 hx with rfl | hx
    · exact header_not_dashed hl
    · exact hC x hx
  rw [h1, firstEntry_at _ _ _ hC' (spaces_dashed n rest)]
  have h2 : (A ++ l :: (C ++ (spaces n ++ '-' :: rest) :: D)).getD (0 + A.length + (0 + (l :: C).length)) [] = spaces n ++ '-' :: rest := by
    have : A ++ l :: (C ++ (spaces n ++ '-' :: rest) :: D) = (A ++ l :: C) ++ (spaces n ++ '-' :: rest) :: D := by simp
    rw [this, List.getD_eq_getElem?_getD, List.getElem?_append_right (by simp)]
    simp
  rw [h2, indexDash_spaces]
  have h3 : List.take (0 + A.length + 1) (A ++ l :: (C ++ (spaces n ++ '-' :: rest) :: D)) = A ++ [l] := by
    rw [Nat.zero_add, List.take_length_add_append]
    simp
  have h4 : List.drop (0 + A.length + 1) (A ++ l :: (C ++ (spaces n ++ '-' :: rest) :: D)) = C ++ (spaces n ++ '-' :: rest) :: D := by
    rw [Nat.zero_add, List.drop_length_add_append]
    simp
  rw [h3, h4]
  have h5 : (fun p => List.replicate n ' ' ++ s%"- " ++ p) = entry n := rfl
  dsimp only
  rw [h5]
  simp

/-! ## C58: adding packages -/

/-- C58: in a file of ordinary lines with a `Packages:` line and an entry below it (before it may come lines without
a dash, such as comments), adding packages inserts directly under the (last) `Packages:` line one entry per package
that is not listed yet, indented like the first entry, and changes nothing else. -/
theorem C58_inserts (yaml : Str → Option (List Str)) (A C D : List Str) (l : Str) (n : Nat) (rest : Str) (pkgs listed : List Str)
    (hplain : ∀ x ∈ A ++ l :: (C ++ (spaces n ++ '-' :: rest) :: D), PlainLine x)
    (hl : IsHeader l) (hB : ∀ x ∈ C ++ (spaces n ++ '-' :: rest) :: D, ¬ IsHeader x) (hC : ∀ x ∈ C, ¬ Dashed x)
    (hy : yaml (textOf (A ++ l :: (C ++ (spaces n ++ '-' :: rest) :: D))) = some listed) :
    addPackages yaml (textOf (A ++ l :: (C ++ (spaces n ++ '-' :: rest) :: D))) pkgs =
      .written (textOf (A ++ l :: ((pkgs.filter fun p => !listed.contains p).map (entry n) ++ (C ++ (spaces n ++ '-' :: rest) :: D)))) := by
  unfold addPackages
  rw [hy]
  dsimp only
  have := configLines_textOf _ [] hplain (by simp) (by simp)
  rw [List.append_nil] at this
  rw [this, insert_at A C D l n rest _ hl hB hC]
  dsimp only
  rw [writeLines_eq]

/-- A file with a comment between the key and the first entry. -/
example : addPackages (fun _ => some [s%"a"]) (s%"Version: 1\nPackages:\n  # mine\n  - a\nRepos:\n  - R1: u\n") [s%"b", s%"a"] =
    .written (s%"Version: 1\nPackages:\n  - b\n  # mine\n  - a\nRepos:\n  - R1: u\n") := by decide

/-- C58: without a `Packages:` line a new section is appended. -/
theorem C58_new_section (yaml : Str → Option (List Str)) (ls : List Str) (pkgs listed : List Str)
    (hplain : ∀ x ∈ ls, PlainLine x) (hno : ∀ x ∈ ls, ¬ IsHeader x) (hy : yaml (textOf ls) = some listed) :
    addPackages yaml (textOf ls) pkgs =
      .written (textOf ls ++ textOf ([[], s%"Packages:"] ++ (pkgs.filter fun p => !listed.contains p).map (entry 0))) := by
  unfold addPackages
  rw [hy]
  dsimp only
  have := configLines_textOf ls [] hplain (by simp) (by simp)
  rw [List.append_nil] at this
  rw [this]
  unfold insertPackages
  rw [lastHeader_none _ hno]
  dsimp only
  rw [writeLines_eq, List.append_assoc, textOf_append]
  rfl

example : (∀ x ∈ [s%"Version: 1", s%"Tarballs:", s%"- x.tar.gz"], PlainLine x) ∧ (∀ x ∈ [s%"Version: 1", s%"Tarballs:", s%"- x.tar.gz"], ¬ IsHeader x) := by
  unfold PlainLine IsHeader
  decide

/-- C58 does not hold for repeated arguments: a package given twice is added twice. -/
theorem C58_violated_twice (yaml : Str → Option (List Str)) (A C D : List Str) (l : Str) (n : Nat) (rest p : Str) (listed : List Str)
    (hplain : ∀ x ∈ A ++ l :: (C ++ (spaces n ++ '-' :: rest) :: D), PlainLine x)
    (hl : IsHeader l) (hB : ∀ x ∈ C ++ (spaces n ++ '-' :: rest) :: D, ¬ IsHeader x) (hC : ∀ x ∈ C, ¬ Dashed x)
    (hy : yaml (textOf (A ++ l :: (C ++ (spaces n ++ '-' :: rest) :: D))) = some listed) (hp : p ∉ listed) :
    addPackages yaml (textOf (A ++ l :: (C ++ (spaces n ++ '-' :: rest) :: D))) [p, p] =
      .written (textOf (A ++ l :: entry n p :: entry n p :: (C ++ (spaces n ++ '-' :: rest) :: D))) := by
  rw [C58_inserts yaml A C D l n rest [p, p] listed hplain hl hB hC hy]
  simp [hp]

/-- C58 does not hold for files with carriage returns: all other lines are changed too. -/
theorem C58_violated_crlf : ∃ (content : Str), ∀ yaml : Str → Option (List Str), yaml content = some [s%"a"] →
    addPackages yaml content [s%"b"] = .written (s%"Version: 1\nPackages:\n- b\n- a\n") ∧ content = s%"Version: 1\r\nPackages:\r\n- a\r\n" := by
  refine ⟨s%"Version: 1\r\nPackages:\r\n- a\r\n", fun yaml hy => ⟨?_, rfl⟩⟩
  unfold addPackages
  rw [hy]
  decide

/-- C58 does not hold for a file with a line of 64 KiB or more: that line and everything after it are lost. -/
theorem C58_violated_long_line (yaml : Str → Option (List Str)) (A C D : List Str) (l : Str) (n : Nat) (rest long : Str) (after pkgs listed : List Str)
    (hplain : ∀ x ∈ A ++ l :: (C ++ (spaces n ++ '-' :: rest) :: D), PlainLine x)
    (hl : IsHeader l) (hB : ∀ x ∈ C ++ (spaces n ++ '-' :: rest) :: D, ¬ IsHeader x) (hC : ∀ x ∈ C, ¬ Dashed x)
    (hlong : 65536 ≤ bytes long) (hnl : ∀ x ∈ long :: after, '\n' ∉ x)
    (hy : yaml (textOf ((A ++ l :: (C ++ (spaces n ++ '-' :: rest) :: D)) ++ long :: after)) = some listed) :
    addPackages yaml (textOf ((A ++ l :: (C ++ (spaces n ++ '-' :: rest) :: D)) ++ long :: after)) pkgs =
      .written (textOf (A ++ l :: ((pkgs.filter fun p => !listed.contains p).map (entry n) ++ (C ++ (spaces n ++ '-' :: rest) :: D)))) := by
  unfold addPackages
  rw [hy]
  dsimp only
  rw [configLines_textOf _ _ hplain hnl (by intro x r h; cases h; exact hlong), insert_at A C D l n rest _ hl hB hC]
  dsimp only
  rw [writeLines_eq]

/-- Such a line exists. -/
example : 65536 ≤ bytes (List.replicate 65536 '#') ∧ '\n' ∉ List.replicate 65536 '#' := by
  constructor
  · unfold bytes
    rw [List.map_replicate, List.sum_replicate_nat]
    decide
  · intro h
    have := List.eq_of_mem_replicate h
    exact absurd this (by decide)

/-! ## C59: adding listed packages -/

/-- C59: adding only packages that are listed leaves a file of ordinary lines with a `Packages:` line and an entry
below it as it is. -/
theorem C59_unchanged_partial (yaml : Str → Option (List Str)) (A C D : List Str) (l : Str) (n : Nat) (rest : Str) (pkgs listed : List Str)
    (hplain : ∀ x ∈ A ++ l :: (C ++ (spaces n ++ '-' :: rest) :: D), PlainLine x)
    (hl : IsHeader l) (hB : ∀ x ∈ C ++ (spaces n ++ '-' :: rest) :: D, ¬ IsHeader x) (hC : ∀ x ∈ C, ¬ Dashed x)
    (hy : yaml (textOf (A ++ l :: (C ++ (spaces n ++ '-' :: rest) :: D))) = some listed) (hall : ∀ p ∈ pkgs, p ∈ listed) :
    addPackages yaml (textOf (A ++ l :: (C ++ (spaces n ++ '-' :: rest) :: D))) pkgs =
      .written (textOf (A ++ l :: (C ++ (spaces n ++ '-' :: rest) :: D))) := by
  rw [C58_inserts yaml A C D l n rest pkgs listed hplain hl hB hC hy]
  have : (pkgs.filter fun p => !listed.contains p) = [] := by
    rw [List.filter_eq_nil_iff]
    intro p hp
    simp [hall p hp]
  rw [this]
  rfl

/-- A file with two entries. -/
example : addPackages (fun _ => some [s%"a", s%"b"]) (s%"Packages:\n- a\n- b\n") [s%"b"] = .written (s%"Packages:\n- a\n- b\n") := by decide

/-- C59 does not hold when no line begins with `Packages:`, for example when the key is quoted: a second, empty,
section is appended. -/
theorem C59_violated_quoted (yaml : Str → Option (List Str)) (ls : List Str) (pkgs listed : List Str)
    (hplain : ∀ x ∈ ls, PlainLine x) (hno : ∀ x ∈ ls, ¬ IsHeader x) (hy : yaml (textOf ls) = some listed) (hall : ∀ p ∈ pkgs, p ∈ listed) :
    addPackages yaml (textOf ls) pkgs = .written (textOf ls ++ s%"\nPackages:\n") := by
  rw [C58_new_section yaml ls pkgs listed hplain hno hy]
  have : (pkgs.filter fun p => !listed.contains p) = [] := by
    rw [List.filter_eq_nil_iff]
    intro p hp
    simp [hall p hp]
  rw [this]
  rfl

example : addPackages (fun _ => some [s%"a"]) (s%"\"Packages\":\n- a\n") [s%"a"] = .written (s%"\"Packages\":\n- a\n\nPackages:\n") := by decide

/-! ## C62: an empty section -/

/-- C62 does not hold: if no list entry follows the `Packages:` line in the whole file (and that line has no dash),
adding packages panics. -/
theorem C62_violated (yaml : Str → Option (List Str)) (A B : List Str) (l : Str) (pkgs listed : List Str)
    (hplain : ∀ x ∈ A ++ l :: B, PlainLine x) (hl : IsHeader l) (hd : '-' ∉ l) (hB : ∀ x ∈ B, ¬ IsHeader x ∧ ¬ Dashed x)
    (hy : yaml (textOf (A ++ l :: B)) = some listed) :
    addPackages yaml (textOf (A ++ l :: B)) pkgs = .panic := by
  unfold addPackages
  rw [hy]
  dsimp only
  have := configLines_textOf (A ++ l :: B) [] hplain (by simp) (by simp)
  rw [List.append_nil] at this
  rw [this]
  unfold insertPackages
  rw [lastHeader_at _ _ _ hl fun x hx => (hB x hx).1]
  dsimp only
  have h1 : List.drop (0 + A.length) (A ++ l :: B) = l :: B := by simp
  have hC' : ∀ x ∈ l :: B, ¬ Dashed x := by
    intro x hx
    rcases List.mem_cons.1 hx with rfl | hx
    · exact header_not_dashed hl
    · exact (hB x hx).2
  rw [h1, firstEntry_none _ hC']
  have h2 : (A ++ l :: B).getD (0 + A.length + 0) [] = l := by
    rw [List.getD_eq_getElem?_getD, List.getElem?_append_right (by simp)]
    simp
  have h3 : indexDash l = none := by
    clear h1 h2 hC' this hplain hl hy
    induction l with
    | nil => rfl
    | cons c l ih =>
      simp only [List.mem_cons, not_or] at hd
      rw [indexDash, if_neg (fun h => hd.1 h.symm), ih hd.2]
      rfl
  rw [h2, h3]

/-- The sections `Packages` (empty) and `Library`; and a `Packages` section in flow style. -/
example : addPackages (fun _ => some []) (s%"Packages:\nLibrary: lib\n") [s%"a"] = .panic ∧
    addPackages (fun _ => some [s%"a"]) (s%"Packages: [a]\n") [s%"b"] = .panic := by decide

/-- C62, what holds: if some list entry follows anywhere below, in whatever section, an empty `Packages:` section
gets the new entries (indented like that entry). -/
theorem C62_later_entry_partial (yaml : Str → Option (List Str)) (A C D : List Str) (n : Nat) (rest : Str) (pkgs listed : List Str)
    (hplain : ∀ x ∈ A ++ (s%"Packages:") :: (C ++ (spaces n ++ '-' :: rest) :: D), PlainLine x)
    (hB : ∀ x ∈ C ++ (spaces n ++ '-' :: rest) :: D, ¬ IsHeader x) (hC : ∀ x ∈ C, ¬ Dashed x)
    (hy : yaml (textOf (A ++ (s%"Packages:") :: (C ++ (spaces n ++ '-' :: rest) :: D))) = some listed) :
    addPackages yaml (textOf (A ++ (s%"Packages:") :: (C ++ (spaces n ++ '-' :: rest) :: D))) pkgs ≠ .panic := by
  rw [C58_inserts yaml A C D _ n rest pkgs listed hplain (List.prefix_refl _) hB hC hy]
  simp

example : addPackages (fun _ => some []) (s%"Packages:\nRepos:\n  - R1: u\n") [s%"a"] = .written (s%"Packages:\n  - a\nRepos:\n  - R1: u\n") := by decide

/-! ## C60: removing a package -/

theorem drops_iff (name l : Str) : dropsLine name l = true ↔ BeginsAs name l := by
  unfold dropsLine BeginsAs entry
  rw [hasPrefix_iff]
  constructor
  · rintro ⟨rest, hr⟩
    refine ⟨(l.takeWhile fun c => c = ' ').length, rest, ?_⟩
    conv => lhs; rw [← List.takeWhile_append_dropWhile (l := l) (p := fun c => decide (c = ' '))]
    rw [← hr]
    have : l.takeWhile (fun c => decide (c = ' ')) = spaces (l.takeWhile fun c => c = ' ').length := by
      unfold spaces
      refine List.eq_replicate_iff.2 ⟨rfl, fun c hc => ?_⟩
      simpa using (List.all_eq_true.1 (List.all_takeWhile (l := l) (p := fun c => decide (c = ' ')))) c hc
    have h2 : ∀ x y : Str, x ++ (s%"- " ++ y ++ rest) = x ++ s%"- " ++ y ++ rest := by simp
    rw [h2, ← this]
  · rintro ⟨n, rest, rfl⟩
    refine ⟨rest, ?_⟩
    have h2 : spaces n ++ s%"- " ++ name ++ rest = spaces n ++ (s%"- " ++ name ++ rest) := by simp
    rw [h2, List.dropWhile_append_of_pos]
    · simp
    · intro c hc
      have := List.eq_of_mem_replicate hc
      simp [this]

instance (p l : Str) : Decidable (BeginsAs p l) := decidable_of_iff _ (drops_iff p l)

theorem removeLoop_concat (name : Str) (ls : List Str) (last : Str) :
    removeLoop name (ls ++ [last]) = textOf (ls.filter fun l => !dropsLine name l) ++ if dropsLine name last then [] else last := by
  induction ls with
  | nil => simp [removeLoop, textOf]
  | cons l ls ih =>
    have h : removeLoop name (l :: (ls ++ [last])) = (if dropsLine name l then [] else l ++ ['\n']) ++ removeLoop name (ls ++ [last]) := by
      cases h : ls ++ [last] with
      | nil => simp at h
      | cons x xs => rfl
    rw [List.cons_append, h, ih, List.filter_cons]
    cases hd : dropsLine name l with
    | true => simp
    | false => simp [textOf]

/-- C60: removing a package from a text file deletes exactly the lines that begin, after spaces, with a dash, a space
and the package's name, and leaves all other lines unchanged and in order. -/
theorem C60_exact_lines (ls : List Str) (name : Str) (h : ∀ l ∈ ls, '\n' ∉ l) :
    removePackage (textOf ls) name = textOf (ls.filter fun l => decide (¬ BeginsAs name l)) := by
  unfold removePackage
  rw [splitOn_textOf ls h, removeLoop_concat]
  have h1 : dropsLine name [] = false := by
    cases hd : dropsLine name [] with
    | false => rfl
    | true =>
      obtain ⟨n, rest, hr⟩ := (drops_iff _ _).1 hd
      have := congrArg List.length hr
      simp [entry] at this
  rw [h1]
  simp only [Bool.false_eq_true, if_false, List.append_nil]
  congr 1
  apply List.filter_congr
  intro l _
  cases hd : dropsLine name l with
  | true => simp [(drops_iff _ _).1 hd]
  | false =>
    have : ¬ BeginsAs name l := fun hb => by rw [(drops_iff _ _).2 hb] at hd; simp at hd
    simp [this]

/-- C60, when every line that begins as an entry for `name` is an entry for `name`: exactly these entries are
removed. -/
theorem C60_only_that_package_partial (ls : List Str) (name : Str) (h : ∀ l ∈ ls, '\n' ∉ l)
    (hsep : ∀ l ∈ ls, BeginsAs name l → EntryOf name l) :
    ∃ kept, removePackage (textOf ls) name = textOf kept ∧ kept.Sublist ls ∧ ∀ l ∈ ls, l ∈ kept ↔ ¬ EntryOf name l := by
  refine ⟨_, C60_exact_lines ls name h, List.filter_sublist .., fun l hl => ?_⟩
  simp only [List.mem_filter, hl, true_and, decide_eq_true_eq]
  refine not_congr ⟨hsep l hl, ?_⟩
  rintro ⟨n, rest, hr, _⟩
  exact ⟨n, rest, hr⟩

example : removePackage (s%"Packages:\n  - dplyr # why\n  - ggplot2\n") (s%"dplyr") = s%"Packages:\n  - ggplot2\n" := by decide

/-- C60 does not hold: entries that only begin with the name are removed too, whatever follows (the packages
`data.table` for `data`, a repository or customization of that name whose nested lines stay behind). -/
theorem C60_violated_prefix (A B : List Str) (n : Nat) (name suffix : Str) (h : ∀ l ∈ A ++ entry n (name ++ suffix) :: B, '\n' ∉ l)
    (hA : ∀ l ∈ A ++ B, ¬ BeginsAs name l) :
    removePackage (textOf (A ++ entry n (name ++ suffix) :: B)) name = textOf (A ++ B) := by
  rw [C60_exact_lines _ _ h, List.filter_append, List.filter_cons]
  have hb : BeginsAs name (entry n (name ++ suffix)) := ⟨n, suffix, by simp [entry]⟩
  simp only [hb, not_true, decide_false, Bool.false_eq_true, if_false]
  rw [← List.filter_append]
  congr 1
  rw [List.filter_eq_self]
  intro l hl
  simpa using hA l hl

example : removePackage (s%"Packages:\n- data.table\n- R6\n") (s%"data") = s%"Packages:\n- R6\n" ∧
    removePackage (s%"Customizations:\n  Packages:\n    - dplyr:\n        Suggests: true\n") (s%"dplyr") = s%"Customizations:\n  Packages:\n        Suggests: true\n" := by decide

/-- C60 does not hold for entries written otherwise: a quoted entry is not removed. -/
theorem C60_violated_quoted (ls : List Str) (name : Str) (h : ∀ l ∈ ls, '\n' ∉ l) (hn : ∀ l ∈ ls, ¬ BeginsAs name l) :
    removePackage (textOf ls) name = textOf ls := by
  rw [C60_exact_lines _ _ h, List.filter_eq_self.2]
  intro l hl
  simpa using hn l hl

example : ¬ BeginsAs (s%"dplyr") (s%"- \"dplyr\"") ∧ ¬ BeginsAs (s%"dplyr") (s%"-  dplyr") := by decide

/-! ## C61: remove after add, remove twice -/

/-- C61: removing a package that was just added restores a file in which no line began as an entry for it. -/
theorem C61_undo_partial (yaml : Str → Option (List Str)) (A C D : List Str) (l : Str) (n : Nat) (rest p : Str) (listed : List Str)
    (hplain : ∀ x ∈ A ++ l :: (C ++ (spaces n ++ '-' :: rest) :: D), PlainLine x)
    (hl : IsHeader l) (hB : ∀ x ∈ C ++ (spaces n ++ '-' :: rest) :: D, ¬ IsHeader x) (hC : ∀ x ∈ C, ¬ Dashed x)
    (hy : yaml (textOf (A ++ l :: (C ++ (spaces n ++ '-' :: rest) :: D))) = some listed) (hp : p ∉ listed) (hpn : '\n' ∉ p)
    (hno : ∀ x ∈ A ++ l :: (C ++ (spaces n ++ '-' :: rest) :: D), ¬ BeginsAs p x) :
    ∃ new, addPackages yaml (textOf (A ++ l :: (C ++ (spaces n ++ '-' :: rest) :: D))) [p] = .written new ∧
      removePackage new p = textOf (A ++ l :: (C ++ (spaces n ++ '-' :: rest) :: D)) := by
  refine ⟨_, C58_inserts yaml A C D l n rest [p] listed hplain hl hB hC hy, ?_⟩
  have hf : ([p].filter fun p => !listed.contains p).map (entry n) = [entry n p] := by simp [hp]
  rw [hf]
  have h1 : A ++ l :: ([entry n p] ++ (C ++ (spaces n ++ '-' :: rest) :: D)) = (A ++ [l]) ++ entry n (p ++ []) :: (C ++ (spaces n ++ '-' :: rest) :: D) := by simp
  have h2 : A ++ l :: (C ++ (spaces n ++ '-' :: rest) :: D) = (A ++ [l]) ++ (C ++ (spaces n ++ '-' :: rest) :: D) := by simp
  rw [h1, h2, C60_violated_prefix]
  · intro x hx
    have : x ∈ A ++ l :: (C ++ (spaces n ++ '-' :: rest) :: D) ∨ x = entry n p := by
      simp only [List.mem_append, List.mem_cons, List.append_nil, List.not_mem_nil, or_false] at hx ⊢
      rcases hx with (h | h) | h | h | h | h
      · exact Or.inl (Or.inl h)
      · exact Or.inl (Or.inr (Or.inl h))
      · exact Or.inr h
      · exact Or.inl (Or.inr (Or.inr (Or.inl h)))
      · exact Or.inl (Or.inr (Or.inr (Or.inr (Or.inl h))))
      · exact Or.inl (Or.inr (Or.inr (Or.inr (Or.inr h))))
    rcases this with h | rfl
    · exact (hplain x h).1
    · unfold entry spaces
      simp only [List.mem_append, not_or]
      refine ⟨⟨fun h => ?_, by decide⟩, hpn⟩
      exact absurd (List.eq_of_mem_replicate h) (by decide)
  · intro x hx
    exact hno x (by rw [h2]; exact hx)

example : addPackages (fun _ => some [s%"a"]) (s%"Packages:\n- a\n") [s%"b"] = .written (s%"Packages:\n- b\n- a\n") ∧
    removePackage (s%"Packages:\n- b\n- a\n") (s%"b") = s%"Packages:\n- a\n" := by decide

/-- C61 does not hold for a file without `Packages:` line: the appended section stays. -/
theorem C61_violated_new_section : addPackages (fun _ => some []) (s%"Library: lib\n") [s%"a"] = .written (s%"Library: lib\n\nPackages:\n- a\n") ∧
    removePackage (s%"Library: lib\n\nPackages:\n- a\n") (s%"a") = s%"Library: lib\n\nPackages:\n" := by decide

theorem splitOn_lines (s : Str) : ∀ l ∈ splitOn '\n' s, '\n' ∉ l := by
  induction s with
  | nil => intro l hl; simp [splitOn] at hl; simp [hl]
  | cons c s ih =>
    intro l hl
    simp only [splitOn] at hl
    split at hl
    · rcases List.mem_cons.1 hl with rfl | hl
      · simp
      · exact ih l hl
    · rename_i hc
      split at hl
      · rename_i h0
        exact absurd h0 (splitOn_ne_nil _ _)
      · rename_i w ws h0
        rcases List.mem_cons.1 hl with rfl | hl
        · simp only [List.mem_cons, not_or]
          exact ⟨fun h => hc h.symm, ih w (by rw [h0]; simp)⟩
        · exact ih l (by rw [h0]; simp [hl])

theorem splitOn_textOf_append (ls : List Str) (t : Str) (h : ∀ l ∈ ls, '\n' ∉ l) (ht : '\n' ∉ t) :
    splitOn '\n' (textOf ls ++ t) = ls ++ [t] := by
  induction ls with
  | nil => exact splitOn_of_not_mem _ _ ht
  | cons l ls ih =>
    rw [textOf, List.append_assoc, List.cons_append, splitOn_append _ _ _ (h l (by simp)), ih fun x hx => h x (List.mem_cons_of_mem _ hx)]
    rfl

/-- C61: removing a package twice is the same as removing it once, for every file content and every name. -/
theorem C61_idempotent (content name : Str) : removePackage (removePackage content name) name = removePackage content name := by
  have hne := splitOn_ne_nil '\n' content
  have hsplit := splitOn_lines content
  have he : splitOn '\n' content = (splitOn '\n' content).dropLast ++ [(splitOn '\n' content).getLast hne] :=
    (List.dropLast_concat_getLast hne).symm
  have h1 : removePackage content name = textOf ((splitOn '\n' content).dropLast.filter fun l => !dropsLine name l) ++
      (if dropsLine name ((splitOn '\n' content).getLast hne) then [] else (splitOn '\n' content).getLast hne) := by
    unfold removePackage
    conv => lhs; rw [he]
    exact removeLoop_concat _ _ _
  generalize hk : ((splitOn '\n' content).dropLast.filter fun l => !dropsLine name l) = kept at h1
  generalize ht : (if dropsLine name ((splitOn '\n' content).getLast hne) then [] else (splitOn '\n' content).getLast hne) = t at h1
  have hnil : dropsLine name [] = false := by
    cases hd : dropsLine name [] with
    | false => rfl
    | true =>
      obtain ⟨n, rest, hr⟩ := (drops_iff _ _).1 hd
      have := congrArg List.length hr
      simp [entry] at this
  have hkn : ∀ l ∈ kept, '\n' ∉ l ∧ dropsLine name l = false := by
    intro l hl
    rw [← hk] at hl
    have := List.mem_filter.1 hl
    exact ⟨hsplit l (List.dropLast_subset _ this.1), by simpa using this.2⟩
  have htn : '\n' ∉ t ∧ dropsLine name t = false := by
    rw [← ht]
    split
    · exact ⟨by simp, hnil⟩
    · rename_i hd
      exact ⟨hsplit _ (List.getLast_mem _), by simpa using hd⟩
  rw [h1]
  unfold removePackage
  rw [splitOn_textOf_append _ _ (fun l hl => (hkn l hl).1) htn.1, removeLoop_concat, htn.2]
  rw [List.filter_eq_self.2 (fun l hl => by simp [(hkn l hl).2])]
  simp

example : removePackage (s%"- a\n- b\n- a") (s%"a") = s%"- b\n" := by decide

/-! ## C78: customizations by name -/

/-- C78: looking up a name finds something exactly if some entry of the list has that name, and then it is the value of
the first such entry. -/
theorem C78_first_entry {α : Type} (nm : Str) (ms : List (GoMap α)) :
    (customizationByName nm ms = none ↔ ∀ m ∈ ms, GoMap.get? m nm = none) ∧
    (∀ v, customizationByName nm ms = some v ↔
      ∃ before m after, ms = before ++ m :: after ∧ (∀ m' ∈ before, GoMap.get? m' nm = none) ∧ GoMap.get? m nm = some v) := by
  induction ms with
  | nil => simp [customizationByName]
  | cons m ms ih =>
    cases hm : GoMap.get? m nm with
    | some v0 =>
      simp only [customizationByName, hm]
      constructor
      · simp [hm]
      · intro v
        constructor
        · rintro h
          cases h
          exact ⟨[], m, ms, rfl, by simp, hm⟩
        · rintro ⟨before, m', after, he, hb, hv⟩
          cases before with
          | nil => cases he; rw [hm] at hv; exact hv
          | cons x xs =>
            cases he
            have := hb m (by simp)
            rw [hm] at this
            simp at this
    | none =>
      simp only [customizationByName, hm]
      constructor
      · rw [ih.1]
        simp [hm]
      · intro v
        rw [ih.2]
        constructor
        · rintro ⟨before, m', after, rfl, hb, hv⟩
          exact ⟨m :: before, m', after, rfl, by
            intro x hx
            rcases List.mem_cons.1 hx with rfl | hx
            · exact hm
            · exact hb x hx, hv⟩
        · rintro ⟨before, m', after, he, hb, hv⟩
          cases before with
          | nil => cases he; rw [hm] at hv; simp at hv
          | cons x xs =>
            cases he
            exact ⟨xs, m', after, rfl, fun y hy => hb y (List.mem_cons_of_mem _ hy), hv⟩

example : customizationByName (s%"b") [[(s%"a", 1)], [(s%"b", 2), (s%"c", 3)], [(s%"b", 4)]] = some 2 ∧
    customizationByName (s%"z") [[(s%"a", 1)]] = (none : Option Nat) := by decide

end Pkgr
