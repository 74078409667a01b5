/- C161: what is in the library does not stop pkgr. -/
import Verif.Model.LibScan
import Verif.Spec.LibScan
import Verif.Props.Control
import Verif.Props.Dep

namespace Pkgr
open Spec

theorem malformedItem_iff (x : Str) : parseDep x = none ↔ MalformedItem x := C05_panic_iff x

theorem parseDesc_panics_iff (t : Str) : parseDesc t = .panics ↔ ∃ raw, decodeDesc t = some raw ∧ ∃ x ∈ allItems raw, MalformedItem x := by
  unfold parseDesc
  cases h : decodeDesc t with
  | none => simp
  | some raw =>
    have key := C05_description_panics_iff raw
    simp only [malformedItem_iff] at key
    simp only
    constructor
    · intro hp
      refine ⟨raw, rfl, key.1 ?_⟩
      cases hd : newDesc raw with
      | none => rfl
      | some d => rw [hd] at hp; cases hp
    · rintro ⟨raw', hr, hx⟩
      cases hr
      rw [key.2 hx]

theorem readFrom_none (fs : Fs) (lib : Path) (names : List Str) (m : GoMap Desc) :
    readLibraryFrom fs lib names m = none ↔ ∃ n ∈ names, ∃ t, DescriptionText fs lib n t ∧ parseDesc t = .panics := by
  induction names generalizing m with
  | nil => simp [readLibraryFrom]
  | cons n ns ih =>
    have hcons : ∀ P : Str → Prop, (∃ k ∈ n :: ns, P k) ↔ P n ∨ ∃ k ∈ ns, P k := by intro P; simp
    rw [hcons]
    unfold readLibraryFrom
    by_cases hd : fs.isDir (lib ++ [n]) = true
    · rw [if_pos hd]
      unfold scanInstalledPackage
      have hno : (∀ t, fs (lib ++ [n, s%"DESCRIPTION"]) = some (.file t) → parseDesc t ≠ .panics) →
          ¬ ∃ t, DescriptionText fs lib n t ∧ parseDesc t = .panics := by
        rintro h ⟨t, ⟨_, h2⟩, h3⟩
        exact h t h2 h3
      cases hf : fs (lib ++ [n, s%"DESCRIPTION"]) with
      | none =>
        have := hno (by intro t ht; rw [hf] at ht; cases ht)
        simp only
        rw [ih]
        constructor
        · exact Or.inr
        · rintro (h | h)
          · exact absurd h this
          · exact h
      | some nd =>
        cases nd with
        | dir =>
          have := hno (by intro t ht; rw [hf] at ht; cases ht)
          simp only
          rw [ih]
          constructor
          · exact Or.inr
          · rintro (h | h)
            · exact absurd h this
            · exact h
        | file c =>
          simp only
          cases hp : parseDesc c with
          | panics => exact ⟨fun _ => Or.inl ⟨c, ⟨hd, hf⟩, hp⟩, fun _ => rfl⟩
          | error =>
            have := hno (by intro t ht; rw [hf] at ht; cases ht; rw [hp]; simp)
            simp only
            rw [ih]
            constructor
            · exact Or.inr
            · rintro (h | h)
              · exact absurd h this
              · exact h
          | ok d =>
            have := hno (by intro t ht; rw [hf] at ht; cases ht; rw [hp]; simp)
            simp only
            by_cases hk : d.package = []
            · simp only [if_pos hk]
              rw [ih]
              constructor
              · exact Or.inr
              · rintro (h | h)
                · exact absurd h this
                · exact h
            · simp only [if_neg hk]
              rw [ih]
              constructor
              · exact Or.inr
              · rintro (h | h)
                · exact absurd h this
                · exact h
    · rw [if_neg hd, ih]
      constructor
      · exact Or.inr
      · rintro (⟨t, ht, _⟩ | h)
        · exact absurd ht.1 hd
        · exact h

/-- C161: exactly when finding what is installed ends the program: when a DESCRIPTION in the library, whoever wrote it and
whatever package it belongs to, names a dependency that cannot be read. -/
theorem C161_panics_iff (fs : Fs) (lib : Path) (names : List Str) : readLibrary fs lib names = none ↔
    ∃ n ∈ names, ∃ t raw x, DescriptionText fs lib n t ∧ decodeDesc t = some raw ∧ x ∈ allItems raw ∧ MalformedItem x := by
  unfold readLibrary
  rw [readFrom_none]
  constructor
  · rintro ⟨n, hn, t, ht, hp⟩
    obtain ⟨raw, hr, x, hx, hm⟩ := (parseDesc_panics_iff t).1 hp
    exact ⟨n, hn, t, raw, x, ht, hr, hx, hm⟩
  · rintro ⟨n, hn, t, raw, x, ht, hr, hx, hm⟩
    exact ⟨n, hn, t, ht, (parseDesc_panics_iff t).2 ⟨raw, hr, x, hx, hm⟩⟩

/-- C161, the same for a library of DESCRIPTIONs that are written with valid fields, in terms of what is written in them. -/
theorem C161_panics_written (fs : Fs) (lib : Path) (names : List Str) (hw : WellFormedLibrary fs lib names) :
    readLibrary fs lib names = none ↔ HasMalformed fs lib names := by
  rw [C161_panics_iff]
  constructor
  · rintro ⟨n, hn, t, raw, x, ht, hr, hx, hm⟩
    obtain ⟨fields, hv, hne, hf⟩ := hw n hn t ht
    obtain ⟨raw', h1, h2⟩ := C151_fields hv hne hf
    rw [hr] at h1
    cases h1
    exact ⟨n, hn, t, fields, raw, x, ht, hv, hne, hf, h2, hx, hm⟩
  · rintro ⟨n, hn, t, fields, raw, x, ht, hv, hne, hf, hs, hx, hm⟩
    obtain ⟨raw', h1, h2⟩ := C151_fields hv hne hf
    rw [C151_determined hv hs h2] at hx
    exact ⟨n, hn, t, raw', x, ht, h1, hx, hm⟩

theorem readFrom_some {fs : Fs} {lib : Path} {names : List Str} {m r : GoMap Desc} (h : readLibraryFrom fs lib names m = some r) :
    r = names.foldl (scanInstalled installedDesc fs lib) m := by
  induction names generalizing m with
  | nil => simp only [readLibraryFrom, Option.some.injEq] at h; exact h.symm
  | cons n ns ih =>
    rw [List.foldl_cons]
    unfold readLibraryFrom at h
    unfold scanInstalled
    by_cases hd : fs.isDir (lib ++ [n]) = true
    · rw [if_pos hd] at h ⊢
      unfold scanInstalledPackage at h
      cases hf : fs (lib ++ [n, s%"DESCRIPTION"]) with
      | none => rw [hf] at h; exact ih h
      | some nd =>
        cases nd with
        | dir => rw [hf] at h; exact ih h
        | file c =>
          rw [hf] at h
          simp only at h ⊢
          unfold installedDesc
          cases hp : parseDesc c with
          | panics => rw [hp] at h; cases h
          | error => rw [hp] at h; exact ih h
          | ok d =>
            rw [hp] at h
            simp only at h ⊢
            by_cases hk : d.package = []
            · simp only [if_pos hk] at h ⊢; exact ih h
            · simp only [if_neg hk] at h ⊢; exact ih h
    · rw [if_neg hd] at h ⊢; exact ih h

/-- C161: whenever the program goes on, what it works with is the scan that the theorems about plans and runs speak of. -/
theorem C161_as_scanned {fs : Fs} {lib : Path} {names : List Str} {m : GoMap Desc} (h : readLibrary fs lib names = some m) :
    m = getPriorInstalled installedDesc fs lib names := readFrom_some h

theorem libScan_from {fs : Fs} {lib : Path} (names : List Str) (m : GoMap Desc) (p : Str) (d : Desc)
    (h : GoMap.get? (names.foldl (scanInstalled installedDesc fs lib) m) p = some d) :
    (∃ n ∈ names, ∃ t, DescriptionText fs lib n t ∧ installedDesc t = some d ∧ d.package = p) ∨ GoMap.get? m p = some d := by
  induction names generalizing m with
  | nil => exact Or.inr h
  | cons n ns ih =>
    rw [List.foldl_cons] at h
    rcases ih _ h with ⟨k, hk, r⟩ | h
    · exact Or.inl ⟨k, List.mem_cons_of_mem _ hk, r⟩
    · unfold scanInstalled at h
      by_cases hd : fs.isDir (lib ++ [n]) = true
      · rw [if_pos hd] at h
        split at h
        · rename_i c hc
          split at h
          · rename_i d' hd'
            by_cases hk : d'.package = []
            · rw [if_pos hk] at h; exact Or.inr h
            · rw [if_neg hk, GoMap.get?_put] at h
              by_cases hp : p = d'.package
              · rw [if_pos hp] at h
                cases h
                exact Or.inl ⟨n, List.mem_cons_self .., c, ⟨hd, hc⟩, hd', hp.symm⟩
              · rw [if_neg hp] at h; exact Or.inr h
          · exact Or.inr h
        · exact Or.inr h
      · rw [if_neg hd] at h; exact Or.inr h

theorem libScan_keeps {fs : Fs} {lib : Path} (names : List Str) (m : GoMap Desc) (p : Str) (h : (GoMap.get? m p).isSome) :
    (GoMap.get? (names.foldl (scanInstalled installedDesc fs lib) m) p).isSome := by
  induction names generalizing m with
  | nil => exact h
  | cons n ns ih =>
    rw [List.foldl_cons]
    refine ih _ ?_
    unfold scanInstalled
    split
    · split
      · split
        · split
          · exact h
          · rw [GoMap.get?_put]; split
            · rfl
            · exact h
        · exact h
      · exact h
    · exact h

theorem libScan_has {fs : Fs} {lib : Path} (names : List Str) (m : GoMap Desc) {n t : Str} {d : Desc} (hn : n ∈ names)
    (ht : DescriptionText fs lib n t) (hd : installedDesc t = some d) (hp : d.package ≠ []) :
    (GoMap.get? (names.foldl (scanInstalled installedDesc fs lib) m) d.package).isSome := by
  induction names generalizing m with
  | nil => cases hn
  | cons k ns ih =>
    rw [List.foldl_cons]
    rcases List.mem_cons.1 hn with rfl | hn
    · refine libScan_keeps _ _ _ ?_
      unfold scanInstalled
      rw [if_pos ht.1, ht.2]
      simp only [hd]
      rw [if_neg hp, GoMap.get?_put, if_pos rfl]
      rfl
    · exact ih _ hn

/-- C161, as far as it holds: in a library of DESCRIPTIONs with valid fields none of which names a malformed dependency,
finding what is installed succeeds, and finds exactly the packages that are there: what is found is in one of the
directories, described as its DESCRIPTION says, and every package that is there is found.  Directories without
DESCRIPTION, files and packages without a name are passed over.  Missing: malformed dependencies (`C161_violated`). -/
theorem C161_found_partial (fs : Fs) (lib : Path) (names : List Str) (hw : WellFormedLibrary fs lib names)
    (hm : ¬ HasMalformed fs lib names) :
    ∃ m, readLibrary fs lib names = some m ∧ (∀ p d, GoMap.get? m p = some d → ∃ n ∈ names, PackageAt fs lib n p d) ∧
      ∀ n ∈ names, ∀ p d, PackageAt fs lib n p d → (GoMap.get? m p).isSome := by
  cases h : readLibrary fs lib names with
  | none => exact absurd ((C161_panics_written fs lib names hw).1 h) hm
  | some m =>
    refine ⟨m, rfl, ?_, ?_⟩
    · intro p d hd
      rw [C161_as_scanned h] at hd
      rcases libScan_from _ _ _ _ hd with ⟨n, hn, t, ht, hi, hp⟩ | hd
      · obtain ⟨fields, hv, hne, hf⟩ := hw n hn t ht
        obtain ⟨raw, h1, h2⟩ := C151_fields hv hne hf
        refine ⟨n, hn, t, fields, raw, ht, hv, hne, hf, h2, ?_⟩
        unfold installedDesc parseDesc at hi
        rw [h1] at hi
        simp only at hi
        cases hnd : newDesc raw with
        | none => rw [hnd] at hi; cases hi
        | some d' =>
          rw [hnd] at hi
          simp only at hi
          by_cases hk : d'.package = []
          · rw [if_pos hk] at hi; cases hi
          · rw [if_neg hk] at hi
            cases hi
            have hde := C05_description hnd
            exact ⟨by rw [← hde.package]; exact hp, hp ▸ hk, hde⟩
      · cases hd
    · rintro n hn p d ⟨t, fields, raw, ht, hv, hne, hf, hs, hp, hp0, hde⟩
      obtain ⟨raw', h1, h2⟩ := C151_fields hv hne hf
      have hrr := C151_determined hv hs h2
      subst hrr
      have hnd : ∃ d', newDesc raw = some d' := by
        cases hnd : newDesc raw with
        | some d' => exact ⟨d', rfl⟩
        | none =>
          obtain ⟨x, hx, hbad⟩ := (C05_description_panics_iff raw).1 hnd
          exact absurd ⟨n, hn, t, fields, raw, x, ht, hv, hne, hf, hs, hx, (malformedItem_iff x).1 hbad⟩ hm
      obtain ⟨d', hd'⟩ := hnd
      have hpk : d'.package = p := by rw [(C05_description hd').package]; exact hp
      have hi : installedDesc t = some d' := by
        unfold installedDesc parseDesc
        rw [h1]
        simp only [hd']
        rw [if_neg (by rw [hpk]; exact hp0)]
      rw [C161_as_scanned h, ← hpk]
      exact libScan_has _ _ hn ht hi (by rw [hpk]; exact hp0)

/-- C161: what is found in one directory does not depend on the others being readable: leaving out directories that have
no DESCRIPTION, or one that cannot be decoded, changes nothing. -/
theorem C161_unreadable_ignored (fs : Fs) (lib : Path) (names : List Str) (keep : Str → Bool)
    (hk : ∀ n ∈ names, keep n = false → ∀ t, DescriptionText fs lib n t → decodeDesc t = none) :
    readLibrary fs lib names = readLibrary fs lib (names.filter keep) := by
  unfold readLibrary
  generalize ([] : GoMap Desc) = m
  induction names generalizing m with
  | nil => rfl
  | cons n ns ih =>
    have ih' := ih (fun k hkm => hk k (List.mem_cons_of_mem _ hkm))
    cases hkn : keep n with
    | true =>
      rw [List.filter_cons_of_pos hkn]
      unfold readLibraryFrom
      by_cases hd : fs.isDir (lib ++ [n]) = true
      · rw [if_pos hd, if_pos hd]
        cases scanInstalledPackage fs (lib ++ [n, s%"DESCRIPTION"]) with
        | none => rfl
        | some o => cases o <;> simp only [ih']
      · rw [if_neg hd, if_neg hd, ih']
    | false =>
      rw [List.filter_cons_of_neg (by rw [hkn]; simp), ← ih']
      conv => lhs; unfold readLibraryFrom
      by_cases hd : fs.isDir (lib ++ [n]) = true
      · rw [if_pos hd]
        have : scanInstalledPackage fs (lib ++ [n, s%"DESCRIPTION"]) = some none := by
          unfold scanInstalledPackage
          cases hf : fs (lib ++ [n, s%"DESCRIPTION"]) with
          | none => rfl
          | some nd =>
            cases nd with
            | dir => rfl
            | file c =>
              simp only [parseDesc, hk n (List.mem_cons_self ..) hkn c ⟨hd, hf⟩]
        rw [this]
      · rw [if_neg hd]

/-! ### Examples -/

/-- A library with two packages. -/
def shelf (dep : Str) : Fs := fun p =>
  if p = [s%"lib"] ∨ p = [s%"lib", s%"good"] ∨ p = [s%"lib", s%"odd"] ∨ p = [s%"lib", s%"empty"] then some .dir
  else if p = [s%"lib", s%"good", s%"DESCRIPTION"] then some (.file (s%"Package: good\nVersion: 1.0\n"))
  else if p = [s%"lib", s%"odd", s%"DESCRIPTION"] then some (.file (s%"Package: odd\nVersion: 1.0\nDepends: R (>= " ++ dep ++ s%")\n"))
  else none

/-- C161 is false: a package in the library that says `Depends: R (>= 3)` ends the program before anything is planned, also
if the package has nothing to do with what is to be installed; with `R (>= 3.0)`, or without that package, both packages,
or the other one, are found. -/
theorem C161_violated :
    readLibrary (shelf (s%"3")) [s%"lib"] [s%"good", s%"odd", s%"empty"] = none ∧
    (readLibrary (shelf (s%"3")) [s%"lib"] [s%"good", s%"empty"]).map GoMap.keys = some [s%"good"] ∧
    (readLibrary (shelf (s%"3.0")) [s%"lib"] [s%"good", s%"odd", s%"empty"]).map GoMap.keys = some [s%"odd", s%"good"] := by
  decide +kernel

def shelfGood : List DescField := [{ name := s%"Package", line := s%" good" }, { name := s%"Version", line := s%" 1.0" }]

def shelfOdd : List DescField := [{ name := s%"Package", line := s%" odd" }, { name := s%"Version", line := s%" 1.0" },
  { name := s%"Depends", line := s%" R (>= 3.0)" }]

theorem shelf_wellFormed : WellFormedLibrary (shelf (s%"3.0")) [s%"lib"] [s%"good", s%"odd", s%"empty"] := by
  rintro n hn t ⟨_, ht⟩
  simp only [List.mem_cons, List.not_mem_nil, or_false] at hn
  rcases hn with rfl | rfl | rfl
  · refine ⟨shelfGood, ?_, by decide, [], by simp, Or.inl ?_⟩
    · intro f hf
      simp only [shelfGood, List.mem_cons, List.not_mem_nil, or_false] at hf
      rcases hf with rfl | rfl <;>
        exact ⟨by decide, (trimSpace_iff _ _).1 (by decide), by decide, by decide, by decide, by decide, by simp⟩
    · have : shelf (s%"3.0") [s%"lib", s%"good", s%"DESCRIPTION"] = some (.file (s%"Package: good\nVersion: 1.0\n")) := by decide
      rw [show [s%"lib"] ++ [s%"good", s%"DESCRIPTION"] = [s%"lib", s%"good", s%"DESCRIPTION"] from rfl, this] at ht
      cases ht
      decide
  · refine ⟨shelfOdd, ?_, by decide, [], by simp, Or.inl ?_⟩
    · intro f hf
      simp only [shelfOdd, List.mem_cons, List.not_mem_nil, or_false] at hf
      rcases hf with rfl | rfl | rfl <;>
        exact ⟨by decide, (trimSpace_iff _ _).1 (by decide), by decide, by decide, by decide, by decide, by simp⟩
    · have : shelf (s%"3.0") [s%"lib", s%"odd", s%"DESCRIPTION"] =
          some (.file (s%"Package: odd\nVersion: 1.0\nDepends: R (>= 3.0)\n")) := by decide
      rw [show [s%"lib"] ++ [s%"odd", s%"DESCRIPTION"] = [s%"lib", s%"odd", s%"DESCRIPTION"] from rfl, this] at ht
      cases ht
      decide
  · have : shelf (s%"3.0") [s%"lib", s%"empty", s%"DESCRIPTION"] = none := by decide
    rw [show [s%"lib"] ++ [s%"empty", s%"DESCRIPTION"] = [s%"lib", s%"empty", s%"DESCRIPTION"] from rfl, this] at ht
    cases ht

/-- The hypotheses of `C161_found_partial` hold of that library, with packages that are found. -/
example : ∃ m, readLibrary (shelf (s%"3.0")) [s%"lib"] [s%"good", s%"odd", s%"empty"] = some m ∧
    (GoMap.get? m (s%"odd")).isSome ∧ GoMap.get? m (s%"empty") = none ∧
    (∀ p d, GoMap.get? m p = some d → ∃ n ∈ [s%"good", s%"odd", s%"empty"], PackageAt (shelf (s%"3.0")) [s%"lib"] n p d) := by
  have hno : readLibrary (shelf (s%"3.0")) [s%"lib"] [s%"good", s%"odd", s%"empty"] ≠ none := by decide +kernel
  obtain ⟨m, h1, h2, _⟩ := C161_found_partial _ _ _ shelf_wellFormed
    (fun h => hno ((C161_panics_written _ _ _ shelf_wellFormed).2 h))
  have h3 : ((readLibrary (shelf (s%"3.0")) [s%"lib"] [s%"good", s%"odd", s%"empty"]).map fun m =>
      (GoMap.get? m (s%"odd")).isSome && (GoMap.get? m (s%"empty")).isNone) = some true := by decide +kernel
  rw [h1] at h3
  simp only [Option.map_some, Option.some.injEq, Bool.and_eq_true, Option.isNone_iff_eq_none] at h3
  exact ⟨m, h1, h3.1, h3.2, h2⟩

/-- `C161_unreadable_ignored` on a library where one directory is empty and one file is not a DESCRIPTION. -/
example : readLibrary (shelf (s%"3.0")) [s%"lib"] [s%"good", s%"odd", s%"empty"] =
    readLibrary (shelf (s%"3.0")) [s%"lib"] [s%"good", s%"odd"] := by
  refine C161_unreadable_ignored _ _ _ (fun n => decide (n ≠ s%"empty")) ?_
  intro n hn hk t ht
  simp only [ne_eq, decide_not, Bool.not_eq_eq_eq_not, Bool.not_false, decide_eq_true_eq] at hk
  subst hk
  have : shelf (s%"3.0") [s%"lib", s%"empty", s%"DESCRIPTION"] = none := by decide
  have h2 := ht.2
  rw [show [s%"lib"] ++ [s%"empty", s%"DESCRIPTION"] = [s%"lib", s%"empty", s%"DESCRIPTION"] from rfl, this] at h2
  cases h2

end Pkgr
