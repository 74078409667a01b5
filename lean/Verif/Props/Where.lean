import Verif.Model.Where
import Verif.Props.Settings
import Verif.Props.ConfigFile

namespace Pkgr
open Pkgr.Spec

/-- C159: a library and a cache that are named in the configuration file are the directories that their paths denote in the
directory of that file. -/
theorem C159_from_file (home : Option Str) (cwd : Path) (config : Str) {s : LibrarySources} {l c : Str} (hs : s.flag = none)
    (henv : s.env = none ∨ s.env = some []) (hfile : s.file = some l) (hl : l ≠ []) (ht : l.head? ≠ some '~')
    (hc : c ≠ []) (htc : c.head? ≠ some '~') (base e : Path) :
    (libraryUsed home cwd config s = some e ↔ Leads (dirPath (configFileUsed home cwd config)) l e) ∧
    (cacheUsed home cwd config c base = some e ↔ Leads (dirPath (configFileUsed home cwd config)) c e) := by
  constructor
  · unfold libraryUsed
    rw [C102_named (.inr (.inr ⟨hs, henv, hfile⟩)) hl home, (C101_tilde home).1 l ht]
    simp only [Option.map_some, Option.some.injEq]
    exact absIn_iff _ _ _
  · unfold cacheUsed
    rw [(C101_tilde home).1 c htc]
    simp only [Option.map_some, Option.some.injEq]
    rw [← absIn_iff]
    unfold userCache absIn projectDir
    rw [if_pos hc]
    have : hasPrefix c (s%"/") = true ↔ c.head? = some '/' := by
      cases c with
      | nil => exact absurd rfl hc
      | cons a c => simp [hasPrefix, eq_comm]
    by_cases h : c.head? = some '/'
    · rw [if_pos h, if_pos (this.mpr h)]
    · rw [if_neg h, if_neg (fun h' => h (this.mp h'))]

/-- C159: so the library and the cache of a project are the same wherever and in whatever way pkgr is started, if it is with the
same configuration file. -/
theorem C159_anywhere (home : Option Str) {cwd cwd' : Path} {config config' : Str} (h : configFileUsed home cwd config = configFileUsed home cwd' config')
    (s : LibrarySources) (c : Str) (base : Path) :
    libraryUsed home cwd config s = libraryUsed home cwd' config' s ∧ cacheUsed home cwd config c base = cacheUsed home cwd' config' c base := by
  unfold libraryUsed cacheUsed projectDir
  rw [h]
  exact ⟨rfl, rfl⟩

/-- C159, partial: a library named on the command line or in PKGR_LIBRARY is the directory that its path denotes where pkgr is
started, if the path is absolute or the configuration file is in the directory in which pkgr is started.
Missing: relative paths and a configuration file elsewhere, see `C159_violated_option`. -/
theorem C159_option_partial (home : Option Str) (cwd : Path) (config : Str) {s : LibrarySources} {l : Str}
    (hs : s.flag = some l ∨ (s.flag = none ∧ s.env = some l)) (hl : l ≠ []) (ht : l.head? ≠ some '~')
    (h : l.head? = some '/' ∨ dirPath (configFileUsed home cwd config) = cwd) (e : Path) :
    libraryUsed home cwd config s = some e ↔ Leads cwd l e := by
  have hn : NamedLibrary s l := hs.elim .inl fun h => .inr (.inl ⟨h.1, h.2, hl⟩)
  unfold libraryUsed
  rw [C102_named hn hl home, (C101_tilde home).1 l ht]
  simp only [Option.map_some, Option.some.injEq]
  rw [absIn_iff]
  rcases h with h | h
  · rw [leads_iff, leads_iff, if_pos h, if_pos h]
  · unfold projectDir
    rw [h]

/-- C159 is violated for every relative path given on the command line or in PKGR_LIBRARY when the configuration file is not in
the directory in which pkgr is started: the library is the directory of that name beside the configuration file. -/
theorem C159_violated_option (home : Option Str) (cwd : Path) (config : Str) {s : LibrarySources} {n : Str}
    (hs : s.flag = some n ∨ (s.flag = none ∧ s.env = some n)) (hn : PlainName n) (ht : n.head? ≠ some '~')
    (hd : dirPath (configFileUsed home cwd config) ≠ cwd) :
    libraryUsed home cwd config s = some (dirPath (configFileUsed home cwd config) ++ [n]) ∧
    ¬ Leads cwd n (dirPath (configFileUsed home cwd config) ++ [n]) := by
  have hnm : NamedLibrary s n := hs.elim .inl fun h => .inr (.inl ⟨h.1, h.2, hn.1⟩)
  constructor
  · unfold libraryUsed
    rw [C102_named hnm hn.1 home, (C101_tilde home).1 n ht]
    simp only [Option.map_some, Option.some.injEq]
    exact absIn_plain _ _ hn
  · rw [← absIn_iff, absIn_plain _ _ hn]
    intro h
    exact hd (List.append_inj h (by have := congrArg List.length h; simpa using this)).1.symm

example : libraryUsed none [s%"home"] (s%"proj/pkgr.yml") { flag := some (s%"lib") } = some [s%"home", s%"proj", s%"lib"] ∧
    ¬ Leads [s%"home"] (s%"lib") [s%"home", s%"proj", s%"lib"] :=
  C159_violated_option none [s%"home"] (s%"proj/pkgr.yml") (.inl rfl) (by decide) (by decide) (by decide)

example : libraryUsed none [s%"home"] (s%"proj/pkgr.yml") { file := some (s%"../lib") } = some [s%"home", s%"lib"] ∧
    cacheUsed none [s%"home"] (s%"proj/pkgr.yml") (s%"../lib") [s%"root"] = some [s%"home", s%"lib"] :=
  let h := C159_from_file none [s%"home"] (s%"proj/pkgr.yml") (s := { file := some (s%"../lib") }) (l := s%"../lib") (c := s%"../lib") rfl (.inl rfl) rfl
    (by decide) (by decide) (by decide) (by decide) [s%"root"] [s%"home", s%"lib"]
  ⟨h.1.mpr ((leads_iff _ _ _).mpr (by decide)), h.2.mpr ((leads_iff _ _ _).mpr (by decide))⟩

example : libraryUsed none [s%"home"] (s%"proj/pkgr.yml") { file := some (s%"lib") } = libraryUsed none [s%"home", s%"proj"] [] { file := some (s%"lib") } :=
  (C159_anywhere none (by decide) _ [] []).1

example : libraryUsed none [s%"home"] (s%"proj/pkgr.yml") { env := some (s%"/opt/lib") } = some [s%"opt", s%"lib"] :=
  (C159_option_partial none [s%"home"] (s%"proj/pkgr.yml") (l := s%"/opt/lib") (.inr ⟨rfl, rfl⟩) (by decide) (by decide) (.inl rfl) _).mpr
    ((leads_iff _ _ _).mpr (by decide))

end Pkgr
