/- C116, C117, and more about C60: editing the configuration file. -/
import Verif.Model.ConfigFile
import Verif.Props.Config
import Verif.Props.Session

namespace Pkgr
open Spec

/-! ### C116 -/

theorem editedFile_plain (home : Option Str) (cwd : Path) (config : Str) (hne : config ≠ [])
    (ht : (cleanPath config).head? ≠ some '~') :
    editedFile home cwd config = absIn (dirPath (configFileUsed home cwd config)) config := by
  unfold editedFile
  dsimp only
  rw [if_neg hne]
  have : expandTilde home (cleanPath config) = some (cleanPath config) := by
    unfold expandTilde
    split
    · rename_i h
      rw [h] at ht
      exact absurd rfl ht
    · rfl
  rw [this]
  exact absIn_clean _ _

theorem absIn_plain (cwd : Path) (n : Str) (hn : PlainName n) : absIn cwd n = cwd ++ [n] := by
  rw [absIn_iff, leads_iff, splitOn_of_not_mem _ _ hn.2.2.2, if_neg]
  · show joinComp _ n = _
    unfold joinComp
    rw [if_neg (fun h => h.elim hn.1 hn.2.1), if_neg hn.2.2.1]
  · intro h
    exact hn.2.2.2 (List.mem_of_mem_head? (by rw [h]; rfl))

theorem cleanPath_plain (n : Str) (hn : PlainName n) : cleanPath n = n := by
  unfold cleanPath
  dsimp only
  have hh : n.head? ≠ some '/' := fun h => hn.2.2.2 (List.mem_of_mem_head? (by rw [h]; rfl))
  have h1 : cleanComp false [] n = [n] := by
    unfold cleanComp
    rw [if_neg (fun h => h.elim hn.1 hn.2.1), if_neg hn.2.2.1]
  have h2 : joinWith '/' (((splitOn '/' n).foldl (cleanComp false) []).reverse) = n := by
    rw [splitOn_of_not_mem _ _ hn.2.2.2, List.foldl_cons, List.foldl_nil, h1]
    rfl
  rw [decide_eq_false hh]
  simp only [h2, Bool.false_eq_true, if_false]
  rw [if_neg hn.1]

/-- C116 (partial). `add` and `remove` edit the configuration file that is in use, if this is `pkgr.yml` in the current
directory, another file in the current directory, or a file given by its absolute path. -/
theorem C116_same_file_partial (home : Option Str) (cwd : Path) (config : Str)
    (h : config = [] ∨ (PlainName config ∧ config.head? ≠ some '~') ∨ ∃ d n, config = d ++ '/' :: n ∧ PlainName n ∧ config.head? = some '/') :
    editedFile home cwd config = configFileUsed home cwd config := by
  rcases h with rfl | ⟨hp, ht⟩ | ⟨d, n, rfl, hn, hroot⟩
  · have e : cleanPath (s%"pkgr.yml") = s%"pkgr.yml" := by decide
    unfold editedFile configFileUsed
    dsimp only
    rw [if_pos rfl, e]
    show absIn (dirPath (absIn cwd (s%"pkgr.yml"))) (s%"pkgr.yml") = absIn cwd (s%"pkgr.yml")
    have hp : PlainName (s%"pkgr.yml") := by decide
    rw [absIn_plain cwd _ hp, absIn_plain _ _ hp]
    unfold dirPath
    rw [List.dropLast_concat]
  · have ht' : (cleanPath config).head? ≠ some '~' := by rwa [cleanPath_plain _ hp]
    rw [editedFile_plain home cwd config hp.1 ht', configFileUsed_plain home cwd config hp.1 ht', absIn_plain cwd _ hp,
      absIn_plain _ _ hp]
    unfold dirPath
    rw [List.dropLast_concat]
  · have hclean : (cleanPath (d ++ '/' :: n)).head? ≠ some '~' := by
      unfold cleanPath
      dsimp only
      rw [hroot]
      simp
    rw [editedFile_plain home cwd _ (by simp) hclean, configFileUsed_plain home cwd _ (by simp) hclean, absIn_file _ d n hn,
      absIn_file _ d n hn, hroot]
    rfl

example : PlainName (s%"my.yml") ∧ editedFile none [s%"proj"] (s%"my.yml") = [s%"proj", s%"my.yml"] ∧
    editedFile none [s%"home"] (s%"/proj/a/pkgr.yml") = [s%"proj", s%"a", s%"pkgr.yml"] := by decide

/-- C116 fails for a configuration file `d/n` given by a relative path: the file that is edited is the one that `d/n`
denotes in the directory of the configuration file, not in the directory pkgr was started in. -/
theorem C116_violated_relative (home : Option Str) (cwd : Path) (d n : Str) (hn : PlainName n) (hrel : (d ++ '/' :: n).head? ≠ some '/')
    (ht : (cleanPath (d ++ '/' :: n)).head? ≠ some '~') (base e : Path) (hb : Leads cwd d base) (he : Leads base d e) :
    configFileUsed home cwd (d ++ '/' :: n) = base ++ [n] ∧ editedFile home cwd (d ++ '/' :: n) = e ++ [n] := by
  have h1 := (C114_violated_relative home cwd d n hn hrel ht base e hb he).1
  refine ⟨h1, ?_⟩
  have hd : d.head? ≠ some '/' := by
    cases d with
    | nil => simp
    | cons => exact hrel
  rw [editedFile_plain home cwd _ (by simp) ht, h1, absIn_file _ d n hn, if_neg hrel]
  unfold dirPath
  rw [List.dropLast_concat]
  rw [leads_iff, if_neg hd] at he
  rw [he]

/-- C116 fails: with `--config sub/pkgr.yml`, `add` fails although this file is fine, and if there is a file
`sub/sub/pkgr.yml`, it is that one which is changed. -/
theorem C116_violated :
    (∃ (fs : Fs) (c : Str), fs (configFileUsed none [s%"proj"] (s%"sub/pkgr.yml")) = some (.file c) ∧
      rAdd (fun _ => some []) (editedFile none [s%"proj"] (s%"sub/pkgr.yml")) [s%"R6"] fs = ([], .fatal)) ∧
    (∃ (fs : Fs) (c : Str), fs (configFileUsed none [s%"proj"] (s%"sub/pkgr.yml")) = some (.file c) ∧
      (rAdd (fun _ => some []) (editedFile none [s%"proj"] (s%"sub/pkgr.yml")) [s%"R6"] fs).2 = .ok ∧
      finalState fs (rAdd (fun _ => some []) (editedFile none [s%"proj"] (s%"sub/pkgr.yml")) [s%"R6"] fs).1 [s%"proj", s%"sub", s%"pkgr.yml"] = some (.file c) ∧
      finalState fs (rAdd (fun _ => some []) (editedFile none [s%"proj"] (s%"sub/pkgr.yml")) [s%"R6"] fs).1 [s%"proj", s%"sub", s%"sub", s%"pkgr.yml"] =
        some (.file (s%"Packages:\n- R6\n- A\n"))) := by
  refine ⟨⟨fun q => if q = [s%"proj", s%"sub", s%"pkgr.yml"] then some (.file (s%"Packages:\n- A\n")) else none, _, rfl, rfl⟩,
    ⟨fun q => if q = [s%"proj", s%"sub", s%"pkgr.yml"] then some (.file (s%"Packages:\n- B\n"))
      else if q = [s%"proj", s%"sub", s%"sub", s%"pkgr.yml"] then some (.file (s%"Packages:\n- A\n")) else none, _, rfl, ?_, ?_, ?_⟩⟩
  · decide +kernel
  · decide +kernel
  · decide +kernel

/-- C116: `add --install` installs what the edited file says: the configuration that is read for the installation is the
file that has just been edited, however it was named. -/
theorem C116_install_reads_edited (home : Option Str) (cwd : Path) (config : Str) :
    rereadFile home cwd config = editedFile home cwd config := rfl

/-! ### C117 -/

theorem writeStates_other {fs s : Fs} {p : Path} {c : Str} (h : s ∈ writeStates fs p c) (q : Path) (hq : q ≠ p) : s q = fs q := by
  obtain ⟨k, _, rfl⟩ := List.mem_map.1 h
  unfold Fs.set
  rw [if_neg hq]

theorem writeStates_last (fs0 fs : Fs) (p : Path) (c : Str) : finalState fs0 (writeStates fs p c) = fs.set p (.file c) := by
  unfold finalState writeStates
  rw [List.range_succ, List.map_append, List.map_singleton, List.getLast?_append]
  simp

/-- C117: `add` changes no file but the one it edits, at no time; and if it does not end well, nothing at all. -/
theorem C117_add_only_that_file (yaml : Str → Option (List Str)) (file : Path) (args : List Str) (fs : Fs) :
    (∀ s ∈ (rAdd yaml file args fs).1, ∀ q, q ≠ file → s q = fs q) ∧
    ((rAdd yaml file args fs).2 ≠ .ok → (rAdd yaml file args fs).1 = []) := by
  unfold rAdd
  split
  · exact ⟨fun s hs => (by cases hs), fun _ => rfl⟩
  split
  · split
    · exact ⟨fun s hs => (by cases hs), fun _ => rfl⟩
    · exact ⟨fun s hs => (by cases hs), fun _ => rfl⟩
    · exact ⟨fun s hs q hq => writeStates_other hs q hq, fun h => absurd rfl h⟩
  · exact ⟨fun s hs => (by cases hs), fun _ => rfl⟩

/-- C117: when `add` ends well, the file has the edited content. -/
theorem C117_add_result (yaml : Str → Option (List Str)) (file : Path) (args : List Str) (fs : Fs) (h : (rAdd yaml file args fs).2 = .ok) :
    ∃ c c', fs file = some (.file c) ∧ addPackages yaml c args = .written c' ∧
      finalState fs (rAdd yaml file args fs).1 = fs.set file (.file c') := by
  unfold rAdd at h ⊢
  split at h
  · simp at h
  rename_i hne
  rw [if_neg hne]
  split at h
  · rename_i c hc
    split at h
    · simp at h
    · simp at h
    · rename_i c' hc'
      exact ⟨c, c', hc, hc', writeStates_last _ _ _ _⟩
  · simp at h

/-- C117: `remove` changes no file but the one it edits, at no time. -/
theorem C117_remove_only_that_file (file : Path) (args : List Str) (fs : Fs) :
    ∀ s ∈ (rRemove file args fs).1, ∀ q, q ≠ file → s q = fs q := by
  have : ∀ fs : Fs, ∀ s ∈ (removeArgs file args fs).1, ∀ q, q ≠ file → s q = fs q := by
    induction args with
    | nil => intro fs s hs; cases hs
    | cons a as ih =>
      intro fs s hs q hq
      unfold removeArgs at hs
      split at hs
      · dsimp only at hs
        rcases List.mem_append.1 hs with hs | hs
        · exact writeStates_other hs q hq
        · rw [ih _ s hs q hq]
          unfold Fs.set
          rw [if_neg hq]
      · cases hs
  unfold rRemove
  split
  · intro s hs; cases hs
  · exact this fs

theorem finalState_append (fs : Fs) (a b : List Fs) : finalState fs (a ++ b) = finalState (finalState fs a) b := by
  unfold finalState
  rw [List.getLast?_append]
  cases b.getLast? <;> rfl

/-- C117: `remove` with several packages, on a file that is there, ends well, and the file has the content that results from
removing one after the other. -/
theorem C117_remove_result (file : Path) (args : List Str) (fs : Fs) (c : Str) (hne : args ≠ []) (hc : fs file = some (.file c)) :
    (rRemove file args fs).2 = .ok ∧ finalState fs (rRemove file args fs).1 = fs.set file (.file (args.foldl removePackage c)) := by
  have hset : ∀ (fs : Fs) (c : Str), fs file = some (.file c) → fs.set file (.file c) = fs := by
    intro fs c h
    funext q
    unfold Fs.set
    split
    · rename_i e; rw [e, h]
    · rfl
  have : ∀ (fs : Fs) (c : Str), fs file = some (.file c) →
      (removeArgs file args fs).2 = .ok ∧ finalState fs (removeArgs file args fs).1 = fs.set file (.file (args.foldl removePackage c)) := by
    clear hne hc
    induction args with
    | nil => intro fs c h; exact ⟨rfl, (hset fs c h).symm⟩
    | cons a as ih =>
      intro fs c h
      unfold removeArgs
      rw [h]
      dsimp only
      have h' : (fs.set file (.file (removePackage c a))) file = some (.file (removePackage c a)) := by
        unfold Fs.set; rw [if_pos rfl]
      obtain ⟨i1, i2⟩ := ih _ _ h'
      refine ⟨i1, ?_⟩
      rw [finalState_append, writeStates_last, i2]
      funext q
      unfold Fs.set
      split <;> rfl
  unfold rRemove
  rw [if_neg hne]
  exact this fs c hc

/-- C117 fails: whenever `add` changes the file, there is a moment at which the file is empty; a run that is interrupted
then has lost the configuration. -/
theorem C117_violated_interrupted (yaml : Str → Option (List Str)) (file : Path) (args : List Str) (fs : Fs)
    (h : (rAdd yaml file args fs).2 = .ok) : ∃ s ∈ (rAdd yaml file args fs).1, s file = some (.file []) := by
  unfold rAdd at h ⊢
  split at h
  · simp at h
  rename_i hne
  rw [if_neg hne]
  split at h
  · rename_i c hc
    split at h
    · simp at h
    · simp at h
    · rename_i c' hc'
      refine ⟨fs.set file (.file []), List.mem_map.2 ⟨0, by simp, by simp⟩, ?_⟩
      unfold Fs.set
      rw [if_pos rfl]
  · simp at h

/-- C117 fails in the same way for `remove`, even if there is nothing to be removed. -/
theorem C117_violated_interrupted_remove (file : Path) (args : List Str) (fs : Fs) (c : Str) (hne : args ≠ []) (hc : fs file = some (.file c)) :
    ∃ s ∈ (rRemove file args fs).1, s file = some (.file []) := by
  unfold rRemove
  rw [if_neg hne]
  cases args with
  | nil => exact absurd rfl hne
  | cons a as =>
    unfold removeArgs
    rw [hc]
    refine ⟨fs.set file (.file []), List.mem_append_left _ (List.mem_map.2 ⟨0, by simp, by simp⟩), ?_⟩
    unfold Fs.set
    rw [if_pos rfl]

/-- Non-vacuity: a file with an entry, to which another one is added and from which it is removed. -/
example : let fs : Fs := fun q => if q = [s%"p.yml"] then some (.file (s%"Packages:\n- A\n")) else none
    (rAdd (fun _ => some [s%"A"]) [s%"p.yml"] [s%"B"] fs).2 = .ok ∧
    finalState fs (rAdd (fun _ => some [s%"A"]) [s%"p.yml"] [s%"B"] fs).1 [s%"p.yml"] = some (.file (s%"Packages:\n- B\n- A\n")) ∧
    finalState fs (rRemove [s%"p.yml"] [s%"A", s%"B"] fs).1 [s%"p.yml"] = some (.file (s%"Packages:\n")) := by
  decide +kernel

/-! ### C60: several packages -/

/-- C60: removing several packages deletes exactly the lines that begin as an entry for one of them, whatever the order in
which they are given. -/
theorem C60_several (ls args : List Str) (h : ∀ l ∈ ls, '\n' ∉ l) :
    args.foldl removePackage (textOf ls) = textOf (ls.filter fun l => decide (∀ a ∈ args, ¬ BeginsAs a l)) := by
  induction args generalizing ls with
  | nil =>
    rw [List.foldl_nil]
    congr 1
    symm
    rw [List.filter_eq_self]
    intro l _
    simp
  | cons a as ih =>
    rw [List.foldl_cons, C60_exact_lines ls a h, ih _ fun l hl => h l (List.mem_filter.1 hl).1, List.filter_filter]
    congr 1
    apply List.filter_congr
    intro l _
    by_cases h1 : BeginsAs a l
    · simp [h1]
    · simp [h1]

end Pkgr
