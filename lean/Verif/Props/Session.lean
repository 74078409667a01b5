/- C113 (the contents of the load report), C114 (where load runs R), C115 (`pkgr run`). -/
import Verif.Spec.Session
import Verif.Spec.Rollback
import Verif.Props.Load
import Verif.Props.RSettings
import Verif.Props.EnvMore

namespace Pkgr
open Spec

/-! ### C113 -/

theorem scan_textOf_any (o : Bool) (ls : List Str) (h : ∀ l ∈ ls, '\n' ∉ l ∧ l.getLast? ≠ some '\r') :
    scanROutput o (textOf ls) = (ls.map fun l => trimSpace (withoutNo l)).filter fun l => !l.isEmpty && !(o && hasPrefix l (s%">")) := by
  unfold scanROutput readLines
  rw [splitOn_textOf _ fun l hl => (h l hl).1]
  simp only [List.getLast?_append, List.getLast?_singleton, Option.some_or, List.dropLast_concat, if_true, List.map_map]
  congr 1
  apply List.map_congr_left
  intro l hl
  have : dropCR l = l := by unfold dropCR; rw [if_neg (h l hl).2]
  simp only [Function.comp, this, dropLineNo_eq]

theorem takeWhile_numeral (d : Str) (h : IsNumeral d) (r : Str) :
    (d ++ ']' :: r).takeWhile (fun c => decide ('0'.toNat ≤ c.toNat ∧ c.toNat ≤ '9'.toNat)) = d := by
  have hd := h.2
  clear h
  induction d with
  | nil => rfl
  | cons c d ih =>
    rw [List.cons_append, List.takeWhile_cons, if_pos (by simpa using hd c (by simp)), ih fun x hx => hd x (by simp [hx])]

theorem row_says {l x : Str} (h : Row l x) : trimSpace (withoutNo l) = '"' :: (x ++ ['"']) := by
  obtain ⟨d, n, hd, rfl⟩ := h
  have h1 : withoutNo ('[' :: (d ++ (']' :: ' ' :: '"' :: (x ++ ('"' :: List.replicate n ' '))))) =
      ' ' :: '"' :: (x ++ ('"' :: List.replicate n ' ')) := by
    unfold withoutNo
    have e1 : List.drop 1 ('[' :: (d ++ (']' :: ' ' :: '"' :: (x ++ ('"' :: List.replicate n ' '))))) =
        d ++ (']' :: ' ' :: '"' :: (x ++ ('"' :: List.replicate n ' '))) := rfl
    dsimp only
    rw [e1, takeWhile_numeral d hd]
    rw [if_pos]
    · rw [show 2 + d.length = (d.length + 1) + 1 by omega, List.drop_succ_cons, ← List.drop_drop, List.drop_left]
      rfl
    · refine ⟨rfl, hd.1, ?_⟩
      rw [show 1 + d.length = d.length + 1 by omega, List.drop_succ_cons, List.drop_left]
      rfl
  rw [h1, trimSpace_iff]
  refine ⟨[' '], List.replicate n ' ', by simp, ?_, ?_, ?_, ?_⟩
  · intro c hc
    rw [List.mem_singleton.1 hc]
    decide
  · intro c hc
    rw [(List.mem_replicate.1 hc).2]
    decide
  · intro c hc
    simp only [List.head?_cons, Option.some.injEq] at hc
    rw [← hc]
    decide
  · intro c hc
    rw [← List.cons_append, List.getLast?_append] at hc
    simp only [List.getLast?_singleton, Option.some_or, Option.some.injEq] at hc
    rw [← hc]
    decide

theorem row_line {l x : Str} (h : Row l x) (hx : Simple x) : '\n' ∉ l ∧ l.getLast? ≠ some '\r' := by
  obtain ⟨d, n, hd, rfl⟩ := h
  constructor
  · have h1 : '\n' ∉ d := by
      intro hm
      have := (hd.2 _ hm).1
      exact absurd this (by decide)
    have h2 : '\n' ∉ List.replicate n ' ' := by
      intro hm
      exact absurd (List.mem_replicate.1 hm).2 (by decide)
    have h3 := hx.2
    simp only [List.mem_cons, List.mem_append, not_or]
    exact ⟨by decide, h1, by decide, by decide, by decide, h3, by decide, h2⟩
  · have e : '[' :: (d ++ (']' :: ' ' :: '"' :: (x ++ ('"' :: List.replicate n ' ')))) =
        ('[' :: (d ++ (']' :: ' ' :: '"' :: x))) ++ ('"' :: List.replicate n ' ') := by simp
    rw [e, List.getLast?_append]
    cases n with
    | zero => simp
    | succ n =>
      rw [List.replicate_succ', ← List.cons_append, List.getLast?_append]
      simp

theorem unquote_simple {x : Str} (h : Simple x) : unquote ('"' :: (x ++ ['"'])) = x := by
  unfold unquote
  rw [List.filter_cons, if_neg (by simp), List.filter_append]
  have : x.filter (fun c => decide (c ≠ '"')) = x := by
    rw [List.filter_eq_self]
    intro c hc
    rw [decide_eq_true_eq]
    rintro rfl
    exact h.1 hc
  rw [this]
  simp

theorem rows_scan {ls xs : List Str} (h : Rows ls xs) (hx : ∀ x ∈ xs, Simple x) :
    scanROutput true (textOf ls) = xs.map fun x => '"' :: (x ++ ['"']) := by
  have hl : ∀ l ∈ ls, '\n' ∉ l ∧ l.getLast? ≠ some '\r' := by
    induction h with
    | nil => intro l hl; cases hl
    | cons hr hrs ih =>
      intro l hl
      rcases List.mem_cons.1 hl with rfl | hl
      · exact row_line hr (hx _ (by simp))
      · exact ih (fun x hx' => hx x (by simp [hx'])) l hl
  rw [scan_textOf_any true ls hl]
  clear hl hx
  induction h with
  | nil => rfl
  | cons hr hrs ih =>
    rw [List.map_cons, row_says hr, List.filter_cons, if_pos (by rfl), ih, List.map_cons]

/-- Plain lines of output are shown as they are. -/
theorem shown_lines (ls : List Str) (h : ∀ l ∈ ls, '\n' ∉ l ∧ l ≠ [] ∧ Says l l) :
    joinWith '\n' (scanROutput false (textOf ls)) = (textOf ls).dropLast := by
  have hcr : ∀ l ∈ ls, '\n' ∉ l ∧ l.getLast? ≠ some '\r' := by
    intro l hl
    obtain ⟨h1, h2, h3⟩ := h l hl
    refine ⟨h1, fun hc => ?_⟩
    obtain ⟨_, _, _, _, _, _, h6⟩ := h3
    exact h6 _ hc (by decide)
  rw [scan_textOf_any false ls hcr]
  have h1 : (ls.map fun l => trimSpace (withoutNo l)) = ls := by
    conv => rhs; rw [← List.map_id ls]
    apply List.map_congr_left
    intro l hl
    exact (trimSpace_iff _ _).2 (h l hl).2.2
  rw [h1]
  have h2 : (ls.filter fun l => !l.isEmpty && !(false && hasPrefix l (s%">"))) = ls := by
    rw [List.filter_eq_self]
    intro l hl
    have := (h l hl).2.1
    cases l <;> simp_all
  rw [h2]
  clear h hcr h1 h2
  induction ls with
  | nil => rfl
  | cons l ls ih =>
    cases ls with
    | nil => simp [joinWith, textOf]
    | cons m ls =>
      have : textOf (l :: m :: ls) = l ++ '\n' :: textOf (m :: ls) := by simp [textOf]
      rw [this]
      have hne : textOf (m :: ls) ≠ [] := by simp [textOf]
      rw [List.dropLast_append_of_ne_nil (by simp), List.dropLast_cons_of_ne_nil hne, ← ih]
      rfl

/-- C113 (partial: no package listed twice). In the finished report, whatever the schedule, every package that is tested has
a result; it is a success iff `library('p')`, evaluated by the configured R in the given directory and in the environment
in which pkgr was started, ends with status zero; what that R printed is in the report (if it prints lines without
white space at their ends, numbers in brackets at their beginning, or empty lines); and path and version are those R
prints for the package, or said to be unknown if the R that is asked for them fails. -/
theorem C113_report_partial {threads : Int} {pkgs : List Str} {k : Nat} {s t : LoadState} (R : Proc → ProcOut) (rs : RSettings)
    (dir : Path) (hnd : pkgs.Nodup) (h0 : loadStart threads pkgs = some s)
    (hr : LoadRun (threads * 2).toNat pkgs (fun i => sessionOf R rs dir (pkgs[i]?.getD [])) k s t) (hc : t.closed = true) :
    ∀ p ∈ pkgs, ∃ r, t.report.results.get? p = some r ∧ r.package = p ∧
      (r.success = true ↔ (R (evaluation (rs.R false) dir (s%"library('" ++ p ++ s%"')"))).ending = .zero) ∧
      (∀ ls : List Str, (∀ l ∈ ls, '\n' ∉ l ∧ l ≠ [] ∧ Says l l) →
        (R (evaluation (rs.R false) dir (s%"library('" ++ p ++ s%"')"))).stdout = textOf ls → r.stdout = (textOf ls).dropLast) ∧
      (∀ ls : List Str, (∀ l ∈ ls, '\n' ∉ l ∧ l ≠ [] ∧ Says l l) →
        (R (evaluation (rs.R false) dir (s%"library('" ++ p ++ s%"')"))).stderr = textOf ls → r.stderr = (textOf ls).dropLast) ∧
      (∀ path version rows, Rows rows [path, version] → Simple path → Simple version →
        R (evaluation (rs.R false) dir (s%"find.package('" ++ p ++ s%"'); as.character(packageVersion('" ++ p ++ s%"'))")) =
          { stdout := textOf rows, stderr := [], ending := .zero } →
        r.path = path ∧ r.version = version) ∧
      ((R (evaluation (rs.R false) dir (s%"find.package('" ++ p ++ s%"'); as.character(packageVersion('" ++ p ++ s%"'))"))).ending ≠ .zero →
        r.path = s%"could not retrieve" ∧ r.version = s%"could not retrieve") := by
  intro p hp
  obtain ⟨r, h1, h2, h3, h4, h5, _, _, h6, h7⟩ := (C75_exact_partial (sess := sessionOf R rs dir) hnd h0 hr hc).2.1 p hp
  refine ⟨r, h1, h2, h3, ?_, ?_, ?_, ?_⟩
  · intro ls hls hout
    have hout' : (R (loadProc rs dir (libraryExpr p))).stdout = textOf ls := hout
    rw [h4]
    unfold sessionOf runRCmd
    dsimp only
    rw [hout', shown_lines ls hls]
  · intro ls hls hout
    have hout' : (R (loadProc rs dir (libraryExpr p))).stderr = textOf ls := hout
    rw [h5]
    unfold sessionOf runRCmd
    dsimp only
    rw [hout', shown_lines ls hls]
  rotate_left
  · intro hR
    refine h7 fun a b => ?_
    have hR' : (R (loadProc rs dir (infoExpr p))).ending ≠ .zero := hR
    unfold sessionOf runRCmd
    dsimp only
    split
    · rename_i h; exact absurd h hR'
    · simp
  intro path version rows hrows hs1 hs2 hR
  have hinfo : (sessionOf R rs dir p).info = some (scanROutput true (textOf rows)) := by
    have : R (loadProc rs dir (infoExpr p)) = { stdout := textOf rows, stderr := [], ending := .zero } := hR
    unfold sessionOf runRCmd
    dsimp only
    rw [this]
  rw [rows_scan hrows (by intro x hx; simp at hx; rcases hx with rfl | rfl <;> assumption)] at hinfo
  obtain ⟨e1, e2⟩ := h6 _ _ hinfo
  refine ⟨e1.trans ?_, e2.trans ?_⟩
  · exact unquote_simple hs1
  · exact unquote_simple hs2

/-- C113 (partial). The library paths in the report are those R prints, if it prints one on each row, prints nothing on
the error stream, and ends well. -/
theorem C113_libpaths_partial (R : Proc → ProcOut) (rs : RSettings) (dir : Path) (paths rows : List Str)
    (hrows : Rows rows paths) (hs : ∀ p ∈ paths, Simple p)
    (hR : R (evaluation (rs.R false) dir (s%".libPaths()")) = { stdout := textOf rows, stderr := [], ending := .zero }) :
    sessionLibPaths R rs dir = paths := by
  have hR' : R (loadProc rs dir (s%".libPaths()")) = { stdout := textOf rows, stderr := [], ending := .zero } := hR
  unfold sessionLibPaths runRCmd
  dsimp only
  rw [hR']
  dsimp only
  rw [if_neg (by
    rintro (h | h)
    · exact h rfl
    · exact absurd h (by decide)), rows_scan hrows hs, List.map_map]
  conv => rhs; rw [← List.map_id paths]
  apply List.map_congr_left
  intro x hx
  exact unquote_simple (hs x hx)

/-- C113: when R fails or prints anything but white space on the error stream, no library paths are given. -/
theorem C113_libpaths_unknown (R : Proc → ProcOut) (rs : RSettings) (dir : Path)
    (h : (R (evaluation (rs.R false) dir (s%".libPaths()"))).ending ≠ .zero ∨
      ∃ ls : List Str, (R (evaluation (rs.R false) dir (s%".libPaths()"))).stderr = textOf ls ∧ (∀ l ∈ ls, '\n' ∉ l ∧ l.getLast? ≠ some '\r') ∧
        ∃ l ∈ ls, ∃ t, Says l t ∧ t ≠ []) :
    sessionLibPaths R rs dir = [s%"could not retrieve libpaths"] := by
  unfold sessionLibPaths runRCmd
  dsimp only
  rw [if_pos]
  rcases h with h | ⟨ls, h1, h2, l, hl, t, ht, hne⟩
  · exact Or.inl h
  · right
    have h1' : (R (loadProc rs dir (s%".libPaths()"))).stderr = textOf ls := h1
    rw [h1', scan_textOf ls h2]
    have : t ∈ (ls.map fun l => trimSpace (withoutNo l)).filter fun l => !l.isEmpty := by
      rw [List.mem_filter]
      refine ⟨List.mem_map.2 ⟨l, hl, (trimSpace_iff _ _).2 ht⟩, ?_⟩
      cases t with
      | nil => exact absurd rfl hne
      | cons => rfl
    exact List.length_pos_of_mem this

/-- C113 fails: R prints two library paths that are short enough on one row, and then the report has them as one. -/
theorem C113_violated_libpaths : ∃ (R : Proc → ProcOut) (rs : RSettings) (dir : Path),
    R (evaluation (rs.R false) dir (s%".libPaths()")) = { stdout := s%"[1] \"/proj/lib\" \"/usr/R\"   \n", stderr := [], ending := .zero } ∧
    sessionLibPaths R rs dir = [s%"/proj/lib /usr/R"] :=
  ⟨fun _ => { stdout := s%"[1] \"/proj/lib\" \"/usr/R\"   \n", stderr := [], ending := .zero }, {}, [], rfl, by decide⟩

/-- An R in which `A` can be loaded and nothing else. -/
def sesR : Proc → ProcOut := fun p =>
  if p.args.getLast? = some (s%"library('A')") then {}
  else if p.args.getLast? = some (s%"find.package('A'); as.character(packageVersion('A'))") then
    { stdout := s%"[1] \"/proj/lib/A\"\n[1] \"1.2\"\n" }
  else if p.args.getLast? = some (s%".libPaths()") then { stdout := s%"[1] \"/proj/lib\"  \n[2] \"/usr/R\"\n" }
  else { ending := .nonzero (s%"exit status 1"), stderr := s%"Error\n" }

/-- Non-vacuity: what R prints for `A` is of the form in `C113_report_partial`, `B` fails. -/
example : Rows [s%"[1] \"/proj/lib/A\"", s%"[1] \"1.2\""] [s%"/proj/lib/A", s%"1.2"] ∧
    (sesR (evaluation (s%"R") [] (infoExpr (s%"A")))) = { stdout := textOf [s%"[1] \"/proj/lib/A\"", s%"[1] \"1.2\""] } ∧
    attemptLoad (s%"A") (sessionOf sesR {} [] (s%"A")) = some { package := s%"A", version := s%"1.2", path := s%"/proj/lib/A", success := true } ∧
    (attemptLoad (s%"B") (sessionOf sesR {} [] (s%"B"))).map LoadResult.success = some false := by
  refine ⟨.cons ⟨s%"1", 0, ⟨by decide, by decide⟩, rfl⟩ (.cons ⟨s%"1", 0, ⟨by decide, by decide⟩, rfl⟩ .nil), by decide, by decide, by decide⟩

/-- Non-vacuity of the theorems about library paths. -/
example : sessionLibPaths sesR {} [] = [s%"/proj/lib", s%"/usr/R"] :=
  C113_libpaths_partial sesR {} [] _ [s%"[1] \"/proj/lib\"  ", s%"[2] \"/usr/R\""]
    (.cons ⟨s%"1", 2, ⟨by decide, by decide⟩, rfl⟩ (.cons ⟨s%"2", 0, ⟨by decide, by decide⟩, rfl⟩ .nil)) (by decide) (by decide)

/-! ### C114 -/

theorem absIn_iff (cwd : Path) (s : Str) (e : Path) : absIn cwd s = e ↔ Leads cwd s e := by
  rw [leads_iff]
  unfold absIn joinPath
  split <;> rfl

theorem absIn_clean (cwd : Path) (s : Str) : absIn cwd (cleanPath s) = absIn cwd s :=
  (absIn_iff _ _ _).2 ((cleanPath_leads _ _ _).2 ((absIn_iff _ _ _).1 rfl))

theorem reverse_dropWhile_file (d n : Str) (hn : '/' ∉ n) : ((d ++ '/' :: n).reverse.dropWhile (· ≠ '/')).reverse = d ++ ['/'] := by
  have h : (d ++ '/' :: n).reverse = n.reverse ++ '/' :: d.reverse := by simp
  rw [h]
  have : ∀ (a b : Str), '/' ∉ a → (a ++ '/' :: b).dropWhile (fun c => decide (c ≠ '/')) = '/' :: b := by
    intro a b ha
    induction a with
    | nil => simp
    | cons c a ih =>
      rw [List.cons_append, List.dropWhile_cons, if_pos (by simpa using fun e => ha (by simp [e])),
        ih fun hm => ha (by simp [hm])]
  rw [this _ _ (by simpa using hn)]
  simp

theorem head_file (d n : Str) : (d ++ '/' :: n).head? = (d ++ ['/']).head? := by cases d <;> rfl

theorem splitOn_snoc (d n : Str) (hn : '/' ∉ n) : splitOn '/' (d ++ '/' :: n) = splitOn '/' d ++ [n] := by
  have hj : d ++ '/' :: n = joinWith '/' (splitOn '/' d ++ [n]) := by
    have h1 : joinWith '/' (splitOn '/' d ++ [n]) = joinWith '/' (splitOn '/' d) ++ '/' :: n := by
      have := splitOn_ne_nil '/' d
      generalize splitOn '/' d = l at this
      induction l with
      | nil => exact absurd rfl this
      | cons a l ih =>
        cases l with
        | nil => rfl
        | cons b l =>
          show a ++ '/' :: joinWith '/' ((b :: l) ++ [n]) = (a ++ '/' :: joinWith '/' (b :: l)) ++ '/' :: n
          rw [ih (by simp)]
          simp
    rw [h1, joinWith_splitOn]
  rw [hj, splitOn_joinWith _ _ (by simp)]
  intro x hx
  rcases List.mem_append.1 hx with h | h
  · exact splitOn_mem _ _ _ h
  · rw [List.mem_singleton.1 h]; exact hn

/-- The directory part of a path that ends with a file name. -/
theorem absIn_dirStr (cwd : Path) (d n : Str) (hn : '/' ∉ n) :
    absIn cwd (dirStr (d ++ '/' :: n)) = (splitOn '/' d).foldl joinComp (if (d ++ '/' :: n).head? = some '/' then [] else cwd) := by
  unfold dirStr
  rw [reverse_dropWhile_file d n hn, absIn_clean, absIn_iff, leads_iff, splitOn_snoc d [] (by simp), List.foldl_append, head_file d n]
  rfl

theorem absIn_file (cwd : Path) (d n : Str) (hn : PlainName n) :
    absIn cwd (d ++ '/' :: n) = (splitOn '/' d).foldl joinComp (if (d ++ '/' :: n).head? = some '/' then [] else cwd) ++ [n] := by
  rw [absIn_iff, leads_iff, splitOn_snoc d n hn.2.2.2, List.foldl_append]
  show joinComp _ n = _
  generalize (splitOn '/' d).foldl joinComp _ = b
  unfold joinComp
  rw [if_neg (fun h => h.elim hn.1 hn.2.1), if_neg hn.2.2.1]

theorem configFileUsed_plain (home : Option Str) (cwd : Path) (config : Str) (hne : config ≠ [])
    (ht : (cleanPath config).head? ≠ some '~') : configFileUsed home cwd config = absIn cwd config := by
  unfold configFileUsed
  dsimp only
  rw [if_neg hne]
  have : expandTilde home (cleanPath config) = some (cleanPath config) := by
    unfold expandTilde
    split
    · rename_i h
      rw [h] at ht
      exact absurd rfl ht
    · rfl
  rw [this]
  exact absIn_clean _ _

/-- C114 (partial). The R sessions of `pkgr load` run in the directory of the configuration file, if this is `pkgr.yml` in
the current directory, another file in the current directory, or a file given by its absolute path. -/
theorem C114_directory_partial (home : Option Str) (cwd : Path) (config : Str)
    (h : config = [] ∨ (PlainName config ∧ config.head? ≠ some '~') ∨ ∃ d n, config = d ++ '/' :: n ∧ PlainName n ∧ config.head? = some '/') :
    loadDirectory home cwd config = dirPath (configFileUsed home cwd config) := by
  unfold loadDirectory
  dsimp only
  rcases h with rfl | ⟨hp, ht⟩ | ⟨d, n, rfl, hn, hroot⟩
  · rw [if_pos rfl]
  · rw [if_neg hp.1]
    have h1 : dirStr config = s%"." := by
      unfold dirStr
      have : config.reverse.dropWhile (fun c => decide (c ≠ '/')) = [] := by
        have hr : '/' ∉ config.reverse := fun hm => hp.2.2.2 (List.mem_reverse.1 hm)
        generalize config.reverse = l at hr
        induction l with
        | nil => rfl
        | cons c l ih =>
          rw [List.dropWhile_cons, if_pos (by simpa using fun e => hr (by simp [e])), ih fun hm => hr (by simp [hm])]
      rw [this]
      rfl
    rw [h1]
    rfl
  · rw [if_neg (by simp)]
    have hclean : (cleanPath (d ++ '/' :: n)).head? ≠ some '~' := by
      unfold cleanPath
      dsimp only
      rw [hroot]
      simp
    rw [configFileUsed_plain home cwd _ (by simp) hclean, absIn_dirStr _ d n hn.2.2.2, absIn_file _ d n hn, hroot]
    unfold dirPath
    rw [List.dropLast_concat]
    rfl

example : PlainName (s%"pkgr-load.yml") ∧
    loadDirectory none [s%"home", s%"me"] (s%"/proj/a/pkgr.yml") = [s%"proj", s%"a"] ∧
    configFileUsed none [s%"home", s%"me"] (s%"/proj/a/pkgr.yml") = [s%"proj", s%"a", s%"pkgr.yml"] := by decide

/-- C114 fails for a configuration file `d/n` given by a relative path: the sessions run in the directory that `d` denotes
when followed not from the directory pkgr was started in, but from the directory of the configuration file. -/
theorem C114_violated_relative (home : Option Str) (cwd : Path) (d n : Str) (hn : PlainName n) (hrel : (d ++ '/' :: n).head? ≠ some '/')
    (ht : (cleanPath (d ++ '/' :: n)).head? ≠ some '~') (base e : Path) (hb : Leads cwd d base) (he : Leads base d e) :
    configFileUsed home cwd (d ++ '/' :: n) = base ++ [n] ∧ loadDirectory home cwd (d ++ '/' :: n) = e := by
  have hd : d.head? ≠ some '/' := by
    cases d with
    | nil => simp
    | cons => exact hrel
  have h1 : configFileUsed home cwd (d ++ '/' :: n) = base ++ [n] := by
    rw [configFileUsed_plain home cwd _ (by simp) ht, absIn_file _ d n hn, if_neg hrel]
    rw [leads_iff, if_neg hd] at hb
    rw [hb]
  refine ⟨h1, ?_⟩
  unfold loadDirectory
  dsimp only
  rw [if_neg (by simp), h1, absIn_dirStr _ d n hn.2.2.2, if_neg hrel]
  unfold dirPath
  rw [List.dropLast_concat]
  rw [leads_iff, if_neg hd] at he
  exact he

/-- C114 fails: `pkgr load --config sub/pkgr.yml` runs R in `sub/sub`. -/
theorem C114_violated : loadDirectory none [s%"proj"] (s%"sub/pkgr.yml") = [s%"proj", s%"sub", s%"sub"] ∧
    configFileUsed none [s%"proj"] (s%"sub/pkgr.yml") = [s%"proj", s%"sub", s%"pkgr.yml"] := by decide

/-! ### C115 -/

/-- C115 (partial: library paths with an equals sign or a blank at an end excepted). `pkgr run` starts the configured R in
the project's directory, without any profile, and with the configuration's library as the only site library and an empty
user library, whatever the inherited environment and the customizations. -/
theorem C115_session_partial (R : Proc → ProcOut) (ρ : Order) (tmp : Str) (sys : List Str) (cwd : Path) (rpath library pkg : Str)
    (custom : List (List (Str × Option (GoMap Str)))) (htmp : Unpadded tmp) (hl : library ≠ []) (heq : '=' ∉ library) (hu : Unpadded library) :
    let p := (rRun R ρ tmp sys cwd rpath library pkg custom).1
    p.prog = ({ rpath := rpath : RSettings }).R false ∧ p.args = [s%"--vanilla"] ∧ p.dir = cwd ∧
    ∃ env, p.env = some env ∧ seen env (s%"R_LIBS_SITE") = some library ∧ seen env (s%"R_LIBS_USER") = some tmp := by
  have hp : (rRun R ρ tmp sys cwd rpath library pkg custom).1 = startR ρ tmp sys cwd (runSettings rpath library pkg custom) pkg := by
    unfold rRun
    dsimp only
    split <;> rfl
  dsimp only
  rw [hp]
  refine ⟨rfl, rfl, rfl, _, rfl, ?_, ?_⟩
  · exact C68_library_paths_partial ρ 0 tmp sys (runSettings rpath library pkg custom) pkg (by simp [runSettings]) (by simpa [runSettings] using hl)
      (by simpa [runSettings] using heq) (by simpa [runSettings, separated] using hu)
  · exact C63_user_library ρ 0 tmp sys _ pkg htmp

theorem customizationOf_single (custom : List (List (Str × Option (GoMap Str)))) (pkg : Str) :
    customizationOf custom pkg = (entriesOf custom pkg).head?.map fun e => e.getD [] := by
  unfold customizationOf entriesOf
  induction custom with
  | nil => rfl
  | cons m ms ih =>
    rw [List.find?_cons, List.flatten_cons, List.filter_append, List.map_append]
    cases hm : m.any fun e => decide (e.1 = pkg) with
    | true =>
      dsimp only
      obtain ⟨x, hx, hxp⟩ := List.any_eq_true.1 hm
      cases hf : m.filter fun e => decide (e.1 = pkg) with
      | nil =>
        rw [List.filter_eq_nil_iff] at hf
        exact absurd hxp (hf x hx)
      | cons y ys =>
        have : m.find? (fun e => decide (e.1 = pkg)) = some y := by
          rw [← List.head?_filter, hf]
          rfl
        rw [this]
        rfl
    | false =>
      dsimp only
      have : m.filter (fun e => decide (e.1 = pkg)) = [] := by
        rw [List.filter_eq_nil_iff]
        intro x hx hxp
        rw [List.any_eq_false] at hm
        exact hm x hx hxp
      rw [this, List.map_nil, List.nil_append]
      exact ih

/-- C115 (partial, exceptions as in `C64_package_env_wins_partial`). With `--pkg`, every variable in the `Env` of the
package's (first) customization has its value in the session. -/
theorem C115_package_env_partial (R : Proc → ProcOut) (ρ : Order) (hρ : ρ.Fair) (tmp : Str) (sys : List Str) (cwd : Path)
    (rpath library pkg : Str) (custom : List (List (Str × Option (GoMap Str)))) (env : GoMap Str) (rest : List (Option (GoMap Str)))
    (hc : entriesOf custom pkg = some env :: rest) (k v : Str) (hwf : GoMap.WF env) (hv : GoMap.get? env k = some v)
    (hk1 : k ≠ s%"R_LIBS_SITE") (hk2 : k ≠ s%"R_LIBS_USER") (hkeys : ∀ x ∈ GoMap.keys env, PlainVar x) (hu : Unpadded v)
    (hsys : ∀ e ∈ sys, Unpadded (nameOf e)) :
    ∃ e, (rRun R ρ tmp sys cwd rpath library pkg custom).1.env = some e ∧ seen e k = some v := by
  have hp : (rRun R ρ tmp sys cwd rpath library pkg custom).1 = startR ρ tmp sys cwd (runSettings rpath library pkg custom) pkg := by
    unfold rRun
    dsimp only
    split <;> rfl
  rw [hp]
  refine ⟨_, rfl, C64_package_env_wins_partial ρ hρ 0 tmp sys _ pkg env k v hwf ?_ hv hk1 hk2 hkeys hu hsys⟩
  unfold runSettings
  rw [customizationOf_single, hc]
  simp [GoMap.get?_cons]

/-- C115: without `--pkg`, or for a package without customizations, the session does not depend on the customizations. -/
theorem C115_no_package_env (R : Proc → ProcOut) (ρ : Order) (tmp : Str) (sys : List Str) (cwd : Path) (rpath library pkg : Str)
    (custom : List (List (Str × Option (GoMap Str)))) (hc : entriesOf custom pkg = []) :
    rRun R ρ tmp sys cwd rpath library pkg custom = rRun R ρ tmp sys cwd rpath library pkg [] := by
  unfold rRun runSettings
  rw [customizationOf_single, customizationOf_single, hc]
  rfl

/-- C115 fails: pkgr ends with status 0 whatever becomes of R, even if it cannot be started at all. -/
theorem C115_violated_status (R : Proc → ProcOut) (ρ : Order) (tmp : Str) (sys : List Str) (cwd : Path) (rpath library pkg : Str)
    (custom : List (List (Str × Option (GoMap Str)))) : (rRun R ρ tmp sys cwd rpath library pkg custom).2 = 0 := by
  unfold rRun
  dsimp only
  split <;> rfl

/-- C115 fails: when a package has two entries with an `Env`, the session has the first, while the package is installed
with the last. -/
theorem C115_violated_other_env : ∃ (ρ : Order) (custom : List (List (Str × Option (GoMap Str)))), ρ.Fair ∧
    (∀ R, ∃ e, (rRun R ρ (s%"/tmp/x") [] [] (s%"R") (s%"/lib") (s%"A") custom).1.env = some e ∧ seen e (s%"CC") = some (s%"gcc")) ∧
    seen (configureEnv ρ 0 (s%"/tmp/x") [] { rpath := s%"R", pkgEnv := setCustomizations [] custom } (s%"A")) (s%"CC") = some (s%"clang") := by
  refine ⟨fun _ l => l, [[(s%"A", some [(s%"CC", s%"gcc")])], [(s%"A", some [(s%"CC", s%"clang")])]], fun _ _ => List.Perm.refl _, ?_, by decide⟩
  intro R
  exact C115_package_env_partial R _ (fun _ _ => List.Perm.refl _) _ _ _ _ _ _ _ [(s%"CC", s%"gcc")] [some [(s%"CC", s%"clang")]] rfl
    (s%"CC") (s%"gcc") (by unfold GoMap.WF; decide) rfl (by decide) (by decide) (by decide) (by decide) (by decide)

/-- C115 fails: an inherited R_LIBS puts other libraries before the configuration's library. -/
theorem C115_violated_r_libs : ∃ (ρ : Order) (sys : List Str), ρ.Fair ∧ ∀ R, ∃ e,
    (rRun R ρ (s%"/tmp/x") sys [] (s%"R") (s%"/lib") [] []).1.env = some e ∧ seen e (s%"R_LIBS") = some (s%"/home/me/R") := by
  refine ⟨fun _ l => l, [s%"R_LIBS=/home/me/R"], fun _ _ => List.Perm.refl _, fun R => ?_⟩
  refine ⟨configureEnv (fun _ l => l) 0 (s%"/tmp/x") [s%"R_LIBS=/home/me/R"] (runSettings (s%"R") (s%"/lib") [] []) [], ?_, by decide⟩
  unfold rRun
  dsimp only
  split <;> rfl

example : (rRun (fun _ => { ending := .notRun }) (fun _ l => l) (s%"/tmp/x") [s%"R_LIBS_USER=/u"] [s%"proj"] (s%"/opt/R") (s%"/proj/lib") [] []) =
    ({ prog := s%"/opt/R", args := [s%"--vanilla"], dir := [s%"proj"], env := some [s%"R_LIBS_USER=/tmp/x", s%"R_LIBS_SITE=/proj/lib"] }, 0) := by decide

end Pkgr
