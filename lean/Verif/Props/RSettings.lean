/- C79, C80: which R is run, and which version it is taken to have. -/
import Verif.Model.Env
import Verif.Spec.RSettings
import Verif.Spec.Config
import Verif.Proof.Version
import Verif.Proof.Split
import Verif.Props.Config
import Verif.Proof.Env

namespace Pkgr
open Spec

/-! ### C79 -/

theorem step_iff (d : List Str) (c : Str) (e : List Str) : Step d c e ↔ joinComp d c = e := by
  unfold joinComp
  constructor
  · intro h
    cases h with
    | stay h => rw [if_pos h]
    | up => rw [if_neg (by decide), if_pos rfl]; simp
    | top => rw [if_neg (by decide), if_pos rfl]; rfl
    | down h1 h2 h3 => rw [if_neg (by simp [h1, h2]), if_neg h3]
  · intro h
    split at h
    · rename_i hc
      subst h
      exact .stay hc
    · rename_i hc
      split at h
      · rename_i hu
        subst hu
        rcases List.eq_nil_or_concat d with rfl | ⟨d', x, rfl⟩
        · simp at h; subst h; exact .top
        · simp at h; subst h; rw [List.concat_eq_append]; exact .up
      · rename_i hu
        subst h
        simp only [not_or] at hc
        exact .down hc.1 hc.2 hu

theorem walk_iff (d cs e : List Str) : Walk d cs e ↔ cs.foldl joinComp d = e := by
  induction cs generalizing d with
  | nil =>
    constructor
    · intro h; cases h; rfl
    · intro h; subst h; exact .done
  | cons c cs ih =>
    rw [List.foldl_cons]
    constructor
    · intro h
      cases h with
      | step h1 h2 => rw [(step_iff _ _ _).1 h1]; exact (ih _).1 h2
    · intro h
      exact .step ((step_iff _ _ _).2 rfl) ((ih _).2 h)

theorem leads_iff (cwd : List Str) (p : Str) (e : List Str) :
    Leads cwd p e ↔ (splitOn '/' p).foldl joinComp (if p.head? = some '/' then [] else cwd) = e := by
  simp only [Leads, components_iff, exists_eq_left', walk_iff]

theorem cleanComp_spec (rooted : Bool) (P : List Str) (hP : rooted = true → P = []) (stk : List Str) (c : Str)
    (hs : ∀ x ∈ stk, x ≠ [] ∧ x ≠ s%".") :
    (cleanComp rooted stk c).reverse.foldl joinComp P = joinComp (stk.reverse.foldl joinComp P) c ∧
    (∀ x ∈ cleanComp rooted stk c, x ≠ [] ∧ x ≠ s%".") := by
  unfold cleanComp
  split
  · rename_i h
    refine ⟨?_, hs⟩
    rw [joinComp, if_pos h]
  · rename_i h
    simp only [not_or] at h
    split
    · rename_i hc
      split
      · split
        · rename_i hr
          rw [hP hr, hc]
          exact ⟨rfl, by simp⟩
        · exact ⟨rfl, by simpa using h⟩
      · rename_i t r
        split
        · refine ⟨?_, ?_⟩
          · rw [List.reverse_cons, List.foldl_append]; rfl
          · intro x hx
            rcases List.mem_cons.1 hx with e | hx
            · exact e ▸ h
            · exact hs x hx
        · rename_i ht
          refine ⟨?_, fun x hx => hs x (by simp [hx])⟩
          have h1 := hs t (by simp)
          rw [List.reverse_cons, List.foldl_append, List.foldl_cons, List.foldl_nil, joinComp, joinComp,
            if_neg (show ¬ (c = [] ∨ c = s%".") by simp [h]), if_pos hc, if_neg (by simp [h1]), if_neg ht]
          simp
    · refine ⟨?_, ?_⟩
      · rw [List.reverse_cons, List.foldl_append]; rfl
      · intro x hx
        rcases List.mem_cons.1 hx with e | hx
        · exact e ▸ h
        · exact hs x hx

theorem cleanFold_spec (rooted : Bool) (P : List Str) (hP : rooted = true → P = []) (cs : List Str) (stk : List Str)
    (hs : ∀ x ∈ stk, x ≠ [] ∧ x ≠ s%".") :
    (cs.foldl (cleanComp rooted) stk).reverse.foldl joinComp P = cs.foldl joinComp (stk.reverse.foldl joinComp P) := by
  induction cs generalizing stk with
  | nil => rfl
  | cons c cs ih =>
    have h := cleanComp_spec rooted P hP stk c hs
    rw [List.foldl_cons, List.foldl_cons, ih _ h.2, h.1]

theorem cleanFold_mem (rooted : Bool) (cs : List Str) (stk : List Str) (p : Str → Prop)
    (hc : ∀ x ∈ cs, p x) (hs : ∀ x ∈ stk, p x) : ∀ x ∈ cs.foldl (cleanComp rooted) stk, p x := by
  induction cs generalizing stk with
  | nil => exact hs
  | cons c cs ih =>
    rw [List.foldl_cons]
    apply ih _ (fun x hx => hc x (by simp [hx]))
    have hcp := hc c (by simp)
    unfold cleanComp
    split
    · exact hs
    split
    · split
      · split
        · simp
        · simpa using hcp
      · split
        · intro x hx
          rcases List.mem_cons.1 hx with e | hx
          · exact e ▸ hcp
          · exact hs x hx
        · exact fun x hx => hs x (by simp [hx])
    · intro x hx
      rcases List.mem_cons.1 hx with e | hx
      · exact e ▸ hcp
      · exact hs x hx

theorem splitFold_joinWith (P : List Str) (l : List Str) (h : ∀ x ∈ l, '/' ∉ x) :
    (splitOn '/' (joinWith '/' l)).foldl joinComp P = l.foldl joinComp P := by
  cases l with
  | nil => rfl
  | cons a l => rw [splitOn_joinWith _ _ (by simp) h]

theorem joinWith_head (l : List Str) (h : ∀ x ∈ l, x ≠ [] ∧ '/' ∉ x) : (joinWith '/' l).head? ≠ some '/' := by
  cases l with
  | nil => simp [joinWith]
  | cons a l =>
    have ha := h a (by simp)
    cases a with
    | nil => simp at ha
    | cons c a =>
      have hc : c ≠ '/' := fun e => ha.2 (by simp [e])
      cases l with
      | nil => simpa [joinWith] using hc
      | cons b l => simpa [joinWith] using hc

/-- Cleaning a path does not change the file it denotes. -/
theorem cleanPath_leads (cwd : List Str) (p : Str) (e : List Str) : Leads cwd (cleanPath p) e ↔ Leads cwd p e := by
  rw [leads_iff, leads_iff]
  suffices h : (splitOn '/' (cleanPath p)).foldl joinComp (if (cleanPath p).head? = some '/' then [] else cwd) =
      (splitOn '/' p).foldl joinComp (if p.head? = some '/' then [] else cwd) by rw [h]
  have hmem := cleanFold_mem (decide (p.head? = some '/')) (splitOn '/' p) [] (fun x => '/' ∉ x) (splitOn_mem '/' p) (by simp)
  have hne : ∀ x ∈ (splitOn '/' p).foldl (cleanComp (decide (p.head? = some '/'))) [], x ≠ [] ∧ x ≠ s%"." := by
    have : ∀ (cs stk : List Str), (∀ x ∈ stk, x ≠ [] ∧ x ≠ s%".") →
        ∀ x ∈ cs.foldl (cleanComp (decide (p.head? = some '/'))) stk, x ≠ [] ∧ x ≠ s%"." := by
      intro cs
      induction cs with
      | nil => intro stk h; exact h
      | cons c cs ih =>
        intro stk h
        rw [List.foldl_cons]
        exact ih _ (cleanComp_spec _ [] (fun _ => rfl) stk c h).2
    exact this _ [] (by simp)
  unfold cleanPath
  dsimp only
  by_cases hr : p.head? = some '/'
  · simp only [hr, decide_true, if_true]
    rw [hr] at hmem hne
    simp only [decide_true] at hmem hne
    rw [splitOn]
    simp only [if_true, List.foldl_cons, List.head?_cons]
    have : joinComp [] [] = [] := by decide
    rw [this, splitFold_joinWith _ _ (fun x hx => hmem x (List.mem_reverse.1 hx)),
      cleanFold_spec true [] (fun _ => rfl) _ [] (by simp)]
    rfl
  · have hd : decide (p.head? = some '/') = false := by simpa using hr
    rw [hd] at hmem hne
    simp only [hd, Bool.false_eq_true, if_false, if_neg hr]
    have key : ((splitOn '/' p).foldl (cleanComp false) []).reverse.foldl joinComp cwd = (splitOn '/' p).foldl joinComp cwd :=
      cleanFold_spec false cwd (by simp) _ [] (by simp)
    generalize hbody : ((splitOn '/' p).foldl (cleanComp false) []).reverse = comps at key
    have hcm : ∀ x ∈ comps, x ≠ [] ∧ '/' ∉ x := by
      intro x hx
      rw [← hbody] at hx
      exact ⟨(hne x (List.mem_reverse.1 hx)).1, hmem x (List.mem_reverse.1 hx)⟩
    split
    · rename_i hb
      have hnil : comps = [] := by
        cases comps with
        | nil => rfl
        | cons a l =>
          exfalso
          have := (hcm a (by simp)).1
          cases l <;> simp [joinWith] at hb
          exact this hb
      rw [hnil] at key
      rw [← key]
      rfl
    · rw [if_neg (joinWith_head _ hcm), splitFold_joinWith _ _ fun x hx => (hcm x hx).2, key]

/-- C79. Without a configured path, R is `R` (on windows `R.exe`). -/
theorem C79_default (rs : RSettings) (h : rs.rpath = []) : rs.R false = s%"R" ∧ rs.R true = s%"R.exe" := by
  unfold RSettings.R
  rw [h]
  decide

/-- C79. With a configured path, the executable denotes, from every directory, the same file as the configured path. -/
theorem C79_same_file (rs : RSettings) (h : rs.rpath ≠ []) (hroot : rs.rpath ≠ s%"/") (cwd e : List Str) :
    Leads cwd (rs.R false) e ↔ Leads cwd rs.rpath e := by
  unfold RSettings.R
  simp only [ne_eq, h, not_false_eq_true, if_true, Bool.false_and, Bool.false_eq_true, if_false]
  rw [cleanPath_leads]
  unfold RSettings.R.trimSlash'
  split
  · rename_i hl
    generalize hp : rs.rpath = p at *
    rcases List.eq_nil_or_concat p with hp' | ⟨q, c, hp'⟩
    · exact absurd hp' h
    · rw [List.concat_eq_append] at hp'
      rw [hp'] at hl
      simp only [List.getLast?_append, List.getLast?_singleton, Option.some_or, Option.some.injEq] at hl
      subst hl
      rw [hp']
      simp only [List.dropLast_concat]
      have hq : q ≠ [] := by
        intro e
        rw [e] at hp'
        exact hroot hp'
      have hhead : (q ++ ['/']).head? = q.head? := by
        cases q with
        | nil => exact absurd rfl hq
        | cons a q => rfl
      have hsplit : ∀ q : Str, splitOn '/' (q ++ ['/']) = splitOn '/' q ++ [[]] := by
        intro q
        induction q with
        | nil => rfl
        | cons a q ih =>
          rw [List.cons_append, splitOn, splitOn, ih]
          split
          · simp
          · cases hs : splitOn '/' q with
            | nil => exact absurd hs (splitOn_ne_nil _ _)
            | cons w ws => simp
      rw [leads_iff, leads_iff, hsplit, List.foldl_append, hhead]
      have : ∀ d : List Str, [([] : Str)].foldl joinComp d = d := fun d => rfl
      rw [this]
  · exact Iff.rfl

/-- C79. On windows the executable always has the extension `.exe`. -/
theorem C79_windows_exe (rs : RSettings) : (s%".exe") <:+ rs.R true := by
  unfold RSettings.R
  dsimp only
  generalize cleanPath _ = r
  simp only [Bool.true_and]
  split
  · exact List.suffix_append _ _
  · rename_i h
    exact (hasSuffix_iff _ _).1 (by simpa using h)

/-- C79. Rscript is the file beside R whose name has `script` added, before the extension `.exe` if there is one. -/
theorem C79_rscript_sibling (dir f : Str) :
    ((¬ (s%".exe") <:+ dir ++ '/' :: f) → convertToRscript (dir ++ '/' :: f) = dir ++ '/' :: (f ++ s%"script")) ∧
    convertToRscript (dir ++ '/' :: (f ++ s%".exe")) = dir ++ '/' :: (f ++ s%"script.exe") := by
  constructor
  · intro h
    unfold convertToRscript
    rw [if_neg]
    · simp
    · intro h'
      exact h ((hasSuffix_iff _ _).1 h')
  · unfold convertToRscript
    have : hasSuffix (dir ++ '/' :: (f ++ s%".exe")) (s%".exe") = true := by
      rw [hasSuffix_iff]
      exact ⟨dir ++ '/' :: f, by simp⟩
    rw [if_pos this]
    have e : dir ++ '/' :: (f ++ s%".exe") = (dir ++ '/' :: f) ++ s%".exe" := by simp
    rw [e]
    have : ((dir ++ '/' :: f) ++ s%".exe").length - 4 = (dir ++ '/' :: f).length := by
      rw [List.length_append]
      rfl
    rw [this, List.take_left]
    simp

example : Leads [s%"home"] (RSettings.R { rpath := s%"/opt//R/x/../bin/R/" } false) [s%"opt", s%"R", s%"bin", s%"R"] :=
  (C79_same_file _ (by decide) (by decide) _ _).2 ((leads_iff _ _ _).2 (by decide))

example : RSettings.R { rpath := s%"/opt//R/x/../bin/R/" } false = s%"/opt/R/bin/R" := by decide

/-- C79 fails: a configured path in the current directory, `./R`, becomes `R`, which the system looks up in PATH. -/
theorem C79_violated_dot : ∃ rs : RSettings, '/' ∈ rs.rpath ∧ '/' ∉ rs.R false :=
  ⟨{ rpath := s%"./R" }, by decide, by decide⟩

/-! ### C80 -/

theorem dropLineNo_eq (l : Str) : dropLineNo l = withoutNo l := by
  have hp : (fun c => (digit? c).isSome) = fun c : Char => decide ('0'.toNat ≤ c.toNat ∧ c.toNat ≤ '9'.toNat) := by
    funext c
    have h0 : '0'.toNat = 48 := rfl
    have h9 : '9'.toNat = 57 := rfl
    unfold digit?
    rw [h0, h9]
    split <;> simp [*]
  unfold withoutNo dropLineNo
  dsimp only
  split
  · rename_i r
    rw [hp, List.drop_one, List.tail_cons, List.head?_cons]
    generalize r.takeWhile (fun c : Char => decide ('0'.toNat ≤ c.toNat ∧ c.toNat ≤ '9'.toNat)) = ds
    have e1 : ('[' :: r).drop (1 + ds.length) = r.drop ds.length := by rw [Nat.add_comm]; rfl
    have e2 : ('[' :: r).drop (2 + ds.length) = r.drop (ds.length + 1) := by rw [Nat.add_comm]; rfl
    rw [e1, e2]
    cases ds with
    | nil => simp
    | cons d ds =>
      cases hr : r.drop (d :: ds).length with
      | nil => simp
      | cons c rest =>
        have : r.drop ((d :: ds).length + 1) = rest := by
          rw [← List.drop_drop, hr]; rfl
        by_cases hc : c = ']'
        · subst hc
          rw [this]; simp
        · rw [if_neg (by simp [hc])]
          split
          · rename_i h1 h2
            simp only [List.cons.injEq] at h2
            exact absurd h2.1 hc
          · rfl
  · rename_i hno
    rw [if_neg]
    rintro ⟨h, _⟩
    cases l with
    | nil => simp at h
    | cons c l =>
      simp only [List.head?_cons, Option.some.injEq] at h
      exact hno l (by rw [h])

theorem scan_textOf (ls : List Str) (h : ∀ l ∈ ls, '\n' ∉ l ∧ l.getLast? ≠ some '\r') :
    scanROutput false (textOf ls) = (ls.map fun l => trimSpace (withoutNo l)).filter fun l => !l.isEmpty := by
  unfold scanROutput readLines
  rw [splitOn_textOf _ fun l hl => (h l hl).1]
  simp only [List.getLast?_append, List.getLast?_singleton, Option.some_or, List.dropLast_concat, if_true, List.map_map,
    Bool.false_and, Bool.not_false, Bool.and_true]
  congr 1
  apply List.map_congr_left
  intro l hl
  have : dropCR l = l := by unfold dropCR; rw [if_neg (h l hl).2]
  simp only [Function.comp, this, dropLineNo_eq]

theorem versionLine_other (acc : RVer × Str) (l : Str) (h1 : ¬ (s%"R version") <+: l)
    (h2 : (s%"Platform:") <+: l → ' ' ∈ l) : ∃ p, versionLine acc l = some (acc.1, p) := by
  unfold versionLine
  have e1 : hasPrefix l (s%"R version") = false := by
    cases h : hasPrefix l (s%"R version") with
    | false => rfl
    | true => exact absurd ((hasPrefix_iff _ _).1 h) h1
  rw [e1]
  simp only [Bool.false_eq_true, if_false]
  split
  · rename_i hp
    have hb := h2 ((hasPrefix_iff _ _).1 hp)
    split
    · exact ⟨_, rfl⟩
    · rename_i hno
      exfalso
      obtain ⟨a, b, e, hna⟩ : ∃ a b, l = a ++ ' ' :: b ∧ ' ' ∉ a := by
        clear hno hp h2 e1 h1
        induction l with
        | nil => simp at hb
        | cons c l ih =>
          by_cases hc : c = ' '
          · exact ⟨[], l, by simp [hc], by simp⟩
          · rcases List.mem_cons.1 hb with h | h
            · exact absurd h.symm hc
            · obtain ⟨a, b, e, hna⟩ := ih h
              exact ⟨c :: a, b, by simp [e], by simpa using ⟨fun e => hc e.symm, hna⟩⟩
      rw [e, splitOn_append _ _ _ hna] at hno
      cases hs : splitOn ' ' b with
      | nil => exact absurd hs (splitOn_ne_nil _ _)
      | cons x xs => exact hno a x xs (by rw [hs])
  · exact ⟨acc.2, by cases acc; rfl⟩

theorem versionFold_other (ls : List Str) (acc : RVer × Str) (h1 : ∀ l ∈ ls, ¬ (s%"R version") <+: l)
    (h2 : ∀ l ∈ ls, (s%"Platform:") <+: l → ' ' ∈ l) : ∃ p, ls.foldlM versionLine acc = some (acc.1, p) := by
  induction ls generalizing acc with
  | nil => exact ⟨acc.2, by cases acc; rfl⟩
  | cons l ls ih =>
    obtain ⟨p, hp⟩ := versionLine_other acc l (h1 l (by simp)) (h2 l (by simp))
    rw [List.foldlM_cons, hp]
    exact ih (acc.1, p) (fun x hx => h1 x (by simp [hx])) (fun x hx => h2 x (by simp [hx]))

/-- C80 (partial: outputs with two lines that start with "R version", or a platform line without a platform, excepted).
The version found is the one on the line that starts with "R version", whatever other lines are printed before and
after it. -/
theorem C80_version_partial (pre post : List Str) (a b c rest : Str) (ha : IsNumeral a) (hb : IsNumeral b) (hc : IsNumeral c)
    (ba : numeral a < 2 ^ 63) (bb : numeral b < 2 ^ 63) (bc : numeral c < 2 ^ 63)
    (hrest : '\n' ∉ rest ∧ ∃ r x, rest = r ++ [x] ∧ ¬ White x)
    (ho : ∀ l ∈ pre ++ post, OtherLine l) :
    ∃ platform, parseVersionData (textOf (pre ++ (s%"R version " ++ a ++ '.' :: (b ++ '.' :: (c ++ ' ' :: rest))) :: post)) =
      some (((numeral a : Int), (numeral b : Int), (numeral c : Int)), platform) := by
  have hnd : ∀ (d : Str), IsNumeral d → ∀ x : Char, x.toNat < 48 → x ∉ d := by
    intro d hd x hx hmem
    have := (hd.2 x hmem).1
    have h0 : '0'.toNat = 48 := rfl
    omega
  obtain ⟨hrn, r, x, hrx, hx⟩ := hrest
  have hstrip : trimSpace (withoutNo (s%"R version " ++ a ++ '.' :: (b ++ '.' :: (c ++ ' ' :: rest)))) =
      s%"R version " ++ a ++ '.' :: (b ++ '.' :: (c ++ ' ' :: rest)) := by
    have h1 : withoutNo (s%"R version " ++ a ++ '.' :: (b ++ '.' :: (c ++ ' ' :: rest))) =
        s%"R version " ++ a ++ '.' :: (b ++ '.' :: (c ++ ' ' :: rest)) := by
      unfold withoutNo
      dsimp only
      rw [if_neg]
      rintro ⟨h, _⟩
      simp at h
    rw [h1, trimSpace_iff]
    refine ⟨[], [], by simp, by simp, by simp, ?_, ?_⟩
    · intro y hy
      have : 'R' = y := by simpa using hy
      subst this
      decide
    · intro y hy
      have e : s%"R version " ++ a ++ '.' :: (b ++ '.' :: (c ++ ' ' :: rest)) =
          (s%"R version " ++ a ++ '.' :: (b ++ '.' :: (c ++ ' ' :: r))) ++ [x] := by subst hrx; simp
      rw [e, List.getLast?_append] at hy
      have : x = y := by simpa using hy
      exact this ▸ hx
  have hrest : '\n' ∉ rest ∧ rest.getLast? ≠ some '\r' := by
    refine ⟨hrn, ?_⟩
    subst hrx
    rw [List.getLast?_append]
    intro h
    have : x = '\r' := by simpa using h
    subst this
    exact hx (by decide)
  generalize hv : s%"R version " ++ a ++ '.' :: (b ++ '.' :: (c ++ ' ' :: rest)) = vl at hstrip ⊢
  have hvl : '\n' ∉ vl ∧ vl.getLast? ≠ some '\r' := by
    subst hv
    constructor
    · have h1 := hnd a ha '\n' (by decide)
      have h2 := hnd b hb '\n' (by decide)
      have h3 := hnd c hc '\n' (by decide)
      have h4 : '\n' ≠ '.' := by decide
      have h5 : '\n' ≠ ' ' := by decide
      simp only [List.mem_append, List.mem_cons, not_or]
      refine ⟨⟨by simp, h1⟩, h4, h2, h4, h3, h5, hrest.1⟩
    · have : s%"R version " ++ a ++ '.' :: (b ++ '.' :: (c ++ ' ' :: rest)) =
          (s%"R version " ++ a ++ '.' :: (b ++ '.' :: c)) ++ (' ' :: rest) := by simp
      rw [this, List.getLast?_append]
      cases rest with
      | nil => simp
      | cons r rs => rw [List.getLast?_cons_cons]; simpa using hrest.2
  unfold parseVersionData
  rw [scan_textOf]
  · rw [List.map_append, List.map_cons, hstrip, List.filter_append, List.filter_cons]
    have hne : (!vl.isEmpty) = true := by subst hv; rfl
    rw [if_pos hne, List.foldlM_append]
    have hoth : ∀ ls : List Str, (∀ l ∈ ls, OtherLine l) → ∀ acc : RVer × Str,
        ∃ p, ((ls.map fun l => trimSpace (withoutNo l)).filter fun l => !l.isEmpty).foldlM versionLine acc = some (acc.1, p) := by
      intro ls hls acc
      apply versionFold_other
      · intro l hl
        obtain ⟨x, hx, rfl⟩ := List.mem_map.1 (List.mem_filter.1 hl).1
        exact ((hls x hx).2.2 _ ((trimSpace_iff _ _).1 rfl)).1
      · intro l hl
        obtain ⟨x, hx, rfl⟩ := List.mem_map.1 (List.mem_filter.1 hl).1
        exact ((hls x hx).2.2 _ ((trimSpace_iff _ _).1 rfl)).2
    obtain ⟨p1, h1⟩ := hoth pre (fun l hl => ho l (by simp [hl])) ((0, 0, 0), [])
    rw [h1]
    have hline : versionLine ((0, 0, 0), p1) vl = some (((numeral a : Int), (numeral b : Int), (numeral c : Int)), p1) := by
      have hpre : hasPrefix vl (s%"R version") = true := by
        rw [hasPrefix_iff]
        subst hv
        exact ⟨' ' :: (a ++ '.' :: (b ++ '.' :: (c ++ ' ' :: rest))), by simp⟩
      have hno : ' ' ∉ a ++ '.' :: (b ++ '.' :: c) := by
        simp only [List.mem_append, List.mem_cons, not_or]
        exact ⟨hnd a ha ' ' (by decide), by decide, hnd b hb ' ' (by decide), by decide, hnd c hc ' ' (by decide)⟩
      have hsp : splitOn ' ' vl = s%"R" :: s%"version" :: (a ++ '.' :: (b ++ '.' :: c)) :: splitOn ' ' rest := by
        have e1 : vl = s%"R" ++ ' ' :: (s%"version" ++ ' ' :: ((a ++ '.' :: (b ++ '.' :: c)) ++ ' ' :: rest)) := by
          subst hv; simp
        rw [e1, splitOn_append _ _ _ (by decide), splitOn_append _ _ _ (by decide), splitOn_append _ _ _ hno]
      have hdot : splitOn '.' (a ++ '.' :: (b ++ '.' :: c)) = [a, b, c] := by
        rw [splitOn_append _ _ _ (hnd a ha '.' (by decide)), splitOn_append _ _ _ (hnd b hb '.' (by decide)),
          splitOn_of_not_mem _ _ (hnd c hc '.' (by decide))]
      unfold versionLine
      rw [if_pos hpre, hsp]
      dsimp only
      rw [hdot]
      dsimp only
      rw [atoi_numeral ha ba, atoi_numeral hb bb, atoi_numeral hc bc]
    obtain ⟨p2, h2⟩ := hoth post (fun l hl => ho l (by simp [hl]))
      (((numeral a : Int), (numeral b : Int), (numeral c : Int)), p1)
    refine ⟨p2, ?_⟩
    show List.foldlM versionLine ((0, 0, 0), p1) _ = _
    rw [List.foldlM_cons, hline]
    exact h2
  · intro l hl
    rcases List.mem_append.1 hl with h | h
    · exact ⟨(ho l (by simp [h])).1, (ho l (by simp [h])).2.1⟩
    · rcases List.mem_cons.1 h with h | h
      · exact h ▸ hvl
      · exact ⟨(ho l (by simp [h])).1, (ho l (by simp [h])).2.1⟩

example : ∃ p, parseVersionData (textOf ([s%"WARNING: ignoring environment value of R_HOME"] ++
    (s%"R version " ++ s%"4" ++ '.' :: (s%"3" ++ '.' :: (s%"1" ++ ' ' :: s%"(2023-06-16)"))) :: [s%"Platform: x86_64-pc-linux-gnu (64-bit)"])) =
    some ((4, 3, 1), p) := by
  refine C80_version_partial _ _ (s%"4") (s%"3") (s%"1") _ ?_ ?_ ?_ (by decide) (by decide) (by decide)
    ⟨by decide, s%"(2023-06-16", ')', rfl, by decide⟩ ?_
  · exact ⟨by decide, by decide⟩
  · exact ⟨by decide, by decide⟩
  · exact ⟨by decide, by decide⟩
  · intro l hl
    simp only [List.cons_append, List.nil_append, List.mem_cons, List.not_mem_nil, or_false] at hl
    rcases hl with rfl | rfl <;> refine ⟨by decide, by decide, fun t ht => ?_⟩ <;> rw [← (trimSpace_iff _ _).2 ht] <;>
      exact ⟨by decide, by decide⟩

theorem strip_line (l : Str) (c x : Char) (m : Str) (h1 : l = c :: m) (hc : ¬ White c) (hb : c ≠ '[')
    (hx : l.getLast? = some x) (hw : ¬ White x) : trimSpace (withoutNo l) = l := by
  have h2 : withoutNo l = l := by
    unfold withoutNo
    dsimp only
    rw [if_neg]
    rintro ⟨h, _⟩
    subst h1
    simp only [List.head?_cons, Option.some.injEq] at h
    exact hb h
  rw [h2, trimSpace_iff]
  refine ⟨[], [], by simp, by simp, by simp, ?_, ?_⟩
  · intro y hy
    subst h1
    simp only [List.head?_cons, Option.mem_def, Option.some.injEq] at hy
    exact hy ▸ hc
  · intro y hy
    rw [hx] at hy
    simp only [Option.mem_def, Option.some.injEq] at hy
    exact hy ▸ hw

theorem idle_fold (ls : List Str) (h : ∀ l ∈ ls, IdleLine l) (acc : RVer × Str) :
    ((ls.map fun l => trimSpace (withoutNo l)).filter fun l => !l.isEmpty).foldlM versionLine acc = some acc := by
  induction ls with
  | nil => rfl
  | cons l ls ih =>
    rw [List.map_cons, List.filter_cons]
    have hi := (h l (by simp)).2.2 _ ((trimSpace_iff _ _).1 rfl)
    have e1 : hasPrefix (trimSpace (withoutNo l)) (s%"R version") = false := by
      cases hh : hasPrefix (trimSpace (withoutNo l)) (s%"R version") with
      | false => rfl
      | true => exact absurd ((hasPrefix_iff _ _).1 hh) hi.1
    have e2 : hasPrefix (trimSpace (withoutNo l)) (s%"Platform:") = false := by
      cases hh : hasPrefix (trimSpace (withoutNo l)) (s%"Platform:") with
      | false => rfl
      | true => exact absurd ((hasPrefix_iff _ _).1 hh) hi.2
    have e3 : versionLine acc (trimSpace (withoutNo l)) = some acc := by
      unfold versionLine
      rw [e1, e2]
      simp
    split
    · rw [List.foldlM_cons, e3]
      exact ih fun x hx => h x (by simp [hx])
    · exact ih fun x hx => h x (by simp [hx])

/-- C80 (partial: outputs with two lines that start with "R version" or with "Platform:", and malformed ones, excepted).
Version and platform found are those on the lines that start with "R version" and with "Platform:", whatever other lines
are printed before, between and after them. -/
theorem C80_exact_partial (pre mid post : List Str) (a b c p rest : Str) (ha : IsNumeral a) (hb : IsNumeral b) (hc : IsNumeral c)
    (ba : numeral a < 2 ^ 63) (bb : numeral b < 2 ^ 63) (bc : numeral c < 2 ^ 63)
    (hp : p ≠ [] ∧ ∀ x ∈ p, ¬ White x) (hrest : Remark rest) (v : Str) (hv : Remark (' ' :: v))
    (ho : ∀ l ∈ pre ++ mid ++ post, IdleLine l) :
    parseVersionData (textOf (pre ++ (s%"R version " ++ a ++ '.' :: (b ++ '.' :: (c ++ ' ' :: v))) ::
      (mid ++ (s%"Platform: " ++ p ++ rest) :: post))) =
      some (((numeral a : Int), (numeral b : Int), (numeral c : Int)), p) := by
  have hnd : ∀ (d : Str), IsNumeral d → ∀ x : Char, x.toNat < 48 → x ∉ d := by
    intro d hd x hx hmem
    have := (hd.2 x hmem).1
    have h0 : '0'.toNat = 48 := rfl
    omega
  have hsp : ' ' ∉ p := fun h => hp.2 _ h (by decide)
  have hnlp : '\n' ∉ p := fun h => hp.2 _ h (by decide)
  obtain ⟨vr, vx, hvr, hvx, hvn⟩ : ∃ r x, v = r ++ [x] ∧ ¬ White x ∧ '\n' ∉ r := by
    rcases hv with h | ⟨r, x, h, h1, h2⟩
    · simp at h
    · exact ⟨r, x, by simpa using h, h1, h2⟩
  have hnl : ∀ x : Char, ¬ White x → x ≠ '\n' := fun x hx e => hx (e ▸ by decide)
  have hcr : ∀ x : Char, ¬ White x → x ≠ '\r' := fun x hx e => hx (e ▸ by decide)
  -- the two lines
  have hVlast : (s%"R version " ++ a ++ '.' :: (b ++ '.' :: (c ++ ' ' :: v))).getLast? = some vx := by
    have e : s%"R version " ++ a ++ '.' :: (b ++ '.' :: (c ++ ' ' :: v)) =
        (s%"R version " ++ a ++ '.' :: (b ++ '.' :: (c ++ ' ' :: vr))) ++ [vx] := by subst hvr; simp
    rw [e, List.getLast?_append]
    simp
  have hVnl : '\n' ∉ s%"R version " ++ a ++ '.' :: (b ++ '.' :: (c ++ ' ' :: v)) := by
    have h1 := hnd a ha '\n' (by decide)
    have h2 := hnd b hb '\n' (by decide)
    have h3 := hnd c hc '\n' (by decide)
    have h4 : '\n' ≠ '.' := by decide
    have h5 : '\n' ≠ ' ' := by decide
    subst hvr
    simp only [List.mem_append, List.mem_cons, not_or]
    refine ⟨⟨by simp, h1⟩, h4, h2, h4, h3, h5, hvn, fun e => hnl _ hvx e.symm, by simp⟩
  obtain ⟨px, hPlast, hpx⟩ : ∃ x, (s%"Platform: " ++ p ++ rest).getLast? = some x ∧ ¬ White x := by
    rcases hrest with rfl | ⟨r, x, rfl, hx, _⟩
    · obtain ⟨q, x, e⟩ : ∃ q x, p = q ++ [x] := ⟨p.dropLast, p.getLast hp.1, (List.dropLast_concat_getLast hp.1).symm⟩
      refine ⟨x, ?_, hp.2 x (by simp [e])⟩
      have e' : s%"Platform: " ++ p ++ [] = (s%"Platform: " ++ q) ++ [x] := by subst e; simp
      rw [e', List.getLast?_append]
      simp
    · refine ⟨x, ?_, hx⟩
      have e' : s%"Platform: " ++ p ++ ' ' :: (r ++ [x]) = (s%"Platform: " ++ p ++ ' ' :: r) ++ [x] := by simp
      rw [e', List.getLast?_append]
      simp
  have hPnl : '\n' ∉ s%"Platform: " ++ p ++ rest := by
    have h5 : '\n' ≠ ' ' := by decide
    rcases hrest with rfl | ⟨r, x, rfl, hx, hr⟩
    · simp only [List.mem_append, not_or]
      exact ⟨⟨by simp, hnlp⟩, by simp⟩
    · simp only [List.mem_append, List.mem_cons, not_or]
      exact ⟨⟨by simp, hnlp⟩, h5, hr, fun e => hnl _ hx e.symm, by simp⟩
  have hVstrip := strip_line (s%"R version " ++ a ++ '.' :: (b ++ '.' :: (c ++ ' ' :: v))) 'R' vx (s%" version " ++ a ++ '.' :: (b ++ '.' :: (c ++ ' ' :: v))) rfl (by decide) (by decide) hVlast hvx
  have hPstrip := strip_line (s%"Platform: " ++ p ++ rest) 'P' px (s%"latform: " ++ p ++ rest) rfl (by decide) (by decide) hPlast hpx
  have hVline : ∀ q : Str, versionLine ((0, 0, 0), q) (s%"R version " ++ a ++ '.' :: (b ++ '.' :: (c ++ ' ' :: v))) =
      some (((numeral a : Int), (numeral b : Int), (numeral c : Int)), q) := by
    intro q
    have hno : ' ' ∉ a ++ '.' :: (b ++ '.' :: c) := by
      simp only [List.mem_append, List.mem_cons, not_or]
      exact ⟨hnd a ha ' ' (by decide), by decide, hnd b hb ' ' (by decide), by decide, hnd c hc ' ' (by decide)⟩
    have hs : splitOn ' ' (s%"R version " ++ a ++ '.' :: (b ++ '.' :: (c ++ ' ' :: v))) =
        s%"R" :: s%"version" :: (a ++ '.' :: (b ++ '.' :: c)) :: splitOn ' ' v := by
      have e1 : s%"R version " ++ a ++ '.' :: (b ++ '.' :: (c ++ ' ' :: v)) =
          s%"R" ++ ' ' :: (s%"version" ++ ' ' :: ((a ++ '.' :: (b ++ '.' :: c)) ++ ' ' :: v)) := by simp
      rw [e1, splitOn_append _ _ _ (by decide), splitOn_append _ _ _ (by decide), splitOn_append _ _ _ hno]
    have hdot : splitOn '.' (a ++ '.' :: (b ++ '.' :: c)) = [a, b, c] := by
      rw [splitOn_append _ _ _ (hnd a ha '.' (by decide)), splitOn_append _ _ _ (hnd b hb '.' (by decide)),
        splitOn_of_not_mem _ _ (hnd c hc '.' (by decide))]
    unfold versionLine
    rw [if_pos ((hasPrefix_iff _ _).2 ⟨' ' :: (a ++ '.' :: (b ++ '.' :: (c ++ ' ' :: v))), by simp⟩), hs]
    dsimp only
    rw [hdot]
    dsimp only
    rw [atoi_numeral ha ba, atoi_numeral hb bb, atoi_numeral hc bc]
  have hPline : ∀ acc : RVer × Str, versionLine acc (s%"Platform: " ++ p ++ rest) = some (acc.1, p) := by
    intro acc
    have hs : ∃ r, splitOn ' ' (s%"Platform: " ++ p ++ rest) = s%"Platform:" :: p :: r := by
      rcases hrest with rfl | ⟨r, x, rfl, _⟩
      · refine ⟨[], ?_⟩
        have e1 : s%"Platform: " ++ p ++ [] = s%"Platform:" ++ ' ' :: p := by simp
        rw [e1, splitOn_append _ _ _ (by decide), splitOn_of_not_mem _ _ hsp]
      · refine ⟨splitOn ' ' (r ++ [x]), ?_⟩
        have e1 : s%"Platform: " ++ p ++ ' ' :: (r ++ [x]) = s%"Platform:" ++ ' ' :: (p ++ ' ' :: (r ++ [x])) := by simp
        rw [e1, splitOn_append _ _ _ (by decide), splitOn_append _ _ _ hsp]
    obtain ⟨r, hs⟩ := hs
    have hpre1 : hasPrefix (s%"Platform: " ++ p ++ rest) (s%"R version") = false := rfl
    unfold versionLine
    rw [hpre1, if_neg (by simp), if_pos ((hasPrefix_iff _ _).2 ⟨' ' :: (p ++ rest), by simp⟩), hs]
    dsimp only
    rw [trimBlanks_of_unpadded]
    constructor
    · intro h
      exact hsp (List.mem_of_mem_head? (by rw [h]; rfl))
    · intro h
      exact hsp (List.mem_of_getLast? h)
  unfold parseVersionData
  rw [scan_textOf]
  · rw [List.map_append, List.map_cons, List.map_append, List.map_cons, hVstrip, hPstrip, List.filter_append, List.filter_cons,
      List.filter_append, List.filter_cons, if_pos (by rfl), if_pos (by rfl), List.foldlM_append,
      idle_fold pre (fun l hl => ho l (by simp [hl]))]
    show List.foldlM versionLine ((0, 0, 0), []) _ = _
    rw [List.foldlM_cons, hVline]
    show List.foldlM versionLine _ _ = _
    rw [List.foldlM_append, idle_fold mid (fun l hl => ho l (by simp [hl]))]
    show List.foldlM versionLine _ _ = _
    rw [List.foldlM_cons, hPline]
    show List.foldlM versionLine _ _ = _
    rw [idle_fold post (fun l hl => ho l (by simp [hl]))]
  · intro l hl
    simp only [List.mem_append, List.mem_cons] at hl
    rcases hl with h | rfl | h | rfl | h
    · exact ⟨(ho l (by simp [h])).1, (ho l (by simp [h])).2.1⟩
    · exact ⟨hVnl, by rw [hVlast]; simpa using hcr _ hvx⟩
    · exact ⟨(ho l (by simp [h])).1, (ho l (by simp [h])).2.1⟩
    · exact ⟨hPnl, by rw [hPlast]; simpa using hcr _ hpx⟩
    · exact ⟨(ho l (by simp [h])).1, (ho l (by simp [h])).2.1⟩

example : parseVersionData (textOf ([s%"WARNING: ignoring environment value of R_HOME"] ++
    (s%"R version " ++ s%"4" ++ '.' :: (s%"3" ++ '.' :: (s%"1" ++ ' ' :: s%"(2023-06-16)"))) ::
    ([s%"Copyright"] ++ (s%"Platform: " ++ s%"x86_64-pc-linux-gnu" ++ s%" (64-bit)") :: []))) =
    some ((4, 3, 1), s%"x86_64-pc-linux-gnu") := by
  refine C80_exact_partial _ _ _ (s%"4") (s%"3") (s%"1") _ _ ⟨by decide, by decide⟩ ⟨by decide, by decide⟩ ⟨by decide, by decide⟩
    (by decide) (by decide) (by decide) ⟨by decide, by decide⟩ (Or.inr ⟨s%"(64-bit", ')', rfl, by decide, by decide⟩) _
    (Or.inr ⟨s%"(2023-06-16", ')', rfl, by decide, by decide⟩) ?_
  intro l hl
  simp only [List.cons_append, List.nil_append, List.append_nil, List.mem_cons, List.not_mem_nil, or_false] at hl
  rcases hl with rfl | rfl <;> refine ⟨by decide, by decide, fun t ht => ?_⟩ <;> rw [← (trimSpace_iff _ _).2 ht] <;>
    exact ⟨by decide, by decide⟩

/-- C80 fails: with two such lines the last one counts; a development version ("R Under development") gives 0.0.0;
and a platform line without a platform is a crash. -/
theorem C80_violated :
    parseVersionData (textOf [s%"R version 4.3.1 (a)", s%"R version 3.6.0 (b)"]) = some ((3, 6, 0), []) ∧
    parseVersionData (textOf [s%"R Under development (unstable) (2024-01-01 r85000)"]) = some ((0, 0, 0), []) ∧
    parseVersionData (textOf [s%"R version 4.3.1 (a)", s%"Platform:"]) = none := by decide

end Pkgr
