/- C100-C103: expansion of variables and `~` in the configuration, and the choice of the library. -/
import Verif.Spec.Settings
import Verif.Props.RSettings

namespace Pkgr
open Spec

theorem expandAux_drop (env : Str → Str) (k : Nat) (s : Str) : expandAux env k s = expandAux env 0 (s.drop k) := by
  induction s generalizing k with
  | nil => cases k <;> simp [expandAux]
  | cons c s ih =>
    cases k with
    | zero => rfl
    | succ k => rw [expandAux, ih]; rfl

theorem char_le_iff (a b : Char) : a ≤ b ↔ a.toNat ≤ b.toNat := Iff.rfl

theorem isAlphaNum_iff (c : Char) : isAlphaNum c = true ↔ WordChar c := by
  simp only [isAlphaNum, WordChar, Bool.or_eq_true, Bool.and_eq_true, decide_eq_true_eq, char_le_iff]
  constructor
  · rintro (((h | h) | h) | h)
    · exact .inl h
    · exact .inr (.inl h)
    · exact .inr (.inr (.inl h))
    · exact .inr (.inr (.inr h))
  · rintro (h | h | h | h)
    · exact .inl (.inl (.inl h))
    · exact .inl (.inl (.inr h))
    · exact .inl (.inr h)
    · exact .inr h

theorem digit_cases {c : Char} (h1 : '0' ≤ c) (h2 : c ≤ '9') :
    c = '0' ∨ c = '1' ∨ c = '2' ∨ c = '3' ∨ c = '4' ∨ c = '5' ∨ c = '6' ∨ c = '7' ∨ c = '8' ∨ c = '9' := by
  rw [char_le_iff] at h1 h2
  have e : ∀ d : Char, c.toNat = d.toNat → c = d := fun d h => Char.ext (UInt32.toNat_inj.mp h)
  have h3 : ('0' : Char).toNat = 48 := rfl
  have h4 : ('9' : Char).toNat = 57 := rfl
  have : c.toNat = 48 ∨ c.toNat = 49 ∨ c.toNat = 50 ∨ c.toNat = 51 ∨ c.toNat = 52 ∨ c.toNat = 53 ∨ c.toNat = 54 ∨
      c.toNat = 55 ∨ c.toNat = 56 ∨ c.toNat = 57 := by omega
  rcases this with h | h | h | h | h | h | h | h | h | h
  · exact .inl (e '0' h)
  · exact .inr (.inl (e '1' h))
  · exact .inr (.inr (.inl (e '2' h)))
  · exact .inr (.inr (.inr (.inl (e '3' h))))
  · exact .inr (.inr (.inr (.inr (.inl (e '4' h)))))
  · exact .inr (.inr (.inr (.inr (.inr (.inl (e '5' h))))))
  · exact .inr (.inr (.inr (.inr (.inr (.inr (.inl (e '6' h)))))))
  · exact .inr (.inr (.inr (.inr (.inr (.inr (.inr (.inl (e '7' h))))))))
  · exact .inr (.inr (.inr (.inr (.inr (.inr (.inr (.inr (.inl (e '8' h)))))))))
  · exact .inr (.inr (.inr (.inr (.inr (.inr (.inr (.inr (.inr (e '9' h)))))))))

theorem isShellSpecial_iff (c : Char) : isShellSpecial c = true ↔ SpecialVar c := by
  unfold isShellSpecial SpecialVar
  rw [decide_eq_true_eq]
  constructor
  · intro h
    simp only [List.mem_cons, List.not_mem_nil, or_false] at h
    rcases h with h | h | h | h | h | h | h | h | h | h | h | h | h | h | h | h | h <;> subst h <;> decide
  · rintro (h | h | h | h | h | h | h | ⟨h1, h2⟩)
    all_goals first
      | (subst h; decide)
      | (rcases digit_cases h1 h2 with h | h | h | h | h | h | h | h | h | h <;> subst h <;> decide)

theorem takeWhile_append_stop {p : Char → Bool} {n s : Str} (hn : ∀ c ∈ n, p c = true) (hs : ∀ c, s.head? = some c → p c = false) :
    (n ++ s).takeWhile p = n := by
  induction n with
  | nil =>
    cases s with
    | nil => rfl
    | cons c s => simp [hs c rfl]
  | cons a n ih => simp [hn a List.mem_cons_self, ih fun c hc => hn c (List.mem_cons_of_mem _ hc)]

theorem mem_takeWhile {p : Char → Bool} {s : Str} {c : Char} (h : c ∈ s.takeWhile p) : p c = true := by
  induction s with
  | nil => cases h
  | cons a s ih =>
    rw [List.takeWhile_cons] at h
    split at h
    · rename_i ha
      rcases List.mem_cons.mp h with rfl | h
      · exact ha
      · exact ih h
    · cases h

theorem brace_not_special : isShellSpecial '}' = false := by decide

theorem braceName_scan (s : Str) : braceName s = braceName.scan s := by
  unfold braceName
  split
  · rename_i c r
    split
    · rename_i h
      have hc : c ≠ '}' := by rintro rfl; rw [brace_not_special] at h; cases h
      simp [braceName.scan, hc]
    · rfl
  · rfl

theorem braceName_named {n s : Str} (hne : n ≠ []) (hb : '}' ∉ n) : braceName (n ++ '}' :: s) = (n, n.length + 2) := by
  rw [braceName_scan]
  have h : (n ++ '}' :: s).takeWhile (· ≠ '}') = n := by
    refine takeWhile_append_stop ?_ ?_
    · intro c hc; rw [decide_eq_true_eq]; rintro rfl; exact hb hc
    · intro c hc; cases hc; decide
  simp only [braceName.scan, h]
  rw [if_neg (by simp), if_neg hne]

theorem braceName_unclosed {s : Str} (hb : '}' ∉ s) : braceName s = ([], 1) := by
  rw [braceName_scan]
  have h : s.takeWhile (· ≠ '}') = s := by
    have := takeWhile_append_stop (p := (· ≠ '}')) (n := s) (s := [])
      (by intro c hc; rw [decide_eq_true_eq]; rintro rfl; exact hb hc) (by intro c hc; cases hc)
    simpa using this
  simp only [braceName.scan, h, if_true]

theorem expands_sound {env : Str → Str} {s r : Str} (h : Expands env s r) : expandEnv env s = r := by
  unfold expandEnv
  induction h with
  | nil => rfl
  | @plain c s r hc _ ih => rw [expandAux, if_neg (fun h => hc h.1), ih]
  | @dollar s r hs _ ih =>
    rw [expandAux]
    cases s with
    | nil => simp [← ih, expandAux]
    | cons c s =>
      obtain ⟨h1, h2, h3⟩ := hs c rfl
      have h2' : isAlphaNum c = false := by rw [← Bool.not_eq_true, isAlphaNum_iff]; exact h2
      have h3' : isShellSpecial c = false := by rw [← Bool.not_eq_true, isShellSpecial_iff]; exact h3
      have hn : shellName (c :: s) = ([], 0) := by
        unfold shellName
        split
        · rename_i h; cases h; exact absurd rfl h1
        · rename_i h; cases h; simp [h3', h2']
        · rename_i h; cases h
      rw [if_pos ⟨rfl, by simp⟩, hn, ih]
      simp
  | @word n s r hne hw hsp hs _ ih =>
    obtain ⟨c, n', rfl⟩ := List.exists_cons_of_ne_nil hne
    have hc1 : isShellSpecial c = false := by rw [← Bool.not_eq_true, isShellSpecial_iff]; exact hsp c rfl
    have hc2 : c ≠ '{' := by
      rintro rfl
      have := hw '{' List.mem_cons_self
      rw [← isAlphaNum_iff] at this
      revert this; decide
    have htw : (c :: n' ++ s).takeWhile isAlphaNum = c :: n' := by
      refine takeWhile_append_stop (fun x hx => (isAlphaNum_iff x).mpr (hw x hx)) ?_
      intro x hx; rw [← Bool.not_eq_true, isAlphaNum_iff]; exact hs x hx
    have hn : shellName (c :: n' ++ s) = (c :: n', (c :: n').length) := by
      rw [List.cons_append] at htw ⊢
      unfold shellName
      split
      · rename_i h; cases h; exact absurd rfl hc2
      · rename_i h; cases h; simp only [hc1, Bool.false_eq_true, if_false, htw]
      · rename_i h; cases h
    rw [expandAux, if_pos ⟨rfl, by simp⟩, hn, expandAux_drop, List.drop_left]
    simp only [List.cons_ne_nil, if_false]
    rw [ih]
  | @special c s r hc _ ih =>
    have h3 : isShellSpecial c = true := (isShellSpecial_iff c).mpr hc
    have hc2 : c ≠ '{' := by rintro rfl; revert h3; decide
    have hn : shellName (c :: s) = ([c], 1) := by
      unfold shellName
      split
      · rename_i h; cases h; exact absurd rfl hc2
      · rename_i h; cases h; simp [h3]
      · rename_i h; cases h
    rw [expandAux, if_pos ⟨rfl, by simp⟩, hn, expandAux_drop]
    simp [ih]
  | @braces n s r hne hb _ ih =>
    have hn : shellName ('{' :: (n ++ '}' :: s)) = (n, n.length + 2) := by
      unfold shellName
      exact braceName_named hne hb
    rw [expandAux, if_pos ⟨rfl, by simp⟩, hn, expandAux_drop]
    have : ('{' :: (n ++ '}' :: s)).drop (n.length + 2) = s := by
      rw [List.drop_succ_cons, ← List.drop_drop (j := n.length), List.drop_left]; rfl
    rw [this, ih]
    simp [hne]
  | @empty s r _ ih =>
    have hn : shellName ('{' :: '}' :: s) = ([], 2) := by
      unfold shellName
      simp only
      rw [braceName_scan]
      simp [braceName.scan]
    rw [expandAux, if_pos ⟨rfl, by simp⟩, hn, expandAux_drop]
    simp [ih]
  | @unclosed s r hb _ ih =>
    have hn : shellName ('{' :: s) = ([], 1) := by unfold shellName; exact braceName_unclosed hb
    rw [expandAux, if_pos ⟨rfl, by simp⟩, hn, expandAux_drop]
    simp [ih]

theorem expands_total (env : Str → Str) : ∀ (k : Nat) (s : Str), s.length ≤ k → ∃ r, Expands env s r := by
  intro k
  induction k with
  | zero => intro s hs; cases s with
    | nil => exact ⟨[], .nil⟩
    | cons c s => simp at hs
  | succ k ih =>
    intro s hs
    cases s with
    | nil => exact ⟨[], .nil⟩
    | cons c s =>
      simp only [List.length_cons] at hs
      by_cases hc : c = '$'
      · subst hc
        cases s with
        | nil => exact ⟨_, .dollar (by intro c h; cases h) .nil⟩
        | cons d s =>
          simp only [List.length_cons] at hs
          by_cases hd : d = '{'
          · subst hd
            by_cases hb : '}' ∈ s
            · obtain ⟨n, s', rfl, hn⟩ : ∃ n s', s = n ++ '}' :: s' ∧ '}' ∉ n := by
                obtain ⟨a, b, h1, h2⟩ := mem_first _ _ hb
                exact ⟨a, b, h1, h2⟩
              simp only [List.length_append, List.length_cons] at hs
              obtain ⟨r, hr⟩ := ih s' (by omega)
              by_cases hne : n = []
              · subst hne; exact ⟨r, .empty hr⟩
              · exact ⟨_, .braces hne hn hr⟩
            · obtain ⟨r, hr⟩ := ih s (by omega)
              exact ⟨r, .unclosed hb hr⟩
          · by_cases hsp : SpecialVar d
            · obtain ⟨r, hr⟩ := ih s (by omega)
              exact ⟨_, .special hsp hr⟩
            · by_cases hw : WordChar d
              · have hsplit : (d :: s).takeWhile isAlphaNum ++ (d :: s).dropWhile isAlphaNum = d :: s :=
                  List.takeWhile_append_dropWhile
                have hd' : isAlphaNum d = true := (isAlphaNum_iff d).mpr hw
                have hlen : ((d :: s).dropWhile isAlphaNum).length ≤ k := by
                  have := congrArg List.length hsplit
                  simp only [List.length_append, List.length_cons, List.takeWhile_cons, hd', if_true] at this
                  omega
                obtain ⟨r, hr⟩ := ih _ hlen
                refine ⟨env ((d :: s).takeWhile isAlphaNum) ++ r, ?_⟩
                rw [← hsplit]
                rw [hsplit]
                conv => arg 2; rw [← hsplit]
                refine .word (by simp [List.takeWhile_cons, hd']) ?_ ?_ ?_ hr
                · intro c hc; exact (isAlphaNum_iff c).mp (mem_takeWhile hc)
                · intro c hc; simp [List.takeWhile_cons, hd'] at hc; subst hc; exact hsp
                · intro c hc hw'
                  have := List.head?_dropWhile_not isAlphaNum (d :: s)
                  rw [hc] at this
                  simp only [(isAlphaNum_iff c).mpr hw'] at this
                  cases this
              · obtain ⟨r, hr⟩ := ih (d :: s) (by simp; omega)
                exact ⟨_, .dollar (by intro c h; cases h; exact ⟨hd, hw, hsp⟩) hr⟩
      · obtain ⟨r, hr⟩ := ih s (by omega)
        exact ⟨_, .plain hc hr⟩

/-- C100: the expansion of a text is what the rules say: `$NAME` and `${NAME}` are replaced by the value of the
variable, once and from left to right; the rules determine the result for every text. -/
theorem C100_expansion (env : Str → Str) (s r : Str) : expandEnv env s = r ↔ Expands env s r := by
  refine ⟨?_, expands_sound⟩
  rintro rfl
  obtain ⟨r, hr⟩ := expands_total env s.length s (Nat.le_refl _)
  rw [expands_sound hr]
  exact hr

/-- C100: a text without dollar signs is not changed. -/
theorem C100_plain_text (env : Str → Str) {s : Str} (h : '$' ∉ s) : expandEnv env s = s := by
  rw [C100_expansion]
  induction s with
  | nil => exact .nil
  | cons c s ih =>
    simp only [List.mem_cons, not_or] at h
    exact .plain (fun e => h.1 e.symm) (ih h.2)

theorem expands_plain_append {env : Str → Str} {a s r : Str} (ha : '$' ∉ a) (h : Expands env s r) :
    Expands env (a ++ s) (a ++ r) := by
  induction a with
  | nil => exact h
  | cons c a ih =>
    simp only [List.mem_cons, not_or] at ha
    exact .plain (fun e => ha.1 e.symm) (ih ha.2)

/-- C100: a reference to a variable, with or without braces, after text without dollar signs: the text stays, the
reference becomes the value (nothing, if the variable is not set), and the rest is treated in the same way. -/
theorem C100_reference (env : Str → Str) {a n s : Str} (ha : '$' ∉ a) (hne : n ≠ []) (hw : ∀ c ∈ n, WordChar c)
    (h0 : ∀ c, n.head? = some c → ¬ ('0' ≤ c ∧ c ≤ '9')) :
    expandEnv env (a ++ (s%"${" ++ n ++ s%"}" ++ s)) = a ++ (env n ++ expandEnv env s) ∧
    ((∀ c, s.head? = some c → ¬ WordChar c) → expandEnv env (a ++ ('$' :: (n ++ s))) = a ++ (env n ++ expandEnv env s)) := by
  have hs := (C100_expansion env s _).mp rfl
  have hbr : '}' ∉ n := by
    intro h
    have := hw '}' h
    rw [← isAlphaNum_iff] at this
    revert this; decide
  refine ⟨?_, ?_⟩
  · rw [C100_expansion]
    refine expands_plain_append ha ?_
    have := Expands.braces hne hbr hs
    simpa using this
  · intro hsw
    rw [C100_expansion]
    refine expands_plain_append ha (.word hne hw ?_ hsw hs)
    intro c hc hsp
    have hwc := hw c (List.mem_of_mem_head? hc)
    rw [← isAlphaNum_iff] at hwc
    rcases hsp with h | h | h | h | h | h | h | h
    · subst h; revert hwc; decide
    · subst h; revert hwc; decide
    · subst h; revert hwc; decide
    · subst h; revert hwc; decide
    · subst h; revert hwc; decide
    · subst h; revert hwc; decide
    · subst h; revert hwc; decide
    · exact h0 c hc h

example : expandEnv (fun n => if n = s%"R_EXE" then s%"/opt/R" else []) (s%"Rpath: ${R_EXE}/bin/R # $UNSET!") =
    s%"Rpath: /opt/R/bin/R # !" := by decide

theorem Spec.Closed.suffix {a s : Str} (h : Closed (a ++ s)) : Closed s := by
  intro x y e
  exact h (a ++ x) y (by rw [e, List.append_assoc])

theorem expands_line {env : Str → Str} {a ra s rs : Str} (h : Expands env a ra) (hc : Closed a) (hs : Expands env s rs) :
    Expands env (a ++ '\n' :: s) (ra ++ '\n' :: rs) := by
  have hnl : ¬ WordChar '\n' := by rw [← isAlphaNum_iff]; decide
  have hnl' : ¬ SpecialVar '\n' := by rw [← isShellSpecial_iff]; decide
  induction h with
  | nil => exact .plain (by decide) hs
  | @plain c s' r hne _ ih => exact .plain hne (ih (hc.suffix (a := [c])))
  | @dollar s' r hd _ ih =>
    refine .dollar ?_ (ih (hc.suffix (a := ['$'])))
    intro c hc'
    cases s' with
    | nil => cases hc'; exact ⟨by decide, hnl, hnl'⟩
    | cons d s' => exact hd c hc'
  | @word n s' r hne hw hsp hend _ ih =>
    rw [List.cons_append, List.append_assoc, List.append_assoc]
    refine .word hne hw hsp ?_ (ih (Closed.suffix (a := '$' :: n) (by simpa using hc)))
    intro c hc'
    cases s' with
    | nil => cases hc'; exact hnl
    | cons d s' => exact hend c hc'
  | @special c s' r hsp _ ih =>
    rw [List.append_assoc]
    exact .special hsp (ih (hc.suffix (a := ['$', c])))
  | @braces n s' r hne hb _ ih =>
    have := Expands.braces (env := env) hne hb (ih (Closed.suffix (a := '$' :: '{' :: (n ++ ['}'])) (by simpa using hc)))
    simpa using this
  | @empty s' r _ ih => exact .empty (ih (hc.suffix (a := s%"${}")))
  | @unclosed s' r hb _ ih => exact absurd (hc [] s' rfl) hb

/-- C100, partial: when every `${` is closed on its line, the lines of the file are expanded one by one; so no
reference touches another line. Missing: `${` that is not closed on its line, see `C100_violated_across_lines`. -/
theorem C100_lines_partial (env : Str → Str) (lines : List Str) (hc : ∀ l ∈ lines, Closed l) :
    expandEnv env (joinWith '\n' lines) = joinWith '\n' (lines.map (expandEnv env)) := by
  induction lines with
  | nil => rfl
  | cons a lines ih =>
    have hih := ih fun l hl => hc l (List.mem_cons_of_mem _ hl)
    cases lines with
    | nil => rfl
    | cons b lines =>
      rw [C100_expansion]
      simp only [joinWith, List.map_cons]
      exact expands_line ((C100_expansion env a _).mp rfl) (hc a List.mem_cons_self) ((C100_expansion env _ _).mp hih)

example : Closed (s%"Library: ${LIB}/x") := by
  intro x y e
  have : '}' ∈ s%"Library: ${LIB}/x" := by decide
  rw [e] at this
  rcases List.mem_append.mp this with h | h
  · exfalso
    have hx : x = (s%"Library: ${LIB}/x").take x.length := by rw [e]; simp
    have hlen : x.length ≤ 17 := by
      have := congrArg List.length e; simp at this; omega
    have hy : ((s%"Library: ${LIB}/x").drop x.length).take 2 = s%"${" := by rw [e]; simp
    have hall : ∀ k ≤ 17, ((s%"Library: ${LIB}/x").drop k).take 2 = s%"${" → '}' ∉ (s%"Library: ${LIB}/x").take k := by decide
    rw [hx] at h
    exact hall _ hlen hy h
  · simp only [List.mem_cons] at h
    rcases h with h | h | h
    · exact absurd h (by decide)
    · exact absurd h (by decide)
    · exact h

/-- C100 is violated for a `${` that is not closed on its line: the lines up to the next closing brace disappear. -/
theorem C100_violated_across_lines :
    expandEnv (fun _ => []) (joinWith '\n' [s%"Packages: # for ${ USD", s%"  - dplyr", s%"Logging: {all: x}", s%"Library: lib"]) =
      joinWith '\n' [s%"Packages: # for ", s%"Library: lib"] := by decide

/-! ### C101 -/

theorem joinWith_append (c : Char) (l l' : List Str) (h : l ≠ []) (h' : l' ≠ []) :
    joinWith c (l ++ l') = joinWith c l ++ c :: joinWith c l' := by
  induction l with
  | nil => exact absurd rfl h
  | cons a l ih =>
    cases l with
    | nil =>
      obtain ⟨b, l'', rfl⟩ := List.exists_cons_of_ne_nil h'
      rfl
    | cons b l =>
      have := ih (by simp)
      simp only [List.cons_append] at this ⊢
      rw [joinWith, this, joinWith]
      simp

theorem splitOn_ne_nil' (c : Char) (s : Str) : splitOn c s ≠ [] := by
  intro h
  have := joinWith_splitOn c s
  rw [h] at this
  subst this
  cases h

theorem splitOn_append_any (c : Char) (a b : Str) : splitOn c (a ++ c :: b) = splitOn c a ++ splitOn c b := by
  have h := splitOn_joinWith c (splitOn c a ++ splitOn c b) (by simp [splitOn_ne_nil'])
    (by intro x hx; rcases List.mem_append.mp hx with hx | hx <;> exact splitOn_mem c _ x hx)
  rw [joinWith_append c _ _ (splitOn_ne_nil' c a) (splitOn_ne_nil' c b), joinWith_splitOn, joinWith_splitOn] at h
  exact h

/-- C101: in a path of the configuration `~` alone denotes the home directory and `~/x` the file `x` in it; a path that
does not start with `~` is not changed; `~name` is refused, as is `~` when there is no home directory. -/
theorem C101_tilde (home : Option Str) :
    (∀ p : Str, p.head? ≠ some '~' → expandTilde home p = some p) ∧
    (∀ h d, home = some h → h.head? = some '/' → Leads [] h d →
      (∃ r, expandTilde home (s%"~") = some r ∧ ∀ cwd e, Leads cwd r e ↔ e = d) ∧
      ∀ x, ∃ r, expandTilde home (s%"~/" ++ x) = some r ∧
        ∀ cwd e, Leads cwd r e ↔ ∃ cs, Components '/' x cs ∧ Walk d cs e) ∧
    (∀ c x, c ≠ '/' → c ≠ '\\' → expandTilde home ('~' :: c :: x) = none) ∧
    (home = none → ∀ p : Str, p.head? = some '~' → expandTilde home p = none) := by
  refine ⟨?_, ?_, ?_, ?_⟩
  · intro p hp
    unfold expandTilde
    split
    · exact absurd rfl hp
    · rfl
  · intro h d hh hs hd
    subst hh
    have hne : h ≠ [] := by rintro rfl; cases hs
    rw [leads_iff] at hd
    simp only [hs, if_true] at hd
    refine ⟨⟨joinStr h [], rfl, ?_⟩, ?_⟩
    · intro cwd e
      unfold joinStr
      rw [if_neg hne, if_pos rfl, cleanPath_leads, leads_iff]
      simp only [hs, if_true, hd]
      exact eq_comm
    · intro x
      refine ⟨joinStr h ('/' :: x), ?_, ?_⟩
      · simp [expandTilde]
      · intro cwd e
        unfold joinStr
        rw [if_neg hne, if_neg (by simp), cleanPath_leads, leads_iff]
        have hhead : (h ++ '/' :: '/' :: x).head? = some '/' := by
          obtain ⟨c, h', rfl⟩ := List.exists_cons_of_ne_nil hne
          simpa using hs
        rw [if_pos hhead, splitOn_append_any, List.foldl_append, hd]
        have : splitOn '/' ('/' :: x) = [] :: splitOn '/' x := splitOn_append_any '/' [] x
        rw [this, List.foldl_cons]
        have hj : joinComp d [] = d := by simp [joinComp]
        rw [hj]
        simp only [components_iff, exists_eq_left', walk_iff]
  · intro c x h1 h2
    simp [expandTilde, h1, h2]
  · intro hh p hp
    subst hh
    cases p with
    | nil => cases hp
    | cons c p =>
      cases hp
      cases p with
      | nil => rfl
      | cons c p => simp [expandTilde]

example : expandTilde (some (s%"/home/u")) (s%"~/lib/../x") = some (s%"/home/u/x") ∧
    expandTilde (some (s%"/home/u")) (s%"~bob/lib") = none := by decide

/-! ### C102, C103 -/

theorem named_configured {s : LibrarySources} {l : Str} (h : NamedLibrary s l) : configuredLibrary s = l := by
  unfold configuredLibrary
  rcases h with h | ⟨h1, h2, h3⟩ | ⟨h1, h2, h3⟩
  · rw [h]
  · rw [h1, h2]
    cases l with
    | nil => exact absurd rfl h3
    | cons c l => rfl
  · rw [h1, h3]
    rcases h2 with h2 | h2 <;> rw [h2] <;> rfl

/-- C102: a library that is named on the command line, in PKGR_LIBRARY or in the file, the first of these in this order,
is used, whatever lockfile is configured. -/
theorem C102_named {s : LibrarySources} {l : Str} (h : NamedLibrary s l) (hl : l ≠ []) (home : Option Str) :
    chooseLibrary home s = expandTilde home l := by
  unfold chooseLibrary
  dsimp only
  rw [named_configured h, if_neg hl]

/-- C102: when no library is named, packrat's directory for the platform and version of R is used for a packrat
lockfile, what renv says for an renv lockfile, and otherwise the run ends. -/
theorem C102_lockfile {s : LibrarySources} (h : ∀ l, NamedLibrary s l → l = []) (home : Option Str) :
    (s.lockfile = s%"packrat" → s.platform ≠ s%"x86_64-w64-mingw32/x64" → PlainPath s.platform → PlainPath s.rVersion →
      chooseLibrary home s = some (s%"packrat/lib/" ++ s.platform ++ s%"/" ++ s.rVersion)) ∧
    (s.lockfile = s%"packrat" → s.platform = s%"x86_64-w64-mingw32/x64" → PlainPath s.rVersion →
      chooseLibrary home s = some (s%"packrat/lib/x86_64-w64-mingw32/" ++ s.rVersion)) ∧
    (s.lockfile = s%"renv" → chooseLibrary home s = (renvLibrary s.renvOut).bind (expandTilde home)) ∧
    (s.lockfile ≠ s%"packrat" → s.lockfile ≠ s%"renv" → chooseLibrary home s = none) := by
  have hc : configuredLibrary s = [] := by
    unfold configuredLibrary
    cases hf : s.flag with
    | some v => exact h v (.inl hf)
    | none =>
      have hlast : (s.env = none ∨ s.env = some []) → s.file.getD [] = [] := by
        intro he
        cases hfile : s.file with
        | none => rfl
        | some v => exact h v (.inr (.inr ⟨hf, he, hfile⟩))
      cases he : s.env with
      | none => exact hlast (.inl he)
      | some v =>
        cases v with
        | nil => exact hlast (.inr he)
        | cons c v => exact absurd (h _ (.inr (.inl ⟨hf, he, by simp⟩))) (by simp)
  have hpack : ∀ (plat : Str), PlainPath plat → PlainPath s.rVersion →
      joinStr (joinStr (s%"packrat/lib") plat) s.rVersion = s%"packrat/lib/" ++ plat ++ s%"/" ++ s.rVersion := by
    intro plat hp hv
    have hfinal : ∀ (a b : Str), PlainPath a → PlainPath b →
        cleanPath (joinWith '/' [s%"packrat", s%"lib", a, b]) = joinWith '/' [s%"packrat", s%"lib", a, b] := by
      intro a b ha hb
      unfold cleanPath
      rw [splitOn_joinWith _ _ (by simp) (by
        intro x hx
        simp only [List.mem_cons, List.not_mem_nil, or_false] at hx
        rcases hx with rfl | rfl | rfl | rfl
        · decide
        · decide
        · exact ha.2.2.2
        · exact hb.2.2.2)]
      have : (joinWith '/' [s%"packrat", s%"lib", a, b]).head? = some 'p' := rfl
      simp only [this, List.foldl_cons, List.foldl_nil]
      simp [cleanComp, ha.1, ha.2.1, ha.2.2.1, hb.1, hb.2.1, hb.2.2.1, joinWith]
    have hfirst : ∀ (a : Str), PlainPath a → cleanPath (joinWith '/' [s%"packrat", s%"lib", a]) = joinWith '/' [s%"packrat", s%"lib", a] := by
      intro a ha
      unfold cleanPath
      rw [splitOn_joinWith _ _ (by simp) (by
        intro x hx
        simp only [List.mem_cons, List.not_mem_nil, or_false] at hx
        rcases hx with rfl | rfl | rfl
        · decide
        · decide
        · exact ha.2.2.2)]
      have : (joinWith '/' [s%"packrat", s%"lib", a]).head? = some 'p' := rfl
      simp only [this, List.foldl_cons, List.foldl_nil]
      simp [cleanComp, ha.1, ha.2.1, ha.2.2.1, joinWith]
    have h1 : joinStr (s%"packrat/lib") plat = joinWith '/' [s%"packrat", s%"lib", plat] := by
      unfold joinStr
      rw [if_neg (by decide), if_neg hp.1, ← hfirst plat hp]
      rfl
    rw [h1]
    unfold joinStr
    rw [if_neg (by simp [joinWith]), if_neg hv.1]
    have h2 : joinWith '/' [s%"packrat", s%"lib", plat] ++ '/' :: s.rVersion = joinWith '/' [s%"packrat", s%"lib", plat, s.rVersion] := by
      simp [joinWith]
    rw [h2, hfinal plat s.rVersion hp hv]
    simp [joinWith]
  refine ⟨?_, ?_, ?_, ?_⟩
  · intro hl hp h1 h2
    simp only [chooseLibrary, hc, if_true, libraryPath, hl, packratPlatform, hp, if_false, hpack _ h1 h2]
    rfl
  · intro hl hp h2
    have h1 : PlainPath (s%"x86_64-w64-mingw32") := by unfold PlainPath; decide
    simp only [chooseLibrary, hc, if_true, libraryPath, hl, packratPlatform, hp, hpack _ h1 h2]
    rfl
  · intro hl
    simp only [chooseLibrary, hc, if_true, libraryPath, hl]
    cases renvLibrary s.renvOut <;> rfl
  · intro h1 h2
    simp only [chooseLibrary, hc, if_true, libraryPath, h1, h2, if_false]

example : chooseLibrary none { flag := some (s%"cli"), env := some (s%"envlib"), file := some (s%"lib"), lockfile := s%"renv" } =
    some (s%"cli") ∧ chooseLibrary none { lockfile := s%"packrat", platform := s%"x86_64-pc-linux-gnu", rVersion := s%"4.1.3" } =
    some (s%"packrat/lib/x86_64-pc-linux-gnu/4.1.3") := by decide

theorem infix_trans' {a b c : Str} (h1 : a <:+: b) (h2 : b <:+: c) : a <:+: c := h1.trans h2

theorem infix_scanned {m l : Str} (h : m <+: trimSpace (dropLineNo (dropCR l))) : m <:+: l := by
  have h1 : trimSpace (dropLineNo (dropCR l)) <:+: dropLineNo (dropCR l) := by
    obtain ⟨a, b, hab, _⟩ := (trimSpace_iff (dropLineNo (dropCR l)) _).mp rfl
    exact ⟨a, b, hab.symm⟩
  have h2 : dropLineNo (dropCR l) <:+: dropCR l := by
    generalize dropCR l = l'
    unfold dropLineNo
    split
    · rename_i r
      dsimp only
      split
      · rename_i hd
        have : r = r.take (r.takeWhile fun c => (digit? c).isSome).length ++ r.drop (r.takeWhile fun c => (digit? c).isSome).length :=
          (List.take_append_drop _ _).symm
        rw [hd] at this
        exact ⟨'[' :: (r.take (r.takeWhile fun c => (digit? c).isSome).length ++ [']']), [], by rw [List.append_nil]; conv => { rhs; rw [this] }; simp⟩
      · exact List.infix_refl _
    · exact List.infix_refl _
  have h3 : dropCR l <:+: l := by
    unfold dropCR
    split
    · exact (List.dropLast_prefix l).isInfix
    · exact List.infix_refl _
  exact ((h.isInfix.trans h1).trans h2).trans h3

/-- C103: what renv prints is found exactly, whatever R prints before and after it (before it, the marker must not
occur), whatever characters the library's name has (it is one line). -/
theorem C103_renv_output {pre lib post : Str} (hpre : ¬ s%"_pkgr_" <:+: pre) (hne : lib ≠ []) (hnl : '\n' ∉ lib) :
    renvLibrary (some (pre ++ (s%"\n_pkgr_" ++ lib ++ s%"_pkgr_\n") ++ post)) = some lib := by
  have hm : '\n' ∉ s%"_pkgr_" ++ lib ++ s%"_pkgr_" := by
    simp only [List.mem_append, not_or]
    exact ⟨⟨by decide, hnl⟩, by decide⟩
  have hsplit : splitOn '\n' (pre ++ (s%"\n_pkgr_" ++ lib ++ s%"_pkgr_\n") ++ post) =
      splitOn '\n' pre ++ (s%"_pkgr_" ++ lib ++ s%"_pkgr_") :: splitOn '\n' post := by
    have e : pre ++ (s%"\n_pkgr_" ++ lib ++ s%"_pkgr_\n") ++ post =
        pre ++ '\n' :: ((s%"_pkgr_" ++ lib ++ s%"_pkgr_") ++ '\n' :: post) := by simp
    rw [e, splitOn_append_any, splitOn_append_any, splitOn_of_not_mem _ _ hm]
    rfl
  have hlines : ∃ tail, readLines (pre ++ (s%"\n_pkgr_" ++ lib ++ s%"_pkgr_\n") ++ post) =
      (splitOn '\n' pre ++ (s%"_pkgr_" ++ lib ++ s%"_pkgr_") :: tail).map dropCR := by
    unfold readLines
    rw [hsplit]
    dsimp only
    split
    · refine ⟨(splitOn '\n' post).dropLast, ?_⟩
      obtain ⟨x, xs, hx⟩ := List.exists_cons_of_ne_nil (splitOn_ne_nil' '\n' post)
      rw [List.dropLast_append_of_ne_nil (by simp), hx]
      simp
    · exact ⟨_, rfl⟩
  obtain ⟨tail, hl⟩ := hlines
  have hlast : (s%"_pkgr_" ++ lib ++ s%"_pkgr_").getLast? = some '_' := by rw [List.getLast?_append]; rfl
  have hclean : trimSpace (dropLineNo (dropCR (s%"_pkgr_" ++ lib ++ s%"_pkgr_"))) = s%"_pkgr_" ++ lib ++ s%"_pkgr_" := by
    have h1 : dropCR (s%"_pkgr_" ++ lib ++ s%"_pkgr_") = s%"_pkgr_" ++ lib ++ s%"_pkgr_" := by
      unfold dropCR
      rw [hlast]
      simp
    rw [h1]
    have h2 : dropLineNo (s%"_pkgr_" ++ lib ++ s%"_pkgr_") = s%"_pkgr_" ++ lib ++ s%"_pkgr_" := rfl
    rw [h2]
    refine trimSpace_of_trimmed ⟨?_, ?_⟩
    · intro c hc; cases hc; decide
    · intro c hc; rw [hlast] at hc; cases hc; decide
  unfold renvLibrary
  dsimp only
  have hfind : markedLine (scanROutput false (pre ++ (s%"\n_pkgr_" ++ lib ++ s%"_pkgr_\n") ++ post)) = lib := by
    unfold scanROutput
    rw [hl, List.map_append, List.map_append, List.filter_append]
    unfold markedLine
    rw [List.find?_append]
    have hnone : List.find? (fun l => hasPrefix l (s%"_pkgr_") && hasSuffix l (s%"_pkgr_"))
        (List.filter (fun l => !l.isEmpty && !(false && hasPrefix l (s%">")))
          (((splitOn '\n' pre).map dropCR).map fun l => trimSpace (dropLineNo l))) = none := by
      rw [List.find?_eq_none]
      intro x hx
      simp only [List.mem_filter, List.mem_map] at hx
      obtain ⟨⟨y, ⟨z, hz, rfl⟩, rfl⟩, _⟩ := hx
      intro hcon
      simp only [Bool.and_eq_true, hasPrefix_iff] at hcon
      have hinf := infix_scanned hcon.1
      obtain ⟨i, j, hij⟩ : z <:+: pre := by
        have := joinWith_splitOn '\n' pre
        obtain ⟨as, bs, hab⟩ := List.append_of_mem hz
        rw [hab] at this
        rw [← this]
        cases as with
        | nil =>
          cases bs with
          | nil => exact ⟨[], [], by simp [joinWith]⟩
          | cons b bs => exact ⟨[], '\n' :: joinWith '\n' (b :: bs), by simp [joinWith]⟩
        | cons a as =>
          rw [joinWith_append _ _ _ (by simp) (by simp)]
          cases bs with
          | nil => exact ⟨joinWith '\n' (a :: as) ++ ['\n'], [], by simp [joinWith]⟩
          | cons b bs => exact ⟨joinWith '\n' (a :: as) ++ ['\n'], '\n' :: joinWith '\n' (b :: bs), by simp [joinWith]⟩
      exact hpre (hinf.trans ⟨i, j, hij⟩)
    rw [hnone]
    simp only [Option.none_or]
    rw [List.map_cons, List.map_cons, hclean, List.filter_cons_of_pos (by simp), List.find?_cons_of_pos (by
      rw [Bool.and_eq_true, hasPrefix_iff, hasSuffix_iff]
      exact ⟨⟨lib ++ s%"_pkgr_", by simp⟩, ⟨s%"_pkgr_" ++ lib, by simp⟩⟩)]
    have hp : hasPrefix (s%"_pkgr_" ++ lib ++ s%"_pkgr_") (s%"_pkgr_") = true :=
      (hasPrefix_iff _ _).mpr ⟨lib ++ s%"_pkgr_", by simp⟩
    have hd : (s%"_pkgr_" ++ lib ++ s%"_pkgr_").drop (s%"_pkgr_").length = lib ++ s%"_pkgr_" := by simp
    have hs : hasSuffix (lib ++ s%"_pkgr_") (s%"_pkgr_") = true := (hasSuffix_iff _ _).mpr ⟨lib, rfl⟩
    simp only [trimMarker, hp, if_true, hd, hs]
    simp
  rw [hfind, if_neg hne]

example : renvLibrary (some (s%"* Project loaded.\n\n_pkgr_/p/renv/library/R-4.3_pkgr_\n")) = some (s%"/p/renv/library/R-4.3") := by
  decide

/-- C103, partial: R and renv are run in the directory of the configuration file, where relative paths are to be
understood, if this is the directory in which the program was started. Missing: a configuration file elsewhere, see
`C103_violated_directory`. -/
theorem C103_directory_partial {cwd cfgFile : Path} (h : dirPath cfgFile = cwd) (rpath : Str) (s : LibrarySources) :
    ∀ a ∈ initActs cwd cfgFile rpath s, ∀ d, (a = .askRenv d ∨ a = .runR d rpath ∨ a = .chdir d) → d = dirPath cfgFile := by
  intro a ha d hd
  unfold initActs at ha
  simp only [List.mem_append, List.mem_singleton] at ha
  rcases ha with (rfl | ha) | rfl
  · rcases hd with hd | hd | hd <;> cases hd
  · split at ha
    · simp only [List.mem_append, List.mem_singleton] at ha
      rcases ha with rfl | ha
      · rcases hd with hd | hd | hd <;> cases hd; exact h.symm
      · split at ha
        · rw [List.mem_singleton] at ha; subst ha
          rcases hd with hd | hd | hd <;> cases hd; exact h.symm
        · cases ha
    · cases ha
  · rcases hd with hd | hd | hd <;> cases hd; rfl

/-- C103 is violated with `--config`: for a configuration in another directory renv is asked in the directory the
program was started in, so for another project's library (and a relative path of R is looked up there, too). -/
theorem C103_violated_directory : ∃ (cwd cfgFile : Path) (s : LibrarySources), dirPath cfgFile ≠ cwd ∧
    .askRenv cwd ∈ initActs cwd cfgFile (s%"bin/R") s ∧ .runR cwd (s%"bin/R") ∈ initActs cwd cfgFile (s%"bin/R") s :=
  ⟨[s%"home"], [s%"home", s%"project", s%"pkgr.yml"], { lockfile := s%"renv" }, by decide, by decide, by decide⟩

end Pkgr
