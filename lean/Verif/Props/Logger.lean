/-
C120–C123: what pkgr says, and where.
-/
import Verif.Spec.Logger

namespace Pkgr

open Spec

/-! ### The level -/

theorem enabled_iff (a b : Level) : enabled a b = true ↔ AtLeast b a := by
  cases a <;> cases b <;> decide

theorem ends_iff (r : LogRec) : r.level.num ≤ 1 ↔ Ends r := by
  unfold Ends
  cases r.level <;> simp [Level.num]

/-- Lower-case letters of the names of the levels. -/
def IsSmall (b : Char) : Prop := 'a' ≤ b ∧ b ≤ 'z' ∧ b ≠ 'k'

instance (b : Char) : Decidable (IsSmall b) := by unfold IsSmall; infer_instance

theorem char_le (a b : Char) : a ≤ b ↔ a.toNat ≤ b.toNat := Iff.rfl

theorem toLower_capital {a : Char} (h : 'A' ≤ a ∧ a ≤ 'Z') : a.toLower = Char.ofNat (a.toNat + 32) := by
  have h1 : 65 ≤ a.toNat := (char_le _ _).1 h.1
  have h2 : a.toNat ≤ 90 := (char_le _ _).1 h.2
  have hall : ∀ k, k < 26 → (Char.ofNat (65 + k)).toLower = Char.ofNat (65 + k + 32) := by decide
  have ha := hall (a.toNat - 65) (by omega)
  rw [show 65 + (a.toNat - 65) = a.toNat by omega, Char.ofNat_toNat] at ha
  exact ha

theorem toLower_other {a : Char} (h : ¬ ('A' ≤ a ∧ a ≤ 'Z')) : a.toLower = a := by
  unfold Char.toLower
  exact dif_neg h

theorem goLower_iff {a b : Char} (hb : IsSmall b) : goLower a = b ↔ SameLetter a b := by
  have hbl : b.toLower = b := toLower_other fun h => by
    have h1 := (char_le _ _).1 hb.1
    have h2 := (char_le _ _).1 h.2
    have e1 : 'a'.toNat = 97 := rfl
    have e2 : 'Z'.toNat = 90 := rfl
    omega
  unfold SameLetter goLower
  rw [hbl]
  by_cases hA : 'A' ≤ a ∧ a ≤ 'Z'
  · rw [if_pos hA, toLower_capital hA]
    constructor
    · exact Or.inl
    · rintro (h | ⟨h, -⟩)
      · exact h
      · subst h; exact absurd hA (by decide)
  · rw [if_neg hA, toLower_other hA]
    by_cases hi : a = '\u0130'
    · subst hi
      rw [if_pos rfl]
      constructor
      · rintro rfl; exact Or.inr ⟨rfl, rfl⟩
      · rintro (h | ⟨-, h⟩)
        · subst h; exact absurd hb (by unfold IsSmall; decide)
        · exact h.symm
    · rw [if_neg hi]
      by_cases hk : a = '\u212a'
      · subst hk
        rw [if_pos rfl]
        constructor
        · rintro rfl; exact absurd rfl hb.2.2
        · rintro (h | ⟨h, -⟩)
          · subst h; exact absurd hb (by unfold IsSmall; decide)
          · exact absurd h hi
      · rw [if_neg hk]
        exact ⟨Or.inl, fun h => h.elim id fun h => absurd h.1 hi⟩

theorem sameWord_iff : ∀ (w n : Str), (∀ c ∈ n, IsSmall c) → (w.map goLower = n ↔ SameWord w n)
  | [], [], _ => by simp [SameWord]
  | [], b :: bs, _ => by simp [SameWord]
  | a :: as, [], _ => by simp [SameWord]
  | a :: as, b :: bs, h => by
    simp only [List.map_cons, List.cons.injEq, SameWord]
    rw [goLower_iff (h b (by simp)), sameWord_iff as bs fun c hc => h c (by simp [hc])]

theorem level_iff (w : Str) (l : Level) : w.map goLower = levelName l ↔ SameWord w (levelName l) := by
  apply sameWord_iff
  cases l <;> decide

/-- C121. The word given with `--loglevel` is understood in whatever case it is written, and whatever is not a level
means `info`. -/
theorem C121_word (word : Str) (l : Level) : setLogLevel word = l ↔ Asks word l := by
  unfold Asks
  simp only [← level_iff]
  unfold setLogLevel
  dsimp only
  generalize word.map goLower = w
  have hall : (∀ k, ¬ w = levelName k) ↔ (w ≠ s%"trace" ∧ w ≠ s%"debug" ∧ w ≠ s%"info" ∧ w ≠ s%"warn" ∧ w ≠ s%"error" ∧
      w ≠ s%"fatal" ∧ w ≠ s%"panic") := by
    constructor
    · intro h
      exact ⟨h .trace, h .debug, h .info, h .warn, h .error, h .fatal, h .panic⟩
    · rintro ⟨h1, h2, h3, h4, h5, h6, h7⟩ k
      cases k <;> assumption
  rw [hall]
  by_cases h1 : w = s%"trace"
  · subst h1; cases l <;> simp [levelName]
  by_cases h2 : w = s%"debug"
  · subst h2; cases l <;> simp [levelName]
  by_cases h3 : w = s%"info"
  · subst h3; cases l <;> simp [levelName]
  by_cases h4 : w = s%"warn"
  · subst h4; cases l <;> simp [levelName]
  by_cases h5 : w = s%"error"
  · subst h5; cases l <;> simp [levelName]
  by_cases h6 : w = s%"fatal"
  · subst h6; cases l <;> simp [levelName]
  by_cases h7 : w = s%"panic"
  · subst h7; cases l <;> simp [levelName]
  rw [if_neg h1, if_neg h2, if_neg h3, if_neg h4, if_neg h5, if_neg h6, if_neg h7]
  cases l <;> simp_all [levelName]

example : Asks (s%"Trace") .trace ∧ Asks (s%"loud") .info := ⟨(C121_word _ _).1 rfl, (C121_word _ _).1 rfl⟩

/-! ### Saying things -/

theorem say_ended (f : LogFmt) (w : LogWorld) (s : Said) (h : w.ended = true) : say f w s = w := by
  unfold say
  rw [if_pos h]

theorem sayAll_ended (f : LogFmt) : ∀ (l : List Said) (w : LogWorld), w.ended = true → sayAll f w l = w
  | [], _, _ => rfl
  | s :: l, w, h => by
    have : sayAll f w (s :: l) = sayAll f (say f w s) l := rfl
    rw [this, say_ended f w s h]
    exact sayAll_ended f l w h

/-- A record written to all log files. -/
def afterRecord (f : LogFmt) (w : LogWorld) (r : LogRec) : Fs :=
  if AtLeast r.level w.level then w.hooks.foldl (fire (f.line r)) w.fs else w.fs

theorem say_record (f : LogFmt) (w : LogWorld) (r : LogRec) (h : w.ended = false) :
    say f w (.record r) = { w with fs := afterRecord f w r, out := w.out ++ (if AtLeast r.level w.level then f.screen r else []), ended := decide (Ends r) } := by
  unfold say afterRecord
  rw [if_neg (by simp [h])]
  dsimp only
  by_cases he : enabled w.level r.level = true
  · have := (enabled_iff _ _).1 he
    simp only [he, this, if_true, decide_eq_decide.2 (ends_iff r)]
  · have : ¬ AtLeast r.level w.level := fun hx => he ((enabled_iff _ _).2 hx)
    simp only [he, this, if_false, decide_eq_decide.2 (ends_iff r), List.append_nil]
    simp

theorem say_print (f : LogFmt) (w : LogWorld) (t : Str) (h : w.ended = false) : say f w (.print t) = { w with out := w.out ++ t } := by
  unfold say
  rw [if_neg (by simp [h])]

/-- The files after things were said to the open log files. -/
def afterSaid (f : LogFmt) (level : Level) (hooks : List Path) (l : List LogRec) (fs : Fs) : Fs :=
  (l.filter fun r => AtLeast r.level level).foldl (fun fs r => hooks.foldl (fire (f.line r)) fs) fs

theorem untilEnd_goes : ∀ (l : List Said), Goes l → untilEnd l = l
  | [], _ => rfl
  | .print s :: l, h => by
    show Said.print s :: untilEnd l = _
    rw [untilEnd_goes l h]
  | .record r :: l, h => by
    have h1 : ¬ Ends r := h r (by simp [records])
    have h2 : Goes l := fun x hx => h x (by simp [records, hx])
    simp only [untilEnd, if_neg h1, untilEnd_goes l h2]

theorem sayAll_eq (f : LogFmt) : ∀ (l : List Said) (w : LogWorld), w.ended = false →
    sayAll f w l = { w with fs := afterSaid f w.level w.hooks (records (untilEnd l)) w.fs, out := w.out ++ shown f w.level (untilEnd l), ended := decide (¬ Goes l) }
  | [], w, h => by
    cases w
    simp only at h
    simp [sayAll, afterSaid, records, untilEnd, shown, Goes, h]
  | .print t :: l, w, h => by
    have : sayAll f w (.print t :: l) = sayAll f (say f w (.print t)) l := rfl
    rw [this, say_print f w t h, sayAll_eq f l { w with out := w.out ++ t } h]
    have hg : Goes (.print t :: l) ↔ Goes l := Iff.rfl
    simp only [untilEnd, records, shown, hg, List.append_assoc]
  | .record r :: l, w, h => by
    have : sayAll f w (.record r :: l) = sayAll f (say f w (.record r)) l := rfl
    rw [this, say_record f w r h]
    by_cases he : Ends r
    · rw [sayAll_ended f l _ (by simp [he])]
      have hg : ¬ Goes (.record r :: l) := fun hx => hx r (by simp [records]) he
      simp only [untilEnd, if_pos he, records, shown, List.append_nil, he, hg, afterSaid, afterRecord, not_false_eq_true, decide_true]
      by_cases ha : AtLeast r.level w.level <;> simp [ha, records, shown]
    · rw [sayAll_eq f l _ (by simp [he])]
      have hg : Goes (.record r :: l) ↔ Goes l := by
        unfold Goes
        simp [records, he]
      simp only [untilEnd, if_neg he, records, shown, hg, afterSaid, afterRecord, List.append_assoc]
      by_cases ha : AtLeast r.level w.level <;> simp [ha]

theorem fire_at (line c : Str) (fs : Fs) (p : Path) (h : fs p = some (.file c)) : fire line fs p = fs.set p (.file (c ++ line)) := by
  unfold fire
  rw [h]

theorem set_set (fs : Fs) (p : Path) (a b : Node) : (fs.set p a).set p b = fs.set p b := by
  funext q
  unfold Fs.set
  split <;> simp_all

theorem set_at (fs : Fs) (p : Path) (a : Node) : fs.set p a p = some a := by simp [Fs.set]

theorem set_same (fs : Fs) (p : Path) (a : Node) (h : fs p = some a) : fs.set p a = fs := by
  funext q
  unfold Fs.set
  split
  · rename_i e; rw [e, h]
  · rfl

theorem afterSaid_one (f : LogFmt) (level : Level) (p : Path) : ∀ (l : List LogRec) (fs : Fs) (c : Str), fs p = some (.file c) →
    afterSaid f level [p] l fs = fs.set p (.file (c ++ lines f level l))
  | [], fs, c, h => by
    show fs = fs.set p (.file (c ++ []))
    rw [List.append_nil, set_same fs p _ h]
  | r :: l, fs, c, h => by
    by_cases ha : AtLeast r.level level
    · have e : afterSaid f level [p] (r :: l) fs = afterSaid f level [p] l (fire (f.line r) fs p) := by
        simp [afterSaid, ha]
      rw [e, fire_at _ c fs p h, afterSaid_one f level p l _ (c ++ f.line r) (set_at _ _ _), set_set]
      simp [lines, ha]
    · have e : afterSaid f level [p] (r :: l) fs = afterSaid f level [p] l fs := by
        simp [afterSaid, ha]
      rw [e, afterSaid_one f level p l fs c h]
      simp [lines, ha]

theorem afterSaid_none (f : LogFmt) (level : Level) (l : List LogRec) (fs : Fs) : afterSaid f level [] l fs = fs := by
  unfold afterSaid
  generalize l.filter _ = l
  induction l with
  | nil => rfl
  | cons r l ih => simpa using ih

theorem initLogging_eq (f : LogFmt) (word : Str) (start : List Said) (fs : Fs) :
    initLogging f word start (logStart fs) =
      { level := setLogLevel word, hooks := [], out := shown f (setLogLevel word) (untilEnd start), fs := fs, ended := decide (¬ Goes start) } := by
  unfold initLogging logStart
  rw [sayAll_eq f _ _ rfl]
  simp only [afterSaid_none, List.nil_append]

theorem addLogFile_opened (cwd : Path) (path : Str) (ov : Bool) (w : LogWorld) (hp : path ≠ []) (hw : Writable w.fs (absIn cwd path)) :
    addLogFile cwd path ov w =
      { w with fs := w.fs.set (absIn cwd path) (.file (if ov then [] else textIn w.fs (absIn cwd path))), hooks := w.hooks ++ [absIn cwd path] } := by
  unfold addLogFile openLog textIn
  rw [if_neg hp]
  rcases hw with ⟨c, h⟩ | ⟨h, hd⟩
  · rw [h]
  · rw [h, hd]
    simp

theorem addLogFile_level (cwd : Path) (path : Str) (ov : Bool) (w : LogWorld) :
    (addLogFile cwd path ov w).level = w.level ∧ (addLogFile cwd path ov w).out = w.out ∧ (addLogFile cwd path ov w).ended = w.ended := by
  unfold addLogFile
  split
  · exact ⟨rfl, rfl, rfl⟩
  · split <;> exact ⟨rfl, rfl, rfl⟩

/-! ### C121: what is shown -/

theorem sayAll_append (f : LogFmt) (w : LogWorld) (a b : List Said) : sayAll f (sayAll f w a) b = sayAll f w (a ++ b) := by
  simp [sayAll]

/-- C121. On the screen the user sees all that is printed and exactly the records at least as severe as the level
asked for (with `--json`, after the configuration was read: the fatal ones), in order, until the program ends. -/
theorem C121_shown (f : LogFmt) (c : LogCmd) (r : LogRun) (fs : Fs) (asked : Level) (ha : Asks r.word asked) (hc : c ≠ .addInstall) :
    (loggedRun f c r fs).out = shown f asked (untilEnd r.start) ++
      (if Goes r.start then shown f (inForce c asked) (untilEnd r.said) else []) := by
  have hl := (C121_word _ _).2 ha
  unfold loggedRun
  rw [initLogging_eq, hl]
  unfold unlessEnded
  by_cases hg : Goes r.start
  · simp only [hg, not_true_eq_false, decide_false, Bool.false_eq_true, if_false, if_true]
    have hx : ∀ (w : LogWorld), w.ended = false → (sayAll f w r.said).out = w.out ++ shown f w.level (untilEnd r.said) :=
      fun w hw => by rw [sayAll_eq f _ _ hw]
    have ho := addLogFile_level r.cwd
    cases c <;> simp only [runLogged, initInstallLog, initCommandLog, inForce, Json]
    case install =>
      split <;> (rw [hx _ (by simp [ho])]; simp [ho])
    case inspect j => cases j <;> (rw [hx _ (by simp [ho])]; simp [ho]; try rfl)
    case load j => cases j <;> (rw [hx _ (by simp)]; simp; try rfl)
    case addInstall => exact absurd rfl hc
    all_goals (rw [hx _ (by simp [ho])]; simp [ho])
  · simp [hg]

/-- C121 for `add --install`, which sets the level again once the file was changed. -/
theorem C121_shown_add_install (f : LogFmt) (r : LogRun) (fs : Fs) (asked asked2 : Level) (ha : Asks r.word asked) (ha2 : Asks r.word2 asked2)
    (hs : Goes r.start) :
    (loggedRun f .addInstall r fs).out = shown f asked r.start ++ (shown f asked (untilEnd r.said) ++
      (if Goes r.said then shown f asked2 (untilEnd (r.restart ++ r.said2 ++ r.last)) else [])) := by
  have hl := (C121_word _ _).2 ha
  have hl2 := (C121_word _ _).2 ha2
  have ho := addLogFile_level r.cwd
  have hap : ∀ (a b : List Said), Goes a → shown f asked2 (untilEnd (a ++ b)) = shown f asked2 a ++ shown f asked2 (untilEnd b) := by
    intro a b hg
    induction a with
    | nil => rfl
    | cons x a ih =>
      cases x with
      | print t => simp only [List.cons_append, untilEnd, shown, ih hg, List.append_assoc]
      | record y =>
        have h1 : ¬ Ends y := hg y (by simp [records])
        simp only [List.cons_append, untilEnd, if_neg h1, shown, ih fun z hz => hg z (by simp [records, hz]), List.append_assoc]
  have hng : ∀ (a b : List Said), ¬ Goes a → untilEnd (a ++ b) = untilEnd a := by
    intro a b hg
    induction a with
    | nil => exact absurd (fun _ h => by cases h) hg
    | cons x a ih =>
      cases x with
      | print t => simp only [List.cons_append, untilEnd, ih hg]
      | record y =>
        by_cases h1 : Ends y
        · simp only [List.cons_append, untilEnd, if_pos h1]
        · have : ¬ Goes a := fun h => hg fun z hz => by
            rcases List.mem_cons.1 hz with rfl | hz
            · exact h1
            · exact h z hz
          simp only [List.cons_append, untilEnd, if_neg h1, ih this]
  unfold loggedRun
  rw [initLogging_eq, hl, untilEnd_goes _ hs]
  unfold unlessEnded
  simp only [hs, not_true_eq_false, decide_false, Bool.false_eq_true, if_false, runLogged, initCommandLog]
  generalize hw : addLogFile r.cwd r.logging.all r.logging.overwrite _ = w
  obtain ⟨o1, o2, o3⟩ := ho r.logging.all r.logging.overwrite
    { level := asked, hooks := [], out := shown f asked r.start, fs := fs, ended := false }
  rw [hw] at o1 o2 o3
  dsimp only at o1 o2 o3
  rw [sayAll_eq f _ _ o3]
  unfold unlessEnded
  by_cases h1 : Goes r.said
  · simp only [h1, not_true_eq_false, decide_false, Bool.false_eq_true, if_false, if_true, initLogging, hl2]
    rw [sayAll_eq f _ _ rfl]
    dsimp only
    by_cases h2 : Goes r.restart
    · simp only [h2, not_true_eq_false, decide_false, Bool.false_eq_true, if_false]
      unfold initInstallLog
      rw [List.append_assoc r.restart, hap _ _ h2, untilEnd_goes _ h2, sayAll_append]
      split <;>
        (rw [sayAll_eq f _ _ (ho _ _ _).2.2]; simp only [(ho _ _ _).1, (ho _ _ _).2.1, o1, o2, List.append_assoc])
    · simp only [h2, not_false_eq_true, decide_true, if_true]
      rw [List.append_assoc r.restart, hng _ _ h2]
      simp only [o1, o2, List.append_assoc]
  · simp only [h1, not_false_eq_true, decide_true, if_true, if_false, List.append_nil]
    rw [o1, o2]

/-! ### C120: the log file -/

/-- C120 (partial: not for `plan`, `load`, `run`, `clean cache`, `clean pkgdbs` and `add --install`, and without what is
said before the configuration is read). `install`, `inspect`, `add`, `remove` and `clean` append to the configured file,
or with `overwrite` fill it anew, one line for every record that is shown, in order, the fatal one that ends the program
included, and logging touches no other file. -/
theorem C120_log_file_partial (f : LogFmt) (c : LogCmd) (r : LogRun) (fs : Fs) (asked : Level)
    (hc : c = .install ∨ (∃ json, c = .inspect json) ∨ c = .add ∨ c = .remove ∨ c = .clean)
    (ha : Asks r.word asked) (hs : Goes r.start)
    (hp : logFileOf r.logging c ≠ []) (hw : Writable fs (absIn r.cwd (logFileOf r.logging c))) :
    (loggedRun f c r fs).fs = fs.set (absIn r.cwd (logFileOf r.logging c))
      (.file ((if r.logging.overwrite then [] else textIn fs (absIn r.cwd (logFileOf r.logging c))) ++
        lines f (inForce c asked) (records (untilEnd r.said)))) := by
  have hl := (C121_word _ _).2 ha
  unfold loggedRun
  rw [initLogging_eq, hl]
  unfold unlessEnded
  simp only [hs, not_true_eq_false, decide_false, Bool.false_eq_true, if_false]
  generalize shown f asked (untilEnd r.start) = o
  have key : ∀ (path : Str) (L : Level), path ≠ [] → Writable fs (absIn r.cwd path) →
      (sayAll f { level := L, hooks := [absIn r.cwd path], out := o, fs := fs.set (absIn r.cwd path) (.file (if r.logging.overwrite then [] else textIn fs (absIn r.cwd path))), ended := false } r.said).fs =
      fs.set (absIn r.cwd path) (.file ((if r.logging.overwrite then [] else textIn fs (absIn r.cwd path)) ++ lines f L (records (untilEnd r.said)))) := by
    intro path L h1 h2
    rw [sayAll_eq f _ _ rfl]
    dsimp only
    rw [afterSaid_one f L _ _ _ _ (set_at _ _ _), set_set]
  rcases hc with rfl | ⟨j, rfl⟩ | rfl | rfl | rfl
  · simp only [runLogged, initInstallLog, logFileOf, inForce, Json] at *
    by_cases hi : r.logging.install = []
    · rw [if_pos hi] at hp hw ⊢
      rw [if_neg (by simp [hi]), addLogFile_opened _ _ _ _ hp hw]
      exact key _ _ hp hw
    · rw [if_neg hi] at hp hw ⊢
      rw [if_pos hi, addLogFile_opened _ _ _ _ hp hw]
      exact key _ _ hp hw
  · simp only [runLogged, initCommandLog, logFileOf, inForce, Json] at *
    rw [addLogFile_opened _ _ _ _ hp hw]
    cases j
    · exact key _ _ hp hw
    · exact key _ _ hp hw
  all_goals
    simp only [runLogged, initCommandLog, logFileOf, inForce, Json] at *
    rw [addLogFile_opened _ _ _ _ hp hw]
    exact key _ _ hp hw

/-- C120 fails for five commands: whatever the configuration, whatever they say, they write no log file. -/
theorem C120_violated_commands (f : LogFmt) (c : LogCmd) (r : LogRun) (fs : Fs)
    (hc : c = .plan ∨ (∃ json, c = .load json) ∨ c = .run ∨ c = .cleanCache ∨ c = .cleanPkgdbs) :
    (loggedRun f c r fs).fs = fs := by
  unfold loggedRun
  rw [initLogging_eq]
  unfold unlessEnded
  by_cases hg : Goes r.start
  · simp only [hg, not_true_eq_false, decide_false, Bool.false_eq_true, if_false]
    have hx : ∀ (w : LogWorld), w.ended = false → w.hooks = [] → w.fs = fs → (sayAll f w r.said).fs = fs := by
      intro w h1 h2 h3
      rw [sayAll_eq f _ _ h1]
      dsimp only
      rw [h2, afterSaid_none, h3]
    rcases hc with rfl | ⟨j, rfl⟩ | rfl | rfl | rfl
    · exact hx _ rfl rfl rfl
    · cases j
      · exact hx _ rfl rfl rfl
      · exact hx _ rfl rfl rfl
    all_goals exact hx _ rfl rfl rfl
  · simp [hg]

/-- C120. Without a configured file, or with one that cannot be written to, nothing is written. -/
theorem C120_no_file (f : LogFmt) (c : LogCmd) (r : LogRun) (fs : Fs) (hc : c ≠ .addInstall)
    (hp : logFileOf r.logging c = [] ∨ ¬ Writable fs (absIn r.cwd (logFileOf r.logging c))) : (loggedRun f c r fs).fs = fs := by
  have hno : ∀ (path : Str) (w : LogWorld), w.fs = fs → (path = [] ∨ ¬ Writable fs (absIn r.cwd path)) →
      addLogFile r.cwd path r.logging.overwrite w = w := by
    intro path w hw h
    unfold addLogFile
    split
    · rfl
    · rename_i hne
      have hnw := h.resolve_left hne
      unfold openLog
      rw [hw]
      cases hn : fs (absIn r.cwd path) with
      | none =>
        have hd : fs.isDir (absIn r.cwd path).dropLast = false := by
          cases hd : fs.isDir (absIn r.cwd path).dropLast with
          | false => rfl
          | true => exact absurd (Or.inr ⟨hn, hd⟩) hnw
        simp [hd]
      | some n =>
        cases n with
        | dir => rfl
        | file c => exact absurd (Or.inl ⟨c, hn⟩) hnw
  unfold loggedRun
  rw [initLogging_eq]
  unfold unlessEnded
  by_cases hg : Goes r.start
  · simp only [hg, not_true_eq_false, decide_false, Bool.false_eq_true, if_false]
    have hx : ∀ (w : LogWorld), w.ended = false → w.hooks = [] → w.fs = fs → (sayAll f w r.said).fs = fs := by
      intro w h1 h2 h3
      rw [sayAll_eq f _ _ h1]
      dsimp only
      rw [h2, afterSaid_none, h3]
    cases c <;> simp only [runLogged, initInstallLog, initCommandLog, logFileOf] at hp ⊢
    case install =>
      by_cases hi : r.logging.install = []
      · rw [if_pos hi] at hp
        rw [if_neg (by simp [hi]), hno _ _ rfl hp]
        exact hx _ rfl rfl rfl
      · rw [if_neg hi] at hp
        rw [if_pos hi, hno _ _ rfl hp]
        exact hx _ rfl rfl rfl
    case addInstall => exact absurd rfl hc
    case inspect j =>
      rw [hno _ _ rfl hp]
      cases j <;> exact hx _ rfl rfl rfl
    case load j => cases j <;> exact hx _ rfl rfl rfl
    case plan => exact hx _ rfl rfl rfl
    case run => exact hx _ rfl rfl rfl
    case cleanCache => exact hx _ rfl rfl rfl
    case cleanPkgdbs => exact hx _ rfl rfl rfl
    all_goals
      rw [hno _ _ rfl hp]
      exact hx _ rfl rfl rfl
  · simp [hg]

theorem afterSaid_two (f : LogFmt) (level : Level) (p : Path) : ∀ (l : List LogRec) (fs : Fs) (c : Str), fs p = some (.file c) →
    afterSaid f level [p, p] l fs = fs.set p (.file (c ++ lines f level (l.flatMap fun r => [r, r])))
  | [], fs, c, h => by
    show fs = fs.set p (.file (c ++ []))
    rw [List.append_nil, set_same fs p _ h]
  | r :: l, fs, c, h => by
    by_cases ha : AtLeast r.level level
    · have e : afterSaid f level [p, p] (r :: l) fs = afterSaid f level [p, p] l (fire (f.line r) (fire (f.line r) fs p) p) := by
        simp [afterSaid, ha]
      rw [e, fire_at _ c fs p h, fire_at _ (c ++ f.line r) _ p (set_at _ _ _), set_set,
        afterSaid_two f level p l _ (c ++ f.line r ++ f.line r) (set_at _ _ _), set_set]
      simp [lines, ha]
    · have e : afterSaid f level [p, p] (r :: l) fs = afterSaid f level [p, p] l fs := by
        simp [afterSaid, ha]
      rw [e, afterSaid_two f level p l fs c h]
      simp [lines, ha]

theorem lines_append (f : LogFmt) (level : Level) (a b : List LogRec) : lines f level (a ++ b) = lines f level a ++ lines f level b := by
  simp [lines]

/-- C120 fails for `add --install` without a log file for `install`: the file is opened twice, every record of the
installation is in it twice, and with `overwrite` the records of the first part of the command are lost. -/
theorem C120_violated_add_install (f : LogFmt) (r : LogRun) (fs : Fs) (asked asked2 : Level) (ha : Asks r.word asked)
    (ha2 : Asks r.word2 asked2) (hs : Goes r.start) (hs1 : Goes r.said) (hs2 : Goes r.restart)
    (hi : r.logging.install = []) (hp : r.logging.all ≠ []) (hw : Writable fs (absIn r.cwd r.logging.all)) :
    (loggedRun f .addInstall r fs).fs = fs.set (absIn r.cwd r.logging.all)
      (.file ((if r.logging.overwrite then [] else textIn fs (absIn r.cwd r.logging.all) ++ lines f asked (records r.said) ++
          lines f asked2 (records r.restart)) ++
        lines f asked2 ((records (untilEnd (r.said2 ++ r.last))).flatMap fun x => [x, x]))) := by
  have hl := (C121_word _ _).2 ha
  have hl2 := (C121_word _ _).2 ha2
  unfold loggedRun
  rw [initLogging_eq, hl]
  unfold unlessEnded
  simp only [hs, not_true_eq_false, decide_false, Bool.false_eq_true, if_false, runLogged, initCommandLog]
  generalize shown f asked (untilEnd r.start) = o
  generalize hpath : absIn r.cwd r.logging.all = p at *
  rw [addLogFile_opened _ _ _ _ hp (by rw [hpath]; exact hw), hpath, sayAll_eq f _ _ rfl]
  dsimp only
  rw [List.nil_append, afterSaid_one f asked p _ _ _ (set_at _ _ _), set_set, untilEnd_goes _ hs1]
  unfold unlessEnded
  simp only [hs1, not_true_eq_false, decide_false, Bool.false_eq_true, if_false, initLogging, hl2]
  rw [sayAll_eq f _ _ rfl]
  dsimp only
  rw [afterSaid_one f asked2 p _ _ _ (set_at _ _ _), set_set, untilEnd_goes _ hs2]
  simp only [hs2, not_true_eq_false, decide_false, Bool.false_eq_true, if_false]
  unfold initInstallLog
  rw [if_neg (by simp [hi]), addLogFile_opened _ _ _ _ hp (by rw [hpath]; exact Or.inl ⟨_, set_at _ _ _⟩), hpath, sayAll_append,
    sayAll_eq f _ _ rfl]
  dsimp only [List.cons_append, List.nil_append]
  rw [set_set, afterSaid_two f asked2 p _ _ _ (set_at _ _ _), set_set]
  unfold textIn
  rw [set_at]
  dsimp only
  cases r.logging.overwrite <;> simp

/-- The records that are shown before the configuration is read are in no log file (here: a warning). -/
theorem C120_violated_start : ∃ (f : LogFmt) (r : LogRun) (fs : Fs) (asked : Level) (w : LogRec), Asks r.word asked ∧
    Said.record w ∈ r.start ∧ AtLeast w.level asked ∧ Goes r.start ∧ r.logging.all ≠ [] ∧ Writable fs (absIn r.cwd r.logging.all) ∧
    (∃ t, (loggedRun f .install r fs).out = f.screen w ++ t) ∧ f.line w ≠ [] ∧
    (loggedRun f .install r fs).fs (absIn r.cwd r.logging.all) = some (.file []) :=
  ⟨⟨LogRec.text, LogRec.text⟩, { cwd := [], word := s%"info", logging := { all := s%"l" }, start := [.record ⟨.warn, s%"renv"⟩] },
    fun q => if q = [] then some .dir else none, .info, ⟨.warn, s%"renv"⟩, (C121_word _ _).1 rfl, by decide, by decide, by decide, by decide,
    Or.inr (by decide), ⟨[], by decide⟩, by decide, by decide⟩

/-- Formatters for the examples. -/
def plainFmt : LogFmt := ⟨fun r => r.text, fun r => s%"{" ++ r.text ++ s%"}"⟩

/-- A project directory with a log file in it. -/
def logFs : Fs := fun q => if q = [] ∨ q = [s%"w"] then some .dir else if q = [s%"w", s%"l"] then some (.file (s%"{old}")) else none

/-- An installation that says something, and fails. -/
def logRun (overwrite : Bool) : LogRun :=
  { cwd := [s%"w"], word := s%"INFO", logging := { all := s%"x", install := s%"l", overwrite := overwrite },
    start := [.record ⟨.trace, s%"t"⟩], said := [.record ⟨.info, s%"a"⟩, .record ⟨.debug, s%"b"⟩, .print (s%"p"), .record ⟨.fatal, s%"c"⟩, .record ⟨.info, s%"d"⟩] }

example : (loggedRun plainFmt .install (logRun false) logFs).fs [s%"w", s%"l"] = some (.file (s%"{old}{a}{c}")) ∧
    (loggedRun plainFmt .install (logRun true) logFs).fs [s%"w", s%"l"] = some (.file (s%"{a}{c}")) ∧
    (loggedRun plainFmt .install (logRun true) logFs).out = s%"apc" := by
  rw [C120_log_file_partial plainFmt .install (logRun false) logFs .info (Or.inl rfl) ((C121_word _ _).1 rfl) (by decide) (by decide) (Or.inl ⟨s%"{old}", by decide⟩),
    C120_log_file_partial plainFmt .install (logRun true) logFs .info (Or.inl rfl) ((C121_word _ _).1 rfl) (by decide) (by decide) (Or.inl ⟨s%"{old}", by decide⟩),
    C121_shown plainFmt .install (logRun true) logFs .info ((C121_word _ _).1 rfl) (by decide)]
  refine ⟨by decide, by decide, by decide⟩

/-- `add --install` with `overwrite`: the records `a` are lost, those of the installation come twice. -/
example : (loggedRun plainFmt .addInstall { cwd := [s%"w"], word := s%"", word2 := s%"", logging := { all := s%"l", overwrite := true }, said := [.record ⟨.info, s%"a"⟩], said2 := [.record ⟨.info, s%"b"⟩], last := [.record ⟨.info, s%"c"⟩] } logFs).fs [s%"w", s%"l"] =
    some (.file (s%"{b}{b}{c}{c}")) := by decide

/-! ### C122: errors that end pkgr -/

/-- What is said last before the end. -/
theorem shown_last (f : LogFmt) (level : Level) (e : LogRec) (hv : AtLeast e.level level) : ∀ (l : List Said), (records (untilEnd l)).getLast? = some e →
    Ends e → ∃ t, shown f level (untilEnd l) = t ++ f.screen e
  | [], h, _ => by cases h
  | .print s :: l, h, he => by
    obtain ⟨t, ht⟩ := shown_last f level e hv l h he
    exact ⟨s ++ t, by simp only [untilEnd, shown, ht, List.append_assoc]⟩
  | .record r :: l, h, he => by
    by_cases hr : Ends r
    · simp only [untilEnd, if_pos hr, records, List.getLast?_singleton, Option.some.injEq] at h
      subst h
      exact ⟨[], by simp [untilEnd, hr, shown, hv]⟩
    · simp only [untilEnd, if_neg hr, records] at h ⊢
      cases hl : records (untilEnd l) with
      | nil =>
        rw [hl] at h
        simp only [List.getLast?_singleton, Option.some.injEq] at h
        subst h
        exact absurd he hr
      | cons x xs =>
        rw [hl, List.getLast?_cons_cons, ← hl] at h
        obtain ⟨t, ht⟩ := shown_last f level e hv l h he
        exact ⟨(if AtLeast r.level level then f.screen r else []) ++ t, by simp only [shown, ht, ← List.append_assoc]⟩

/-- C122 (partial: at every level but `panic`). If a record ends pkgr, it is the last thing on the screen. -/
theorem C122_reported_partial (f : LogFmt) (c : LogCmd) (r : LogRun) (fs : Fs) (asked : Level) (e : LogRec) (ha : Asks r.word asked)
    (hc : c ≠ .addInstall) (hlev : asked ≠ .panic) (he : Ends e) (hs : Goes r.start)
    (hlast : (records (untilEnd r.said)).getLast? = some e) :
    (loggedRun f c r fs).ended = true ∧ ∃ t, (loggedRun f c r fs).out = t ++ f.screen e := by
  have hv : AtLeast e.level (inForce c asked) := by
    unfold inForce
    rcases he with he | he <;> rw [he] <;> split
    all_goals (first | decide | (cases asked <;> first | decide | exact absurd rfl hlev))
  have hng : ¬ Goes r.said := fun hg => by
    rw [untilEnd_goes _ hg] at hlast
    exact hg e (List.mem_of_getLast? hlast) he
  constructor
  · unfold loggedRun
    rw [initLogging_eq]
    unfold unlessEnded
    simp only [hs, not_true_eq_false, decide_false, Bool.false_eq_true, if_false]
    have hx : ∀ (w : LogWorld), w.ended = false → (sayAll f w r.said).ended = true := by
      intro w hw
      rw [sayAll_eq f _ _ hw]
      simp [hng]
    have ho := addLogFile_level r.cwd
    cases c <;> simp only [runLogged, initInstallLog, initCommandLog]
    case install => split <;> exact hx _ (by simp [ho])
    case inspect j => cases j <;> exact hx _ (by simp [ho])
    case load j => cases j <;> exact hx _ (by simp)
    case addInstall => exact absurd rfl hc
    all_goals exact hx _ (by simp [ho])
  · rw [C121_shown f c r fs asked ha hc, if_pos hs]
    obtain ⟨t, ht⟩ := shown_last f _ e hv r.said hlast he
    exact ⟨_ ++ t, by rw [ht, ← List.append_assoc]⟩

/-- C122, for the records before the configuration is read. -/
theorem C122_reported_at_start_partial (f : LogFmt) (c : LogCmd) (r : LogRun) (fs : Fs) (asked : Level) (e : LogRec) (ha : Asks r.word asked)
    (hlev : asked ≠ .panic) (he : Ends e) (hlast : (records (untilEnd r.start)).getLast? = some e) :
    (loggedRun f c r fs).ended = true ∧ (∃ t, (loggedRun f c r fs).out = t ++ f.screen e) ∧ (loggedRun f c r fs).fs = fs := by
  have hv : AtLeast e.level asked := by
    rcases he with he | he <;> rw [he] <;> cases asked <;> first | decide | exact absurd rfl hlev
  have hng : ¬ Goes r.start := fun hg => by
    rw [untilEnd_goes _ hg] at hlast
    exact hg e (List.mem_of_getLast? hlast) he
  have hl := (C121_word _ _).2 ha
  unfold loggedRun
  rw [initLogging_eq, hl]
  unfold unlessEnded
  simp only [hng, not_false_eq_true, decide_true, if_true]
  exact ⟨trivial, shown_last f _ e hv r.start hlast he, trivial⟩

/-- C122 fails with `--loglevel=panic`: pkgr ends without a word. -/
theorem C122_violated_panic : ∃ (f : LogFmt) (r : LogRun) (fs : Fs) (e : LogRec), Asks r.word .panic ∧ Ends e ∧ r.said = [.record e] ∧
    f.screen e ≠ [] ∧ (loggedRun f .install r fs).ended = true ∧ (loggedRun f .install r fs).out = [] :=
  ⟨plainFmt, { cwd := [], word := s%"panic", logging := {}, said := [.record ⟨.fatal, s%"c"⟩] }, fun _ => none, ⟨.fatal, s%"c"⟩,
    (C121_word _ _).1 rfl, by decide, rfl, by decide, by decide, by decide⟩

example : (loggedRun plainFmt .install (logRun false) logFs).ended = true ∧ ∃ t, (loggedRun plainFmt .install (logRun false) logFs).out = t ++ s%"c" :=
  C122_reported_partial plainFmt .install (logRun false) logFs .info ⟨.fatal, s%"c"⟩ ((C121_word _ _).1 rfl) (by decide) (by decide) (by decide)
    (by decide) (by decide)

/-! ### C123: `--json` -/

theorem shown_nothing (f : LogFmt) (level : Level) : ∀ (l : List Said), (∀ s ∈ l, ∃ r, s = .record r ∧ ¬ AtLeast r.level level) → shown f level l = []
  | [], _ => rfl
  | s :: l, h => by
    obtain ⟨r, rfl, hr⟩ := h s (by simp)
    simp only [shown, if_neg hr, List.nil_append]
    exact shown_nothing f level l fun x hx => h x (by simp [hx])

theorem shown_append (f : LogFmt) (level : Level) : ∀ (a b : List Said), shown f level (a ++ b) = shown f level a ++ shown f level b
  | [], b => rfl
  | .print s :: a, b => by simp only [List.cons_append, shown, shown_append f level a b, List.append_assoc]
  | .record r :: a, b => by simp only [List.cons_append, shown, shown_append f level a b, List.append_assoc]

theorem records_append : ∀ (a b : List Said), records (a ++ b) = records a ++ records b
  | [], _ => rfl
  | .print s :: a, b => by simp only [List.cons_append, records, records_append a b]
  | .record r :: a, b => by simp only [List.cons_append, records, records_append a b]

/-- C123 (partial: if nothing is printed on the way, and nothing shown before the configuration was read). With `--json`
the output of `load` and `inspect` is the document and nothing else, whatever is logged in between. -/
theorem C123_document_partial (f : LogFmt) (c : LogCmd) (r : LogRun) (fs : Fs) (asked : Level) (work : List Said) (doc : Str)
    (hc : c = .load true ∨ c = .inspect true) (ha : Asks r.word asked)
    (hstart : ∀ s ∈ r.start, ∃ x, s = .record x ∧ ¬ Ends x ∧ ¬ AtLeast x.level asked)
    (hwork : ∀ s ∈ work, ∃ x, s = .record x ∧ ¬ Ends x) (hsaid : r.said = work ++ [.print doc]) :
    (loggedRun f c r fs).out = doc ∧ (loggedRun f c r fs).ended = false := by
  have hrec : ∀ (l : List Said) (x : LogRec), x ∈ records l → Said.record x ∈ l := by
    intro l
    induction l with
    | nil => intro x hx; cases hx
    | cons s l ih =>
      intro x hx
      cases s with
      | print t => exact List.mem_cons_of_mem _ (ih x hx)
      | record y =>
        rcases List.mem_cons.1 hx with rfl | hx
        · simp
        · exact List.mem_cons_of_mem _ (ih x hx)
  have hs : Goes r.start := fun x hx => by
    obtain ⟨y, e, h, -⟩ := hstart _ (hrec _ x hx)
    cases e
    exact h
  have hw : Goes r.said := fun x hx => by
    rw [hsaid, records_append] at hx
    rcases List.mem_append.1 hx with hx | hx
    · obtain ⟨y, e, h⟩ := hwork _ (hrec _ x hx)
      cases e
      exact h
    · cases hx
  constructor
  · have hne : c ≠ .addInstall := by rcases hc with rfl | rfl <;> decide
    have hf : inForce c asked = .fatal := by rcases hc with rfl | rfl <;> rfl
    rw [C121_shown f c r fs asked ha hne, if_pos hs, untilEnd_goes _ hs, untilEnd_goes _ hw, hf, hsaid, shown_append,
      shown_nothing f asked r.start fun s h => by obtain ⟨x, e, -, h⟩ := hstart s h; exact ⟨x, e, h⟩,
      shown_nothing f .fatal work fun s h => by
        obtain ⟨x, e, h⟩ := hwork s h
        refine ⟨x, e, ?_⟩
        intro hx
        apply h
        unfold Ends
        cases hl : x.level <;> rw [hl] at hx <;> first | exact absurd hx (by decide) | simp]
    simp [shown]
  · unfold loggedRun
    rw [initLogging_eq]
    unfold unlessEnded
    simp only [hs, not_true_eq_false, decide_false, Bool.false_eq_true, if_false]
    have hx : ∀ (w : LogWorld), w.ended = false → (sayAll f w r.said).ended = false := by
      intro w hw'
      rw [sayAll_eq f _ _ hw']
      simp [hw]
    have ho := addLogFile_level r.cwd
    rcases hc with rfl | rfl
    · exact hx _ rfl
    · simp only [runLogged, initCommandLog, if_true]
      exact hx _ (by simp [ho])

/-- C123 fails where there is no user cache directory: the remark of cran/repodb.go:315 is printed into the document. -/
theorem C123_violated_cache (f : LogFmt) (r : LogRun) (fs : Fs) (doc : Str) (hs : r.start = []) (hsaid : r.said = [.print cacheRemark, .print doc]) :
    (loggedRun f (.load true) r fs).out = s%"could not use user cache dir, using temp dir\n" ++ doc := by
  rw [C121_shown f _ r fs _ ((C121_word _ _).1 rfl) (by decide), hs, hsaid]
  simp [untilEnd, shown, Goes, records, cacheRemark]

/-- C123 fails with `--loglevel=trace`: what was logged before the configuration was read is in front of the document. -/
theorem C123_violated_trace (f : LogFmt) (r : LogRun) (fs : Fs) (doc : Str) (t : LogRec) (ht : t.level = .trace) (hw : Asks r.word .trace)
    (hs : r.start = [.record t]) (hsaid : r.said = [.print doc]) :
    (loggedRun f (.load true) r fs).out = f.screen t ++ doc := by
  have h1 : AtLeast t.level .trace := by rw [ht]; decide
  have h2 : ¬ Ends t := by unfold Ends; rw [ht]; decide
  rw [C121_shown f _ r fs _ hw (by decide), hs, hsaid]
  simp [untilEnd, shown, Goes, records, h1, h2]

example : (loggedRun plainFmt (.load true) { cwd := [], word := s%"debug", logging := {}, start := [.record ⟨.trace, s%"t"⟩], said := [.record ⟨.error, s%"a"⟩] ++ [.print (s%"[]")] }
    logFs).out = s%"[]" :=
  (C123_document_partial plainFmt _ _ _ .debug [.record ⟨.error, s%"a"⟩] _ (Or.inl rfl) ((C121_word _ _).1 rfl)
    (by intro s h; simp at h; subst h; exact ⟨_, rfl, by decide, by decide⟩) (by intro s h; simp at h; subst h; exact ⟨_, rfl, by decide⟩) rfl).1

end Pkgr
