/- C135: options, environment, file, defaults. -/
import Verif.Spec.Options
import Verif.Proof.RepoDb
import Verif.Props.Rollback2

namespace Pkgr
open Spec

theorem chosen_unique {c : Option Setting} {e : Option Str} {f : Option Setting} {d v w : Setting} (h : ChosenValue c e f d v) (k : ChosenValue c e f d w) : v = w := by
  cases h <;> cases k <;> simp_all

theorem find_chosen {s : Sources} {key : Str} {opt var : Option Str} {dflt fd : Setting} (hf : boundFlag key = opt.map fun o => (o, fd))
    (he : boundEnv key = var) (hd : defaultSetting s.gomaxprocs key = some dflt ∨ (defaultSetting s.gomaxprocs key = none ∧ opt ≠ none ∧ fd = dflt)) :
    ∃ v, s.find key = some v ∧ ChosenValue (opt.bind s.given) (var.bind s.environ) (s.file key) dflt v := by
  unfold Sources.find envSetting
  have h1 : ((boundFlag key).bind fun f => s.given f.1) = opt.bind s.given := by
    rw [hf]; cases opt <;> rfl
  rw [h1, he]
  cases hg : opt.bind s.given with
  | some v => exact ⟨v, rfl, .byOption rfl⟩
  | none =>
    have key2 : ∀ e : Option Str, (e = none ∨ e = some []) → ∃ v, (match s.file key with
        | some v => some v
        | none => match defaultSetting s.gomaxprocs key with
          | some v => some v
          | none => (boundFlag key).map Prod.snd) = some v ∧ ChosenValue none e (s.file key) dflt v := by
      intro e he
      cases hfl : s.file key with
      | some v => exact ⟨v, rfl, .byFile rfl he rfl⟩
      | none =>
        rcases hd with h | ⟨h, ho, rfl⟩
        · exact ⟨dflt, by rw [h], .byDefault rfl he rfl⟩
        · refine ⟨fd, ?_, .byDefault rfl he rfl⟩
          rw [h, hf]
          cases opt with
          | none => exact absurd rfl ho
          | some o => rfl
    cases var with
    | none => exact key2 none (Or.inl rfl)
    | some x =>
      simp only [Option.bind_some]
      cases hx : s.environ x with
      | none => exact key2 none (Or.inl rfl)
      | some t =>
        cases t with
        | nil => exact key2 (some []) (Or.inr rfl)
        | cons c cs => exact ⟨_, rfl, .byEnv rfl rfl (by simp)⟩

/-- The settings that have a default. -/
theorem inForce_find (s : Sources) (i : SettingInfo)
    (hi : i ∈ [infoNoUpdate, infoNoRollback, infoNoSecure, infoStrict, infoThreads s.gomaxprocs, infoLibrary, infoRPath]) :
    ∃ v, s.find i.key = some v ∧ InForce s i v := by
  simp only [List.mem_cons, List.not_mem_nil, or_false] at hi
  unfold InForce
  rcases hi with rfl | rfl | rfl | rfl | rfl | rfl | rfl
  · exact find_chosen (fd := .bool false) rfl rfl (Or.inr ⟨rfl, by simp [infoNoUpdate], rfl⟩)
  · exact find_chosen (fd := .bool false) rfl rfl (Or.inr ⟨rfl, by simp [infoNoRollback], rfl⟩)
  · exact find_chosen (fd := .bool false) rfl rfl (Or.inr ⟨rfl, by simp [infoNoSecure], rfl⟩)
  · exact find_chosen (fd := .bool false) rfl rfl (Or.inr ⟨rfl, by simp [infoStrict], rfl⟩)
  · exact find_chosen (fd := .int 0) rfl rfl (Or.inl rfl)
  · exact find_chosen (fd := .text []) rfl rfl (Or.inr ⟨rfl, by simp [infoLibrary], rfl⟩)
  · exact find_chosen (fd := .text []) rfl rfl (Or.inl rfl)

theorem weakBool_iff (v : Setting) (b : Bool) : weakBool v = some b ↔ ReadsBool v b := by
  constructor
  · intro h
    cases v with
    | bool x => simp [weakBool] at h; subst h; exact .bool _
    | int n =>
      simp [weakBool] at h
      by_cases hn : n = 0
      · subst hn; simp at h; subst h; exact .zero
      · simp [hn] at h; subst h; exact .nonzero hn
    | text t =>
      change (if t = [] then some false else parseBool t) = some b at h
      split at h
      · rename_i ht; simp at h; subst ht; subst h; exact .empty
      · unfold parseBool at h
        split at h
        · rename_i ht; simp at h; subst h; exact .yes ht
        · split at h
          · rename_i ht; simp at h; subst h; exact .no ht
          · cases h
  · intro h
    cases h with
    | bool => rfl
    | zero => rfl
    | nonzero h => simp [weakBool, h]
    | empty => rfl
    | yes h =>
      rename_i t
      have ht : t ≠ [] := by rintro rfl; revert h; decide
      show (if t = [] then some false else parseBool t) = some true
      unfold parseBool
      rw [if_neg ht, if_pos h]
    | no h =>
      rename_i t
      have ht : t ≠ [] := by rintro rfl; revert h; decide
      have h2 : t ∉ [s%"1", s%"t", s%"T", s%"TRUE", s%"true", s%"True"] := by
        simp only [List.mem_cons, List.not_mem_nil, or_false] at h
        rcases h with rfl | rfl | rfl | rfl | rfl | rfl <;> decide
      show (if t = [] then some false else parseBool t) = some false
      unfold parseBool
      rw [if_neg ht, if_neg h2, if_pos h]

theorem weakInt_iff (pi : Str → Option Int) (v : Setting) (n : Int) : weakInt pi v = some n ↔ ReadsInt pi v n := by
  constructor
  · intro h
    cases v with
    | bool x =>
      cases x
      · simp [weakInt] at h; subst h; exact .no
      · simp [weakInt] at h; subst h; exact .yes
    | int m => simp [weakInt] at h; subst h; exact .int _
    | text t =>
      change (if t = [] then some 0 else pi t) = some n at h
      split at h
      · rename_i ht; simp at h; subst ht; subst h; exact .empty
      · rename_i ht; exact .text ht h
  · intro h
    cases h with
    | int => rfl
    | yes => rfl
    | no => rfl
    | empty => rfl
    | text h1 h2 =>
      rename_i t
      show (if t = [] then some 0 else pi t) = some n
      rw [if_neg h1]; exact h2

theorem castBool_taken (v : Setting) : TakenAs v (castBool v) := by
  unfold TakenAs
  cases v with
  | bool b =>
    refine ⟨fun h => ?_, fun h => ?_⟩
    · change b = true at h; subst h; exact .bool true
    · cases h; rfl
  | int n =>
    refine ⟨fun h => .nonzero (by simpa [castBool] using h), fun h => ?_⟩
    cases h with
    | nonzero h => simpa [castBool] using h
  | text t =>
    have hp : castBool (.text t) = (parseBool t).getD false := rfl
    rw [hp]
    unfold parseBool
    refine ⟨fun h => ?_, fun h => ?_⟩
    · split at h
      · rename_i hm; exact .yes hm
      · split at h <;> simp at h
    · cases h with
      | yes hm => rw [if_pos hm]; rfl

theorem natStr_lead (n : Nat) : (natStr n).head? = some '0' → natStr n = s%"0" := by
  induction n using Nat.strongRecOn with
  | ind n ih =>
    unfold natStr at *
    rw [Nat.toDigits_eq_if (by decide)]
    split
    · rename_i h
      have : n = 0 ∨ n = 1 ∨ n = 2 ∨ n = 3 ∨ n = 4 ∨ n = 5 ∨ n = 6 ∨ n = 7 ∨ n = 8 ∨ n = 9 := by omega
      rcases this with rfl | rfl | rfl | rfl | rfl | rfl | rfl | rfl | rfl | rfl <;> decide
    · rename_i h
      intro hh
      exfalso
      have hne : Nat.toDigits 10 (n / 10) ≠ [] := (isNumeral_natStr (n / 10)).1.1
      have hh' : (Nat.toDigits 10 (n / 10)).head? = some '0' := by
        cases hc : Nat.toDigits 10 (n / 10) with
        | nil => exact absurd hc hne
        | cons c r => rw [hc] at hh; simpa using hh
      have h0 := ih (n / 10) (Nat.div_lt_self (by omega) (by decide)) hh'
      have hv := (isNumeral_natStr (n / 10)).2
      unfold natStr at hv
      rw [h0] at hv
      have : numeral (s%"0") = 0 := by decide
      omega

theorem natStr_spells (n : Nat) : natStr n = (toString n).toList := by
  show Nat.toDigits 10 n = (Nat.repr n).toList
  unfold Nat.repr
  simp

theorem formatInt_spells (n : Int) : SpellsInt n (formatInt n) := by
  cases n with
  | ofNat m =>
    refine ⟨natStr m, (isNumeral_natStr m).1, (isNumeral_natStr m).2, natStr_lead m, ?_⟩
    rw [if_neg (by simp), natStr_spells]
    rfl
  | negSucc m =>
    refine ⟨natStr (m + 1), (isNumeral_natStr _).1, (isNumeral_natStr _).2, natStr_lead _, ?_⟩
    rw [if_pos (Int.negSucc_lt_zero m), natStr_spells]
    show (("-" ++ toString (m + 1) : String)).toList = _
    simp

theorem weakText_reads (v : Setting) : ReadsText v (weakText v) := by
  cases v with
  | bool x =>
    cases x
    · exact .no
    · exact .yes
  | int m => exact .int (formatInt_spells m)
  | text t => exact .text _

theorem unmarshal_some {s : Sources} {o : Options} (h : s.unmarshal = some o) :
    field weakBool false (s.find (s%"noupdate")) = some o.noUpdate ∧ field weakBool false (s.find (s%"norollback")) = some o.noRollback ∧
    field weakBool false (s.find (s%"nosecure")) = some o.noSecure ∧ field weakBool false (s.find (s%"strict")) = some o.strict ∧
    field (weakInt s.parseInt) 0 (s.find (s%"threads")) = some o.threads ∧
    weakText ((s.find (s%"library")).getD (.text [])) = o.library ∧ weakText ((s.find (s%"rpath")).getD (.text [])) = o.rpath := by
  unfold Sources.unmarshal at h
  split at h
  · rename_i h1 h2 h3 h4 h5
    simp only [Option.some.injEq] at h
    subst h
    exact ⟨h1, h2, h3, h4, h5, rfl, rfl⟩
  · cases h

/-- What a run is told: every setting is read off the value in force. -/
structure Spec.Obeyed (s : Sources) (o : Options) : Prop where
  noRollback : ∃ v, InForce s infoNoRollback v ∧ ReadsBool v o.noRollback
  noSecure : ∃ v, InForce s infoNoSecure v ∧ ReadsBool v o.noSecure
  strict : ∃ v, InForce s infoStrict v ∧ ReadsBool v o.strict
  threads : ∃ v, InForce s (infoThreads s.gomaxprocs) v ∧ ReadsInt s.parseInt v o.threads
  library : ∃ v, InForce s infoLibrary v ∧ ReadsText v o.library
  rpath : ∃ v, InForce s infoRPath v ∧ ReadsText v o.rpath
  update : UpdateAsked s → o.noUpdate = false
  noUpdate : ¬ UpdateAsked s → ∃ v, InForce s infoNoUpdate v ∧ ReadsBool v o.noUpdate

/-- C135: the settings of a run are those in force, the command line counting more than the environment, the environment more
than the file and the file more than the default; `--update` prevails over whatever forbids updates. -/
theorem C135_in_force (s : Sources) (o : Options) (h : s.options = some o) : Obeyed s o := by
  have hb : ∀ i ∈ [infoNoUpdate, infoNoRollback, infoNoSecure, infoStrict], ∀ b, field weakBool false (s.find i.key) = some b →
      ∃ v, InForce s i v ∧ ReadsBool v b := by
    intro i hi b hb
    obtain ⟨v, h1, h2⟩ := inForce_find s i (by
      simp only [List.mem_cons, List.not_mem_nil, or_false] at hi ⊢
      rcases hi with h | h | h | h <;> simp [h])
    rw [h1] at hb
    exact ⟨v, h2, (weakBool_iff _ _).1 hb⟩
  have ht : ∀ i ∈ [infoLibrary, infoRPath], ∀ t, weakText ((s.find i.key).getD (.text [])) = t → ∃ v, InForce s i v ∧ ReadsText v t := by
    intro i hi t ht
    obtain ⟨v, h1, h2⟩ := inForce_find s i (by
      simp only [List.mem_cons, List.not_mem_nil, or_false] at hi ⊢
      rcases hi with h | h <;> simp [h])
    rw [h1] at ht
    exact ⟨v, h2, by rw [← ht]; exact weakText_reads _⟩
  unfold Sources.options at h
  cases hu : s.unmarshal with
  | none => rw [hu] at h; cases h
  | some o' =>
    obtain ⟨u1, u2, u3, u4, u5, u6, u7⟩ := unmarshal_some hu
    have hthr : ∃ v, InForce s (infoThreads s.gomaxprocs) v ∧ ReadsInt s.parseInt v o'.threads := by
      obtain ⟨v, h1, h2⟩ := inForce_find s (infoThreads s.gomaxprocs) (by simp)
      change s.find (s%"threads") = some v at h1
      rw [h1] at u5
      exact ⟨v, h2, (weakInt_iff _ _ _).1 u5⟩
    have base := Obeyed.mk (hb infoNoRollback (by simp) _ u2) (hb infoNoSecure (by simp) _ u3) (hb infoStrict (by simp) _ u4) hthr
      (ht infoLibrary (by simp) _ u6) (ht infoRPath (by simp) _ u7)
    have hno := hb infoNoUpdate (by simp) _ u1
    rw [hu] at h
    dsimp only at h
    cases hg : s.given (s%"update") with
    | none =>
      rw [hg] at h
      simp only [Option.some.injEq] at h
      subst h
      exact base (fun ⟨v, h1, _⟩ => by rw [hg] at h1; cases h1) (fun _ => hno)
    | some v =>
      rw [hg] at h
      simp only [Option.some.injEq] at h
      cases hc : castBool v with
      | true =>
        rw [hc] at h
        simp only [if_true] at h
        subst h
        exact ⟨hb infoNoRollback (by simp) _ u2, (hb infoNoSecure (by simp) _ u3), (hb infoStrict (by simp) _ u4), hthr,
          (ht infoLibrary (by simp) _ u6), (ht infoRPath (by simp) _ u7), fun _ => rfl, fun hn => absurd ⟨v, hg, (castBool_taken v).1 hc⟩ hn⟩
      | false =>
        rw [hc] at h
        simp only [Bool.false_eq_true, if_false] at h
        subst h
        exact base (fun ⟨w, h1, h2⟩ => by rw [hg] at h1; cases h1; rw [(castBool_taken v).2 h2] at hc; cases hc) (fun _ => hno)

/-- C135: the settings determine a run unambiguously, and pkgr refuses to run exactly if a value in force cannot be read. -/
theorem C135_refused_iff (s : Sources) :
    s.options = none ↔ (∃ i ∈ [infoNoUpdate, infoNoRollback, infoNoSecure, infoStrict], ∃ v, InForce s i v ∧ ∀ b, ¬ ReadsBool v b) ∨
      (∃ v, InForce s (infoThreads s.gomaxprocs) v ∧ ∀ n, ¬ ReadsInt s.parseInt v n) := by
  have hopt : s.options = none ↔ s.unmarshal = none := by
    unfold Sources.options
    cases s.unmarshal with
    | none => simp
    | some o => cases s.given (s%"update") <;> simp
  rw [hopt]
  have hb : ∀ i ∈ [infoNoUpdate, infoNoRollback, infoNoSecure, infoStrict],
      (field weakBool false (s.find i.key) = none ↔ ∃ v, InForce s i v ∧ ∀ b, ¬ ReadsBool v b) := by
    intro i hi
    obtain ⟨v, h1, h2⟩ := inForce_find s i (by
      simp only [List.mem_cons, List.not_mem_nil, or_false] at hi ⊢
      rcases hi with h | h | h | h <;> simp [h])
    rw [h1]
    show weakBool v = none ↔ _
    constructor
    · intro h
      exact ⟨v, h2, fun b hb => by rw [(weakBool_iff v b).2 hb] at h; cases h⟩
    · rintro ⟨w, hw, hn⟩
      have := chosen_unique h2 hw
      subst this
      cases hd : weakBool v with
      | none => rfl
      | some b => exact absurd ((weakBool_iff v b).1 hd) (hn b)
  have hi : field (weakInt s.parseInt) 0 (s.find (s%"threads")) = none ↔ ∃ v, InForce s (infoThreads s.gomaxprocs) v ∧ ∀ n, ¬ ReadsInt s.parseInt v n := by
    obtain ⟨v, h1, h2⟩ := inForce_find s (infoThreads s.gomaxprocs) (by simp)
    change s.find (s%"threads") = some v at h1
    rw [h1]
    show weakInt s.parseInt v = none ↔ _
    constructor
    · intro h
      exact ⟨v, h2, fun b hb => by rw [(weakInt_iff _ v b).2 hb] at h; cases h⟩
    · rintro ⟨w, hw, hn⟩
      have := chosen_unique h2 hw
      subst this
      cases hd : weakInt s.parseInt v with
      | none => rfl
      | some b => exact absurd ((weakInt_iff _ v b).1 hd) (hn b)
  rw [← hi]
  have e1 := hb infoNoUpdate (by simp)
  have e2 := hb infoNoRollback (by simp)
  have e3 := hb infoNoSecure (by simp)
  have e4 := hb infoStrict (by simp)
  simp only [List.mem_cons, List.not_mem_nil, or_false, exists_eq_or_imp, exists_eq_left]
  rw [← e1, ← e2, ← e3, ← e4]
  unfold Sources.unmarshal infoNoUpdate infoNoRollback infoNoSecure infoStrict
  dsimp only
  generalize field weakBool false (s.find (s%"noupdate")) = a
  generalize field weakBool false (s.find (s%"norollback")) = b
  generalize field weakBool false (s.find (s%"nosecure")) = c
  generalize field weakBool false (s.find (s%"strict")) = d
  generalize field (weakInt s.parseInt) 0 (s.find (s%"threads")) = e
  cases a <;> cases b <;> cases c <;> cases d <;> cases e <;> simp

/-- C135: an option that is given and can be read decides, whatever the environment, the file and the defaults are. -/
theorem C135_option_decides (s : Sources) (o : Options) (h : s.options = some o) :
    (∀ b, s.given (s%"no-rollback") = some (.bool b) → o.noRollback = b) ∧
    (∀ b, s.given (s%"no-secure") = some (.bool b) → o.noSecure = b) ∧
    (∀ b, s.given (s%"strict") = some (.bool b) → o.strict = b) ∧
    (∀ n, s.given (s%"threads") = some (.int n) → o.threads = n) ∧
    (∀ l, s.given (s%"library") = some (.text l) → o.library = l) ∧
    (∀ b, s.given (s%"update") = none → s.given (s%"no-update") = some (.bool b) → o.noUpdate = b) := by
  have k := C135_in_force s o h
  refine ⟨?_, ?_, ?_, ?_, ?_, ?_⟩
  · intro b hb
    obtain ⟨v, h1, h2⟩ := k.noRollback
    have := chosen_unique h1 (.byOption hb); subst this
    cases h2; rfl
  · intro b hb
    obtain ⟨v, h1, h2⟩ := k.noSecure
    have := chosen_unique h1 (.byOption hb); subst this
    cases h2; rfl
  · intro b hb
    obtain ⟨v, h1, h2⟩ := k.strict
    have := chosen_unique h1 (.byOption hb); subst this
    cases h2; rfl
  · intro b hb
    obtain ⟨v, h1, h2⟩ := k.threads
    have := chosen_unique h1 (.byOption hb); subst this
    cases h2; rfl
  · intro b hb
    obtain ⟨v, h1, h2⟩ := k.library
    have := chosen_unique h1 (.byOption hb); subst this
    cases h2; rfl
  · intro b hu hb
    obtain ⟨v, h1, h2⟩ := k.noUpdate (fun ⟨v, h1, _⟩ => by rw [hu] at h1; cases h1)
    have := chosen_unique h1 (.byOption hb); subst this
    cases h2; rfl

/-- C135 with C56: `--no-update` (without `--update`) keeps every package that is installed and that no configured tarball
holds as it is, at every moment of the run, whatever the file says about updates. -/
theorem C135_no_update_given (s : Sources) (o : Options) (h : s.options = some o) (hg : s.given (s%"no-update") = some (.bool true))
    (hu : s.given (s%"update") = none) (e : RunEnv) (lib : Path) (ip : InstallPlan) (pre : GoMap Desc) (fs : Fs) (hb : Behaves e lib ip)
    (hn : GoodNames ip) (hc : ip.createLibrary = false) (p : Str) (hdir : fs (lib ++ [p]) = some .dir) (hpre : GoMap.has pre p = true)
    (ht : p ∉ tarballs ip) (hl : ¬ IsLock p) (hbk : ¬ (s%"__OLD__") <+: p) :
    ∀ st ∈ (e.rInstall (o.runCfg lib) ip pre fs).1.states, Intact lib fs st p :=
  C56_noUpdate e (o.runCfg lib) ip pre fs hb hn hc ((C135_option_decides s o h).2.2.2.2.2 true hu hg) p hdir hpre ht hl hbk

/-- C135 with C55: `--strict` forbids creating the library, whatever the file says. -/
theorem C135_strict_given (s : Sources) (o : Options) (h : s.options = some o) (hg : s.given (s%"strict") = some (.bool true)) (e : RunEnv)
    (lib : Path) (ip : InstallPlan) (pre : GoMap Desc) (fs : Fs) (hc : ip.createLibrary = true) :
    (e.rInstall (o.runCfg lib) ip pre fs).1.states = [fs] ∧ (e.rInstall (o.runCfg lib) ip pre fs).2 = .died :=
  C55_strict e (o.runCfg lib) ip pre fs ((C135_option_decides s o h).2.2.1 true hg) hc

theorem readsText_text {t u : Str} (h : ReadsText (.text t) u) : u = t := by
  generalize hv : Setting.text t = v at h
  cases h <;> cases hv
  rfl

theorem readsInt_int {pi : Str → Option Int} {t u : Int} (h : ReadsInt pi (.int t) u) : u = t := by
  generalize hv : Setting.int t = v at h
  cases h <;> cases hv
  rfl

/-- The settings of `Model/Settings.lean` and `Model/Install.lean` are these: the configured library (C102) and the number of
workers (C81). -/
theorem C135_library_threads (s : Sources) (o : Options) (h : s.options = some o) (ls : LibrarySources)
    (hf : s.given (s%"library") = ls.flag.map .text) (he : s.environ (s%"PKGR_LIBRARY") = ls.env) (hl : s.file (s%"library") = ls.file.map .text)
    (tf tc : Option Int) (ht : s.given (s%"threads") = tf.map .int) (htc : s.file (s%"threads") = tc.map .int) :
    o.library = configuredLibrary ls ∧ o.threads = cfgThreads tf tc s.gomaxprocs := by
  have k := C135_in_force s o h
  constructor
  · obtain ⟨v, h1, h2⟩ := k.library
    change ChosenValue (s.given (s%"library")) (s.environ (s%"PKGR_LIBRARY")) (s.file (s%"library")) (.text []) v at h1
    rw [hf, he, hl] at h1
    unfold configuredLibrary
    cases hfl : ls.flag with
    | some x =>
      rw [hfl] at h1
      have := chosen_unique h1 (.byOption rfl); subst this; exact readsText_text h2
    | none =>
      rw [hfl] at h1
      have key2 : (ls.env = none ∨ ls.env = some []) → o.library = ls.file.getD [] := by
        intro hv
        cases hff : ls.file with
        | some x =>
          rw [hff] at h1
          have := chosen_unique h1 (.byFile rfl hv rfl); subst this; exact readsText_text h2
        | none =>
          rw [hff] at h1
          have := chosen_unique h1 (.byDefault rfl hv rfl); subst this; exact readsText_text h2
      cases hen : ls.env with
      | none => exact key2 (Or.inl hen)
      | some x =>
        cases x with
        | nil => exact key2 (Or.inr hen)
        | cons c cs =>
          rw [hen] at h1
          have := chosen_unique h1 (.byEnv rfl rfl (by simp)); subst this; exact readsText_text h2
  · obtain ⟨v, h1, h2⟩ := k.threads
    change ChosenValue (s.given (s%"threads")) none (s.file (s%"threads")) (.int s.gomaxprocs) v at h1
    rw [ht, htc] at h1
    unfold cfgThreads
    cases tf with
    | some x => have := chosen_unique h1 (.byOption rfl); subst this; exact readsInt_int h2
    | none =>
      cases tc with
      | some x => have := chosen_unique h1 (.byFile rfl (Or.inl rfl) rfl); subst this; exact readsInt_int h2
      | none => have := chosen_unique h1 (.byDefault rfl (Or.inl rfl) rfl); subst this; exact readsInt_int h2

/-- A file that asks for much, an environment that names a library, and a command line. -/
def optSources : Sources :=
  { given := fun n => if n = s%"no-update" then some (.bool true) else if n = s%"strict" then some (.bool true)
      else if n = s%"threads" then some (.int 3) else none
    environ := fun n => if n = s%"PKGR_LIBRARY" then some (s%"/env/lib") else if n = s%"PKGR_RPATH" then some [] else none
    file := fun k => if k = s%"noupdate" then some (.bool false) else if k = s%"library" then some (.text (s%"/file/lib"))
      else if k = s%"rpath" then some (.text (s%"/opt/R")) else if k = s%"norollback" then some (.text (s%"true")) else none
    gomaxprocs := 8
    parseInt := fun _ => none }

/-- A concrete case of `C135_in_force`, `C135_option_decides`. -/
example : optSources.options = some { noUpdate := true, noRollback := true, noSecure := false, strict := true, threads := 3, library := s%"/env/lib", rpath := s%"/opt/R" } := by decide

/-- ... with `--update` too. -/
example : ({ optSources with given := fun n => if n = s%"update" then some (.bool true) else optSources.given n } : Sources).options.map (·.noUpdate) =
    some false := by decide

/-- A concrete case of `C135_refused_iff`: a number that is none. -/
example : ({ optSources with given := fun _ => none, file := fun k => if k = s%"threads" then some (.text (s%"many")) else none } : Sources).options = none := by decide

/-- A concrete case of `C135_library_threads`. -/
example : optSources.given (s%"library") = (none : Option Str).map .text ∧ optSources.environ (s%"PKGR_LIBRARY") = some (s%"/env/lib") ∧
    optSources.file (s%"library") = (some (s%"/file/lib")).map .text ∧ optSources.given (s%"threads") = (some (3 : Int)).map .int ∧
    configuredLibrary { env := some (s%"/env/lib"), file := some (s%"/file/lib") } = s%"/env/lib" := by decide

/-- C135, what holds of a command's own options (`load --all`, `load --json`, `plan --show-deps`) and of the log: an own option
that is given decides, and one that is not given is off if the file has no key of its name; the first time, the level and the
format of the log are what the options say. The full claim (the file does not matter) is refuted below. -/
theorem C135_own_options_partial (s : Sources) (k : Str) (hk : k = s%"all" ∨ k = s%"json" ∨ k = s%"show-deps") :
    (∀ b, s.given k = some (.bool b) → s.ownFlag k = b) ∧ (s.given k = none → s.file k = none → s.ownFlag k = false) ∧
    (∀ l b, s.given (s%"loglevel") = some (.text l) → s.given (s%"logjson") = some (.bool b) → s.logging = (l, b) ∧ s.loggingAgain = (l, b)) ∧
    (s.given (s%"loglevel") = none → s.given (s%"logjson") = none → s.logging = ([], false)) := by
  have hbf : boundFlag k = some (k, .bool false) := by rcases hk with rfl | rfl | rfl <;> rfl
  have hbe : boundEnv k = none := by rcases hk with rfl | rfl | rfl <;> rfl
  have hbd : defaultSetting s.gomaxprocs k = none := by rcases hk with rfl | rfl | rfl <;> rfl
  have hl : boundFlag (s%"loglevel") = some (s%"loglevel", .text []) := rfl
  have hj : boundFlag (s%"logjson") = some (s%"logjson", .bool false) := rfl
  refine ⟨?_, ?_, ?_, ?_⟩
  · intro b h
    unfold Sources.ownFlag Sources.find
    rw [hbf]; simp [h, castBool]
  · intro h hf
    unfold Sources.ownFlag Sources.find envSetting
    rw [hbf, hbe, hf, hbd]; simp [h, castBool]
  · intro l b h1 h2
    unfold Sources.logging Sources.loggingAgain Sources.find Sources.findEarly
    rw [hl, hj]; simp [h1, h2, castBool, castText]
  · intro h1 h2
    unfold Sources.logging Sources.findEarly
    rw [hl, hj]; simp [h1, h2, castBool, castText]

/-- A concrete case of `C135_own_options_partial`. -/
example : ({ optSources with given := fun n => if n = s%"json" then some (.bool true) else if n = s%"loglevel" then some (.text (s%"debug"))
      else if n = s%"logjson" then some (.bool true) else none } : Sources).ownFlag (s%"json") = true ∧ optSources.ownFlag (s%"all") = false := by decide

theorem castText_reads (v : Setting) : ReadsLevel v (castText v) := by
  cases v with
  | bool b => cases b <;> constructor
  | int n => exact .int (formatInt_spells n)
  | text t => constructor

/-- C135, exactly: a command's own option is what the command line says, else what the file says under that name (what is no truth
value counts as no), else off. The log's level and format are what the command line says, else the plain log without a level; the second time, in
`add --install`, the file is asked too, and without all that the level is `info`. -/
theorem C135_own_options_exact_partial (s : Sources) (k : Str) (hk : k = s%"all" ∨ k = s%"json" ∨ k = s%"show-deps") :
    (∃ v, ChosenValue (s.given k) none (s.file k) (.bool false) v ∧ TakenAs v (s.ownFlag k)) ∧
    (∃ v w, ChosenValue (s.given (s%"loglevel")) none none (.text []) v ∧ ReadsLevel v s.logging.1 ∧
      ChosenValue (s.given (s%"logjson")) none none (.bool false) w ∧ TakenAs w s.logging.2) ∧
    (∃ v w, ChosenValue (s.given (s%"loglevel")) none (s.file (s%"loglevel")) (.text (s%"info")) v ∧ ReadsLevel v s.loggingAgain.1 ∧
      ChosenValue (s.given (s%"logjson")) none (s.file (s%"logjson")) (.bool false) w ∧ TakenAs w s.loggingAgain.2) := by
  have early : ∀ (key : Str) (d : Setting), boundFlag key = some (key, d) → ∃ v, s.findEarly key = some v ∧ ChosenValue (s.given key) none none d v := by
    intro key d hb
    unfold Sources.findEarly
    rw [hb]
    dsimp only
    cases hg : s.given key with
    | some v => exact ⟨v, rfl, .byOption rfl⟩
    | none => exact ⟨d, rfl, .byDefault rfl (.inl rfl) rfl⟩
  have late : ∀ (key : Str) (d fd : Setting), boundFlag key = some (key, fd) → boundEnv key = none →
      (defaultSetting s.gomaxprocs key = some d ∨ defaultSetting s.gomaxprocs key = none ∧ d = fd) →
      ∃ v, s.find key = some v ∧ ChosenValue (s.given key) none (s.file key) d v := by
    intro key d fd hb he hd
    unfold Sources.find envSetting
    rw [hb, he]
    dsimp only [Option.bind_some]
    cases hg : s.given key with
    | some v => exact ⟨v, rfl, .byOption rfl⟩
    | none =>
      dsimp only
      cases hf : s.file key with
      | some v => exact ⟨v, rfl, .byFile rfl (.inl rfl) rfl⟩
      | none =>
        refine ⟨d, ?_, .byDefault rfl (.inl rfl) rfl⟩
        rcases hd with hd | ⟨hd, rfl⟩ <;> rw [hd] <;> rfl
  refine ⟨?_, ?_, ?_⟩
  · obtain ⟨v, h1, h2⟩ := late k (.bool false) (.bool false) (by rcases hk with rfl | rfl | rfl <;> rfl) (by rcases hk with rfl | rfl | rfl <;> rfl)
      (.inr ⟨by rcases hk with rfl | rfl | rfl <;> rfl, rfl⟩)
    refine ⟨v, h2, ?_⟩
    unfold Sources.ownFlag
    rw [h1]
    exact castBool_taken v
  · obtain ⟨v, h1, h2⟩ := early (s%"loglevel") (.text []) rfl
    obtain ⟨w, h3, h4⟩ := early (s%"logjson") (.bool false) rfl
    refine ⟨v, w, h2, ?_, h4, ?_⟩
    · unfold Sources.logging; rw [h1]; exact castText_reads v
    · unfold Sources.logging; rw [h3]; exact castBool_taken w
  · obtain ⟨v, h1, h2⟩ := late (s%"loglevel") (.text (s%"info")) (.text []) rfl rfl (.inl rfl)
    obtain ⟨w, h3, h4⟩ := late (s%"logjson") (.bool false) (.bool false) rfl rfl (.inr ⟨rfl, rfl⟩)
    refine ⟨v, w, h2, ?_, h4, ?_⟩
    · unfold Sources.loggingAgain; rw [h1]; exact castText_reads v
    · unfold Sources.loggingAgain; rw [h3]; exact castBool_taken w

/-- A concrete case of `C135_own_options_exact_partial`. -/
example : ({ optSources with given := fun _ => none, file := fun k => if k = s%"json" then some (.text (s%"maybe")) else none } : Sources).ownFlag (s%"json") = false ∧
    ({ optSources with given := fun _ => none, file := fun _ => none } : Sources).loggingAgain = (s%"info", false) := by decide

/-- C135, what holds of `--config`: the file that is read is the one named by the option (`pkgr.yml` if it is not given, see C116); and when it is asked
for later (by `load`, and by `add --install`) the answer is the same, if the file has no key `config`. -/
theorem C135_config_partial (s : Sources) (c : Option Str) (h : s.given (s%"config") = c.map .text) :
    s.configText = c.getD [] ∧ (s.file (s%"config") = none → s.configTextAgain = s.configText) ∧ (c ≠ none → s.configTextAgain = s.configText) := by
  have hb : boundFlag (s%"config") = some (s%"config", .text []) := rfl
  have he : boundEnv (s%"config") = none := rfl
  have hd : defaultSetting s.gomaxprocs (s%"config") = none := rfl
  have h0 : s.configText = c.getD [] := by
    unfold Sources.configText Sources.findEarly
    rw [hb]
    dsimp only
    rw [h]
    cases c <;> rfl
  refine ⟨h0, fun hf => ?_, fun hc => ?_⟩
  · rw [h0]
    unfold Sources.configTextAgain Sources.find envSetting
    rw [hb, he, hf, hd]
    dsimp only [Option.bind_some]
    rw [h]
    cases c <;> rfl
  · rw [h0]
    unfold Sources.configTextAgain Sources.find
    rw [hb]
    dsimp only [Option.bind_some]
    rw [h]
    cases c with
    | none => exact absurd rfl hc
    | some t => rfl

/-- C135 is violated for `--config`: with a key `config` in the file, which is no setting, `add --install` edits `pkgr.yml` but installs
what another file says. -/
theorem C135_violated_config_key : ∃ s : Sources, (∀ n, s.given n = none) ∧ s.configText = [] ∧ s.configTextAgain = s%"other.yml" :=
  ⟨{ optSources with given := fun _ => none, file := fun k => if k = s%"config" then some (.text (s%"other.yml")) else none }, fun _ => rfl, by decide, by decide⟩

/-- A concrete case of `C135_config_partial`. -/
example : ({ optSources with given := fun n => if n = s%"config" then some (.text (s%"sub/p.yml")) else none } : Sources).configTextAgain = s%"sub/p.yml" := by decide

/-- C135 is violated for a command's own options: a key of the file that is no setting switches on an option of another command
that was not given. -/
theorem C135_violated_own_option : ∃ (s : Sources) (k : Str), k ∈ [s%"all", s%"json", s%"show-deps"] ∧ (∀ n, s.given n = none) ∧ s.ownFlag k = true :=
  ⟨{ optSources with given := fun _ => none, file := fun k => if k = s%"json" then some (.bool true) else none }, s%"json", by decide, fun _ => rfl, by decide⟩

/-- C135 is violated for the log: the level in the file does not count, although nothing else is said about it; but it counts
after the configuration is read a second time (`add --install`), in the same run. -/
theorem C135_violated_loglevel : ∃ s : Sources, (∀ n, s.given n = none) ∧ s.file (s%"loglevel") = some (.text (s%"debug")) ∧
    s.logging.1 = [] ∧ s.loggingAgain.1 = s%"debug" :=
  ⟨{ optSources with given := fun _ => none, file := fun k => if k = s%"loglevel" then some (.text (s%"debug")) else none }, fun _ => rfl, rfl, by decide, by decide⟩

end Pkgr
