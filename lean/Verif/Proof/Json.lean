/- Reading back what the encoder prints. -/
import Verif.Spec.Json
import Verif.Proof.RepoDb

namespace Pkgr
open Spec

/-! ### Blanks -/

/-- The test of `skipBlanks`. -/
def blankChar (c : Char) : Bool := decide (c = ' ' ∨ c = '\n' ∨ c = '\r' ∨ c = '\t')

theorem skipBlanks_append {w : Str} (hw : ∀ c ∈ w, blankChar c = true) (s : Str) : skipBlanks (w ++ s) = skipBlanks s := by
  induction w with
  | nil => rfl
  | cons c w ih =>
    have hc : blankChar c = true := hw c (List.mem_cons_self ..)
    have ih := ih fun x hx => hw x (List.mem_cons_of_mem _ hx)
    show List.dropWhile blankChar (c :: (w ++ s)) = _
    rw [List.dropWhile_cons_of_pos hc]
    exact ih

theorem skipBlanks_break (ind d : Nat) (s : Str) : skipBlanks (jsonBreak ind d ++ s) = skipBlanks s := by
  refine skipBlanks_append ?_ s
  intro c hc
  unfold jsonBreak at hc
  rcases List.mem_cons.1 hc with rfl | hc
  · rfl
  · rw [List.eq_of_mem_replicate hc]; rfl

theorem skipBlanks_cons {c : Char} (hc : blankChar c = false) (s : Str) : skipBlanks (c :: s) = c :: s := by
  show List.dropWhile blankChar (c :: s) = _
  rw [List.dropWhile_cons_of_neg (by rw [hc]; simp)]

/-! ### Strings -/

theorem hexValue_digit : ∀ n, n < 16 → hexValue (hexDigit n) = some n := by decide

theorem hexValue4_escape {n : Nat} (hn : n < 65536) :
    hexValue4 (hexDigit (n / 4096 % 16)) (hexDigit (n / 256 % 16)) (hexDigit (n / 16 % 16)) (hexDigit (n % 16)) = some n := by
  unfold hexValue4
  rw [hexValue_digit _ (Nat.mod_lt _ (by decide)), hexValue_digit _ (Nat.mod_lt _ (by decide)),
    hexValue_digit _ (Nat.mod_lt _ (by decide)), hexValue_digit _ (Nat.mod_lt _ (by decide))]
  dsimp only
  congr 1
  omega

theorem readString_char (html : Bool) (c : Char) (r : Str) :
    readString (escapeChar html c ++ r) = (readString r).map fun x => (c :: x.1, x.2) := by
  have hu : ∀ n, n < 65536 → ¬ (0xD800 ≤ n ∧ n ≤ 0xDFFF) → readString (uEscape n ++ r) = (readString r).map fun x => (Char.ofNat n :: x.1, x.2) := by
    intro n hn hs
    have h1 := hexValue4_escape hn
    unfold uEscape
    simp only [List.cons_append, List.nil_append]
    rw [readString.eq_def]
    dsimp only
    rw [if_neg (by decide), if_pos rfl]
    rw [if_pos rfl, h1]
    dsimp only
    rw [if_neg hs]
  have he : ∀ e ch, e ≠ 'u' → simpleEscape e = some ch → readString (['\\', e] ++ r) = (readString r).map fun x => (ch :: x.1, x.2) := by
    intro e ch h1 h2
    simp only [List.cons_append, List.nil_append]
    rw [readString.eq_def]
    dsimp only
    rw [if_neg (by decide), if_pos rfl]
    rw [if_neg h1, h2]
  unfold escapeChar
  by_cases h1 : c = '"' ∨ c = '\\'
  · rw [if_pos h1]
    rcases h1 with rfl | rfl <;> exact he _ _ (by decide) (by decide)
  rw [if_neg h1]
  by_cases h2 : c.toNat = 8
  · rw [if_pos h2, he 'b' (Char.ofNat 8) (by decide) (by decide), ← h2, Char.ofNat_toNat]
  rw [if_neg h2]
  by_cases h3 : c.toNat = 12
  · rw [if_pos h3, he 'f' (Char.ofNat 12) (by decide) (by decide), ← h3, Char.ofNat_toNat]
  rw [if_neg h3]
  by_cases h4 : c = '\n'
  · rw [if_pos h4, he 'n' '\n' (by decide) (by decide), h4]
  rw [if_neg h4]
  by_cases h5 : c = '\r'
  · rw [if_pos h5, he 'r' '\r' (by decide) (by decide), h5]
  rw [if_neg h5]
  by_cases h6 : c = '\t'
  · rw [if_pos h6, he 't' '\t' (by decide) (by decide), h6]
  rw [if_neg h6]
  by_cases h7 : c.toNat < 32 ∨ (html = true ∧ (c = '<' ∨ c = '>' ∨ c = '&')) ∨ c.toNat = 0x2028 ∨ c.toNat = 0x2029
  · rw [if_pos h7]
    have hb : c.toNat < 0xD800 := by
      rcases h7 with h | ⟨_, rfl | rfl | rfl⟩ | h | h
      · omega
      · decide
      · decide
      · decide
      · omega
      · omega
    rw [hu c.toNat (by omega) (by omega), Char.ofNat_toNat]
  · rw [if_neg h7]
    simp only [List.cons_append, List.nil_append]
    rw [readString.eq_def]
    dsimp only
    rw [if_neg (fun h => h1 (Or.inl h)), if_neg (fun h => h1 (Or.inr h)), if_neg (fun h => h7 (Or.inl h))]

theorem readString_body (html : Bool) (s r : Str) : readString (s.flatMap (escapeChar html) ++ '"' :: r) = some (s, r) := by
  induction s with
  | nil =>
    simp only [List.flatMap_nil, List.nil_append]
    rw [readString.eq_def]
    dsimp only
    rw [if_pos rfl]
  | cons c s ih =>
    rw [List.flatMap_cons, List.append_assoc, readString_char, ih]
    rfl

/-! ### Values -/

/-- A rest of a text that does not continue a number. -/
def EndsNumber (r : Str) : Prop := r.takeWhile isDec = []

theorem isDec_iff (c : Char) : isDec c = true ↔ '0'.toNat ≤ c.toNat ∧ c.toNat ≤ '9'.toNat := by
  unfold isDec; simp

theorem takeWhile_json_numeral {s r : Str} (hs : ∀ c ∈ s, isDec c = true) (hr : EndsNumber r) :
    (s ++ r).takeWhile isDec = s ∧ (s ++ r).dropWhile isDec = r := by
  induction s with
  | nil =>
    refine ⟨hr, ?_⟩
    unfold EndsNumber at hr
    have := List.takeWhile_append_dropWhile (p := isDec) (l := r)
    rw [hr] at this
    exact this
  | cons c s ih =>
    have ih := ih fun x hx => hs x (List.mem_cons_of_mem _ hx)
    have hc := hs c (List.mem_cons_self ..)
    rw [List.cons_append, List.takeWhile_cons_of_pos hc, List.dropWhile_cons_of_pos hc]
    exact ⟨by rw [ih.1], ih.2⟩

/-- How the text of a value begins. -/
def Begins (s : Str) : Prop := ∃ c r, s = c :: r ∧ blankChar c = false ∧ c ≠ ']' ∧ c ≠ '}'

theorem begins_natStr (n : Nat) : ∃ c r, natStr n = c :: r ∧ isDec c = true := by
  obtain ⟨⟨h1, h2⟩, _⟩ := isNumeral_natStr n
  cases h : natStr n with
  | nil => exact absurd h h1
  | cons c r => exact ⟨c, r, rfl, (isDec_iff c).2 (h2 c (by rw [h]; exact List.mem_cons_self ..))⟩

theorem dec_cases {c : Char} (h : isDec c = true) : c ≠ 'n' ∧ c ≠ 't' ∧ c ≠ 'f' ∧ c ≠ '"' ∧ c ≠ '[' ∧ c ≠ '{' ∧ c ≠ ']' ∧ c ≠ '}' ∧ blankChar c = false := by
  refine ⟨?_, ?_, ?_, ?_, ?_, ?_, ?_, ?_, ?_⟩
  any_goals (rintro rfl; exact absurd h (by decide))
  unfold blankChar
  rw [decide_eq_false_iff_not]
  rintro (rfl | rfl | rfl | rfl) <;> exact absurd h (by decide)

theorem begins_encode (html : Bool) (ind d : Nat) (v : JVal) : Begins (encodeJson html ind d v) := by
  cases v with
  | null => exact ⟨'n', _, by rw [encodeJson], by decide, by decide, by decide⟩
  | bool b =>
    cases b
    · exact ⟨'f', _, by rw [encodeJson]; rfl, by decide, by decide, by decide⟩
    · exact ⟨'t', _, by rw [encodeJson]; rfl, by decide, by decide, by decide⟩
  | num n =>
    obtain ⟨c, r, h, hc⟩ := begins_natStr n
    have := dec_cases hc
    exact ⟨c, r, by rw [encodeJson, h], this.2.2.2.2.2.2.2.2, this.2.2.2.2.2.2.1, this.2.2.2.2.2.2.2.1⟩
  | str s => exact ⟨'"', _, by rw [encodeJson]; rfl, by decide, by decide, by decide⟩
  | arr l =>
    cases l with
    | nil => exact ⟨'[', _, by rw [encodeJson], by decide, by decide, by decide⟩
    | cons v vs => exact ⟨'[', _, by rw [encodeJson], by decide, by decide, by decide⟩
  | obj l =>
    cases l with
    | nil => exact ⟨'{', _, by rw [encodeJson], by decide, by decide, by decide⟩
    | cons v vs => exact ⟨'{', _, by rw [encodeJson], by decide, by decide, by decide⟩

/-- What is to be shown for values. -/
def ReadsBack (html : Bool) (ind : Nat) (v : JVal) : Prop :=
  ∀ d w r, (∀ c ∈ w, blankChar c = true) → EndsNumber r → ∃ n, ∀ m, n ≤ m → readValue m (w ++ encodeJson html ind d v ++ r) = some (v, r)

theorem endsNumber_cons {c : Char} (h : isDec c = false) (r : Str) : EndsNumber (c :: r) := by
  unfold EndsNumber
  rw [List.takeWhile_cons_of_neg (by rw [h]; simp)]

theorem endsNumber_break (ind d : Nat) (r : Str) : EndsNumber (jsonBreak ind d ++ r) := endsNumber_cons (by decide) _

theorem blanks_break (ind d : Nat) : ∀ c ∈ jsonBreak ind d, blankChar c = true := by
  intro c hc
  unfold jsonBreak at hc
  rcases List.mem_cons.1 hc with rfl | hc
  · rfl
  · rw [List.eq_of_mem_replicate hc]; rfl

theorem readsBack_plain (html : Bool) (ind : Nat) (v : JVal)
    (h : ∀ d r, EndsNumber r → ∃ c t, encodeJson html ind d v = c :: t ∧ blankChar c = false ∧ c ≠ '"' ∧ c ≠ '[' ∧ c ≠ '{' ∧
      readPlain (c :: t ++ r) = some (v, r)) : ReadsBack html ind v := by
  intro d w r hw hr
  obtain ⟨c, t, h1, h2, h3, h4, h5, h6⟩ := h d r hr
  refine ⟨1, fun m hm => ?_⟩
  obtain ⟨m, rfl⟩ : ∃ k, m = k + 1 := ⟨m - 1, by omega⟩
  rw [readValue, List.append_assoc, skipBlanks_append hw, h1, List.cons_append, skipBlanks_cons h2]
  dsimp only
  rw [if_neg h3, if_neg h4, if_neg h5]
  exact h6

theorem readsBack_null (html : Bool) (ind : Nat) : ReadsBack html ind .null :=
  readsBack_plain _ _ _ fun d r _ => ⟨'n', s%"ull", by rw [encodeJson], by decide, by decide, by decide, by decide, by
    unfold readPlain
    rw [if_pos ⟨r, rfl⟩]
    rfl⟩

theorem readsBack_bool (html : Bool) (ind : Nat) (b : Bool) : ReadsBack html ind (.bool b) := by
  cases b
  · exact readsBack_plain _ _ _ fun d r _ => ⟨'f', s%"alse", by rw [encodeJson]; rfl, by decide, by decide, by decide, by decide, by
      unfold readPlain
      rw [if_neg (by simp), if_neg (by simp), if_pos ⟨r, rfl⟩]
      rfl⟩
  · exact readsBack_plain _ _ _ fun d r _ => ⟨'t', s%"rue", by rw [encodeJson]; rfl, by decide, by decide, by decide, by decide, by
      unfold readPlain
      rw [if_neg (by simp), if_pos ⟨r, rfl⟩]
      rfl⟩

theorem readsBack_num (html : Bool) (ind : Nat) (n : Nat) : ReadsBack html ind (.num n) := by
  refine readsBack_plain _ _ _ fun d r hr => ?_
  obtain ⟨c, t, h, hc⟩ := begins_natStr n
  obtain ⟨⟨_, h2⟩, h3⟩ := isNumeral_natStr n
  obtain ⟨k1, k2, k3, k4, k5, k6, _, _, k7⟩ := dec_cases hc
  refine ⟨c, t, by rw [encodeJson, h], k7, k4, k5, k6, ?_⟩
  obtain ⟨e1, e2⟩ := takeWhile_json_numeral (fun c hc => (isDec_iff c).2 (h2 c hc)) hr
  rw [h] at e1 e2 h3
  unfold readPlain
  have hp : ∀ (x : Char) (w : Str), c ≠ x → ¬ (x :: w) <+: (c :: t ++ r) := by
    intro x w hx hpre
    rw [List.cons_append, List.cons_prefix_cons] at hpre
    exact hx hpre.1.symm
  rw [if_neg (hp _ _ k1), if_neg (hp _ _ k2), if_neg (hp _ _ k3), e1, e2, if_neg (by simp), h3]

theorem readsBack_str (html : Bool) (ind : Nat) (s : Str) : ReadsBack html ind (.str s) := by
  intro d w r hw hr
  refine ⟨1, fun m hm => ?_⟩
  obtain ⟨m, rfl⟩ : ∃ k, m = k + 1 := ⟨m - 1, by omega⟩
  have h1 : encodeJson html ind d (.str s) ++ r = '"' :: (s.flatMap (escapeChar html) ++ '"' :: r) := by
    rw [encodeJson]
    simp [quoteJson]
  rw [readValue, List.append_assoc, skipBlanks_append hw, h1, skipBlanks_cons (by decide)]
  dsimp only
  rw [if_pos rfl, readString_body]
  rfl

theorem elems_begin (html : Bool) (ind d d' : Nat) (vs : List JVal) (r : Str) :
    EndsNumber (encodeElems html ind d vs ++ (jsonBreak ind d' ++ r)) := by
  cases vs with
  | nil => rw [encodeElems]; exact endsNumber_break _ _ _
  | cons v vs => rw [encodeElems]; exact endsNumber_cons (by decide) _

theorem members_begin (html : Bool) (ind d d' : Nat) (ms : List (Str × JVal)) (r : Str) :
    EndsNumber (encodeMembers html ind d ms ++ (jsonBreak ind d' ++ r)) := by
  cases ms with
  | nil => rw [encodeMembers]; exact endsNumber_break _ _ _
  | cons v vs => rw [encodeMembers]; exact endsNumber_cons (by decide) _

/-- Elements read back. -/
theorem readElems_back {html : Bool} {ind : Nat} (vs : List JVal) : ∀ (v : JVal) (d d' : Nat) (w r : Str), (∀ c ∈ w, blankChar c = true) →
    ReadsBack html ind v → (∀ x ∈ vs, ReadsBack html ind x) →
    ∃ n, ∀ m, n ≤ m → readElems m (w ++ encodeJson html ind d v ++ (encodeElems html ind d vs ++ (jsonBreak ind d' ++ ']' :: r))) = some (v :: vs, r) := by
  induction vs with
  | nil =>
    intro v d d' w r hw hv _
    obtain ⟨n, hn⟩ := hv d w (encodeElems html ind d [] ++ (jsonBreak ind d' ++ ']' :: r)) hw (elems_begin ..)
    refine ⟨n + 1, fun m hm => ?_⟩
    obtain ⟨m, rfl⟩ : ∃ k, m = k + 1 := ⟨m - 1, by omega⟩
    rw [readElems, hn m (by omega)]
    dsimp only
    rw [encodeElems, List.nil_append, skipBlanks_break, skipBlanks_cons (by decide)]
    rfl
  | cons x vs ih =>
    intro v d d' w r hw hv hvs
    obtain ⟨n, hn⟩ := hv d w (encodeElems html ind d (x :: vs) ++ (jsonBreak ind d' ++ ']' :: r)) hw (elems_begin ..)
    obtain ⟨n2, hn2⟩ := ih x d d' (jsonBreak ind d) r (blanks_break ind d) (hvs x (List.mem_cons_self ..)) fun y hy => hvs y (List.mem_cons_of_mem _ hy)
    refine ⟨n + n2 + 1, fun m hm => ?_⟩
    obtain ⟨m, rfl⟩ : ∃ k, m = k + 1 := ⟨m - 1, by omega⟩
    rw [readElems, hn m (by omega)]
    dsimp only
    rw [encodeElems, List.cons_append, skipBlanks_cons (by decide)]
    show Option.map _ (readElems m _) = _
    have := hn2 m (by omega)
    rw [List.append_assoc (jsonBreak ind d ++ encodeJson html ind d x)]
    rw [this]
    rfl

/-- Members read back. -/
theorem readMembers_back {html : Bool} {ind : Nat} (ms : List (Str × JVal)) : ∀ (k : Str) (v : JVal) (d d' : Nat) (w r : Str),
    (∀ c ∈ w, blankChar c = true) → ReadsBack html ind v → (∀ x ∈ ms, ReadsBack html ind x.2) →
    ∃ n, ∀ m, n ≤ m → readMembers m (w ++ encodeMember html ind d (k, v) ++ (encodeMembers html ind d ms ++ (jsonBreak ind d' ++ '}' :: r))) =
      some ((k, v) :: ms, r) := by
  have one : ∀ (k : Str) (v : JVal) (d : Nat) (w tail : Str), (∀ c ∈ w, blankChar c = true) → ReadsBack html ind v → EndsNumber tail →
      ∃ n, ∀ m, n ≤ m → readMembers (m + 1) (w ++ encodeMember html ind d (k, v) ++ tail) =
        (match skipBlanks tail with
          | ',' :: r' => (readMembers m r').map fun x => ((k, v) :: x.1, x.2)
          | '}' :: r' => some ([(k, v)], r')
          | _ => none) := by
    intro k v d w tail hw hv ht
    obtain ⟨n, hn⟩ := hv d [' '] tail (by simp [blankChar]) ht
    refine ⟨n, fun m hm => ?_⟩
    have h1 : encodeMember html ind d (k, v) ++ tail = '"' :: (k.flatMap (escapeChar html) ++ '"' :: (':' :: ([' '] ++ encodeJson html ind d v ++ tail))) := by
      rw [encodeMember]
      simp [quoteJson]
    rw [readMembers, List.append_assoc, skipBlanks_append hw, h1, skipBlanks_cons (by decide)]
    simp only [readString_body]
    rw [skipBlanks_cons (by decide)]
    simp only [hn m hm]
    rfl
  induction ms with
  | nil =>
    intro k v d d' w r hw hv _
    obtain ⟨n, hn⟩ := one k v d w (encodeMembers html ind d [] ++ (jsonBreak ind d' ++ '}' :: r)) hw hv (members_begin ..)
    refine ⟨n + 1, fun m hm => ?_⟩
    obtain ⟨m, rfl⟩ : ∃ k, m = k + 1 := ⟨m - 1, by omega⟩
    rw [hn m (by omega), encodeMembers, List.nil_append, skipBlanks_break, skipBlanks_cons (by decide)]
    rfl
  | cons x ms ih =>
    intro k v d d' w r hw hv hvs
    obtain ⟨n, hn⟩ := one k v d w (encodeMembers html ind d (x :: ms) ++ (jsonBreak ind d' ++ '}' :: r)) hw hv (members_begin ..)
    obtain ⟨n2, hn2⟩ := ih x.1 x.2 d d' (jsonBreak ind d) r (blanks_break ind d) (hvs x (List.mem_cons_self ..)) fun y hy => hvs y (List.mem_cons_of_mem _ hy)
    refine ⟨n + n2 + 1, fun m hm => ?_⟩
    obtain ⟨m, rfl⟩ : ∃ k, m = k + 1 := ⟨m - 1, by omega⟩
    rw [hn m (by omega), encodeMembers, List.cons_append, skipBlanks_cons (by decide)]
    show Option.map _ (readMembers m _) = _
    have := hn2 m (by omega)
    rw [List.append_assoc (jsonBreak ind d ++ encodeMember html ind d x)]
    rw [this]
    rfl

theorem readsBack_arr {html : Bool} {ind : Nat} (vs : List JVal) (h : ∀ v ∈ vs, ReadsBack html ind v) : ReadsBack html ind (.arr vs) := by
  intro d w r hw hr
  cases vs with
  | nil =>
    refine ⟨1, fun m hm => ?_⟩
    obtain ⟨m, rfl⟩ : ∃ k, m = k + 1 := ⟨m - 1, by omega⟩
    rw [readValue, List.append_assoc, skipBlanks_append hw, encodeJson]
    rfl
  | cons v vs =>
    obtain ⟨n, hn⟩ := readElems_back vs v (d + 1) d (jsonBreak ind (d + 1)) r (blanks_break ind (d + 1)) (h v (List.mem_cons_self ..))
      fun x hx => h x (List.mem_cons_of_mem _ hx)
    refine ⟨n + 1, fun m hm => ?_⟩
    obtain ⟨m, rfl⟩ : ∃ k, m = k + 1 := ⟨m - 1, by omega⟩
    have h1 : encodeJson html ind d (.arr (v :: vs)) ++ r = '[' :: (jsonBreak ind (d + 1) ++ encodeJson html ind (d + 1) v ++
        (encodeElems html ind (d + 1) vs ++ (jsonBreak ind d ++ ']' :: r))) := by
      rw [encodeJson]
      simp
    rw [readValue, List.append_assoc, skipBlanks_append hw, h1, skipBlanks_cons (by decide)]
    dsimp only
    rw [if_neg (by decide), if_pos rfl]
    obtain ⟨c, t, e1, e2, e3, e4⟩ := begins_encode html ind (d + 1) v
    have h2 : skipBlanks (jsonBreak ind (d + 1) ++ encodeJson html ind (d + 1) v ++
        (encodeElems html ind (d + 1) vs ++ (jsonBreak ind d ++ ']' :: r))) = c :: (t ++ (encodeElems html ind (d + 1) vs ++ (jsonBreak ind d ++ ']' :: r))) := by
      rw [List.append_assoc, skipBlanks_break, e1, List.cons_append, skipBlanks_cons e2]
    split
    · rename_i r' hr'
      rw [h2] at hr'
      simp only [List.cons.injEq] at hr'
      exact absurd hr'.1 e3
    · rw [hn m (by omega)]
      rfl

theorem readsBack_obj {html : Bool} {ind : Nat} (ms : List (Str × JVal)) (h : ∀ x ∈ ms, ReadsBack html ind x.2) : ReadsBack html ind (.obj ms) := by
  intro d w r hw hr
  cases ms with
  | nil =>
    refine ⟨1, fun m hm => ?_⟩
    obtain ⟨m, rfl⟩ : ∃ k, m = k + 1 := ⟨m - 1, by omega⟩
    rw [readValue, List.append_assoc, skipBlanks_append hw, encodeJson]
    rfl
  | cons x ms =>
    obtain ⟨n, hn⟩ := readMembers_back ms x.1 x.2 (d + 1) d (jsonBreak ind (d + 1)) r (blanks_break ind (d + 1)) (h x (List.mem_cons_self ..))
      fun y hy => h y (List.mem_cons_of_mem _ hy)
    refine ⟨n + 1, fun m hm => ?_⟩
    obtain ⟨m, rfl⟩ : ∃ k, m = k + 1 := ⟨m - 1, by omega⟩
    have h1 : encodeJson html ind d (.obj (x :: ms)) ++ r = '{' :: (jsonBreak ind (d + 1) ++ encodeMember html ind (d + 1) x ++
        (encodeMembers html ind (d + 1) ms ++ (jsonBreak ind d ++ '}' :: r))) := by
      rw [encodeJson]
      simp
    rw [readValue, List.append_assoc, skipBlanks_append hw, h1, skipBlanks_cons (by decide)]
    dsimp only
    rw [if_neg (by decide), if_neg (by decide), if_pos rfl]
    have h2 : ∃ t, skipBlanks (jsonBreak ind (d + 1) ++ encodeMember html ind (d + 1) x ++
        (encodeMembers html ind (d + 1) ms ++ (jsonBreak ind d ++ '}' :: r))) = '"' :: t := by
      obtain ⟨k, v⟩ := x
      have h3 : ∃ t, encodeMember html ind (d + 1) (k, v) ++ (encodeMembers html ind (d + 1) ms ++ (jsonBreak ind d ++ '}' :: r)) = '"' :: t := by
        rw [encodeMember, quoteJson]
        exact ⟨_, rfl⟩
      obtain ⟨t, h3⟩ := h3
      exact ⟨t, by rw [List.append_assoc, skipBlanks_break, h3, skipBlanks_cons (by decide)]⟩
    obtain ⟨t, h2⟩ := h2
    split
    · rename_i r' hr'
      rw [h2] at hr'
      simp at hr'
    · rw [hn m (by omega)]
      rfl

mutual
theorem readsBack (html : Bool) (ind : Nat) : (v : JVal) → ReadsBack html ind v
  | .null => readsBack_null html ind
  | .bool b => readsBack_bool html ind b
  | .num n => readsBack_num html ind n
  | .str s => readsBack_str html ind s
  | .arr l => readsBack_arr l (readsBack_all html ind l)
  | .obj l => readsBack_obj l (readsBack_members html ind l)
theorem readsBack_all (html : Bool) (ind : Nat) : (l : List JVal) → ∀ v ∈ l, ReadsBack html ind v
  | [] => fun _ h => absurd h List.not_mem_nil
  | x :: l => fun v h => by
    rcases List.mem_cons.1 h with h | h
    · rw [h]; exact readsBack html ind x
    · exact readsBack_all html ind l v h
theorem readsBack_members (html : Bool) (ind : Nat) : (l : List (Str × JVal)) → ∀ m ∈ l, ReadsBack html ind m.2
  | [] => fun _ h => absurd h List.not_mem_nil
  | (k, x) :: l => fun m h => by
    rcases List.mem_cons.1 h with h | h
    · rw [h]; exact readsBack html ind x
    · exact readsBack_members html ind l m h
end

/-- A printed document, followed by blanks, is read as what was printed. -/
theorem reads_encoded (html : Bool) (ind : Nat) (v : JVal) (w : Str) (hw : ∀ c ∈ w, blankChar c = true) : Reads (encodeJson html ind 0 v ++ w) v := by
  have he : EndsNumber w := by
    cases w with
    | nil => rfl
    | cons c w =>
      refine endsNumber_cons ?_ w
      cases hd : isDec c with
      | false => rfl
      | true => exact absurd (hw c (List.mem_cons_self ..)) (by rw [(dec_cases hd).2.2.2.2.2.2.2.2]; simp)
  obtain ⟨n, hn⟩ := readsBack html ind v 0 [] w (by simp) he
  refine ⟨n, fun m hm => ?_⟩
  unfold readJson
  have := hn m hm
  rw [List.nil_append] at this
  rw [this]
  dsimp only
  rw [if_pos]
  have := skipBlanks_append hw []
  rw [List.append_nil] at this
  rw [this]
  rfl

end Pkgr
