/- C150: temporary directories. -/
import Verif.Spec.TempDir
import Verif.Spec.Queue

namespace Pkgr
open Spec

theorem mkdirAll_self {fs : Fs} {p : Path} (h : fs p = none ∨ fs p = some .dir) : (fs.mkdirAll p) p = some .dir := by
  unfold Fs.mkdirAll
  rcases h with h | h
  · rw [if_pos ⟨List.prefix_refl _, h⟩]
  · rw [if_neg (by rw [h]; simp), h]

theorem mkdirAll_below {fs : Fs} {p q : Path} (h : p <+: q) (hne : q ≠ p) : (fs.mkdirAll p) q = fs q := by
  unfold Fs.mkdirAll
  rw [if_neg]
  rintro ⟨h', _⟩
  exact hne (h'.eq_of_length_le (h.length_le))

theorem mkdirAll_dir {fs : Fs} {p q : Path} {n : Node} (h : fs q = some n) : (fs.mkdirAll p) q = some n := by
  unfold Fs.mkdirAll
  rw [if_neg (by rw [h]; simp), h]

theorem ofNat_inj {a b : Nat} (ha : a < 25) (hb : b < 25) (h : Char.ofNat (65 + a) = Char.ofNat (65 + b)) : a = b := by
  have : ∀ x : Fin 25, ∀ y : Fin 25, Char.ofNat (65 + x.1) = Char.ofNat (65 + y.1) → x = y := by decide +kernel
  have := this ⟨a, ha⟩ ⟨b, hb⟩ h
  exact Fin.mk.inj this

/-- C150: a temporary directory is directly in the system's directory for temporary files; its name has twelve letters from A to Y. -/
theorem C150_name (rng : Int → Nat → Nat) (root : Path) (clock : Int) :
    ∃ n : Str, tempDirAt rng root clock = root ++ [n] ∧ n.length = 12 ∧ ∀ c ∈ n, 'A' ≤ c ∧ c ≤ 'Y' := by
  refine ⟨_, rfl, by simp [randomString], fun c hc => ?_⟩
  unfold randomString at hc
  obtain ⟨i, _, rfl⟩ := List.mem_map.1 hc
  have : ∀ x : Fin 25, 'A' ≤ Char.ofNat (65 + x.1) ∧ Char.ofNat (65 + x.1) ≤ 'Y' := by decide +kernel
  exact this ⟨_, Nat.mod_lt _ (by omega)⟩

theorem tempDir_apart {rng : Int → Nat → Nat} {root : Path} {clocks : List Int} (hs : Separates rng clocks) {c c' : Int}
    (hc : c ∈ clocks) (hc' : c' ∈ clocks) (hne : c ≠ c') : Apart (tempDirAt rng root c) (tempDirAt rng root c') := by
  have hn : randomString rng c 12 ≠ randomString rng c' 12 := by
    intro h
    refine hne (hs c hc c' hc' fun i hi => ?_)
    unfold randomString at h
    have := congrArg (fun l => l[i]?) h
    simp only [List.getElem?_map, List.getElem?_range hi, Option.map_some] at this
    exact ofNat_inj (Nat.mod_lt _ (by omega)) (Nat.mod_lt _ (by omega)) (Option.some.inj this)
  have hp : ∀ a b : Str, root ++ [a] <+: root ++ [b] → a = b := by
    intro a b h
    have := h.eq_of_length (by simp)
    simpa using this
  exact ⟨fun h => hn (hp _ _ h), fun h => hn (hp _ _ h).symm⟩

theorem makeTempDir_other {rng : Int → Nat → Nat} {root p q : Path} {c : Int} (fs : Fs) (hr : root <+: p) (h : Apart p (tempDirAt rng root c))
    (hq : p <+: q) : makeTempDir rng root c fs q = fs q := by
  unfold makeTempDir Fs.mkdirAll
  rw [if_neg]
  rintro ⟨h', _⟩
  exact h.1 (hq.trans h')

/-- C150 (partial). When no reading of the clock is repeated, the generator draws different names and none of them is in use yet, the temporary directories
made one after the other are apart from each other, and each is an empty directory, whatever the others are used for later. Missing: readings that
are repeated and names in use, see the `violated` theorems. -/
theorem C150_own_partial {rng : Int → Nat → Nat} {root : Path} {clocks : List Int} {fs : Fs} (hs : Separates rng clocks) (hd : clocks.Nodup)
    (hfree : ∀ c ∈ clocks, ∀ q, tempDirAt rng root c <+: q → fs q = none) :
    clocks.Pairwise (fun c c' => Apart (tempDirAt rng root c) (tempDirAt rng root c')) ∧
    ∀ c ∈ clocks, EmptyDir (makeTempDirs rng root fs clocks) (tempDirAt rng root c) := by
  refine ⟨?_, ?_⟩
  · refine List.Pairwise.imp_of_mem ?_ hd
    intro a b ha hb hne
    exact tempDir_apart hs ha hb hne
  · intro c hc
    have key : ∀ (l : List Int) (fs : Fs), (∀ x ∈ l, x ∈ clocks) →
        (EmptyDir fs (tempDirAt rng root c) ∨ (c ∈ l ∧ ∀ q, tempDirAt rng root c <+: q → fs q = none)) →
        EmptyDir (makeTempDirs rng root fs l) (tempDirAt rng root c) := by
      intro l
      induction l with
      | nil =>
        intro fs _ h
        rcases h with h | h
        · exact h
        · cases h.1
      | cons x l ih =>
        intro fs hl h
        show EmptyDir (makeTempDirs rng root (makeTempDir rng root x fs) l) _
        refine ih _ (fun y hy => hl y (by simp [hy])) ?_
        by_cases hx : x = c
        · subst hx
          left
          rcases h with h | ⟨_, h⟩
          · exact ⟨mkdirAll_self (.inr h.1), fun q hq hne => (mkdirAll_below hq hne).trans (h.2 q hq hne)⟩
          · exact ⟨mkdirAll_self (.inl (h _ (List.prefix_refl _))), fun q hq hne => (mkdirAll_below hq hne).trans (h q hq)⟩
        · have hap : Apart (tempDirAt rng root c) (tempDirAt rng root x) := tempDir_apart hs hc (hl x (by simp)) (fun e => hx e.symm)
          have hsame : ∀ q, tempDirAt rng root c <+: q → makeTempDir rng root x fs q = fs q := fun q hq =>
            makeTempDir_other fs (List.prefix_append _ _) hap hq
          rcases h with h | ⟨h1, h2⟩
          · exact .inl ⟨(hsame _ (List.prefix_refl _)).trans h.1, fun q hq hne => (hsame q hq).trans (h.2 q hq hne)⟩
          · refine .inr ⟨?_, fun q hq => (hsame q hq).trans (h2 q hq)⟩
            rcases List.mem_cons.1 h1 with rfl | h1
            · exact absurd rfl hx
            · exact h1
    exact key clocks fs (fun _ h => h) (.inr ⟨hc, hfree c hc⟩)

/-- C150: so, when the packages of a run read different times, and the generator draws different names for these, the
directories are apart as the theorems about whole runs (C90 - C94, C118) ask for. -/
theorem C150_layout_partial {rng : Int → Nat → Nat} {root : Path} {clock : Str → Int} {packages : List Str}
    (hinj : ∀ p ∈ packages, ∀ q ∈ packages, clock p = clock q → p = q)
    (hs : ∀ p ∈ packages, ∀ q ∈ packages, (∀ i, i < 12 → rng (clock p) i % 25 = rng (clock q) i % 25) → clock p = clock q) :
    ∀ p ∈ packages, ∀ q ∈ packages, p ≠ q → Apart (tempDirAt rng root (clock p)) (tempDirAt rng root (clock q)) := by
  intro p hp q hq hne
  refine tempDir_apart (clocks := [clock p, clock q]) ?_ (by simp) (by simp) fun h => hne (hinj p hp q hq h)
  intro c hc c' hc' h
  simp only [List.mem_cons, List.not_mem_nil, or_false] at hc hc'
  rcases hc with rfl | rfl <;> rcases hc' with rfl | rfl
  · rfl
  · exact hs p hp q hq h
  · exact hs q hq p hp h
  · rfl

/-- Non-vacuity of C150_layout_partial: two packages, at times 7 and 8. -/
example : Apart (tempDirAt (fun c _ => c.toNat) [s%"tmp"] 7) (tempDirAt (fun c _ => c.toNat) [s%"tmp"] 8) := by
  have := C150_layout_partial (rng := fun c _ => c.toNat) (root := [s%"tmp"]) (clock := fun p => if p = s%"a" then 7 else 8)
    (packages := [s%"a", s%"b"]) (by decide) (by
      intro p hp q hq h
      have h := h 0 (by decide)
      revert h
      simp only [List.mem_cons, List.not_mem_nil, or_false] at hp hq
      rcases hp with rfl | rfl <;> rcases hq with rfl | rfl <;> decide)
  exact this (s%"a") (by decide) (s%"b") (by decide) (by decide)

/-- C150 is violated when two readings of the clock are the same, whatever the generator: the second installation gets the directory of the first,
with everything that is in it. -/
theorem C150_violated_same_time (rng : Int → Nat → Nat) (root : Path) (clock : Int) (fs : Fs) (x : Str) (c : Str) :
    let first := (makeTempDir rng root clock fs).set (tempDirAt rng root clock ++ [x]) (.file c)
    makeTempDir rng root clock first (tempDirAt rng root clock ++ [x]) = some (.file c) ∧
    ¬ EmptyDir (makeTempDir rng root clock first) (tempDirAt rng root clock) := by
  intro first
  have h1 : makeTempDir rng root clock first (tempDirAt rng root clock ++ [x]) = some (.file c) :=
    mkdirAll_dir (by simp [first, Fs.set])
  refine ⟨h1, fun h => ?_⟩
  have := h.2 (tempDirAt rng root clock ++ [x]) (List.prefix_append _ _) (by simp)
  rw [h1] at this
  cases this

/-- C150 is violated when a name has been in use before (pkgr never removes its directories): the user library given to R, which is meant to be empty, has
the packages that are there. -/
theorem C150_violated_in_use (rng : Int → Nat → Nat) (root : Path) (clock : Int) (fs : Fs) (q : Path) (n : Node)
    (hq : tempDirAt rng root clock <+: q) (hne : q ≠ tempDirAt rng root clock) (h : fs q = some n) :
    makeTempDir rng root clock fs q = some n ∧ ¬ EmptyDir (makeTempDir rng root clock fs) (tempDirAt rng root clock) := by
  have h1 : makeTempDir rng root clock fs q = some n := mkdirAll_dir h
  refine ⟨h1, fun he => ?_⟩
  rw [he.2 q hq hne] at h1
  cases h1

/-- C140 is violated by the user libraries too: whatever is run, the directory made for every single R process stays. -/
theorem C140_violated_user_library (rng : Int → Nat → Nat) (root : Path) (clocks : List Int) (fs : Fs)
    (hok : ∀ c ∈ clocks, fs (tempDirAt rng root c) = none ∨ fs (tempDirAt rng root c) = some .dir) :
    ∀ c ∈ clocks, makeTempDirs rng root fs clocks (tempDirAt rng root c) = some .dir := by
  have stay : ∀ (l : List Int) (fs : Fs) (p : Path), fs p = some .dir → makeTempDirs rng root fs l p = some .dir := by
    intro l
    induction l with
    | nil => intro fs p h; exact h
    | cons x l ih => intro fs p h; exact ih _ p (mkdirAll_dir h)
  induction clocks generalizing fs with
  | nil => intro c hc; cases hc
  | cons x l ih =>
    intro c hc
    show makeTempDirs rng root (makeTempDir rng root x fs) l _ = _
    rcases List.mem_cons.1 hc with rfl | hc
    · exact stay l _ _ (mkdirAll_self (hok _ (by simp)))
    · refine ih _ (fun y hy => ?_) c hc
      rcases hok y (by simp [hy]) with h | h
      · unfold makeTempDir Fs.mkdirAll
        split
        · exact .inr rfl
        · exact .inl h
      · exact .inr (mkdirAll_dir h)

/-- A generator for the examples. -/
def tmpRng : Int → Nat → Nat := fun c i => if i = 0 then c.toNat else 3 * i

/-- A concrete case of C150: three readings of the clock. -/
example : Separates tmpRng [5, 6, 7] ∧ [5, 6, (7 : Int)].Nodup ∧
    tempDirAt tmpRng [s%"tmp"] 5 = [s%"tmp", s%"FDGJMPSVYCFI"] ∧ tempDirAt tmpRng [s%"tmp"] 6 = [s%"tmp", s%"GDGJMPSVYCFI"] := by
  refine ⟨?_, by decide, by decide, by decide⟩
  intro c hc c' hc' h
  have h0 := h 0 (by omega)
  simp only [List.mem_cons, List.not_mem_nil, or_false] at hc hc'
  rcases hc with rfl | rfl | rfl <;> rcases hc' with rfl | rfl | rfl <;> first | rfl | (exfalso; revert h0; decide)

/-- A concrete case of `C150_violated_in_use`. -/
example : ¬ EmptyDir (makeTempDir tmpRng [s%"tmp"] 5 fun q => if q = [s%"tmp", s%"FDGJMPSVYCFI", s%"rlang"] then some .dir else none)
    (tempDirAt tmpRng [s%"tmp"] 5) :=
  (C150_violated_in_use tmpRng [s%"tmp"] 5 _ [s%"tmp", s%"FDGJMPSVYCFI", s%"rlang"] .dir (by decide) (by decide) (by decide)).2

end Pkgr
