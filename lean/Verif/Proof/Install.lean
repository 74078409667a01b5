/- Lemmas for C41-C48. -/
import Verif.Spec.Install
import Verif.Proof.Base

namespace Pkgr
open Spec

theorem stampFile_other (fs : Fs) (lib : Path) (pkg : Str) (st : Stamp) (p : Path)
    (h : p ≠ lib ++ [pkg, s%"DESCRIPTION"]) : stampFile fs lib pkg st p = fs p := by
  unfold stampFile
  rcases hf : fs (lib ++ [pkg, s%"DESCRIPTION"]) with _ | _ | c
  · simp only
  · simp only
  · simp only [Fs.set, if_neg h]

theorem not_prefix_ext {L tmp q : Path} (h : Apart L tmp) (hq : tmp <+: q) : ¬ L <+: q := by
  intro hL
  rcases List.prefix_or_prefix_of_prefix hL hq with h1 | h1
  · exact h.1 h1
  · exact h.2 h1

/-- `Install` into another library leaves `L` alone. -/
theorem install_other_lib {R : ROracle} {L tmp : Path} (hR : RConfined R L) (hA : Apart L tmp) (cwd : Path)
    (fs : Fs) (pkg : Str) (path : PathArg) (b : Bool) (wd : Option Path) (st : Stamp) (p : Path) (hp : L <+: p) :
    (install R cwd fs pkg path tmp b wd st).fs p = fs p := by
  have hne : tmp ≠ L := by rintro rfl; exact hA.1 (List.prefix_refl _)
  unfold install
  dsimp only
  split
  · rfl
  · split
    · rfl
    · dsimp only
      have h1 : ∀ c : RCall, c.lib = tmp → (R c fs).1 p = fs p := fun c hc => hR c fs p hp (Or.inl (by rw [hc]; exact hne))
      split
      · rw [stampFile_other, h1 _ rfl]
        rintro rfl
        exact not_prefix_ext hA (List.prefix_append _ _) hp
      · exact h1 _ rfl

/-- `Install` into `L` only touches the package and R's lock. -/
theorem install_this_lib {R : ROracle} {L : Path} (hR : RConfined R L) (cwd : Path)
    (fs : Fs) (pkg : Str) (path : PathArg) (b : Bool) (wd : Option Path) (st : Stamp) (p : Path) (hp : L <+: p)
    (h1 : ¬ (L ++ [pkg]) <+: p) (h2 : ¬ (L ++ [lockName pkg]) <+: p) :
    (install R cwd fs pkg path L b wd st).fs p = fs p := by
  unfold install
  dsimp only
  split
  · rfl
  · split
    · rfl
    · dsimp only
      have h3 : ∀ c : RCall, c.lib = L → c.pkg = pkg → (R c fs).1 p = fs p := fun c hc hk =>
        hR c fs p hp (Or.inr (by rw [hk]; exact ⟨h1, h2⟩))
      split
      · rw [stampFile_other, h3 _ rfl rfl]
        rintro rfl
        exact h1 (by rw [show L ++ [pkg, s%"DESCRIPTION"] = (L ++ [pkg]) ++ [s%"DESCRIPTION"] by simp]; exact List.prefix_append _ _)
      · exact h3 _ rfl rfl

theorem install_calls_lib {R : ROracle} {cwd : Path} {fs : Fs} {pkg : Str} {path : PathArg} {lib : Path} {b : Bool}
    {wd : Option Path} {st : Stamp} {c : RCall} (h : c ∈ (install R cwd fs pkg path lib b wd st).calls) :
    c.lib = lib ∧ c.pkg = pkg ∧ c.build = b := by
  unfold install at h
  dsimp only at h
  split at h
  · simp at h
  · split at h
    · simp at h
    · simp at h; subst h; simp

theorem install_calls_length (R : ROracle) (cwd : Path) (fs : Fs) (pkg : Str) (path : PathArg) (lib : Path) (b : Bool)
    (wd : Option Path) (st : Stamp) : (install R cwd fs pkg path lib b wd st).calls.length ≤ 1 := by
  unfold install
  dsimp only
  split
  · simp
  · split <;> simp

theorem mkdirAll_other {fs : Fs} {L tmp p : Path} (h : Apart L tmp) (hp : L <+: p) : fs.mkdirAll tmp p = fs p := by
  unfold Fs.mkdirAll
  rw [if_neg]
  rintro ⟨h1, _⟩
  exact h.1 (hp.trans h1)

theorem mkdirAll_isDir (fs : Fs) (tmp : Path) (h : ∀ c, fs tmp ≠ some (.file c)) : (fs.mkdirAll tmp).isDir tmp = true := by
  unfold Fs.isDir Fs.mkdirAll
  cases hf : fs tmp with
  | none => simp
  | some n =>
    cases n with
    | dir => simp
    | file c => exact absurd hf (h c)

theorem removeAll_other {fs : Fs} {L tmp : Path} {x : Str} {p : Path} (h : Apart L tmp) (hp : L <+: p) :
    fs.removeAll (tmp ++ [x]) p = fs p := by
  unfold Fs.removeAll
  rw [if_neg]
  intro h1
  exact not_prefix_ext h ((List.prefix_append _ _).trans h1) hp

/-- The state after the first pass and its cleanup agrees with the start on `L`. -/
theorem firstPass_same {R : ROracle} {L tmp : Path} (hR : RConfined R L) (hA : Apart L tmp) (cwd : Path)
    (fs : Fs) (pkg : Str) (path : PathArg) (b : Bool) (wd : Option Path) (st : Stamp) (p : Path) (hp : L <+: p) :
    cleanTmp (install R cwd (fs.mkdirAll tmp) pkg path tmp b wd st).fs (tmp ++ [pkg]) p = fs p := by
  unfold cleanTmp
  have h1 := install_other_lib hR hA cwd (fs.mkdirAll tmp) pkg path b wd st p hp
  split
  · rw [removeAll_other hA hp, h1, mkdirAll_other hA hp]
  · rw [h1, mkdirAll_other hA hp]

/-- `Install` reporting success (nil error, exit code 0) has run R successfully. -/
theorem install_success {R : ROracle} {cwd : Path} {fs : Fs} {pkg : Str} {path : PathArg} {lib : Path} {b : Bool}
    {wd : Option Path} {st : Stamp} {r : CmdRet} {Src : Str → Node → Prop} (hI : RInstalls R Src)
    (hsrc : ∀ n, fs (path.resolve (wd.getD cwd)) = some n → Src pkg n)
    (h : (install R cwd fs pkg path lib b wd st).val = some r) (he : r.err = false) (hx : r.exitCode = 0) :
    (install R cwd fs pkg path lib b wd st).fs (lib ++ [pkg]) = some .dir := by
  unfold install at h ⊢
  dsimp only at h ⊢
  split at h
  · simp at h
  · rename_i h0
    rw [if_neg h0]
    split at h
    · simp at h; subst h; simp at hx
    · rename_i h1
      rw [if_neg h1]
      dsimp only at h ⊢
      simp only [Option.some.injEq] at h
      subst h
      split
      · rename_i hok
        rw [stampFile_other]
        · have hex : fs.ex (path.resolve (wd.getD cwd)) = true := by simpa using h1
          obtain ⟨n, hn⟩ := Option.isSome_iff_exists.1 hex
          exact hI _ _ n hok hn (hsrc n hn)
        · simp
      · rename_i hok
        revert he
        cases hr : (R { pkg := pkg, lib := lib, build := b, src := PathArg.resolve (wd.getD cwd) path, workDir := wd.getD cwd } fs).2 with
        | ok => exact absurd hr hok
        | status n => simp [exitOf]
        | notRun => simp [exitOf]

theorem install_codes {R : ROracle} {cwd : Path} {fs : Fs} {pkg : Str} {path : PathArg} {lib : Path} {b : Bool}
    {wd : Option Path} {st : Stamp} {r : CmdRet}
    (h : (install R cwd fs pkg path lib b wd st).val = some r) (he : r.err = false) : r.exitCode = 0 ∨ r.exitCode = 1 := by
  unfold install at h
  dsimp only at h
  split at h
  · simp at h
  · split at h
    · simp only [Option.some.injEq] at h; subst h; simp
    · dsimp only at h
      simp only [Option.some.injEq] at h
      subst h
      revert he
      cases (R { pkg := pkg, lib := lib, build := b, src := PathArg.resolve (wd.getD cwd) path, workDir := wd.getD cwd } fs).2 <;>
        simp [exitOf]

/-- `Install` of an absolute path with a work directory that exists. -/
theorem install_run (R : ROracle) (cwd : Path) (fs : Fs) (pkg : Str) (src lib : Path) (b : Bool) (wd : Path) (st : Stamp)
    (hwd : fs.isDir wd = true) (hex : fs.ex src = true) :
    install R cwd fs pkg (.abs src) lib b (some wd) st =
      { fs := if (R { pkg := pkg, lib := lib, build := b, src := src, workDir := wd } fs).2 = .ok then
          stampFile (R { pkg := pkg, lib := lib, build := b, src := src, workDir := wd } fs).1 lib pkg st
          else (R { pkg := pkg, lib := lib, build := b, src := src, workDir := wd } fs).1,
        calls := [{ pkg := pkg, lib := lib, build := b, src := src, workDir := wd }],
        val := some (exitOf (R { pkg := pkg, lib := lib, build := b, src := src, workDir := wd } fs).2) } := by
  have h1 : (!fs.ex ((PathArg.abs src).resolve ((some wd).getD cwd))) = false := by
    show (!fs.ex src) = false; rw [hex]; rfl
  have h2 : (!fs.isDir ((some wd).getD cwd)) = false := by show (!fs.isDir wd) = false; rw [hwd]; rfl
  unfold install
  dsimp only
  rw [h1, h2]
  simp [PathArg.resolve]
  rfl

/-- `Install` of a missing package file with a work directory that exists. -/
theorem install_missing (R : ROracle) (cwd : Path) (fs : Fs) (pkg : Str) (src lib : Path) (b : Bool) (wd : Path) (st : Stamp)
    (hwd : fs.isDir wd = true) (hex : fs.ex src = false) :
    install R cwd fs pkg (.abs src) lib b (some wd) st =
      { fs := fs, calls := [], val := some { exitCode := 1, err := false } } := by
  have h1 : (!fs.ex ((PathArg.abs src).resolve ((some wd).getD cwd))) = true := by
    show (!fs.ex src) = true; rw [hex]; rfl
  have h2 : (!fs.isDir ((some wd).getD cwd)) = false := by show (!fs.isDir wd) = false; rw [hwd]; rfl
  unfold install
  dsimp only
  rw [h1, h2]
  simp

/-- When the package file exists, a nil error means exit code 0. -/
theorem install_err_of_exists {R : ROracle} {cwd : Path} {fs : Fs} {pkg : Str} {path : PathArg} {lib : Path} {b : Bool}
    {wd : Option Path} {st : Stamp} {r : CmdRet} (hex : fs.ex (path.resolve (wd.getD cwd)) = true)
    (h : (install R cwd fs pkg path lib b wd st).val = some r) (he : r.err = false) : r.exitCode = 0 := by
  unfold install at h
  dsimp only at h
  split at h
  · simp at h
  · split at h
    · rename_i hn; simp [hex] at hn
    · dsimp only at h
      simp only [Option.some.injEq] at h
      subst h
      revert he
      cases (R { pkg := pkg, lib := lib, build := b, src := PathArg.resolve (wd.getD cwd) path, workDir := wd.getD cwd } fs).2 <;>
        simp [exitOf]

end Pkgr

namespace Pkgr

theorem prefix_targz {s : Str} (h : hasPrefix (s ++ s%".tar.gz") (s%"tar.gz") = true) : (s%"tar.gz") <+: s := by
  rw [← hasPrefix_iff]
  match s with
  | [] => simp [hasPrefix] at h
  | [a] => simp [hasPrefix] at h
  | [a, b] => simp [hasPrefix] at h
  | [a, b, c] => simp [hasPrefix] at h
  | [a, b, c, d] => simp [hasPrefix] at h
  | [a, b, c, d, e] => simp [hasPrefix] at h
  | a :: b :: c :: d :: e :: f :: r => simpa [hasPrefix] using h

theorem prefix_dottargz {s : Str} (hs : s ≠ []) (h : hasPrefix (s ++ s%".tar.gz") (s%".tar.gz") = true) :
    (s%".tar.gz") <+: s := by
  rw [← hasPrefix_iff]
  match s with
  | [] => exact absurd rfl hs
  | [a] => simp [hasPrefix] at h
  | [a, b] => simp [hasPrefix] at h
  | [a, b, c] => simp [hasPrefix] at h
  | [a, b, c, d] => simp [hasPrefix] at h
  | [a, b, c, d, e] => simp [hasPrefix] at h
  | [a, b, c, d, e, f] => simp [hasPrefix] at h
  | a :: b :: c :: d :: e :: f :: g :: r => simpa [hasPrefix] using h

theorem replaceFirst_targz (a new : Str) (h : ¬ (s%"tar.gz") <:+: a) :
    replaceFirst (a ++ s%".tar.gz") (s%"tar.gz") new = a ++ s%"." ++ new := by
  induction a with
  | nil => simp [replaceFirst, hasPrefix]
  | cons c a ih =>
    have h1 : hasPrefix (c :: (a ++ s%".tar.gz")) (s%"tar.gz") = false := by
      cases hh : hasPrefix (c :: (a ++ s%".tar.gz")) (s%"tar.gz") with
      | false => rfl
      | true => exact absurd (prefix_targz (s := c :: a) hh).isInfix h
    have h2 : ¬ (s%"tar.gz") <:+: a := fun hi => h (hi.trans (List.suffix_cons c a).isInfix)
    have h3 := ih h2
    simp only [List.cons_append, replaceFirst, h1, Bool.false_eq_true, if_false] at h3 ⊢
    rw [h3]

theorem replaceFirst_dottargz (a new : Str) (h : ¬ (s%".tar.gz") <:+: a) :
    replaceFirst (a ++ s%".tar.gz") (s%".tar.gz") new = a ++ new := by
  induction a with
  | nil => simp [replaceFirst, hasPrefix]
  | cons c a ih =>
    have h1 : hasPrefix (c :: (a ++ s%".tar.gz")) (s%".tar.gz") = false := by
      cases hh : hasPrefix (c :: (a ++ s%".tar.gz")) (s%".tar.gz") with
      | false => rfl
      | true => exact absurd (prefix_dottargz (s := c :: a) (by simp) hh).isInfix h
    have h2 : ¬ (s%".tar.gz") <:+: a := fun hi => h (hi.trans (List.suffix_cons c a).isInfix)
    have h3 := ih h2
    simp only [List.cons_append, replaceFirst, h1, Bool.false_eq_true, if_false] at h3 ⊢
    rw [h3]

/-! Joining paths. -/

/-- An ordinary path component: not empty, not "." or "..", no separator. -/
theorem joinPath_simple (p : Path) (c : Str) (h1 : c ≠ []) (h2 : c ≠ s%".") (h3 : c ≠ s%"..") (h4 : '/' ∉ c) :
    joinPath p c = p ++ [c] := by
  unfold joinPath
  rw [splitOn_of_not_mem _ _ h4]
  simp [joinComp, h1, h2, h3]

/-- A component of length at least three is neither empty nor "." nor "..". -/
theorem joinPath_long (p : Path) (c : Str) (h1 : 3 ≤ c.length) (h4 : '/' ∉ c) : joinPath p c = p ++ [c] := by
  refine joinPath_simple p c ?_ ?_ ?_ h4
  · rintro rfl; simp at h1
  · rintro rfl; simp at h1
  · rintro rfl; simp at h1

end Pkgr
