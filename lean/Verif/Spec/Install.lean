/- Independent vocabulary for the installation properties C41-C48. -/
import Verif.Model.Install

namespace Pkgr.Spec
open Pkgr

/-- Neither path is inside the other. -/
def Apart (a b : Path) : Prop := ¬ a <+: b ∧ ¬ b <+: a

instance (a b : Path) : Decidable (Apart a b) := by unfold Apart; infer_instance

/-- The lock directory R uses while installing `pkg` (R's own convention). -/
def lockName (pkg : Str) : Str := s%"00LOCK-" ++ pkg

/-- R's contract with respect to the library `L`: an R CMD INSTALL into another library changes nothing in
`L`, and one into `L` changes only the directory of the package it installs (and its lock). -/
def RConfined (R : ROracle) (L : Path) : Prop :=
  ∀ c fs p, L <+: p →
    (c.lib ≠ L ∨ (¬ (L ++ [c.pkg]) <+: p ∧ ¬ (L ++ [lockName c.pkg]) <+: p)) → (R c fs).1 p = fs p

/-- R's contract on success: an R CMD INSTALL that is given a package file of its package (`Src p n`: `n` is one of
`p`) and exits with status 0 has installed the package. -/
def RInstalls (R : ROracle) (Src : Str → Node → Prop) : Prop :=
  ∀ c fs n, (R c fs).2 = .ok → fs c.src = some n → Src c.pkg n → (R c fs).1 (c.lib ++ [c.pkg]) = some .dir

/-- ... and if it was told to build, what is in the place of the binary is a binary of the package. -/
def RBuilds (e : InstallEnv) (Src : Str → Node → Prop) : Prop :=
  ∀ c fs n, (e.R c fs).2 = .ok → c.build = true → fs c.src = some n → Src c.pkg n →
    ∀ bbp n', binaryExtOs e.platform.os (basePath c.src) e.rPlatform = some bbp →
      (e.R c fs).1 (c.workDir ++ [bbp]) = some n' → Src c.pkg n'

/-- `fs'` agrees with `fs` on everything inside `L`. -/
def SameIn (L : Path) (fs fs' : Fs) : Prop := ∀ p, L <+: p → fs' p = fs p

/-- Does the build of the package fail?  That is: R's first call, into the temporary directory, does not exit
with status 0. -/
def BuildFails (e : InstallEnv) (tmp : Path) (fs : Fs) (ir : InstallReq) : Prop :=
  ∃ x, (e.R { pkg := ir.pkg, lib := tmp, build := true, src := ir.download.path.resolve e.cwd, workDir := tmp }
    (fs.mkdirAll tmp)).2 = x ∧ x ≠ .ok

/-! DESCRIPTION files -/

/-- A line that is neither about pkgr nor about the repository. -/
def otherLine (l : Str) : Prop :=
  ¬ (s%"PkgrVersion:") <:+: l ∧ ¬ (s%"PkgrInstallType:") <:+: l ∧ ¬ (s%"PkgrRepositoryURL") <:+: l ∧
  ¬ (s%"Repository:") <+: l ∧ ¬ (s%"OriginalRepository:") <+: l

instance (l : Str) : Decidable (otherLine l) := by unfold otherLine; infer_instance

/-- The other lines of a DESCRIPTION, in order. -/
def otherLines (ls : List Str) : List Str := ls.filter (fun l => decide (otherLine l))

/-- A text free of the three pkgr markers. -/
def NoMarker (l : Str) : Prop :=
  ¬ (s%"PkgrVersion:") <:+: l ∧ ¬ (s%"PkgrInstallType:") <:+: l ∧ ¬ (s%"PkgrRepositoryURL") <:+: l

instance (l : Str) : Decidable (NoMarker l) := by unfold NoMarker; infer_instance

end Pkgr.Spec
