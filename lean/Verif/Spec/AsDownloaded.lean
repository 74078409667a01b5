/- Vocabulary of C156: a computer, and how R names what it builds. -/
import Verif.Model.Download

namespace Pkgr.Spec
open Pkgr

/-- Downloads and installations take place on the same computer: the same cache, version of R and platform. -/
structure OneComputer (e : InstallEnv) (de : DlEnv) : Prop where
  digest : de.digest = e.digest
  cache : de.base = e.cache
  rv : de.rv = e.rv
  platform : de.platform = e.platform

/-- The platform string that the binaries of a repository for Linux are expected to carry. -/
def linuxPlatform (rhel : Bool) : Str := if rhel then s%"x86_64-redhat-linux-gnu" else s%"x86_64-pc-linux-gnu"

/-- R builds in the directory it works in, changes nothing elsewhere, and leaves there, besides what was there before and the
directory of the package, only the file `<package>_<version>_R_<platform>.tar.gz`. -/
def NamesBuilt (R : ROracle) (version platform : Str) : Prop := ∀ c fs, c.build = true → c.workDir = c.lib →
  (∀ q, ¬ c.lib <+: q → (R c fs).1 q = fs q) ∧
  ((R c fs).2 = .ok → ∀ x, (R c fs).1 (c.lib ++ [x]) ≠ none →
    fs (c.lib ++ [x]) ≠ none ∨ x = c.pkg ∨ x = c.pkg ++ s%"_" ++ version ++ s%"_R_" ++ platform ++ s%".tar.gz")

end Pkgr.Spec
