/- Independent vocabulary for C140: R and the temporary directory of an installation. -/
import Verif.Spec.Install

namespace Pkgr.Spec
open Pkgr

/-- R's contract with respect to a temporary directory: R neither removes the directory nor replaces it, and an R CMD
INSTALL that neither installs into it nor builds changes nothing in it; what it has of a package in the directory is a
directory tree. -/
structure RTidy (R : ROracle) (tmp : Path) : Prop where
  stays : ∀ c fs, fs tmp = some .dir → (R c fs).1 tmp = some .dir
  others : ∀ c fs p, tmp <+: p → c.lib ≠ tmp → c.build = false → (R c fs).1 p = fs p
  tree : ∀ c fs p, c.lib = tmp → (tmp ++ [c.pkg]) <+: p → (R c fs).1 p ≠ none → (R c fs).1 (tmp ++ [c.pkg]) = some .dir

/-- Is the package built, that is: it is neither installed, nor is its binary in the cache? -/
def Builds (e : InstallEnv) (fs : Fs) (ir : InstallReq) : Prop :=
  fs (ir.lib ++ [ir.pkg]) ≠ some .dir ∧ ∃ bp, e.cachedBinary ir.download.metadata = some bp ∧ fs bp = none

end Pkgr.Spec
