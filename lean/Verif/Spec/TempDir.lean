/- Independent vocabulary for C150. -/
import Verif.Model.TempDir
import Verif.Spec.Install

namespace Pkgr.Spec
open Pkgr

/-- An empty directory. -/
def EmptyDir (fs : Fs) (p : Path) : Prop := fs p = some .dir ∧ ∀ q, p <+: q → q ≠ p → fs q = none

/-- The generator draws different names at different readings of the clock. -/
def Separates (rng : Int → Nat → Nat) (clocks : List Int) : Prop :=
  ∀ c ∈ clocks, ∀ c' ∈ clocks, (∀ i, i < 12 → rng c i % 25 = rng c' i % 25) → c = c'

end Pkgr.Spec
