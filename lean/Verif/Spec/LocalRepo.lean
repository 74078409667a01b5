/- Independent vocabulary for C149. -/
import Verif.Model.LocalRepo
import Verif.Spec.PkgDb
import Verif.Spec.RSettings

namespace Pkgr.Spec
open Pkgr

/-- The repository is given as the directory `d`: by its absolute path, or by its path as seen from the directory of the
configuration file; the text does not begin like a URL or with `~` (which has been replaced when the configuration was read). -/
def GivenAs (m : Computer) (url : Str) (d : Path) : Prop :=
  url ≠ [] ∧ ¬ s%"http" <+: url ∧ url.head? ≠ some '~' ∧ Leads m.cwd url d

/-- There is no such file, and all that is on the way to it are directories or nothing. -/
def Missing (m : Computer) (p : Path) : Prop := m.fs p = none ∧ ∀ q c, q <+: p → m.fs q ≠ some (.file c)

/-- The user can read the file, and this is in it. -/
def HasText (m : Computer) (p : Path) (b : Str) : Prop := m.fs p = some (.file b) ∧ m.readable p = true

end Pkgr.Spec
