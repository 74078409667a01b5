/- Independent vocabulary for C152 and C136: a package directory whose DESCRIPTION can be read. -/
import Verif.Model.Control
import Verif.Spec.Control
import Verif.Spec.Queue
import Verif.Spec.FromYml

namespace Pkgr.Spec
open Pkgr

/-- The directory of `p` has a DESCRIPTION made of fields that can be stamped; it names `p` and a version that is `Good`, and
its dependencies are well-formed (reading it does not panic). -/
def WellWritten (Good : Str → Str → Prop) (p : Str) (D : Path → Option Node) : Prop :=
  D [] = some .dir ∧ p ≠ [] ∧ ∃ gs v, D [s%"DESCRIPTION"] = some (.file (textOf (fieldLines gs))) ∧ Stampable gs ∧
    TextIs gs (s%"Package") p ∧ TextIs gs (s%"Version") v ∧ Good p v ∧ parseDesc (textOf (fieldLines gs)) ≠ .panics

/-- The version is not older than the published one; for what is given as a tarball any version will do. -/
def NotOlder (P : Project) (re : RepoEnv) (x : Extras) (p v : Str) : Prop :=
  ¬ x.Given p → ∃ repo ty o, P.Gets re p repo ty o ∧ compareVersionStrings v o.version ≠ some (-1)

end Pkgr.Spec
