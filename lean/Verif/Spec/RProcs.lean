/- Independent vocabulary for C157 and C158: what a process makes of its program's name and of its library variables. -/
import Verif.Model.RProcs
import Verif.Spec.RSettings
import Verif.Spec.Env

namespace Pkgr.Spec
open Pkgr

/-- The process runs the file `f`: a program name with a slash in it is a path, followed from the directory of the process;
one without is looked up in PATH (`which`). -/
def Executes (which : Str → Option Path) (pr : Proc) (f : Path) : Prop :=
  if '/' ∈ pr.prog then Leads pr.dir pr.prog f else which pr.prog = some f

/-- What the process finds in the variable `n` of its environment. -/
def Sees (pr : Proc) (n : Str) : Option Str := pr.env.bind fun env => seen env n

/-- The directories that R takes from the variable `n` (separated by colons); if the variable is not there R uses its own
default. -/
def Libraries (pr : Proc) (n : Str) (dirs : List Str) : Prop := ∃ v, Sees pr n = some v ∧ Components ':' v dirs

end Pkgr.Spec
