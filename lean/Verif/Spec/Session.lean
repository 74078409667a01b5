/- Independent vocabulary for C113-C115: what R prints, and the R processes of `pkgr load` and `pkgr run`. -/
import Verif.Model.Session
import Verif.Spec.RSettings
import Verif.Spec.Env
import Verif.Spec.Config

namespace Pkgr.Spec
open Pkgr

/-- A row of R's output for a character vector that shows one element: its index in brackets, the element in quotes, and
perhaps blanks. -/
def Row (l x : Str) : Prop :=
  ∃ d n, IsNumeral d ∧ l = '[' :: (d ++ (']' :: ' ' :: '"' :: (x ++ ('"' :: List.replicate n ' '))))

/-- Rows of output, each of which shows one element. -/
inductive Rows : List Str → List Str → Prop where
  | nil : Rows [] []
  | cons {l x : Str} {ls xs : List Str} : Row l x → Rows ls xs → Rows (l :: ls) (x :: xs)

/-- R prints the element as it is: no quote, no line break in it. -/
def Simple (x : Str) : Prop := '"' ∉ x ∧ '\n' ∉ x

instance (x : Str) : Decidable (Simple x) := by unfold Simple; infer_instance

/-- The process that evaluates an expression in the directory `dir`, in the environment that pkgr was started in. -/
def evaluation (prog : Str) (dir : Path) (expr : Str) : Proc :=
  { prog := prog, args := [s%"--slave", s%"--no-restore", s%"-e", expr], dir := dir, env := none }

/-- The entries for a package in the list of customizations, in their order. -/
def entriesOf (custom : List (List (Str × Option (GoMap Str)))) (pkg : Str) : List (Option (GoMap Str)) :=
  (custom.flatten.filter fun e => e.1 = pkg).map Prod.snd

end Pkgr.Spec
