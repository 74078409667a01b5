/- Independent vocabulary for C79 and C80. -/
import Verif.Model.Base
import Verif.Spec.Version
import Verif.Spec.Text

namespace Pkgr.Spec
open Pkgr

/-- Following one path component from a directory: an empty one or `.` stays, `..` goes up, a name goes down. -/
inductive Step : List Str → Str → List Str → Prop where
  | stay {d : List Str} {c : Str} : c = [] ∨ c = s%"." → Step d c d
  | up {d : List Str} {x : Str} : Step (d ++ [x]) (s%"..") d
  | top : Step [] (s%"..") []
  | down {d : List Str} {c : Str} : c ≠ [] → c ≠ s%"." → c ≠ s%".." → Step d c (d ++ [c])

/-- Following path components one after the other. -/
inductive Walk : List Str → List Str → List Str → Prop where
  | done {d : List Str} : Walk d [] d
  | step {d d' e : List Str} {c : Str} {cs : List Str} : Step d c d' → Walk d' cs e → Walk d (c :: cs) e

/-- The path text `p`, used in the directory `cwd`, denotes the file with the absolute path `e` (no symbolic links). -/
def Leads (cwd : List Str) (p : Str) (e : List Str) : Prop :=
  ∃ cs, Components '/' p cs ∧ Walk (if p.head? = some '/' then [] else cwd) cs e

/-- The line without a line number `[1]` at its start. -/
def withoutNo (l : Str) : Str :=
  let ds := (l.drop 1).takeWhile fun c => '0'.toNat ≤ c.toNat ∧ c.toNat ≤ '9'.toNat
  if l.head? = some '[' ∧ ds ≠ [] ∧ (l.drop (1 + ds.length)).head? = some ']' then l.drop (2 + ds.length) else l

/-- The line of R output `l` says `t`: line number and white space at the ends taken away. -/
def Says (l t : Str) : Prop := Stripped (withoutNo l) t

/-- A line of output that says nothing about the version, and in which a platform, if announced, is given. -/
def OtherLine (l : Str) : Prop :=
  '\n' ∉ l ∧ l.getLast? ≠ some '\r' ∧ ∀ t, Says l t → ¬ (s%"R version") <+: t ∧ ((s%"Platform:") <+: t → ' ' ∈ t)

/-- A line of output that says nothing about version and platform. -/
def IdleLine (l : Str) : Prop :=
  '\n' ∉ l ∧ l.getLast? ≠ some '\r' ∧ ∀ t, Says l t → ¬ (s%"R version") <+: t ∧ ¬ (s%"Platform:") <+: t

/-- Nothing, or a blank and text that does not end with white space. -/
def Remark (t : Str) : Prop := t = [] ∨ ∃ r x, t = ' ' :: (r ++ [x]) ∧ ¬ White x ∧ '\n' ∉ r

end Pkgr.Spec
