/- Independent vocabulary for `pkgr inspect`, `pkgr load` and the R command line (C95-C99). -/
import Verif.Model.Inspect
import Verif.Spec.Plan

namespace Pkgr.Spec
open Pkgr

/-- Following `path` down from the branches `ts` leads to a branch whose own branches are `ks`. -/
inductive Below : List DepTree → List Str → List DepTree → Prop
  | here (ts : List DepTree) : Below ts [] ts
  | down {ts ks ks' : List DepTree} {n : Str} {path : List Str} :
      DepTree.node n ks ∈ ts → Below ks path ks' → Below ts (n :: path) ks'

/-- There is a line for the branch reached by `path`. -/
def Shown (ts : List DepTree) (path : List Str) : Prop := path ≠ [] ∧ ∃ ks, Below ts path ks

/-- The names are distinct and in alphabetical order. -/
def Alphabetical (l : List Str) : Prop := l.Nodup ∧ l.Pairwise (fun x y => strLe x y = true)

/-- Each package of the list needs the next one, directly or not. -/
def NeedsChain (needs : Str → Str → Prop) : List Str → Prop
  | [] => True
  | [_] => True
  | a :: b :: l => Relation.TransGen needs a b ∧ NeedsChain needs (b :: l)

/-- The options of an installation, as the user of R knows them. -/
def rOptions (i : InstallArgs) : List (Bool × Str) :=
  [(i.clean, s%"--clean"), (i.preclean, s%"--preclean"), (i.debug, s%"--debug"), (i.noConfigure, s%"--no-configure"),
   (i.example_, s%"--example"), (i.fake, s%"--fake"), (i.build, s%"--build"), (i.installTests, s%"--install-tests"),
   (i.noMultiarch, s%"--no-multiarch"), (i.withKeepSource, s%"--with-keep.source"), (i.byteCompile, s%"--byte-compile"),
   (i.noTestLoad, s%"--no-test-load"), (i.noCleanOnError, s%"--no-clean-on-error")]

end Pkgr.Spec
