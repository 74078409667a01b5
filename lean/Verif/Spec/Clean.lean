/- Specification vocabulary for cleaning the cache (C72-C74). -/
import Verif.Model.Fs
import Verif.Spec.Env

namespace Pkgr.Spec

/-- A real file system: what exists has a directory around it. -/
def TreeFs (fs : Fs) : Prop := ∀ (p : Path) (n : Str), fs (p ++ [n]) ≠ none → fs p = some .dir

/-- `names` contains every file name that occurs. -/
def AllNames (names : List Str) (fs : Fs) : Prop := ∀ (p : Path) (n : Str), fs (p ++ [n]) ≠ none → n ∈ names

/-- `x` is one of the items of a comma-separated text. -/
def CommaItem (text x : Str) : Prop := ∃ l : List Str, l ≠ [] ∧ (∀ y ∈ l, ',' ∉ y) ∧ separated ',' l = text ∧ x ∈ l

/-- The option `--repos` selects this repository. -/
def SelectsRepo (opt r : Str) : Prop := opt = s%"ALL" ∨ CommaItem opt r

/-- The flags select this kind of files. -/
def SelectsKind (srcOnly binariesOnly : Bool) (k : Str) : Prop :=
  (k = s%"src" ∧ binariesOnly = false) ∨ (k = s%"binary" ∧ srcOnly = false)

/-- A path below `<cache>/<repository>/<kind>`, for a repository folder and a kind that are selected. -/
def SelectedBelow (fs : Fs) (cache : Path) (R K : Str → Prop) (q : Path) : Prop :=
  ∃ r k, cache ++ [r, k] <+: q ∧ fs (cache ++ [r]) = some .dir ∧ R r ∧ K k

/-- A selected repository folder that has nothing in it but selected kinds. -/
def EmptiedFolder (fs : Fs) (cache : Path) (R K : Str → Prop) (q : Path) : Prop :=
  ∃ r, q = cache ++ [r] ∧ fs (cache ++ [r]) = some .dir ∧ R r ∧ ∀ n, fs (q ++ [n]) ≠ none → K n

end Pkgr.Spec
