/- Independent vocabulary for C161: what is found in a library. -/
import Verif.Spec.Control

namespace Pkgr.Spec
open Pkgr

/-- The directory `n` of the library has a DESCRIPTION with this text. -/
def DescriptionText (fs : Fs) (lib : Path) (n t : Str) : Prop :=
  fs.isDir (lib ++ [n]) = true ∧ fs (lib ++ [n, s%"DESCRIPTION"]) = some (.file t)

/-- An item of a dependency field that cannot be read: there is an opening parenthesis, and what is between it and the next
one, without the first closing parenthesis, has no comparison in it or nothing that separates two parts of a version. -/
def MalformedItem (x : Str) : Prop :=
  '(' ∈ x ∧
    let pv := ((x.dropWhile (· ≠ '(')).tail.takeWhile (· ≠ '(')).erase ')'
    ('<' ∉ pv ∧ '>' ∉ pv ∧ ¬ s%"==" <:+: pv) ∨ ('.' ∉ pv ∧ '-' ∉ pv)

/-- The items of the four dependency fields. -/
def allItems (raw : RawDesc) : List Str := raw.imports ++ raw.suggests ++ raw.depends ++ raw.linkingTo

/-- The DESCRIPTIONs of the library, the files that are there, are all written with valid fields. -/
def WellFormedLibrary (fs : Fs) (lib : Path) (names : List Str) : Prop :=
  ∀ n ∈ names, ∀ t, DescriptionText fs lib n t → ∃ fields, (∀ f ∈ fields, f.Valid) ∧ fields ≠ [] ∧ FileOf fields t

/-- Some DESCRIPTION of the library names a dependency that cannot be read. -/
def HasMalformed (fs : Fs) (lib : Path) (names : List Str) : Prop :=
  ∃ n ∈ names, ∃ t fields raw x, DescriptionText fs lib n t ∧ (∀ f ∈ fields, f.Valid) ∧ fields ≠ [] ∧ FileOf fields t ∧
    SaysFields fields raw ∧ x ∈ allItems raw ∧ MalformedItem x

/-- The directory `n` of the library is the package `p`, described by `d`: its DESCRIPTION has fields, the field Package
says `p`, and `d` is what the fields say. -/
def PackageAt (fs : Fs) (lib : Path) (n p : Str) (d : Desc) : Prop :=
  ∃ t fields raw, DescriptionText fs lib n t ∧ (∀ f ∈ fields, f.Valid) ∧ fields ≠ [] ∧ FileOf fields t ∧
    SaysFields fields raw ∧ raw.package = p ∧ p ≠ [] ∧ Describes raw d

end Pkgr.Spec
