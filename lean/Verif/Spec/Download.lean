/- Independent vocabulary for the download properties C45-C47, C82. -/
import Verif.Model.Download

namespace Pkgr.Spec
open Pkgr

/-- The digest of a URL: 12 characters, none of them a path separator. -/
def DigestShape (digest : Str → Str) : Prop := ∀ u, (digest u).length = 12 ∧ '/' ∉ digest u

/-- Names that are single path components and R package names (no underscore). -/
def PlainNames (d : PkgDl) : Prop :=
  '/' ∉ d.config.repo.name ∧ '/' ∉ d.package.package ∧ '/' ∉ d.package.version ∧ '_' ∉ d.package.package

instance (d : PkgDl) : Decidable (PlainNames d) := by unfold PlainNames; infer_instance

/-- States reachable by some interleaving of the downloads `ds`, started in file system `fs`. -/
def DlReach (e : DlEnv) (ds : List PkgDl) (fs : Fs) (s : DlState) : Prop :=
  ∃ evs, e.run ds (e.init fs ds) evs = some s

/-- The package with its type settled: the platform's default type is replaced by what it stands for. -/
def settled (p : Platform) (d : PkgDl) : PkgDl :=
  { config := { repo := d.config.repo, type := resolveType p d.config.type }, package := d.package }

/-- What downloading `d` alone, right after the directories were made, gives. -/
def alone (e : DlEnv) (ds : List PkgDl) (fs : Fs) (d : PkgDl) : Fs × DlResult :=
  e.downloadPackage (e.mkDirs fs ds) (settled e.platform d) (e.dest d)

/-- The entry a result contributes to the table. -/
def entryOf : DlResult → Option Download
  | .ok dl => some dl
  | _ => none

end Pkgr.Spec
