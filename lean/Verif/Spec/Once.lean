/- Vocabulary for property C154: what is built once is not built again. -/
import Verif.Spec.Queue
import Verif.Model.Download

namespace Pkgr.Spec
open Pkgr

/-- The file of `p` is a source package that was downloaded (with the settings `de`) into the package cache, under a usual
name: neither its name nor its version nor R's platform contains a slash, and `tar.gz` does not occur in name and version. -/
structure GotAsSource (e : QEnv) (de : DlEnv) (p : Str) : Prop where
  file : (e.download p).path = .abs (de.dest (e.download p).metadata)
  digest : de.digest = e.ie.digest
  cache : de.base = e.ie.cache
  source : resolveType de.platform (e.download p).metadata.config.type ≠ .binary
  plain : '/' ∉ (e.download p).metadata.package.package ++ (e.download p).metadata.package.version ++ e.ie.rPlatform
  usual : ¬ (s%"tar.gz") <:+: ((e.download p).metadata.package.package ++ s%"_" ++ (e.download p).metadata.package.version)

/-- The place where a run looks for a binary of `p`. -/
def LooksAt (e : QEnv) (p : Str) (b : Path) : Prop := e.ie.cachedBinary (e.download p).metadata = some b

/-- There is a complete binary of `p` where a run looks for it. -/
def BinaryThere (e : QEnv) (Holds : Str → Str → Prop) (p : Str) (fs : Fs) : Prop :=
  ∃ b x, LooksAt e p b ∧ fs b = some (.file x) ∧ Holds p x

end Pkgr.Spec
