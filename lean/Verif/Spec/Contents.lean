/- Vocabulary for C166: what a tarball is installed from. -/
import Verif.Spec.RSettings
import Verif.Model.Tarballs

namespace Pkgr.Spec
open Pkgr

/-- In the directory there are the regular files of the archive, with their contents, and no other files. -/
def ExactlyHas (fs : Fs) (dir : Path) (entries : List Entry) : Prop :=
  ∀ q c, dir <+: q → (fs q = some (.file c) ↔ ∃ e ∈ entries, e.kind = .regular c ∧ Leads dir e.name q)

/-- The same file, read at different times. -/
def SameTarball (t t' : Tarball) : Prop := t'.bytes = t.bytes ∧ t'.entries.map Prod.fst = t.entries.map Prod.fst

/-- What may happen between two runs, and in earlier runs: the tarball is unpacked without error, or something happens outside its directory in the cache
(`dir`). -/
inductive Lived (digest : Str → Str) (names : List Str) (cache : Path) (t : Tarball) : Fs → Fs → Prop where
  | begin {fs : Fs} : Lived digest names cache t fs fs
  | unpacked {fs fs1 : Fs} {t' : Tarball} {p : Path} : Lived digest names cache t fs fs1 → SameTarball t t' →
      (untar digest names fs1 cache t').2 = .folder p → Lived digest names cache t fs (lastState fs1 (untar digest names fs1 cache t').1)
  | elsewhere {fs fs1 fs2 : Fs} : Lived digest names cache t fs fs1 → (∀ q, cache ++ [digest t.bytes] <+: q → fs2 q = fs1 q) → Lived digest names cache t fs fs2

end Pkgr.Spec
