/- Independent vocabulary for C106-C107. -/
import Verif.Model.Tarballs
import Verif.Spec.Rollback

namespace Pkgr.Spec
open Pkgr

/-- The last of a list's elements with a given key. -/
def LastWith {α : Type} (key : α → Str) (l : List α) (k : Str) (x : α) : Prop :=
  ∃ pre post, l = pre ++ x :: post ∧ key x = k ∧ ∀ y ∈ post, key y ≠ k

/-- A configured tarball: the path in the configuration, the file, the folder its package was unpacked to and the
package's DESCRIPTION. -/
structure TarballRow where
  path : Str
  tarball : Tarball
  folder : Path
  desc : Desc

/-- The folder of the row is the first directory (in the order of `names`) in the tarball's own directory in the cache,
and holds the DESCRIPTION. -/
structure TarballRow.In (r : TarballRow) (digest : Str → Str) (names : List Str) (parse : Str → Option Desc) (cache : Path) (fs : Fs) : Prop where
  place : ∃ before n after, names = before ++ n :: after ∧ r.folder = cache ++ [digest r.tarball.bytes, n] ∧
    fs (cache ++ [digest r.tarball.bytes, n]) = some .dir ∧ ∀ m ∈ before, fs (cache ++ [digest r.tarball.bytes, m]) ≠ some .dir
  description : ∃ text, fs (r.folder ++ [s%"DESCRIPTION"]) = some (.file text) ∧ parse text = some r.desc

/-- R's promise about tarballs, if they are to be independent of each other: whether R installs the package `n` only
depends on whether the packages in `needs n` are in the library, and R changes nothing but the package's own directory
and lock in the library, and nothing outside. -/
structure NeedsOnly (R : ROracle) (lib : Path) (needs : Str → List Str) : Prop where
  succeeds : ∀ c fs, c.lib = lib → ((R c fs).2 = .ok ↔ ∀ d ∈ needs c.pkg, fs (lib ++ [d]) = some .dir)
  confined : ∀ c fs q, c.lib = lib → ¬ (lib ++ [c.pkg]) <+: q → ¬ (lib ++ [lockName c.pkg]) <+: q → (R c fs).1 q = fs q

end Pkgr.Spec
