/- Model of the names of temporary directories: rcmd/utils.go:15-23 with rcmd/install.go:297-304 (the directory in which a package is
built) and rcmd/configure.go:80-91 (the user library given to every R process). -/
import Verif.Model.Fs

namespace Pkgr

/-- rcmd/utils.go:15-23 `randomString`.  `rng seed i`: the number the generator with this seed draws as the i-th one; `Intn(25)` reduces it.  The
seed is the clock (nanoseconds). -/
def randomString (rng : Int → Nat → Nat) (clock : Int) (len : Nat) : Str :=
  (List.range len).map fun i => Char.ofNat (65 + rng clock i % 25)

/-- rcmd/install.go:297-300, rcmd/configure.go:80-83: the directory.  `root` is `os.TempDir()`. -/
def tempDirAt (rng : Int → Nat → Nat) (root : Path) (clock : Int) : Path := root ++ [randomString rng clock 12]

/-- rcmd/install.go:300, rcmd/configure.go:85: `MkdirAll`, which is content with a directory that is there already. -/
def makeTempDir (rng : Int → Nat → Nat) (root : Path) (clock : Int) (fs : Fs) : Fs := fs.mkdirAll (tempDirAt rng root clock)

/-- Making one temporary directory after the other, at these readings of the clock; none of them is ever removed by pkgr. -/
def makeTempDirs (rng : Int → Nat → Nat) (root : Path) (fs : Fs) (clocks : List Int) : Fs :=
  clocks.foldl (fun fs c => makeTempDir rng root c fs) fs

end Pkgr
