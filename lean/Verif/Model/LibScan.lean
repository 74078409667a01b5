/- Model of pacman/utils.go:16-48 and 87-109 (`GetPriorInstalledPackages`, `scanInstalledPackage`) together with the reader
of DESCRIPTION files, as the code has it: a malformed dependency makes `desc.ParseDesc` panic, and nothing recovers. -/
import Verif.Model.Control
import Verif.Model.Rollback

namespace Pkgr

/-- pacman/utils.go:87-109 `scanInstalledPackage`, for the file at the path.  Outer `none`: the program panics (inside
desc.ParseDesc); inner `none`: an error is returned. -/
def scanInstalledPackage (fs : Fs) (file : Path) : Option (Option Desc) :=
  match fs file with
  | some (.file c) =>
    match parseDesc c with
    | .panics => none
    | .error => some none
    | .ok d => if d.package = [] then some none else some (some d)
  | _ => some none

/-- pacman/utils.go:29-45: the loop over the directories of the library (goutils.ListDirNames keeps the directories only).
`none`: the program panics. -/
def readLibraryFrom (fs : Fs) (lib : Path) : List Str → GoMap Desc → Option (GoMap Desc)
  | [], m => some m
  | n :: ns, m =>
    if fs.isDir (lib ++ [n]) then
      match scanInstalledPackage fs (lib ++ [n, s%"DESCRIPTION"]) with
      | none => none
      | some none => readLibraryFrom fs lib ns m
      | some (some d) => readLibraryFrom fs lib ns (GoMap.put m d.package d)
    else readLibraryFrom fs lib ns m

/-- pacman/utils.go:16-48 `GetPriorInstalledPackages`, called by cmd/plan.go:107 and pacman/utils.go:72; `names`: what
`Readdir` lists (nothing if the library cannot be opened).  `none`: the program panics. -/
def readLibrary (fs : Fs) (lib : Path) (names : List Str) : Option (GoMap Desc) := readLibraryFrom fs lib names []

end Pkgr
