/-
Model of the R processes of an installation as the operating system sees them - program, arguments, directory and
environment: rcmd/install.go:68-156 (`Install`), 266-392 (`InstallThroughBinary`), cmd/install.go:60-62, 105-131, 157-233, and
rcmd/RunR.go:126-147 (`RunRBatch`).  What the processes do is in Model/Install.lean and Model/Queue.lean (`RCall`).
-/
import Verif.Model.Queue
import Verif.Model.Inspect
import Verif.Model.Session
import Verif.Model.Rollback

namespace Pkgr

/-- What the environment of an R process depends on: the order in which Go visits the package's settings, the inherited
environment, the empty directory made for R_LIBS_USER (rcmd/configure.go:80-90), and the operating system (windows?). -/
structure Inherited where
  order : Order
  visit : Nat
  sys : List Str
  userDir : Str
  windows : Bool

/-- rcmd/install.go:120-151: the process `Install` starts. -/
def rCmdInstall (x : Inherited) (rs : RSettings) (pkg : Str) (args : InstallArgs) (dir : Path) (path : Str) : Proc :=
  { prog := rs.R x.windows, args := rArgs args path, dir := dir,
    env := some (configureEnv x.order x.visit x.userDir x.sys rs pkg) }

/-- cmd/install.go:60, 117: the settings with which the packages are installed. -/
def installSettings (rpath : Str) (custom : List (List (Str × Option (GoMap Str)))) : RSettings :=
  { rpath := rpath, pkgEnv := setCustomizations [] custom }

/-- Which of the three calls of `Install` (rcmd/install.go:283-295, 341-347, 382-389) this is. -/
def Pass.argPass : Pass → ArgPass
  | .cached _ => .cached
  | .build => .build
  | .final _ => .final

/-- rcmd/install.go:326: when a package is built, the library is added to the library paths of the settings, for the building
pass and the one that follows; line 285-294: not for a binary found in the cache. -/
def passSettings (rs : RSettings) (lib : Str) : Pass → RSettings
  | .cached _ => rs
  | _ => { rs with libPaths := rs.libPaths ++ [lib] }

/-- rcmd/install.go:266-392 and cmd/install.go:105-106, 122-131: the R process of a pass in the installation of `p`. -/
def QEnv.rProc (e : QEnv) (x : Inherited) (rs : RSettings) (p : Str) (k : Pass) : Proc :=
  rCmdInstall x (passSettings rs (pathStr e.lib) k) p
    (passArgs { defaultInstallArgs with library := pathStr e.lib } (pathStr (e.tmp p)) (pathStr e.lib) k.argPass)
    (e.rcall p k).workDir (pathStr (e.rcall p k).src)

/-- cmd/install.go:162-214: the R process that installs a tarball. -/
def RunEnv.tarballProc (e : RunEnv) (x : Inherited) (rs : RSettings) (lib : Path) (name : Str) (a : AdditionalPkg) : Proc :=
  rCmdInstall x rs name { defaultInstallArgs with library := pathStr lib } (dirPath (absPath e.ie.cwd a.installPath))
    (pathStr (absPath e.ie.cwd a.installPath))

/-- rcmd/Rsettings.go:57, rcmd/RunR.go:126-147: the process that is asked for the version (no directory is given, so it is that of
pkgr). -/
def versionProc (x : Inherited) (rs : RSettings) (cwd : Path) : Proc :=
  { prog := rs.R x.windows, args := [s%"--version"], dir := cwd,
    env := some (configureEnv x.order x.visit x.userDir x.sys rs []) }

end Pkgr
