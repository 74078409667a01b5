/-
Model of the R processes that `pkgr load` and `pkgr run` start: cmd/load.go:39-62, 156-186, 207-313 (`load` below the
level of the goroutines, which are in Model/Load.lean), cmd/run.go:54-67 and rcmd/RunR.go:18-59. What a process prints
and how it ends is a parameter. Not modelled: logging.
-/
import Verif.Model.Load
import Verif.Model.Settings

namespace Pkgr

/-- An `exec.Cmd`: program, arguments, directory and environment (`none`: that of pkgr itself). -/
structure Proc where
  prog : Str
  args : List Str
  dir : Path
  env : Option (List Str)
deriving Repr, DecidableEq

/-- What a process prints and how it ends. -/
structure ProcOut where
  stdout : Str := []
  stderr : Str := []
  ending : SessionEnd := .zero
deriving Repr, DecidableEq

/-- cmd/load.go:291-305: the process that evaluates an expression. -/
def loadProc (rs : RSettings) (dir : Path) (expr : Str) : Proc :=
  { prog := rs.R false, args := [s%"--slave", s%"--no-restore", s%"-e", expr], dir := dir, env := none }

/-- cmd/load.go:291-313 `runRCmd`: lines of output, lines of the error stream, and the end. -/
def runRCmd (R : Proc → ProcOut) (rs : RSettings) (dir : Path) (expr : Str) (reduced : Bool) : List Str × List Str × SessionEnd :=
  let o := R (loadProc rs dir expr)
  (scanROutput reduced o.stdout, scanROutput false o.stderr, o.ending)

/-- cmd/load.go:209. -/
def libraryExpr (pkg : Str) : Str := s%"library('" ++ pkg ++ s%"')"

/-- cmd/load.go:259. -/
def infoExpr (pkg : Str) : Str := s%"find.package('" ++ pkg ++ s%"'); as.character(packageVersion('" ++ pkg ++ s%"'))"

/-- cmd/load.go:207-287: the two R sessions of a package, as the concurrent part of the model (`attemptLoad`) takes them. -/
def sessionOf (R : Proc → ProcOut) (rs : RSettings) (dir : Path) (pkg : Str) : Session :=
  let o := runRCmd R rs dir (libraryExpr pkg) false
  let i := runRCmd R rs dir (infoExpr pkg) true
  { ending := o.2.2, stdout := joinWith '\n' o.1, stderr := joinWith '\n' o.2.1,
    info := match i.2.2 with | .zero => some i.1 | _ => none }

/-- cmd/load.go:168-186 `getRSessionLibPaths`. -/
def sessionLibPaths (R : Proc → ProcOut) (rs : RSettings) (dir : Path) : List Str :=
  let o := runRCmd R rs dir (s%".libPaths()") true
  if o.2.2 ≠ .zero ∨ o.2.1.length > 0 then [s%"could not retrieve libpaths"] else o.1.map unquote

/-- Go `filepath.Abs` in the directory `cwd`. -/
def absIn (cwd : Path) (s : Str) : Path := if s.head? = some '/' then joinPath [] s else joinPath cwd s

/-- configlib/config.go:174-187 and cmd/root.go:135: the configuration file that is used (`config` is the option
`--config`, empty if it is not given). -/
def configFileUsed (home : Option Str) (cwd : Path) (config : Str) : Path :=
  let c := cleanPath (if config = [] then s%"pkgr.yml" else config)
  absIn cwd ((expandTilde home c).getD [])

/-- cmd/load.go:44-60, after cmd/root.go:141 has changed the directory: where the R sessions of `load` run. -/
def loadDirectory (home : Option Str) (cwd : Path) (config : Str) : Path :=
  let now := dirPath (configFileUsed home cwd config)
  if config = [] then now else absIn now (dirStr config)

/-- configlib/get_customization.go:20-29 `GetPackageCustomizationByName`: the `Env` of the first entry of the package
(an `Env` that is not there is an empty map). -/
def customizationOf (custom : List (List (Str × Option (GoMap Str)))) (pkg : Str) : Option (GoMap Str) :=
  match custom.find? fun m => m.any fun e => e.1 = pkg with
  | some m => (m.find? fun e => e.1 = pkg).map fun e => e.2.getD []
  | none => none

/-- cmd/run.go:56-65: the settings of `pkgr run`. -/
def runSettings (rpath library pkg : Str) (custom : List (List (Str × Option (GoMap Str)))) : RSettings :=
  { rpath := rpath, libPaths := [library],
    pkgEnv := match customizationOf custom pkg with | some env => [(pkg, env)] | none => [] }

/-- rcmd/RunR.go:18-59 `StartR`: the process. -/
def startR (ρ : Order) (tmp : Str) (sys : List Str) (cwd : Path) (rs : RSettings) (pkg : Str) : Proc :=
  { prog := rs.R false, args := [s%"--vanilla"], dir := cwd, env := some (configureEnv ρ 0 tmp sys rs pkg) }

/-- cmd/run.go:54-67 `rRun`: the process that is started, and the status with which pkgr itself ends (the error of
`StartR` is not looked at). -/
def rRun (R : Proc → ProcOut) (ρ : Order) (tmp : Str) (sys : List Str) (cwd : Path) (rpath library pkg : Str)
    (custom : List (List (Str × Option (GoMap Str)))) : Proc × Nat :=
  let p := startR ρ tmp sys cwd (runSettings rpath library pkg custom) pkg
  match (R p).ending with
  | .zero => (p, 0)
  | .nonzero _ => (p, 0)
  | .notRun => (p, 0)

end Pkgr
