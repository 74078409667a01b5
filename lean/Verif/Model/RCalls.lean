/-
Model of the R processes a command starts before the installations: the version question (rcmd/Rsettings.go) and the question
to renv (configlib/config.go), up to the first settings object of the command itself.
Left out: the environment of these processes (C63 - C66 treat it), the platform in the library's name (C102).
-/
import Verif.Model.Env
import Verif.Model.Settings

namespace Pkgr

/-- A process started: the executable and what it is for. -/
inductive RQuery where
  | version (exe : Str)
  | renv (exe : Str)
deriving Repr, DecidableEq

/-- rcmd/structs.go:22-30: the part of `RSettings` that changes, and the processes started so far. -/
structure RState where
  rpath : Str
  version : RVer := (0, 0, 0)
  platform : Str := []
  calls : List RQuery := []
deriving Repr, DecidableEq

/-- rcmd/Rsettings.go:55-65 `GetRVersion` (`none`: the program ends). `answer`: what the executable prints as the n-th process
(`none`: it could not be run, or failed). `ToString` is "0.0" exactly if both numbers are zero. -/
def getRVersion (windows : Bool) (answer : Nat → Str → Option Str) (st : RState) : Option (RVer × RState) :=
  if st.version.1 = 0 ∧ st.version.2.1 = 0 then
    let exe := ({ rpath := st.rpath : RSettings }).R windows
    match answer st.calls.length exe with
    | none => none
    | some out =>
      match parseVersionData out with
      | none => none
      | some (v, p) => some (v, { st with version := v, platform := p, calls := st.calls ++ [.version exe] })
  else some (st.version, st)

/-- rcmd/Rsettings.go:16-25 `NewRSettings`. -/
def newRSettings (windows : Bool) (answer : Nat → Str → Option Str) (calls : List RQuery) (rpath : Str) : Option RState :=
  (getRVersion windows answer { rpath := rpath, calls := calls }).map Prod.snd

/-- Successive calls of `GetRVersion` on one settings object: the versions returned. -/
def askVersions (windows : Bool) (answer : Nat → Str → Option Str) : Nat → RState → Option (List RVer × RState)
  | 0, st => some ([], st)
  | n + 1, st =>
    match getRVersion windows answer st with
    | none => none
    | some (v, st) => (askVersions windows answer n st).map fun r => (v :: r.1, r.2)

/-- configlib/config.go:47-51, 112-121, 152-170: the R processes of `NewConfig`: if no library is configured, the version is asked
for, twice for want of a "R version" line; for renv a second settings object is made and Rscript is run. (`none`: the program
ends.) `rpath`: as in the configuration. -/
def configCalls (windows : Bool) (answer : Nat → Str → Option Str) (rpath : Str) (s : LibrarySources) : Option (List RQuery) :=
  if configuredLibrary s = [] then
    match newRSettings windows answer [] rpath with
    | none => none
    | some st =>
      match getRVersion windows answer st with
      | none => none
      | some (_, st) =>
        if s.lockfile = s%"renv" then
          (newRSettings windows answer st.calls rpath).map fun st =>
            st.calls ++ [.renv (convertToRscript (({ rpath := rpath : RSettings }).R windows))]
        else some st.calls
  else some []

/-- configlib/config.go:47-56 and the first lines of cmd/install.go:60-61, cmd/plan.go:69-70, cmd/inspect.go:90-91, cmd/load.go:42,
cmd/run.go:56, cmd/cleanPkgdb.go:87: `NewConfig`, then the command's own settings, made with the path in which the tilde has been
expanded. (`none`: the program ends.) -/
def commandStart (windows : Bool) (answer : Nat → Str → Option Str) (home : Option Str) (rpath : Str) (s : LibrarySources) : Option RState :=
  match configCalls windows answer rpath s with
  | none => none
  | some calls =>
    match expandTilde home rpath with
    | none => none
    | some rp => newRSettings windows answer calls rp

end Pkgr
