/-
Model of the commands that edit the configuration file: cmd/add.go:48-71, cmd/remove.go:40-60 with configlib/config.go:239-278
and configlib/add_package.go:17-47, on a file system and with every state in which the program may be interrupted. The
edits themselves are in Model/Config.lean. Assumption on a dependency: `goutils.WriteLines` (like `afero.WriteFile`)
opens the file itself with truncation and then writes. Simplification: characters, not bytes, are written one after the
other. Not modelled: logging, time.
-/
import Verif.Model.Config
import Verif.Model.Session

namespace Pkgr

/-- configlib/add_package.go:19-21, configlib/config.go:240, 250-252: the file that is edited: `viper.ConfigFileUsed()`
(configlib/config.go:186-187, possibly a relative path), opened after cmd/root.go:141 has changed the directory. -/
def editedFile (home : Option Str) (cwd : Path) (config : Str) : Path :=
  let used := (expandTilde home (cleanPath (if config = [] then s%"pkgr.yml" else config))).getD []
  absIn (dirPath (configFileUsed home cwd config)) used

/-- Writing a file: it is truncated, then filled. The states that follow, the last one last. -/
def writeStates (fs : Fs) (p : Path) (content : Str) : List Fs :=
  (List.range (content.length + 1)).map fun k => fs.set p (.file (content.take k))

/-- How a command ends. -/
inductive CmdEnd where
  | ok
  | help
  | fatal
  | panic
deriving Repr, DecidableEq

/-- cmd/add.go:48-71 `rAdd` without `--install`: the states after the first one, and the end. -/
def rAdd (yaml : Str → Option (List Str)) (file : Path) (args : List Str) (fs : Fs) : List Fs × CmdEnd :=
  if args = [] then ([], .help)
  else
    match fs file with
    | some (.file c) =>
      match addPackages yaml c args with
      | .error => ([], .fatal)
      | .panic => ([], .panic)
      | .written c' => (writeStates fs file c', .ok)
    | _ => ([], .fatal)

/-- cmd/remove.go:51-56: one argument after the other. -/
def removeArgs (file : Path) : List Str → Fs → List Fs × CmdEnd
  | [], _ => ([], .ok)
  | a :: as, fs =>
    match fs file with
    | some (.file c) =>
      let new := removePackage c a
      let r := removeArgs file as (fs.set file (.file new))
      (writeStates fs file new ++ r.1, r.2)
    | _ => ([], .fatal)

/-- cmd/remove.go:40-60 `rRemove`: the states after the first one, and the end. -/
def rRemove (file : Path) (args : List Str) (fs : Fs) : List Fs × CmdEnd :=
  if args = [] then ([], .help) else removeArgs file args fs

/-- cmd/add.go:63-65: with `--install` the configuration is read again; the file that is read. -/
def rereadFile (home : Option Str) (cwd : Path) (config : Str) : Path :=
  configFileUsed home (dirPath (configFileUsed home cwd config)) config

/-- The state after all the others. -/
def finalState (fs : Fs) (l : List Fs) : Fs := l.getLast?.getD fs

end Pkgr
