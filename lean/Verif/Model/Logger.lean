/-
Model of what pkgr says, where and when: logger/logger.go (all of it but the formatter's fields), the calls of it in
cmd/root.go:111-143, cmd/add.go:48-75, cmd/remove.go:40-64, cmd/clean.go:53-76, cmd/install.go:55-58 and 276-283,
cmd/inspect.go:76-86, cmd/load.go:75-78, cmd/cleanCache.go:68-71, cmd/cleanPkgdb.go:50-52, cmd/plan.go:67-, cmd/run.go:54-.
Everything else a command does is a sequence of things said (`Said`): nothing else in /repo calls `SetLogLevel`,
`AddLogFile` or `log.SetOutput`.
Assumptions on dependencies (logrus): a record is handed out if its level is at most the level in force; hooks first, then
the output; `Fatal` ends the process whether or not it was handed out; one record is one `write`.
Simplifications: the formatters are parameters; the records of concurrent goroutines come in some one order; a command
does not itself delete or change the log file; standard error is not modelled.
-/
import Verif.Model.ConfigFile
import Verif.Model.Env

namespace Pkgr

/-- The levels of logrus (logger/logger.go:54-62), the most severe first. -/
inductive Level where
  | panic
  | fatal
  | error
  | warn
  | info
  | debug
  | trace
deriving Repr, DecidableEq

/-- The number logrus gives a level. -/
def Level.num : Level → Nat
  | .panic => 0
  | .fatal => 1
  | .error => 2
  | .warn => 3
  | .info => 4
  | .debug => 5
  | .trace => 6

/-- Go `unicode.ToLower` as far as its result can be an ASCII letter: the capitals A to Z, and the two characters
U+0130 and U+212A. Simplification: other letters are left alone. -/
def goLower (c : Char) : Char :=
  if 'A' ≤ c ∧ c ≤ 'Z' then Char.ofNat (c.toNat + 32) else if c = '\u0130' then 'i' else if c = '\u212a' then 'k' else c

/-- logger/logger.go:79-101 `SetLogLevel`. -/
def setLogLevel (word : Str) : Level :=
  let w := word.map goLower
  if w = s%"trace" then .trace
  else if w = s%"debug" then .debug
  else if w = s%"info" then .info
  else if w = s%"warn" then .warn
  else if w = s%"error" then .error
  else if w = s%"fatal" then .fatal
  else if w = s%"panic" then .panic
  else .info

/-- A record: its level, and all the rest of it. -/
structure LogRec where
  level : Level
  text : Str
deriving Repr, DecidableEq

/-- Something said: a record, or a text printed with `fmt.Print`. -/
inductive Said where
  | record (r : LogRec)
  | print (s : Str)
deriving Repr, DecidableEq

/-- The two formatters: of the screen (logger/logger.go:66-77) and of the log file (logger/logger.go:28, 42). -/
structure LogFmt where
  screen : LogRec → Str
  line : LogRec → Str

/-- The state of logging: the level in force, the open log files (`log.AddHook`, the first one first), what was written
to standard output, the files, and whether the process has been ended by a fatal record. -/
structure LogWorld where
  level : Level
  hooks : List Path
  out : Str
  fs : Fs
  ended : Bool

/-- logger/logger.go:40-51 `Fire`: the line is appended to the open file. -/
def fire (line : Str) (fs : Fs) (p : Path) : Fs :=
  match fs p with
  | some (.file c) => fs.set p (.file (c ++ line))
  | _ => fs

/-- logrus `IsLevelEnabled`. -/
def enabled (inForce l : Level) : Bool := decide (l.num ≤ inForce.num)

/-- logrus `Entry.Log` with the hooks of logger/logger.go:40-64, and the end of the process by `Fatal` and `Panic`. -/
def say (f : LogFmt) (w : LogWorld) (s : Said) : LogWorld :=
  if w.ended then w
  else
    match s with
    | .print t => { w with out := w.out ++ t }
    | .record r =>
      let w := if enabled w.level r.level then { w with fs := w.hooks.foldl (fire (f.line r)) w.fs, out := w.out ++ f.screen r } else w
      { w with ended := decide (r.level.num ≤ 1) }

/-- `os.OpenFile` with the flags of logger/logger.go:109-113: `none` if it fails. Simplification: no permissions. -/
def openLog (fs : Fs) (p : Path) (overwrite : Bool) : Option Fs :=
  match fs p with
  | some .dir => none
  | some (.file c) => some (fs.set p (.file (if overwrite then [] else c)))
  | none => if fs.isDir p.dropLast then some (fs.set p (.file [])) else none

/-- logger/logger.go:103-120 `AddLogFile` in the directory `cwd`. -/
def addLogFile (cwd : Path) (path : Str) (overwrite : Bool) (w : LogWorld) : LogWorld :=
  if path = [] then w
  else
    match openLog w.fs (absIn cwd path) overwrite with
    | none => w
    | some fs => { w with fs := fs, hooks := w.hooks ++ [absIn cwd path] }

/-- The `Logging` section of the configuration (configlib/structs.go:23-28, `level` is not used), after
configlib/config.go:59-60. -/
structure LogConfig where
  all : Str := []
  install : Str := []
  overwrite : Bool := false
deriving Repr, DecidableEq

/-- Go's `os.UserCacheDir` in cran/repodb.go:312-315: the remark that is printed if there is none. -/
def cacheRemark : Str := s%"could not use user cache dir, using temp dir\n"

/-- The commands. -/
inductive LogCmd where
  | install
  | plan
  | inspect (json : Bool)
  | load (json : Bool)
  | run
  | add
  | addInstall
  | remove
  | clean
  | cleanCache
  | cleanPkgdbs
deriving Repr, DecidableEq

/-- A run of pkgr, as far as logging is concerned: the directory it works in after cmd/root.go:141, the values
`viper.GetString("loglevel")` has in the two calls of `initConfig` (only `add --install` makes the second one), the
`Logging` section, and what is said: by `initConfig`, by the command, and, for `add --install`, by the second `initConfig`,
by the installation and after it. -/
structure LogRun where
  cwd : Path
  word : Str
  word2 : Str := []
  logging : LogConfig
  start : List Said := []
  said : List Said := []
  restart : List Said := []
  said2 : List Said := []
  last : List Said := []

/-- Things said one after the other. -/
def sayAll (f : LogFmt) (w : LogWorld) (l : List Said) : LogWorld := l.foldl (say f) w

/-- cmd/install.go:276-283 `initInstallLog`. -/
def initInstallLog (r : LogRun) (w : LogWorld) : LogWorld :=
  if r.logging.install ≠ [] then addLogFile r.cwd r.logging.install r.logging.overwrite w
  else addLogFile r.cwd r.logging.all r.logging.overwrite w

/-- cmd/inspect.go:78, cmd/add.go:73-75 `initAddLog`, cmd/remove.go:62-64 `initRemoveLog`, cmd/clean.go:55. -/
def initCommandLog (r : LogRun) (w : LogWorld) : LogWorld := addLogFile r.cwd r.logging.all r.logging.overwrite w

/-- cmd/root.go:111-115 `setGlobals`, then what `initConfig` (cmd/root.go:118-143) says. -/
def initLogging (f : LogFmt) (word : Str) (start : List Said) (w : LogWorld) : LogWorld :=
  sayAll f { w with level := setLogLevel word } start

/-- Run a piece of a command unless the process has ended. -/
def unlessEnded (w : LogWorld) (next : LogWorld → LogWorld) : LogWorld := if w.ended then w else next w

/-- A command after `initConfig`: cmd/install.go:55-, cmd/plan.go:67-, cmd/inspect.go:76-, cmd/load.go:75-, cmd/run.go:54-,
cmd/add.go:48-71, cmd/remove.go:40-60, cmd/clean.go:53-76, cmd/cleanCache.go:68-71, cmd/cleanPkgdb.go:50-52. -/
def runLogged (f : LogFmt) (r : LogRun) (w : LogWorld) : LogCmd → LogWorld
  | .install => sayAll f (initInstallLog r w) r.said
  | .inspect json =>
    let w := initCommandLog r w
    sayAll f (if json then { w with level := setLogLevel (s%"fatal") } else w) r.said
  | .load json => sayAll f (if json then { w with level := setLogLevel (s%"fatal") } else w) r.said
  | .add => sayAll f (initCommandLog r w) r.said
  | .addInstall =>
    unlessEnded (sayAll f (initCommandLog r w) r.said) fun w =>
      unlessEnded (initLogging f r.word2 r.restart w) fun w =>
        sayAll f (sayAll f (initInstallLog r w) r.said2) r.last
  | .remove => sayAll f (initCommandLog r w) r.said
  | .clean => sayAll f (initCommandLog r w) r.said
  | .plan => sayAll f w r.said
  | .run => sayAll f w r.said
  | .cleanCache => sayAll f w r.said
  | .cleanPkgdbs => sayAll f w r.said

/-- The state in which pkgr starts (logrus: level info, no hooks). -/
def logStart (fs : Fs) : LogWorld := { level := .info, hooks := [], out := [], fs := fs, ended := false }

/-- A whole run: `initConfig`, then the command. -/
def loggedRun (f : LogFmt) (c : LogCmd) (r : LogRun) (fs : Fs) : LogWorld :=
  unlessEnded (initLogging f r.word r.start (logStart fs)) fun w => runLogged f r w c

end Pkgr
