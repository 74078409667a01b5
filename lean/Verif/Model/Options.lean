/-
Model of how the settings of a run are put together: cmd/root.go (`rootInit`, `setGlobals`, `initConfig`), cmd/load.go and
cmd/plan.go (their own options), configlib/config.go (`NewConfig`, `loadConfigFromPath`, `loadDefaultSettings`), with viper's
lookup (viper v1.8.1 `find`) and the conversions of mapstructure (`Unmarshal`) and cast (`GetBool`, `GetString`).
Left out: how pflag reads the command line (given here: which options are there, with which values), YAML (given here: the
top-level keys of the file, in lower case, with their values; a key without a value counts as absent), the settings that are
lists or tables, options and keys that pkgr does not use ("preview", "debug").
-/
import Verif.Model.Rollback
import Verif.Model.Settings
import Verif.Model.Logger

namespace Pkgr

/-- A value of an option, of a key of the file, of an environment variable (a text). -/
inductive Setting where
  | bool (b : Bool)
  | int (n : Int)
  | text (s : Str)
deriving Repr, DecidableEq

/-- Where settings come from. -/
structure Sources where
  /-- the options on the command line, by name -/
  given : Str → Option Setting
  /-- the environment (`none`: not set) -/
  environ : Str → Option Str
  /-- the keys of the configuration file -/
  file : Str → Option Setting
  gomaxprocs : Int
  /-- Go `strconv.ParseInt(s, 0, 0)` -/
  parseInt : Str → Option Int

/-- cmd/root.go:68-108, cmd/load.go:66-69, cmd/plan.go:62-63: the option bound to a key, and its default. -/
def boundFlag (key : Str) : Option (Str × Setting) :=
  if key = s%"noupdate" then some (s%"no-update", .bool false)
  else if key = s%"config" then some (s%"config", .text [])
  else if key = s%"loglevel" then some (s%"loglevel", .text [])
  else if key = s%"logjson" then some (s%"logjson", .bool false)
  else if key = s%"threads" then some (s%"threads", .int 0)
  else if key = s%"library" then some (s%"library", .text [])
  else if key = s%"norollback" then some (s%"no-rollback", .bool false)
  else if key = s%"nosecure" then some (s%"no-secure", .bool false)
  else if key = s%"strict" then some (s%"strict", .bool false)
  else if key = s%"all" then some (s%"all", .bool false)
  else if key = s%"json" then some (s%"json", .bool false)
  else if key = s%"show-deps" then some (s%"show-deps", .bool false)
  else none

/-- configlib/config.go:177-184: the environment variable bound to a key. -/
def boundEnv (key : Str) : Option Str :=
  if key = s%"rpath" then some (s%"PKGR_RPATH") else if key = s%"library" then some (s%"PKGR_LIBRARY") else none

/-- configlib/config.go:213-220 `loadDefaultSettings`. -/
def defaultSetting (gomaxprocs : Int) (key : Str) : Option Setting :=
  if key = s%"loglevel" then some (.text (s%"info"))
  else if key = s%"rpath" then some (.text (s%"R"))
  else if key = s%"threads" then some (.int gomaxprocs)
  else none

/-- viper `getEnv`: an empty variable counts as not set. -/
def envSetting (s : Sources) (key : Str) : Option Setting :=
  match boundEnv key with
  | none => none
  | some v =>
    match s.environ v with
    | some (c :: cs) => some (.text (c :: cs))
    | _ => none

/-- viper `find` once the file was read: an option that was given, the environment, the file, the default, the default of the option. -/
def Sources.find (s : Sources) (key : Str) : Option Setting :=
  match (boundFlag key).bind fun f => s.given f.1 with
  | some v => some v
  | none =>
    match envSetting s key with
    | some v => some v
    | none =>
      match s.file key with
      | some v => some v
      | none =>
        match defaultSetting s.gomaxprocs key with
        | some v => some v
        | none => (boundFlag key).map Prod.snd

/-- viper `find` before the file was read: there are only the options (configlib/config.go:177-220 has not run). -/
def Sources.findEarly (s : Sources) (key : Str) : Option Setting :=
  match boundFlag key with
  | none => none
  | some f => match s.given f.1 with
    | some v => some v
    | none => some f.2

/-- Go `strconv.ParseBool`. -/
def parseBool (s : Str) : Option Bool :=
  if s ∈ [s%"1", s%"t", s%"T", s%"TRUE", s%"true", s%"True"] then some true
  else if s ∈ [s%"0", s%"f", s%"F", s%"FALSE", s%"false", s%"False"] then some false
  else none

/-- mapstructure `decodeBool` with WeaklyTypedInput (`none`: an error). -/
def weakBool : Setting → Option Bool
  | .bool b => some b
  | .int n => some (n ≠ 0)
  | .text s => if s = [] then some false else parseBool s

/-- mapstructure `decodeInt` with WeaklyTypedInput (`none`: an error). -/
def weakInt (parseInt : Str → Option Int) : Setting → Option Int
  | .bool b => some (if b then 1 else 0)
  | .int n => some n
  | .text s => if s = [] then some 0 else parseInt s

/-- Go `strconv.FormatInt(n, 10)`. -/
def formatInt (n : Int) : Str := (toString n).toList

/-- mapstructure `decodeString` with WeaklyTypedInput. -/
def weakText : Setting → Str
  | .bool b => if b then s%"1" else s%"0"
  | .int n => formatInt n
  | .text s => s

/-- cast `ToBool`: what is no truth value counts as false. -/
def castBool : Setting → Bool
  | .bool b => b
  | .int n => n ≠ 0
  | .text s => (parseBool s).getD false

/-- cast `ToString`. -/
def castText : Setting → Str
  | .bool b => if b then s%"true" else s%"false"
  | .int n => formatInt n
  | .text s => s

/-- The settings of a run that are not lists or tables (configlib/structs.go:40-63). -/
structure Options where
  noUpdate : Bool
  noRollback : Bool
  noSecure : Bool
  strict : Bool
  threads : Int
  library : Str
  rpath : Str
deriving Repr, DecidableEq

/-- One field of viper `Unmarshal`: a key without value leaves the field as it is, which is `zero`. -/
def field {α : Type} (decode : Setting → Option α) (zero : α) (v : Option Setting) : Option α :=
  match v with
  | none => some zero
  | some x => decode x

/-- configlib/config.go:42 `viper.Unmarshal(cfg)` (`none`: log.Fatal). -/
def Sources.unmarshal (s : Sources) : Option Options :=
  match field weakBool false (s.find (s%"noupdate")), field weakBool false (s.find (s%"norollback")),
    field weakBool false (s.find (s%"nosecure")), field weakBool false (s.find (s%"strict")),
    field (weakInt s.parseInt) 0 (s.find (s%"threads")) with
  | some nu, some nr, some ns, some st, some th =>
    some { noUpdate := nu, noRollback := nr, noSecure := ns, strict := st, threads := th,
           library := weakText ((s.find (s%"library")).getD (.text [])), rpath := weakText ((s.find (s%"rpath")).getD (.text [])) }
  | _, _, _, _, _ => none

/-- cmd/root.go:56-60, 118-135 `initConfig`: the settings (`none`: log.Fatal; the library and the paths are made absolute later, see
`Model/Settings.lean`). `--update` is not bound to a key. -/
def Sources.options (s : Sources) : Option Options :=
  match s.unmarshal with
  | none => none
  | some o =>
    match s.given (s%"update") with
    | some v => some (if castBool v then { o with noUpdate := false } else o)
    | none => some o

/-- cmd/root.go:111-115 `setGlobals`, which runs before the file is read: the level of the log and its format. -/
def Sources.logging (s : Sources) : Str × Bool :=
  (((s.findEarly (s%"loglevel")).map castText).getD [], ((s.findEarly (s%"logjson")).map castBool).getD false)

/-- cmd/add.go:61-64: `setGlobals` again, when `add --install` reads the configuration a second time. -/
def Sources.loggingAgain (s : Sources) : Str × Bool :=
  (((s.find (s%"loglevel")).map castText).getD [], ((s.find (s%"logjson")).map castBool).getD false)

/-- cmd/root.go:130: the text of `--config` when the configuration is read. -/
def Sources.configText (s : Sources) : Str := ((s.findEarly (s%"config")).map castText).getD []

/-- cmd/load.go:46, and cmd/root.go:130 when `add --install` reads the configuration a second time (cmd/add.go:65): the same, after
the file was read. -/
def Sources.configTextAgain (s : Sources) : Str := ((s.find (s%"config")).map castText).getD []

/-- cmd/load.go:39-40, cmd/plan.go:74: the value of a command's own option, `viper.GetBool`. -/
def Sources.ownFlag (s : Sources) (key : Str) : Bool := ((s.find key).map castBool).getD false

/-- The settings as `rInstall` uses them. -/
def Options.runCfg (o : Options) (lib : Path) : RunCfg :=
  { lib := lib, strict := o.strict, noUpdate := o.noUpdate, noRollback := o.noRollback }

end Pkgr
