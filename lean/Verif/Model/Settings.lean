/-
Model of configlib/config.go:27-220 (`NewConfig`): expansion of environment variables and of `~`, and the choice of the
library; and of cmd/root.go:118-143 (`initConfig`): in which directory what is done.
Not modelled: YAML, `viper.Unmarshal`.
-/
import Verif.Model.Env

namespace Pkgr

/-! ### `os.ExpandEnv`, used on the whole text of the configuration file (configlib/config.go:196) -/

/-- Go os/env.go `isShellSpecialVar`. -/
def isShellSpecial (c : Char) : Bool := c ∈ s%"*#$@!?-0123456789"

/-- Go os/env.go `isAlphaNum`. -/
def isAlphaNum (c : Char) : Bool :=
  c = '_' || ('0'.toNat ≤ c.toNat && c.toNat ≤ '9'.toNat) || ('a'.toNat ≤ c.toNat && c.toNat ≤ 'z'.toNat) ||
    ('A'.toNat ≤ c.toNat && c.toNat ≤ 'Z'.toNat)

/-- Go os/env.go `getShellName` after an opening brace: the name and the number of characters taken, brace included. -/
def braceName (s : Str) : Str × Nat :=
  match s with
  | c :: '}' :: _ => if isShellSpecial c then ([c], 3) else scan s
  | _ => scan s
where
  /-- The scan for the closing brace. -/
  scan (s : Str) : Str × Nat :=
    let n := s.takeWhile (· ≠ '}')
    if n.length = s.length then ([], 1) else if n = [] then ([], 2) else (n, n.length + 2)

/-- Go os/env.go `getShellName`: the name that follows a dollar sign and the number of characters it takes. -/
def shellName (s : Str) : Str × Nat :=
  match s with
  | '{' :: r => braceName r
  | c :: _ => if isShellSpecial c then ([c], 1) else let n := s.takeWhile isAlphaNum; (n, n.length)
  | [] => ([], 0)

/-- Go os/env.go `Expand`: the first argument counts characters to be skipped. -/
def expandAux (env : Str → Str) : Nat → Str → Str
  | _, [] => []
  | k + 1, _ :: s => expandAux env k s
  | 0, c :: s =>
    if c = '$' ∧ s ≠ [] then
      (if (shellName s).1 = [] then (if (shellName s).2 > 0 then [] else ['$']) else env (shellName s).1) ++
        expandAux env (shellName s).2 s
    else c :: expandAux env 0 s

/-- Go `os.ExpandEnv`; `env` gives the value of a variable, empty if it is not set. -/
def expandEnv (env : Str → Str) (s : Str) : Str := expandAux env 0 s

/-! ### `~` -/

/-- Go `filepath.Join(a, b)` on unix. -/
def joinStr (a b : Str) : Str :=
  if a = [] then (if b = [] then [] else cleanPath b)
  else if b = [] then cleanPath a else cleanPath (a ++ '/' :: b)

/-- configlib/config.go:68-77 `expandTilde` (go-homedir `Expand`; `none`: log.Fatal). `home` is the home directory. -/
def expandTilde (home : Option Str) (p : Str) : Option Str :=
  match p with
  | '~' :: r =>
    match r with
    | [] => home.map fun h => joinStr h []
    | c :: _ => if c ≠ '/' ∧ c ≠ '\\' then none else home.map fun h => joinStr h r
  | _ => some p

/-! ### The library -/

/-- Where a library may be named: on the command line (if the option is there), in PKGR_LIBRARY, in the file (`none`: no
such key); what kind of lockfile is configured; and what R and renv say (`renvOut = none`: Rscript failed). -/
structure LibrarySources where
  flag : Option Str := none
  env : Option Str := none
  file : Option Str := none
  lockfile : Str := []
  platform : Str := []
  rVersion : Str := []
  renvOut : Option Str := none
deriving Repr, DecidableEq

/-- viper `find` for the key "library" (cmd/root.go:107-108, configlib/config.go:181-184): the flag if it was given, an
environment variable that is not empty, the file, the default of the flag. -/
def configuredLibrary (s : LibrarySources) : Str :=
  match s.flag with
  | some v => v
  | none =>
    match s.env with
    | some (c :: cs) => c :: cs
    | _ => s.file.getD []

/-- configlib/config.go:27-34 `packratPlatform`. -/
def packratPlatform (p : Str) : Str := if p = s%"x86_64-w64-mingw32/x64" then s%"x86_64-w64-mingw32" else p

/-- Go `strings.TrimPrefix` and `strings.TrimSuffix` of the marker. -/
def trimMarker (marker l : Str) : Str :=
  let l := if hasPrefix l marker then l.drop marker.length else l
  if hasSuffix l marker then l.take (l.length - marker.length) else l

/-- configlib/config.go:133-141: the marked line of the output of renv. -/
def markedLine (lines : List Str) : Str :=
  match lines.find? fun l => hasPrefix l (s%"_pkgr_") && hasSuffix l (s%"_pkgr_") with
  | some l => trimMarker (s%"_pkgr_") l
  | none => []

/-- configlib/config.go:112-150 `getRenvLibrary` (`none`: an error). -/
def renvLibrary (out : Option Str) : Option Str :=
  match out with
  | none => none
  | some o => let lib := markedLine (scanROutput false o); if lib = [] then none else some lib

/-- configlib/config.go:152-170 `getLibraryPath` (`none`: log.Fatal). -/
def libraryPath (s : LibrarySources) (library : Str) : Option Str :=
  if s.lockfile = s%"packrat" then some (joinStr (joinStr (s%"packrat/lib") (packratPlatform s.platform)) s.rVersion)
  else if s.lockfile = s%"renv" then renvLibrary s.renvOut
  else if library = [] then none else some library

/-- configlib/config.go:47-54: the library of a run (`none`: log.Fatal). -/
def chooseLibrary (home : Option Str) (s : LibrarySources) : Option Str :=
  let l := configuredLibrary s
  match (if l = [] then libraryPath s l else some l) with
  | none => none
  | some l => expandTilde home l

/-! ### cmd/root.go `initConfig` -/

/-- What `initConfig` does that depends on the working directory. -/
inductive InitAct where
  | readConfig (file : Path)
  | runR (cwd : Path) (rpath : Str)
  | askRenv (cwd : Path)
  | chdir (dir : Path)
deriving Repr, DecidableEq

/-- cmd/root.go:118-143 with configlib/config.go:37-64: the configuration is read, R and renv are run if no library is
configured, then the working directory becomes that of the configuration file. `cfgFile` is the `--config` option made
absolute. -/
def initActs (cwd cfgFile : Path) (rpath : Str) (s : LibrarySources) : List InitAct :=
  [.readConfig cfgFile] ++
    (if configuredLibrary s = [] then
      [.runR cwd rpath] ++ (if s.lockfile = s%"renv" then [.askRenv cwd] else []) else []) ++
    [.chdir (dirPath cfgFile)]

end Pkgr
