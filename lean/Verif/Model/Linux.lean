/-
Model of cran/utils.go:21-208: what is found out about the Linux distribution, and what is made of it.
The TOML parser is modelled for the texts that occur here: empty lines, comments, and lines `KEY="value"` whose value
has neither quotes, backslashes nor line breaks; every other text is taken to be rejected (an error). Keys are compared
exactly (viper ignores case).
-/
import Verif.Model.Base

namespace Pkgr

/-- cran/utils.go:181-183: where the regular expression `(.*?=)([^"].*)` matches from the beginning of a line: after the
first equals sign of the line that is followed by a character (a line break, even) other than a quote. The two parts
are the first group and everything after it. -/
def eqSplit : Str → Option (Str × Str)
  | [] => none
  | [_] => none
  | c :: d :: r =>
    if c = '\n' then none
    else if c = '=' ∧ d ≠ '"' then some ([c], d :: r)
    else (eqSplit (d :: r)).map fun p => (c :: p.1, p.2)

/-- cran/utils.go:181-183 `ReplaceAll`: the match, up to the end of its (last) line, gets quotes around its second group;
a line without match is copied. The number bounds the lines. -/
def quoteLoop : Nat → Str → Str
  | 0, s => s
  | k + 1, s =>
    match eqSplit s with
    | some (g, c :: r) =>
      g ++ '"' :: c :: (r.takeWhile (· ≠ '\n') ++ '"' :: quoteLoop k (r.dropWhile (· ≠ '\n')))
    | _ =>
      match s.dropWhile (· ≠ '\n') with
      | [] => s
      | n :: r => s.takeWhile (· ≠ '\n') ++ n :: quoteLoop k r

/-- cran/utils.go:181-183: the text of /etc/os-release made ready for the TOML parser. -/
def quoteValues (s : Str) : Str := quoteLoop (s.length + 1) s

/-- One line for the TOML parser: nothing, a setting, or an error. -/
inductive TomlLine where
  | skip
  | set (key value : Str)
  | bad
deriving Repr, DecidableEq

/-- A character of a bare TOML key. -/
def isKeyChar (c : Char) : Bool :=
  c = '_' || c = '-' || ('0'.toNat ≤ c.toNat && c.toNat ≤ '9'.toNat) || ('a'.toNat ≤ c.toNat && c.toNat ≤ 'z'.toNat) ||
    ('A'.toNat ≤ c.toNat && c.toNat ≤ 'Z'.toNat)

/-- A character that stands for itself in a basic TOML string. -/
def isTextChar (c : Char) : Bool := c ≠ '"' && c ≠ '\\' && (c = '\t' || (32 ≤ c.toNat && c.toNat ≠ 127))

/-- One line (cran/utils.go:187-190, BurntSushi/pelletier TOML). Simplified: every backslash is an error, also where TOML
has an escape (`\n`, `\"`, ...). -/
def tomlLine (l : Str) : TomlLine :=
  match l with
  | [] => .skip
  | '#' :: _ => .skip
  | _ =>
    let k := l.takeWhile isKeyChar
    match k, l.dropWhile isKeyChar with
    | _ :: _, '=' :: '"' :: r =>
      let v := r.takeWhile isTextChar
      if r.dropWhile isTextChar = s%"\"" then .set k v else .bad
    | _, _ => .bad

/-- The settings of the text; a key must not be given twice. -/
def tomlLoop : List Str → GoMap Str → Option (GoMap Str)
  | [], m => some m
  | l :: ls, m =>
    match tomlLine l with
    | .skip => tomlLoop ls m
    | .bad => none
    | .set k v => if GoMap.has m k then none else tomlLoop ls (GoMap.put m k v)

/-- cran/structs.go:92-105 `OsRelease`, the fields that are used. -/
structure OsRelease where
  id : Str := []
  versionId : Str := []
  codename : Str := []
deriving Repr, DecidableEq

/-- cran/utils.go:169-208 `ReadOsRelease` (`none`: an error; `file = none`: it cannot be read). -/
def readOsRelease (file : Option Str) : Option OsRelease :=
  match file with
  | none => none
  | some text =>
    match tomlLoop (splitOn '\n' (quoteValues text)) [] with
    | none => none
    | some m =>
      some { id := (GoMap.get? m (s%"ID")).getD [], versionId := (GoMap.get? m (s%"VERSION_ID")).getD [],
             codename := (GoMap.get? m (s%"VERSION_CODENAME")).getD [] }

/-- cran/utils.go:89-103 `linuxKnownSupportsBinary` (the table of known distributions only decides on a message). -/
def linuxSupportsBinary (file : Option Str) : Bool :=
  match readOsRelease file with
  | none => false
  | some r => if r.id = [] then false else true

/-- cran/utils.go:111-140 `getLinuxBinaryUri` for a readable os-release (`none`: index out of range). Simplification: the
first character is taken, the program takes the first byte. -/
def linuxBinaryUri (r : OsRelease) : Option Str :=
  if r.id = [] then some []
  else if r.id = s%"ubuntu" then some (r.id ++ '/' :: r.codename)
  else if r.id = s%"centos" ∨ r.id = s%"rhel" then
    match r.versionId with
    | [] => none
    | c :: _ => some (s%"centos/" ++ [c])
  else some (r.id ++ '/' :: r.versionId)

end Pkgr
