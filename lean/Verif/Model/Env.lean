/-
Model of rcmd/nvp.go, rcmd/configure.go, rcmd/Rsettings.go, the path handling of rcmd/RunR.go and rcmd/rp/lines.go.

Not modelled: logging, the creation of the temporary directory (its path is the parameter `tmp`), windows path syntax.
-/
import Verif.Model.Fs
import Verif.Model.Install

namespace Pkgr

/-! ### rcmd/nvp.go -/

/-- rcmd/structs.go `Nvp`. -/
structure Nvp where
  name : Str
  value : Str
deriving Repr, DecidableEq

/-- rcmd/structs.go `NvpList`. -/
abbrev NvpList := List Nvp

/-- rcmd/nvp.go:9-11 `Append`. -/
def NvpList.app (l : NvpList) (n v : Str) : NvpList := l ++ [{ name := trimBlanks n, value := trimBlanks v }]

/-- rcmd/nvp.go:14-19 `AppendNvp`. -/
def NvpList.appNvp (l : NvpList) (nvp : Str) : NvpList :=
  match splitOn '=' nvp with
  | [a, b] => NvpList.app l a b
  | _ => l

/-- rcmd/nvp.go:22-29 `Get` (`none`: exists is false). -/
def NvpList.get : NvpList → Str → Option Str
  | [], _ => none
  | p :: l, n => if n = p.name then some p.value else NvpList.get l n

/-- rcmd/nvp.go:32-39 `GetNvp`. -/
def NvpList.getNvp : NvpList → Str → Option Nvp
  | [], _ => none
  | p :: l, n => if n = p.name then some p else NvpList.getNvp l n

/-- rcmd/nvp.go:42-53 `Remove`: the first pair of that name. -/
def NvpList.remove : NvpList → Str → NvpList
  | [], _ => []
  | p :: l, n => if n = p.name then l else p :: NvpList.remove l n

/-- rcmd/nvp.go:56-69 `Update`: the last pair of that name (`none`: there is none; the list stays the same). -/
def NvpList.update : NvpList → Str → Str → Option NvpList
  | [], _, _ => none
  | p :: l, n, v =>
    match NvpList.update l n v with
    | some l' => some (p :: l')
    | none => if n = p.name then some ({ p with value := v } :: l) else none

/-- rcmd/nvp.go:72-74 `GetString`. -/
def Nvp.render (p : Nvp) : Str := p.name ++ '=' :: p.value

/-! ### Paths as texts -/

/-- One component of Go `filepath.Clean`; the stack holds the components so far, the last one first. -/
def cleanComp (rooted : Bool) (stk : List Str) (c : Str) : List Str :=
  if c = [] ∨ c = s%"." then stk
  else if c = s%".." then
    match stk with
    | [] => if rooted then [] else [c]
    | t :: r => if t = s%".." then c :: stk else r
  else c :: stk

/-- Go `strings.Join(l, "x")` for a one-character separator. -/
def joinWith (sep : Char) : List Str → Str
  | [] => []
  | [a] => a
  | a :: b :: l => a ++ sep :: joinWith sep (b :: l)

/-- Go `filepath.Clean` on unix. -/
def cleanPath (s : Str) : Str :=
  let rooted : Bool := decide (s.head? = some '/')
  let body := joinWith '/' (((splitOn '/' s).foldl (cleanComp rooted) []).reverse)
  if rooted then '/' :: body else if body = [] then s%"." else body

/-- Go `filepath.Dir` on unix: everything up to the last slash, cleaned. -/
def dirStr (s : Str) : Str := cleanPath (s.reverse.dropWhile (· ≠ '/')).reverse

/-! ### rcmd/Rsettings.go -/

/-- rcmd/structs.go:23-30 `RSettings` (the parts that matter here). -/
structure RSettings where
  libPaths : List Str := []
  rpath : Str := []
  globalEnv : NvpList := []
  pkgEnv : GoMap (GoMap Str) := []
deriving Repr

/-- rcmd/Rsettings.go:28-48 `R`. -/
def RSettings.R (rs : RSettings) (windows : Bool) : Str :=
  let r := if rs.rpath ≠ [] then trimSlash' rs.rpath else if windows then s%"R.exe" else s%"R"
  let r := cleanPath r
  if windows && !hasSuffix r (s%".exe") then r ++ s%".exe" else r
where
  /-- Go `strings.TrimSuffix(s, "/")`. -/
  trimSlash' (s : Str) : Str := if s.getLast? = some '/' then s.dropLast else s

/-- rcmd/RunR.go:63-73 `convertToRscript`. -/
def convertToRscript (rpath : Str) : Str :=
  if hasSuffix rpath (s%".exe") then rpath.take (rpath.length - 4) ++ s%"script" ++ s%".exe"
  else rpath ++ s%"script"

/-- rcmd/Rsettings.go:102-110 `LibPathsEnv` (`none`: ok is false). -/
def RSettings.libPathsEnv (rs : RSettings) : Option Str :=
  if rs.libPaths.length = 0 then none
  else if rs.libPaths = [[]] then none
  else some (s%"R_LIBS_SITE=" ++ joinWith ':' rs.libPaths)

/-- Go `regexp.MustCompile("^\\[\\d+\\]").ReplaceAllString(line, "")` (rcmd/rp/lines.go:22-24). -/
def dropLineNo (line : Str) : Str :=
  match line with
  | '[' :: r =>
    let ds := r.takeWhile fun c => (digit? c).isSome
    match ds, r.drop ds.length with
    | _ :: _, ']' :: rest => rest
    | _, _ => line
  | _ => line

/-- rcmd/rp/lines.go:19-38 `ScanROutput`. Simplification: lines of 64 KiB or more, at which the scanner stops, are not
modelled here. -/
def scanROutput (outputOnly : Bool) (data : Str) : List Str :=
  ((readLines data).map fun l => trimSpace (dropLineNo l)).filter fun l =>
    !l.isEmpty && !(outputOnly && hasPrefix l (s%">"))

/-- The three numbers of an R version (Go `int`s, hence possibly negative). -/
abbrev RVer := Int × Int × Int

/-- rcmd/Rsettings.go:69-97: one line of the output (`none`: `log.Fatal`, or the index out of range on line 92). -/
def versionLine (acc : RVer × Str) (line : Str) : Option (RVer × Str) :=
  if hasPrefix line (s%"R version") then
    match splitOn ' ' line with
    | _ :: _ :: v :: _ =>
      match splitOn '.' v with
      | [a, b, c] => some ((atoi a, atoi b, atoi c), acc.2)
      | _ => none
    | _ => none
  else if hasPrefix line (s%"Platform:") then
    match splitOn ' ' line with
    | _ :: p :: _ => some (acc.1, trimBlanks p)
    | _ => none
  else some acc

/-- rcmd/Rsettings.go:67-99 `parseVersionData`. -/
def parseVersionData (data : Str) : Option (RVer × Str) :=
  (scanROutput false data).foldlM versionLine ((0, 0, 0), [])

/-! ### rcmd/configure.go -/

/-- Go `unicode.ToUpper`, on ASCII letters and on the two other letters whose upper case is in ASCII; elsewhere the
character is left as it is (it cannot become an ASCII letter). -/
def upperChar (c : Char) : Char :=
  if 97 ≤ c.toNat ∧ c.toNat ≤ 122 then Char.ofNat (c.toNat - 32)
  else if c.toNat = 0x131 then 'I'
  else if c.toNat = 0x17F then 'S'
  else c

/-- rcmd/configure.go:107-122 `censoredEnvVars(nil)`. -/
def censoredVars : List Str :=
  [s%"GITHUB_TOKEN", s%"GITHUB_PAT", s%"GHE_TOKEN", s%"GHE_PAT", s%"AWS_ACCESS_KEY_ID", s%"AWS_SECRET_KEY"]

/-- rcmd/configure.go:18-23: one global setting. -/
def globalStep (l : NvpList) (p : Nvp) : NvpList :=
  match NvpList.get l p.name with
  | some _ => l
  | none => NvpList.app l p.name p.value

/-- rcmd/configure.go:29-31: one package setting; `k` ranges over the keys of `env`. -/
def pkgStep (env : GoMap Str) (l : NvpList) (k : Str) : NvpList :=
  NvpList.app l k ((GoMap.get? env k).getD [])

/-- rcmd/configure.go:57-63: the value of PATH. -/
def pathValue (rpath v : Str) : Str :=
  let rDir := dirStr rpath
  if rDir ≠ [] ∧ rDir ≠ s%"." ∧ hasPrefix v rDir = false then rDir ++ ':' :: v else v

/-- rcmd/configure.go:64-75: append unless there. -/
def sysAdd (l : NvpList) (n v : Str) : NvpList :=
  match NvpList.get l n with
  | some _ => l
  | none => NvpList.app l n (if n.map upperChar ∈ censoredVars then s%"**HIDDEN**" else v)

/-- rcmd/configure.go:39-77: one inherited variable. -/
def sysStep (rpath : Str) (l : NvpList) (ev : Str) : NvpList :=
  match splitNBy (· = '=') 2 ev with
  | n :: v :: _ =>
    if v = [] then l
    else if n = s%"R_LIBS_USER" then l
    else if n = s%"R_LIBS_SITE" then l
    else sysAdd l n (if n = s%"PATH" then pathValue rpath v else v)
  | _ => l

/-- rcmd/configure.go:15-36: the settings made by pkgr's configuration. -/
def customList (ρ : Order) (t : Nat) (rs : RSettings) (pkg : Str) : NvpList :=
  let l := rs.globalEnv.foldl globalStep []
  match GoMap.get? rs.pkgEnv pkg with
  | some env => (ρ t (GoMap.keys env)).foldl (pkgStep env) l
  | none => l

/-- rcmd/configure.go:92-95. -/
def addLibPaths (rs : RSettings) (l : NvpList) : NvpList :=
  match rs.libPathsEnv with
  | some lp => NvpList.appNvp l lp
  | none => l

/-- rcmd/configure.go:14-103 `configureEnv`; `ρ t` is the order in which the loop on line 29 visits the package's
settings, `tmp` the temporary directory of lines 80-83. -/
def configureEnv (ρ : Order) (t : Nat) (tmp : Str) (sys : List Str) (rs : RSettings) (pkg : Str) : List Str :=
  let l := sys.foldl (sysStep rs.rpath) (customList ρ t rs pkg)
  let l := NvpList.app l (s%"R_LIBS_USER") tmp
  (addLibPaths rs l).map Nvp.render

/-- configlib/config.go:281-291 `SetCustomizations`: `env = none` is a nil map; a later entry of the same package
replaces the earlier one. Simplification: the map iteration order of line 284 does not matter (distinct keys). -/
def setCustomizations (pkgEnv : GoMap (GoMap Str)) (custom : List (List (Str × Option (GoMap Str)))) : GoMap (GoMap Str) :=
  custom.foldl (fun m e => e.foldl setCustomStep m) pkgEnv
where
  /-- configlib/config.go:284-288. -/
  setCustomStep (m : GoMap (GoMap Str)) (e : Str × Option (GoMap Str)) : GoMap (GoMap Str) :=
    match e.2 with
    | some env => GoMap.put m e.1 env
    | none => m

end Pkgr
