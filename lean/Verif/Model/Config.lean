/-
Model of the configuration editing of configlib/ (add_package.go, config.go `remove`), of
configlib/get_customization.go and of the part of cmd/plan.go that collects the repository settings.

The YAML parser (gopkg.in/yaml.v3) is an oracle: `yaml content = none` is a parse error, `some ps` the entries of the
key `Packages`. `goutils.WriteLines` (a dependency) writes every line followed by a newline.
-/
import Verif.Model.Fs
import Verif.Model.Plan

namespace Pkgr

/-! ### configlib/add_package.go -/

/-- The number of bytes of a text (UTF-8). -/
def byteLen : Str → Nat
  | [] => 0
  | c :: s => c.utf8Size + byteLen s

/-- `bufio.Scanner` gives up at a line of 64 KiB or more (`bufio.MaxScanTokenSize`); the error is not looked at. -/
def scanLimit : Nat := 65536

/-- configlib/add_package.go:25-29: the lines that the scanner delivers. -/
def configLines (content : Str) : List Str :=
  let ls := splitOn '\n' content
  let ls := if ls.getLast? = some [] then ls.dropLast else ls
  (ls.takeWhile fun l => byteLen l < scanLimit).map dropCR

/-- Go `strings.Index(s, "-")`: a byte index (`none`: -1). -/
def indexDash : Str → Option Nat
  | [] => none
  | c :: s => if c = '-' then some 0 else (indexDash s).map (· + c.utf8Size)

/-- configlib/add_package.go:69-74: the index of the last line that starts with `Packages:`. -/
def lastHeader : Nat → List Str → Option Nat
  | _, [] => none
  | i, l :: ls =>
    match lastHeader (i + 1) ls with
    | some j => some j
    | none => if hasPrefix l (s%"Packages:") then some i else none

/-- configlib/add_package.go:84-90: the offset of the first entry (0: none found). -/
def firstEntry : Nat → List Str → Nat
  | _, [] => 0
  | i, l :: ls => if hasPrefix (trimSpace l) (s%"-") then i else firstEntry (i + 1) ls

/-- configlib/add_package.go:65-102 `insertPackages` (`none`: `strings.Repeat` panics on a negative count). -/
def insertPackages (lines pkgs : List Str) : Option (List Str) :=
  match lastHeader 0 lines with
  | none => some (lines ++ [[], s%"Packages:"] ++ pkgs.map fun p => s%"- " ++ p)
  | some i =>
    let f := firstEntry 0 (lines.drop i)
    match indexDash (lines.getD (i + f) []) with
    | none => none
    | some n =>
      let padding := List.replicate n ' '
      some (lines.take (i + 1) ++ (pkgs.map fun p => padding ++ s%"- " ++ p) ++ lines.drop (i + 1))

/-- What became of the file. -/
inductive EditEnd where
  | error
  | panic
  | written (content : Str)
deriving Repr, DecidableEq

/-- configlib/add_package.go:17-47 `AddPackages` on a file with this content (reading and writing succeed). -/
def addPackages (yaml : Str → Option (List Str)) (content : Str) (pkgs : List Str) : EditEnd :=
  match yaml content with
  | none => .error
  | some listed =>
    match insertPackages (configLines content) (pkgs.filter fun p => !listed.contains p) with
    | none => .panic
    | some lines => .written (writeLines lines)

/-! ### configlib/config.go `remove` -/

/-- configlib/config.go:264-266: is the line dropped (`bytes.TrimLeft(line, " ")`). -/
def dropsLine (name line : Str) : Bool := hasPrefix (line.dropWhile fun c => c = ' ') (s%"- " ++ name)

/-- configlib/config.go:259-273: kept lines are written with a newline, except the last line of the file. -/
def removeLoop (name : Str) : List Str → Str
  | [] => []
  | [l] => if dropsLine name l then [] else l
  | l :: ls => (if dropsLine name l then [] else l ++ ['\n']) ++ removeLoop name ls

/-- configlib/config.go:249-278 `remove` on a file with this content (reading and writing succeed). -/
def removePackage (content name : Str) : Str := removeLoop name (splitOn '\n' content)

/-! ### configlib/get_customization.go -/

/-- configlib/get_customization.go:6-15 and 20-29: the first map that has the key. (Go's zero value for "not found"
is the `none`.) -/
def customizationByName {α : Type} (nm : Str) : List (GoMap α) → Option α
  | [] => none
  | m :: ms => match GoMap.get? m nm with
    | some v => some v
    | none => customizationByName nm ms

/-! ### cmd/plan.go: repository settings -/

/-- configlib/structs.go `RepoConfig`: the settings of a repository as written in the file. -/
structure RepoCustom where
  type : Str := []
  repoType : Str := []
  repoSuffix : Str := []
deriving Repr, DecidableEq

/-- cmd/plan.go:139-153: one entry. -/
def repoSetting (v : RepoCustom) : RepoConfig :=
  { repoType := if eqFold v.repoType (s%"RSPM") then .rspm else if eqFold v.repoType (s%"MPN") then .mpn else .cran
    defaultSourceType :=
      if eqFold v.type (s%"source") then .source
      else if eqFold v.type (s%"binary") then .binary
      else if eqFold v.repoType (s%"MPN") then .binary
      else .default
    repoSuffix := v.repoSuffix }

/-- cmd/plan.go:138-155: one key of one entry. -/
def repoSettingStep (m : GoMap RepoCustom) (acc : GoMap RepoConfig) (nm : Str) : GoMap RepoConfig :=
  GoMap.put acc nm (repoSetting ((GoMap.get? m nm).getD {}))

/-- cmd/plan.go:137-156: all entries, in the order given, the keys of each map in the order of a range loop; a later
entry of the same name replaces the earlier one. -/
def repoSettings (ρ : Order) (t : Nat) : List (GoMap RepoCustom) → GoMap RepoConfig → GoMap RepoConfig
  | [], acc => acc
  | m :: ms, acc =>
    repoSettings ρ (t + 1) ms
      ((ρ t (GoMap.keys m)).foldl (repoSettingStep m) acc)

/-- cmd/plan.go:128-133: one repository: name, URL and the suffix of the first customization of that name. -/
def repoURL (custom : List (GoMap RepoCustom)) (m : GoMap Str) (nm : Str) : Str × Str × Str :=
  (nm, (GoMap.get? m nm).getD [], ((customizationByName nm custom).getD {}).repoSuffix)

/-- cmd/plan.go:126-134: the repository list with the suffix of the first customization of that name. -/
def repoURLs (ρ : Order) (t : Nat) (custom : List (GoMap RepoCustom)) : List (GoMap Str) → List (Str × Str × Str)
  | [] => []
  | m :: ms =>
    (ρ t (GoMap.keys m)).map (repoURL custom m) ++ repoURLs ρ (t + 1) custom ms

end Pkgr
