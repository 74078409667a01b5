/- Model of desc.ParseDesc (desc/desc.go:117-124) and of the library it uses to decode a DESCRIPTION or a record of an
index: pault.ag/go/debian v0.18.0, control.Unmarshal.  The library is not part of /repo; its reader of paragraphs and its
decoding of the fields of `desc` (desc/structs.go:101-125) are modelled here after its documented behaviour, which the
expectations of desc/desc_test.go agree with.  Not modelled: texts signed with PGP. -/
import Verif.Model.Dep
import Verif.Model.Fs

namespace Pkgr

/-- The lines of a text as `bufio.Reader.ReadString('\n')` delivers them (without the newline); a last line without newline
counts.  Used by desc/desc.go:119 through `control.Unmarshal`. -/
def textLines (s : Str) : List Str :=
  let ls := splitOn '\n' s
  if ls.getLast? = some [] then ls.dropLast else ls

/-- The paragraph being read (library code behind desc/desc.go:119): the values so far, whether there was a key, and the
key that continuation lines belong to. -/
structure ParaState where
  vals : GoMap Str := []
  seen : Bool := false
  cur : Str := []
deriving Repr, DecidableEq

/-- Library code behind desc/desc.go:119: what a continuation line says: without its first character and without white
space at the end; a single dot stands for an empty line. -/
def contText (line : Str) : Str :=
  let t := trimRightBy isSpace (line.drop 1)
  if t = s%"." then [] else t

/-- Library code behind desc/desc.go:119: a value and one more line of it. -/
def appendLine (v t : Str) : Str :=
  if v = [] then t ++ s%"\n"
  else if hasSuffix v (s%"\n") then v ++ t ++ s%"\n"
  else v ++ s%"\n" ++ t ++ s%"\n"

/-- Library code behind desc/desc.go:119: the lines of the first paragraph.  `none`: the library returns an error (a line
without colon, or no field at all). -/
def readPara : ParaState → List Str → Option (GoMap Str)
  | st, [] => if st.seen then some st.vals else none
  | st, line :: rest =>
    if line = [] ∨ line = s%"\r" then
      if st.seen then some st.vals else readPara st rest
    else if line.head? = some '#' then readPara st rest
    else if line.head? = some ' ' ∨ line.head? = some '\t' then
      readPara { st with vals := GoMap.put st.vals st.cur (appendLine ((GoMap.get? st.vals st.cur).getD []) (contText line)) } rest
    else if ':' ∈ line then
      let k := trimSpace (line.takeWhile (· ≠ ':'))
      let v := trimSpace ((line.dropWhile (· ≠ ':')).drop 1)
      readPara { vals := GoMap.put st.vals k v, seen := true, cur := k } rest
    else none

/-- The characters of the `strip` tags in desc/structs.go:115-121. -/
def inCutset (c : Char) : Bool := c = '\n' || c = '\r' || c = '\t' || c = ' '

/-- Go `strings.Trim(s, "\n\r\t ")` (tags in desc/structs.go:115-121). -/
def trimCutset (s : Str) : Str := trimRightBy inCutset (s.dropWhile inCutset)

/-- desc/structs.go:118-121: a field with tag `delim:"," strip:"\n\r\t "`; a field that is not there leaves the nil slice. -/
def decodeList (m : GoMap Str) (k : Str) : List Str :=
  match GoMap.get? m k with
  | none => []
  | some v => (splitOn ',' v).map trimCutset

/-- desc/structs.go:101-125: a text field. -/
def decodeText (m : GoMap Str) (k : Str) : Str := (GoMap.get? m k).getD []

/-- desc/desc.go:118-119: decoding a text into the struct of desc/structs.go:101-125 (the fields that the model of `Desc`
keeps).  `none`: an error. -/
def decodeDesc (s : Str) : Option RawDesc :=
  (readPara {} (textLines s)).map fun m =>
    { package := decodeText m (s%"Package"), version := decodeText m (s%"Version"), path := decodeText m (s%"Path"),
      repository := decodeText m (s%"Repository"),
      imports := decodeList m (s%"Imports"), suggests := decodeList m (s%"Suggests"),
      depends := decodeList m (s%"Depends"), linkingTo := decodeList m (s%"LinkingTo"),
      pkgrVersion := decodeText m (s%"PkgrVersion"), pkgrInstallType := decodeText m (s%"PkgrInstallType"),
      pkgrRepositoryURL := decodeText m (s%"PkgrRepositoryURL") }

/-- What `desc.ParseDesc` does. -/
inductive Parsed where
  /-- it returns an error -/
  | error
  /-- the program panics: a dependency is malformed (desc/desc.go:42, desc/version.go:13) -/
  | panics
  | ok (d : Desc)
deriving Repr, DecidableEq

/-- desc/desc.go:117-124 `ParseDesc`.  (With an error it also returns the empty `Desc`; `NewDesc` of that cannot panic.) -/
def parseDesc (s : Str) : Parsed :=
  match decodeDesc s with
  | none => .error
  | some raw =>
    match newDesc raw with
    | none => .panics
    | some d => .ok d

/-- pacman/utils.go:100-106: what `scanInstalledPackage` makes of a DESCRIPTION: the error of `ParseDesc` is dropped, the
package must have a name.  `none` here also stands for a panic (see `parseDesc`), which ends the program. -/
def installedDesc (s : Str) : Option Desc :=
  match parseDesc s with
  | .ok d => if d.package = [] then none else some d
  | _ => none

end Pkgr
