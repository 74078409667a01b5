/-
Model of the JSON that pkgr prints: cmd/utils.go `JsonMarshal`, cmd/experiment.go `prettyPrint`, cmd/load.go
`printJsonLoadReport`, cmd/inspect.go `printDeps` and `printInstalledFromPackages`; the encoder is that of encoding/json
(Go 1.24) for the values that occur: structures, maps with string keys, slices of strings, strings, booleans and counts.
Simplification: strings are valid UTF-8 (encoding/json replaces other bytes by U+FFFD).
-/
import Verif.Model.Inspect
import Verif.Model.Session

namespace Pkgr

/-- A JSON document (numbers: the counts that occur). -/
inductive JVal where
  | null
  | bool (b : Bool)
  | num (n : Nat)
  | str (s : Str)
  | arr (l : List JVal)
  | obj (l : List (Str × JVal))

/-! ### encoding/json -/

/-- encoding/json: the digits of escapes. -/
def hexDigit (n : Nat) : Char := (s%"0123456789abcdef").getD n '0'

/-- encoding/json `appendString`: `\u` and four digits. -/
def uEscape (n : Nat) : Str := ['\\', 'u', hexDigit (n / 4096 % 16), hexDigit (n / 256 % 16), hexDigit (n / 16 % 16), hexDigit (n % 16)]

/-- encoding/json `appendString`: one character (`html`: `SetEscapeHTML`). -/
def escapeChar (html : Bool) (c : Char) : Str :=
  if c = '"' ∨ c = '\\' then ['\\', c]
  else if c.toNat = 8 then s%"\\b"
  else if c.toNat = 12 then s%"\\f"
  else if c = '\n' then s%"\\n"
  else if c = '\r' then s%"\\r"
  else if c = '\t' then s%"\\t"
  else if c.toNat < 32 ∨ (html = true ∧ (c = '<' ∨ c = '>' ∨ c = '&')) ∨ c.toNat = 0x2028 ∨ c.toNat = 0x2029 then uEscape c.toNat
  else [c]

/-- encoding/json `appendString`. -/
def quoteJson (html : Bool) (s : Str) : Str := '"' :: (s.flatMap (escapeChar html) ++ ['"'])

/-- encoding/json `appendNewline`: a line break and the indentation. -/
def jsonBreak (ind : Nat) (depth : Nat) : Str := '\n' :: List.replicate (ind * depth) ' '

mutual
/-- encoding/json `MarshalIndent` with an empty prefix and `ind` blanks: a value at a depth. -/
def encodeJson (html : Bool) (ind : Nat) (depth : Nat) : JVal → Str
  | .null => s%"null"
  | .bool b => if b then s%"true" else s%"false"
  | .num n => natStr n
  | .str s => quoteJson html s
  | .arr [] => s%"[]"
  | .arr (v :: vs) => '[' :: (jsonBreak ind (depth + 1) ++ encodeJson html ind (depth + 1) v ++ encodeElems html ind (depth + 1) vs ++
      jsonBreak ind depth ++ [']'])
  | .obj [] => s%"{}"
  | .obj (m :: ms) => '{' :: (jsonBreak ind (depth + 1) ++ encodeMember html ind (depth + 1) m ++ encodeMembers html ind (depth + 1) ms ++
      jsonBreak ind depth ++ ['}'])
/-- see `encodeJson`: a key and its value -/
def encodeMember (html : Bool) (ind : Nat) (depth : Nat) : Str × JVal → Str
  | (k, v) => quoteJson html k ++ s%": " ++ encodeJson html ind depth v
/-- see `encodeJson`: the elements after the first -/
def encodeElems (html : Bool) (ind : Nat) (depth : Nat) : List JVal → Str
  | [] => []
  | v :: vs => ',' :: (jsonBreak ind depth ++ encodeJson html ind depth v ++ encodeElems html ind depth vs)
/-- see `encodeJson`: the members after the first -/
def encodeMembers (html : Bool) (ind : Nat) (depth : Nat) : List (Str × JVal) → Str
  | [] => []
  | m :: ms => ',' :: (jsonBreak ind depth ++ encodeMember html ind depth m ++ encodeMembers html ind depth ms)
end

/-- encoding/json: a slice of strings that may be nil. -/
def sliceJson : Option (List Str) → JVal
  | none => .null
  | some l => .arr (l.map .str)

/-- A slice to which strings are appended, starting with nil. -/
def appended (l : List Str) : Option (List Str) := if l = [] then none else some l

/-- encoding/json: a map, its keys sorted. -/
def mapJson {α : Type} (f : α → JVal) (m : GoMap α) : JVal :=
  .obj ((sortStrings (GoMap.keys m)).map fun k => (k, match GoMap.get? m k with | some v => f v | none => .null))

/-! ### The documents -/

/-- cmd/structs.go:36-46: the fields of a `LoadResult`. -/
def resultJson (r : LoadResult) : JVal :=
  .obj [(s%"Package", .str r.package), (s%"Version", .str r.version), (s%"Path", .str r.path), (s%"Exiterr", .str r.exiterr),
    (s%"Stdout", .str r.stdout), (s%"Stderr", .str r.stderr), (s%"Success", .bool r.success)]

/-- cmd/structs.go:71-75: the fields of `RSessionMetadata`. -/
structure RSessionMetadata where
  libPaths : List Str
  rPath : Str
  rVersion : Str
deriving Repr, DecidableEq

/-- cmd/structs.go:14-18, 71-75: the fields of a `LoadReport`. -/
def reportJson (md : RSessionMetadata) (r : LoadReport) : JVal :=
  .obj [(s%"RMetadata", .obj [(s%"LibPaths", sliceJson (appended md.libPaths)), (s%"RPath", .str md.rPath), (s%"RVersion", .str md.rVersion)]),
    (s%"LoadResults", mapJson resultJson r.results), (s%"Failures", .num r.failures)]

/-- cmd/utils.go:69-76 `JsonMarshal` (the encoder ends the document with a line break). -/
def jsonMarshal (v : JVal) : Str := encodeJson false 4 0 v ++ ['\n']

/-- cmd/load.go:189-196 `printJsonLoadReport`. -/
def loadOutput (md : RSessionMetadata) (r : LoadReport) : Str := jsonMarshal (reportJson md r) ++ s%" \n"

/-- cmd/experiment.go:72-78 `prettyPrint`. -/
def prettyPrint (v : JVal) : Str := encodeJson true 2 0 v ++ ['\n']

/-- cmd/inspect.go:124-126: the table of dependencies printed. -/
def depsOutput (sel : GoMap (Option (List Str))) : Str := prettyPrint (mapJson sliceJson sel)

/-- cmd/inspect.go:129-131, pacman/utils.go:70-85, 136-140: `inspect --installed-from`. -/
def installedFromOutput (i : InstalledFrom) : Str :=
  prettyPrint (.obj [(s%"pkgr", sliceJson (appended i.pkgr)), (s%"packrat", sliceJson (appended i.packrat)), (s%"unknown", sliceJson (appended i.unknown))])

end Pkgr
