/- Independent vocabulary for C151-C153: DESCRIPTION files and records of an index as written. -/
import Verif.Model.Dep
import Verif.Spec.RepoDb
import Verif.Spec.Text
import Verif.Spec.Config
import Verif.Spec.Install

namespace Pkgr.Spec
open Pkgr

/-- The lists have the same length and their elements are related one by one. -/
def PairedBy {α β : Type} (R : α → β → Prop) : List α → List β → Prop
  | [], [] => True
  | a :: as, b :: bs => R a b ∧ PairedBy R as bs
  | _, _ => False

/-- A field of a DESCRIPTION as written: its name, the rest of the line after the colon, and the continuation lines. -/
structure DescField where
  name : Str
  line : Str
  more : List Str := []
deriving Repr, DecidableEq

/-- The lines of a field. -/
def DescField.lines (f : DescField) : List Str := (f.name ++ ':' :: f.line) :: f.more

/-- The lines of a list of fields. -/
def fieldLines (fs : List DescField) : List Str := fs.flatMap DescField.lines

/-- A field that can be written: a name (no white space at its ends, no colon, not a comment), lines without line breaks,
continuation lines that begin with a blank or a tab. -/
structure DescField.Valid (f : DescField) : Prop where
  nonempty : f.name ≠ []
  bare : Stripped f.name f.name
  colon : ':' ∉ f.name
  comment : f.name.head? ≠ some '#'
  nameLine : '\n' ∉ f.name
  oneLine : '\n' ∉ f.line
  moreLines : ∀ l ∈ f.more, '\n' ∉ l ∧ (l.head? = some ' ' ∨ l.head? = some '\t')

/-- What a continuation line says: the text after its first character, without white space at the end; a dot alone stands
for an empty line. -/
def ContSays (l t : Str) : Prop :=
  ∃ c body ws, l = c :: (body ++ ws) ∧ (∀ x ∈ ws, White x) ∧ (∀ x, body.getLast? = some x → ¬ White x) ∧
    t = if body = s%"." then [] else body

/-- What a field says: the text on its first line without white space around it; with continuation lines: all the lines,
each ended by a newline (the first one only if there is something on it). -/
def DescField.Says (f : DescField) (v : Str) : Prop :=
  ∃ first rest, Stripped f.line first ∧ PairedBy ContSays f.more rest ∧
    v = if f.more = [] then first else textOf ((if first = [] then [] else [first]) ++ rest)

/-- The field of that name that counts: the last one. -/
def lastNamed (fs : List DescField) (k : Str) : Option DescField := (fs.filter fun f => decide (f.name = k)).getLast?

/-- The text of the field `k`; nothing if there is no such field. -/
def TextIs (fs : List DescField) (k v : Str) : Prop :=
  match lastNamed fs k with
  | some f => f.Says v
  | none => v = []

/-- Layout characters in a list of dependencies. -/
def Layout1 (c : Char) : Prop := c = '\n' ∨ c = '\r' ∨ c = '\t' ∨ c = ' '

/-- `t` is `s` without layout at its ends. -/
def Unlaid (s t : Str) : Prop :=
  ∃ a b, s = a ++ t ++ b ∧ (∀ c ∈ a, Layout1 c) ∧ (∀ c ∈ b, Layout1 c) ∧
    (∀ c, t.head? = some c → ¬ Layout1 c) ∧ ∀ c, t.getLast? = some c → ¬ Layout1 c

/-- `xs` are the items of the comma separated list `v`. -/
def ListItems (v : Str) (xs : List Str) : Prop := ∃ ps, Components ',' v ps ∧ PairedBy Unlaid ps xs

/-- The items of the field `k`; none if there is no such field. -/
def ItemsAre (fs : List DescField) (k : Str) (xs : List Str) : Prop :=
  match lastNamed fs k with
  | some f => ∃ v, f.Says v ∧ ListItems v xs
  | none => xs = []

/-- The record says what these fields say. -/
structure SaysFields (fs : List DescField) (raw : RawDesc) : Prop where
  package : TextIs fs (s%"Package") raw.package
  version : TextIs fs (s%"Version") raw.version
  path : TextIs fs (s%"Path") raw.path
  repository : TextIs fs (s%"Repository") raw.repository
  imports : ItemsAre fs (s%"Imports") raw.imports
  suggests : ItemsAre fs (s%"Suggests") raw.suggests
  depends : ItemsAre fs (s%"Depends") raw.depends
  linkingTo : ItemsAre fs (s%"LinkingTo") raw.linkingTo
  pkgrVersion : TextIs fs (s%"PkgrVersion") raw.pkgrVersion
  pkgrInstallType : TextIs fs (s%"PkgrInstallType") raw.pkgrInstallType
  pkgrRepositoryURL : TextIs fs (s%"PkgrRepositoryURL") raw.pkgrRepositoryURL

/-- A line that counts as blank. -/
def BlankLine (l : Str) : Prop := l = [] ∨ l = s%"\r"

/-- A continuation line. -/
def ContLine (l : Str) : Prop := l.head? = some ' ' ∨ l.head? = some '\t'

/-- A comment. -/
def CommentLine (l : Str) : Prop := l.head? = some '#'

/-- A line that must name a field: neither blank nor comment nor continuation. -/
def FieldLine (l : Str) : Prop := ¬ BlankLine l ∧ ¬ CommentLine l ∧ ¬ ContLine l

/-- A list of dependencies with one item on each line, as R writes it: a comma after every line but the last. -/
def onePerLine (indent : Str) : List Str → List Str
  | [] => []
  | [x] => [indent ++ x]
  | x :: xs => (indent ++ x ++ s%",") :: onePerLine indent xs

/-- A list of dependencies on a single line. -/
def onOneLine : List Str → Str
  | [] => []
  | [x] => x
  | x :: xs => x ++ s%", " ++ onOneLine xs

/-- An item of such a list: not empty, no layout at its ends, no comma, no line break. -/
def PlainItem (x : Str) : Prop :=
  x ≠ [] ∧ ',' ∉ x ∧ '\n' ∉ x ∧ (∀ c, x.head? = some c → ¬ White c) ∧ (∀ c, x.getLast? = some c → ¬ White c)

/-- The text is a file with these fields: blank lines may come first; the last newline may be missing; after a blank line
anything may follow. -/
def FileOf (fs : List DescField) (t : Str) : Prop :=
  ∃ blanks, (∀ l ∈ blanks, BlankLine l) ∧
    (t = textOf (blanks ++ fieldLines fs) ∨ t ++ s%"\n" = textOf (blanks ++ fieldLines fs) ∨
      ∃ b rest, BlankLine b ∧ t = textOf (blanks ++ fieldLines fs ++ [b]) ++ rest)

/-- The three fields that pkgr writes. -/
def PkgrField (k : Str) : Prop := k = s%"PkgrVersion" ∨ k = s%"PkgrInstallType" ∨ k = s%"PkgrRepositoryURL"

/-- A DESCRIPTION that can be stamped safely: pkgr's fields and the field `Repository` take one line each, no other line
mentions pkgr's fields, and there are no carriage returns. -/
structure Stampable (fs : List DescField) : Prop where
  valid : ∀ f ∈ fs, f.Valid
  nonempty : fs ≠ []
  single : ∀ f ∈ fs, PkgrField f.name ∨ f.name = s%"Repository" → f.more = []
  unmarked : ∀ f ∈ fs, ¬ PkgrField f.name → ∀ l ∈ f.lines, NoMarker l
  noCR : ∀ l ∈ fieldLines fs, '\r' ∉ l

/-- The text of an index: its records, each with a number of blank lines after it. -/
def indexText : List (List DescField × Nat) → Str
  | [] => []
  | (r, n) :: rest => textOf (fieldLines r) ++ List.replicate n '\n' ++ indexText rest

/-- There is a blank line after every record but the last. -/
def SeparatedBy : List (List DescField × Nat) → Prop
  | [] => True
  | [_] => True
  | (_, n) :: rest => 0 < n ∧ SeparatedBy rest

/-- The number of blank lines at the end. -/
def blanksAtEnd (rs : List (List DescField × Nat)) : Nat := ((rs.getLast?).map Prod.snd).getD 0

/-- The record lists the package `k` with the description `d` for this version of R. -/
def Records (rv : RVersion) (r : List DescField) (k : Str) (d : Desc) : Prop :=
  ∃ raw, SaysFields r raw ∧ newDesc raw = some d ∧ d.package = k ∧ d.path = [] ∧ RunsOn rv d

end Pkgr.Spec
