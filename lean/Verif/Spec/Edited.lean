/- Vocabulary for C167: what the reader of the configuration finds in a file that `add` or `remove` have edited. -/
import Verif.Spec.Config

namespace Pkgr.Spec
open Pkgr

/-- A line without the characters that have a special meaning anywhere in a YAML document (quotes, brackets, anchors, tabs and so on), and that
does not end a document. -/
def SimpleLine (l : Str) : Prop :=
  PlainLine l ∧ (∀ c ∈ l, c ∉ s%"\"'[]{}|>&*!%@`?\t\r") ∧ ¬ (s%"---") <+: l ∧ ¬ (s%"...") <+: l

/-- The line begins with a letter: as the line of a key does that is not below another one. -/
def KeyLine (l : Str) : Prop := ∃ c, l.head? = some c ∧ c.isAlpha = true

/-- A blank line, or one with a comment only. -/
def RemarkLine (l : Str) : Prop := SimpleLine l ∧ ∃ k rest, l = spaces k ++ rest ∧ (rest = [] ∨ rest.head? = some '#')

/-- What may follow on a line: nothing, or blanks and a comment. -/
def LineTail (t : Str) : Prop := t = [] ∨ ∃ k rest, t = ' ' :: spaces k ++ '#' :: rest

/-- The name of an R package (letters, digits and dots, beginning with a letter) that YAML reads as a text, not as `true` or the like. -/
def NameText (s : Str) : Prop :=
  KeyLine s ∧ (∀ c ∈ s, c.isAlphanum = true ∨ c = '.') ∧
  s.map Char.toLower ∉ [s%"null", s%"true", s%"false", s%"yes", s%"no", s%"on", s%"off", s%"y", s%"n"]

/-- An entry of the list of packages, with the comments and blank lines above it. -/
structure Item where
  above : List Str := []
  name : Str
  tail : Str := []

/-- Its lines, when the list is indented by `n`. -/
def Item.lines (n : Nat) (i : Item) : List Str := i.above ++ [entry n i.name ++ i.tail]

/-- As it should be. -/
def Item.Ok (n : Nat) (i : Item) : Prop := (∀ l ∈ i.above, RemarkLine l) ∧ NameText i.name ∧ LineTail i.tail ∧ SimpleLine (entry n i.name ++ i.tail)

/-- The list of packages: the entries, and comments and blank lines below. -/
def listing (n : Nat) (items : List Item) (below : List Str) : List Str := items.flatMap (Item.lines n) ++ below

/-- As it should be. -/
def ListingOk (n : Nat) (items : List Item) (below : List Str) : Prop := (∀ i ∈ items, i.Ok n) ∧ ∀ l ∈ below, RemarkLine l

/-- What is around the section `Packages`: simple lines, no other key of that name in whatever case; both parts begin, comments and blank lines aside,
with a key. -/
def AroundPackages (before after : List Str) : Prop :=
  (∀ l ∈ before ++ after, SimpleLine l ∧ ¬ (s%"packages") <+: l.map Char.toLower) ∧
  (∀ R l T, before = R ++ l :: T → (∀ x ∈ R, RemarkLine x) → ¬ RemarkLine l → KeyLine l) ∧ (∀ l ∈ after.head?, KeyLine l)

/-- The line of the key, possibly with a comment. -/
def header (t : Str) : Str := s%"Packages:" ++ t

/-- What is taken for granted of the reader of configuration files (a library), which gives the packages and the rest of the configuration: in a file of
simple lines, the list under the key `Packages` gives the packages in order, and it can be exchanged for another list without any other
effect; comments and blank lines have no effect; and in a file that has no such key, it can be added at the end. -/
structure ReadsLists {γ : Type} (read : Str → Option (List Str × γ)) : Prop where
  exchange : ∀ (before after : List Str) (t : Str) (n n' : Nat) (items items' : List Item) (below below' : List Str) (ps : List Str) (r : γ),
    AroundPackages before after → LineTail t → SimpleLine (header t) → ListingOk n items below → ListingOk n' items' below' →
    read (textOf (before ++ header t :: (listing n items below ++ after))) = some (ps, r) →
    ps = items.map Item.name ∧ read (textOf (before ++ header t :: (listing n' items' below' ++ after))) = some (items'.map Item.name, r)
  addition : ∀ (before blank : List Str) (n : Nat) (items : List Item) (ps : List Str) (r : γ),
    AroundPackages before [] → (∀ l ∈ blank, RemarkLine l) → ListingOk n items [] → read (textOf before) = some (ps, r) →
    ps = [] ∧ read (textOf (before ++ blank ++ header [] :: listing n items [])) = some (items.map Item.name, r)

/-- Also taken for granted, for files with the list of packages in brackets: an entry that stands below such a list is an error. -/
def RejectsMixed {γ : Type} (read : Str → Option (List Str × γ)) : Prop :=
  ∀ (before after : List Str) (names : Str) (n : Nat) (p : Str), (∀ l ∈ before, SimpleLine l) → (∀ c ∈ names, c.isAlphanum = true ∨ c = '.' ∨ c = ' ' ∨ c = ',') →
    (∀ l ∈ after, PlainLine l) → NameText p → read (textOf (before ++ (s%"Packages: [" ++ names ++ s%"]") :: entry n p :: after)) = none

/-! ### Histories of edits -/

/-- An edit: `pkgr add` or `pkgr remove`, with its arguments. -/
inductive Edit where
  | add (pkgs : List Str)
  | remove (pkgs : List Str)

/-- The packages that should be listed after it, if these were listed before. -/
def Edit.listed (ps : List Str) : Edit → List Str
  | .add new => (new.filter fun p => !ps.contains p) ++ ps
  | .remove old => ps.filter fun p => !old.contains p

/-- What is asked of an edit, where these packages are listed, the list is indented by `n` and `around` are the other lines of the file: there are arguments, and they are
names; for `add`, that the list is not empty; for `remove`, that no listed package has a longer name that begins with the given one, and that no line outside
the list begins like an entry for it. -/
def Edit.Fine (n : Nat) (around ps : List Str) : Edit → Prop
  | .add new => new ≠ [] ∧ ps ≠ [] ∧ ∀ p ∈ new, NameText p ∧ SimpleLine (entry n p)
  | .remove old => old ≠ [] ∧ ∀ p ∈ old, NameText p ∧ (∀ x ∈ ps, p <+: x → x = p) ∧ ∀ l ∈ around, ¬ BeginsAs p l

/-- All edits of a history are fine, each for the packages that are listed by then. -/
def AllFine (n : Nat) (around : List Str) : List Str → List Edit → Prop
  | _, [] => True
  | ps, e :: es => e.Fine n around ps ∧ AllFine n around (e.listed ps) es

end Pkgr.Spec
