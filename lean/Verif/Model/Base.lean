/-
Base vocabulary of the model: strings, Go maps, map-iteration oracles and the
handful of `strings`/`strconv` library functions that pkgr uses.

Simplification, used everywhere: a Go string (bytes) is modelled as a list of
Unicode characters; invalid UTF-8 is not modelled.
-/

namespace Pkgr

/-- A Go string, as its list of characters (valid UTF-8 only). -/
abbrev Str := List Char

open Lean in
/-- String literal as an explicit list of characters (so that the kernel can compute with it). -/
macro "s%" s:str : term => do
  let cs := s.getString.toList.map (fun c => Syntax.mkCharLit c)
  `(([$(cs.toArray),*] : List Char))

/-! ### Go maps -/

/-- A Go `map[string]α` as an association list; well-formed maps have distinct keys. -/
abbrev GoMap (α : Type) := List (Str × α)

namespace GoMap
variable {α : Type}

/-- `m[k]` with the comma-ok form. -/
def get? (m : GoMap α) (k : Str) : Option α :=
  match m with
  | [] => none
  | (k', v) :: m => if k' = k then some v else get? m k

/-- `_, ok := m[k]` -/
def has (m : GoMap α) (k : Str) : Bool := (get? m k).isSome

/-- `delete(m, k)` -/
def del (m : GoMap α) (k : Str) : GoMap α := m.filter (fun e => e.1 ≠ k)

/-- `m[k] = v` -/
def put (m : GoMap α) (k : Str) (v : α) : GoMap α := (k, v) :: del m k

/-- The keys of the map in storage order (iteration order is given by an `Order` oracle). -/
def keys (m : GoMap α) : List Str := m.map Prod.fst

/-- Well-formed: no duplicate keys.  Every map built from `[]` by `put`/`del` is well-formed. -/
def WF (m : GoMap α) : Prop := (keys m).Nodup
end GoMap

/-- The order in which successive `for k := range m` loops visit keys: the `t`-th loop executed by
the program over a map with keys `l` visits them in order `ρ t l`. -/
abbrev Order := Nat → List Str → List Str

/-- Go only promises that each key is visited exactly once. -/
def Order.Fair (ρ : Order) : Prop := ∀ t l, (ρ t l).Perm l

/-! ### `strings` -/

/-- Go `unicode.IsSpace` (the White_Space characters), as used by `strings.TrimSpace`. -/
def isSpace (c : Char) : Bool :=
  let n := c.toNat
  (9 ≤ n && n ≤ 13) || n == 0x20 || n == 0x85 || n == 0xA0 || n == 0x1680 ||
  (0x2000 ≤ n && n ≤ 0x200a) || n == 0x2028 || n == 0x2029 || n == 0x202f || n == 0x205f || n == 0x3000

/-- Remove the longest suffix whose characters satisfy `p`. -/
def trimRightBy (p : Char → Bool) : Str → Str
  | [] => []
  | c :: s =>
    match trimRightBy p s with
    | [] => if p c then [] else [c]
    | r => c :: r

/-- Go `strings.TrimSpace` -/
def trimSpace (s : Str) : Str := trimRightBy isSpace (s.dropWhile isSpace)

/-- Go `strings.HasPrefix` -/
def hasPrefix : Str → Str → Bool
  | _, [] => true
  | [], _ :: _ => false
  | c :: s, d :: p => c = d && hasPrefix s p

/-- Go `strings.HasSuffix` -/
def hasSuffix (s p : Str) : Bool := hasPrefix s.reverse p.reverse

/-- Go `strings.Contains` -/
def contains (s p : Str) : Bool :=
  match s with
  | [] => p = []
  | c :: s' => hasPrefix (c :: s') p || contains s' p

/-- Go `strings.Replace(s, old, new, 1)` (`old` non-empty): replace the first occurrence. -/
def replaceFirst (s old new : Str) : Str :=
  match s with
  | [] => []
  | c :: s' => if hasPrefix (c :: s') old then new ++ (c :: s').drop old.length
               else c :: replaceFirst s' old new

/-- Go `strings.Split(s, sep)` for a one-character separator. -/
def splitOn (sep : Char) : Str → List Str
  | [] => [[]]
  | c :: s =>
    if c = sep then [] :: splitOn sep s
    else match splitOn sep s with
      | [] => [[c]]
      | w :: ws => (c :: w) :: ws

/-- Go `regexp.MustCompile("[...]").Split(s, n)` for a character class: at most `n` pieces, the last
one keeping its separators. -/
def splitNBy (p : Char → Bool) : Nat → Str → List Str
  | 0, _ => []
  | 1, s => [s]
  | _ + 2, [] => [[]]
  | n + 2, c :: s =>
    if p c then [] :: splitNBy p (n + 1) s
    else match splitNBy p (n + 2) s with
      | [] => [[c]]
      | w :: ws => (c :: w) :: ws

/-! ### `strconv.Atoi` (64-bit) -/

/-- ASCII digit value. -/
def digit? (c : Char) : Option Nat :=
  if 48 ≤ c.toNat ∧ c.toNat ≤ 57 then some (c.toNat - 48) else none

/-- Loop of Go `strconv.ParseUint(s, 10, 64)`: `none` is a syntax error; overflow stops at once with
the maximal value. -/
def parseUintLoop : Nat → Str → Option Nat
  | n, [] => some n
  | n, c :: s =>
    match digit? c with
    | none => none
    | some d => if n * 10 + d ≥ 2 ^ 64 then some (2 ^ 64 - 1) else parseUintLoop (n * 10 + d) s

/-- The value part of Go `strconv.Atoi`: a syntax error gives 0, a range error saturates; pkgr always
drops the error. -/
def atoi (s : Str) : Int :=
  let (neg, body) : Bool × Str :=
    match s with
    | '+' :: r => (false, r)
    | '-' :: r => (true, r)
    | r => (false, r)
  if body = [] then 0
  else match parseUintLoop 0 body with
    | none => 0
    | some n =>
      if neg then (if n > 2 ^ 63 then -(2 ^ 63) else -(n : Int))
      else (if n ≥ 2 ^ 63 then 2 ^ 63 - 1 else (n : Int))

end Pkgr
