/-
A file system, as far as pkgr uses it: a partial map from absolute cleaned paths to nodes.
Simplifications: no permissions, links, times; a path is the list of its components (the root is `[]`).
Text files are characters; `goutils.ReadLinesFS`/`WriteLinesFS` (a dependency of pkgr, not in /repo) are
modelled by `readLines`/`writeLines` after their use of `bufio.ScanLines` and one "\n" per line.
-/
import Verif.Model.Base

namespace Pkgr

/-- An absolute, cleaned path (list of components). -/
abbrev Path := List Str

/-- A directory entry. -/
inductive Node where
  | dir
  | file (content : Str)
deriving Repr, DecidableEq

/-- A file system. -/
abbrev Fs := Path → Option Node

/-- A path argument as Go sees it: absolute, or relative (`rel []` is the empty string). -/
inductive PathArg where
  | abs (p : Path)
  | rel (p : Path)
deriving Repr, DecidableEq

/-- Go `if !filepath.IsAbs(p) { p = filepath.Clean(filepath.Join(cwd, p)) }` (relative paths are taken to be
clean already). -/
def PathArg.resolve (cwd : Path) : PathArg → Path
  | .abs p => p
  | .rel p => cwd ++ p

namespace Fs

/-- `afero.Exists` / `goutils.Exists` (no I/O errors). -/
def ex (fs : Fs) (p : Path) : Bool := (fs p).isSome

/-- `afero.DirExists` / `goutils.DirExists`. -/
def isDir (fs : Fs) (p : Path) : Bool := fs p = some .dir

/-- Replace the node at `p`. -/
def set (fs : Fs) (p : Path) (n : Node) : Fs := fun q => if q = p then some n else fs q

/-- `fs.RemoveAll`. -/
def removeAll (fs : Fs) (p : Path) : Fs := fun q => if p <+: q then none else fs q

/-- `fs.MkdirAll` when it succeeds: every missing ancestor of `p` and `p` itself become directories. -/
def mkdirAll (fs : Fs) (p : Path) : Fs := fun q => if q <+: p ∧ fs q = none then some .dir else fs q

end Fs

/-- One component of Go `filepath.Join`: empty and "." vanish, ".." goes up. -/
def joinComp (p : Path) (c : Str) : Path :=
  if c = [] ∨ c = s%"." then p else if c = s%".." then p.dropLast else p ++ [c]

/-- Go `filepath.Join(p, s)` for an absolute clean `p` and any string `s`. -/
def joinPath (p : Path) (s : Str) : Path := (splitOn '/' s).foldl joinComp p

/-- Go `filepath.Join(p, s₁, …, sₙ)` for an absolute clean `p`. -/
def joinPaths (p : Path) (ss : List Str) : Path := ss.foldl joinPath p

/-- Go `filepath.Base` of an absolute clean path. -/
def basePath (p : Path) : Str := p.getLast?.getD (s%"/")

/-- Go `filepath.Dir` of an absolute clean path. -/
def dirPath (p : Path) : Path := p.dropLast

/-- bufio.ScanLines: a trailing carriage return is dropped from a line. -/
def dropCR (l : Str) : Str := if l.getLast? = some '\r' then l.dropLast else l

/-- `goutils.ReadLinesFS`: the lines of a text; a final line terminator does not start another line.
Simplification: if the library reads with a `bufio.Scanner`, it stops at a line of 64 KiB; that limit is modelled for the
configuration file (`configLines`) but not here (DESCRIPTION files). -/
def readLines (s : Str) : List Str :=
  let ls := splitOn '\n' s
  (if ls.getLast? = some [] then ls.dropLast else ls).map dropCR

/-- `goutils.WriteLinesFS`: every line followed by a newline. -/
def writeLines (ls : List Str) : Str := ls.flatMap (· ++ ['\n'])

end Pkgr
