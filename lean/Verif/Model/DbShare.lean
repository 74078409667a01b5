/-
Model of the file of a cached repository database when several runs use it at the same time: cran/repodb.go
`FetchPackages` (119-142, 271), `Decode` (55-64) and `Encode` (67-84), one system call after the other.  The operating
system: a name leads to a file (inode); an open file stays what it is when its name is removed; creating a file whose
name exists empties that very file; a write goes to the writer's own offset.
Simplifications: removing the stale file does not fail when it is there; the contents of a file are characters.
-/
import Verif.Model.RepoDb
import Verif.Model.Fetching

namespace Pkgr

/-- The name of the database file and the files that it leads, or ever led, to. -/
structure DbDisk where
  /-- the file the name leads to now -/
  entry : Option Nat
  content : Nat → Str
  mtime : Nat → Int
  /-- the number of the next file -/
  next : Nat

/-- Where a run is in `FetchPackages`. -/
inductive DbPc (α : Type) where
  | start
  /-- the file is stale and about to be removed -/
  | removing
  /-- the indices are being fetched -/
  | fetching
  /-- fetched; the file is about to be created, its contents will be `bytes` -/
  | creating (d : α) (bytes : Str)
  /-- the first `off` characters are written to a file -/
  | writing (d : α) (file : Nat) (off : Nat) (bytes : Str)
  /-- the file is fresh and about to be opened -/
  | opening
  /-- what was read of a file up to now -/
  | reading (file : Nat) (acc : Str)
  /-- the repository is open -/
  | got (d : α)
  /-- `FetchPackages` returned an error: the run ends (cmd/plan.go:159-162) -/
  | failed
  /-- the run was interrupted -/
  | dead

/-- The steps of a run. -/
inductive DbAct (α : Type) where
  | stat (now : Int)
  | remove
  | fetched (d : α) (bytes : Str)
  | create (now : Int)
  | write (n : Nat) (now : Int)
  | close
  | openFile
  | read (n : Nat)
  | decode
  /-- an error of the network or of the disk -/
  | error
  | killed

/-- `f` with another value at `i`. -/
def setAt {β : Type} (f : Nat → β) (i : Nat) (v : β) : Nat → β := fun j => if j = i then v else f j

/-- cran/repodb.go:119-142, 161-271, 55-84: one step of a run (`none`: not possible now).  `dec`: what the gob decoder makes of
the characters read (`none`: it wants more); `age`: R_AVAILABLE_PACKAGES_CACHE_CONTROL_MAX_AGE of the run. -/
def dbAct {α : Type} (dec : Str → Option α) (age : Option Int) (k : DbDisk) : DbPc α → DbAct α → Option (DbDisk × DbPc α)
  -- 123-136
  | .start, .stat now =>
    match cacheAction (k.entry.map k.mtime) now age with
    | .decode => some (k, .opening)
    | .fetch => some (k, if k.entry.isSome then .removing else .fetching)
  -- 137-141: an error is only printed
  | .removing, .remove => some ({ k with entry := none }, .fetching)
  -- 161-267
  | .fetching, .fetched d bytes => some (k, .creating d bytes)
  | .fetching, .error => some (k, .failed)
  -- 72: `os.Create`
  | .creating d bytes, .create now =>
    match k.entry with
    | some i => some ({ k with content := setAt k.content i [], mtime := setAt k.mtime i now }, .writing d i 0 bytes)
    | none => some ({ entry := some k.next, content := setAt k.content k.next [], mtime := setAt k.mtime k.next now, next := k.next + 1 },
        .writing d k.next 0 bytes)
  | .creating _ _, .error => some (k, .failed)
  -- 79
  | .writing d i off bytes, .write n now =>
    if 0 < n ∧ off + n ≤ bytes.length then
      some ({ k with content := setAt k.content i (writeAt (k.content i) off ((bytes.drop off).take n)), mtime := setAt k.mtime i now },
        .writing d i (off + n) bytes)
    else none
  | .writing d _ off bytes, .close => if off = bytes.length then some (k, .got d) else none
  | .writing _ _ _ _, .error => some (k, .failed)
  -- 56-60
  | .opening, .openFile =>
    match k.entry with
    | some i => some (k, .reading i [])
    | none => some (k, .failed)
  -- 62-63: the decoder reads on until it has the whole value or the file ends
  | .reading i acc, .read n =>
    if 0 < n ∧ (dec acc).isNone then
      match (k.content i).drop acc.length with
      | [] => some (k, .failed)
      | c :: r => some (k, .reading i (acc ++ (c :: r).take n))
    else none
  | .reading _ acc, .decode => (dec acc).map fun d => (k, .got d)
  | .got _, _ => none
  | .failed, _ => none
  | .dead, _ => none
  | _, .killed => some (k, .dead)
  | _, _ => none

/-- The file and where every run is. -/
structure DbShared (α : Type) where
  disk : DbDisk
  pcs : Nat → DbPc α

/-- The next step is step `a` of run `i`. -/
def dbStep {α : Type} (dec : Str → Option α) (age : Nat → Option Int) (s : DbShared α) (i : Nat) (a : DbAct α) : Option (DbShared α) :=
  (dbAct dec (age i) s.disk (s.pcs i) a).map fun r => { disk := r.1, pcs := setAt s.pcs i r.2 }

end Pkgr
