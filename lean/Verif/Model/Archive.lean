/-
Model of internal/archive/extract.go, cmd/tarballOps.go, cmd/cleanCache.go, cmd/cleanPkgdb.go (removePackageDatabases)
and cmd/utils.go userCache.

The archive reader (github.com/mholt/archives) is represented by the entries it delivers and by whether it ends with an
error; every file operation that can fail for reasons of its own has an outcome parameter. Permissions are not modelled,
and the file system has no links (`Node`): an entry that is neither a directory nor a regular file is `other`.
-/
import Verif.Model.Fs
import Verif.Model.Env
import Verif.Model.RepoDb

namespace Pkgr

/-- Listing a directory. `names` is a list, in the order in which listings are delivered, of all the file names that occur
anywhere in the file system (a model of the file system as a function has no listing of its own). -/
def Fs.ls (names : List Str) (fs : Fs) (p : Path) : List Str := names.filter fun n => fs.ex (p ++ [n])

/-! ### internal/archive/extract.go -/

/-- What an archive entry is. -/
inductive EntryKind where
  | dir
  | regular (content : Str)
  | other
deriving Repr, DecidableEq

/-- `archives.FileInfo`: the name in the archive and the kind. -/
structure Entry where
  name : Str
  kind : EntryKind
deriving Repr, DecidableEq

/-- Go `filepath.IsLocal` on unix. -/
def isLocal (name : Str) : Bool :=
  if name = [] ∨ name.head? = some '/' then false
  else
    let p := if (splitOn '/' name).any (fun c => decide (c = s%"." ∨ c = s%"..")) then cleanPath name else name
    !(decide (p = s%"..") || hasPrefix p (s%"../"))

/-- `os.MkdirAll` succeeds unless a part of the path is a file. -/
def Fs.mkdirAllOk (fs : Fs) (p : Path) : Bool :=
  (List.range (p.length + 1)).all fun n => match fs (p.take n) with
    | some (.file _) => false
    | _ => true

/-- How opening and writing a file ends. `copyFails` also stands for an interruption in the middle of the write: the file is there with a part of
its content. -/
inductive IoEnd where
  | ok
  | openFails
  | copyFails (written : Str)
deriving Repr, DecidableEq

/-- internal/archive/extract.go:87-111: a regular file, its parent directory being there. -/
def writeNew (fs : Fs) (target : Path) (content : Str) : IoEnd → Fs × Bool
  | .openFails => (fs, false)
  | .copyFails w => if fs.ex target then (fs, false) else (fs.set target (.file w), false)
  | .ok => if fs.ex target then (fs, false) else (fs.set target (.file content), true)

/-- internal/archive/extract.go:74-115 `extractFile`; the second component is false on an error. -/
def extractFile (root : Path) (fs : Fs) (e : Entry) (io : IoEnd) : Fs × Bool :=
  if isLocal e.name then
    match e.kind with
    | .dir =>
      let target := joinPath root e.name
      if fs.mkdirAllOk target then (fs.mkdirAll target, true) else (fs, false)
    | .regular content =>
      let target := joinPath root e.name
      if fs.mkdirAllOk (dirPath target) then writeNew (fs.mkdirAll (dirPath target)) target content io else (fs, false)
    | .other => (fs, false)
  else (fs, false)

/-- The reader calls `extractFile` for one entry after the other and stops at the first error. All states are kept, the
last one first: an interrupted extraction leaves one of them behind. -/
def extractLoop (root : Path) (readOk : Bool) : Fs → List (Entry × IoEnd) → List Fs → List Fs × Bool
  | fs, [], past => (fs :: past, readOk)
  | fs, (e, io) :: es, past =>
    match extractFile root fs e io with
    | (fs', true) => extractLoop root readOk fs' es (fs :: past)
    | (fs', false) => (fs' :: fs :: past, false)

/-- internal/archive/extract.go:38-72 `Extract` of an archive with these entries to the directory `dir`. `readOk`: the
archive is intact to its end. Simplification: identifying and opening the archive, and clearing and making the
destination, succeed. -/
def extract (fs : Fs) (dir : Path) (entries : List (Entry × IoEnd)) (readOk : Bool) : List Fs × Bool :=
  let fs1 := fs.removeAll dir
  extractLoop dir readOk (fs1.mkdirAll dir) entries [fs1, fs]

/-- The state of the file system when `Extract` is over. -/
def lastState (fs : Fs) (l : List Fs) : Fs := l.head?.getD fs

/-! ### cmd/tarballOps.go -/

/-- A tarball as the program sees it: its bytes (for the digest), its entries, and whether it is intact. -/
structure Tarball where
  bytes : Str
  entries : List (Entry × IoEnd)
  readOk : Bool := true

/-- How `untar` ends. -/
inductive UntarEnd where
  | fatal
  | folder (p : Path)
deriving Repr, DecidableEq

/-- cmd/tarballOps.go:96-136: the first (alphabetically) directory in the unpacked tarball; `names` is
sorted. -/
def pickFolder (names : List Str) (fs : Fs) (dir : Path) : UntarEnd :=
  match (fs.ls names dir).filter fun n => fs.isDir (dir ++ [n]) with
  | [] => .fatal
  | n :: _ => .folder (dir ++ [n])

/-- cmd/tarballOps.go:51-137 `untar`; `digest` gives the first 16 hexadecimal digits of the MD5 sum (139-147). The states
are those it goes through, the last one first. -/
def untar (digest : Str → Str) (names : List Str) (fs : Fs) (cache : Path) (t : Tarball) : List Fs × UntarEnd :=
  let dir := cache ++ [digest t.bytes]
  if fs.isDir dir then ([fs], pickFolder names fs dir)
  else match extract fs dir t.entries t.readOk with
    | (l, false) => (l, .fatal)
    | (l, true) => (l, pickFolder names (lastState fs l) dir)

/-! ### cmd/utils.go, cmd/cleanCache.go -/

/-- cmd/utils.go:16-32 `userCache`: `base` is the user's cache directory, or the temporary directory if there is none. -/
def userCache (cfgCache : Str) (cwd base : Path) : Path :=
  if cfgCache ≠ [] then (if hasPrefix cfgCache (s%"/") then joinPath [] cfgCache else joinPath cwd cfgCache)
  else base ++ [s%"pkgr"]

/-- cmd/cleanCache.go:150-167 and 176-201: one repository folder. `fs.Remove` of an empty directory removes it. -/
def clearFolder (names : List Str) (cache : Path) (sub : Str) (fs : Fs) (folder : Str) : Fs :=
  let fs := fs.removeAll (cache ++ [folder, sub])
  if (fs.ls names (cache ++ [folder])).isEmpty then fs.removeAll (cache ++ [folder]) else fs

/-- cmd/cleanCache.go:148-205: which folders are visited, in which order. -/
def foldersToClear (repos folders : List Str) : List Str :=
  if repos.isEmpty then folders else repos.flatMap fun r => folders.filter fun f => r = f

/-- cmd/cleanCache.go:134-207 `deleteCacheSubfolders` (`none`: the nil file of a missing directory is dereferenced). -/
def deleteCacheSubfolders (names : List Str) (fs : Fs) (repos : List Str) (sub : Str) (cache : Path) : Option Fs :=
  if fs.ex cache then
    let folders := (fs.ls names cache).filter fun n => fs.isDir (cache ++ [n])
    some ((foldersToClear repos folders).foldl (clearFolder names cache sub) fs)
  else none

/-- The flags of the command. -/
structure CleanFlags where
  srcOnly : Bool := false
  binariesOnly : Bool := false
  repos : Str := s%"ALL"

/-- cmd/cleanCache.go:70-76: the `--repos` option. -/
def reposOption (s : Str) : List Str := if s = s%"ALL" then [] else splitOn ',' s

/-- cmd/cleanCache.go:84-99 (`none`: crash; the flag combination error leaves the tarballs alone, too). -/
def cleanKinds (names : List Str) (fs : Fs) (fl : CleanFlags) (cache : Path) : Option (Fs × Bool) :=
  let repos := reposOption fl.repos
  match fl.srcOnly, fl.binariesOnly with
  | false, false => do
    let fs ← deleteCacheSubfolders names fs repos (s%"src") cache
    let fs ← deleteCacheSubfolders names fs repos (s%"binary") cache
    some (fs, true)
  | true, true => some (fs, false)
  | true, false => (deleteCacheSubfolders names fs repos (s%"src") cache).map (·, true)
  | false, true => (deleteCacheSubfolders names fs repos (s%"binary") cache).map (·, true)

/-- cmd/cleanCache.go:116: the directory removed for a tarball: joined to the configured cache as it is written in the
configuration (an empty text gives a path in the working directory). -/
def tarballDir (cfgCache : Str) (cwd : Path) (hash : Str) : Path :=
  (if hasPrefix cfgCache (s%"/") then joinPath [] cfgCache else joinPath cwd cfgCache) ++ [hash]

/-- cmd/cleanCache.go:103-124: tarballs that cannot be opened (`none`) are skipped. -/
def cleanTarball (digest : Str → Str) (cfgCache : Str) (cwd : Path) (fs : Fs) : Option Str → Fs
  | some bytes => fs.removeAll (tarballDir cfgCache cwd (digest bytes))
  | none => fs

/-- cmd/cleanCache.go:68-127 `cleanCacheFolders` (`none`: crash). -/
def cleanCacheFolders (digest : Str → Str) (names : List Str) (cfgCache : Str) (cwd base : Path) (fl : CleanFlags)
    (tarballs : List (Option Str)) (fs : Fs) : Option Fs :=
  match cleanKinds names fs fl (userCache cfgCache cwd base) with
  | none => none
  | some (fs, false) => some fs
  | some (fs, true) => some (tarballs.foldl (cleanTarball digest cfgCache cwd) fs)

/-! ### cmd/cleanPkgdb.go -/

/-- `fs.Remove` of a file. Simplification: removing a directory is not modelled (nothing happens). -/
def Fs.removeFile (fs : Fs) (p : Path) : Fs :=
  match fs p with
  | some (.file _) => fun q => if q = p then none else fs q
  | _ => fs

/-- cmd/cleanPkgdb.go:93-110: one database. -/
def removeDb (file : RepoDb → Path) (name : Str) (fs : Fs) (db : RepoDb) : Fs :=
  if db.repo.name = name then fs.removeFile (file db) else fs

/-- cmd/cleanPkgdb.go:93-110: the databases of one name. -/
def removeDbs (file : RepoDb → Path) (dbs : List RepoDb) (fs : Fs) (name : Str) : Fs := dbs.foldl (removeDb file name) fs

/-- cmd/cleanPkgdb.go:83-114 `removePackageDatabases`: `dbs` are the databases of the configured repositories (after a
plan was made), `file` gives the cache file of each. -/
def removePackageDatabases (file : RepoDb → Path) (names : List Str) (dbs : List RepoDb) (fs : Fs) : Fs :=
  names.foldl (removeDbs file dbs) fs

/-- cmd/cleanPkgdb.go:57-70: which names are meant. -/
def dbNames (arg : Str) (repos : List Str) : List Str := if arg = s%"ALL" then repos else splitOn ',' arg

end Pkgr
