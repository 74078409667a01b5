/- Model of opening the repositories: cran/repodb.go `NewRepoDb`, `FetchPackages` with its cache directory, and
cran/pkg_nexus.go `NewPkgDb`, cmd/plan.go from the configuration to the package database. -/
import Verif.Model.Download
import Verif.Model.Config
import Verif.Model.Plan

namespace Pkgr

/-- What a request for an index file gives. -/
inductive Answer where
  /-- HTTP 200, or the file, read to the end (cran/repodb.go:187-188, 198-200) -/
  | text (body : Str)
  /-- another HTTP status, a read error, or no such file (cran/repodb.go:174-193, 201-205) -/
  | refused
  /-- no connection: log.Fatal (cran/repodb.go:169-173) -/
  | unreachable
deriving Repr, DecidableEq

/-- A file of the database cache: its modification time (seconds) and the decoded tables; `none` when gob cannot
decode it (a file that was not written to its end). -/
structure DbFile where
  mtime : Int
  tables : Option (GoMap Desc × Option (GoMap Desc))
deriving Repr, DecidableEq

/-- The database cache directory: file name to file. -/
abbrev DbCache := Str → Option DbFile

/-- What does not change while the repositories are opened. -/
structure RepoEnv where
  platform : Platform
  /-- the control-file library (desc.ParseDesc) -/
  decode : Str → Option RawDesc
  /-- the md5 digest -/
  md5hex : Str → Str
  linuxUri : Str := []
  rv : RVersion
  /-- R_AVAILABLE_PACKAGES_CACHE_CONTROL_MAX_AGE as a number of seconds -/
  maxAge : Option Int := none
  now : Int
  server : Str → Answer
  /-- whether writing a cache file goes to its end without error (it may be interrupted) -/
  writes : Bool := true

/-- How opening a repository ends. -/
inductive OpenErr where
  /-- panic or log.Fatal in a fetch goroutine: the program ends -/
  | abort
  /-- every index failed (cran/repodb.go:267-269) -/
  | fetch
  /-- the cache file cannot be decoded (cran/repodb.go:136) -/
  | decode
  /-- the cache file cannot be written (cran/repodb.go:271) -/
  | write
deriving Repr, DecidableEq

/-- cran/repodb.go:102-112 `GetPackagesFileURL`. -/
def RepoEnv.indexURL (e : RepoEnv) (db : RepoDb) (st : SourceType) : Str :=
  packagesDirURL e.platform.os e.linuxUri e.rv db st ++ s%"PACKAGES"

/-- cran/repodb.go:166-206: the text of an index; `none` when it cannot be had. -/
def Answer.body : Answer → Option Str
  | .text b => some b
  | _ => none

/-- cran/repodb.go:166-248: the result of the fetch goroutine of one source type. -/
def RepoEnv.fetchType (e : RepoEnv) (db : RepoDb) (st : SourceType) : SourceType × Except LoadErr (GoMap Desc) :=
  (st, fetchOne e.decode e.rv (e.server (e.indexURL db st)).body)

/-- The source types of a database (the keys of `DescriptionsBySourceType`). -/
def RepoDb.types (db : RepoDb) : List SourceType := if db.bin.isSome then [.source, .binary] else [.source]

/-- A fetch goroutine that ends the program: no connection (cran/repodb.go:172) or a panic in the parser. -/
def RepoEnv.aborts (e : RepoEnv) (db : RepoDb) (st : SourceType) : Bool :=
  e.server (e.indexURL db st) = .unreachable || (match (e.fetchType db st).2 with | .error .panic => true | _ => false)

/-- `cache[file] = f`. -/
def DbCache.put (c : DbCache) (k : Str) (f : Option DbFile) : DbCache := fun q => if q = k then f else c q

/-- cran/repodb.go:161-271: fetch everything and write the cache file; `swap`: the binary index arrives first.  A
write that does not get to its end leaves a file that cannot be decoded. -/
def RepoEnv.fetchAndStore (e : RepoEnv) (c : DbCache) (k : Str) (db : RepoDb) (swap : Bool) : DbCache × Except OpenErr RepoDb :=
  let c := c.put k none
  if db.types.any (e.aborts db) then (c, .error .abort)
  else
    let arrivals := (if swap then db.types.reverse else db.types).map (e.fetchType db)
    match collectFetches db arrivals with
    | .error _ => (c, .error .fetch)
    | .ok db' =>
      if e.writes then (c.put k (some { mtime := e.now, tables := some (db'.src, db'.bin) }), .ok db')
      else (c.put k (some { mtime := e.now, tables := none }), .error .write)

/-- cran/repodb.go:119-272 `FetchPackages`: a fresh cache file is decoded, a stale one removed and everything fetched
again.  (The error of removing it is only printed; it is taken to succeed.) -/
def RepoEnv.fetchPackages (e : RepoEnv) (c : DbCache) (db : RepoDb) (swap : Bool) : DbCache × Except OpenErr RepoDb :=
  let k := repoDbCacheFile e.md5hex e.platform db e.rv
  match cacheAction ((c k).map DbFile.mtime) e.now e.maxAge with
  | .fetch => e.fetchAndStore c k db swap
  | .decode =>
    match (c k).bind DbFile.tables with
    | some (src, bin) => (c, .ok (decodeInto db { src := src, bin := bin }))
    | none => (c, .error .decode)

/-- cran/repodb.go:28-52 `NewRepoDb`. -/
def RepoEnv.newRepoDb (e : RepoEnv) (c : DbCache) (url : RepoURL) (dst : SourceType) (rc : RepoConfig) (swap : Bool) :
    DbCache × Except OpenErr RepoDb :=
  e.fetchPackages c (initRepoDb e.platform url dst rc) swap

/-- cran/pkg_nexus.go:34-42: the goroutines of the repositories.  `sched` is the order in which they get their work
done, as (position, arrival order of its two indices).  Goroutines of different cache files do not touch the same
data; two repositories with one cache file are taken to run one after the other. -/
def RepoEnv.openAll (e : RepoEnv) (urls : List RepoURL) (dst : SourceType) (cfg : GoMap RepoConfig) :
    DbCache → List (Nat × Bool) → DbCache × List (Nat × Except OpenErr RepoDb)
  | c, [] => (c, [])
  | c, (i, swap) :: rest =>
    let url := urls.getD i {}
    let r := e.newRepoDb c url dst ((GoMap.get? cfg url.name).getD {}) swap
    let q := e.openAll urls dst cfg r.1 rest
    (q.1, (i, r.2) :: q.2)

/-- cran/pkg_nexus.go:46-59: one result stored: a database in its slot. -/
def slotStep (slots : List (Option RepoDb)) (r : Nat × Except OpenErr RepoDb) : List (Option RepoDb) :=
  match r.2 with
  | .ok d => slots.set r.1 (some d)
  | .error _ => slots

/-- Whether a repository could not be opened. -/
def failedOpen (r : Nat × Except OpenErr RepoDb) : Bool := match r.2 with | .ok _ => false | .error _ => true

/-- cran/pkg_nexus.go:17-62 `NewPkgDb` and cmd/plan.go:159-162 (log.Panicln on any error): all repositories open, or
the program ends.  `arrivals` is the order in which the results are received. -/
def RepoEnv.newPkgDb (e : RepoEnv) (urls : List RepoURL) (dst : SourceType) (cfg : GoMap RepoConfig) (c : DbCache)
    (sched : List (Nat × Bool)) : DbCache × Option Nexus :=
  if urls = [] then (c, none)
  else
    let q := e.openAll urls dst cfg c sched
    if q.2.any failedOpen then (q.1, none)
    else (q.1, some { db := (q.2.foldl slotStep (List.replicate urls.length none)).filterMap id, packages := [],
                      defaultSourceType := dst })

/-- cmd/plan.go:126-162: from the configured repositories and their customizations to the package database. -/
def RepoEnv.openConfigured (e : RepoEnv) (ρ ρ' : Order) (custom : List (GoMap RepoCustom)) (repos : List (GoMap Str)) (c : DbCache)
    (sched : List (Nat × Bool)) : DbCache × Option Nexus :=
  e.newPkgDb ((repoURLs ρ 0 custom repos).map fun r => { name := r.1, url := r.2.1, suffix := r.2.2 }) (defaultType e.platform)
    (repoSettings ρ' 0 custom []) c sched

end Pkgr
