/- Model of cran/repodb.go, cran/r_version.go, the SourceType part of cran/download-package.go and the
platform switches of cran/utils.go. -/
import Verif.Model.Dep

namespace Pkgr

/-- cran/download-package.go:53-60 `SourceType` (Default = 0, Source = 1, Binary = 2). -/
inductive SourceType where
  | default | source | binary
deriving Repr, DecidableEq

/-- cran/download-package.go:20-36 `RepoType` (CRAN when unset). -/
inductive RepoType where
  | cran | mpn | rspm
deriving Repr, DecidableEq

/-- `runtime.GOOS`, as far as pkgr distinguishes it. -/
inductive OS where
  | darwin | windows | linux | other
deriving Repr, DecidableEq

/-- The platform: operating system plus the result of `linuxKnownSupportsBinary` (cran/utils.go:89-103,
reading /etc/os-release, not modelled further). -/
structure Platform where
  os : OS
  linuxKnown : Bool := false
deriving Repr, DecidableEq

/-- cran/utils.go:55-66 `DefaultType`. -/
def defaultType (p : Platform) : SourceType :=
  match p.os with
  | .darwin => .binary
  | .windows => .binary
  | .linux => .source
  | .other => .source

/-- cran/utils.go:70-85 `SupportsBinary`. -/
def supportsBinary (p : Platform) (rt : RepoType) : Bool :=
  match p.os with
  | .darwin => true
  | .windows => true
  | .linux => p.linuxKnown && rt = .mpn
  | .other => false

/-- cran/download-package.go:41-49 `SourceType.String`, on the underlying integer: Default is replaced by
the platform default, 2 is "binary", every other number is "source". -/
def sourceTypeString (p : Platform) (n : Nat) : Str :=
  let n := if n = 0 then (match defaultType p with | .binary => 2 | _ => 1) else n
  if n = 2 then s%"binary" else s%"source"

/-- cran/structs.go:13-17 `RepoURL`. -/
structure RepoURL where
  url : Str := []
  name : Str := []
  suffix : Str := []
deriving Repr, DecidableEq

/-- cran/structs.go:20-26 `RepoDb`: the map `DescriptionsBySourceType` always has a Source entry and
has a Binary entry iff binaries are supported (cran/repodb.go:40-49); it never has a Default entry. -/
structure RepoDb where
  src : GoMap Desc := []
  bin : Option (GoMap Desc) := none
  repo : RepoURL := {}
  defaultSourceType : SourceType := .default
  repoSuffix : Str := []
deriving Repr, DecidableEq

/-- `db.DescriptionsBySourceType[st]` (a missing key reads as the empty map). -/
def RepoDb.table (db : RepoDb) : SourceType → GoMap Desc
  | .source => db.src
  | .binary => db.bin.getD []
  | .default => []

/-- `len(db.DescriptionsBySourceType)`. -/
def RepoDb.numTypes (db : RepoDb) : Nat := if db.bin.isSome then 2 else 1

/-- `db.DescriptionsBySourceType[st] = m` (cran/repodb.go:263). -/
def RepoDb.setTable (db : RepoDb) (st : SourceType) (m : GoMap Desc) : RepoDb :=
  match st with
  | .source => { db with src := m }
  | .binary => { db with bin := some m }
  | .default => db

/-- cran/structs.go:35-39 `RepoConfig`. -/
structure RepoConfig where
  defaultSourceType : SourceType := .default
  repoType : RepoType := .cran
  repoSuffix : Str := []
deriving Repr, DecidableEq

/-- cran/structs.go:80-84 `RVersion`. -/
structure RVersion where
  major : Nat
  minor : Nat
  patch : Nat
deriving Repr, DecidableEq

/-- Decimal rendering of a natural number (`%v`). -/
def natStr (n : Nat) : Str := Nat.toDigits 10 n

/-- cran/r_version.go:6-8 `ToFullString`. -/
def RVersion.toFullString (rv : RVersion) : Str :=
  natStr rv.major ++ '.' :: (natStr rv.minor ++ '.' :: natStr rv.patch)

/-- cran/r_version.go:11-13 `ToString`. -/
def RVersion.toStr (rv : RVersion) : Str := natStr rv.major ++ '.' :: natStr rv.minor

/-- cran/repodb.go:28-49: `NewRepoDb` up to the fetch.  (The suffix stored in the by-value `url` at line 46
is lost: `Repo` was copied at line 32.) -/
def initRepoDb (p : Platform) (url : RepoURL) (dst : SourceType) (rc : RepoConfig) : RepoDb :=
  { src := [], bin := if supportsBinary p rc.repoType then some [] else none,
    repo := url,
    defaultSourceType := if rc.defaultSourceType = .default then dst else rc.defaultSourceType,
    repoSuffix := rc.repoSuffix }

/-- cran/repodb.go:283-309 `checkRVersionCompatibility`.  `none`: parsing the R version panics (it never
does, see the proofs). -/
def checkRVersionCompatibility (rv : RVersion) (c : Dep) : Option Bool :=
  (parseVersion rv.toFullString).map fun inst =>
    match c.constraint with
    | .gt => decide (compareVersions inst c.version > 0)
    | .gte => decide (compareVersions inst c.version ≥ 0)
    | .lt => decide (compareVersions inst c.version < 0)
    | .lte => decide (compareVersions inst c.version ≤ 0)
    | .equals => decide (compareVersions inst c.version = 0)
    | .none => false

/-- cran/repodb.go:274-281 `isRVersionCompatible`. -/
def isRVersionCompatible (d : Desc) (rv : RVersion) : Option Bool :=
  match GoMap.get? d.depends (s%"R") with
  | some c => checkRVersionCompatibility rv c
  | none => some true

/-- cran/repodb.go:208 `bytes.ReplaceAll(body, "\r\n", "\n")`. -/
def normalizeCRLF : Str → Str
  | [] => []
  | '\r' :: '\n' :: s => '\n' :: normalizeCRLF s
  | c :: s => c :: normalizeCRLF s

/-- cran/repodb.go:209 `bytes.Split(body, "\n\n")`. -/
def splitBlank : Str → List Str
  | [] => [[]]
  | '\n' :: '\n' :: s => [] :: splitBlank s
  | c :: s =>
    match splitBlank s with
    | [] => [[c]]
    | w :: ws => (c :: w) :: ws

/-- Why loading an index stops. -/
inductive LoadErr where
  /-- the fetch itself failed: HTTP status, read error or missing file (cran/repodb.go:174-193, 201-205) -/
  | fetch
  /-- a stanza does not decode (cran/repodb.go:225-230) -/
  | badStanza
  /-- the program aborts: a dependency or version panics (desc/desc.go:42, desc/version.go:13) -/
  | panic
deriving Repr, DecidableEq

/-- cran/repodb.go:214-246: the stanza loop.  `decode` is the control-file library (not modelled). -/
def loadStanzas (decode : Str → Option RawDesc) (rv : RVersion) :
    List Str → GoMap Desc → Except LoadErr (GoMap Desc)
  | [], m => .ok m
  | pkg :: rest, m =>
    if pkg.length = 0 then loadStanzas decode rv rest m
    else match decode pkg with
      | none => .error .badStanza
      | some raw =>
        match newDesc raw with
        | none => .error .panic
        | some d =>
          match isRVersionCompatible d rv with
          | none => .error .panic
          | some valid =>
            if valid && d.path = [] then loadStanzas decode rv rest (GoMap.put m d.package d)
            else loadStanzas decode rv rest m

/-- cran/repodb.go:166-248: one fetch goroutine; `body = none` is a failed fetch. -/
def fetchOne (decode : Str → Option RawDesc) (rv : RVersion) (body : Option Str) :
    Except LoadErr (GoMap Desc) :=
  match body with
  | none => .error .fetch
  | some b => loadStanzas decode rv (splitBlank (normalizeCRLF b)) []

/-- cran/repodb.go:252-262: one result received: an error is counted and remembered, a database is stored. -/
def collectFetchStep (acc : RepoDb × Nat × Option LoadErr) (r : SourceType × Except LoadErr (GoMap Desc)) :
    RepoDb × Nat × Option LoadErr :=
  match r.2 with
  | .error e => (acc.1, acc.2.1 + 1, some e)
  | .ok m => (acc.1.setTable r.1 m, acc.2.1, acc.2.2)

/-- cran/repodb.go:252-271: collecting the results in arrival order.  `.ok db` means the function goes on
to write the cache file and returns its error (nil unless the cache cannot be written). -/
def collectFetches (db : RepoDb) (arrivals : List (SourceType × Except LoadErr (GoMap Desc))) :
    Except LoadErr RepoDb :=
  let (db', errorCount, lasterr) := arrivals.foldl collectFetchStep (db, 0, none)
  if db.numTypes > 1 && errorCount = db.numTypes then .error (lasterr.getD .fetch)
  else .ok db'

/-- The goroutines started by cran/repodb.go:161-251 for a database: one per source type. -/
def fetchResults (decode : Str → Option RawDesc) (rv : RVersion) (db : RepoDb)
    (body : SourceType → Option Str) : List (SourceType × Except LoadErr (GoMap Desc)) :=
  (SourceType.source, fetchOne decode rv (body .source)) ::
    (if db.bin.isSome then [(SourceType.binary, fetchOne decode rv (body .binary))] else [])

/-- cran/repodb.go:124-134: is a cache file of modification time `mtime` (seconds) used at time `now`?
`env` is the value of R_AVAILABLE_PACKAGES_CACHE_CONTROL_MAX_AGE as parsed (`none`: unset or not a
number).  Simplified: seconds are unbounded, whereas `time.Duration` wraps around above some 292 years. -/
def cacheIsFresh (mtime now : Int) (env : Option Int) : Bool :=
  mtime + env.getD 3600 > now

/-- What cran/repodb.go:119-272 does with the cache file: read it, or fetch (after removing a stale
one). -/
inductive CacheAction where
  | decode | fetch
deriving Repr, DecidableEq

/-- cran/repodb.go:123-142: `cached = none` when the file does not exist. -/
def cacheAction (cached : Option Int) (now : Int) (env : Option Int) : CacheAction :=
  match cached with
  | none => .fetch
  | some mtime => if cacheIsFresh mtime now env then .decode else .fetch

/-- cran/repodb.go:92-95: `stsum`, starting at Source (1) and adding `st + 1` per source type. -/
def stsum (db : RepoDb) : Nat := 1 + (1 + 1) + (if db.bin.isSome then 2 + 1 else 0)

/-- cran/repodb.go:97: the text that is hashed.  `fmt.Sprint(stsum)` prints a `SourceType`, so it calls
`SourceType.String`. -/
def hashInput (p : Platform) (db : RepoDb) (rVersion : Str) : Str :=
  db.repo.name ++ db.repo.url ++ sourceTypeString p (stsum db) ++ rVersion

/-- cran/repodb.go:87-99, 312-319: the cache file name; `md5hex` is the digest. -/
def repoDbCacheFile (md5hex : Str → Str) (p : Platform) (db : RepoDb) (rv : RVersion) : Str :=
  md5hex (hashInput p db rv.toFullString)

/-- cran/repodb.go:55-64 `Decode`: gob decodes into the existing map, so decoded source types replace
the current ones and other source types stay. -/
def decodeInto (db cached : RepoDb) : RepoDb :=
  { db with src := cached.src, bin := match cached.bin with | some b => some b | none => db.bin }

end Pkgr
