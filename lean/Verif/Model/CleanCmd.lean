/-
Model of the commands `pkgr clean`, `pkgr clean cache` and `pkgr clean pkgdbs` as wholes: cmd/clean.go:53-76,
cmd/cleanCache.go:63-66, cmd/cleanPkgdb.go:50-114. Their parts are in Model/Archive.lean; what they plan first
(cmd/cleanPkgdb.go:89) is in Model/PkgDb.lean, Model/Tarballs.lean and Model/Plan.lean.
-/
import Verif.Model.PkgDb
import Verif.Model.Tarballs

namespace Pkgr

/-- What the commands find: the configuration, the surroundings, and the orders that the runtime chooses. -/
structure CleanEnv where
  /-- surroundings of opening the repositories -/
  repo : RepoEnv
  /-- `Customizations: Repos:` -/
  custom : List (GoMap RepoCustom)
  /-- `Repos:` -/
  repos : List (GoMap Str)
  /-- iteration orders (repositories, their settings, names to clear) -/
  ρ₁ : Order
  ρ₂ : Order
  ρ₃ : Order
  sched : List (Nat × Bool)
  /-- the rest of what planning reads -/
  cfg : PlanCfg
  installed : GoMap Desc
  libraryExists : Bool
  ρ : Order
  ρ' : Order
  ρ'' : Order
  /-- `Tarballs:` with the files (`none`: it cannot be opened) -/
  tarballs : List (Str × Option Tarball)
  /-- `Descriptions:` -/
  descriptions : List Path
  parse : Str → Option Desc
  digest : Str → Str
  /-- the file names that occur -/
  names : List Str
  /-- `Cache:`, working directory and the user's cache directory -/
  cfgCache : Str
  cwd : Path
  base : Path

/-- What the commands work on: the file system with the package cache, and the directory of the databases. -/
structure CacheWorld where
  fs : Fs
  dbs : DbCache

/-- How a command (or a part) ends: it ends the program, leaving these databases behind (what it leaves in the package
cache is not modelled then), or it goes on. -/
inductive CleanEnd (α : Type) where
  | ended (dbs : DbCache)
  | done (w : CacheWorld) (x : α)

/-- cmd/plan.go:83-259 `planInstall` as `clean pkgdbs` calls it: open the repositories, unpack the tarballs, read the
DESCRIPTION files, plan. Missing packages do not end the program here (`exitOnMissing` is false). The repositories are
returned. -/
def CleanEnv.plan (s : CleanEnv) (w : CacheWorld) : CleanEnd (List RepoDb) :=
  match s.repo.openConfigured s.ρ₁ s.ρ₂ s.custom s.repos w.dbs s.sched with
  | (c, none) => .ended c
  | (c, some nx) =>
    match unpackTarballs s.digest s.names s.parse (userCache s.cfgCache s.cwd s.base) w.fs [] [] s.tarballs with
    | none => .ended c
    | some (fs, tb, table) =>
      match unpackDescriptions s.parse fs s.descriptions with
      | none => .ended c
      | some ds =>
        match planInstall s.cfg nx s.installed s.libraryExists tb ds table s.ρ s.ρ' s.ρ'' with
        | .badCustomization => .ended c
        | .failed _ => .ended c
        | .missing _ => .done { fs := fs, dbs := c } (ignorePackages nx s.cfg.ignore).db
        | .planned _ nx' _ => .done { fs := fs, dbs := c } nx'.db

/-- cmd/cleanPkgdb.go:57-70: the names that are meant. -/
def CleanEnv.namesOf (s : CleanEnv) (arg : Str) : List Str :=
  if arg = s%"ALL" then (s.repos.flatMap fun m => s.ρ₃ 0 (GoMap.keys m)) else splitOn ',' arg

/-- cmd/cleanPkgdb.go:94-109: one database, for one name. -/
def CleanEnv.dropDb (s : CleanEnv) (name : Str) (c : DbCache) (db : RepoDb) : DbCache :=
  if db.repo.name = name then c.put (repoDbCacheFile s.repo.md5hex s.repo.platform db s.repo.rv) none else c

/-- cmd/cleanPkgdb.go:93-110: all databases, for one name. -/
def CleanEnv.dropDbs (s : CleanEnv) (dbs : List RepoDb) (c : DbCache) (name : Str) : DbCache := dbs.foldl (s.dropDb name) c

/-- cmd/cleanPkgdb.go:50-114: `pkgr clean pkgdbs --repos=arg`. -/
def CleanEnv.cleanPkgdbs (s : CleanEnv) (arg : Str) (w : CacheWorld) : CleanEnd Unit :=
  match s.plan w with
  | .ended c => .ended c
  | .done w' dbs => .done { fs := w'.fs, dbs := (s.namesOf arg).foldl (s.dropDbs dbs) w'.dbs } ()

/-- cmd/clean.go:53-76: `pkgr clean`, with or without `--all`. The flags of `clean cache` have their defaults. With
`--all` the databases count as old (cmd/clean.go:58). -/
def CleanEnv.clean (s : CleanEnv) (all : Bool) (w : CacheWorld) : CleanEnd Unit :=
  if all then
    match cleanCacheFolders s.digest s.names s.cfgCache s.cwd s.base {} (s.tarballs.map fun t => t.2.map Tarball.bytes) w.fs with
    | none => .ended w.dbs
    | some fs => CleanEnv.cleanPkgdbs { s with repo := { s.repo with maxAge := some 0 } } (s%"ALL") { w with fs := fs }
  else .done w ()

end Pkgr
