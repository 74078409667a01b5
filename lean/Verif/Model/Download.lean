/-
Model of cran/download-package.go and of the URLs of cran/repodb.go:102-112, cran/utils.go:142-157.
The servers (and the local repositories, which pkgr only reads) are an oracle from URLs to responses.
Simplifications: the cache base directory is absolute (cran/download-package.go:154-158 makes the path absolute); TLS (see
Model/Web.lean), timing and log output are left out.
-/
import Verif.Model.Install

namespace Pkgr

/-- How a request for a package file is answered. -/
inductive Response where
  /-- client.Get fails (cran/download-package.go:203-207) -/
  | netError
  /-- an HTTP status other than 200 (lines 209-219) -/
  | badStatus
  /-- the local file does not exist (lines 224-230) -/
  | noLocalFile
  /-- the content that could be read, and whether reading reached the end (line 246) -/
  | body (content : Str) (complete : Bool)
deriving Repr, DecidableEq

/-- The fixed surroundings of the downloads. -/
structure DlEnv where
  server : Str → Response
  digest : Str → Str
  platform : Platform
  rhel : Bool := false
  /-- cran/utils.go:111-140 `getLinuxBinaryUri` (reads /etc/os-release) -/
  linuxUri : Str := []
  rv : RVersion
  /-- the package cache -/
  base : Path

/-- cran/utils.go:142-157 `cranBinaryURL`. -/
def cranBinaryURL (os : OS) (linuxUri : Str) (rv : RVersion) : Str :=
  match os with
  | .darwin => if rv.major = 4 then s%"macosx" else s%"macosx/el-capitan"
  | .windows => s%"windows"
  | .linux => s%"linux/" ++ linuxUri
  | .other => []

/-- Go `strings.TrimSuffix(s, "/")`. -/
def trimSlash (s : Str) : Str := if s.getLast? = some '/' then s.dropLast else s

/-- cran/download-package.go:96-98: Default becomes the platform default. -/
def resolveType (p : Platform) (t : SourceType) : SourceType := if t = .default then defaultType p else t

/-- cran/download-package.go:94-121: where a package is stored. -/
def DlEnv.dest (e : DlEnv) (d : PkgDl) : Path :=
  let hash := repoUrlHash e.digest d.config.repo
  match resolveType e.platform d.config.type with
  | .binary =>
    joinPaths e.base [hash, s%"binary", e.rv.toStr, cranBinaryName e.platform.os e.rhel d.package.package d.package.version]
  | _ => joinPaths e.base [hash, s%"src", sourceName d.package.package d.package.version]

/-- cran/download-package.go:173-189: the URL (the type is already resolved). -/
def DlEnv.url (e : DlEnv) (d : PkgDl) (dest : Path) : Str :=
  let root := trimSlash d.config.repo.url
  if d.config.type = .source then root ++ s%"/src/contrib/" ++ basePath dest
  else if d.config.repo.suffix ≠ [] then
    root ++ s%"/bin/" ++ cranBinaryURL e.platform.os e.linuxUri e.rv ++ s%"/" ++ d.config.repo.suffix ++
      s%"/contrib/" ++ e.rv.toStr ++ s%"/" ++ basePath dest
  else
    root ++ s%"/bin/" ++ cranBinaryURL e.platform.os e.linuxUri e.rv ++ s%"/contrib/" ++ e.rv.toStr ++ s%"/" ++ basePath dest

/-- cran/repodb.go:102-112 `GetPackagesFileURL` without the file name PACKAGES. -/
def packagesDirURL (os : OS) (linuxUri : Str) (rv : RVersion) (db : RepoDb) (st : SourceType) : Str :=
  let root := trimSlash db.repo.url
  if st = .source then root ++ s%"/src/contrib/"
  else if db.repoSuffix ≠ [] ∧ os = .linux then
    root ++ s%"/bin/" ++ cranBinaryURL os linuxUri rv ++ s%"/" ++ db.repoSuffix ++ s%"/contrib/" ++ rv.toStr ++ s%"/"
  else root ++ s%"/bin/" ++ cranBinaryURL os linuxUri rv ++ s%"/contrib/" ++ rv.toStr ++ s%"/"

/-- What `DownloadPackage` returns. -/
inductive DlResult where
  /-- log.Fatal -/
  | fatal
  /-- a non-nil error -/
  | err
  /-- a nil error -/
  | ok (d : Download)
deriving Repr, DecidableEq

/-- cran/download-package.go:153-255 `DownloadPackage`: an existing file is used as it is; a bad status gives a
Download without path and a nil error (line 219 returns the shadowed, nil `err`); the file is written in
place. -/
def DlEnv.downloadPackage (e : DlEnv) (fs : Fs) (d : PkgDl) (dest : Path) : Fs × DlResult :=
  if fs.ex dest then (fs, .ok { path := .abs dest, new := false, metadata := d, size := 0 })
  else match e.server (e.url d dest) with
    | .netError => (fs, .err)
    | .badStatus => (fs, .ok { metadata := d })
    | .noLocalFile => (fs, .fatal)
    | .body c complete =>
      if !fs.isDir (dirPath dest) then (fs, .err)
      else if complete then
        (fs.set dest (.file c), .ok { path := .abs dest, new := true, metadata := d, size := c.length })
      else (fs.set dest (.file c), .err)

/-- Every file system state that exists at some moment of `DownloadPackage` (and that a crash may leave):
the destination is created empty and grows (lines 236-246). -/
def DlEnv.downloadStates (e : DlEnv) (fs : Fs) (d : PkgDl) (dest : Path) : List Fs :=
  if fs.ex dest then [fs]
  else match e.server (e.url d dest) with
    | .body c _ => if !fs.isDir (dirPath dest) then [fs] else fs :: (List.range (c.length + 1)).map fun k => fs.set dest (.file (c.take k))
    | _ => [fs]

/-! ### Concurrent downloads -/

/-- cran/download-package.go:62-68 `getRepos`: one repository per name, the last one. -/
def getRepos (ds : List PkgDl) : GoMap RepoURL :=
  ds.foldl (fun m d => GoMap.put m d.config.repo.name d.config.repo) []

/-- cran/download-package.go:80-88: the directories of one repository. -/
def DlEnv.mkRepoDirs (e : DlEnv) (fs : Fs) (r : RepoURL) : Fs :=
  let h := repoUrlHash e.digest r
  (fs.mkdirAll (joinPaths e.base [h, s%"src"])).mkdirAll (joinPaths e.base [h, s%"binary", e.rv.toStr])

/-- cran/download-package.go:79-90: the directories of all repositories (`MkdirAll` is taken to succeed;
the iteration order is irrelevant to the result). -/
def DlEnv.mkDirs (e : DlEnv) (fs : Fs) (ds : List PkgDl) : Fs :=
  ((getRepos ds).map Prod.snd).foldl e.mkRepoDirs fs

/-- A download goroutine: waiting for the semaphore, downloading, finished. -/
inductive DlPhase where
  | waiting | holding | done
deriving Repr, DecidableEq

/-- State of `DownloadPackages`: `phases` lists the goroutines started so far, in order. -/
structure DlState where
  fs : Fs
  phases : List DlPhase := []
  result : GoMap Download := []
  wg : Int := 0
  returned : Bool := false
  dead : Bool := false

/-- The steps. -/
inductive DlEvent where
  /-- lines 92-93: `wg.Add(1); go func…` for the next package -/
  | spawn
  /-- line 107: goroutine `i` gets a semaphore slot -/
  | acquire (i : Nat)
  /-- lines 108-140: goroutine `i` downloads, stores its result, releases the slot and calls `wg.Done` -/
  | finish (i : Nat)
  /-- line 142 -/
  | ret
deriving Repr, DecidableEq

/-- line 76: the capacity of the semaphore channel. -/
def semCap : Nat := 10

/-- lines 94-104: the package as the goroutine sees it (type resolved). -/
def DlEnv.resolved (e : DlEnv) (d : PkgDl) : PkgDl :=
  { d with config := { d.config with type := resolveType e.platform d.config.type } }

/-- cran/download-package.go:124-139: store a result; failures are only logged. -/
def storeResult (m : GoMap Download) (name : Str) : DlResult → GoMap Download
  | .ok dl => GoMap.put m name dl
  | _ => m

/-- One goroutine's download, storing and release. The download is one step: it touches only its own
destination. -/
def DlEnv.finishStep (e : DlEnv) (s : DlState) (i : Nat) (d : PkgDl) : DlState :=
  let r := e.downloadPackage s.fs (e.resolved d) (e.dest d)
  if r.2 = .fatal then { s with fs := r.1, dead := true }
  else { s with fs := r.1, phases := s.phases.set i .done, wg := s.wg - 1,
                result := storeResult s.result d.package.package r.2 }

/-- One step of `DownloadPackages` (`none`: not possible in this state). -/
def DlEnv.step (e : DlEnv) (ds : List PkgDl) (s : DlState) (ev : DlEvent) : Option DlState :=
  if s.dead || s.returned then none
  else match ev with
    | .spawn =>
      if s.phases.length < ds.length then some { s with phases := s.phases ++ [.waiting], wg := s.wg + 1 } else none
    | .acquire i =>
      if s.phases[i]? = some .waiting ∧ s.phases.count .holding < semCap then
        some { s with phases := s.phases.set i .holding }
      else none
    | .finish i =>
      match s.phases[i]?, ds[i]? with
      | some .holding, some d => some (e.finishStep s i d)
      | _, _ => none
    | .ret => if s.phases.length = ds.length ∧ s.wg = 0 then some { s with returned := true } else none

/-- cran/download-package.go:74-90: the state when the goroutines begin to be started. -/
def DlEnv.init (e : DlEnv) (fs : Fs) (ds : List PkgDl) : DlState := { fs := e.mkDirs fs ds }

/-- A finite execution. -/
def DlEnv.run (e : DlEnv) (ds : List PkgDl) : DlState → List DlEvent → Option DlState
  | s, [] => some s
  | s, ev :: evs =>
    match e.step ds s ev with
    | none => none
    | some s' => DlEnv.run e ds s' evs

end Pkgr
