/-
Model of rcmd/install.go (`Install`, `isInCache`, `InstallThroughBinary`, the DESCRIPTION stamping),
rcmd/helpers.go, the binary names of cran/utils.go and the worker count of cmd/utils.go.
R itself is an oracle: given a call and a file system it yields a new file system and an exit status.
Left out: log output, the text printed by R, the environment (modelled separately).
-/
import Verif.Model.Nexus
import Verif.Model.Fs

namespace Pkgr

/-! ### Number of workers -/

/-- cmd/utils.go:35-52 `getWorkerCount` (the warning is left out). -/
def getWorkerCount (threadCount numCpus : Int) : Int :=
  if threadCount < 1 then (if numCpus ≤ 8 then numCpus else 8) else threadCount

/-- cmd/root.go:85-86, configlib/config.go:213-220 and viper's precedence (a flag that was given, then the
configuration file, then `SetDefault`, which here is GOMAXPROCS): the value unmarshalled into
`cfg.Threads`. -/
def cfgThreads (flag config : Option Int) (gomaxprocs : Int) : Int :=
  match flag with
  | some n => n
  | none => match config with
    | some n => n
    | none => gomaxprocs

/-- cmd/install.go:113: the number of workers of an installation. -/
def installWorkers (flag config : Option Int) (gomaxprocs : Int) : Int :=
  getWorkerCount (cfgThreads flag config gomaxprocs) gomaxprocs

/-! ### Names of binaries -/

/-- rcmd/helpers.go:12-24 `binaryNameOs` (`none`: log.Fatal). -/
def binaryNameOs (os : OS) (pkg version platform : Str) : Option Str :=
  match os with
  | .darwin => some (pkg ++ s%"_" ++ version ++ s%".tgz")
  | .linux => some (pkg ++ s%"_" ++ version ++ s%"_R_" ++ platform ++ s%".tar.gz")
  | .windows => some (pkg ++ s%"_" ++ version ++ s%".zip")
  | .other => none

/-- rcmd/helpers.go:30-43 `binaryExtOs` applied to the base name of the tarball (`none`: log.Fatal). -/
def binaryExtOs (os : OS) (base platform : Str) : Option Str :=
  match os with
  | .darwin => some (replaceFirst base (s%"tar.gz") (s%"tgz"))
  | .linux => some (replaceFirst base (s%".tar.gz") (s%"_R_" ++ platform ++ s%".tar.gz"))
  | .windows => some (replaceFirst base (s%"tar.gz") (s%"zip"))
  | .other => none

/-- cran/download-package.go:121: the file name of a source tarball. -/
def sourceName (pkg version : Str) : Str := pkg ++ s%"_" ++ version ++ s%".tar.gz"

/-- cran/utils.go:34-51 `binaryName`: the file name of a downloaded binary; `rhel`: osRelease.Id = "rhel". -/
def cranBinaryName (os : OS) (rhel : Bool) (pkg version : Str) : Str :=
  match os with
  | .darwin => pkg ++ s%"_" ++ version ++ s%".tgz"
  | .linux =>
    if rhel then pkg ++ s%"_" ++ version ++ s%"_R_x86_64-redhat-linux-gnu.tar.gz"
    else pkg ++ s%"_" ++ version ++ s%"_R_x86_64-pc-linux-gnu.tar.gz"
  | .windows => pkg ++ s%"_" ++ version ++ s%".zip"
  | .other => []

/-- cran/utils.go:160-167 `RepoURLHash`; `digest` gives the first 12 hexadecimal digits of the MD5 sum. -/
def repoUrlHash (digest : Str → Str) (r : RepoURL) : Str := r.name ++ s%"-" ++ digest r.url

/-! ### Stamping a DESCRIPTION -/

/-- What `writeDescriptionInfo` stamps (rcmd/install.go:553-561). -/
structure Stamp where
  version : Str := []
  installType : Str := []
  repoURL : Str := []
  repo : Str := []
deriving Repr, DecidableEq

/-- rcmd/install.go:604-608: is this a line that gets dropped? -/
def isPkgrLine (line : Str) : Bool :=
  contains line (s%"PkgrVersion:") || contains line (s%"PkgrInstallType:") || contains line (s%"PkgrRepositoryURL")

/-- Go `strings.Trim(s, " ")`. -/
def trimBlanks (s : Str) : Str := trimRightBy (· = ' ') (s.dropWhile (· = ' '))

/-- rcmd/install.go:600-616: what one line contributes. -/
def stampLine (repo line : Str) : List Str :=
  if isPkgrLine line then []
  else if hasPrefix line (s%"Repository:") && trimSpace line ≠ trimSpace (s%"Repository: " ++ repo) then
    [s%"OriginalRepository: " ++ trimBlanks ((splitOn ':' line)[1]?.getD []), s%"Repository: " ++ repo]
  else [line]

/-- rcmd/install.go:597-623 `updateDescriptionInfoByLines`. -/
def stampLines (lines : List Str) (st : Stamp) : List Str :=
  lines.flatMap (stampLine st.repo) ++
    [s%"PkgrVersion: " ++ st.version, s%"PkgrInstallType: " ++ st.installType, s%"PkgrRepositoryURL: " ++ st.repoURL]

/-- rcmd/install.go:553-578 `writeDescriptionInfo`: a missing or unreadable DESCRIPTION is only logged. -/
def stampFile (fs : Fs) (lib : Path) (pkg : Str) (st : Stamp) : Fs :=
  match fs (lib ++ [pkg, s%"DESCRIPTION"]) with
  | some (.file c) => fs.set (lib ++ [pkg, s%"DESCRIPTION"]) (.file (writeLines (stampLines (readLines c) st)))
  | _ => fs

/-! ### Running R -/

/-- The parts of an R CMD INSTALL command line that matter (rcmd/install.go:122-151). -/
structure RCall where
  pkg : Str
  lib : Path
  build : Bool
  src : Path
  workDir : Path
deriving Repr, DecidableEq

/-- How the process ended (rcmd/install.go:152-184): success, a non-zero status, or it could not be run. -/
inductive RExit where
  | ok
  | status (n : Int)
  | notRun
deriving Repr, DecidableEq

/-- R, as an oracle. -/
abbrev ROracle := RCall → Fs → Fs × RExit

/-- The result of `Install` as its callers see it: exit code and whether the error is non-nil. -/
structure CmdRet where
  exitCode : Int
  err : Bool
deriving Repr, DecidableEq

/-- A computation over the file system together with the R calls made; `none` as a value: the process
panics or exits fatally at this point. -/
structure Ran (α : Type) where
  fs : Fs
  calls : List RCall
  val : Option α

/-- rcmd/install.go:157-184: exit code and error after `cmd.Run` (`defaultFailedCode` = 1,
rcmd/install.go / RunR.go). -/
def exitOf : RExit → CmdRet
  | .ok => { exitCode := 0, err := false }
  | .status n => { exitCode := n, err := true }
  | .notRun => { exitCode := 1, err := true }

/-- rcmd/install.go:68-222 `Install`.  `workDir = none`: es.WorkDir is empty.  A missing work directory
dereferences a nil error (lines 84-93). A missing package file gives exit code 1 with a nil error
(lines 101-120). -/
def install (R : ROracle) (cwd : Path) (fs : Fs) (pkg : Str) (path : PathArg) (lib : Path) (build : Bool)
    (workDir : Option Path) (st : Stamp) : Ran CmdRet :=
  let rdir := workDir.getD cwd
  if workDir.isSome && !fs.isDir rdir then { fs := fs, calls := [], val := none }
  else
    let src := path.resolve rdir
    if !fs.ex src then { fs := fs, calls := [], val := some { exitCode := 1, err := false } }
    else
      let call : RCall := { pkg := pkg, lib := lib, build := build, src := src, workDir := rdir }
      let r := R call fs
      { fs := if r.2 = .ok then stampFile r.1 lib pkg st else r.1, calls := [call], val := some (exitOf r.2) }

/-- cran/structs.go `Download`, as returned by `DownloadPackage`. -/
structure Download where
  path : PathArg := .rel []
  new : Bool := false
  metadata : PkgDl := {}
  size : Nat := 0
deriving Repr, DecidableEq

/-- The fixed surroundings of an installation. -/
structure InstallEnv where
  R : ROracle
  digest : Str → Str
  platform : Platform
  /-- rs.Platform: R's platform string -/
  rPlatform : Str
  rv : RVersion
  /-- working directory of the pkgr process -/
  cwd : Path
  /-- pc.BaseDir -/
  cache : Path
  pkgrVersion : Str

/-- rcmd/structs.go `InstallRequest`; the library is absolute (cmd/install.go:106) and the other arguments
are the defaults with Build set (rcmd/install.go:29-36). -/
structure InstallReq where
  pkg : Str
  download : Download
  lib : Path
deriving Repr, DecidableEq

/-- The underlying integer of a SourceType. -/
def SourceType.toNat : SourceType → Nat
  | .default => 0
  | .source => 1
  | .binary => 2

/-- rcmd/install.go:553-561. -/
def InstallEnv.stamp (e : InstallEnv) (cfg : PkgConfig) : Stamp :=
  { version := e.pkgrVersion, installType := sourceTypeString e.platform cfg.type.toNat,
    repoURL := cfg.repo.url, repo := cfg.repo.name }

/-- rcmd/install.go:231-241: where `isInCache` looks (`none`: log.Fatal in `binaryName`). -/
def InstallEnv.cachedBinary (e : InstallEnv) (dl : PkgDl) : Option Path :=
  (binaryNameOs e.platform.os dl.package.package dl.package.version e.rPlatform).map fun nm =>
    joinPaths e.cache [repoUrlHash e.digest dl.config.repo, s%"binary", e.rv.toStr, nm]

/-- What `InstallThroughBinary` returns. -/
structure InstallRet where
  exitCode : Int
  /-- the binary path handed back ("" = none) -/
  binary : Option Path
  err : Bool
deriving Repr, DecidableEq

/-- rcmd/install.go:348-358: the package installed in the temporary library is removed. -/
def cleanTmp (fs : Fs) (d : Path) : Fs := if fs.isDir d then fs.removeAll d else fs

/-- rcmd/install.go:341-391: the two passes (build in `tmp`, then install the binary), `fs` being the state
after `MkdirAll(tmp)`. -/
def InstallEnv.build (e : InstallEnv) (tmp : Path) (fs : Fs) (ir : InstallReq) : Ran InstallRet :=
  let cfg := ir.download.metadata.config
  let src := ir.download.path.resolve e.cwd
  let b := install e.R e.cwd fs ir.pkg (.abs src) tmp true (some tmp) (e.stamp cfg)
  match b.val with
  | none => { fs := b.fs, calls := b.calls, val := none }
  | some r =>
    let fs1 := cleanTmp b.fs (tmp ++ [ir.pkg])
    if !r.err && r.exitCode = 0 then
      match binaryExtOs e.platform.os (basePath src) e.rPlatform with
      | none => { fs := fs1, calls := b.calls, val := none }
      | some bbp =>
        if !fs1.ex (joinPath tmp bbp) then
          { fs := fs1, calls := b.calls, val := some { exitCode := 1, binary := none, err := true } }
        else
          let f := install e.R e.cwd fs1 ir.pkg (.abs (joinPath tmp bbp)) ir.lib false (some tmp) (e.stamp cfg)
          { fs := f.fs, calls := b.calls ++ f.calls,
            val := f.val.map fun r => { exitCode := r.exitCode, binary := some (joinPath tmp bbp), err := r.err } }
    else { fs := fs1, calls := b.calls, val := some { exitCode := r.exitCode, binary := none, err := r.err } }

/-- rcmd/install.go:266-392 `InstallThroughBinary`; `tmp` is the fresh temporary directory.  `MkdirAll` is
taken to succeed. -/
def InstallEnv.installThroughBinary (e : InstallEnv) (tmp : Path) (fs : Fs) (ir : InstallReq) : Ran InstallRet :=
  if fs.isDir (ir.lib ++ [ir.pkg]) then
    { fs := fs, calls := [], val := some { exitCode := -999, binary := none, err := false } }
  else
    match e.cachedBinary ir.download.metadata with
    | none => { fs := fs, calls := [], val := none }
    | some bp =>
      if fs.ex bp then
        let cfg : PkgConfig := { ir.download.metadata.config with type := .binary }
        let r := install e.R e.cwd fs ir.pkg (.abs bp) ir.lib false none (e.stamp cfg)
        { fs := r.fs, calls := r.calls,
          val := r.val.map fun c => { exitCode := c.exitCode, binary := none, err := c.err } }
      else e.build tmp (fs.mkdirAll tmp) ir

/-- Go `filepath.Dir(filepath.Dir(p))`, made absolute. -/
def PathArg.dirDir (cwd : Path) : PathArg → Path
  | .abs p => dirPath (dirPath p)
  | .rel p => cwd ++ dirPath (dirPath p)

/-- rcmd/install.go:472-481: where the updater copies a newly built binary. -/
def InstallEnv.storeBinary (e : InstallEnv) (dl : Download) (binary : Path) : Path :=
  joinPaths (dl.path.dirDir e.cwd) [s%"binary", e.rv.toStr, basePath binary]

end Pkgr
