/-
Model of rollback/ (types.go, operations.go), of cmd/install.go (`rInstall`, `installAdditionalPackages`) and of
pacman/utils.go `GetPriorInstalledPackages`.

File system operations can fail and the process can die at any moment: a `World` keeps every state the file
system went through. What R, the downloads and the installation queue do to the file system is given by oracles;
`Spec/Rollback.lean` says what they may touch (justified by C43 for the queue).
Left out: log output.
-/
import Verif.Model.Plan
import Verif.Model.Install

namespace Pkgr

/-- The current file system and all its earlier states, oldest first. -/
structure World where
  fs : Fs
  past : List Fs := []

/-- Everything that was ever the state of the file system. -/
def World.states (w : World) : List Fs := w.past ++ [w.fs]

/-- Go through the states `mid` to the state `fs`. -/
def World.move (w : World) (mid : List Fs) (fs : Fs) : World := { fs := fs, past := w.past ++ w.fs :: mid }

/-- When `os.Rename(a, b)` is possible: `a` exists, and `b` does not or both are files (Go refuses to rename
onto a directory, the system refuses to rename a directory onto a file). -/
def Fs.renameOk (fs : Fs) (a b : Path) : Bool :=
  match fs a, fs b with
  | none, _ => false
  | some _, none => true
  | some (.file _), some (.file _) => true
  | _, _ => false

/-- The result of a successful `os.Rename(a, b)`. -/
def Fs.rename (fs : Fs) (a b : Path) : Fs := fun q =>
  if b <+: q then fs (a ++ q.drop b.length) else if a <+: q then none else fs q

/-- I/O faults: which renames fail; the states that a removal goes through, and whether it fails. -/
structure Disk where
  renameFails : Fs → Path → Path → Bool
  removing : Fs → Path → List Fs × Bool

/-- `fileSystem.Rename`; the second component: was there an error. A rename is atomic. -/
def Disk.rename (d : Disk) (w : World) (a b : Path) : World × Bool :=
  if w.fs.renameOk a b && !d.renameFails w.fs a b then (w.move [] (w.fs.rename a b), false) else (w, true)

/-- `fileSystem.RemoveAll`; not atomic. -/
def Disk.removeAll (d : Disk) (w : World) (p : Path) : World × Bool :=
  match d.removing w.fs p with
  | (mid, false) => (w.move mid (w.fs.removeAll p), false)
  | (mid, true) => (w.move mid ((mid.getLast?).getD w.fs), true)

/-! ### pacman/utils.go -/

/-- pacman/utils.go:29-45 and 87-109: one directory of the library. `parse`: `desc.ParseDesc` (its error is
dropped by the code; `none` stands for a result without package name). -/
def scanInstalled (parse : Str → Option Desc) (fs : Fs) (lib : Path) (m : GoMap Desc) (name : Str) : GoMap Desc :=
  if fs.isDir (lib ++ [name]) then
    match fs (lib ++ [name, s%"DESCRIPTION"]) with
    | some (.file c) => match parse c with
      | some d => if d.package = [] then m else GoMap.put m d.package d
      | none => m
    | _ => m
  else m

/-- pacman/utils.go:16-48 `GetPriorInstalledPackages`; `names` is what `Readdir` lists. -/
def getPriorInstalled (parse : Str → Option Desc) (fs : Fs) (lib : Path) (names : List Str) : GoMap Desc :=
  names.foldl (scanInstalled parse fs lib) []

/-! ### rollback/ -/

/-- rollback/structs.go `UpdateAttempt` (the versions, used in log messages only, are left out). -/
structure UpdateAttempt where
  package : Str
  active : Path
  backup : Path
deriving Repr, DecidableEq

/-- rollback/types.go:12-20 `RollbackPlan`. -/
structure RollbackPlan where
  all : List Str
  new : List Str
  updates : List UpdateAttempt := []
  additional : List UpdateAttempt := []
  preinstalled : GoMap Desc
  plan : InstallPlan
  lib : Path

/-- rollback/types.go:86-97 `discernNewPackages`. -/
def discernNewPackages (names : List Str) (pre : GoMap Desc) : List Str := names.filter fun n => !GoMap.has pre n

/-- rollback/types.go:23-36 `CreateRollbackPlan`. -/
def createRollbackPlan (lib : Path) (ip : InstallPlan) (pre : GoMap Desc) (ρ : Order) : RollbackPlan :=
  let ap := ip.allPackages ρ 0
  { all := ap, new := discernNewPackages ap pre, preinstalled := pre, plan := ip, lib := lib }

/-- rollback/operations.go:139-158 `tagOldInstallation`; a failing rename is only logged. -/
def tagOld (d : Disk) (lib : Path) (w : World) (pkg : Str) : World × UpdateAttempt :=
  let a := joinPath lib pkg
  let b := joinPath lib (s%"__OLD__" ++ pkg)
  ((d.rename w a b).1, { package := pkg, active := a, backup := b })

/-- rollback/operations.go:128-137 `createUpdateBackupFolders`, and the loop of rollback/types.go:58-68. -/
def tagAll (d : Disk) (lib : Path) : World → List Str → World × List UpdateAttempt
  | w, [] => (w, [])
  | w, p :: ps =>
    let t := tagOld d lib w p
    let r := tagAll d lib t.1 ps
    (r.1, t.2 :: r.2)

/-- rollback/types.go:43-49: the outdated packages that are part of the plan. -/
def RollbackPlan.toUpdate (rp : RollbackPlan) : List Str :=
  (rp.plan.outdated.map OutdatedPackage.package).filter fun p => rp.all.contains p

/-- rollback/types.go:58-60: the tarball packages that are already installed. -/
def RollbackPlan.toOverwrite (rp : RollbackPlan) (ρ : Order) : List Str :=
  (ρ 2 (GoMap.keys rp.plan.additional)).filter fun p => GoMap.has rp.preinstalled p

/-- rollback/types.go:39-54 `PreparePackagesForUpdate`. -/
def prepareForUpdate (d : Disk) (w : World) (rp : RollbackPlan) : World × RollbackPlan :=
  let r := tagAll d rp.lib w rp.toUpdate
  (r.1, { rp with updates := r.2 })

/-- rollback/types.go:56-70 `PrepareAdditionalPackagesForOverwrite`. -/
def prepareForOverwrite (d : Disk) (ρ : Order) (w : World) (rp : RollbackPlan) : World × RollbackPlan :=
  let r := tagAll d rp.lib w (rp.toOverwrite ρ)
  (r.1, { rp with additional := r.2 })

/-- rollback/operations.go:101-120: one package restored; the second component: was there an error. -/
def restoreOne (d : Disk) (w : World) (u : UpdateAttempt) : World × Bool :=
  let r := if w.fs.ex u.active then d.removeAll w u.active else (w, false)
  if r.2 then (r.1, true) else d.rename r.1 u.backup u.active

/-- rollback/operations.go:86-125 `rollbackChangedPackages`: stops at the first error. -/
def restoreAll (d : Disk) : World → List UpdateAttempt → World × Bool
  | w, [] => (w, false)
  | w, u :: us =>
    let r := restoreOne d w u
    if r.2 then (r.1, true) else restoreAll d r.1 us

/-- rollback/operations.go:30-39: the new packages removed; stops at the first error. -/
def removeNew (d : Disk) (lib : Path) : World → List Str → World × Bool
  | w, [] => (w, false)
  | w, p :: ps =>
    let r := d.removeAll w (joinPath lib p)
    if r.2 then (r.1, true) else removeNew d lib r.1 ps

/-- rollback/operations.go:11-59 `RollbackPackageEnvironment`. -/
def rollbackEnvironment (d : Disk) (w : World) (rp : RollbackPlan) : World × Bool :=
  if rp.plan.createLibrary then d.removeAll w rp.lib
  else
    let r1 := removeNew d rp.lib w rp.new
    if r1.2 then (r1.1, true)
    else
      let r2 := restoreAll d r1.1 rp.updates
      if r2.2 then (r2.1, true)
      else restoreAll d r2.1 rp.additional

/-- rollback/operations.go:61-84 `DeleteBackupPackageFolders`: stops at the first error. -/
def deleteBackups (d : Disk) : World → List UpdateAttempt → World
  | w, [] => w
  | w, u :: us =>
    if w.fs.ex u.backup then
      let r := d.removeAll w u.backup
      if r.2 then r.1 else deleteBackups d r.1 us
    else deleteBackups d w us

/-- rollback/types.go:72-83. -/
def RollbackPlan.deleteBackupFolders (rp : RollbackPlan) (d : Disk) (w : World) : World :=
  deleteBackups d (deleteBackups d w rp.updates) rp.additional

/-! ### cmd/install.go -/

/-- How a phase of the run ends: normally, reporting an error, or by the end of the process (log.Fatal, panic,
killed, hanging). -/
inductive PhaseEnd where
  | ok | failed | dead
deriving Repr, DecidableEq

/-- What a phase did. -/
structure Phase where
  mid : List Fs := []
  fs : Fs
  out : PhaseEnd

/-- The settings of the run (configlib/structs.go). -/
structure RunCfg where
  lib : Path
  strict : Bool := false
  noUpdate : Bool := false
  noRollback : Bool := false
deriving Repr, DecidableEq

/-- The surroundings of the run. -/
structure RunEnv where
  disk : Disk
  ρ : Order
  mkdirFails : Fs → Bool
  /-- `cran.DownloadPackages` -/
  download : Fs → Phase
  /-- `rcmd.InstallPackagePlan` -/
  planned : Fs → Phase
  /-- R and the rest, for the tarballs -/
  ie : InstallEnv
  /-- the states during an R run that installs a tarball -/
  during : Str → Fs → List Fs

/-- Go `filepath.Abs` (an absolute path is cleaned, another one joined to the working directory). -/
def absPath (cwd : Path) (s : Str) : Path := if hasPrefix s (s%"/") then joinPath [] s else joinPath cwd s

/-- An absolute path as a string. -/
def pathStr (p : Path) : Str := if p = [] then s%"/" else p.flatMap fun c => s%"/" ++ c

/-- cmd/install.go:190-233: one tarball installed (`filepath.Abs` does not fail). -/
def RunEnv.installTarball (e : RunEnv) (lib : Path) (w : World) (name : Str) (a : AdditionalPkg) : World × PhaseEnd :=
  let src := absPath e.ie.cwd a.installPath
  let r := install e.ie.R e.ie.cwd w.fs name (.abs src) lib true (some (dirPath src))
    (e.ie.stamp { type := .source, repo := { url := pathStr src, name := s%"IndividualPackage" } })
  (w.move (e.during name w.fs) r.fs,
   match r.val with
   | none => .dead
   | some c => if c.err then .failed else .ok)

/-- cmd/install.go:183-269: all tarballs, whatever fails. -/
def RunEnv.installTarballs (e : RunEnv) (lib : Path) (m : GoMap AdditionalPkg) : World → List Str → World × PhaseEnd
  | w, [] => (w, .ok)
  | w, n :: ns =>
    let r := e.installTarball lib w n ((GoMap.get? m n).getD {})
    match r.2 with
    | .dead => (r.1, .dead)
    | o =>
      let r' := RunEnv.installTarballs e lib m r.1 ns
      (r'.1, match r'.2 with
        | .dead => .dead
        | o' => if o = .failed then .failed else o')

/-- cmd/install.go:86-90: packages set aside. -/
def RunEnv.tag (e : RunEnv) (cfg : RunCfg) (w : World) (rp : RollbackPlan) : World × RollbackPlan :=
  let r := if cfg.noUpdate then (w, rp) else prepareForUpdate e.disk w rp
  prepareForOverwrite e.disk e.ρ r.1 r.2

/-- cmd/install.go:99-135: downloads, installations, tarballs. -/
def RunEnv.phases (e : RunEnv) (cfg : RunCfg) (ip : InstallPlan) (w : World) : World × PhaseEnd :=
  let dl := e.download w.fs
  let w1 := w.move dl.mid dl.fs
  if dl.out ≠ .ok then (w1, .dead)
  else
    let pl := e.planned w1.fs
    let w2 := w1.move pl.mid pl.fs
    if pl.out = .dead then (w2, .dead)
    else
      let t := e.installTarballs cfg.lib ip.additional w2 (e.ρ 3 (GoMap.keys ip.additional))
      (t.1, if t.2 = .dead then .dead else if pl.out = .failed ∨ t.2 = .failed then .failed else .ok)

/-- cmd/install.go:139-147: rollback when something failed. -/
def RunEnv.undo (e : RunEnv) (cfg : RunCfg) (rp : RollbackPlan) (w : World) (o : PhaseEnd) : World :=
  if !cfg.noRollback && o = .failed then (rollbackEnvironment e.disk w rp).1 else w

/-- How the command ends: it dies (log.Fatal, panic, killed: exit status not 0), or `rInstall` returns nil (exit
status 0); `failed`: an installation failed (this is logged, cmd/install.go:154-156). -/
inductive RunEnd where
  | died
  | exit0 (failed : Bool)
deriving Repr, DecidableEq

/-- cmd/install.go:86-147: everything after the library exists, until the backups are about to be deleted
(`none`: the process died). -/
def RunEnv.body (e : RunEnv) (cfg : RunCfg) (ip : InstallPlan) (pre : GoMap Desc) (w : World) :
    World × Option (RollbackPlan × Bool) :=
  let t := e.tag cfg w (createRollbackPlan cfg.lib ip pre e.ρ)
  let p := e.phases cfg ip t.1
  if p.2 = .dead then (p.1, none) else (e.undo cfg t.2 p.1 p.2, some (t.2, p.2 = .failed))

/-- cmd/install.go:70-84: the library directory (`none`: log.Fatal). -/
def RunEnv.ensureLibrary (e : RunEnv) (cfg : RunCfg) (ip : InstallPlan) (fs : Fs) : World × Bool :=
  if ip.createLibrary then
    if cfg.strict then ({ fs := fs }, false)
    else if e.mkdirFails fs then ({ fs := fs }, false)
    else (World.move { fs := fs } [] (fs.mkdirAll cfg.lib), true)
  else ({ fs := fs }, true)

/-- cmd/install.go:55-159 `rInstall` for the plan `ip` made when the packages `pre` were installed. -/
def RunEnv.rInstall (e : RunEnv) (cfg : RunCfg) (ip : InstallPlan) (pre : GoMap Desc) (fs : Fs) : World × RunEnd :=
  let l := e.ensureLibrary cfg ip fs
  if !l.2 then (l.1, .died)
  else
    let b := e.body cfg ip pre l.1
    match b.2 with
    | none => (b.1, .died)
    | some (rp, failed) => (rp.deleteBackupFolders e.disk b.1, .exit0 failed)

end Pkgr
