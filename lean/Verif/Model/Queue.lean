/-
The installation queue together with what its workers do to the file system: the scheduler of Model/Sched.lean
composed with small steps of `InstallThroughBinary` (rcmd/install.go:266-392), of `Install`
(rcmd/install.go:68-222) and of the updater's copy of a built binary (rcmd/install.go:471-495), all acting on one
shared file system, in any interleaving.

R processes are not functions here: while one runs it may change the file system any number of times (`RProc.writes`)
and end at any moment at which `RProc.exits` allows it.  A state of the system is also what a crash at that moment
leaves behind.  Simplifications: file operations of pkgr succeed (except the copy of a binary) and each is one step,
except writing a DESCRIPTION (truncation, then content) and copying (any number of partial states); the environment
of R and log output are left out; `InstallEnv.R` is not used.
-/
import Verif.Model.Sched
import Verif.Model.Install

namespace Pkgr

/-- R as a process: the changes it may make during a call, and the moments and ways it may end. -/
structure RProc where
  writes : RCall → Fs → Fs → Prop
  exits : RCall → Fs → RExit → Prop

/-- The `Install` calls of rcmd/install.go:266-392: of a cached binary (lines 283-295), of the source into the
temporary directory (lines 341-347), of the built binary (lines 382-389). -/
inductive Pass where
  | cached (binary : Path)
  | build
  | final (binary : Path)
deriving Repr, DecidableEq

/-- Where a worker stands in rcmd/install.go:266-392. -/
inductive IPhase where
  /-- line 270: does the package's directory exist? -/
  | begin
  /-- line 283: `isInCache` -/
  | lookup
  /-- lines 299-306: `MkdirAll(tmpdir)` -/
  | mkTmp
  /-- `Install` is called (lines 78-121) -/
  | call (k : Pass)
  /-- the R process runs (lines 154-158) -/
  | inR (k : Pass)
  /-- lines 180-183, 553-578: the DESCRIPTION is read and opened for writing -/
  | stamp (k : Pass)
  /-- the DESCRIPTION, whose content was `c`, has been truncated -/
  | stampWrite (k : Pass) (c : Str)
  /-- `Install` has returned -/
  | returned (k : Pass) (c : CmdRet)
  /-- lines 354-379: look for the built binary -/
  | find
  /-- `InstallThroughBinary` has returned -/
  | done (r : InstallRet)
  /-- the process has ended (log.Fatal or panic) -/
  | dead
deriving Repr, DecidableEq

/-- The fixed surroundings of a run of the queue: settings, library, what was downloaded for each package
(`dl.Get`, the zero value when nothing was), the temporary directory each installation draws (lines 299-302), R. -/
structure QEnv where
  ie : InstallEnv
  job : Job
  lib : Path
  download : Str → Download
  tmp : Str → Path
  proc : RProc

/-- rcmd/install.go:517-526: the request for `p`. -/
def QEnv.req (e : QEnv) (p : Str) : InstallReq := { pkg := p, download := e.download p, lib := e.lib }

/-- rcmd/install.go:313-315: the package file, made absolute. -/
def QEnv.src (e : QEnv) (p : Str) : Path := (e.download p).path.resolve e.ie.cwd

/-- The R CMD INSTALL of a pass (rcmd/install.go:283-294, 312-347, 382-389, 122-151). -/
def QEnv.rcall (e : QEnv) (p : Str) : Pass → RCall
  | .cached b => { pkg := p, lib := e.lib, build := false, src := b, workDir := e.ie.cwd }
  | .build => { pkg := p, lib := e.tmp p, build := true, src := e.src p, workDir := e.tmp p }
  | .final b => { pkg := p, lib := e.lib, build := false, src := b, workDir := e.tmp p }

/-- Is the working directory of the call given explicitly (and hence checked, rcmd/install.go:84-93)? -/
def Pass.checksDir : Pass → Bool
  | .cached _ => false
  | _ => true

/-- rcmd/install.go:553-561: what is stamped; `isInCache` has set the type of a cached binary (line 255). -/
def QEnv.stampOf (e : QEnv) (p : Str) : Pass → Stamp
  | .cached _ => e.ie.stamp { (e.download p).metadata.config with type := .binary }
  | _ => e.ie.stamp (e.download p).metadata.config

/-- The DESCRIPTION that is stamped after a pass. -/
def QEnv.descOf (e : QEnv) (p : Str) (k : Pass) : Path := (e.rcall p k).lib ++ [p, s%"DESCRIPTION"]

/-- rcmd/install.go:77-120: `Install` up to the start of R. -/
def QEnv.callStep (e : QEnv) (p : Str) (fs : Fs) (k : Pass) : IPhase :=
  if k.checksDir && !fs.isDir (e.rcall p k).workDir then .dead
  else if !fs.ex (e.rcall p k).src then .returned k { exitCode := 1, err := false }
  else .inR k

/-- rcmd/install.go:562-578: read the DESCRIPTION and open it for writing. -/
def QEnv.stampStep (e : QEnv) (p : Str) (fs : Fs) (k : Pass) : Fs × IPhase :=
  match fs (e.descOf p k) with
  | some (.file c) => (fs.set (e.descOf p k) (.file []), .stampWrite k c)
  | _ => (fs, .returned k { exitCode := 0, err := false })

/-- rcmd/install.go:293-295, 348-391: after an `Install` has returned. -/
def QEnv.returnStep (e : QEnv) (p : Str) (fs : Fs) (k : Pass) (c : CmdRet) : Fs × IPhase :=
  match k with
  | .cached _ => (fs, .done { exitCode := c.exitCode, binary := none, err := c.err })
  | .final b => (fs, .done { exitCode := c.exitCode, binary := some b, err := c.err })
  | .build =>
    (cleanTmp fs (e.tmp p ++ [p]),
      if !c.err && c.exitCode = 0 then .find else .done { exitCode := c.exitCode, binary := none, err := c.err })

/-- rcmd/install.go:359-381: look for the built binary. -/
def QEnv.findStep (e : QEnv) (p : Str) (fs : Fs) : IPhase :=
  match binaryExtOs e.ie.platform.os (basePath (e.src p)) e.ie.rPlatform with
  | none => .dead
  | some bbp =>
    if !fs.ex (joinPath (e.tmp p) bbp) then .done { exitCode := 1, binary := none, err := true }
    else .call (.final (joinPath (e.tmp p) bbp))

/-- rcmd/install.go:282, 226-257: is there a cached binary? -/
def QEnv.lookupStep (e : QEnv) (p : Str) (fs : Fs) : IPhase :=
  match e.ie.cachedBinary (e.download p).metadata with
  | none => .dead
  | some bp => if fs.ex bp then .call (.cached bp) else .mkTmp

/-- rcmd/install.go:266-392: the next step of pkgr's own code in the installation of `p` (`none`: it is R's turn,
or the installation is over). -/
def QEnv.progStep (e : QEnv) (p : Str) (fs : Fs) : IPhase → Option (Fs × IPhase)
  | .begin =>
    if fs.isDir (e.lib ++ [p]) then some (fs, .done { exitCode := -999, binary := none, err := false })
    else some (fs, .lookup)
  | .lookup => some (fs, e.lookupStep p fs)
  | .mkTmp => some (fs.mkdirAll (e.tmp p), .call .build)
  | .call k => some (fs, e.callStep p fs k)
  | .inR _ => none
  | .stamp k => some (e.stampStep p fs k)
  | .stampWrite k c =>
    some (fs.set (e.descOf p k) (.file (writeLines (stampLines (readLines c) (e.stampOf p k)))),
      .returned k { exitCode := 0, err := false })
  | .returned k c => some (e.returnStep p fs k c)
  | .find => some (fs, e.findStep p fs)
  | .done _ => none
  | .dead => none

/-- rcmd/install.go:157-184: what follows the end of R. -/
def afterR (k : Pass) (x : RExit) : IPhase := if x = .ok then .stamp k else .returned k (exitOf x)

/-- rcmd/worker.go:24-40, rcmd/install.go:427-432, 471: what the updater sees of a result. -/
def outcomeOf (r : InstallRet) : Outcome := if r.err then .failed else .ok r.binary.isSome

/-- rcmd/install.go:472-481: the directory made before copying, and the destination. -/
def QEnv.storeDir (e : QEnv) (p : Str) : Path := (e.download p).path.dirDir e.ie.cwd ++ [s%"binary"]
/-- see `storeDir` -/
def QEnv.store (e : QEnv) (p : Str) (b : Path) : Path := e.ie.storeBinary (e.download p) b

/-- Go `os.Mkdir`, its error ignored (rcmd/install.go:476). -/
def Fs.mkdir (fs : Fs) (d : Path) : Fs :=
  if fs d = none ∧ fs (dirPath d) = some .dir then fs.set d .dir else fs

/-- A moment of the whole installation: scheduler, file system, the position of each worker in
`InstallThroughBinary`, the built binaries reported, and whether the process has ended abnormally. -/
structure QState where
  run : RunState
  fs : Fs
  progs : Nat → IPhase
  bins : Str → Option Path
  dead : Bool

/-- rcmd/install.go:395-530: the start. -/
def QEnv.init (e : QEnv) (fs : Fs) : QState :=
  { run := e.job.init, fs := fs, progs := fun _ => .begin, bins := fun _ => none, dead := false }

/-- Put `x` at `i`. -/
def upd {α β : Type} [DecidableEq α] (f : α → β) (i : α) (x : β) : α → β := fun j => if j = i then x else f j

/-- The scheduler steps that neither start nor end an installation nor copy a binary. -/
def Event.plain : Event → Bool
  | .take _ => false
  | .finish _ _ => false
  | .updCopy _ => false
  | _ => true

/-- `s` with another file system and worker `i` at `ph`. -/
def QState.work (s : QState) (i : Nat) (fs : Fs) (ph : IPhase) : QState :=
  { run := s.run, fs := fs, progs := upd s.progs i ph, bins := s.bins, dead := s.dead || decide (ph = .dead) }

/-- The steps of the whole installation; none is possible after the process has ended abnormally. -/
inductive QEnv.Step (e : QEnv) : QState → QState → Prop where
  /-- a step of the scheduler (Model/Sched.lean) -/
  | sched (s : QState) (ev : Event) (r : RunState) : s.dead = false → ev.plain = true →
      e.job.step s.run ev = some r → Step e s { run := r, fs := s.fs, progs := s.progs, bins := s.bins, dead := s.dead }
  /-- rcmd/worker.go:17-24: worker `i` takes a request and calls `InstallThroughBinary` -/
  | take (s : QState) (i : Nat) (r : RunState) : s.dead = false → e.job.step s.run (.take i) = some r →
      Step e s { run := r, fs := s.fs, progs := upd s.progs i .begin, bins := s.bins, dead := s.dead }
  /-- pkgr's own code in worker `i` -/
  | prog (s : QState) (i : Nat) (p : Str) (fs : Fs) (ph : IPhase) : s.dead = false →
      s.run.workers[i]? = some (.running p) → e.progStep p s.fs (s.progs i) = some (fs, ph) → Step e s (s.work i fs ph)
  /-- the R process of worker `i` changes the file system -/
  | rWrite (s : QState) (i : Nat) (p : Str) (k : Pass) (fs : Fs) : s.dead = false →
      s.run.workers[i]? = some (.running p) → s.progs i = .inR k → e.proc.writes (e.rcall p k) s.fs fs →
      Step e s (s.work i fs (.inR k))
  /-- the R process of worker `i` ends -/
  | rExit (s : QState) (i : Nat) (p : Str) (k : Pass) (x : RExit) : s.dead = false →
      s.run.workers[i]? = some (.running p) → s.progs i = .inR k → e.proc.exits (e.rcall p k) s.fs x →
      Step e s (s.work i s.fs (afterR k x))
  /-- rcmd/worker.go:24: `InstallThroughBinary` returns to worker `i` -/
  | finish (s : QState) (i : Nat) (p : Str) (ret : InstallRet) (r : RunState) : s.dead = false →
      s.run.workers[i]? = some (.running p) → s.progs i = .done ret →
      e.job.step s.run (.finish i (outcomeOf ret)) = some r →
      Step e s { run := r, fs := s.fs, progs := s.progs, bins := upd s.bins p ret.binary, dead := s.dead }
  /-- rcmd/install.go:472-476: the updater makes the directory of the stored binaries -/
  | mkStore (s : QState) (p : Str) (b : Path) : s.dead = false → s.run.updater = .copy p → s.bins p = some b →
      Step e s { run := s.run, fs := s.fs.mkdir (e.storeDir p), progs := s.progs, bins := s.bins, dead := s.dead }
  /-- rcmd/install.go:472-482: the updater copies a built binary (the directory may be made by the same step); the first `n` characters have been written -/
  | copying (s : QState) (p : Str) (b : Path) (c : Str) (n : Nat) : s.dead = false → s.run.updater = .copy p →
      s.bins p = some b → s.fs b = some (.file c) → (s.fs.mkdir (e.storeDir p)) (dirPath (e.store p b)) = some .dir →
      Step e s { run := s.run, fs := (s.fs.mkdir (e.storeDir p)).set (e.store p b) (.file (c.take n)),
                 progs := s.progs, bins := s.bins, dead := s.dead }
  /-- rcmd/install.go:482-493: the copy is complete and the original is removed -/
  | copied (s : QState) (p : Str) (b : Path) (c : Str) (r : RunState) : s.dead = false → s.run.updater = .copy p →
      s.bins p = some b → s.fs b = some (.file c) → s.fs (e.store p b) = some (.file c) →
      e.job.step s.run (.updCopy true) = some r →
      Step e s { run := r, fs := fun q => if q = b then none else s.fs q, progs := s.progs, bins := s.bins, dead := s.dead }
  /-- rcmd/install.go:482-487: the copy fails -/
  | copyFails (s : QState) (r : RunState) : s.dead = false → e.job.step s.run (.updCopy false) = some r →
      Step e s { run := r, fs := s.fs, progs := s.progs, bins := s.bins, dead := s.dead }

end Pkgr
