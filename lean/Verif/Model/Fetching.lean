/-
A finer model of cran/download-package.go than `Model/Download`: the steps of `DownloadPackage` (the check, the request, the
creation of the file and every single write) can be interleaved with those of other goroutines and of other pkgr processes
that use the same cache.
Simplifications: files are not removed meanwhile; the content of an answer is fixed when the request is answered.
-/
import Verif.Model.Download

namespace Pkgr

/-- Where a download is. -/
inductive FetchPc where
  /-- before the check for the file (cran/download-package.go:159) -/
  | start
  /-- the file was not there: before the request (line 203 or 225) -/
  | asking
  /-- answered, before the file is created (line 235) -/
  | opening (content : Str) (complete : Bool)
  /-- in `io.Copy` (line 244), `k` characters written -/
  | writing (k : Nat) (content : Str) (complete : Bool)
  /-- returned -/
  | ended (r : DlResult)
deriving Repr, DecidableEq

/-- The steps of a download. -/
inductive FetchAct where
  | check | reply | create
  /-- one write of `io.Copy`: `n` more characters -/
  | write (n : Nat)
  | close
deriving Repr, DecidableEq

/-- A write at offset `k` of a file: what is missing before it reads as zero bytes (POSIX `write` after a truncation by
somebody else). -/
def writeAt (f : Str) (k : Nat) (w : Str) : Str :=
  f.take k ++ List.replicate (k - f.length) (Char.ofNat 0) ++ w ++ f.drop (k + w.length)

/-- cran/download-package.go:153-255 `DownloadPackage`, one step (`none`: not possible now).  `fs.Create` (line 235)
truncates a file that is there by now; it fails when the directory is missing or a directory is in the place. -/
def DlEnv.fetchAct (e : DlEnv) (d : PkgDl) (dest : Path) (fs : Fs) : FetchPc → FetchAct → Option (Fs × FetchPc)
  | .start, .check =>
    if fs.ex dest then some (fs, .ended (.ok { path := .abs dest, new := false, metadata := d, size := 0 })) else some (fs, .asking)
  | .asking, .reply =>
    match e.server (e.url d dest) with
    | .netError => some (fs, .ended .err)
    | .badStatus => some (fs, .ended (.ok { metadata := d }))
    | .noLocalFile => some (fs, .ended .fatal)
    | .body c b => some (fs, .opening c b)
  | .opening c b, .create =>
    if fs.isDir (dirPath dest) && !fs.isDir dest then some (fs.set dest (.file []), .writing 0 c b) else some (fs, .ended .err)
  | .writing k c b, .write n =>
    if 0 < n ∧ k + n ≤ c.length then
      match fs dest with
      | some (.file f) => some (fs.set dest (.file (writeAt f k ((c.drop k).take n))), .writing (k + n) c b)
      | _ => none
    else none
  | .writing k c b, .close =>
    if k = c.length then
      some (fs, .ended (if b then .ok { path := .abs dest, new := true, metadata := d, size := c.length } else .err))
    else none
  | _, _ => none

/-! ### Several downloads in one process -/

/-- A download goroutine. -/
inductive FinePhase where
  | waiting
  | holding (pc : FetchPc)
  | done
deriving Repr, DecidableEq

/-- State of `DownloadPackages`, see `DlState`. -/
structure FineState where
  fs : Fs
  phases : List FinePhase := []
  result : GoMap Download := []
  wg : Int := 0
  returned : Bool := false
  dead : Bool := false

/-- The steps, see `DlEvent`; the download itself is many steps. -/
inductive FineEvent where
  | spawn
  | acquire (i : Nat)
  | io (i : Nat) (a : FetchAct)
  /-- cran/download-package.go:124-140: the result is stored, the slot released, `wg.Done` called -/
  | finish (i : Nat)
  | ret
deriving Repr, DecidableEq

/-- Whether a goroutine has a semaphore slot. -/
def FinePhase.isHolding : FinePhase → Bool
  | .holding _ => true
  | _ => false

/-- After a step of a download; log.Fatal (line 229) ends the program. -/
def FineState.moved (s : FineState) (i : Nat) (r : Fs × FetchPc) : FineState :=
  if r.2 = .ended .fatal then { s with fs := r.1, dead := true } else { s with fs := r.1, phases := s.phases.set i (.holding r.2) }

/-- One step of `DownloadPackages` (cran/download-package.go:74-145). -/
def DlEnv.fineStep (e : DlEnv) (ds : List PkgDl) (s : FineState) (ev : FineEvent) : Option FineState :=
  if s.dead || s.returned then none
  else match ev with
    | .spawn =>
      if s.phases.length < ds.length then some { s with phases := s.phases ++ [.waiting], wg := s.wg + 1 } else none
    | .acquire i =>
      if s.phases[i]? = some .waiting ∧ s.phases.countP FinePhase.isHolding < semCap then
        some { s with phases := s.phases.set i (.holding .start) }
      else none
    | .io i a =>
      match s.phases[i]?, ds[i]? with
      | some (.holding pc), some d => (e.fetchAct (e.resolved d) (e.dest d) s.fs pc a).map (s.moved i)
      | _, _ => none
    | .finish i =>
      match s.phases[i]?, ds[i]? with
      | some (.holding (.ended r)), some d =>
        some { s with phases := s.phases.set i .done, wg := s.wg - 1, result := storeResult s.result d.package.package r }
      | _, _ => none
    | .ret => if s.phases.length = ds.length ∧ s.wg = 0 then some { s with returned := true } else none

/-- cran/download-package.go:74-90: the state when the goroutines begin to be started. -/
def DlEnv.fineInit (e : DlEnv) (fs : Fs) (ds : List PkgDl) : FineState := { fs := e.mkDirs fs ds }

/-- A finite execution. -/
def DlEnv.fineRun (e : DlEnv) (ds : List PkgDl) : FineState → List FineEvent → Option FineState
  | s, [] => some s
  | s, ev :: evs =>
    match e.fineStep ds s ev with
    | none => none
    | some s' => DlEnv.fineRun e ds s' evs

/-! ### Downloads of several processes -/

/-- A download somewhere: in a process with its own surroundings. -/
structure FetchJob where
  env : DlEnv
  d : PkgDl
  dest : Path

/-- The file system and where every download is. -/
structure Fetching where
  fs : Fs
  pcs : List FetchPc

/-- The next step is step `a` of download `i` (cran/download-package.go:153-255, in whatever process it runs). -/
def fetchStep (js : List FetchJob) (s : Fetching) (i : Nat) (a : FetchAct) : Option Fetching :=
  match js[i]?, s.pcs[i]? with
  | some j, some pc => (j.env.fetchAct j.d j.dest s.fs pc a).map fun r => { fs := r.1, pcs := s.pcs.set i r.2 }
  | _, _ => none

/-- A finite execution. -/
def fetchRun (js : List FetchJob) : Fetching → List (Nat × FetchAct) → Option Fetching
  | s, [] => some s
  | s, (i, a) :: rest =>
    match fetchStep js s i a with
    | none => none
    | some s' => fetchRun js s' rest

/-- All downloads are about to begin. -/
def fetchInit (js : List FetchJob) (fs : Fs) : Fetching := { fs := fs, pcs := js.map fun _ => .start }

end Pkgr
