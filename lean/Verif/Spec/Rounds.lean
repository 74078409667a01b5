/- Vocabulary for C175: any number of runs of `pkgr install`, one after the other, with the same configuration. -/
import Verif.Spec.Succeeds

namespace Pkgr.Spec
open Pkgr

/-- A run of `pkgr install` with rollback, and with updates, that comes to its end, without I/O errors: it finds the database cache `c` and the files `fs`, and leaves `c'` and `fs'`;
`failed` says which of the two ends it reports.  (That the queue runs, that the downloads are, and so on: as in C136.  The unpacked tarballs have to be there for a run that succeeds only.
R leaves no DESCRIPTION directly in a lock directory.) -/
def CompletedRun (P : Project) (x : Extras) (parse : Str → Option Desc) (Complete Unpacked : Str → (Path → Option Node) → Prop) (lib : Path)
    (re : RepoEnv) (c : DbCache) (fs : Fs) (c' : DbCache) (fs' : Fs) (failed : Bool) : Prop :=
  ∃ (e : RunEnv) (de : DlEnv) (q : QEnv) (cfg : RunCfg) (pre : GoMap Desc) (ip : InstallPlan) (Scratch : Path → Prop) (Holds : Str → Str → Prop),
    cfg.lib = lib ∧ cfg.noRollback = false ∧ cfg.noUpdate = false ∧
    PlanMade P re c c' parse x fs lib pre ip ∧
    QueueRuns e q lib ip Scratch Complete Holds ∧ DownloadsAre e de ip q.download lib fs ∧ Places de q Scratch ∧ Stocked de q ip Holds fs ∧
    Outside e lib ∧ NoFaults e.disk ∧ Installs e.ie.R Complete Unpacked ∧
    (failed = false → ∀ t, x.Given t → ∀ st ∈ (e.rInstall cfg ip pre fs).1.states, TarballThere e ip Unpacked st t) ∧
    (e.rInstall cfg ip pre fs).2 = .exit0 failed ∧ fs' = (e.rInstall cfg ip pre fs).1.fs ∧
    ∀ n, IsLock n → fs' (lib ++ [n, s%"DESCRIPTION"]) = none

/-- A history of such runs: between two of them nobody touches the library, and the repositories go on publishing the same (but time passes, and the
database cache may have grown old).  The list says of each run whether it failed. -/
inductive Rounds (P : Project) (x : Extras) (parse : Str → Option Desc) (Complete Unpacked : Str → (Path → Option Node) → Prop) (lib : Path)
    (re : RepoEnv) (c : DbCache) (fs : Fs) : List Bool → RepoEnv → DbCache → Fs → Prop where
  | none : Rounds P x parse Complete Unpacked lib re c fs [] re c fs
  | more {l re1 c1 fs1 re2 c2 fs2 failed} : Rounds P x parse Complete Unpacked lib re c fs l re1 c1 fs1 →
      CompletedRun P x parse Complete Unpacked lib re1 c1 fs1 c2 fs2 failed → SameRepos re1 re2 →
      Rounds P x parse Complete Unpacked lib re c fs (l ++ [failed]) re2 c2 fs2

/-- The package `p` is in the library in a version that is not older than the published one. -/
def CurrentIn (parse : Str → Option Desc) (P : Project) (re : RepoEnv) (fs : Fs) (lib : Path) (p : Str) : Prop :=
  fs (lib ++ [p]) = some .dir ∧ ∃ d, described parse fs lib p = some d ∧ ∀ repo ty o, P.Gets re p repo ty o → compareVersionStrings d.version o.version ≠ some (-1)

end Pkgr.Spec
