/- Vocabulary for C172: a run of `pkgr install` in which nothing goes wrong. -/
import Verif.Spec.EndsWhole
import Verif.Spec.FromYml
import Verif.Spec.Fetching

namespace Pkgr.Spec
open Pkgr

/-- The files when the downloads begin: the library has been made, if need be, and the packages that are to be replaced have been set aside. -/
def atDownloads (e : RunEnv) (cfg : RunCfg) (ip : InstallPlan) (pre : GoMap Desc) (fs : Fs) : Fs :=
  (e.tag cfg (e.ensureLibrary cfg ip fs).1 (createRollbackPlan cfg.lib ip pre e.ρ)).1.fs

/-- The downloads and the queue of the run are executions that nobody interrupts: each goes on, in any order of its steps, until nothing can happen
any more (in the queue: nothing but changes of files); no copy of a built binary fails.  The run goes on with what they leave. -/
structure RunsOut (e : RunEnv) (de : DlEnv) (q : QEnv) (ip : InstallPlan) (fs1 : Fs) : Prop where
  downloads : ∃ s, FineReach de ip.downloads fs1 s ∧ (∀ ev, de.fineStep ip.downloads s ev = none) ∧
    (e.download fs1).fs = s.fs ∧ (s.returned = true → (e.download fs1).out = .ok) ∧ ∀ p, q.download p = (GoMap.get? s.result p).getD {}
  queue : ∃ t, Relation.ReflTransGen (Unfailing q) (q.init (e.download fs1).fs) t ∧
    (∀ t', Relation.ReflTransGen (Unfailing q) t t' → OnlyFiles t t') ∧
    (e.planned (e.download fs1).fs).fs = t.fs ∧ (t.run.ret = some .nil → (e.planned (e.download fs1).fs).out = .ok)

/-- No file stands where a directory has to be made: a temporary directory, or the directory of the cache for the binaries that R builds. -/
structure NoFileInTheWay (de : DlEnv) (q : QEnv) (ip : InstallPlan) (fs : Fs) : Prop where
  tmp : ∀ p ∈ queued ip, ∀ x, fs (q.tmp p) ≠ some (.file x)
  bins : ∀ d ∈ ip.downloads, ∀ x, fs (de.base ++ [repoUrlHash de.digest d.config.repo, s%"binary", de.rv.toStr]) ≠ some (.file x)

/-- R does not fail on the unpacked tarballs, once all the packages that come from the repositories are in the library. -/
def TarballsSucceed (R : ROracle) (ip : InstallPlan) (lib : Path) (Complete Unpacked : Str → (Path → Option Node) → Prop) : Prop :=
  ∀ c fs, c.lib = lib → c.pkg ∈ tarballs ip → Unpacked c.pkg (fun r => fs (c.src ++ r)) →
    (∀ p ∈ queued ip, Complete p (contentOf fs lib p)) → (R c fs).2 = .ok

/-- The unpacked tarball `t` is there in `st`, in a directory. -/
def TarballReady (e : RunEnv) (ip : InstallPlan) (Unpacked : Str → (Path → Option Node) → Prop) (st : Fs) (t : Str) : Prop :=
  TarballThere e ip Unpacked st t ∧ st (dirPath (absPath e.ie.cwd ((GoMap.get? ip.additional t).getD {}).installPath)) = some .dir

end Pkgr.Spec
