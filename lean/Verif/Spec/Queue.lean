/- Vocabulary for the properties C90-C92 of the installation queue acting on the file system. -/
import Verif.Model.Queue
import Verif.Spec.Sched
import Verif.Spec.Rollback
import Verif.Spec.Text

namespace Pkgr.Spec
open Pkgr

/-- `s` occurs in some execution that starts with the files `fs0`: any interleaving, any behaviour of R within its
contract, any moment. -/
def QReach (e : QEnv) (fs0 : Fs) (s : QState) : Prop := Relation.ReflTransGen e.Step (e.init fs0) s

/-- What is below a package's directory in a library. -/
def contentOf (fs : Fs) (lib : Path) (p : Str) : Path → Option Node := fun r => fs (lib ++ p :: r)

/-- The same with another DESCRIPTION. -/
def withDescription (D : Path → Option Node) (c : Str) : Path → Option Node :=
  fun r => if r = [s%"DESCRIPTION"] then some (.file c) else D r

/-- A stamp that can be read back: each of its four texts stands on one line, and the name of the repository does not
mention pkgr's own fields. -/
structure PlainStamp (st : Stamp) : Prop where
  version : OneLineText st.version
  installType : OneLineText st.installType
  repoURL : OneLineText st.repoURL
  repo : OneLineText st.repo
  unmarked : NoMarker st.repo

/-- R's contract.  A call changes only the directory of its package and its lock in the library it installs into, the
directory it works in if it has been told to build, and R's own scratch files.  If it is given a file of its package
(`Holds p x`: a file with the content `x` is a source or binary package `p`), it exits with status 0 only when the
package is completely installed, and, when told to build, what it has put in the place of the binary is a binary of
the package.  Nothing is said of calls that are given another file, or none.  What "complete" means is R's business:
it is any property of the content of a package's directory, except that the directory exists and that a plain stamp on
the DESCRIPTION does no harm; the stamps of the run are plain. -/
structure RContract (e : QEnv) (Scratch : Path → Prop) (Complete : Str → (Path → Option Node) → Prop)
    (Holds : Str → Str → Prop) : Prop where
  confined : ∀ c fs fs', e.proc.writes c fs fs' → ∀ q, fs' q ≠ fs q →
    (c.lib ++ [c.pkg]) <+: q ∨ (c.lib ++ [lockName c.pkg]) <+: q ∨ (c.build = true ∧ c.workDir <+: q) ∨ Scratch q
  installs : ∀ c fs x, e.proc.exits c fs .ok → fs c.src = some (.file x) → Holds c.pkg x →
    Complete c.pkg (contentOf fs c.lib c.pkg)
  builds : ∀ c fs x, e.proc.exits c fs .ok → c.build = true → fs c.src = some (.file x) → Holds c.pkg x →
    ∀ bbp n, binaryExtOs e.ie.platform.os (basePath c.src) e.ie.rPlatform = some bbp →
      fs (c.workDir ++ [bbp]) = some n → ∃ y, n = .file y ∧ Holds c.pkg y
  isDir : ∀ p D, Complete p D → D [] = some .dir
  stamps : ∀ p ∈ Job.plan e.job, ∀ k, PlainStamp (e.stampOf p k)
  stamp : ∀ p D c st, PlainStamp st → Complete p D → D [s%"DESCRIPTION"] = some (.file c) →
    Complete p (withDescription D (writeLines (stampLines (readLines c) st)))

/-- A path that nothing in the run deletes: neither in the library nor temporary. -/
def SafePlace (e : QEnv) (Scratch : Path → Prop) (q : Path) : Prop :=
  ¬ e.lib <+: q ∧ (∀ p, ¬ e.tmp p <+: q) ∧ ¬ Scratch q

/-- Where things are: the temporary directories, R's scratch files and the store of binaries are not in the library;
the temporary directories of the packages are distinct (the code draws 12 random letters); a built binary lies directly in its temporary
directory; the place where it is stored is not that of a package file or of another package's binary. -/
structure Layout (e : QEnv) (Scratch : Path → Prop) : Prop where
  tmpLib : ∀ p, Apart e.lib (e.tmp p)
  tmpTmp : ∀ p ∈ Job.plan e.job, ∀ q ∈ Job.plan e.job, p ≠ q → Apart (e.tmp p) (e.tmp q)
  scratch : ∀ q, Scratch q → ¬ e.lib <+: q ∧ ∀ p, ¬ e.tmp p <+: q
  ball : ∀ p ∈ Job.plan e.job, ∀ bbp, binaryExtOs e.ie.platform.os (basePath (e.src p)) e.ie.rPlatform = some bbp →
    joinPath (e.tmp p) bbp = e.tmp p ++ [bbp] ∧
    SafePlace e Scratch (e.store p (e.tmp p ++ [bbp])) ∧ SafePlace e Scratch (e.storeDir p) ∧
    ∀ q ∈ Job.plan e.job, e.store p (e.tmp p ++ [bbp]) ≠ e.src q ∧
      ∀ b, e.ie.cachedBinary (e.download q).metadata = some b →
        b ≠ e.storeDir p ∧ (p ≠ q → b ≠ e.store p (e.tmp p ++ [bbp]))
  cached : ∀ p ∈ Job.plan e.job, ∀ q ∈ Job.plan e.job, ∀ b,
    e.ie.cachedBinary (e.download q).metadata = some b → ¬ b <+: e.tmp p

/-- The package files and the cached binaries are in a safe place, every package of the plan has its file, a cached
binary that exists is one of its package, and what is already in the library is complete. -/
structure FilesThere (e : QEnv) (Scratch : Path → Prop) (Complete : Str → (Path → Option Node) → Prop)
    (Holds : Str → Str → Prop) (fs0 : Fs) : Prop where
  src : ∀ p ∈ Job.plan e.job, (∃ x, fs0 (e.src p) = some (.file x) ∧ Holds p x) ∧ SafePlace e Scratch (e.src p)
  cached : ∀ p ∈ Job.plan e.job, ∀ b, e.ie.cachedBinary (e.download p).metadata = some b →
    SafePlace e Scratch b ∧ ∀ n, fs0 b = some n → ∃ x, n = .file x ∧ Holds p x
  whole : ∀ p ∈ Job.plan e.job, fs0 (e.lib ++ [p]) = some .dir → Complete p (contentOf fs0 e.lib p)

/-- The directory of the repository in the cache: two levels above the package's file. -/
def repoDir (e : QEnv) (p : Str) : Path :=
  match (e.download p).path with
  | .abs f => f.dropLast.dropLast
  | .rel f => e.ie.cwd ++ f.dropLast.dropLast

/-- What the queue writes outside the library and the temporary directories: in the directory of the package's
repository the directory `binary` and, in the directory for the running version of R, the binary that R has built. -/
def Stored (e : QEnv) (q : Path) : Prop :=
  ∃ p ∈ Job.plan e.job, q = repoDir e p ++ [s%"binary"] ∨
    ∃ x, binaryExtOs e.ie.platform.os (basePath (e.src p)) e.ie.rPlatform = some x ∧
      q = joinPaths (repoDir e p) [s%"binary", e.ie.rv.toStr, x]

/-- An R process is running for `p` at this moment. -/
def RRunning (s : QState) (p : Str) : Prop :=
  ∃ (i : Nat) (k : Pass), s.run.workers[i]? = some (Worker.running p) ∧ s.progs i = IPhase.inR k

end Pkgr.Spec
