/- Vocabulary for C155: installations that come to their end. -/
import Verif.Spec.Queue

namespace Pkgr.Spec
open Pkgr

/-- A step that changes nothing but files: R at work, or the updater copying. -/
def OnlyFiles (s s' : QState) : Prop :=
  s'.run = s.run ∧ s'.progs = s.progs ∧ s'.bins = s.bins ∧ s'.dead = s.dead

/-- An execution from `s` to `s'` with `n` steps that change something other than files. -/
inductive Takes (e : QEnv) (s : QState) : Nat → QState → Prop where
  | start : Takes e s 0 s
  | quiet (n : Nat) (a b : QState) : Takes e s n a → e.Step a b → OnlyFiles a b → Takes e s n b
  | act (n : Nat) (a b : QState) : Takes e s n a → e.Step a b → ¬ OnlyFiles a b → Takes e s (n + 1) b

/-- A step in which no copy of a built binary fails. -/
def Unfailing (e : QEnv) (s s' : QState) : Prop := e.Step s s' ∧ e.job.step s.run (.updCopy false) ≠ some s'.run

/-- Everything that the package needs, directly or through others, is completely installed in the library. -/
def NeedsThere (e : QEnv) (Complete : Str → (Path → Option Node) → Prop) (p : Str) (fs : Fs) : Prop :=
  ∀ d, Relation.TransGen (fun a b => b ∈ Job.deps e.job a) p d → Complete d (contentOf fs e.lib d)

/-- R never disappoints: a call for a planned package that is given a file of the package, while all that the package needs is completely
installed, fails in no way; when it was told to build, it leaves the directory it works in and, in it, a binary; and as long as it runs it can come to its
end.  (Nothing is supposed of calls for packages whose dependencies are not installed.) -/
structure RSucceeds (e : QEnv) (Complete : Str → (Path → Option Node) → Prop) (Holds : Str → Str → Prop) : Prop where
  ok : ∀ p ∈ Job.plan e.job, ∀ k fs x y, e.proc.exits (e.rcall p k) fs y → fs (e.rcall p k).src = some (.file x) → Holds p x →
    NeedsThere e Complete p fs → y = .ok
  built : ∀ p ∈ Job.plan e.job, ∀ fs x, e.proc.exits (e.rcall p .build) fs .ok → fs (e.src p) = some (.file x) → Holds p x →
    fs (e.tmp p) = some .dir ∧
    ∀ bbp, binaryExtOs e.ie.platform.os (basePath (e.src p)) e.ie.rPlatform = some bbp → fs (e.tmp p ++ [bbp]) ≠ none
  ends : ∀ p ∈ Job.plan e.job, ∀ k fs x, fs (e.rcall p k).src = some (.file x) → Holds p x → NeedsThere e Complete p fs →
    ∃ fs' y, Relation.ReflTransGen (e.proc.writes (e.rcall p k)) fs fs' ∧ e.proc.exits (e.rcall p k) fs' y

/-- There is room for what is to be made: no file has the name of a temporary directory, and, for a package of which no binary is cached,
the directory for the built binaries of its repository is there, in a place where nothing else is written. -/
structure RoomThere (e : QEnv) (Scratch : Path → Prop) (fs0 : Fs) : Prop where
  tmp : ∀ p ∈ Job.plan e.job, ∀ x, fs0 (e.tmp p) ≠ some (.file x)
  store : ∀ p ∈ Job.plan e.job, (∀ b, e.ie.cachedBinary (e.download p).metadata = some b → fs0 b = none) → ∀ x, binaryExtOs e.ie.platform.os (basePath (e.src p)) e.ie.rPlatform = some x →
    fs0 (dirPath (e.store p (e.tmp p ++ [x]))) = some .dir ∧
    SafePlace e Scratch (dirPath (e.store p (e.tmp p ++ [x]))) ∧ ¬ Stored e (dirPath (e.store p (e.tmp p ++ [x])))

end Pkgr.Spec
