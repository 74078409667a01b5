/- Vocabulary for C110 and C111: a run of `pkgr install` whose installation queue is the one of Model/Queue.lean. -/
import Verif.Spec.Queue
import Verif.Spec.Nexus

namespace Pkgr.Spec
open Pkgr

/-- The surroundings of a run other than the queue: downloads do not touch the library; R changes only what R does;
a removal only removes what it was asked to remove; map iterations visit every key once. -/
structure Around (e : RunEnv) (lib : Path) : Prop where
  download : ∀ fs, ∀ st ∈ (e.download fs).mid ++ [(e.download fs).fs], SameIn lib fs st
  R : RConfined e.ie.R lib
  during : ∀ n fs, ∀ st ∈ e.during n fs, Keeps lib (fun m => m = n ∨ m = lockName n) fs st
  removal : ∀ fs p, ∀ st ∈ (e.disk.removing fs p).1, (∀ q, ¬ p <+: q → st q = fs q) ∧ (∀ q, st q = fs q ∨ st q = none)
  order : e.ρ.Fair

/-- The queue of the run `e` is some execution of the queue `q` of this plan: every file system it goes through is one
of that execution, and it ends well only if the execution has returned without an error. -/
structure QueueIs (e : RunEnv) (q : QEnv) (lib : Path) (ip : InstallPlan) (Scratch : Path → Prop)
    (Complete : Str → (Path → Option Node) → Prop) (Holds : Str → Str → Prop) : Prop where
  job : ∃ n t ρ, q.job = jobOf ip n ρ t
  library : q.lib = lib
  wf : WellFormed q.job
  layout : Layout q Scratch
  contract : RContract q Scratch Complete Holds
  moments : ∀ fs, ∀ st ∈ (e.planned fs).mid ++ [(e.planned fs).fs], ∃ s, QReach q fs s ∧ s.fs = st
  ended : ∀ fs, (e.planned fs).out = .ok → ∃ s, QReach q fs s ∧ s.fs = (e.planned fs).fs ∧ s.run.ret = some .nil

/-- The files are as in `fs` except in the library and in directories above it (which may have been made). -/
def SameElsewhere (lib : Path) (fs fs1 : Fs) : Prop := ∀ q, ¬ lib <+: q → ¬ q <+: lib → fs1 q = fs q

/-- Downloads that start with the files `fs` (whatever is in the library) and end well leave a package file of every
package of the queue in its place; cached binaries that are there then are binaries of their packages; and these
places are out of reach of the installations. -/
structure Delivers (e : RunEnv) (q : QEnv) (ip : InstallPlan) (Scratch : Path → Prop) (Holds : Str → Str → Prop)
    (lib : Path) (fs : Fs) : Prop where
  there : ∀ fs1, SameElsewhere lib fs fs1 → (e.download fs1).out = .ok → ∀ p ∈ queued ip,
    ∃ x, (e.download fs1).fs (q.src p) = some (.file x) ∧ Holds p x
  binaries : ∀ fs1, SameElsewhere lib fs fs1 → (e.download fs1).out = .ok → ∀ p ∈ queued ip,
    ∀ b n, q.ie.cachedBinary (q.download p).metadata = some b → (e.download fs1).fs b = some n → ∃ x, n = .file x ∧ Holds p x
  safe : ∀ p ∈ queued ip, SafePlace q Scratch (q.src p)
  cached : ∀ p ∈ queued ip, ∀ b, q.ie.cachedBinary (q.download p).metadata = some b → SafePlace q Scratch b

/-- R's exit status can be trusted for unpacked tarballs too: if what it is given is an unpacked package `p`. -/
def Installs (R : ROracle) (Complete Unpacked : Str → (Path → Option Node) → Prop) : Prop :=
  ∀ c fs, (R c fs).2 = .ok → Unpacked c.pkg (fun r => fs (c.src ++ r)) → Complete c.pkg (contentOf (R c fs).1 c.lib c.pkg)

/-- The directory of the unpacked tarball `t` is there in `st`, and its path can be written in a stamp. -/
def TarballThere (e : RunEnv) (ip : InstallPlan) (Unpacked : Str → (Path → Option Node) → Prop) (st : Fs) (t : Str) : Prop :=
  st (absPath e.ie.cwd ((GoMap.get? ip.additional t).getD {}).installPath) ≠ none ∧
  Unpacked t (fun r => st (absPath e.ie.cwd ((GoMap.get? ip.additional t).getD {}).installPath ++ r)) ∧
  PlainStamp (e.ie.stamp { type := .source, repo :=
    { url := pathStr (absPath e.ie.cwd ((GoMap.get? ip.additional t).getD {}).installPath), name := s%"IndividualPackage" } })

/-- Is `p` replaced by this run: it is outdated and updates are on, or a tarball is given for it? -/
def Replaced (cfg : RunCfg) (ip : InstallPlan) (p : Str) : Prop :=
  (cfg.noUpdate = false ∧ ∃ o ∈ ip.outdated, o.package = p) ∨ p ∈ tarballs ip

/-- Completely installed, as far as pkgr can tell: the directory has a DESCRIPTION that names the package and gives a
version that is not older than the one the repositories offer. -/
def UpToDate (parse : Str → Option Desc) (nx : Nexus) (p : Str) (D : Path → Option Node) : Prop :=
  D [] = some .dir ∧ ∃ c d dl, D [s%"DESCRIPTION"] = some (.file c) ∧ parse c = some d ∧ d.package = p ∧
    Resolves nx p dl ∧ compareVersionStrings d.version dl.package.version ≠ some (-1)

end Pkgr.Spec
