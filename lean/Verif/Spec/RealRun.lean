/- Vocabulary for C118: a run of `pkgr install` whose downloads are those of Model/Download.lean and whose queue is the
one of Model/Queue.lean. -/
import Verif.Spec.WholeRun
import Verif.Spec.Download

namespace Pkgr.Spec
open Pkgr

/-- The files at some moment of the downloads that began with the files `fs`: the directories are being made, or some
execution has got to a state in which the files are the same but for those that are being written at this moment. -/
def DlMoment (de : DlEnv) (ds : List PkgDl) (fs st : Fs) : Prop :=
  (∀ x, st x = fs x ∨ st x = de.mkDirs fs ds x) ∨
  ∃ s, DlReach de ds fs s ∧ ∀ x, st x = s.fs x ∨
    ∃ (i : Nat) (d : PkgDl), s.phases[i]? = some DlPhase.holding ∧ ds[i]? = some d ∧ x = de.dest d ∧
      ∃ st' ∈ de.downloadStates s.fs (settled de.platform d) (de.dest d), st x = st' x

/-- The downloads of the run are some execution of `DownloadPackages`; if they end well, the table that the queue gets
is the one they return. -/
structure DownloadsAre (e : RunEnv) (de : DlEnv) (ip : InstallPlan) (table : Str → Download) (lib : Path) (fs : Fs) : Prop where
  moments : ∀ fs1, ∀ st ∈ (e.download fs1).mid ++ [(e.download fs1).fs], DlMoment de ip.downloads fs1 st
  ended : ∀ fs1, SameElsewhere lib fs fs1 → (e.download fs1).out = .ok →
    ∃ s, DlReach de ip.downloads fs1 s ∧ s.returned = true ∧ s.fs = (e.download fs1).fs ∧
      ∀ p, table p = (GoMap.get? s.result p).getD {}

/-- The queue of the run is some execution of the queue `q` of this plan (as in `QueueIs`, but nothing is supposed about
where the files of the cache are). -/
structure QueueRuns (e : RunEnv) (q : QEnv) (lib : Path) (ip : InstallPlan) (Scratch : Path → Prop)
    (Complete : Str → (Path → Option Node) → Prop) (Holds : Str → Str → Prop) : Prop where
  job : ∃ n t ρ, q.job = jobOf ip n ρ t
  library : q.lib = lib
  wf : WellFormed q.job
  contract : RContract q Scratch Complete Holds
  moments : ∀ fs, ∀ st ∈ (e.planned fs).mid ++ [(e.planned fs).fs], ∃ s, QReach q fs s ∧ s.fs = st
  ended : ∀ fs, (e.planned fs).out = .ok → ∃ s, QReach q fs s ∧ s.fs = (e.planned fs).fs ∧ s.run.ret = some .nil

/-- The rest: R when it installs tarballs, removals, and map iterations (as in `Around`). -/
structure Outside (e : RunEnv) (lib : Path) : Prop where
  R : RConfined e.ie.R lib
  during : ∀ n fs, ∀ st ∈ e.during n fs, Keeps lib (fun m => m = n ∨ m = lockName n) fs st
  removal : ∀ fs p, ∀ st ∈ (e.disk.removing fs p).1, (∀ q, ¬ p <+: q → st q = fs q) ∧ (∀ q, st q = fs q ∨ st q = none)
  order : e.ρ.Fair

/-- The plan names one download for every package it installs, with ordinary names, and a repository name stands for
one URL. -/
structure GoodDownloads (ip : InstallPlan) : Prop where
  each : ∀ p ∈ queued ip, ∃ d ∈ ip.downloads, d.package.package = p
  once : (ip.downloads.map fun d => d.package.package).Nodup
  plain : ∀ d ∈ ip.downloads, PlainNames d ∧ ¬ (s%"tar.gz") <:+: (d.package.package ++ s%"_" ++ d.package.version)
  oneUrl : ∀ d ∈ ip.downloads, ∀ d' ∈ ip.downloads, d.config.repo.name = d'.config.repo.name → d.config.repo.url = d'.config.repo.url

/-- Downloads and queue have the same settings, and the package cache, the library, the temporary directories and R's
scratch files are in different places. -/
structure Places (de : DlEnv) (q : QEnv) (Scratch : Path → Prop) : Prop where
  digest : de.digest = q.ie.digest
  base : de.base = q.ie.cache
  rv : de.rv = q.ie.rv
  platform : de.platform = q.ie.platform
  shape : DigestShape de.digest
  os : de.platform.os ≠ .other
  rPlatform : '/' ∉ q.ie.rPlatform
  cacheLib : Apart de.base q.lib
  cacheTmp : ∀ p, Apart de.base (q.tmp p)
  cacheScratch : ∀ x, Scratch x → ¬ de.base <+: x
  tmpLib : ∀ p, Apart q.lib (q.tmp p)
  tmpTmp : ∀ p ∈ Job.plan q.job, ∀ p' ∈ Job.plan q.job, p ≠ p' → Apart (q.tmp p) (q.tmp p')
  scratch : ∀ x, Scratch x → ¬ q.lib <+: x ∧ ∀ p, ¬ q.tmp p <+: x

/-- What is in the cache is what it should be, and the repositories deliver what is not. -/
structure Stocked (de : DlEnv) (q : QEnv) (ip : InstallPlan) (Holds : Str → Str → Prop) (fs : Fs) : Prop where
  dirs : ∀ d ∈ ip.downloads, ∀ x, de.base <+: x → x <+: dirPath (de.dest d) → ∀ c, fs x ≠ some (.file c)
  files : ∀ d ∈ ip.downloads, ∀ n, fs (de.dest d) = some n → ∃ x, n = .file x ∧ Holds d.package.package x
  served : ∀ d ∈ ip.downloads, fs (de.dest d) = none →
    ∃ x, de.server (de.url (settled de.platform d) (de.dest d)) = .body x true ∧ Holds d.package.package x
  binaries : ∀ d ∈ ip.downloads, ∀ b n, q.ie.cachedBinary d = some b → fs b = some n → ∃ x, n = .file x ∧ Holds d.package.package x

end Pkgr.Spec
