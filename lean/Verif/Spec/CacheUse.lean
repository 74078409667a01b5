/- Independent vocabulary for C171: what a package cache of any past makes of a run. -/
import Verif.Spec.Fetching

namespace Pkgr.Spec
open Pkgr

/-- The packages `U` of one configuration: ordinary names, and a repository name stands for one repository (URL and suffix). -/
structure Catalog (U : PkgDl → Prop) : Prop where
  plain : ∀ d, U d → PlainNames d
  oneRepo : ∀ d d', U d → U d' → d.config.repo.name = d'.config.repo.name → d.config.repo = d'.config.repo

/-- The URL from which package `d` is downloaded. -/
def urlOf (e : DlEnv) (d : PkgDl) : Str := e.url (settled e.platform d) (e.dest d)

/-- The servers deliver nothing but the files `published`, and never cut one short (they may be out of reach, or answer with errors). -/
def TellsTruth (srv : Str → Response) (published : Str → Option Str) : Prop :=
  ∀ u c b, srv u = .body c b → b = true ∧ published u = some c

/-- The servers deliver all that is published. -/
def AllUp (srv : Str → Response) (published : Str → Option Str) : Prop :=
  ∀ u c, published u = some c → srv u = .body c true

/-- The same computer at another time: the servers may answer differently. -/
def later (e : DlEnv) (srv : Str → Response) : DlEnv := { e with server := srv }

/-- The file systems that a past of uninterrupted runs can lead to: at first none of the packages is in the cache; there are downloads,
of any packages, in any interleaving, with any servers that tell the truth; and anything happens but that files other than
downloads get into the places of the packages in the cache (files may be removed from it). -/
inductive CacheLife (e : DlEnv) (published : Str → Option Str) (U : PkgDl → Prop) : Fs → Prop where
  | fresh (fs : Fs) : (∀ d, U d → fs (e.dest d) = none) → CacheLife e published U fs
  | run {fs : Fs} (srv : Str → Response) (ds : List PkgDl) (s : FineState) : CacheLife e published U fs → TellsTruth srv published →
      (∀ d ∈ ds, U d) → (ds.map fun d => d.package.package).Nodup → FineReach (later e srv) ds fs s → s.returned = true →
      CacheLife e published U s.fs
  | change {fs : Fs} (fs' : Fs) : CacheLife e published U fs → (∀ d, U d → fs' (e.dest d) = fs (e.dest d) ∨ fs' (e.dest d) = none) →
      CacheLife e published U fs'

/-- The table has the file of package `d` for the queue. -/
def Provided (e : DlEnv) (s : FineState) (d : PkgDl) : Prop :=
  ∃ dl, GoMap.get? s.result d.package.package = some dl ∧ dl.path = .abs (e.dest d) ∧ dl.metadata = settled e.platform d

end Pkgr.Spec
