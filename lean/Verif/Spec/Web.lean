/- Independent vocabulary for certificates and routes (C163-C165). -/
import Verif.Model.Web
import Verif.Spec.Fetching
import Verif.Spec.PkgDb

namespace Pkgr.Spec
open Pkgr

/-- The URL asks for TLS: its scheme is https, in whatever case. -/
def AsksTLS (url : Str) : Prop := ∃ scheme rest, url = scheme ++ ':' :: rest ∧ scheme.map Char.toLower = s%"https"

/-- The repository is on the network (otherwise it is a directory). -/
def Remote (url : Str) : Prop := ∃ rest, url = s%"http" ++ rest

/-- The URLs `trail`, of which there are at least one and at most ten, lead from the first to what the last one delivers: the party met
(`met`) at each of the others redirects to the next one. -/
inductive Trail (met : Str → Party) : List Str → Str → Bool → Prop where
  | last {u : Str} {c : Str} {b : Bool} : (met u).served = .body c b → Trail met [u] c b
  | step {u v : Str} {us : List Str} {c : Str} {b : Bool} : (met u).served = .moved v → Trail met (v :: us) c b → Trail met (u :: v :: us) c b

/-- Asking for `url` delivers `c` (all of it, if `b`) over connections that all are verified where TLS is asked for. -/
def Vouched (met : Str → Party) (url c : Str) (b : Bool) : Prop :=
  ∃ us, (url :: us).length ≤ 10 ∧ Trail met (url :: us) c b ∧ ∀ u ∈ url :: us, AsksTLS u → (met u).trusted = true

/-- The same, whoever is met. -/
def Delivered (met : Str → Party) (url c : Str) (b : Bool) : Prop :=
  ∃ us, (url :: us).length ≤ 10 ∧ Trail met (url :: us) c b

/-- The URL of a package: that of its repository, and of the platform and R version for binaries. -/
def packageAt (e : DlEnv) (d : PkgDl) : Str := e.url (settled e.platform d) (e.dest d)

/-- Runs of pkgr (their downloads), each with the network as it was at its time and with or without `NoSecure`. -/
structure WebRun where
  web : Web
  noSecure : Bool
  computer : Computer
  env : DlEnv
  ds : List PkgDl

/-- The surroundings of the downloads of the run. -/
def WebRun.downloads (r : WebRun) : DlEnv := r.env.on (r.computer.online r.web r.noSecure)

/-- One run after the other, each ended at whatever moment, led from the files `fs` to the files `fs'`. -/
inductive RunsLead : List WebRun → Fs → Fs → Prop where
  | none {fs : Fs} : RunsLead [] fs fs
  | run {r : WebRun} {rs : List WebRun} {fs fs' : Fs} {s : FineState} : FineReach r.downloads r.ds fs s → RunsLead rs s.fs fs' → RunsLead (r :: rs) fs fs'

end Pkgr.Spec
