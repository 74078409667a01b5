/- Independent vocabulary for the finely interleaved downloads (C47) and for several runs sharing a cache (C141). -/
import Verif.Model.Fetching
import Verif.Spec.Download

namespace Pkgr.Spec
open Pkgr

/-- States reachable by some interleaving of the single steps of the downloads `ds`, started in file system `fs`. -/
def FineReach (e : DlEnv) (ds : List PkgDl) (fs : Fs) (s : FineState) : Prop :=
  ∃ evs, e.fineRun ds (e.fineInit fs ds) evs = some s

/-- Reachable by some interleaving of the single steps of the downloads `js` (of any processes). -/
def Together (js : List FetchJob) (fs : Fs) (s : Fetching) : Prop := ∃ evs, fetchRun js (fetchInit js fs) evs = some s

/-- Has this download returned? -/
def Returned (pc : FetchPc) : Prop := ∃ r, pc = .ended r

/-- The server delivers `c` completely for this download. -/
def GivesWhole (j : FetchJob) (c : Str) : Prop := j.env.server (j.env.url j.d j.dest) = .body c true

/-- What this download gives when nothing else happens. -/
def undisturbed (j : FetchJob) (fs : Fs) : Fs × DlResult := j.env.downloadPackage fs j.d j.dest

/-- The number of characters that the server delivers for this download. -/
def answerSize (e : DlEnv) (d : PkgDl) (dest : Path) : Nat :=
  match e.server (e.url d dest) with
  | .body c _ => c.length
  | _ => 0

end Pkgr.Spec
