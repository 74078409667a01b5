/- Vocabulary for C155: downloads and installations, one after the other. -/
import Verif.Spec.Ends
import Verif.Spec.RealRun
import Verif.Spec.AsDownloaded

namespace Pkgr.Spec
open Pkgr

/-- Packages that are downloaded as binaries are binaries for this R: on Linux, R calls its platform what the repository calls it. -/
def BinariesFit (de : DlEnv) (q : QEnv) (ip : InstallPlan) : Prop :=
  ∀ d ∈ ip.downloads, resolveType de.platform d.config.type = .binary →
    q.ie.platform.os = .darwin ∨ q.ie.platform.os = .windows ∨ (q.ie.platform.os = .linux ∧ q.ie.rPlatform = linuxPlatform de.rhel)

/-- Before the downloads no file stands where a directory has to be made: a temporary directory, or the directory
`<cache>/<repository>/binary/<version of R>` for the binaries that R builds.  And the packages that are installed already are complete. -/
structure RoomBefore (de : DlEnv) (q : QEnv) (ip : InstallPlan) (Complete : Str → (Path → Option Node) → Prop) (fs : Fs) : Prop where
  tmp : ∀ p ∈ queued ip, ∀ x, fs (q.tmp p) ≠ some (.file x)
  bins : ∀ d ∈ ip.downloads, ∀ x, fs (de.base ++ [repoUrlHash de.digest d.config.repo, s%"binary", de.rv.toStr]) ≠ some (.file x)
  whole : ∀ p ∈ queued ip, fs (q.lib ++ [p]) = some .dir → Complete p (contentOf fs q.lib p)

end Pkgr.Spec
