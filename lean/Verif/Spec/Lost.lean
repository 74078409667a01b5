/- Vocabulary for C119: packages for which nothing could be downloaded. -/
import Verif.Spec.RealRun

namespace Pkgr.Spec
open Pkgr

/-- Nothing was downloaded for `p`, it is not in the library, and there is no cached binary that could be taken for it;
pkgr runs in a directory outside the library and the temporary directories. -/
structure Undelivered (e : QEnv) (Scratch : Path → Prop) (fs0 : Fs) (p : Str) : Prop where
  nothing : e.download p = {}
  library : fs0 (e.lib ++ [p]) ≠ some .dir
  cwd : fs0 e.ie.cwd = some .dir ∧ SafePlace e Scratch e.ie.cwd
  binary : ∀ b, e.ie.cachedBinary (e.download p).metadata = some b → fs0 b = none ∧ SafePlace e Scratch b

/-- R, told to build a package from a directory, leaves nothing in the working directory that has the name of that
directory. -/
def NoStray (e : QEnv) : Prop :=
  ∀ c fs, e.proc.exits c fs .ok → c.build = true → fs c.src = some .dir →
    ∀ bbp, binaryExtOs e.ie.platform.os (basePath c.src) e.ie.rPlatform = some bbp → fs (c.workDir ++ [bbp]) = none

/-- R, told to build a package from a directory, leaves no regular file with the name of that directory in the working
directory (it does leave, say, the directory of the installed package there). -/
def NoStrayFile (e : QEnv) : Prop :=
  ∀ c fs, e.proc.exits c fs .ok → c.build = true → fs c.src = some .dir →
    ∀ bbp, binaryExtOs e.ie.platform.os (basePath c.src) e.ie.rPlatform = some bbp →
      ∀ x, fs (c.workDir ++ [bbp]) ≠ some (.file x)

end Pkgr.Spec
