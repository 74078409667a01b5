/- Independent vocabulary for C162: the texts that planning reads. -/
import Verif.Spec.LibScan
import Verif.Spec.Tarballs
import Verif.Model.PlanFiles

namespace Pkgr.Spec
open Pkgr

/-- The text, if it is the DESCRIPTION of a package, names no dependency that cannot be read. -/
def SoundText (t : Str) : Prop := ∀ raw, decodeDesc t = some raw → ∀ i ∈ allItems raw, ¬ MalformedItem i

/-- `desc.ParseDesc`, when it returns without an error. -/
def parsedDesc (t : Str) : Option Desc :=
  match parseDesc t with
  | .ok d => some d
  | _ => none

/-- The states of the file system while the tarballs are unpacked. -/
def PlanFiles.During (x : PlanFiles) (fs st : Fs) : Prop := st ∈ unpackStates x.digest x.unpacked parsedDesc x.cache fs x.tarballs

/-- Every DESCRIPTION in the library is sound; and so is, at all times while planning, every DESCRIPTION file of the configuration
and every DESCRIPTION in the directory of a tarball in the cache. -/
structure SoundFiles (x : PlanFiles) (fs : Fs) : Prop where
  library : ∀ n t, DescriptionText fs x.lib n t → SoundText t
  descriptions : ∀ p ∈ x.descriptions, ∀ st, PlanFiles.During x fs st → ∀ t, st p = some (.file t) → SoundText t
  tarballs : ∀ path b, (path, some b) ∈ x.tarballs → ∀ n ∈ x.unpacked, ∀ st, PlanFiles.During x fs st → ∀ t,
    st (x.cache ++ [x.digest b.bytes, n, s%"DESCRIPTION"]) = some (.file t) → SoundText t

/-- The program crashes: a panic from inside, not a report. -/
def Crashes : PlanEnd → Prop
  | .stopped .crash => True
  | .ends _ (.failed .versionPanic) => True
  | .ends _ (.failed .indexPanic) => True
  | _ => False

end Pkgr.Spec
