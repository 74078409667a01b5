/- Model of desc/version.go and the version part of desc/structs.go. -/
import Verif.Model.Base

namespace Pkgr

/-- desc/structs.go:39-48 `Version`. -/
structure Version where
  major : Int := 0
  minor : Int := 0
  patch : Int := 0
  dev : Int := 0
  other : Int := 0
  string : Str := []
deriving Repr, DecidableEq

/-- The class `[\.-]` of desc/version.go:11. -/
def isVerSep (c : Char) : Bool := c = '.' || c = '-'

/-- desc/version.go:9-26 `ParseVersion`.  `none` is the index-out-of-range panic at line 13
(`parts[1]` with fewer than two parts).  The branch at lines 21-24 needs a fifth part, which
`Split(v, 4)` never produces; it is kept as written. -/
def parseVersion (v : Str) : Option Version :=
  let parts := splitNBy isVerSep 4 v
  match parts[0]?, parts[1]? with
  | some p0, some p1 =>
    some { major := atoi p0, minor := atoi p1,
           patch := match parts[2]? with | some p => atoi p | none => 0,
           dev := match parts[3]? with | some p => atoi p | none => 0,
           other := match parts[4]? with | some p => atoi p | none => 0,
           string := v }
  | _, _ => none

/-- desc/version.go:36-69 `CompareVersions`. -/
def compareVersions (v1 v2 : Version) : Int :=
  if v1.major < v2.major then -1 else if v1.major > v2.major then 1
  else if v1.minor < v2.minor then -1 else if v1.minor > v2.minor then 1
  else if v1.patch < v2.patch then -1 else if v1.patch > v2.patch then 1
  else if v1.dev < v2.dev then -1 else if v1.dev > v2.dev then 1
  else if v1.other < v2.other then -1 else if v1.other > v2.other then 1
  else 0

/-- desc/version.go:29-31 `CompareVersionStrings` (`none`: one of the two parses panics). -/
def compareVersionStrings (v1 v2 : Str) : Option Int :=
  match parseVersion v1, parseVersion v2 with
  | some a, some b => some (compareVersions a b)
  | _, _ => none

/-- desc/version.go:74-88 `isLowerVersion` (the `Less` of the unused sort interface, lines 89-91). -/
def isLowerVersion (v1 v2 : Version) : Bool :=
  if v1.major < v2.major then true
  else if v1.minor < v2.minor then true
  else if v1.dev < v2.dev then true
  else if v1.other < v2.other then true
  else false

end Pkgr
