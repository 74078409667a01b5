/- Model of the end of `pkgr load`: cmd/load.go:75-78 and 134-154, cmd/root.go:44-51 (`Execute`). -/
import Verif.Model.Load
import Verif.Model.Logger

namespace Pkgr

/-- cmd/load.go:137-149: the closing record: its level, and the number of failures if it names one. -/
def loadRecord (r : LoadReport) : Level × Option Nat :=
  if r.failures = 0 then (.info, none) else (.error, some r.failures)

/-- What a user who cannot see inside has of `load`: the closing record if it is shown, whether the report is printed, and the
status with which pkgr ends. -/
structure LoadSeen where
  closing : Option (Level × Option Nat)
  printed : Bool
  status : Nat
deriving Repr, DecidableEq

/-- cmd/load.go:75-78 (with `--json` the level becomes "fatal"), 137-154, and cmd/root.go:44-51: the command is a `Run`, not a `RunE`,
so there is no error to return and the status is 0.  `asked`: the level in force before. -/
def loadSeen (json : Bool) (asked : Level) (r : LoadReport) : LoadSeen :=
  let level := if json then setLogLevel (s%"fatal") else asked
  { closing := if (loadRecord r).1.num ≤ level.num then some (loadRecord r) else none,
    printed := json, status := 0 }

end Pkgr
