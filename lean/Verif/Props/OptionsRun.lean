/- C135 with C112: `--no-rollback`. -/
import Verif.Props.Options
import Verif.Props.NoRollback

namespace Pkgr
open Spec

/-- C135 with C112: `--no-rollback` switches the undoing off, whatever the environment and the file say: at the end of a run that
is not aborted the library holds what it held at a moment when all configured packages had been tried (apart from backups,
locks, and what the configured tarballs install). -/
theorem C135_no_rollback_given (s : Sources) (o : Options) (h : s.options = some o) (hg : s.given (s%"no-rollback") = some (.bool true))
    (e : RunEnv) (lib : Path) (ip : InstallPlan) (pre : GoMap Desc) (fs : Fs) (hb : Behaves e lib ip) (hn : GoodNames ip) {f : Bool}
    (hr : (e.rInstall (o.runCfg lib) ip pre fs).2 = .exit0 f) :
    ∃ st ∈ (e.rInstall (o.runCfg lib) ip pre fs).1.states, ∀ n, (∀ p ∈ members ip, n ≠ backupName p) → n ∉ tarballs ip → ¬ IsLock n →
      contentOf (e.rInstall (o.runCfg lib) ip pre fs).1.fs lib n = contentOf (e.planned st).fs lib n :=
  C112_nothing_undone (cfg := o.runCfg lib) hb hn ((C135_option_decides s o h).1 true hg) hr

/-- A concrete case of `C135_no_rollback_given`: the file asks for the rollback, the option is given, the run fails, and the
package `b` it has installed stays. -/
example : ∃ o, ({ optSources with given := (fun n => if n = s%"no-rollback" then some (.bool true) else none)
                                  file := (fun k => if k = s%"norollback" then some (.bool false) else none) } : Sources).options = some o ∧
    Behaves (libRun .failed) [s%"lib"] toyPlan ∧ GoodNames toyPlan ∧
    ((libRun .failed).rInstall (o.runCfg [s%"lib"]) toyPlan toyPre toyLib).2 = .exit0 true ∧
    ((libRun .failed).rInstall (o.runCfg [s%"lib"]) toyPlan toyPre toyLib).1.fs [s%"lib", s%"b"] = some .dir :=
  ⟨_, rfl, libRun_behaves _, toy_goodNames, by decide, by decide⟩

end Pkgr
