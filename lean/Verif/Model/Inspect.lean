/-
Model of cmd/inspect.go, of the reports of pacman/utils.go (`GetInstallers`, `NotFromPkgr`), of the choice of packages
in cmd/load.go:95-99, and of the R CMD INSTALL command line (rcmd/install.go:28-64, 125-132).
Left out: the drawing of the tree (github.com/xlab/treeprint); the JSON encoder is in Model/Json.lean.
-/
import Verif.Model.Plan
import Verif.Model.Install

namespace Pkgr

/-! ### cmd/inspect.go -/

/-- A branch of the tree that is printed. -/
inductive DepTree where
  | node (name : Str) (kids : List DepTree)

/-- The name a branch shows. -/
def DepTree.name : DepTree → Str
  | .node n _ => n

/-- cmd/inspect.go:65-74 `recurseDeps`: the branches below a package (`none`: more than `fuel` nested calls). -/
def recurseDeps (ddb : GoMap (List Str)) : Nat → Str → Option (List DepTree)
  | 0, _ => none
  | fuel + 1, pkg =>
    (sortStrings ((GoMap.get? ddb pkg).getD [])).mapM fun d => (recurseDeps ddb fuel d).map (fun ks => DepTree.node d ks)

/-- cmd/inspect.go:93-104: the table of dependencies, or of dependents, its lists sorted. -/
def inspectTable (reverse : Bool) (ρ : Order) (ip : InstallPlan) : GoMap (List Str) :=
  (if reverse then invertDependencies ρ 0 ip.depDb else ip.depDb).map fun e => (e.1, sortStrings e.2)

/-- cmd/inspect.go:105-112: the part of the table that is printed (a nil slice prints as `null`). -/
def inspectSelect (tbl : GoMap (List Str)) (args : List Str) : GoMap (Option (List Str)) :=
  if args ≠ [] then args.foldl (fun m a => GoMap.put m a (GoMap.get? tbl a)) []
  else tbl.map fun e => (e.1, some e.2)

/-- cmd/inspect.go:117-124: with `--tree`, one branch per selected package, in the order of a range loop, and below it
its dependencies; the dependencies are those of the plan whatever table was selected. -/
def inspectTree (ρ : Order) (t : Nat) (fuel : Nat) (ip : InstallPlan) (sel : GoMap (Option (List Str))) : Option (List DepTree) :=
  (ρ t (GoMap.keys sel)).mapM fun p => (recurseDeps ip.depDb fuel p).map (fun ks => DepTree.node p ks)

/-! ### pacman/utils.go -/

/-- pacman/utils.go:136-140 `InstalledFromPkgs`. -/
structure InstalledFrom where
  pkgr : List Str := []
  packrat : List Str := []
  unknown : List Str := []
deriving Repr, DecidableEq

/-- pacman/utils.go:53-59: one package. -/
def installerStep (m : GoMap Desc) (acc : InstalledFrom) (k : Str) : InstalledFrom :=
  if ((GoMap.get? m k).getD {}).pkgrVersion = [] then { acc with packrat := acc.packrat ++ [k] }
  else { acc with pkgr := acc.pkgr ++ [k] }

/-- pacman/utils.go:51-67 `GetInstallers`. -/
def getInstallers (ρ : Order) (t : Nat) (m : GoMap Desc) : InstalledFrom := (ρ t (GoMap.keys m)).foldl (installerStep m) {}

/-- pacman/utils.go:143-152 `NotFromPkgr`. -/
def InstalledFrom.notFromPkgr (i : InstalledFrom) : List Str := i.packrat ++ i.unknown

/-! ### cmd/load.go: what is loaded -/

/-- cmd/plan.go:233-236: the plan that `load` sees; a plan with missing packages is empty. -/
def PlanOutcome.forLoad : PlanOutcome → Option InstallPlan
  | .planned _ _ ip => some ip
  | .missing _ => some {}
  | _ => none

/-- cmd/load.go:90-99: the packages to load (`none`: the program ended while planning). -/
def toLoad (all : Bool) (user : List Str) (po : PlanOutcome) (ρ : Order) (t : Nat) : Option (List Str) :=
  po.forLoad.map fun ip => if all then ip.allPackages ρ t else user

/-! ### The command line of R -/

/-- rcmd/structs.go:33-49 `InstallArgs`. -/
structure InstallArgs where
  clean : Bool := false
  preclean : Bool := false
  debug : Bool := false
  noConfigure : Bool := false
  example_ : Bool := false
  fake : Bool := false
  build : Bool := false
  installTests : Bool := false
  noMultiarch : Bool := false
  withKeepSource : Bool := false
  byteCompile : Bool := false
  noTestLoad : Bool := false
  noCleanOnError : Bool := false
  library : Str := []
deriving Repr, DecidableEq

/-- rcmd/install.go:28-36 `NewDefaultInstallArgs`. -/
def defaultInstallArgs : InstallArgs := { withKeepSource := true, noMultiarch := true, installTests := true, build := true }

/-- The tag of a flag field, if the field is set. -/
def flagArg (b : Bool) (tag : Str) : List Str := if b then [s%"--" ++ tag] else []

/-- rcmd/install.go:40-64 `CliArgs`: the fields that are not zero, in the order of rcmd/structs.go:34-48. -/
def InstallArgs.cliArgs (i : InstallArgs) : List Str :=
  flagArg i.clean (s%"clean") ++ flagArg i.preclean (s%"preclean") ++ flagArg i.debug (s%"debug") ++
  flagArg i.noConfigure (s%"no-configure") ++ flagArg i.example_ (s%"example") ++ flagArg i.fake (s%"fake") ++
  flagArg i.build (s%"build") ++ flagArg i.installTests (s%"install-tests") ++ flagArg i.noMultiarch (s%"no-multiarch") ++
  flagArg i.withKeepSource (s%"with-keep.source") ++ flagArg i.byteCompile (s%"byte-compile") ++
  flagArg i.noTestLoad (s%"no-test-load") ++ flagArg i.noCleanOnError (s%"no-clean-on-error") ++
  (if i.library ≠ [] then [s%"--library=" ++ i.library] else [])

/-- rcmd/install.go:124-130: the arguments of the R process. -/
def rArgs (i : InstallArgs) (path : Str) : List Str := [s%"--vanilla", s%"CMD", s%"INSTALL"] ++ i.cliArgs ++ [path]

/-- How a package is installed: the binary in the cache, the source into the temporary library (leaving a binary
there), or that binary. -/
inductive ArgPass where
  | cached
  | build
  | final
deriving Repr, DecidableEq

/-- rcmd/install.go:283-294 (cached), 312, 327-347 (build; the library becomes the temporary directory) and 330-332,
380-387 (final; only the library is given): the arguments of one pass. `finalLib` is the library made absolute. -/
def passArgs (base : InstallArgs) (tmp finalLib : Str) : ArgPass → InstallArgs
  | .cached => { base with build := false }
  | .build => { base with library := tmp }
  | .final => { library := finalLib }

end Pkgr
