/- Model of gpsr/ (dependency graph, layering, install plan), of the planning part of cmd/plan.go, of
the customization functions of configlib/config.go and of pacman/utils.go `GetOutdatedPackages`. -/
import Verif.Model.Nexus

namespace Pkgr

/-! ### gpsr/pkgs.go -/

/-- gpsr/pkgs.go:5-18: the packages of type "base". -/
def basePackages : List Str :=
  [s%"base", s%"compiler", s%"datasets", s%"graphics", s%"grDevices", s%"grid", s%"methods",
   s%"parallel", s%"splines", s%"stats", s%"stats4", s%"tcltk", s%"tools", s%"utils"]

/-- gpsr/pkgs.go:19-33: the packages of type "recommended". -/
def recommendedPackages : List Str :=
  [s%"Matrix", s%"boot", s%"class", s%"cluster", s%"codetools", s%"foreign", s%"KernSmooth",
   s%"lattice", s%"MASS", s%"mgcv", s%"nlme", s%"nnet", s%"rpart", s%"spatial", s%"survival"]

/-- gpsr/pkgs.go:4-34 `DefaultPackages`: the type of a package that ships with R (`true`: "recommended",
`false`: "base"). -/
def defaultPackageType (p : Str) : Option Bool :=
  if p ∈ basePackages then some false else if p ∈ recommendedPackages then some true else none

/-- gpsr/helpers.go:9-15 `isExcludedPackage`. -/
def isExcluded (pkg : Str) (noRecommended : Bool) : Bool :=
  match defaultPackageType pkg with
  | some isRec => if !noRecommended && isRec then false else true
  | none => false

/-! ### gpsr/structs.go, gpsr/install.go -/

/-- gpsr/structs.go:28-34 `PkgDeps`. -/
structure PkgDeps where
  depends : Bool := false
  imports : Bool := false
  suggests : Bool := false
  linkingTo : Bool := false
  noRecommended : Bool := false
deriving Repr, DecidableEq

/-- gpsr/structs.go:37-40 `InstallDeps`. -/
structure InstallDeps where
  deps : GoMap PkgDeps := []
  default : PkgDeps := {}
deriving Repr, DecidableEq

/-- gpsr/install.go:5-15 `NewDefaultInstallDeps`. -/
def newDefaultInstallDeps : InstallDeps :=
  { deps := [], default := { depends := true, imports := true, linkingTo := true } }

/-- gpsr/dependencies.go:13-37 `Graph`: package name to the names it requires (a `Node`'s name is
always its key). -/
abbrev Graph := GoMap (List Str)

/-! ### gpsr/helpers.go `appendToGraph` -/

/-- gpsr/helpers.go:19-22: the configuration for one package. -/
def configOf (cfgs : InstallDeps) (pkg : Str) : PkgDeps :=
  (GoMap.get? cfgs.deps pkg).getD cfgs.default

/-- gpsr/helpers.go:24-33 (and 34-43, 44-53): the requirements taken from one dependency field, whose
names are visited in the order `names`. -/
def fieldReqs (nx : Nexus) (noRecommended : Bool) (selected : Bool) (names : List Str) : List Str :=
  if selected then names.filter (fun r => (getPackage nx r).isSome && !isExcluded r noRecommended)
  else []

/-- gpsr/helpers.go:23-53: the requirements of one package; three `range` loops over maps. -/
def reqsOf (nx : Nexus) (c : PkgDeps) (ρ : Order) (t : Nat) (d : Desc) : List Str :=
  fieldReqs nx c.noRecommended c.depends (ρ t (GoMap.keys d.depends)) ++
  fieldReqs nx c.noRecommended c.imports (ρ (t + 1) (GoMap.keys d.imports)) ++
  fieldReqs nx c.noRecommended c.linkingTo (ρ (t + 2) (GoMap.keys d.linkingTo))

/-- gpsr/helpers.go:60-69 and 72-81: what is done with one suggested or required name: unless it is
"R", already in the graph, or not available, recurse. -/
def visitStep (nx : Nexus) (rec : Nat × Graph → Desc → Option (Nat × Graph))
    (s : Nat × Graph) (r : Str) : Option (Nat × Graph) :=
  if r ≠ s%"R" ∧ GoMap.has s.2 r = false then
    match getPackage nx r with
    | some dl => rec s dl.package
    | none => some s
  else some s

/-- gpsr/helpers.go:17-82 `appendToGraph`.  The state is the graph and a counter of the `range` loops
executed so far (four per call), used to index the iteration-order oracle `ρ`.  `fuel` bounds the depth
of the recursion; `none` means that the bound was hit (C18 shows a bound that never is). -/
def appendToGraph (cfgs : InstallDeps) (nx : Nexus) (ρ : Order) :
    Nat → Nat × Graph → Desc → Option (Nat × Graph)
  | 0, _, _ => none
  | fuel + 1, s, d =>
    let c := configOf cfgs d.package
    let reqs := reqsOf nx c ρ s.1 d
    let sugg := if c.suggests then ρ (s.1 + 3) (GoMap.keys d.suggests) else []
    (sugg ++ reqs).foldlM (visitStep nx (fun s' d' => appendToGraph cfgs nx ρ fuel s' d'))
      (s.1 + 4, GoMap.put s.2 d.package reqs)

/-- Every name that some table of some repository offers; its length bounds the recursion depth. -/
def offeredNames (nx : Nexus) : List Str :=
  nx.db.flatMap fun db => GoMap.keys db.src ++ GoMap.keys (db.bin.getD [])

/-- The recursion bound used for `appendToGraph` in the model. -/
def graphFuel (nx : Nexus) : Nat := (offeredNames nx).length + 1

/-- gpsr/solution.go:36-39: one requested package (an unavailable one is looked up as the empty
description, whose name is ""). -/
def addRequested (cfgs : InstallDeps) (nx : Nexus) (ρ : Order) (s : Nat × Graph) (p : Str) :
    Option (Nat × Graph) :=
  appendToGraph cfgs nx ρ (graphFuel nx) s ((getPackage nx p).getD {}).package

/-- gpsr/solution.go:36-39: the graph of all requested packages. -/
def buildGraph (cfgs : InstallDeps) (nx : Nexus) (ρ : Order) (t : Nat) (pkgs : List Str) :
    Option (Nat × Graph) :=
  pkgs.foldlM (addRequested cfgs nx ρ) (t, [])

/-! ### gpsr/dependencies.go `ResolveLayers` -/

/-- gpsr/dependencies.go:55-67: the working copy of the graph, without excluded packages. The dependency
sets are modelled by lists (only membership and emptiness matter). -/
def nodeDependencies (g : Graph) (noRecommended : Bool) : Graph :=
  g.map fun e => (e.1, e.2.filter (fun d => !isExcluded d noRecommended))

/-- gpsr/dependencies.go:76-81: the nodes without remaining dependencies. -/
def readyNodes (nd : Graph) : List Str := (nd.filter (fun e => e.2.isEmpty)).map Prod.fst

/-- gpsr/dependencies.go:91-93 and 98-101: the ready nodes are deleted, and removed from the remaining
dependency sets. -/
def removeReady (nd : Graph) (ready : List Str) : Graph :=
  (nd.filter (fun e => !ready.contains e.1)).map
    (fun e => (e.1, e.2.filter (fun d => !ready.contains d)))

/-- gpsr/dependencies.go:73-102: the loop; `none` is the "Circular dependency found" error.  The order
inside a layer is the iteration order of the ready set.  The first argument bounds the number of rounds;
it starts at the number of nodes, and every round removes one. -/
def layerLoop (ρ : Order) : Nat → Nat → Graph → Option (List (List Str))
  | 0, _, nd => if nd.isEmpty then some [] else none
  | fuel + 1, t, nd =>
    if nd.isEmpty then some []
    else if (readyNodes nd).isEmpty then none
    else (layerLoop ρ fuel (t + 1) (removeReady nd (readyNodes nd))).map (ρ t (readyNodes nd) :: ·)

/-- gpsr/dependencies.go:53-105 `ResolveLayers`; `t` indexes the iteration-order oracle. -/
def resolveLayers (ρ : Order) (t : Nat) (g : Graph) (noRecommended : Bool) : Option (List (List Str)) :=
  layerLoop ρ g.length t (nodeDependencies g noRecommended)

/-! ### gpsr/solution.go `ResolveInstallationReqs` -/

/-- gpsr/solution.go:64-79: all layers but the first, concatenated; the last one without the package
itself. -/
def laterLayers (p : Str) : List (List Str) → List Str
  | [] => []
  | [last] => last.filter (fun q => q ≠ p)
  | l :: ls => l ++ laterLayers p ls

/-- gpsr/solution.go:63-79: the dependency list of `p` from the layers of its own graph (`none`: index
out of range on an empty list of layers). -/
def allDepsOf (p : Str) : List (List Str) → Option (List Str)
  | [] => none
  | l0 :: ls => some (l0 ++ laterLayers p ls)

/-- What can stop `ResolveInstallationReqs`: the returned error, an index-out-of-range panic, or the
panic of a version comparison; `outOfFuel` is never reached (C18). -/
inductive PlanErr where
  | circular | indexPanic | versionPanic | outOfFuel
deriving Repr, DecidableEq

/-- gpsr/solution.go:24-29: the configuration used for the dependency lists. -/
def defaultCfgs (noRecommended : Bool) : InstallDeps :=
  { newDefaultInstallDeps with
    default := { newDefaultInstallDeps.default with noRecommended := noRecommended } }

/-- gpsr/solution.go:30-33: the NoRecommended switch is copied to every package's configuration (the
default one is left as given). -/
def withNoRecommended (cfgs : InstallDeps) (noRecommended : Bool) : InstallDeps :=
  { cfgs with deps := cfgs.deps.map fun e => (e.1, { e.2 with noRecommended := noRecommended }) }

/-- gpsr/solution.go:51-80: the dependency list of one package outside the first layer, added to `depDb`.
The state is the oracle index and the table so far. -/
def depDbStep (nx : Nexus) (ρ : Order) (noRecommended : Bool) (s : Nat × GoMap (List Str)) (p : Str) :
    Except PlanErr (Nat × GoMap (List Str)) :=
  match appendToGraph (defaultCfgs noRecommended) nx ρ (graphFuel nx) (s.1, [])
      ((getPackage nx p).getD {}).package with
  | none => .error .outOfFuel
  | some (t, g) =>
    match resolveLayers ρ t g noRecommended with
    | none => .error .circular
    | some layers =>
      match allDepsOf p layers with
      | none => .error .indexPanic
      | some deps => .ok (t + layers.length, GoMap.put s.2 p deps)

/-- cran/structs.go:86-90 `OutdatedPackage`. -/
structure OutdatedPackage where
  package : Str
  oldVersion : Str
  newVersion : Str
deriving Repr, DecidableEq

/-- pacman/utils.go:115-131: the check made for one offered package (`none`: the version comparison
panics). -/
def outdatedStep (installed : GoMap Desc) (acc : List OutdatedPackage) (dl : PkgDl) :
    Option (List OutdatedPackage) :=
  match GoMap.get? installed dl.package.package with
  | none => some acc
  | some d =>
    match compareVersionStrings dl.package.version d.version with
    | none => none
    | some c =>
      if c > 0 then
        some (acc ++ [{ package := dl.package.package, oldVersion := d.version,
                        newVersion := dl.package.version }])
      else some acc

/-- pacman/utils.go:112-133 `GetOutdatedPackages`. -/
def getOutdatedPackages (installed : GoMap Desc) (avail : List PkgDl) : Option (List OutdatedPackage) :=
  avail.foldlM (outdatedStep installed) []

/-- gpsr/structs.go:20-24 `AdditionalPkg`. -/
structure AdditionalPkg where
  installPath : Str := []
  originPath : Str := []
  type : Str := []
deriving Repr, DecidableEq

/-- gpsr/structs.go:9-18 `InstallPlan`. -/
structure InstallPlan where
  starting : List Str := []
  depDb : GoMap (List Str) := []
  downloads : List PkgDl := []
  outdated : List OutdatedPackage := []
  installed : GoMap Desc := []
  additional : GoMap AdditionalPkg := []
  createLibrary : Bool := false
  update : Bool := false
deriving Repr, DecidableEq

/-- gpsr/dependencies.go:128-142 `Pack`: the downloads of the starting packages, then of the keys of
`DepDb` in the order of the `t`-th range loop. -/
def pack (nx : Nexus) (ρ : Order) (t : Nat) (starting : List Str) (depDb : GoMap (List Str)) : List PkgDl :=
  (starting ++ ρ t (GoMap.keys depDb)).map fun p => (getPackage nx p).getD {}

/-- gpsr/solution.go:12-95 `ResolveInstallationReqs`. -/
def resolveInstallationReqs (pkgs : List Str) (installed : GoMap Desc) (cfgs : InstallDeps) (nx : Nexus)
    (update libraryExists noRecommended : Bool) (ρ : Order) : Except PlanErr InstallPlan :=
  match buildGraph (withNoRecommended cfgs noRecommended) nx ρ 0 pkgs with
  | none => .error .outOfFuel
  | some (t, g) =>
    match resolveLayers ρ t g noRecommended with
    | none => .error .circular
    | some layers =>
      match (layers.drop 1).flatten.foldlM (depDbStep nx ρ noRecommended) (t + layers.length, []) with
      | .error e => .error e
      | .ok (t, depDb) =>
        match getOutdatedPackages installed (getPackages nx (ρ t (GoMap.keys installed))).packages with
        | none => .error .versionPanic
        | some outdated =>
          match layers with
          | [] => .error .indexPanic
          | l0 :: _ =>
            .ok { starting := l0, depDb := depDb, installed := installed, outdated := outdated,
                  createLibrary := !libraryExists, update := update,
                  downloads := pack nx ρ (t + 1) l0 depDb }

/-- gpsr/dependencies.go:144-153 `GetAllPackages`; two range loops (indices `t`, `t + 1`). -/
def InstallPlan.allPackages (ip : InstallPlan) (ρ : Order) (t : Nat) : List Str :=
  ip.starting ++ ρ t (GoMap.keys ip.depDb) ++ ρ (t + 1) (GoMap.keys ip.additional)

/-- gpsr/dependencies.go:155-177 `GetNumPackagesToInstall` (the order of the loops does not matter for
the counts; the storage order is used). -/
def InstallPlan.numToInstall (ip : InstallPlan) : Int :=
  let required := ip.allPackages (fun _ l => l) 0
  let installedRequired :=
    (GoMap.keys ip.installed).countP fun p => required.contains p && !GoMap.has ip.additional p
  let toUpdate := if ip.update then ip.outdated.length else 0
  (required.length : Int) - installedRequired + toUpdate

/-! ### gpsr/dependencies.go `InvertDependencies` -/

/-- Byte-wise string order of Go's `sort.Strings` (on valid UTF-8, the order of the code points). -/
def strLe : Str → Str → Bool
  | [], _ => true
  | _ :: _, [] => false
  | a :: s, b :: t => if a.toNat < b.toNat then true else if b.toNat < a.toNat then false else strLe s t

/-- Insertion into a sorted list. -/
def insertSorted (x : Str) : List Str → List Str
  | [] => [x]
  | y :: ys => if strLe x y then x :: y :: ys else y :: insertSorted x ys

/-- Go `sort.Strings` (the algorithm is not modelled; insertion sort gives the same result, strings that
compare equal being identical). -/
def sortStrings : List Str → List Str
  | [] => []
  | x :: xs => insertSorted x (sortStrings xs)

/-- gpsr/dependencies.go:115-119: one package's dependencies entered in the inverted table. -/
def invertStep (ddb : GoMap (List Str)) (idb : GoMap (List Str)) (pkg : Str) : GoMap (List Str) :=
  ((GoMap.get? ddb pkg).getD []).foldl
    (fun idb p => GoMap.put idb p ((GoMap.get? idb p).getD [] ++ [pkg])) idb

/-- gpsr/dependencies.go:111-126 `InvertDependencies`; the packages are visited in the order of the
`t`-th range loop. -/
def invertDependencies (ρ : Order) (t : Nat) (ddb : GoMap (List Str)) : GoMap (List Str) :=
  ((ρ t (GoMap.keys ddb)).foldl (invertStep ddb) []).map fun e => (e.1, sortStrings e.2)

/-! ### Customizations: configlib/config.go, configlib/get_customization.go -/

/-- configlib/structs.go:4-12 `PkgConfig`, with what `IsCustomizationSet` looks for in the raw settings:
whether the key is present. (`Env` is used in the environment model.) -/
structure PkgSetting where
  suggests : Option Bool := none
  repo : Option Str := none
  type : Option Str := none
deriving Repr, DecidableEq

/-- configlib/config.go:223-236 `IsCustomizationSet`: some entry of that name has the key. -/
def isCustomizationSet (has : PkgSetting → Bool) (entries : List (Str × PkgSetting)) (pkg : Str) : Bool :=
  entries.any fun e => e.1 = pkg && has e.2

/-- configlib/config.go:305-314 `setCfgCustomizations`: one requested package. -/
def cfgCustomizationStep (cfgs : InstallDeps) (pkg : Str) : InstallDeps :=
  { cfgs with deps := GoMap.put cfgs.deps pkg { cfgs.default with suggests := true } }

/-- configlib/config.go:305-314 `setCfgCustomizations`. -/
def setCfgCustomizations (globalSuggests : Bool) (pkgs : List Str) (cfgs : InstallDeps) : InstallDeps :=
  if globalSuggests then pkgs.foldl cfgCustomizationStep cfgs else cfgs

/-- configlib/config.go:316-345: the treatment of one entry (`none`: log.Fatal).  A key missing from
this entry but present in another entry of the same name is read as its zero value. -/
def viperStep (entries : List (Str × PkgSetting)) (s : InstallDeps × Nexus) (e : Str × PkgSetting) :
    Option (InstallDeps × Nexus) :=
  let cfgs :=
    if isCustomizationSet (fun v => v.suggests.isSome) entries e.1 then
      { s.1 with deps := GoMap.put s.1.deps e.1 { s.1.default with suggests := e.2.suggests.getD false } }
    else s.1
  let nx? :=
    if isCustomizationSet (fun v => v.repo.isSome) entries e.1 then setPackageRepo s.2 e.1 (e.2.repo.getD [])
    else some s.2
  match nx? with
  | none => none
  | some nx =>
    let nx? :=
      if isCustomizationSet (fun v => v.type.isSome) entries e.1 then setPackageType nx e.1 (e.2.type.getD [])
      else some nx
    match nx? with
    | none => none
    | some nx => some (cfgs, nx)

/-- configlib/config.go:294-303, 316-345 `SetPlanCustomizations`. -/
def setPlanCustomizations (globalSuggests : Bool) (pkgs : List Str) (entries : List (Str × PkgSetting))
    (cfgs : InstallDeps) (nx : Nexus) : Option (InstallDeps × Nexus) :=
  entries.foldlM (viperStep entries) (setCfgCustomizations globalSuggests pkgs cfgs, nx)

/-! ### cmd/plan.go `planInstall` -/

/-- cmd/plan.go:188-192 and 204-208: one dependency name appended unless already requested. -/
def requestStep (pkgs : List Str) (name : Str) : List Str :=
  if pkgs.contains name then pkgs else pkgs ++ [name]

/-- cmd/plan.go:186-193 / 203-210: the combined dependencies of the descriptions, in the order of the
range loops. The key of a combined dependency is its name. -/
def requestAll (ρ : Order) (suggests : Bool) : Nat → List Desc → List Str → List Str
  | _, [], pkgs => pkgs
  | t, d :: ds, pkgs =>
    requestAll ρ suggests (t + 1) ds
      ((ρ t (GoMap.keys (combinedDeps d suggests))).foldl requestStep pkgs)

/-- cmd/plan.go:329-342 `removeBasePackages`. -/
def removeBasePackages (pkgs : List Str) : List Str :=
  pkgs.filter fun p => !(defaultPackageType p == some false)

/-- The part of the configuration that planning reads (configlib/structs.go:31-63). -/
structure PlanCfg where
  packages : List Str := []
  suggests : Bool := false
  noRecommended : Bool := false
  noUpdate : Bool := false
  ignore : List Str := []
  customizations : List (Str × PkgSetting) := []
deriving Repr, DecidableEq

/-- Outcome of `planInstall`: fatal customization error, missing packages (exit or an empty plan,
cmd/plan.go:216-237), the panic on a planning error (line 259), or the plan. -/
inductive PlanOutcome where
  | badCustomization
  | missing (pkgs : List Str)
  | failed (e : PlanErr)
  | planned (requested : List Str) (nx : Nexus) (plan : InstallPlan)
deriving Repr, DecidableEq

/-- cmd/plan.go:185-214: the requested packages: the configured ones, those of the tarballs, those of
the DESCRIPTION files, without base packages. -/
def requestedPackages (cfg : PlanCfg) (tarballs descriptions : List Desc) (ρ ρ' : Order) : List Str :=
  removeBasePackages (requestAll ρ' true 0 descriptions (requestAll ρ false 0 tarballs cfg.packages))

/-- cmd/plan.go:164-250 (`planInstall` after the repositories have been loaded): ignore, customize,
collect the requested packages, check availability, resolve. `ρ ρ' ρ''` are the iteration orders of the
tarball loop, the DESCRIPTION loop and the resolution. -/
def planInstall (cfg : PlanCfg) (nx : Nexus) (installed : GoMap Desc) (libraryExists : Bool)
    (tarballs descriptions : List Desc) (additional : GoMap AdditionalPkg) (ρ ρ' ρ'' : Order) : PlanOutcome :=
  let nx := ignorePackages nx cfg.ignore
  match setPlanCustomizations cfg.suggests cfg.packages cfg.customizations (defaultCfgs cfg.noRecommended) nx with
  | none => .badCustomization
  | some (cfgs, nx) =>
    let pkgs := requestedPackages cfg tarballs descriptions ρ ρ'
    let missing := (getPackages nx pkgs).missing
    if missing ≠ [] then .missing missing
    else match resolveInstallationReqs pkgs installed cfgs nx (!cfg.noUpdate) libraryExists
          cfg.noRecommended ρ'' with
      | .error e => .failed e
      | .ok ip => .planned pkgs nx { ip with additional := additional }

end Pkgr
