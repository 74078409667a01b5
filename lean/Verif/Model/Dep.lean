/- Model of desc/desc.go (ParseDep, NewDesc), desc/dep.go and desc/structs.go. -/
import Verif.Model.Version

namespace Pkgr

/-- desc/structs.go:4, 25-32 `Constraint`. -/
inductive Constraint where
  | none | gte | gt | equals | lte | lt
deriving Repr, DecidableEq

/-- desc/structs.go:6-21 `Constraint.ToString`. -/
def Constraint.toStr : Constraint → Str
  | .gt => s%">"
  | .gte => s%">="
  | .lt => s%"<"
  | .lte => s%"<="
  | .equals => s%"=="
  | .none => s%"Unknown constraint"

/-- desc/structs.go:51-55 `Dep`. -/
structure Dep where
  name : Str := []
  version : Version := {}
  constraint : Constraint := .none
deriving Repr, DecidableEq

/-- desc/dep.go:8-10 `Dep.ToString`. -/
def Dep.toStr (d : Dep) : Str :=
  d.name ++ s%" (" ++ d.constraint.toStr ++ s%" " ++ d.version.string ++ s%")"

/-- desc/desc.go:25-43: the operator cascade of `ParseDep` on the text after the parenthesis.
`none` models both the explicit panic (line 42) and the panic inside `ParseVersion`. -/
def parseConstraint (pv : Str) : Option (Constraint × Version) :=
  if contains pv (s%"==") then
    (parseVersion (trimSpace (replaceFirst pv (s%"==") []))).map (fun v => (Constraint.equals, v))
  else if contains pv (s%">=") then
    (parseVersion (trimSpace (replaceFirst pv (s%">=") (s%" ")))).map (fun v => (Constraint.gte, v))
  else if contains pv (s%">") then
    (parseVersion (trimSpace (replaceFirst pv (s%">") (s%" ")))).map (fun v => (Constraint.gt, v))
  else if contains pv (s%"<=") then
    (parseVersion (trimSpace (replaceFirst pv (s%"<=") (s%" ")))).map (fun v => (Constraint.lte, v))
  else if contains pv (s%"<") then
    (parseVersion (trimSpace (replaceFirst pv (s%"<") (s%" ")))).map (fun v => (Constraint.lt, v))
  else none

/-- desc/desc.go:19-46 `ParseDep` (`none`: the program panics). -/
def parseDep (d : Str) : Option Dep :=
  let sp := splitOn '(' d
  let name := trimSpace (sp.headD [])
  match sp[1]? with
  | none => some { name := name }
  | some s1 =>
    (parseConstraint (replaceFirst s1 (s%")") [])).map
      (fun cv => { name := name, version := cv.2, constraint := cv.1 })

/-- desc/structs.go:58-79 `Desc`, restricted to the fields pkgr's logic reads. -/
structure Desc where
  package : Str := []
  version : Str := []
  path : Str := []
  repository : Str := []
  imports : GoMap Dep := []
  suggests : GoMap Dep := []
  depends : GoMap Dep := []
  linkingTo : GoMap Dep := []
  pkgrVersion : Str := []
  pkgrInstallType : Str := []
  pkgrRepositoryURL : Str := []
deriving Repr, DecidableEq

/-- desc/structs.go:101-125 `desc`: a DESCRIPTION stanza as decoded by the control-file library
(the library itself is not modelled). -/
structure RawDesc where
  package : Str := []
  version : Str := []
  path : Str := []
  repository : Str := []
  imports : List Str := []
  suggests : List Str := []
  depends : List Str := []
  linkingTo : List Str := []
  pkgrVersion : Str := []
  pkgrInstallType : Str := []
  pkgrRepositoryURL : Str := []
deriving Repr, DecidableEq

/-- desc/desc.go:73-78 (and 80-97): one of the four loops of `NewDesc` filling a dependency map;
later entries of the same name override earlier ones. -/
def depMap : List Str → GoMap Dep → Option (GoMap Dep)
  | [], m => some m
  | s :: ss, m =>
    match parseDep s with
    | none => none
    | some d => depMap ss (GoMap.put m d.name d)

/-- desc/desc.go:49-99 `NewDesc` (`none`: a dependency panics). -/
def newDesc (d : RawDesc) : Option Desc := do
  let im ← depMap d.imports []
  let su ← depMap d.suggests []
  let de ← depMap d.depends []
  let li ← depMap d.linkingTo []
  return { package := d.package, version := d.version, path := d.path, repository := d.repository,
           imports := im, suggests := su, depends := de, linkingTo := li,
           pkgrVersion := d.pkgrVersion, pkgrInstallType := d.pkgrInstallType,
           pkgrRepositoryURL := d.pkgrRepositoryURL }

/-- desc/structs.go:81-96 `GetCombinedDependencies`: the maps merged in the order Imports, LinkingTo,
Suggests (later ones override). The iteration order inside each map is irrelevant because its keys are
distinct. -/
def combinedDeps (d : Desc) (suggests : Bool) : GoMap Dep :=
  let c := d.imports.foldl (fun m e => GoMap.put m e.1 e.2) []
  let c := d.linkingTo.foldl (fun m e => GoMap.put m e.1 e.2) c
  if suggests then d.suggests.foldl (fun m e => GoMap.put m e.1 e.2) c else c

end Pkgr
