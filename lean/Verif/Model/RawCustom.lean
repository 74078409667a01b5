/-
Model of how the customizations of packages get from `pkgr.yml` into the plan: decoding (configlib/config.go:42, structs of
configlib/structs.go:4-9) and the look at the raw settings (configlib/config.go:222-236, 294-345). Model/Plan.lean has the
same code on settings that were already understood.
Assumptions on dependencies: viper leaves the names of keys inside lists as they are written; its decoder (mapstructure,
weakly typed) takes for a field the key of exactly its name, else one that differs in case only; a null entry decodes to
the zero value. Simplifications: of several keys that differ in case only the first is taken; a list item has one entry.
-/
import Verif.Model.Plan

namespace Pkgr

/-- A value in the settings of a package. -/
inductive RawVal where
  | null
  | bool (b : Bool)
  | str (s : Str)
deriving Repr, DecidableEq

/-- The settings of one entry as they are written; `none` if there is nothing below the package's name. -/
abbrev RawSettings := Option (List (Str × RawVal))

/-- configlib/structs.go:4-9 `PkgConfig` after decoding (`Env` is in Model/Session.lean). -/
structure PkgConf where
  suggests : Bool := false
  repo : Str := []
  type : Str := []
deriving Repr, DecidableEq

/-- mapstructure's choice of the key for a field. -/
def rawField (field : Str) (l : List (Str × RawVal)) : Option RawVal :=
  match l.find? fun e => e.1 = field with
  | some e => some e.2
  | none => (l.find? fun e => eqFold e.1 field).map Prod.snd

/-- mapstructure's weakly typed decoding of a bool (`strconv.ParseBool`; the empty string is false); `none`: an error. -/
def decodeBool : RawVal → Option Bool
  | .null => some false
  | .bool b => some b
  | .str s =>
    if s ∈ [s%"1", s%"t", s%"T", s%"true", s%"TRUE", s%"True"] then some true
    else if s ∈ [s%"", s%"0", s%"f", s%"F", s%"false", s%"FALSE", s%"False"] then some false
    else none

/-- mapstructure's weakly typed decoding of a string. -/
def decodeStr : RawVal → Str
  | .null => []
  | .bool b => if b then s%"1" else s%"0"
  | .str s => s

/-- The decoded entry; `none`: an error, which ends the program (configlib/config.go:43-45). -/
def decodeConf : RawSettings → Option PkgConf
  | none => some {}
  | some l =>
    match rawField (s%"Suggests") l with
    | none => some { suggests := false, repo := ((rawField (s%"Repo") l).map decodeStr).getD [], type := ((rawField (s%"Type") l).map decodeStr).getD [] }
    | some v => (decodeBool v).map fun b =>
      { suggests := b, repo := ((rawField (s%"Repo") l).map decodeStr).getD [], type := ((rawField (s%"Type") l).map decodeStr).getD [] }

/-- configlib/config.go:223-236 `IsCustomizationSet` on the raw settings: `none` is the panic of the type assertion
`iv.(map[interface{}]interface{})` on an entry without settings. -/
def rawIsSet (key : Str) : List (Str × RawSettings) → Str → Option Bool
  | [], _ => some false
  | e :: es, pkg =>
    if e.1 = pkg then
      match e.2 with
      | none => none
      | some l => if l.any fun kv => kv.1 = key then some true else rawIsSet key es pkg
    else rawIsSet key es pkg

/-- How setting the customizations ends. -/
inductive CustomEnd where
  | ok (s : InstallDeps × Nexus)
  | fatal
  | panic

/-- configlib/config.go:319-342: one entry. -/
def rawStep (raws : List (Str × RawSettings)) (s : InstallDeps × Nexus) (pkg : Str) (v : PkgConf) : CustomEnd :=
  match rawIsSet (s%"Suggests") raws pkg with
  | none => .panic
  | some sug =>
    let cfgs := if sug then { s.1 with deps := GoMap.put s.1.deps pkg { s.1.default with suggests := v.suggests } } else s.1
    match rawIsSet (s%"Repo") raws pkg with
    | none => .panic
    | some rep =>
      match if rep then setPackageRepo s.2 pkg v.repo else some s.2 with
      | none => .fatal
      | some nx =>
        match rawIsSet (s%"Type") raws pkg with
        | none => .panic
        | some typ =>
          match if typ then setPackageType nx pkg v.type else some nx with
          | none => .fatal
          | some nx => .ok (cfgs, nx)

/-- configlib/config.go:316-345 `setViperCustomizations`. -/
def rawSteps (raws : List (Str × RawSettings)) : List (Str × PkgConf) → InstallDeps × Nexus → CustomEnd
  | [], s => .ok s
  | e :: es, s =>
    match rawStep raws s e.1 e.2 with
    | .ok s => rawSteps raws es s
    | .fatal => .fatal
    | .panic => .panic

/-- configlib/config.go:42-45 and 294-303: decoding, then `SetPlanCustomizations`. -/
def rawPlanCustomizations (globalSuggests : Bool) (pkgs : List Str) (raws : List (Str × RawSettings)) (cfgs : InstallDeps) (nx : Nexus) : CustomEnd :=
  match raws.mapM fun e => (decodeConf e.2).map fun v => (e.1, v) with
  | none => .fatal
  | some es => rawSteps raws es (setCfgCustomizations globalSuggests pkgs cfgs, nx)

end Pkgr
