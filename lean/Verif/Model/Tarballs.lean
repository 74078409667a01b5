/-
Model of cmd/tarballOps.go:16-48 (`unpackTarballs`) and cmd/descriptionOps.go:10-37 (`unpackDescriptions`): what is
installed from the configured tarballs. `untar` is modelled in `Verif.Model.Archive`.
-/
import Verif.Model.Archive
import Verif.Model.Rollback

namespace Pkgr

/-- cmd/tarballOps.go:24-45: one tarball of the configuration, opened, unpacked, and its DESCRIPTION read (`none`:
log.Fatal). `file` is `none` if it cannot be opened; `parse` is `desc.ParseDesc`. -/
def unpackOne (digest : Str → Str) (names : List Str) (parse : Str → Option Desc) (cache : Path) (fs : Fs) (path : Str)
    (file : Option Tarball) : Option (Fs × Desc × AdditionalPkg) :=
  match file with
  | none => none
  | some t => match (untar digest names fs cache t).2 with
    | .fatal => none
    | .folder p => match lastState fs (untar digest names fs cache t).1 (p ++ [s%"DESCRIPTION"]) with
      | some (.file c) => match parse c with
        | none => none
        | some d => some (lastState fs (untar digest names fs cache t).1, d,
            { installPath := pathStr p, originPath := path, type := s%"tarball" })
      | _ => none

/-- cmd/tarballOps.go:16-48 `unpackTarballs`: the file system, the descriptions and the table of packages after the
tarballs that remain. -/
def unpackTarballs (digest : Str → Str) (names : List Str) (parse : Str → Option Desc) (cache : Path) :
    Fs → List Desc → GoMap AdditionalPkg → List (Str × Option Tarball) → Option (Fs × List Desc × GoMap AdditionalPkg)
  | fs, ds, m, [] => some (fs, ds, m)
  | fs, ds, m, (path, file) :: rest =>
    match unpackOne digest names parse cache fs path file with
    | none => none
    | some (fs', d, a) => unpackTarballs digest names parse cache fs' (ds ++ [d]) (GoMap.put m d.package a) rest

/-- cmd/descriptionOps.go:16-33: one DESCRIPTION file (`none`: log.Fatal). -/
def unpackDescription (parse : Str → Option Desc) (fs : Fs) (p : Path) : Option Desc :=
  match fs p with
  | some (.file c) => parse c
  | _ => none

/-- cmd/descriptionOps.go:10-37 `unpackDescriptions` (`none`: log.Fatal). -/
def unpackDescriptions (parse : Str → Option Desc) (fs : Fs) (paths : List Path) : Option (List Desc) :=
  paths.mapM (unpackDescription parse fs)


/-- cmd/tarballOps.go:16-48 `unpackTarballs`: the states the file system goes through while the tarballs that remain are
unpacked, oldest first (the files are closed again; nothing else is written while planning). -/
def unpackStates (digest : Str → Str) (names : List Str) (parse : Str → Option Desc) (cache : Path) :
    Fs → List (Str × Option Tarball) → List Fs
  | fs, [] => [fs]
  | fs, (path, file) :: rest =>
    match file with
    | none => [fs]
    | some t => fs :: (untar digest names fs cache t).1.reverse ++
      match unpackOne digest names parse cache fs path (some t) with
      | none => []
      | some (fs', _, _) => unpackStates digest names parse cache fs' rest

end Pkgr
