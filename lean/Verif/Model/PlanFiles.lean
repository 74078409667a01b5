/- Model of cmd/plan.go:84-250 (`planInstall`) from the files that it reads on: the library, the configured tarballs and the
configured DESCRIPTION files, with the reader of DESCRIPTION files as the code has it. -/
import Verif.Model.LibScan
import Verif.Model.Tarballs

namespace Pkgr

/-- How the program can end while files are read. -/
inductive Stopped where
  /-- it panics: a malformed dependency (`desc.ParseDesc`) -/
  | crash
  /-- log.Fatal (or log.Panicln of an error that was returned) -/
  | fatal
deriving Repr, DecidableEq

/-- cmd/tarballOps.go:35-42 and cmd/descriptionOps.go:24-31: `desc.ParseDesc`, with log.Fatal on its error. -/
def readDescText (c : Str) : Except Stopped Desc :=
  match parseDesc c with
  | .panics => .error .crash
  | .error => .error .fatal
  | .ok d => .ok d

/-- cmd/tarballOps.go:26-35 and cmd/descriptionOps.go:16-24: the file is opened (log.Fatal if not) and read. -/
def readDescFile (fs : Fs) (p : Path) : Except Stopped Desc :=
  match fs p with
  | some (.file c) => readDescText c
  | _ => .error .fatal

/-- cmd/tarballOps.go:24-45: one tarball of the configuration. -/
def openTarball (digest : Str → Str) (names : List Str) (cache : Path) (fs : Fs) (path : Str) (file : Option Tarball) :
    Except Stopped (Fs × Desc × AdditionalPkg) :=
  match file with
  | none => .error .fatal
  | some t =>
    match (untar digest names fs cache t).2 with
    | .fatal => .error .fatal
    | .folder p =>
      match readDescFile (lastState fs (untar digest names fs cache t).1) (p ++ [s%"DESCRIPTION"]) with
      | .error s => .error s
      | .ok d => .ok (lastState fs (untar digest names fs cache t).1, d,
          { installPath := pathStr p, originPath := path, type := s%"tarball" })

/-- cmd/tarballOps.go:16-48 `unpackTarballs`. -/
def openTarballs (digest : Str → Str) (names : List Str) (cache : Path) :
    Fs → List Desc → GoMap AdditionalPkg → List (Str × Option Tarball) → Except Stopped (Fs × List Desc × GoMap AdditionalPkg)
  | fs, ds, m, [] => .ok (fs, ds, m)
  | fs, ds, m, (path, file) :: rest =>
    match openTarball digest names cache fs path file with
    | .error s => .error s
    | .ok (fs', d, a) => openTarballs digest names cache fs' (ds ++ [d]) (GoMap.put m d.package a) rest

/-- cmd/descriptionOps.go:10-37 `unpackDescriptions`. -/
def openDescriptions (fs : Fs) : List Path → Except Stopped (List Desc)
  | [] => .ok []
  | p :: ps =>
    match readDescFile fs p with
    | .error s => .error s
    | .ok d =>
      match openDescriptions fs ps with
      | .error s => .error s
      | .ok ds => .ok (d :: ds)

/-- The files that planning reads: the library and what `Readdir` lists of it, the cache, the tarballs of the configuration
(`none`: cannot be opened) and the paths of the DESCRIPTION files (absolute; cmd/root.go:135-141 changes the directory). -/
structure PlanFiles where
  lib : Path
  listing : List Str
  cache : Path
  digest : Str → Str
  /-- the names among which the directories of the unpacked tarballs are found -/
  unpacked : List Str
  tarballs : List (Str × Option Tarball)
  descriptions : List Path

/-- How planning ends, from the files on. -/
inductive PlanEnd where
  | stopped (s : Stopped)
  | ends (fs : Fs) (o : PlanOutcome)

/-- cmd/plan.go:84-250 `planInstall`, in the order of the code: the library is read if it exists (103-122), the repositories are
opened (`nx`: the result, `none` when they cannot be opened, 159-162), the customizations are applied (`SetPlanCustomizations`,
log.Fatal on an error), the tarballs and the DESCRIPTION files are read, and the plan is made.  A library path whose existence
cannot be determined counts as missing. -/
def planFromFiles (x : PlanFiles) (cfg : PlanCfg) (nx : Option Nexus) (fs : Fs) (ρ ρ' ρ'' : Order) : PlanEnd :=
  match if fs.isDir x.lib then readLibrary fs x.lib x.listing else some [] with
  | none => .stopped .crash
  | some installed =>
    match nx with
    | none => .stopped .fatal
    | some nx =>
      match setPlanCustomizations cfg.suggests cfg.packages cfg.customizations (defaultCfgs cfg.noRecommended)
          (ignorePackages nx cfg.ignore) with
      | none => .ends fs .badCustomization
      | some _ =>
        match openTarballs x.digest x.unpacked x.cache fs [] [] x.tarballs with
        | .error s => .stopped s
        | .ok (fs', tb, table) =>
          match openDescriptions fs' x.descriptions with
          | .error s => .stopped s
          | .ok ds => .ends fs' (planInstall cfg nx installed (fs.isDir x.lib) tb ds table ρ ρ' ρ'')

end Pkgr
