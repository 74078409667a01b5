/- Model of repositories that are directories: cran/repodb.go:166-206 and cran/download-package.go:202-233, the parts that
are an oracle (`RepoEnv.server`, `DlEnv.server`) in Model/PkgDb.lean and Model/Download.lean. -/
import Verif.Model.PkgDb
import Verif.Model.Session

namespace Pkgr

/-- A computer, as far as the repositories are concerned. -/
structure Computer where
  fs : Fs
  /-- whether the user may read a file -/
  readable : Path → Bool
  /-- what the servers answer, for an index and for a package file -/
  web : Str → Answer
  webFile : Str → Response
  home : Option Str
  /-- the working directory: since cmd/root.go:141 that of the configuration file -/
  cwd : Path

/-- A file on the way to `p`: opening `p` fails with ENOTDIR, which `os.IsNotExist` does not count. -/
def Fs.fileOnTheWay (fs : Fs) (p : Path) : Bool :=
  (List.range p.length).any fun k => match fs (p.take k) with | some (.file _) => true | _ => false

/-- cran/repodb.go:168-206: what asking for an index gives.  For a local one: `homedir.Expand` (its error is dropped, the
path is then empty) and `filepath.Abs`; only "does not exist" is an error: the error of `os.Open` and that of `ioutil.ReadAll` are
assigned to variables of the inner scope, so the body is what could be read, which is nothing. -/
def Computer.index (m : Computer) (url : Str) : Answer :=
  if hasPrefix url (s%"http") then m.web url
  else
    let p := absIn m.cwd ((expandTilde m.home url).getD [])
    match m.fs p with
    | none => if m.fs.fileOnTheWay p then .text [] else .refused
    | some .dir => .text []
    | some (.file b) => .text (if m.readable p then b else [])

/-- cran/download-package.go:202-233, 244: what asking for a package file gives.  A directory can be opened but not read. -/
def Computer.file (m : Computer) (url : Str) : Response :=
  if hasPrefix url (s%"http") then m.webFile url
  else
    let p := absIn m.cwd url
    match m.fs p with
    | none => .noLocalFile
    | some .dir => .body [] false
    | some (.file b) => if m.readable p then .body b true else .noLocalFile

/-- The repositories as this computer sees them. -/
def RepoEnv.on (e : RepoEnv) (m : Computer) : RepoEnv := { e with server := m.index }

/-- The downloads as this computer sees them. -/
def DlEnv.on (e : DlEnv) (m : Computer) : DlEnv := { e with server := m.file }

end Pkgr
