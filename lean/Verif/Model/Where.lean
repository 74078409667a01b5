/-
Model of where the relative paths of a run lead: cmd/root.go:135-141 changes the working directory to that of the configuration
file, after configlib/config.go:37-64 has put together the settings; every relative path is followed from there (cmd/install.go:106
for the library, rcmd/cache.go:12-24 and cmd/utils.go:16-32 for the cache).
-/
import Verif.Model.Session
import Verif.Model.Archive

namespace Pkgr

/-- cmd/root.go:135-141: the working directory of a run that was started in `cwd` (`os.Chdir` does not fail: the file has been read). -/
def projectDir (home : Option Str) (cwd : Path) (config : Str) : Path := dirPath (configFileUsed home cwd config)

/-- configlib/config.go:47-54 and cmd/install.go:106: the library of a run as an absolute path (`none`: log.Fatal). -/
def libraryUsed (home : Option Str) (cwd : Path) (config : Str) (s : LibrarySources) : Option Path :=
  (chooseLibrary home s).map (absIn (projectDir home cwd config))

/-- configlib/config.go:61, cmd/utils.go:16-32 and rcmd/cache.go:12-17: the cache of a run (`cfgCache`: as in the configuration;
`base`: the user's cache directory). -/
def cacheUsed (home : Option Str) (cwd : Path) (config cfgCache : Str) (base : Path) : Option Path :=
  (expandTilde home cfgCache).map fun c => userCache c (projectDir home cwd config) base

end Pkgr
