/- Independent vocabulary for the clean commands as wholes (C125-C127). -/
import Verif.Model.CleanCmd
import Verif.Spec.PkgDb
import Verif.Spec.Clean

namespace Pkgr.Spec
open Pkgr

/-- `Repos:` lists the repository `nm` at `url`. -/
def Configured (s : CleanEnv) (nm url : Str) : Prop := ∃ m ∈ s.repos, GoMap.get? m nm = some url

/-- The repositories are given as the file format allows: no name twice in one item; and all of them get their turn. -/
structure Orderly (s : CleanEnv) : Prop where
  items : ∀ m ∈ s.repos, GoMap.WF m
  turns : (s.sched.map Prod.fst).Perm (List.range (s.repos.flatMap GoMap.keys).length)
  orders : s.ρ₁.Fair ∧ s.ρ₂.Fair ∧ s.ρ₃.Fair

/-- Another run on the same machine and with the same R. -/
structure SameMachine (e later : RepoEnv) : Prop where
  digest : later.md5hex = e.md5hex
  platform : later.platform = e.platform
  version : later.rv = e.rv

/-- Every configured repository answers with indices that can be used (on Linux a repository need not have binaries). -/
def Answering (s : CleanEnv) : Prop :=
  ∀ nm u, Configured s nm u → ∀ rc, rc = (GoMap.get? (repoSettings s.ρ₂ 0 s.custom []) nm).getD {} →
    (∃ b, s.repo.server (indexAt s.repo u rc.repoSuffix .source) = .text b ∧ Usable s.repo.decode b) ∧
    (HasBinaries s.repo.platform rc.repoType → s.repo.server (indexAt s.repo u rc.repoSuffix .binary) = .refused ∨
      ∃ b, s.repo.server (indexAt s.repo u rc.repoSuffix .binary) = .text b ∧ Usable s.repo.decode b)

/-- No database is unreadable while it is young. -/
def YoungReadable (e : RepoEnv) (c : DbCache) : Prop := ∀ k f, c k = some f → Recent e f.mtime → f.tables ≠ none

end Pkgr.Spec
