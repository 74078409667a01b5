/- Specification of package resolution, independent of the search loop. -/
import Verif.Model.Nexus
import Verif.Spec.Env

namespace Pkgr.Spec

/-- Repository `db` offers `pkg` as `d` in source type `st`. -/
def Offers (db : RepoDb) (st : SourceType) (pkg : Str) (d : Desc) : Prop :=
  GoMap.get? (db.table st) pkg = some d

/-- `a` is the first of the list satisfying `P`. -/
def FirstWith {α : Type} (P : α → Prop) (l : List α) (a : α) : Prop :=
  ∃ pre post, l = pre ++ a :: post ∧ P a ∧ ∀ d ∈ pre, ¬ P d

/-- The source type a package without any setting is taken in: the repository's, else the global one. -/
def unsetType (nx : Nexus) (db : RepoDb) : SourceType :=
  if db.defaultSourceType = .default then nx.defaultSourceType else db.defaultSourceType

/-- The repository set for the package, if any, is `db`. -/
def PinAllows (nx : Nexus) (pkg : Str) (db : RepoDb) : Prop :=
  ∀ c, GoMap.get? nx.packages pkg = some c → c.repo.name = [] ∨ c.repo.name = db.repo.name

/-- The source type in which the package is looked for in `db`: the one set for the package; for a package
with settings but no type the global one; for a package without settings see `unsetType`. -/
def typeFor (nx : Nexus) (pkg : Str) (db : RepoDb) : SourceType :=
  match GoMap.get? nx.packages pkg with
  | some c => if c.type = .default then nx.defaultSourceType else c.type
  | none => unsetType nx db

/-- `db` may serve the package. -/
def Serves (nx : Nexus) (pkg : Str) (db : RepoDb) : Prop :=
  PinAllows nx pkg db ∧ ∃ d, Offers db (typeFor nx pkg db) pkg d

/-- `pkg` is obtained as `dl`: from the first repository, in the configured order, that may serve it. -/
def Resolves (nx : Nexus) (pkg : Str) (dl : PkgDl) : Prop :=
  ∃ db, FirstWith (Serves nx pkg) nx.db db ∧ Offers db (typeFor nx pkg db) pkg dl.package ∧
    dl.config = { repo := db.repo, type := typeFor nx pkg db }

/-- The type a package with settings is taken in: the one set for it, else the global one. -/
def ownType (nx : Nexus) (pkg : Str) : SourceType :=
  match GoMap.get? nx.packages pkg with
  | some c => if c.type = .default then nx.defaultSourceType else c.type
  | none => nx.defaultSourceType

/-- The capital form of a Latin letter. (For Unicode the long s, U+017F, is another form of s and the Kelvin sign,
U+212A, one of k.) -/
def capital (c : Char) : Char := if c.toNat = 0x17F then 'S' else if c.toNat = 0x212A then 'K' else asciiUpper c

/-- The text is the word `source` or `binary`, in any mixture of upper and lower case. -/
def SaysType (t : Str) (ty : SourceType) : Prop :=
  (t.map capital = s%"SOURCE" ∧ ty = .source) ∨ (t.map capital = s%"BINARY" ∧ ty = .binary)

/-- `pkg` is obtained as `dl` in type `ty` from the first repository that satisfies `P` and offers it in that
type. -/
def ObtainedFrom (nx : Nexus) (P : RepoDb → Prop) (ty : SourceType) (pkg : Str) (dl : PkgDl) : Prop :=
  ∃ db, FirstWith (fun db => P db ∧ ∃ d, Offers db ty pkg d) nx.db db ∧ Offers db ty pkg dl.package ∧
    dl.config = { repo := db.repo, type := ty }

end Pkgr.Spec
