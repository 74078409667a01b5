/- Specifications for repository indices, independent of the loading loop. -/
import Verif.Model.RepoDb
import Verif.Spec.Version

namespace Pkgr.Spec

/-- The meaning of a version operator applied to the sign of a comparison `installed ? required`. -/
def Holds : Constraint → Int → Prop
  | .gte, s => s ≥ 0
  | .gt, s => s > 0
  | .equals, s => s = 0
  | .lte, s => s ≤ 0
  | .lt, s => s < 0
  | .none, _ => True

/-- The text with Unix line ends: every carriage return in front of a line feed is dropped. -/
inductive UnixText : Str → Str → Prop where
  | nil : UnixText [] []
  | crlf {a b : Str} : UnixText a b → UnixText ('\r' :: '\n' :: a) ('\n' :: b)
  | other {c : Char} {a b : Str} : ¬ (c = '\r' ∧ a.head? = some '\n') → UnixText a b → UnixText (c :: a) (c :: b)

/-- The stanzas of a text: the pieces between double line feeds, each piece as short as possible. -/
structure Stanzas (text : Str) (xs : List Str) : Prop where
  nonempty : xs ≠ []
  join : (s%"\n\n").intercalate xs = text
  noBlank : ∀ x ∈ xs, ¬ (s%"\n\n") <:+: x
  shortest : ∀ x ∈ xs.dropLast, x.getLast? ≠ some '\n'

/-- `m` is the table of the dependencies written in `items`; the last one of a name counts. -/
def DepTable (items : List Str) (m : GoMap Dep) : Prop :=
  ∀ k c, GoMap.get? m k = some c ↔ ∃ pre x post, items = pre ++ x :: post ∧ parseDep x = some c ∧ c.name = k ∧
    ∀ y ∈ post, ∀ c', parseDep y = some c' → c'.name ≠ k

/-- `d` is what the decoded stanza `raw` says. -/
structure Describes (raw : RawDesc) (d : Desc) : Prop where
  package : d.package = raw.package
  version : d.version = raw.version
  path : d.path = raw.path
  repository : d.repository = raw.repository
  imports : DepTable raw.imports d.imports
  suggests : DepTable raw.suggests d.suggests
  depends : DepTable raw.depends d.depends
  linkingTo : DepTable raw.linkingTo d.linkingTo
  pkgrVersion : d.pkgrVersion = raw.pkgrVersion
  pkgrInstallType : d.pkgrInstallType = raw.pkgrInstallType
  pkgrRepositoryURL : d.pkgrRepositoryURL = raw.pkgrRepositoryURL

/-- Lexicographic comparison: -1, 0 or 1. -/
def lexCmp : List Int → List Int → Int
  | a :: as, b :: bs => if a < b then -1 else if b < a then 1 else lexCmp as bs
  | _, _ => 0

/-- An R version whose numbers fit a machine integer. -/
def SmallR (rv : RVersion) : Prop := rv.major < 2 ^ 63 ∧ rv.minor < 2 ^ 63 ∧ rv.patch < 2 ^ 63

instance (rv : RVersion) : Decidable (SmallR rv) := by unfold SmallR; infer_instance

/-- The package's requirement on R, if it has one, holds for this R.  (A requirement without a version never
does, see `C06_bare_R_violated`.) -/
def RunsOn (rv : RVersion) (d : Desc) : Prop :=
  ∀ c, GoMap.get? d.depends (s%"R") = some c → c.constraint ≠ .none ∧
    Holds c.constraint (lexCmp [rv.major, rv.minor, rv.patch, 0, 0]
      [c.version.major, c.version.minor, c.version.patch, c.version.dev, c.version.other])

/-- The stanza text describes an acceptable package `k` with description `d`: it decodes, sits in the
main directory (no Path) and runs on this R. -/
def Accepts (decode : Str → Option RawDesc) (rv : RVersion) (text : Str) (k : Str) (d : Desc) : Prop :=
  text ≠ [] ∧ ∃ raw, decode text = some raw ∧ newDesc raw = some d ∧ d.package = k ∧ d.path = [] ∧ RunsOn rv d

end Pkgr.Spec
