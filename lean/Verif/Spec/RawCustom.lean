/- What the entries under Customizations mean to a user (C124): keys, like all others of the file, in whatever case. -/
import Verif.Model.RawCustom
import Verif.Spec.Custom

namespace Pkgr.Spec
open Pkgr

/-- The same key but for case. -/
def SameKey (k n : Str) : Prop := k.map capital = n.map capital

instance (k n : Str) : Decidable (SameKey k n) := by unfold SameKey; infer_instance

/-- The value an entry gives for a key. -/
def givenFor (n : Str) : RawSettings → Option RawVal
  | none => none
  | some l => (l.find? fun e => SameKey e.1 n).map Prod.snd

/-- A value as truth value: `true` and what YAML 1.1 and Go call true. -/
def truth (v : RawVal) : Bool := v ∈ [RawVal.bool true, .str (s%"1"), .str (s%"t"), .str (s%"T"), .str (s%"true"), .str (s%"TRUE"), .str (s%"True")]

/-- A value as text. -/
def asText : RawVal → Str
  | .null => []
  | .bool b => if b then s%"1" else s%"0"
  | .str s => s

/-- What an entry means. -/
def meant (raw : RawSettings) : PkgSetting :=
  { suggests := (givenFor (s%"Suggests") raw).map truth, repo := (givenFor (s%"Repo") raw).map asText, type := (givenFor (s%"Type") raw).map asText }

/-- The three keys are written as in the documentation. -/
def AsDocumented (l : List (Str × RawVal)) : Prop :=
  ∀ e ∈ l, ∀ n ∈ [s%"Suggests", s%"Repo", s%"Type"], SameKey e.1 n → e.1 = n

/-- The value for `Suggests` can be read as a truth value. -/
def ReadableTruth (raw : RawSettings) : Prop :=
  ∀ v, givenFor (s%"Suggests") raw = some v → truth v = true ∨
    v ∈ [RawVal.null, .bool false, .str [], .str (s%"0"), .str (s%"f"), .str (s%"F"), .str (s%"false"), .str (s%"FALSE"), .str (s%"False")]

end Pkgr.Spec
