/- Independent vocabulary for the environment properties C63-C68, C79, C80, C84. -/
import Verif.Model.Base

namespace Pkgr.Spec
open Pkgr

/-- The environment string that sets `n` to `v`. -/
def setting (n v : Str) : Str := n ++ '=' :: v

/-- The name in an environment string: the text before the first equals sign. -/
def nameOf (e : Str) : Str := e.takeWhile fun c => c ≠ '='

/-- The value in an environment string: the text after the first equals sign. -/
def valueOf (e : Str) : Str := (e.dropWhile fun c => c ≠ '=').drop 1

/-- Does the environment string set the variable `n`? -/
def sets (n e : Str) : Bool := decide ('=' ∈ e) && decide (nameOf e = n)

/-- What a process sees as the value of `n` when it is started by os/exec with the environment `env`: of several
strings that set `n` the last one counts (os/exec: "only the last value in the slice for each duplicate key is used"). -/
def seen (env : List Str) (n : Str) : Option Str := (env.filter (sets n)).getLast?.map valueOf

/-- No blank at either end. -/
def Unpadded (s : Str) : Prop := s.head? ≠ some ' ' ∧ s.getLast? ≠ some ' '

instance (s : Str) : Decidable (Unpadded s) := by unfold Unpadded; infer_instance

/-- An ordinary variable name. -/
def PlainVar (n : Str) : Prop := '=' ∉ n ∧ Unpadded n

instance (s : Str) : Decidable (PlainVar s) := by unfold PlainVar; infer_instance

/-- Does the environment string set one of R's two library variables? -/
def setsLibrary (e : Str) : Bool := sets (s%"R_LIBS_USER") e || sets (s%"R_LIBS_SITE") e

/-- The variables that pkgr hides. -/
def secretNames : List String :=
  ["GITHUB_TOKEN", "GITHUB_PAT", "GHE_TOKEN", "GHE_PAT", "AWS_ACCESS_KEY_ID", "AWS_SECRET_KEY"]

/-- Upper case of the ASCII letters. -/
def asciiUpper (c : Char) : Char := if c.isLower then c.toUpper else c

/-- `n` names a secret, in any mixture of upper and lower case. -/
def IsSecret (n : Str) : Prop := ∃ s ∈ secretNames, n.map asciiUpper = s.toList

/-- The two environments are the same but for the values of secrets. -/
inductive SameButSecrets : List Str → List Str → Prop where
  | nil : SameButSecrets [] []
  | same (e : Str) {a b : List Str} : SameButSecrets a b → SameButSecrets (e :: a) (e :: b)
  | secret (n v w : Str) {a b : List Str} : '=' ∉ n → IsSecret n → v ≠ [] → w ≠ [] → SameButSecrets a b →
      SameButSecrets (setting n v :: a) (setting n w :: b)

/-- The texts, separated by `sep`. -/
def separated (sep : Char) : List Str → Str
  | [] => []
  | [a] => a
  | a :: b :: l => a ++ [sep] ++ separated sep (b :: l)

end Pkgr.Spec
