/- C145: the texts in the JSON of `pkgr load` can be read, and searched for, as they are. -/
import Verif.Props.Json

namespace Pkgr
open Spec

/-- A character that JSON lets stand for itself and that is not one of the two unusual line separators. -/
def Spec.StandsForItself (c : Char) : Prop := 32 ≤ c.toNat ∧ c ≠ '"' ∧ c ≠ '\\' ∧ c.toNat ≠ 0x2028 ∧ c.toNat ≠ 0x2029

theorem escape_self {c : Char} (h : StandsForItself c) : escapeChar false c = [c] := by
  obtain ⟨h1, h2, h3, h4, h5⟩ := h
  have g : ∀ d : Char, d.toNat < 32 → c ≠ d := fun d hd e => by rw [e] at h1; omega
  unfold escapeChar
  rw [if_neg (by simp [h2, h3]), if_neg (by omega), if_neg (by omega), if_neg (g _ (by decide)), if_neg (g _ (by decide)), if_neg (g _ (by decide)),
    if_neg]
  simp only [Bool.false_eq_true, false_and, false_or, not_or]
  exact ⟨by omega, h4, h5⟩

theorem quote_self {t : Str} (h : ∀ c ∈ t, StandsForItself c) : quoteJson false t = '"' :: (t ++ ['"']) := by
  have : t.flatMap (escapeChar false) = t := by
    induction t with
    | nil => rfl
    | cons c t ih =>
      rw [List.flatMap_cons, escape_self (h c (by simp)), ih fun x hx => h x (by simp [hx])]
      rfl
  unfold quoteJson
  rw [this]

theorem member_infix (html : Bool) (ind : Nat) (m : Str × JVal) : ∀ (ms : List (Str × JVal)) (d : Nat), m ∈ ms →
    encodeMember html ind d m <:+: encodeMembers html ind d ms := by
  intro ms
  induction ms with
  | nil => intro d h; simp at h
  | cons x ms ih =>
    intro d h
    rw [encodeMembers]
    rcases List.mem_cons.mp h with rfl | h
    · exact ⟨',' :: jsonBreak ind d, encodeMembers html ind d ms, by simp⟩
    · exact (ih d h).trans ⟨',' :: (jsonBreak ind d ++ encodeMember html ind d x), [], by simp⟩

theorem member_of_obj (html : Bool) (ind d : Nat) {m : Str × JVal} {ms : List (Str × JVal)} (h : m ∈ ms) :
    encodeMember html ind (d + 1) m <:+: encodeJson html ind d (.obj ms) := by
  cases ms with
  | nil => simp at h
  | cons x ms =>
    rw [encodeJson]
    rcases List.mem_cons.mp h with rfl | h
    · exact ⟨'{' :: jsonBreak ind (d + 1), encodeMembers html ind (d + 1) ms ++ (jsonBreak ind d ++ ['}']), by simp⟩
    · exact (member_infix html ind m ms (d + 1) h).trans
        ⟨'{' :: (jsonBreak ind (d + 1) ++ encodeMember html ind (d + 1) x), jsonBreak ind d ++ ['}'], by simp⟩

theorem value_of_member (html : Bool) (ind d : Nat) (k : Str) (v : JVal) : encodeJson html ind d v <:+: encodeMember html ind d (k, v) := by
  rw [encodeMember]
  exact ⟨quoteJson html k ++ s%": ", [], by simp⟩

/-- **C145** (readable): what a session said on its error stream stands in the printed report as it is, between quotation marks after
its key, if it consists of characters that JSON does not force to be escaped; `<`, `>` and `&`, which occur in the messages of R,
are among those that stand for themselves.  Likewise its output. -/
theorem C145_load_verbatim (md : RSessionMetadata) (r : LoadReport) (p : Str) (x : LoadResult) (hx : r.results.get? p = some x) :
    ((∀ c ∈ x.stderr, StandsForItself c) → (s%"\"Stderr\": \"" ++ x.stderr ++ s%"\"") <:+: loadOutput md r) ∧
    ((∀ c ∈ x.stdout, StandsForItself c) → (s%"\"Stdout\": \"" ++ x.stdout ++ s%"\"") <:+: loadOutput md r) := by
  have hmem : ∃ ms, mapJson resultJson r.results = .obj ms ∧ (p, resultJson x) ∈ ms := by
    refine ⟨_, rfl, List.mem_map.mpr ⟨p, (sortStrings_perm _).mem_iff.mpr (GoMap.mem_keys_of_get? hx), ?_⟩⟩
    show (p, _) = _
    rw [hx]
  obtain ⟨ms, hms, hmem⟩ := hmem
  have key : ∀ k v, (k, v) ∈ [(s%"Package", JVal.str x.package), (s%"Version", .str x.version), (s%"Path", .str x.path), (s%"Exiterr", .str x.exiterr),
      (s%"Stdout", .str x.stdout), (s%"Stderr", .str x.stderr), (s%"Success", .bool x.success)] →
      encodeMember false 4 3 (k, v) <:+: loadOutput md r := by
    intro k v hkv
    have h1 := member_of_obj false 4 2 hkv
    have h2 := (h1.trans (value_of_member false 4 2 p _)).trans (member_of_obj false 4 1 hmem)
    rw [← hms] at h2
    have h3 := h2.trans (value_of_member false 4 1 (s%"LoadResults") _)
    have h4 := h3.trans (member_of_obj false 4 0 (ms := [(s%"RMetadata", .obj [(s%"LibPaths", sliceJson (appended md.libPaths)), (s%"RPath", .str md.rPath), (s%"RVersion", .str md.rVersion)]),
      (s%"LoadResults", mapJson resultJson r.results), (s%"Failures", .num r.failures)]) (List.mem_cons_of_mem _ List.mem_cons_self))
    refine h4.trans ⟨[], ['\n'] ++ s%" \n", ?_⟩
    simp [loadOutput, jsonMarshal, reportJson]
  refine ⟨fun h => ?_, fun h => ?_⟩
  · have := key (s%"Stderr") (.str x.stderr) (by simp)
    rw [encodeMember, encodeJson, quote_self h] at this
    exact this
  · have := key (s%"Stdout") (.str x.stdout) (by simp)
    rw [encodeMember, encodeJson, quote_self h] at this
    exact this

/-- A session that said something with characters that HTML would have escaped. -/
def jsonTold : LoadResult :=
  { package := s%"a", version := [], path := [], exiterr := [], stdout := [], stderr := s%"<b> was built under R & 4", success := true }

example : (s%"\"Stderr\": \"" ++ jsonTold.stderr ++ s%"\"") <:+:
    loadOutput { libPaths := [], rPath := [], rVersion := [] } { results := [(s%"a", jsonTold)], failures := 0 } :=
  (C145_load_verbatim _ _ (s%"a") jsonTold rfl).1 (by unfold StandsForItself; decide)

end Pkgr
