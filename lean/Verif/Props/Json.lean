/- C145: the JSON that pkgr prints can be read back, and says what it should. -/
import Verif.Proof.Json
import Verif.Proof.PlanAux
import Verif.Props.Session
import Verif.Props.Inspect

namespace Pkgr
open Spec

theorem reads_unique {s : Str} {j j' : JVal} (h : Reads s j) (h' : Reads s j') : j = j' := by
  obtain ⟨n, hn⟩ := h
  obtain ⟨m, hm⟩ := h'
  have h1 := hn (max n m) (by omega)
  rw [hm (max n m) (by omega)] at h1
  exact (Option.some.inj h1).symm

theorem reads_marshal (v : JVal) (w : Str) (hw : ∀ c ∈ w, blankChar c = true) : Reads (jsonMarshal v ++ w) v := by
  unfold jsonMarshal
  rw [List.append_assoc]
  refine reads_encoded _ _ _ _ fun c hc => ?_
  rcases List.mem_append.mp hc with h | h
  · rw [List.mem_singleton.mp h]; rfl
  · exact hw c h

theorem reads_pretty (v : JVal) : Reads (prettyPrint v) v :=
  reads_encoded _ _ _ _ fun c hc => by rw [List.mem_singleton.mp hc]; rfl

/-- **C145** (any document): whatever values, names and texts with quotation marks, backslashes, line breaks or other
control characters it consists of, a document that pkgr prints is well-formed JSON (RFC 8259) and says exactly what was
to be printed, in both forms in which pkgr prints (`load`: four blanks, no escapes for HTML; `inspect`: two blanks), and
says nothing else. -/
theorem C145_roundtrip (v : JVal) :
    (∀ j, Reads (jsonMarshal v) j ↔ j = v) ∧ ∀ j, Reads (prettyPrint v) j ↔ j = v := by
  have h1 : Reads (jsonMarshal v) v := by
    have := reads_marshal v [] (by simp)
    rwa [List.append_nil] at this
  exact ⟨fun j => ⟨fun h => reads_unique h h1, fun h => h ▸ h1⟩, fun j => ⟨fun h => reads_unique h (reads_pretty v), fun h => h ▸ reads_pretty v⟩⟩

/-- **C145** (unambiguous): two documents printed alike are the same document. -/
theorem C145_unambiguous {v v' : JVal} (h : jsonMarshal v = jsonMarshal v' ∨ prettyPrint v = prettyPrint v') : v = v' := by
  rcases h with h | h
  · exact ((C145_roundtrip v').1 v).1 (h ▸ ((C145_roundtrip v).1 v).2 rfl)
  · exact ((C145_roundtrip v').2 v).1 (h ▸ ((C145_roundtrip v).2 v).2 rfl)

theorem under_map {α : Type} (f : α → JVal) (m : GoMap α) (p : Str) : under p (mapJson f m) = (GoMap.get? m p).map f := by
  have key : ∀ (l : List Str) (g : Str → JVal), ((l.map fun k => (k, g k)).find? fun e => e.1 = p).map (·.2) = if p ∈ l then some (g p) else none := by
    intro l g
    induction l with
    | nil => simp
    | cons a l ih =>
      rw [List.map_cons, List.find?_cons]
      by_cases h : a = p
      · subst h; simp
      · have h' : p ≠ a := fun e => h e.symm
        simp only [h, decide_false]
        rw [ih]
        simp [h']
  unfold mapJson under
  dsimp only
  refine (key _ _).trans ?_
  by_cases h : p ∈ GoMap.keys m
  · rw [if_pos ((sortStrings_perm _).mem_iff.mpr h)]
    cases hg : GoMap.get? m p with
    | some v => rfl
    | none => exact absurd h ((GoMap.get?_eq_none_iff _ _).1 hg)
  · rw [if_neg fun hm => h ((sortStrings_perm _).mem_iff.mp hm), (GoMap.get?_eq_none_iff _ _).2 h]
    rfl

theorem underAll_cons (k : Str) (ks : List Str) (v : JVal) : underAll (k :: ks) v = (under k v).bind (underAll ks) := rfl

theorem reads_load (md : RSessionMetadata) (r : LoadReport) : Reads (loadOutput md r) (reportJson md r) :=
  reads_marshal _ _ fun c hc => by
    simp only [List.mem_cons, List.not_mem_nil, or_false] at hc
    rcases hc with rfl | rfl <;> rfl

/-- **C145** (`load --json`): what is printed is one JSON document; it has the library paths, the R and its version, the
number of failures, and under the name of a package all that is known about loading it: its name, version, path, error,
what R printed and whether it could be loaded; nothing under the name of a package that was not loaded. -/
theorem C145_load (md : RSessionMetadata) (r : LoadReport) (j : JVal) (hj : Reads (loadOutput md r) j) :
    underAll [s%"Failures"] j = some (.num r.failures) ∧
    underAll [s%"RMetadata", s%"RPath"] j = some (.str md.rPath) ∧
    underAll [s%"RMetadata", s%"RVersion"] j = some (.str md.rVersion) ∧
    underAll [s%"RMetadata", s%"LibPaths"] j = some (if md.libPaths = [] then .null else .arr (md.libPaths.map .str)) ∧
    (∀ p, r.results.get? p = none → underAll [s%"LoadResults", p] j = none) ∧
    ∀ p x, r.results.get? p = some x →
      underAll [s%"LoadResults", p, s%"Package"] j = some (.str x.package) ∧
      underAll [s%"LoadResults", p, s%"Version"] j = some (.str x.version) ∧
      underAll [s%"LoadResults", p, s%"Path"] j = some (.str x.path) ∧
      underAll [s%"LoadResults", p, s%"Exiterr"] j = some (.str x.exiterr) ∧
      underAll [s%"LoadResults", p, s%"Stdout"] j = some (.str x.stdout) ∧
      underAll [s%"LoadResults", p, s%"Stderr"] j = some (.str x.stderr) ∧
      underAll [s%"LoadResults", p, s%"Success"] j = some (.bool x.success) := by
  cases reads_unique hj (reads_load md r)
  have hres : under (s%"LoadResults") (reportJson md r) = some (mapJson resultJson r.results) := rfl
  refine ⟨rfl, rfl, rfl, ?_, ?_, ?_⟩
  · show some (sliceJson (appended md.libPaths)) = _
    unfold appended
    split <;> rfl
  · intro p hp
    rw [underAll_cons, hres, Option.bind_some, underAll_cons, under_map, hp]
    rfl
  · intro p x hp
    have : ∀ k, underAll [s%"LoadResults", p, k] (reportJson md r) = (under k (resultJson x)).bind (underAll []) := by
      intro k
      rw [underAll_cons, hres, Option.bind_some, underAll_cons, under_map, hp]
      rfl
    refine ⟨?_, ?_, ?_, ?_, ?_, ?_, ?_⟩ <;> rw [this] <;> rfl

/-- **C145** (`load --json`, from the R sessions to the printed document): when all loads are over, in whatever order and
however many at a time, the document printed says of every package, and of no other, whether R could load it, says as
many failures as there were, and gives what R wrote about the package. -/
theorem C145_load_session {threads : Int} {pkgs : List Str} {sess : Str → Session} {k : Nat} {s t : LoadState} (hnd : pkgs.Nodup)
    (h0 : loadStart threads pkgs = some s) (hr : LoadRun (threads * 2).toNat pkgs (fun i => sess (pkgs[i]?.getD [])) k s t)
    (hc : t.closed = true) (md : RSessionMetadata) :
    ∃ j, Reads (loadOutput md t.report) j ∧ (∀ j', Reads (loadOutput md t.report) j' → j' = j) ∧
      underAll [s%"Failures"] j = some (.num (pkgs.filter fun p => (sess p).ending ≠ .zero).length) ∧
      (∀ p, p ∉ pkgs → underAll [s%"LoadResults", p] j = none) ∧
      ∀ p ∈ pkgs,
        underAll [s%"LoadResults", p, s%"Success"] j = some (.bool ((sess p).ending = .zero)) ∧
        underAll [s%"LoadResults", p, s%"Stdout"] j = some (.str (sess p).stdout) ∧
        underAll [s%"LoadResults", p, s%"Stderr"] j = some (.str (sess p).stderr) := by
  obtain ⟨hf, hin, hout⟩ := C75_exact_partial hnd h0 hr hc
  have hj := reads_load md t.report
  obtain ⟨h1, _, _, _, h2, h3⟩ := C145_load md t.report _ hj
  refine ⟨_, hj, fun j' h' => reads_unique h' hj, ?_, fun p hp => h2 p (hout p hp), ?_⟩
  · rw [h1, hf]
  · intro p hp
    obtain ⟨r, hr1, _, hr2, hr3, hr4, _⟩ := hin p hp
    obtain ⟨_, _, _, _, g1, g2, g3⟩ := h3 p r hr1
    rw [g1, g2, g3, hr3, hr4]
    refine ⟨?_, rfl, rfl⟩
    congr 2
    cases hs : r.success with
    | true => exact (decide_eq_true (hr2.1 hs)).symm
    | false =>
      refine (decide_eq_false fun h => ?_).symm
      rw [hr2.2 h] at hs
      cases hs

/-- **C145** (`inspect --deps`): the document printed lists, under each package of the table and no other name, the
packages the table has for it (`null` for a name given on the command line that the table does not have). -/
theorem C145_inspect (sel : GoMap (Option (List Str))) (j : JVal) (hj : Reads (depsOutput sel) j) :
    (∀ p, GoMap.get? sel p = none → underAll [p] j = none) ∧
    (∀ p, GoMap.get? sel p = some none → underAll [p] j = some .null) ∧
    ∀ p l, GoMap.get? sel p = some (some l) → underAll [p] j = some (.arr (l.map .str)) := by
  cases reads_unique hj (reads_pretty (mapJson sliceJson sel))
  have : ∀ p, underAll [p] (mapJson sliceJson sel) = (GoMap.get? sel p).map sliceJson := by
    intro p
    rw [underAll_cons, under_map]
    cases GoMap.get? sel p <;> rfl
  refine ⟨?_, ?_, ?_⟩
  · intro p hp; rw [this, hp]; rfl
  · intro p hp; rw [this, hp]; rfl
  · intro p l hp; rw [this, hp]; rfl

/-- **C145** (`inspect --deps` for packages named on the command line, from the plan to the printed document): under the name of
a planned package with dependencies stands the alphabetical list of exactly the packages it needs, directly or
indirectly; `null` under other names given; nothing under names not given. -/
theorem C145_inspect_plan {cfg : PlanCfg} {nx nx' : Nexus} {installed : GoMap Desc} {libEx : Bool}
    {tb ds : List Desc} {add : GoMap AdditionalPkg} {ρ ρ' ρ'' : Order} {req : List Str} {ip : InstallPlan}
    (hk : Keyed nx) (hR : NoR nx) (hρ : ρ''.Fair)
    (h : planInstall cfg nx installed libEx tb ds add ρ ρ' ρ'' = .planned req nx' ip)
    {ρt : Order} (hρt : ρt.Fair) {args : List Str} (ha : args ≠ []) (j : JVal)
    (hj : Reads (depsOutput (inspectSelect (inspectTable false ρt ip) args)) j) (p : Str) :
    (p ∉ args → underAll [p] j = none) ∧
    (p ∈ args → (p ∈ ip.packages ∧ ∃ b, Relation.TransGen (Needs nx' cfg.noRecommended) p b) →
      ∃ l : List Str, underAll [p] j = some (.arr (l.map .str)) ∧ Alphabetical l ∧
        ∀ b, b ∈ l ↔ Relation.TransGen (Needs nx' cfg.noRecommended) p b) ∧
    (p ∈ args → ¬ (p ∈ ip.packages ∧ ∃ b, Relation.TransGen (Needs nx' cfg.noRecommended) p b) → underAll [p] j = some .null) := by
  obtain ⟨h1, h2, h3⟩ := C145_inspect _ j hj
  have hsel := C96_named (inspectTable false ρt ip) ha p
  obtain ⟨t1, t2⟩ := C96_table hk hR hρ h hρt false p
    (fun b => p ∈ ip.packages ∧ Relation.TransGen (Needs nx' cfg.noRecommended) p b) (fun b => by simp)
  refine ⟨fun hp => h1 p (by rw [hsel, if_neg hp]), ?_, ?_⟩
  · rintro hp ⟨hpk, b, hb⟩
    rw [if_pos hp] at hsel
    cases hg : GoMap.get? (inspectTable false ρt ip) p with
    | none => exact absurd ⟨hpk, hb⟩ (t1.1 hg b)
    | some l =>
      rw [hg] at hsel
      obtain ⟨a1, a2⟩ := t2 l hg
      exact ⟨l, h3 p l hsel, a1, fun b => ⟨fun hm => ((a2 b).1 hm).2, fun hm => (a2 b).2 ⟨hpk, hm⟩⟩⟩
  · intro hp hn
    rw [if_pos hp, t1.2 fun b hb => hn ⟨hb.1, b, hb.2⟩] at hsel
    exact h2 p hsel

/-- **C145** (`inspect --installed-from`): the document says which packages pkgr installed and which not; a list that
would be empty is `null`. -/
theorem C145_installed_from (i : InstalledFrom) (j : JVal) (hj : Reads (installedFromOutput i) j) :
    underAll [s%"pkgr"] j = some (if i.pkgr = [] then .null else .arr (i.pkgr.map .str)) ∧
    underAll [s%"packrat"] j = some (if i.packrat = [] then .null else .arr (i.packrat.map .str)) ∧
    underAll [s%"unknown"] j = some (if i.unknown = [] then .null else .arr (i.unknown.map .str)) := by
  cases reads_unique hj (reads_pretty _)
  have key : ∀ l, sliceJson (appended l) = if l = [] then JVal.null else .arr (l.map .str) := by
    intro l
    unfold appended
    split <;> rfl
  refine ⟨?_, ?_, ?_⟩ <;> rw [← key] <;> rfl

/-- **C145** (`inspect --installed-from`, from the library to the printed document): every package of the library stands in
exactly one of the two lists, those that pkgr installed in `pkgr`. -/
theorem C145_installed_from_library {ρ : Order} (hρ : ρ.Fair) (t : Nat) {m : GoMap Desc} (hwf : (GoMap.keys m).Nodup) (j : JVal)
    (hj : Reads (installedFromOutput (getInstallers ρ t m)) j) (p : Str) (d : Desc) (hp : GoMap.get? m p = some d) :
    (d.pkgrVersion ≠ [] ↔ ∃ l, underAll [s%"pkgr"] j = some (.arr l) ∧ .str p ∈ l) ∧
    (d.pkgrVersion = [] ↔ ∃ l, underAll [s%"packrat"] j = some (.arr l) ∧ .str p ∈ l) := by
  obtain ⟨h1, h2, _⟩ := C145_installed_from _ j hj
  obtain ⟨g1, g2⟩ := (C98_installers hρ t hwf).2 p d hp
  have hunk : (getInstallers ρ t m).unknown = [] := by
    have : ∀ (l : List Str) (a : InstalledFrom), a.unknown = [] → (l.foldl (installerStep m) a).unknown = [] := by
      intro l
      induction l with
      | nil => intro a h; exact h
      | cons k l ih =>
        intro a h
        rw [List.foldl_cons]
        refine ih _ ?_
        unfold installerStep
        split <;> exact h
    exact this _ _ rfl
  have key : ∀ (l : List Str) (o : Option JVal), o = some (if l = [] then .null else .arr (l.map .str)) →
      (p ∈ l ↔ ∃ x, o = some (.arr x) ∧ JVal.str p ∈ x) := by
    intro l o ho
    subst ho
    constructor
    · intro hm
      have : l ≠ [] := List.ne_nil_of_mem hm
      exact ⟨l.map .str, by rw [if_neg this], List.mem_map_of_mem hm⟩
    · rintro ⟨x, hx, hm⟩
      split at hx
      · cases hx
      · cases hx
        obtain ⟨q, hq, e⟩ := List.mem_map.mp hm
        cases e
        exact hq
  rw [InstalledFrom.notFromPkgr, hunk, List.append_nil] at g2
  exact ⟨g1.symm.trans (key _ _ h1), g2.symm.trans (key _ _ h2)⟩

/-- Non-vacuity: a report with a failure whose message has quotation marks, a backslash and a line break, as printed. -/
example : encodeJson false 4 0 (resultJson { package := s%"A", stderr := s%"no \"x\\y\"\n", success := false }) =
    s%"{\n    \"Package\": \"A\",\n    \"Version\": \"\",\n    \"Path\": \"\",\n    \"Exiterr\": \"\",\n    \"Stdout\": \"\",\n    \"Stderr\": \"no \\\"x\\\\y\\\"\\n\",\n    \"Success\": false\n}" := by
  decide +kernel

/-- Non-vacuity: what is printed without the escapes is no JSON document at all. -/
example (j : JVal) : ¬ Reads (s%"{\"a\": \"no \"x\"\"}") j := by
  rintro ⟨n, h⟩
  have h' := h (n + 10) (by omega)
  have : readJson (n + 10) (s%"{\"a\": \"no \"x\"\"}") = none := rfl
  rw [this] at h'
  cases h'

/-- Non-vacuity: the installed packages of a library with one package of each kind. -/
example : installedFromOutput (getInstallers idOrder 0 [(s%"a", { pkgrVersion := s%"3.0" }), (s%"b", {})]) =
    s%"{\n  \"pkgr\": [\n    \"a\"\n  ],\n  \"packrat\": [\n    \"b\"\n  ],\n  \"unknown\": null\n}\n" := by decide +kernel

end Pkgr
