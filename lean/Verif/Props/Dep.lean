/- C04-C05: dependency texts. -/
import Verif.Proof.Dep

namespace Pkgr

/-- C04: a dependency written `name (op version)`, with any amount of white space anywhere between the
tokens, parses to exactly that name, operator and version (or panics iff the version does). -/
theorem C04_parse_written {name v w0 w1 w2 w3 w4 w5 : Str} {op : Constraint} (hop : op ≠ .none)
    (hname : Trimmed name) (hn0 : name ≠ []) (hnp : '(' ∉ name)
    (hv : Trimmed v) (hv0 : v ≠ [])
    (hvc : '(' ∉ v ∧ ')' ∉ v ∧ '<' ∉ v ∧ '>' ∉ v ∧ '=' ∉ v)
    (hw : ∀ w ∈ [w0, w1, w2, w3, w4, w5], ∀ c ∈ w, isSpace c = true) :
    parseDep (w0 ++ name ++ w1 ++ s%"(" ++ w2 ++ op.toStr ++ w3 ++ v ++ w4 ++ s%")" ++ w5) =
      (parseVersion v).map (fun x => { name := name, version := x, constraint := op }) := by
  simp only [List.mem_cons, List.not_mem_nil, or_false, forall_eq_or_imp, forall_eq] at hw
  obtain ⟨h0, h1, h2, h3, h4, h5⟩ := hw
  have nosp : ∀ {w : Str} (c : Char), (∀ c ∈ w, isSpace c = true) → isSpace c = false → c ∉ w := by
    intro w c hw hc h; rw [hw c h] at hc; exact absurd hc (by decide)
  have e : w0 ++ name ++ w1 ++ s%"(" ++ w2 ++ op.toStr ++ w3 ++ v ++ w4 ++ s%")" ++ w5 =
      (w0 ++ name ++ w1) ++ '(' :: (w2 ++ op.toStr ++ w3 ++ v ++ w4 ++ ')' :: w5) := by simp
  rw [e]
  unfold parseDep
  have ho : '(' ∉ op.toStr := by cases op <;> decide
  have ho2 : ')' ∉ op.toStr := by cases op <;> decide
  rw [splitOn_append, splitOn_of_not_mem]
  · simp only [List.headD_cons, List.getElem?_cons_succ, List.getElem?_cons_zero]
    have hc : replaceFirst (w2 ++ op.toStr ++ w3 ++ v ++ w4 ++ ')' :: w5) (s%")") [] =
        w2 ++ op.toStr ++ (w3 ++ v ++ (w4 ++ w5)) := by
      have := replaceFirst_append (a := w2 ++ op.toStr ++ w3 ++ v ++ w4) (o := ')') (os := []) [] w5
        (by simp [nosp ')' h2 (by decide), ho2, nosp ')' h3 (by decide), hvc.2.1, nosp ')' h4 (by decide)])
      simp only [List.append_assoc, List.cons_append, List.nil_append] at this ⊢
      exact this
    rw [hc, parseConstraint_written hop h2 h3 (fun c hc => (List.mem_append.1 hc).elim (h4 c) (h5 c)) hv hv0
        hvc.2.2.1 hvc.2.2.2.1 hvc.2.2.2.2]
    have : trimSpace (w0 ++ name ++ w1) = name := by
      rw [List.append_assoc, trimSpace_spaces_append h0, trimSpace_append_spaces hname h1 hn0]
    rw [this, Option.map_map]
    rfl
  · simp [nosp '(' h2 (by decide), ho, nosp '(' h3 (by decide), hvc.1, nosp '(' h4 (by decide),
      nosp '(' h5 (by decide)]
  · simp [nosp '(' h0 (by decide), hnp, nosp '(' h1 (by decide)]

/-- C04: rendering a constrained dependency and parsing the text gives the dependency back. -/
theorem C04_roundtrip (d : Dep) (hop : d.constraint ≠ .none)
    (hname : Trimmed d.name) (hn0 : d.name ≠ []) (hnp : '(' ∉ d.name)
    (hv : Trimmed d.version.string)
    (hvc : '(' ∉ d.version.string ∧ ')' ∉ d.version.string ∧ '<' ∉ d.version.string ∧
      '>' ∉ d.version.string ∧ '=' ∉ d.version.string)
    (hver : parseVersion d.version.string = some d.version) :
    parseDep d.toStr = some d := by
  have hv0 : d.version.string ≠ [] := by
    intro h; rw [h] at hver; exact absurd hver (by simp [parseVersion, splitNBy])
  have := C04_parse_written (w0 := []) (w1 := s%" ") (w2 := []) (w3 := s%" ") (w4 := []) (w5 := [])
    hop hname hn0 hnp hv hv0 hvc (by decide)
  rw [hver] at this
  unfold Dep.toStr
  simp only [List.nil_append, List.append_assoc, List.cons_append, List.append_nil, Option.map_some] at this ⊢
  exact this

/-- The hypotheses of C04 are met by `R (>= 3.6-1)`. -/
example : ∃ d : Dep, d.constraint ≠ .none ∧ Trimmed d.name ∧ d.name ≠ [] ∧ '(' ∉ d.name ∧
    Trimmed d.version.string ∧ parseVersion d.version.string = some d.version ∧
    d.toStr = s%"R (>= 3.6-1)" := by
  refine ⟨⟨s%"R", ⟨3, 6, 1, 0, 0, s%"3.6-1"⟩, .gte⟩, by decide, ⟨?_, ?_⟩, by decide, by decide, ⟨?_, ?_⟩,
    by decide, by decide⟩ <;> simp [isSpace]

/-- C04 (boundary): an unconstrained dependency is rendered as `name (Unknown constraint )`, which does
not parse back — the program would panic. -/
theorem C04_unconstrained_does_not_roundtrip (n : Str) (hn : '(' ∉ n) :
    parseDep ({ name := n, version := {}, constraint := .none } : Dep).toStr = none := by
  have e : ({ name := n, version := {}, constraint := .none } : Dep).toStr =
      (n ++ s%" ") ++ '(' :: s%"Unknown constraint )" := by simp [Dep.toStr, Constraint.toStr]
  rw [e]
  unfold parseDep
  rw [splitOn_append _ _ _ (by simp [hn]), splitOn_of_not_mem _ _ (by decide)]
  simp only [List.getElem?_cons_succ, List.getElem?_cons_zero, Option.map_eq_none_iff]
  decide

/-- C05: text without a parenthesis is a bare name. -/
theorem C05_bare_name (d : Str) (h : '(' ∉ d) :
    parseDep d = some { name := trimSpace d, version := {}, constraint := .none } := by
  unfold parseDep
  rw [splitOn_of_not_mem _ _ h]
  rfl

/-- C05: exact panic condition.  `pv` is the text between the first `(` and the next one, with one `)`
removed; parsing panics iff there is no operator in it or no version separator in it. -/
theorem C05_panic_iff (d : Str) :
    parseDep d = none ↔ '(' ∈ d ∧
      let pv := ((d.dropWhile (· ≠ '(')).tail.takeWhile (· ≠ '(')).erase ')'
      ('<' ∉ pv ∧ '>' ∉ pv ∧ ¬ s%"==" <:+: pv) ∨ ('.' ∉ pv ∧ '-' ∉ pv) := by
  unfold parseDep
  simp only [splitOn_snd]
  by_cases h : '(' ∈ d
  · simp only [h, if_true, Option.map_eq_none_iff, parseConstraint_none_iff, replaceFirst_close, true_and]
  · simp [h]

/-- C05: whatever it parses to, "no constraint" is only ever the result of a text without parenthesis,
so a written requirement is never silently dropped. -/
theorem C05_never_dropped (d : Str) (r : Dep) (h : parseDep d = some r) :
    r.constraint = .none ↔ '(' ∉ d := by
  by_cases hp : '(' ∈ d
  · unfold parseDep at h
    simp only [splitOn_snd, hp, if_true] at h
    rw [Option.map_eq_some_iff] at h
    obtain ⟨cv, hcv, rfl⟩ := h
    have : cv.1 ≠ .none := by
      unfold parseConstraint at hcv
      repeat' split at hcv
      all_goals first
        | (rw [Option.map_eq_some_iff] at hcv; obtain ⟨v, _, rfl⟩ := hcv; simp)
        | simp at hcv
    simp [hp, this]
  · rw [C05_bare_name d hp] at h
    injection h with h
    simp [← h, hp]

/-- Non-vacuity of C05: a text that panics for each reason, and one that parses. -/
example : parseDep (s%"R (3.6)") = none ∧ parseDep (s%"R (>= 4)") = none ∧
    (parseDep (s%"R (>= 3.6)")).isSome = true := by decide

end Pkgr
