/- C152: the real parser of DESCRIPTION files meets what the other theorems suppose of it. -/
import Verif.Spec.Written
import Verif.Props.Stamped

namespace Pkgr
open Spec

theorem textIs_unique {gs : List DescField} (h : ∀ f ∈ gs, f.Valid) {k v w : Str} (h1 : TextIs gs k v) (h2 : TextIs gs k w) : v = w := by
  unfold TextIs at h1 h2
  cases hl : lastNamed gs k with
  | none => rw [hl] at h1 h2; simp only at h1 h2; rw [h1, h2]
  | some f =>
    rw [hl] at h1 h2
    simp only at h1 h2
    have hf := h f (lastNamed_mem hl).1
    rw [(DescField.says_iff hf _).1 h1, (DescField.says_iff hf _).1 h2]

theorem textOf_file (gs : List DescField) : FileOf gs (textOf (fieldLines gs)) := ⟨[], by simp, Or.inl rfl⟩

/-- What is read from a well written DESCRIPTION. -/
theorem wellWritten_read {gs : List DescField} (h : Stampable gs) {p v : Str} (hp : p ≠ []) (h1 : TextIs gs (s%"Package") p)
    (h2 : TextIs gs (s%"Version") v) (h3 : parseDesc (textOf (fieldLines gs)) ≠ .panics) :
    ∃ d, installedDesc (textOf (fieldLines gs)) = some d ∧ d.package = p ∧ d.version = v := by
  obtain ⟨raw, hs, _, hk⟩ := C151_parsed h.valid h.nonempty (textOf_file gs)
  obtain ⟨d, hd, hD⟩ := hk h3
  have e1 : d.package = p := by rw [hD.package]; exact textIs_unique h.valid hs.package h1
  refine ⟨d, ?_, e1, ?_⟩
  · unfold installedDesc
    rw [hd]
    simp only
    rw [if_neg (by rw [e1]; exact hp)]
  · rw [hD.version]; exact textIs_unique h.valid hs.version h2

/-- C152: stamping does no harm: a directory whose DESCRIPTION is well written is well written after pkgr has stamped it, with
the same name and the same version. -/
theorem C152_harmless_partial {Good : Str → Str → Prop} {p : Str} {D : Path → Option Node} {c : Str} {st : Stamp} (hst : PlainStamp st)
    (h : WellWritten Good p D) (hc : D [s%"DESCRIPTION"] = some (.file c)) :
    WellWritten Good p (withDescription D (writeLines (stampLines (readLines c) st))) := by
  obtain ⟨h0, hp, gs, v, h1, h2, h3, h4, h5, h6⟩ := h
  rw [hc] at h1
  cases h1
  have e : writeLines (stampLines (readLines (textOf (fieldLines gs))) st) = textOf (fieldLines (stampFields st gs)) := by
    rw [readLines_textOf _ (fieldLines_newline h2.valid) h2.noCR, stampLines_fields h2, writeLines_eq]
  have hs := stampFields_stampable h2 hst.version hst.installType hst.repoURL hst.repo hst.unmarked
  obtain ⟨raw, r1, r2⟩ := C152_read_back_partial h2 hst.version hst.installType hst.repoURL hst.repo
  obtain ⟨raw', r1', hsay⟩ := C151_fields h2.valid h2.nonempty (textOf_file gs)
  rw [r1] at r1'
  cases r1'
  rw [e] at r2 ⊢
  obtain ⟨raw2, r2', hsay2⟩ := C151_fields hs.valid hs.nonempty (textOf_file _)
  rw [r2] at r2'
  cases r2'
  have ep := textIs_unique h2.valid hsay.package h3
  have ev := textIs_unique h2.valid hsay.version h4
  refine ⟨?_, hp, stampFields st gs, v, if_pos rfl, hs, ?_, ?_, h5, ?_⟩
  · unfold withDescription
    rw [if_neg (by simp)]
    exact h0
  · rw [← ep]; exact hsay2.package
  · rw [← ev]; exact hsay2.version
  · have hn : newDesc raw ≠ none := by
      intro hn
      apply h6
      unfold parseDesc
      rw [r1]
      simp only
      rw [hn]
    rw [ne_eq, C05_description_panics_iff] at hn
    unfold parseDesc
    rw [r2]
    simp only
    have hn2 : newDesc { raw with
        repository := if ∃ f ∈ gs, f.name = s%"Repository" then st.repo else [],
        pkgrVersion := st.version, pkgrInstallType := st.installType, pkgrRepositoryURL := st.repoURL } ≠ none := by
      rw [ne_eq, C05_description_panics_iff]
      exact hn
    revert hn2
    cases newDesc { raw with
        repository := if ∃ f ∈ gs, f.name = s%"Repository" then st.repo else [],
        pkgrVersion := st.version, pkgrInstallType := st.installType, pkgrRepositoryURL := st.repoURL } with
    | none => intro h; exact absurd rfl h
    | some d => intro _ h; cases h

/-- C152: so R's contract, as the theorems about whole runs suppose it, asks nothing of the stamps but that they are plain, if
what R's exit status 0 promises is a well written DESCRIPTION. -/
theorem C152_contract_partial {e : QEnv} {Scratch : Path → Prop} {Good Holds : Str → Str → Prop}
    (confined : ∀ c fs fs', e.proc.writes c fs fs' → ∀ q, fs' q ≠ fs q →
      (c.lib ++ [c.pkg]) <+: q ∨ (c.lib ++ [lockName c.pkg]) <+: q ∨ (c.build = true ∧ c.workDir <+: q) ∨ Scratch q)
    (installs : ∀ c fs x, e.proc.exits c fs .ok → fs c.src = some (.file x) → Holds c.pkg x →
      WellWritten Good c.pkg (contentOf fs c.lib c.pkg))
    (builds : ∀ c fs x, e.proc.exits c fs .ok → c.build = true → fs c.src = some (.file x) → Holds c.pkg x →
      ∀ bbp n, binaryExtOs e.ie.platform.os (basePath c.src) e.ie.rPlatform = some bbp →
        fs (c.workDir ++ [bbp]) = some n → ∃ y, n = .file y ∧ Holds c.pkg y)
    (stamps : ∀ p ∈ Job.plan e.job, ∀ k, PlainStamp (e.stampOf p k)) :
    RContract e Scratch (WellWritten Good) Holds :=
  ⟨confined, installs, builds, fun _ _ h => h.1, stamps, fun _ _ _ _ hst h hc => C152_harmless_partial hst h hc⟩

theorem wellWritten_listed {P : Project} {re : RepoEnv} {x : Extras} {p : Str} {D : Path → Option Node} (h : WellWritten (NotOlder P re x) p D)
    (hg : ¬ x.Given p) : AsListed installedDesc P re p D := by
  obtain ⟨h0, hp, gs, v, h1, h2, h3, h4, h5, h6⟩ := h
  obtain ⟨d, hd, e1, e2⟩ := wellWritten_read h2 hp h3 h4 h6
  obtain ⟨repo, ty, o, ho, hv⟩ := h5 hg
  exact ⟨h0, _, d, repo, ty, o, h1, hd, e1, ho, by rw [e2]; exact hv⟩

/-- The real parser tells enough, supposed that what is in the library at the start is made of fields that can be stamped. -/
theorem tellsEnough_real {P : Project} {re : RepoEnv} {x : Extras} {fs : Fs} {lib : Path}
    (hthere : ∀ p c, P.Fetched re x p → ¬ x.Given p → fs (lib ++ [p, s%"DESCRIPTION"]) = some (.file c) →
      ∃ gs, Stampable gs ∧ c = textOf (fieldLines gs)) :
    TellsEnough (WellWritten (NotOlder P re x)) installedDesc (WellWritten fun _ _ => True) P re x fs lib := by
  refine ⟨fun p D h => ⟨fun _ => ?_, fun hg => wellWritten_listed h hg⟩, ?_⟩
  · obtain ⟨h0, hp, gs, v, h1, h2, h3, h4, h5, h6⟩ := h
    exact ⟨h0, hp, gs, v, h1, h2, h3, h4, trivial, h6⟩
  · rintro p hf hg ⟨h0, c, d, repo, ty, o, h1, h2, h3, h4, h5⟩
    obtain ⟨gs, hgs, rfl⟩ := hthere p c hf hg h1
    unfold installedDesc at h2
    cases hp : parseDesc (textOf (fieldLines gs)) with
    | error => rw [hp] at h2; cases h2
    | panics => rw [hp] at h2; cases h2
    | ok d' =>
      rw [hp] at h2
      simp only at h2
      have hne : d'.package ≠ [] := by
        intro e
        rw [if_pos e] at h2
        cases h2
      rw [if_neg hne] at h2
      cases h2
      obtain ⟨raw, hs, _, hk⟩ := C151_parsed hgs.valid hgs.nonempty (textOf_file gs)
      obtain ⟨d', hd, hD⟩ := hk (by rw [hp]; simp)
      rw [hp] at hd
      cases hd
      refine ⟨h0, by rw [← h3]; exact hne, gs, d.version, h1, hgs, ?_, ?_, fun _ => ⟨repo, ty, o, h4, h5⟩, by rw [hp]; simp⟩
      · rw [← h3, hD.package]; exact hs.package
      · rw [hD.version]; exact hs.version

end Pkgr
