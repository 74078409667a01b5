/- C162: planning from the files on. -/
import Verif.Props.LibScan
import Verif.Props.Looking
import Verif.Props.Outcome
import Verif.Spec.PlanFiles
import Verif.Props.FromYml

namespace Pkgr
open Spec

theorem readDescText_crash {t : Str} : readDescText t = .error .crash ↔ ¬ SoundText t := by
  have h := parseDesc_panics_iff t
  have h2 : SoundText t ↔ ¬ ∃ raw, decodeDesc t = some raw ∧ ∃ x ∈ allItems raw, MalformedItem x := by
    constructor
    · rintro hs ⟨raw, hr, i, hi, hm⟩; exact hs raw hr i hi hm
    · intro hn raw hr i hi hm; exact hn ⟨raw, hr, i, hi, hm⟩
  rw [h2, ← h]
  unfold readDescText
  cases parseDesc t <;> simp

theorem readDescFile_crash {fs : Fs} {p : Path} : readDescFile fs p = .error .crash ↔ ∃ t, fs p = some (.file t) ∧ ¬ SoundText t := by
  unfold readDescFile
  split
  · next c hc =>
    rw [readDescText_crash]
    constructor
    · intro h; exact ⟨c, hc, h⟩
    · rintro ⟨t, ht, h⟩; rw [hc] at ht; cases ht; exact h
  · next hn =>
    constructor
    · intro h; cases h
    · rintro ⟨t, ht, _⟩; exact absurd ht (hn t)

theorem readDescFile_ok {fs : Fs} {p : Path} {d : Desc} : readDescFile fs p = .ok d ↔
    ∃ t, fs p = some (.file t) ∧ parsedDesc t = some d := by
  unfold readDescFile readDescText parsedDesc
  split
  · next c hc =>
    constructor
    · intro h
      refine ⟨c, hc, ?_⟩
      revert h; cases parseDesc c <;> simp
    · rintro ⟨t, ht, h⟩
      rw [hc] at ht; cases ht
      revert h; cases parseDesc c <;> simp
  · next hn =>
    constructor
    · intro h; cases h
    · rintro ⟨t, ht, _⟩; exact absurd ht (hn t)

theorem openTarball_ok (digest : Str → Str) (names : List Str) (cache : Path) (fs : Fs) (path : Str) (file : Option Tarball)
    (r : Fs × Desc × AdditionalPkg) :
    openTarball digest names cache fs path file = .ok r ↔ unpackOne digest names parsedDesc cache fs path file = some r := by
  unfold openTarball unpackOne
  cases file with
  | none => simp
  | some t =>
    dsimp only
    cases hu : (untar digest names fs cache t).2 with
    | fatal => simp
    | folder p =>
      dsimp only
      cases hr : readDescFile (lastState fs (untar digest names fs cache t).1) (p ++ [s%"DESCRIPTION"]) with
      | ok d =>
        obtain ⟨c, hc, hp⟩ := readDescFile_ok.1 hr
        rw [hc]
        dsimp only
        rw [hp]
        simp
      | error s =>
        have hno : ∀ d, ¬ ∃ c, lastState fs (untar digest names fs cache t).1 (p ++ [s%"DESCRIPTION"]) = some (.file c) ∧ parsedDesc c = some d := by
          intro d h
          rw [readDescFile_ok.2 h] at hr; cases hr
        dsimp only
        split
        · next c hc =>
          split
          · simp
          · next d hd => exact absurd ⟨c, hc, hd⟩ (hno d)
        · simp

theorem openTarballs_ok (digest : Str → Str) (names : List Str) (cache : Path) (ts : List (Str × Option Tarball)) :
    ∀ (fs : Fs) (ds : List Desc) (m : GoMap AdditionalPkg) (r : Fs × List Desc × GoMap AdditionalPkg),
      openTarballs digest names cache fs ds m ts = .ok r ↔ unpackTarballs digest names parsedDesc cache fs ds m ts = some r := by
  induction ts with
  | nil => intro fs ds m r; simp [openTarballs, unpackTarballs]
  | cons x ts ih =>
    obtain ⟨path, file⟩ := x
    intro fs ds m r
    unfold openTarballs unpackTarballs
    cases ho : openTarball digest names cache fs path file with
    | ok q =>
      obtain ⟨fs', d, a⟩ := q
      rw [(openTarball_ok ..).1 ho]
      exact ih fs' _ _ r
    | error s =>
      cases hu : unpackOne digest names parsedDesc cache fs path file with
      | none => simp
      | some q => rw [(openTarball_ok ..).2 hu] at ho; cases ho

theorem openDescriptions_ok (fs : Fs) (ps : List Path) : ∀ (ds : List Desc),
    openDescriptions fs ps = .ok ds ↔ unpackDescriptions parsedDesc fs ps = some ds := by
  have one : ∀ p d, readDescFile fs p = .ok d ↔ unpackDescription parsedDesc fs p = some d := by
    intro p d
    rw [readDescFile_ok]
    unfold unpackDescription
    split
    · next c hc =>
      constructor
      · rintro ⟨t, ht, h⟩; rw [hc] at ht; cases ht; exact h
      · intro h; exact ⟨c, hc, h⟩
    · next hn =>
      constructor
      · rintro ⟨t, ht, _⟩; exact absurd ht (hn t)
      · intro h; cases h
  induction ps with
  | nil => intro ds; simp [openDescriptions, unpackDescriptions]
  | cons p ps ih =>
    intro ds
    unfold openDescriptions
    unfold unpackDescriptions at ih ⊢
    rw [List.mapM_cons]
    cases hr : readDescFile fs p with
    | ok d =>
      rw [(one p d).1 hr]
      dsimp only [bind, Option.bind]
      cases ho : openDescriptions fs ps with
      | ok ds' => rw [(ih ds').1 ho]; simp [pure]
      | error s =>
        cases hu : List.mapM (unpackDescription parsedDesc fs) ps with
        | none => simp
        | some q => rw [(ih q).2 hu] at ho; cases ho
    | error s =>
      cases hu : unpackDescription parsedDesc fs p with
      | none => simp
      | some q => rw [(one p q).2 hu] at hr; cases hr

/-! ### The states -/

theorem lastState_untar (digest : Str → Str) (names : List Str) (fs : Fs) (cache : Path) (t : Tarball) :
    lastState fs (untar digest names fs cache t).1 ∈ fs :: (untar digest names fs cache t).1 := by
  unfold lastState
  cases (untar digest names fs cache t).1 <;> simp

theorem unpack_last_during (digest : Str → Str) (names : List Str) (parse : Str → Option Desc) (cache : Path)
    (ts : List (Str × Option Tarball)) : ∀ (fs : Fs) (ds : List Desc) (m : GoMap AdditionalPkg) (fs' : Fs) (ds' : List Desc) (m' : GoMap AdditionalPkg),
      unpackTarballs digest names parse cache fs ds m ts = some (fs', ds', m') → fs' ∈ unpackStates digest names parse cache fs ts := by
  induction ts with
  | nil =>
    intro fs ds m fs' ds' m' h
    simp only [unpackTarballs, Option.some.injEq, Prod.mk.injEq] at h
    obtain ⟨rfl, _⟩ := h
    simp [unpackStates]
  | cons x ts ih =>
    obtain ⟨path, file⟩ := x
    intro fs ds m fs' ds' m' h
    unfold unpackTarballs at h
    unfold unpackStates
    cases file with
    | none => simp [unpackOne] at h
    | some t =>
      dsimp only
      cases hu : unpackOne digest names parse cache fs path (some t) with
      | none => rw [hu] at h; cases h
      | some q =>
        obtain ⟨fs1, d, a⟩ := q
        rw [hu] at h
        exact List.mem_append_right _ (ih _ _ _ _ _ _ h)

/-- Where a crash while the tarballs are opened comes from. -/
theorem openTarballs_crash (digest : Str → Str) (names : List Str) (cache : Path) (ts : List (Str × Option Tarball)) :
    ∀ (fs : Fs) (ds : List Desc) (m : GoMap AdditionalPkg), openTarballs digest names cache fs ds m ts = .error .crash →
      ∃ path b, (path, some b) ∈ ts ∧ ∃ n ∈ names, ∃ st ∈ unpackStates digest names parsedDesc cache fs ts, ∃ t,
        st (cache ++ [digest b.bytes, n, s%"DESCRIPTION"]) = some (.file t) ∧ ¬ SoundText t := by
  induction ts with
  | nil => intro fs ds m h; simp [openTarballs] at h
  | cons x ts ih =>
    obtain ⟨path, file⟩ := x
    intro fs ds m h
    unfold openTarballs at h
    cases file with
    | none => simp [openTarball] at h
    | some b =>
      cases ho : openTarball digest names cache fs path (some b) with
      | ok q =>
        obtain ⟨fs', d, a⟩ := q
        rw [ho] at h
        obtain ⟨p, b', hm, n, hn, st, hst, t, ht, hs⟩ := ih _ _ _ h
        refine ⟨p, b', List.mem_cons_of_mem _ hm, n, hn, st, ?_, t, ht, hs⟩
        unfold unpackStates
        dsimp only
        rw [(openTarball_ok ..).1 ho]
        exact List.mem_append_right _ hst
      | error s =>
        rw [ho] at h
        simp only [Except.error.injEq] at h
        subst h
        unfold openTarball at ho
        dsimp only at ho
        cases hu : (untar digest names fs cache b).2 with
        | fatal => rw [hu] at ho; simp at ho
        | folder p =>
          rw [hu] at ho
          dsimp only at ho
          cases hr : readDescFile (lastState fs (untar digest names fs cache b).1) (p ++ [s%"DESCRIPTION"]) with
          | ok d => rw [hr] at ho; cases ho
          | error s =>
            rw [hr] at ho
            simp only [Except.error.injEq] at ho
            subst ho
            obtain ⟨t, ht, hs⟩ := readDescFile_crash.1 hr
            have hpick : ∃ f, pickFolder names f (cache ++ [digest b.bytes]) = .folder p := by
              unfold untar at hu
              dsimp only at hu
              by_cases hd : fs.isDir (cache ++ [digest b.bytes]) = true
              · rw [if_pos hd] at hu; exact ⟨_, hu⟩
              · rw [if_neg hd] at hu
                generalize extract fs (cache ++ [digest b.bytes]) b.entries b.readOk = y at hu
                obtain ⟨l, o⟩ := y
                cases o with
                | false => cases hu
                | true => exact ⟨_, hu⟩
            obtain ⟨f, hf⟩ := hpick
            obtain ⟨n, hn, hp⟩ : ∃ n ∈ names, p = cache ++ [digest b.bytes] ++ [n] := by
              unfold pickFolder at hf
              split at hf
              · cases hf
              · next n _ hl =>
                simp only [UntarEnd.folder.injEq] at hf
                refine ⟨n, ?_, hf.symm⟩
                have : n ∈ (f.ls names (cache ++ [digest b.bytes])).filter fun n => f.isDir ((cache ++ [digest b.bytes]) ++ [n]) := by
                  rw [hl]; simp
                exact List.mem_of_mem_filter (List.mem_of_mem_filter this)
            subst hp
            refine ⟨path, b, by simp, n, hn, lastState fs (untar digest names fs cache b).1, ?_, t, ?_, hs⟩
            · unfold unpackStates
              dsimp only
              refine List.mem_append_left _ ?_
              rcases List.mem_cons.1 (lastState_untar digest names fs cache b) with h | h
              · rw [h]; exact List.mem_cons_self
              · exact List.mem_cons_of_mem _ (List.mem_reverse.2 h)
            · rw [← ht]; simp

theorem openDescriptions_crash (fs : Fs) : ∀ (ps : List Path), openDescriptions fs ps = .error .crash →
    ∃ p ∈ ps, ∃ t, fs p = some (.file t) ∧ ¬ SoundText t
  | [], h => by simp [openDescriptions] at h
  | p :: ps, h => by
    unfold openDescriptions at h
    cases hr : readDescFile fs p with
    | error s =>
      rw [hr] at h
      simp only [Except.error.injEq] at h
      subst h
      obtain ⟨t, ht⟩ := readDescFile_crash.1 hr
      exact ⟨p, by simp, t, ht⟩
    | ok d =>
      rw [hr] at h
      dsimp only at h
      cases ho : openDescriptions fs ps with
      | ok ds => rw [ho] at h; cases h
      | error s =>
        rw [ho] at h
        simp only [Except.error.injEq] at h
        subst h
        obtain ⟨q, hq, t, ht⟩ := openDescriptions_crash fs ps ho
        exact ⟨q, List.mem_cons_of_mem _ hq, t, ht⟩

/-! ### C162 -/

theorem libraryRead_eq {x : PlanFiles} {fs : Fs} {m : GoMap Desc}
    (h : (if fs.isDir x.lib then readLibrary fs x.lib x.listing else some []) = some m) :
    m = if fs.isDir x.lib then getPriorInstalled installedDesc fs x.lib x.listing else [] := by
  by_cases hd : fs.isDir x.lib = true
  · rw [if_pos hd] at h ⊢; exact C161_as_scanned h
  · rw [if_neg hd] at h ⊢; exact (Option.some.inj h).symm

/-- C162: when planning comes to a plan (or any other outcome but the report of a wrong customization), then it was made of what is
written: of what the DESCRIPTIONs in the library say, the DESCRIPTIONs of the configured tarballs, unpacked one after the other,
and the configured DESCRIPTION files. -/
theorem C162_as_planned {x : PlanFiles} {cfg : PlanCfg} {nx : Option Nexus} {fs fs' : Fs} {ρ ρ' ρ'' : Order} {o : PlanOutcome}
    (h : planFromFiles x cfg nx fs ρ ρ' ρ'' = .ends fs' o) :
    (o = .badCustomization ∧ fs' = fs) ∨ ∃ nx₀ tb table ds, nx = some nx₀ ∧
      unpackTarballs x.digest x.unpacked parsedDesc x.cache fs [] [] x.tarballs = some (fs', tb, table) ∧
      unpackDescriptions parsedDesc fs' x.descriptions = some ds ∧
      o = planInstall cfg nx₀ (if fs.isDir x.lib then getPriorInstalled installedDesc fs x.lib x.listing else [])
        (fs.isDir x.lib) tb ds table ρ ρ' ρ'' := by
  unfold planFromFiles at h
  split at h
  · cases h
  · next installed hi =>
    cases nx with
    | none => cases h
    | some nx₀ =>
      dsimp only at h
      split at h
      · simp only [PlanEnd.ends.injEq] at h
        exact Or.inl ⟨h.2.symm, h.1.symm⟩
      · split at h
        · cases h
        · next fs1 tb table ht =>
          split at h
          · cases h
          · next ds hd =>
            simp only [PlanEnd.ends.injEq] at h
            obtain ⟨rfl, rfl⟩ := h
            refine Or.inr ⟨nx₀, tb, table, ds, rfl, (openTarballs_ok ..).1 ht, (openDescriptions_ok ..).1 hd, ?_⟩
            rw [← libraryRead_eq hi]

theorem scan_same {fs fs' : Fs} {lib : Path} (h : ∀ q, lib <+: q → fs' q = fs q) (names : List Str) (m : GoMap Desc) :
    names.foldl (scanInstalled installedDesc fs' lib) m = names.foldl (scanInstalled installedDesc fs lib) m := by
  have hs : scanInstalled installedDesc fs' lib = scanInstalled installedDesc fs lib := by
    funext m n
    unfold scanInstalled Fs.isDir
    rw [h _ ⟨[n], rfl⟩, h _ ⟨[n, s%"DESCRIPTION"], rfl⟩]
  rw [hs]

/-- C162: the plan of a project: when planning comes to a plan, with the repositories opened as the project says, then this is the
planning from which C136 to C138 start, with the packages that the unpacked tarballs (C106) and the DESCRIPTION files describe, in
the file system as it is when planning is over; the library is as it was before. -/
theorem C162_plan_made {P : Project} {re : RepoEnv} {c c' : DbCache} {x : PlanFiles} {fs fs' : Fs} {ρ₁ ρ₂ ρ ρ' ρ'' : Order}
    {sched : List (Nat × Bool)} {nx : Option Nexus} {req : List Str} {nx' : Nexus} {ip : InstallPlan}
    (h₁ : ρ₁.Fair) (h₂ : ρ₂.Fair) (h : ρ.Fair) (h' : ρ'.Fair) (h'' : ρ''.Fair)
    (hs : (sched.map Prod.fst).Perm (List.range P.repos.length))
    (hopen : re.openConfigured ρ₁ ρ₂ P.custom (P.repos.map fun r => [r]) c sched = (c', nx))
    (hlist : ∀ n, n ∈ x.listing ↔ fs (x.lib ++ [n]) ≠ none) (hlib : fs.isDir x.lib = true ∨ ∀ q, x.lib <+: q → fs q = none)
    (h1 : ¬ x.lib <+: x.cache) (h2 : ¬ x.cache <+: x.lib)
    (hp : planFromFiles x P.cfg nx fs ρ ρ' ρ'' = .ends fs' (.planned req nx' ip)) :
    (∀ q, x.lib <+: q → fs' q = fs q) ∧
    ∃ tb table ds, unpackTarballs x.digest x.unpacked parsedDesc x.cache fs [] [] x.tarballs = some (fs', tb, table) ∧
      unpackDescriptions parsedDesc fs' x.descriptions = some ds ∧
      PlanMade P re c c' installedDesc { tarballs := tb, table := table, descriptions := ds } fs' x.lib
        (getPriorInstalled installedDesc fs x.lib x.listing) ip := by
  rcases C162_as_planned hp with ⟨h0, _⟩ | ⟨nx₀, tb, table, ds, rfl, ht, hd, ho⟩
  · cases h0
  · have hsame : ∀ q, x.lib <+: q → fs' q = fs q :=
      (C147_library x.digest x.unpacked parsedDesc x.cache x.lib fs x.tarballs h1 h2).1 fs' (unpack_last_during _ _ _ _ _ _ _ _ _ _ _ ht)
    have hdir : fs'.isDir x.lib = fs.isDir x.lib := by unfold Fs.isDir; rw [hsame _ (List.prefix_refl _)]
    refine ⟨hsame, tb, table, ds, ht, hd, ρ₁, ρ₂, ρ, ρ', ρ'', sched, nx₀, nx', x.listing, req, h₁, h₂, h, h', h'', hs, hopen, ?_, ?_, ?_⟩
    · intro n; rw [hlist, hsame _ ⟨[n], rfl⟩]
    · exact (scan_same hsame _ _).symm
    · rw [hdir]
      rw [ho]
      rcases hlib with hd' | hn
      · rw [if_pos hd']
      · have hf : fs.isDir x.lib = false := by unfold Fs.isDir; rw [hn _ (List.prefix_refl _)]; rfl
        have hl : x.listing = [] := by
          apply List.eq_nil_iff_forall_not_mem.2
          intro n hm
          exact (hlist n).1 hm (hn _ ⟨[n], rfl⟩)
        rw [hf, hl]; rfl

/-- C162: a DESCRIPTION in the library that is not sound is the end of every planning, whatever is configured and whatever the
repositories offer. -/
theorem C162_library_crash {x : PlanFiles} {fs : Fs} (hd : fs.isDir x.lib = true) {n t : Str} (hn : n ∈ x.listing)
    (ht : DescriptionText fs x.lib n t) (hs : ¬ SoundText t) (cfg : PlanCfg) (nx : Option Nexus) (ρ ρ' ρ'' : Order) :
    planFromFiles x cfg nx fs ρ ρ' ρ'' = .stopped .crash := by
  have hno : readLibrary fs x.lib x.listing = none := by
    rw [C161_panics_iff]
    have : ∃ raw, decodeDesc t = some raw ∧ ∃ i ∈ allItems raw, MalformedItem i := by
      apply Classical.byContradiction
      intro hc
      exact hs fun raw hr i hi hm => hc ⟨raw, hr, i, hi, hm⟩
    obtain ⟨raw, hr, i, hi, hm⟩ := this
    exact ⟨n, hn, t, raw, i, ht, hr, hi, hm⟩
  unfold planFromFiles
  rw [if_pos hd, hno]

/-- C162, as far as it holds: when all the files that are read are sound, planning ends with a report (a repository, a tarball or a
DESCRIPTION file that cannot be read, a wrong customization, missing packages, a circular dependency), or with a plan - unless nothing is
requested, or some installed package that the repositories offer has, there or in the library, a version without a separator.  Missing:
files that are not sound (`C162_violated`), and these two cases (C30, C148). -/
theorem C162_ends_partial {x : PlanFiles} {cfg : PlanCfg} {nx : Option Nexus} {fs : Fs} {ρ ρ' ρ'' : Order} (hS : SoundFiles x fs)
    (hk : ∀ n, nx = some n → Keyed n) (hR : ∀ n, nx = some n → NoR n) (hρ : ρ''.Fair) :
    planFromFiles x cfg nx fs ρ ρ' ρ'' = .stopped .fatal ∨
    planFromFiles x cfg nx fs ρ ρ' ρ'' = .ends fs .badCustomization ∨
    ∃ nx₀ nx' cfgs fs' tb table ds o, nx = some nx₀ ∧ planFromFiles x cfg nx fs ρ ρ' ρ'' = .ends fs' o ∧
      unpackTarballs x.digest x.unpacked parsedDesc x.cache fs [] [] x.tarballs = some (fs', tb, table) ∧
      unpackDescriptions parsedDesc fs' x.descriptions = some ds ∧
      setPlanCustomizations cfg.suggests cfg.packages cfg.customizations (defaultCfgs cfg.noRecommended)
        (ignorePackages nx₀ cfg.ignore) = some (cfgs, nx') ∧
      EndsWith nx' cfg.noRecommended (SugOn cfgs) (requestedPackages cfg tb ds ρ ρ')
        (if fs.isDir x.lib then getPriorInstalled installedDesc fs x.lib x.listing else []) o := by
  have hlibne : (if fs.isDir x.lib then readLibrary fs x.lib x.listing else some []) ≠ none := by
    by_cases hd : fs.isDir x.lib = true
    · rw [if_pos hd]
      intro hc
      obtain ⟨n, _, t, raw, i, ht, hr, hi, hm⟩ := (C161_panics_iff _ _ _).1 hc
      exact hS.library n t ht raw hr i hi hm
    · rw [if_neg hd]; simp
  cases hE : planFromFiles x cfg nx fs ρ ρ' ρ'' with
  | stopped s =>
    cases s with
    | fatal => exact Or.inl rfl
    | crash =>
      exfalso
      unfold planFromFiles at hE
      split at hE
      · next hc => exact hlibne hc
      · cases nx with
        | none => simp at hE
        | some nx₀ =>
          dsimp only at hE
          split at hE
          · cases hE
          · split at hE
            · next s hs =>
              simp only [PlanEnd.stopped.injEq] at hE
              subst hE
              obtain ⟨path, b, hm, n, hn, st, hst, t, ht, hns⟩ := openTarballs_crash _ _ _ _ _ _ _ hs
              exact hns (hS.tarballs path b hm n hn st hst t ht)
            · next fs1 tb table htb =>
              split at hE
              · next s hs =>
                simp only [PlanEnd.stopped.injEq] at hE
                subst hE
                obtain ⟨p, hp, t, ht, hns⟩ := openDescriptions_crash _ _ hs
                exact hns (hS.descriptions p hp fs1 (unpack_last_during _ _ _ _ _ _ _ _ _ _ _ ((openTarballs_ok ..).1 htb)) t ht)
              · cases hE
  | ends fs' o =>
    rcases C162_as_planned hE with ⟨rfl, rfl⟩ | ⟨nx₀, tb, table, ds, rfl, ht, hd, rfl⟩
    · exact Or.inr (Or.inl rfl)
    · have hne : GoMap.get? (if fs.isDir x.lib then getPriorInstalled installedDesc fs x.lib x.listing else []) [] = none := by
        by_cases hdir : fs.isDir x.lib = true
        · rw [if_pos hdir]
          cases hg : GoMap.get? (getPriorInstalled installedDesc fs x.lib x.listing) [] with
          | none => rfl
          | some d =>
            exfalso
            rcases libScan_from x.listing [] [] d hg with ⟨n, _, t, _, hi, hp⟩ | hc
            · unfold installedDesc at hi
              split at hi
              · next d' _ =>
                split at hi
                · cases hi
                · next hne => exact hne (by rw [Option.some.inj hi]; exact hp)
              · cases hi
            · simp at hc
        · rw [if_neg hdir]; rfl
      rcases C148_outcome_partial (cfg := cfg) (nx := nx₀) (libEx := fs.isDir x.lib) (tb := tb) (ds := ds) (add := table)
          (ρ := ρ) (ρ' := ρ') (ρ'' := ρ'') (hk _ rfl) (hR _ rfl) hρ hne with hb | ⟨nx', cfgs, hset, hend⟩
      · refine Or.inr (Or.inl ?_)
        cases hset : setPlanCustomizations cfg.suggests cfg.packages cfg.customizations (defaultCfgs cfg.noRecommended)
            (ignorePackages nx₀ cfg.ignore) with
        | none =>
          rw [← hE]
          unfold planFromFiles
          cases hl : (if fs.isDir x.lib then readLibrary fs x.lib x.listing else some []) with
          | none => exact absurd hl hlibne
          | some installed => dsimp only; rw [hset]
        | some q =>
          exfalso
          unfold planInstall at hb
          dsimp only at hb
          rw [hset] at hb
          dsimp only at hb
          split at hb
          · cases hb
          · split at hb <;> cases hb
      · exact Or.inr (Or.inr ⟨nx₀, nx', cfgs, fs', tb, table, ds, _, rfl, rfl, ht, hd, hset, hend⟩)

/-- C162, the same for the user: when all the files that are read are sound and planning still crashes, then nothing is requested, or
some installed package that the repositories offer has, there or in the library, a version without a separator. -/
theorem C162_crash_partial {x : PlanFiles} {cfg : PlanCfg} {nx : Option Nexus} {fs : Fs} {ρ ρ' ρ'' : Order} (hS : SoundFiles x fs)
    (hk : ∀ n, nx = some n → Keyed n) (hR : ∀ n, nx = some n → NoR n) (hρ : ρ''.Fair)
    (hc : Crashes (planFromFiles x cfg nx fs ρ ρ' ρ'')) :
    ∃ nx₀ nx' cfgs fs' tb table ds, nx = some nx₀ ∧
      unpackTarballs x.digest x.unpacked parsedDesc x.cache fs [] [] x.tarballs = some (fs', tb, table) ∧
      unpackDescriptions parsedDesc fs' x.descriptions = some ds ∧
      setPlanCustomizations cfg.suggests cfg.packages cfg.customizations (defaultCfgs cfg.noRecommended)
        (ignorePackages nx₀ cfg.ignore) = some (cfgs, nx') ∧
      (requestedPackages cfg tb ds ρ ρ' = [] ∨
        Incomparable nx' (if fs.isDir x.lib then getPriorInstalled installedDesc fs x.lib x.listing else [])) := by
  rcases C162_ends_partial (cfg := cfg) (ρ := ρ) (ρ' := ρ') hS hk hR hρ with h | h | ⟨nx₀, nx', cfgs, fs', tb, table, ds, o, hn, he, ht, hd, hset, hend⟩
  · rw [h] at hc; exact hc.elim
  · rw [h] at hc; exact hc.elim
  · refine ⟨nx₀, nx', cfgs, fs', tb, table, ds, hn, ht, hd, hset, ?_⟩
    rw [he] at hc
    cases hend with
    | missing _ _ => exact hc.elim
    | circular _ _ => exact hc.elim
    | version _ _ hi => exact Or.inr hi
    | empty h _ => exact Or.inl h
    | planned _ _ _ _ => exact hc.elim

/-! ### Examples -/

instance crashesDec (e : PlanEnd) : Decidable (Crashes e) := by
  cases e with
  | stopped s => cases s <;> unfold Crashes <;> infer_instance
  | ends fs o =>
    cases o with
    | failed e => cases e <;> unfold Crashes <;> infer_instance
    | _ => unfold Crashes; infer_instance

/-- A project with a library, one tarball and one DESCRIPTION file; the two parameters are the versions of R that the tarball and the
DESCRIPTION file ask for. -/
def paperFiles (inTarball : Str) : PlanFiles where
  lib := [s%"lib"]
  listing := [s%"good", s%"odd", s%"empty"]
  cache := [s%"cache"]
  digest := id
  unpacked := [s%"mine"]
  tarballs := [(s%"mine.tgz", some { bytes := s%"x1", entries :=
    [(⟨s%"mine/DESCRIPTION", .regular (s%"Package: mine\nVersion: 1.0\nDepends: R (>= " ++ inTarball ++ s%")\nImports: c\n")⟩, .ok)] })]
  descriptions := [[s%"proj", s%"DESCRIPTION"]]

/-- The file system of that project: the library of C161, and the DESCRIPTION file. -/
def paperFs (inLibrary inProject : Str) : Fs := fun p =>
  if p = [s%"proj", s%"DESCRIPTION"] then some (.file (s%"Package: proj\nVersion: 1.0\nDepends: R (>= " ++ inProject ++ s%")\nImports: b\n"))
  else shelf inLibrary p

/-- What was planned, or nothing. -/
def PlanEnd.packages : PlanEnd → Option (List Str)
  | .ends _ (.planned _ _ ip) => some ip.packages
  | _ => none

/-- C162 is false: `R (>= 3)`, which R accepts, anywhere in the library, in the DESCRIPTION of a tarball or in a configured DESCRIPTION
file crashes the planning of a project that is planned if it is `R (>= 3.0)` in all three. -/
theorem C162_violated :
    Crashes (planFromFiles (paperFiles (s%"3.0")) {} (some planNexus) (paperFs (s%"3") (s%"3.0")) idOrder idOrder idOrder) ∧
    Crashes (planFromFiles (paperFiles (s%"3")) {} (some planNexus) (paperFs (s%"3.0") (s%"3.0")) idOrder idOrder idOrder) ∧
    Crashes (planFromFiles (paperFiles (s%"3.0")) {} (some planNexus) (paperFs (s%"3.0") (s%"3")) idOrder idOrder idOrder) ∧
    (planFromFiles (paperFiles (s%"3.0")) {} (some planNexus) (paperFs (s%"3.0") (s%"3.0")) idOrder idOrder idOrder).packages =
      some [s%"c", s%"b"] := by
  decide +kernel

theorem soundText_of {t : Str} (h : readDescText t ≠ .error .crash) : SoundText t := by
  apply Classical.byContradiction
  intro hc
  exact h (readDescText_crash.2 hc)

/-- What is read of a node: sound, or no file. -/
def soundNode : Option Node → Bool
  | some (.file t) => decide (readDescText t ≠ .error .crash)
  | _ => true

theorem soundNode_text {o : Option Node} (h : soundNode o = true) {t : Str} (ht : o = some (.file t)) : SoundText t := by
  subst ht
  exact soundText_of (by simpa [soundNode] using h)

theorem paper_sound : SoundFiles (paperFiles (s%"3.0")) (paperFs (s%"3.0") (s%"3.0")) where
  library := by
    rintro n t ⟨hd, ht⟩
    have hn : n = s%"good" ∨ n = s%"odd" ∨ n = s%"empty" := by
      apply Classical.byContradiction
      intro hc
      simp only [not_or] at hc
      have hnone : paperFs (s%"3.0") (s%"3.0") ([s%"lib"] ++ [n]) = none := by
        unfold paperFs shelf
        rw [if_neg (by simp), if_neg (by simp [hc.1, hc.2.1, hc.2.2]), if_neg (by simp), if_neg (by simp)]
      have hd' : (paperFs (s%"3.0") (s%"3.0")).isDir ([s%"lib"] ++ [n]) = true := hd
      unfold Fs.isDir at hd'
      rw [hnone] at hd'
      cases hd'
    rcases hn with rfl | rfl | rfl
    · exact soundNode_text (by decide +kernel) ht
    · exact soundNode_text (by decide +kernel) ht
    · exact soundNode_text (by decide +kernel) ht
  descriptions := by
    intro p hp st hst t ht
    have hp' : p = [s%"proj", s%"DESCRIPTION"] := by simpa [paperFiles] using hp
    subst hp'
    have hm : soundNode (st [s%"proj", s%"DESCRIPTION"]) ∈
        (unpackStates (paperFiles (s%"3.0")).digest (paperFiles (s%"3.0")).unpacked parsedDesc (paperFiles (s%"3.0")).cache
          (paperFs (s%"3.0") (s%"3.0")) (paperFiles (s%"3.0")).tarballs).map (fun st => soundNode (st [s%"proj", s%"DESCRIPTION"])) :=
      List.mem_map_of_mem (f := fun st : Fs => soundNode (st [s%"proj", s%"DESCRIPTION"])) hst
    have hall : ∀ b ∈ (unpackStates (paperFiles (s%"3.0")).digest (paperFiles (s%"3.0")).unpacked parsedDesc (paperFiles (s%"3.0")).cache
          (paperFs (s%"3.0") (s%"3.0")) (paperFiles (s%"3.0")).tarballs).map (fun st => soundNode (st [s%"proj", s%"DESCRIPTION"])), b = true := by
      decide +kernel
    exact soundNode_text (hall _ hm) ht
  tarballs := by
    intro path b hb n hn st hst t ht
    have hn' : n = s%"mine" := by simpa [paperFiles] using hn
    subst hn'
    have hb' : (paperFiles (s%"3.0")).digest b.bytes = s%"x1" := by
      simp only [paperFiles, List.mem_singleton, Prod.mk.injEq, Option.some.injEq] at hb
      rw [hb.2]; rfl
    rw [hb'] at ht
    have hm : soundNode (st [s%"cache", s%"x1", s%"mine", s%"DESCRIPTION"]) ∈
        (unpackStates (paperFiles (s%"3.0")).digest (paperFiles (s%"3.0")).unpacked parsedDesc (paperFiles (s%"3.0")).cache
          (paperFs (s%"3.0") (s%"3.0")) (paperFiles (s%"3.0")).tarballs).map (fun st => soundNode (st [s%"cache", s%"x1", s%"mine", s%"DESCRIPTION"])) :=
      List.mem_map_of_mem (f := fun st : Fs => soundNode (st [s%"cache", s%"x1", s%"mine", s%"DESCRIPTION"])) hst
    have hall : ∀ b ∈ (unpackStates (paperFiles (s%"3.0")).digest (paperFiles (s%"3.0")).unpacked parsedDesc (paperFiles (s%"3.0")).cache
          (paperFs (s%"3.0") (s%"3.0")) (paperFiles (s%"3.0")).tarballs).map
            (fun st => soundNode (st [s%"cache", s%"x1", s%"mine", s%"DESCRIPTION"])), b = true := by
      decide +kernel
    exact soundNode_text (hall _ hm) ht

/-- The hypotheses of `C162_ends_partial` are met, for every configuration; without a request the crash of `C162_crash_partial` occurs. -/
example : (∀ cfg, planFromFiles (paperFiles (s%"3.0")) cfg (some planNexus) (paperFs (s%"3.0") (s%"3.0")) idOrder idOrder idOrder ≠
      .stopped .crash) ∧
    Crashes (planFromFiles { paperFiles (s%"3.0") with tarballs := [], descriptions := [] } {} (some planNexus)
      (paperFs (s%"3.0") (s%"3.0")) idOrder idOrder idOrder) := by
  refine ⟨fun cfg hc => ?_, by decide +kernel⟩
  rcases C162_ends_partial (cfg := cfg) (nx := some planNexus) (ρ := idOrder) (ρ' := idOrder) (ρ'' := idOrder) paper_sound
    (by rintro n h; cases h; exact planNexus_keyed) (by rintro n h; cases h; exact planNexus_noR) idOrder_fair
    with h | h | ⟨_, _, _, _, _, _, _, _, _, h, _⟩ <;> rw [hc] at h <;> cases h

/-- `C162_library_crash` for a concrete library. -/
example (cfg : PlanCfg) : planFromFiles (paperFiles (s%"3.0")) cfg (some planNexus) (paperFs (s%"3") (s%"3.0")) idOrder idOrder idOrder =
    .stopped .crash :=
  C162_library_crash (n := s%"odd") (t := s%"Package: odd\nVersion: 1.0\nDepends: R (>= 3)\n") (by decide +kernel) (by decide)
    ⟨by decide +kernel, by decide +kernel⟩ (readDescText_crash.1 (by decide +kernel)) _ _ _ _ _

/-- The hypotheses of `C162_plan_made` are met by the project of C136, with a tarball that is unpacked. -/
example : ∃ c' req nx' ip fs', ymlEnv.openConfigured idOrder idOrder ymlProject.custom (ymlProject.repos.map fun r => [r]) (fun _ => none) [(0, true)] =
      (c', some ymlNexus) ∧
    planFromFiles { paperFiles (s%"3.0") with listing := [s%"c"], descriptions := [] } ymlProject.cfg (some ymlNexus) ymlFs idOrder idOrder idOrder =
      .ends fs' (.planned req nx' ip) ∧ ip.packages = [s%"c"] ∧
    ∃ tb table ds, PlanMade ymlProject ymlEnv (fun _ => none) c' installedDesc { tarballs := tb, table := table, descriptions := ds } fs' [s%"lib"]
      (getPriorInstalled installedDesc ymlFs [s%"lib"] [s%"c"]) ip := by
  obtain ⟨c', hc⟩ := ymlOpens
  have hid : idOrder.Fair := fun _ _ => List.Perm.refl _
  have h : (planFromFiles { paperFiles (s%"3.0") with listing := [s%"c"], descriptions := [] } ymlProject.cfg (some ymlNexus) ymlFs
      idOrder idOrder idOrder).packages = some [s%"c"] := by decide +kernel
  cases hp : planFromFiles { paperFiles (s%"3.0") with listing := [s%"c"], descriptions := [] } ymlProject.cfg (some ymlNexus) ymlFs
      idOrder idOrder idOrder with
  | stopped s => rw [hp] at h; cases h
  | ends fs' o =>
    rw [hp] at h
    cases o with
    | planned req nx' ip =>
      refine ⟨c', req, nx', ip, fs', hc, rfl, by simpa [PlanEnd.packages] using h, ?_⟩
      obtain ⟨_, tb, table, ds, _, _, hm⟩ := C162_plan_made (x := { paperFiles (s%"3.0") with listing := [s%"c"], descriptions := [] })
        hid hid hid hid hid (by decide) hc (by
          intro n
          by_cases hn : n = s%"c"
          · subst hn; simp [paperFiles, ymlFs]
          · simp [paperFiles, ymlFs, hn]) (Or.inl (by decide)) (by decide) (by decide) hp
      exact ⟨tb, table, ds, hm⟩
    | badCustomization => cases h
    | missing _ => cases h
    | failed _ => cases h

end Pkgr
