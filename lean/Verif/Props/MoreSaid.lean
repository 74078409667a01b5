/- C174: editing pkgr.yml, from the file to the library. -/
import Verif.Props.Repaired
import Verif.Props.AnyOrder
import Verif.Spec.MoreSaid

namespace Pkgr
open Spec

variable {P P' : Project} {re : RepoEnv} {parse : Str → Option Desc} {x x' : Extras}

theorem more_setting (hm : SaysMore re P P' x x') (hP : (P.cfg.customizations.map Prod.fst).Nodup) (p : Str) : settingOf P'.cfg p = settingOf P.cfg p :=
  settingOf_perm hP hm.customizations p

theorem more_supplies (hm : SaysMore re P P' x x') (hP : (P.cfg.customizations.map Prod.fst).Nodup) (r : Str × Str) (p : Str) (ty : SourceType) (d : Desc) :
    P'.Supplies re r p ty d ↔ P.Supplies re r p ty d := by
  unfold Project.Supplies Project.TakenAs Project.entry
  rw [more_setting hm hP, hm.custom, hm.ignore]

/-- Every package that could be had is still had from the same repository, in the same type and version. -/
theorem C174_source (hm : SaysMore re P P' x x') (hP : (P.cfg.customizations.map Prod.fst).Nodup) {p : Str} {repo : Str × Str} {ty : SourceType} {d : Desc}
    (h : P.Gets re p repo ty d) : P'.Gets re p repo ty d := by
  obtain ⟨hf, hs⟩ := h
  refine ⟨?_, (more_supplies hm hP ..).2 hs⟩
  simp only [more_supplies hm hP]
  rcases hm.repos with ⟨extra, he⟩ | ⟨hperm, hap⟩
  · obtain ⟨pre, post, h1, h2, h3⟩ := hf
    exact ⟨pre, post ++ extra, by rw [← he, h1]; simp, h2, h3⟩
  · have hone : ∀ a ∈ P'.repos, ∀ b ∈ P'.repos, (∃ ty d, P.Supplies re a p ty d) → (∃ ty d, P.Supplies re b p ty d) → a = b := by
      rintro a ha b hb ⟨ty, d, _, _, rc, _, _, h1⟩ ⟨ty', d', _, _, rc', _, _, h2⟩
      exact hap a (hperm.mem_iff.1 ha) b (hperm.mem_iff.1 hb) rc rc' p ty ty' d d' h1 h2
    obtain ⟨pre, post, h1, h2, _⟩ := hf
    have hr : repo ∈ P'.repos := hperm.mem_iff.2 (by rw [h1]; simp)
    obtain ⟨pre', post', h4⟩ := List.append_of_mem hr
    by_cases hx : ∃ a ∈ P'.repos, ∃ ty d, P.Supplies re a p ty d
    · -- the first one that can supply it is the only one
      have : ∃ a, FirstWith (fun a => ∃ ty d, P.Supplies re a p ty d) P'.repos a := by
        clear hone h4 hr h1 hperm
        generalize P'.repos = l at hx
        induction l with
        | nil => obtain ⟨a, ha, _⟩ := hx; cases ha
        | cons b l ih =>
          by_cases hb : ∃ ty d, P.Supplies re b p ty d
          · exact ⟨b, [], l, rfl, hb, fun _ h => by cases h⟩
          · obtain ⟨a, pre, post, h1, h2, h3⟩ := ih (by
              obtain ⟨a, ha, h⟩ := hx
              rcases List.mem_cons.1 ha with rfl | ha
              · exact absurd h hb
              · exact ⟨a, ha, h⟩)
            refine ⟨a, b :: pre, post, by rw [h1]; rfl, h2, fun c hc => ?_⟩
            rcases List.mem_cons.1 hc with rfl | hc
            · exact hb
            · exact h3 c hc
      obtain ⟨a, hfa⟩ := this
      obtain ⟨pa, qa, e1, e2, e3⟩ := hfa
      have : a = repo := hone a (by rw [e1]; simp) repo hr e2 h2
      subst this
      exact ⟨pa, qa, e1, e2, e3⟩
    · exact absurd ⟨repo, hr, h2⟩ hx

theorem more_has (hm : SaysMore re P P' x x') (hP : (P.cfg.customizations.map Prod.fst).Nodup) {p : Str} (h : P.Has re p) : P'.Has re p := by
  obtain ⟨repo, ty, d, h⟩ := h
  exact ⟨repo, ty, d, C174_source hm hP h⟩

theorem more_asked (hm : SaysMore re P P' x x') {p : Str} (h : P.Asked x p) : P'.Asked x' p := by
  obtain ⟨h0, h | ⟨d, hd, h⟩ | ⟨d, hd, h⟩⟩ := h
  · exact ⟨h0, .inl (hm.packages p h)⟩
  · exact ⟨h0, .inr (.inl ⟨d, hm.tarballs d hd, h⟩)⟩
  · exact ⟨h0, .inr (.inr ⟨d, hm.descriptions d hd, h⟩)⟩

theorem asked_list (P : Project) (x : Extras) : ∃ l : List Str, ∀ a, a ∈ l ↔ P.Asked x a := by
  have hid : idOrder.Fair := fun _ _ => List.Perm.refl _
  exact ⟨requestedPackages P.cfg x.tarballs x.descriptions idOrder idOrder, fun a => C29_requested_partial P.cfg x.tarballs x.descriptions hid hid a⟩

/-- C174: what had to be installed still has to be. -/
theorem C174_wanted (hm : SaysMore re P P' x x') (hP : (P.cfg.customizations.map Prod.fst).Nodup) {p : Str} :
    (P.Fetched re x p → P'.Fetched re x' p) ∧ (P.Wanted re x p → P'.Wanted re x' p) := by
  have hf : P.Fetched re x p → P'.Fetched re x' p := by
    rintro ⟨asked, h1, h2⟩
    obtain ⟨asked', h3⟩ := asked_list P' x'
    refine ⟨asked', h3, ?_⟩
    induction h2 with
    | requested ha => exact .requested ((h3 _).2 (more_asked hm ((h1 _).1 ha)))
    | needed _ hg hd hb hs ih => exact .needed ih (C174_source hm hP hg) hd (more_has hm hP hb) (by rw [hm.noRecommended]; exact hs)
    | suggested _ hw hg hd hb ih =>
      refine .suggested ih ?_ (C174_source hm hP hg) hd (more_has hm hP hb)
      unfold Project.WantsSuggests at hw ⊢
      rw [more_setting hm hP, hm.suggests]
      exact hw.imp id fun h => ⟨h.1, h.2.1, hm.packages _ h.2.2⟩
  exact ⟨hf, Or.imp hf (hm.given p)⟩

/-! ### The plans -/

variable {later : RepoEnv} {c c' c₂ c₂' : DbCache} {fs fs₂ : Fs} {lib lib₂ : Path} {pre pre₂ : GoMap Desc} {ip ip₂ : InstallPlan}

theorem gets_place {p : Str} {repo repo' : Str × Str} {ty ty' : SourceType} {d d' : Desc} (h : P.Gets re p repo ty d) (h' : P.Gets re p repo' ty' d') :
    repo = repo' ∧ ty = ty' := by
  have hr : repo = repo' := by
    obtain ⟨⟨pre, post, e1, e2, e3⟩, _⟩ := h
    obtain ⟨⟨pre', post', k1, k2, k3⟩, _⟩ := h'
    rw [e1] at k1
    rcases List.append_eq_append_iff.1 k1 with ⟨a, h1, h2⟩ | ⟨a, h1, h2⟩
    · cases a with
      | nil => exact (List.cons.inj h2).1
      | cons b a =>
        obtain ⟨rfl, _⟩ := List.cons.inj h2
        exact absurd e2 (k3 _ (by rw [h1]; simp))
    · cases a with
      | nil => exact (List.cons.inj h2).1.symm
      | cons b a =>
        obtain ⟨rfl, _⟩ := List.cons.inj h2
        exact absurd k2 (e3 _ (by rw [h1]; simp))
  subst hr
  refine ⟨rfl, ?_⟩
  obtain ⟨_, _, _, rc, h1, h2, _⟩ := h
  obtain ⟨_, _, _, rc', k1, k2, _⟩ := h'
  cases readAs_unique h1 k1
  cases ht : (settingOf P.cfg p).type with
  | some t => exact saysType_unique (h2.1 t ht) (k2.1 t ht)
  | none => rw [h2.2 ht, k2.2 ht]

/-- Where the downloads of a plan come from. -/
theorem made_downloads (hW : WellPosed P re c) (hplan : PlanMade P re c c' parse x fs lib pre ip) :
    ∀ dl ∈ ip.downloads, dl.package.package ∈ queued ip ∧ ∃ repo, P.Gets re dl.package.package repo dl.config.type dl.package ∧ dl.config.repo.name = repo.1 ∧ dl.config.repo.url = repo.2 := by
  obtain ⟨ρ₁, ρ₂, ρ, ρ', ρ'', sched, nx, nx', names, req, f1, f2, f3, f4, f5, hsched, hopen, _, _, hp⟩ := hplan
  have hopen' : (re.openConfigured ρ₁ ρ₂ P.custom (P.repos.map fun r => [r]) c sched).2 = some nx := by rw [hopen]
  obtain ⟨_, _, h3⟩ := C89_packages_partial hW.small hW.plain f1 f2 hsched hW.digest hW.cache hW.noR hopen' f5 hp
  exact fun dl hdl => ⟨h3.mem_iff.1 (List.mem_map_of_mem hdl), C89_downloads_partial hW.small hW.plain f1 f2 hsched hW.digest hW.cache hW.noR hopen' f5 hp dl hdl⟩

/-- C174 (partial: well-posed projects and tarballs as in C136): the plan of the second project has all that the plan of the first one has, from the same
repositories, in the same types and versions, whatever is installed and however old the caches are. -/
theorem C174_planned_partial (hm : SaysMore re P P' x x') (hs : SameRepos re later) (hW : WellPosed P re c) (hW₂ : WellPosed P' later c₂)
    (hnamed : ∀ n d, described parse fs lib n = some d → d.package = n ∧ n ≠ []) (hT : TarballsOK P re x parse fs lib)
    (hnamed₂ : ∀ n d, described parse fs₂ lib₂ n = some d → d.package = n ∧ n ≠ []) (hT₂ : TarballsOK P' later x' parse fs₂ lib₂)
    (hplan : PlanMade P re c c' parse x fs lib pre ip) (hplan₂ : PlanMade P' later c₂ c₂' parse x' fs₂ lib₂ pre₂ ip₂) :
    (∀ p ∈ members ip, p ∈ members ip₂) ∧
    ∀ dl ∈ ip.downloads, ∃ dl' ∈ ip₂.downloads, dl'.package = dl.package ∧ dl'.config.type = dl.config.type ∧ dl'.config.repo.name = dl.config.repo.name ∧
      dl'.config.repo.url = dl.config.repo.url := by
  have hF := planFacts hW hnamed hT hplan
  have hF₂ := planFacts hW₂ hnamed₂ hT₂ hplan₂
  have hP := hW.plain.packages
  refine ⟨fun p hp => (hF₂.mem p).2 ((same_wanted hs p).2 ((C174_wanted hm hP).2 ((hF.mem p).1 hp))), fun dl hdl => ?_⟩
  obtain ⟨hq, repo, hg, e1, e2⟩ := made_downloads hW hplan dl hdl
  have hq₂ : dl.package.package ∈ queued ip₂ := (hF₂.queue _).2 ((same_fetched hs _).2 ((C174_wanted hm hP).1 ((hF.queue _).1 hq)))
  obtain ⟨dl', hdl', hn⟩ := hF₂.downloads.each _ hq₂
  obtain ⟨_, repo', hg', e1', e2'⟩ := made_downloads hW₂ hplan₂ dl' hdl'
  rw [hn] at hg'
  have hg₂ := (same_gets hs ..).2 (C174_source hm hP hg)
  obtain ⟨h1, h2⟩ := gets_place hg' hg₂
  exact ⟨dl', hdl', hF₂.uniq _ _ _ _ _ _ _ hg' hg₂, h2, by rw [e1', e1, h1], by rw [e2', e2, h1]⟩

/-- C174, order (partial, as above): when each of the two files says what the other one says, they lead to the same packages from the same places. -/
theorem C174_order_partial (hm : SaysMore re P P' x x') (hm' : SaysMore re P' P x' x) (hs : SameRepos re later) (hW : WellPosed P re c) (hW₂ : WellPosed P' later c₂)
    (hnamed : ∀ n d, described parse fs lib n = some d → d.package = n ∧ n ≠ []) (hT : TarballsOK P re x parse fs lib)
    (hnamed₂ : ∀ n d, described parse fs₂ lib₂ n = some d → d.package = n ∧ n ≠ []) (hT₂ : TarballsOK P' later x' parse fs₂ lib₂)
    (hplan : PlanMade P re c c' parse x fs lib pre ip) (hplan₂ : PlanMade P' later c₂ c₂' parse x' fs₂ lib₂ pre₂ ip₂) :
    (∀ p, p ∈ members ip ↔ p ∈ members ip₂) ∧
    ∀ n v ty rn ru, (∃ dl ∈ ip.downloads, dl.package.package = n ∧ dl.package.version = v ∧ dl.config.type = ty ∧ dl.config.repo.name = rn ∧ dl.config.repo.url = ru) ↔
      ∃ dl ∈ ip₂.downloads, dl.package.package = n ∧ dl.package.version = v ∧ dl.config.type = ty ∧ dl.config.repo.name = rn ∧ dl.config.repo.url = ru := by
  have hP := hW.plain.packages
  have hP₂ := hW₂.plain.packages
  have hF := planFacts hW hnamed hT hplan
  have hF₂ := planFacts hW₂ hnamed₂ hT₂ hplan₂
  obtain ⟨h1, h2⟩ := C174_planned_partial hm hs hW hW₂ hnamed hT hnamed₂ hT₂ hplan hplan₂
  refine ⟨fun p => ⟨h1 p, fun h => (hF.mem p).2 ((C174_wanted hm' hP₂).2 ((same_wanted hs p).1 ((hF₂.mem p).1 h)))⟩, fun n v ty rn ru => ⟨?_, ?_⟩⟩
  · rintro ⟨dl, h, e1, e2, e3, e4, e5⟩
    obtain ⟨dl', k, k1, k2, k3, k4⟩ := h2 dl h
    exact ⟨dl', k, by rw [k1, e1], by rw [k1, e2], k2.trans e3, k3.trans e4, k4.trans e5⟩
  · rintro ⟨dl', h, e1, e2, e3, e4, e5⟩
    obtain ⟨hq₂, _⟩ := made_downloads hW₂ hplan₂ dl' h
    have hq : dl'.package.package ∈ queued ip := (hF.queue _).2 ((C174_wanted hm' hP₂).1 ((same_fetched hs _).1 ((hF₂.queue _).1 hq₂)))
    obtain ⟨dl, hdl, hn⟩ := hF.downloads.each _ hq
    obtain ⟨dl₂, k, k1, k2, k3, k4⟩ := h2 dl hdl
    have : dl₂ = dl' := List.inj_on_of_nodup_map hF₂.downloads.once k h (by rw [k1]; exact hn)
    subst this
    exact ⟨dl, hdl, by rw [← k1, e1], by rw [← k1, e2], k2.symm.trans e3, k3.symm.trans e4, k4.symm.trans e5⟩

/-! ### The library -/

variable {e : RunEnv} {de : DlEnv} {q : QEnv} {cfg : RunCfg} {Scratch : Path → Prop} {Holds : Str → Str → Prop}
  {Unpacked : Str → (Path → Option Node) → Prop} {Made : Str → (Path → Option Node) → Prop}

/-- C174 (partial, as C136): after a successful run with the second pkgr.yml, the library is also as the first one says: what it wants is there, from the same
publication, as far as the repositories could supply it. -/
theorem C174_installed_partial {Complete : Str → (Path → Option Node) → Prop} (hm : SaysMore re P P' x x') (hP : (P.cfg.customizations.map Prod.fst).Nodup)
    (hW : WellPosed P' re c) (hL : LibraryOK P' re x' parse fs cfg.lib) (hplan : PlanMade P' re c c' parse x' fs cfg.lib pre ip)
    (hq : QueueRuns e q cfg.lib ip Scratch Complete Holds) (hD : DownloadsAre e de ip q.download cfg.lib fs)
    (hPl : Places de q Scratch) (hS : Stocked de q ip Holds fs) (ha : Outside e cfg.lib) (hd : NoFaults e.disk)
    (hR : Installs e.ie.R Complete Unpacked)
    (htar : ∀ t, x'.Given t → ∀ st ∈ (e.rInstall cfg ip pre fs).1.states, TarballThere e ip Unpacked st t)
    (hC : TellsEnough Complete parse Made P' re x' fs cfg.lib)
    (hup : cfg.noUpdate = false) (hok : (e.rInstall cfg ip pre fs).2 = .exit0 false) :
    (∀ p, P.Fetched re x p → P.Has re p → AsListed parse P re p (contentOf (e.rInstall cfg ip pre fs).1.fs cfg.lib p)) ∧
    (∀ p, x.Given p → Made p (contentOf (e.rInstall cfg ip pre fs).1.fs cfg.lib p)) := by
  have hF := planFacts hW hL.named hL.tarballs hplan
  obtain ⟨h1, h2, _⟩ := C136_install_partial hW hL hplan hq hD hPl hS ha hd hR htar hC hup hok
  refine ⟨fun p hp hh => ?_, fun p hp => h2 p (hm.given p hp)⟩
  obtain ⟨repo, ty, o, hg⟩ := hh
  obtain ⟨g0, y, d, repo', ty', o', g1, g2, g3, g4, g5⟩ := h1 p ((C174_wanted hm hP).1 hp)
  have := hF.uniq _ _ _ _ _ _ _ g4 (C174_source hm hP hg)
  exact ⟨g0, y, d, repo, ty, o, g1, g2, g3, hg, by rw [← this]; exact g5⟩

/-! ### Examples -/

/-- Nothing is listed; but the tarball needs `c`. -/
def editP : Project := { ymlProject with cfg := {} }
/-- The project of C136 without its DESCRIPTION. -/
def editX : Extras := { ymlX with descriptions := [] }

theorem edit_more : SaysMore ymlEnv editP ymlProject editX ymlX :=
  ⟨fun p h => (by cases h), fun d h => h, fun d h => (by cases h), fun p h => h, List.Perm.refl _, fun p => Iff.rfl, rfl, rfl, rfl, .inl (List.prefix_refl _)⟩

theorem edit_fetched : editP.Fetched ymlEnv editX (s%"c") := by
  obtain ⟨l, hl⟩ := asked_list editP editX
  exact ⟨l, hl, .requested ((hl _).2 ⟨by decide, .inr (.inl ⟨_, List.mem_singleton.2 rfl, .inl (by decide)⟩)⟩)⟩

theorem edit_has : editP.Has ymlEnv (s%"c") := by
  obtain ⟨repo, ty, d, ⟨hf, h1, h2, rc, h3, h4, h5⟩, _⟩ := ymlPublished
  exact ⟨repo, ty, d, ⟨hf, h1, h2, rc, h3, h4, h5⟩⟩

/-- Non-vacuity of C174_installed_partial: the run of C136, seen from the file that does not list `c`. -/
example : AsListed installedDesc editP ymlEnv (s%"c") (contentOf (ymlRun.rInstall { lib := [s%"lib"] } ymlPlan ymlPre ymlFs).1.fs [s%"lib"] (s%"c")) ∧
    ymlTar (s%"t") (contentOf (ymlRun.rInstall { lib := [s%"lib"] } ymlPlan ymlPre ymlFs).1.fs [s%"lib"] (s%"t")) := by
  obtain ⟨c', h⟩ := ymlMade
  have k := C174_installed_partial (cfg := { lib := [s%"lib"] }) edit_more (by decide) ymlPosed ymlLibrary h yml_queue yml_downloads yml_places yml_stock yml_outside
    ⟨fun _ _ _ => rfl, fun _ _ => rfl⟩ yml_R yml_tar yml_enough rfl yml_ok
  exact ⟨k.1 _ edit_fetched edit_has, k.2 _ ((ymlGiven _).2 rfl)⟩

/-- The plan of the configuration `k`, with the repositories and the library of C136. -/
def editPlan (k : PlanCfg) (x : Extras) : InstallPlan :=
  match planInstall k ymlNexus ymlPre true x.tarballs x.descriptions x.table idOrder idOrder idOrder with
  | .planned _ _ ip => ip
  | _ => {}

theorem editMade {k : PlanCfg} {x : Extras}
    (h : (match planInstall k ymlNexus ymlPre true x.tarballs x.descriptions x.table idOrder idOrder idOrder with | .planned _ _ _ => true | _ => false) = true) :
    ∃ c', PlanMade { ymlProject with cfg := k } ymlEnv (fun _ => none) c' installedDesc x ymlFs [s%"lib"] ymlPre (editPlan k x) := by
  obtain ⟨c', hc⟩ := ymlOpens
  have hp : ∃ req nx', planInstall k ymlNexus ymlPre true x.tarballs x.descriptions x.table idOrder idOrder idOrder = .planned req nx' (editPlan k x) := by
    unfold editPlan
    revert h
    cases planInstall k ymlNexus ymlPre true x.tarballs x.descriptions x.table idOrder idOrder idOrder with
    | planned req nx' ip => exact fun _ => ⟨req, nx', rfl⟩
    | _ => intro h; cases h
  obtain ⟨req, nx', hp⟩ := hp
  have hid : idOrder.Fair := fun _ _ => List.Perm.refl _
  refine ⟨c', idOrder, idOrder, idOrder, idOrder, idOrder, [(0, true)], ymlNexus, nx', [s%"c"], req, hid, hid, hid, hid, hid, (by decide : (([(0, true)] : List (Nat × Bool)).map Prod.fst).Perm (List.range ymlProject.repos.length)), hc, ?_, rfl, hp⟩
  intro n
  by_cases hn : n = s%"c"
  · subst hn; simp [ymlFs]
  · simp [ymlFs, hn]

theorem edit_posed {k : PlanCfg} {x : Extras} (h : SaysMore ymlEnv { ymlProject with cfg := k } ymlProject x ymlX) (hk : k.customizations = []) :
    WellPosed { ymlProject with cfg := k } ymlEnv (fun _ => none) :=
  have hn : (k.customizations.map Prod.fst).Nodup := by rw [hk]; decide
  ⟨by decide, ⟨ymlPosed.plain.once, hn, by show ∀ e ∈ k.customizations, _; rw [hk]; decide⟩, ymlPosed.repos, ymlPosed.digest, cacheTrue_old (by simp), ymlPosed.noR,
    fun p repo ty d g => ymlPosed.names p repo ty d (C174_source h hn g),
    fun p repo ty d g => ymlPosed.files p repo ty d (C174_source h hn g)⟩

theorem edit_tarballs {k : PlanCfg} {x : Extras} (h : SaysMore ymlEnv { ymlProject with cfg := k } ymlProject x ymlX) (hk : k.customizations = [])
    (hx : (GoMap.keys x.table).Nodup) (fs : Fs) : TarballsOK { ymlProject with cfg := k } ymlEnv x installedDesc fs [s%"lib"] :=
  have hn : (k.customizations.map Prod.fst).Nodup := by rw [hk]; decide
  ⟨hx, fun t g => (ymlTarballs fs).names t (h.given t g), fun t g hf => (ymlTarballs fs).apart t (h.given t g) ((C174_wanted h hn).1 hf),
    fun t d repo ty o g h1 h2 => (ymlTarballs fs).current t d repo ty o (h.given t g) h1 (C174_source h hn h2)⟩

/-- Non-vacuity of C174_planned_partial: two plans, two minutes apart, for different libraries. -/
example : (∀ p ∈ members (editPlan {} editX), p ∈ members mendPlan2) ∧ members (editPlan {} editX) = [s%"c", s%"t"] := by
  obtain ⟨c', h⟩ := editMade (k := {}) (x := editX) (by decide +kernel)
  obtain ⟨c'', h2⟩ := mendMade2
  have hs : SameRepos ymlEnv ymlLater := ⟨rfl, rfl, rfl, rfl, rfl, rfl⟩
  exact ⟨(C174_planned_partial edit_more hs (edit_posed edit_more rfl) (wellPosed_later hs ymlPosed mendMade) ymlDescribed (edit_tarballs edit_more rfl (by decide) _)
    mendDescribed (library_later hs mendLibrary).tarballs h h2).1, by decide +kernel⟩

/-- `c` is listed twice. -/
def editTwice : PlanCfg := { packages := [s%"c", s%"c"] }

theorem twice_more : SaysMore ymlEnv { ymlProject with cfg := editTwice } ymlProject ymlX ymlX :=
  ⟨fun p h => by simpa [editTwice, ymlProject] using h, fun d h => h, fun d h => h, fun p h => h, List.Perm.refl _, fun p => Iff.rfl, rfl, rfl, rfl, .inl (List.prefix_refl _)⟩
theorem twice_less : SaysMore ymlEnv ymlProject { ymlProject with cfg := editTwice } ymlX ymlX :=
  ⟨fun p h => by simpa [editTwice, ymlProject] using h, fun d h => h, fun d h => h, fun p h => h, List.Perm.refl _, fun p => Iff.rfl, rfl, rfl, rfl, .inl (List.prefix_refl _)⟩

/-- Non-vacuity of C174_order_partial. -/
example : (∀ p, p ∈ members (editPlan editTwice ymlX) ↔ p ∈ members mendPlan2) ∧ members (editPlan editTwice ymlX) = [s%"c", s%"t"] := by
  obtain ⟨c', h⟩ := editMade (k := editTwice) (x := ymlX) (by decide +kernel)
  obtain ⟨c'', h2⟩ := mendMade2
  have hs : SameRepos ymlEnv ymlLater := ⟨rfl, rfl, rfl, rfl, rfl, rfl⟩
  exact ⟨(C174_order_partial twice_more twice_less hs (edit_posed twice_more rfl) (wellPosed_later hs ymlPosed mendMade) ymlDescribed
    (edit_tarballs twice_more rfl (by decide) _) mendDescribed (library_later hs mendLibrary).tarballs h h2).1, by decide +kernel⟩

/-- Two repositories, in one order or the other; the second one does not answer. -/
def editTwo (l : List (Str × Str)) : Project := { ymlProject with repos := l }

theorem edit_silent {rc : RepoConfig} {st : SourceType} {p : Str} {d : Desc} : ¬ Publishes ymlEnv { name := s%"q", url := s%"http://q" } rc st p d := by
  rintro ⟨_, body, hb, _⟩
  unfold ymlEnv at hb
  dsimp only at hb
  split at hb
  · rename_i h
    have ht : (indexAt ymlEnv (s%"http://q") rc.repoSuffix st).take 8 = s%"http://q" := by
      unfold indexAt
      split <;> rfl
    rcases h with h | h
    · exact absurd (ht.symm.trans (congrArg (List.take 8) h)) (by decide)
    · exact absurd (ht.symm.trans (congrArg (List.take 8) h)) (by decide)
  · cases hb

/-- Non-vacuity of C174_source with repositories in another order: `c` can be had, and its repository is no longer the first. -/
example : SaysMore ymlEnv (editTwo [(s%"r", s%"http://r"), (s%"q", s%"http://q")]) (editTwo [(s%"q", s%"http://q"), (s%"r", s%"http://r")]) ymlX ymlX ∧
    (editTwo [(s%"r", s%"http://r"), (s%"q", s%"http://q")]).Has ymlEnv (s%"c") ∧ (editTwo [(s%"q", s%"http://q"), (s%"r", s%"http://r")]).Has ymlEnv (s%"c") := by
  have hm : SaysMore ymlEnv (editTwo [(s%"r", s%"http://r"), (s%"q", s%"http://q")]) (editTwo [(s%"q", s%"http://q"), (s%"r", s%"http://r")]) ymlX ymlX := by
    refine ⟨fun _ h => h, fun _ h => h, fun _ h => h, fun _ h => h, List.Perm.refl _, fun _ => Iff.rfl, rfl, rfl, rfl, .inr ⟨List.Perm.swap _ _ _, ?_⟩⟩
    intro r hr r' hr' rc rc' p st st' d d' h h'
    rcases List.mem_cons.1 hr with rfl | hr
    · rcases List.mem_cons.1 hr' with rfl | hr'
      · rfl
      · obtain rfl := List.mem_singleton.1 hr'
        exact absurd h' edit_silent
    · obtain rfl := List.mem_singleton.1 hr
      exact absurd h edit_silent
  have hh : (editTwo [(s%"r", s%"http://r"), (s%"q", s%"http://q")]).Has ymlEnv (s%"c") := by
    obtain ⟨repo, ty, d, hg, _⟩ := ymlPublished
    exact ⟨repo, ty, d, C174_source (P := ymlProject) (P' := editTwo [(s%"r", s%"http://r"), (s%"q", s%"http://q")]) (x := ymlX) (x' := ymlX)
      ⟨fun _ h => h, fun _ h => h, fun _ h => h, fun _ h => h, List.Perm.refl _, fun _ => Iff.rfl, rfl, rfl, rfl, .inl ⟨[(s%"q", s%"http://q")], rfl⟩⟩ (by decide) hg⟩
  exact ⟨hm, hh, more_has hm (by decide) hh⟩

end Pkgr
