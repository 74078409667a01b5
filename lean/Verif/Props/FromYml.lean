/- C136, C137: `pkgr install` from the project's configuration and the repositories' index files to the library. -/
import Verif.Spec.FromYml
import Verif.Props.RealRun
import Verif.Props.EndToEnd
import Verif.Props.Twice
import Verif.Props.Written

namespace Pkgr
open Spec

variable {P : Project} {re : RepoEnv} {c c' : DbCache} {parse : Str → Option Desc} {x : Extras} {fs : Fs} {lib : Path}
  {pre : GoMap Desc} {ip : InstallPlan}

theorem toInstall_mono {req req' : List Str} (h : ∀ x, x ∈ req → x ∈ req') {p : Str} (hp : P.ToInstall re req p) :
    P.ToInstall re req' p := by
  induction hp with
  | requested ha => exact .requested (h _ ha)
  | needed _ hg hd hb hs ih => exact .needed ih hg hd hb hs
  | suggested _ hw hg hd hb ih => exact .suggested ih hw hg hd hb

/-- What a plan that is made comes of. -/
theorem planInstall_inv {cfg : PlanCfg} {nx nx' : Nexus} {installed : GoMap Desc} {libEx : Bool}
    {tb ds : List Desc} {add : GoMap AdditionalPkg} {ρ ρ' ρ'' : Order} {req : List Str} {ip : InstallPlan} (hk : Keyed nx) (hR : NoR nx) (hρ : ρ''.Fair)
    (h : planInstall cfg nx installed libEx tb ds add ρ ρ' ρ'' = .planned req nx' ip) :
    ∃ cfgs, Uniform cfgs cfg.noRecommended ∧ Keyed nx' ∧ NoR nx' ∧ req ≠ [] ∧ (∀ p ∈ req, Available nx' p) ∧
      resolveInstallationReqs req installed cfgs nx' (!cfg.noUpdate) libEx cfg.noRecommended ρ'' = .ok { ip with additional := [] } ∧ ip.additional = add := by
  obtain ⟨_, hadd, _, cfgs, hok⟩ := planInstall_planned hk hR hρ h
  obtain ⟨hu, hdb, _⟩ := setPlan_uniform hok.custom
  refine ⟨cfgs, hu, ?_, ?_, hok.nonempty, hok.avail, ?_, hadd⟩
  · intro db hd; rw [hdb] at hd; exact keyed_ignore hk _ db hd
  · intro db hd; rw [hdb] at hd; exact noR_ignore hR _ db hd
  · have hk' : Keyed nx' := by intro db hd; rw [hdb] at hd; exact keyed_ignore hk _ db hd
    have hR' : NoR nx' := by intro db hd; rw [hdb] at hd; exact noR_ignore hR _ db hd
    have hcu := hok.custom
    have hne := hok.nonempty
    have hav := hok.avail
    unfold planInstall at h
    dsimp only at h
    rw [hcu] at h
    dsimp only at h
    split at h
    · cases h
    · split at h
      · cases h
      · next ip1 hres =>
        simp only [PlanOutcome.planned.injEq] at h
        obtain ⟨rfl, _, rfl⟩ := h
        rcases resolve_cases hk' hρ hu (noR_not_available hR') hne hav installed (!cfg.noUpdate) libEx with
          ⟨h2, _⟩ | ⟨_, t, ⟨_, h2⟩ | ⟨outd, ip', _, h2, _, _, _, _, _, ha⟩⟩
        · rw [h2] at hres; cases hres
        · rw [h2] at hres; cases hres
        · rw [h2] at hres
          cases hres
          rw [h2]
          show Except.ok _ = Except.ok ({ ip1 with additional := [] } : InstallPlan)
          rw [← ha]

/-- What a plan made from a well-posed project is like. -/
structure PlanFacts (P : Project) (re : RepoEnv) (parse : Str → Option Desc) (x : Extras) (fs : Fs) (lib : Path) (pre : GoMap Desc)
    (ip : InstallPlan) : Prop where
  mem : ∀ p, p ∈ members ip ↔ P.Wanted re x p
  queue : ∀ p, p ∈ queued ip ↔ P.Fetched re x p
  tar : tarballs ip = GoMap.keys x.table
  gets : ∀ p ∈ queued ip, ∃ repo ty d, P.Gets re p repo ty d
  good : GoodNames ip
  downloads : GoodDownloads ip
  ok : PlanOK ip pre
  outdated : ∀ o, o ∈ ip.outdated ↔ ∃ d dl, GoMap.get? pre o.package = some d ∧ (∃ repo ty, P.Gets re o.package repo ty dl) ∧
    o.oldVersion = d.version ∧ o.newVersion = dl.version ∧ compareVersionStrings d.version dl.version = some (-1)
  uniq : ∀ p repo ty d repo' ty' d', P.Gets re p repo ty d → P.Gets re p repo' ty' d' → d = d'
  create : ip.createLibrary = !fs.isDir lib
  found : ∀ p, GoMap.get? pre p = if fs.isDir (lib ++ [p]) then described parse fs lib p else none

theorem planFacts (hW : WellPosed P re c) (hsane : ∀ n d, described parse fs lib n = some d → d.package = n ∧ n ≠ [])
    (hT : TarballsOK P re x parse fs lib) (h : PlanMade P re c c' parse x fs lib pre ip) : PlanFacts P re parse x fs lib pre ip := by
  obtain ⟨ρ₁, ρ₂, ρ, ρ', ρ'', sched, nx, nx', names, req, f1, f2, f3, f4, f5, hsched, hopen, hnames, hpre, hplan⟩ := h
  have hopen' : (re.openConfigured ρ₁ ρ₂ P.custom (P.repos.map fun r => [r]) c sched).2 = some nx := by rw [hopen]
  have hm := project_matches hW.small hW.plain f1 f2 hsched hW.digest hW.cache hopen'
  have hk := matches_keyed hm
  have hR := matches_noR hm hW.noR
  obtain ⟨cfgs, hu, hk', hR', hne, hav, hres, hadd⟩ := planInstall_inv hk hR f5 hplan
  obtain ⟨hreq, _, hcr, _, _⟩ := planInstall_planned hk hR f5 hplan
  obtain ⟨hp1, hp2, hp3⟩ := C89_packages_partial hW.small hW.plain f1 f2 hsched hW.digest hW.cache hW.noR hopen' f5 hplan
  have hdls := C89_downloads_partial hW.small hW.plain f1 f2 hsched hW.digest hW.cache hW.noR hopen' f5 hplan
  have htar : tarballs ip = GoMap.keys x.table := by unfold tarballs; rw [hadd]
  have hmem : ∀ p, p ∈ queued ip ↔ p ∈ ip.packages := fun p => Iff.rfl
  have hasked : ∀ a, a ∈ req ↔ P.Asked x a := by
    intro a
    rw [hreq, C29_requested_partial P.cfg x.tarballs x.descriptions f3 f4 a]
    rfl
  have hqueue : ∀ p, p ∈ queued ip ↔ P.Fetched re x p := by
    intro p
    rw [hmem, hp1]
    constructor
    · exact fun h => ⟨req, hasked, h⟩
    · rintro ⟨asked, ha, h⟩
      exact toInstall_mono (fun y hy => (hasked y).2 ((ha y).1 hy)) h
  have hwant : ∀ p, p ∈ members ip ↔ P.Wanted re x p := by
    intro p
    unfold members Project.Wanted Extras.Given
    rw [List.mem_append, hqueue, htar]
  have hgets : ∀ p ∈ queued ip, ∃ repo ty d, P.Gets re p repo ty d := by
    intro p hp
    obtain ⟨dl, hdl, rfl⟩ := List.mem_map.1 (hp3.mem_iff.2 ((hmem p).1 hp))
    obtain ⟨repo, hg, _⟩ := hdls dl hdl
    exact ⟨repo, _, _, hg⟩
  have hget : ∀ p, GoMap.get? pre p = if fs.isDir (lib ++ [p]) then described parse fs lib p else none := by
    intro p
    subst hpre
    have := scan_get hsane names [] p
    rw [show getPriorInstalled parse fs lib names = names.foldl (scanInstalled parse fs lib) [] from rfl, this]
    by_cases hd : fs.isDir (lib ++ [p]) = true
    · have hn : p ∈ names := (hnames p).2 (by intro h; rw [Fs.isDir, h] at hd; simp at hd)
      rw [if_pos hd]
      cases hdd : described parse fs lib p with
      | none => simp [GoMap.get?]
      | some d => simp [hn, hd]
    · rw [if_neg hd, if_neg (fun h => hd h.2.1)]
      rfl
  have hwf : (GoMap.keys pre).Nodup := by subst hpre; exact scan_nodup _ _ (by simp [GoMap.keys])
  have hnone : GoMap.get? pre [] = none := by
    rw [hget]
    split
    · cases hd : described parse fs lib [] with
      | none => rfl
      | some d => exact absurd rfl (hsane [] d hd).2
    · rfl
  obtain ⟨hout, hnd⟩ := C31_outdated_exact hk' hR' f5 hu hne hav hwf hnone hres
  have hch := fun q dl => C88_choice_partial hm.fresh hW.plain.packages hW.plain.pins hplan q dl
  have hout' : ∀ o, o ∈ ip.outdated ↔ ∃ d dl, GoMap.get? pre o.package = some d ∧ (∃ repo ty, P.Gets re o.package repo ty dl) ∧
      o.oldVersion = d.version ∧ o.newVersion = dl.version ∧ compareVersionStrings d.version dl.version = some (-1) := by
    intro o
    refine (hout o).trans ?_
    constructor
    · rintro ⟨d, dl, h1, h2, h3, h4, h5⟩
      obtain ⟨repo, hg, _⟩ := (matches_chosen hm _).1 dl ((hch _ dl).1 h2)
      exact ⟨d, dl.package, h1, ⟨repo, _, hg⟩, h3, h4, h5⟩
    · rintro ⟨d, od, h1, ⟨repo, ty, hg⟩, h3, h4, h5⟩
      exact ⟨d, _, h1, (hch _ _).2 ((matches_chosen hm _).2 repo ty od hg), h3, h4, h5⟩
  refine ⟨hwant, hqueue, htar, hgets, ?_, ?_, ⟨?_, hnd, by rw [htar]; exact hT.once, ?_⟩, hout', ?_, hcr, hget⟩
  · intro p hp
    rcases List.mem_append.1 hp with hp | hp
    rotate_left
    · exact hT.names p (by rw [htar] at hp; exact hp)
    obtain ⟨repo, ty, d, hg⟩ := hgets p hp
    obtain ⟨h1, h2, h3, _⟩ := hW.names p repo ty d hg
    exact ⟨h1, h2, h3⟩
  · refine C118_plan hk hR f5 hplan ?_ ?_
    · intro dl hdl
      obtain ⟨repo, hg, hn, _⟩ := hdls dl hdl
      obtain ⟨h1, _, _, h4⟩ := hW.names _ _ _ _ hg
      obtain ⟨g1, g2, g3⟩ := hW.files _ _ _ _ hg
      exact ⟨⟨by rw [hn]; exact g1, h1.2.2.2, g2, h4⟩, g3⟩
    · intro dl hdl dl' hdl' he
      obtain ⟨repo, hg, hn, hu⟩ := hdls dl hdl
      obtain ⟨repo', hg', hn', hu'⟩ := hdls dl' hdl'
      have hin : ∀ {p repo ty d}, P.Gets re p repo ty d → repo ∈ P.repos := by
        rintro p repo ty d ⟨⟨a, b, hl, _⟩, _⟩
        rw [hl]; simp
      have h1 := GoMap.get?_of_mem (m := P.repos) hW.repos (show (repo.1, repo.2) ∈ P.repos from hin hg)
      have h2 := GoMap.get?_of_mem (m := P.repos) hW.repos (show (repo'.1, repo'.2) ∈ P.repos from hin hg')
      rw [hn, hn'] at he
      rw [he, h2] at h1
      rw [hu, hu']
      exact (Option.some.inj h1).symm
  · intro o ho
    obtain ⟨d, _, h1, _⟩ := (hout o).1 ho
    unfold GoMap.has
    rw [h1]
    rfl
  · intro o ho hh
    obtain ⟨d, dl, h1, ⟨repo, ty, h2⟩, _, _, h5⟩ := (hout' o).1 ho
    rw [htar] at hh
    rw [hget] at h1
    split at h1
    · exact hT.current o.package d repo ty dl hh h1 h2 h5
    · cases h1
  · intro p repo ty d repo' ty' d' h h'
    have h1 := (hch _ _).2 ((matches_chosen hm _).2 repo ty d h)
    have h2 := (hch _ _).2 ((matches_chosen hm _).2 repo' ty' d' h')
    have h3 := (resolves_iff.1 h1).symm.trans (resolves_iff.1 h2)
    exact congrArg PkgDl.package (Option.some.inj h3)

theorem has_iff_get {m : GoMap Desc} {p : Str} : GoMap.has m p = true ↔ ∃ d, GoMap.get? m p = some d := by
  unfold GoMap.has
  exact Option.isSome_iff_exists

theorem PlanFacts.inOrder (hF : PlanFacts P re parse x fs lib pre ip) (hL : LibraryOK P re x parse fs lib) : InOrder lib ip pre fs where
  found := by
    intro p _ hh
    obtain ⟨d, hd⟩ := has_iff_get.1 hh
    rw [hF.found] at hd
    split at hd
    · rename_i h; simpa [Fs.isDir] using h
    · cases hd
  notFound := by
    intro p hp hh
    rcases hL.wanted p ((hF.mem p).1 hp) with ⟨h1, d, h2⟩ | h
    · have : GoMap.get? pre p = some d := by rw [hF.found, if_pos (by simp [Fs.isDir, h1]), h2]
      rw [has_iff_get.2 ⟨d, this⟩] at hh
      cases hh
    · exact h
  noBackup := fun p hp => hL.noBackup p ((hF.mem p).1 hp)

theorem PlanFacts.whole (hF : PlanFacts P re parse x fs lib pre ip) (hL : LibraryOK P re x parse fs lib) {cfg : RunCfg} (hup : cfg.noUpdate = false)
    {Made : Str → (Path → Option Node) → Prop} {p : Str} (hp : p ∈ queued ip) (hh : GoMap.has pre p = true) (hr : ¬ Replaced cfg ip p) : AsWanted parse Made P re x p (contentOf fs lib p) := by
  refine ⟨fun h => absurd (Or.inr (by rw [hF.tar]; exact h)) hr, fun _ => ?_⟩
  obtain ⟨d, hd⟩ := has_iff_get.1 hh
  obtain ⟨repo, ty, o, hg⟩ := hF.gets p hp
  have hd' := hd
  rw [hF.found] at hd'
  split at hd'
  · rename_i hdir
    obtain ⟨x, h1, h2⟩ := described_some hd'
    refine ⟨by simpa [Fs.isDir, contentOf] using hdir, x, d, repo, ty, o, h1, h2, (hL.named p d hd').1, hg, fun hv => hr (Or.inl ⟨hup, ?_⟩)⟩
    exact ⟨⟨p, d.version, o.version⟩, (hF.outdated _).2 ⟨d, o, hd, ⟨repo, ty, hg⟩, rfl, rfl, hv⟩, rfl⟩
  · cases hd'

variable {Made Unpacked : Str → (Path → Option Node) → Prop} {e : RunEnv} {de : DlEnv} {q : QEnv} {cfg : RunCfg} {Scratch : Path → Prop} {Holds : Str → Str → Prop}

/-- C136 (partial: an unambiguous configuration, the assumptions of `WellPosed` and `TarballsOK`). `pkgr install`, from the
configuration and the index files to the library: the repositories answer in any order, the plan is made from what they
publish, the downloads and the installations interleave in any way. If the library was in order, the package cache
holds what it should and the repositories deliver the rest, R's exit status can be trusted and there is no I/O error, then a run
that reports no failure leaves every wanted package in the library, in a version that is not older than the published one;
what was there and was not older is untouched; and nothing else in the library has changed, except R's locks. -/
theorem C136_install_partial {Complete : Str → (Path → Option Node) → Prop} (hW : WellPosed P re c) (hL : LibraryOK P re x parse fs cfg.lib)
    (hplan : PlanMade P re c c' parse x fs cfg.lib pre ip)
    (hq : QueueRuns e q cfg.lib ip Scratch Complete Holds) (hD : DownloadsAre e de ip q.download cfg.lib fs)
    (hP : Places de q Scratch) (hS : Stocked de q ip Holds fs) (ha : Outside e cfg.lib) (hd : NoFaults e.disk)
    (hR : Installs e.ie.R Complete Unpacked)
    (htar : ∀ t, x.Given t → ∀ st ∈ (e.rInstall cfg ip pre fs).1.states, TarballThere e ip Unpacked st t)
    (hC : TellsEnough Complete parse Made P re x fs cfg.lib)
    (hup : cfg.noUpdate = false) (hok : (e.rInstall cfg ip pre fs).2 = .exit0 false) :
    (∀ p, P.Fetched re x p → AsListed parse P re p (contentOf (e.rInstall cfg ip pre fs).1.fs cfg.lib p)) ∧
    (∀ p, x.Given p → Made p (contentOf (e.rInstall cfg ip pre fs).1.fs cfg.lib p)) ∧
    (∀ p d, P.Fetched re x p → fs (cfg.lib ++ [p]) = some .dir → described parse fs cfg.lib p = some d →
      (∀ repo ty o, P.Gets re p repo ty o → compareVersionStrings d.version o.version ≠ some (-1)) →
      Intact cfg.lib fs (e.rInstall cfg ip pre fs).1.fs p) ∧
    (∀ n r, ¬ P.Wanted re x n → ¬ IsLock n → (e.rInstall cfg ip pre fs).1.fs (cfg.lib ++ n :: r) = fs (cfg.lib ++ n :: r) ∨
      ∃ p, P.Wanted re x p ∧ n = backupName p ∧ (e.rInstall cfg ip pre fs).1.fs (cfg.lib ++ n :: r) = none) := by
  have hF := planFacts hW hL.named hL.tarballs hplan
  obtain ⟨h1, h2, h3, h4⟩ := C118_install hq hD hP hF.downloads hS ha hd hF.good hF.ok (hF.inOrder hL)
    (fun p hp hh hr => by
      have hng : ¬ x.Given p := fun h => hr (Or.inr (by rw [hF.tar]; exact h))
      exact hC.there p (((hF.mem p).1 (List.mem_append_left _ hp)).resolve_right hng) hng ((hF.whole (Made := Made) hL hup hp hh hr).2 hng)) hR
    (fun t ht => htar t (by rw [hF.tar] at ht; exact ht)) hok
  refine ⟨fun p hp => (hC.says p _ (h1 p ((hF.mem p).2 (.inl hp)))).2 (fun h => hL.tarballs.apart p h hp),
    fun p hp => (hC.says p _ (h1 p ((hF.mem p).2 (.inr hp)))).1 hp, ?_, ?_⟩
  · intro p d hp hdir hdesc hv
    have hg : GoMap.get? pre p = some d := by rw [hF.found, if_pos (by simp [Fs.isDir, hdir]), hdesc]
    refine h2 p ((hF.mem p).2 (.inl hp)) (has_iff_get.2 ⟨d, hg⟩) ?_
    rintro (⟨_, o, ho, rfl⟩ | h)
    · obtain ⟨d', dl, g1, ⟨repo, ty, g2⟩, _, _, g5⟩ := (hF.outdated o).1 ho
      rw [hg] at g1
      cases g1
      exact hv repo ty dl g2 g5
    · rw [hF.tar] at h
      exact hL.tarballs.apart p h hp
  · intro n r hn hl
    rcases h4 n r (fun h => hn ((hF.mem n).1 h)) hl with h | ⟨p, hp, rfl⟩
    · exact .inl h
    · exact .inr ⟨p, (hF.mem p).1 hp, rfl, h3 p hp r⟩

/-- The same run with a queue that is not started if the downloads fail. -/
def RunEnv.unqueued (e : RunEnv) : RunEnv := { e with planned := fun fs => { fs := fs, out := .dead } }

theorem unqueued_behaves {lib : Path} (hD : ∀ fs, ∀ st ∈ (e.download fs).mid ++ [(e.download fs).fs], SameIn lib fs st) (ha : Outside e lib) :
    Behaves e.unqueued lib ip where
  download := hD
  queue := by
    intro fs st hst
    have : st = fs := by simpa [RunEnv.unqueued] using hst
    subst this
    exact ⟨[], .start⟩
  R := ha.R
  during := ha.during
  removal := ha.removal
  order := ha.order

/-- A run with the real downloads and the real queue is one to which the theorems about libraries apply. -/
theorem real_behaves {Complete : Str → (Path → Option Node) → Prop} (hq : QueueRuns e q cfg.lib ip Scratch Complete Holds)
    (hD : DownloadsAre e de ip q.download cfg.lib fs) (hP : Places de q Scratch) (hG : GoodDownloads ip) (hS : Stocked de q ip Holds fs)
    (ha : Outside e cfg.lib) (hn : GoodNames ip) :
    ∃ e' : RunEnv, Behaves e' cfg.lib ip ∧ e'.disk = e.disk ∧ e'.rInstall cfg ip pre fs = e.rInstall cfg ip pre fs ∧
      ((e.ensureLibrary cfg ip fs).2 = true → e'.body cfg ip pre (e.ensureLibrary cfg ip fs).1 = e.body cfg ip pre (e.ensureLibrary cfg ip fs).1) := by
  have hlib := hq.library
  have hdl : ∀ fs, ∀ st ∈ (e.download fs).mid ++ [(e.download fs).fs], SameIn cfg.lib fs st :=
    fun fs1 st hst => by rw [← hlib]; exact C118_downloads_spare_library hP hG (hD.moments fs1 st hst)
  by_cases hl : (e.ensureLibrary cfg ip fs).2 = true
  · by_cases hout : (e.download (afterTag e cfg ip pre (e.ensureLibrary cfg ip fs).1).fs).out = .ok
    · have hD' := hD
      rw [← hlib] at hD'
      have helse := afterTag_elsewhere (e := e) (cfg := cfg) (ip := ip) (pre := pre) (fs := fs) hn ha.order hl
      rw [← hlib] at helse
      obtain ⟨s, hr, hret, _, ht⟩ := hD'.ended _ helse hout
      have hK := (delivered hP hG (hS.of_same hP hG helse) hr hret ht).1
      have hqi : QueueIs e q cfg.lib ip Scratch Complete Holds :=
        ⟨hq.job, hq.library, hq.wf, C118_layout hP hG hK hq.plan, hq.contract, hq.moments, hq.ended⟩
      exact ⟨e, hqi.behaves ⟨hdl, ha.R, ha.during, ha.removal, ha.order⟩, rfl, rfl, fun _ => rfl⟩
    · have hph : e.unqueued.phases cfg ip (afterTag e cfg ip pre (e.ensureLibrary cfg ip fs).1) =
          e.phases cfg ip (afterTag e cfg ip pre (e.ensureLibrary cfg ip fs).1) := by
        unfold RunEnv.phases
        dsimp only
        rw [if_pos hout]
        exact if_pos hout
      have hbody : e.unqueued.body cfg ip pre (e.ensureLibrary cfg ip fs).1 = e.body cfg ip pre (e.ensureLibrary cfg ip fs).1 := by
        rw [body_eq hn ha.order, body_eq (e := e.unqueued) hn ha.order]
        change (if (e.unqueued.phases cfg ip (afterTag e cfg ip pre (e.ensureLibrary cfg ip fs).1)).2 = .dead then
          ((e.unqueued.phases cfg ip (afterTag e cfg ip pre (e.ensureLibrary cfg ip fs).1)).1, none) else _) = _
        rw [hph, if_pos, if_pos]
        all_goals
          unfold RunEnv.phases
          dsimp only
          rw [if_pos hout]
      refine ⟨e.unqueued, unqueued_behaves hdl ha, rfl, ?_, fun _ => hbody⟩
      unfold RunEnv.rInstall
      dsimp only
      rw [show e.unqueued.ensureLibrary cfg ip fs = e.ensureLibrary cfg ip fs from rfl, hbody]
      rfl
  · refine ⟨e.unqueued, unqueued_behaves hdl ha, rfl, ?_, fun h => absurd h hl⟩
    unfold RunEnv.rInstall
    dsimp only
    rw [show e.unqueued.ensureLibrary cfg ip fs = e.ensureLibrary cfg ip fs from rfl, if_pos (by simpa using hl), if_pos (by simpa using hl)]

/-- After such a run the library is a directory. -/
theorem library_dir {Complete : Str → (Path → Option Node) → Prop} (hW : WellPosed P re c) (hL : LibraryOK P re x parse fs cfg.lib)
    (hplan : PlanMade P re c c' parse x fs cfg.lib pre ip)
    (hq : QueueRuns e q cfg.lib ip Scratch Complete Holds) (hD : DownloadsAre e de ip q.download cfg.lib fs)
    (hP : Places de q Scratch) (hS : Stocked de q ip Holds fs) (ha : Outside e cfg.lib)
    (hok : (e.rInstall cfg ip pre fs).2 = .exit0 false) : (e.rInstall cfg ip pre fs).1.fs cfg.lib = some .dir := by
  have hF := planFacts hW hL.named hL.tarballs hplan
  obtain ⟨e', hb, _, hr, _⟩ := real_behaves (pre := pre) hq hD hP hF.downloads hS ha hF.good
  rw [← hr] at hok ⊢
  rcases hL.place with h | h
  · have hc : ip.createLibrary = false := by rw [hF.create]; simp [Fs.isDir, h]
    have hg := (goes_run (pre := pre) hb hF.good hc fs).1
    rw [hg cfg.lib (List.prefix_refl _) (fun n _ hp => by have := hp.length_le; simp only [List.length_append, List.length_singleton] at this; exact absurd this (Nat.not_succ_le_self _))]
    exact h
  · have h0 := h cfg.lib (List.prefix_refl _)
    exact (C55_created e' cfg ip pre fs hb hF.good (by rw [hF.create]; simp [Fs.isDir, h0]) h0 hok).2

theorem no_tarballs (h : x.table = []) : TarballsOK P re x parse fs lib := by
  have hng : ∀ t, ¬ x.Given t := by intro t ht; unfold Extras.Given at ht; rw [h] at ht; cases ht
  exact ⟨by rw [h]; exact List.nodup_nil, fun t ht => absurd ht (hng t), fun t ht => absurd ht (hng t), fun t _ _ _ _ ht => absurd ht (hng t)⟩

/-- The library after such a run is in order again, if R leaves no DESCRIPTION directly in a lock directory. -/
theorem library_afterwards {Complete : Str → (Path → Option Node) → Prop} (hW : WellPosed P re c) (hL : LibraryOK P re x parse fs cfg.lib)
    (hplan : PlanMade P re c c' parse x fs cfg.lib pre ip)
    (hq : QueueRuns e q cfg.lib ip Scratch Complete Holds) (hD : DownloadsAre e de ip q.download cfg.lib fs)
    (hP : Places de q Scratch) (hS : Stocked de q ip Holds fs) (ha : Outside e cfg.lib) (hd : NoFaults e.disk)
    (hR : Installs e.ie.R Complete Unpacked)
    (htar : ∀ t, x.Given t → ∀ st ∈ (e.rInstall cfg ip pre fs).1.states, TarballThere e ip Unpacked st t)
    (hC : TellsEnough Complete parse Made P re x fs cfg.lib)
    (hmade : ∀ t D, x.Given t → Made t D → Announced parse P re t D) (hup : cfg.noUpdate = false) (hok : (e.rInstall cfg ip pre fs).2 = .exit0 false)
    (hlock : ∀ n, IsLock n → (e.rInstall cfg ip pre fs).1.fs (cfg.lib ++ [n, s%"DESCRIPTION"]) = none) :
    (∀ p, P.Wanted re x p → Announced parse P re p (contentOf (e.rInstall cfg ip pre fs).1.fs cfg.lib p)) ∧
    LibraryOK P re x parse (e.rInstall cfg ip pre fs).1.fs cfg.lib := by
  obtain ⟨h1, h2, _, h3⟩ := C136_install_partial hW hL hplan hq hD hP hS ha hd hR htar hC hup hok
  have hF := planFacts hW hL.named hL.tarballs hplan
  replace h1 : ∀ p, P.Wanted re x p → Announced parse P re p (contentOf (e.rInstall cfg ip pre fs).1.fs cfg.lib p) := by
    rintro p (hp | hp)
    · obtain ⟨g0, x, d, repo, ty, o, g1, g2, g3, g4, g5⟩ := h1 p hp
      refine ⟨g0, x, d, g1, g2, g3, ?_⟩
      intro repo' ty' o' g4'
      rw [hF.uniq _ _ _ _ _ _ _ g4' g4]
      exact g5
    · exact hmade p _ hp (h2 p hp)
  have hdesc : ∀ p, P.Wanted re x p → ∃ d, described parse (e.rInstall cfg ip pre fs).1.fs cfg.lib p = some d ∧ d.package = p ∧
      ∀ repo ty o, P.Gets re p repo ty o → compareVersionStrings d.version o.version ≠ some (-1) := by
    intro p hp
    obtain ⟨_, x, d, g1, g2, g3, g4⟩ := h1 p hp
    refine ⟨d, ?_, g3, g4⟩
    unfold described
    have g1' : (e.rInstall cfg ip pre fs).1.fs (cfg.lib ++ [p, s%"DESCRIPTION"]) = some (.file x) := g1
    rw [g1']
    exact g2
  refine ⟨h1, .inl ?_, ?_, ?_, ?_, hL.tarballs.once, hL.tarballs.names, hL.tarballs.apart, ?_⟩
  · exact library_dir hW hL hplan hq hD hP hS ha hok
  · intro n d hdd
    by_cases hw : P.Wanted re x n
    · obtain ⟨d', g1, g2, _⟩ := hdesc n hw
      rw [hdd] at g1
      cases g1
      exact ⟨g2, (hF.good n ((hF.mem n).2 hw)).1.1⟩
    · obtain ⟨x, g1, g2⟩ := described_some hdd
      by_cases hl : IsLock n
      · rw [hlock n hl] at g1; cases g1
      · rcases h3 n [s%"DESCRIPTION"] hw hl with h | ⟨_, _, _, h⟩
        · refine hL.named n d ?_
          unfold described
          rw [← h]
          rw [show cfg.lib ++ n :: [s%"DESCRIPTION"] = cfg.lib ++ [n, s%"DESCRIPTION"] from rfl, g1]
          exact g2
        · rw [show cfg.lib ++ n :: [s%"DESCRIPTION"] = cfg.lib ++ [n, s%"DESCRIPTION"] from rfl, g1] at h
          cases h
  · intro p hp
    obtain ⟨d, g1, _⟩ := hdesc p hp
    exact .inl ⟨(h1 p hp).1, d, g1⟩
  · intro p hp r
    have hnw : ¬ P.Wanted re x (backupName p) := fun h => (hF.good _ ((hF.mem _).2 h)).2.2 (backup_prefix p)
    rcases h3 (backupName p) r hnw (backup_not_lock p) with h | ⟨_, _, _, h⟩
    · rw [h]; exact hL.noBackup p hp r
    · exact h
  · intro t d repo ty o ht hdd hg
    obtain ⟨d', g1, _, g3⟩ := hdesc t (.inr ht)
    rw [hdd] at g1
    cases g1
    exact g3 repo ty o hg


theorem same_supplies {later : RepoEnv} (h : SameRepos re later) (repo : Str × Str) (p : Str) (ty : SourceType) (d : Desc) :
    P.Supplies later repo p ty d ↔ P.Supplies re repo p ty d := by
  unfold Project.Supplies Project.TakenAs
  rw [h.platform]
  simp only [published_same h.server h.decode h.platform h.linuxUri h.rv]

theorem same_gets {later : RepoEnv} (h : SameRepos re later) (p : Str) (repo : Str × Str) (ty : SourceType) (d : Desc) :
    P.Gets later p repo ty d ↔ P.Gets re p repo ty d := by
  unfold Project.Gets
  simp only [same_supplies h]

theorem same_fetched {later : RepoEnv} (h : SameRepos re later) (p : Str) : P.Fetched later x p ↔ P.Fetched re x p := by
  have hh : ∀ q, P.Has later q ↔ P.Has re q := by intro q; unfold Project.Has; simp only [same_gets h]
  unfold Project.Fetched
  constructor
  · rintro ⟨a, h1, h2⟩
    refine ⟨a, h1, ?_⟩
    induction h2 with
    | requested ha => exact .requested ha
    | needed _ hg hd hb hs ih => exact .needed ih ((same_gets h ..).1 hg) hd ((hh _).1 hb) hs
    | suggested _ hw hg hd hb ih => exact .suggested ih hw ((same_gets h ..).1 hg) hd ((hh _).1 hb)
  · rintro ⟨a, h1, h2⟩
    refine ⟨a, h1, ?_⟩
    induction h2 with
    | requested ha => exact .requested ha
    | needed _ hg hd hb hs ih => exact .needed ih ((same_gets h ..).2 hg) hd ((hh _).2 hb) hs
    | suggested _ hw hg hd hb ih => exact .suggested ih hw ((same_gets h ..).2 hg) hd ((hh _).2 hb)

theorem same_wanted {later : RepoEnv} (h : SameRepos re later) (p : Str) : P.Wanted later x p ↔ P.Wanted re x p := by
  unfold Project.Wanted
  rw [same_fetched h]

theorem wellPosed_later {later : RepoEnv} (hs : SameRepos re later) (hW : WellPosed P re c) (hplan : PlanMade P re c c' parse x fs lib pre ip) :
    WellPosed P later c' := by
  obtain ⟨ρ₁, ρ₂, ρ, ρ', ρ'', sched, nx, nx', names, req, f1, f2, f3, f4, f5, hsched, hopen, _, _, _⟩ := hplan
  refine ⟨by rw [hs.rv]; exact hW.small, hW.plain, hW.repos, by unfold Project.OwnFiles dbFileOf; rw [hs.md5hex, hs.rv]; exact hW.digest, ?_, ?_, ?_, ?_⟩
  · exact C89_cache_afterwards hW.small hW.plain f1 f2 hsched hW.digest hW.cache hopen hs.server hs.decode hs.platform hs.linuxUri hs.rv hs.md5hex
  · intro r hr rc st d h
    exact hW.noR r hr rc st d ((published_same hs.server hs.decode hs.platform hs.linuxUri hs.rv ..).1 h)
  · intro p repo ty d h
    exact hW.names p repo ty d ((same_gets hs ..).1 h)
  · intro p repo ty d h
    exact hW.files p repo ty d ((same_gets hs ..).1 h)

/-- The second plan finds everything there and nothing to replace. -/
theorem plan_afterwards {fs1 : Fs} {later : RepoEnv} {c'' : DbCache} {pre2 : GoMap Desc} {ip2 : InstallPlan} (hs : SameRepos re later)
    (hW : WellPosed P later c') (hnamed : ∀ n d, described parse fs1 lib n = some d → d.package = n ∧ n ≠ [])
    (hT : TarballsOK P later x parse fs1 lib) (hdone : ∀ p, P.Wanted re x p → Announced parse P re p (contentOf fs1 lib p))
    (hplan2 : PlanMade P later c' c'' parse x fs1 lib pre2 ip2) :
    (∀ p ∈ members ip2, P.Wanted re x p ∧ GoMap.has pre2 p = true ∧ fs1 (lib ++ [p]) = some .dir) ∧
    (∀ p ∈ members ip2, p ∉ ip2.outdated.map OutdatedPackage.package) ∧ GoodNames ip2 ∧ GoodDownloads ip2 := by
  have hF := planFacts hW hnamed hT hplan2
  have hwant : ∀ p ∈ members ip2, P.Wanted re x p := fun p hp => (same_wanted hs p).1 ((hF.mem p).1 hp)
  have hget : ∀ p ∈ members ip2, ∃ d, GoMap.get? pre2 p = some d ∧ fs1 (lib ++ [p]) = some .dir ∧
      ∀ repo ty o, P.Gets re p repo ty o → compareVersionStrings d.version o.version ≠ some (-1) := by
    intro p hp
    obtain ⟨g0, x, d, g1, g2, g3, g4⟩ := hdone p (hwant p hp)
    refine ⟨d, ?_, g0, g4⟩
    have g0' : fs1 (lib ++ [p]) = some .dir := g0
    rw [hF.found, if_pos (by simp [Fs.isDir, g0'])]
    unfold described
    have g1' : fs1 (lib ++ [p, s%"DESCRIPTION"]) = some (.file x) := g1
    rw [g1']
    exact g2
  refine ⟨?_, ?_, hF.good, hF.downloads⟩
  · intro p hp
    obtain ⟨d, g1, g2, _⟩ := hget p hp
    exact ⟨hwant p hp, has_iff_get.2 ⟨d, g1⟩, g2⟩
  · intro p hp ho
    obtain ⟨o, ho1, rfl⟩ := List.mem_map.1 ho
    obtain ⟨d, dl, g1, ⟨repo, ty, g2⟩, _, _, g5⟩ := (hF.outdated o).1 ho1
    obtain ⟨d', k1, _, k2⟩ := hget _ hp
    rw [g1] at k1
    cases k1
    exact k2 _ _ _ ((same_gets hs ..).1 g2) g5

/-- C136 (partial, as above), with the real reader of DESCRIPTION files (C151, C152): R's exit status 0 promises a well written
DESCRIPTION with the right name and a version that is not older than the published one, and what is wanted and already in the
library is made of fields that can be stamped. Then after a run that reports no failure the next command reads, for every
wanted package, its name and such a version. -/
theorem C136_read_back_partial (hW : WellPosed P re c) (hL : LibraryOK P re x installedDesc fs cfg.lib)
    (hplan : PlanMade P re c c' installedDesc x fs cfg.lib pre ip)
    (hq : QueueRuns e q cfg.lib ip Scratch (WellWritten (NotOlder P re x)) Holds) (hD : DownloadsAre e de ip q.download cfg.lib fs)
    (hP : Places de q Scratch) (hS : Stocked de q ip Holds fs) (ha : Outside e cfg.lib) (hd : NoFaults e.disk)
    (hR : Installs e.ie.R (WellWritten (NotOlder P re x)) Unpacked)
    (htar : ∀ t, x.Given t → ∀ st ∈ (e.rInstall cfg ip pre fs).1.states, TarballThere e ip Unpacked st t)
    (hthere : ∀ p c, P.Fetched re x p → ¬ x.Given p → fs (cfg.lib ++ [p, s%"DESCRIPTION"]) = some (.file c) →
      ∃ gs, Stampable gs ∧ c = textOf (fieldLines gs))
    (hup : cfg.noUpdate = false) (hok : (e.rInstall cfg ip pre fs).2 = .exit0 false) :
    ∀ p, P.Wanted re x p → (e.rInstall cfg ip pre fs).1.fs (cfg.lib ++ [p]) = some .dir ∧
      ∃ d, described installedDesc (e.rInstall cfg ip pre fs).1.fs cfg.lib p = some d ∧ d.package = p ∧
        (P.Fetched re x p → ∃ repo ty o, P.Gets re p repo ty o ∧ compareVersionStrings d.version o.version ≠ some (-1)) := by
  obtain ⟨h1, h2, _⟩ := C136_install_partial hW hL hplan hq hD hP hS ha hd hR htar (tellsEnough_real hthere) hup hok
  intro p hp
  by_cases hf : P.Fetched re x p
  · obtain ⟨h0, c, d, repo, ty, o, a1, a2, a3, a4, a5⟩ := h1 p hf
    refine ⟨?_, d, ?_, a3, fun _ => ⟨repo, ty, o, a4, a5⟩⟩
    · simpa [contentOf] using h0
    · rw [described_file a1]; exact a2
  · obtain ⟨h0, hne, gs, v, a1, a2, a3, a4, _, a6⟩ := h2 p (hp.resolve_left hf)
    obtain ⟨d, hd, e1, _⟩ := wellWritten_read a2 hne a3 a4 a6
    refine ⟨?_, d, ?_, e1, fun h => absurd h hf⟩
    · simpa [contentOf] using h0
    · rw [described_file a1]; exact hd

/-- C137 (partial: as C136, and tarballs are installed again each time). Installing again, from the same configuration, when the repositories still publish the same and
nobody has touched the library in between (the database cache may have grown old or not): the second plan wants the same packages, finds every one of them installed
and none of them outdated, and whatever happens to the second run - it succeeds, it fails, it is interrupted anywhere - nothing in the
library is ever changed, except the packages that are given as tarballs, their backups, and R's locks. -/
theorem C137_again_partial {Complete : Str → (Path → Option Node) → Prop} (hW : WellPosed P re c) (hL : LibraryOK P re x parse fs cfg.lib)
    (hplan : PlanMade P re c c' parse x fs cfg.lib pre ip)
    (hq : QueueRuns e q cfg.lib ip Scratch Complete Holds) (hD : DownloadsAre e de ip q.download cfg.lib fs)
    (hP : Places de q Scratch) (hS : Stocked de q ip Holds fs) (ha : Outside e cfg.lib) (hd : NoFaults e.disk)
    (hR : Installs e.ie.R Complete Unpacked)
    (htar : ∀ t, x.Given t → ∀ st ∈ (e.rInstall cfg ip pre fs).1.states, TarballThere e ip Unpacked st t)
    (hC : TellsEnough Complete parse Made P re x fs cfg.lib)
    (hmade : ∀ t D, x.Given t → Made t D → Announced parse P re t D) (hup : cfg.noUpdate = false) (hok : (e.rInstall cfg ip pre fs).2 = .exit0 false)
    {fs1 : Fs} (hfs1 : fs1 = (e.rInstall cfg ip pre fs).1.fs) (hlock : ∀ n, IsLock n → fs1 (cfg.lib ++ [n, s%"DESCRIPTION"]) = none)
    -- the second time
    {later : RepoEnv} (hs : SameRepos re later) {c'' : DbCache} {pre2 : GoMap Desc} {ip2 : InstallPlan}
    (hplan2 : PlanMade P later c' c'' parse x fs1 cfg.lib pre2 ip2)
    {e2 : RunEnv} {de2 : DlEnv} {q2 : QEnv} {cfg2 : RunCfg} {Scratch2 : Path → Prop} {Complete2 : Str → (Path → Option Node) → Prop} {Holds2 : Str → Str → Prop}
    (hlib : cfg2.lib = cfg.lib) (hq2 : QueueRuns e2 q2 cfg.lib ip2 Scratch2 Complete2 Holds2) (hD2 : DownloadsAre e2 de2 ip2 q2.download cfg.lib fs1)
    (hP2 : Places de2 q2 Scratch2) (hS2 : Stocked de2 q2 ip2 Holds2 fs1) (ha2 : Outside e2 cfg.lib) :
    (∀ p, p ∈ members ip2 ↔ P.Wanted re x p) ∧ (∀ p ∈ members ip2, GoMap.has pre2 p = true) ∧
    (∀ p ∈ members ip2, p ∉ ip2.outdated.map OutdatedPackage.package) ∧
    ∀ st ∈ (e2.rInstall cfg2 ip2 pre2 fs1).1.states, Keeps cfg.lib (fun n => IsLock n ∨ ∃ t, x.Given t ∧ (n = t ∨ n = backupName t)) fs1 st := by
  subst hfs1
  obtain ⟨hdone, hLa⟩ := library_afterwards hW hL hplan hq hD hP hS ha hd hR htar hC hmade hup hok hlock
  have hW2 := wellPosed_later hs hW hplan
  have hT2 : TarballsOK P later x parse (e.rInstall cfg ip pre fs).1.fs cfg.lib :=
    ⟨hLa.tarballs.once, hLa.tarballs.names, fun t ht h => hLa.tarballs.apart t ht ((same_fetched hs t).1 h),
      fun t d repo ty o ht h1 h2 => hLa.tarballs.current t d repo ty o ht h1 ((same_gets hs ..).1 h2)⟩
  have hF2 := planFacts hW2 hLa.named hT2 hplan2
  obtain ⟨h1, h2, h3, h4⟩ := plan_afterwards hs hW2 hLa.named hT2 hdone hplan2
  have hdir := library_dir hW hL hplan hq hD hP hS ha hok
  have hc : ip2.createLibrary = false := by rw [hF2.create]; simp [Fs.isDir, hdir]
  rw [← hlib] at hq2 hD2 ha2 h1 ⊢
  obtain ⟨e', hb, _, hr, _⟩ := real_behaves (pre := pre2) hq2 hD2 hP2 h4 hS2 ha2 h3
  refine ⟨fun p => (hF2.mem p).trans (same_wanted hs p), fun p hp => (h1 p hp).2.1, h2, ?_⟩
  rw [← hr]
  intro st hst
  refine (C57_stable_tarballs_partial e' cfg2 ip2 pre2 _ hb h3 hc (fun p hp => (h1 p (List.mem_append_left _ hp)).2) h2 st hst).mono ?_
  rintro n (h | ⟨t, h, h'⟩)
  · exact .inl h
  · rw [hF2.tar] at h
    exact .inr ⟨t, h, h'⟩

/-- C138 (partial, as C136). `pkgr install`, from the configuration to the library, when something fails: a run that reports a failure, with rollback
on and without I/O errors, leaves the library exactly as it was, except for R's locks. -/
theorem C138_failure_partial {Complete : Str → (Path → Option Node) → Prop} (hW : WellPosed P re c) (hL : LibraryOK P re x parse fs cfg.lib)
    (hplan : PlanMade P re c c' parse x fs cfg.lib pre ip)
    (hq : QueueRuns e q cfg.lib ip Scratch Complete Holds) (hD : DownloadsAre e de ip q.download cfg.lib fs)
    (hP : Places de q Scratch) (hS : Stocked de q ip Holds fs) (ha : Outside e cfg.lib) (hd : NoFaults e.disk)
    (hrb : cfg.noRollback = false) (hfail : (e.rInstall cfg ip pre fs).2 = .exit0 true) :
    Keeps cfg.lib IsLock fs (e.rInstall cfg ip pre fs).1.fs := by
  have hF := planFacts hW hL.named hL.tarballs hplan
  obtain ⟨e', hb, hdisk, hr, _⟩ := real_behaves (pre := pre) hq hD hP hF.downloads hS ha hF.good
  rw [← hr] at hfail ⊢
  refine C49_restored_partial e' cfg ip pre fs hb (by rw [hdisk]; exact hd) hF.good hF.ok (hF.inOrder hL) ?_ hrb hfail
  intro hc
  rcases hL.place with h | h
  · rw [hF.create] at hc
    simp [Fs.isDir, h] at hc
  · exact h

/-- C138 (partial, as C136). Wherever the run is interrupted before the backups are deleted, every wanted package that was installed is still
in the library, at its place or in its backup, whole. Any I/O error may happen, but a failing rename of
a package to its backup. -/
theorem C138_interrupted_partial {Complete : Str → (Path → Option Node) → Prop} (hW : WellPosed P re c) (hL : LibraryOK P re x parse fs cfg.lib)
    (hplan : PlanMade P re c c' parse x fs cfg.lib pre ip)
    (hq : QueueRuns e q cfg.lib ip Scratch Complete Holds) (hD : DownloadsAre e de ip q.download cfg.lib fs)
    (hP : Places de q Scratch) (hS : Stocked de q ip Holds fs) (ha : Outside e cfg.lib) (hdir : fs cfg.lib = some .dir)
    (hT : TagsOK e.disk cfg.lib (members ip)) :
    ∀ st ∈ (e.body cfg ip pre { fs := fs }).1.states,
      ∀ p d, P.Wanted re x p → described parse fs cfg.lib p = some d →
        (Intact cfg.lib fs st p ∧ Gone cfg.lib st (backupName p)) ∨ Saved cfg.lib fs st p := by
  have hF := planFacts hW hL.named hL.tarballs hplan
  have hc : ip.createLibrary = false := by rw [hF.create]; simp [Fs.isDir, hdir]
  obtain ⟨e', hb, hdisk, hr, hbody⟩ := real_behaves (pre := pre) hq hD hP hF.downloads hS ha hF.good
  have hl : e.ensureLibrary cfg ip fs = ({ fs := fs }, true) := by
    unfold RunEnv.ensureLibrary; rw [hc]; rfl
  rw [hl] at hbody
  rw [← hbody rfl]
  rw [← hdisk] at hT
  intro st hst p d hp hd
  rcases hL.wanted p hp with ⟨h1, d', h2⟩ | h
  · have hg : GoMap.get? pre p = some d' := by rw [hF.found, if_pos (by simp [Fs.isDir, h1]), h2]
    exact C51_no_loss_partial e' cfg ip pre fs hb hF.good hF.ok (hF.inOrder hL) hc hT p ((hF.mem p).2 hp) (has_iff_get.2 ⟨d', hg⟩) st hst
  · obtain ⟨x, g1, _⟩ := described_some hd
    have := h [s%"DESCRIPTION"]
    rw [show cfg.lib ++ p :: [s%"DESCRIPTION"] = cfg.lib ++ [p, s%"DESCRIPTION"] from rfl, g1] at this
    cases this

/-- C138 (partial, as C136). In every state that the file system goes through, whatever fails (I/O errors included) and wherever the process
dies, everything in the library that is not a wanted package, the backup of one or an R lock is unchanged. -/
theorem C138_others_partial {Complete : Str → (Path → Option Node) → Prop} (hW : WellPosed P re c) (hL : LibraryOK P re x parse fs cfg.lib)
    (hplan : PlanMade P re c c' parse x fs cfg.lib pre ip)
    (hq : QueueRuns e q cfg.lib ip Scratch Complete Holds) (hD : DownloadsAre e de ip q.download cfg.lib fs)
    (hP : Places de q Scratch) (hS : Stocked de q ip Holds fs) (ha : Outside e cfg.lib)
    (n : Str) (h1 : ¬ P.Wanted re x n) (h2 : ∀ p, P.Wanted re x p → n ≠ backupName p) (h3 : ¬ IsLock n) :
    ∀ st ∈ (e.rInstall cfg ip pre fs).1.states, ∀ r, st (cfg.lib ++ n :: r) = fs (cfg.lib ++ n :: r) := by
  have hF := planFacts hW hL.named hL.tarballs hplan
  obtain ⟨e', hb, _, hr, _⟩ := real_behaves (pre := pre) hq hD hP hF.downloads hS ha hF.good
  rw [← hr]
  refine C50_outside_untouched e' cfg ip pre fs hb hF.good ?_ n (fun h => h1 ((hF.mem n).1 h)) (fun p hp => h2 p ((hF.mem p).1 hp)) h3
  intro hc
  rcases hL.place with h | h
  · rw [hF.create] at hc
    simp [Fs.isDir, h] at hc
  · exact h

/-- C136 is violated by `Depends`: what a tarball or the project's DESCRIPTION names there only is not missed. If it was not in the library, it is not there
after a run that reports success, whether or not it can be had. -/
theorem C136_violated_depends {Complete : Str → (Path → Option Node) → Prop} (hW : WellPosed P re c) (hL : LibraryOK P re x parse fs cfg.lib)
    (hplan : PlanMade P re c c' parse x fs cfg.lib pre ip)
    (hq : QueueRuns e q cfg.lib ip Scratch Complete Holds) (hD : DownloadsAre e de ip q.download cfg.lib fs)
    (hP : Places de q Scratch) (hS : Stocked de q ip Holds fs) (ha : Outside e cfg.lib) (hd : NoFaults e.disk)
    (hR : Installs e.ie.R Complete Unpacked)
    (htar : ∀ t, x.Given t → ∀ st ∈ (e.rInstall cfg ip pre fs).1.states, TarballThere e ip Unpacked st t)
    (hC : TellsEnough Complete parse Made P re x fs cfg.lib)
    (hup : cfg.noUpdate = false) (hok : (e.rInstall cfg ip pre fs).2 = .exit0 false)
    {d : Desc} {p : Str} (_ : d ∈ x.tarballs ++ x.descriptions) (_ : p ∈ GoMap.keys d.depends) (hne : ∀ q, P.Wanted re x q → p ≠ q ∧ p ≠ backupName q) (hl : ¬ IsLock p)
    (hgone : Gone cfg.lib fs p) : Gone cfg.lib (e.rInstall cfg ip pre fs).1.fs p := by
  intro r
  rcases (C136_install_partial hW hL hplan hq hD hP hS ha hd hR htar hC hup hok).2.2.2 p r (fun h => (hne p h).1 rfl) hl with h | ⟨_, _, _, h⟩
  · rw [h]; exact hgone r
  · exact h

/-! ### A project

`c` is listed; 1.0 is in the library, the repository publishes 2.0, as a source package and as a binary. `t` is given as a tarball,
it imports `c`; it is not in the library. -/

/-- The fields of a DESCRIPTION. -/
def ymlFields (p v : Str) : List DescField := [{ name := s%"Package", line := s%" " ++ p }, { name := s%"Version", line := s%" " ++ v }]

/-- A DESCRIPTION. -/
def ymlText (p v : Str) : Str := textOf (fieldLines (ymlFields p v))

theorem stampable_of {gs : List DescField} (h : ∀ f ∈ gs, f.name ≠ [] ∧ trimSpace f.name = f.name ∧ ':' ∉ f.name ∧ f.name.head? ≠ some '#' ∧
    '\n' ∉ f.name ∧ '\n' ∉ f.line ∧ ∀ l ∈ f.more, '\n' ∉ l ∧ (l.head? = some ' ' ∨ l.head? = some '\t')) (h0 : gs ≠ [])
    (h1 : ∀ f ∈ gs, PkgrField f.name ∨ f.name = s%"Repository" → f.more = [])
    (h2 : ∀ f ∈ gs, ¬ PkgrField f.name → ∀ l ∈ f.lines, NoMarker l) (h3 : ∀ l ∈ fieldLines gs, '\r' ∉ l) : Stampable gs :=
  ⟨fun f hf => ⟨(h f hf).1, (trimSpace_iff _ _).1 (h f hf).2.1, (h f hf).2.2.1, (h f hf).2.2.2.1, (h f hf).2.2.2.2.1, (h f hf).2.2.2.2.2.1,
    (h f hf).2.2.2.2.2.2⟩, h0, h1, h2, h3⟩

theorem textIs_of {gs : List DescField} (h : ∀ f ∈ gs, f.Valid) {k v : Str} {f : DescField} (e : lastNamed gs k = some f) (ht : f.text = v) :
    TextIs gs k v := by
  unfold TextIs
  rw [e]
  simp only
  rw [DescField.says_iff (h _ (lastNamed_mem e).1)]
  exact ht.symm

/-- R's answer in the example: a DESCRIPTION with name and version. -/
theorem ymlFields_written {Good : Str → Str → Prop} {p v : Str} (hs : Stampable (ymlFields p v)) (hp : p ≠ []) (h1 : trimSpace (s%" " ++ p) = p)
    (h2 : trimSpace (s%" " ++ v) = v) (h3 : Good p v) (h4 : parseDesc (ymlText p v) ≠ .panics) {D : Path → Option Node} (hd : D [] = some .dir)
    (hD : D [s%"DESCRIPTION"] = some (.file (ymlText p v))) : WellWritten Good p D :=
  ⟨hd, hp, ymlFields p v, v, hD, hs,
    textIs_of hs.valid (f := { name := s%"Package", line := s%" " ++ p }) (by unfold ymlFields; rw [lastNamed_cons, lastNamed_cons, lastNamed_nil]; rfl) h1,
    textIs_of hs.valid (f := { name := s%"Version", line := s%" " ++ v }) (by unfold ymlFields; rw [lastNamed_cons, lastNamed_cons, lastNamed_nil]; rfl) h2, h3, h4⟩

theorem ymlFields_c1 : Stampable (ymlFields (s%"c") (s%"1.0")) :=
  stampable_of (by decide +kernel) (by decide) (by decide +kernel) (by decide +kernel) (by decide +kernel)
theorem ymlFields_c2 : Stampable (ymlFields (s%"c") (s%"2.0")) :=
  stampable_of (by decide +kernel) (by decide) (by decide +kernel) (by decide +kernel) (by decide +kernel)
theorem ymlFields_t : Stampable (ymlFields (s%"t") (s%"0.1")) :=
  stampable_of (by decide +kernel) (by decide) (by decide +kernel) (by decide +kernel) (by decide +kernel)

/-- see above -/
def ymlEnv : RepoEnv :=
  { platform := { os := .darwin }, decode := decodeDesc, md5hex := fun x => x, linuxUri := [],
    rv := ⟨4, 1, 0⟩, now := 100000,
    server := fun u =>
      if u = s%"http://r/src/contrib/PACKAGES" ∨ u = s%"http://r/bin/macosx/contrib/4.1/PACKAGES" then (.text (ymlText (s%"c") (s%"2.0"))) else .refused }

/-- see above -/
def ymlProject : Project := { cfg := { packages := [s%"c"] }, repos := [(s%"r", s%"http://r")], custom := [] }

/-- The project's DESCRIPTION: it depends on `d`. -/
def ymlX : Extras :=
  { tarballs := [{ package := s%"t", version := s%"0.1", imports := [(s%"c", {})] }]
    table := [(s%"t", { installPath := s%"/w/t", originPath := s%"t.tar.gz", type := s%"tarball" })]
    descriptions := [{ package := s%"proj", depends := [(s%"d", {})] }] }

/-- see above -/
def ymlNexus : Nexus :=
  ((ymlEnv.openConfigured idOrder idOrder ymlProject.custom (ymlProject.repos.map fun r => [r]) (fun _ => none) [(0, true)]).2).getD
    { db := [], packages := [], defaultSourceType := .default }

/-- see above -/
def ymlFs : Fs := fun q =>
  if q = [s%"lib"] ∨ q = [s%"lib", s%"c"] ∨ q = [s%"w"] ∨ q = [s%"w", s%"t"] then some .dir
  else if q = [s%"lib", s%"c", s%"DESCRIPTION"] then some (.file (ymlText (s%"c") (s%"1.0")))
  else none

def ymlPre : GoMap Desc := getPriorInstalled installedDesc ymlFs [s%"lib"] [s%"c"]

/-- The plan. -/
def ymlPlan : InstallPlan :=
  match planInstall ymlProject.cfg ymlNexus ymlPre true ymlX.tarballs ymlX.descriptions ymlX.table idOrder idOrder idOrder with
  | .planned _ _ ip => ip
  | _ => {}

def ymlDe : DlEnv :=
  { server := fun _ => .body (s%"code") true, digest := fun _ => s%"0123456789ab", platform := { os := .darwin },
    rv := { major := 4, minor := 1, patch := 0 }, base := [s%"cache"] }
def ymlFs1 : Fs := ymlFs.rename [s%"lib", s%"c"] [s%"lib", s%"__OLD__c"]
def ymlD : DlState :=
  (ymlDe.run ymlPlan.downloads (ymlDe.init ymlFs1 ymlPlan.downloads) [.spawn, .acquire 0, .finish 0, .ret]).getD (ymlDe.init ymlFs1 [])


/-- What is supposed to come of the tarball: a directory with a well written DESCRIPTION. -/
def ymlTar : Str → (Path → Option Node) → Prop := WellWritten fun _ _ => True

/-- What R's exit status 0 promises. -/
def ymlDone : Str → (Path → Option Node) → Prop := WellWritten (NotOlder ymlProject ymlEnv ymlX)

theorem ymlGiven (p : Str) : ymlX.Given p ↔ p = s%"t" := by
  unfold Extras.Given
  simp [ymlX, GoMap.keys]

/-- R: it exits with status 0 only when `c` 2.0 is there. -/
def ymlProc : RProc :=
  { writes := anyR.writes
    exits := fun c fs x => x = .ok → ymlDone c.pkg (contentOf fs c.lib c.pkg) ∧ toyBuilt c fs }

def ymlQ : QEnv :=
  { twQ with
    proc := ymlProc
    ie := { toyQ.ie with digest := fun _ => s%"0123456789ab" }
    download := fun p => (GoMap.get? ymlD.result p).getD {} }
def ymlS1 : QState := (ymlQ.execs (ymlQ.init ymlD.fs) twEv1).getD (ymlQ.init ymlD.fs)

theorem ymlOpens : ∃ c', ymlEnv.openConfigured idOrder idOrder ymlProject.custom (ymlProject.repos.map fun r => [r]) (fun _ => none) [(0, true)] =
    (c', some ymlNexus) := by
  have h : ((ymlEnv.openConfigured idOrder idOrder ymlProject.custom (ymlProject.repos.map fun r => [r]) (fun _ => none)
    [(0, true)]).2).isSome = true := by decide +kernel
  obtain ⟨nx, h⟩ := Option.isSome_iff_exists.1 h
  refine ⟨(ymlEnv.openConfigured idOrder idOrder ymlProject.custom (ymlProject.repos.map fun r => [r]) (fun _ => none) [(0, true)]).1, ?_⟩
  unfold ymlNexus
  rw [h]
  exact Prod.ext rfl h

/-- What the repository publishes. -/
theorem ymlPublishes {url : RepoURL} {rc : RepoConfig} {st : SourceType} {p : Str} {d : Desc} (h : Publishes ymlEnv url rc st p d) :
    p = s%"c" ∧ d.version = s%"2.0" ∧ d.package = s%"c" := by
  obtain ⟨_, body, hb, hu, hl⟩ := h
  obtain ⟨m, hm⟩ := (usable_iff _ ymlEnv.rv _).1 hu
  have hg := (lists_iff (by decide) hm _ _).1 hl
  have hbody : body = ymlText (s%"c") (s%"2.0") := by
    unfold ymlEnv at hb
    dsimp only at hb
    split at hb
    · simp_all
    · cases hb
  subst hbody
  have hk : (match fetchOne ymlEnv.decode ymlEnv.rv (some (ymlText (s%"c") (s%"2.0"))) with | .ok m => m.map (fun x => (x.1, x.2.version, x.2.package)) | .error _ => []) =
      [(s%"c", s%"2.0", s%"c")] := by decide +kernel
  rw [hm] at hk
  dsimp only at hk
  match m, hk with
  | [(k, v)], hk =>
    simp only [List.map_cons, List.map_nil, List.cons.injEq, Prod.mk.injEq, and_true] at hk
    unfold GoMap.get? at hg
    simp at hg
    obtain ⟨h1, h2⟩ := hg
    subst h1 h2
    exact ⟨hk.1, hk.2.1, hk.2.2⟩
  | [], hk => cases hk
  | _ :: _ :: _, hk => simp at hk

theorem ymlGets {p : Str} {repo : Str × Str} {ty : SourceType} {d : Desc} (h : ymlProject.Gets ymlEnv p repo ty d) :
    p = s%"c" ∧ repo = (s%"r", s%"http://r") ∧ d.version = s%"2.0" := by
  obtain ⟨⟨pre, post, he, _⟩, hs⟩ := h
  have hm : repo ∈ ymlProject.repos := by rw [he]; simp
  obtain ⟨_, _, rc, _, _, hp⟩ := hs
  obtain ⟨h1, h2, h3⟩ := ymlPublishes hp
  exact ⟨h1, List.mem_singleton.1 hm, h2⟩


theorem ymlTarballs (fs : Fs) : TarballsOK ymlProject ymlEnv ymlX installedDesc fs [s%"lib"] := by
  have hno : ∀ t, ymlX.Given t → ¬ ymlProject.Has ymlEnv t := by
    rintro t ht ⟨repo, ty, d, h⟩
    rw [(ymlGiven t).1 ht] at h
    exact absurd (ymlGets h).1 (by decide)
  refine ⟨by decide, ?_, ?_, ?_⟩
  · intro t ht
    rw [(ymlGiven t).1 ht]
    decide
  · rintro t ht ⟨asked, h1, h2⟩
    cases h2 with
    | requested h =>
      have := (h1 t).1 h
      rw [(ymlGiven t).1 ht] at this
      revert this
      unfold Project.Asked
      simp [ymlProject, ymlX, GoMap.keys]
    | needed _ _ _ h => exact hno t ht h
    | suggested _ _ _ _ h => exact hno t ht h
  · intro t d repo ty o ht _ h
    exact absurd ⟨repo, ty, o, h⟩ (hno t ht)

theorem ymlPosed : WellPosed ymlProject ymlEnv (fun _ => none) := by
  refine ⟨by decide, ⟨by decide, by decide, by decide⟩, by decide, by decide +kernel, cacheTrue_old (by simp), ?_, ?_, ?_⟩
  · intro r _ rc st d h
    exact absurd (ymlPublishes h).1 (by decide)
  · intro p repo ty d h
    obtain ⟨rfl, _, _⟩ := ymlGets h
    decide
  · intro p repo ty d h
    obtain ⟨rfl, rfl, hv⟩ := ymlGets h
    rw [hv]
    decide

theorem ymlDescribed (n : Str) (d : Desc) (h : described installedDesc ymlFs [s%"lib"] n = some d) : d.package = n ∧ n ≠ [] := by
  obtain ⟨c, h1, h2⟩ := described_some h
  have hn : n = s%"c" := by
    apply Classical.byContradiction
    intro hn
    simp [ymlFs, hn] at h1
  subst hn
  rw [show ymlFs _ = some (.file (ymlText (s%"c") (s%"1.0"))) from rfl] at h1
  cases h1
  cases h2
  exact ⟨rfl, by decide⟩

theorem ymlPlanned : ∃ req nx', planInstall ymlProject.cfg ymlNexus ymlPre true ymlX.tarballs ymlX.descriptions ymlX.table idOrder idOrder idOrder = .planned req nx' ymlPlan := by
  have h : (match planInstall ymlProject.cfg ymlNexus ymlPre true ymlX.tarballs ymlX.descriptions ymlX.table idOrder idOrder idOrder with | .planned _ _ _ => true | _ => false) = true := by
    decide +kernel
  unfold ymlPlan
  revert h
  cases planInstall ymlProject.cfg ymlNexus ymlPre true ymlX.tarballs ymlX.descriptions ymlX.table idOrder idOrder idOrder with
  | planned req nx' ip => exact fun _ => ⟨req, nx', rfl⟩
  | _ => intro h; cases h

theorem ymlMade : ∃ c', PlanMade ymlProject ymlEnv (fun _ => none) c' installedDesc ymlX ymlFs [s%"lib"] ymlPre ymlPlan := by
  obtain ⟨c', hc⟩ := ymlOpens
  obtain ⟨req, nx', hp⟩ := ymlPlanned
  have hid : idOrder.Fair := fun _ _ => List.Perm.refl _
  refine ⟨c', idOrder, idOrder, idOrder, idOrder, idOrder, [(0, true)], ymlNexus, nx', [s%"c"], req, hid, hid, hid, hid, hid, by decide, hc, ?_, rfl, hp⟩
  intro n
  by_cases hn : n = s%"c"
  · subst hn; simp [ymlFs]
  · simp [ymlFs, hn]

theorem ymlMembers : members ymlPlan = [s%"c", s%"t"] := by decide +kernel

theorem ymlWanted (p : Str) : ymlProject.Wanted ymlEnv ymlX p ↔ p = s%"c" ∨ p = s%"t" := by
  obtain ⟨c', h⟩ := ymlMade
  rw [← (planFacts ymlPosed ymlDescribed (ymlTarballs _) h).mem, ymlMembers]
  simp

theorem ymlLibrary : LibraryOK ymlProject ymlEnv ymlX installedDesc ymlFs [s%"lib"] := by
  refine ⟨.inl rfl, ymlDescribed, ?_, ?_, ymlTarballs _⟩
  · intro p hp
    rcases (ymlWanted p).1 hp with rfl | rfl
    · exact .inl ⟨by decide, { package := s%"c", version := s%"1.0" }, by decide⟩
    · exact .inr fun r => by simp [ymlFs]
  · intro p hp r
    rcases (ymlWanted p).1 hp with rfl | rfl <;> simp [ymlFs, backupName]

theorem ymlPublished : ∃ repo ty d, ymlProject.Gets ymlEnv (s%"c") repo ty d ∧ d.version = s%"2.0" := by
  obtain ⟨c', h⟩ := ymlMade
  obtain ⟨repo, ty, d, hg⟩ := (planFacts ymlPosed ymlDescribed (ymlTarballs _) h).gets (s%"c") (by decide +kernel)
  exact ⟨repo, ty, d, hg, (ymlGets hg).2.2⟩

theorem ymlQ_stamps : ∀ p ∈ Job.plan ymlQ.job, ∀ k, PlainStamp (ymlQ.stampOf p k) := by
  intro p hp k
  have : p = s%"c" := by simpa [Job.plan, ymlQ, twQ, GoMap.keys] using hp
  subst this
  exact stampOf_plain (plainStamp_of (by decide +kernel) (by decide +kernel)) (plainStamp_of (by decide +kernel) (by decide +kernel)) k

theorem ymlQ_contract : RContract ymlQ (fun _ => False) ymlDone ToyHolds := by
  refine C152_contract_partial ?_ ?_ ?_ ymlQ_stamps
  · intro c fs fs' h q hq
    rcases h q hq with h | h | h
    · exact .inl h
    · exact .inr (.inl h)
    · exact .inr (.inr (.inl h))
  · intro c fs x h _ _; exact (h rfl).1
  · intro c fs x h hb _ _; exact (h rfl).2 hb

def ymlPass : Pass := .cached [s%"cache", s%"r-0123456789ab", s%"binary", s%"4.1", s%"c_2.0.tgz"]
def ymlW : Fs := (ymlS1.fs.set [s%"lib", s%"c"] .dir).set [s%"lib", s%"c", s%"DESCRIPTION"] (.file (ymlText (s%"c") (s%"2.0")))
def ymlS1' : QState := (ymlS1.work 0 ymlW (.inR ymlPass)).work 0 ymlW (afterR ymlPass .ok)
def ymlS2 : QState := (ymlQ.execs ymlS1' twEv2).getD ymlS1'

theorem yml_new : ymlDone (s%"c") (contentOf ymlW [s%"lib"] (s%"c")) := by
  obtain ⟨repo, ty, d, hg, hv⟩ := ymlPublished
  exact ymlFields_written ymlFields_c2 (by decide) (by decide +kernel) (by decide +kernel) (fun _ => ⟨repo, ty, d, hg, by rw [hv]; decide⟩)
    (by decide +kernel) rfl rfl

theorem ymlS1_reach : QReach ymlQ ymlD.fs ymlS1 := execs_reach (evs := twEv1) (by rfl)

theorem ymlS2_reach : QReach ymlQ ymlD.fs ymlS2 := by
  refine (ymlS1_reach.trans ?_).trans (execs_reach (evs := twEv2) (s := ymlS1') (by rfl))
  refine .head (.rWrite ymlS1 0 (s%"c") ymlPass ymlW rfl rfl rfl ?_) (.single (.rExit _ 0 (s%"c") ymlPass .ok rfl rfl rfl ?_))
  · intro q hq
    refine .inl ?_
    apply Classical.byContradiction
    intro hn
    apply hq
    unfold ymlW Fs.set
    rw [if_neg, if_neg]
    · rintro rfl; exact hn (by decide)
    · rintro rfl; exact hn (by decide)
  · intro _; exact ⟨yml_new, fun h => by cases h⟩

theorem ymlD_reach : DlReach ymlDe ymlPlan.downloads ymlFs1 ymlD := ⟨[.spawn, .acquire 0, .finish 0, .ret], by rfl⟩

/-- The downloads: the execution above when they begin with these files, else they die at once. -/
noncomputable def ymlDownload (fs : Fs) : Phase :=
  open Classical in if fs = ymlFs1 then { fs := ymlD.fs, out := .ok } else { fs := fs, out := .dead }

/-- The queue likewise. -/
noncomputable def ymlQueue (fs : Fs) : Phase :=
  open Classical in if fs = ymlD.fs then { mid := [ymlS1.fs], fs := ymlS2.fs, out := .ok } else { fs := fs, out := .failed }

/-- R, for the tarball. -/
def ymlR : ROracle := fun c fs =>
  if c.lib = [s%"lib"] ∧ c.pkg = s%"t" then ((fs.set [s%"lib", s%"t"] .dir).set [s%"lib", s%"t", s%"DESCRIPTION"] (.file (ymlText (s%"t") (s%"0.1"))), .ok)
  else (fs, .status 1)

/-- see above -/
noncomputable def ymlRun : RunEnv := { twRun with download := ymlDownload, planned := ymlQueue, ie := { toyEnv true with R := ymlR } }

/-- The same, for computation. -/
def ymlRun' : RunEnv :=
  { twRun' with ie := { toyEnv true with R := ymlR }, download := fun _ => { fs := ymlD.fs, out := .ok }, planned := fun _ => { mid := [ymlS1.fs], fs := ymlS2.fs, out := .ok } }

theorem yml_eq : ymlRun.rInstall { lib := [s%"lib"] } ymlPlan ymlPre ymlFs = ymlRun'.rInstall { lib := [s%"lib"] } ymlPlan ymlPre ymlFs := by
  have h1 : ymlRun.ensureLibrary { lib := [s%"lib"] } ymlPlan ymlFs = ({ fs := ymlFs }, true) := rfl
  have h3 : (ymlRun.tag { lib := [s%"lib"] } { fs := ymlFs } (createRollbackPlan [s%"lib"] ymlPlan ymlPre ymlRun.ρ)).1.fs = ymlFs1 := rfl
  have h2 : ∀ w : World, w.fs = ymlFs1 → ymlRun.phases { lib := [s%"lib"] } ymlPlan w = ymlRun'.phases { lib := [s%"lib"] } ymlPlan w := by
    intro w hw
    unfold RunEnv.phases
    have e1 : ymlRun.download w.fs = { fs := ymlD.fs, out := .ok } := if_pos hw
    have e2 : ymlRun.planned ymlD.fs = { mid := [ymlS1.fs], fs := ymlS2.fs, out := .ok } := if_pos rfl
    dsimp only [World.move]
    rw [e1]
    dsimp only
    rw [e2]
    rfl
  unfold RunEnv.rInstall RunEnv.body
  rw [h1]
  dsimp only
  rw [h2 _ h3]
  rfl

theorem yml_ok : (ymlRun.rInstall { lib := [s%"lib"] } ymlPlan ymlPre ymlFs).2 = .exit0 false := by
  rw [yml_eq]
  decide +kernel


theorem yml_queue : QueueRuns ymlRun ymlQ [s%"lib"] ymlPlan (fun _ => False) ymlDone ToyHolds where
  job := ⟨1, 0, fun _ l => l, by decide +kernel⟩
  library := rfl
  wf := wellFormed_of_check twQ.job [s%"c"] (by decide) (by decide) (by decide)
  contract := ymlQ_contract
  moments := by
    intro fs st hst
    change st ∈ (ymlQueue fs).mid ++ [(ymlQueue fs).fs] at hst
    unfold ymlQueue at hst
    split at hst
    · rename_i h
      rw [h]
      have : st = ymlS1.fs ∨ st = ymlS2.fs := by simpa using hst
      rcases this with rfl | rfl
      · exact ⟨_, ymlS1_reach, rfl⟩
      · exact ⟨_, ymlS2_reach, rfl⟩
    · have : st = fs := by simpa using hst
      rw [this]
      exact ⟨_, .refl, rfl⟩
  ended := by
    intro fs h
    change (ymlQueue fs).out = .ok at h
    show ∃ s, QReach ymlQ fs s ∧ s.fs = (ymlQueue fs).fs ∧ s.run.ret = some .nil
    unfold ymlQueue at h ⊢
    split at h
    · rename_i hh
      rw [if_pos hh, hh]
      exact ⟨_, ymlS2_reach, rfl, rfl⟩
    · simp at h

theorem yml_downloads : DownloadsAre ymlRun ymlDe ymlPlan ymlQ.download [s%"lib"] ymlFs := by
  refine ⟨?_, ?_⟩
  · intro fs st hst
    change st ∈ (ymlDownload fs).mid ++ [(ymlDownload fs).fs] at hst
    unfold ymlDownload at hst
    split at hst
    · rename_i h
      have : st = ymlD.fs := by simpa using hst
      rw [this, h]
      exact .inr ⟨ymlD, ymlD_reach, fun x => .inl rfl⟩
    · have : st = fs := by simpa using hst
      rw [this]
      exact .inl fun x => .inl rfl
  · intro fs _ h
    change (ymlDownload fs).out = .ok at h
    show ∃ s, DlReach ymlDe ymlPlan.downloads fs s ∧ s.returned = true ∧ s.fs = (ymlDownload fs).fs ∧ _
    unfold ymlDownload at h ⊢
    split at h
    · rename_i hh
      rw [if_pos hh, hh]
      exact ⟨ymlD, ymlD_reach, rfl, rfl, fun p => rfl⟩
    · simp at h

theorem yml_places : Places ymlDe ymlQ (fun _ => False) := by
  refine ⟨rfl, rfl, rfl, rfl, fun _ => ⟨rfl, by show '/' ∉ s%"0123456789ab"; decide⟩, by decide, by decide, by decide, ?_, fun _ h => h.elim, ?_, ?_, fun _ h => h.elim⟩
  · intro p; constructor <;> simp [ymlDe, ymlQ, twQ, toyQ]
  · intro p; constructor <;> simp [ymlQ, twQ, toyQ]
  · intro p _ q _ h; constructor <;> simp [ymlQ, twQ, toyQ, h, Ne.symm h]

theorem yml_dest {d : PkgDl} {ip : InstallPlan} (hip : ip.downloads.map ymlDe.dest = [[s%"cache", s%"r-0123456789ab", s%"binary", s%"4.1", s%"c_2.0.tgz"]])
    (hd : d ∈ ip.downloads) : ymlDe.dest d = [s%"cache", s%"r-0123456789ab", s%"binary", s%"4.1", s%"c_2.0.tgz"] := by
  have : ymlDe.dest d ∈ ip.downloads.map ymlDe.dest := List.mem_map_of_mem hd
  rw [hip] at this
  simpa using this

theorem yml_binary {d : PkgDl} {ip : InstallPlan} (hip : ip.downloads.map ymlQ.ie.cachedBinary = [some [s%"cache", s%"r-0123456789ab", s%"binary", s%"4.1", s%"c_2.0.tgz"]])
    (hd : d ∈ ip.downloads) : ymlQ.ie.cachedBinary d = some [s%"cache", s%"r-0123456789ab", s%"binary", s%"4.1", s%"c_2.0.tgz"] := by
  have : ymlQ.ie.cachedBinary d ∈ ip.downloads.map ymlQ.ie.cachedBinary := List.mem_map_of_mem hd
  rw [hip] at this
  simpa using this

/-- The cache is in order when it holds nothing but the package file. -/
theorem yml_stocked {ip : InstallPlan} {fs : Fs} (h1 : ip.downloads.map ymlDe.dest = [[s%"cache", s%"r-0123456789ab", s%"binary", s%"4.1", s%"c_2.0.tgz"]])
    (h2 : ip.downloads.map ymlQ.ie.cachedBinary = [some [s%"cache", s%"r-0123456789ab", s%"binary", s%"4.1", s%"c_2.0.tgz"]])
    (hf : ∀ r n, fs (s%"cache" :: r) = some n → n = .dir ∨ (r.length = 4 ∧ n = .file (s%"code")))
    (h4 : fs [s%"cache", s%"r-0123456789ab", s%"binary", s%"4.1", s%"c_2.0.tgz"] ≠ some .dir) : Stocked ymlDe ymlQ ip ToyHolds fs := by
  refine ⟨?_, ?_, ?_, ?_⟩
  · intro d hd x hx hx' c hc
    rw [yml_dest h1 hd] at hx'
    obtain ⟨r, rfl⟩ := hx
    have hl := hx'.length_le
    rcases hf r _ hc with h | ⟨h, _⟩
    · cases h
    · simp [dirPath, ymlDe] at hl
      omega
  · intro d hd n hn
    rw [yml_dest h1 hd] at hn
    rcases hf _ _ hn with rfl | ⟨_, rfl⟩
    · exact absurd hn h4
    · exact ⟨s%"code", rfl, by simp [ToyHolds]⟩
  · intro d hd _
    exact ⟨s%"code", rfl, by simp [ToyHolds]⟩
  · intro d hd b n hb hn
    rw [yml_binary h2 hd] at hb
    obtain rfl := Option.some.inj hb
    rcases hf _ _ hn with rfl | ⟨_, rfl⟩
    · exact absurd hn h4
    · exact ⟨s%"code", rfl, by simp [ToyHolds]⟩

theorem ymlR_confined : RConfined ymlR [s%"lib"] := by
  intro c fs p _ h
  unfold ymlR
  split
  · rename_i hc
    rcases h with h | ⟨h, _⟩
    · exact absurd hc.1 h
    · rw [hc.2] at h
      show Fs.set _ _ _ p = _
      unfold Fs.set
      rw [if_neg, if_neg]
      · rintro rfl; exact h (by decide)
      · rintro rfl; exact h (by decide)
  · rfl

/-- What the tarball is unpacked to, in the example: a directory. -/
def ymlUnpacked (p : Str) (D : Path → Option Node) : Prop := p = s%"t" ∧ D [] = some .dir

theorem yml_R : Installs ymlR ymlDone ymlUnpacked := by
  intro c fs h hu
  unfold ymlR at h ⊢
  split at h
  · rename_i hc
    rw [if_pos hc, hc.1, hc.2]
    exact ymlFields_written ymlFields_t (by decide) (by decide +kernel) (by decide +kernel) (fun hg => absurd ((ymlGiven _).2 rfl) hg)
      (by decide +kernel) rfl rfl
  · cases h

theorem yml_tar : ∀ t, ymlX.Given t → ∀ st ∈ (ymlRun.rInstall { lib := [s%"lib"] } ymlPlan ymlPre ymlFs).1.states, TarballThere ymlRun ymlPlan ymlUnpacked st t := by
  rw [yml_eq]
  intro t ht
  rw [(ymlGiven t).1 ht]
  have hh : ∀ st ∈ (ymlRun'.rInstall { lib := [s%"lib"] } ymlPlan ymlPre ymlFs).1.states, st [s%"w", s%"t"] = some .dir := by decide +kernel
  have hp : absPath ymlRun.ie.cwd ((GoMap.get? ymlPlan.additional (s%"t")).getD {}).installPath = [s%"w", s%"t"] := by
    show absPath (toyEnv true).cwd _ = _
    decide +kernel
  intro st hst
  have := hh st hst
  unfold TarballThere
  rw [hp]
  refine ⟨by rw [this]; simp, ⟨rfl, this⟩, ?_⟩
  have h : PlainStamp ((toyEnv true).stamp { type := .source, repo := { url := pathStr [s%"w", s%"t"], name := s%"IndividualPackage" } }) :=
    plainStamp_of (by decide +kernel) (by decide)
  exact h

theorem yml_there : ∀ p c, ymlProject.Fetched ymlEnv ymlX p → ¬ ymlX.Given p → ymlFs ([s%"lib"] ++ [p, s%"DESCRIPTION"]) = some (.file c) →
    ∃ gs, Stampable gs ∧ c = textOf (fieldLines gs) := by
  intro p c hf hg h
  rcases (ymlWanted p).1 (.inl hf) with rfl | rfl
  · rw [show ymlFs _ = some (.file (ymlText (s%"c") (s%"1.0"))) from rfl] at h
    cases h
    exact ⟨_, ymlFields_c1, rfl⟩
  · exact absurd ((ymlGiven _).2 rfl) hg

theorem yml_enough : TellsEnough ymlDone installedDesc ymlTar ymlProject ymlEnv ymlX ymlFs [s%"lib"] := tellsEnough_real yml_there

theorem yml_made : ∀ t D, ymlX.Given t → ymlTar t D → Announced installedDesc ymlProject ymlEnv t D := by
  rintro t D hg ⟨h0, hp, gs, v, h1, h2, h3, h4, _, h6⟩
  obtain ⟨d, hd, e1, _⟩ := wellWritten_read h2 hp h3 h4 h6
  exact ⟨h0, _, d, h1, hd, e1, fun repo ty o h => absurd (ymlGets h).1 (by rw [(ymlGiven t).1 hg]; decide)⟩

theorem yml_outside : Outside ymlRun [s%"lib"] :=
  ⟨ymlR_confined, by intro n fs st h; simp [ymlRun, twRun] at h, by intro fs p st h; simp [ymlRun, twRun] at h, fun _ l => List.Perm.refl l⟩

theorem yml_stock : Stocked ymlDe ymlQ ymlPlan ToyHolds ymlFs :=
  yml_stocked (by decide +kernel) (by decide +kernel) (by intro r n h; simp [ymlFs] at h) (by decide)

/-- Non-vacuity of C136: all hypotheses are met; the run installs `c` 2.0 and the tarball. -/
example : AsListed installedDesc ymlProject ymlEnv (s%"c") (contentOf (ymlRun.rInstall { lib := [s%"lib"] } ymlPlan ymlPre ymlFs).1.fs [s%"lib"] (s%"c")) ∧
    ymlTar (s%"t") (contentOf (ymlRun.rInstall { lib := [s%"lib"] } ymlPlan ymlPre ymlFs).1.fs [s%"lib"] (s%"t")) := by
  obtain ⟨c', h⟩ := ymlMade
  have k := (C136_install_partial (cfg := { lib := [s%"lib"] }) ymlPosed ymlLibrary h yml_queue yml_downloads yml_places yml_stock yml_outside
    ⟨fun _ _ _ => rfl, fun _ _ => rfl⟩ yml_R yml_tar yml_enough rfl yml_ok)
  exact ⟨k.1 _ (((ymlWanted _).2 (.inl rfl)).resolve_right fun h => absurd ((ymlGiven _).1 h) (by decide)), k.2.1 _ ((ymlGiven _).2 rfl)⟩

/-- Non-vacuity of C136_read_back_partial: `c` and `t` are read back. -/
example : ∀ p, ymlProject.Wanted ymlEnv ymlX p → ∃ d, described installedDesc (ymlRun.rInstall { lib := [s%"lib"] } ymlPlan ymlPre ymlFs).1.fs [s%"lib"] p = some d ∧
    d.package = p := by
  obtain ⟨c', h⟩ := ymlMade
  intro p hp
  obtain ⟨_, d, h1, h2, _⟩ := C136_read_back_partial (cfg := { lib := [s%"lib"] }) ymlPosed ymlLibrary h yml_queue yml_downloads yml_places yml_stock yml_outside
    ⟨fun _ _ _ => rfl, fun _ _ => rfl⟩ yml_R yml_tar yml_there rfl yml_ok p hp
  exact ⟨d, h1, h2⟩

/-- Non-vacuity of C136_violated_depends: `d` is not there. -/
example : (ymlRun.rInstall { lib := [s%"lib"] } ymlPlan ymlPre ymlFs).2 = .exit0 false ∧
    Gone [s%"lib"] (ymlRun.rInstall { lib := [s%"lib"] } ymlPlan ymlPre ymlFs).1.fs (s%"d") := by
  obtain ⟨c', h⟩ := ymlMade
  refine ⟨yml_ok, ?_⟩
  refine C136_violated_depends (cfg := { lib := [s%"lib"] }) ymlPosed ymlLibrary h yml_queue yml_downloads yml_places yml_stock yml_outside
    ⟨fun _ _ _ => rfl, fun _ _ => rfl⟩ yml_R yml_tar yml_enough rfl yml_ok (d := { package := s%"proj", depends := [(s%"d", {})] }) (by decide) (by decide) ?_ (by decide) ?_
  · intro q hq
    rcases (ymlWanted q).1 hq with rfl | rfl <;> decide
  · intro r
    simp [ymlFs]

/-- The library after the run. -/
def ymlFs2 : Fs := (ymlRun'.rInstall { lib := [s%"lib"] } ymlPlan ymlPre ymlFs).1.fs

/-- Two minutes later; the database cache is as the first planning has left it. -/
def ymlLater : RepoEnv := { ymlEnv with now := 100120 }

/-- see above -/
def ymlCache : DbCache :=
  (ymlEnv.openConfigured idOrder idOrder ymlProject.custom (ymlProject.repos.map fun r => [r]) (fun _ => none) [(0, true)]).1

/-- see above -/
def ymlNexus2 : Nexus :=
  ((ymlLater.openConfigured idOrder idOrder ymlProject.custom (ymlProject.repos.map fun r => [r]) ymlCache [(0, false)]).2).getD
    { db := [], packages := [], defaultSourceType := .default }

def ymlPre2 : GoMap Desc := getPriorInstalled installedDesc ymlFs2 [s%"lib"] [s%"c", s%"t"]

/-- The second plan. -/
def ymlPlan2 : InstallPlan :=
  match planInstall ymlProject.cfg ymlNexus2 ymlPre2 true ymlX.tarballs ymlX.descriptions ymlX.table idOrder idOrder idOrder with
  | .planned _ _ ip => ip
  | _ => {}

theorem ymlFs2_eq (q : Path) (h1 : q ≠ [s%"lib", s%"c", s%"DESCRIPTION"]) (h2 : q ≠ [s%"lib", s%"c"]) (h3 : q ≠ [s%"lib", s%"t", s%"DESCRIPTION"])
    (h4 : q ≠ [s%"lib", s%"t"]) :
    ymlFs2 q = if [s%"lib", s%"__OLD__c"] <+: q then none else ymlD.fs q := by
  have h : ymlFs2 = fun q => if [s%"lib", s%"__OLD__c"] <+: q then none else
      (((ymlS2.fs.set [s%"lib", s%"t"] .dir).set [s%"lib", s%"t", s%"DESCRIPTION"] (.file (ymlText (s%"t") (s%"0.1")))).set [s%"lib", s%"t", s%"DESCRIPTION"]
        ((ymlFs2 [s%"lib", s%"t", s%"DESCRIPTION"]).getD .dir)) q := by rfl
  have hs : ymlS2.fs = (ymlW.set [s%"lib", s%"c", s%"DESCRIPTION"] (.file [])).set [s%"lib", s%"c", s%"DESCRIPTION"]
      ((ymlS2.fs [s%"lib", s%"c", s%"DESCRIPTION"]).getD .dir) := by rfl
  have hw : ymlW = (ymlD.fs.set [s%"lib", s%"c"] .dir).set [s%"lib", s%"c", s%"DESCRIPTION"] (.file (ymlText (s%"c") (s%"2.0"))) := by rfl
  rw [h, hs, hw]
  simp [Fs.set, h1, h2, h3, h4]

theorem ymlFs2_lib (n : Str) (r : Path) (hn : n ≠ s%"c") (hn' : n ≠ s%"t") : ymlFs2 (s%"lib" :: n :: r) = none := by
  obtain ⟨c', h⟩ := ymlMade
  have hG := (planFacts ymlPosed ymlDescribed (ymlTarballs _) h).downloads
  have hd : ymlD.fs (s%"lib" :: n :: r) = ymlFs1 (s%"lib" :: n :: r) :=
    C118_downloads_spare_library yml_places hG (.inr ⟨ymlD, ymlD_reach, fun x => .inl rfl⟩) _ ⟨n :: r, rfl⟩
  rw [ymlFs2_eq _ (by simp [hn]) (by simp [hn]) (by simp [hn']) (by simp [hn']), hd]
  split
  · rfl
  · rename_i hp
    simp at hp
    simp [hn, ymlFs1, Fs.rename, ymlFs, hp]

theorem ymlFs2_cache (r : Path) (n : Node) (h : ymlFs2 (s%"cache" :: r) = some n) : n = .dir ∨ (r.length = 4 ∧ n = .file (s%"code")) := by
  rw [ymlFs2_eq _ (by simp) (by simp) (by simp) (by simp), if_neg (by simp)] at h
  by_cases hd : s%"cache" :: r = [s%"cache", s%"r-0123456789ab", s%"binary", s%"4.1", s%"c_2.0.tgz"]
  · rw [hd, show ymlD.fs _ = some (.file (s%"code")) from by decide +kernel] at h
    refine .inr ⟨?_, (Option.some.inj h).symm⟩
    have := congrArg List.length hd
    simpa using this
  · obtain ⟨c', hm⟩ := ymlMade
    have hG := (planFacts ymlPosed ymlDescribed (ymlTarballs _) hm).downloads
    rw [dl_elsewhere ymlD_reach _ (fun d hd' => by rw [yml_dest (by decide +kernel) hd']; exact fun h => hd h.symm)] at h
    rcases mkRepos_cases ymlDe yml_places.shape _ (by
        intro r hr
        obtain ⟨d, hd, rfl⟩ := mem_getRepos hr
        exact (hG.plain d hd).1.1) ymlFs1 (s%"cache" :: r) with h' | ⟨_, _, h'⟩
    · change DlEnv.mkDirs _ _ _ _ = _ at h'
      rw [h'] at h
      simp [ymlFs1, Fs.rename, ymlFs] at h
    · change DlEnv.mkDirs _ _ _ _ = _ at h'
      rw [h'] at h
      exact .inl (Option.some.inj h).symm

theorem ymlMade2 : ∃ c'', PlanMade ymlProject ymlLater ymlCache c'' installedDesc ymlX ymlFs2 [s%"lib"] ymlPre2 ymlPlan2 := by
  have h : ((ymlLater.openConfigured idOrder idOrder ymlProject.custom (ymlProject.repos.map fun r => [r]) ymlCache
    [(0, false)]).2).isSome = true := by decide +kernel
  obtain ⟨nx, h⟩ := Option.isSome_iff_exists.1 h
  have hp : ∃ req nx', planInstall ymlProject.cfg ymlNexus2 ymlPre2 true ymlX.tarballs ymlX.descriptions ymlX.table idOrder idOrder idOrder = .planned req nx' ymlPlan2 := by
    have h : (match planInstall ymlProject.cfg ymlNexus2 ymlPre2 true ymlX.tarballs ymlX.descriptions ymlX.table idOrder idOrder idOrder with | .planned _ _ _ => true | _ => false) = true := by
      decide +kernel
    unfold ymlPlan2
    revert h
    cases planInstall ymlProject.cfg ymlNexus2 ymlPre2 true ymlX.tarballs ymlX.descriptions ymlX.table idOrder idOrder idOrder with
    | planned req nx' ip => exact fun _ => ⟨req, nx', rfl⟩
    | _ => intro h; cases h
  obtain ⟨req, nx', hp⟩ := hp
  have hid : idOrder.Fair := fun _ _ => List.Perm.refl _
  refine ⟨(ymlLater.openConfigured idOrder idOrder ymlProject.custom (ymlProject.repos.map fun r => [r]) ymlCache [(0, false)]).1,
    idOrder, idOrder, idOrder, idOrder, idOrder, [(0, false)], ymlNexus2, nx', [s%"c", s%"t"], req, hid, hid, hid, hid, hid, by decide, ?_, ?_, rfl, ?_⟩
  · unfold ymlNexus2
    rw [h]
    exact Prod.ext rfl h
  · intro n
    by_cases hn : n = s%"c"
    · subst hn
      rw [show ymlFs2 _ = some .dir from by decide +kernel]
      simp
    · by_cases hn' : n = s%"t"
      · subst hn'
        rw [show ymlFs2 _ = some .dir from by decide +kernel]
        simp
      · have := ymlFs2_lib n [] hn hn'
        simp [hn, hn', this]
  · rw [show ymlFs2.isDir [s%"lib"] = true from by decide +kernel]
    exact hp

/-- The second run: its queue is killed at the start. -/
def ymlAgain : RunEnv := { twRun' with download := fun fs => { fs := fs, out := .dead }, planned := fun fs => { fs := fs, out := .failed } }

/-- Non-vacuity of C137: all hypotheses are met by these two runs. -/
example : (∀ p, p ∈ members ymlPlan2 ↔ ymlProject.Wanted ymlEnv ymlX p) ∧
    ∀ st ∈ (ymlAgain.rInstall { lib := [s%"lib"] } ymlPlan2 ymlPre2 ymlFs2).1.states, Keeps [s%"lib"] (fun n => IsLock n ∨ ∃ t, ymlX.Given t ∧ (n = t ∨ n = backupName t)) ymlFs2 st := by
  obtain ⟨c'', h2⟩ := ymlMade2
  have hmade : PlanMade ymlProject ymlEnv (fun _ => none) ymlCache installedDesc ymlX ymlFs [s%"lib"] ymlPre ymlPlan := by
    obtain ⟨c', hc⟩ := ymlOpens
    have : c' = ymlCache := by unfold ymlCache; rw [hc]
    subst this
    obtain ⟨req, nx', hp⟩ := ymlPlanned
    have hid : idOrder.Fair := fun _ _ => List.Perm.refl _
    refine ⟨idOrder, idOrder, idOrder, idOrder, idOrder, [(0, true)], ymlNexus, nx', [s%"c"], req, hid, hid, hid, hid, hid, by decide, hc, ?_, rfl, hp⟩
    intro n
    by_cases hn : n = s%"c"
    · subst hn; simp [ymlFs]
    · simp [ymlFs, hn]
  have h := C137_again_partial (cfg := { lib := [s%"lib"] }) (cfg2 := { lib := [s%"lib"] }) ymlPosed ymlLibrary hmade yml_queue yml_downloads yml_places
    yml_stock yml_outside ⟨fun _ _ _ => rfl, fun _ _ => rfl⟩ yml_R yml_tar yml_enough yml_made rfl yml_ok (fs1 := ymlFs2) (by rw [yml_eq]; rfl)
    (fun n hl => ymlFs2_lib n _ (by rintro rfl; exact absurd hl (by decide)) (by rintro rfl; exact absurd hl (by decide))) (later := ymlLater) ⟨rfl, rfl, rfl, rfl, rfl, rfl⟩ h2
    (e2 := ymlAgain) (de2 := ymlDe) (q2 := ymlQ) (Scratch2 := fun _ => False) (Complete2 := ymlDone) (Holds2 := ToyHolds) rfl
    ⟨⟨1, 0, fun _ l => l, by decide +kernel⟩, rfl, yml_queue.wf, ymlQ_contract,
      by intro fs st hst
         have : st = fs := by simpa [ymlAgain] using hst
         rw [this]
         exact ⟨_, .refl, rfl⟩,
      by intro fs h; cases h⟩
    ⟨by intro fs st hst
        have : st = fs := by simpa [ymlAgain] using hst
        rw [this]
        exact .inl fun x => .inl rfl,
      by intro fs _ h; cases h⟩
    yml_places
    (yml_stocked (by decide +kernel) (by decide +kernel) ymlFs2_cache (by decide +kernel))
    ⟨tw_around.R, by intro n fs st h; simp [ymlAgain, twRun'] at h, by intro fs p st h; simp [ymlAgain, twRun'] at h, fun _ l => List.Perm.refl l⟩
  exact ⟨h.1, h.2.2.2⟩

/-- A run in which the installation of `c` fails. -/
noncomputable def ymlFails : RunEnv := { ymlRun with planned := fun fs => { fs := fs, out := .failed } }

/-- The same, for computation. -/
def ymlFails' : RunEnv := { ymlRun' with planned := fun fs => { fs := fs, out := .failed } }

theorem ymlFails_eq : ymlFails.rInstall { lib := [s%"lib"] } ymlPlan ymlPre ymlFs = ymlFails'.rInstall { lib := [s%"lib"] } ymlPlan ymlPre ymlFs := by
  have h1 : ymlFails.ensureLibrary { lib := [s%"lib"] } ymlPlan ymlFs = ({ fs := ymlFs }, true) := rfl
  have h3 : (ymlFails.tag { lib := [s%"lib"] } { fs := ymlFs } (createRollbackPlan [s%"lib"] ymlPlan ymlPre ymlFails.ρ)).1.fs = ymlFs1 := rfl
  have h2 : ∀ w : World, w.fs = ymlFs1 → ymlFails.phases { lib := [s%"lib"] } ymlPlan w = ymlFails'.phases { lib := [s%"lib"] } ymlPlan w := by
    intro w hw
    unfold RunEnv.phases
    have e1 : ymlFails.download w.fs = { fs := ymlD.fs, out := .ok } := if_pos hw
    dsimp only [World.move]
    rw [e1]
    rfl
  unfold RunEnv.rInstall RunEnv.body
  rw [h1]
  dsimp only
  rw [h2 _ h3]
  rfl

theorem ymlFails_queue : QueueRuns ymlFails ymlQ [s%"lib"] ymlPlan (fun _ => False) ymlDone ToyHolds :=
  ⟨yml_queue.job, rfl, yml_queue.wf, ymlQ_contract,
    by intro fs st hst
       have : st = fs := by simpa [ymlFails] using hst
       rw [this]
       exact ⟨_, .refl, rfl⟩,
    by intro fs h; cases h⟩

/-- Non-vacuity of C138: this run reports a failure, and `c` 1.0 is back; had it been interrupted, `c` 1.0 would be there or in its backup. -/
example : (ymlFails.rInstall { lib := [s%"lib"] } ymlPlan ymlPre ymlFs).2 = .exit0 true ∧
    Keeps [s%"lib"] IsLock ymlFs (ymlFails.rInstall { lib := [s%"lib"] } ymlPlan ymlPre ymlFs).1.fs ∧
    (∀ st ∈ (ymlFails.body { lib := [s%"lib"] } ymlPlan ymlPre { fs := ymlFs }).1.states,
      (Intact [s%"lib"] ymlFs st (s%"c") ∧ Gone [s%"lib"] st (backupName (s%"c"))) ∨ Saved [s%"lib"] ymlFs st (s%"c")) ∧
    ∀ st ∈ (ymlFails.rInstall { lib := [s%"lib"] } ymlPlan ymlPre ymlFs).1.states, ∀ r, st (s%"lib" :: s%"d" :: r) = ymlFs (s%"lib" :: s%"d" :: r) := by
  obtain ⟨c', h⟩ := ymlMade
  have hf : (ymlFails.rInstall { lib := [s%"lib"] } ymlPlan ymlPre ymlFs).2 = .exit0 true := by rw [ymlFails_eq]; decide +kernel
  refine ⟨hf, ?_, ?_, ?_⟩
  · exact C138_failure_partial (cfg := { lib := [s%"lib"] }) ymlPosed ymlLibrary h ymlFails_queue ⟨yml_downloads.moments, yml_downloads.ended⟩ yml_places yml_stock
      ⟨yml_outside.R, yml_outside.during, yml_outside.removal, yml_outside.order⟩ ⟨fun _ _ _ => rfl, fun _ _ => rfl⟩ rfl hf
  · intro st hst
    exact C138_interrupted_partial (cfg := { lib := [s%"lib"] }) ymlPosed ymlLibrary h ymlFails_queue ⟨yml_downloads.moments, yml_downloads.ended⟩ yml_places yml_stock
      ⟨yml_outside.R, yml_outside.during, yml_outside.removal, yml_outside.order⟩ rfl (fun _ _ _ => rfl) st hst (s%"c") { package := s%"c", version := s%"1.0" }
      ((ymlWanted _).2 (.inl rfl)) (by decide)
  · exact C138_others_partial (cfg := { lib := [s%"lib"] }) ymlPosed ymlLibrary h ymlFails_queue ⟨yml_downloads.moments, yml_downloads.ended⟩ yml_places yml_stock
      ⟨yml_outside.R, yml_outside.during, yml_outside.removal, yml_outside.order⟩ (s%"d") (by rw [ymlWanted]; decide)
      (by intro p hp; rcases (ymlWanted p).1 hp with rfl | rfl <;> decide) (by decide)

end Pkgr
