/- C175: any number of runs of `pkgr install`. -/
import Verif.Props.InstallAgain
import Verif.Spec.Rounds

namespace Pkgr
open Spec

variable {P : Project} {re : RepoEnv} {c : DbCache} {parse : Str → Option Desc} {x : Extras} {fs : Fs} {lib : Path}
  {Complete Unpacked Made : Str → (Path → Option Node) → Prop}

theorem sameRepos_trans {a b d : RepoEnv} (h : SameRepos a b) (h' : SameRepos b d) : SameRepos a d :=
  ⟨h'.server.trans h.server, h'.decode.trans h.decode, h'.platform.trans h.platform, h'.linuxUri.trans h.linuxUri, h'.rv.trans h.rv, h'.md5hex.trans h.md5hex⟩

theorem same_announced {later : RepoEnv} (hs : SameRepos re later) (p : Str) (D : Path → Option Node) : Announced parse P later p D ↔ Announced parse P re p D := by
  unfold Announced
  simp only [same_gets hs]

theorem keeps_at {lib : Path} {S : Str → Prop} {fs st : Fs} (hk : Keeps lib S fs st) {n : Str} (hn : ¬ S n) (r : Path) : st (lib ++ n :: r) = fs (lib ++ n :: r) := by
  refine hk _ (List.prefix_append _ _) ?_
  rintro m hm hp
  have := (List.prefix_append_right_inj lib).1 hp
  rw [List.cons_prefix_cons] at this
  exact hn (this.1 ▸ hm)

/-- What holds after any history. -/
structure RoundsInv (P : Project) (x : Extras) (parse : Str → Option Desc) (Complete Made : Str → (Path → Option Node) → Prop) (lib : Path)
    (re : RepoEnv) (fs : Fs) (l : List Bool) (re1 : RepoEnv) (c1 : DbCache) (fs1 : Fs) : Prop where
  same : SameRepos re re1
  posed : WellPosed P re1 c1
  order : LibraryOK P re1 x parse fs1 lib
  tells : TellsEnough Complete parse Made P re1 x fs1 lib
  done : false ∈ l → fs1 lib = some .dir ∧ ∀ p, P.Wanted re x p → Complete p (contentOf fs1 lib p)
  others : ∀ n r, ¬ P.Wanted re x n → ¬ IsLock n → (∀ p, P.Wanted re x p → n ≠ backupName p) → fs1 (lib ++ n :: r) = fs (lib ++ n :: r)
  current : ∀ p, P.Fetched re x p → CurrentIn parse P re fs lib p → Intact lib fs fs1 p
  stays : false ∉ l → ∀ p, P.Wanted re x p → contentOf fs1 lib p = contentOf fs lib p
  uniq : l ≠ [] → ∀ p repo ty d repo' ty' d', P.Gets re p repo ty d → P.Gets re p repo' ty' d' → d = d'

theorem rounds_inv (hW : WellPosed P re c) (hL : LibraryOK P re x parse fs lib) (hC : TellsEnough Complete parse Made P re x fs lib)
    (hmade : ∀ t D, x.Given t → Made t D → Announced parse P re t D) {l : List Bool} {re1 : RepoEnv} {c1 : DbCache} {fs1 : Fs}
    (h : Rounds P x parse Complete Unpacked lib re c fs l re1 c1 fs1) : RoundsInv P x parse Complete Made lib re fs l re1 c1 fs1 := by
  induction h with
  | none => exact ⟨⟨rfl, rfl, rfl, rfl, rfl, rfl⟩, hW, hL, hC, fun h => absurd h List.not_mem_nil, fun _ _ _ _ _ => rfl, fun _ _ _ _ => rfl, fun _ _ _ => rfl, fun h => absurd rfl h⟩
  | @more l re1 c1 fs1 re2 c2 fs2 failed _ hrun hs2 ih =>
    obtain ⟨hs, hW1, hL1, hC1, hdone, hoth, hcur, hstay, _⟩ := ih
    obtain ⟨e, de, q, cfg, pre, ip, Scratch, Holds, hlib, hrb, hup, hplan, hq, hD, hP, hS, ha, hd, hI, htar, hend, hfs, hlock⟩ := hrun
    subst hlib
    have hF := planFacts hW1 hL1.named hL1.tarballs hplan
    have hgood : ∀ p, P.Wanted re x p → ¬ IsLock p := fun p hp => (hF.good p ((hF.mem p).2 ((same_wanted hs p).2 hp))).2.1
    have hW2 := wellPosed_later hs2 hW1 hplan
    have hs' := sameRepos_trans hs hs2
    have huniq : ∀ p repo ty d repo' ty' d', P.Gets re p repo ty d → P.Gets re p repo' ty' d' → d = d' := fun p repo ty d repo' ty' d' g g' =>
      hF.uniq p repo ty d repo' ty' d' ((same_gets hs ..).2 g) ((same_gets hs ..).2 g')
    cases failed with
    | true =>
      obtain ⟨hk, hLa⟩ := library_restored hW1 hL1 hplan hq hD hP hS ha hd hrb hend (by rw [← hfs]; exact hlock)
      rw [← hfs] at hk hLa
      have hat : ∀ n, ¬ IsLock n → ∀ r, fs2 (cfg.lib ++ n :: r) = fs1 (cfg.lib ++ n :: r) := fun n hn r => keeps_at hk hn r
      have hcont : ∀ p, P.Wanted re x p → contentOf fs2 cfg.lib p = contentOf fs1 cfg.lib p := fun p hp => funext fun r => hat p (hgood p hp) r
      refine ⟨hs', hW2, library_later hs2 hLa, tellsEnough_later hs2 hC1 fun p hp => hcont p (.inl ((same_fetched hs p).1 hp)), fun hl => ?_, fun n r h1 h2 h3 => ?_, fun p hp hu r => ?_,
        fun hl p hp => (hcont p hp).trans (hstay (fun h => hl (List.mem_append_left _ h)) p hp), fun _ => huniq⟩
      · have hl' : false ∈ l := by simpa using hl
        refine ⟨?_, fun p hp => by rw [hcont p hp]; exact (hdone hl').2 p hp⟩
        refine (hk cfg.lib (List.prefix_refl _) fun n _ hp => ?_).trans (hdone hl').1
        have := hp.length_le
        simp only [List.length_append, List.length_singleton] at this
        omega
      · exact (hat n h2 r).trans (hoth n r h1 h2 h3)
      · exact (hat p (hgood p (.inl hp)) r).trans (hcur p hp hu r)
    | false =>
      have htar := htar rfl
      have hmade1 : ∀ t D, x.Given t → Made t D → Announced parse P re1 t D := fun t D ht hm => (same_announced hs t D).2 (hmade t D ht hm)
      have hall := complete_afterwards hW1 hL1 hplan hq hD hP hS ha hd hI htar hC1 hup hend
      have hLa := (library_afterwards hW1 hL1 hplan hq hD hP hS ha hd hI htar hC1 hmade1 hup hend (by rw [← hfs]; exact hlock)).2
      have hdir := library_dir hW1 hL1 hplan hq hD hP hS ha hend
      obtain ⟨_, _, h3, h4⟩ := C136_install_partial hW1 hL1 hplan hq hD hP hS ha hd hI htar hC1 hup hend
      rw [← hfs] at hall hLa hdir h3 h4
      refine ⟨hs', hW2, library_later hs2 hLa, ?_, fun _ => ⟨hdir, fun p hp => hall p ((same_wanted hs p).2 hp)⟩, fun n r g1 g2 g3 => ?_, fun p hp hu r => ?_,
        fun hl => absurd (List.mem_append_right _ (List.mem_singleton.2 rfl)) hl, fun _ => huniq⟩
      · exact ⟨fun p D h => ⟨(hC1.says p D h).1, fun hg => (same_asListed hs2 p D).2 ((hC1.says p D h).2 hg)⟩,
          fun p hp _ _ => hall p (.inl ((same_fetched hs2 p).1 hp))⟩
      · rcases h4 n r (fun h => g1 ((same_wanted hs n).1 h)) g2 with h | ⟨p, hp, hn, _⟩
        · exact h.trans (hoth n r g1 g2 g3)
        · exact absurd hn (g3 p ((same_wanted hs p).1 hp))
      · obtain ⟨u1, d, u2, u3⟩ := hu
        have hi := hcur p hp ⟨u1, d, u2, u3⟩
        refine (h3 p d ((same_fetched hs p).2 hp) ((hi []).trans u1) ?_ (fun repo ty o hg => u3 repo ty o ((same_gets hs ..).1 hg)) r).trans (hi r)
        unfold described at u2 ⊢
        rw [hi [s%"DESCRIPTION"]]
        exact u2

/-- C175 (partial: as C136 and C138).  After any number of runs of `pkgr install` with the same configuration, each of which came to its end, whether it failed or not, the library is in
order; if one of them has succeeded, every wanted package is in the library in a version that is not older than the published one, and so is what was
given as a tarball: the failures since then have taken nothing away. -/
theorem C175_lasting_partial (hW : WellPosed P re c) (hL : LibraryOK P re x parse fs lib) (hC : TellsEnough Complete parse Made P re x fs lib)
    (hmade : ∀ t D, x.Given t → Made t D → Announced parse P re t D) {l : List Bool} {re1 : RepoEnv} {c1 : DbCache} {fs1 : Fs}
    (h : Rounds P x parse Complete Unpacked lib re c fs l re1 c1 fs1) :
    LibraryOK P re x parse fs1 lib ∧
    (false ∈ l → (∀ p, P.Fetched re x p → AsListed parse P re p (contentOf fs1 lib p)) ∧ (∀ p, x.Given p → Made p (contentOf fs1 lib p))) := by
  have i := rounds_inv hW hL hC hmade h
  have hs : SameRepos re1 re := ⟨i.same.server.symm, i.same.decode.symm, i.same.platform.symm, i.same.linuxUri.symm, i.same.rv.symm, i.same.md5hex.symm⟩
  refine ⟨library_later hs i.order, fun hl => ⟨fun p hp => ?_, fun p hp => ?_⟩⟩
  · exact (hC.says p _ ((i.done hl).2 p (.inl hp))).2 fun hg => hL.tarballs.apart p hg hp
  · exact (hC.says p _ ((i.done hl).2 p (.inr hp))).1 hp

/-- C175 (partial: as C136 and C138).  Whatever these runs did, what the configuration does not ask for is as it was before the first of them (R's locks and the backups of wanted packages
aside), and so is every wanted package of the repositories that was there before the first of them in a version that is not older than the published one. -/
theorem C175_untouched_partial (hW : WellPosed P re c) (hL : LibraryOK P re x parse fs lib) (hC : TellsEnough Complete parse Made P re x fs lib)
    (hmade : ∀ t D, x.Given t → Made t D → Announced parse P re t D) {l : List Bool} {re1 : RepoEnv} {c1 : DbCache} {fs1 : Fs}
    (h : Rounds P x parse Complete Unpacked lib re c fs l re1 c1 fs1) :
    (∀ n r, ¬ P.Wanted re x n → ¬ IsLock n → (∀ p, P.Wanted re x p → n ≠ backupName p) → fs1 (lib ++ n :: r) = fs (lib ++ n :: r)) ∧
    (∀ p, P.Fetched re x p → CurrentIn parse P re fs lib p → Intact lib fs fs1 p) :=
  let i := rounds_inv hW hL hC hmade h
  ⟨i.others, i.current⟩

/-- C175 (partial: as C172).  And whatever these runs did, the next one succeeds if nothing goes wrong in it, and then the library is as the configuration says. -/
theorem C175_next_partial (hW : WellPosed P re c) (hL : LibraryOK P re x parse fs lib) (hC : TellsEnough Complete parse Made P re x fs lib)
    (hmade : ∀ t D, x.Given t → Made t D → Announced parse P re t D) {l : List Bool} {re1 : RepoEnv} {c1 c2 : DbCache} {fs1 : Fs}
    (h : Rounds P x parse Complete Unpacked lib re c fs l re1 c1 fs1)
    {e : RunEnv} {de : DlEnv} {q : QEnv} {cfg : RunCfg} {pre : GoMap Desc} {ip : InstallPlan} {Scratch : Path → Prop} {Holds : Str → Str → Prop}
    (hlib : cfg.lib = lib) (hplan : PlanMade P re1 c1 c2 parse x fs1 lib pre ip)
    (hq : QueueRuns e q lib ip Scratch Complete Holds) (hD : DownloadsAre e de ip q.download lib fs1)
    (hP : Places de q Scratch) (hS : Stocked de q ip Holds fs1) (ha : Outside e lib) (hd : NoFaults e.disk)
    (hI : Installs e.ie.R Complete Unpacked) (hup : cfg.noUpdate = false)
    (hmk : fs1 lib = some .dir ∨ (cfg.strict = false ∧ e.mkdirFails fs1 = false))
    (hroom : NoFileInTheWay de q ip fs1) (hbin : BinariesFit de q ip) (hR : RSucceeds q Complete Holds)
    (hT : TarballsSucceed e.ie.R ip lib Complete Unpacked)
    (htar : ∀ t, x.Given t → ∀ st ∈ (e.rInstall cfg ip pre fs1).1.states, TarballReady e ip Unpacked st t)
    (hcpu : 0 < q.job.ncpu) (hsize : (queued ip).length ≤ 2500 + q.job.ncpu)
    (hrun : RunsOut e de q ip (atDownloads e cfg ip pre fs1)) :
    (e.rInstall cfg ip pre fs1).2 = .exit0 false ∧
    (∀ p, P.Fetched re x p → AsListed parse P re p (contentOf (e.rInstall cfg ip pre fs1).1.fs lib p)) ∧
    (∀ p, x.Given p → Made p (contentOf (e.rInstall cfg ip pre fs1).1.fs lib p)) := by
  have i := rounds_inv hW hL hC hmade h
  subst hlib
  obtain ⟨k1, k2, k3⟩ := C172_install_partial i.posed i.order hplan hq hD hP hS ha hd hI i.tells hup hmk hroom hbin hR hT htar hcpu hsize hrun
  exact ⟨k1, fun p hp => (same_asListed i.same p _).1 (k2 p ((same_fetched i.same p).2 hp)), k3⟩

/-- The two runs of C173: the first fails on the tarball, the second installs it. -/
theorem rounds_example : ∃ re3 c3 fs3, Rounds ymlProject ymlX installedDesc ymlDone ymlUnpacked [s%"lib"] ymlEnv (fun _ => none) mendFs [true, false] re3 c3 fs3 := by
  obtain ⟨c'', h2⟩ := mendMade2
  have hs : SameRepos ymlEnv ymlLater := ⟨rfl, rfl, rfl, rfl, rfl, rfl⟩
  have hF := planFacts ymlPosed mendDescribed (ymlTarballs _) mendMade
  have hF2 := planFacts (wellPosed_later hs ymlPosed mendMade) mendDescribed (library_later hs mendLibrary).tarballs h2
  have hbad : Installs mendBad ymlDone ymlUnpacked := fun c fs h _ => by cases h
  have r1 := Rounds.more .none (⟨mendRun mendBad, ymlDe, mendQ, { lib := [s%"lib"] }, mendPre, mendPlan, fun _ => False, ToyHolds, rfl, rfl, rfl, mendMade,
    mend_queue mendBad ⟨1, 0, fun _ l => l, by decide +kernel⟩, mend_downloads mendBad (.inl rfl) hF.downloads, mend_places,
    mend_stocked (by decide +kernel) (by decide +kernel), mend_outside fun _ _ _ _ _ => rfl, ⟨fun _ _ _ => rfl, fun _ _ => rfl⟩, hbad, fun h => absurd h (by decide),
    mend_failed, mend_restored, mendLock⟩ :
      CompletedRun ymlProject ymlX installedDesc ymlDone ymlUnpacked [s%"lib"] ymlEnv (fun _ => none) mendFs ymlCache mendFs true) hs
  have hok : ((mendRun ymlR).rInstall { lib := [s%"lib"] } mendPlan2 mendPre mendFs).2 = .exit0 false := by
    rw [mend_eq _ _ (.inr rfl)]
    decide +kernel
  refine ⟨ymlLater, c'', _, r1.more (⟨mendRun ymlR, ymlDe, mendQ, { lib := [s%"lib"] }, mendPre, mendPlan2, fun _ => False, ToyHolds, rfl, rfl, rfl, h2,
    mend_queue ymlR ⟨1, 0, fun _ l => l, by decide +kernel⟩, mend_downloads ymlR (.inr rfl) hF2.downloads, mend_places,
    mend_stocked (by decide +kernel) (by decide +kernel), mend_outside ymlR_confined, ⟨fun _ _ _ => rfl, fun _ _ => rfl⟩, yml_R,
    fun _ t ht st hst => (mend_tar t ht st hst).1, hok, rfl, ?_⟩) ⟨rfl, rfl, rfl, rfl, rfl, rfl⟩⟩
  rw [mend_eq _ _ (.inr rfl)]
  intro n hl
  have h : ∀ q, ¬ [s%"lib", s%"t"] <+: q → ((mendRun' ymlR).rInstall { lib := [s%"lib"] } mendPlan2 mendPre mendFs).1.fs q = mendFs q := by
    intro q hq
    have : ((mendRun' ymlR).rInstall { lib := [s%"lib"] } mendPlan2 mendPre mendFs).1.fs = twiceFs := by rfl
    rw [this]
    exact twiceFs_other q hq
  rw [h _ (by simp; rintro rfl; exact absurd hl (by decide))]
  exact mendLock n hl

/-- Non-vacuity of C175: after a failure and a success. -/
example : ∃ re3 c3 fs3, Rounds ymlProject ymlX installedDesc ymlDone ymlUnpacked [s%"lib"] ymlEnv (fun _ => none) mendFs [true, false] re3 c3 fs3 ∧
    ymlTar (s%"t") (contentOf fs3 [s%"lib"] (s%"t")) ∧ Intact [s%"lib"] mendFs fs3 (s%"c") := by
  obtain ⟨re3, c3, fs3, h⟩ := rounds_example
  have hC : TellsEnough ymlDone installedDesc ymlTar ymlProject ymlEnv ymlX mendFs [s%"lib"] := tellsEnough_real mendStamped
  refine ⟨re3, c3, fs3, h, ((C175_lasting_partial ymlPosed mendLibrary hC yml_made h).2 (by decide)).2 _ ((ymlGiven _).2 rfl),
    (C175_untouched_partial ymlPosed mendLibrary hC yml_made h).2 _ (((ymlWanted _).2 (.inl rfl)).resolve_right fun h => absurd ((ymlGiven _).1 h) (by decide)) ?_⟩
  refine ⟨by decide, { package := s%"c", version := s%"2.0" }, by decide, fun repo ty o hg => ?_⟩
  obtain ⟨r, t, d, h1, h2⟩ := ymlPublished
  have hF := planFacts ymlPosed mendDescribed (ymlTarballs _) mendMade
  rw [hF.uniq _ _ _ _ _ _ _ hg h1, h2]
  decide

/-- Non-vacuity of C175_next: after a run that installs the tarball, the next one installs it again. -/
example : (twiceRun.rInstall { lib := [s%"lib"] } twicePlan twicePre twiceFs).2 = .exit0 false ∧
    ymlTar (s%"t") (contentOf (twiceRun.rInstall { lib := [s%"lib"] } twicePlan twicePre twiceFs).1.fs [s%"lib"] (s%"t")) := by
  obtain ⟨c'', h2⟩ := twiceMade
  have hs : SameRepos ymlEnv ymlLater := ⟨rfl, rfl, rfl, rfl, rfl, rfl⟩
  have hF := planFacts ymlPosed mendDescribed (ymlTarballs _) mendMade
  have hd0 : NoFaults (mendRun ymlR).disk := ⟨fun _ _ _ => rfl, fun _ _ => rfl⟩
  have hlk : ∀ n, IsLock n → twiceFs ([s%"lib"] ++ [n, s%"DESCRIPTION"]) = none := by
    intro n hl
    rw [twiceFs_other _ (by simp; rintro rfl; exact absurd hl (by decide))]
    exact mendLock n hl
  have hL2 := (library_afterwards (cfg := { lib := [s%"lib"] }) ymlPosed mendLibrary mendMade
    (mend_queue ymlR ⟨1, 0, fun _ l => l, by decide +kernel⟩) (mend_downloads ymlR (.inl rfl) hF.downloads) mend_places
    (mend_stocked (by decide +kernel) (by decide +kernel)) (mend_outside ymlR_confined) hd0 yml_R (fun t ht st hst => (twice_tar1 t ht st hst).1)
    (tellsEnough_real mendStamped) yml_made rfl twice_ok (by rw [← twice_first]; exact hlk)).2
  rw [← twice_first] at hL2
  have hF2 := planFacts (wellPosed_later hs ymlPosed mendMade) hL2.named (library_later hs hL2).tarballs h2
  have hround := Rounds.more .none (⟨mendRun ymlR, ymlDe, mendQ, { lib := [s%"lib"] }, mendPre, mendPlan, fun _ => False, ToyHolds, rfl, rfl, rfl, mendMade,
    mend_queue ymlR ⟨1, 0, fun _ l => l, by decide +kernel⟩, mend_downloads ymlR (.inl rfl) hF.downloads, mend_places,
    mend_stocked (by decide +kernel) (by decide +kernel), mend_outside ymlR_confined, hd0, yml_R, fun _ t ht st hst => (twice_tar1 t ht st hst).1,
    twice_ok, twice_first, hlk⟩ :
      CompletedRun ymlProject ymlX installedDesc ymlDone ymlUnpacked [s%"lib"] ymlEnv (fun _ => none) mendFs ymlCache twiceFs false) hs
  have k := C175_next_partial (cfg := { lib := [s%"lib"] }) ymlPosed mendLibrary (tellsEnough_real mendStamped) yml_made hround rfl h2 (e := twiceRun) (de := ymlDe) (q := mendQ)
    (Scratch := fun _ => False) (Holds := ToyHolds)
    twice_queue (twice_downloads hF2.downloads) mend_places twice_stocked
    ⟨ymlR_confined, by intro n fs st h; simp [twiceRun, twRun] at h, by intro fs p st h; simp [twiceRun, twRun] at h, fun _ l => List.Perm.refl l⟩
    ⟨fun _ _ _ => rfl, fun _ _ => rfl⟩ yml_R rfl (.inl (by decide +kernel))
    ⟨fun p _ x h => by
        rw [twiceFs_other _ (by simp [mendQ, calmQ, twQ, toyQ])] at h
        simp [mendFs, mendQ, calmQ, twQ, toyQ] at h,
      fun d _ x h => by
        rw [twiceFs_other _ (by simp [ymlDe])] at h
        simp [mendFs, ymlDe] at h⟩ (fun _ _ _ => .inl rfl) mendQ_succeeds
    (fun c fs hl hp _ _ => by
      have : c.pkg = s%"t" := by simpa [tarballs] using (show c.pkg ∈ [s%"t"] from (by decide +kernel : tarballs twicePlan = [s%"t"]) ▸ hp)
      show (ymlR c fs).2 = .ok
      unfold ymlR
      rw [if_pos ⟨hl, this⟩])
    twice_tar2 (by decide) (by decide +kernel) ?_
  · exact ⟨k.1, k.2.2 _ ((ymlGiven _).2 rfl)⟩
  · have hat : atDownloads twiceRun { lib := [s%"lib"] } twicePlan twicePre twiceFs = twiceFs1 := rfl
    have hdl : twiceRun.download twiceFs1 = { fs := twiceFs1, out := .ok } := if_pos rfl
    have hpl : twiceRun.planned twiceFs1 = { fs := twiceFs1, out := .ok } := if_pos rfl
    rw [hat]
    refine ⟨?_, ?_⟩
    · rw [hdl]
      refine ⟨twiceD, twiceD_reach, fun ev => ?_, twiceD_fs.symm, fun _ => rfl, fun _ => by rw [twiceD_same]; rfl⟩
      unfold DlEnv.fineStep
      rw [show (twiceD.dead || twiceD.returned) = true from rfl]
      rfl
    · rw [hdl]
      dsimp only
      rw [hpl]
      exact ⟨twiceS, twiceS_reach, twiceS_rest, twiceS_fs.symm, fun _ => rfl⟩

end Pkgr
