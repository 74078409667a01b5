/- C173: installing again after a success succeeds. -/
import Verif.Props.Repaired

namespace Pkgr
open Spec

variable {P : Project} {re : RepoEnv} {c c' : DbCache} {parse : Str → Option Desc} {x : Extras} {fs : Fs} {lib : Path} {pre : GoMap Desc} {ip : InstallPlan}
  {e : RunEnv} {de : DlEnv} {q : QEnv} {cfg : RunCfg} {Scratch : Path → Prop} {Holds : Str → Str → Prop}
  {Unpacked : Str → (Path → Option Node) → Prop} {Made : Str → (Path → Option Node) → Prop} {later : RepoEnv}

/-- After a run that reports success, every wanted package is complete in the library. -/
theorem complete_afterwards {Complete : Str → (Path → Option Node) → Prop} (hW : WellPosed P re c) (hL : LibraryOK P re x parse fs cfg.lib)
    (hplan : PlanMade P re c c' parse x fs cfg.lib pre ip)
    (hq : QueueRuns e q cfg.lib ip Scratch Complete Holds) (hD : DownloadsAre e de ip q.download cfg.lib fs)
    (hP : Places de q Scratch) (hS : Stocked de q ip Holds fs) (ha : Outside e cfg.lib) (hd : NoFaults e.disk)
    (hR : Installs e.ie.R Complete Unpacked)
    (htar : ∀ t, x.Given t → ∀ st ∈ (e.rInstall cfg ip pre fs).1.states, TarballThere e ip Unpacked st t)
    (hC : TellsEnough Complete parse Made P re x fs cfg.lib)
    (hup : cfg.noUpdate = false) (hok : (e.rInstall cfg ip pre fs).2 = .exit0 false) :
    ∀ p, P.Wanted re x p → Complete p (contentOf (e.rInstall cfg ip pre fs).1.fs cfg.lib p) := by
  have hF := planFacts hW hL.named hL.tarballs hplan
  obtain ⟨h1, _⟩ := C118_install hq hD hP hF.downloads hS ha hd hF.good hF.ok (hF.inOrder hL)
    (fun p hp hh hr => by
      have hng : ¬ x.Given p := fun h => hr (Or.inr (by rw [hF.tar]; exact h))
      exact hC.there p (((hF.mem p).1 (List.mem_append_left _ hp)).resolve_right hng) hng ((hF.whole (Made := Made) hL hup hp hh hr).2 hng)) hR
    (fun t ht => htar t (by rw [hF.tar] at ht; exact ht)) hok
  exact fun p hp => h1 p ((hF.mem p).2 hp)

/-- C173 (partial: as C137 and C172).  A run of `pkgr install` has succeeded.  The same command is given again, from the same configuration, when the repositories publish the
same and nobody has touched the library in between (the database cache may have grown old or not), and again nothing goes wrong (as in C172).  Then it reports
success again, the library is still as the configuration says, and nothing in it was changed at any moment but the packages that are given as tarballs, their
backups, and R's locks. -/
theorem C173_again_partial {Complete : Str → (Path → Option Node) → Prop} (hW : WellPosed P re c) (hL : LibraryOK P re x parse fs cfg.lib)
    (hplan : PlanMade P re c c' parse x fs cfg.lib pre ip)
    (hq : QueueRuns e q cfg.lib ip Scratch Complete Holds) (hD : DownloadsAre e de ip q.download cfg.lib fs)
    (hP : Places de q Scratch) (hS : Stocked de q ip Holds fs) (ha : Outside e cfg.lib) (hd : NoFaults e.disk)
    (hI : Installs e.ie.R Complete Unpacked)
    (htar : ∀ t, x.Given t → ∀ st ∈ (e.rInstall cfg ip pre fs).1.states, TarballThere e ip Unpacked st t)
    (hC : TellsEnough Complete parse Made P re x fs cfg.lib)
    (hmade : ∀ t D, x.Given t → Made t D → Announced parse P re t D) (hup : cfg.noUpdate = false) (hok : (e.rInstall cfg ip pre fs).2 = .exit0 false)
    {fs1 : Fs} (hfs1 : fs1 = (e.rInstall cfg ip pre fs).1.fs) (hlock : ∀ n, IsLock n → fs1 (cfg.lib ++ [n, s%"DESCRIPTION"]) = none)
    -- the second time
    (hs : SameRepos re later) {c'' : DbCache} {pre2 : GoMap Desc} {ip2 : InstallPlan}
    (hplan2 : PlanMade P later c' c'' parse x fs1 cfg.lib pre2 ip2)
    {e2 : RunEnv} {de2 : DlEnv} {q2 : QEnv} {cfg2 : RunCfg} {Scratch2 : Path → Prop} {Holds2 : Str → Str → Prop}
    (hlib : cfg2.lib = cfg.lib) (hq2 : QueueRuns e2 q2 cfg.lib ip2 Scratch2 Complete Holds2) (hD2 : DownloadsAre e2 de2 ip2 q2.download cfg.lib fs1)
    (hP2 : Places de2 q2 Scratch2) (hS2 : Stocked de2 q2 ip2 Holds2 fs1) (ha2 : Outside e2 cfg.lib) (hd2 : NoFaults e2.disk)
    (hI2 : Installs e2.ie.R Complete Unpacked) (hup2 : cfg2.noUpdate = false)
    (hroom : NoFileInTheWay de2 q2 ip2 fs1) (hbin : BinariesFit de2 q2 ip2) (hR : RSucceeds q2 Complete Holds2)
    (hT : TarballsSucceed e2.ie.R ip2 cfg.lib Complete Unpacked)
    (htar2 : ∀ t, x.Given t → ∀ st ∈ (e2.rInstall cfg2 ip2 pre2 fs1).1.states, TarballReady e2 ip2 Unpacked st t)
    (hcpu : 0 < q2.job.ncpu) (hsize : (queued ip2).length ≤ 2500 + q2.job.ncpu)
    (hrun : RunsOut e2 de2 q2 ip2 (atDownloads e2 cfg2 ip2 pre2 fs1)) :
    (e2.rInstall cfg2 ip2 pre2 fs1).2 = .exit0 false ∧
    (∀ p, P.Fetched re x p → AsListed parse P re p (contentOf (e2.rInstall cfg2 ip2 pre2 fs1).1.fs cfg.lib p)) ∧
    (∀ p, x.Given p → Made p (contentOf (e2.rInstall cfg2 ip2 pre2 fs1).1.fs cfg.lib p)) ∧
    ∀ st ∈ (e2.rInstall cfg2 ip2 pre2 fs1).1.states, Keeps cfg.lib (fun n => IsLock n ∨ ∃ t, x.Given t ∧ (n = t ∨ n = backupName t)) fs1 st := by
  have hall := complete_afterwards hW hL hplan hq hD hP hS ha hd hI htar hC hup hok
  have hkeep := (C137_again_partial hW hL hplan hq hD hP hS ha hd hI htar hC hmade hup hok hfs1 hlock hs hplan2 hlib hq2 hD2 hP2 hS2 ha2).2.2.2
  have hLa := (library_afterwards hW hL hplan hq hD hP hS ha hd hI htar hC hmade hup hok (by rw [← hfs1]; exact hlock)).2
  have hdir := library_dir hW hL hplan hq hD hP hS ha hok
  rw [← hfs1] at hall hLa hdir
  have hC2 : TellsEnough Complete parse Made P later x fs1 cfg.lib :=
    ⟨fun p D h => ⟨(hC.says p D h).1, fun hg => (same_asListed hs p D).2 ((hC.says p D h).2 hg)⟩, fun p hp _ _ => hall p (.inl ((same_fetched hs p).1 hp))⟩
  have hLl := library_later hs hLa
  have hW2 := wellPosed_later hs hW hplan
  rw [← hlib] at hplan2 hq2 hD2 ha2 hC2 hLl hT hdir hkeep ⊢
  obtain ⟨k1, k2, k3⟩ := C172_install_partial hW2 hLl hplan2 hq2 hD2 hP2 hS2 ha2 hd2 hI2 hC2 hup2 (.inl hdir) hroom hbin hR hT htar2 hcpu hsize hrun
  exact ⟨k1, fun p hp => (same_asListed hs p _).1 (k2 p ((same_fetched hs p).2 hp)), k3, hkeep⟩

/-! ### Example: the tarball is installed twice -/

/-- What the first run leaves: `c` 2.0 as before, and the tarball installed. -/
def twiceFs : Fs := ((mendRun' ymlR).rInstall { lib := [s%"lib"] } mendPlan mendPre mendFs).1.fs

/-- What is in the DESCRIPTION of `t`. -/
def twiceText : Node := (twiceFs [s%"lib", s%"t", s%"DESCRIPTION"]).getD .dir

theorem twiceFs_eq : twiceFs = (mendFs.set [s%"lib", s%"t"] .dir).set [s%"lib", s%"t", s%"DESCRIPTION"] twiceText := by
  have h : twiceFs = ((mendFs.set [s%"lib", s%"t"] .dir).set [s%"lib", s%"t", s%"DESCRIPTION"] (.file (ymlText (s%"t") (s%"0.1")))).set
      [s%"lib", s%"t", s%"DESCRIPTION"] twiceText := by rfl
  rw [h]
  funext q
  simp only [Fs.set]
  split <;> rfl

def twicePre : GoMap Desc := getPriorInstalled installedDesc twiceFs [s%"lib"] [s%"c", s%"t"]

/-- The second plan. -/
def twicePlan : InstallPlan :=
  match planInstall ymlProject.cfg ymlNexus2 twicePre true ymlX.tarballs ymlX.descriptions ymlX.table idOrder idOrder idOrder with
  | .planned _ _ ip => ip
  | _ => {}

/-- The files when the second run has set `t` aside. -/
def twiceFs1 : Fs := twiceFs.rename [s%"lib", s%"t"] [s%"lib", s%"__OLD__t"]

theorem twiceFs_other (q : Path) (h : ¬ [s%"lib", s%"t"] <+: q) : twiceFs q = mendFs q := by
  rw [twiceFs_eq]
  unfold Fs.set
  rw [if_neg, if_neg]
  · rintro rfl; exact h (List.prefix_refl _)
  · rintro rfl; exact h ⟨[s%"DESCRIPTION"], rfl⟩

theorem twiceNames (n : Str) : n ∈ [s%"c", s%"t"] ↔ twiceFs ([s%"lib"] ++ [n]) ≠ none := by
  by_cases hn : n = s%"c"
  · subst hn
    rw [twiceFs_other _ (by decide)]
    simp [mendFs]
  · by_cases hn' : n = s%"t"
    · subst hn'
      rw [show twiceFs _ = some .dir from by decide +kernel]
      simp
    · rw [twiceFs_other _ (by simpa using Ne.symm hn')]
      simp [mendFs, hn, hn']

theorem twiceMade : ∃ c'', PlanMade ymlProject ymlLater ymlCache c'' installedDesc ymlX twiceFs [s%"lib"] twicePre twicePlan := by
  have h : ((ymlLater.openConfigured idOrder idOrder ymlProject.custom (ymlProject.repos.map fun r => [r]) ymlCache
    [(0, false)]).2).isSome = true := by decide +kernel
  obtain ⟨nx, h⟩ := Option.isSome_iff_exists.1 h
  have hp : ∃ req nx', planInstall ymlProject.cfg ymlNexus2 twicePre true ymlX.tarballs ymlX.descriptions ymlX.table idOrder idOrder idOrder = .planned req nx' twicePlan := by
    have h : (match planInstall ymlProject.cfg ymlNexus2 twicePre true ymlX.tarballs ymlX.descriptions ymlX.table idOrder idOrder idOrder with | .planned _ _ _ => true | _ => false) = true := by
      decide +kernel
    unfold twicePlan
    revert h
    cases planInstall ymlProject.cfg ymlNexus2 twicePre true ymlX.tarballs ymlX.descriptions ymlX.table idOrder idOrder idOrder with
    | planned req nx' ip => exact fun _ => ⟨req, nx', rfl⟩
    | _ => intro h; cases h
  obtain ⟨req, nx', hp⟩ := hp
  have hid : idOrder.Fair := fun _ _ => List.Perm.refl _
  refine ⟨(ymlLater.openConfigured idOrder idOrder ymlProject.custom (ymlProject.repos.map fun r => [r]) ymlCache [(0, false)]).1,
    idOrder, idOrder, idOrder, idOrder, idOrder, [(0, false)], ymlNexus2, nx', [s%"c", s%"t"], req, hid, hid, hid, hid, hid, by decide, ?_, twiceNames, rfl, ?_⟩
  · unfold ymlNexus2
    rw [h]
    exact Prod.ext rfl h
  · rw [show twiceFs.isDir [s%"lib"] = true from by decide +kernel]
    exact hp

/-- The downloads: the file is in the cache. -/
def twiceD : FineState :=
  (ymlDe.fineRun twicePlan.downloads (ymlDe.fineInit twiceFs1 twicePlan.downloads) [.spawn, .acquire 0, .io 0 .check, .finish 0, .ret]).getD (ymlDe.fineInit twiceFs1 [])

theorem twiceD_reach : FineReach ymlDe twicePlan.downloads twiceFs1 twiceD := ⟨[.spawn, .acquire 0, .io 0 .check, .finish 0, .ret], by rfl⟩

theorem twice_mkdirAll (q : Path) (h : ∀ r ∈ q.inits, twiceFs1 r ≠ none) : twiceFs1.mkdirAll q = twiceFs1 := by
  funext x
  unfold Fs.mkdirAll
  rw [if_neg]
  exact fun hx => h x ((List.mem_inits _ _).2 hx.1) hx.2

theorem twice_dirs : (twiceFs1.mkdirAll [s%"cache", s%"r-0123456789ab", s%"src"]).mkdirAll [s%"cache", s%"r-0123456789ab", s%"binary", s%"4.1"] = twiceFs1 := by
  rw [twice_mkdirAll _ (by decide +kernel), twice_mkdirAll _ (by decide +kernel)]

theorem twiceD_fs : twiceD.fs = twiceFs1 := Eq.trans (by rfl) twice_dirs
theorem twiceD_same : twiceD.result = (mendD mendPlan).result := by rfl

def twiceS : QState := (calmExecs mendQ (mendQ.init twiceFs1) mendEv).getD (mendQ.init twiceFs1)

theorem twiceS_reach : Relation.ReflTransGen (Unfailing mendQ) (mendQ.init twiceFs1) twiceS := calmExecs_unfailing (evs := mendEv) (by rfl)
theorem twiceS_fs : twiceS.fs = twiceFs1 := by rfl
theorem twiceS_ret : twiceS.run.ret = some .nil := by rfl

theorem twiceS_stuck (ev : Event) : mendQ.job.step twiceS.run ev = none := by
  cases ev with
  | take i => cases i <;> rfl
  | finish i o => cases i <;> rfl
  | post i => cases i <;> rfl
  | _ => rfl

theorem twiceS_rest (t : QState) (h : Relation.ReflTransGen (Unfailing mendQ) twiceS t) : OnlyFiles twiceS t := by
  have hw : ∀ (i : Nat) (p : Str), twiceS.run.workers[i]? ≠ some (.running p) := by
    intro i p
    cases i <;> exact fun h => by cases h
  have hu : ∀ p, twiceS.run.updater ≠ .copy p := fun p h => by cases h
  induction h with
  | refl => exact ⟨rfl, rfl, rfl, rfl⟩
  | tail _ hs ih =>
    obtain ⟨e1, e2, e3, e4⟩ := ih
    exfalso
    cases hs.1 <;> simp_all [twiceS_stuck]

/-- The second run; if its downloads begin with other files, it dies. -/
noncomputable def twiceRun : RunEnv :=
  { twRun with
    ie := { toyEnv true with R := ymlR }
    download := fun fs => open Classical in if fs = twiceFs1 then { fs := twiceFs1, out := .ok } else { fs := fs, out := .dead }
    planned := fun fs => open Classical in if fs = twiceFs1 then { fs := twiceFs1, out := .ok } else { fs := fs, out := .failed } }

/-- The same, for computation. -/
def twiceRun' : RunEnv :=
  { twRun' with ie := { toyEnv true with R := ymlR }, download := fun _ => { fs := twiceFs1, out := .ok }, planned := fun _ => { fs := twiceFs1, out := .ok } }

theorem twice_eq : twiceRun.rInstall { lib := [s%"lib"] } twicePlan twicePre twiceFs = twiceRun'.rInstall { lib := [s%"lib"] } twicePlan twicePre twiceFs := by
  have h2 : ∀ w : World, w.fs = twiceFs1 → twiceRun.phases { lib := [s%"lib"] } twicePlan w = twiceRun'.phases { lib := [s%"lib"] } twicePlan w := by
    intro w hw
    unfold RunEnv.phases
    have e1 : twiceRun.download w.fs = { fs := twiceFs1, out := .ok } := if_pos hw
    have e2 : twiceRun.planned twiceFs1 = { fs := twiceFs1, out := .ok } := if_pos rfl
    dsimp only [World.move]
    rw [e1]
    dsimp only
    rw [e2]
    rfl
  have h1 : twiceRun.ensureLibrary { lib := [s%"lib"] } twicePlan twiceFs = ({ fs := twiceFs }, true) := rfl
  have h3 : (twiceRun.tag { lib := [s%"lib"] } { fs := twiceFs } (createRollbackPlan [s%"lib"] twicePlan twicePre twiceRun.ρ)).1.fs = twiceFs1 := rfl
  unfold RunEnv.rInstall RunEnv.body
  rw [h1]
  dsimp only
  rw [h2 _ h3]
  rfl

theorem twice_ready {R : RunEnv} {ip : InstallPlan} {st : Fs} {t : Str} (ht : ymlX.Given t) (hR : R.ie.cwd = (toyEnv true).cwd)
    (hs : PlainStamp (R.ie.stamp { type := .source, repo := { url := pathStr [s%"w", s%"t"], name := s%"IndividualPackage" } }))
    (hip : absPath (toyEnv true).cwd ((GoMap.get? ip.additional (s%"t")).getD {}).installPath = [s%"w", s%"t"])
    (h : st [s%"w", s%"t"] = some .dir ∧ st [s%"w"] = some .dir) : TarballReady R ip ymlUnpacked st t := by
  rw [(ymlGiven t).1 ht]
  unfold TarballReady TarballThere
  rw [hR, hip]
  exact ⟨⟨by rw [h.1]; simp, ⟨rfl, h.1⟩, hs⟩, h.2⟩

theorem twice_stamp : PlainStamp ((toyEnv true).stamp { type := .source, repo := { url := pathStr [s%"w", s%"t"], name := s%"IndividualPackage" } }) :=
  plainStamp_of (by decide +kernel) (by decide)

theorem twice_tar1 : ∀ t, ymlX.Given t → ∀ st ∈ ((mendRun ymlR).rInstall { lib := [s%"lib"] } mendPlan mendPre mendFs).1.states,
    TarballReady (mendRun ymlR) mendPlan ymlUnpacked st t := by
  rw [mend_eq _ _ (.inl rfl)]
  have hh : ∀ st ∈ ((mendRun' ymlR).rInstall { lib := [s%"lib"] } mendPlan mendPre mendFs).1.states, st [s%"w", s%"t"] = some .dir ∧ st [s%"w"] = some .dir := by decide +kernel
  exact fun t ht st hst => twice_ready ht rfl twice_stamp (by decide +kernel) (hh st hst)

theorem twice_tar2 : ∀ t, ymlX.Given t → ∀ st ∈ (twiceRun.rInstall { lib := [s%"lib"] } twicePlan twicePre twiceFs).1.states,
    TarballReady twiceRun twicePlan ymlUnpacked st t := by
  rw [twice_eq]
  have hh : ∀ st ∈ (twiceRun'.rInstall { lib := [s%"lib"] } twicePlan twicePre twiceFs).1.states, st [s%"w", s%"t"] = some .dir ∧ st [s%"w"] = some .dir := by decide +kernel
  exact fun t ht st hst => twice_ready ht rfl twice_stamp (by decide +kernel) (hh st hst)

theorem twice_queue : QueueRuns twiceRun mendQ [s%"lib"] twicePlan (fun _ => False) ymlDone ToyHolds := by
  have hr : QReach mendQ twiceFs1 twiceS := by
    have hq : ∀ {a b}, Relation.ReflTransGen (Unfailing mendQ) a b → Relation.ReflTransGen mendQ.Step a b := by
      intro a b h
      induction h with
      | refl => exact .refl
      | tail _ h ih => exact ih.tail h.1
    exact hq twiceS_reach
  have he : ∀ fs, twiceRun.planned fs = (open Classical in if fs = twiceFs1 then { fs := twiceFs1, out := .ok } else { fs := fs, out := .failed }) := fun _ => rfl
  refine ⟨⟨1, 0, fun _ l => l, by decide +kernel⟩, rfl, wellFormed_of_check twQ.job [s%"c"] (by decide) (by decide) (by decide), mendQ_contract, ?_, ?_⟩
  · intro fs st hst
    rw [he] at hst
    split at hst
    · rename_i h
      have : st = twiceFs1 := by simpa using hst
      rw [this, h]
      exact ⟨_, hr, twiceS_fs⟩
    · have : st = fs := by simpa using hst
      rw [this]
      exact ⟨_, .refl, rfl⟩
  · intro fs h
    rw [he] at h ⊢
    split at h
    · rename_i hh
      rw [if_pos hh, hh]
      exact ⟨_, hr, twiceS_fs, twiceS_ret⟩
    · simp at h

theorem twice_downloads (hg : GoodDownloads twicePlan) : DownloadsAre twiceRun ymlDe twicePlan mendQ.download [s%"lib"] twiceFs := by
  obtain ⟨s', h1, h2, h3, h4⟩ := fine_coarse (dests_once mend_places hg) twiceD_reach rfl
  replace h3 := h3.trans twiceD_fs
  replace h4 := h4.trans twiceD_same
  have he : ∀ fs, twiceRun.download fs = (open Classical in if fs = twiceFs1 then { fs := twiceFs1, out := .ok } else { fs := fs, out := .dead }) := fun _ => rfl
  refine ⟨?_, ?_⟩
  · intro fs st hst
    rw [he] at hst
    split at hst
    · rename_i h
      have : st = twiceFs1 := by simpa using hst
      rw [this, h, ← h3]
      exact .inr ⟨s', by rw [h3]; exact h1, fun x => .inl rfl⟩
    · have : st = fs := by simpa using hst
      rw [this]
      exact .inl fun x => .inl rfl
  · intro fs _ h
    rw [he] at h ⊢
    split at h
    · rename_i hh
      rw [if_pos hh, hh]
      exact ⟨s', h1, h2, h3, fun p => by rw [h4]; rfl⟩
    · simp at h

theorem twice_stocked : Stocked ymlDe mendQ twicePlan ToyHolds twiceFs := by
  have h := yml_stocked (ip := twicePlan) (fs := twiceFs) (by decide +kernel) (by decide +kernel) (by
    intro r n h
    rw [twiceFs_other _ (by simp)] at h
    by_cases hr : r = [s%"r-0123456789ab", s%"binary", s%"4.1", s%"c_2.0.tgz"]
    · subst hr
      exact .inr ⟨rfl, (Option.some.inj h).symm⟩
    · unfold mendFs at h
      split at h
      · exact .inl (Option.some.inj h).symm
      · simp [hr] at h) (by decide +kernel)
  exact ⟨h.1, h.2, h.3, h.4⟩

theorem twice_ok : ((mendRun ymlR).rInstall { lib := [s%"lib"] } mendPlan mendPre mendFs).2 = .exit0 false := by
  rw [mend_eq _ _ (.inl rfl)]
  decide +kernel

theorem twice_first : twiceFs = ((mendRun ymlR).rInstall { lib := [s%"lib"] } mendPlan mendPre mendFs).1.fs := by
  rw [mend_eq _ _ (.inl rfl)]
  rfl

/-- Non-vacuity of C173: the first run installs the tarball, the second installs it again, and `c` stays as it is. -/
example : (twiceRun.rInstall { lib := [s%"lib"] } twicePlan twicePre twiceFs).2 = .exit0 false ∧
    ymlTar (s%"t") (contentOf (twiceRun.rInstall { lib := [s%"lib"] } twicePlan twicePre twiceFs).1.fs [s%"lib"] (s%"t")) ∧
    ∀ st ∈ (twiceRun.rInstall { lib := [s%"lib"] } twicePlan twicePre twiceFs).1.states, st [s%"lib", s%"c"] = some .dir := by
  obtain ⟨c'', h2⟩ := twiceMade
  have hs : SameRepos ymlEnv ymlLater := ⟨rfl, rfl, rfl, rfl, rfl, rfl⟩
  have hF := planFacts ymlPosed mendDescribed (ymlTarballs _) mendMade
  have hd0 : NoFaults (mendRun ymlR).disk := ⟨fun _ _ _ => rfl, fun _ _ => rfl⟩
  have hlk : ∀ n, IsLock n → twiceFs ([s%"lib"] ++ [n, s%"DESCRIPTION"]) = none := by
    intro n hl
    rw [twiceFs_other _ (by simp; rintro rfl; exact absurd hl (by decide))]
    exact mendLock n hl
  have hL2 := (library_afterwards (cfg := { lib := [s%"lib"] }) ymlPosed mendLibrary mendMade
    (mend_queue ymlR ⟨1, 0, fun _ l => l, by decide +kernel⟩) (mend_downloads ymlR (.inl rfl) hF.downloads) mend_places
    (mend_stocked (by decide +kernel) (by decide +kernel)) (mend_outside ymlR_confined) hd0 yml_R (fun t ht st hst => (twice_tar1 t ht st hst).1)
    (tellsEnough_real mendStamped) yml_made rfl twice_ok (by rw [← twice_first]; exact hlk)).2
  rw [← twice_first] at hL2
  have hF2 := planFacts (wellPosed_later hs ymlPosed mendMade) hL2.named (library_later hs hL2).tarballs h2
  have k := C173_again_partial (cfg := { lib := [s%"lib"] }) (cfg2 := { lib := [s%"lib"] }) ymlPosed mendLibrary mendMade
    (mend_queue ymlR ⟨1, 0, fun _ l => l, by decide +kernel⟩) (mend_downloads ymlR (.inl rfl) hF.downloads) mend_places
    (mend_stocked (by decide +kernel) (by decide +kernel)) (mend_outside ymlR_confined) hd0 yml_R (fun t ht st hst => (twice_tar1 t ht st hst).1)
    (tellsEnough_real mendStamped) yml_made rfl twice_ok twice_first hlk hs h2 (e2 := twiceRun) (de2 := ymlDe) (q2 := mendQ) (Scratch2 := fun _ => False) (Holds2 := ToyHolds) rfl
    twice_queue (twice_downloads hF2.downloads) mend_places twice_stocked
    ⟨ymlR_confined, by intro n fs st h; simp [twiceRun, twRun] at h, by intro fs p st h; simp [twiceRun, twRun] at h, fun _ l => List.Perm.refl l⟩
    ⟨fun _ _ _ => rfl, fun _ _ => rfl⟩ yml_R rfl
    ⟨fun p _ x h => by
        rw [twiceFs_other _ (by simp [mendQ, calmQ, twQ, toyQ])] at h
        simp [mendFs, mendQ, calmQ, twQ, toyQ] at h,
      fun d _ x h => by
        rw [twiceFs_other _ (by simp [ymlDe])] at h
        simp [mendFs, ymlDe] at h⟩ (fun _ _ _ => .inl rfl) mendQ_succeeds
    (fun c fs hl hp _ _ => by
      have : c.pkg = s%"t" := by simpa [tarballs] using (show c.pkg ∈ [s%"t"] from (by decide +kernel : tarballs twicePlan = [s%"t"]) ▸ hp)
      show (ymlR c fs).2 = .ok
      unfold ymlR
      rw [if_pos ⟨hl, this⟩])
    twice_tar2 (by decide) (by decide +kernel) ?_
  · refine ⟨k.1, k.2.2.1 _ ((ymlGiven _).2 rfl), fun st hst => ?_⟩
    rw [k.2.2.2 st hst [s%"lib", s%"c"] ⟨[s%"c"], rfl⟩ ?_]
    · decide +kernel
    · rintro n (hl | ⟨t, ht, hn⟩) hp
      · have : n = s%"c" := by simpa using hp
        subst this
        exact absurd hl (by decide)
      · rw [(ymlGiven t).1 ht] at hn
        rcases hn with rfl | rfl <;> simp [backupName] at hp
  · have hat : atDownloads twiceRun { lib := [s%"lib"] } twicePlan twicePre twiceFs = twiceFs1 := rfl
    have hdl : twiceRun.download twiceFs1 = { fs := twiceFs1, out := .ok } := if_pos rfl
    have hpl : twiceRun.planned twiceFs1 = { fs := twiceFs1, out := .ok } := if_pos rfl
    rw [hat]
    refine ⟨?_, ?_⟩
    · rw [hdl]
      refine ⟨twiceD, twiceD_reach, fun ev => ?_, twiceD_fs.symm, fun _ => rfl, fun _ => by rw [twiceD_same]; rfl⟩
      unfold DlEnv.fineStep
      rw [show (twiceD.dead || twiceD.returned) = true from rfl]
      rfl
    · rw [hdl]
      dsimp only
      rw [hpl]
      exact ⟨twiceS, twiceS_reach, twiceS_rest, twiceS_fs.symm, fun _ => rfl⟩

end Pkgr
