/- C173: once the cause of a failure has been removed, installing again succeeds. -/
import Verif.Props.Succeeds

namespace Pkgr
open Spec

variable {P : Project} {re : RepoEnv} {c c' : DbCache} {parse : Str → Option Desc} {x : Extras} {fs : Fs} {lib : Path} {pre : GoMap Desc} {ip : InstallPlan}
  {e : RunEnv} {de : DlEnv} {q : QEnv} {cfg : RunCfg} {Scratch : Path → Prop} {Holds : Str → Str → Prop}
  {Unpacked : Str → (Path → Option Node) → Prop} {Made : Str → (Path → Option Node) → Prop} {later : RepoEnv}

theorem same_asListed (hs : SameRepos re later) (p : Str) (D : Path → Option Node) : AsListed parse P later p D ↔ AsListed parse P re p D := by
  unfold AsListed
  simp only [same_gets hs]

/-- A library in order stays in order for the same repositories. -/
theorem library_later (hs : SameRepos re later) (hL : LibraryOK P re x parse fs lib) : LibraryOK P later x parse fs lib :=
  ⟨hL.place, hL.named, fun p hp => hL.wanted p ((same_wanted hs p).1 hp), fun p hp => hL.noBackup p ((same_wanted hs p).1 hp),
   hL.tarballs.once, hL.tarballs.names, fun t ht h => hL.tarballs.apart t ht ((same_fetched hs t).1 h),
   fun t d repo ty o ht h1 h2 => hL.tarballs.current t d repo ty o ht h1 ((same_gets hs ..).1 h2)⟩

theorem tellsEnough_later {Complete : Str → (Path → Option Node) → Prop} {fs1 : Fs} (hs : SameRepos re later) (hC : TellsEnough Complete parse Made P re x fs lib)
    (h1 : ∀ p, P.Fetched re x p → contentOf fs1 lib p = contentOf fs lib p) : TellsEnough Complete parse Made P later x fs1 lib := by
  refine ⟨fun p D h => ⟨(hC.says p D h).1, fun hg => (same_asListed hs p D).2 ((hC.says p D h).2 hg)⟩, fun p hp hg h => ?_⟩
  have hp' := (same_fetched hs p).1 hp
  rw [h1 p hp'] at h ⊢
  exact hC.there p hp' hg ((same_asListed hs p _).1 h)

/-- After a failure with rollback the library is in order again, if it was, and if R leaves no DESCRIPTION directly in a lock directory. -/
theorem library_restored {Complete : Str → (Path → Option Node) → Prop} (hW : WellPosed P re c) (hL : LibraryOK P re x parse fs cfg.lib)
    (hplan : PlanMade P re c c' parse x fs cfg.lib pre ip)
    (hq : QueueRuns e q cfg.lib ip Scratch Complete Holds) (hD : DownloadsAre e de ip q.download cfg.lib fs)
    (hP : Places de q Scratch) (hS : Stocked de q ip Holds fs) (ha : Outside e cfg.lib) (hd : NoFaults e.disk)
    (hrb : cfg.noRollback = false) (hfail : (e.rInstall cfg ip pre fs).2 = .exit0 true)
    (hlock : ∀ n, IsLock n → (e.rInstall cfg ip pre fs).1.fs (cfg.lib ++ [n, s%"DESCRIPTION"]) = none) :
    Keeps cfg.lib IsLock fs (e.rInstall cfg ip pre fs).1.fs ∧ LibraryOK P re x parse (e.rInstall cfg ip pre fs).1.fs cfg.lib := by
  have hF := planFacts hW hL.named hL.tarballs hplan
  have hk := C138_failure_partial hW hL hplan hq hD hP hS ha hd hrb hfail
  obtain ⟨e', hb, hdisk, hr, _⟩ := real_behaves (pre := pre) hq hD hP hF.downloads hS ha hF.good
  have hgone : ip.createLibrary = true → ∀ r, cfg.lib <+: r → (e.rInstall cfg ip pre fs).1.fs r = none := by
    intro hc
    rw [← hr] at hfail ⊢
    exact C49_made_is_removed e' cfg ip pre fs hb (by rw [hdisk]; exact hd) hF.good hc hrb hfail
  generalize (e.rInstall cfg ip pre fs).1.fs = fs1 at *
  have hat : ∀ n, ¬ IsLock n → ∀ r, fs1 (cfg.lib ++ n :: r) = fs (cfg.lib ++ n :: r) := by
    intro n hn r
    refine hk _ (List.prefix_append _ _) ?_
    rintro m hm hp
    have := (List.prefix_append_right_inj cfg.lib).1 hp
    rw [List.cons_prefix_cons] at this
    exact hn (this.1 ▸ hm)
  have hdesc : ∀ n d, described parse fs1 cfg.lib n = some d → described parse fs cfg.lib n = some d := by
    intro n d h
    by_cases hl : IsLock n
    · unfold described at h
      rw [hlock n hl] at h
      cases h
    · unfold described at h ⊢
      rw [← hat n hl [s%"DESCRIPTION"]]
      exact h
  have hdesc' : ∀ n, ¬ IsLock n → described parse fs1 cfg.lib n = described parse fs cfg.lib n := by
    intro n hl
    unfold described
    rw [← hat n hl [s%"DESCRIPTION"]]
  have hw : ∀ p, P.Wanted re x p → ¬ IsLock p := fun p hp => (hF.good p ((hF.mem p).2 hp)).2.1
  refine ⟨hk, ?_, fun n d h => hL.named n d (hdesc n d h), ?_, ?_, hL.tarballs.once, hL.tarballs.names, hL.tarballs.apart,
    fun t d repo ty o ht h1 h2 => hL.tarballs.current t d repo ty o ht (hdesc t d h1) h2⟩
  · rcases hL.place with h | h
    · refine .inl ((hk cfg.lib (List.prefix_refl _) fun n _ hp => ?_).trans h)
      have := hp.length_le
      simp only [List.length_append, List.length_singleton] at this
      omega
    · exact .inr (hgone (by rw [hF.create]; simp [Fs.isDir, h cfg.lib (List.prefix_refl _)]))
  · intro p hp
    rcases hL.wanted p hp with ⟨h1, h2⟩ | h
    · exact .inl ⟨(hat p (hw p hp) []).trans h1, by rw [hdesc' p (hw p hp)]; exact h2⟩
    · exact .inr fun r => (hat p (hw p hp) r).trans (h r)
  · intro p hp r
    exact (hat _ (backup_not_lock p) r).trans (hL.noBackup p hp r)

/-- C173 (partial: as C138 and C172).  A run of `pkgr install` has failed, for whatever reason, with rollback on and without I/O errors.  The same command is given again, from the same
configuration, when the repositories publish the same (the database cache may have grown old or not), and this time nothing goes wrong (as in C172).  Then it
reports success, and the library is as the configuration says. -/
theorem C173_after_failure_partial {Complete : Str → (Path → Option Node) → Prop} (hW : WellPosed P re c) (hL : LibraryOK P re x parse fs cfg.lib)
    (hplan : PlanMade P re c c' parse x fs cfg.lib pre ip)
    (hq : QueueRuns e q cfg.lib ip Scratch Complete Holds) (hD : DownloadsAre e de ip q.download cfg.lib fs)
    (hP : Places de q Scratch) (hS : Stocked de q ip Holds fs) (ha : Outside e cfg.lib) (hd : NoFaults e.disk)
    (hrb : cfg.noRollback = false) (hfail : (e.rInstall cfg ip pre fs).2 = .exit0 true)
    {fs1 : Fs} (hfs1 : fs1 = (e.rInstall cfg ip pre fs).1.fs) (hlock : ∀ n, IsLock n → fs1 (cfg.lib ++ [n, s%"DESCRIPTION"]) = none)
    -- the second time
    (hs : SameRepos re later) {c'' : DbCache} {pre2 : GoMap Desc} {ip2 : InstallPlan}
    (hplan2 : PlanMade P later c' c'' parse x fs1 cfg.lib pre2 ip2)
    {e2 : RunEnv} {de2 : DlEnv} {q2 : QEnv} {cfg2 : RunCfg} {Scratch2 : Path → Prop} {Complete2 : Str → (Path → Option Node) → Prop} {Holds2 : Str → Str → Prop}
    (hlib : cfg2.lib = cfg.lib) (hq2 : QueueRuns e2 q2 cfg.lib ip2 Scratch2 Complete2 Holds2) (hD2 : DownloadsAre e2 de2 ip2 q2.download cfg.lib fs1)
    (hP2 : Places de2 q2 Scratch2) (hS2 : Stocked de2 q2 ip2 Holds2 fs1) (ha2 : Outside e2 cfg.lib) (hd2 : NoFaults e2.disk)
    (hI2 : Installs e2.ie.R Complete2 Unpacked) (hC2 : TellsEnough Complete2 parse Made P re x fs cfg.lib) (hup2 : cfg2.noUpdate = false)
    (hmk : fs1 cfg.lib = some .dir ∨ (cfg2.strict = false ∧ e2.mkdirFails fs1 = false))
    (hroom : NoFileInTheWay de2 q2 ip2 fs1) (hbin : BinariesFit de2 q2 ip2) (hR : RSucceeds q2 Complete2 Holds2)
    (hT : TarballsSucceed e2.ie.R ip2 cfg.lib Complete2 Unpacked)
    (htar : ∀ t, x.Given t → ∀ st ∈ (e2.rInstall cfg2 ip2 pre2 fs1).1.states, TarballReady e2 ip2 Unpacked st t)
    (hcpu : 0 < q2.job.ncpu) (hsize : (queued ip2).length ≤ 2500 + q2.job.ncpu)
    (hrun : RunsOut e2 de2 q2 ip2 (atDownloads e2 cfg2 ip2 pre2 fs1)) :
    (e2.rInstall cfg2 ip2 pre2 fs1).2 = .exit0 false ∧
    (∀ p, P.Fetched re x p → AsListed parse P re p (contentOf (e2.rInstall cfg2 ip2 pre2 fs1).1.fs cfg.lib p)) ∧
    (∀ p, x.Given p → Made p (contentOf (e2.rInstall cfg2 ip2 pre2 fs1).1.fs cfg.lib p)) := by
  subst hfs1
  obtain ⟨hk, hLa⟩ := library_restored hW hL hplan hq hD hP hS ha hd hrb hfail hlock
  have hF := planFacts hW hL.named hL.tarballs hplan
  have hcont : ∀ p, P.Fetched re x p → contentOf (e.rInstall cfg ip pre fs).1.fs cfg.lib p = contentOf fs cfg.lib p := by
    intro p hp
    funext r
    refine hk _ (List.prefix_append _ _) ?_
    rintro m hm hpre
    have := (List.prefix_append_right_inj cfg.lib).1 hpre
    rw [List.cons_prefix_cons] at this
    exact (hF.good p ((hF.mem p).2 (.inl hp))).2.1 (this.1 ▸ hm)
  have hC := tellsEnough_later hs hC2 hcont
  have hLl := library_later hs hLa
  have hW2 := wellPosed_later hs hW hplan
  rw [← hlib] at hplan2 hq2 hD2 ha2 hC hLl hT hmk ⊢
  obtain ⟨k1, k2, k3⟩ := C172_install_partial hW2 hLl hplan2 hq2 hD2 hP2 hS2 ha2 hd2 hI2 hC hup2 hmk hroom hbin hR hT htar hcpu hsize hrun
  exact ⟨k1, fun p hp => (same_asListed hs p _).1 (k2 p ((same_fetched hs p).2 hp)), k3⟩


/-! ### Example: R fails on the tarball, and then no more -/

/-- The library holds `c` 2.0, the cache its file; the tarball `t` is unpacked. -/
def mendFs : Fs := fun q =>
  if q = [] ∨ q = [s%"lib"] ∨ q = [s%"lib", s%"c"] ∨ q = [s%"w"] ∨ q = [s%"w", s%"t"] ∨ q = [s%"cache"] ∨ q = [s%"cache", s%"r-0123456789ab"] ∨
    q = [s%"cache", s%"r-0123456789ab", s%"binary"] ∨ q = [s%"cache", s%"r-0123456789ab", s%"src"] ∨ q = [s%"cache", s%"r-0123456789ab", s%"binary", s%"4.1"] then some .dir
  else if q = [s%"lib", s%"c", s%"DESCRIPTION"] then some (.file (ymlText (s%"c") (s%"2.0")))
  else if q = [s%"cache", s%"r-0123456789ab", s%"binary", s%"4.1", s%"c_2.0.tgz"] then some (.file (s%"code"))
  else none

def mendPre : GoMap Desc := getPriorInstalled installedDesc mendFs [s%"lib"] [s%"c"]

/-- The first plan. -/
def mendPlan : InstallPlan :=
  match planInstall ymlProject.cfg ymlNexus mendPre true ymlX.tarballs ymlX.descriptions ymlX.table idOrder idOrder idOrder with
  | .planned _ _ ip => ip
  | _ => {}

/-- The second plan. -/
def mendPlan2 : InstallPlan :=
  match planInstall ymlProject.cfg ymlNexus2 mendPre true ymlX.tarballs ymlX.descriptions ymlX.table idOrder idOrder idOrder with
  | .planned _ _ ip => ip
  | _ => {}

theorem mendNames (n : Str) : n ∈ [s%"c"] ↔ mendFs ([s%"lib"] ++ [n]) ≠ none := by
  by_cases hn : n = s%"c"
  · subst hn; simp [mendFs]
  · simp [mendFs, hn]

theorem mendMade : PlanMade ymlProject ymlEnv (fun _ => none) ymlCache installedDesc ymlX mendFs [s%"lib"] mendPre mendPlan := by
  obtain ⟨c', hc⟩ := ymlOpens
  have : c' = ymlCache := by unfold ymlCache; rw [hc]
  subst this
  have hp : ∃ req nx', planInstall ymlProject.cfg ymlNexus mendPre true ymlX.tarballs ymlX.descriptions ymlX.table idOrder idOrder idOrder = .planned req nx' mendPlan := by
    have h : (match planInstall ymlProject.cfg ymlNexus mendPre true ymlX.tarballs ymlX.descriptions ymlX.table idOrder idOrder idOrder with | .planned _ _ _ => true | _ => false) = true := by
      decide +kernel
    unfold mendPlan
    revert h
    cases planInstall ymlProject.cfg ymlNexus mendPre true ymlX.tarballs ymlX.descriptions ymlX.table idOrder idOrder idOrder with
    | planned req nx' ip => exact fun _ => ⟨req, nx', rfl⟩
    | _ => intro h; cases h
  obtain ⟨req, nx', hp⟩ := hp
  have hid : idOrder.Fair := fun _ _ => List.Perm.refl _
  exact ⟨idOrder, idOrder, idOrder, idOrder, idOrder, [(0, true)], ymlNexus, nx', [s%"c"], req, hid, hid, hid, hid, hid, by decide, hc, mendNames, rfl, hp⟩

theorem mendMade2 : ∃ c'', PlanMade ymlProject ymlLater ymlCache c'' installedDesc ymlX mendFs [s%"lib"] mendPre mendPlan2 := by
  have h : ((ymlLater.openConfigured idOrder idOrder ymlProject.custom (ymlProject.repos.map fun r => [r]) ymlCache
    [(0, false)]).2).isSome = true := by decide +kernel
  obtain ⟨nx, h⟩ := Option.isSome_iff_exists.1 h
  have hp : ∃ req nx', planInstall ymlProject.cfg ymlNexus2 mendPre true ymlX.tarballs ymlX.descriptions ymlX.table idOrder idOrder idOrder = .planned req nx' mendPlan2 := by
    have h : (match planInstall ymlProject.cfg ymlNexus2 mendPre true ymlX.tarballs ymlX.descriptions ymlX.table idOrder idOrder idOrder with | .planned _ _ _ => true | _ => false) = true := by
      decide +kernel
    unfold mendPlan2
    revert h
    cases planInstall ymlProject.cfg ymlNexus2 mendPre true ymlX.tarballs ymlX.descriptions ymlX.table idOrder idOrder idOrder with
    | planned req nx' ip => exact fun _ => ⟨req, nx', rfl⟩
    | _ => intro h; cases h
  obtain ⟨req, nx', hp⟩ := hp
  have hid : idOrder.Fair := fun _ _ => List.Perm.refl _
  refine ⟨(ymlLater.openConfigured idOrder idOrder ymlProject.custom (ymlProject.repos.map fun r => [r]) ymlCache [(0, false)]).1,
    idOrder, idOrder, idOrder, idOrder, idOrder, [(0, false)], ymlNexus2, nx', [s%"c"], req, hid, hid, hid, hid, hid, by decide, ?_, mendNames, rfl, hp⟩
  unfold ymlNexus2
  rw [h]
  exact Prod.ext rfl h

theorem mendDescribed (n : Str) (d : Desc) (h : described installedDesc mendFs [s%"lib"] n = some d) : d.package = n ∧ n ≠ [] := by
  obtain ⟨c, h1, h2⟩ := described_some h
  have hn : n = s%"c" := by
    apply Classical.byContradiction
    intro hn
    simp [mendFs, hn] at h1
  subst hn
  rw [show mendFs _ = some (.file (ymlText (s%"c") (s%"2.0"))) from rfl] at h1
  cases h1
  cases h2
  exact ⟨rfl, by decide⟩

theorem mendLibrary : LibraryOK ymlProject ymlEnv ymlX installedDesc mendFs [s%"lib"] := by
  refine ⟨.inl rfl, mendDescribed, ?_, ?_, ymlTarballs _⟩
  · intro p hp
    rcases (ymlWanted p).1 hp with rfl | rfl
    · exact .inl ⟨by decide, { package := s%"c", version := s%"2.0" }, by decide⟩
    · exact .inr fun r => by simp [mendFs]
  · intro p hp r
    rcases (ymlWanted p).1 hp with rfl | rfl <;> simp [mendFs, backupName]

/-- The downloads: the file is in the cache. -/
def mendD (ip : InstallPlan) : FineState :=
  (ymlDe.fineRun ip.downloads (ymlDe.fineInit mendFs ip.downloads) [.spawn, .acquire 0, .io 0 .check, .finish 0, .ret]).getD (ymlDe.fineInit mendFs [])

theorem mendD_reach : FineReach ymlDe mendPlan.downloads mendFs (mendD mendPlan) := ⟨[.spawn, .acquire 0, .io 0 .check, .finish 0, .ret], by rfl⟩
theorem mendD_reach2 : FineReach ymlDe mendPlan2.downloads mendFs (mendD mendPlan2) := ⟨[.spawn, .acquire 0, .io 0 .check, .finish 0, .ret], by rfl⟩



theorem mend_mkdirAll (q : Path) (h : ∀ r ∈ q.inits, mendFs r ≠ none) : mendFs.mkdirAll q = mendFs := by
  funext x
  unfold Fs.mkdirAll
  rw [if_neg]
  exact fun hx => h x ((List.mem_inits _ _).2 hx.1) hx.2

theorem mend_dirs : (mendFs.mkdirAll [s%"cache", s%"r-0123456789ab", s%"src"]).mkdirAll [s%"cache", s%"r-0123456789ab", s%"binary", s%"4.1"] = mendFs := by
  rw [mend_mkdirAll _ (by decide), mend_mkdirAll _ (by decide)]

theorem mendD_fs : (mendD mendPlan).fs = mendFs := Eq.trans (by rfl) mend_dirs
theorem mendD_fs2 : (mendD mendPlan2).fs = mendFs := Eq.trans (by rfl) mend_dirs
theorem mendD_same : (mendD mendPlan2).result = (mendD mendPlan).result := by rfl

/-- The queue: `c` is there. -/
def mendQ : QEnv := { calmQ with download := fun p => (GoMap.get? (mendD mendPlan).result p).getD {} }

def mendEv : List QEvent := [.sched .mainAdd, .sched .mainSend, .sched .reqCheck, .sched .reqPush, .take 0, .prog 0, .finish 0, .sched (.post 0),
  .sched .updTake, .sched .updScan, .sched .updDone, .sched .mainReturn]
def mendS : QState := (calmExecs mendQ (mendQ.init mendFs) mendEv).getD (mendQ.init mendFs)

theorem mendS_reach : Relation.ReflTransGen (Unfailing mendQ) (mendQ.init mendFs) mendS := calmExecs_unfailing (evs := mendEv) (by rfl)
theorem mendS_fs : mendS.fs = mendFs := by rfl
theorem mendS_ret : mendS.run.ret = some .nil := by rfl

theorem mendS_stuck (ev : Event) : mendQ.job.step mendS.run ev = none := by
  cases ev with
  | take i => cases i <;> rfl
  | finish i o => cases i <;> rfl
  | post i => cases i <;> rfl
  | _ => rfl

theorem mendS_rest (t : QState) (h : Relation.ReflTransGen (Unfailing mendQ) mendS t) : OnlyFiles mendS t := by
  have hw : ∀ (i : Nat) (p : Str), mendS.run.workers[i]? ≠ some (.running p) := by
    intro i p
    cases i <;> exact fun h => by cases h
  have hu : ∀ p, mendS.run.updater ≠ .copy p := fun p h => by cases h
  induction h with
  | refl => exact ⟨rfl, rfl, rfl, rfl⟩
  | tail _ hs ih =>
    obtain ⟨e1, e2, e3, e4⟩ := ih
    exfalso
    cases hs.1 <;> simp_all [mendS_stuck]

/-- A run, with this R; if it begins with other files, it dies. -/
noncomputable def mendRun (R : ROracle) : RunEnv :=
  { twRun with
    ie := { toyEnv true with R := R }
    download := fun fs => open Classical in if fs = mendFs then { fs := mendFs, out := .ok } else { fs := fs, out := .dead }
    planned := fun fs => open Classical in if fs = mendFs then { fs := mendFs, out := .ok } else { fs := fs, out := .failed } }

/-- The same, for computation. -/
def mendRun' (R : ROracle) : RunEnv :=
  { twRun' with ie := { toyEnv true with R := R }, download := fun _ => { fs := mendFs, out := .ok }, planned := fun _ => { fs := mendFs, out := .ok } }

theorem mend_eq (R : ROracle) (ip : InstallPlan) (hip : ip = mendPlan ∨ ip = mendPlan2) :
    (mendRun R).rInstall { lib := [s%"lib"] } ip mendPre mendFs = (mendRun' R).rInstall { lib := [s%"lib"] } ip mendPre mendFs := by
  have h2 : ∀ w : World, w.fs = mendFs → (mendRun R).phases { lib := [s%"lib"] } ip w = (mendRun' R).phases { lib := [s%"lib"] } ip w := by
    intro w hw
    unfold RunEnv.phases
    have e1 : (mendRun R).download w.fs = { fs := mendFs, out := .ok } := if_pos hw
    have e2 : (mendRun R).planned mendFs = { fs := mendFs, out := .ok } := if_pos rfl
    dsimp only [World.move]
    rw [e1]
    dsimp only
    rw [e2]
    rcases hip with rfl | rfl <;> rfl
  have h1 : (mendRun R).ensureLibrary { lib := [s%"lib"] } ip mendFs = ({ fs := mendFs }, true) := by rcases hip with rfl | rfl <;> rfl
  have h3 : ((mendRun R).tag { lib := [s%"lib"] } { fs := mendFs } (createRollbackPlan [s%"lib"] ip mendPre (mendRun R).ρ)).1.fs = mendFs := by
    rcases hip with rfl | rfl <;> rfl
  unfold RunEnv.rInstall RunEnv.body
  rw [h1]
  dsimp only
  rw [h2 _ h3]
  rcases hip with rfl | rfl <;> rfl

/-- An R that fails. -/
def mendBad : ROracle := fun _ fs => (fs, .status 1)

theorem mend_failed : ((mendRun mendBad).rInstall { lib := [s%"lib"] } mendPlan mendPre mendFs).2 = .exit0 true := by
  rw [mend_eq _ _ (.inl rfl)]
  decide +kernel

theorem mend_restored : mendFs = ((mendRun mendBad).rInstall { lib := [s%"lib"] } mendPlan mendPre mendFs).1.fs := by
  rw [mend_eq _ _ (.inl rfl)]
  funext q
  have h : ((mendRun' mendBad).rInstall { lib := [s%"lib"] } mendPlan mendPre mendFs).1.fs q = if [s%"lib", s%"t"] <+: q then none else mendFs q := by rfl
  rw [h]
  split
  · rename_i hq
    obtain ⟨r, rfl⟩ := hq
    simp [mendFs]
  · rfl


theorem mendQ_contract : RContract mendQ (fun _ => False) ymlDone ToyHolds := by
  refine C152_contract_partial ?_ ?_ ?_ ?_
  · intro c fs fs' h q hq
    rcases h q hq with h | h | h
    · exact .inl h
    · exact .inr (.inl h)
    · exact .inr (.inr (.inl h))
  · intro c fs x h _ _; exact h.2.1
  · intro c fs x h hb _ _ bbp n hx hn
    obtain ⟨y, hy, hne⟩ := (h.2.2 hb).2 bbp hx
    rw [hy] at hn
    exact ⟨y, (Option.some.inj hn).symm, hne⟩
  · intro p hp k
    have := calmQ_plan hp
    subst this
    exact stampOf_plain (plainStamp_of (by decide +kernel) (by decide +kernel)) (plainStamp_of (by decide +kernel) (by decide +kernel)) k

theorem mendQ_succeeds : RSucceeds mendQ ymlDone ToyHolds := by
  refine ⟨fun p hp k fs x y h _ _ hn => h.1, ?_, ?_⟩
  · intro p _ fs x h h1 h2
    obtain ⟨h3, h4⟩ := h.2.2 rfl
    refine ⟨h3, fun bbp hb => ?_⟩
    obtain ⟨y, hy, _⟩ := h4 bbp hb
    rw [show fs (mendQ.tmp p ++ [bbp]) = _ from hy]
    simp
  · intro p hp k fs x _ _ _
    have := calmQ_plan hp
    subst this
    by_cases hk : k = .build
    · subst hk
      have hbin : ∃ z, binaryExtOs .darwin (basePath (mendQ.rcall (s%"c") .build).src) (s%"x") = some z ∧ z ≠ s%"c" := ⟨_, rfl, by decide⟩
      obtain ⟨z, hz, hzc⟩ := hbin
      refine ⟨(calmBuilt fs).set [s%"tmp", s%"c", z] (.file (s%"bin")), .ok, .single ?_, rfl, ?_, fun _ => ⟨?_, ?_⟩⟩
      · intro q hq
        refine .inr (.inr ⟨rfl, ?_⟩)
        show [s%"tmp", s%"c"] <+: q
        apply Classical.byContradiction
        intro hn
        apply hq
        unfold calmBuilt Fs.set
        rw [if_neg, if_neg, if_neg, if_neg]
        · rintro rfl; exact hn (List.prefix_refl _)
        · rintro rfl; exact hn (by decide)
        · rintro rfl; exact hn (by decide)
        · rintro rfl; exact hn ⟨[z], rfl⟩
      · refine calm_new ?_ ?_
        · show (calmBuilt fs).set [s%"tmp", s%"c", z] (.file (s%"bin")) [s%"tmp", s%"c", s%"c"] = _
          simp [calmBuilt, Fs.set, Ne.symm hzc]
        · show (calmBuilt fs).set [s%"tmp", s%"c", z] (.file (s%"bin")) [s%"tmp", s%"c", s%"c", s%"DESCRIPTION"] = _
          simp [calmBuilt, Fs.set]
      · show (calmBuilt fs).set [s%"tmp", s%"c", z] (.file (s%"bin")) [s%"tmp", s%"c"] = _
        simp [calmBuilt, Fs.set]
      · intro bbp hb
        rw [hz] at hb
        cases hb
        refine ⟨s%"bin", ?_, by simp⟩
        show (calmBuilt fs).set [s%"tmp", s%"c", z] (.file (s%"bin")) [s%"tmp", s%"c", z] = _
        simp [Fs.set]
    · have hb : (mendQ.rcall (s%"c") k).build = false ∧ (mendQ.rcall (s%"c") k).lib = [s%"lib"] ∧ (mendQ.rcall (s%"c") k).pkg = s%"c" := by
        cases k with
        | build => exact absurd rfl hk
        | cached b => exact ⟨rfl, rfl, rfl⟩
        | final b => exact ⟨rfl, rfl, rfl⟩
      refine ⟨calmLib fs, .ok, .single ?_, rfl, ?_, fun h => ?_⟩
      · intro q hq
        refine .inl ?_
        rw [hb.2.1, hb.2.2]
        apply Classical.byContradiction
        intro hn
        apply hq
        unfold calmLib Fs.set
        rw [if_neg, if_neg]
        · rintro rfl; exact hn (by decide)
        · rintro rfl; exact hn (by decide)
      · rw [hb.2.1, hb.2.2]
        exact calm_new rfl rfl
      · rw [hb.1] at h; cases h


theorem mend_tar : ∀ t, ymlX.Given t → ∀ st ∈ ((mendRun ymlR).rInstall { lib := [s%"lib"] } mendPlan2 mendPre mendFs).1.states,
    TarballReady (mendRun ymlR) mendPlan2 ymlUnpacked st t := by
  rw [mend_eq _ _ (.inr rfl)]
  intro t ht
  rw [(ymlGiven t).1 ht]
  have hh : ∀ st ∈ ((mendRun' ymlR).rInstall { lib := [s%"lib"] } mendPlan2 mendPre mendFs).1.states, st [s%"w", s%"t"] = some .dir ∧ st [s%"w"] = some .dir := by decide +kernel
  have hp : absPath (mendRun ymlR).ie.cwd ((GoMap.get? mendPlan2.additional (s%"t")).getD {}).installPath = [s%"w", s%"t"] := by
    show absPath (toyEnv true).cwd _ = _
    decide +kernel
  intro st hst
  obtain ⟨k1, k2⟩ := hh st hst
  unfold TarballReady TarballThere
  rw [hp]
  refine ⟨⟨by rw [k1]; simp, ⟨rfl, k1⟩, ?_⟩, k2⟩
  have h : PlainStamp ((toyEnv true).stamp { type := .source, repo := { url := pathStr [s%"w", s%"t"], name := s%"IndividualPackage" } }) :=
    plainStamp_of (by decide +kernel) (by decide)
  exact h

theorem mend_queue (R : ROracle) {ip : InstallPlan} (hj : ∃ n t ρ, mendQ.job = jobOf ip n ρ t) :
    QueueRuns (mendRun R) mendQ [s%"lib"] ip (fun _ => False) ymlDone ToyHolds := by
  have hr : QReach mendQ mendFs mendS := by
    have hq : ∀ {a b}, Relation.ReflTransGen (Unfailing mendQ) a b → Relation.ReflTransGen mendQ.Step a b := by
      intro a b h
      induction h with
      | refl => exact .refl
      | tail _ h ih => exact ih.tail h.1
    exact hq mendS_reach
  have he : ∀ fs, (mendRun R).planned fs = (open Classical in if fs = mendFs then { fs := mendFs, out := .ok } else { fs := fs, out := .failed }) := fun _ => rfl
  refine ⟨hj, rfl, wellFormed_of_check twQ.job [s%"c"] (by decide) (by decide) (by decide), mendQ_contract, ?_, ?_⟩
  · intro fs st hst
    rw [he] at hst
    split at hst
    · rename_i h
      have : st = mendFs := by simpa using hst
      rw [this, h]
      exact ⟨_, hr, mendS_fs⟩
    · have : st = fs := by simpa using hst
      rw [this]
      exact ⟨_, .refl, rfl⟩
  · intro fs h
    rw [he] at h ⊢
    split at h
    · rename_i hh
      rw [if_pos hh, hh]
      exact ⟨_, hr, mendS_fs, mendS_ret⟩
    · simp at h

theorem mend_places : Places ymlDe mendQ (fun _ => False) := by
  refine ⟨rfl, rfl, rfl, rfl, fun _ => ⟨rfl, by show '/' ∉ s%"0123456789ab"; decide⟩, by decide, by decide, by decide, ?_, fun _ h => h.elim, ?_, ?_, fun _ h => h.elim⟩
  · intro p; constructor <;> simp [ymlDe, mendQ, calmQ, twQ, toyQ]
  · intro p; constructor <;> simp [mendQ, calmQ, twQ, toyQ]
  · intro p _ q _ h; constructor <;> simp [mendQ, calmQ, twQ, toyQ, h, Ne.symm h]

theorem mend_downloads (R : ROracle) {ip : InstallPlan} (hip : ip = mendPlan ∨ ip = mendPlan2) (hg : GoodDownloads ip) :
    DownloadsAre (mendRun R) ymlDe ip mendQ.download [s%"lib"] mendFs := by
  have hr : ∃ s, DlReach ymlDe ip.downloads mendFs s ∧ s.returned = true ∧ s.fs = mendFs ∧ s.result = (mendD mendPlan).result := by
    rcases hip with rfl | rfl
    · obtain ⟨s', h1, h2, h3, h4⟩ := fine_coarse (dests_once mend_places hg) mendD_reach rfl
      exact ⟨s', h1, h2, h3.trans mendD_fs, h4⟩
    · obtain ⟨s', h1, h2, h3, h4⟩ := fine_coarse (dests_once mend_places hg) mendD_reach2 rfl
      exact ⟨s', h1, h2, h3.trans mendD_fs2, h4.trans mendD_same⟩
  obtain ⟨s', h1, h2, h3, h4⟩ := hr
  have he : ∀ fs, (mendRun R).download fs = (open Classical in if fs = mendFs then { fs := mendFs, out := .ok } else { fs := fs, out := .dead }) := fun _ => rfl
  refine ⟨?_, ?_⟩
  · intro fs st hst
    rw [he] at hst
    split at hst
    · rename_i h
      have : st = mendFs := by simpa using hst
      rw [this, h, ← h3]
      exact .inr ⟨s', by rw [h3]; exact h1, fun x => .inl rfl⟩
    · have : st = fs := by simpa using hst
      rw [this]
      exact .inl fun x => .inl rfl
  · intro fs _ h
    rw [he] at h ⊢
    split at h
    · rename_i hh
      rw [if_pos hh, hh]
      exact ⟨s', h1, h2, h3, fun p => by rw [h4]; rfl⟩
    · simp at h

theorem mend_outside {R : ROracle} (h : RConfined R [s%"lib"]) : Outside (mendRun R) [s%"lib"] :=
  ⟨h, by intro n fs st h; simp [mendRun, twRun] at h, by intro fs p st h; simp [mendRun, twRun] at h, fun _ l => List.Perm.refl l⟩

theorem mend_stocked {ip : InstallPlan} (h1 : ip.downloads.map ymlDe.dest = [[s%"cache", s%"r-0123456789ab", s%"binary", s%"4.1", s%"c_2.0.tgz"]])
    (h2 : ip.downloads.map ymlQ.ie.cachedBinary = [some [s%"cache", s%"r-0123456789ab", s%"binary", s%"4.1", s%"c_2.0.tgz"]]) :
    Stocked ymlDe mendQ ip ToyHolds mendFs := by
  have h := yml_stocked (fs := mendFs) h1 h2 (by
    intro r n h
    by_cases hr : r = [s%"r-0123456789ab", s%"binary", s%"4.1", s%"c_2.0.tgz"]
    · subst hr
      exact .inr ⟨rfl, (Option.some.inj h).symm⟩
    · unfold mendFs at h
      split at h
      · exact .inl (Option.some.inj h).symm
      · simp [hr] at h) (by decide)
  exact ⟨h.1, h.2, h.3, h.4⟩

theorem mendLock : ∀ n, IsLock n → mendFs ([s%"lib"] ++ [n, s%"DESCRIPTION"]) = none := by
  intro n hl
  have : n ≠ s%"c" := by rintro rfl; exact absurd hl (by decide)
  simp [mendFs, this]

theorem mendStamped : ∀ p c, ymlProject.Fetched ymlEnv ymlX p → ¬ ymlX.Given p → mendFs ([s%"lib"] ++ [p, s%"DESCRIPTION"]) = some (.file c) →
    ∃ gs, Stampable gs ∧ c = textOf (fieldLines gs) := by
  intro p c hf hg h
  rcases (ymlWanted p).1 (.inl hf) with rfl | rfl
  · rw [show mendFs _ = some (.file (ymlText (s%"c") (s%"2.0"))) from rfl] at h
    cases h
    exact ⟨_, ymlFields_c2, rfl⟩
  · exact absurd ((ymlGiven _).2 rfl) hg

/-- Non-vacuity of C173: the first run fails on the tarball, the second succeeds, and the tarball is installed. -/
example : ((mendRun mendBad).rInstall { lib := [s%"lib"] } mendPlan mendPre mendFs).2 = .exit0 true ∧
    ((mendRun ymlR).rInstall { lib := [s%"lib"] } mendPlan2 mendPre mendFs).2 = .exit0 false ∧
    ymlTar (s%"t") (contentOf ((mendRun ymlR).rInstall { lib := [s%"lib"] } mendPlan2 mendPre mendFs).1.fs [s%"lib"] (s%"t")) := by
  obtain ⟨c'', h2⟩ := mendMade2
  have hs : SameRepos ymlEnv ymlLater := ⟨rfl, rfl, rfl, rfl, rfl, rfl⟩
  have hF := planFacts ymlPosed mendDescribed (ymlTarballs _) mendMade
  have hF2 := planFacts (wellPosed_later hs ymlPosed mendMade) mendDescribed (library_later hs mendLibrary).tarballs h2
  have k := C173_after_failure_partial (cfg := { lib := [s%"lib"] }) (cfg2 := { lib := [s%"lib"] }) ymlPosed mendLibrary mendMade
    (mend_queue mendBad ⟨1, 0, fun _ l => l, by decide +kernel⟩) (mend_downloads mendBad (.inl rfl) hF.downloads) mend_places
    (mend_stocked (by decide +kernel) (by decide +kernel)) (mend_outside fun _ _ _ _ _ => rfl) ⟨fun _ _ _ => rfl, fun _ _ => rfl⟩ rfl mend_failed
    mend_restored mendLock hs h2 (e2 := mendRun ymlR) (de2 := ymlDe) (q2 := mendQ) (Scratch2 := fun _ => False) (Complete2 := ymlDone) (Holds2 := ToyHolds) rfl
    (mend_queue ymlR ⟨1, 0, fun _ l => l, by decide +kernel⟩) (mend_downloads ymlR (.inr rfl) hF2.downloads) mend_places
    (mend_stocked (by decide +kernel) (by decide +kernel)) (mend_outside ymlR_confined) ⟨fun _ _ _ => rfl, fun _ _ => rfl⟩ yml_R
    (tellsEnough_real mendStamped) rfl (.inl rfl)
    ⟨fun p _ x h => by simp [mendFs, mendQ, calmQ, twQ, toyQ] at h, fun d _ x h => by simp [mendFs, ymlDe] at h⟩ (fun _ _ _ => .inl rfl) mendQ_succeeds
    (fun c fs hl hp _ _ => by
      have : c.pkg = s%"t" := by simpa [tarballs] using (show c.pkg ∈ [s%"t"] from (by decide +kernel : tarballs mendPlan2 = [s%"t"]) ▸ hp)
      show (ymlR c fs).2 = .ok
      unfold ymlR
      rw [if_pos ⟨hl, this⟩])
    mend_tar (by decide) (by decide +kernel) ?_
  · exact ⟨mend_failed, k.1, k.2.2 _ ((ymlGiven _).2 rfl)⟩
  · have hat : atDownloads (mendRun ymlR) { lib := [s%"lib"] } mendPlan2 mendPre mendFs = mendFs := rfl
    have hdl : (mendRun ymlR).download mendFs = { fs := mendFs, out := .ok } := if_pos rfl
    have hpl : (mendRun ymlR).planned mendFs = { fs := mendFs, out := .ok } := if_pos rfl
    rw [hat]
    refine ⟨?_, ?_⟩
    · rw [hdl]
      refine ⟨mendD mendPlan2, mendD_reach2, fun ev => ?_, mendD_fs2.symm, fun _ => rfl, fun _ => rfl⟩
      unfold DlEnv.fineStep
      rw [show ((mendD mendPlan2).dead || (mendD mendPlan2).returned) = true from rfl]
      rfl
    · rw [hdl]
      dsimp only
      rw [hpl]
      exact ⟨mendS, mendS_reach, mendS_rest, mendS_fs.symm, fun _ => rfl⟩
end Pkgr
