/- C172: `pkgr install` succeeds when nothing goes wrong. -/
import Verif.Props.EndsWhole
import Verif.Props.FromYmlMore
import Verif.Spec.Succeeds

namespace Pkgr
open Spec

variable {e : RunEnv} {de : DlEnv} {q : QEnv} {cfg : RunCfg} {ip : InstallPlan} {pre : GoMap Desc} {fs : Fs}
  {Scratch : Path → Prop} {Complete Unpacked : Str → (Path → Option Node) → Prop} {Holds : Str → Str → Prop}

/-- The packages that are in the library when the downloads begin are complete. -/
theorem whole_afterTag (hρ : e.ρ.Fair) (hd : NoFaults e.disk) (hn : GoodNames ip) (hp : PlanOK ip pre) (ho : InOrder cfg.lib ip pre fs)
    (hwhole : ∀ p ∈ queued ip, GoMap.has pre p = true → ¬ Replaced cfg ip p → Complete p (contentOf fs cfg.lib p))
    (hl : (e.ensureLibrary cfg ip fs).2 = true) :
    ∀ x ∈ queued ip, (afterTag e cfg ip pre (e.ensureLibrary cfg ip fs).1).fs (cfg.lib ++ [x]) = some .dir →
      Complete x (contentOf (afterTag e cfg ip pre (e.ensureLibrary cfg ip fs).1).fs cfg.lib x) := by
  have hlow := ensureLibrary_below (e := e) (cfg := cfg) (ip := ip) (fs := fs) hl
  generalize (e.ensureLibrary cfg ip fs).1 = w0 at *
  have ho0 : InOrder cfg.lib ip pre w0.fs :=
    ⟨fun p h1 h2 => (hlow p []).trans (ho.found p h1 h2), fun p h1 h2 r => (hlow p r).trans (ho.notFound p h1 h2 r),
     fun p h1 r => (hlow _ r).trans (ho.noBackup p h1 r)⟩
  have hf := tagFacts (e := e) hρ hn hp ho0
  obtain ⟨t1, _⟩ := tagAll_exact w0.fs (setAside e cfg ip pre) hf.nodup hf.names (fun p _ f => hd.1 _ _ _) hf.dir w0
    (fun p hp => ⟨fun r => rfl, hf.noOld p hp⟩)
  have gt := goes_tagAll e.disk cfg.lib (setAside e cfg ip pre) (fun p h => (hf.names p h).1) w0
  change ∀ p ∈ setAside e cfg ip pre, Saved cfg.lib w0.fs (afterTag e cfg ip pre w0).fs p ∧ Gone cfg.lib (afterTag e cfg ip pre w0).fs p at t1
  change Goes cfg.lib _ w0 (afterTag e cfg ip pre w0) at gt
  have hset : ∀ p, p ∈ members ip → GoMap.has pre p = true → (p ∈ setAside e cfg ip pre ↔ Replaced cfg ip p) := by
    intro p hm hpre
    unfold setAside Replaced
    rw [List.mem_append, mem_updatesOf hρ, mem_overwritesOf hρ]
    simp [hm, hpre]
  have hkeepTag : ∀ p ∈ members ip, p ∉ setAside e cfg ip pre → ∀ r, (afterTag e cfg ip pre w0).fs (cfg.lib ++ p :: r) = fs (cfg.lib ++ p :: r) := by
    intro p hm hs r
    refine (gt.1.at ?_ r).trans (hlow p r)
    rintro ⟨x, hx, h | h⟩
    · exact hs (h ▸ hx)
    · exact (hn p hm).2.2 (h ▸ backup_prefix x)
  intro x hx hdir
  have hm' : x ∈ members ip := List.mem_append_left _ hx
  have hns : x ∉ setAside e cfg ip pre := by
    intro h
    have := (t1 x h).2 []
    rw [hdir] at this
    cases this
  have hc : contentOf (afterTag e cfg ip pre w0).fs cfg.lib x = contentOf fs cfg.lib x := by
    funext r
    exact hkeepTag x hm' hns r
  rw [hc]
  cases hpre : GoMap.has pre x with
  | true => exact hwhole x hx hpre fun hr => hns ((hset x hm' hpre).2 hr)
  | false =>
    exfalso
    have := ho.notFound x hm' hpre []
    rw [← hkeepTag x hm' hns, hdir] at this
    cases this

/-- The tarballs, when R does not fail on them. -/
theorem tarballs_fine {lib : Path} (hb : Behaves e lib ip) (hT : TarballsSucceed e.ie.R ip lib Complete Unpacked)
    (hdis : ∀ p ∈ queued ip, p ∉ tarballs ip) (hnl : ∀ p ∈ queued ip, ¬ IsLock p) (ns : List Str) (hns : ∀ n ∈ ns, n ∈ tarballs ip) (w : World)
    (hc : ∀ p ∈ queued ip, Complete p (contentOf w.fs lib p))
    (hex : ∀ st ∈ (e.installTarballs lib ip.additional w ns).1.states, ∀ n ∈ ns, TarballReady e ip Unpacked st n) :
    (e.installTarballs lib ip.additional w ns).2 = .ok := by
  induction ns generalizing w with
  | nil => rfl
  | cons n ns ih =>
    obtain ⟨⟨r1, r2, _⟩, r4⟩ := hex w.fs (states_mono_tarballs (mem_states_fs w)) n List.mem_cons_self
    have h1 : (e.installTarball lib w n ((GoMap.get? ip.additional n).getD {})).2 = .ok := by
      unfold RunEnv.installTarball
      dsimp only
      have hx : w.fs.ex (absPath e.ie.cwd ((GoMap.get? ip.additional n).getD {}).installPath) = true := by
        unfold Fs.ex
        cases hh : w.fs (absPath e.ie.cwd ((GoMap.get? ip.additional n).getD {}).installPath) with
        | none => exact absurd hh r1
        | some _ => rfl
      have hwd : w.fs.isDir (dirPath (absPath e.ie.cwd ((GoMap.get? ip.additional n).getD {}).installPath)) = true := by
        unfold Fs.isDir; rw [r4]; rfl
      rw [install_run _ _ _ _ _ _ _ _ _ hwd hx]
      dsimp only
      rw [hT { pkg := n, lib := lib, build := true, src := absPath e.ie.cwd ((GoMap.get? ip.additional n).getD {}).installPath, workDir := dirPath (absPath e.ie.cwd ((GoMap.get? ip.additional n).getD {}).installPath) } w.fs rfl
        (hns n List.mem_cons_self) r2 hc]
      rfl
    have hkeep := goes_installTarball hb w n ((GoMap.get? ip.additional n).getD {})
    have h2 := ih (fun m hm => hns m (List.mem_cons_of_mem _ hm)) (e.installTarball lib w n ((GoMap.get? ip.additional n).getD {})).1 (by
      intro p hp
      rw [goes_content hkeep.1]
      · exact hc p hp
      · rintro (h | h)
        · exact hdis p hp (h ▸ hns n List.mem_cons_self)
        · exact hnl p hp h) (by
      intro st hst m hm
      refine hex st ?_ m (List.mem_cons_of_mem _ hm)
      simp only [RunEnv.installTarballs]
      rw [h1]
      exact hst)
    simp only [RunEnv.installTarballs]
    rw [h1]
    dsimp only
    rw [h2]
    rfl

/-- C172, from the plan on: if nothing goes wrong, the run of a plan reports success, whatever the order in which downloads, workers, requester,
updater and R processes take their steps, and maps are iterated. -/
theorem C172_plan (hq : QueueRuns e q cfg.lib ip Scratch Complete Holds) (hD : DownloadsAre e de ip q.download cfg.lib fs)
    (hP : Places de q Scratch) (hG : GoodDownloads ip) (hS : Stocked de q ip Holds fs) (ha : Outside e cfg.lib)
    (hd : NoFaults e.disk) (hn : GoodNames ip) (hp : PlanOK ip pre) (ho : InOrder cfg.lib ip pre fs)
    (hwhole : ∀ p ∈ queued ip, GoMap.has pre p = true → ¬ Replaced cfg ip p → Complete p (contentOf fs cfg.lib p))
    (hdis : ∀ p ∈ queued ip, p ∉ tarballs ip)
    -- nothing goes wrong
    (hlib : ip.createLibrary = true → cfg.strict = false ∧ e.mkdirFails fs = false)
    (hroom : NoFileInTheWay de q ip fs) (hbin : BinariesFit de q ip) (hR : RSucceeds q Complete Holds)
    (hT : TarballsSucceed e.ie.R ip cfg.lib Complete Unpacked)
    (htar : ∀ t ∈ tarballs ip, ∀ st ∈ (e.rInstall cfg ip pre fs).1.states, TarballReady e ip Unpacked st t)
    (hcpu : 0 < q.job.ncpu) (hsize : (queued ip).length ≤ 2500 + q.job.ncpu)
    (hrun : RunsOut e de q ip (atDownloads e cfg ip pre fs)) :
    (e.rInstall cfg ip pre fs).2 = .exit0 false := by
  have hl : (e.ensureLibrary cfg ip fs).2 = true := by
    unfold RunEnv.ensureLibrary
    split
    · rename_i hc
      obtain ⟨h1, h2⟩ := hlib hc
      rw [h1, h2]
      rfl
    · rfl
  have hat : atDownloads e cfg ip pre fs = (afterTag e cfg ip pre (e.ensureLibrary cfg ip fs).1).fs := by
    unfold atDownloads
    rw [tag_eq hn ha.order]
    rfl
  have helse := afterTag_elsewhere (e := e) (cfg := cfg) (ip := ip) (pre := pre) (fs := fs) hn ha.order hl
  have hwh := whole_afterTag (e := e) ha.order hd hn hp ho hwhole hl
  rw [← hat] at helse hwh
  rw [← hq.library] at helse hwh
  have hS1 := hS.of_same hP hG helse
  have hB : RoomBefore de q ip Complete (atDownloads e cfg ip pre fs) := by
    refine ⟨fun p hp' x hx => ?_, fun d hd' x hx => ?_, hwh⟩
    · rw [helse _ (hP.tmpLib p).1 (hP.tmpLib p).2] at hx
      exact hroom.tmp p hp' x hx
    · rw [same_of_base hP.cacheLib helse (List.prefix_append _ _)] at hx
      exact hroom.bins d hd' x hx
  obtain ⟨⟨s, hs, hstop, hsfs, hsout, ht⟩, ⟨t, htr, hrest, htfs, htout⟩⟩ := hrun
  have hret : s.returned = true := by
    rcases ((C155_downloads_end hP hG hS1).1 s hs).2 with h | ⟨ev, s', h⟩
    · exact h
    · rw [hstop] at h; cases h
  have hdl := hsout hret
  have hcaps : q.job.caps = {} := by
    obtain ⟨n, t, ρ, hj⟩ := hq.job
    rw [hj]
    rfl
  rw [hsfs] at htr htfs htout
  obtain ⟨hnil, hcomp⟩ := (C155_from_downloads hP hG hS1 hB hbin hs hret ht hq.plan hq.contract hq.wf
    (fun p hp => (hn p (List.mem_append_left _ hp)).2.1) hR hcpu hcaps hsize htr).2 hrest
  have hpl := htout hnil
  -- the tarballs
  obtain ⟨s', hs', hret', hfs', hres'⟩ := fine_coarse (dests_once hP hG) hs hret
  have hK := (delivered hP hG hS1 hs' hret' (by rw [hres']; exact ht)).1
  have hqi : QueueIs e q cfg.lib ip Scratch Complete Holds :=
    ⟨hq.job, hq.library, hq.wf, C118_layout hP hG hK hq.plan, hq.contract, hq.moments, hq.ended⟩
  have har : Around e cfg.lib :=
    ⟨fun fs1 st hst => by rw [← hq.library]; exact C118_downloads_spare_library hP hG (hD.moments fs1 st hst), ha.R, ha.during, ha.removal, ha.order⟩
  have hb := hqi.behaves har
  have hstates : ∀ st ∈ (e.phases cfg ip (afterTag e cfg ip pre (e.ensureLibrary cfg ip fs).1)).1.states, st ∈ (e.rInstall cfg ip pre fs).1.states := by
    intro st hst
    unfold RunEnv.rInstall
    dsimp only
    rw [if_neg (by simp [hl]), body_eq hn ha.order]
    by_cases hdead : (e.phases cfg ip (afterTag e cfg ip pre (e.ensureLibrary cfg ip fs).1)).2 = .dead
    · rw [if_pos hdead]; exact hst
    · rw [if_neg hdead]
      dsimp only
      exact states_mono_deleteBackups (states_mono_deleteBackups (states_mono_undo hst))
  have hphases : (e.phases cfg ip (afterTag e cfg ip pre (e.ensureLibrary cfg ip fs).1)).2 = .ok := by
    rw [hat] at hdl hsfs
    rw [← hsfs] at hpl htfs
    generalize afterTag e cfg ip pre (e.ensureLibrary cfg ip fs).1 = w at *
    unfold RunEnv.phases at hstates ⊢
    dsimp only [World.move] at hstates ⊢
    rw [if_neg (by simp [hdl])] at hstates ⊢
    rw [if_neg (by simp [hpl])] at hstates ⊢
    dsimp only at hstates ⊢
    rw [tarballs_fine hb hT hdis (fun p hp => (hn p (List.mem_append_left _ hp)).2.1) (e.ρ 3 (GoMap.keys ip.additional))
      (fun n h => (ha.order 3 _).mem_iff.1 h)]
    · simp [hpl]
    · intro p hp'
      show Complete p (contentOf (e.planned (e.download w.fs).fs).fs cfg.lib p)
      rw [htfs, ← hq.library]
      exact hcomp p hp'
    · intro st hst n hn'
      exact htar n ((ha.order 3 _).mem_iff.1 hn') st (hstates st hst)
  unfold RunEnv.rInstall
  dsimp only
  rw [if_neg (by simp [hl]), body_eq hn ha.order, if_neg (by rw [hphases]; simp)]
  dsimp only
  rw [hphases]
  rfl

/-- C172 (partial, as C136: an unambiguous configuration, the assumptions of `WellPosed` and `TarballsOK`).  `pkgr install`, from the configuration and the
index files to the library, when nothing goes wrong: the cache is in order and the repositories deliver, R succeeds on every package all of
whose dependencies are installed, no I/O error, nobody interrupts the run.  Then, whatever the order in which the repositories answer and in which downloads,
workers, requester, updater and R processes take their steps, the run reports success, and every wanted package is in the library, in a version that is not
older than the published one. -/
theorem C172_install_partial {P : Project} {re : RepoEnv} {c c' : DbCache} {parse : Str → Option Desc} {x : Extras}
    {Made : Str → (Path → Option Node) → Prop} (hW : WellPosed P re c) (hL : LibraryOK P re x parse fs cfg.lib)
    (hplan : PlanMade P re c c' parse x fs cfg.lib pre ip)
    (hq : QueueRuns e q cfg.lib ip Scratch Complete Holds) (hD : DownloadsAre e de ip q.download cfg.lib fs)
    (hP : Places de q Scratch) (hS : Stocked de q ip Holds fs) (ha : Outside e cfg.lib) (hd : NoFaults e.disk)
    (hI : Installs e.ie.R Complete Unpacked) (hC : TellsEnough Complete parse Made P re x fs cfg.lib) (hup : cfg.noUpdate = false)
    -- nothing goes wrong
    (hlib : fs cfg.lib = some .dir ∨ (cfg.strict = false ∧ e.mkdirFails fs = false))
    (hroom : NoFileInTheWay de q ip fs) (hbin : BinariesFit de q ip) (hR : RSucceeds q Complete Holds)
    (hT : TarballsSucceed e.ie.R ip cfg.lib Complete Unpacked)
    (htar : ∀ t, x.Given t → ∀ st ∈ (e.rInstall cfg ip pre fs).1.states, TarballReady e ip Unpacked st t)
    (hcpu : 0 < q.job.ncpu) (hsize : (queued ip).length ≤ 2500 + q.job.ncpu)
    (hrun : RunsOut e de q ip (atDownloads e cfg ip pre fs)) :
    (e.rInstall cfg ip pre fs).2 = .exit0 false ∧
    (∀ p, P.Fetched re x p → AsListed parse P re p (contentOf (e.rInstall cfg ip pre fs).1.fs cfg.lib p)) ∧
    (∀ p, x.Given p → Made p (contentOf (e.rInstall cfg ip pre fs).1.fs cfg.lib p)) := by
  have hF := planFacts hW hL.named hL.tarballs hplan
  have hok := C172_plan hq hD hP hF.downloads hS ha hd hF.good hF.ok (hF.inOrder hL)
    (fun p hp hh hr => by
      have hng : ¬ x.Given p := fun h => hr (Or.inr (by rw [hF.tar]; exact h))
      exact hC.there p (((hF.mem p).1 (List.mem_append_left _ hp)).resolve_right hng) hng ((hF.whole (Made := Made) hL hup hp hh hr).2 hng))
    (fun p hp ht => hL.tarballs.apart p (by rw [hF.tar] at ht; exact ht) ((hF.queue p).1 hp))
    (fun hc => by
      rcases hlib with h | h
      · rw [hF.create] at hc
        simp [Fs.isDir, h] at hc
      · exact h)
    hroom hbin hR hT (fun t ht => htar t (by rw [hF.tar] at ht; exact ht)) hcpu hsize hrun
  obtain ⟨h1, h2, _, _⟩ := C136_install_partial hW hL hplan hq hD hP hS ha hd hI (fun t ht st hst => (htar t ht st hst).1) hC hup hok
  exact ⟨hok, h1, h2⟩

/-! ### Example: the run of the example of C155, to its end -/

/-- A state in which the queue has come to rest. -/
noncomputable def smoothEnd (fs : Fs) : QState :=
  Classical.choose (C155_rests (e := endQ) toyQ_wf (Relation.ReflTransGen.refl : QReach endQ fs (endQ.init fs)) (Unfailing endQ) (fun _ _ h => h.1))

theorem smoothEnd_spec (fs : Fs) : Relation.ReflTransGen (Unfailing endQ) (endQ.init fs) (smoothEnd fs) ∧
    ∀ t, Relation.ReflTransGen (Unfailing endQ) (smoothEnd fs) t → OnlyFiles (smoothEnd fs) t :=
  Classical.choose_spec (C155_rests (e := endQ) toyQ_wf (Relation.ReflTransGen.refl : QReach endQ fs (endQ.init fs)) (Unfailing endQ) (fun _ _ h => h.1))

theorem smoothEnd_reach (fs : Fs) : QReach endQ fs (smoothEnd fs) := by
  have h := (smoothEnd_spec fs).1
  generalize smoothEnd fs = t at h
  induction h with
  | refl => exact .refl
  | tail _ h ih => exact ih.tail h.1

/-- see above -/
noncomputable def smoothDownload (fs : Fs) : Phase :=
  open Classical in if fs = realFs then { fs := endD.fs, out := .ok } else { fs := fs, out := .dead }

/-- see above -/
noncomputable def smoothQueue (fs : Fs) : Phase :=
  open Classical in { fs := (smoothEnd fs).fs, out := if (smoothEnd fs).run.ret = some .nil then .ok else .failed }

/-- see above -/
noncomputable def smoothRun : RunEnv := { realRun with download := smoothDownload, planned := smoothQueue }

/-- Non-vacuity of `C172_plan`: the assumptions hold, and so the run succeeds. -/
example : (smoothRun.rInstall { lib := [s%"lib"] } realPlan realPre realFs).2 = .exit0 false := by
  have hmem : ∀ {p : Str}, p ∈ members realPlan → p = s%"a" ∨ p = s%"b" := by
    intro p hp; simpa [realPlan, members, queued, tarballs, GoMap.keys] using hp
  obtain ⟨s', hs', hret', hfs', hres'⟩ := fine_coarse (dests_once end_places end_downloads) endD_reach rfl
  have hat : atDownloads smoothRun { lib := [s%"lib"] } realPlan realPre realFs = realFs := rfl
  have hdl : smoothRun.download realFs = { fs := endD.fs, out := .ok } := if_pos rfl
  refine C172_plan (e := smoothRun) (q := endQ) (de := realDe) (Scratch := fun _ => False) (Complete := ToyComplete) (Holds := ToyHolds)
    (Unpacked := WholeUnpacked) ⟨⟨1, 0, fun _ l => l, by decide⟩, rfl, toyQ_wf, endQ_contract, ?_, ?_⟩ ⟨?_, ?_⟩
    end_places end_downloads end_stocked
    ⟨whole_around.R, by intro n fs st h; simp [smoothRun, realRun] at h, by intro fs p st h; simp [smoothRun, realRun] at h, fun _ l => List.Perm.refl l⟩
    ⟨fun _ _ _ => rfl, fun _ _ => rfl⟩ ?_ ⟨by decide, by decide, by decide, by decide⟩ ?_ ?_ (by decide) (by decide)
    ⟨fun p _ x h => by simp [realFs, endQ, sureQ, toyQ] at h, fun d _ x h => by simp [realFs, realDe] at h⟩ (fun _ _ _ => .inl rfl) endQ_succeeds
    (fun c fs _ h => absurd h (show c.pkg ∉ ([] : List Str) from List.not_mem_nil)) (fun t h => absurd h (show t ∉ ([] : List Str) from List.not_mem_nil)) (by decide) (by decide) ⟨?_, ?_⟩
  · intro fs st hst
    change st ∈ ([] : List Fs) ++ [(smoothEnd fs).fs] at hst
    have : st = (smoothEnd fs).fs := by simpa using hst
    exact ⟨_, smoothEnd_reach fs, this.symm⟩
  · intro fs h
    refine ⟨_, smoothEnd_reach fs, rfl, ?_⟩
    change (smoothQueue fs).out = .ok at h
    unfold smoothQueue at h
    dsimp only at h
    apply Classical.byContradiction
    intro hn
    rw [if_neg hn] at h
    cases h
  · intro fs st hst
    change st ∈ (smoothDownload fs).mid ++ [(smoothDownload fs).fs] at hst
    unfold smoothDownload at hst
    split at hst
    · rename_i h
      have : st = endD.fs := by simpa using hst
      rw [this, h, ← hfs']
      exact .inr ⟨s', hs', fun x => .inl rfl⟩
    · have : st = fs := by simpa using hst
      rw [this]
      exact .inl fun x => .inl rfl
  · intro fs _ h
    change (smoothDownload fs).out = .ok at h
    show ∃ s, DlReach realDe realPlan.downloads fs s ∧ s.returned = true ∧ s.fs = (smoothDownload fs).fs ∧ _
    unfold smoothDownload at h ⊢
    split at h
    · rename_i hh
      rw [if_pos hh, hh]
      exact ⟨s', hs', hret', hfs', fun p => by rw [hres']; rfl⟩
    · simp at h
  · intro p hp
    rcases hmem hp with rfl | rfl <;> decide
  · refine ⟨by decide, ?_, ?_⟩
    · intro p hp h r
      rcases hmem hp with rfl | rfl
      · exact absurd h (by decide)
      · simp [realFs]
    · intro p hp r
      rcases hmem hp with rfl | rfl <;> simp [realFs, backupName]
  · intro p hp h _
    rcases hmem (List.mem_append_left _ hp) with rfl | rfl
    · show realFs _ = _
      decide
    · exact absurd h (by decide)
  · rw [hat, hdl]
    refine ⟨endD, endD_reach, fun ev => ?_, rfl, fun _ => rfl, fun _ => rfl⟩
    unfold DlEnv.fineStep
    rw [show (endD.dead || endD.returned) = true from rfl]
    rfl
  · rw [hat, hdl]
    refine ⟨smoothEnd endD.fs, (smoothEnd_spec _).1, (smoothEnd_spec _).2, rfl, fun h => ?_⟩
    show (smoothQueue endD.fs).out = .ok
    unfold smoothQueue
    dsimp only
    rw [if_pos h]

/-! ### Example: the project of C136, with an R that does not fail -/

/-- Steps that can be computed, in which no copy fails. -/
def calmExecs (e : QEnv) : QState → List QEvent → Option QState
  | s, [] => some s
  | s, ev :: evs => if (e.job.step s.run (.updCopy false)).isNone then
      match e.exec s ev with
      | some s' => calmExecs e s' evs
      | none => none
    else none

theorem calmExecs_unfailing {e : QEnv} {evs : List QEvent} : ∀ {s s' : QState}, calmExecs e s evs = some s' → Relation.ReflTransGen (Unfailing e) s s' := by
  induction evs with
  | nil => intro s s' h; cases h; exact .refl
  | cons ev evs ih =>
    intro s s' h
    unfold calmExecs at h
    split at h
    · rename_i hn
      split at h
      · rename_i s1 h1
        refine .head ⟨exec_step h1, ?_⟩ (ih h)
        rw [Option.isNone_iff_eq_none.1 hn]
        simp
      · cases h
    · cases h

/-- An R that does what it is told. -/
def calmProc : RProc :=
  { writes := anyR.writes
    exits := fun c fs x => x = .ok ∧ ymlDone c.pkg (contentOf fs c.lib c.pkg) ∧ (c.build = true → fs c.workDir = some .dir ∧
      ∀ bbp, binaryExtOs .darwin (basePath c.src) (s%"x") = some bbp → ∃ y, fs (c.workDir ++ [bbp]) = some (.file y) ∧ y ≠ []) }

/-- The downloads. -/
def calmD : FineState :=
  (ymlDe.fineRun ymlPlan.downloads (ymlDe.fineInit ymlFs1 ymlPlan.downloads)
    [.spawn, .acquire 0, .io 0 .check, .io 0 .reply, .io 0 .create, .io 0 (.write 4), .io 0 .close, .finish 0, .ret]).getD (ymlDe.fineInit ymlFs1 [])

theorem calmD_reach : FineReach ymlDe ymlPlan.downloads ymlFs1 calmD :=
  ⟨[.spawn, .acquire 0, .io 0 .check, .io 0 .reply, .io 0 .create, .io 0 (.write 4), .io 0 .close, .finish 0, .ret], by rfl⟩

/-- The queue. -/
def calmQ : QEnv :=
  { twQ with
    proc := calmProc
    ie := { toyQ.ie with digest := fun _ => s%"0123456789ab" }
    download := fun p => (GoMap.get? calmD.result p).getD {} }

theorem calmQ_plan {p : Str} (hp : p ∈ Job.plan calmQ.job) : p = s%"c" := by
  simpa [Job.plan, calmQ, twQ, GoMap.keys] using hp

theorem calmQ_contract : RContract calmQ (fun _ => False) ymlDone ToyHolds := by
  refine C152_contract_partial ?_ ?_ ?_ ?_
  · intro c fs fs' h q hq
    rcases h q hq with h | h | h
    · exact .inl h
    · exact .inr (.inl h)
    · exact .inr (.inr (.inl h))
  · intro c fs x h _ _; exact h.2.1
  · intro c fs x h hb _ _ bbp n hx hn
    obtain ⟨y, hy, hne⟩ := (h.2.2 hb).2 bbp hx
    rw [hy] at hn
    exact ⟨y, (Option.some.inj hn).symm, hne⟩
  · intro p hp k
    have := calmQ_plan hp
    subst this
    exact stampOf_plain (plainStamp_of (by decide +kernel) (by decide +kernel)) (plainStamp_of (by decide +kernel) (by decide +kernel)) k

theorem calm_new {D : Path → Option Node} (h0 : D [] = some .dir) (h1 : D [s%"DESCRIPTION"] = some (.file (ymlText (s%"c") (s%"2.0")))) :
    ymlDone (s%"c") D := by
  obtain ⟨repo, ty, d, hg, hv⟩ := ymlPublished
  exact ymlFields_written ymlFields_c2 (by decide) (by decide +kernel) (by decide +kernel) (fun _ => ⟨repo, ty, d, hg, by rw [hv]; decide⟩)
    (by decide +kernel) h0 h1

/-- What R leaves of `c`. -/
def calmLib (fs : Fs) : Fs := (fs.set [s%"lib", s%"c"] .dir).set [s%"lib", s%"c", s%"DESCRIPTION"] (.file (ymlText (s%"c") (s%"2.0")))

/-- What R leaves when it builds `c`, but for the binary. -/
def calmBuilt (fs : Fs) : Fs :=
  ((fs.set [s%"tmp", s%"c"] .dir).set [s%"tmp", s%"c", s%"c"] .dir).set [s%"tmp", s%"c", s%"c", s%"DESCRIPTION"] (.file (ymlText (s%"c") (s%"2.0")))

theorem calmQ_succeeds : RSucceeds calmQ ymlDone ToyHolds := by
  refine ⟨fun p hp k fs x y h _ _ hn => h.1, ?_, ?_⟩
  · intro p _ fs x h h1 h2
    obtain ⟨h3, h4⟩ := h.2.2 rfl
    refine ⟨h3, fun bbp hb => ?_⟩
    obtain ⟨y, hy, _⟩ := h4 bbp hb
    rw [show fs (calmQ.tmp p ++ [bbp]) = _ from hy]
    simp
  · intro p hp k fs x _ _ _
    have := calmQ_plan hp
    subst this
    by_cases hk : k = .build
    · subst hk
      have hbin : ∃ z, binaryExtOs .darwin (basePath (calmQ.rcall (s%"c") .build).src) (s%"x") = some z ∧ z ≠ s%"c" := ⟨_, rfl, by decide⟩
      obtain ⟨z, hz, hzc⟩ := hbin
      refine ⟨(calmBuilt fs).set [s%"tmp", s%"c", z] (.file (s%"bin")), .ok, .single ?_, rfl, ?_, fun _ => ⟨?_, ?_⟩⟩
      · intro q hq
        refine .inr (.inr ⟨rfl, ?_⟩)
        show [s%"tmp", s%"c"] <+: q
        apply Classical.byContradiction
        intro hn
        apply hq
        unfold calmBuilt Fs.set
        rw [if_neg, if_neg, if_neg, if_neg]
        · rintro rfl; exact hn (List.prefix_refl _)
        · rintro rfl; exact hn (by decide)
        · rintro rfl; exact hn (by decide)
        · rintro rfl; exact hn ⟨[z], rfl⟩
      · refine calm_new ?_ ?_
        · show (calmBuilt fs).set [s%"tmp", s%"c", z] (.file (s%"bin")) [s%"tmp", s%"c", s%"c"] = _
          simp [calmBuilt, Fs.set, Ne.symm hzc]
        · show (calmBuilt fs).set [s%"tmp", s%"c", z] (.file (s%"bin")) [s%"tmp", s%"c", s%"c", s%"DESCRIPTION"] = _
          simp [calmBuilt, Fs.set]
      · show (calmBuilt fs).set [s%"tmp", s%"c", z] (.file (s%"bin")) [s%"tmp", s%"c"] = _
        simp [calmBuilt, Fs.set]
      · intro bbp hb
        rw [hz] at hb
        cases hb
        refine ⟨s%"bin", ?_, by simp⟩
        show (calmBuilt fs).set [s%"tmp", s%"c", z] (.file (s%"bin")) [s%"tmp", s%"c", z] = _
        simp [Fs.set]
    · have hb : (calmQ.rcall (s%"c") k).build = false ∧ (calmQ.rcall (s%"c") k).lib = [s%"lib"] ∧ (calmQ.rcall (s%"c") k).pkg = s%"c" := by
        cases k with
        | build => exact absurd rfl hk
        | cached b => exact ⟨rfl, rfl, rfl⟩
        | final b => exact ⟨rfl, rfl, rfl⟩
      refine ⟨calmLib fs, .ok, .single ?_, rfl, ?_, fun h => ?_⟩
      · intro q hq
        refine .inl ?_
        rw [hb.2.1, hb.2.2]
        apply Classical.byContradiction
        intro hn
        apply hq
        unfold calmLib Fs.set
        rw [if_neg, if_neg]
        · rintro rfl; exact hn (by decide)
        · rintro rfl; exact hn (by decide)
      · rw [hb.2.1, hb.2.2]
        exact calm_new rfl rfl
      · rw [hb.1] at h; cases h

def calmS1 : QState := (calmExecs calmQ (calmQ.init calmD.fs) twEv1).getD (calmQ.init calmD.fs)
def calmS1' : QState := (calmS1.work 0 (calmLib calmS1.fs) (.inR ymlPass)).work 0 (calmLib calmS1.fs) (afterR ymlPass .ok)
def calmS2 : QState := (calmExecs calmQ calmS1' twEv2).getD calmS1'

theorem calmS2_reach : Relation.ReflTransGen (Unfailing calmQ) (calmQ.init calmD.fs) calmS2 := by
  have h1 : Relation.ReflTransGen (Unfailing calmQ) (calmQ.init calmD.fs) calmS1 := calmExecs_unfailing (evs := twEv1) (by rfl)
  refine (h1.trans ?_).trans (calmExecs_unfailing (evs := twEv2) (s := calmS1') (by rfl))
  refine .head ⟨.rWrite calmS1 0 (s%"c") ymlPass (calmLib calmS1.fs) rfl rfl rfl ?_, by simp [show calmQ.job.step calmS1.run (.updCopy false) = none from rfl]⟩
    (.single ⟨.rExit _ 0 (s%"c") ymlPass .ok rfl rfl rfl ⟨rfl, calm_new rfl rfl, fun h => by cases h⟩,
      by simp [show calmQ.job.step (calmS1.work 0 (calmLib calmS1.fs) (.inR ymlPass)).run (.updCopy false) = none from rfl]⟩)
  intro q hq
  refine .inl ?_
  apply Classical.byContradiction
  intro hn
  apply hq
  unfold calmLib Fs.set
  rw [if_neg, if_neg]
  · rintro rfl; exact hn (by decide)
  · rintro rfl; exact hn (by decide)

theorem calmS2_stuck (ev : Event) : calmQ.job.step calmS2.run ev = none := by
  cases ev with
  | take i => cases i <;> rfl
  | finish i o => cases i <;> rfl
  | post i => cases i <;> rfl
  | _ => rfl

theorem calmS2_rest (t : QState) (h : Relation.ReflTransGen (Unfailing calmQ) calmS2 t) : OnlyFiles calmS2 t := by
  have hw : ∀ (i : Nat) (p : Str), calmS2.run.workers[i]? ≠ some (.running p) := by
    intro i p
    cases i <;> exact fun h => by cases h
  have hu : ∀ p, calmS2.run.updater ≠ .copy p := fun p h => by cases h
  induction h with
  | refl => exact ⟨rfl, rfl, rfl, rfl⟩
  | tail _ hs ih =>
    obtain ⟨e1, e2, e3, e4⟩ := ih
    exfalso
    cases hs.1 <;> simp_all [calmS2_stuck]

/-- The downloads: the execution above when they begin with these files, else they die at once. -/
noncomputable def calmDownload (fs : Fs) : Phase :=
  open Classical in if fs = ymlFs1 then { fs := calmD.fs, out := .ok } else { fs := fs, out := .dead }

/-- The queue likewise. -/
noncomputable def calmQueue (fs : Fs) : Phase :=
  open Classical in if fs = calmD.fs then { mid := [calmS1.fs], fs := calmS2.fs, out := .ok } else { fs := fs, out := .failed }

/-- see above -/
noncomputable def calmRun : RunEnv := { ymlRun with download := calmDownload, planned := calmQueue }

/-- The same, for computation. -/
def calmRun' : RunEnv :=
  { ymlRun' with download := fun _ => { fs := calmD.fs, out := .ok }, planned := fun _ => { mid := [calmS1.fs], fs := calmS2.fs, out := .ok } }

theorem calm_eq : calmRun.rInstall { lib := [s%"lib"] } ymlPlan ymlPre ymlFs = calmRun'.rInstall { lib := [s%"lib"] } ymlPlan ymlPre ymlFs := by
  have h1 : calmRun.ensureLibrary { lib := [s%"lib"] } ymlPlan ymlFs = ({ fs := ymlFs }, true) := rfl
  have h3 : (calmRun.tag { lib := [s%"lib"] } { fs := ymlFs } (createRollbackPlan [s%"lib"] ymlPlan ymlPre calmRun.ρ)).1.fs = ymlFs1 := rfl
  have h2 : ∀ w : World, w.fs = ymlFs1 → calmRun.phases { lib := [s%"lib"] } ymlPlan w = calmRun'.phases { lib := [s%"lib"] } ymlPlan w := by
    intro w hw
    unfold RunEnv.phases
    have e1 : calmRun.download w.fs = { fs := calmD.fs, out := .ok } := if_pos hw
    have e2 : calmRun.planned calmD.fs = { mid := [calmS1.fs], fs := calmS2.fs, out := .ok } := if_pos rfl
    dsimp only [World.move]
    rw [e1]
    dsimp only
    rw [e2]
    rfl
  unfold RunEnv.rInstall RunEnv.body
  rw [h1]
  dsimp only
  rw [h2 _ h3]
  rfl

theorem calm_tar : ∀ t, ymlX.Given t → ∀ st ∈ (calmRun.rInstall { lib := [s%"lib"] } ymlPlan ymlPre ymlFs).1.states, TarballReady calmRun ymlPlan ymlUnpacked st t := by
  rw [calm_eq]
  intro t ht
  rw [(ymlGiven t).1 ht]
  have hh : ∀ st ∈ (calmRun'.rInstall { lib := [s%"lib"] } ymlPlan ymlPre ymlFs).1.states, st [s%"w", s%"t"] = some .dir ∧ st [s%"w"] = some .dir := by decide +kernel
  have hp : absPath calmRun.ie.cwd ((GoMap.get? ymlPlan.additional (s%"t")).getD {}).installPath = [s%"w", s%"t"] := by
    show absPath (toyEnv true).cwd _ = _
    decide +kernel
  intro st hst
  obtain ⟨k1, k2⟩ := hh st hst
  unfold TarballReady TarballThere
  rw [hp]
  refine ⟨⟨by rw [k1]; simp, ⟨rfl, k1⟩, ?_⟩, k2⟩
  have h : PlainStamp ((toyEnv true).stamp { type := .source, repo := { url := pathStr [s%"w", s%"t"], name := s%"IndividualPackage" } }) :=
    plainStamp_of (by decide +kernel) (by decide)
  exact h

/-- Non-vacuity of C172: all assumptions are met; the run succeeds and installs `c` and the tarball. -/
example : (calmRun.rInstall { lib := [s%"lib"] } ymlPlan ymlPre ymlFs).2 = .exit0 false ∧
    AsListed installedDesc ymlProject ymlEnv (s%"c") (contentOf (calmRun.rInstall { lib := [s%"lib"] } ymlPlan ymlPre ymlFs).1.fs [s%"lib"] (s%"c")) := by
  obtain ⟨c', h⟩ := ymlMade
  have hplaces : Places ymlDe calmQ (fun _ => False) := by
    refine ⟨rfl, rfl, rfl, rfl, fun _ => ⟨rfl, by show '/' ∉ s%"0123456789ab"; decide⟩, by decide, by decide, by decide, ?_, fun _ h => h.elim, ?_, ?_, fun _ h => h.elim⟩
    · intro p; constructor <;> simp [ymlDe, calmQ, twQ, toyQ]
    · intro p; constructor <;> simp [calmQ, twQ, toyQ]
    · intro p _ q _ h; constructor <;> simp [calmQ, twQ, toyQ, h, Ne.symm h]
  have hgood : GoodDownloads ymlPlan := (planFacts ymlPosed ymlDescribed (ymlTarballs _) h).downloads
  have hstock : Stocked ymlDe calmQ ymlPlan ToyHolds ymlFs := ⟨yml_stock.1, yml_stock.2, yml_stock.3, yml_stock.4⟩
  obtain ⟨s', hs', hret', hfs', hres'⟩ := fine_coarse (dests_once hplaces hgood) calmD_reach rfl
  have hat : atDownloads calmRun { lib := [s%"lib"] } ymlPlan ymlPre ymlFs = ymlFs1 := rfl
  have hdl : calmRun.download ymlFs1 = { fs := calmD.fs, out := .ok } := if_pos rfl
  have hpl : calmRun.planned calmD.fs = { mid := [calmS1.fs], fs := calmS2.fs, out := .ok } := if_pos rfl
  have hq : ∀ {a b}, Relation.ReflTransGen (Unfailing calmQ) a b → Relation.ReflTransGen calmQ.Step a b := by
    intro a b hab
    induction hab with
    | refl => exact .refl
    | tail _ h ih => exact ih.tail h.1
  have hS1 : Relation.ReflTransGen calmQ.Step (calmQ.init calmD.fs) calmS1 := hq (calmExecs_unfailing (evs := twEv1) (by rfl))
  have k := C172_install_partial (cfg := { lib := [s%"lib"] }) (q := calmQ) (Scratch := fun _ => False) (Complete := ymlDone) (Holds := ToyHolds) (Unpacked := ymlUnpacked)
    (e := calmRun) (de := ymlDe) ymlPosed ymlLibrary h
    ⟨⟨1, 0, fun _ l => l, by decide +kernel⟩, rfl, wellFormed_of_check twQ.job [s%"c"] (by decide) (by decide) (by decide), calmQ_contract, ?_, ?_⟩ ⟨?_, ?_⟩
    hplaces hstock ⟨ymlR_confined, by intro n fs st h; simp [calmRun, ymlRun, twRun] at h, by intro fs p st h; simp [calmRun, ymlRun, twRun] at h, fun _ l => List.Perm.refl l⟩
    ⟨fun _ _ _ => rfl, fun _ _ => rfl⟩ yml_R yml_enough rfl (.inl rfl)
    ⟨fun p _ x h => by simp [ymlFs, calmQ, twQ, toyQ] at h, fun d _ x h => by simp [ymlFs, ymlDe] at h⟩ (fun _ _ _ => .inl rfl) calmQ_succeeds
    (fun c fs hl hp _ _ => by
      have : c.pkg = s%"t" := by simpa [tarballs] using (show c.pkg ∈ [s%"t"] from (by decide +kernel : tarballs ymlPlan = [s%"t"]) ▸ hp)
      show (ymlR c fs).2 = .ok
      unfold ymlR
      rw [if_pos ⟨hl, this⟩])
    calm_tar (by decide) (by decide +kernel) ⟨?_, ?_⟩
  · exact ⟨k.1, k.2.1 _ (((ymlWanted _).2 (.inl rfl)).resolve_right fun h => absurd ((ymlGiven _).1 h) (by decide))⟩
  · intro fs st hst
    change st ∈ (calmQueue fs).mid ++ [(calmQueue fs).fs] at hst
    unfold calmQueue at hst
    split at hst
    · rename_i h
      rw [h]
      have : st = calmS1.fs ∨ st = calmS2.fs := by simpa using hst
      rcases this with rfl | rfl
      · exact ⟨_, hS1, rfl⟩
      · exact ⟨_, hq calmS2_reach, rfl⟩
    · have : st = fs := by simpa using hst
      rw [this]
      exact ⟨_, .refl, rfl⟩
  · intro fs h
    change (calmQueue fs).out = .ok at h
    show ∃ s, QReach calmQ fs s ∧ s.fs = (calmQueue fs).fs ∧ s.run.ret = some .nil
    unfold calmQueue at h ⊢
    split at h
    · rename_i hh
      rw [if_pos hh, hh]
      exact ⟨_, hq calmS2_reach, rfl, rfl⟩
    · simp at h
  · intro fs st hst
    change st ∈ (calmDownload fs).mid ++ [(calmDownload fs).fs] at hst
    unfold calmDownload at hst
    split at hst
    · rename_i h
      have : st = calmD.fs := by simpa using hst
      rw [this, h, ← hfs']
      exact .inr ⟨s', hs', fun x => .inl rfl⟩
    · have : st = fs := by simpa using hst
      rw [this]
      exact .inl fun x => .inl rfl
  · intro fs _ h
    change (calmDownload fs).out = .ok at h
    show ∃ s, DlReach ymlDe ymlPlan.downloads fs s ∧ s.returned = true ∧ s.fs = (calmDownload fs).fs ∧ _
    unfold calmDownload at h ⊢
    split at h
    · rename_i hh
      rw [if_pos hh, hh]
      exact ⟨s', hs', hret', hfs', fun p => by rw [hres']; rfl⟩
    · simp at h
  · rw [hat, hdl]
    refine ⟨calmD, calmD_reach, fun ev => ?_, rfl, fun _ => rfl, fun _ => rfl⟩
    unfold DlEnv.fineStep
    rw [show (calmD.dead || calmD.returned) = true from rfl]
    rfl
  · rw [hat, hdl]
    refine ⟨calmS2, calmS2_reach, calmS2_rest, ?_, fun _ => ?_⟩
    · dsimp only; rw [hpl]
    · dsimp only; rw [hpl]

end Pkgr
