/- C137, C138: where they fail. -/
import Verif.Props.FromYml
import Verif.Props.WholeRun

namespace Pkgr
open Spec

variable {P : Project} {re : RepoEnv} {c c' : DbCache} {parse : Str → Option Desc} {x : Extras} {fs : Fs}
  {pre : GoMap Desc} {ip : InstallPlan} {e : RunEnv} {de : DlEnv} {q : QEnv} {cfg : RunCfg} {Scratch : Path → Prop} {Holds : Str → Str → Prop}
  {Made Unpacked : Str → (Path → Option Node) → Prop}

/-! ### Nothing that happened is forgotten -/

theorem states_mono_rename {d : Disk} {w : World} {a b : Path} {st : Fs} (h : st ∈ w.states) : st ∈ (d.rename w a b).1.states := by
  unfold Disk.rename
  split
  · exact states_mono_move h
  · exact h

theorem states_mono_restoreAll {d : Disk} {us : List UpdateAttempt} {w : World} {st : Fs} (h : st ∈ w.states) : st ∈ (restoreAll d w us).1.states := by
  induction us generalizing w with
  | nil => exact h
  | cons u us ih =>
    have h1 : st ∈ (restoreOne d w u).1.states := by
      unfold restoreOne
      have h2 : st ∈ (if w.fs.ex u.active then d.removeAll w u.active else (w, false)).1.states := by
        split
        · exact states_mono_removeAll h
        · exact h
      dsimp only
      generalize (if w.fs.ex u.active then d.removeAll w u.active else (w, false)) = r at h2 ⊢
      split
      · exact h2
      · exact states_mono_rename h2
    simp only [restoreAll]
    split
    · exact h1
    · exact ih h1

theorem states_mono_removeNew {d : Disk} {lib : Path} {ps : List Str} {w : World} {st : Fs} (h : st ∈ w.states) : st ∈ (removeNew d lib w ps).1.states := by
  induction ps generalizing w with
  | nil => exact h
  | cons p ps ih =>
    have h1 : st ∈ (d.removeAll w (joinPath lib p)).1.states := states_mono_removeAll h
    simp only [removeNew]
    split
    · exact h1
    · exact ih h1

theorem states_mono_undo {rp : RollbackPlan} {w : World} {o : PhaseEnd} {st : Fs} (h : st ∈ w.states) : st ∈ (e.undo cfg rp w o).states := by
  unfold RunEnv.undo
  split
  · unfold rollbackEnvironment
    split
    · exact states_mono_removeAll h
    · have h1 : st ∈ (removeNew e.disk rp.lib w rp.new).1.states := states_mono_removeNew h
      dsimp only
      split
      · exact h1
      · have h2 : st ∈ (restoreAll e.disk (removeNew e.disk rp.lib w rp.new).1 rp.updates).1.states := states_mono_restoreAll h1
        split
        · exact h2
        · exact states_mono_restoreAll h2
  · exact h

/-- The state in which the installations begin is among the states of the run. -/
theorem tagged_in_run (hn : GoodNames ip) (hρ : e.ρ.Fair) (hc : ip.createLibrary = false) :
    (afterTag e cfg ip pre { fs := fs }).fs ∈ (e.rInstall cfg ip pre fs).1.states := by
  have hl : e.ensureLibrary cfg ip fs = ({ fs := fs }, true) := by
    unfold RunEnv.ensureLibrary; rw [hc]; rfl
  unfold RunEnv.rInstall
  rw [hl]
  dsimp only
  rw [if_neg (by simp), body_eq hn hρ]
  have h1 : (afterTag e cfg ip pre { fs := fs }).fs ∈ (e.phases cfg ip (afterTag e cfg ip pre { fs := fs })).1.states :=
    states_mono_phases (mem_states_fs _)
  generalize e.phases cfg ip (afterTag e cfg ip pre { fs := fs }) = r at h1 ⊢
  by_cases hd : r.2 = .dead
  · rw [if_pos hd]
    exact h1
  · rw [if_neg hd]
    exact states_mono_deleteBackups (states_mono_deleteBackups (states_mono_undo h1))

/-- C137 fails with tarballs: whatever comes of the second run, at some moment of it the package that is given as a tarball, and that the
first run has installed, is not in the library. -/
theorem C137_violated_tarball {Complete : Str → (Path → Option Node) → Prop} (hW : WellPosed P re c) (hL : LibraryOK P re x parse fs cfg.lib)
    (hplan : PlanMade P re c c' parse x fs cfg.lib pre ip)
    (hq : QueueRuns e q cfg.lib ip Scratch Complete Holds) (hD : DownloadsAre e de ip q.download cfg.lib fs)
    (hP : Places de q Scratch) (hS : Stocked de q ip Holds fs) (ha : Outside e cfg.lib) (hd : NoFaults e.disk)
    (hR : Installs e.ie.R Complete Unpacked)
    (htar : ∀ t, x.Given t → ∀ st ∈ (e.rInstall cfg ip pre fs).1.states, TarballThere e ip Unpacked st t)
    (hC : TellsEnough Complete parse Made P re x fs cfg.lib)
    (hmade : ∀ t D, x.Given t → Made t D → Announced parse P re t D) (hup : cfg.noUpdate = false) (hok : (e.rInstall cfg ip pre fs).2 = .exit0 false)
    {fs1 : Fs} (hfs1 : fs1 = (e.rInstall cfg ip pre fs).1.fs) (hlock : ∀ n, IsLock n → fs1 (cfg.lib ++ [n, s%"DESCRIPTION"]) = none)
    -- the second time
    {later : RepoEnv} (hs : SameRepos re later) {c'' : DbCache} {pre2 : GoMap Desc} {ip2 : InstallPlan}
    (hplan2 : PlanMade P later c' c'' parse x fs1 cfg.lib pre2 ip2)
    {e2 : RunEnv} {de2 : DlEnv} {q2 : QEnv} {cfg2 : RunCfg} {Scratch2 : Path → Prop} {Complete2 : Str → (Path → Option Node) → Prop} {Holds2 : Str → Str → Prop}
    (hlib : cfg2.lib = cfg.lib) (hq2 : QueueRuns e2 q2 cfg.lib ip2 Scratch2 Complete2 Holds2) (hD2 : DownloadsAre e2 de2 ip2 q2.download cfg.lib fs1)
    (hP2 : Places de2 q2 Scratch2) (hS2 : Stocked de2 q2 ip2 Holds2 fs1) (ha2 : Outside e2 cfg.lib) (hd2 : NoFaults e2.disk) {t : Str} (ht : x.Given t) :
    fs1 (cfg.lib ++ [t]) = some .dir ∧ ∃ st ∈ (e2.rInstall cfg2 ip2 pre2 fs1).1.states, Gone cfg.lib st t := by
  subst hfs1
  obtain ⟨hdone, hLa⟩ := library_afterwards hW hL hplan hq hD hP hS ha hd hR htar hC hmade hup hok hlock
  have hW2 := wellPosed_later hs hW hplan
  have hT2 : TarballsOK P later x parse (e.rInstall cfg ip pre fs).1.fs cfg.lib :=
    ⟨hLa.tarballs.once, hLa.tarballs.names, fun t ht h => hLa.tarballs.apart t ht ((same_fetched hs t).1 h),
      fun t d repo ty o ht h1 h2 => hLa.tarballs.current t d repo ty o ht h1 ((same_gets hs ..).1 h2)⟩
  have hF2 := planFacts hW2 hLa.named hT2 hplan2
  have hL2 : LibraryOK P later x parse (e.rInstall cfg ip pre fs).1.fs cfg.lib :=
    ⟨hLa.place, hLa.named, fun p hp => hLa.wanted p ((same_wanted hs p).1 hp), fun p hp => hLa.noBackup p ((same_wanted hs p).1 hp), hT2⟩
  obtain ⟨h1, h2, h3, h4⟩ := plan_afterwards hs hW2 hLa.named hT2 hdone hplan2
  have hdir := library_dir hW hL hplan hq hD hP hS ha hok
  have hc : ip2.createLibrary = false := by rw [hF2.create]; simp [Fs.isDir, hdir]
  have ho2 := hF2.inOrder hL2
  rw [← hlib] at hq2 hD2 ha2 h1 ho2 ⊢
  obtain ⟨e', hb, hdisk, hr, _⟩ := real_behaves (pre := pre2) hq2 hD2 hP2 h4 hS2 ha2 h3
  rw [← hdisk] at hd2
  have htm : t ∈ tarballs ip2 := by rw [hF2.tar]; exact ht
  have hmem : t ∈ members ip2 := (hF2.mem t).2 (.inr ht)
  have hf := tagFacts (e := e') (cfg := cfg2) hb.order h3 hF2.ok ho2
  have hin : t ∈ setAside e' cfg2 ip2 pre2 := List.mem_append_right _ ((mem_overwritesOf hb.order).2 ⟨htm, (h1 t hmem).2.1⟩)
  obtain ⟨t1, _⟩ := tagAll_exact _ (setAside e' cfg2 ip2 pre2) hf.nodup hf.names (fun p _ fs' => hd2.1 _ _ _) hf.dir { fs := (e.rInstall cfg ip pre fs).1.fs }
    (fun p hp => ⟨fun r => rfl, hf.noOld p hp⟩)
  refine ⟨(h1 t hmem).2.2, _, ?_, (t1 t hin).2⟩
  rw [← hr]
  exact tagged_in_run h3 hb.order hc

/-- C138 fails with I/O errors: if packages cannot be renamed and the run fails, then the rollback deletes the first wanted package
that is outdated; what there was of it is in no backup. -/
theorem C138_violated_rename {Complete : Str → (Path → Option Node) → Prop} (hW : WellPosed P re c) (hL : LibraryOK P re x parse fs cfg.lib)
    (hplan : PlanMade P re c c' parse x fs cfg.lib pre ip)
    (hq : QueueRuns e q cfg.lib ip Scratch Complete Holds) (hD : DownloadsAre e de ip q.download cfg.lib fs)
    (hP : Places de q Scratch) (hS : Stocked de q ip Holds fs) (ha : Outside e cfg.lib) (hdir : fs cfg.lib = some .dir)
    (hren : ∀ fs a b, e.disk.renameFails fs a b = true) (hrem : ∀ fs p, (e.disk.removing fs p).2 = false)
    (hup : cfg.noUpdate = false) (hrb : cfg.noRollback = false) (hfail : (e.rInstall cfg ip pre fs).2 = .exit0 true)
    (o : OutdatedPackage) (os : List OutdatedPackage) (hout : ip.outdated = o :: os) (hw : P.Wanted re x o.package) :
    fs (cfg.lib ++ [o.package]) = some .dir ∧
    Gone cfg.lib (e.rInstall cfg ip pre fs).1.fs o.package ∧ Gone cfg.lib (e.rInstall cfg ip pre fs).1.fs (backupName o.package) := by
  have hF := planFacts hW hL.named hL.tarballs hplan
  obtain ⟨e', hb, hdisk, hr, _⟩ := real_behaves (pre := pre) hq hD hP hF.downloads hS ha hF.good
  rw [← hr] at hfail ⊢
  rw [← hdisk] at hren hrem
  exact C51_violated_rename_fault e' cfg ip pre fs hb hF.good hF.ok (hF.inOrder hL) (by rw [hF.create]; simp [Fs.isDir, hdir]) hren hrem hrb hfail o os hup hout
    ((hF.mem _).2 hw)

/-! ### Examples -/

/-- The first plan of the example, with the database cache that it leaves. -/
theorem ymlMade1 : PlanMade ymlProject ymlEnv (fun _ => none) ymlCache installedDesc ymlX ymlFs [s%"lib"] ymlPre ymlPlan := by
  obtain ⟨c', hc⟩ := ymlOpens
  have : c' = ymlCache := by unfold ymlCache; rw [hc]
  subst this
  obtain ⟨req, nx', hp⟩ := ymlPlanned
  have hid : idOrder.Fair := fun _ _ => List.Perm.refl _
  refine ⟨idOrder, idOrder, idOrder, idOrder, idOrder, [(0, true)], ymlNexus, nx', [s%"c"], req, hid, hid, hid, hid, hid, by decide, hc, ?_, rfl, hp⟩
  intro n
  by_cases hn : n = s%"c"
  · subst hn; simp [ymlFs]
  · simp [ymlFs, hn]

/-- A concrete case of `C137_violated_tarball`: the tarball `t`, which the first run has installed. -/
example : ymlFs2 [s%"lib", s%"t"] = some .dir ∧
    ∃ st ∈ (ymlAgain.rInstall { lib := [s%"lib"] } ymlPlan2 ymlPre2 ymlFs2).1.states, Gone [s%"lib"] st (s%"t") := by
  obtain ⟨c'', h2⟩ := ymlMade2
  exact C137_violated_tarball (cfg := { lib := [s%"lib"] }) (cfg2 := { lib := [s%"lib"] }) ymlPosed ymlLibrary ymlMade1 yml_queue yml_downloads yml_places
    yml_stock yml_outside ⟨fun _ _ _ => rfl, fun _ _ => rfl⟩ yml_R yml_tar yml_enough yml_made rfl yml_ok (fs1 := ymlFs2) (by rw [yml_eq]; rfl)
    (fun n hl => ymlFs2_lib n _ (by rintro rfl; exact absurd hl (by decide)) (by rintro rfl; exact absurd hl (by decide))) (later := ymlLater) ⟨rfl, rfl, rfl, rfl, rfl, rfl⟩ h2
    (e2 := ymlAgain) (de2 := ymlDe) (q2 := ymlQ) (Scratch2 := fun _ => False) (Complete2 := ymlDone) (Holds2 := ToyHolds) rfl
    ⟨⟨1, 0, fun _ l => l, by decide +kernel⟩, rfl, yml_queue.wf, ymlQ_contract,
      by intro fs st hst
         have : st = fs := by simpa [ymlAgain] using hst
         rw [this]
         exact ⟨_, .refl, rfl⟩,
      by intro fs h; cases h⟩
    ⟨by intro fs st hst
        have : st = fs := by simpa [ymlAgain] using hst
        rw [this]
        exact .inl fun x => .inl rfl,
      by intro fs _ h; cases h⟩
    yml_places
    (yml_stocked (by decide +kernel) (by decide +kernel) ymlFs2_cache (by decide +kernel))
    ⟨tw_around.R, by intro n fs st h; simp [ymlAgain, twRun'] at h, by intro fs p st h; simp [ymlAgain, twRun'] at h, fun _ l => List.Perm.refl l⟩
    ⟨fun _ _ _ => rfl, fun _ _ => rfl⟩ ((ymlGiven _).2 rfl)

/-- The downloads of the example, when nothing could be set aside before. -/
def ymlD0 : DlState :=
  (ymlDe.run ymlPlan.downloads (ymlDe.init ymlFs ymlPlan.downloads) [.spawn, .acquire 0, .finish 0, .ret]).getD (ymlDe.init ymlFs [])

/-- see above -/
noncomputable def ymlDownload0 (fs : Fs) : Phase :=
  open Classical in if fs = ymlFs then { fs := ymlD0.fs, out := .ok } else { fs := fs, out := .dead }

/-- A run on a disk on which nothing can be renamed. -/
noncomputable def ymlStuck : RunEnv :=
  { ymlFails with disk := { renameFails := fun _ _ _ => true, removing := fun _ _ => ([], false) },
                  download := ymlDownload0 }

/-- The same, for computation. -/
def ymlStuck' : RunEnv :=
  { ymlFails' with disk := { renameFails := fun _ _ _ => true, removing := fun _ _ => ([], false) }, download := fun _ => { fs := ymlD0.fs, out := .ok } }

theorem ymlStuck_eq : ymlStuck.rInstall { lib := [s%"lib"] } ymlPlan ymlPre ymlFs = ymlStuck'.rInstall { lib := [s%"lib"] } ymlPlan ymlPre ymlFs := by
  have h1 : ymlStuck.ensureLibrary { lib := [s%"lib"] } ymlPlan ymlFs = ({ fs := ymlFs }, true) := rfl
  have h3 : (ymlStuck.tag { lib := [s%"lib"] } { fs := ymlFs } (createRollbackPlan [s%"lib"] ymlPlan ymlPre ymlStuck.ρ)).1.fs = ymlFs := rfl
  have h2 : ∀ w : World, w.fs = ymlFs → ymlStuck.phases { lib := [s%"lib"] } ymlPlan w = ymlStuck'.phases { lib := [s%"lib"] } ymlPlan w := by
    intro w hw
    unfold RunEnv.phases
    have e1 : ymlStuck.download w.fs = { fs := ymlD0.fs, out := .ok } := if_pos hw
    dsimp only [World.move]
    rw [e1]
    rfl
  unfold RunEnv.rInstall RunEnv.body
  rw [h1]
  dsimp only
  rw [h2 _ h3]
  rfl

/-- A concrete case of `C138_violated_rename`: `c` 1.0 is deleted. -/
example : ymlFs [s%"lib", s%"c"] = some .dir ∧
    Gone [s%"lib"] (ymlStuck.rInstall { lib := [s%"lib"] } ymlPlan ymlPre ymlFs).1.fs (s%"c") ∧
    Gone [s%"lib"] (ymlStuck.rInstall { lib := [s%"lib"] } ymlPlan ymlPre ymlFs).1.fs (backupName (s%"c")) := by
  have hf : (ymlStuck.rInstall { lib := [s%"lib"] } ymlPlan ymlPre ymlFs).2 = .exit0 true := by rw [ymlStuck_eq]; decide +kernel
  have hr : DlReach ymlDe ymlPlan.downloads ymlFs ymlD0 := ⟨[.spawn, .acquire 0, .finish 0, .ret], by rfl⟩
  refine C138_violated_rename (cfg := { lib := [s%"lib"] }) ymlPosed ymlLibrary ymlMade1 (e := ymlStuck) (q := ymlQ) (de := ymlDe) (Holds := ToyHolds) (Scratch := fun _ => False) (Complete := ymlDone)
    ⟨ymlFails_queue.job, rfl, ymlFails_queue.wf, ymlQ_contract, ymlFails_queue.moments, ymlFails_queue.ended⟩ ⟨?_, ?_⟩ yml_places yml_stock
    ⟨yml_outside.R, yml_outside.during, by intro fs p st h; simp [ymlStuck] at h, yml_outside.order⟩ rfl (fun _ _ _ => rfl) (fun _ _ => rfl) rfl rfl hf
    { package := s%"c", oldVersion := s%"1.0", newVersion := s%"2.0" } [] (by decide +kernel) ((ymlWanted _).2 (.inl rfl))
  · intro fs st hst
    change st ∈ (ymlDownload0 fs).mid ++ [(ymlDownload0 fs).fs] at hst
    unfold ymlDownload0 at hst
    split at hst
    · rename_i h
      have : st = ymlD0.fs := by simpa using hst
      rw [this, h]
      exact .inr ⟨ymlD0, hr, fun x => .inl rfl⟩
    · have : st = fs := by simpa using hst
      rw [this]
      exact .inl fun x => .inl rfl
  · intro fs _ h
    change (ymlDownload0 fs).out = .ok at h
    show ∃ s, DlReach ymlDe ymlPlan.downloads fs s ∧ s.returned = true ∧ s.fs = (ymlDownload0 fs).fs ∧ _
    unfold ymlDownload0 at h ⊢
    split at h
    · rename_i hh
      rw [if_pos hh, hh]
      exact ⟨ymlD0, hr, rfl, rfl, fun p => rfl⟩
    · simp at h

end Pkgr
