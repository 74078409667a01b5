/- C136, C138: `pkgr install --no-update`, from the configuration to the library. -/
import Verif.Props.FromYmlMore

namespace Pkgr
open Spec

variable {P : Project} {re : RepoEnv} {c c' : DbCache} {parse : Str → Option Desc} {x : Extras} {fs : Fs}
  {pre : GoMap Desc} {ip : InstallPlan} {e : RunEnv} {de : DlEnv} {q : QEnv} {cfg : RunCfg} {Scratch : Path → Prop} {Holds : Str → Str → Prop}
  {Unpacked : Str → (Path → Option Node) → Prop}

/-- C136 (partial, as `C136_install_partial`), when updates are forbidden: a run that reports no failure leaves every wanted package completely
installed, those that were in the library and are not given as tarballs as they were, however old they are; nothing else in the library
has changed, except R's locks. -/
theorem C136_no_update_partial {Complete : Str → (Path → Option Node) → Prop} (hW : WellPosed P re c) (hL : LibraryOK P re x parse fs cfg.lib)
    (hplan : PlanMade P re c c' parse x fs cfg.lib pre ip)
    (hq : QueueRuns e q cfg.lib ip Scratch Complete Holds) (hD : DownloadsAre e de ip q.download cfg.lib fs)
    (hP : Places de q Scratch) (hS : Stocked de q ip Holds fs) (ha : Outside e cfg.lib) (hd : NoFaults e.disk)
    (hR : Installs e.ie.R Complete Unpacked)
    (htar : ∀ t, x.Given t → ∀ st ∈ (e.rInstall cfg ip pre fs).1.states, TarballThere e ip Unpacked st t)
    (hthere : ∀ p, P.Fetched re x p → fs (cfg.lib ++ [p]) = some .dir → Complete p (contentOf fs cfg.lib p))
    (hup : cfg.noUpdate = true) (hok : (e.rInstall cfg ip pre fs).2 = .exit0 false) :
    (∀ p, P.Wanted re x p → Complete p (contentOf (e.rInstall cfg ip pre fs).1.fs cfg.lib p)) ∧
    (∀ p, P.Fetched re x p → fs (cfg.lib ++ [p]) = some .dir → Intact cfg.lib fs (e.rInstall cfg ip pre fs).1.fs p) ∧
    (∀ n r, ¬ P.Wanted re x n → ¬ IsLock n → (e.rInstall cfg ip pre fs).1.fs (cfg.lib ++ n :: r) = fs (cfg.lib ++ n :: r) ∨
      ∃ p, P.Wanted re x p ∧ n = backupName p ∧ (e.rInstall cfg ip pre fs).1.fs (cfg.lib ++ n :: r) = none) := by
  have hF := planFacts hW hL.named hL.tarballs hplan
  have hnr : ∀ p, P.Fetched re x p → ¬ Replaced cfg ip p := by
    rintro p hp (⟨h, _⟩ | h)
    · rw [hup] at h; cases h
    · rw [hF.tar] at h; exact hL.tarballs.apart p h hp
  obtain ⟨h1, h2, h3, h4⟩ := C118_install hq hD hP hF.downloads hS ha hd hF.good hF.ok (hF.inOrder hL)
    (fun p hp hh hr => by
      have hng : ¬ x.Given p := fun h => hr (Or.inr (by rw [hF.tar]; exact h))
      exact hthere p (((hF.mem p).1 (List.mem_append_left _ hp)).resolve_right hng) ((hF.inOrder hL).found p (List.mem_append_left _ hp) hh)) hR
    (fun t ht => htar t (by rw [hF.tar] at ht; exact ht)) hok
  refine ⟨fun p hp => h1 p ((hF.mem p).2 hp), ?_, ?_⟩
  · intro p hp hdir
    have hm := (hF.mem p).2 (.inl hp)
    refine h2 p hm ?_ (hnr p hp)
    cases hh : GoMap.has pre p with
    | true => rfl
    | false => have := (hF.inOrder hL).notFound p hm hh []; rw [hdir] at this; cases this
  · intro n r hn hl
    rcases h4 n r (fun h => hn ((hF.mem n).1 h)) hl with h | ⟨p, hp, rfl⟩
    · exact .inl h
    · exact .inr ⟨p, (hF.mem p).1 hp, rfl, h3 p hp r⟩

/-- C138 (partial, as `C138_others_partial`), when updates are forbidden: at every moment of the run, whatever fails and wherever it is interrupted,
a wanted package that was in the library and is not given as a tarball is as it was. -/
theorem C138_no_update_partial {Complete : Str → (Path → Option Node) → Prop} (hW : WellPosed P re c) (hL : LibraryOK P re x parse fs cfg.lib)
    (hplan : PlanMade P re c c' parse x fs cfg.lib pre ip)
    (hq : QueueRuns e q cfg.lib ip Scratch Complete Holds) (hD : DownloadsAre e de ip q.download cfg.lib fs)
    (hP : Places de q Scratch) (hS : Stocked de q ip Holds fs) (ha : Outside e cfg.lib) (hup : cfg.noUpdate = true)
    (hlib : fs cfg.lib = some .dir) {p : Str} (hp : P.Fetched re x p) (hdir : fs (cfg.lib ++ [p]) = some .dir) :
    ∀ st ∈ (e.rInstall cfg ip pre fs).1.states, Intact cfg.lib fs st p := by
  have hF := planFacts hW hL.named hL.tarballs hplan
  obtain ⟨e', hb, _, hr, _⟩ := real_behaves (pre := pre) hq hD hP hF.downloads hS ha hF.good
  have hm := (hF.mem p).2 (.inl hp)
  rw [← hr]
  refine C56_noUpdate e' cfg ip pre fs hb hF.good (by rw [hF.create]; simp [Fs.isDir, hlib]) hup p hdir ?_
    (fun h => by rw [hF.tar] at h; exact hL.tarballs.apart p h hp) (hF.good p hm).2.1 (hF.good p hm).2.2
  cases hh : GoMap.has pre p with
  | true => rfl
  | false => have := (hF.inOrder hL).notFound p hm hh []; rw [hdir] at this; cases this

/-! ### Examples -/

/-- The queue of the example: `c` is found in the library, and its worker does nothing. -/
def nuEvents : List QEvent :=
  [.sched .mainAdd, .sched .mainSend, .sched .reqCheck, .sched .reqPush, .take 0, .prog 0, .finish 0, .sched (.post 0), .sched .updTake, .sched .updScan,
    .sched .updDone, .sched .mainReturn]
def nuS : QState := (ymlQ.execs (ymlQ.init ymlD0.fs) nuEvents).getD (ymlQ.init ymlD0.fs)

theorem nuS_reach : QReach ymlQ ymlD0.fs nuS := execs_reach (evs := nuEvents) (by rfl)

/-- see above -/
noncomputable def nuQueue (fs : Fs) : Phase :=
  open Classical in if fs = ymlD0.fs then { fs := nuS.fs, out := .ok } else { fs := fs, out := .failed }

/-- The run with `--no-update`. -/
noncomputable def nuRun : RunEnv := { ymlRun with download := ymlDownload0, planned := nuQueue }

/-- The same, for computation. -/
def nuRun' : RunEnv := { ymlRun' with download := fun _ => { fs := ymlD0.fs, out := .ok }, planned := fun _ => { fs := nuS.fs, out := .ok } }

def nuCfg : RunCfg := { lib := [s%"lib"], noUpdate := true }

theorem nu_eq : nuRun.rInstall nuCfg ymlPlan ymlPre ymlFs = nuRun'.rInstall nuCfg ymlPlan ymlPre ymlFs := by
  have h1 : nuRun.ensureLibrary nuCfg ymlPlan ymlFs = ({ fs := ymlFs }, true) := rfl
  have h3 : (nuRun.tag nuCfg { fs := ymlFs } (createRollbackPlan [s%"lib"] ymlPlan ymlPre nuRun.ρ)).1.fs = ymlFs := rfl
  have h2 : ∀ w : World, w.fs = ymlFs → nuRun.phases nuCfg ymlPlan w = nuRun'.phases nuCfg ymlPlan w := by
    intro w hw
    unfold RunEnv.phases
    have e1 : nuRun.download w.fs = { fs := ymlD0.fs, out := .ok } := if_pos hw
    have e2 : nuRun.planned ymlD0.fs = { fs := nuS.fs, out := .ok } := if_pos rfl
    dsimp only [World.move]
    rw [e1]
    dsimp only
    rw [e2]
    rfl
  unfold RunEnv.rInstall RunEnv.body
  rw [h1]
  dsimp only [nuCfg] at h2 h3 ⊢
  rw [h2 _ h3]
  rfl

theorem nu_ok : (nuRun.rInstall nuCfg ymlPlan ymlPre ymlFs).2 = .exit0 false := by
  rw [nu_eq]
  decide +kernel

theorem nu_contract : RContract ymlQ (fun _ => False) ymlTar ToyHolds := by
  refine C152_contract_partial ?_ ?_ ?_ ymlQ_stamps
  · intro c fs fs' h q hq
    rcases h q hq with h | h | h
    · exact .inl h
    · exact .inr (.inl h)
    · exact .inr (.inr (.inl h))
  · intro c fs x h _ _
    obtain ⟨h0, hp, gs, v, h1, h2, h3, h4, _, h6⟩ := (h rfl).1
    exact ⟨h0, hp, gs, v, h1, h2, h3, h4, trivial, h6⟩
  · intro c fs x h hb _ _; exact (h rfl).2 hb

theorem nu_queue : QueueRuns nuRun ymlQ [s%"lib"] ymlPlan (fun _ => False) ymlTar ToyHolds where
  job := yml_queue.job
  library := rfl
  wf := yml_queue.wf
  contract := nu_contract
  moments := by
    intro fs st hst
    change st ∈ (nuQueue fs).mid ++ [(nuQueue fs).fs] at hst
    unfold nuQueue at hst
    split at hst
    · rename_i h
      have : st = nuS.fs := by simpa using hst
      rw [h, this]
      exact ⟨_, nuS_reach, rfl⟩
    · have : st = fs := by simpa using hst
      rw [this]
      exact ⟨_, .refl, rfl⟩
  ended := by
    intro fs h
    change (nuQueue fs).out = .ok at h
    show ∃ s, QReach ymlQ fs s ∧ s.fs = (nuQueue fs).fs ∧ s.run.ret = some .nil
    unfold nuQueue at h ⊢
    split at h
    · rename_i hh
      rw [if_pos hh, hh]
      exact ⟨_, nuS_reach, rfl, rfl⟩
    · simp at h

theorem nu_downloads : DownloadsAre nuRun ymlDe ymlPlan ymlQ.download [s%"lib"] ymlFs := by
  have hr : DlReach ymlDe ymlPlan.downloads ymlFs ymlD0 := ⟨[.spawn, .acquire 0, .finish 0, .ret], by rfl⟩
  refine ⟨?_, ?_⟩
  · intro fs st hst
    change st ∈ (ymlDownload0 fs).mid ++ [(ymlDownload0 fs).fs] at hst
    unfold ymlDownload0 at hst
    split at hst
    · rename_i h
      have : st = ymlD0.fs := by simpa using hst
      rw [this, h]
      exact .inr ⟨ymlD0, hr, fun x => .inl rfl⟩
    · have : st = fs := by simpa using hst
      rw [this]
      exact .inl fun x => .inl rfl
  · intro fs _ h
    change (ymlDownload0 fs).out = .ok at h
    show ∃ s, DlReach ymlDe ymlPlan.downloads fs s ∧ s.returned = true ∧ s.fs = (ymlDownload0 fs).fs ∧ _
    unfold ymlDownload0 at h ⊢
    split at h
    · rename_i hh
      rw [if_pos hh, hh]
      exact ⟨ymlD0, hr, rfl, rfl, fun p => rfl⟩
    · simp at h

theorem nu_tar : ∀ t, ymlX.Given t → ∀ st ∈ (nuRun.rInstall nuCfg ymlPlan ymlPre ymlFs).1.states, TarballThere nuRun ymlPlan ymlUnpacked st t := by
  rw [nu_eq]
  intro t ht
  rw [(ymlGiven t).1 ht]
  have hh : ∀ st ∈ (nuRun'.rInstall nuCfg ymlPlan ymlPre ymlFs).1.states, st [s%"w", s%"t"] = some .dir := by decide +kernel
  have hp : absPath nuRun.ie.cwd ((GoMap.get? ymlPlan.additional (s%"t")).getD {}).installPath = [s%"w", s%"t"] := by
    show absPath (toyEnv true).cwd _ = _
    decide +kernel
  intro st hst
  have := hh st hst
  unfold TarballThere
  rw [hp]
  refine ⟨by rw [this]; simp, ⟨rfl, this⟩, ?_⟩
  have h : PlainStamp ((toyEnv true).stamp { type := .source, repo := { url := pathStr [s%"w", s%"t"], name := s%"IndividualPackage" } }) :=
    plainStamp_of (by decide +kernel) (by decide)
  exact h

theorem nu_R : Installs ymlR ymlTar ymlUnpacked := by
  intro c fs h hu
  obtain ⟨h0, hp, gs, v, h1, h2, h3, h4, _, h6⟩ := yml_R c fs h hu
  exact ⟨h0, hp, gs, v, h1, h2, h3, h4, trivial, h6⟩

theorem nu_fetched : ymlProject.Fetched ymlEnv ymlX (s%"c") :=
  ((ymlWanted _).2 (.inl rfl)).resolve_right fun h => absurd ((ymlGiven _).1 h) (by decide)

/-- A concrete case of `C136_no_update_partial`: the repository has `c` 2.0; the run succeeds, installs the tarball `t`, and leaves `c` 1.0 as it was. -/
example : ymlTar (s%"t") (contentOf (nuRun.rInstall nuCfg ymlPlan ymlPre ymlFs).1.fs [s%"lib"] (s%"t")) ∧
    Intact [s%"lib"] ymlFs (nuRun.rInstall nuCfg ymlPlan ymlPre ymlFs).1.fs (s%"c") ∧
    ymlFs [s%"lib", s%"c", s%"DESCRIPTION"] = some (.file (ymlText (s%"c") (s%"1.0"))) := by
  obtain ⟨c', h⟩ := ymlMade
  have k := C136_no_update_partial (cfg := nuCfg) ymlPosed ymlLibrary h nu_queue nu_downloads yml_places yml_stock
    ⟨yml_outside.R, yml_outside.during, yml_outside.removal, yml_outside.order⟩ ⟨fun _ _ _ => rfl, fun _ _ => rfl⟩ nu_R nu_tar
    (by
      intro p hp hdir
      rcases (ymlWanted p).1 (.inl hp) with rfl | rfl
      · exact ymlFields_written ymlFields_c1 (by decide) (by decide +kernel) (by decide +kernel) trivial (by decide +kernel) rfl rfl
      · exact absurd hdir (by decide)) rfl nu_ok
  exact ⟨k.1 _ ((ymlWanted _).2 (.inr rfl)), k.2.1 _ nu_fetched rfl, rfl⟩

/-- A concrete case of `C138_no_update_partial`: the installation of what is planned fails; `c` 1.0 was never touched. -/
example : ∀ st ∈ (ymlFails.rInstall nuCfg ymlPlan ymlPre ymlFs).1.states, Intact [s%"lib"] ymlFs st (s%"c") := by
  obtain ⟨c', h⟩ := ymlMade
  exact C138_no_update_partial (cfg := nuCfg) ymlPosed ymlLibrary h ymlFails_queue ⟨yml_downloads.moments, yml_downloads.ended⟩ yml_places yml_stock
    ⟨yml_outside.R, yml_outside.during, yml_outside.removal, yml_outside.order⟩ rfl rfl nu_fetched rfl

end Pkgr
