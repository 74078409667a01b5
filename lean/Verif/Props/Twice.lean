/- C111: `pkgr install` twice. -/
import Verif.Props.WholeRun

namespace Pkgr
open Spec

theorem described_some {parse : Str → Option Desc} {fs : Fs} {lib : Path} {n : Str} {d : Desc}
    (h : described parse fs lib n = some d) : ∃ c, fs (lib ++ [n, s%"DESCRIPTION"]) = some (.file c) ∧ parse c = some d := by
  unfold described at h
  split at h
  · rename_i c hc
    exact ⟨c, hc, h⟩
  · cases h

/-- C111: the packages of the plan do not depend on what is installed, nor on map orders. -/
theorem C111_same_packages {nx : Nexus} {cfgs : InstallDeps} {nr : Bool} (hk : Keyed nx) (hR : NoR nx)
    (hu : Uniform cfgs nr) {pkgs : List Str} (hnp : pkgs ≠ []) (hav : ∀ p ∈ pkgs, Available nx p)
    {ρ1 ρ2 : Order} (hρ1 : ρ1.Fair) (hρ2 : ρ2.Fair) {i1 i2 : GoMap Desc} {u1 u2 l1 l2 : Bool} {ip1 ip2 : InstallPlan}
    (h1 : resolveInstallationReqs pkgs i1 cfgs nx u1 l1 nr ρ1 = .ok ip1)
    (h2 : resolveInstallationReqs pkgs i2 cfgs nx u2 l2 nr ρ2 = .ok ip2) :
    (∀ p, p ∈ members ip1 ↔ p ∈ members ip2) ∧ tarballs ip1 = [] ∧ tarballs ip2 = [] := by
  rcases resolve_cases hk hρ1 hu (noR_not_available hR) hnp hav i1 u1 l1 with
    ⟨h, _⟩ | ⟨_, t, ⟨_, h⟩ | ⟨outd, ip', ho, h, hok, hod, _, _, _, hadd⟩⟩
  · rw [h] at h1; cases h1
  · rw [h] at h1; cases h1
  rw [h] at h1; cases h1
  rcases resolve_cases hk hρ2 hu (noR_not_available hR) hnp hav i2 u2 l2 with
    ⟨h, _⟩ | ⟨_, t, ⟨_, h⟩ | ⟨outd, ip', ho, h, hok', hod, _, _, _, hadd'⟩⟩
  · rw [h] at h2; cases h2
  · rw [h] at h2; cases h2
  rw [h] at h2; cases h2
  unfold members queued tarballs
  rw [hadd, hadd']
  refine ⟨fun p => ?_, rfl, rfl⟩
  simp only [GoMap.keys, List.map_nil, List.append_nil]
  exact (hok.mem p).trans (hok'.mem p).symm

/-- C111: `pkgr install` twice.  A plan is made and run with updates on, in any interleaving, and the run reports no
failure.  Then a plan made from the library as it is now finds no package outdated, and running it changes nothing in
the library (R's locks aside), at any moment and whatever happens in it.  Supposed: at the start every directory of
the library holds the package it is named after, the library is in order, the downloads deliver, there is no I/O
error in the first run, what R takes for a complete installation (`Complete`) says the name and no older version than the
one offered (and what is there at the start in such a version is complete), and R leaves no DESCRIPTION directly in a
lock directory. -/
theorem C111_second_install {nx : Nexus} {cfgs : InstallDeps} {nr : Bool} (hk : Keyed nx) (hRn : NoR nx)
    (hu : Uniform cfgs nr) {pkgs : List Str} (hnp : pkgs ≠ []) (hav : ∀ p ∈ pkgs, Available nx p)
    {parse : Str → Option Desc} {fs : Fs} {e e2 : RunEnv} {q : QEnv} {cfg cfg2 : RunCfg} {Scratch : Path → Prop} {Holds : Str → Str → Prop}
    {Complete : Str → (Path → Option Node) → Prop} (hC : ∀ p D, Complete p D → UpToDate parse nx p D)
    (hthere : ∀ p, UpToDate parse nx p (contentOf fs cfg.lib p) → Complete p (contentOf fs cfg.lib p))
    (names names2 : List Str)
    (hsane : ∀ n d, described parse fs cfg.lib n = some d → d.package = n ∧ n ≠ [])
    -- the first plan and run
    {update libEx : Bool} {ip : InstallPlan} {ρ : Order} (hρ : ρ.Fair)
    (hplan : resolveInstallationReqs pkgs (getPriorInstalled parse fs cfg.lib names) cfgs nx update libEx nr ρ = .ok ip)
    (hq : QueueIs e q cfg.lib ip Scratch Complete Holds) (ha : Around e cfg.lib) (hd : NoFaults e.disk)
    (hn : GoodNames ip) (ho : InOrder cfg.lib ip (getPriorInstalled parse fs cfg.lib names) fs) (hdl : Delivers e q ip Scratch Holds cfg.lib fs)
    (hup : cfg.noUpdate = false)
    (hok : (e.rInstall cfg ip (getPriorInstalled parse fs cfg.lib names) fs).2 = .exit0 false)
    -- the library afterwards
    {fs1 : Fs} (hfs1 : fs1 = (e.rInstall cfg ip (getPriorInstalled parse fs cfg.lib names) fs).1.fs)
    (hlock : ∀ n, IsLock n → fs1 (cfg.lib ++ [n, s%"DESCRIPTION"]) = none)
    (hnames2 : ∀ n, fs1 (cfg.lib ++ [n]) ≠ none → n ∈ names2)
    -- the second plan and run
    {update2 : Bool} {ip2 : InstallPlan} {ρ2 : Order} (hρ2 : ρ2.Fair)
    (hplan2 : resolveInstallationReqs pkgs (getPriorInstalled parse fs1 cfg.lib names2) cfgs nx update2 true nr ρ2 = .ok ip2)
    (hlib : cfg2.lib = cfg.lib) (hb2 : Behaves e2 cfg.lib ip2) :
    (∀ p ∈ members ip2, p ∉ ip2.outdated.map OutdatedPackage.package) ∧
    ∀ st ∈ (e2.rInstall cfg2 ip2 (getPriorInstalled parse fs1 cfg.lib names2) fs1).1.states, Keeps cfg.lib IsLock fs1 st := by
  obtain ⟨hsame, ht1, ht2⟩ := C111_same_packages hk hRn hu hnp hav hρ hρ2 hplan hplan2
  have hget : ∀ p, GoMap.get? (getPriorInstalled parse fs cfg.lib names) p =
      if p ∈ names ∧ fs.isDir (cfg.lib ++ [p]) ∧ (described parse fs cfg.lib p).isSome then described parse fs cfg.lib p else none :=
    fun p => scan_get hsane names [] p
  have hwf : (GoMap.keys (getPriorInstalled parse fs cfg.lib names)).Nodup := scan_nodup _ _ (by simp [GoMap.keys])
  have hnone : GoMap.get? (getPriorInstalled parse fs cfg.lib names) [] = none := by
    rw [hget, if_neg]
    rintro ⟨_, _, h⟩
    cases hdd : described parse fs cfg.lib [] with
    | none => rw [hdd] at h; simp at h
    | some d => exact (hsane [] d hdd).2 rfl
  obtain ⟨hout, hnd⟩ := C31_outdated_exact hk hRn hρ hu hnp hav hwf hnone hplan
  have hp : PlanOK ip (getPriorInstalled parse fs cfg.lib names) := by
    refine ⟨?_, hnd, ?_, ?_⟩
    · intro o hoo
      obtain ⟨d, _, h1, _⟩ := (hout o).1 hoo
      unfold GoMap.has
      rw [h1]
      rfl
    · rw [ht1]; exact List.nodup_nil
    · intro o _; rw [ht1]; simp
  have havail : ∀ p ∈ queued ip, ∃ dl, Resolves nx p dl := by
    intro p hpq
    rcases resolve_cases hk hρ hu (noR_not_available hRn) hnp hav (getPriorInstalled parse fs cfg.lib names) update libEx with
      ⟨h, _⟩ | ⟨_, t, ⟨_, h⟩ | ⟨outd, ip', _, h, hpo, _⟩⟩
    · rw [h] at hplan; cases hplan
    · rw [h] at hplan; cases hplan
    · rw [h] at hplan; cases hplan
      exact hpo.avail p ((hpo.mem p).1 hpq)
  have hwhole : ∀ p ∈ queued ip, GoMap.has (getPriorInstalled parse fs cfg.lib names) p = true → ¬ Replaced cfg ip p →
      Complete p (contentOf fs cfg.lib p) := by
    intro p hpq hpre hnr
    refine hthere p ?_
    obtain ⟨d, hgd⟩ := Option.isSome_iff_exists.1 (show (GoMap.get? (getPriorInstalled parse fs cfg.lib names) p).isSome = true from hpre)
    have hgd' := hgd
    rw [hget] at hgd
    split at hgd
    · rename_i hc
      obtain ⟨c, hc1, hc2⟩ := described_some hgd
      obtain ⟨dl, hdl⟩ := havail p hpq
      refine ⟨by simpa [Fs.isDir, contentOf] using hc.2.1, c, d, dl, hc1, hc2, (hsane p d hgd).1, hdl, ?_⟩
      intro hv
      exact hnr (Or.inl ⟨hup, ⟨p, d.version, dl.package.version⟩, (hout _).2 ⟨d, dl, hgd', hdl, rfl, rfl, hv⟩, rfl⟩)
    · cases hgd
  obtain ⟨c1, _, _, c4, c5⟩ := C110_success hq ha hd hn hp ho hdl hwhole (Unpacked := fun _ _ => False) (fun _ _ _ h => h.elim) (by rw [ht1]; intro t h; cases h) hok
  rw [← hfs1] at c1 c4 c5
  have hsane1 : ∀ n d, described parse fs1 cfg2.lib n = some d → d.package = n ∧ n ≠ [] := by
    rw [hlib]
    intro n d hdd
    obtain ⟨c, hc1, hc2⟩ := described_some hdd
    by_cases hm : n ∈ members ip
    · obtain ⟨_, c', d', _, h1, h2, h3, _⟩ := hC n _ (c1 n hm)
      have : some (Node.file c') = some (.file c) := h1.symm.trans hc1
      cases this
      rw [hc2] at h2
      cases h2
      exact ⟨h3, (hn n hm).1.1⟩
    · by_cases hl : IsLock n
      · rw [hlock n hl] at hc1; cases hc1
      · rcases c5 n [s%"DESCRIPTION"] hm hl with h | ⟨p, hpm, rfl⟩
        · refine hsane n d ?_
          unfold described
          rw [← h, hc1]
          exact hc2
        · have := c4 p hpm [s%"DESCRIPTION"]
          rw [show cfg.lib ++ [backupName p, s%"DESCRIPTION"] = cfg.lib ++ backupName p :: [s%"DESCRIPTION"] from rfl, this] at hc1
          cases hc1
  rw [← hlib] at hplan2 hb2 hnames2 c1 ⊢
  refine C57_second_run hk hRn hu hnp hav e2 cfg2 fs1 parse names2 hsane1 hρ2 hplan2 ?_ hb2 ?_
  · intro p hp2
    obtain ⟨h1, c, d, dl, h2, h3, h4, h5, h6⟩ := hC p _ (c1 p ((hsame p).2 hp2))
    have h1' : fs1 (cfg2.lib ++ [p]) = some .dir := h1
    refine ⟨hnames2 p (by rw [h1']; simp), h1', d, dl, ?_, h5, h6⟩
    unfold described
    have h2' : fs1 (cfg2.lib ++ [p, s%"DESCRIPTION"]) = some (.file c) := h2
    rw [h2']
    exact h3
  · intro p hp2
    exact hn p ((hsame p).2 hp2)

/-! ### An outdated package, installed and installed again -/

/-- see above -/
def twParse (c : Str) : Option Desc :=
  some { package := s%"c", version := if c = s%"old" then s%"1.0" else s%"2.0" }

/-- see above: `c` 1.0 is installed, the binary of `c` 2.0 is in the cache -/
def twFs : Fs := fun q =>
  if q = [s%"lib"] ∨ q = [s%"lib", s%"c"] ∨ q = [s%"w"] then some .dir
  else if q = [s%"lib", s%"c", s%"DESCRIPTION"] then some (.file (s%"old"))
  else if q = [s%"cache", s%"r-0", s%"src", s%"c_1.tar.gz"] ∨ q = [s%"cache", s%"r-0", s%"binary", s%"4.1", s%"c_1.tgz"] then some (.file (s%"code"))
  else none

/-- The plan for `c` when this library `fs` is found. -/
def twPlanOf (fs : Fs) : InstallPlan :=
  match resolveInstallationReqs [s%"c"] (getPriorInstalled twParse fs [s%"lib"] [s%"c"]) (defaultCfgs true) planNexus true true true idOrder with
  | .ok ip => ip
  | _ => {}

theorem twPlan_ok (fs : Fs) (h : (match resolveInstallationReqs [s%"c"] (getPriorInstalled twParse fs [s%"lib"] [s%"c"]) (defaultCfgs true)
      planNexus true true true idOrder with | .ok _ => true | _ => false) = true) :
    resolveInstallationReqs [s%"c"] (getPriorInstalled twParse fs [s%"lib"] [s%"c"]) (defaultCfgs true) planNexus true true true idOrder = .ok (twPlanOf fs) := by
  unfold twPlanOf
  revert h
  cases resolveInstallationReqs [s%"c"] (getPriorInstalled twParse fs [s%"lib"] [s%"c"]) (defaultCfgs true) planNexus true true true idOrder <;> simp

/-- R: it exits with status 0 only when `c` 2.0 is there. -/
def twProc : RProc :=
  { writes := anyR.writes
    exits := fun c fs x => x = .ok → UpToDate twParse planNexus c.pkg (contentOf fs c.lib c.pkg) ∧ toyBuilt c fs }

def twQ : QEnv := { toyQ with job := { starting := [s%"c"], depDb := [], iDeps := [], ncpu := 1 }, proc := twProc }

theorem twQ_contract : RContract twQ (fun _ => False) (UpToDate twParse planNexus) ToyHolds := by
  refine ⟨?_, ?_, ?_, fun p D h => h.1, fun p _ k => toyQ_stamps p k, fun p D c st _ h hc => ?_⟩
  · intro c fs fs' h q hq
    rcases h q hq with h | h | h
    · exact .inl h
    · exact .inr (.inl h)
    · exact .inr (.inr (.inl h))
  · intro c fs x h _ _; exact (h rfl).1
  · intro c fs x h hb _ _; exact (h rfl).2 hb
  · obtain ⟨h1, c', d, dl, h2, h3, h4, h5, h6⟩ := h
    refine ⟨?_, _, _, dl, if_pos rfl, rfl, ?_, h5, ?_⟩
    · unfold withDescription
      rw [if_neg (by simp)]
      exact h1
    · cases h3; exact h4
    · have hne : writeLines (stampLines (readLines c) st) ≠ s%"old" := by
        intro h
        have := congrArg List.length h
        simp [writeLines, stampLines] at this
        omega
      rw [if_neg hne]
      cases h3
      by_cases ho : c' = s%"old"
      · intro hh
        have hd : getPackage planNexus p = some dl := (resolves_iff ..).1 h5
        have hp : p = s%"c" := h4.symm
        rw [hp] at hd
        have : dl.package.version = s%"2.0" := by
          have h' : (getPackage planNexus (s%"c")).map (fun d => d.package.version) = some (s%"2.0") := by decide
          rw [hd] at h'
          simpa using h'
        rw [this] at hh
        exact absurd hh (by decide)
      · rw [if_neg ho] at h6
        exact h6

theorem twQ_layout : Layout twQ (fun _ => False) := by
  have hc : ∀ p ∈ Job.plan twQ.job, p = s%"c" := by
    intro p hp
    simpa [Job.plan, twQ, GoMap.keys] using hp
  refine ⟨toyQ_layout.tmpLib, fun p hp q hq h => absurd ((hc p hp).trans (hc q hq).symm) h, toyQ_layout.scratch, ?_, ?_⟩
  · intro p hp bbp hb
    have := hc p hp
    subst this
    have hb' := Option.some.inj hb
    rw [← hb']
    refine ⟨by decide, toyQ_safe _ rfl, toyQ_safe _ rfl, ?_⟩
    intro q hq
    have := hc q hq
    subst this
    refine ⟨by decide, fun b hb => ?_⟩
    have hb'' := Option.some.inj hb
    rw [← hb'']
    decide
  · intro p hp q hq b hb
    have h1 := hc p hp
    have h2 := hc q hq
    subst h1 h2
    have hb'' := Option.some.inj hb
    rw [← hb'']
    decide

/-- The files when the queue begins: `c` has been set aside. -/
def twFs1 : Fs := twFs.rename [s%"lib", s%"c"] [s%"lib", s%"__OLD__c"]
def twEv1 : List QEvent := [.sched .mainAdd, .sched .mainSend, .sched .reqCheck, .sched .reqPush, .take 0, .prog 0, .prog 0, .prog 0]
def twEv2 : List QEvent :=
  [.prog 0, .prog 0, .prog 0, .finish 0, .sched (.post 0), .sched .updTake, .sched .updScan, .sched .updDone, .sched .mainReturn]
def twPass : Pass := .cached [s%"cache", s%"r-0", s%"binary", s%"4.1", s%"c_1.tgz"]
def twS1 : QState := (twQ.execs (twQ.init twFs1) twEv1).getD (twQ.init twFs1)
def twW : Fs := (twS1.fs.set [s%"lib", s%"c"] .dir).set [s%"lib", s%"c", s%"DESCRIPTION"] (.file (s%"new"))
def twS1' : QState := (twS1.work 0 twW (.inR twPass)).work 0 twW (afterR twPass .ok)
def twS2 : QState := (twQ.execs twS1' twEv2).getD twS1'

theorem tw_new : UpToDate twParse planNexus (s%"c") (contentOf twW [s%"lib"] (s%"c")) :=
  ⟨by decide, s%"new", { package := s%"c", version := s%"2.0" }, (getPackage planNexus (s%"c")).getD {}, by decide, by decide, by decide,
    (resolves_iff ..).2 (by decide), by decide⟩

theorem twS1_reach : QReach twQ twFs1 twS1 := execs_reach (evs := twEv1) (by rfl)

theorem twS2_reach : QReach twQ twFs1 twS2 := by
  refine (twS1_reach.trans ?_).trans (execs_reach (evs := twEv2) (s := twS1') (by rfl))
  refine .head (.rWrite twS1 0 (s%"c") twPass twW rfl rfl rfl ?_) (.single (.rExit _ 0 (s%"c") twPass .ok rfl rfl rfl ?_))
  · intro q hq
    refine .inl ?_
    apply Classical.byContradiction
    intro hn
    apply hq
    unfold twW Fs.set
    rw [if_neg, if_neg]
    · rintro rfl; exact hn (by decide)
    · rintro rfl; exact hn (by decide)
  · intro _; exact ⟨tw_new, fun h => by cases h⟩

/-- The queue: the execution above when it begins with these files, else it fails at once. -/
noncomputable def twQueue (fs : Fs) : Phase :=
  open Classical in if fs = twFs1 then { mid := [twS1.fs], fs := twS2.fs, out := .ok } else { fs := fs, out := .failed }

/-- see above; no tarballs are installed -/
noncomputable def twRun : RunEnv :=
  { disk := { renameFails := fun _ _ _ => false, removing := fun _ _ => ([], false) }
    ρ := fun _ l => l
    mkdirFails := fun _ => false
    download := fun fs => { fs := fs, out := if fs (twQ.src (s%"c")) ≠ none then .ok else .failed }
    planned := twQueue
    ie := { toyEnv true with R := fun _ fs => (fs, .notRun) }
    during := fun _ _ => [] }

/-- The same, for computation. -/
def twRun' : RunEnv :=
  { disk := { renameFails := fun _ _ _ => false, removing := fun _ _ => ([], false) }
    ρ := fun _ l => l
    mkdirFails := fun _ => false
    download := fun fs => { fs := fs, out := if fs (twQ.src (s%"c")) ≠ none then .ok else .failed }
    planned := fun _ => { mid := [twS1.fs], fs := twS2.fs, out := .ok }
    ie := { toyEnv true with R := fun _ fs => (fs, .notRun) }
    during := fun _ _ => [] }

theorem tw_around : Around twRun [s%"lib"] where
  download := by
    intro fs st hst
    have : st = fs := by simpa [twRun] using hst
    subst this
    exact fun p _ => rfl
  R := fun c fs p _ _ => rfl
  during := by intro n fs st h; simp [twRun] at h
  removal := by intro fs p st h; simp [twRun] at h
  order := fun _ l => List.Perm.refl l

theorem tw_members : members (twPlanOf twFs) = [s%"c"] := by decide

theorem tw_queueIs : QueueIs twRun twQ [s%"lib"] (twPlanOf twFs) (fun _ => False) (UpToDate twParse planNexus) ToyHolds where
  job := ⟨1, 0, fun _ l => l, by decide⟩
  library := rfl
  wf := wellFormed_of_check twQ.job [s%"c"] (by decide) (by decide) (by decide)
  layout := twQ_layout
  contract := twQ_contract
  moments := by
    intro fs st hst
    change st ∈ (twQueue fs).mid ++ [(twQueue fs).fs] at hst
    unfold twQueue at hst
    split at hst
    · rename_i h
      rw [h]
      have : st = twS1.fs ∨ st = twS2.fs := by simpa using hst
      rcases this with rfl | rfl
      · exact ⟨_, twS1_reach, rfl⟩
      · exact ⟨_, twS2_reach, rfl⟩
    · have : st = fs := by simpa using hst
      rw [this]
      exact ⟨_, .refl, rfl⟩
  ended := by
    intro fs h
    change (twQueue fs).out = .ok at h
    show ∃ s, QReach twQ fs s ∧ s.fs = (twQueue fs).fs ∧ s.run.ret = some .nil
    unfold twQueue at h ⊢
    split at h
    · rename_i hh
      rw [if_pos hh, hh]
      exact ⟨_, twS2_reach, rfl, rfl⟩
    · simp at h

theorem tw_eq : twRun'.rInstall { lib := [s%"lib"] } (twPlanOf twFs) (getPriorInstalled twParse twFs [s%"lib"] [s%"c"]) twFs =
    twRun.rInstall { lib := [s%"lib"] } (twPlanOf twFs) (getPriorInstalled twParse twFs [s%"lib"] [s%"c"]) twFs :=
  rInstall_planned twRun _ (by decide) (if_pos rfl).symm

/-- The library after the first run. -/
def twFs2 : Fs := (twRun'.rInstall { lib := [s%"lib"] } (twPlanOf twFs) (getPriorInstalled twParse twFs [s%"lib"] [s%"c"]) twFs).1.fs

/-- A second run whose installations do nothing (there is nothing to do). -/
def twIdle : RunEnv :=
  { disk := { renameFails := fun _ _ _ => false, removing := fun _ _ => ([], false) }
    ρ := fun _ l => l
    mkdirFails := fun _ => false
    download := fun fs => { fs := fs, out := .ok }
    planned := fun fs => { fs := fs, out := .ok }
    ie := { toyEnv true with R := fun _ fs => (fs, .notRun) }
    during := fun _ _ => [] }

theorem tw_idle : Behaves twIdle [s%"lib"] (twPlanOf twFs2) where
  download := by
    intro fs st hst
    have : st = fs := by simpa [twIdle] using hst
    subst this
    exact fun p _ => rfl
  queue := by
    intro fs st hst
    have : st = fs := by simpa [twIdle] using hst
    subst this
    exact ⟨[], .start⟩
  R := fun c fs p _ _ => rfl
  during := by intro n fs st h; simp [twIdle] at h
  removal := by intro fs p st h; simp [twIdle] at h
  order := fun _ l => List.Perm.refl l

theorem tw_described (n : Str) (d : Desc) (h : described twParse twFs [s%"lib"] n = some d) : d.package = n ∧ n ≠ [] := by
  obtain ⟨c, h1, h2⟩ := described_some h
  have hn : n = s%"c" := by
    apply Classical.byContradiction
    intro hn
    simp [twFs, hn] at h1
  subst hn
  cases h2
  exact ⟨rfl, by decide⟩

theorem tw_final (q : Path) : twFs2 q = if [s%"lib", s%"__OLD__c"] <+: q then none else twS2.fs q := by rfl

theorem twS2_fs : twS2.fs = fun q =>
    if q = [s%"lib", s%"c", s%"DESCRIPTION"] then twS2.fs [s%"lib", s%"c", s%"DESCRIPTION"]
    else if q = [s%"lib", s%"c"] then some .dir else twFs1 q := by
  funext q
  by_cases h : q = [s%"lib", s%"c", s%"DESCRIPTION"]
  · rw [if_pos h, h]
  · rw [if_neg h]
    have hs : twS2.fs = (twW.set [s%"lib", s%"c", s%"DESCRIPTION"] (.file [])).set [s%"lib", s%"c", s%"DESCRIPTION"]
      ((twS2.fs [s%"lib", s%"c", s%"DESCRIPTION"]).getD .dir) := by rfl
    rw [hs]
    unfold Fs.set
    rw [if_neg h, if_neg h]
    show (if q = [s%"lib", s%"c", s%"DESCRIPTION"] then _ else if q = [s%"lib", s%"c"] then some Node.dir else twS1.fs q) = _
    rw [if_neg h]
    rfl

/-- Non-vacuity of C111: all hypotheses are met when `c` 1.0 is installed and 2.0 is offered. -/
example : (∀ p ∈ members (twPlanOf twFs2), p ∉ (twPlanOf twFs2).outdated.map OutdatedPackage.package) ∧
    ∀ st ∈ (twIdle.rInstall { lib := [s%"lib"] } (twPlanOf twFs2) (getPriorInstalled twParse twFs2 [s%"lib"] [s%"c"]) twFs2).1.states,
      Keeps [s%"lib"] IsLock twFs2 st := by
  have hm : ∀ p ∈ queued (twPlanOf twFs), p = s%"c" := by
    intro p hp
    have : p ∈ members (twPlanOf twFs) := List.mem_append_left _ hp
    rw [tw_members] at this
    simpa using this
  have hm' : ∀ p ∈ members (twPlanOf twFs), p = s%"c" := by
    intro p hp
    rw [tw_members] at hp
    simpa using hp
  refine C111_second_install (nx := planNexus) (cfgs := defaultCfgs true) (nr := true) (pkgs := [s%"c"]) ?_ ?_ ?_ (by simp) ?_
    (parse := twParse) (fs := twFs) (e := twRun) (e2 := twIdle) (q := twQ) (cfg := { lib := [s%"lib"] }) (cfg2 := { lib := [s%"lib"] })
    (Scratch := fun _ => False) (Complete := UpToDate twParse planNexus) (fun _ _ h => h) (fun _ h => h) [s%"c"] [s%"c"] tw_described (update := true) (libEx := true) (ip := twPlanOf twFs) idOrder_fair
    (twPlan_ok _ (by decide)) tw_queueIs tw_around ⟨fun _ _ _ => rfl, fun _ _ => rfl⟩ ?_ ?_ ?_ rfl ?_ (fs1 := twFs2) ?_ ?_ ?_
    (update2 := true) (ip2 := twPlanOf twFs2) idOrder_fair (twPlan_ok _ (by decide +kernel)) rfl tw_idle
  · exact planNexus_keyed
  · exact planNexus_noR
  · exact uniform_defaultCfgs _
  · intro p hp
    have : p = s%"c" := by simpa using hp
    subst this
    exact ⟨(getPackage planNexus (s%"c")).getD {}, (resolves_iff ..).2 (by decide)⟩
  · intro p hp
    rw [hm' p hp]
    decide
  · refine ⟨?_, ?_, ?_⟩
    · intro p hp _
      rw [hm' p hp]
      decide
    · intro p hp h
      rw [hm' p hp] at h
      exact absurd h (by decide)
    · intro p hp r
      rw [hm' p hp]
      simp [twFs, backupName]
  · refine ⟨?_, ?_, ?_, ?_⟩
    · intro fs hs _ p hp
      rw [hm p hp]
      exact ⟨s%"code", hs _ (by decide) (by decide), by simp [ToyHolds]⟩
    · intro fs hs _ p hp b n hb hn
      rw [hm p hp] at hb ⊢
      have hb' := Option.some.inj hb
      rw [← hb'] at hn
      refine ⟨s%"code", ?_, by simp [ToyHolds]⟩
      exact (Option.some.inj ((hs _ (by decide) (by decide)).symm.trans hn)).symm
    · intro p hp
      rw [hm p hp]
      exact toyQ_safe _ rfl
    · intro p hp b hb
      rw [hm p hp] at hb
      have hb' := Option.some.inj hb
      rw [← hb']
      exact toyQ_safe _ rfl
  · rw [← tw_eq]
    decide +kernel
  · rw [← tw_eq]
    rfl
  · intro n hl
    have hn : n ≠ s%"c" := by rintro rfl; exact absurd hl (by decide)
    have hn2 : n ≠ s%"__OLD__c" := by rintro rfl; exact absurd hl (by decide)
    rw [tw_final, twS2_fs]
    simp [hn, twFs1, Fs.rename, twFs]
  · intro n h
    apply Classical.byContradiction
    intro hn
    apply h
    have hn' : n ≠ s%"c" := by simpa using hn
    rw [tw_final, twS2_fs]
    by_cases h2 : n = s%"__OLD__c"
    · simp [h2]
    · simp [hn', twFs1, Fs.rename, twFs]

end Pkgr
