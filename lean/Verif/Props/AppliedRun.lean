/-
Further theorems about planning and about running the plan, applied to concrete cases.
-/
import Verif.Props.Applied

namespace Pkgr
open Spec

theorem b_available : ∀ p ∈ [s%"b"], Available planNexus p := by
  intro p hp
  rw [List.mem_singleton] at hp
  subst hp
  exact planNexus_avail (by decide)

/-- C19_graph_least_closed_set. -/
example : ∃ t g, buildGraph (defaultCfgs false) planNexus revOrder 0 [s%"b"] = some (t, g) ∧
    Planned planNexus (fun _ => (defaultCfgs false).default) [s%"b"] (s%"c") := by
  obtain ⟨t, g, h, hc⟩ : ∃ t g, buildGraph (defaultCfgs false) planNexus revOrder 0 [s%"b"] = some (t, g) ∧ s%"c" ∈ GoMap.keys g :=
    ⟨_, _, rfl, by decide⟩
  exact ⟨t, g, h, ((C19_graph_least_closed_set planNexus_keyed revOrder_ok b_available (fun _ => (defaultCfgs false).default)
    (fun p => rfl) h).1 _).1 hc⟩

/-- C22_resolution_circular_iff: `x` and `y` import each other. -/
example : Relation.TransGen (Needs planNexus false) (s%"x") (s%"x") ∨ Relation.TransGen (Needs planNexus false) (s%"y") (s%"y") ∨
    ∃ p, p ≠ s%"x" ∧ p ≠ s%"y" ∧ Relation.TransGen (Needs planNexus false) p p := by
  have hav : ∀ p ∈ [s%"x"], Available planNexus p := by
    intro p hp
    rw [List.mem_singleton] at hp
    subst hp
    exact planNexus_avail (by decide)
  have h := (C22_resolution_circular_iff planNexus_keyed planNexus_noR idOrder_ok (uniform_defaultCfgs false) (by decide) hav [] true true).1.1 rfl
  obtain ⟨p, _, hp⟩ := h
  by_cases h1 : p = s%"x"
  · exact .inl (h1 ▸ hp)
  · by_cases h2 : p = s%"y"
    · exact .inr (.inl (h2 ▸ hp))
    · exact .inr (.inr ⟨p, h1, h2, hp⟩)

/-- C23_plan_deterministic, C31_outdated_exact, C32_exact_partial. -/
example : ∃ ip ip', resolveInstallationReqs [s%"b"] [(s%"c", { package := s%"c", version := s%"1.9" })] (defaultCfgs false) planNexus true true false idOrder = .ok ip ∧
    resolveInstallationReqs [s%"b"] [(s%"c", { package := s%"c", version := s%"1.9" })] (defaultCfgs false) planNexus true true false revOrder = .ok ip' ∧
    ip'.outdated.Perm ip.outdated ∧ (∃ o ∈ ip.outdated, o.package = s%"c" ∧ ∃ dl, Resolves planNexus (s%"c") dl ∧ o.newVersion = dl.package.version) ∧
    ip.numToInstall = 2 := by
  obtain ⟨ip, h, hin, hp, hk, hod, hn⟩ : ∃ ip, resolveInstallationReqs [s%"b"] [(s%"c", { package := s%"c", version := s%"1.9" })] (defaultCfgs false) planNexus true true false idOrder = .ok ip ∧
      (∃ o ∈ ip.outdated, o.package = s%"c") ∧ ip.packages.Nodup ∧ (GoMap.keys ip.installed).Nodup ∧
      (∀ o ∈ ip.outdated, o.package ∈ GoMap.keys ip.installed) ∧
      (((ip.packages.filter fun p => !GoMap.has ip.additional p) ++ GoMap.keys ip.additional).countP (mustInstall ip) : Int)
      + (ip.packages.countP fun p => GoMap.has ip.additional p)
      + (if ip.update then (ip.outdated.countP fun o => !(ip.packages.contains o.package && !GoMap.has ip.additional o.package) : Nat) else 0 : Nat) = 2 :=
    ⟨_, rfl, by decide, by decide, by decide, by decide, by decide⟩
  obtain ⟨ip', h', _, _, _, _, ho⟩ := (C23_plan_deterministic planNexus_keyed planNexus_noR idOrder_ok revOrder_ok (uniform_defaultCfgs false) (by decide)
    b_available _ true true).2 ip h
  have hx := C31_outdated_exact planNexus_keyed planNexus_noR idOrder_ok (uniform_defaultCfgs false) (by decide) b_available
    (by decide) (by decide) h
  obtain ⟨o, hoin, hoc⟩ := hin
  obtain ⟨d, dl, _, h2, _, h4, _⟩ := (hx.1 o).1 hoin
  refine ⟨ip, ip', h, h', ho, ⟨o, hoin, hoc, dl, hoc ▸ h2, h4⟩, ?_⟩
  rw [C32_exact_partial hp hk hx.2 hod]
  exact hn

/-- C30_nonempty_partial. -/
example : resolveInstallationReqs [s%"b"] [] (defaultCfgs false) planNexus true true false revOrder ≠ .error .indexPanic := fun h =>
  absurd ((C30_nonempty_partial planNexus_keyed planNexus_noR revOrder_ok (uniform_defaultCfgs false) b_available rfl true true).1 h).1 (by decide)

/-- C33_dependencies_first, C35_all_installed, C36_bounded, C39_quiet_after_return: a complete run. -/
example : ∃ s, Reach toyJob s ∧ (∀ p ∈ Job.plan toyJob, .finished p true ∈ s.log) ∧ (∀ e, toyJob.step s e = none) ∧
    (∃ before after, s.log = before ++ .started (s%"d") :: after ∧ .finished (s%"b") true ∈ before) ∧ toyRun.length ≤ 71 := by
  obtain ⟨s, h, hr, hlog⟩ : ∃ s, toyJob.run toyJob.init toyRun = some s ∧ s.ret = some .nil ∧
      ∃ before after, s.log = before ++ .started (s%"d") :: after := ⟨_, rfl, rfl, [_, _, _, _, _, _, _, _], _, rfl⟩
  have hs : Reach toyJob s := ⟨toyRun, h⟩
  obtain ⟨before, after, hl⟩ := hlog
  exact ⟨s, hs, C35_all_installed toyJob_wellFormed hs hr, ((C39_quiet_after_return hs).2 _ hr).2.2.2.2,
    ⟨before, after, hl, C33_dependencies_first toyJob_wellFormed hs hl (by decide)⟩, Nat.le_trans (C36_bounded toyJob_wellFormed h) (by decide)⟩

/-- C36_progress, C36_completes: nothing has gone wrong in this run; it has gone as far as it can. -/
example : (∃ e s', toyJob.step toyJob.init e = some s' ∧ Benign e) ∧ ∃ s, ReachClean toyJob s ∧ s.ret = some .nil := by
  refine ⟨C36_progress toyJob_wellFormed (by decide) rfl (by decide) ⟨[], by simp, rfl⟩ rfl, ?_⟩
  obtain ⟨s, h, hr⟩ : ∃ s, toyJob.run toyJob.init toyRun = some s ∧ s.ret = some .nil := ⟨_, rfl, rfl⟩
  have hc : ReachClean toyJob s := ⟨toyRun, by
    intro e he
    have : ∀ e ∈ toyRun, Benign e := by
      simp [toyRun, Benign]
    exact this e he, h⟩
  exact ⟨s, hc, (C36_completes toyJob_wellFormed (by decide) rfl (by decide) hc
    (fun e s' he => absurd he (by rw [((C39_quiet_after_return ⟨toyRun, h⟩).2 _ hr).2.2.2.2 e]; exact fun h => by cases h))).1⟩

/-- C37_dependents_not_started, C37_error_iff, C34_only_planned: `a` fails. -/
example : ∃ s, Reach toyJob s ∧ .started (s%"d") ∉ s.log ∧ .started (s%"c") ∉ s.log ∧
    s.log.count (.finished (s%"a") true) + s.log.count (.finished (s%"a") false) ≤ s.log.count (.started (s%"a")) := by
  obtain ⟨s, h, hf⟩ : ∃ s, toyJob.run toyJob.init [.mainAdd, .mainSend, .mainAdd, .reqCheck, .reqPush, .take 0, .mainSend, .reqCheck, .reqPush,
      .finish 0 .failed, .post 0, .updTake] = some s ∧ .finished (s%"a") false ∈ s.log := ⟨_, rfl, by decide⟩
  have hs : Reach toyJob s := ⟨_, h⟩
  exact ⟨s, hs, C37_dependents_not_started toyJob_wellFormed hs hf (.tail (.single (b := s%"b") (by decide)) (by decide)),
    C37_dependents_not_started toyJob_wellFormed hs hf (.single (by decide)), (C34_only_planned toyJob_wellFormed hs _).2⟩

/-- C37_error_iff: the run of this plan returns with the error that names `a`. -/
example : ∃ s r, Reach { toyJob with starting := [s%"a"] } s ∧ s.ret = some r ∧ r ≠ .nil := by
  obtain ⟨s, h, r, hr, hf⟩ : ∃ s, Job.run { toyJob with starting := [s%"a"] } (Job.init { toyJob with starting := [s%"a"] })
      [.mainAdd, .mainSend, .reqCheck, .reqPush, .take 0, .finish 0 .failed, .post 0, .updTake, .updDone, .mainReturn] = some s ∧
      ∃ r, s.ret = some r ∧ .finished (s%"a") false ∈ s.log := ⟨_, rfl, _, rfl, by decide⟩
  exact ⟨s, r, ⟨_, h⟩, hr, fun hn => ((C37_error_iff ⟨_, h⟩ hr).1.1 hn) _ hf⟩

/-- C38_violated_lost_request: `a` has failed before `e` is handed over. -/
example : ∃ s, Reach toyJob s ∧ ∀ es s', toyJob.run s es = some s' → s'.ret = none := by
  obtain ⟨s, h, h1, h2, h3⟩ : ∃ s, toyJob.run toyJob.init [.mainAdd, .mainSend, .reqCheck, .reqPush, .take 0, .finish 0 .failed, .post 0, .updTake] = some s ∧
      s.ret = none ∧ s.anyFailed = true ∧ s.todo ≠ [] := ⟨_, rfl, rfl, rfl, by decide⟩
  exact ⟨s, ⟨_, h⟩, fun es s' he => C38_violated_lost_request ⟨_, h⟩ h1 h2 (.inl h3) he⟩

/-- C38_returns_partial, C38_returns_iff_partial. -/
example : ∃ s, Reach toyJob s ∧ s.anyFailed = true ∧ ∃ e s', toyJob.step s e = some s' ∧ Benign e := by
  obtain ⟨s, h, h1, h2, h3⟩ : ∃ s, toyJob.run toyJob.init [.mainAdd, .mainSend, .mainAdd, .reqCheck, .reqPush, .take 0, .mainSend, .reqCheck, .reqPush,
      .finish 0 .failed, .post 0, .updTake] = some s ∧ s.ret = none ∧ s.anyFailed = true ∧ s.leaked = 0 := ⟨_, rfl, rfl, rfl, rfl⟩
  exact ⟨s, ⟨_, h⟩, h2, C38_returns_partial toyJob_wellFormed (by decide) rfl (by decide) ⟨_, h⟩ h1 h3⟩
example : toyRun.countP HandsOver = 5 ∧ .updCopy false ∉ toyRun := by
  obtain ⟨s, h, hr, hc⟩ : ∃ s, toyJob.run toyJob.init toyRun = some s ∧ s.ret = some .nil ∧ s.log.countP IsStart = 5 := ⟨_, rfl, rfl, by decide⟩
  have := (C38_returns_iff_partial toyJob_wellFormed (by decide) rfl (by decide) h (((C39_quiet_after_return ⟨_, h⟩).2 _ hr).2.2.2.2)).1 (by rw [hr]; simp)
  rw [hc] at this
  exact this

/-- C33_needed_first, C40_threads: the plan of `planned_example`, with `c` installed and `b` started. -/
example : ∃ (nx : Nexus) (ip : InstallPlan) (s : RunState), Reach (jobOf ip 3 idOrder 0) s ∧ (running s).length ≤ 3 ∧
    ∃ before after, s.log = before ++ .started (s%"b") :: after ∧ .finished (s%"c") true ∈ before := by
  obtain ⟨req, nx, ip, h, hb, s, hs, before, after, hlog⟩ : ∃ req nx ip, planInstall { packages := [s%"b"] } planNexus [] true [] [] [] idOrder idOrder idOrder =
      .planned req nx ip ∧ GoMap.get? ip.depDb (s%"b") = some [s%"c"] ∧
      ∃ s, (jobOf ip 3 idOrder 0).run (jobOf ip 3 idOrder 0).init [.mainAdd, .mainSend, .reqCheck, .reqPush, .take 0, .finish 0 (.ok false), .post 0, .updTake,
        .updScan, .updSend, .reqCheck, .reqPush, .take 1] = some s ∧ ∃ before after, s.log = before ++ .started (s%"b") :: after :=
    ⟨_, _, _, rfl, by decide, _, rfl, [_, _], _, rfl⟩
  have hn := (C24_dependency_lists planNexus_keyed planNexus_noR idOrder_ok h hb).2.1 (s%"c")
  exact ⟨nx, ip, s, ⟨_, hs⟩, C40_threads ⟨_, hs⟩, before, after, hlog,
    C33_needed_first planNexus_keyed planNexus_noR idOrder_ok idOrder_ok h ⟨_, hs⟩ hlog (hn.1 (by decide))⟩

end Pkgr
