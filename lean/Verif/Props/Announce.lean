/- C143, C144: what `plan` and `install` announce. -/
import Verif.Props.Report
import Verif.Props.Rollback

namespace Pkgr
open Spec

/-! ## C143: announced updates -/

/-- `resolveInstallationReqs` behind a plan. -/
theorem planned_resolved {cfg : PlanCfg} {nx nx' : Nexus} {installed : GoMap Desc} {libEx : Bool}
    {tb ds : List Desc} {add : GoMap AdditionalPkg} {ρ ρ' ρ'' : Order} {req : List Str} {ip : InstallPlan}
    (h : planInstall cfg nx installed libEx tb ds add ρ ρ' ρ'' = .planned req nx' ip) :
    ∃ cfgs ip0, setPlanCustomizations cfg.suggests cfg.packages cfg.customizations (defaultCfgs cfg.noRecommended)
        (ignorePackages nx cfg.ignore) = some (cfgs, nx') ∧
      resolveInstallationReqs req installed cfgs nx' (!cfg.noUpdate) libEx cfg.noRecommended ρ'' = .ok ip0 ∧ ip0.outdated = ip.outdated := by
  unfold planInstall at h
  dsimp only at h
  split at h
  · cases h
  · next cfgs nx1 hset =>
    split at h
    · cases h
    · split at h
      · cases h
      · next ip0 hr =>
        cases h
        exact ⟨cfgs, ip0, hset, hr, rfl⟩

/-- C143, when every outdated package is part of the plan: the packages announced as to be updated, of which `to_update` is
the number, are - unless updates are switched off, when there are none - exactly the planned packages that are in the
library in an older version than the one that is downloaded; each is announced once, with these two versions.
Missing: outdated packages that are not part of the plan, see `C143_violated_not_planned`. -/
theorem C143_updates_partial {cfg : PlanCfg} {nx nx' : Nexus} {installed : GoMap Desc} {libEx : Bool}
    {tb ds : List Desc} {add : GoMap AdditionalPkg} {ρ ρ' ρ'' : Order} {req : List Str} {ip : InstallPlan}
    (hk : Keyed nx) (hR : NoR nx) (hρ : ρ''.Fair) (hi : (GoMap.keys installed).Nodup) (hne : GoMap.get? installed [] = none)
    (h : planInstall cfg nx installed libEx tb ds add ρ ρ' ρ'' = .planned req nx' ip)
    (hall : ∀ o ∈ ip.outdated, o.package ∈ ip.packages) :
    (∀ p old new, (⟨p, old, new⟩ : OutdatedPackage) ∈ announcedUpdates cfg.noUpdate ip ↔
      cfg.noUpdate = false ∧ ∃ d, ∃ dl ∈ ip.downloads, GoMap.get? installed p = some d ∧ d.version = old ∧
        dl.package.package = p ∧ dl.package.version = new ∧ compareVersionStrings old new = some (-1)) ∧
    ((announcedUpdates cfg.noUpdate ip).map (·.package)).Nodup ∧
    toUpdateCount cfg.noUpdate ip = (announcedUpdates cfg.noUpdate ip).length := by
  obtain ⟨_, _, _, cfgs0, hok⟩ := planInstall_planned hk hR hρ h
  obtain ⟨cfgs, ip0, hset, hres, hoo⟩ := planned_resolved h
  obtain ⟨hu, hdb, _⟩ := setPlan_uniform hset
  have hk' : Keyed nx' := by intro db hd; rw [hok.db] at hd; exact keyed_ignore hk _ db hd
  have hR' : NoR nx' := by intro db hd; rw [hok.db] at hd; exact noR_ignore hR _ db hd
  obtain ⟨hout, hnd⟩ := C31_outdated_exact hk' hR' hρ hu hok.nonempty hok.avail hi hne hres
  rw [hoo] at hout hnd
  obtain ⟨hd1, hd2⟩ := C26_downloads hk hR hρ h
  unfold announcedUpdates toUpdateCount
  cases hnu : cfg.noUpdate with
  | true => simp
  | false =>
    simp only [Bool.false_eq_true, if_false, true_and, and_true]
    refine ⟨fun p old new => ?_, hnd⟩
    rw [hout]
    constructor
    · rintro ⟨d, dl, h1, h2, h3, h4, h5⟩
      dsimp only at h1 h2 h3 h4
      have hp : p ∈ ip.packages := hall ⟨p, old, new⟩ ((hout _).2 ⟨d, dl, h1, h2, h3, h4, h5⟩)
      obtain ⟨dl', hdl', he⟩ := List.mem_map.1 (hd1.mem_iff.2 hp)
      have h6 := hd2 dl' hdl'
      rw [he, resolves_iff] at h6
      rw [resolves_iff, h6] at h2
      cases h2
      exact ⟨d, dl, hdl', h1, h3.symm, he, h4.symm, by rw [h3, h4]; exact h5⟩
    · rintro ⟨d, dl, hdl, h1, h3, he, h4, h5⟩
      refine ⟨d, dl, h1, ?_, h3.symm, h4.symm, by rw [h3, h4]; exact h5⟩
      have := hd2 dl hdl
      rwa [he] at this

/-- A plan that updates `b` meets the hypotheses. -/
example : ∃ req nx' ip, planInstall { packages := [s%"a"], noRecommended := true } planNexus
      [(s%"b", { package := s%"b", version := s%"1.0" }), (s%"c", { package := s%"c", version := s%"2.0" })] true [] [] []
      idOrder idOrder idOrder = .planned req nx' ip ∧ (∀ o ∈ ip.outdated, o.package ∈ ip.packages) ∧
    announcedUpdates false ip = [⟨s%"b", s%"1.0", s%"1.1"⟩] ∧ toUpdateCount false ip = 1 :=
  ⟨_, _, _, rfl, by decide, by decide, by decide⟩

/-- C143 is violated by outdated packages in the library that are not part of the plan: they are announced as to be
updated, and counted, but however the installation goes they are not touched at any moment. -/
theorem C143_violated_not_planned :
    (∀ (ip : InstallPlan) (o : OutdatedPackage), o ∈ ip.outdated → o ∈ announcedUpdates false ip ∧ toUpdateCount false ip = ip.outdated.length) ∧
    (∀ (e : RunEnv) (cfg : RunCfg) (ip : InstallPlan) (pre : GoMap Desc) (fs : Fs), Behaves e cfg.lib ip → GoodNames ip → ip.createLibrary = false →
      ∀ o ∈ ip.outdated, o.package ∉ members ip → (∀ p ∈ members ip, o.package ≠ backupName p) → ¬ IsLock o.package →
      ∀ st ∈ (e.rInstall cfg ip pre fs).1.states, ∀ r, st (cfg.lib ++ o.package :: r) = fs (cfg.lib ++ o.package :: r)) ∧
    ∃ req nx' ip, planInstall { packages := [s%"c"], noRecommended := true } planNexus
      [(s%"c", { package := s%"c", version := s%"2.0" }), (s%"b", { package := s%"b", version := s%"1.0" })] true [] [] []
      idOrder idOrder idOrder = .planned req nx' ip ∧
    announcedUpdates false ip = [⟨s%"b", s%"1.0", s%"1.1"⟩] ∧ toUpdateCount false ip = 1 ∧ s%"b" ∉ members ip ∧
      (∀ p ∈ members ip, s%"b" ≠ backupName p) ∧ ¬ IsLock (s%"b") ∧ GoodNames ip := by
  refine ⟨fun ip o ho => ⟨by simpa [announcedUpdates] using ho, rfl⟩, ?_, ⟨_, _, _, rfl, by decide, by decide, by decide, ?_, by decide, ?_⟩⟩
  · intro e cfg ip pre fs hb hn hc o _ h1 h2 h3
    exact C50_outside_untouched e cfg ip pre fs hb hn (fun h => by rw [hc] at h; cases h) o.package h1 h2 h3
  · intro p _ h
    exact absurd (congrArg List.head? h) (by simp [backupName])
  · unfold GoodNames; decide

/-- C143: the number of packages required is the number of planned packages and tarballs, whatever the order the tables
are read in, and each counts once if no tarball is of a planned package. -/
theorem C143_required_partial (ip : InstallPlan) {ρ : Order} (hρ : ρ.Fair) (t : Nat)
    (hnd : (members ip).Nodup) (l : List Str) (hl : l.Nodup) (hm : ∀ p, p ∈ l ↔ p ∈ members ip) :
    (planStatus ip ρ t).1 = l.length ∧ (planStatus ip ρ t).2.1 = (GoMap.keys ip.installed).length ∧
    (planStatus ip ρ t).2.2 = ip.outdated.length := by
  refine ⟨?_, rfl, rfl⟩
  have h1 : (ip.allPackages ρ t).length = (members ip).length := by
    unfold InstallPlan.allPackages members queued tarballs
    simp only [List.length_append]
    rw [(hρ _ _).length_eq, (hρ _ _).length_eq]
  have h2 : l.Perm (members ip) := (List.perm_ext_iff_of_nodup hl hnd).2 hm
  exact h1.trans h2.length_eq.symm

example : (members toyPlan).Nodup ∧ (planStatus toyPlan idOrder 0).1 = 3 := by decide

/-- C143 is violated by a tarball of a package that is planned from a repository, too: it counts twice. -/
theorem C143_violated_twice : ∃ req nx' ip, planInstall { packages := [s%"c"], noRecommended := true } planNexus
      [] true [] [] [(s%"c", { installPath := s%"/c", originPath := s%"c.tar.gz" })] idOrder idOrder idOrder = .planned req nx' ip ∧
    ip.packages = [s%"c"] ∧ tarballs ip = [s%"c"] ∧ (planStatus ip idOrder 0).1 = 2 :=
  ⟨_, _, _, rfl, by decide, by decide, by decide⟩

/-! ## C144: where each package comes from -/

/-- C144, when no package is asked for twice: every planned package is reported exactly once, with the version, repository
and type it is downloaded in, as asked for exactly if it was asked for and as a dependency otherwise.
Missing: packages that the configuration lists twice, see `C144_violated_twice`. -/
theorem C144_origins_partial {cfg : PlanCfg} {nx nx' : Nexus} {installed : GoMap Desc} {libEx : Bool}
    {tb ds : List Desc} {add : GoMap AdditionalPkg} {ρ ρ' ρ'' : Order} {req : List Str} {ip : InstallPlan}
    (hk : Keyed nx) (hR : NoR nx) (hρ : ρ''.Fair)
    (h : planInstall cfg nx installed libEx tb ds add ρ ρ' ρ'' = .planned req nx' ip) (hnd : req.Nodup) :
    ((originReport nx' req ip).map (·.pkg)).Perm ip.packages ∧
    ∀ l ∈ originReport nx' req ip, (l.userDefined = true ↔ l.pkg ∈ req) ∧
      ∃ dl ∈ ip.downloads, dl.package.package = l.pkg ∧ dl.package.version = l.version ∧ dl.config.repo.name = l.repo ∧ dl.config.type = l.type := by
  obtain ⟨_, _, _, cfgs0, hok⟩ := planInstall_planned hk hR hρ h
  obtain ⟨hd1, hd2⟩ := C26_downloads hk hR hρ h
  have hk' : Keyed nx' := by intro db hd; rw [hok.db] at hd; exact keyed_ignore hk _ db hd
  have hreq : ∀ p ∈ req, ∃ dl, getPackage nx' p = some dl ∧ dl.package.package = p := by
    intro p hp
    obtain ⟨dl, hdl⟩ := available_iff.1 (hok.avail p hp)
    exact ⟨dl, hdl, getPackage_keyed hk' hdl⟩
  have hreqIn : ∀ p ∈ req, p ∈ ip.packages := fun p hp => (hok.plan.mem p).2 (.requested hp)
  have hdlnd : (ip.downloads.map fun dl => dl.package.package).Nodup := hd1.nodup_iff.2 hok.plan.nodup
  unfold originReport
  rw [getPackages_eq]
  dsimp only
  constructor
  · have e1 : ((req.map fun p => (getPackage nx' p).getD {}).map (originLine true)).map (·.pkg) = req := by
      rw [List.map_map, List.map_map]
      conv => rhs; rw [← List.map_id req]
      refine List.map_congr_left fun p hp => ?_
      obtain ⟨dl, h1, h2⟩ := hreq p hp
      simp [originLine, h1, h2]
    have e2 : ((ip.downloads.filter fun dl => !req.contains dl.package.package).map (originLine false)).map (·.pkg) =
        (ip.downloads.map fun dl => dl.package.package).filter fun p => !req.contains p := by
      rw [List.map_map, List.filter_map]
      rfl
    rw [List.map_append, e1, e2]
    refine (List.perm_ext_iff_of_nodup ?_ hok.plan.nodup).2 fun p => ?_
    · rw [List.nodup_append]
      refine ⟨hnd, hdlnd.filter _, fun a ha b hb hab => ?_⟩
      subst hab
      have := (List.mem_filter.1 hb).2
      simp [ha] at this
    · rw [List.mem_append, List.mem_filter]
      have hm : p ∈ (ip.downloads.map fun dl => dl.package.package) ↔ p ∈ ip.starting ++ GoMap.keys ip.depDb := hd1.mem_iff
      constructor
      · rintro (h | ⟨h, _⟩)
        · exact hreqIn p h
        · exact hm.1 h
      · intro h
        by_cases hp : p ∈ req
        · exact Or.inl hp
        · exact Or.inr ⟨hm.2 h, by simp [hp]⟩
  · intro l hl
    rcases List.mem_append.1 hl with hl | hl
    · obtain ⟨x, hx, rfl⟩ := List.mem_map.1 hl
      obtain ⟨p, hp, rfl⟩ := List.mem_map.1 hx
      obtain ⟨dl, h1, h2⟩ := hreq p hp
      rw [h1]
      dsimp only [Option.getD_some, originLine]
      refine ⟨by simp [h2, hp], ?_⟩
      obtain ⟨dl', hdl', he⟩ := List.mem_map.1 (hd1.mem_iff.2 (hreqIn p hp))
      have h6 := hd2 dl' hdl'
      rw [he, resolves_iff, h1] at h6
      cases h6
      exact ⟨dl, hdl', rfl, rfl, rfl, rfl⟩
    · obtain ⟨dl, hx, rfl⟩ := List.mem_map.1 hl
      obtain ⟨hx, hn⟩ := List.mem_filter.1 hx
      refine ⟨?_, dl, hx, rfl, rfl, rfl, rfl⟩
      dsimp only [originLine]
      simpa using hn

/-- A plan with a requested package and two dependencies meets the hypotheses. -/
example : ∃ req nx' ip, planInstall { packages := [s%"a"], noRecommended := true } planNexus [] true [] [] []
      idOrder idOrder idOrder = .planned req nx' ip ∧ req.Nodup ∧
    (originReport nx' req ip).map (fun l => (l.pkg, l.userDefined)) = [(s%"a", true), (s%"c", false), (s%"b", false)] :=
  ⟨_, _, _, rfl, by decide, by decide⟩

/-- C144: every tarball is reported once, with where it comes from and where it is installed from. -/
theorem C144_tarballs (ip : InstallPlan) {ρ : Order} (hρ : ρ.Fair) (t : Nat) (hwf : (tarballs ip).Nodup) :
    (tarballReport ip ρ t).Perm ip.additional := by
  unfold tarballReport
  have h1 : ((ρ t (GoMap.keys ip.additional)).map fun p => (p, (GoMap.get? ip.additional p).getD {})).Perm
      ((GoMap.keys ip.additional).map fun p => (p, (GoMap.get? ip.additional p).getD {})) := (hρ t _).map _
  refine h1.trans ?_
  unfold tarballs at hwf
  have : (GoMap.keys ip.additional).map (fun p => (p, (GoMap.get? ip.additional p).getD {})) = ip.additional := by
    unfold GoMap.keys
    rw [List.map_map]
    conv => rhs; rw [← List.map_id ip.additional]
    refine List.map_congr_left fun x hx => ?_
    obtain ⟨k, v⟩ := x
    have := GoMap.get?_of_mem hwf hx
    simp [this]
  rw [this]

example : (tarballs toyPlan).Nodup ∧ tarballReport toyPlan idOrder 0 = [(s%"t", { installPath := s%"/w/t.tar.gz" })] := by decide

/-- C144 is violated when the configuration lists a package twice: it is reported twice. -/
theorem C144_violated_twice : ∃ req nx' ip, planInstall { packages := [s%"c", s%"c"], noRecommended := true } planNexus [] true [] [] []
      idOrder idOrder idOrder = .planned req nx' ip ∧ ip.packages = [s%"c"] ∧
    (originReport nx' req ip).map (fun l => (l.pkg, l.userDefined)) = [(s%"c", true), (s%"c", true)] :=
  ⟨_, _, _, rfl, by decide, by decide⟩

end Pkgr
