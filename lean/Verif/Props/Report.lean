/- C108, C109: what `plan` reports. -/
import Verif.Model.Report
import Verif.Props.Plan
import Verif.Spec.Rollback

namespace Pkgr
open Spec

theorem sourceStep_foldl : ∀ (dls : List PkgDl) (m : GoMap Nat) (r : Str),
    GoMap.get? (dls.foldl sourceStep m) r =
      if dls.countP (fun dl => decide (dl.config.repo.name = r)) = 0 then GoMap.get? m r
      else some ((GoMap.get? m r).getD 0 + dls.countP (fun dl => decide (dl.config.repo.name = r)))
  | [], m, r => by simp
  | dl :: dls, m, r => by
    rw [List.foldl_cons, sourceStep_foldl dls (sourceStep m dl) r]
    unfold sourceStep
    rw [GoMap.get?_put, List.countP_cons]
    by_cases h : dl.config.repo.name = r
    · subst h
      simp only [if_true, Option.getD_some, decide_true, Nat.add_eq_zero_iff, Nat.one_ne_zero, and_false, if_false]
      split
      · rename_i h0; rw [h0]
      · congr 1; omega
    · simp only [if_neg (fun h' => h h'.symm : ¬ r = dl.config.repo.name), decide_eq_true_eq, if_neg h, Nat.add_zero]

/-- C108: for every repository the number of packages reported is the number of planned downloads from repositories of
that name (none is reported if there are none), and the number of tarballs is the number of packages given as tarballs;
except that a repository called "tarballs" is not counted, see `C108_violated_name`. -/
theorem C108_sources_partial (ip : InstallPlan) :
    (∀ r, r ≠ s%"tarballs" → GoMap.get? (installSources ip) r =
      let n := ip.downloads.countP fun dl => decide (dl.config.repo.name = r)
      if n = 0 then none else some n) ∧
    GoMap.get? (installSources ip) (s%"tarballs") = some (tarballs ip).length := by
  unfold installSources
  refine ⟨?_, ?_⟩
  · intro r hr
    rw [GoMap.get?_put, if_neg hr, sourceStep_foldl]
    simp [GoMap.get?]
  · rw [GoMap.get?_put, if_pos rfl]; rfl

/-- C108 is violated for a repository called "tarballs": its packages are not reported. -/
theorem C108_violated_name : ∃ ip : InstallPlan, ip.downloads.length = 1 ∧ tarballs ip = [] ∧
    installSources ip = [(s%"tarballs", 0)] :=
  ⟨{ downloads := [{ config := { repo := { name := s%"tarballs", url := s%"https://x.org" } } }] }, by decide⟩

/-! ### The total -/

/-- The sum of the numbers in a table. -/
def tableSum (m : GoMap Nat) : Nat := (m.map (·.2)).sum

theorem tableSum_del : ∀ (m : GoMap Nat) (k : Str), GoMap.WF m →
    tableSum (GoMap.del m k) + (GoMap.get? m k).getD 0 = tableSum m
  | [], k, _ => by simp [tableSum, GoMap.del, GoMap.get?]
  | (k', v') :: m, k, hwf => by
    have hwf' : k' ∉ GoMap.keys m ∧ (GoMap.keys m).Nodup := List.nodup_cons.1 hwf
    have ih := tableSum_del m k hwf'.2
    rw [GoMap.get?_cons]
    unfold GoMap.del at ih ⊢
    by_cases h : k' = k
    · subst h
      rw [(GoMap.get?_eq_none_iff _ _).2 hwf'.1] at ih
      simp only [tableSum, List.filter_cons, ne_eq, not_true, decide_false, Bool.false_eq_true, if_false, if_true,
        Option.getD_some, Option.getD_none, List.map_cons, List.sum_cons] at ih ⊢
      omega
    · simp only [tableSum, List.filter_cons, ne_eq, h, not_false_eq_true, decide_true, if_true, if_false,
        List.map_cons, List.sum_cons] at ih ⊢
      omega

theorem tableSum_put {m : GoMap Nat} (h : GoMap.WF m) (k : Str) (v : Nat) :
    tableSum (GoMap.put m k v) + (GoMap.get? m k).getD 0 = tableSum m + v := by
  have := tableSum_del m k h
  unfold GoMap.put
  simp only [tableSum, List.map_cons, List.sum_cons] at this ⊢
  omega

theorem tableSum_fold : ∀ (dls : List PkgDl) (m : GoMap Nat), GoMap.WF m →
    tableSum (dls.foldl sourceStep m) = tableSum m + dls.length ∧ GoMap.WF (dls.foldl sourceStep m)
  | [], _, h => ⟨by simp, h⟩
  | dl :: dls, m, h => by
    have hw : GoMap.WF (sourceStep m dl) := GoMap.wf_put h _ _
    rw [List.foldl_cons]
    refine ⟨?_, (tableSum_fold dls _ hw).2⟩
    rw [(tableSum_fold dls _ hw).1]
    have := tableSum_put h dl.config.repo.name ((GoMap.get? m dl.config.repo.name).getD 0 + 1)
    unfold sourceStep
    rw [List.length_cons]
    omega

/-- C108: when no repository is called "tarballs", the reported numbers add up to the number of packages to be had: every
planned package once, and every package given as a tarball. -/
theorem C108_total_partial {cfg : PlanCfg} {nx nx' : Nexus} {installed : GoMap Desc} {libEx : Bool}
    {tb ds : List Desc} {add : GoMap AdditionalPkg} {ρ ρ' ρ'' : Order} {req : List Str} {ip : InstallPlan}
    (hk : Keyed nx) (hR : NoR nx) (hρ : ρ''.Fair)
    (h : planInstall cfg nx installed libEx tb ds add ρ ρ' ρ'' = .planned req nx' ip)
    (hn : ∀ db ∈ nx.db, db.repo.name ≠ s%"tarballs") :
    ((installSources ip).map (·.2)).sum = ip.packages.length + (GoMap.keys add).length := by
  obtain ⟨_, hadd, _, cfgs, hok⟩ := planInstall_planned hk hR hρ h
  obtain ⟨l, hperm, hdl⟩ := hok.plan.downloads
  have hlen : ip.downloads.length = ip.packages.length := by
    rw [hdl, List.length_map]; exact hperm.length_eq
  have hno : GoMap.get? (ip.downloads.foldl sourceStep []) (s%"tarballs") = none := by
    rw [sourceStep_foldl]
    have : ip.downloads.countP (fun dl => decide (dl.config.repo.name = s%"tarballs")) = 0 := by
      rw [List.countP_eq_zero]
      intro dl hdlm
      rw [hdl, List.mem_map] at hdlm
      obtain ⟨p, hp, rfl⟩ := hdlm
      have hav := hok.plan.avail p ((hok.plan.mem p).1 (hperm.mem_iff.1 hp))
      obtain ⟨dl, hres⟩ := hav
      rw [resolves_iff.1 hres]
      obtain ⟨db, hf, _, hc⟩ := hres
      have hdb : db ∈ nx'.db := by
        obtain ⟨pre, post, he, _⟩ := hf
        rw [he]; simp
      rw [hok.db] at hdb
      simp only [Option.getD_some, decide_eq_true_eq, hc]
      simp only [ignorePackages, List.mem_map] at hdb
      obtain ⟨db', hdb', rfl⟩ := hdb
      rw [(ignore_fold_meta _ _).1]
      exact hn db' hdb'
    simp [this, GoMap.get?]
  obtain ⟨hf1, hf2⟩ := tableSum_fold ip.downloads [] GoMap.wf_nil
  have hs := tableSum_put hf2 (s%"tarballs") (GoMap.keys ip.additional).length
  rw [hno, hf1] at hs
  unfold installSources
  simp only [tableSum, Option.getD_none, List.map_nil, List.sum_nil] at hs
  rw [hadd] at hs ⊢
  omega

/-- C108 is met: three packages from one repository, and a tarball. -/
example : (match planInstall { packages := [s%"a"], noRecommended := true } planNexus [] true [] []
      [(s%"x", { installPath := [], originPath := [], type := [] })] idOrder idOrder idOrder with
    | .planned _ _ ip => (installSources ip).map (·.2)
    | _ => []) = [1, 3] := by decide

/-! ### C109 -/

/-- The number of planned packages that are in the library, counted either way. -/
theorem countP_mem_comm {l l' : List Str} (h : l.Nodup) (h' : l'.Nodup) :
    l.countP (fun p => l'.contains p) = l'.countP (fun p => l.contains p) := by
  rw [List.countP_eq_length_filter, List.countP_eq_length_filter]
  refine List.Perm.length_eq ?_
  rw [List.perm_ext_iff_of_nodup (h.filter _) (h'.filter _)]
  intro a
  simp only [List.mem_filter, List.contains_iff_mem]
  exact And.comm

/-- C109: when no tarballs are given and nothing is updated, then
* if none of the planned packages is in the library, or all are, none is listed;
* otherwise exactly the planned packages that are not in the library are listed, each once, with the version, repository
  and type they are taken in. -/
theorem C109_listing_partial {cfg : PlanCfg} {nx nx' : Nexus} {installed : GoMap Desc} {libEx : Bool}
    {tb ds : List Desc} {ρ ρ' ρ'' : Order} {req : List Str} {ip : InstallPlan}
    (hk : Keyed nx) (hR : NoR nx) (hρ : ρ''.Fair) (hi : (GoMap.keys installed).Nodup)
    (h : planInstall cfg nx installed libEx tb ds [] ρ ρ' ρ'' = .planned req nx' ip)
    (hup : cfg.noUpdate = true ∨ ip.outdated = []) {σ : Order} (hσ : σ.Fair) (t : Nat) :
    ((∀ p ∈ ip.packages, p ∉ GoMap.keys installed) ∨ (∀ p ∈ ip.packages, p ∈ GoMap.keys installed) →
      toInstallListing nx' ip σ t = []) ∧
    ((∃ p ∈ ip.packages, p ∈ GoMap.keys installed) → (∃ p ∈ ip.packages, p ∉ GoMap.keys installed) →
      (∀ dl, dl ∈ toInstallListing nx' ip σ t ↔
        ∃ p ∈ ip.packages, p ∉ GoMap.keys installed ∧ Resolves nx' p dl) ∧
      ((toInstallListing nx' ip σ t).map fun dl => dl.package.package).Nodup) := by
  obtain ⟨_, hadd, _, cfgs, hok⟩ := planInstall_planned hk hR hρ h
  have hk' : Keyed nx' := by
    intro db hdb
    rw [hok.db] at hdb
    exact keyed_ignore hk _ db hdb
  have hnd : ip.packages.Nodup := hok.plan.nodup
  have hperm : (ip.allPackages σ t).Perm ip.packages := by
    unfold InstallPlan.allPackages InstallPlan.packages
    rw [hadd]
    have h0 : σ (t + 1) (GoMap.keys ([] : GoMap AdditionalPkg)) = [] := (hσ (t + 1) []).eq_nil
    rw [h0, List.append_nil]
    exact (hσ t _).append_left _
  have hlen := hperm.length_eq
  have hnum : ip.numToInstall = (ip.packages.length : Int) - ip.packages.countP (fun p => (GoMap.keys installed).contains p) := by
    unfold InstallPlan.numToInstall
    have hreq : ip.allPackages (fun _ l => l) 0 = ip.packages := by
      unfold InstallPlan.allPackages InstallPlan.packages
      rw [hadd]; simp [GoMap.keys]
    have hupd : (if ip.update = true then ip.outdated.length else 0) = 0 := by
      rcases hup with hup | hup
      · rw [hok.updateEq, hup]; simp
      · rw [hup]; simp
    simp only [hreq, hupd, hok.installedEq, hadd]
    rw [countP_mem_comm hnd hi]
    simp [GoMap.has, GoMap.get?]
  have hcomp := List.length_eq_countP_add_countP (fun p => (GoMap.keys installed).contains p) (l := ip.packages)
  refine ⟨?_, ?_⟩
  · intro hcase
    unfold toInstallListing
    rw [if_neg]
    rintro ⟨h1, h2⟩
    rcases hcase with hc | hc
    · have : ip.packages.countP (fun p => (GoMap.keys installed).contains p) = 0 := by
        rw [List.countP_eq_zero]; intro p hp; simp [hc p hp]
      rw [hnum, this, hlen] at h2
      simp at h2
    · have : ip.packages.countP (fun p => (GoMap.keys installed).contains p) = ip.packages.length := by
        rw [List.countP_eq_length]; intro p hp; simp [hc p hp]
      rw [hnum, this] at h1
      omega
  · rintro ⟨p, hp, hpi⟩ ⟨q, hq, hqi⟩
    have h1 : 0 < ip.packages.countP (fun p => (GoMap.keys installed).contains p) := by
      rw [List.countP_pos_iff]; exact ⟨p, hp, by simp [hpi]⟩
    have h2 : 0 < ip.packages.countP (fun p => ¬ (GoMap.keys installed).contains p = true) := by
      rw [List.countP_pos_iff]; exact ⟨q, hq, by simp [hqi]⟩
    have hcond : 0 < ip.numToInstall ∧ ip.numToInstall ≠ ((ip.allPackages σ t).length : Int) := by
      rw [hnum, hlen]; omega
    have hl : toInstallListing nx' ip σ t =
        ((ip.allPackages σ t).filter fun p => !(GoMap.keys installed).contains p).map fun p => (getPackage nx' p).getD {} := by
      unfold toInstallListing
      rw [if_pos hcond, hok.installedEq]
    have hav : ∀ p ∈ ip.packages, ∃ dl, Resolves nx' p dl := fun p hp => hok.plan.avail p ((hok.plan.mem p).1 hp)
    rw [hl]
    constructor
    · intro dl
      simp only [List.mem_map, List.mem_filter, Bool.not_eq_true', hperm.mem_iff]
      constructor
      · rintro ⟨p, ⟨hp, hpi⟩, rfl⟩
        obtain ⟨dl, hdl⟩ := hav p hp
        refine ⟨p, hp, by simpa using hpi, ?_⟩
        rw [resolves_iff.1 hdl]
        exact hdl
      · rintro ⟨p, hp, hpi, hdl⟩
        exact ⟨p, ⟨hp, by simpa using hpi⟩, by rw [resolves_iff.1 hdl]; rfl⟩
    · rw [List.map_map]
      have : ∀ p ∈ (ip.allPackages σ t).filter (fun p => !(GoMap.keys installed).contains p),
          ((fun dl : PkgDl => dl.package.package) ∘ fun p => (getPackage nx' p).getD {}) p = id p := by
        intro p hp
        obtain ⟨dl, hdl⟩ := hav p (hperm.mem_iff.1 (List.mem_filter.1 hp).1)
        simp only [Function.comp, id, resolves_iff.1 hdl, Option.getD_some]
        exact getPackage_keyed hk' (resolves_iff.1 hdl)
      rw [List.map_congr_left this, List.map_id]
      exact (hperm.nodup_iff.2 hnd).filter _

/-- C109 is met: `b` is installed, `a` and `c` are listed. -/
example : (match planInstall { packages := [s%"a"], noRecommended := true } planNexus
      [(s%"b", { package := s%"b", version := s%"1.1" })] true [] [] [] idOrder idOrder idOrder with
    | .planned _ nx ip => (toInstallListing nx ip idOrder 0).map fun dl => dl.package.package
    | _ => []) = [s%"c", s%"a"] := by decide

/-- C109 is violated: an outdated package that will be updated is not listed among the packages to install ... -/
theorem C109_violated_update : ∃ req nx' ip, planInstall { packages := [s%"a"], noRecommended := true } planNexus
      [(s%"b", { package := s%"b", version := s%"1.0" }), (s%"c", { package := s%"c", version := s%"2.0" })] true [] [] []
      idOrder idOrder idOrder = .planned req nx' ip ∧
    s%"b" ∈ ip.packages ∧ mustInstall ip (s%"b") = true ∧
    (toInstallListing nx' ip idOrder 0).map (fun dl => dl.package.package) = [s%"a"] :=
  ⟨_, _, _, rfl, by decide, by decide, by decide⟩

/-- ... and when as many packages are updated as are in the library none is listed at all, although `a` and `c` are to be
installed into a library that has `b`. -/
theorem C109_violated_count : ∃ req nx' ip, planInstall { packages := [s%"a"], noRecommended := true } planNexus
      [(s%"b", { package := s%"b", version := s%"1.0" })] true [] [] [] idOrder idOrder idOrder = .planned req nx' ip ∧
    ip.packages = [s%"c", s%"a", s%"b"] ∧ (∀ p ∈ ip.packages, mustInstall ip p = true) ∧
    toInstallListing nx' ip idOrder 0 = [] :=
  ⟨_, _, _, rfl, by decide, by decide, by decide⟩

/-- ... and a tarball's package is listed with the version and repository it would have from a repository (or, if no
repository has it, with neither name nor version). -/
theorem C109_violated_tarball : ∃ req nx' ip, planInstall { packages := [s%"b"], noRecommended := true } planNexus
      [(s%"c", { package := s%"c", version := s%"2.0" })] true [] []
      [(s%"t", { installPath := s%"/t", originPath := s%"t_9.tar.gz" }), (s%"own", { installPath := s%"/own", originPath := s%"own.tar.gz" })]
      idOrder idOrder idOrder = .planned req nx' ip ∧
    (toInstallListing nx' ip idOrder 0).map (fun dl => (dl.package.package, dl.package.version)) =
      [(s%"b", s%"1.1"), (s%"t", s%"0.2"), ([], [])] :=
  ⟨_, _, _, rfl, by decide⟩

end Pkgr
