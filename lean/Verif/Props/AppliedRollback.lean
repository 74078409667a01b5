/-
Theorems about the library during and after an installation, applied to concrete runs.
-/
import Verif.Props.AppliedRun
import Verif.Props.Rollback2

namespace Pkgr
open Spec

theorem libRun_noFaults (o : PhaseEnd) : NoFaults (libRun o).disk := ⟨fun _ _ _ => rfl, fun _ _ => rfl⟩
theorem libRun_tags (o : PhaseEnd) : TagsOK (libRun o).disk [s%"lib"] (members toyPlan) := fun _ _ _ => rfl

/-- The behaviour does not depend on when renames fail. -/
theorem behaves_renames {e : RunEnv} {lib : Path} {ip : InstallPlan} (h : Behaves e lib ip) (f : Fs → Path → Path → Bool) :
    Behaves { e with disk := { e.disk with renameFails := f } } lib ip :=
  { download := h.download, queue := h.queue, R := h.R, during := h.during, removal := h.removal, order := h.order }

/-- C49_restored_partial. -/
example : ((libRun .failed).rInstall { lib := [s%"lib"] } toyPlan toyPre toyLib).1.fs [s%"lib", s%"b"] = none := by
  have h := C49_restored_partial (libRun .failed) { lib := [s%"lib"] } toyPlan toyPre toyLib (libRun_behaves _) (libRun_noFaults _) toy_goodNames
    toy_planOK toy_inOrder (fun h => by cases h) rfl (by decide)
  exact (h [s%"lib", s%"b"] ⟨_, rfl⟩ (by
    intro n hn hp
    have : n = s%"b" := by
      obtain ⟨r, hr⟩ := hp
      simp at hr
      exact hr.1
    subst this
    exact absurd hn (by decide))).trans (by decide)

/-- C49_violated_stray, C49_violated_dead_download. -/
example (r : Path) : ((libRun .failed).rInstall { lib := [s%"lib"] } toyPlan toyPre
    (fun q => if q = [s%"lib", s%"b"] then some .dir else toyLib q)).1.fs ([s%"lib"] ++ s%"b" :: r) = none :=
  C49_violated_stray (libRun .failed) { lib := [s%"lib"] } toyPlan toyPre _ (libRun_behaves _) (libRun_noFaults _) toy_goodNames rfl
    toy_planOK.outdatedFound rfl (by decide) (s%"b") (by decide) (by decide) r
example : (({ libRun .failed with download := fun fs => { fs := fs, out := .dead } } : RunEnv).rInstall { lib := [s%"lib"] } toyPlan toyPre toyLib).2 = .died :=
  (C49_violated_dead_download { libRun .failed with download := fun fs => { fs := fs, out := .dead } } { lib := [s%"lib"] } toyPlan toyPre toyLib
    { download := (libRun_behaves .failed).download, queue := (libRun_behaves .failed).queue, R := (libRun_behaves .failed).R,
      during := (libRun_behaves .failed).during, removal := (libRun_behaves .failed).removal, order := (libRun_behaves .failed).order }
    (libRun_noFaults .failed) toy_goodNames toy_planOK toy_inOrder rfl (fun _ => rfl) ⟨s%"a", s%"1", s%"2"⟩ rfl (by decide) (by decide)).1

/-- C50_outside_untouched: another package is in the library. -/
example : ∀ st ∈ ((libRun .failed).rInstall { lib := [s%"lib"] } toyPlan toyPre (fun q => if q = [s%"lib", s%"z", s%"f"] then some (.file (s%"z")) else toyLib q)).1.states,
    st [s%"lib", s%"z", s%"f"] = some (.file (s%"z")) := fun st h =>
  C50_outside_untouched (libRun .failed) { lib := [s%"lib"] } toyPlan toyPre _ (libRun_behaves _) toy_goodNames (fun h => by cases h) (s%"z") (by decide)
    (by decide) (by decide) st h [s%"f"]

/-- C51_no_loss_partial, C51_until_rollback_partial. -/
example : ∀ st ∈ ((libRun .failed).body { lib := [s%"lib"] } toyPlan toyPre { fs := toyLib }).1.states,
    (Intact [s%"lib"] toyLib st (s%"t") ∧ Gone [s%"lib"] st (backupName (s%"t"))) ∨ Saved [s%"lib"] toyLib st (s%"t") :=
  C51_no_loss_partial (libRun .failed) { lib := [s%"lib"] } toyPlan toyPre toyLib (libRun_behaves _) toy_goodNames toy_planOK toy_inOrder rfl
    (libRun_tags _) (s%"t") (by decide) (by decide)
example : ∀ st ∈ ((libRun .failed).phases { lib := [s%"lib"] } toyPlan
      ((libRun .failed).tag { lib := [s%"lib"] } { fs := toyLib } (createRollbackPlan [s%"lib"] toyPlan toyPre (libRun .failed).ρ)).1).1.states,
    Intact [s%"lib"] toyLib st (s%"a") ∨ Saved [s%"lib"] toyLib st (s%"a") :=
  C51_until_rollback_partial (libRun .failed) { lib := [s%"lib"] } toyPlan toyPre toyLib (libRun_behaves _) toy_goodNames toy_planOK toy_inOrder
    (s%"a") (by decide) (by decide) (by decide)

/-- C51_violated_rename_fault: no rename succeeds. -/
example : Gone [s%"lib"] (({ libRun .failed with disk := { (libRun .failed).disk with renameFails := fun _ _ _ => true } } : RunEnv).rInstall { lib := [s%"lib"] } toyPlan toyPre toyLib).1.fs (s%"a") :=
  (C51_violated_rename_fault { libRun .failed with disk := { (libRun .failed).disk with renameFails := fun _ _ _ => true } } { lib := [s%"lib"] } toyPlan toyPre toyLib
    (behaves_renames (libRun_behaves _) _) toy_goodNames toy_planOK toy_inOrder rfl (fun _ _ _ => rfl) (fun _ _ => rfl) rfl (by decide)
    ⟨s%"a", s%"1", s%"2"⟩ [] rfl rfl (by decide)).2.1

/-- C52_violated, C52_before_deletion_partial: the backup of `a` cannot be renamed. -/
example : (({ libRun .failed with disk := { (libRun .failed).disk with renameFails := fun _ a _ => decide (a = [s%"lib", s%"__OLD__a"]) } } : RunEnv).rInstall { lib := [s%"lib"] } toyPlan toyPre toyLib).1.fs [s%"lib", s%"__OLD__t"] = none :=
  (C52_violated { libRun .failed with disk := { (libRun .failed).disk with renameFails := fun _ a _ => decide (a = [s%"lib", s%"__OLD__a"]) } } { lib := [s%"lib"] } toyPlan toyPre toyLib
    (behaves_renames (libRun_behaves _) _) toy_goodNames toy_planOK toy_inOrder rfl (fun _ _ => rfl)
    ⟨s%"a", s%"1", s%"2"⟩ [] rfl rfl (by decide) (fun _ => rfl) rfl (by decide)).2.2 (s%"t") (by decide) (by decide) (.inr (by decide))
example : Saved [s%"lib"] toyLib (({ libRun .failed with disk := { (libRun .failed).disk with renameFails := fun _ a _ => decide (a = [s%"lib", s%"__OLD__a"]) } } : RunEnv).body { lib := [s%"lib"] } toyPlan toyPre { fs := toyLib }).1.fs (s%"a") :=
  C52_before_deletion_partial { libRun .failed with disk := { (libRun .failed).disk with renameFails := fun _ a _ => decide (a = [s%"lib", s%"__OLD__a"]) } } { lib := [s%"lib"] } toyPlan toyPre toyLib
    (behaves_renames (libRun_behaves _) _) toy_goodNames toy_planOK toy_inOrder rfl
    (by
      intro p hp _
      have : p = s%"a" ∨ p = s%"b" ∨ p = s%"t" := by simpa [toyPlan, members, queued, tarballs, GoMap.keys] using hp
      rcases this with rfl | rfl | rfl <;> rfl) (s%"a") (by decide) (by decide)
    (fun h => absurd (h []) (by decide))

/-- C52_violated_removal: `b`, which is new, cannot be removed. -/
theorem stuck_behaves : Behaves { libRun .failed with disk := { renameFails := fun _ _ _ => false, removing := fun _ q => ([], decide (q = [s%"lib", s%"b"])) } } [s%"lib"] toyPlan :=
  { download := (libRun_behaves .failed).download, queue := (libRun_behaves .failed).queue, R := (libRun_behaves .failed).R,
    during := (libRun_behaves .failed).during, removal := by intro fs p st h; simp at h, order := (libRun_behaves .failed).order }
example : (({ libRun .failed with disk := { renameFails := fun _ _ _ => false, removing := fun _ q => ([], decide (q = [s%"lib", s%"b"])) } } : RunEnv).rInstall { lib := [s%"lib"] } toyPlan toyPre toyLib).1.fs [s%"lib", s%"__OLD__a"] = none :=
  (C52_violated_removal { libRun .failed with disk := { renameFails := fun _ _ _ => false, removing := fun _ q => ([], decide (q = [s%"lib", s%"b"])) } }
    { lib := [s%"lib"] } toyPlan toyPre toyLib stuck_behaves toy_goodNames rfl (s%"b") (by decide) (by decide) (fun _ => rfl)
    (fun fs p => decide_eq_false (fun h : [s%"lib", backupName p] = [s%"lib", s%"b"] => by cases h)) rfl rfl (by decide) (s%"a") (by decide) (by decide) (.inl (by decide))).1

/-- C53_noUpdate_partial, C53_violated: `t` is outdated and given as a tarball. -/
def bothPlan : InstallPlan := { toyPlan with outdated := [⟨s%"a", s%"1", s%"2"⟩, ⟨s%"t", s%"1", s%"2"⟩] }
theorem both_behaves (o : PhaseEnd) : Behaves (libRun o) [s%"lib"] bothPlan :=
  { download := (libRun_behaves o).download, queue := (libRun_behaves o).queue, R := (libRun_behaves o).R,
    during := (libRun_behaves o).during, removal := (libRun_behaves o).removal, order := (libRun_behaves o).order }
theorem both_inOrder : InOrder [s%"lib"] bothPlan toyPre toyLib := ⟨toy_inOrder.found, toy_inOrder.notFound, toy_inOrder.noBackup⟩
example : ((libRun .failed).rInstall { lib := [s%"lib"], noUpdate := true } bothPlan toyPre toyLib).1.fs [s%"lib"] = some .dir :=
  (C53_noUpdate_partial (libRun .failed) { lib := [s%"lib"], noUpdate := true } bothPlan toyPre toyLib (both_behaves _) (libRun_noFaults _) toy_goodNames
    both_inOrder (by decide) (fun h => by cases h) rfl rfl (by decide) [s%"lib"] ⟨[], rfl⟩ (by
      intro n _ hp
      have := hp.length_le
      simp at this)).trans (by decide)
example : Gone [s%"lib"] ((libRun .failed).rInstall { lib := [s%"lib"] } bothPlan toyPre toyLib).1.fs (s%"t") :=
  (C53_violated (libRun .failed) { lib := [s%"lib"] } bothPlan toyPre toyLib (both_behaves _) (libRun_noFaults _) toy_goodNames
    both_inOrder rfl (by decide) (by decide) ⟨s%"t", s%"1", s%"2"⟩ rfl (by decide) (by decide) rfl (by decide)).2.1

/-- C56_noUpdate, C57_violated_tarball. -/
example : ∀ st ∈ ((libRun .ok).rInstall { lib := [s%"lib"], noUpdate := true } toyPlan toyPre toyLib).1.states, Intact [s%"lib"] toyLib st (s%"a") :=
  C56_noUpdate (libRun .ok) { lib := [s%"lib"], noUpdate := true } toyPlan toyPre toyLib (libRun_behaves _) toy_goodNames rfl rfl (s%"a") (by decide) (by decide)
    (by decide) (by decide) (by decide)
example : ∃ st, (∃ rest, (((libRun .ok).tag { lib := [s%"lib"] } { fs := toyLib } (createRollbackPlan [s%"lib"] toyPlan toyPre (libRun .ok).ρ)).1).states = rest ++ [st]) ∧
    st [s%"lib", s%"t"] = none :=
  let ⟨st, h1, _, h2⟩ := C57_violated_tarball (libRun .ok) { lib := [s%"lib"] } toyPlan toyPre toyLib (libRun_behaves _) (libRun_noFaults _) toy_goodNames
    toy_planOK toy_inOrder (s%"t") (by decide) (by decide)
  ⟨st, h1, h2⟩

/-- C57_nothing_outdated. -/
example : ∃ ip, resolveInstallationReqs [s%"b"] [(s%"b", { package := s%"b", version := s%"1.1" })] (defaultCfgs false) planNexus true true false idOrder = .ok ip ∧
    s%"b" ∉ ip.outdated.map OutdatedPackage.package := by
  obtain ⟨ip, h⟩ : ∃ ip, resolveInstallationReqs [s%"b"] [(s%"b", { package := s%"b", version := s%"1.1" })] (defaultCfgs false) planNexus true true false idOrder = .ok ip := ⟨_, rfl⟩
  obtain ⟨dl, hdl⟩ := b_available (s%"b") (by simp)
  have hv : dl.package.version = s%"1.1" := by
    have := resolves_iff.1 hdl
    cases this
    rfl
  exact ⟨ip, h, C57_nothing_outdated planNexus_keyed planNexus_noR idOrder_ok (uniform_defaultCfgs false) (by decide) b_available (by decide) (by decide) h
    (s%"b") _ dl rfl hdl (by rw [hv]; decide)⟩

end Pkgr
