/- C140: what an installation leaves in the temporary directory. -/
import Verif.Spec.Temp
import Verif.Props.Install

namespace Pkgr
open Spec

/-- `Install` into a library apart from `tmp`, without building, changes nothing in `tmp`. -/
theorem install_apart_tmp {R : ROracle} {lib tmp : Path} (hR : RTidy R tmp) (hA : Apart lib tmp) (cwd : Path) (fs : Fs)
    (pkg : Str) (path : PathArg) (wd : Option Path) (st : Stamp) (p : Path) (hp : tmp <+: p) :
    (install R cwd fs pkg path lib false wd st).fs p = fs p := by
  have hne : lib ≠ tmp := by rintro rfl; exact hA.1 (List.prefix_refl _)
  unfold install
  dsimp only
  split
  · rfl
  · split
    · rfl
    · dsimp only
      split
      · rw [stampFile_other, hR.others _ _ _ hp hne rfl]
        rintro rfl
        exact not_prefix_ext (L := tmp) ⟨hA.2, hA.1⟩ (List.prefix_append _ _) hp
      · exact hR.others _ _ _ hp hne rfl

/-- `Install` keeps the temporary directory. -/
theorem install_tmp_stays {R : ROracle} {lib tmp : Path} (hR : RTidy R tmp) (cwd : Path) (fs : Fs)
    (pkg : Str) (path : PathArg) (b : Bool) (wd : Option Path) (st : Stamp) (hd : fs tmp = some .dir) :
    (install R cwd fs pkg path lib b wd st).fs tmp = some .dir := by
  unfold install
  dsimp only
  split
  · exact hd
  · split
    · exact hd
    · dsimp only
      split
      · generalize hc : ({ pkg := pkg, lib := lib, build := b, src := path.resolve (wd.getD cwd), workDir := wd.getD cwd } : RCall) = c
        have h1 := hR.stays c fs hd
        by_cases hp : tmp = lib ++ [pkg, s%"DESCRIPTION"]
        · unfold stampFile
          rw [← hp, h1]
          exact h1
        · rw [stampFile_other _ _ _ _ _ hp]; exact h1
      · exact hR.stays _ _ hd

theorem cleanTmp_below (fs : Fs) (d p : Path) (hd : fs d = some .dir) (hp : d <+: p) : cleanTmp fs d p = none := by
  unfold cleanTmp
  rw [if_pos (by unfold Fs.isDir; simpa using hd)]
  simp [Fs.removeAll, hp]

theorem cleanTmp_other (fs : Fs) (d p : Path) (hp : ¬ d <+: p) : cleanTmp fs d p = fs p := by
  unfold cleanTmp
  split
  · simp [Fs.removeAll, hp]
  · rfl

/-- After `Install` into the temporary directory there is a directory tree of the package there, or nothing. -/
theorem install_tmp_tree {R : ROracle} {tmp : Path} (hR : RTidy R tmp) (cwd : Path) (fs : Fs)
    (pkg : Str) (path : PathArg) (b : Bool) (wd : Option Path) (st : Stamp) (hnew : ∀ p, (tmp ++ [pkg]) <+: p → fs p = none)
    (p : Path) (hp : (tmp ++ [pkg]) <+: p) (hx : (install R cwd fs pkg path tmp b wd st).fs p ≠ none) :
    (install R cwd fs pkg path tmp b wd st).fs (tmp ++ [pkg]) = some .dir := by
  unfold install at hx ⊢
  dsimp only at hx ⊢
  split
  · rename_i h; rw [if_pos h] at hx; exact absurd (hnew p hp) hx
  · rename_i h
    rw [if_neg h] at hx
    split
    · rename_i h1; rw [if_pos h1] at hx; exact absurd (hnew p hp) hx
    · rename_i h1
      rw [if_neg h1] at hx
      dsimp only at hx ⊢
      generalize hc : ({ pkg := pkg, lib := tmp, build := b, src := path.resolve (wd.getD cwd), workDir := wd.getD cwd } : RCall) = c at hx ⊢
      have hl : c.lib = tmp := by subst hc; rfl
      have hk : c.pkg = pkg := by subst hc; rfl
      have ht := hR.tree c fs p hl (by rw [hk]; exact hp)
      rw [hk] at ht
      split
      · rename_i hok
        rw [if_pos hok] at hx
        rw [stampFile_other _ _ _ _ _ (by simp)]
        apply ht
        intro hn
        apply hx
        unfold stampFile
        by_cases hq : p = tmp ++ [pkg, s%"DESCRIPTION"]
        · subst hq; rw [hn]; exact hn
        · have := stampFile_other (R c fs).1 tmp pkg st p hq
          unfold stampFile at this
          rw [this]; exact hn
      · rename_i hok
        rw [if_neg hok] at hx
        exact ht hx

theorem cleanTmp_none (fs : Fs) (d p : Path) (hp : d <+: p) (h : fs p ≠ none → fs d = some .dir) : cleanTmp fs d p = none := by
  by_cases hn : fs p = none
  · unfold cleanTmp
    split
    · simp [Fs.removeAll, hp]
    · exact hn
  · exact cleanTmp_below _ _ _ (h hn) hp

/-- C140, the part that holds: however the installation goes, when it has returned nothing of the copy of the package that
was installed in the temporary directory is left; missing: the directory itself, and the binary built in it
(`C140_violated_remains`). -/
theorem C140_copy_removed_partial (e : InstallEnv) (tmp : Path) (fs : Fs) (ir : InstallReq) (hR : RTidy e.R tmp)
    (hA : Apart ir.lib tmp) (hnew : ∀ p, tmp <+: p → fs p = none)
    (hret : (e.installThroughBinary tmp fs ir).val ≠ none) (p : Path) (hp : (tmp ++ [ir.pkg]) <+: p) :
    (e.installThroughBinary tmp fs ir).fs p = none := by
  have hpre : tmp <+: p := (List.prefix_append _ _).trans hp
  have hmk : ∀ q, (tmp ++ [ir.pkg]) <+: q → (fs.mkdirAll tmp) q = none := by
    intro q hq
    unfold Fs.mkdirAll
    rw [if_neg]
    · exact hnew q ((List.prefix_append _ _).trans hq)
    · rintro ⟨h1, _⟩
      have := (hq.trans h1).length_le
      simp at this
      omega
  unfold InstallEnv.installThroughBinary at hret ⊢
  split
  · exact hnew p hpre
  · split
    · exact hnew p hpre
    · split
      · dsimp only
        rw [install_apart_tmp hR hA _ _ _ _ _ _ _ hpre, hnew p hpre]
      · rename_i h0 _ bp hbp hex
        rw [if_neg h0] at hret
        simp only [hbp] at hret
        rw [if_neg hex] at hret
        unfold InstallEnv.build at hret ⊢
        dsimp only at hret ⊢
        have ht := install_tmp_tree hR e.cwd (fs.mkdirAll tmp) ir.pkg (.abs (ir.download.path.resolve e.cwd)) true (some tmp)
          (e.stamp ir.download.metadata.config) hmk p hp
        generalize hb : install e.R e.cwd (fs.mkdirAll tmp) ir.pkg (.abs (ir.download.path.resolve e.cwd)) tmp true (some tmp)
          (e.stamp ir.download.metadata.config) = b at hret ht ⊢
        have hcl : cleanTmp b.fs (tmp ++ [ir.pkg]) p = none := cleanTmp_none _ _ _ hp ht
        rcases hv : b.val with _ | r
        · rw [hv] at hret; exact absurd rfl hret
        · dsimp only
          split
          · split
            · exact hcl
            · split
              · exact hcl
              · dsimp only
                rw [install_apart_tmp hR hA _ _ _ _ _ _ _ hpre]
                exact hcl
          · exact hcl

/-- The first pass: R's build in the temporary directory. -/
theorem build_files (e : InstallEnv) (tmp : Path) (fs : Fs) (ir : InstallReq) (hR : RTidy e.R tmp)
    (hA : Apart ir.lib tmp) (hb : Builds e fs ir) :
    (∀ p, tmp <+: p → ¬ (tmp ++ [ir.pkg]) <+: p → (e.installThroughBinary tmp fs ir).fs p =
      (install e.R e.cwd (fs.mkdirAll tmp) ir.pkg (.abs (ir.download.path.resolve e.cwd)) tmp true (some tmp)
        (e.stamp ir.download.metadata.config)).fs p) ∧
    ∀ r b, (e.installThroughBinary tmp fs ir).val = some r → r.binary = some b → tmp <+: b → (e.installThroughBinary tmp fs ir).fs b ≠ none := by
  obtain ⟨hnl, bp, hbp, hnb⟩ := hb
  have h0 : ¬ fs.isDir (ir.lib ++ [ir.pkg]) = true := by unfold Fs.isDir; simpa using hnl
  have h1 : ¬ fs.ex bp = true := by unfold Fs.ex; rw [hnb]; simp
  unfold InstallEnv.installThroughBinary
  rw [if_neg h0]
  simp only [hbp]
  rw [if_neg h1]
  unfold InstallEnv.build
  dsimp only
  generalize hb : install e.R e.cwd (fs.mkdirAll tmp) ir.pkg (.abs (ir.download.path.resolve e.cwd)) tmp true (some tmp)
    (e.stamp ir.download.metadata.config) = b
  rcases hv : b.val with _ | r
  · exact ⟨fun _ _ _ => rfl, fun r b h => by simp at h⟩
  · dsimp only
    split
    · split
      · exact ⟨fun p hp hq => cleanTmp_other _ _ _ hq, fun r b h => by simp at h⟩
      · split
        · refine ⟨fun p hp hq => cleanTmp_other _ _ _ hq, ?_⟩
          intro r b h hbin
          dsimp only at h
          simp only [Option.some.injEq] at h
          subst h
          simp at hbin
        · rename_i bbp _ hbex
          refine ⟨fun p hp hq => ?_, ?_⟩
          · dsimp only
            rw [install_apart_tmp hR hA _ _ _ _ _ _ _ hp]
            exact cleanTmp_other _ _ _ hq
          · intro r' b' h hbin hpre
            dsimp only at h ⊢
            rw [install_apart_tmp hR hA _ _ _ _ _ _ _ hpre]
            have : b' = joinPath tmp bbp := by
              simp only [Option.map_eq_some_iff] at h
              obtain ⟨x, _, hx⟩ := h
              subst hx
              simpa using hbin.symm
            subst this
            unfold Fs.ex at hbex
            intro hn
            rw [hn] at hbex
            simp at hbex
    · refine ⟨fun p hp hq => cleanTmp_other _ _ _ hq, ?_⟩
      intro r' b' h hbin
      simp only [Option.some.injEq] at h
      subst h
      simp at hbin

/-- C140 fails: whenever a package is built, the temporary directory is still there afterwards, with the binary that was
built in it and everything else R's build left in it beside the package. -/
theorem C140_violated_remains (e : InstallEnv) (tmp : Path) (fs : Fs) (ir : InstallReq) (hR : RTidy e.R tmp)
    (hA : Apart ir.lib tmp) (hfree : fs tmp = none) (hb : Builds e fs ir) :
    (e.installThroughBinary tmp fs ir).fs tmp = some .dir ∧
    (∀ r b, (e.installThroughBinary tmp fs ir).val = some r → r.binary = some b → tmp <+: b →
      (e.installThroughBinary tmp fs ir).fs b ≠ none) ∧
    ∀ p, tmp <+: p → p ≠ tmp → ¬ (tmp ++ [ir.pkg]) <+: p → fs (ir.download.path.resolve e.cwd) ≠ none →
      (e.installThroughBinary tmp fs ir).fs p = (e.R { pkg := ir.pkg, lib := tmp, build := true, src := ir.download.path.resolve e.cwd, workDir := tmp } (fs.mkdirAll tmp)).1 p := by
  obtain ⟨k1, k2⟩ := build_files e tmp fs ir hR hA hb
  have hdir : (fs.mkdirAll tmp).isDir tmp = true := mkdirAll_isDir _ _ (by intro c; rw [hfree]; simp)
  have hd' : (fs.mkdirAll tmp) tmp = some .dir := by unfold Fs.isDir at hdir; simpa using hdir
  refine ⟨?_, k2, ?_⟩
  · rw [k1 tmp (List.prefix_refl _) (by intro h; have := h.length_le; simp at this; omega)]
    exact install_tmp_stays hR _ _ _ _ _ _ _ hd'
  · intro p hp _ hq hsrc
    rw [k1 p hp hq]
    have hex : (fs.mkdirAll tmp).ex (ir.download.path.resolve e.cwd) = true := by
      unfold Fs.ex Fs.mkdirAll
      split
      · rfl
      · cases hh : fs (ir.download.path.resolve e.cwd) with
        | none => exact absurd hh hsrc
        | some _ => rfl
    rw [install_run _ _ _ _ _ _ _ _ _ hdir hex]
    dsimp only
    split
    · rw [stampFile_other]
      rintro rfl
      apply hq
      rw [show tmp ++ [ir.pkg, s%"DESCRIPTION"] = (tmp ++ [ir.pkg]) ++ [s%"DESCRIPTION"] by simp]
      exact List.prefix_append _ _
    · rfl

/-- An R that installs the file it is given into /lib or /tmp/t and, told to build, leaves a binary and a lock in /tmp/t. -/
def tidyR : ROracle := fun c fs =>
  (fun p =>
    if p = c.lib ++ [c.pkg] ∧ (c.lib = [s%"lib"] ∨ c.lib = [s%"tmp", s%"t"]) then some .dir
    else if c.build = true ∧ (p = [s%"tmp", s%"t", s%"b_1_R_x86_64-pc-linux-gnu.tar.gz"] ∨ p = [s%"tmp", s%"t", s%"log"]) then some (.file (s%"bin"))
    else fs p, .ok)

/-- Non-vacuity of C140: `b` is built in /tmp/t and installed; the copy is gone; the directory, the binary and a file R left
are still there. -/
example : let e := { toyEnv true with R := tidyR }
    let T : Path := [s%"tmp", s%"t"]
    RTidy e.R T ∧ Apart toyReq.lib T ∧ (∀ p, T <+: p → toyFs p = none) ∧ Builds e toyFs toyReq ∧
    toyFs (toyReq.download.path.resolve e.cwd) ≠ none ∧
    (e.installThroughBinary T toyFs toyReq).val = some { exitCode := 0, binary := some (T ++ [s%"b_1_R_x86_64-pc-linux-gnu.tar.gz"]), err := false } ∧
    (e.installThroughBinary T toyFs toyReq).fs (T ++ [toyReq.pkg]) = none ∧
    (e.installThroughBinary T toyFs toyReq).fs T = some .dir ∧
    (e.installThroughBinary T toyFs toyReq).fs (T ++ [s%"log"]) ≠ none := by
  intro e T
  refine ⟨⟨?_, ?_, ?_⟩, by decide, ?_, ⟨by decide, _, rfl, by decide +kernel⟩, by decide, by decide +kernel, by decide +kernel,
    by decide +kernel, by decide +kernel⟩
  · intro c fs hd
    show (if _ then _ else _) = _
    split
    · rfl
    · rw [if_neg (by rintro ⟨_, h | h⟩ <;> exact absurd h (by decide))]
      exact hd
  · intro c fs p hp hl hb
    show (if _ then _ else _) = _
    split
    · rename_i h
      obtain ⟨rfl, h | h⟩ := h
      · rw [h] at hp; exact absurd hp (by simp [T, List.cons_prefix_cons])
      · exact absurd h hl
    · rw [if_neg (by simp [hb])]
  · intro c fs p hl hp _
    show (if _ then _ else _) = _
    rw [if_pos ⟨by rw [hl], Or.inr hl⟩]
  · rintro p ⟨q, rfl⟩
    simp [toyFs, T]

end Pkgr
