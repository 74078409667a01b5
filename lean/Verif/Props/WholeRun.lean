/- C110: the whole run, with the real queue. -/
import Verif.Spec.WholeRun
import Verif.Props.Rollback2
import Verif.Props.Queue

namespace Pkgr
open Spec

variable {e : RunEnv} {q : QEnv} {cfg : RunCfg} {ip : InstallPlan} {pre : GoMap Desc} {fs : Fs}
  {Scratch : Path → Prop} {Complete Unpacked : Str → (Path → Option Node) → Prop} {Holds : Str → Str → Prop}

/-- The queue of the run behaves as the theorems C49-C57 ask. -/
theorem Spec.QueueIs.behaves (hq : QueueIs e q cfg.lib ip Scratch Complete Holds) (ha : Around e cfg.lib) : Behaves e cfg.lib ip where
  download := ha.download
  queue := by
    intro fs st hst
    obtain ⟨s, hs, rfl⟩ := hq.moments fs st hst
    obtain ⟨n, t, ρ, hj⟩ := hq.job
    rw [← hq.library]
    exact C90_queue_behaves hq.layout hq.contract hj hq.wf hs
  R := ha.R
  during := ha.during
  removal := ha.removal
  order := ha.order

theorem Spec.QueueIs.plan (hq : QueueIs e q cfg.lib ip Scratch Complete Holds) : Job.plan q.job = queued ip := by
  obtain ⟨n, t, ρ, hj⟩ := hq.job
  rw [hj]
  rfl

/-- The start of the run, when the library exists. -/
theorem ensureLibrary_below (h : (e.ensureLibrary cfg ip fs).2 = true) (n : Str) (r : Path) :
    (e.ensureLibrary cfg ip fs).1.fs (cfg.lib ++ n :: r) = fs (cfg.lib ++ n :: r) := by
  unfold RunEnv.ensureLibrary at h ⊢
  split
  · split
    · rfl
    · split
      · rfl
      · show fs.mkdirAll cfg.lib _ = _
        unfold Fs.mkdirAll
        rw [if_neg]
        rintro ⟨h1, _⟩
        have := h1.length_le
        simp at this
        omega
  · rfl

/-- The states on the way to a run that reports no failure. -/
theorem run_ok (hn : GoodNames ip) (hρ : e.ρ.Fair) (h : (e.rInstall cfg ip pre fs).2 = .exit0 false) :
    (e.ensureLibrary cfg ip fs).2 = true ∧
    (e.phases cfg ip (afterTag e cfg ip pre (e.ensureLibrary cfg ip fs).1)).2 = .ok ∧
    (e.rInstall cfg ip pre fs).1 = (taggedPlan e cfg ip pre).deleteBackupFolders e.disk
      (e.phases cfg ip (afterTag e cfg ip pre (e.ensureLibrary cfg ip fs).1)).1 := by
  unfold RunEnv.rInstall at h ⊢
  dsimp only at h ⊢
  split at h
  · simp at h
  rename_i hl
  rw [if_neg hl]
  have hl' : (e.ensureLibrary cfg ip fs).2 = true := by simpa using hl
  rw [body_eq hn hρ] at h ⊢
  by_cases hdead : (e.phases cfg ip (afterTag e cfg ip pre (e.ensureLibrary cfg ip fs).1)).2 = .dead
  · rw [if_pos hdead] at h
    simp at h
  rw [if_neg hdead] at h ⊢
  dsimp only at h ⊢
  have hnf : (e.phases cfg ip (afterTag e cfg ip pre (e.ensureLibrary cfg ip fs).1)).2 ≠ .failed := by
    intro hf
    rw [hf] at h
    simp at h
  have hok : (e.phases cfg ip (afterTag e cfg ip pre (e.ensureLibrary cfg ip fs).1)).2 = .ok := by
    revert hdead hnf
    cases (e.phases cfg ip (afterTag e cfg ip pre (e.ensureLibrary cfg ip fs).1)).2 <;> simp
  refine ⟨hl', hok, ?_⟩
  unfold RunEnv.undo
  rw [if_neg (by simp [hnf])]

/-- The phases, when all goes well. -/
theorem phases_ok {w : World} (h : (e.phases cfg ip w).2 = .ok) :
    (e.download w.fs).out = .ok ∧ (e.planned (e.download w.fs).fs).out = .ok ∧
    ∃ w2 : World, w2.fs = (e.planned (e.download w.fs).fs).fs ∧
      (e.installTarballs cfg.lib ip.additional w2 (e.ρ 3 (tarballs ip))).2 = .ok ∧
      (e.phases cfg ip w).1 = (e.installTarballs cfg.lib ip.additional w2 (e.ρ 3 (tarballs ip))).1 := by
  unfold RunEnv.phases at h ⊢
  dsimp only at h ⊢
  split at h
  · simp at h
  rename_i h1
  rw [if_neg h1]
  split at h
  · simp at h
  rename_i h2
  rw [if_neg h2]
  have h2' : (e.planned (e.download w.fs).fs).out ≠ .dead := h2
  split at h
  · simp at h
  rename_i h3
  split at h
  · simp at h
  rename_i h4
  obtain ⟨h5, h6⟩ := not_or.1 h4
  have aux : ∀ o : PhaseEnd, o ≠ .dead → o ≠ .failed → o = .ok := by intro o; cases o <;> simp
  exact ⟨by simpa using h1, aux _ h2' h5, _, rfl, aux _ h3 h6, rfl⟩

theorem mem_states_fs (w : World) : w.fs ∈ w.states := by simp [World.states]

theorem states_mono_move {w : World} {mid : List Fs} {f st : Fs} (h : st ∈ w.states) : st ∈ (w.move mid f).states := by
  unfold World.states World.move at *
  simp only [List.mem_append, List.mem_cons, List.not_mem_nil, or_false] at h ⊢
  rcases h with h | h
  · exact Or.inl (Or.inl h)
  · exact Or.inl (Or.inr (Or.inl h))

theorem states_mono_removeAll {d : Disk} {w : World} {p : Path} {st : Fs} (h : st ∈ w.states) : st ∈ (d.removeAll w p).1.states := by
  unfold Disk.removeAll
  split <;> exact states_mono_move h

theorem states_mono_deleteBackups {d : Disk} {us : List UpdateAttempt} {w : World} {st : Fs} (h : st ∈ w.states) :
    st ∈ (deleteBackups d w us).states := by
  induction us generalizing w with
  | nil => exact h
  | cons u us ih =>
    simp only [deleteBackups]
    split
    · split
      · exact states_mono_removeAll h
      · exact ih (states_mono_removeAll h)
    · exact ih h

theorem states_mono_tarballs {lib : Path} {m : GoMap AdditionalPkg} {ns : List Str} {w : World} {st : Fs} (h : st ∈ w.states) :
    st ∈ (e.installTarballs lib m w ns).1.states := by
  induction ns generalizing w with
  | nil => exact h
  | cons n ns ih =>
    have h1 : st ∈ (e.installTarball lib w n ((GoMap.get? m n).getD {})).1.states := states_mono_move h
    simp only [RunEnv.installTarballs]
    split
    · exact h1
    · exact ih h1

theorem states_mono_phases {w : World} {st : Fs} (h : st ∈ w.states) : st ∈ (e.phases cfg ip w).1.states := by
  unfold RunEnv.phases
  dsimp only
  split
  · exact states_mono_move h
  · split
    · exact states_mono_move (states_mono_move h)
    · exact states_mono_tarballs (states_mono_move (states_mono_move h))

theorem tarball_of_ok {lib : Path} {m : GoMap AdditionalPkg} {n : Str} {ns : List Str} {w : World}
    (h : (e.installTarballs lib m w (n :: ns)).2 = .ok) :
    (e.installTarball lib w n ((GoMap.get? m n).getD {})).2 = .ok ∧
    (e.installTarballs lib m w (n :: ns)).1 = (e.installTarballs lib m (e.installTarball lib w n ((GoMap.get? m n).getD {})).1 ns).1 ∧
    (e.installTarballs lib m (e.installTarball lib w n ((GoMap.get? m n).getD {})).1 ns).2 = .ok := by
  simp only [RunEnv.installTarballs] at h ⊢
  generalize e.installTarball lib w n ((GoMap.get? m n).getD {}) = r at *
  obtain ⟨w', o⟩ := r
  dsimp only at h ⊢
  generalize e.installTarballs lib m w' ns = r' at *
  obtain ⟨w'', o'⟩ := r'
  cases o <;> cases o' <;> simp_all

/-- A tarball whose file is there and that is installed without error is complete afterwards. -/
theorem tarball_complete {lib : Path} (hR : Installs e.ie.R Complete Unpacked)
    (hstamp : ∀ p D c st, PlainStamp st → Complete p D → D [s%"DESCRIPTION"] = some (.file c) →
      Complete p (withDescription D (writeLines (stampLines (readLines c) st))))
    {w : World} {n : Str} {a : AdditionalPkg} (hex : w.fs (absPath e.ie.cwd a.installPath) ≠ none)
    (hun : Unpacked n (fun r => w.fs (absPath e.ie.cwd a.installPath ++ r)))
    (hpl : PlainStamp (e.ie.stamp { type := .source, repo := { url := pathStr (absPath e.ie.cwd a.installPath), name := s%"IndividualPackage" } }))
    (h : (e.installTarball lib w n a).2 = .ok) :
    Complete n (contentOf (e.installTarball lib w n a).1.fs lib n) := by
  unfold RunEnv.installTarball at h ⊢
  dsimp only [World.move] at h ⊢
  by_cases hwd : w.fs.isDir (dirPath (absPath e.ie.cwd a.installPath)) = true
  · have hx : w.fs.ex (absPath e.ie.cwd a.installPath) = true := by
      unfold Fs.ex
      cases hh : w.fs (absPath e.ie.cwd a.installPath) with
      | none => exact absurd hh hex
      | some _ => rfl
    rw [install_run _ _ _ _ _ _ _ _ _ hwd hx] at h ⊢
    dsimp only at h ⊢
    have hok : (e.ie.R { pkg := n, lib := lib, build := true, src := absPath e.ie.cwd a.installPath, workDir := dirPath (absPath e.ie.cwd a.installPath) } w.fs).2 = .ok := by
      revert h
      cases (e.ie.R { pkg := n, lib := lib, build := true, src := absPath e.ie.cwd a.installPath, workDir := dirPath (absPath e.ie.cwd a.installPath) } w.fs).2 <;>
        simp [exitOf]
    rw [if_pos hok]
    have hc := hR _ _ hok hun
    dsimp only at hc
    generalize (e.ie.R { pkg := n, lib := lib, build := true, src := absPath e.ie.cwd a.installPath, workDir := dirPath (absPath e.ie.cwd a.installPath) } w.fs).1 = f at hc
    unfold stampFile
    split
    · rename_i c hf
      have := hstamp n _ c (e.ie.stamp { type := .source, repo := { url := pathStr (absPath e.ie.cwd a.installPath), name := s%"IndividualPackage" } }) hpl hc hf
      refine Eq.mp (congrArg (Complete n) ?_) this
      funext r
      unfold withDescription contentOf Fs.set
      by_cases hr : r = [s%"DESCRIPTION"]
      · rw [if_pos hr, hr, if_pos rfl]
      · rw [if_neg hr, if_neg]
        intro hh
        exact hr (by simpa using hh)
    · exact hc
  · unfold install at h
    dsimp only at h
    rw [if_pos (by simp [hwd])] at h
    simp at h

theorem goes_content {lib : Path} {S : Str → Prop} {a b : Fs} (h : Keeps lib S a b) {n : Str} (hn : ¬ S n) :
    contentOf b lib n = contentOf a lib n := by
  funext r
  exact h.at hn r

theorem tarballs_complete {lib : Path} (hb : Behaves e lib ip) (hR : Installs e.ie.R Complete Unpacked)
    (hstamp : ∀ p D c st, PlainStamp st → Complete p D → D [s%"DESCRIPTION"] = some (.file c) →
      Complete p (withDescription D (writeLines (stampLines (readLines c) st))))
    {m : GoMap AdditionalPkg} (ns : List Str) (hnd : ns.Nodup) (hnl : ∀ n ∈ ns, ¬ IsLock n) (w : World)
    (hex : ∀ st ∈ (e.installTarballs lib m w ns).1.states, ∀ n ∈ ns, st (absPath e.ie.cwd ((GoMap.get? m n).getD {}).installPath) ≠ none ∧
      Unpacked n (fun r => st (absPath e.ie.cwd ((GoMap.get? m n).getD {}).installPath ++ r)) ∧
      PlainStamp (e.ie.stamp { type := .source, repo := { url := pathStr (absPath e.ie.cwd ((GoMap.get? m n).getD {}).installPath), name := s%"IndividualPackage" } }))
    (h : (e.installTarballs lib m w ns).2 = .ok) :
    ∀ n ∈ ns, Complete n (contentOf (e.installTarballs lib m w ns).1.fs lib n) := by
  induction ns generalizing w with
  | nil => intro n hn; cases hn
  | cons n ns ih =>
    obtain ⟨h1, h2, h3⟩ := tarball_of_ok h
    rw [h2] at hex ⊢
    have hnd' := List.nodup_cons.1 hnd
    intro k hk
    rcases List.mem_cons.1 hk with rfl | hk
    · rw [goes_content (goes_installTarballs hb m ns _).1]
      · have := hex w.fs (states_mono_tarballs (states_mono_move (mem_states_fs w))) k (List.mem_cons_self ..)
        exact tarball_complete hR hstamp this.1 this.2.1 this.2.2 h1
      · rintro (h | h)
        · exact hnd'.1 h
        · exact hnl k (List.mem_cons_self ..) h
    · exact ih hnd'.2 (fun n hn => hnl n (List.mem_cons_of_mem _ hn)) _ (fun st hst n hn => hex st hst n (List.mem_cons_of_mem _ hn)) h3 k hk

theorem setAside_member (hρ : e.ρ.Fair) {p : Str} (h : p ∈ setAside e cfg ip pre) : p ∈ members ip := by
  rcases List.mem_append.1 h with h | h
  · exact ((mem_updatesOf hρ).1 h).2.2
  · exact List.mem_append_right _ ((mem_overwritesOf hρ).1 h).1

theorem tag_elsewhere (d : Disk) (lib : Path) (w : World) (p : Str) (hp : PlainName p) (q : Path) (hq : ¬ lib <+: q) :
    (tagOld d lib w p).1.fs q = w.fs q := by
  rw [tagOld_eq d lib w hp]
  unfold Disk.rename
  split
  · show w.fs.rename _ _ q = _
    unfold Fs.rename
    rw [if_neg, if_neg]
    · exact fun h => hq ((List.prefix_append _ _).trans h)
    · exact fun h => hq ((List.prefix_append _ _).trans h)
  · rfl

theorem tagAll_elsewhere (d : Disk) (lib : Path) (ps : List Str) (h : ∀ p ∈ ps, PlainName p) (w : World) (q : Path)
    (hq : ¬ lib <+: q) : (tagAll d lib w ps).1.fs q = w.fs q := by
  induction ps generalizing w with
  | nil => rfl
  | cons p ps ih =>
    simp only [tagAll]
    rw [ih (fun x hx => h x (List.mem_cons_of_mem _ hx))]
    exact tag_elsewhere d lib w p (h p (List.mem_cons_self ..)) q hq

/-- Setting packages aside and creating the library change nothing elsewhere. -/
theorem afterTag_elsewhere (hn : GoodNames ip) (hρ : e.ρ.Fair) (hl : (e.ensureLibrary cfg ip fs).2 = true) :
    SameElsewhere cfg.lib fs (afterTag e cfg ip pre (e.ensureLibrary cfg ip fs).1).fs := by
  intro q h1 h2
  unfold afterTag
  rw [tagAll_elsewhere _ _ _ (fun p hp => (hn p (setAside_member hρ hp)).1) _ _ h1]
  unfold RunEnv.ensureLibrary at hl ⊢
  split
  · split
    · rfl
    · split
      · rfl
      · show fs.mkdirAll cfg.lib _ = _
        unfold Fs.mkdirAll
        rw [if_neg]
        rintro ⟨h3, _⟩
        exact h2 h3
  · rfl

/-- The files that the queue needs, when it starts. -/
theorem run_files (hq : QueueIs e q cfg.lib ip Scratch Complete Holds) (ha : Around e cfg.lib) (hd : NoFaults e.disk)
    (hn : GoodNames ip) (hp : PlanOK ip pre) (ho : InOrder cfg.lib ip pre fs) (hdl : Delivers e q ip Scratch Holds cfg.lib fs)
    (hwhole : ∀ p ∈ queued ip, GoMap.has pre p = true → ¬ Replaced cfg ip p → Complete p (contentOf fs cfg.lib p))
    (hl : (e.ensureLibrary cfg ip fs).2 = true)
    (p1 : (e.download (afterTag e cfg ip pre (e.ensureLibrary cfg ip fs).1).fs).out = .ok) :
    FilesThere q Scratch Complete Holds (e.download (afterTag e cfg ip pre (e.ensureLibrary cfg ip fs).1).fs).fs := by
  have hb := hq.behaves ha
  have helse := afterTag_elsewhere (e := e) (cfg := cfg) (ip := ip) (pre := pre) (fs := fs) hn hb.order hl
  have hlow := ensureLibrary_below (e := e) (cfg := cfg) (ip := ip) (fs := fs) hl
  generalize hw0 : (e.ensureLibrary cfg ip fs).1 = w0 at *
  have ho0 : InOrder cfg.lib ip pre w0.fs :=
    ⟨fun p h1 h2 => (hlow p []).trans (ho.found p h1 h2), fun p h1 h2 r => (hlow p r).trans (ho.notFound p h1 h2 r),
     fun p h1 r => (hlow _ r).trans (ho.noBackup p h1 r)⟩
  have hf := tagFacts (e := e) hb.order hn hp ho0
  obtain ⟨t1, _⟩ := tagAll_exact w0.fs (setAside e cfg ip pre) hf.nodup hf.names (fun p _ f => hd.1 _ _ _) hf.dir w0
    (fun p hp => ⟨fun r => rfl, hf.noOld p hp⟩)
  have gt := goes_tagAll e.disk cfg.lib (setAside e cfg ip pre) (fun p h => (hf.names p h).1) w0
  change ∀ p ∈ setAside e cfg ip pre, Saved cfg.lib w0.fs (afterTag e cfg ip pre w0).fs p ∧ Gone cfg.lib (afterTag e cfg ip pre w0).fs p at t1
  change Goes cfg.lib _ w0 (afterTag e cfg ip pre w0) at gt
  have hset : ∀ p, p ∈ members ip → GoMap.has pre p = true → (p ∈ setAside e cfg ip pre ↔ Replaced cfg ip p) := by
    intro p hm hpre
    unfold setAside Replaced
    rw [List.mem_append, mem_updatesOf hb.order, mem_overwritesOf hb.order]
    simp [hm, hpre]
  have hkeepTag : ∀ p ∈ members ip, p ∉ setAside e cfg ip pre → ∀ r, (afterTag e cfg ip pre w0).fs (cfg.lib ++ p :: r) = fs (cfg.lib ++ p :: r) := by
    intro p hm hs r
    refine (gt.1.at ?_ r).trans (hlow p r)
    rintro ⟨x, hx, h | h⟩
    · exact hs (h ▸ hx)
    · exact (hn p hm).2.2 (h ▸ backup_prefix x)
  refine ⟨?_, ?_, ?_⟩
  · intro x hx
    rw [hq.plan] at hx
    exact ⟨hdl.there _ helse p1 x hx, hdl.safe x hx⟩
  · intro x hx b hbb
    rw [hq.plan] at hx
    exact ⟨hdl.cached x hx b hbb, fun n hn' => hdl.binaries _ helse p1 x hx b n hbb hn'⟩
  · intro x hx hdir
    rw [hq.plan] at hx
    rw [hq.library] at hdir ⊢
    have hm' : x ∈ members ip := List.mem_append_left _ hx
    have hsame : ∀ r, (e.download (afterTag e cfg ip pre w0).fs).fs (cfg.lib ++ x :: r) = (afterTag e cfg ip pre w0).fs (cfg.lib ++ x :: r) := by
      intro r
      exact ha.download _ _ (by simp) _ (List.prefix_append _ _)
    have hns : x ∉ setAside e cfg ip pre := by
      intro h
      have := (t1 x h).2 []
      rw [← hsame, hdir] at this
      cases this
    have hc : contentOf (e.download (afterTag e cfg ip pre w0).fs).fs cfg.lib x = contentOf fs cfg.lib x := by
      funext r
      exact (hsame r).trans (hkeepTag x hm' hns r)
    rw [hc]
    cases hpre : GoMap.has pre x with
    | true => exact hwhole x hx hpre fun hr => hns ((hset x hm' hpre).2 hr)
    | false =>
      exfalso
      have := ho.notFound x hm' hpre []
      rw [← hkeepTag x hm' hns, ← hsame, hdir] at this
      cases this

/-- C110: a run of `pkgr install` that reports no failure, with any interleaving of its workers, any order in which
maps are iterated and any behaviour of R within its contract, leaves every package of the plan completely installed;
those that were installed and are not replaced are as they were; those that are replaced have been taken away in
between; no backup is left; and nothing else in the library has changed but R's locks.  Supposed: the library was in
order, what was in it was complete, no I/O error, the downloads delivered the package files, and the unpacked tarballs
are there during the run. -/
theorem C110_success (hq : QueueIs e q cfg.lib ip Scratch Complete Holds) (ha : Around e cfg.lib) (hd : NoFaults e.disk)
    (hn : GoodNames ip) (hp : PlanOK ip pre) (ho : InOrder cfg.lib ip pre fs) (hdl : Delivers e q ip Scratch Holds cfg.lib fs)
    (hwhole : ∀ p ∈ queued ip, GoMap.has pre p = true → ¬ Replaced cfg ip p → Complete p (contentOf fs cfg.lib p))
    (hR : Installs e.ie.R Complete Unpacked)
    (htar : ∀ t ∈ tarballs ip, ∀ st ∈ (e.rInstall cfg ip pre fs).1.states, TarballThere e ip Unpacked st t)
    (hok : (e.rInstall cfg ip pre fs).2 = .exit0 false) :
    (∀ p ∈ members ip, Complete p (contentOf (e.rInstall cfg ip pre fs).1.fs cfg.lib p)) ∧
    (∀ p ∈ members ip, GoMap.has pre p = true → ¬ Replaced cfg ip p → Intact cfg.lib fs (e.rInstall cfg ip pre fs).1.fs p) ∧
    (∀ p ∈ members ip, Replaced cfg ip p → ∃ st ∈ (e.rInstall cfg ip pre fs).1.states, Gone cfg.lib st p) ∧
    (∀ p ∈ members ip, Gone cfg.lib (e.rInstall cfg ip pre fs).1.fs (backupName p)) ∧
    (∀ n r, n ∉ members ip → ¬ IsLock n → (e.rInstall cfg ip pre fs).1.fs (cfg.lib ++ n :: r) = fs (cfg.lib ++ n :: r) ∨
      ∃ p ∈ members ip, n = backupName p) := by
  have hb := hq.behaves ha
  obtain ⟨hl, hph, hrun⟩ := run_ok (pre := pre) hn hb.order hok
  have hfiles := run_files hq ha hd hn hp ho hdl hwhole hl
  have hlow := ensureLibrary_below (e := e) (cfg := cfg) (ip := ip) (fs := fs) hl
  generalize hw0 : (e.ensureLibrary cfg ip fs).1 = w0 at *
  have ho0 : InOrder cfg.lib ip pre w0.fs :=
    ⟨fun p h1 h2 => (hlow p []).trans (ho.found p h1 h2), fun p h1 h2 r => (hlow p r).trans (ho.notFound p h1 h2 r),
     fun p h1 r => (hlow _ r).trans (ho.noBackup p h1 r)⟩
  have hf := tagFacts (e := e) hb.order hn hp ho0
  obtain ⟨t1, _⟩ := tagAll_exact w0.fs (setAside e cfg ip pre) hf.nodup hf.names (fun p _ f => hd.1 _ _ _) hf.dir w0
    (fun p hp => ⟨fun r => rfl, hf.noOld p hp⟩)
  have gt := goes_tagAll e.disk cfg.lib (setAside e cfg ip pre) (fun p h => (hf.names p h).1) w0
  change ∀ p ∈ setAside e cfg ip pre, Saved cfg.lib w0.fs (afterTag e cfg ip pre w0).fs p ∧ Gone cfg.lib (afterTag e cfg ip pre w0).fs p at t1
  change Goes cfg.lib _ w0 (afterTag e cfg ip pre w0) at gt
  obtain ⟨p1, p2, w2, hw2, p3, p4⟩ := phases_ok hph
  have hset : ∀ p, p ∈ members ip → GoMap.has pre p = true → (p ∈ setAside e cfg ip pre ↔ Replaced cfg ip p) := by
    intro p hm hpre
    unfold setAside Replaced
    rw [List.mem_append, mem_updatesOf hb.order, mem_overwritesOf hb.order]
    simp [hm, hpre]
  have hkeepTag : ∀ p ∈ members ip, p ∉ setAside e cfg ip pre → ∀ r, (afterTag e cfg ip pre w0).fs (cfg.lib ++ p :: r) = fs (cfg.lib ++ p :: r) := by
    intro p hm hs r
    refine (gt.1.at ?_ r).trans (hlow p r)
    rintro ⟨x, hx, h | h⟩
    · exact hs (h ▸ hx)
    · exact (hn p hm).2.2 (h ▸ backup_prefix x)
  -- the deletion of the backups
  have gdel : Keeps cfg.lib (fun n => ∃ p ∈ setAside e cfg ip pre, n = backupName p)
      (e.phases cfg ip (afterTag e cfg ip pre w0)).1.fs (e.rInstall cfg ip pre fs).1.fs := by
    rw [hrun]
    unfold RollbackPlan.deleteBackupFolders
    refine Keeps.trans ((goes_deleteBackups hb.removal cfg.lib (updatesOf cfg ip pre e.ρ) _).1.mono ?_)
      ((goes_deleteBackups hb.removal cfg.lib (overwritesOf cfg ip pre e.ρ) _).1.mono ?_)
    · rintro n ⟨p, hp, h⟩; exact ⟨p, List.mem_append_left _ hp, h⟩
    · rintro n ⟨p, hp, h⟩; exact ⟨p, List.mem_append_right _ hp, h⟩
  have hnb : ∀ p ∈ members ip, ¬ ∃ x ∈ setAside e cfg ip pre, p = backupName x := by
    rintro p hm ⟨x, _, rfl⟩
    exact (hn _ hm).2.2 (backup_prefix x)
  have gph := goes_phases hb (fun p hp => (hn p (List.mem_append_left _ hp)).2.1) (afterTag e cfg ip pre w0)
  have hstates : ∀ st ∈ (e.phases cfg ip (afterTag e cfg ip pre w0)).1.states, st ∈ (e.rInstall cfg ip pre fs).1.states := by
    intro st hst
    rw [hrun]
    exact states_mono_deleteBackups (states_mono_deleteBackups hst)
  refine ⟨?_, ?_, ?_, ?_, ?_⟩
  · intro p hm
    rw [goes_content gdel (hnb p hm), p4]
    by_cases ht : p ∈ tarballs ip
    · refine tarballs_complete hb hR hq.contract.stamp (e.ρ 3 (tarballs ip)) ?_ ?_ w2 ?_ p3 p ((hb.order 3 _).mem_iff.2 ht)
      · exact ((hb.order 3 _).nodup_iff).2 hp.tarballOnce
      · intro n h
        exact (hn n (List.mem_append_right _ ((hb.order 3 _).mem_iff.1 h))).2.1
      · intro st hst n h
        refine htar n ((hb.order 3 _).mem_iff.1 h) st (hstates st ?_)
        rw [p4]
        exact hst
    · have hmq : p ∈ queued ip := by
        rcases List.mem_append.1 hm with h | h
        · exact h
        · exact absurd h ht
      rw [goes_content (goes_installTarballs hb ip.additional (e.ρ 3 (tarballs ip)) w2).1, hw2]
      · obtain ⟨s, hs, hsf, hret⟩ := hq.ended _ p2
        rw [← hsf, ← hq.library]
        refine C92_all_present_partial hq.layout hq.contract hq.wf ?_ (fs0 := (e.download (afterTag e cfg ip pre w0).fs).fs) ?_ hs hret p ?_
        · intro x hx
          rw [hq.plan] at hx
          exact (hn x (List.mem_append_left _ hx)).2.1
        · exact hfiles p1
        · rw [hq.plan]; exact hmq
      · rintro (h | h)
        · exact ht ((hb.order 3 _).mem_iff.1 h)
        · exact (hn p hm).2.1 h
  · intro p hm hpre hnr r
    have hns : p ∉ setAside e cfg ip pre := fun h => hnr ((hset p hm hpre).1 h)
    rw [gdel.at (hnb p hm), gph.1.at, hkeepTag p hm hns]
    rintro (⟨_, h⟩ | h | h)
    · exact h ((hkeepTag p hm hns []).trans (ho.found p hm hpre))
    · exact hnr (Or.inr h)
    · exact (hn p hm).2.1 h
  · intro p hm hr
    refine ⟨(afterTag e cfg ip pre w0).fs, hstates _ (states_mono_phases (mem_states_fs _)), ?_⟩
    cases hpre : GoMap.has pre p with
    | true => exact (t1 p ((hset p hm hpre).2 hr)).2
    | false =>
      intro r
      rw [hkeepTag p hm ?_, ho.notFound p hm hpre]
      intro h
      have := (hf.mem p h).2
      rw [hpre] at this
      cases this
  · intro p hm
    by_cases hs : p ∈ setAside e cfg ip pre
    · have hsv : (e.phases cfg ip (afterTag e cfg ip pre w0)).1.fs (cfg.lib ++ [backupName p]) ≠ none := by
        rw [gph.1.at_dir (phases_keep_backup hn _ _ p)]
        have := (t1 p hs).1 []
        rw [this, hf.dir p hs]
        simp
      rw [hrun]
      unfold RollbackPlan.deleteBackupFolders
      have d1 := deleteBackups_gone (lib := cfg.lib) hd.2 (updatesOf cfg ip pre e.ρ) (e.phases cfg ip (afterTag e cfg ip pre w0)).1
      have d2 := deleteBackups_gone (lib := cfg.lib) hd.2 (overwritesOf cfg ip pre e.ρ)
        (deleteBackups e.disk (e.phases cfg ip (afterTag e cfg ip pre w0)).1 (attempts cfg.lib (updatesOf cfg ip pre e.ρ)))
      change Gone cfg.lib (deleteBackups e.disk (deleteBackups e.disk (e.phases cfg ip (afterTag e cfg ip pre w0)).1
        (attempts cfg.lib (updatesOf cfg ip pre e.ρ))) (attempts cfg.lib (overwritesOf cfg ip pre e.ρ))).fs (backupName p)
      by_cases hu : p ∈ updatesOf cfg ip pre e.ρ
      · exact fun r => d2.2.1 _ (d1.2.2 p hu hsv r)
      · have hov : p ∈ overwritesOf cfg ip pre e.ρ := by
          rcases List.mem_append.1 hs with h | h
          · exact absurd h hu
          · exact h
        refine d2.2.2 p hov ?_
        rw [(goes_deleteBackups hb.removal cfg.lib (updatesOf cfg ip pre e.ρ) _).1.at_dir]
        · exact hsv
        · rintro ⟨x, hx, hxe⟩
          exact hu (backup_inj hxe ▸ hx)
    · intro r
      rw [gdel.at, gph.1.at (phases_keep_backup hn _ _ p), gt.1.at, hlow, ho.noBackup p hm]
      · rintro ⟨x, hx, h | h⟩
        · exact (hn x (hf.mem x hx).1).2.2 (h ▸ backup_prefix p)
        · exact hs (backup_inj h ▸ hx)
      · rintro ⟨x, hx, h⟩
        exact hs (backup_inj h ▸ hx)
  · intro n r hnm hnl
    by_cases hbk : ∃ p ∈ members ip, n = backupName p
    · exact Or.inr hbk
    · refine Or.inl ?_
      rw [gdel.at, gph.1.at, gt.1.at, hlow]
      · rintro ⟨x, hx, h | h⟩
        · exact hnm (h ▸ (hf.mem x hx).1)
        · exact hbk ⟨x, (hf.mem x hx).1, h⟩
      · rintro (⟨h, _⟩ | h | h)
        · exact hnm (List.mem_append_left _ h)
        · exact hnm (List.mem_append_right _ h)
        · exact hnl h
      · rintro ⟨x, hx, h⟩
        exact hbk ⟨x, (hf.mem x hx).1, h⟩

/-- C110: a run that reports a failure, rollback being on, leaves the library as it was (R's locks aside), with the
real queue in any interleaving. -/
theorem C110_failure (hq : QueueIs e q cfg.lib ip Scratch Complete Holds) (ha : Around e cfg.lib) (hd : NoFaults e.disk)
    (hn : GoodNames ip) (hp : PlanOK ip pre) (ho : InOrder cfg.lib ip pre fs)
    (hnew : ip.createLibrary = true → ∀ q, cfg.lib <+: q → fs q = none)
    (hrb : cfg.noRollback = false) (hfail : (e.rInstall cfg ip pre fs).2 = .exit0 true) :
    Keeps cfg.lib IsLock fs (e.rInstall cfg ip pre fs).1.fs :=
  C49_restored_partial e cfg ip pre fs (hq.behaves ha) hd hn hp ho hnew hrb hfail

/-- C110: wherever the run is interrupted before the backups are deleted, every package of the plan that was installed
is at its place (without a backup) or in its backup, with the real queue in any interleaving and any I/O error but a failing rename. -/
theorem C110_interrupted (hq : QueueIs e q cfg.lib ip Scratch Complete Holds) (ha : Around e cfg.lib)
    (hn : GoodNames ip) (hp : PlanOK ip pre) (ho : InOrder cfg.lib ip pre fs) (hc : ip.createLibrary = false)
    (hT : TagsOK e.disk cfg.lib (members ip)) (p : Str) (hm : p ∈ members ip) (hpre : GoMap.has pre p = true) :
    ∀ st ∈ (e.body cfg ip pre { fs := fs }).1.states, (Intact cfg.lib fs st p ∧ Gone cfg.lib st (backupName p)) ∨ Saved cfg.lib fs st p :=
  C51_no_loss_partial e cfg ip pre fs (hq.behaves ha) hn hp ho hc hT p hm hpre

/-! ### A run: `a` is installed, `b` is new and built, `t` is replaced by a tarball -/

/-- see above -/
def wholePlan : InstallPlan :=
  { starting := [s%"a"], depDb := [(s%"b", [s%"a"])], additional := [(s%"t", { installPath := s%"/w/t.tar.gz" })] }

/-- see above -/
def wholePre : GoMap Desc := [(s%"a", { package := s%"a", version := s%"1" }), (s%"t", { package := s%"t", version := s%"1" })]

/-- see above -/
def wholeFs : Fs := fun q =>
  if q = [s%"lib", s%"t"] then some .dir else if q = [s%"w", s%"t.tar.gz"] then some (.file (s%"t")) else toyQFs q

/-- The tarball of `t`, in the example: a file that says so. -/
def WholeUnpacked (p : Str) (D : Path → Option Node) : Prop := D [] = some (.file p)

/-- An R that installs tarballs. -/
def wholeR : ROracle := fun c fs =>
  if c.lib = [s%"lib"] then (fun p => if p = [s%"lib"] ++ [c.pkg] then some .dir else fs p, .ok) else (fs, .status 1)

/-- The files when the queue begins: `t` has been set aside. -/
def wholeFs1 : Fs := wholeFs.rename [s%"lib", s%"t"] [s%"lib", s%"__OLD__t"]

def wholeS1 : QState := (toyQ.execs (toyQ.init wholeFs1) toyQ1).getD (toyQ.init wholeFs1)
def wholeW1 : Fs := (wholeS1.fs.set [s%"tmp", s%"b", s%"b"] .dir).set [s%"tmp", s%"b", s%"b_1.tgz"] (.file (s%"bin"))
def wholeS1' : QState := (wholeS1.work 0 wholeW1 (.inR .build)).work 0 wholeW1 (afterR .build .ok)
def wholeS2 : QState := (toyQ.execs wholeS1' toyQ2).getD wholeS1'
def wholeW2 : Fs := wholeS2.fs.set [s%"lib", s%"b"] .dir
def wholeS2' : QState := (wholeS2.work 0 wholeW2 (.inR toyPass)).work 0 wholeW2 (afterR toyPass .ok)
def wholeS3 : QState := (toyQ.execs wholeS2' toyQ3).getD wholeS2'

theorem wholeS1_reach : QReach toyQ wholeFs1 wholeS1 := execs_reach (evs := toyQ1) (by rfl)

theorem wholeS2_reach : QReach toyQ wholeFs1 wholeS2 := by
  refine (wholeS1_reach.trans ?_).trans (execs_reach (evs := toyQ2) (s := wholeS1') (by rfl))
  refine .head (.rWrite wholeS1 0 (s%"b") .build wholeW1 rfl rfl rfl ?_) (.single (.rExit _ 0 (s%"b") .build .ok rfl rfl rfl ?_))
  · intro q hq
    refine .inr (.inr ⟨rfl, ?_⟩)
    apply Classical.byContradiction
    intro hn
    apply hq
    unfold wholeW1 Fs.set
    rw [if_neg, if_neg]
    · rintro rfl; exact hn (by decide)
    · rintro rfl; exact hn (by decide)
  · intro _ _; exact ⟨rfl, toyBuilt_bin rfl rfl rfl⟩

theorem wholeS3_reach : QReach toyQ wholeFs1 wholeS3 := by
  refine (wholeS2_reach.trans ?_).trans (execs_reach (evs := toyQ3) (s := wholeS2') (by rfl))
  refine .head (.rWrite wholeS2 0 (s%"b") toyPass wholeW2 rfl rfl rfl ?_) (.single (.rExit _ 0 (s%"b") toyPass .ok rfl rfl rfl ?_))
  · intro q hq
    refine .inl ?_
    apply Classical.byContradiction
    intro hn
    apply hq
    unfold wholeW2 Fs.set
    rw [if_neg]
    rintro rfl; exact hn (by decide)
  · intro _ _; exact ⟨rfl, fun h => by cases h⟩

/-- The queue: the execution above when it begins with these files, else it fails at once. -/
noncomputable def wholeQueue (fs : Fs) : Phase :=
  open Classical in if fs = wholeFs1 then { mid := [wholeS1.fs, wholeS2.fs], fs := wholeS3.fs, out := .ok } else { fs := fs, out := .failed }

/-- see above -/
noncomputable def wholeRun : RunEnv :=
  { disk := { renameFails := fun _ _ _ => false, removing := fun _ _ => ([], false) }
    ρ := fun _ l => l
    mkdirFails := fun _ => false
    download := fun fs => { fs := fs, out := if fs (toyQ.src (s%"a")) ≠ none ∧ fs (toyQ.src (s%"b")) ≠ none then .ok else .failed }
    planned := wholeQueue
    ie := { toyEnv true with R := wholeR }
    during := fun _ _ => [] }

theorem whole_around : Around wholeRun [s%"lib"] where
  download := by
    intro fs st hst
    have : st = fs := by simpa [wholeRun] using hst
    subst this
    exact fun p _ => rfl
  R := by
    intro c fs p hp h
    show (wholeR c fs).1 p = fs p
    unfold wholeR
    split
    · rename_i hc
      dsimp only
      split
      · rename_i hp'
        rcases h with h | h
        · exact absurd hc h
        · exact absurd (by rw [hp']) h.1
      · rfl
    · rfl
  during := by intro n fs st h; simp [wholeRun] at h
  removal := by intro fs p st h; simp [wholeRun] at h
  order := fun _ l => List.Perm.refl l

theorem whole_queueIs : QueueIs wholeRun toyQ [s%"lib"] wholePlan (fun _ => False) ToyComplete ToyHolds where
  job := ⟨1, 0, fun _ l => l, by decide⟩
  library := rfl
  wf := toyQ_wf
  layout := toyQ_layout
  contract := toyQ_contract
  moments := by
    intro fs st hst
    change st ∈ (wholeQueue fs).mid ++ [(wholeQueue fs).fs] at hst
    unfold wholeQueue at hst
    split at hst
    · rename_i h
      rw [h]
      have : st = wholeS1.fs ∨ st = wholeS2.fs ∨ st = wholeS3.fs := by simpa using hst
      rcases this with rfl | rfl | rfl
      · exact ⟨_, wholeS1_reach, rfl⟩
      · exact ⟨_, wholeS2_reach, rfl⟩
      · exact ⟨_, wholeS3_reach, rfl⟩
    · have : st = fs := by simpa using hst
      rw [this]
      exact ⟨_, .refl, rfl⟩
  ended := by
    intro fs h
    change (wholeQueue fs).out = .ok at h
    show ∃ s, QReach toyQ fs s ∧ s.fs = (wholeQueue fs).fs ∧ s.run.ret = some .nil
    unfold wholeQueue at h ⊢
    split at h
    · rename_i hh
      rw [if_pos hh, hh]
      exact ⟨_, wholeS3_reach, rfl, rfl⟩
    · simp at h

theorem whole_goodNames : GoodNames wholePlan := by
  intro p hp
  have hp' : p = s%"a" ∨ p = s%"b" ∨ p = s%"t" := by simpa [wholePlan, members, queued, tarballs, GoMap.keys] using hp
  rcases hp' with rfl | rfl | rfl <;> decide

theorem whole_inOrder : InOrder [s%"lib"] wholePlan wholePre wholeFs where
  found := by decide
  notFound := by
    intro p hp h r
    have hp' : p = s%"a" ∨ p = s%"b" ∨ p = s%"t" := by simpa [wholePlan, members, queued, tarballs, GoMap.keys] using hp
    rcases hp' with rfl | rfl | rfl
    · exact absurd h (by decide)
    · simp [wholeFs, toyQFs]
    · exact absurd h (by decide)
  noBackup := by
    intro p hp r
    have hp' : p = s%"a" ∨ p = s%"b" ∨ p = s%"t" := by simpa [wholePlan, members, queued, tarballs, GoMap.keys] using hp
    rcases hp' with rfl | rfl | rfl <;> simp [wholeFs, toyQFs, backupName]

theorem whole_delivers : Delivers wholeRun toyQ wholePlan (fun _ => False) ToyHolds [s%"lib"] wholeFs where
  there := by
    intro fs hs _ p hp
    have : p = s%"a" ∨ p = s%"b" := by simpa [wholePlan, queued, GoMap.keys] using hp
    rcases this with rfl | rfl
    · exact ⟨s%"code", hs _ (by decide) (by decide), by simp [ToyHolds]⟩
    · exact ⟨s%"code", hs _ (by decide) (by decide), by simp [ToyHolds]⟩
  binaries := by
    intro fs hs _ p hp b n hb hn
    have : p = s%"a" ∨ p = s%"b" := by simpa [wholePlan, queued, GoMap.keys] using hp
    rcases this with rfl | rfl <;>
    · have hb' := Option.some.inj hb
      rw [← hb'] at hn
      exact absurd ((hs _ (by decide) (by decide)).symm.trans hn) (by rw [show wholeFs _ = none from rfl]; simp)
  safe := by
    intro p hp
    have : p = s%"a" ∨ p = s%"b" := by simpa [wholePlan, queued, GoMap.keys] using hp
    rcases this with rfl | rfl <;> exact toyQ_safe _ rfl
  cached := by
    intro p hp b hb
    have : p = s%"a" ∨ p = s%"b" := by simpa [wholePlan, queued, GoMap.keys] using hp
    rcases this with rfl | rfl <;>
    · have hb' := Option.some.inj hb
      rw [← hb']
      exact toyQ_safe _ rfl

/-- Two runs whose queues do the same in the state they meet are the same. -/
theorem installTarballs_planned (e : RunEnv) (f : Fs → Phase) (lib : Path) (m : GoMap AdditionalPkg) (ns : List Str) (w : World) :
    ({ e with planned := f } : RunEnv).installTarballs lib m w ns = e.installTarballs lib m w ns := by
  induction ns generalizing w with
  | nil => rfl
  | cons n ns ih =>
    simp only [RunEnv.installTarballs]
    rw [ih]
    rfl

theorem rInstall_planned (e : RunEnv) (f : Fs → Phase) (hc : ip.createLibrary = false)
    (h : f (e.download (e.tag cfg { fs := fs } (createRollbackPlan cfg.lib ip pre e.ρ)).1.fs).fs =
      e.planned (e.download (e.tag cfg { fs := fs } (createRollbackPlan cfg.lib ip pre e.ρ)).1.fs).fs) :
    ({ e with planned := f } : RunEnv).rInstall cfg ip pre fs = e.rInstall cfg ip pre fs := by
  have hph : ({ e with planned := f } : RunEnv).phases cfg ip (e.tag cfg { fs := fs } (createRollbackPlan cfg.lib ip pre e.ρ)).1 =
      e.phases cfg ip (e.tag cfg { fs := fs } (createRollbackPlan cfg.lib ip pre e.ρ)).1 := by
    unfold RunEnv.phases
    dsimp only [World.move]
    rw [h]
    simp only [installTarballs_planned]
  have hl : e.ensureLibrary cfg ip fs = ({ fs := fs }, true) := by
    unfold RunEnv.ensureLibrary; rw [hc]; rfl
  have hl' : ({ e with planned := f } : RunEnv).ensureLibrary cfg ip fs = ({ fs := fs }, true) := by
    unfold RunEnv.ensureLibrary; rw [hc]; rfl
  unfold RunEnv.rInstall RunEnv.body
  rw [hl, hl']
  dsimp only
  rw [show ({ e with planned := f } : RunEnv).tag cfg { fs := fs } (createRollbackPlan cfg.lib ip pre e.ρ) =
    e.tag cfg { fs := fs } (createRollbackPlan cfg.lib ip pre e.ρ) from rfl, hph]
  rfl

/-- The same run, for computation. -/
def wholeRun' : RunEnv :=
  { disk := { renameFails := fun _ _ _ => false, removing := fun _ _ => ([], false) }
    ρ := fun _ l => l
    mkdirFails := fun _ => false
    download := fun fs => { fs := fs, out := if fs (toyQ.src (s%"a")) ≠ none ∧ fs (toyQ.src (s%"b")) ≠ none then .ok else .failed }
    planned := fun _ => { mid := [wholeS1.fs, wholeS2.fs], fs := wholeS3.fs, out := .ok }
    ie := { toyEnv true with R := wholeR }
    during := fun _ _ => [] }

theorem whole_eq : wholeRun'.rInstall { lib := [s%"lib"] } wholePlan wholePre wholeFs =
    wholeRun.rInstall { lib := [s%"lib"] } wholePlan wholePre wholeFs :=
  rInstall_planned wholeRun _ rfl (if_pos rfl).symm

/-- Non-vacuity of C110: all hypotheses are met by this run, in which the three cases occur. -/
example : QueueIs wholeRun toyQ [s%"lib"] wholePlan (fun _ => False) ToyComplete ToyHolds ∧ Around wholeRun [s%"lib"] ∧ NoFaults wholeRun.disk ∧
    GoodNames wholePlan ∧ PlanOK wholePlan wholePre ∧ InOrder [s%"lib"] wholePlan wholePre wholeFs ∧
    Delivers wholeRun toyQ wholePlan (fun _ => False) ToyHolds [s%"lib"] wholeFs ∧
    (∀ p ∈ queued wholePlan, GoMap.has wholePre p = true → ToyComplete p (contentOf wholeFs [s%"lib"] p)) ∧
    Installs wholeRun.ie.R ToyComplete WholeUnpacked ∧
    (∀ t ∈ tarballs wholePlan, ∀ st ∈ (wholeRun.rInstall { lib := [s%"lib"] } wholePlan wholePre wholeFs).1.states,
      TarballThere wholeRun wholePlan WholeUnpacked st t) ∧
    (wholeRun.rInstall { lib := [s%"lib"] } wholePlan wholePre wholeFs).2 = .exit0 false ∧
    ¬ Replaced { lib := [s%"lib"] } wholePlan (s%"a") ∧ Replaced { lib := [s%"lib"] } wholePlan (s%"t") := by
  rw [← whole_eq]
  refine ⟨whole_queueIs, whole_around, ⟨fun _ _ _ => rfl, fun _ _ => rfl⟩, whole_goodNames, ⟨by decide, by decide, by decide, by decide⟩,
    whole_inOrder, whole_delivers, ?_, ?_, ?_, by decide +kernel, ?_, Or.inr (by decide)⟩
  · intro p hp h
    have : p = s%"a" ∨ p = s%"b" := by simpa [wholePlan, queued, GoMap.keys] using hp
    rcases this with rfl | rfl
    · show wholeFs _ = _
      decide
    · exact absurd h (by decide)
  · intro c fs h _
    change (wholeR c fs).2 = .ok at h
    show (wholeR c fs).1 (c.lib ++ c.pkg :: []) = some .dir
    unfold wholeR at h ⊢
    split at h
    · rename_i hc
      rw [if_pos hc, hc]
      dsimp only
      rw [if_pos rfl]
    · simp at h
  · intro t ht
    have : t = s%"t" := by simpa [wholePlan, tarballs, GoMap.keys] using ht
    subst this
    have hh : ∀ st ∈ (wholeRun'.rInstall { lib := [s%"lib"] } wholePlan wholePre wholeFs).1.states, st [s%"w", s%"t.tar.gz"] = some (.file (s%"t")) := by
      decide +kernel
    intro st hst
    have := hh st hst
    refine ⟨?_, ?_, plainStamp_of (by decide +kernel) (by decide +kernel)⟩
    · show st [s%"w", s%"t.tar.gz"] ≠ none
      rw [this]; simp
    · show st ([s%"w", s%"t.tar.gz"] ++ []) = some (.file (s%"t"))
      exact this
  · rintro (⟨_, o, ho, _⟩ | h)
    · cases ho
    · revert h; decide

end Pkgr
