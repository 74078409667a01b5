/- C155: downloads and installations, one after the other, in which nothing goes wrong. -/
import Verif.Props.Ends
import Verif.Props.FetchEnds
import Verif.Props.RealRun
import Verif.Props.AsDownloaded
import Verif.Spec.EndsWhole

namespace Pkgr
open Spec

variable {de : DlEnv} {q : QEnv} {ip : InstallPlan} {fs : Fs}
  {Scratch : Path → Prop} {Complete : Str → (Path → Option Node) → Prop} {Holds : Str → Str → Prop}

/-- Returned downloads, seen as if each were one step. -/
theorem fine_coarse {e : DlEnv} {ds : List PkgDl} {fs : Fs} {s : FineState} (hdests : (ds.map e.dest).Nodup)
    (h : FineReach e ds fs s) (hr : s.returned = true) : ∃ t, DlReach e ds fs t ∧ t.returned = true ∧ t.fs = s.fs ∧ t.result = s.result := by
  obtain ⟨t, hsim, ht⟩ := fineSim_reach hdests h (fine_returned_alive h hr)
  have htr : t.returned = true := by rw [hsim.ret]; exact hr
  obtain ⟨_, hdone⟩ := all_done ht htr
  refine ⟨t, ht, htr, ?_, hsim.result⟩
  funext p
  symm
  apply hsim.others
  intro i d pc _ hpc
  have : DlPhase.holding ∈ t.phases := by
    rw [hsim.phases]
    exact List.mem_map.2 ⟨_, List.mem_of_getElem? hpc, rfl⟩
  exact absurd (hdone _ this) (by simp)

/-- If no local file is missing, the downloads do not end the program. -/
theorem fine_alive {e : DlEnv} {ds : List PkgDl} {fs : Fs} (hnames : (ds.map fun d => d.package.package).Nodup) (hdests : (ds.map e.dest).Nodup)
    (hloc : ∀ d ∈ ds, e.mkDirs fs ds (e.dest d) = none → e.server (e.url (settled e.platform d) (e.dest d)) ≠ .noLocalFile)
    {s : FineState} (h : FineReach e ds fs s) : s.dead = false := by
  obtain ⟨evs, hrun⟩ := h
  refine (fine_run_inv (e := e) (ds := ds) (fun s => s.dead = false ∧ FineReach e ds fs s) ?_ evs _ _ ⟨rfl, [], rfl⟩ hrun).1
  rintro s s' ev ⟨hd, evs', hs⟩ hst
  have hreach' : FineReach e ds fs s' := by
    have happ : ∀ (l : List FineEvent) (a : FineState), e.fineRun ds a l = some s → e.fineRun ds a (l ++ [ev]) = some s' := by
      intro l
      induction l with
      | nil => intro a ha; cases ha; simp [DlEnv.fineRun, hst]
      | cons x l ih =>
        intro a ha
        rw [DlEnv.fineRun] at ha
        rw [List.cons_append, DlEnv.fineRun]
        cases hx : e.fineStep ds a x with
        | none => rw [hx] at ha; cases ha
        | some b => rw [hx] at ha; exact ih b ha
    exact ⟨evs' ++ [ev], happ _ _ hs⟩
  refine ⟨?_, hreach'⟩
  obtain ⟨t, hsim, ht⟩ := fineSim_reach hdests ⟨evs', hs⟩ hd
  unfold DlEnv.fineStep at hst
  split at hst
  · cases hst
  cases ev with
  | spawn => dsimp only at hst; split at hst <;> cases hst; exact hd
  | acquire i => dsimp only at hst; split at hst <;> cases hst; exact hd
  | ret => dsimp only at hst; split at hst <;> cases hst; exact hd
  | finish i =>
    dsimp only at hst
    split at hst <;> cases hst
    exact hd
  | io i a =>
    dsimp only at hst
    split at hst
    · rename_i pc d hpc hdi
      simp only [Option.map_eq_some_iff] at hst
      obtain ⟨⟨fs', pc'⟩, hr, hm⟩ := hst
      unfold FineState.moved at hm
      split at hm <;> subst hm
      · rename_i hf
        dsimp only at hf
        subst hf
        exfalso
        have hj := hsim.jobs i d pc hdi hpc
        cases pc <;> cases a <;> simp only [DlEnv.fetchAct, reduceCtorEq] at hr
        · split at hr <;> simp at hr
        · simp only [JobAt] at hj
          have hserv : e.server (e.url (e.resolved d) (e.dest d)) = .noLocalFile := by
            cases hx : e.server (e.url (e.resolved d) (e.dest d)) <;> rw [hx] at hr <;> simp at hr ⊢
          have hdata := dlData_reach hnames hdests ht hsim.dead'
          have hph : t.phases[i]? ≠ some DlPhase.done := by
            rw [hsim.phases, List.getElem?_map, hpc]
            simp [FinePhase.coarse]
          have hpend := (hdata.pending i d hdi hph).1
          exact hloc d (List.mem_of_getElem? hdi) (by rw [← hpend]; exact hj.1) hserv
        · split at hr <;> simp at hr
        · split at hr
          · split at hr <;> simp at hr
          · cases hr
        · split at hr
          · split at hr <;> simp at hr
          · cases hr
      · exact hd
    · cases hst

/-- C155: the downloads come to their end too.  If what is in the cache is what it should be and the repositories deliver the rest, then, whatever the
order in which the downloads take their steps, they do not end the program; they can go on until they have returned; and an execution of
them has a bounded number of steps. -/
theorem C155_downloads_end (hP : Places de q Scratch) (hG : GoodDownloads ip) (hS : Stocked de q ip Holds fs) :
    (∀ s, FineReach de ip.downloads fs s → s.dead = false ∧ (s.returned = true ∨ ∃ ev s', de.fineStep ip.downloads s ev = some s')) ∧
    (∀ evs s, de.fineRun ip.downloads (de.fineInit fs ip.downloads) evs = some s →
      evs.length ≤ (ip.downloads.map fun d => answerSize de (settled de.platform d) (de.dest d) + 7).sum + 1) := by
  refine ⟨fun s hs => ?_, fun evs s h => C47_fine_bounded _ _ _ _ _ h⟩
  have hd : s.dead = false := by
    refine fine_alive hG.once (dests_once hP hG) ?_ hs
    intro d hd hn
    rw [mkDirs_dest hP hG fs hd] at hn
    obtain ⟨x, hx, _⟩ := hS.served d hd hn
    rw [hx]
    simp
  refine ⟨hd, ?_⟩
  cases hr : s.returned with
  | true => exact .inl rfl
  | false => exact .inr (C47_fine_progress de _ fs s (dests_once hP hG) hs hd hr)

theorem rv_not_binary (rv : RVersion) : rv.toStr ≠ s%"binary" := by
  intro h
  have : '.' ∈ rv.toStr := by simp [RVersion.toStr]
  rw [h] at this
  revert this
  decide

/-- The directory for the built binaries is made by the downloads. -/
theorem bins_made (hP : Places de q Scratch) (hG : GoodDownloads ip) {s : DlState} (hr : DlReach de ip.downloads fs s)
    {d : PkgDl} (hd : d ∈ ip.downloads) (hf : ∀ c, fs (binDir de d.config.repo) ≠ some (.file c)) : s.fs (binDir de d.config.repo) = some .dir := by
  rw [dl_elsewhere hr]
  · have hrn : ∀ r ∈ (getRepos ip.downloads).map Prod.snd, '/' ∉ r.name := by
      intro r hr
      obtain ⟨d, hd, rfl⟩ := mem_getRepos hr
      exact (hG.plain d hd).1.1
    obtain ⟨r, hrm, hname, d', hd', hr'⟩ := exists_getRepos hd
    have hurl : r.url = d.config.repo.url := by
      rw [← hr'] at hname ⊢
      exact hG.oneUrl d' hd' d hd hname
    refine mkRepos_made de hP.shape _ hrn fs _ ⟨r, hrm, .inr ?_⟩ hf
    unfold binDir repoUrlHash
    rw [hname, hurl]
  · intro d' hd' he
    obtain ⟨dir, v, h1, _, h2⟩ := dest_shape hP (hG.plain d' hd').1
    rw [h1] at he
    rcases h2 with h2 | h2
    · rw [h2.2.1] at he
      unfold srcDir binDir at he
      rw [List.append_assoc] at he
      have := List.append_cancel_left he
      simp only [List.cons_append, List.nil_append, List.cons.injEq] at this
      exact absurd this.2.1 (by decide)
    · rw [h2.2] at he
      have := congrArg List.length he
      simp [binDir_length] at this

/-- What the downloads leave is what the queue needs. -/
theorem files_there (hP : Places de q Scratch) (hG : GoodDownloads ip) (hS : Stocked de q ip Holds fs) (hB : RoomBefore de q ip Complete fs)
    {s : DlState} (hr : DlReach de ip.downloads fs s) (hret : s.returned = true) (ht : ∀ p, q.download p = (GoMap.get? s.result p).getD {})
    (hplan : Job.plan q.job = queued ip) : FilesThere q Scratch Complete Holds s.fs where
  src := by
    intro p hp
    rw [hplan] at hp
    obtain ⟨hK, hF⟩ := delivered hP hG hS hr hret ht
    obtain ⟨d, hd, rfl, hpath, _⟩ := hK p hp
    have : q.src d.package.package = de.dest d := by unfold QEnv.src; rw [hpath]; rfl
    rw [this]
    exact ⟨hF d hd, safe_of_base hP (dest_base hP (hG.plain d hd).1)⟩
  cached := by
    intro p hp b hb
    rw [hplan] at hp
    obtain ⟨hK, hF⟩ := delivered hP hG hS hr hret ht
    obtain ⟨d, hd, rfl, hpath, hmeta⟩ := hK p hp
    rw [hmeta, settled_cached] at hb
    obtain ⟨w, hw, _⟩ := cached_shape hP (hG.plain d hd).1 hb
    refine ⟨safe_of_base hP ((binDir_base _).trans (by rw [hw]; exact List.prefix_append _ _)), ?_⟩
    intro n hn
    by_cases hx : ∀ d' ∈ ip.downloads, de.dest d' ≠ b
    · rw [dl_elsewhere hr b hx, hw, mkDirs_file hP hG fs (.inr rfl), ← hw] at hn
      exact hS.binaries d hd b n hb hn
    · have : ∃ d' ∈ ip.downloads, de.dest d' = b := by
        apply Classical.byContradiction
        intro hc
        exact hx fun d' hd' he => hc ⟨d', hd', he⟩
      obtain ⟨d', hd', he⟩ := this
      obtain ⟨dir', v', e1, _, _⟩ := dest_shape hP (hG.plain d' hd').1
      have hname : d'.package.package = d.package.package := by
        refine name_inj (hG.plain d' hd').1.2.2.2 (hG.plain d hd).1.2.2.2 (v := v') (v' := w) (dir := dir') (dir' := binDir de d.config.repo) ?_
        rw [← e1, ← hw, he]
      obtain ⟨x, h1, h2⟩ := hF d' hd'
      rw [he, hn] at h1
      exact ⟨x, Option.some.inj h1, hname ▸ h2⟩
  whole := by
    intro p hp hdir
    rw [hplan] at hp
    have hsame := C118_downloads_spare_library hP hG (fs1 := fs) (st := s.fs) (.inr ⟨s, hr, fun x => .inl rfl⟩)
    have h1 : fs (q.lib ++ [p]) = some .dir := by rw [← hsame _ (List.prefix_append _ _)]; exact hdir
    have h2 : contentOf s.fs q.lib p = contentOf fs q.lib p := by
      funext r
      exact hsame _ (List.prefix_append _ _)
    rw [h2]
    exact hB.whole p hp h1

theorem room_there (hP : Places de q Scratch) (hG : GoodDownloads ip) (hS : Stocked de q ip Holds fs) (hB : RoomBefore de q ip Complete fs)
    (hbin : BinariesFit de q ip)
    {s : DlState} (hr : DlReach de ip.downloads fs s) (hret : s.returned = true) (ht : ∀ p, q.download p = (GoMap.get? s.result p).getD {})
    (hplan : Job.plan q.job = queued ip) : RoomThere q Scratch s.fs where
  tmp := by
    intro p hp x hx
    rw [hplan] at hp
    rw [dl_elsewhere hr] at hx
    · have hrn : ∀ r ∈ (getRepos ip.downloads).map Prod.snd, '/' ∉ r.name := by
        intro r hr
        obtain ⟨d, hd, rfl⟩ := mem_getRepos hr
        exact (hG.plain d hd).1.1
      rcases mkRepos_cases de hP.shape _ hrn fs (q.tmp p) with h | ⟨_, _, h⟩
      · exact hB.tmp p hp x (h.symm.trans hx)
      · have := h.symm.trans hx
        cases this
    · intro d hd he
      have := dest_base hP (hG.plain d hd).1
      rw [he] at this
      exact (hP.cacheTmp p).1 this
  store := by
    intro p hp hno x hx
    rw [hplan] at hp
    obtain ⟨hK, hF⟩ := delivered hP hG hS hr hret ht
    obtain ⟨d, hd, rfl, hpath, hmeta⟩ := hK p hp
    obtain ⟨hn, htar⟩ := hG.plain d hd
    have hsrc : q.src d.package.package = de.dest d := by unfold QEnv.src; rw [hpath]; rfl
    by_cases hty : resolveType de.platform d.config.type = .binary
    · exfalso
      have hc : OneComputer q.ie de := ⟨hP.digest, hP.base, hP.rv, hP.platform⟩
      have hcb : q.ie.cachedBinary (q.download d.package.package).metadata = some (de.dest d) := by
        rw [hmeta, settled_cached, dest_binary hc hty]
        unfold InstallEnv.cachedBinary
        rcases hbin d hd hty with h | h | ⟨h, h'⟩
        · rw [h]; rfl
        · rw [h]; rfl
        · rw [h, h']
          unfold linuxPlatform
          cases de.rhel <;> simp [binaryNameOs, cranBinaryName]
      obtain ⟨y, hy, _⟩ := hF d hd
      rw [hno _ hcb] at hy
      cases hy
    · rw [hsrc] at hx
      obtain ⟨hbb, _⟩ := built_name hP hn htar hx
      obtain ⟨s1, _, _, _⟩ := store_shape hP hn hpath hbb
      have hdp : dirPath (q.store d.package.package (q.tmp d.package.package ++ [x])) = binDir de d.config.repo := by
        rw [(s1 hty).1]; simp [dirPath]
      rw [hdp]
      refine ⟨bins_made hP hG hr hd (hB.bins d hd), safe_of_base hP (binDir_base _), ?_⟩
      rintro ⟨p', hp', h⟩
      rw [hplan] at hp'
      obtain ⟨d', hd', rfl, hpath', _⟩ := hK p' hp'
      obtain ⟨hn', htar'⟩ := hG.plain d' hd'
      have hsrc' : q.src d'.package.package = de.dest d' := by unfold QEnv.src; rw [hpath']; rfl
      rcases h with h | ⟨y, hy, h⟩
      · obtain ⟨dir, v, h1, _, h2⟩ := dest_shape hP hn'
        have hrd : repoDir q d'.package.package = dir.dropLast := by unfold repoDir; rw [hpath', h1]; simp
        rw [hrd] at h
        rcases h2 with h2 | h2
        · rw [h2.2.1] at h
          have := congrArg List.length h
          simp [binDir, srcDir] at this
        · rw [h2.2] at h
          have h3 : binDir de d'.config.repo = de.base ++ [repoUrlHash de.digest d'.config.repo, s%"binary"] ++ [de.rv.toStr] := by simp [binDir]
          have h4 : binDir de d.config.repo = de.base ++ [repoUrlHash de.digest d.config.repo, s%"binary"] ++ [de.rv.toStr] := by simp [binDir]
          rw [h3, h4, List.dropLast_concat] at h
          have := (List.append_inj' h rfl).2
          exact rv_not_binary de.rv (by simpa using this)
      · rw [hsrc'] at hy
        obtain ⟨hbb', _⟩ := built_name hP hn' htar' hy
        obtain ⟨t1, t2, _, _⟩ := store_shape hP hn' hpath' hbb'
        rw [← store_eq] at h
        have hl := congrArg List.length h
        by_cases hty' : resolveType de.platform d'.config.type = .binary
        · rw [(t2 hty').1, binDir_length] at hl; omega
        · rw [(t1 hty').1] at hl; simp [binDir_length] at hl

/-- C155: downloads and installations, one after the other.  The downloads have returned, in whatever order they took their steps; the queue gets
what they return; nothing went wrong: the cache was in order, the repositories deliver, R does its work and no copy fails.  Then the
installations, whatever has happened so far and in whatever order, can go on until the queue has returned without an error and with every planned
package completely installed; and when nothing can happen any more but changes of files, that has come about.
(Of the files it is supposed that no file stands where a directory has to be made.) -/
theorem C155_from_downloads (hP : Places de q Scratch) (hG : GoodDownloads ip) (hS : Stocked de q ip Holds fs) (hB : RoomBefore de q ip Complete fs)
    (hbin : BinariesFit de q ip) {s : FineState} (hr : FineReach de ip.downloads fs s) (hret : s.returned = true)
    (ht : ∀ p, q.download p = (GoMap.get? s.result p).getD {}) (hplan : Job.plan q.job = queued ip)
    (hc : RContract q Scratch Complete Holds) (hw : WellFormed q.job) (hn : ∀ p ∈ queued ip, ¬ IsLock p) (hR : RSucceeds q Complete Holds)
    (hcpu : 0 < q.job.ncpu) (hcaps : q.job.caps = {}) (hsize : (queued ip).length ≤ 2500 + q.job.ncpu)
    {t : QState} (h : Relation.ReflTransGen (Unfailing q) (q.init s.fs) t) :
    (∃ t', Relation.ReflTransGen (Unfailing q) t t' ∧ t'.run.ret = some .nil ∧ ∀ p ∈ queued ip, Complete p (contentOf t'.fs q.lib p)) ∧
    ((∀ t', Relation.ReflTransGen (Unfailing q) t t' → OnlyFiles t t') →
      t.run.ret = some .nil ∧ ∀ p ∈ queued ip, Complete p (contentOf t.fs q.lib p)) := by
  obtain ⟨s', hs', hret', hfs, hres⟩ := fine_coarse (dests_once hP hG) hr hret
  rw [← hfs] at h
  rw [← hres] at ht
  have hK := (delivered hP hG hS hs' hret' ht).1
  have hl := C118_layout hP hG hK hplan
  have hF := files_there hP hG hS hB hs' hret' ht hplan
  have hRm := room_there hP hG hS hB hbin hs' hret' ht hplan
  have hos : q.ie.platform.os ≠ .other := by rw [← hP.platform]; exact hP.os
  rw [← hplan] at hn hsize ⊢
  exact ⟨C155_can_finish hl hc hw hn hF hos hR hRm hcpu hcaps hsize h, fun hrest => C155_completes hl hc hw hn hF hos hR hRm hcpu hcaps hsize h hrest⟩

/-! ### Example: the packages of the example of C118, with an R that does not fail -/

/-- The steps of the downloads: of the first it is found that it is there, the second is written in two pieces. -/
def endEvents : List FineEvent :=
  [.spawn, .acquire 0, .spawn, .acquire 1, .io 1 .check, .io 0 .check, .io 1 .reply, .io 1 .create, .io 1 (.write 1), .finish 0, .io 1 (.write 3), .io 1 .close,
    .finish 1, .ret]

/-- The downloads. -/
def endD : FineState := (realDe.fineRun realPlan.downloads (realDe.fineInit realFs realPlan.downloads) endEvents).getD (realDe.fineInit realFs [])

theorem endD_reach : FineReach realDe realPlan.downloads realFs endD := ⟨endEvents, by rfl⟩

/-- The queue. -/
def endQ : QEnv :=
  { sureQ with
    ie := { sureQ.ie with digest := fun _ => s%"0123456789ab" }
    download := fun p => (GoMap.get? endD.result p).getD {} }

theorem endQ_contract : RContract endQ (fun _ => False) ToyComplete ToyHolds := by
  refine ⟨toyQ_contract.confined, sureQ_contract.installs, sureQ_contract.builds, toyQ_contract.isDir, fun p hp k => ?_, toyQ_contract.stamp⟩
  rcases toyQ_plan hp with rfl | rfl <;>
    exact stampOf_plain (plainStamp_of (by decide +kernel) (by decide +kernel)) (plainStamp_of (by decide +kernel) (by decide +kernel)) k

theorem endQ_succeeds : RSucceeds endQ ToyComplete ToyHolds := by
  have hneed : ∀ p ∈ Job.plan endQ.job, ∀ fs, NeedsThere endQ ToyComplete p fs → p = s%"b" → fs [s%"lib", s%"a"] = some .dir := by
    intro p _ fs hn hp
    subst hp
    exact hn (s%"a") (.single (by decide))
  have hpkg : ∀ p k, (endQ.rcall p k).pkg = p := by intro p k; cases k <;> rfl
  refine ⟨fun p hp k fs x y h _ _ hn => h.1.2 (fun hb => hneed p hp fs hn ((hpkg p k).symm.trans hb)), ?_, ?_⟩
  · intro p _ fs x h h1 h2
    obtain ⟨h3, h4⟩ := (h.2 rfl ⟨x, h1, h2⟩).2 rfl
    refine ⟨h3, fun bbp hb => ?_⟩
    obtain ⟨y, hy, _⟩ := h4 bbp hb
    rw [show fs (endQ.tmp p ++ [bbp]) = _ from hy]
    simp
  · intro p hp k fs x _ _ hn
    have hd := hneed p hp fs hn
    by_cases hk : k = .build
    · subst hk
      have hbin : ∃ z, binaryExtOs .darwin (basePath (endQ.rcall p .build).src) (s%"x") = some z ∧ z ≠ p := by
        rcases toyQ_plan hp with rfl | rfl <;> exact ⟨_, rfl, by decide⟩
      obtain ⟨z, hz, hzp⟩ := hbin
      refine ⟨((fs.set [s%"tmp", p] .dir).set [s%"tmp", p, p] .dir).set [s%"tmp", p, z] (.file (s%"bin")), .ok, .single ?_, ⟨fun _ hb => ?_, fun _ => rfl⟩, fun _ _ => ⟨?_, fun _ => ⟨?_, ?_⟩⟩⟩
      · intro q hq
        refine .inr (.inr ⟨rfl, ?_⟩)
        show [s%"tmp", p] <+: q
        apply Classical.byContradiction
        intro hn
        apply hq
        unfold Fs.set
        rw [if_neg, if_neg, if_neg]
        · rintro rfl; exact hn (List.prefix_refl _)
        · rintro rfl; exact hn ⟨[p], rfl⟩
        · rintro rfl; exact hn ⟨[z], rfl⟩
      · show ((fs.set [s%"tmp", p] .dir).set [s%"tmp", p, p] .dir).set [s%"tmp", p, z] (.file (s%"bin")) [s%"lib", s%"a"] = _
        simpa [Fs.set] using hd hb
      · show ((fs.set [s%"tmp", p] .dir).set [s%"tmp", p, p] .dir).set [s%"tmp", p, z] (.file (s%"bin")) [s%"tmp", p, p] = _
        simp [Fs.set, Ne.symm hzp]
      · show ((fs.set [s%"tmp", p] .dir).set [s%"tmp", p, p] .dir).set [s%"tmp", p, z] (.file (s%"bin")) [s%"tmp", p] = _
        simp [Fs.set]
      · intro bbp hb
        rw [hz] at hb
        cases hb
        refine ⟨s%"bin", ?_, by simp⟩
        show ((fs.set [s%"tmp", p] .dir).set [s%"tmp", p, p] .dir).set [s%"tmp", p, z] (.file (s%"bin")) [s%"tmp", p, z] = _
        simp [Fs.set]
    · have hb : (endQ.rcall p k).build = false ∧ (endQ.rcall p k).lib = [s%"lib"] ∧ (endQ.rcall p k).pkg = p := by
        cases k with
        | build => exact absurd rfl hk
        | cached b => exact ⟨rfl, rfl, rfl⟩
        | final b => exact ⟨rfl, rfl, rfl⟩
      refine ⟨fs.set [s%"lib", p] .dir, .ok, .single ?_, ⟨fun _ hb' => ?_, fun _ => rfl⟩, fun _ _ => ⟨?_, fun h => ?_⟩⟩
      · intro q hq
        refine .inl ?_
        rw [hb.2.1, hb.2.2]
        apply Classical.byContradiction
        intro hn
        apply hq
        unfold Fs.set
        rw [if_neg]
        rintro rfl
        exact hn (List.prefix_refl _)
      · have := hd (hb.2.2.symm.trans hb')
        simp only [Fs.set]
        split
        · rfl
        · exact this
      · rw [hb.2.1, hb.2.2]
        simp [Fs.set]
      · rw [hb.1] at h; cases h

theorem end_places : Places realDe endQ (fun _ => False) := by
  refine ⟨rfl, rfl, rfl, rfl, fun _ => ⟨rfl, by show '/' ∉ s%"0123456789ab"; decide⟩, by decide, by decide, by decide, ?_, fun _ h => h.elim, ?_, ?_, fun _ h => h.elim⟩
  · intro p; constructor <;> simp [realDe, endQ, sureQ, toyQ]
  · intro p; constructor <;> simp [endQ, sureQ, toyQ]
  · intro p _ q _ h; constructor <;> simp [endQ, sureQ, toyQ, h, Ne.symm h]

theorem end_downloads : GoodDownloads realPlan := by
  have hds : ∀ {d : PkgDl}, d ∈ realPlan.downloads → d = realDl (s%"a") ∨ d = realDl (s%"b") := by
    intro d hd; simpa [realPlan] using hd
  refine ⟨?_, by decide, ?_, ?_⟩
  · intro p hp
    have : p = s%"a" ∨ p = s%"b" := by simpa [realPlan, queued, GoMap.keys] using hp
    rcases this with rfl | rfl
    · exact ⟨realDl (s%"a"), by decide, rfl⟩
    · exact ⟨realDl (s%"b"), by decide, rfl⟩
  · intro d hd
    rcases hds hd with rfl | rfl <;> exact ⟨by decide, by decide⟩
  · intro d hd d' hd' _
    rcases hds hd with rfl | rfl <;> rcases hds hd' with rfl | rfl <;> rfl

theorem end_stocked : Stocked realDe endQ realPlan ToyHolds realFs := by
  have hds : ∀ {d : PkgDl}, d ∈ realPlan.downloads → d = realDl (s%"a") ∨ d = realDl (s%"b") := by
    intro d hd; simpa [realPlan] using hd
  refine ⟨?_, ?_, ?_, ?_⟩
  · intro d hd x hx hx' c hc
    have hdir : x <+: [s%"cache", s%"r-0123456789ab", s%"src"] := by rcases hds hd with rfl | rfl <;> exact hx'
    have hl := hdir.length_le
    unfold realFs at hc
    split at hc
    · cases hc
    · split at hc
      · rename_i h
        rw [h] at hl
        simp at hl
      · cases hc
  · intro d hd n hn
    rcases hds hd with rfl | rfl
    · refine ⟨s%"code", ?_, by simp [ToyHolds]⟩
      have h0 : realFs (realDe.dest (realDl (s%"a"))) = some (.file (s%"code")) := by decide
      rw [h0] at hn
      exact (Option.some.inj hn).symm
    · have h0 : realFs (realDe.dest (realDl (s%"b"))) = none := by decide
      rw [h0] at hn; cases hn
  · intro d hd _
    exact ⟨s%"code", rfl, by simp [ToyHolds]⟩
  · intro d hd b n hb hn
    rcases hds hd with rfl | rfl <;>
    · have hb' := Option.some.inj hb
      rw [← hb'] at hn
      exact absurd hn (by rw [show realFs _ = none from rfl]; simp)

theorem end_room : RoomBefore realDe endQ realPlan ToyComplete realFs := by
  refine ⟨?_, ?_, fun p _ h => h⟩
  · intro p _ x h
    simp [realFs, endQ, sureQ, toyQ] at h
  · intro d _ x h
    simp [realFs, realDe] at h

/-- Non-vacuity of `C155_from_downloads` and `C155_downloads_end`: all assumptions hold; from the downloads above the queue gets to its end. -/
example : endD.returned = true ∧ ∃ t', Relation.ReflTransGen (Unfailing endQ) (endQ.init endD.fs) t' ∧ t'.run.ret = some .nil ∧
    t'.fs [s%"lib", s%"b"] = some .dir := by
  refine ⟨rfl, ?_⟩
  have hbin : BinariesFit realDe endQ realPlan := fun _ _ _ => .inl rfl
  obtain ⟨t', h1, h2, h3⟩ := (C155_from_downloads end_places end_downloads end_stocked end_room hbin endD_reach rfl (fun _ => rfl)
    (by decide) endQ_contract toyQ_wf toyQ_names endQ_succeeds (by decide) rfl (by decide) .refl).1
  exact ⟨t', h1, h2, h3 (s%"b") (by decide)⟩

example : (endEvents.length : Nat) ≤ (realPlan.downloads.map fun d => answerSize realDe (settled realDe.platform d) (realDe.dest d) + 7).sum + 1 :=
  (C155_downloads_end end_places end_downloads end_stocked).2 endEvents endD rfl

end Pkgr
