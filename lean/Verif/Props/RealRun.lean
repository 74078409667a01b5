/- C118: the whole run, with the real downloads and the real queue. -/
import Verif.Proof.RealRun
import Verif.Props.Plan

namespace Pkgr
open Spec

variable {e : RunEnv} {de : DlEnv} {q : QEnv} {cfg : RunCfg} {ip : InstallPlan} {pre : GoMap Desc} {fs : Fs}
  {Scratch : Path → Prop} {Complete Unpacked : Str → (Path → Option Node) → Prop} {Holds : Str → Str → Prop}

theorem dir_base (hP : Places de q Scratch) {d : PkgDl} (hn : PlainNames d) : de.base <+: dirPath (de.dest d) := by
  obtain ⟨dir, v, h1, _, h2⟩ := dest_shape hP hn
  have hdp : dirPath (de.dest d) = dir := by rw [h1]; simp [dirPath]
  rw [hdp]
  rcases h2 with h2 | h2
  · rw [h2.2.1]; exact srcDir_base _
  · rw [h2.2]; exact binDir_base _

/-- What downloading one package gives when its file is there or delivered. -/
theorem alone_delivered (hP : Places de q Scratch) (hG : GoodDownloads ip) {fs1 : Fs} (hS : Stocked de q ip Holds fs1)
    {d : PkgDl} (hd : d ∈ ip.downloads) :
    ∃ dl x, (alone de ip.downloads fs1 d).2 = .ok dl ∧ dl.path = .abs (de.dest d) ∧ dl.metadata = settled de.platform d ∧
      (alone de ip.downloads fs1 d).1 (de.dest d) = some (.file x) ∧ Holds d.package.package x := by
  have h0 := mkDirs_dest hP hG fs1 hd
  have hdir := mkDirs_dir hP hG fs1 hd (hS.dirs d hd _ (dir_base hP (hG.plain d hd).1) (List.prefix_refl _))
  unfold alone DlEnv.downloadPackage
  cases hx : fs1 (de.dest d) with
  | some n =>
    obtain ⟨x, rfl, hh⟩ := hS.files d hd n hx
    rw [hx] at h0
    rw [if_pos (by simp [Fs.ex, h0])]
    exact ⟨_, x, rfl, rfl, rfl, h0, hh⟩
  | none =>
    obtain ⟨x, hs, hh⟩ := hS.served d hd hx
    rw [hx] at h0
    rw [if_neg (by simp [Fs.ex, h0]), hs]
    dsimp only
    rw [if_neg (by simp [Fs.isDir, hdir]), if_pos rfl]
    exact ⟨_, x, rfl, rfl, rfl, by simp [Fs.set], hh⟩

theorem Spec.Stocked.of_same (hP : Places de q Scratch) (hG : GoodDownloads ip) (hS : Stocked de q ip Holds fs) {fs1 : Fs}
    (hs : SameElsewhere q.lib fs fs1) : Stocked de q ip Holds fs1 where
  dirs := by
    intro d hd x hb hx c hc
    rw [same_of_base hP.cacheLib hs hb] at hc
    exact hS.dirs d hd x hb hx c hc
  files := by
    intro d hd n hn
    rw [same_of_base hP.cacheLib hs (dest_base hP (hG.plain d hd).1)] at hn
    exact hS.files d hd n hn
  served := by
    intro d hd hn
    rw [same_of_base hP.cacheLib hs (dest_base hP (hG.plain d hd).1)] at hn
    exact hS.served d hd hn
  binaries := by
    intro d hd b n hb hn
    obtain ⟨v, hv, _⟩ := cached_shape hP (hG.plain d hd).1 hb
    rw [same_of_base hP.cacheLib hs (by rw [hv]; exact (binDir_base _).trans (List.prefix_append _ _))] at hn
    exact hS.binaries d hd b n hb hn

/-- What the queue knows of a package: where its file is and what it is. -/
def Known (de : DlEnv) (q : QEnv) (ip : InstallPlan) : Prop :=
  ∀ p ∈ queued ip, ∃ d ∈ ip.downloads, d.package.package = p ∧ (q.download p).path = .abs (de.dest d) ∧
    (q.download p).metadata = settled de.platform d

/-- The table of the downloads. -/
theorem delivered (hP : Places de q Scratch) (hG : GoodDownloads ip) {fs1 : Fs} (hS : Stocked de q ip Holds fs1) {s : DlState}
    (hr : DlReach de ip.downloads fs1 s) (hret : s.returned = true) (ht : ∀ p, q.download p = (GoMap.get? s.result p).getD {}) :
    Known de q ip ∧ ∀ d ∈ ip.downloads, ∃ x, s.fs (de.dest d) = some (.file x) ∧ Holds d.package.package x := by
  obtain ⟨h1, _, _⟩ := C47_schedule_independent de ip.downloads fs1 s hG.once (dests_once hP hG) hr hret
  refine ⟨?_, ?_⟩
  · intro p hp
    obtain ⟨d, hd, rfl⟩ := hG.each p hp
    obtain ⟨dl, x, a1, a2, a3, _, _⟩ := alone_delivered hP hG hS hd
    have hg := (h1 d hd).1
    rw [a1] at hg
    refine ⟨d, hd, rfl, ?_, ?_⟩ <;> rw [ht, hg]
    · exact a2
    · exact a3
  · intro d hd
    obtain ⟨dl, x, _, _, _, a4, a5⟩ := alone_delivered hP hG hS hd
    exact ⟨x, by rw [(h1 d hd).2, a4], a5⟩

theorem settled_cached (d : PkgDl) : q.ie.cachedBinary (settled de.platform d) = q.ie.cachedBinary d := rfl

theorem replaceFirst_cases (s old new : Str) :
    replaceFirst s old new = s ∨ ∃ a b, s = a ++ old ++ b ∧ replaceFirst s old new = a ++ new ++ b := by
  induction s with
  | nil => exact .inl rfl
  | cons c s ih =>
    unfold replaceFirst
    split
    · rename_i h
      obtain ⟨t, ht⟩ := (hasPrefix_iff _ _).1 h
      refine .inr ⟨[], t, by rw [← ht]; rfl, ?_⟩
      rw [← ht]; simp
    · rcases ih with h | ⟨a, b, h1, h2⟩
      · exact .inl (by rw [h])
      · exact .inr ⟨c :: a, b, by rw [h1]; rfl, by rw [h2]; rfl⟩

theorem replaceFirst_plain {s old new : Str} (hs : 3 ≤ s.length ∧ '/' ∉ s) (hn : 3 ≤ new.length ∧ '/' ∉ new) :
    3 ≤ (replaceFirst s old new).length ∧ '/' ∉ replaceFirst s old new := by
  rcases replaceFirst_cases s old new with h | ⟨a, b, h1, h2⟩
  · rw [h]; exact hs
  · rw [h2]
    refine ⟨by simp; omega, ?_⟩
    have := hs.2
    rw [h1] at this
    simp only [List.mem_append, not_or] at this ⊢
    exact ⟨⟨this.1.1, hn.2⟩, this.2⟩

/-- The name of the built binary. -/
theorem built_name (hP : Places de q Scratch) {d : PkgDl} (hn : PlainNames d)
    (ht : ¬ (s%"tar.gz") <:+: (d.package.package ++ s%"_" ++ d.package.version)) {bbp : Str}
    (hb : binaryExtOs q.ie.platform.os (basePath (de.dest d)) q.ie.rPlatform = some bbp) :
    (3 ≤ bbp.length ∧ '/' ∉ bbp) ∧
      (resolveType de.platform d.config.type ≠ .binary → ∃ v, bbp = d.package.package ++ '_' :: v) := by
  obtain ⟨dir, v, h1, hv, h2⟩ := dest_shape hP hn
  have hbase : basePath (de.dest d) = d.package.package ++ '_' :: v := by rw [h1]; simp [basePath]
  rw [hbase] at hb
  refine ⟨?_, ?_⟩
  · have hlen : 3 ≤ (d.package.package ++ '_' :: v).length := by
      rcases h2 with h2 | h2
      · rw [h2.2.2]; simp [sourceName]; omega
      · have hd := dest_eq de d hP.shape hn hP.os
        rw [if_pos h2.1, h1, h2.2] at hd
        have hd' : binDir de d.config.repo ++ [d.package.package ++ '_' :: v] =
            binDir de d.config.repo ++ [cranBinaryName de.platform.os de.rhel d.package.package d.package.version] := by
          rw [hd]; simp [binDir]
        have := List.append_cancel_left hd'
        have hnm : d.package.package ++ '_' :: v = cranBinaryName de.platform.os de.rhel d.package.package d.package.version := by simpa using this
        rw [hnm]
        unfold cranBinaryName
        cases ho : de.platform.os with
        | other => exact absurd ho hP.os
        | darwin => simp; omega
        | windows => simp; omega
        | linux => dsimp only; split <;> simp <;> omega
    have hs : 3 ≤ (d.package.package ++ '_' :: v).length ∧ '/' ∉ (d.package.package ++ '_' :: v) := ⟨hlen, by simp [hn.2.1, hv]⟩
    unfold binaryExtOs at hb
    cases ho : q.ie.platform.os with
    | other => rw [ho] at hb; cases hb
    | darwin => rw [ho] at hb; rw [← Option.some.inj hb]; exact replaceFirst_plain hs (by decide)
    | windows => rw [ho] at hb; rw [← Option.some.inj hb]; exact replaceFirst_plain hs (by decide)
    | linux =>
      rw [ho] at hb; rw [← Option.some.inj hb]
      exact replaceFirst_plain hs ⟨by simp, by simp [hP.rPlatform]⟩
  · intro hty
    rcases h2 with h2 | h2
    · rw [h2.2.2, C44_names_agree_partial _ _ _ _ ht] at hb
      unfold binaryNameOs at hb
      cases ho : q.ie.platform.os with
      | other => rw [ho] at hb; cases hb
      | darwin => rw [ho] at hb; exact ⟨d.package.version ++ s%".tgz", by rw [← Option.some.inj hb]; simp⟩
      | windows => rw [ho] at hb; exact ⟨d.package.version ++ s%".zip", by rw [← Option.some.inj hb]; simp⟩
      | linux => rw [ho] at hb; exact ⟨d.package.version ++ s%"_R_" ++ q.ie.rPlatform ++ s%".tar.gz", by rw [← Option.some.inj hb]; simp⟩
    · exact absurd h2.1 hty

/-- Where a built binary is stored: beside the package file's directory. -/
theorem store_shape (hP : Places de q Scratch) {d : PkgDl} (hn : PlainNames d) {p bbp : Str}
    (hpath : (q.download p).path = .abs (de.dest d)) (hbbp : 3 ≤ bbp.length ∧ '/' ∉ bbp) :
    (resolveType de.platform d.config.type ≠ .binary → q.store p (q.tmp p ++ [bbp]) = binDir de d.config.repo ++ [bbp] ∧
      (q.storeDir p).length = de.base.length + 2) ∧
    (resolveType de.platform d.config.type = .binary → (q.store p (q.tmp p ++ [bbp])).length = de.base.length + 5 ∧
      (q.storeDir p).length = de.base.length + 3) ∧
    de.base <+: q.store p (q.tmp p ++ [bbp]) ∧ de.base <+: q.storeDir p := by
  obtain ⟨dir, v, h1, _, h2⟩ := dest_shape hP hn
  obtain ⟨b1, b2⟩ := rv_toStr q.ie.rv
  have hrd : repoDir q p = dir.dropLast := by
    unfold repoDir; rw [hpath, h1]; simp
  have hst : q.store p (q.tmp p ++ [bbp]) = dir.dropLast ++ [s%"binary", q.ie.rv.toStr, bbp] := by
    rw [store_eq, hrd]
    simp only [joinPaths, List.foldl_cons, List.foldl_nil]
    rw [joinPath_long _ (s%"binary") (by decide) (by decide), joinPath_long _ _ b1 b2, joinPath_long _ _ hbbp.1 hbbp.2]
    simp
  have hsd : q.storeDir p = dir.dropLast ++ [s%"binary"] := by rw [storeDir_eq, hrd]
  have hbase : de.base <+: dir.dropLast := by
    rcases h2 with h2 | h2
    · rw [h2.2.1]; unfold srcDir; exact ⟨[repoUrlHash de.digest d.config.repo], by simp [List.dropLast_append_of_ne_nil]⟩
    · rw [h2.2]; unfold binDir; exact ⟨[repoUrlHash de.digest d.config.repo, s%"binary"], by simp [List.dropLast_append_of_ne_nil]⟩
  refine ⟨?_, ?_, ?_, ?_⟩
  · intro hty
    rcases h2 with h2 | h2
    · rw [hst, hsd, h2.2.1]
      unfold srcDir binDir
      rw [hP.rv]
      simp [List.dropLast_append_of_ne_nil]
    · exact absurd h2.1 hty
  · intro hty
    rcases h2 with h2 | h2
    · exact absurd hty h2.1
    · rw [hst, hsd, h2.2]
      simp [binDir]
  · rw [hst]; exact hbase.trans (List.prefix_append _ _)
  · rw [hsd]; exact hbase.trans (List.prefix_append _ _)

/-- C118: the places of the cache are such that the installations do not get into each other's way (what
`C90_library`, `C91`, `C92` and `C110` suppose). -/
theorem C118_layout (hP : Places de q Scratch) (hG : GoodDownloads ip) (hK : Known de q ip) (hplan : Job.plan q.job = queued ip) :
    Layout q Scratch where
  tmpLib := hP.tmpLib
  tmpTmp := hP.tmpTmp
  scratch := hP.scratch
  ball := by
    intro p hp bbp hb
    rw [hplan] at hp ⊢
    obtain ⟨d, hd, rfl, hpath, hmeta⟩ := hK p hp
    obtain ⟨hn, ht⟩ := hG.plain d hd
    have hsrc : q.src d.package.package = de.dest d := by unfold QEnv.src; rw [hpath]; rfl
    rw [hsrc] at hb
    obtain ⟨hbb, hnm⟩ := built_name hP hn ht hb
    obtain ⟨s1, s2, s3, s4⟩ := store_shape hP hn hpath hbb
    refine ⟨joinPath_long _ _ hbb.1 hbb.2, safe_of_base hP s3, safe_of_base hP s4, ?_⟩
    intro p' hp'
    obtain ⟨d', hd', rfl, hpath', hmeta'⟩ := hK p' hp'
    have hn' := (hG.plain d' hd').1
    have hsrc' : q.src d'.package.package = de.dest d' := by unfold QEnv.src; rw [hpath']; rfl
    obtain ⟨dir', v', e1, _, e2⟩ := dest_shape hP hn'
    have huniq : d.package.package = d'.package.package → d = d' := fun h => List.inj_on_of_nodup_map hG.once hd hd' h
    refine ⟨?_, ?_⟩
    · rw [hsrc', e1]
      intro heq
      by_cases hty : resolveType de.platform d.config.type = .binary
      · have hl := congrArg List.length heq
        rw [(s2 hty).1] at hl
        rcases e2 with e2 | e2
        · rw [e2.2.1] at hl; simp [srcDir_length] at hl
        · rw [e2.2] at hl; simp [binDir_length] at hl
      · rw [(s1 hty).1] at heq
        rcases e2 with e2 | e2
        · have hl := congrArg List.length heq
          rw [e2.2.1] at hl; simp [srcDir_length, binDir_length] at hl
        · obtain ⟨v, rfl⟩ := hnm hty
          have := huniq (name_inj hn.2.2.2 hn'.2.2.2 heq)
          subst this
          exact hty e2.1
    · intro b hb'
      rw [hmeta', settled_cached] at hb'
      obtain ⟨w, hw, _⟩ := cached_shape hP hn' hb'
      have hbl : b.length = de.base.length + 4 := by rw [hw]; simp [binDir_length]
      refine ⟨?_, ?_⟩
      · rintro rfl
        by_cases hty : resolveType de.platform d.config.type = .binary
        · have := (s2 hty).2; omega
        · have := (s1 hty).2; omega
      · intro hne heq
        by_cases hty : resolveType de.platform d.config.type = .binary
        · have := (s2 hty).1; rw [← heq] at this; omega
        · obtain ⟨v, rfl⟩ := hnm hty
          rw [(s1 hty).1, hw] at heq
          exact hne (name_inj hn'.2.2.2 hn.2.2.2 heq).symm
  cached := by
    intro p hp p' hp' b hb hpre
    rw [hplan] at hp'
    obtain ⟨d', hd', rfl, hpath', hmeta'⟩ := hK p' hp'
    rw [hmeta', settled_cached] at hb
    obtain ⟨w, hw, _⟩ := cached_shape hP (hG.plain d' hd').1 hb
    exact (hP.cacheTmp p).1 (((binDir_base _).trans (by rw [hw]; exact List.prefix_append _ _)).trans hpre)

/-- Nothing but the directories and the destinations is ever written. -/
theorem dl_elsewhere {ds : List PkgDl} {s : DlState} (h : DlReach de ds fs s) :
    ∀ x, (∀ d ∈ ds, de.dest d ≠ x) → s.fs x = de.mkDirs fs ds x := by
  obtain ⟨evs, hrun⟩ := h
  refine dl_run_inv (fun s => ∀ x, (∀ d ∈ ds, de.dest d ≠ x) → s.fs x = de.mkDirs fs ds x) ?_ evs _ s ?_ hrun
  · intro s s' ev hs hst x hx
    unfold DlEnv.step at hst
    split at hst
    · cases hst
    · split at hst
      · split at hst
        · cases hst; exact hs x hx
        · cases hst
      · split at hst
        · cases hst; exact hs x hx
        · cases hst
      · split at hst
        · rename_i d _ hd
          cases hst
          have hne : x ≠ de.dest d := fun h => hx d (List.mem_of_getElem? hd) h.symm
          unfold DlEnv.finishStep
          dsimp only
          split
          · exact (download_other de _ _ _ _ hne).trans (hs x hx)
          · exact (download_other de _ _ _ _ hne).trans (hs x hx)
        · cases hst
      · split at hst
        · cases hst; exact hs x hx
        · cases hst
  · intro x _; rfl

theorem mkDirs_lib (hP : Places de q Scratch) (hG : GoodDownloads ip) {fs1 : Fs} {x : Path} (hx : q.lib <+: x) :
    de.mkDirs fs1 ip.downloads x = fs1 x := by
  have hr : ∀ r ∈ (getRepos ip.downloads).map Prod.snd, '/' ∉ r.name := by
    intro r hr
    obtain ⟨d, hd, rfl⟩ := mem_getRepos hr
    exact (hG.plain d hd).1.1
  rcases mkRepos_cases de hP.shape _ hr fs1 x with h | ⟨⟨r', _, h⟩, _, _⟩
  · exact h
  · exfalso
    have : ∀ y, de.base <+: y → x <+: y → False := by
      intro y hy hxy
      rcases List.prefix_or_prefix_of_prefix hy (hx.trans hxy) with h' | h'
      · exact hP.cacheLib.1 h'
      · exact hP.cacheLib.2 h'
    rcases h with h | h
    · exact this _ (srcDir_base _) h
    · exact this _ (binDir_base _) h

/-- C118: at no moment do the downloads touch the library. -/
theorem C118_downloads_spare_library (hP : Places de q Scratch) (hG : GoodDownloads ip) {fs1 st : Fs}
    (h : DlMoment de ip.downloads fs1 st) : SameIn q.lib fs1 st := by
  intro x hx
  have hm := mkDirs_lib hP hG (fs1 := fs1) hx
  have hnd : ∀ d ∈ ip.downloads, de.dest d ≠ x := by
    rintro d hd rfl
    rcases List.prefix_or_prefix_of_prefix (dest_base hP (hG.plain d hd).1) hx with h' | h'
    · exact hP.cacheLib.1 h'
    · exact hP.cacheLib.2 h'
  rcases h with h | ⟨s, hs, h⟩
  · rcases h x with h | h
    · exact h
    · exact h.trans hm
  · rcases h x with h | ⟨i, d, _, hd, hxd, _⟩
    · exact h.trans ((dl_elsewhere hs x hnd).trans hm)
    · exact absurd hxd.symm (hnd d (List.mem_of_getElem? hd))

/-- C118: downloads that return leave the files of the packages where the queue looks for them. -/
theorem C118_delivers (hP : Places de q Scratch) (hG : GoodDownloads ip) (hS : Stocked de q ip Holds fs)
    (hD : DownloadsAre e de ip q.download q.lib fs) (hK : Known de q ip) :
    Delivers e q ip Scratch Holds q.lib fs where
  there := by
    intro fs1 hs hout p hp
    obtain ⟨s, hr, hret, hfs, ht⟩ := hD.ended fs1 hs hout
    obtain ⟨d, hd, rfl, hpath, _⟩ := hK p hp
    obtain ⟨x, h1, h2⟩ := (delivered hP hG (hS.of_same hP hG hs) hr hret ht).2 d hd
    refine ⟨x, ?_, h2⟩
    rw [← hfs]
    have : q.src d.package.package = de.dest d := by unfold QEnv.src; rw [hpath]; rfl
    rw [this, h1]
  binaries := by
    intro fs1 hs hout p hp b n hb hn
    obtain ⟨s, hr, hret, hfs, ht⟩ := hD.ended fs1 hs hout
    obtain ⟨d, hd, rfl, hpath, hmeta⟩ := hK p hp
    have hS1 := hS.of_same hP hG hs
    rw [hmeta, settled_cached] at hb
    rw [← hfs] at hn
    obtain ⟨w, hw, _⟩ := cached_shape hP (hG.plain d hd).1 hb
    by_cases hx : ∀ d' ∈ ip.downloads, de.dest d' ≠ b
    · rw [dl_elsewhere hr b hx, hw, mkDirs_file hP hG fs1 (.inr rfl), ← hw] at hn
      exact hS1.binaries d hd b n hb hn
    · have : ∃ d' ∈ ip.downloads, de.dest d' = b := by
        apply Classical.byContradiction
        intro hc
        exact hx fun d' hd' he => hc ⟨d', hd', he⟩
      obtain ⟨d', hd', he⟩ := this
      obtain ⟨dir', v', e1, _, _⟩ := dest_shape hP (hG.plain d' hd').1
      have hname : d'.package.package = d.package.package := by
        refine name_inj (hG.plain d' hd').1.2.2.2 (hG.plain d hd).1.2.2.2 (v := v') (v' := w) (dir := dir') (dir' := binDir de d.config.repo) ?_
        rw [← e1, ← hw, he]
      obtain ⟨x, h1, h2⟩ := (delivered hP hG hS1 hr hret ht).2 d' hd'
      rw [he, hn] at h1
      exact ⟨x, Option.some.inj h1, hname ▸ h2⟩
  safe := by
    intro p hp
    obtain ⟨d, hd, rfl, hpath, _⟩ := hK p hp
    have : q.src d.package.package = de.dest d := by unfold QEnv.src; rw [hpath]; rfl
    rw [this]
    exact safe_of_base hP (dest_base hP (hG.plain d hd).1)
  cached := by
    intro p hp b hb
    obtain ⟨d, hd, rfl, hpath, hmeta⟩ := hK p hp
    rw [hmeta, settled_cached] at hb
    obtain ⟨w, hw, _⟩ := cached_shape hP (hG.plain d hd).1 hb
    exact safe_of_base hP ((binDir_base _).trans (by rw [hw]; exact List.prefix_append _ _))

theorem Spec.QueueRuns.plan (hq : QueueRuns e q cfg.lib ip Scratch Complete Holds) : Job.plan q.job = queued ip := by
  obtain ⟨n, t, ρ, hj⟩ := hq.job
  rw [hj]
  rfl

/-- C118: `pkgr install` from the downloads to the library.  The downloads are some execution of the concurrent
downloader, the installations some execution of the queue, in any interleaving; what is in the cache is what it should
be and the repositories deliver the rest completely.  Then a run that reports no failure leaves every package of the
plan completely installed; those that were installed and are not replaced are as they were; no backup is left; and
nothing else in the library has changed but R's locks. -/
theorem C118_install (hq : QueueRuns e q cfg.lib ip Scratch Complete Holds) (hD : DownloadsAre e de ip q.download cfg.lib fs)
    (hP : Places de q Scratch) (hG : GoodDownloads ip) (hS : Stocked de q ip Holds fs) (ha : Outside e cfg.lib)
    (hd : NoFaults e.disk) (hn : GoodNames ip) (hp : PlanOK ip pre) (ho : InOrder cfg.lib ip pre fs)
    (hwhole : ∀ p ∈ queued ip, GoMap.has pre p = true → ¬ Replaced cfg ip p → Complete p (contentOf fs cfg.lib p))
    (hR : Installs e.ie.R Complete Unpacked)
    (htar : ∀ t ∈ tarballs ip, ∀ st ∈ (e.rInstall cfg ip pre fs).1.states, TarballThere e ip Unpacked st t)
    (hok : (e.rInstall cfg ip pre fs).2 = .exit0 false) :
    (∀ p ∈ members ip, Complete p (contentOf (e.rInstall cfg ip pre fs).1.fs cfg.lib p)) ∧
    (∀ p ∈ members ip, GoMap.has pre p = true → ¬ Replaced cfg ip p → Intact cfg.lib fs (e.rInstall cfg ip pre fs).1.fs p) ∧
    (∀ p ∈ members ip, Gone cfg.lib (e.rInstall cfg ip pre fs).1.fs (backupName p)) ∧
    (∀ n r, n ∉ members ip → ¬ IsLock n → (e.rInstall cfg ip pre fs).1.fs (cfg.lib ++ n :: r) = fs (cfg.lib ++ n :: r) ∨
      ∃ p ∈ members ip, n = backupName p) := by
  have hlib := hq.library
  have hD' := hD
  rw [← hlib] at hD'
  obtain ⟨hl, hph, _⟩ := run_ok hn ha.order hok
  have hout := (phases_ok hph).1
  have helse := afterTag_elsewhere (e := e) (cfg := cfg) (ip := ip) (pre := pre) (fs := fs) hn ha.order hl
  rw [← hlib] at helse
  obtain ⟨s, hr, hret, _, ht⟩ := hD'.ended _ helse hout
  have hK := (delivered hP hG (hS.of_same hP hG helse) hr hret ht).1
  have hdel := C118_delivers hP hG hS hD' hK
  rw [hlib] at hdel
  have hqi : QueueIs e q cfg.lib ip Scratch Complete Holds :=
    ⟨hq.job, hq.library, hq.wf, C118_layout hP hG hK hq.plan, hq.contract, hq.moments, hq.ended⟩
  have har : Around e cfg.lib :=
    ⟨fun fs1 st hst => by rw [← hlib]; exact C118_downloads_spare_library hP hG (hD.moments fs1 st hst), ha.R, ha.during, ha.removal, ha.order⟩
  obtain ⟨h1, h2, _, h4, h5⟩ := C110_success hqi har hd hn hp ho hdel hwhole hR htar hok
  exact ⟨h1, h2, h4, h5⟩

/-- C118: the plans that pkgr makes name one download for every package they install. -/
theorem C118_plan {cfg : PlanCfg} {nx nx' : Nexus} {installed : GoMap Desc} {libEx : Bool}
    {tb ds : List Desc} {add : GoMap AdditionalPkg} {ρ ρ' ρ'' : Order} {req : List Str} {ip : InstallPlan}
    (hk : Keyed nx) (hR : NoR nx) (hρ : ρ''.Fair)
    (h : planInstall cfg nx installed libEx tb ds add ρ ρ' ρ'' = .planned req nx' ip)
    (hplain : ∀ d ∈ ip.downloads, PlainNames d ∧ ¬ (s%"tar.gz") <:+: (d.package.package ++ s%"_" ++ d.package.version))
    (hurl : ∀ d ∈ ip.downloads, ∀ d' ∈ ip.downloads, d.config.repo.name = d'.config.repo.name → d.config.repo.url = d'.config.repo.url) :
    GoodDownloads ip := by
  obtain ⟨h1, _⟩ := C26_downloads hk hR hρ h
  have hnd := (C19_plan_packages hk hR hρ h).elim fun _ hc => hc.2.2
  refine ⟨?_, h1.nodup_iff.2 hnd, hplain, hurl⟩
  intro p hp
  obtain ⟨d, hd, he⟩ := List.mem_map.1 (h1.mem_iff.2 hp)
  exact ⟨d, hd, he⟩

/-! ### A run

`b` depends on `a`, which is installed; the package file of `a` is in the cache, that of `b` is delivered. -/

/-- see above -/
def realDl (p : Str) : PkgDl :=
  { config := { type := .source, repo := { url := s%"u", name := s%"r" } }, package := { package := p, version := s%"1" } }

/-- see above -/
def realPlan : InstallPlan := { starting := [s%"a"], depDb := [(s%"b", [s%"a"])], downloads := [realDl (s%"a"), realDl (s%"b")] }

/-- see above -/
def realPre : GoMap Desc := [(s%"a", { package := s%"a", version := s%"1" })]

/-- see above -/
def realDe : DlEnv :=
  { server := fun _ => .body (s%"code") true, digest := fun _ => s%"0123456789ab", platform := { os := .darwin },
    rv := { major := 4, minor := 1, patch := 0 }, base := [s%"cache"] }

/-- see above -/
def realFs : Fs := fun q =>
  if q = [s%"lib", s%"a"] ∨ q = [s%"lib"] ∨ q = [s%"w"] then some .dir
  else if q = [s%"cache", s%"r-0123456789ab", s%"src", s%"a_1.tar.gz"] then some (.file (s%"code"))
  else none

/-- see above -/
def realEvents : List DlEvent := [.spawn, .acquire 0, .spawn, .acquire 1, .finish 1, .finish 0, .ret]

/-- The downloads. -/
def realD : DlState :=
  (realDe.run realPlan.downloads (realDe.init realFs realPlan.downloads) realEvents).getD (realDe.init realFs [])

theorem realD_reach : DlReach realDe realPlan.downloads realFs realD := ⟨realEvents, by rfl⟩

/-- see above -/
def realQ : QEnv :=
  { toyQ with
    ie := { toyQ.ie with digest := fun _ => s%"0123456789ab" }
    download := fun p => (GoMap.get? realD.result p).getD {} }

def realS1 : QState := (realQ.execs (realQ.init realD.fs) toyQ1).getD (realQ.init realD.fs)
def realW1 : Fs := (realS1.fs.set [s%"tmp", s%"b", s%"b"] .dir).set [s%"tmp", s%"b", s%"b_1.tgz"] (.file (s%"bin"))
def realS1' : QState := (realS1.work 0 realW1 (.inR .build)).work 0 realW1 (afterR .build .ok)
def realS2 : QState := (realQ.execs realS1' toyQ2).getD realS1'
def realW2 : Fs := realS2.fs.set [s%"lib", s%"b"] .dir
def realS2' : QState := (realS2.work 0 realW2 (.inR toyPass)).work 0 realW2 (afterR toyPass .ok)
def realS3 : QState := (realQ.execs realS2' toyQ3).getD realS2'

theorem realS1_reach : QReach realQ realD.fs realS1 := execs_reach (evs := toyQ1) (by rfl)

theorem realS2_reach : QReach realQ realD.fs realS2 := by
  refine (realS1_reach.trans ?_).trans (execs_reach (evs := toyQ2) (s := realS1') (by rfl))
  refine .head (.rWrite realS1 0 (s%"b") .build realW1 rfl rfl rfl ?_) (.single (.rExit _ 0 (s%"b") .build .ok rfl rfl rfl ?_))
  · intro q hq
    refine .inr (.inr ⟨rfl, ?_⟩)
    apply Classical.byContradiction
    intro hn
    apply hq
    unfold realW1 Fs.set
    rw [if_neg, if_neg]
    · rintro rfl; exact hn (by decide)
    · rintro rfl; exact hn (by decide)
  · intro _ _; exact ⟨rfl, toyBuilt_bin rfl rfl rfl⟩

theorem realS3_reach : QReach realQ realD.fs realS3 := by
  refine (realS2_reach.trans ?_).trans (execs_reach (evs := toyQ3) (s := realS2') (by rfl))
  refine .head (.rWrite realS2 0 (s%"b") toyPass realW2 rfl rfl rfl ?_) (.single (.rExit _ 0 (s%"b") toyPass .ok rfl rfl rfl ?_))
  · intro q hq
    refine .inl ?_
    apply Classical.byContradiction
    intro hn
    apply hq
    unfold realW2 Fs.set
    rw [if_neg]
    rintro rfl; exact hn (by decide)
  · intro _ _; exact ⟨rfl, fun h => by cases h⟩

/-- The downloads: the execution above when they begin with these files, else they die at once. -/
noncomputable def realDownload (fs : Fs) : Phase :=
  open Classical in if fs = realFs then { fs := realD.fs, out := .ok } else { fs := fs, out := .dead }

/-- The queue likewise. -/
noncomputable def realQueue (fs : Fs) : Phase :=
  open Classical in if fs = realD.fs then { mid := [realS1.fs, realS2.fs], fs := realS3.fs, out := .ok } else { fs := fs, out := .failed }

/-- see above -/
noncomputable def realRun : RunEnv :=
  { disk := { renameFails := fun _ _ _ => false, removing := fun _ _ => ([], false) }
    ρ := fun _ l => l
    mkdirFails := fun _ => false
    download := realDownload
    planned := realQueue
    ie := { toyEnv true with R := wholeR }
    during := fun _ _ => [] }

theorem real_ok : (realRun.rInstall { lib := [s%"lib"] } realPlan realPre realFs).2 = .exit0 false := by
  have h1 : realRun.ensureLibrary { lib := [s%"lib"] } realPlan realFs = ({ fs := realFs }, true) := rfl
  have h2 : (realRun.phases { lib := [s%"lib"] } realPlan { fs := realFs }).2 = .ok := by
    unfold RunEnv.phases
    have e1 : realRun.download realFs = { fs := realD.fs, out := .ok } := if_pos rfl
    have e2 : realRun.planned realD.fs = { mid := [realS1.fs, realS2.fs], fs := realS3.fs, out := .ok } := if_pos rfl
    dsimp only [World.move]
    rw [e1]
    dsimp only
    rw [e2]
    rfl
  unfold RunEnv.rInstall
  rw [h1]
  dsimp only
  rw [if_neg (by decide)]
  have h3 : realRun.tag { lib := [s%"lib"] } { fs := realFs } (createRollbackPlan [s%"lib"] realPlan realPre realRun.ρ) =
      ({ fs := realFs }, createRollbackPlan [s%"lib"] realPlan realPre realRun.ρ) := rfl
  unfold RunEnv.body
  dsimp only
  rw [h3]
  dsimp only
  rw [h2]
  rfl

/-- Non-vacuity of C118: all hypotheses are met by this run. -/
example : QueueRuns realRun realQ [s%"lib"] realPlan (fun _ => False) ToyComplete ToyHolds ∧
    DownloadsAre realRun realDe realPlan realQ.download [s%"lib"] realFs ∧ Places realDe realQ (fun _ => False) ∧
    GoodDownloads realPlan ∧ Stocked realDe realQ realPlan ToyHolds realFs ∧ Outside realRun [s%"lib"] ∧
    NoFaults realRun.disk ∧ GoodNames realPlan ∧ PlanOK realPlan realPre ∧ InOrder [s%"lib"] realPlan realPre realFs ∧
    (∀ p ∈ queued realPlan, GoMap.has realPre p = true → ToyComplete p (contentOf realFs [s%"lib"] p)) ∧
    Installs realRun.ie.R ToyComplete WholeUnpacked ∧ tarballs realPlan = [] ∧
    (realRun.rInstall { lib := [s%"lib"] } realPlan realPre realFs).2 = .exit0 false := by
  have hmem : ∀ {p : Str}, p ∈ members realPlan → p = s%"a" ∨ p = s%"b" := by
    intro p hp; simpa [realPlan, members, queued, tarballs, GoMap.keys] using hp
  have hds : ∀ {d : PkgDl}, d ∈ realPlan.downloads → d = realDl (s%"a") ∨ d = realDl (s%"b") := by
    intro d hd; simpa [realPlan] using hd
  refine ⟨?_, ?_, ?_, ?_, ?_, ?_, ⟨fun _ _ _ => rfl, fun _ _ => rfl⟩, ?_, ⟨by decide, by decide, by decide, by decide⟩, ?_, ?_, ?_, rfl, real_ok⟩
  · refine ⟨⟨1, 0, fun _ l => l, by decide⟩, rfl, toyQ_wf, ?_, ?_, ?_⟩
    · exact ⟨toyQ_contract.confined, toyQ_contract.installs, toyQ_contract.builds, toyQ_contract.isDir, fun p hp k => by
        rcases toyQ_plan hp with rfl | rfl <;>
          exact stampOf_plain (plainStamp_of (by decide +kernel) (by decide +kernel)) (plainStamp_of (by decide +kernel) (by decide +kernel)) k,
        toyQ_contract.stamp⟩
    · intro fs st hst
      change st ∈ (realQueue fs).mid ++ [(realQueue fs).fs] at hst
      unfold realQueue at hst
      split at hst
      · rename_i h
        rw [h]
        have : st = realS1.fs ∨ st = realS2.fs ∨ st = realS3.fs := by simpa using hst
        rcases this with rfl | rfl | rfl
        · exact ⟨_, realS1_reach, rfl⟩
        · exact ⟨_, realS2_reach, rfl⟩
        · exact ⟨_, realS3_reach, rfl⟩
      · have : st = fs := by simpa using hst
        rw [this]
        exact ⟨_, .refl, rfl⟩
    · intro fs h
      change (realQueue fs).out = .ok at h
      show ∃ s, QReach realQ fs s ∧ s.fs = (realQueue fs).fs ∧ s.run.ret = some .nil
      unfold realQueue at h ⊢
      split at h
      · rename_i hh
        rw [if_pos hh, hh]
        exact ⟨_, realS3_reach, rfl, rfl⟩
      · simp at h
  · refine ⟨?_, ?_⟩
    · intro fs st hst
      change st ∈ (realDownload fs).mid ++ [(realDownload fs).fs] at hst
      unfold realDownload at hst
      split at hst
      · rename_i h
        have : st = realD.fs := by simpa using hst
        rw [this, h]
        exact .inr ⟨realD, realD_reach, fun x => .inl rfl⟩
      · have : st = fs := by simpa using hst
        rw [this]
        exact .inl fun x => .inl rfl
    · intro fs _ h
      change (realDownload fs).out = .ok at h
      show ∃ s, DlReach realDe realPlan.downloads fs s ∧ s.returned = true ∧ s.fs = (realDownload fs).fs ∧ _
      unfold realDownload at h ⊢
      split at h
      · rename_i hh
        rw [if_pos hh, hh]
        exact ⟨realD, realD_reach, rfl, rfl, fun p => rfl⟩
      · simp at h
  · refine ⟨rfl, rfl, rfl, rfl, fun _ => ⟨rfl, by show '/' ∉ s%"0123456789ab"; decide⟩, by decide, by decide, by decide, ?_, fun _ h => h.elim, ?_, ?_, fun _ h => h.elim⟩
    · intro p; constructor <;> simp [realDe, realQ, toyQ]
    · intro p; constructor <;> simp [realQ, toyQ]
    · intro p _ q _ h; constructor <;> simp [realQ, toyQ, h, Ne.symm h]
  · refine ⟨?_, by decide, ?_, ?_⟩
    · intro p hp
      rcases hmem (List.mem_append_left _ hp) with rfl | rfl
      · exact ⟨realDl (s%"a"), by decide, rfl⟩
      · exact ⟨realDl (s%"b"), by decide, rfl⟩
    · intro d hd
      rcases hds hd with rfl | rfl <;> exact ⟨by decide, by decide⟩
    · intro d hd d' hd' _
      rcases hds hd with rfl | rfl <;> rcases hds hd' with rfl | rfl <;> rfl
  · refine ⟨?_, ?_, ?_, ?_⟩
    · intro d hd x hx _ c hc
      have hdir : x <+: [s%"cache", s%"r-0123456789ab", s%"src"] := by
        rename_i hx'
        rcases hds hd with rfl | rfl <;> exact hx'
      have hl := hdir.length_le
      unfold realFs at hc
      split at hc
      · cases hc
      · split at hc
        · rename_i h
          rw [h] at hl
          simp at hl
        · cases hc
    · intro d hd n hn
      rcases hds hd with rfl | rfl
      · refine ⟨s%"code", ?_, by simp [ToyHolds]⟩
        have h0 : realFs (realDe.dest (realDl (s%"a"))) = some (.file (s%"code")) := by decide
        rw [h0] at hn
        exact (Option.some.inj hn).symm
      · have h0 : realFs (realDe.dest (realDl (s%"b"))) = none := by decide
        rw [h0] at hn; cases hn
    · intro d hd _
      exact ⟨s%"code", rfl, by simp [ToyHolds]⟩
    · intro d hd b n hb hn
      rcases hds hd with rfl | rfl <;>
      · have hb' := Option.some.inj hb
        rw [← hb'] at hn
        exact absurd hn (by rw [show realFs _ = none from rfl]; simp)
  · exact ⟨whole_around.R, by intro n fs st h; simp [realRun] at h, by intro fs p st h; simp [realRun] at h, fun _ l => List.Perm.refl l⟩
  · intro p hp
    rcases hmem hp with rfl | rfl <;> decide
  · refine ⟨by decide, ?_, ?_⟩
    · intro p hp h r
      rcases hmem hp with rfl | rfl
      · exact absurd h (by decide)
      · simp [realFs]
    · intro p hp r
      rcases hmem hp with rfl | rfl <;> simp [realFs, backupName]
  · intro p hp h
    rcases hmem (List.mem_append_left _ hp) with rfl | rfl
    · show realFs _ = _
      decide
    · exact absurd h (by decide)
  · intro c fs h _
    change (wholeR c fs).2 = .ok at h
    show (wholeR c fs).1 (c.lib ++ c.pkg :: []) = some .dir
    unfold wholeR at h ⊢
    split at h
    · rename_i hc
      rw [if_pos hc, hc]
      simp
    · simp at h

end Pkgr
