/- Lemmas for C45-C47. -/
import Verif.Spec.Download
import Verif.Proof.Install
import Verif.Proof.RepoDb
import Verif.Proof.Sched

namespace Pkgr
open Spec

theorem rv_toStr (rv : RVersion) : 3 ≤ rv.toStr.length ∧ '/' ∉ rv.toStr := by
  obtain ⟨⟨h1, h2⟩, _⟩ := isNumeral_natStr rv.major
  obtain ⟨⟨h3, h4⟩, _⟩ := isNumeral_natStr rv.minor
  have l1 := List.length_pos_iff.2 h1
  have l2 := List.length_pos_iff.2 h3
  have e0 : '0'.toNat = 48 := rfl
  have e9 : '/'.toNat = 47 := rfl
  refine ⟨by simp only [RVersion.toStr, List.length_append, List.length_cons]; omega, ?_⟩
  simp only [RVersion.toStr, List.mem_append, List.mem_cons, not_or]
  refine ⟨fun h => ?_, by decide, fun h => ?_⟩
  · have := h2 _ h; omega
  · have := h4 _ h; omega

theorem hash_shape {digest : Str → Str} (hd : DigestShape digest) (r : RepoURL) (hr : '/' ∉ r.name) :
    3 ≤ (repoUrlHash digest r).length ∧ '/' ∉ repoUrlHash digest r := by
  obtain ⟨h1, h2⟩ := hd r.url
  refine ⟨by simp [repoUrlHash, h1], by simp [repoUrlHash, h2, hr]⟩

theorem hash_inj {digest : Str → Str} (hd : DigestShape digest) {r r' : RepoURL}
    (h : repoUrlHash digest r = repoUrlHash digest r') : r.name = r'.name ∧ digest r.url = digest r'.url := by
  unfold repoUrlHash at h
  have hl : (digest r.url).length = (digest r'.url).length := by rw [(hd _).1, (hd _).1]
  have h1 := List.append_inj' h hl
  exact ⟨List.append_cancel_right h1.1, h1.2⟩

/-- The path of a download, component by component. -/
theorem dest_eq (e : DlEnv) (d : PkgDl) (hd : DigestShape e.digest) (hn : PlainNames d) (hos : e.platform.os ≠ .other) :
    e.dest d = e.base ++ (if resolveType e.platform d.config.type = .binary then
      [repoUrlHash e.digest d.config.repo, s%"binary", e.rv.toStr,
        cranBinaryName e.platform.os e.rhel d.package.package d.package.version]
      else [repoUrlHash e.digest d.config.repo, s%"src", sourceName d.package.package d.package.version]) := by
  obtain ⟨n1, n2, n3, n4⟩ := hn
  obtain ⟨a1, a2⟩ := hash_shape hd d.config.repo n1
  obtain ⟨b1, b2⟩ := rv_toStr e.rv
  have hs : 3 ≤ (sourceName d.package.package d.package.version).length ∧
      '/' ∉ sourceName d.package.package d.package.version := by
    refine ⟨by simp [sourceName]; omega, by simp [sourceName, n2, n3]⟩
  have hb : 3 ≤ (cranBinaryName e.platform.os e.rhel d.package.package d.package.version).length ∧
      '/' ∉ cranBinaryName e.platform.os e.rhel d.package.package d.package.version := by
    unfold cranBinaryName
    cases ho : e.platform.os with
    | other => exact absurd ho hos
    | darwin => refine ⟨by simp; omega, by simp [n2, n3]⟩
    | windows => refine ⟨by simp; omega, by simp [n2, n3]⟩
    | linux => dsimp only; split <;> exact ⟨by simp; omega, by simp [n2, n3]⟩
  unfold DlEnv.dest
  dsimp only
  cases hr : resolveType e.platform d.config.type <;>
    simp only [joinPaths, List.foldl_cons, List.foldl_nil, reduceCtorEq, if_true, if_false]
  · rw [joinPath_long _ _ a1 a2, joinPath_long _ (s%"src") (by decide) (by decide), joinPath_long _ _ hs.1 hs.2]
    simp
  · rw [joinPath_long _ _ a1 a2, joinPath_long _ (s%"src") (by decide) (by decide), joinPath_long _ _ hs.1 hs.2]
    simp
  · rw [joinPath_long _ _ a1 a2, joinPath_long _ (s%"binary") (by decide) (by decide), joinPath_long _ _ b1 b2,
      joinPath_long _ _ hb.1 hb.2]
    simp

/-- `pkg_version` determines both parts when the package name has no underscore. -/
theorem underscore_inj {p p' v v' : Str} (h : p ++ '_' :: v = p' ++ '_' :: v') (hp : '_' ∉ p) (hp' : '_' ∉ p') :
    p = p' ∧ v = v' := by
  induction p generalizing p' with
  | nil =>
    cases p' with
    | nil => simpa using h
    | cons c p' =>
      simp only [List.nil_append, List.cons_append, List.cons.injEq] at h
      exact absurd (by rw [← h.1]; simp) hp'
  | cons c p ih =>
    cases p' with
    | nil =>
      simp only [List.nil_append, List.cons_append, List.cons.injEq] at h
      exact absurd (by rw [h.1]; simp) hp
    | cons c' p' =>
      simp only [List.cons_append, List.cons.injEq] at h
      have := ih h.2 (fun hc => hp (List.mem_cons_of_mem _ hc)) (fun hc => hp' (List.mem_cons_of_mem _ hc))
      exact ⟨by rw [h.1, this.1], this.2⟩

theorem sourceName_inj {p p' v v' : Str} (h : sourceName p v = sourceName p' v') (hp : '_' ∉ p) (hp' : '_' ∉ p') :
    p = p' ∧ v = v' := by
  unfold sourceName at h
  have h1 := List.append_cancel_right h
  exact underscore_inj (by simpa using h1) hp hp'

theorem cranBinaryName_inj {os : OS} {rh : Bool} {p p' v v' : Str} (hos : os ≠ .other)
    (h : cranBinaryName os rh p v = cranBinaryName os rh p' v') (hp : '_' ∉ p) (hp' : '_' ∉ p') :
    p = p' ∧ v = v' := by
  unfold cranBinaryName at h
  cases os with
  | other => exact absurd rfl hos
  | darwin => exact underscore_inj (by simpa using List.append_cancel_right h) hp hp'
  | windows => exact underscore_inj (by simpa using List.append_cancel_right h) hp hp'
  | linux =>
    dsimp only at h
    split at h
    · exact underscore_inj (by simpa using List.append_cancel_right h) hp hp'
    · exact underscore_inj (by simpa using List.append_cancel_right h) hp hp'

/-! ### One download -/

theorem download_other (e : DlEnv) (fs : Fs) (d : PkgDl) (dest p : Path) (h : p ≠ dest) :
    (e.downloadPackage fs d dest).1 p = fs p := by
  unfold DlEnv.downloadPackage
  split
  · rfl
  · split <;> try rfl
    split
    · rfl
    · split <;> simp [Fs.set, h]

theorem download_isDir (e : DlEnv) (fs : Fs) (d : PkgDl) (dest p : Path) :
    (e.downloadPackage fs d dest).1.isDir p = fs.isDir p := by
  unfold DlEnv.downloadPackage
  split
  · rfl
  · rename_i hex
    split <;> try rfl
    split
    · rfl
    · have : ∀ c, (fs.set dest (.file c)).isDir p = fs.isDir p := by
        intro c
        unfold Fs.isDir Fs.set
        split
        · rename_i hp
          subst hp
          have : fs p = none := by simpa [Fs.ex] using hex
          simp [this]
        · rfl
      split <;> exact this _

/-- The outcome depends only on the destination and on which paths are directories. -/
theorem download_local (e : DlEnv) (fs fs' : Fs) (d : PkgDl) (dest : Path) (h1 : fs dest = fs' dest)
    (h2 : ∀ p, fs.isDir p = fs'.isDir p) :
    (e.downloadPackage fs d dest).2 = (e.downloadPackage fs' d dest).2 ∧
    (e.downloadPackage fs d dest).1 dest = (e.downloadPackage fs' d dest).1 dest := by
  have hex : fs.ex dest = fs'.ex dest := by simp [Fs.ex, h1]
  unfold DlEnv.downloadPackage
  rw [hex]
  split
  · exact ⟨rfl, h1⟩
  · cases e.server (e.url d dest) with
    | netError => exact ⟨rfl, h1⟩
    | badStatus => exact ⟨rfl, h1⟩
    | noLocalFile => exact ⟨rfl, h1⟩
    | body c comp =>
      dsimp only
      rw [h2]
      split
      · exact ⟨rfl, h1⟩
      · split <;> exact ⟨rfl, by simp [Fs.set]⟩

/-! ### Invariants of the concurrent downloads -/

/-- Counters. -/
structure DlCount (ds : List PkgDl) (s : DlState) : Prop where
  len : s.phases.length ≤ ds.length
  sem : s.phases.count .holding ≤ semCap
  wg : s.dead = false → s.wg = (s.phases.count .waiting : Int) + s.phases.count .holding
  ret : s.returned = true → s.dead = false ∧ s.phases.length = ds.length ∧ s.wg = 0

theorem dlCount_init (e : DlEnv) (fs : Fs) (ds : List PkgDl) : DlCount ds (e.init fs ds) :=
  ⟨by simp [DlEnv.init], by simp [DlEnv.init], by simp [DlEnv.init], by simp [DlEnv.init]⟩

theorem dlCount_step {e : DlEnv} {ds : List PkgDl} {s s' : DlState} {ev : DlEvent} (h : DlCount ds s)
    (hs : e.step ds s ev = some s') : DlCount ds s' := by
  obtain ⟨h1, h2, h3, h4⟩ := h
  unfold DlEnv.step at hs
  split at hs
  · simp at hs
  rename_i hd
  have hdead : s.dead = false := by cases h : s.dead <;> simp [h] at hd ⊢
  have hret : s.returned = false := by cases h : s.returned <;> simp [h] at hd ⊢
  have hwg := h3 hdead
  cases ev with
  | spawn =>
    dsimp only at hs
    split at hs <;> simp only [Option.some.injEq, reduceCtorEq] at hs
    subst hs
    refine ⟨by simp only [List.length_append, List.length_singleton]; omega, by simpa [List.count_append] using h2, ?_, ?_⟩
    · intro _
      simp only [List.count_append, List.count_singleton]
      simp
      omega
    · intro h; simp [hret] at h
  | acquire i =>
    dsimp only at hs
    split at hs <;> simp only [Option.some.injEq, reduceCtorEq] at hs
    rename_i hc
    subst hs
    have c1 := count_set_eq DlPhase.holding .holding hc.1
    have c2 := count_set_eq DlPhase.waiting .holding hc.1
    simp at c1 c2
    refine ⟨by simpa using h1, by show (s.phases.set i .holding).count .holding ≤ semCap; omega, ?_, ?_⟩
    · intro _
      show s.wg = ((s.phases.set i .holding).count .waiting : Int) + (s.phases.set i .holding).count .holding
      omega
    · intro h; simp [hret] at h
  | finish i =>
    dsimp only at hs
    split at hs <;> simp only [Option.some.injEq, reduceCtorEq] at hs
    rename_i d hph hdd
    subst hs
    unfold DlEnv.finishStep
    dsimp only
    have c1 := count_set_eq DlPhase.holding .done hph
    have c2 := count_set_eq DlPhase.waiting .done hph
    simp at c1 c2
    split
    · exact ⟨h1, h2, fun h => by simp at h, fun h => by simp [hret] at h⟩
    · refine ⟨by simpa using h1, by show (s.phases.set i .done).count .holding ≤ semCap; omega, ?_, ?_⟩
      · intro _
        show s.wg - 1 = ((s.phases.set i .done).count .waiting : Int) + (s.phases.set i .done).count .holding
        omega
      · intro h; simp [hret] at h
  | ret =>
    dsimp only at hs
    split at hs <;> simp only [Option.some.injEq, reduceCtorEq] at hs
    rename_i hc
    subst hs
    exact ⟨h1, h2, h3, fun _ => ⟨hdead, hc.1, hc.2⟩⟩

theorem dl_run_inv {e : DlEnv} {ds : List PkgDl} (P : DlState → Prop)
    (hstep : ∀ s s' ev, P s → e.step ds s ev = some s' → P s') :
    ∀ evs s s', P s → e.run ds s evs = some s' → P s' := by
  intro evs
  induction evs with
  | nil => intro s s' h hr; simp [DlEnv.run] at hr; exact hr ▸ h
  | cons ev evs ih =>
    intro s s' h hr
    unfold DlEnv.run at hr
    split at hr
    · simp at hr
    · rename_i s1 h1
      exact ih s1 s' (hstep _ _ _ h h1) hr

theorem dlCount_reach {e : DlEnv} {ds : List PkgDl} {fs : Fs} {s : DlState} (h : DlReach e ds fs s) : DlCount ds s := by
  obtain ⟨evs, hr⟩ := h
  exact dl_run_inv (DlCount ds) (fun _ _ _ => dlCount_step) evs _ _ (dlCount_init e fs ds) hr

/-- Contents. -/
structure DlData (e : DlEnv) (ds : List PkgDl) (fs : Fs) (s : DlState) : Prop where
  dirs : ∀ p, s.fs.isDir p = (e.mkDirs fs ds).isDir p
  pending : ∀ (i : Nat) (d : PkgDl), ds[i]? = some d → s.phases[i]? ≠ some DlPhase.done →
    s.fs (e.dest d) = (e.mkDirs fs ds) (e.dest d) ∧ GoMap.get? s.result d.package.package = none
  finished : ∀ (i : Nat) (d : PkgDl), ds[i]? = some d → s.phases[i]? = some DlPhase.done →
    s.fs (e.dest d) = (alone e ds fs d).1 (e.dest d) ∧
    GoMap.get? s.result d.package.package = entryOf (alone e ds fs d).2
  rest : ∀ p, (∀ d ∈ ds, e.dest d ≠ p) → s.fs p = (e.mkDirs fs ds) p
  keys : ∀ k, (∀ d ∈ ds, d.package.package ≠ k) → GoMap.get? s.result k = none

theorem get?_storeResult (m : GoMap Download) (name k : Str) (r : DlResult) (h : GoMap.get? m name = none) :
    GoMap.get? (storeResult m name r) k = if k = name then entryOf r else GoMap.get? m k := by
  unfold storeResult entryOf
  cases r with
  | ok dl =>
    simp only [GoMap.get?_put]
  | err => dsimp only; split <;> simp_all
  | fatal => dsimp only; split <;> simp_all

theorem nodup_getElem_inj {α : Type} {l : List α} (h : l.Nodup) {i j : Nat} {hi : i < l.length} {hj : j < l.length} :
    l[i] = l[j] ↔ i = j := by
  constructor
  · intro he
    by_contra hne
    rcases Nat.lt_or_gt_of_ne hne with hlt | hlt
    · exact List.pairwise_iff_getElem.1 h i j hi hj hlt he
    · exact List.pairwise_iff_getElem.1 h j i hj hi hlt he.symm
  · rintro rfl; rfl

theorem dlData_step {e : DlEnv} {ds : List PkgDl} {fs : Fs} {s s' : DlState} {ev : DlEvent}
    (hnames : (ds.map fun d => d.package.package).Nodup) (hdests : (ds.map e.dest).Nodup)
    (h : s.dead = false → DlData e ds fs s) (hs : e.step ds s ev = some s') :
    s'.dead = false → DlData e ds fs s' := by
  unfold DlEnv.step at hs
  split at hs
  · simp at hs
  rename_i hd
  have hdead : s.dead = false := by cases h : s.dead <;> simp [h] at hd ⊢
  obtain ⟨h1, h2, h3, h4, h5⟩ := h hdead
  intro hdead'
  have uniq : ∀ (i j : Nat) (d d' : PkgDl), ds[i]? = some d → ds[j]? = some d' →
      (e.dest d = e.dest d' ∨ d.package.package = d'.package.package) → i = j := by
    intro i j d d' hi hj hor
    obtain ⟨li, hi'⟩ := List.getElem?_eq_some_iff.1 hi
    obtain ⟨lj, hj'⟩ := List.getElem?_eq_some_iff.1 hj
    rcases hor with hor | hor
    · exact (nodup_getElem_inj hdests (hi := by simpa using li) (hj := by simpa using lj)).1
        (by simpa [hi', hj'] using hor)
    · exact (nodup_getElem_inj hnames (hi := by simpa using li) (hj := by simpa using lj)).1
        (by simpa [hi', hj'] using hor)
  cases ev with
  | spawn =>
    dsimp only at hs
    split at hs <;> simp only [Option.some.injEq, reduceCtorEq] at hs
    subst hs
    have hph : ∀ i : Nat, (s.phases ++ [DlPhase.waiting])[i]? = some DlPhase.done ↔ s.phases[i]? = some DlPhase.done := by
      intro i
      rw [List.getElem?_append]
      split
      · rfl
      · rename_i hlt
        rw [List.getElem?_eq_none (by omega : s.phases.length ≤ i)]
        cases hx : i - s.phases.length <;> simp
    exact ⟨h1, fun i d hi hp => h2 i d hi (fun hh => hp ((hph i).2 hh)), fun i d hi hp => h3 i d hi ((hph i).1 hp), h4, h5⟩
  | acquire i =>
    dsimp only at hs
    split at hs <;> simp only [Option.some.injEq, reduceCtorEq] at hs
    rename_i hcd
    subst hs
    have hph : ∀ j : Nat, (s.phases.set i DlPhase.holding)[j]? = some DlPhase.done ↔ s.phases[j]? = some DlPhase.done := by
      intro j
      rw [List.getElem?_set]
      split
      · rename_i hij
        subst hij
        rw [hcd.1]
        split <;> simp
      · rfl
    exact ⟨h1, fun i d hi hp => h2 i d hi (fun hh => hp ((hph i).2 hh)), fun i d hi hp => h3 i d hi ((hph i).1 hp), h4, h5⟩
  | ret =>
    dsimp only at hs
    split at hs <;> simp only [Option.some.injEq, reduceCtorEq] at hs
    subst hs
    exact ⟨h1, h2, h3, h4, h5⟩
  | finish i =>
    dsimp only at hs
    split at hs <;> simp only [Option.some.injEq, reduceCtorEq] at hs
    rename_i d hphi hdi
    subst hs
    unfold DlEnv.finishStep at hdead' ⊢
    dsimp only at hdead' ⊢
    split at hdead'
    · simp at hdead'
    rename_i hnf
    rw [if_neg hnf]
    obtain ⟨p1, p2⟩ := h2 i d hdi (by rw [hphi]; simp)
    obtain ⟨q1, q2⟩ := download_local e s.fs (e.mkDirs fs ds) (e.resolved d) (e.dest d) p1 h1
    have hd_in : d ∈ ds := List.mem_of_getElem? hdi
    refine ⟨?_, ?_, ?_, ?_, ?_⟩
    · intro p; show (e.downloadPackage _ _ _).1.isDir p = _; rw [download_isDir, h1]
    · intro j d' hj hp
      have hij : i ≠ j := by
        rintro rfl
        apply hp
        show (s.phases.set i DlPhase.done)[i]? = some DlPhase.done
        have := (List.getElem?_eq_some_iff.1 hphi).1
        simp [this]
      have hp' : s.phases[j]? ≠ some DlPhase.done := by
        intro hh; apply hp
        show (s.phases.set i DlPhase.done)[j]? = some DlPhase.done
        rw [List.getElem?_set, if_neg hij]; exact hh
      obtain ⟨r1, r2⟩ := h2 j d' hj hp'
      have hne : e.dest d' ≠ e.dest d := fun hh => hij (uniq i j d d' hdi hj (Or.inl hh.symm))
      have hnn : d'.package.package ≠ d.package.package := fun hh => hij (uniq i j d d' hdi hj (Or.inr hh.symm))
      refine ⟨?_, ?_⟩
      · show (e.downloadPackage _ _ _).1 _ = _
        rw [download_other _ _ _ _ _ hne, r1]
      · show GoMap.get? (storeResult _ _ _) _ = _
        rw [get?_storeResult _ _ _ _ p2, if_neg hnn, r2]
    · intro j d' hj hp
      by_cases hij : i = j
      · subst hij
        have hdd : d' = d := by rw [hdi] at hj; exact (Option.some.inj hj).symm
        subst hdd
        refine ⟨q2, ?_⟩
        show GoMap.get? (storeResult _ _ _) _ = _
        rw [get?_storeResult _ _ _ _ p2, if_pos rfl, q1]
        rfl
      · have hp' : s.phases[j]? = some DlPhase.done := by
          have : (s.phases.set i DlPhase.done)[j]? = some DlPhase.done := hp
          rwa [List.getElem?_set, if_neg hij] at this
        obtain ⟨r1, r2⟩ := h3 j d' hj hp'
        have hne : e.dest d' ≠ e.dest d := fun hh => hij (uniq i j d d' hdi hj (Or.inl hh.symm))
        have hnn : d'.package.package ≠ d.package.package := fun hh => hij (uniq i j d d' hdi hj (Or.inr hh.symm))
        refine ⟨?_, ?_⟩
        · show (e.downloadPackage _ _ _).1 _ = _
          rw [download_other _ _ _ _ _ hne, r1]
        · show GoMap.get? (storeResult _ _ _) _ = _
          rw [get?_storeResult _ _ _ _ p2, if_neg hnn, r2]
    · intro p hp
      show (e.downloadPackage _ _ _).1 _ = _
      rw [download_other _ _ _ _ _ (fun hh => hp d hd_in hh.symm), h4 p hp]
    · intro k hk
      show GoMap.get? (storeResult _ _ _) _ = _
      rw [get?_storeResult _ _ _ _ p2, if_neg (fun hh => hk d hd_in hh.symm), h5 k hk]

theorem dlData_init (e : DlEnv) (fs : Fs) (ds : List PkgDl) : DlData e ds fs (e.init fs ds) :=
  ⟨fun _ => rfl, fun _ _ _ _ => ⟨rfl, rfl⟩, fun _ _ _ h => by simp [DlEnv.init] at h, fun _ _ => rfl, fun _ _ => rfl⟩

theorem dlData_reach {e : DlEnv} {ds : List PkgDl} {fs : Fs} {s : DlState}
    (hnames : (ds.map fun d => d.package.package).Nodup) (hdests : (ds.map e.dest).Nodup)
    (h : DlReach e ds fs s) : s.dead = false → DlData e ds fs s := by
  obtain ⟨evs, hr⟩ := h
  exact (dl_run_inv (e := e) (ds := ds) (fun s => DlCount ds s ∧ (s.dead = false → DlData e ds fs s))
    (fun s s' ev hp hs => ⟨dlCount_step hp.1 hs, dlData_step hnames hdests hp.2 hs⟩) evs _ _
    ⟨dlCount_init e fs ds, fun _ => dlData_init e fs ds⟩ hr).2

/-- In a returned state every download is done. -/
theorem all_done {e : DlEnv} {ds : List PkgDl} {fs : Fs} {s : DlState} (h : DlReach e ds fs s) (hr : s.returned = true) :
    s.phases.length = ds.length ∧ ∀ x ∈ s.phases, x = .done := by
  have hc := dlCount_reach h
  obtain ⟨r1, r2, r3⟩ := hc.ret hr
  have hw := hc.wg r1
  refine ⟨r2, fun x hx => ?_⟩
  cases x with
  | done => rfl
  | waiting => have := List.count_pos_iff.2 hx; omega
  | holding => have := List.count_pos_iff.2 hx; omega

end Pkgr
