/- C45-C47, C82: downloading packages. -/
import Verif.Proof.Download
import Verif.Props.Install

namespace Pkgr
open Spec

/-! ## C45: cache paths -/

/-- C45: two downloads that share a cache path are the same package version, of the same kind, from the same
repository, and (for binaries) for the same R series.  The digest is only assumed not to collide on the two
URLs at hand. -/
theorem C45_distinct_paths (e e' : DlEnv) (d d' : PkgDl) (hD : DigestShape e.digest)
    (hdig : e'.digest = e.digest) (hplat : e'.platform = e.platform) (hrhel : e'.rhel = e.rhel) (hbase : e'.base = e.base)
    (hos : e.platform.os ≠ .other) (hn : PlainNames d) (hn' : PlainNames d')
    (hinj : e.digest d.config.repo.url = e.digest d'.config.repo.url → d.config.repo.url = d'.config.repo.url)
    (h : e.dest d = e'.dest d') :
    d.config.repo.name = d'.config.repo.name ∧ d.config.repo.url = d'.config.repo.url ∧
    d.package.package = d'.package.package ∧ d.package.version = d'.package.version ∧
    (resolveType e.platform d.config.type = .binary ↔ resolveType e.platform d'.config.type = .binary) ∧
    (resolveType e.platform d.config.type = .binary → e.rv.toStr = e'.rv.toStr) := by
  rw [dest_eq e d hD hn hos, dest_eq e' d' (hdig ▸ hD) hn' (hplat ▸ hos), hdig, hplat, hrhel, hbase] at h
  have h := List.append_cancel_left h
  have hrepo : ∀ r r' : RepoURL, r = d.config.repo → r' = d'.config.repo → repoUrlHash e.digest r = repoUrlHash e.digest r' →
      r.name = r'.name ∧ r.url = r'.url := by
    rintro r r' rfl rfl hh
    have := hash_inj hD hh
    exact ⟨this.1, hinj this.2⟩
  by_cases hb : resolveType e.platform d.config.type = .binary <;>
    by_cases hb' : resolveType e.platform d'.config.type = .binary
  · simp only [if_pos hb, if_pos hb', List.cons.injEq, and_true, true_and] at h
    obtain ⟨h1, h2, h3⟩ := h
    obtain ⟨a, b⟩ := hrepo _ _ rfl rfl h1
    obtain ⟨p, v⟩ := cranBinaryName_inj hos h3 hn.2.2.2 hn'.2.2.2
    exact ⟨a, b, p, v, by simp [hb, hb'], fun _ => h2⟩
  · simp only [if_pos hb, if_neg hb', List.cons.injEq] at h
    exact absurd h.2.1 (by decide)
  · simp only [if_neg hb, if_pos hb', List.cons.injEq] at h
    exact absurd h.2.1 (by decide)
  · simp only [if_neg hb, if_neg hb', List.cons.injEq, and_true, true_and] at h
    obtain ⟨h1, h3⟩ := h
    obtain ⟨a, b⟩ := hrepo _ _ rfl rfl h1
    obtain ⟨p, v⟩ := sourceName_inj h3 hn.2.2.2 hn'.2.2.2
    exact ⟨a, b, p, v, by simp [hb, hb'], fun hx => absurd hx hb⟩

/-- A concrete environment: R 4.1 on Linux; the server knows two packages, answers 404 for "b_1.tar.gz" and cuts
the connection for "c_1.tar.gz". -/
def toyDl (resp : Response) : DlEnv :=
  { server := fun _ => resp, digest := fun u => (u ++ List.replicate 12 'x').take 12, platform := { os := .linux },
    rv := ⟨4, 1, 0⟩, base := [s%"cache"] }

/-- see `toyDl` -/
def toyPkg (name : Str) : PkgDl :=
  { config := { repo := { url := s%"https:hh", name := s%"CRAN" }, type := .source },
    package := { package := name, version := s%"1" } }

example : PlainNames (toyPkg (s%"a")) ∧ PlainNames (toyPkg (s%"b")) ∧ (toyDl .badStatus).platform.os ≠ .other ∧
    (toyDl .badStatus).dest (toyPkg (s%"a")) = [s%"cache", s%"CRAN-https:hhxxxx", s%"src", s%"a_1.tar.gz"] := by decide

/-- The restriction to names without underscores is needed. -/
theorem C45_underscore_needed : ∃ p v p' v', (p, v) ≠ (p', v') ∧ sourceName p v = sourceName p' v' :=
  ⟨s%"a_b", s%"1", s%"a", s%"b_1", by decide, by decide⟩

/-! ## C46: interrupted downloads -/

/-- C46 does not hold: for every package file with at least one character there is a moment during its download
at which a crash leaves a truncated file that the next run uses as the package, without contacting the
server. -/
theorem C46_violated_crash (e : DlEnv) (fs : Fs) (d : PkgDl) (dest : Path) (c : Str) (b : Bool)
    (hne : fs dest = none) (hdir : fs (dirPath dest) = some .dir) (hsrv : e.server (e.url d dest) = .body c b)
    (hc : c ≠ []) :
    ∃ crash ∈ e.downloadStates fs d dest, ∃ dl, ∀ e' : DlEnv, ∃ bad,
      e'.downloadPackage crash d dest = (crash, .ok dl) ∧ dl.path = .abs dest ∧
      crash dest = some (.file bad) ∧ bad ≠ c := by
  refine ⟨fs.set dest (.file (c.take 0)), ?_, { path := .abs dest, new := false, metadata := d, size := 0 }, ?_⟩
  · unfold DlEnv.downloadStates
    rw [if_neg (by simp [Fs.ex, hne]), hsrv]
    simp only
    rw [if_neg (by simp [Fs.isDir, hdir])]
    refine List.mem_cons_of_mem _ (List.mem_map.2 ⟨0, by simp, rfl⟩)
  · intro e'
    refine ⟨[], ?_, rfl, by simp [Fs.set], fun h => hc h.symm⟩
    unfold DlEnv.downloadPackage
    rw [if_pos (by simp [Fs.ex, Fs.set])]

/-- C46 does not hold without a crash either: a connection cut in the middle reports an error now, but leaves a
file that the next run uses. -/
theorem C46_violated_cut (e : DlEnv) (fs : Fs) (d : PkgDl) (dest : Path) (part : Str)
    (hne : fs dest = none) (hdir : fs (dirPath dest) = some .dir) (hsrv : e.server (e.url d dest) = .body part false) :
    ∃ fs', e.downloadPackage fs d dest = (fs', .err) ∧ fs' dest = some (.file part) ∧
      ∀ e' : DlEnv, ∃ dl, e'.downloadPackage fs' d dest = (fs', .ok dl) ∧ dl.path = .abs dest := by
  refine ⟨fs.set dest (.file part), ?_, by simp [Fs.set], fun e' => ⟨{ path := .abs dest, new := false, metadata := d, size := 0 }, ?_, rfl⟩⟩
  · unfold DlEnv.downloadPackage
    rw [if_neg (by simp [Fs.ex, hne]), hsrv]
    simp [Fs.isDir, hdir]
  · unfold DlEnv.downloadPackage
    rw [if_pos (by simp [Fs.ex, Fs.set])]

/-- The directories of the toy cache. -/
def toyCache : Fs := fun p => if p = [s%"cache", s%"CRAN-https:hhxxxx", s%"src"] then some .dir else none

example : toyCache ((toyDl .badStatus).dest (toyPkg (s%"a"))) = none ∧
    toyCache (dirPath ((toyDl .badStatus).dest (toyPkg (s%"a")))) = some .dir := by decide

/-- C46, what does hold: a download that reports success as new left exactly the full content at the
destination; an existing file is never modified; nothing else is ever modified, not even in a crash. -/
theorem C46_complete_partial (e : DlEnv) (fs : Fs) (d : PkgDl) (dest : Path) :
    (∀ dl, (e.downloadPackage fs d dest).2 = .ok dl → dl.new = true →
      ∃ c, e.server (e.url d dest) = .body c true ∧ (e.downloadPackage fs d dest).1 dest = some (.file c) ∧
        dl.path = .abs dest ∧ dl.size = c.length) ∧
    (∀ n, fs dest = some n → (e.downloadPackage fs d dest).1 = fs ∧ e.downloadStates fs d dest = [fs]) ∧
    (∀ st ∈ e.downloadStates fs d dest, ∀ p, p ≠ dest → st p = fs p) := by
  refine ⟨?_, ?_, ?_⟩
  · intro dl h hnew
    unfold DlEnv.downloadPackage at h ⊢
    split at h
    · simp only [DlResult.ok.injEq] at h; subst h; simp at hnew
    · rename_i hex
      rw [if_neg hex]
      cases hs : e.server (e.url d dest) with
      | body c comp =>
        simp only [hs] at h ⊢
        split at h
        · simp at h
        · rename_i hdir
          cases hcomp : comp with
          | true =>
            simp only [hcomp, if_true, DlResult.ok.injEq] at h
            subst h
            exact ⟨c, rfl, by rw [if_neg hdir]; simp [Fs.set], rfl, rfl⟩
          | false => simp [hcomp] at h
      | _ => simp [hs] at h <;> (subst h; simp at hnew)
  · intro n hn
    unfold DlEnv.downloadPackage DlEnv.downloadStates
    rw [if_pos (by simp [Fs.ex, hn]), if_pos (by simp [Fs.ex, hn])]
    exact ⟨rfl, rfl⟩
  · intro st hst p hp
    unfold DlEnv.downloadStates at hst
    split at hst
    · simp only [List.mem_singleton] at hst; rw [hst]
    · split at hst
      · split at hst
        · simp only [List.mem_singleton] at hst; rw [hst]
        · rcases List.mem_cons.1 hst with rfl | hst
          · rfl
          · obtain ⟨k, _, rfl⟩ := List.mem_map.1 hst
            simp [Fs.set, hp]
      · simp only [List.mem_singleton] at hst; rw [hst]

/-! ## C47: concurrent downloads -/

/-- C47: at most ten downloads are in progress at any moment. -/
theorem C47_at_most_ten (e : DlEnv) (ds : List PkgDl) (fs : Fs) (s : DlState) (h : DlReach e ds fs s) :
    s.phases.count .holding ≤ 10 := (dlCount_reach h).sem

/-- The destinations of distinct packages are distinct. -/
theorem dests_nodup (e : DlEnv) (ds : List PkgDl) (hD : DigestShape e.digest) (hos : e.platform.os ≠ .other)
    (hn : ∀ d ∈ ds, PlainNames d)
    (hinj : ∀ d ∈ ds, ∀ d' ∈ ds, e.digest d.config.repo.url = e.digest d'.config.repo.url → d.config.repo.url = d'.config.repo.url)
    (hnames : (ds.map fun d => d.package.package).Nodup) : (ds.map e.dest).Nodup := by
  induction ds with
  | nil => simp
  | cons d ds ih =>
    simp only [List.map_cons, List.nodup_cons] at hnames ⊢
    refine ⟨?_, ih (fun x hx => hn x (List.mem_cons_of_mem _ hx))
      (fun x hx y hy => hinj x (List.mem_cons_of_mem _ hx) y (List.mem_cons_of_mem _ hy)) hnames.2⟩
    intro hm
    obtain ⟨d', hd', he⟩ := List.mem_map.1 hm
    apply hnames.1
    refine List.mem_map.2 ⟨d', hd', ?_⟩
    have := C45_distinct_paths e e d d' hD rfl rfl rfl rfl hos (hn d (by simp)) (hn d' (by simp [hd']))
      (hinj d (by simp) d' (by simp [hd'])) he.symm
    exact this.2.2.1.symm

/-- C47: when the downloads return, every one of them has been attempted, and the table and the files are the
same in every schedule: for each package what downloading it alone gives, and nothing else. -/
theorem C47_schedule_independent (e : DlEnv) (ds : List PkgDl) (fs : Fs) (s : DlState)
    (hnames : (ds.map fun d => d.package.package).Nodup) (hdests : (ds.map e.dest).Nodup)
    (h : DlReach e ds fs s) (hr : s.returned = true) :
    (∀ d ∈ ds, GoMap.get? s.result d.package.package = entryOf (alone e ds fs d).2 ∧
      s.fs (e.dest d) = (alone e ds fs d).1 (e.dest d)) ∧
    (∀ k, (∀ d ∈ ds, d.package.package ≠ k) → GoMap.get? s.result k = none) ∧
    (∀ p, (∀ d ∈ ds, e.dest d ≠ p) → s.fs p = (e.mkDirs fs ds) p) := by
  have hdead := ((dlCount_reach h).ret hr).1
  have hd := dlData_reach hnames hdests h hdead
  obtain ⟨l, hall⟩ := all_done h hr
  refine ⟨fun d hdm => ?_, hd.keys, hd.rest⟩
  obtain ⟨i, hi, hdi⟩ := List.getElem_of_mem hdm
  have hp : s.phases[i]? = some .done := by
    have hlt : i < s.phases.length := by omega
    rw [List.getElem?_eq_getElem hlt, hall _ (List.getElem_mem hlt)]
  have := hd.finished i d (by rw [List.getElem?_eq_getElem hi, hdi]) hp
  exact ⟨this.2, this.1⟩

/-- C47: two schedules of the same downloads end in the same files and the same table. -/
theorem C47_deterministic (e : DlEnv) (ds : List PkgDl) (fs : Fs) (s s' : DlState)
    (hnames : (ds.map fun d => d.package.package).Nodup) (hdests : (ds.map e.dest).Nodup)
    (h : DlReach e ds fs s) (hr : s.returned = true) (h' : DlReach e ds fs s') (hr' : s'.returned = true) :
    s.fs = s'.fs ∧ ∀ k, GoMap.get? s.result k = GoMap.get? s'.result k := by
  obtain ⟨a1, a2, a3⟩ := C47_schedule_independent e ds fs s hnames hdests h hr
  obtain ⟨b1, b2, b3⟩ := C47_schedule_independent e ds fs s' hnames hdests h' hr'
  constructor
  · funext p
    by_cases hp : ∃ d ∈ ds, e.dest d = p
    · obtain ⟨d, hd, rfl⟩ := hp
      rw [(a1 d hd).2, (b1 d hd).2]
    · have : ∀ d ∈ ds, e.dest d ≠ p := fun d hd he => hp ⟨d, hd, he⟩
      rw [a3 p this, b3 p this]
  · intro k
    by_cases hk : ∃ d ∈ ds, d.package.package = k
    · obtain ⟨d, hd, rfl⟩ := hk
      rw [(a1 d hd).1, (b1 d hd).1]
    · have : ∀ d ∈ ds, d.package.package ≠ k := fun d hd he => hk ⟨d, hd, he⟩
      rw [a2 k this, b2 k this]

/-- C47: the downloads never get stuck: unless the program died (a missing local package file), some step is
possible until they return. -/
theorem C47_progress (e : DlEnv) (ds : List PkgDl) (fs : Fs) (s : DlState) (h : DlReach e ds fs s)
    (hd : s.dead = false) (hr : s.returned = false) : ∃ ev s', e.step ds s ev = some s' := by
  have hc := dlCount_reach h
  have hz : (s.dead || s.returned) = false := by rw [hd, hr]; rfl
  by_cases hlt : s.phases.length < ds.length
  · refine ⟨.spawn, { s with phases := s.phases ++ [.waiting], wg := s.wg + 1 }, ?_⟩
    unfold DlEnv.step
    rw [hz]
    simp only [Bool.false_eq_true, if_false, if_pos hlt]
  · have hlen : s.phases.length = ds.length := by have := hc.len; omega
    by_cases hh : DlPhase.holding ∈ s.phases
    · obtain ⟨i, hi, he⟩ := List.getElem_of_mem hh
      refine ⟨.finish i, e.finishStep s i (ds[i]'(by omega)), ?_⟩
      unfold DlEnv.step
      rw [hz]
      simp only [Bool.false_eq_true, if_false, List.getElem?_eq_getElem hi, he,
        List.getElem?_eq_getElem (show i < ds.length by omega)]
    · have hc0 : s.phases.count .holding = 0 := List.count_eq_zero.2 hh
      by_cases hw : DlPhase.waiting ∈ s.phases
      · obtain ⟨i, hi, he⟩ := List.getElem_of_mem hw
        refine ⟨.acquire i, { s with phases := s.phases.set i .holding }, ?_⟩
        unfold DlEnv.step
        rw [hz]
        simp only [Bool.false_eq_true, if_false]
        rw [if_pos ⟨by rw [List.getElem?_eq_getElem hi, he], by rw [hc0]; decide⟩]
      · have hw0 : s.phases.count .waiting = 0 := List.count_eq_zero.2 hw
        have hwg := hc.wg hd
        refine ⟨.ret, { s with returned := true }, ?_⟩
        unfold DlEnv.step
        rw [hz]
        simp only [Bool.false_eq_true, if_false]
        rw [if_pos ⟨hlen, by omega⟩]

/-- C47: every schedule ends: no execution has more than 3 steps per package plus one. -/
theorem C47_bounded (e : DlEnv) (ds : List PkgDl) (fs : Fs) (evs : List DlEvent) (s : DlState)
    (h : e.run ds (e.init fs ds) evs = some s) : evs.length ≤ 3 * ds.length + 1 := by
  let μ : DlState → Nat := fun s => 3 * (ds.length - s.phases.length) + 2 * s.phases.count .waiting +
    s.phases.count .holding + (if s.dead || s.returned then 0 else 1)
  have hstep : ∀ s s' ev, DlCount ds s → e.step ds s ev = some s' → μ s' + 1 ≤ μ s := by
    intro s s' ev hc hs
    unfold DlEnv.step at hs
    split at hs
    · simp at hs
    rename_i hd
    have hdead : s.dead = false := by cases h : s.dead <;> simp [h] at hd ⊢
    have hret : s.returned = false := by cases h : s.returned <;> simp [h] at hd ⊢
    have hlen := hc.len
    cases ev with
    | spawn =>
      dsimp only at hs
      split at hs <;> simp only [Option.some.injEq, reduceCtorEq] at hs
      subst hs
      simp only [μ, List.length_append, List.length_singleton, List.count_append, List.count_singleton, hdead, hret]
      simp
      omega
    | acquire i =>
      dsimp only at hs
      split at hs <;> simp only [Option.some.injEq, reduceCtorEq] at hs
      rename_i hcd
      subst hs
      have c1 := count_set_eq DlPhase.holding .holding hcd.1
      have c2 := count_set_eq DlPhase.waiting .holding hcd.1
      simp at c1 c2
      simp only [μ, List.length_set, hdead, hret]
      simp
      omega
    | finish i =>
      dsimp only at hs
      split at hs <;> simp only [Option.some.injEq, reduceCtorEq] at hs
      rename_i d hph hdd
      subst hs
      have c1 := count_set_eq DlPhase.holding .done hph
      have c2 := count_set_eq DlPhase.waiting .done hph
      simp at c1 c2
      unfold DlEnv.finishStep
      dsimp only
      split
      · simp only [μ, hdead, hret]; simp
      · simp only [μ, List.length_set, hdead, hret]
        simp
        omega
    | ret =>
      dsimp only at hs
      split at hs <;> simp only [Option.some.injEq, reduceCtorEq] at hs
      subst hs
      simp only [μ, hdead, hret]
      simp
  have key : ∀ evs s s', DlCount ds s → e.run ds s evs = some s' → evs.length + μ s' ≤ μ s := by
    intro evs
    induction evs with
    | nil => intro s s' _ hr; simp [DlEnv.run] at hr; subst hr; simp
    | cons ev evs ih =>
      intro s s' hc hr
      unfold DlEnv.run at hr
      split at hr
      · simp at hr
      · rename_i s1 h1
        have h2 := ih s1 s' (dlCount_step hc h1) hr
        have h3 := hstep _ _ _ hc h1
        simp only [List.length_cons]
        omega
  have := key evs _ _ (dlCount_init e fs ds) h
  have hμ : μ (e.init fs ds) = 3 * ds.length + 1 := by simp [μ, DlEnv.init]
  omega

/-- C47, failures: a package gets an entry with a path exactly when its file is in the cache or was completely
downloaded. -/
theorem C47_path_iff_partial (e : DlEnv) (ds : List PkgDl) (fs : Fs) (s : DlState)
    (hnames : (ds.map fun d => d.package.package).Nodup) (hdests : (ds.map e.dest).Nodup)
    (h : DlReach e ds fs s) (hr : s.returned = true) (d : PkgDl) (hd : d ∈ ds) :
    (∃ dl, GoMap.get? s.result d.package.package = some dl ∧ dl.path = .abs (e.dest d)) ↔
    ((e.mkDirs fs ds) (e.dest d) ≠ none ∨
      ∃ c, e.server (e.url (settled e.platform d) (e.dest d)) = .body c true ∧
        (e.mkDirs fs ds) (dirPath (e.dest d)) = some .dir) := by
  rw [((C47_schedule_independent e ds fs s hnames hdests h hr).1 d hd).1]
  unfold alone DlEnv.downloadPackage
  split
  · rename_i hex
    simp only [entryOf]
    constructor
    · intro _; left; intro hn; simp [Fs.ex, hn] at hex
    · intro _; exact ⟨_, rfl, rfl⟩
  · rename_i hex
    have hnone : (e.mkDirs fs ds) (e.dest d) = none := by simpa [Fs.ex] using hex
    cases hs : e.server (e.url (settled e.platform d) (e.dest d)) with
    | netError => simp [entryOf, hnone]
    | badStatus => simp [entryOf, hnone]
    | noLocalFile => simp [entryOf, hnone]
    | body c comp =>
      cases comp <;> cases hdir : decide ((e.mkDirs fs ds) (dirPath (e.dest d)) = some Node.dir) <;>
        simp [Fs.isDir, entryOf, hnone, hdir] <;> simp_all

/-- C47 does not hold as far as failures are concerned: a server error (any status but 200) is stored in the
table as a success without a path, and installing from that entry makes R install the current working
directory. -/
theorem C47_violated_bad_status (e : DlEnv) (ie : InstallEnv) (fs : Fs) (d : PkgDl) (dest tmp lib : Path)
    (hne : fs dest = none) (hsrv : e.server (e.url d dest) = .badStatus)
    (hos : ie.platform.os ≠ .other) (hlib : fs (lib ++ [d.package.package]) = none)
    (hcache : ∀ bp, ie.cachedBinary d = some bp → fs bp = none)
    (hcwd : fs ie.cwd = some .dir) (htmp : ∀ c, fs tmp ≠ some (.file c)) :
    ∃ dl, e.downloadPackage fs d dest = (fs, .ok dl) ∧
      ∃ rest, (ie.installThroughBinary tmp fs { pkg := d.package.package, download := dl, lib := lib }).calls =
        { pkg := d.package.package, lib := tmp, build := true, src := ie.cwd, workDir := tmp } :: rest := by
  refine ⟨{ metadata := d }, ?_, ?_⟩
  · unfold DlEnv.downloadPackage
    rw [if_neg (by simp [Fs.ex, hne]), hsrv]
  · unfold InstallEnv.installThroughBinary
    rw [if_neg (by simp [Fs.isDir, hlib])]
    cases hcb : ie.cachedBinary d with
    | none =>
      exfalso
      unfold InstallEnv.cachedBinary binaryNameOs at hcb
      cases ho : ie.platform.os <;> simp [ho] at hcb hos
    | some bp =>
      simp only
      rw [if_neg (by simp [Fs.ex, hcache bp hcb])]
      unfold InstallEnv.build
      have hr : (PathArg.rel []).resolve ie.cwd = ie.cwd := by simp [PathArg.resolve]
      dsimp only
      rw [hr]
      have hexs : (fs.mkdirAll tmp).ex ie.cwd = true := by
        unfold Fs.ex Fs.mkdirAll
        split
        · rfl
        · simp [hcwd]
      rw [install_run _ _ _ _ _ _ _ _ _ (mkdirAll_isDir fs tmp htmp) hexs]
      dsimp only
      repeat' split
      all_goals first | exact ⟨[], rfl⟩ | exact ⟨_, rfl⟩

example : toyFs ((toyEnv true).cwd) = some .dir ∧ toyFs ([s%"lib"] ++ [s%"b"]) = none ∧
    (toyDl .badStatus).server ((toyDl .badStatus).url (toyPkg (s%"b")) [s%"cache", s%"x"]) = .badStatus := by decide

/-- C47 does not hold when two repositories share a name but not a URL: only one of the directories is created,
so the packages of the other one are never stored even though the server delivers them. -/
theorem C47_violated_same_name :
    let e := toyDl (.body (s%"data") true)
    let d1 := toyPkg (s%"a")
    let d2 : PkgDl := { d1 with package := { package := s%"b", version := s%"1" }, config := { repo := { url := s%"https:gg", name := s%"CRAN" }, type := .source } }
    (alone e [d1, d2] (fun _ => none) d1).2 = .err ∧ ∃ dl, (alone e [d1, d2] (fun _ => none) d2).2 = .ok dl := by
  exact ⟨by decide, ⟨{ path := .abs [s%"cache", s%"CRAN-https:ggxxxx", s%"src", s%"b_1.tar.gz"], new := true, metadata := { package := { package := s%"b", version := s%"1" }, config := { repo := { url := s%"https:gg", name := s%"CRAN" }, type := .source } }, size := 4 }, by decide⟩⟩

/-- A missing local package file ends the program at once: it never returns a table. -/
theorem C47_violated_fatal (e : DlEnv) (ds : List PkgDl) (fs : Fs) (s : DlState)
    (hnames : (ds.map fun d => d.package.package).Nodup) (hdests : (ds.map e.dest).Nodup)
    (d : PkgDl) (hd : d ∈ ds) (hne : (e.mkDirs fs ds) (e.dest d) = none)
    (hsrv : e.server (e.url (settled e.platform d) (e.dest d)) = .noLocalFile) (h : DlReach e ds fs s) :
    s.returned = false := by
  have hfat : (alone e ds fs d).2 = .fatal := by
    unfold alone DlEnv.downloadPackage
    rw [if_neg (by simp [Fs.ex, hne]), hsrv]
  -- a goroutine that met the missing file never reaches `done`
  have key : ∀ evs s s', (DlCount ds s ∧ (s.dead = false → DlData e ds fs s) ∧
      ∀ i : Nat, ds[i]? = some d → s.phases[i]? ≠ some DlPhase.done) → e.run ds s evs = some s' →
      (DlCount ds s' ∧ (s'.dead = false → DlData e ds fs s') ∧
      ∀ i : Nat, ds[i]? = some d → s'.phases[i]? ≠ some DlPhase.done) := by
    refine dl_run_inv _ ?_
    rintro s s' ev ⟨hc, hdat, hnd⟩ hs
    refine ⟨dlCount_step hc hs, dlData_step hnames hdests hdat hs, ?_⟩
    intro i hi hdone
    unfold DlEnv.step at hs
    split at hs
    · simp at hs
    rename_i hdd
    have hdead : s.dead = false := by cases h : s.dead <;> simp [h] at hdd ⊢
    have hD := hdat hdead
    cases ev with
    | spawn =>
      dsimp only at hs
      split at hs <;> simp only [Option.some.injEq, reduceCtorEq] at hs
      subst hs
      dsimp only at hdone
      rw [List.getElem?_append] at hdone
      split at hdone
      · exact hnd i hi hdone
      · cases hx : i - s.phases.length <;> simp [hx] at hdone
    | acquire j =>
      dsimp only at hs
      split at hs <;> simp only [Option.some.injEq, reduceCtorEq] at hs
      subst hs
      dsimp only at hdone
      rw [List.getElem?_set] at hdone
      split at hdone
      · split at hdone <;> simp at hdone
      · exact hnd i hi hdone
    | ret =>
      dsimp only at hs
      split at hs <;> simp only [Option.some.injEq, reduceCtorEq] at hs
      subst hs
      exact hnd i hi hdone
    | finish j =>
      dsimp only at hs
      split at hs <;> simp only [Option.some.injEq, reduceCtorEq] at hs
      rename_i d' hph hdj
      subst hs
      unfold DlEnv.finishStep at hdone
      dsimp only at hdone
      split at hdone
      · exact hnd i hi hdone
      · rename_i hnf
        dsimp only at hdone
        rw [List.getElem?_set] at hdone
        split at hdone
        · rename_i hij
          subst hij
          rw [hi] at hdj
          obtain rfl := Option.some.inj hdj
          obtain ⟨p1, _⟩ := hD.pending j d hi (by rw [hph]; simp)
          have := (download_local e s.fs (e.mkDirs fs ds) (settled e.platform d) (e.dest d) p1 hD.dirs).1
          exact hnf (this.trans hfat)
        · exact hnd i hi hdone
  obtain ⟨evs, hrun⟩ := h
  obtain ⟨hc, _, hnd⟩ := key evs _ _ ⟨dlCount_init e fs ds, fun _ => dlData_init e fs ds, fun i _ => by simp [DlEnv.init]⟩ hrun
  by_contra hret
  have hret : s.returned = true := by simpa using hret
  obtain ⟨l, hall⟩ := all_done ⟨evs, hrun⟩ hret
  obtain ⟨i, hi, hdi⟩ := List.getElem_of_mem hd
  have hlt : i < s.phases.length := by omega
  exact hnd i (by rw [List.getElem?_eq_getElem hi, hdi]) (by rw [List.getElem?_eq_getElem hlt, hall _ (List.getElem_mem hlt)])

/-- A complete schedule of two downloads, one of which answers with data. -/
example : ∃ s, DlReach (toyDl (.body (s%"data") true)) [toyPkg (s%"a"), toyPkg (s%"b")] (fun _ => none) s ∧ s.returned = true ∧
    (s.result.map Prod.fst) = [s%"a", s%"b"] := by
  refine ⟨_, ⟨[.spawn, .spawn, .acquire 0, .acquire 1, .finish 1, .finish 0, .ret], rfl⟩, rfl, by decide⟩

example : ([toyPkg (s%"a"), toyPkg (s%"b")].map fun d => d.package.package).Nodup ∧
    ([toyPkg (s%"a"), toyPkg (s%"b")].map (toyDl (.body (s%"data") true)).dest).Nodup := by decide

/-! ## C82: where packages are fetched from -/

/-- C82: the package file is fetched from the directory whose PACKAGES index was read, for source packages, for
repositories without suffix, and on Linux. -/
theorem C82_same_directory_partial (e : DlEnv) (db : RepoDb) (d : PkgDl) (dest : Path)
    (hrepo : d.config.repo = db.repo) (hs : db.repoSuffix = db.repo.suffix)
    (h : d.config.type = .source ∨ db.repo.suffix = [] ∨ e.platform.os = .linux) :
    e.url d dest = packagesDirURL e.platform.os e.linuxUri e.rv db d.config.type ++ basePath dest := by
  unfold DlEnv.url packagesDirURL
  rw [hrepo, hs]
  dsimp only
  by_cases h1 : d.config.type = .source
  · rw [if_pos h1, if_pos h1]
  · rw [if_neg h1, if_neg h1]
    by_cases h2 : db.repo.suffix = []
    · rw [if_neg (by simp [h2]), if_neg (by simp [h2])]
    · have h3 : e.platform.os = .linux := by
        rcases h with h | h | h
        · exact absurd h h1
        · exact absurd h h2
        · exact h
      rw [if_pos h2, if_pos ⟨h2, h3⟩]

/-- C82 does not hold for binary packages on other platforms when the repository has a suffix: the index is read
without the suffix, the package is fetched with it. -/
theorem C82_violated (e : DlEnv) (db : RepoDb) (d : PkgDl) (dest : Path)
    (hrepo : d.config.repo = db.repo) (hs : db.repo.suffix ≠ []) (hty : d.config.type = .binary)
    (hos : e.platform.os ≠ .linux) :
    e.url d dest ≠ packagesDirURL e.platform.os e.linuxUri e.rv db d.config.type ++ basePath dest := by
  unfold DlEnv.url packagesDirURL
  rw [hrepo, hty]
  dsimp only
  simp only [reduceCtorEq, if_false]
  rw [if_pos hs, if_neg (fun h => hos h.2)]
  intro h
  have hl := congrArg List.length h
  have := List.length_pos_iff.2 hs
  simp only [List.length_append] at hl
  simp at hl
  omega

/-- C82, the downloads as a whole: a package that was newly downloaded is what the server delivered in the directory
whose PACKAGES index was read for the package's type (the platform's default type being settled), under the conditions
of `C82_same_directory_partial`. -/
theorem C82_delivered_partial (e : DlEnv) (ds : List PkgDl) (fs : Fs) (s : DlState)
    (hnames : (ds.map fun d => d.package.package).Nodup) (hdests : (ds.map e.dest).Nodup)
    (h : DlReach e ds fs s) (hr : s.returned = true) (d : PkgDl) (hd : d ∈ ds) (db : RepoDb)
    (hrepo : d.config.repo = db.repo) (hs : db.repoSuffix = db.repo.suffix)
    (hc : resolveType e.platform d.config.type = .source ∨ db.repo.suffix = [] ∨ e.platform.os = .linux)
    (dl : Download) (hdl : GoMap.get? s.result d.package.package = some dl) (hnew : dl.new = true) :
    ∃ c, e.server (packagesDirURL e.platform.os e.linuxUri e.rv db (resolveType e.platform d.config.type) ++ basePath (e.dest d)) =
        .body c true ∧ s.fs (e.dest d) = some (.file c) := by
  obtain ⟨h1, h2⟩ := (C47_schedule_independent e ds fs s hnames hdests h hr).1 d hd
  rw [hdl] at h1
  have hok : (alone e ds fs d).2 = .ok dl := by
    unfold entryOf at h1
    split at h1
    · next x hx => rw [hx, Option.some.inj h1]
    · cases h1
  obtain ⟨c, hsrv, hfile, _, _⟩ := (C46_complete_partial e (e.mkDirs fs ds) (settled e.platform d) (e.dest d)).1 dl hok hnew
  refine ⟨c, ?_, h2.trans hfile⟩
  rw [C82_same_directory_partial e db (settled e.platform d) (e.dest d) hrepo hs hc] at hsrv
  exact hsrv

/-- Non-vacuity of `C82_delivered_partial`: a newly downloaded package. -/
example : ∃ s dl, DlReach (toyDl (.body (s%"data") true)) [toyPkg (s%"a")] (fun _ => none) s ∧ s.returned = true ∧
    GoMap.get? s.result (s%"a") = some dl ∧ dl.new = true :=
  ⟨_, _, ⟨[.spawn, .acquire 0, .finish 0, .ret], rfl⟩, rfl, rfl, rfl⟩

end Pkgr
