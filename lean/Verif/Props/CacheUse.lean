/- C171: the package cache saves downloads and changes nothing else. -/
import Verif.Spec.CacheUse
import Verif.Props.Fetching
import Verif.Proof.RealRun
import Verif.Proof.Web

namespace Pkgr
open Spec

variable {e : DlEnv} {published : Str → Option Str} {U : PkgDl → Prop}

theorem dest_repo_name (hD : DigestShape e.digest) (hos : e.platform.os ≠ .other) {d d' : PkgDl} (hn : PlainNames d) (hn' : PlainNames d')
    (h : e.dest d = e.dest d') : d.config.repo.name = d'.config.repo.name := by
  rw [dest_eq e d hD hn hos, dest_eq e d' hD hn' hos] at h
  have h := congrArg List.head? (List.append_cancel_left h)
  have hh : ∀ (b : Bool) (x y : List Str) (r : Str), (if b = true then r :: x else r :: y).head? = some r := by
    intro b x y r; cases b <;> rfl
  have : some (repoUrlHash e.digest d.config.repo) = some (repoUrlHash e.digest d'.config.repo) := by
    by_cases h1 : resolveType e.platform d.config.type = .binary <;> by_cases h2 : resolveType e.platform d'.config.type = .binary <;>
      simpa [h1, h2] using h
  exact (hash_inj hD (Option.some.inj this)).1

/-- Packages of a catalog with the same place in the cache are the same package from the same URL. -/
theorem dest_same (hC : Catalog U) (hD : DigestShape e.digest) (hos : e.platform.os ≠ .other) {d d' : PkgDl} (hd : U d) (hd' : U d')
    (h : e.dest d = e.dest d') : urlOf e d = urlOf e d' ∧ d.package.package = d'.package.package := by
  have hn := dest_repo_name hD hos (hC.plain d hd) (hC.plain d' hd') h
  have hr := hC.oneRepo d d' hd hd' hn
  obtain ⟨_, _, hp, _, ht, _⟩ := C45_distinct_paths e e d d' hD rfl rfl rfl rfl hos (hC.plain d hd) (hC.plain d' hd') (fun _ => by rw [hr]) h
  refine ⟨?_, hp⟩
  have hdef : ∀ t, resolveType e.platform t ≠ .default := by
    intro t
    unfold resolveType defaultType
    split
    · split <;> simp
    · assumption
  have hty : resolveType e.platform d.config.type = resolveType e.platform d'.config.type := by
    have a := hdef d.config.type
    have b := hdef d'.config.type
    revert ht a b
    cases resolveType e.platform d.config.type <;> cases resolveType e.platform d'.config.type <;> simp
  unfold urlOf settled DlEnv.url
  dsimp only
  rw [hr, hty, h]

theorem catalog_dests (hC : Catalog U) (hD : DigestShape e.digest) (hos : e.platform.os ≠ .other) {ds : List PkgDl} (hds : ∀ d ∈ ds, U d)
    (hn : (ds.map fun d => d.package.package).Nodup) : (ds.map e.dest).Nodup :=
  map_nodup_of_inj hn fun x hx y hy h => (dest_same hC hD hos (hds x hx) (hds y hy) h).2

/-- The directories made are not at the places of packages. -/
theorem mkDirs_keeps (hD : DigestShape e.digest) (hos : e.platform.os ≠ .other) {ds : List PkgDl} (hds : ∀ d ∈ ds, PlainNames d) (fs : Fs)
    {d : PkgDl} (hd : PlainNames d) : e.mkDirs fs ds (e.dest d) = fs (e.dest d) := by
  have hr : ∀ r ∈ (getRepos ds).map Prod.snd, '/' ∉ r.name := by
    intro r hr
    obtain ⟨d, hd, rfl⟩ := mem_getRepos hr
    exact (hds d hd).1
  rcases mkRepos_cases e hD _ hr fs (e.dest d) with h | ⟨⟨r', _, h⟩, _, _⟩
  · exact h
  · exfalso
    rw [dest_eq e d hD hd hos] at h
    unfold srcDir binDir at h
    by_cases hb : resolveType e.platform d.config.type = .binary
    · rw [if_pos hb] at h
      rcases h with h | h <;> rw [List.prefix_append_right_inj] at h <;> simp at h
    · rw [if_neg hb] at h
      rcases h with h | h <;> rw [List.prefix_append_right_inj] at h <;> simp at h

/-- The directories of the packages are made. -/
theorem mkDirs_makes (hC : Catalog U) (hD : DigestShape e.digest) (hos : e.platform.os ≠ .other) {ds : List PkgDl} (hds : ∀ d ∈ ds, U d) (fs : Fs)
    {d : PkgDl} (hd : d ∈ ds) (hf : ∀ c, fs (dirPath (e.dest d)) ≠ some (.file c)) : e.mkDirs fs ds (dirPath (e.dest d)) = some .dir := by
  have hr : ∀ r ∈ (getRepos ds).map Prod.snd, '/' ∉ r.name := by
    intro r hr
    obtain ⟨d, hd, rfl⟩ := mem_getRepos hr
    exact (hC.plain d (hds d hd)).1
  obtain ⟨r, hrm, hname, d', hd', hr'⟩ := exists_getRepos hd
  have hrr : r = d.config.repo := by
    rw [← hr'] at hname ⊢
    exact hC.oneRepo d' d (hds d' hd') (hds d hd) hname
  refine mkRepos_made e hD _ hr fs _ ⟨r, hrm, ?_⟩ hf
  rw [hrr, dest_eq e d hD (hC.plain d (hds d hd)) hos]
  unfold srcDir binDir
  by_cases hb : resolveType e.platform d.config.type = .binary
  · right; rw [if_pos hb]; simp [dirPath]
  · left; rw [if_neg hb]; simp [dirPath]

/-- Every package in the cache is what is published. -/
def TrueCache (e : DlEnv) (published : Str → Option Str) (U : PkgDl → Prop) (fs : Fs) : Prop :=
  ∀ d, U d → ∀ n, fs (e.dest d) = some n → ∃ c, n = .file c ∧ published (urlOf e d) = some c

/-- One run, from a cache in which everything is as published. -/
theorem cache_run (hC : Catalog U) (hD : DigestShape e.digest) (hos : e.platform.os ≠ .other) {srv : Str → Response} (hs : TellsTruth srv published)
    {ds : List PkgDl} (hds : ∀ d ∈ ds, U d) (hn : (ds.map fun d => d.package.package).Nodup) {fs : Fs} {s : FineState}
    (h : FineReach (later e srv) ds fs s) (hr : s.returned = true) (hT : TrueCache e published U fs) : TrueCache e published U s.fs := by
  intro d hd n hdn
  obtain ⟨h1, _, h3⟩ := C47_fine_schedule_independent (later e srv) ds fs s hn (catalog_dests hC (e := later e srv) hD hos hds hn) h hr
  have hk : (later e srv).mkDirs fs ds (e.dest d) = fs (e.dest d) :=
    mkDirs_keeps (e := later e srv) hD hos (fun d hd => hC.plain d (hds d hd)) fs (hC.plain d hd)
  by_cases hm : ∃ d' ∈ ds, e.dest d' = e.dest d
  · obtain ⟨d', hd', he⟩ := hm
    have h1' := (h1 d' hd').2
    have hu : urlOf e d' = urlOf e d := (dest_same hC hD hos (hds d' hd') hd he).1
    have hde : (later e srv).dest d' = e.dest d := he
    rw [hde] at h1'
    unfold alone DlEnv.downloadPackage at h1'
    rw [hde] at h1'
    by_cases hx : ((later e srv).mkDirs fs ds).ex (e.dest d) = true
    · rw [if_pos hx] at h1'
      rw [h1'] at hdn
      dsimp only at hdn
      rw [hk] at hdn
      exact hT d hd n hdn
    · rw [if_neg hx] at h1'
      have hnone : (later e srv).mkDirs fs ds (e.dest d) = none := by simpa [Fs.ex] using hx
      have hur : (later e srv).url (settled (later e srv).platform d') (e.dest d) = urlOf e d := by
        rw [← hu, ← he]; rfl
      rw [hur] at h1'
      cases ha : srv (urlOf e d) with
      | body c b =>
        obtain ⟨rfl, hp⟩ := hs _ _ _ ha
        have ha' : (later e srv).server (urlOf e d) = .body c true := ha
        rw [ha'] at h1'
        dsimp only at h1'
        split at h1'
        · dsimp only at h1'; rw [hdn, hnone] at h1'; cases h1'
        · simp only [if_true, Fs.set] at h1'
          rw [hdn] at h1'
          simp only [Option.some.injEq] at h1'
          exact ⟨c, h1', hp⟩
      | _ =>
        have ha' : (later e srv).server (urlOf e d) = _ := ha
        rw [ha'] at h1'
        dsimp only at h1'
        rw [hdn, hnone] at h1'
        cases h1'
  · rw [h3 (e.dest d) (fun d' hd' he => hm ⟨d', hd', he⟩), hk] at hdn
    exact hT d hd n hdn

/-- C171, the cache: after any past without interrupted runs, every package file in the cache is the one that is published at the URL from which
the package would be downloaded now. -/
theorem C171_true_partial (hC : Catalog U) (hD : DigestShape e.digest) (hos : e.platform.os ≠ .other) {fs : Fs} (h : CacheLife e published U fs)
    (d : PkgDl) (hd : U d) : fs (e.dest d) = none ∨ ∃ c, published (urlOf e d) = some c ∧ fs (e.dest d) = some (.file c) := by
  have key : TrueCache e published U fs := by
    induction h with
    | fresh fs hf => intro d hd n hn; rw [hf d hd] at hn; cases hn
    | run srv ds s _ ht hds hn hr hret ih => exact cache_run hC hD hos ht hds hn hr hret ih
    | change fs' _ hch ih =>
      intro d hd n hn
      rcases hch d hd with h | h
      · rw [h] at hn; exact ih d hd n hn
      · rw [h] at hn; cases hn
  cases hx : fs (e.dest d) with
  | none => exact .inl rfl
  | some n =>
    obtain ⟨c, rfl, hp⟩ := key d hd n hx
    exact .inr ⟨c, hp, rfl⟩

/-- What the run makes of one package, when its directory can be made. -/
theorem cache_one (hC : Catalog U) (hD : DigestShape e.digest) (hos : e.platform.os ≠ .other)
    {ds : List PkgDl} (hds : ∀ d ∈ ds, U d) (hn : (ds.map fun d => d.package.package).Nodup) {fs : Fs} {s : FineState}
    (h : FineReach e ds fs s) (hr : s.returned = true) {d : PkgDl} (hd : d ∈ ds) (hf : ∀ c, fs (dirPath (e.dest d)) ≠ some (.file c)) :
    (fs (e.dest d) ≠ none → s.fs (e.dest d) = fs (e.dest d) ∧
      GoMap.get? s.result d.package.package = some { path := .abs (e.dest d), new := false, metadata := settled e.platform d, size := 0 }) ∧
    (fs (e.dest d) = none → match e.server (urlOf e d) with
      | .body c true => s.fs (e.dest d) = some (.file c) ∧
        GoMap.get? s.result d.package.package = some { path := .abs (e.dest d), new := true, metadata := settled e.platform d, size := c.length }
      | .body c false => s.fs (e.dest d) = some (.file c) ∧ GoMap.get? s.result d.package.package = none
      | .badStatus => s.fs (e.dest d) = none ∧ GoMap.get? s.result d.package.package = some { metadata := settled e.platform d }
      | _ => s.fs (e.dest d) = none ∧ GoMap.get? s.result d.package.package = none) := by
  obtain ⟨h1, _, _⟩ := C47_fine_schedule_independent e ds fs s hn (catalog_dests hC hD hos hds hn) h hr
  obtain ⟨h1, h2⟩ := h1 d hd
  have hk := mkDirs_keeps hD hos (fun d hd => hC.plain d (hds d hd)) fs (hC.plain d (hds d hd))
  have hm := mkDirs_makes hC hD hos hds fs hd hf
  unfold alone DlEnv.downloadPackage at h1 h2
  refine ⟨fun hx => ?_, fun hx => ?_⟩
  · have hx' : (e.mkDirs fs ds).ex (e.dest d) = true := by
      unfold Fs.ex; rw [hk]; cases hz : fs (e.dest d) with | none => exact absurd hz hx | some _ => rfl
    rw [if_pos hx'] at h1 h2
    exact ⟨by rw [h2]; exact hk, h1⟩
  · have hx' : ¬ (e.mkDirs fs ds).ex (e.dest d) = true := by unfold Fs.ex; rw [hk, hx]; simp
    rw [if_neg hx'] at h1 h2
    have hu : e.url (settled e.platform d) (e.dest d) = urlOf e d := rfl
    rw [hu] at h1 h2
    rw [hx] at hk
    cases ha : e.server (urlOf e d) with
    | body c b =>
      rw [ha] at h1 h2
      have hdir : (e.mkDirs fs ds).isDir (dirPath (e.dest d)) = true := by simp [Fs.isDir, hm]
      cases b <;> simp [hdir, entryOf, Fs.set] at h1 h2 ⊢ <;> exact ⟨h2, h1⟩
    | _ => rw [ha] at h1 h2; simp only [entryOf] at h1 h2 ⊢; exact ⟨by rw [h2]; exact hk, h1⟩

/-- C171, what is provided: after any past without interrupted runs, and whichever servers can be reached now, the downloads have the file of a
package for the queue exactly if it is in the cache or delivered now, and that file is the published one. Missing: interrupted runs
(C46), and changes of the repository's suffix or of the system, see `C171_violated_suffix` and `C171_violated_system`. -/
theorem C171_provided_partial (hC : Catalog U) (hD : DigestShape e.digest) (hos : e.platform.os ≠ .other) {fs : Fs} (hl : CacheLife e published U fs)
    (ht : TellsTruth e.server published) {ds : List PkgDl} (hds : ∀ d ∈ ds, U d) (hn : (ds.map fun d => d.package.package).Nodup) {s : FineState}
    (h : FineReach e ds fs s) (hr : s.returned = true) {d : PkgDl} (hd : d ∈ ds) (hf : ∀ c, fs (dirPath (e.dest d)) ≠ some (.file c)) :
    (Provided e s d ↔ (fs (e.dest d) ≠ none ∨ ∃ c, e.server (urlOf e d) = .body c true)) ∧
    (Provided e s d → ∃ c, published (urlOf e d) = some c ∧ s.fs (e.dest d) = some (.file c)) := by
  obtain ⟨k1, k2⟩ := cache_one hC hD hos hds hn h hr hd hf
  rcases C171_true_partial hC hD hos hl d (hds d hd) with hx | ⟨c, hp, hx⟩
  · have k2 := k2 hx
    cases ha : e.server (urlOf e d) with
    | body c b =>
      obtain ⟨rfl, hp⟩ := ht _ _ _ ha
      rw [ha] at k2
      dsimp only at k2
      have hP : Provided e s d := ⟨_, k2.2, rfl, rfl⟩
      exact ⟨⟨fun _ => .inr ⟨c, rfl⟩, fun _ => hP⟩, fun _ => ⟨c, hp, k2.1⟩⟩
    | _ =>
      rw [ha] at k2
      dsimp only at k2
      have hP : ¬ Provided e s d := by
        rintro ⟨dl, g, p, _⟩
        rw [k2.2] at g
        cases g <;> simp at p
      refine ⟨⟨fun h => absurd h hP, ?_⟩, fun h => absurd h hP⟩
      rintro (h | ⟨c, h⟩)
      · exact absurd hx h
      · cases h
  · have hne : fs (e.dest d) ≠ none := by rw [hx]; simp
    obtain ⟨a, b⟩ := k1 hne
    exact ⟨⟨fun _ => .inl hne, fun _ => ⟨_, b, rfl, rfl⟩⟩, fun _ => ⟨c, hp, a.trans hx⟩⟩

/-- C171, the cache changes nothing: if the servers deliver what is published, downloads of the same packages from two caches, each with any
past without interrupted runs (say, a full one and an empty one), and in any two interleavings, hand the same files to the queue: the
table names the same places and packages, and the contents are the same. Missing: as in `C171_provided_partial`. -/
theorem C171_same_partial (hC : Catalog U) (hD : DigestShape e.digest) (hos : e.platform.os ≠ .other) {fs fs' : Fs} (hl : CacheLife e published U fs)
    (hl' : CacheLife e published U fs') (ht : TellsTruth e.server published) (hup : AllUp e.server published)
    {ds : List PkgDl} (hds : ∀ d ∈ ds, U d) (hn : (ds.map fun d => d.package.package).Nodup)
    (hf : ∀ d ∈ ds, ∀ c, fs (dirPath (e.dest d)) ≠ some (.file c)) (hf' : ∀ d ∈ ds, ∀ c, fs' (dirPath (e.dest d)) ≠ some (.file c))
    {s s' : FineState} (h : FineReach e ds fs s) (hr : s.returned = true) (h' : FineReach e ds fs' s') (hr' : s'.returned = true) :
    (∀ d ∈ ds, s.fs (e.dest d) = s'.fs (e.dest d)) ∧
    ∀ k, (GoMap.get? s.result k).map (fun dl => (dl.path, dl.metadata)) = (GoMap.get? s'.result k).map (fun dl => (dl.path, dl.metadata)) := by
  have key : ∀ d ∈ ds, s.fs (e.dest d) = s'.fs (e.dest d) ∧ (GoMap.get? s.result d.package.package).map (fun dl => (dl.path, dl.metadata)) =
      (GoMap.get? s'.result d.package.package).map (fun dl => (dl.path, dl.metadata)) := by
    intro d hd
    have one := cache_one hC hD hos hds hn h hr hd (hf d hd)
    have two := cache_one hC hD hos hds hn h' hr' hd (hf' d hd)
    have sd : ∀ {fs : Fs} {s : FineState}, CacheLife e published U fs →
        ((fs (e.dest d) ≠ none → s.fs (e.dest d) = fs (e.dest d) ∧
          GoMap.get? s.result d.package.package = some { path := .abs (e.dest d), new := false, metadata := settled e.platform d, size := 0 }) ∧
        (fs (e.dest d) = none → match e.server (urlOf e d) with
          | .body c true => s.fs (e.dest d) = some (.file c) ∧
            GoMap.get? s.result d.package.package = some { path := .abs (e.dest d), new := true, metadata := settled e.platform d, size := c.length }
          | .body c false => s.fs (e.dest d) = some (.file c) ∧ GoMap.get? s.result d.package.package = none
          | .badStatus => s.fs (e.dest d) = none ∧ GoMap.get? s.result d.package.package = some { metadata := settled e.platform d }
          | _ => s.fs (e.dest d) = none ∧ GoMap.get? s.result d.package.package = none)) →
        ((∃ c, published (urlOf e d) = some c ∧ s.fs (e.dest d) = some (.file c) ∧
          (GoMap.get? s.result d.package.package).map (fun dl => (dl.path, dl.metadata)) = some (.abs (e.dest d), settled e.platform d)) ∨
        (published (urlOf e d) = none ∧ s.fs (e.dest d) = none ∧ (GoMap.get? s.result d.package.package).map (fun dl => (dl.path, dl.metadata)) =
          if e.server (urlOf e d) = .badStatus then some (({} : Download).path, settled e.platform d) else none)) := by
      intro fs s hl hk
      obtain ⟨k1, k2⟩ := hk
      rcases C171_true_partial hC hD hos hl d (hds d hd) with hx | ⟨c, hp, hx⟩
      · have k2 := k2 hx
        cases hp : published (urlOf e d) with
        | some c =>
          rw [hup _ _ hp] at k2
          exact .inl ⟨c, rfl, k2.1, by rw [k2.2]; rfl⟩
        | none =>
          right
          cases ha : e.server (urlOf e d) with
          | body c b => have := (ht _ _ _ ha).2; rw [hp] at this; cases this
          | _ => rw [ha] at k2; dsimp only at k2; exact ⟨rfl, k2.1, by rw [k2.2]; simp⟩
      · obtain ⟨a, b⟩ := k1 (by rw [hx]; simp)
        exact .inl ⟨c, hp, a.trans hx, by rw [b]; rfl⟩
    rcases sd hl one with ⟨c, p, a, b⟩ | ⟨p, a, b⟩ <;> rcases sd hl' two with ⟨c', p', a', b'⟩ | ⟨p', a', b'⟩
    · rw [p] at p'; cases p'; exact ⟨a.trans a'.symm, b.trans b'.symm⟩
    · rw [p] at p'; cases p'
    · rw [p] at p'; cases p'
    · exact ⟨a.trans a'.symm, b.trans b'.symm⟩
  refine ⟨fun d hd => (key d hd).1, fun k => ?_⟩
  by_cases hk : ∃ d ∈ ds, d.package.package = k
  · obtain ⟨d, hd, rfl⟩ := hk
    exact (key d hd).2
  · have hk' : ∀ d ∈ ds, d.package.package ≠ k := fun d hd he => hk ⟨d, hd, he⟩
    rw [(C47_fine_schedule_independent e ds fs s hn (catalog_dests hC hD hos hds hn) h hr).2.1 k hk',
      (C47_fine_schedule_independent e ds fs' s' hn (catalog_dests hC hD hos hds hn) h' hr').2.1 k hk']

/-- C171, for the whole run: after any past without interrupted runs the cache is fit for an installation (as supposed in C118), if the
servers deliver what is published and what is published for the planned packages is those packages. -/
theorem C171_fit_partial (hC : Catalog U) (hD : DigestShape e.digest) (hos : e.platform.os ≠ .other) {fs : Fs} (hl : CacheLife e published U fs)
    (hup : AllUp e.server published) {q : QEnv} {ip : InstallPlan} {Holds : Str → Str → Prop} (hip : ∀ d ∈ ip.downloads, U d)
    (hpub : ∀ d ∈ ip.downloads, ∃ c, published (urlOf e d) = some c ∧ Holds d.package.package c)
    (hdirs : ∀ d ∈ ip.downloads, ∀ x, e.base <+: x → x <+: dirPath (e.dest d) → ∀ c, fs x ≠ some (.file c))
    (hbin : ∀ d ∈ ip.downloads, ∀ b, q.ie.cachedBinary d = some b → fs b = none) : Stocked e q ip Holds fs where
  dirs := hdirs
  files := by
    intro d hd n hn
    obtain ⟨c, hp, hh⟩ := hpub d hd
    rcases C171_true_partial hC hD hos hl d (hip d hd) with h | ⟨c', hp', h⟩
    · rw [h] at hn; cases hn
    · rw [hp] at hp'; cases hp'
      rw [h] at hn; cases hn
      exact ⟨c, rfl, hh⟩
  served := by
    intro d hd _
    obtain ⟨c, hp, hh⟩ := hpub d hd
    exact ⟨c, hup _ _ hp, hh⟩
  binaries := by
    intro d hd b n hb hn
    rw [hbin d hd b hb] at hn; cases hn

/-! ### Changes that the cache does not notice -/

/-- The downloads of one package that is found in the cache. -/
theorem found_run (e : DlEnv) (d : PkgDl) (fs : Fs) (h : e.mkDirs fs [d] (e.dest d) ≠ none) :
    ∃ s, FineReach e [d] fs s ∧ s.returned = true ∧ s.fs = e.mkDirs fs [d] ∧
      GoMap.get? s.result d.package.package = some { path := .abs (e.dest d), new := false, metadata := settled e.platform d, size := 0 } := by
  have hex : Fs.ex (e.mkDirs fs [d]) (e.dest d) = true := by
    unfold Fs.ex; cases hz : e.mkDirs fs [d] (e.dest d) with | none => exact absurd hz h | some _ => rfl
  refine ⟨{ fs := e.mkDirs fs [d], phases := [.done], returned := true, result := [(d.package.package, { path := .abs (e.dest d), new := false, metadata := settled e.platform d, size := 0 })] },
      ⟨[.spawn, .acquire 0, .io 0 .check, .finish 0, .ret], ?_⟩, rfl, rfl, ?_⟩
  · simp [DlEnv.fineRun, DlEnv.fineStep, DlEnv.fineInit, DlEnv.fetchAct, FineState.moved, hex, semCap, FinePhase.isHolding, storeResult,
      GoMap.put, GoMap.del, DlEnv.resolved, settled]
  · simp [GoMap.get?]

/-- The downloads of one package that is delivered. -/
theorem delivered_run (e : DlEnv) (d : PkgDl) (fs : Fs) (c : Str) (h : e.mkDirs fs [d] (e.dest d) = none)
    (hdir : e.mkDirs fs [d] (dirPath (e.dest d)) = some .dir) (hs : e.server (urlOf e d) = .body c true) (hc : c ≠ []) :
    ∃ s, FineReach e [d] fs s ∧ s.returned = true ∧ s.fs = (e.mkDirs fs [d]).set (e.dest d) (.file c) := by
  have hex : Fs.ex (e.mkDirs fs [d]) (e.dest d) = false := by unfold Fs.ex; rw [h]; rfl
  have hs' : e.server (e.url { config := { repo := d.config.repo, type := resolveType e.platform d.config.type }, package := d.package } (e.dest d)) = .body c true := hs
  have hd1 : Fs.isDir (e.mkDirs fs [d]) (dirPath (e.dest d)) = true := by simp [Fs.isDir, hdir]
  have hd2 : Fs.isDir (e.mkDirs fs [d]) (e.dest d) = false := by simp [Fs.isDir, h]
  have hl : 0 < c.length := List.length_pos_iff.2 hc
  have hset : ∀ (f : Fs) (p : Path) (x y : Node), (f.set p x).set p y = f.set p y := by
    intro f p x y; funext q; unfold Fs.set; split <;> rfl
  have hw : ∀ (f : Fs) (p : Path) (x : Node), (f.set p x) p = some x := by intro f p x; simp [Fs.set]
  refine ⟨{ fs := (e.mkDirs fs [d]).set (e.dest d) (.file c), phases := [.done], returned := true, result := [(d.package.package, { path := .abs (e.dest d), new := true, metadata := settled e.platform d, size := c.length })] },
      ⟨[.spawn, .acquire 0, .io 0 .check, .io 0 .reply, .io 0 .create, .io 0 (.write c.length), .io 0 .close, .finish 0, .ret], ?_⟩, rfl, rfl⟩
  simp [DlEnv.fineRun, DlEnv.fineStep, DlEnv.fineInit, DlEnv.fetchAct, FineState.moved, hex, semCap, FinePhase.isHolding, storeResult,
      GoMap.put, GoMap.del, hs', hd1, hd2, hl, hw, hset, writeAt, DlEnv.resolved, settled]

/-- Two downloads of one place in the cache: the second gets the file of the first. -/
theorem stale_file {e e' : DlEnv} {d d' : PkgDl} (hdest : e'.dest d' = e.dest d) (hdirs : ∀ fs, e'.mkDirs fs [d'] = e.mkDirs fs [d])
    (fs : Fs) {c c' : Str} (h : e.mkDirs fs [d] (e.dest d) = none) (hdir : e.mkDirs fs [d] (dirPath (e.dest d)) = some .dir)
    (hs : e.server (urlOf e d) = .body c true) (hs' : e'.server (urlOf e' d') = .body c' true) (hc : c ≠ []) (hc' : c' ≠ []) :
    ∃ s s' s'', (FineReach e [d] fs s ∧ s.returned = true) ∧ (FineReach e' [d'] s.fs s' ∧ s'.returned = true) ∧
      (FineReach e' [d'] fs s'' ∧ s''.returned = true) ∧ Provided e' s' d' ∧
      s'.fs (e'.dest d') = some (.file c) ∧ s''.fs (e'.dest d') = some (.file c') := by
  obtain ⟨s, a1, a2, a3⟩ := delivered_run e d fs c h hdir hs hc
  obtain ⟨s'', b1, b2, b3⟩ := delivered_run e' d' fs c' (by rw [hdirs, hdest, h]) (by rw [hdirs, hdest, hdir]) hs' hc'
  have hk : e'.mkDirs s.fs [d'] (e'.dest d') = some (.file c) := by
    have hx : s.fs (e'.dest d') = some (.file c) := by rw [a3, hdest]; simp [Fs.set]
    rcases mkDirs_contents e' s.fs [d'] (e'.dest d') with k | ⟨k, _⟩
    · rw [k, hx]
    · rw [k] at hx; cases hx
  obtain ⟨s', k1, k2, k3, k4⟩ := found_run e' d' s.fs (by rw [hk]; simp)
  exact ⟨s, s', s'', ⟨a1, a2⟩, ⟨k1, k2⟩, ⟨b1, b2⟩, ⟨_, k4, rfl, rfl⟩, by rw [k3, hk], by rw [b3]; simp [Fs.set]⟩

/-- Package `d` from its repository with another suffix (`RepoSuffix` in the customizations of pkgr.yml). -/
def withSuffix (d : PkgDl) (suffix : Str) : PkgDl :=
  { config := { repo := { url := d.config.repo.url, name := d.config.repo.name, suffix := suffix }, type := d.config.type }, package := d.package }

/-- C171 is violated when the suffix of a repository is changed: it is part of the URL of a binary, but not of its place in the cache. After a
run that downloaded the package, a run with another suffix uses that file as the package, whatever the server delivers for the
other suffix; a run with an empty cache gets what the server delivers. -/
theorem C171_violated_suffix (e : DlEnv) (d : PkgDl) (suffix : Str) (fs : Fs) (c c' : Str)
    (h : e.mkDirs fs [d] (e.dest d) = none) (hdir : e.mkDirs fs [d] (dirPath (e.dest d)) = some .dir)
    (hs : e.server (urlOf e d) = .body c true) (hs' : e.server (urlOf e (withSuffix d suffix)) = .body c' true) (hc : c ≠ []) (hc' : c' ≠ []) :
    ∃ s s' s'', (FineReach e [d] fs s ∧ s.returned = true) ∧ (FineReach e [withSuffix d suffix] s.fs s' ∧ s'.returned = true) ∧
      (FineReach e [withSuffix d suffix] fs s'' ∧ s''.returned = true) ∧ Provided e s' (withSuffix d suffix) ∧
      s'.fs (e.dest (withSuffix d suffix)) = some (.file c) ∧ s''.fs (e.dest (withSuffix d suffix)) = some (.file c') :=
  stale_file (e := e) (e' := e) (d := d) (d' := withSuffix d suffix) rfl (fun _ => rfl) fs h hdir hs hs' hc hc'

/-- C171 is violated when the system is replaced by a newer one, too: a binary is for a distribution of Linux, which is part of its URL, but not
of its place in the cache. The new system uses the binary for the old one. -/
theorem C171_violated_system (e : DlEnv) (d : PkgDl) (distribution : Str) (fs : Fs) (c c' : Str)
    (h : e.mkDirs fs [d] (e.dest d) = none) (hdir : e.mkDirs fs [d] (dirPath (e.dest d)) = some .dir)
    (hs : e.server (urlOf e d) = .body c true) (hs' : e.server (urlOf { e with linuxUri := distribution } d) = .body c' true) (hc : c ≠ []) (hc' : c' ≠ []) :
    ∃ s s' s'', (FineReach e [d] fs s ∧ s.returned = true) ∧ (FineReach { e with linuxUri := distribution } [d] s.fs s' ∧ s'.returned = true) ∧
      (FineReach { e with linuxUri := distribution } [d] fs s'' ∧ s''.returned = true) ∧ Provided { e with linuxUri := distribution } s' d ∧
      s'.fs (e.dest d) = some (.file c) ∧ s''.fs (e.dest d) = some (.file c') :=
  stale_file (e := e) (e' := { e with linuxUri := distribution }) (d := d) (d' := d) rfl (fun _ => rfl) fs h hdir hs hs' hc hc'

/-! ### Examples -/

/-- A Linux computer with R 4.1; the content of every file is its URL. -/
def cuEnv (distribution : Str) : DlEnv :=
  { server := fun u => .body u true, digest := fun u => (u.filter (· ≠ '/') ++ List.replicate 12 'x').take 12, platform := { os := .linux },
    linuxUri := distribution, rv := ⟨4, 1, 0⟩, base := [s%"cache"] }

/-- A package as a binary from repository R with suffix `x`. -/
def cuPkg (name : Str) : PkgDl :=
  { config := { repo := { url := s%"https:hh", name := s%"R", suffix := s%"x" }, type := .binary },
    package := { package := name, version := s%"1" } }

/-- The contents do differ. -/
example : (cuEnv (s%"focal")).mkDirs (fun _ => none) [cuPkg (s%"a")] ((cuEnv (s%"focal")).dest (cuPkg (s%"a"))) = none ∧
    (cuEnv (s%"focal")).mkDirs (fun _ => none) [cuPkg (s%"a")] (dirPath ((cuEnv (s%"focal")).dest (cuPkg (s%"a")))) = some .dir ∧
    urlOf (cuEnv (s%"focal")) (cuPkg (s%"a")) = s%"https:hh/bin/linux/focal/x/contrib/4.1/a_1_R_x86_64-pc-linux-gnu.tar.gz" ∧
    urlOf (cuEnv (s%"focal")) (withSuffix (cuPkg (s%"a")) (s%"y")) = s%"https:hh/bin/linux/focal/y/contrib/4.1/a_1_R_x86_64-pc-linux-gnu.tar.gz" ∧
    urlOf { cuEnv (s%"focal") with linuxUri := s%"jammy" } (cuPkg (s%"a")) = s%"https:hh/bin/linux/jammy/x/contrib/4.1/a_1_R_x86_64-pc-linux-gnu.tar.gz" := by
  decide +kernel

theorem cu_catalog : Catalog (fun d => d = cuPkg (s%"a") ∨ d = cuPkg (s%"b")) :=
  ⟨by rintro d (rfl | rfl) <;> decide, by rintro d d' (rfl | rfl) (rfl | rfl) _ <;> rfl⟩

theorem cu_digest : DigestShape (cuEnv (s%"focal")).digest := by
  intro u
  refine ⟨by simp [cuEnv], fun h => ?_⟩
  have := List.mem_of_mem_take h
  simp at this

theorem cu_served : TellsTruth (cuEnv (s%"focal")).server some ∧ AllUp (cuEnv (s%"focal")).server some := by
  refine ⟨fun u c b h => ?_, fun u c h => ?_⟩
  · injection h with h1 h2; subst h1; exact ⟨h2.symm, rfl⟩
  · injection h with h; subst h; rfl

/-- A cache with a past: package `a` was downloaded by an earlier run. The next run, with the servers out of reach, has the package; and with the
servers back, runs with this cache and with an empty one hand the same to the queue. -/
example : ∃ fs, CacheLife (cuEnv (s%"focal")) some (fun d => d = cuPkg (s%"a") ∨ d = cuPkg (s%"b")) fs ∧
    fs ((cuEnv (s%"focal")).dest (cuPkg (s%"a"))) = some (.file (urlOf (cuEnv (s%"focal")) (cuPkg (s%"a")))) ∧
    (∃ s, FineReach (later (cuEnv (s%"focal")) fun _ => .netError) [cuPkg (s%"a")] fs s ∧ s.returned = true ∧
      Provided (later (cuEnv (s%"focal")) fun _ => .netError) s (cuPkg (s%"a"))) ∧
    ∃ s s', FineReach (cuEnv (s%"focal")) [cuPkg (s%"a")] fs s ∧ s.returned = true ∧
      FineReach (cuEnv (s%"focal")) [cuPkg (s%"a")] (fun _ => none) s' ∧ s'.returned = true ∧
      s.fs ((cuEnv (s%"focal")).dest (cuPkg (s%"a"))) = s'.fs ((cuEnv (s%"focal")).dest (cuPkg (s%"a"))) := by
  obtain ⟨s, a1, a2, a3⟩ := delivered_run (cuEnv (s%"focal")) (cuPkg (s%"a")) (fun _ => none) _ (by decide +kernel) (by decide +kernel) rfl (by decide +kernel)
  have hfresh : CacheLife (cuEnv (s%"focal")) some (fun d => d = cuPkg (s%"a") ∨ d = cuPkg (s%"b")) (fun _ => none) := .fresh _ fun _ _ => rfl
  have hlife : CacheLife (cuEnv (s%"focal")) some (fun d => d = cuPkg (s%"a") ∨ d = cuPkg (s%"b")) s.fs :=
    .run (cuEnv (s%"focal")).server [cuPkg (s%"a")] s hfresh cu_served.1 (by simp) (by simp) a1 a2
  have hx : s.fs ((cuEnv (s%"focal")).dest (cuPkg (s%"a"))) = some (.file (urlOf (cuEnv (s%"focal")) (cuPkg (s%"a")))) := by
    rw [a3]; simp [Fs.set]
  have hdir : s.fs (dirPath ((cuEnv (s%"focal")).dest (cuPkg (s%"a")))) = some .dir := by
    rw [a3]; decide +kernel
  have hk : ∀ e : DlEnv, e.mkDirs s.fs [cuPkg (s%"a")] ((cuEnv (s%"focal")).dest (cuPkg (s%"a"))) ≠ none := by
    intro e
    rcases mkDirs_contents e s.fs [cuPkg (s%"a")] ((cuEnv (s%"focal")).dest (cuPkg (s%"a"))) with k | ⟨k, _⟩
    · rw [k, hx]; simp
    · rw [k] at hx; cases hx
  obtain ⟨t, b1, b2, _, b4⟩ := found_run (later (cuEnv (s%"focal")) fun _ => .netError) (cuPkg (s%"a")) s.fs (hk _)
  obtain ⟨u, c1, c2, _, _⟩ := found_run (cuEnv (s%"focal")) (cuPkg (s%"a")) s.fs (hk _)
  refine ⟨s.fs, hlife, hx, ⟨t, b1, b2, _, b4, rfl, rfl⟩, u, s, c1, c2, a1, a2, ?_⟩
  exact (C171_same_partial cu_catalog cu_digest (by decide) hlife hfresh cu_served.1 cu_served.2 (ds := [cuPkg (s%"a")]) (by simp) (by simp)
    (by intro d hd c; simp only [List.mem_singleton] at hd; subst hd; rw [hdir]; simp) (by simp) c1 c2 a1 a2).1 _ (by simp)

/-- The plan to install package `a`, from that cache or from an empty one. -/
example : ∃ fs, CacheLife (cuEnv (s%"focal")) some (fun d => d = cuPkg (s%"a") ∨ d = cuPkg (s%"b")) fs ∧
    fs ((cuEnv (s%"focal")).dest (cuPkg (s%"a"))) ≠ none ∧
    ∀ d ∈ ({ downloads := [cuPkg (s%"a")] } : InstallPlan).downloads, (d = cuPkg (s%"a") ∨ d = cuPkg (s%"b")) ∧
      (∃ c, some (urlOf (cuEnv (s%"focal")) d) = some c ∧ c ≠ []) ∧
      ∀ x, (cuEnv (s%"focal")).base <+: x → x <+: dirPath ((cuEnv (s%"focal")).dest d) → ∀ c, fs x ≠ some (.file c) := by
  obtain ⟨s, a1, a2, a3⟩ := delivered_run (cuEnv (s%"focal")) (cuPkg (s%"a")) (fun _ => none) _ (by decide +kernel) (by decide +kernel) rfl (by decide +kernel)
  refine ⟨s.fs, .run (cuEnv (s%"focal")).server [cuPkg (s%"a")] s (.fresh _ fun _ _ => rfl) cu_served.1 (by simp) (by simp) a1 a2, by rw [a3]; simp [Fs.set], ?_⟩
  intro d hd
  simp only [List.mem_singleton] at hd
  subst hd
  refine ⟨.inl rfl, ⟨_, rfl, by decide +kernel⟩, fun x _ hx c h => ?_⟩
  have hne : x ≠ (cuEnv (s%"focal")).dest (cuPkg (s%"a")) := by
    rintro rfl
    have := hx.length_le
    exact absurd this (by decide +kernel)
  rw [a3] at h
  simp only [Fs.set, if_neg hne] at h
  rcases mkDirs_contents (cuEnv (s%"focal")) (fun _ => none) [cuPkg (s%"a")] x with k | ⟨_, k⟩ <;> rw [k] at h <;> cases h

end Pkgr
