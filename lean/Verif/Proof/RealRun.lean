/- Lemmas for C118: where the files of the cache are. -/
import Verif.Spec.RealRun
import Verif.Props.Download
import Verif.Props.WholeRun

namespace Pkgr
open Spec

/-! ### The directories of the cache -/

theorem mkdirAll_cases (fs : Fs) (p q : Path) : fs.mkdirAll p q = fs q ∨ (q <+: p ∧ fs q = none ∧ fs.mkdirAll p q = some .dir) := by
  unfold Fs.mkdirAll
  split
  · rename_i h; exact .inr ⟨h.1, h.2, rfl⟩
  · exact .inl rfl

theorem mkdirAll_at {fs : Fs} {p : Path} (h : ∀ c, fs p ≠ some (.file c)) : fs.mkdirAll p p = some .dir := by
  unfold Fs.mkdirAll
  split
  · rfl
  · rename_i hn
    have : fs p ≠ none := fun h0 => hn ⟨List.prefix_refl _, h0⟩
    match hp : fs p with
    | none => exact absurd hp this
    | some .dir => rfl
    | some (.file c) => exact absurd hp (h c)

/-- The two directories of a repository. -/
def srcDir (e : DlEnv) (r : RepoURL) : Path := e.base ++ [repoUrlHash e.digest r, s%"src"]
/-- see `srcDir` -/
def binDir (e : DlEnv) (r : RepoURL) : Path := e.base ++ [repoUrlHash e.digest r, s%"binary", e.rv.toStr]

theorem mkRepoDirs_eq (e : DlEnv) (hD : DigestShape e.digest) (fs : Fs) (r : RepoURL) (hr : '/' ∉ r.name) :
    e.mkRepoDirs fs r = (fs.mkdirAll (srcDir e r)).mkdirAll (binDir e r) := by
  obtain ⟨a1, a2⟩ := hash_shape hD r hr
  obtain ⟨b1, b2⟩ := rv_toStr e.rv
  unfold DlEnv.mkRepoDirs srcDir binDir
  dsimp only
  simp only [joinPaths, List.foldl_cons, List.foldl_nil]
  rw [joinPath_long _ _ a1 a2, joinPath_long _ (s%"src") (by decide) (by decide), joinPath_long _ (s%"binary") (by decide) (by decide),
    joinPath_long _ _ b1 b2]
  simp

theorem mkRepoDirs_cases (e : DlEnv) (hD : DigestShape e.digest) (fs : Fs) (r : RepoURL) (hr : '/' ∉ r.name) (q : Path) :
    e.mkRepoDirs fs r q = fs q ∨ ((q <+: srcDir e r ∨ q <+: binDir e r) ∧ fs q = none ∧ e.mkRepoDirs fs r q = some .dir) := by
  rw [mkRepoDirs_eq e hD fs r hr]
  rcases mkdirAll_cases (fs.mkdirAll (srcDir e r)) (binDir e r) q with h | ⟨h1, h2, h3⟩
  · rw [h]
    rcases mkdirAll_cases fs (srcDir e r) q with h' | ⟨h1, h2, h3⟩
    · exact .inl h'
    · exact .inr ⟨.inl h1, h2, h3⟩
  · rcases mkdirAll_cases fs (srcDir e r) q with h' | ⟨_, _, h3'⟩
    · rw [h'] at h2; exact .inr ⟨.inr h1, h2, h3⟩
    · rw [h3'] at h2; cases h2

theorem mkRepoDirs_made (e : DlEnv) (hD : DigestShape e.digest) (fs : Fs) (r : RepoURL) (hr : '/' ∉ r.name) :
    ((∀ c, fs (srcDir e r) ≠ some (.file c)) → e.mkRepoDirs fs r (srcDir e r) = some .dir) ∧
    ((∀ c, fs (binDir e r) ≠ some (.file c)) → e.mkRepoDirs fs r (binDir e r) = some .dir) := by
  rw [mkRepoDirs_eq e hD fs r hr]
  constructor
  · intro h
    have h1 := mkdirAll_at h
    rcases mkdirAll_cases (fs.mkdirAll (srcDir e r)) (binDir e r) (srcDir e r) with h' | ⟨_, h2, _⟩
    · rw [h', h1]
    · rw [h1] at h2; cases h2
  · intro h
    apply mkdirAll_at
    intro c hc
    rcases mkdirAll_cases fs (srcDir e r) (binDir e r) with h' | ⟨_, _, h3⟩
    · rw [h'] at hc; exact h c hc
    · rw [h3] at hc; cases hc

theorem mkRepos_cases (e : DlEnv) (hD : DigestShape e.digest) : ∀ (rs : List RepoURL) (_ : ∀ r ∈ rs, '/' ∉ r.name) (fs : Fs) (q : Path),
    rs.foldl e.mkRepoDirs fs q = fs q ∨
      ((∃ r ∈ rs, q <+: srcDir e r ∨ q <+: binDir e r) ∧ fs q = none ∧ rs.foldl e.mkRepoDirs fs q = some .dir) := by
  intro rs
  induction rs with
  | nil => intro _ fs q; exact .inl rfl
  | cons r rs ih =>
    intro hr fs q
    rw [List.foldl_cons]
    have h0 := mkRepoDirs_cases e hD fs r (hr r List.mem_cons_self) q
    rcases ih (fun x hx => hr x (List.mem_cons_of_mem _ hx)) (e.mkRepoDirs fs r) q with h | ⟨⟨r', hr', h1⟩, h2, h3⟩
    · rcases h0 with h0 | ⟨h1, h2, h3⟩
      · exact .inl (h.trans h0)
      · exact .inr ⟨⟨r, List.mem_cons_self, h1⟩, h2, h.trans h3⟩
    · rcases h0 with h0 | ⟨_, _, h3'⟩
      · rw [h0] at h2; exact .inr ⟨⟨r', List.mem_cons_of_mem _ hr', h1⟩, h2, h3⟩
      · rw [h3'] at h2; cases h2

theorem mkRepos_made (e : DlEnv) (hD : DigestShape e.digest) : ∀ (rs : List RepoURL) (_ : ∀ r ∈ rs, '/' ∉ r.name) (fs : Fs) (q : Path),
    (∃ r ∈ rs, q = srcDir e r ∨ q = binDir e r) → (∀ c, fs q ≠ some (.file c)) → rs.foldl e.mkRepoDirs fs q = some .dir := by
  intro rs
  induction rs with
  | nil => rintro _ fs q ⟨r, hr, _⟩; cases hr
  | cons r rs ih =>
    rintro hr fs q ⟨r', hr', hq⟩ hf
    rw [List.foldl_cons]
    have hr0 := hr r List.mem_cons_self
    have hrs := fun x hx => hr x (List.mem_cons_of_mem _ hx)
    rcases List.mem_cons.1 hr' with rfl | hr'
    · have hm : e.mkRepoDirs fs r' q = some .dir := by
        rcases hq with rfl | rfl
        · exact (mkRepoDirs_made e hD fs r' hr0).1 hf
        · exact (mkRepoDirs_made e hD fs r' hr0).2 hf
      rcases mkRepos_cases e hD rs hrs (e.mkRepoDirs fs r') q with h | ⟨_, _, h⟩
      · exact h.trans hm
      · exact h
    · refine ih hrs _ q ⟨r', hr', hq⟩ ?_
      intro c hc
      rcases mkRepoDirs_cases e hD fs r hr0 q with h | ⟨_, _, h⟩
      · rw [h] at hc; exact hf c hc
      · rw [h] at hc; cases hc

/-- The repositories found are those of the downloads, one for every name. -/
theorem getRepos_fold (ds : List PkgDl) : ∀ m : GoMap RepoURL,
    (∀ k r, GoMap.get? (ds.foldl (fun m d => GoMap.put m d.config.repo.name d.config.repo) m) k = some r →
      GoMap.get? m k = some r ∨ ∃ d ∈ ds, d.config.repo = r ∧ r.name = k) ∧
    (∀ d ∈ ds, ∃ r, GoMap.get? (ds.foldl (fun m d => GoMap.put m d.config.repo.name d.config.repo) m) d.config.repo.name = some r) ∧
    (∀ k, GoMap.get? m k ≠ none → GoMap.get? (ds.foldl (fun m d => GoMap.put m d.config.repo.name d.config.repo) m) k ≠ none) := by
  induction ds with
  | nil =>
    intro m
    refine ⟨fun k r h => .inl h, ?_, fun k h => h⟩
    intro d hd; cases hd
  | cons d ds ih =>
    intro m
    obtain ⟨h1, h2, h3⟩ := ih (GoMap.put m d.config.repo.name d.config.repo)
    rw [List.foldl_cons]
    refine ⟨?_, ?_, ?_⟩
    · intro k r h
      rcases h1 k r h with h | ⟨d', hd', h⟩
      · rw [GoMap.get?_put] at h
        split at h
        · rename_i hk
          cases h
          exact .inr ⟨d, List.mem_cons_self, rfl, hk.symm⟩
        · exact .inl h
      · exact .inr ⟨d', List.mem_cons_of_mem _ hd', h⟩
    · intro x hx
      rcases List.mem_cons.1 hx with rfl | hx
      · have := h3 x.config.repo.name (by rw [GoMap.get?_put, if_pos rfl]; simp)
        match hg : GoMap.get? (ds.foldl (fun m d => GoMap.put m d.config.repo.name d.config.repo) (GoMap.put m x.config.repo.name x.config.repo)) x.config.repo.name with
        | none => exact absurd hg this
        | some r => exact ⟨r, hg⟩
      · exact h2 x hx
    · intro k hk
      apply h3
      rw [GoMap.get?_put]
      split
      · simp
      · exact hk

theorem mem_values_of_get? {β : Type} {m : GoMap β} {k : Str} {v : β} (h : GoMap.get? m k = some v) : v ∈ m.map Prod.snd := by
  induction m with
  | nil => cases h
  | cons x m ih =>
    obtain ⟨k', v'⟩ := x
    rw [GoMap.get?_cons] at h
    split at h
    · cases h; simp
    · simp only [List.map_cons, List.mem_cons]; exact .inr (ih h)

theorem getRepos_wf (ds : List PkgDl) : ∀ m : GoMap RepoURL, GoMap.WF m →
    GoMap.WF (ds.foldl (fun m d => GoMap.put m d.config.repo.name d.config.repo) m) := by
  induction ds with
  | nil => intro m h; exact h
  | cons d ds ih => intro m h; rw [List.foldl_cons]; exact ih _ (GoMap.wf_put h _ _)

theorem mem_getRepos {ds : List PkgDl} {r : RepoURL} (h : r ∈ (getRepos ds).map Prod.snd) : ∃ d ∈ ds, d.config.repo = r := by
  obtain ⟨⟨k, v⟩, hm, rfl⟩ := List.mem_map.1 h
  have := GoMap.get?_of_mem (getRepos_wf ds [] GoMap.wf_nil) hm
  rcases (getRepos_fold ds []).1 k v this with h | ⟨d, hd, h1, _⟩
  · cases h
  · exact ⟨d, hd, h1⟩

theorem exists_getRepos {ds : List PkgDl} {d : PkgDl} (h : d ∈ ds) :
    ∃ r ∈ (getRepos ds).map Prod.snd, r.name = d.config.repo.name ∧ ∃ d' ∈ ds, d'.config.repo = r := by
  obtain ⟨r, hr⟩ := (getRepos_fold ds []).2.1 d h
  refine ⟨r, mem_values_of_get? hr, ?_⟩
  rcases (getRepos_fold ds []).1 _ r hr with h | ⟨d', hd', h1, h2⟩
  · cases h
  · exact ⟨h2, d', hd', h1⟩

/-! ### The files of the cache -/

variable {de : DlEnv} {q : QEnv} {ip : InstallPlan} {Scratch : Path → Prop} {Holds : Str → Str → Prop}

/-- The last component of a destination begins with the name of the package. -/
theorem dest_shape (hP : Places de q Scratch) {d : PkgDl} (hn : PlainNames d) :
    ∃ dir v, de.dest d = dir ++ [d.package.package ++ '_' :: v] ∧ '/' ∉ v ∧
      ((resolveType de.platform d.config.type ≠ .binary ∧ dir = srcDir de d.config.repo ∧
          d.package.package ++ '_' :: v = sourceName d.package.package d.package.version) ∨
       (resolveType de.platform d.config.type = .binary ∧ dir = binDir de d.config.repo)) := by
  have hd := dest_eq de d hP.shape hn hP.os
  obtain ⟨n1, n2, n3, n4⟩ := hn
  by_cases hb : resolveType de.platform d.config.type = .binary
  · rw [if_pos hb] at hd
    have : ∃ v, cranBinaryName de.platform.os de.rhel d.package.package d.package.version = d.package.package ++ '_' :: v ∧ '/' ∉ v := by
      unfold cranBinaryName
      cases ho : de.platform.os with
      | other => exact absurd ho hP.os
      | darwin => exact ⟨d.package.version ++ s%".tgz", by simp, by simp [n3]⟩
      | windows => exact ⟨d.package.version ++ s%".zip", by simp, by simp [n3]⟩
      | linux =>
        dsimp only
        split
        · exact ⟨d.package.version ++ s%"_R_x86_64-redhat-linux-gnu.tar.gz", by simp, by simp [n3]⟩
        · exact ⟨d.package.version ++ s%"_R_x86_64-pc-linux-gnu.tar.gz", by simp, by simp [n3]⟩
    obtain ⟨v, hv, hsl⟩ := this
    exact ⟨binDir de d.config.repo, v, by rw [hd, hv]; simp [binDir], hsl, .inr ⟨hb, rfl⟩⟩
  · rw [if_neg hb] at hd
    exact ⟨srcDir de d.config.repo, d.package.version ++ s%".tar.gz", by rw [hd]; simp [srcDir, sourceName], by simp [n3],
      .inl ⟨hb, rfl, by simp [sourceName]⟩⟩

theorem cached_shape (hP : Places de q Scratch) {d : PkgDl} (hn : PlainNames d) {b : Path} (hb : q.ie.cachedBinary d = some b) :
    ∃ v, b = binDir de d.config.repo ++ [d.package.package ++ '_' :: v] ∧
      binaryNameOs q.ie.platform.os d.package.package d.package.version q.ie.rPlatform = some (d.package.package ++ '_' :: v) := by
  obtain ⟨n1, n2, n3, n4⟩ := hn
  obtain ⟨a1, a2⟩ := hash_shape hP.shape d.config.repo n1
  obtain ⟨b1, b2⟩ := rv_toStr de.rv
  have h3 := hP.rPlatform
  have : ∃ v, binaryNameOs q.ie.platform.os d.package.package d.package.version q.ie.rPlatform = some (d.package.package ++ '_' :: v) ∧
      '/' ∉ d.package.package ++ '_' :: v ∧ 3 ≤ (d.package.package ++ '_' :: v).length := by
    unfold binaryNameOs
    cases ho : q.ie.platform.os with
    | other => exact absurd (by rw [hP.platform]; exact ho) hP.os
    | darwin => exact ⟨d.package.version ++ s%".tgz", by simp, by simp [n2, n3], by simp; omega⟩
    | windows => exact ⟨d.package.version ++ s%".zip", by simp, by simp [n2, n3], by simp; omega⟩
    | linux => exact ⟨d.package.version ++ s%"_R_" ++ q.ie.rPlatform ++ s%".tar.gz", by simp, by simp [n2, n3, h3], by simp; omega⟩
  obtain ⟨v, hv, hs, hl⟩ := this
  refine ⟨v, ?_, hv⟩
  unfold InstallEnv.cachedBinary at hb
  rw [hv, Option.map_some, Option.some.injEq, ← hP.digest, ← hP.base, ← hP.rv] at hb
  rw [← hb]
  simp only [joinPaths, List.foldl_cons, List.foldl_nil]
  rw [joinPath_long _ _ a1 a2, joinPath_long _ (s%"binary") (by decide) (by decide), joinPath_long _ _ b1 b2, joinPath_long _ _ hl hs]
  simp [binDir]

theorem srcDir_base (r : RepoURL) : de.base <+: srcDir de r := ⟨_, rfl⟩
theorem binDir_base (r : RepoURL) : de.base <+: binDir de r := ⟨_, rfl⟩
theorem srcDir_length (r : RepoURL) : (srcDir de r).length = de.base.length + 2 := by simp [srcDir]
theorem binDir_length (r : RepoURL) : (binDir de r).length = de.base.length + 3 := by simp [binDir]

theorem dest_base (hP : Places de q Scratch) {d : PkgDl} (hn : PlainNames d) : de.base <+: de.dest d := by
  rw [dest_eq de d hP.shape hn hP.os]; exact ⟨_, rfl⟩

theorem safe_of_base (hP : Places de q Scratch) {x : Path} (h : de.base <+: x) : SafePlace q Scratch x := by
  refine ⟨fun hl => ?_, fun p ht => ?_, fun hs => hP.cacheScratch x hs h⟩
  · rcases List.prefix_or_prefix_of_prefix h hl with h' | h'
    · exact hP.cacheLib.1 h'
    · exact hP.cacheLib.2 h'
  · rcases List.prefix_or_prefix_of_prefix h ht with h' | h'
    · exact (hP.cacheTmp p).1 h'
    · exact (hP.cacheTmp p).2 h'

/-- A path of the cache is where the run of the installation does not reach. -/
theorem same_of_base {lib : Path} (hA : Apart de.base lib) {fs fs1 : Fs} (h : SameElsewhere lib fs fs1) {x : Path} (hx : de.base <+: x) :
    fs1 x = fs x := by
  refine h x (fun hl => ?_) (fun hl => hA.1 (hx.trans hl))
  rcases List.prefix_or_prefix_of_prefix hx hl with h' | h'
  · exact hA.1 h'
  · exact hA.2 h'

theorem name_inj {dir dir' : Path} {p p' v v' : Str} (hp : '_' ∉ p) (hp' : '_' ∉ p') (h : dir ++ [p ++ '_' :: v] = dir' ++ [p' ++ '_' :: v']) : p = p' := by
  have := List.append_inj' h rfl
  exact (underscore_inj (by simpa using this.2) hp hp').1

theorem dest_ne (hP : Places de q Scratch) {d d' : PkgDl} (hn : PlainNames d) (hn' : PlainNames d')
    (h : de.dest d = de.dest d') : d.package.package = d'.package.package := by
  obtain ⟨x, v, h1, _⟩ := dest_shape hP hn
  obtain ⟨x', v', h2, _⟩ := dest_shape hP hn'
  rw [h1, h2] at h
  exact name_inj hn.2.2.2 hn'.2.2.2 h

theorem map_nodup_of_inj {α β γ : Type} {f : α → β} {g : α → γ} : ∀ {l : List α}, (l.map f).Nodup →
    (∀ x ∈ l, ∀ y ∈ l, g x = g y → f x = f y) → (l.map g).Nodup := by
  intro l
  induction l with
  | nil => intro _ _; exact List.nodup_nil
  | cons a l ih =>
    intro h hi
    simp only [List.map_cons, List.nodup_cons] at h ⊢
    refine ⟨?_, ih h.2 fun x hx y hy => hi x (List.mem_cons_of_mem _ hx) y (List.mem_cons_of_mem _ hy)⟩
    intro hm
    obtain ⟨y, hy, he⟩ := List.mem_map.1 hm
    exact h.1 (List.mem_map.2 ⟨y, hy, hi y (List.mem_cons_of_mem _ hy) a List.mem_cons_self he⟩)

theorem dests_once (hP : Places de q Scratch) (hG : GoodDownloads ip) : (ip.downloads.map de.dest).Nodup :=
  map_nodup_of_inj hG.once fun x hx y hy h => dest_ne hP (hG.plain x hx).1 (hG.plain y hy).1 h

/-- The directories made are above the files, not at their places. -/
theorem mkDirs_file (hP : Places de q Scratch) (hG : GoodDownloads ip) (fs : Fs) {dir : Path} {nm : Str} {r : RepoURL}
    (hdir : dir = srcDir de r ∨ dir = binDir de r) : de.mkDirs fs ip.downloads (dir ++ [nm]) = fs (dir ++ [nm]) := by
  have hr : ∀ r ∈ (getRepos ip.downloads).map Prod.snd, '/' ∉ r.name := by
    intro r hr
    obtain ⟨d, hd, rfl⟩ := mem_getRepos hr
    exact (hG.plain d hd).1.1
  rcases mkRepos_cases de hP.shape _ hr fs (dir ++ [nm]) with h | ⟨⟨r', _, h⟩, _, _⟩
  · exact h
  · exfalso
    have hl := fun {x : Path} (h : dir ++ [nm] <+: x) => h.length_le
    rcases hdir with rfl | rfl
    · rcases h with h | h
      · have := hl h; simp [srcDir_length] at this
      · unfold srcDir binDir at h
        rw [List.append_assoc, List.prefix_append_right_inj] at h
        simp only [List.cons_append, List.nil_append, List.cons_prefix_cons] at h
        exact absurd h.2.1 (by decide)
    · rcases h with h | h
      · have := hl h; simp [srcDir_length, binDir_length] at this
      · have := hl h; simp [binDir_length] at this

theorem mkDirs_dest (hP : Places de q Scratch) (hG : GoodDownloads ip) (fs : Fs) {d : PkgDl} (hd : d ∈ ip.downloads) :
    de.mkDirs fs ip.downloads (de.dest d) = fs (de.dest d) := by
  obtain ⟨dir, v, h1, _, h2⟩ := dest_shape hP (hG.plain d hd).1
  rw [h1]
  exact mkDirs_file hP hG fs (r := d.config.repo) (by rcases h2 with h2 | h2; exacts [.inl h2.2.1, .inr h2.2])

theorem mkDirs_dir (hP : Places de q Scratch) (hG : GoodDownloads ip) (fs : Fs) {d : PkgDl} (hd : d ∈ ip.downloads)
    (hf : ∀ c, fs (dirPath (de.dest d)) ≠ some (.file c)) : de.mkDirs fs ip.downloads (dirPath (de.dest d)) = some .dir := by
  have hr : ∀ r ∈ (getRepos ip.downloads).map Prod.snd, '/' ∉ r.name := by
    intro r hr
    obtain ⟨d, hd, rfl⟩ := mem_getRepos hr
    exact (hG.plain d hd).1.1
  obtain ⟨r, hrm, hname, d', hd', hr'⟩ := exists_getRepos hd
  have hurl : r.url = d.config.repo.url := by
    rw [← hr'] at hname ⊢
    exact hG.oneUrl d' hd' d hd hname
  have hhash : repoUrlHash de.digest r = repoUrlHash de.digest d.config.repo := by
    unfold repoUrlHash; rw [hname, hurl]
  refine mkRepos_made de hP.shape _ hr fs _ ⟨r, hrm, ?_⟩ hf
  obtain ⟨dir, v, h1, _, h2⟩ := dest_shape hP (hG.plain d hd).1
  have hdp : dirPath (de.dest d) = dir := by rw [h1]; simp [dirPath]
  rw [hdp]
  rcases h2 with h2 | h2
  · left; rw [h2.2.1]; unfold srcDir; rw [hhash]
  · right; rw [h2.2]; unfold binDir; rw [hhash]

end Pkgr
