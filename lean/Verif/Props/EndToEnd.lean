/- C89: from the configuration and the index files to the plan. -/
import Verif.Spec.EndToEnd
import Verif.Props.PkgDb
import Verif.Props.Custom
import Verif.Props.Download

namespace Pkgr
open Spec

/-! ### Lemmas -/

theorem readAs_unique {v : RepoCustom} {a b : RepoConfig} (ha : ReadAs v a) (hb : ReadAs v b) : a = b := by
  have h1 : a.repoType = .mpn ↔ b.repoType = .mpn := ha.mpn.trans hb.mpn.symm
  have h2 : a.repoType = .rspm ↔ b.repoType = .rspm := ha.rspm.trans hb.rspm.symm
  have h3 : a.defaultSourceType = .source ↔ b.defaultSourceType = .source := ha.source.trans hb.source.symm
  have h4 : a.defaultSourceType = .binary ↔ b.defaultSourceType = .binary := ha.binary.trans hb.binary.symm
  have h5 : a.repoSuffix = b.repoSuffix := ha.suffix.trans hb.suffix.symm
  cases a with
  | mk t1 r1 s1 =>
  cases b with
  | mk t2 r2 s2 =>
  simp only at h1 h2 h3 h4 h5
  subst h5
  have : t1 = t2 := by cases t1 <;> cases t2 <;> simp_all
  have : r1 = r2 := by cases r1 <;> cases r2 <;> simp_all
  simp_all

theorem readAs_nil : ReadAs {} {} := by constructor <;> simp [InWord]

theorem platformType_eq (p : Platform) : defaultType p = platformType p := by
  unfold defaultType platformType
  cases p.os <;> simp

/-- The repositories of a project as they are opened. -/
def projectURLs (P : Project) (ρ : Order) : List RepoURL :=
  (repoURLs ρ 0 P.custom (P.repos.map fun r => [r])).map fun r => { name := r.1, url := r.2.1, suffix := r.2.2 }

theorem repoURLs_single (ρ : Order) (hρ : ρ.Fair) (t : Nat) (custom : List (GoMap RepoCustom)) (repos : List (Str × Str)) :
    repoURLs ρ t custom (repos.map fun r => [r]) =
      repos.map fun r => (r.1, r.2, ((entriesFor r.1 custom).head?.getD {}).repoSuffix) := by
  induction repos generalizing t with
  | nil => rfl
  | cons r repos ih =>
    rw [List.map_cons, repoURLs, ih]
    have hp : ρ t (GoMap.keys [r]) = [r.1] := List.perm_singleton.1 (hρ t [r.1])
    rw [hp]
    simp [repoURL, GoMap.get?, custom_head]

theorem projectURLs_eq (P : Project) {ρ : Order} (hρ : ρ.Fair) : projectURLs P ρ =
    P.repos.map fun r => { name := r.1, url := r.2, suffix := (P.entry r.1).repoSuffix } := by
  unfold projectURLs
  rw [repoURLs_single ρ hρ, List.map_map]
  apply List.map_congr_left
  intro r _
  simp [Project.entry, List.headD_eq_head?_getD]

theorem project_settings {P : Project} (hP : P.Plain) {ρ : Order} (hρ : ρ.Fair) {r : Str × Str} (hr : r ∈ P.repos) :
    ReadAs (P.entry r.1) ((GoMap.get? (repoSettings ρ 0 P.custom []) r.1).getD {}) := by
  rw [repoSettings_get ρ hρ]
  have h1 := hP.once r hr
  unfold Project.entry
  cases he : entriesFor r.1 P.custom with
  | nil => simpa using readAs_nil
  | cons v vs =>
    rw [he] at h1
    have : vs = [] := by
      cases vs with
      | nil => rfl
      | cons w ws => simp at h1
    subst this
    simpa using repoSetting_readAs v

theorem settingOf_mem {cfg : PlanCfg} {p : Str} : settingOf cfg p = {} ∨ ∃ e ∈ cfg.customizations, e.1 = p ∧ settingOf cfg p = e.2 := by
  unfold settingOf
  split
  · rename_i e he
    exact .inr ⟨e, List.mem_of_find?_eq_some he, by simpa using List.find?_some he, rfl⟩
  · exact .inl rfl

/-- The database of a project matches the configuration and the index files, repository by repository. -/
structure Matches (P : Project) (e : RepoEnv) (nx : Nexus) : Prop where
  fresh : nx.packages = []
  dst : nx.defaultSourceType = platformType e.platform
  dbs : List.Forall₂ (fun (r : Str × Str) (db : RepoDb) =>
    db.repo = { name := r.1, url := r.2, suffix := (P.entry r.1).repoSuffix } ∧ ∃ rc, ReadAs (P.entry r.1) rc ∧
    db.defaultSourceType = Spec.repoType rc (platformType e.platform) ∧
    ∀ st p d, Offers db st p d ↔ Publishes e { name := r.1, url := r.2 } rc st p d) P.repos nx.db

theorem forall₂_of_get {α β : Type} {R : α → β → Prop} {l : List α} {m : List β} (hlen : m.length = l.length)
    (h : ∀ (i : Nat) (a : α), l[i]? = some a → ∃ b, m[i]? = some b ∧ R a b) : List.Forall₂ R l m := by
  induction l generalizing m with
  | nil =>
    cases m with
    | nil => exact .nil
    | cons b m => simp at hlen
  | cons a l ih =>
    cases m with
    | nil => simp at hlen
    | cons b m =>
      refine .cons ?_ (ih (by simpa using hlen) fun i x hx => ?_)
      · obtain ⟨b', hb, hr⟩ := h 0 a rfl
        simp only [List.getElem?_cons_zero, Option.some.injEq] at hb
        exact hb ▸ hr
      · have := h (i + 1) x (by simpa using hx)
        simpa using this

theorem project_matches {e : RepoEnv} (hrv : SmallR e.rv) {P : Project} (hP : P.Plain) {ρ ρ' : Order} (hρ : ρ.Fair) (hρ' : ρ'.Fair)
    {c : DbCache} {sched : List (Nat × Bool)} {nx : Nexus} (hsched : (sched.map Prod.fst).Perm (List.range P.repos.length))
    (hfiles : P.OwnFiles e) (hold : P.CacheTrue e c)
    (h : (e.openConfigured ρ ρ' P.custom (P.repos.map fun r => [r]) c sched).2 = some nx) : Matches P e nx := by
  unfold RepoEnv.openConfigured at h
  have hu := projectURLs_eq P hρ
  unfold projectURLs at hu
  rw [hu] at h
  obtain ⟨h1, h2, h3, h4⟩ := databases_true hrv (by simpa using hsched)
    (by rw [List.map_map]; exact hfiles) (fun url hurl f hf hy => by
      obtain ⟨r, hr, rfl⟩ := List.mem_map.1 hurl
      rw [fileOf_eq] at hf
      exact hold r hr _ (project_settings hP hρ' hr) f hf hy) h
  refine ⟨h1, h2.trans (platformType_eq _), forall₂_of_get (by simpa using h3) ?_⟩
  intro i r hr
  obtain ⟨db, hdb, hrepo, hty, hoff, _⟩ := h4 i _ (by rw [List.getElem?_map, hr]; rfl)
  refine ⟨db, hdb, hrepo, _, project_settings hP hρ' (List.mem_of_getElem? hr), ?_, ?_⟩
  · rw [hty, platformType_eq]
  · exact hoff

/-- Without young files there is nothing to be wrong. -/
theorem cacheTrue_old {P : Project} {e : RepoEnv} {c : DbCache} (hold : ∀ k f, c k = some f → ¬ Recent e f.mtime) : P.CacheTrue e c :=
  fun _ _ _ _ f hf hy => absurd hy (hold _ f hf)

/-- C89 and C87: after the repositories were opened, their cache files say what they publish, so that a later run of the same
project, with the same R and as long as the index files are the same, starts with a database cache as C89 supposes. -/
theorem C89_cache_afterwards {e : RepoEnv} (hrv : SmallR e.rv) {P : Project} (hP : P.Plain) {ρ ρ' : Order} (hρ : ρ.Fair) (hρ' : ρ'.Fair)
    {c c' : DbCache} {sched : List (Nat × Bool)} {nx : Nexus} (hsched : (sched.map Prod.fst).Perm (List.range P.repos.length))
    (hfiles : P.OwnFiles e) (hold : P.CacheTrue e c)
    (h : e.openConfigured ρ ρ' P.custom (P.repos.map fun r => [r]) c sched = (c', some nx))
    {later : RepoEnv} (hs : later.server = e.server) (hd : later.decode = e.decode) (hp : later.platform = e.platform)
    (hl : later.linuxUri = e.linuxUri) (hv : later.rv = e.rv) (hm : later.md5hex = e.md5hex) : P.CacheTrue later c' := by
  unfold RepoEnv.openConfigured at h
  have hu := projectURLs_eq P hρ
  unfold projectURLs at hu
  rw [hu] at h
  obtain ⟨_, h2⟩ := C87_true_cache hrv (by simpa using hsched)
    (by rw [List.map_map]; exact hfiles) (fun url hurl f hf hy => by
      obtain ⟨r, hr, rfl⟩ := List.mem_map.1 hurl
      exact hold r hr _ (project_settings hP hρ' hr) f hf hy) h
  intro r hr rc hrc f hf _
  have hrc' := readAs_unique hrc (project_settings hP hρ' hr)
  obtain ⟨f', hf', src, bin, t1, t2, t3⟩ := h2 _ (List.mem_map.2 ⟨r, hr, rfl⟩)
  have hk : dbFileOf later r.1 r.2 = dbFileOf e r.1 r.2 := by unfold dbFileOf; rw [hm, hv]
  rw [hk] at hf
  have : f = f' := by
    have h := hf.symm.trans hf'
    exact Option.some.inj h
  subst this
  subst hrc'
  refine ⟨src, bin, t1, by rw [hp]; exact t2, fun st p d => ?_⟩
  rw [t3, published_same hs hd hp hl hv]
  exact Iff.rfl

theorem repoType_ne_default (rc : RepoConfig) {dst : SourceType} (h : dst ≠ .default) : Spec.repoType rc dst ≠ .default := by
  unfold Spec.repoType
  cases rc.defaultSourceType <;> simp [h]

theorem platformType_ne_default (p : Platform) : platformType p ≠ .default := by
  unfold platformType; split <;> simp

theorem canServe_iff {P : Project} {e : RepoEnv} {nx : Nexus} (hm : nx.defaultSourceType = platformType e.platform) {r : Str × Str}
    {db : RepoDb} (hrepo : db.repo = { name := r.1, url := r.2, suffix := (P.entry r.1).repoSuffix })
    {rc : RepoConfig} (hrc : ReadAs (P.entry r.1) rc) (hty : db.defaultSourceType = Spec.repoType rc (platformType e.platform))
    (hoff : ∀ st p d, Offers db st p d ↔ Publishes e { name := r.1, url := r.2 } rc st p d) (p : Str) (ty : SourceType) (d : Desc) :
    CanServe P.cfg nx p db ty d ↔ P.Supplies e r p ty d := by
  have hut : unsetType nx db = Spec.repoType rc (platformType e.platform) := by
    unfold unsetType
    rw [hty, if_neg (repoType_ne_default rc (platformType_ne_default _))]
  unfold CanServe Project.Supplies TypeInForce
  rw [hrepo, hut, hm, hoff]
  constructor
  · rintro ⟨h1, h2, h3, h4⟩
    exact ⟨h1, h4, rc, hrc, h2, h3⟩
  · rintro ⟨h1, h4, rc', hrc', h2, h3⟩
    cases readAs_unique hrc hrc'
    exact ⟨h1, h2, h3, h4⟩

theorem firstWith_forall₂ {α β : Type} {R : α → β → Prop} {A : α → Prop} {B : β → Prop} (hAB : ∀ a b, R a b → (B b ↔ A a))
    {l : List α} {m : List β} (h : List.Forall₂ R l m) :
    (∀ b, FirstWith B m b → ∃ a, R a b ∧ FirstWith A l a) ∧ (∀ a, FirstWith A l a → ∃ b, R a b ∧ FirstWith B m b) := by
  induction h with
  | nil =>
    constructor <;> rintro _ ⟨pre, post, hl, _⟩ <;> simp at hl
  | @cons a b l m hab _ ih =>
    constructor
    · rintro b' ⟨pre, post, hl, hb, hpre⟩
      cases pre with
      | nil =>
        obtain ⟨rfl, rfl⟩ : b = b' ∧ m = post := by simpa using hl
        exact ⟨a, hab, [], l, rfl, (hAB _ _ hab).1 hb, by simp⟩
      | cons x pre =>
        obtain ⟨rfl, rfl⟩ : b = x ∧ m = pre ++ b' :: post := by simpa using hl
        obtain ⟨a', hR, p', q', hl', hA, hn⟩ := ih.1 b' ⟨pre, post, rfl, hb, fun d hd => hpre d (by simp [hd])⟩
        refine ⟨a', hR, a :: p', q', by rw [hl']; rfl, hA, ?_⟩
        intro d hd
        rcases List.mem_cons.1 hd with rfl | hd
        · exact fun hA => hpre b (by simp) ((hAB _ _ hab).2 hA)
        · exact hn d hd
    · rintro a' ⟨pre, post, hl, hb, hpre⟩
      cases pre with
      | nil =>
        obtain ⟨rfl, rfl⟩ : a = a' ∧ l = post := by simpa using hl
        exact ⟨b, hab, [], m, rfl, (hAB _ _ hab).2 hb, by simp⟩
      | cons x pre =>
        obtain ⟨rfl, rfl⟩ : a = x ∧ l = pre ++ a' :: post := by simpa using hl
        obtain ⟨b', hR, p', q', hl', hA, hn⟩ := ih.2 a' ⟨pre, post, rfl, hb, fun d hd => hpre d (by simp [hd])⟩
        refine ⟨b', hR, b :: p', q', by rw [hl']; rfl, hA, ?_⟩
        intro d hd
        rcases List.mem_cons.1 hd with rfl | hd
        · exact fun hB => hpre a (by simp) ((hAB _ _ hab).1 hB)
        · exact hn d hd

theorem matches_chosen {P : Project} {e : RepoEnv} {nx : Nexus} (hm : Matches P e nx) (p : Str) :
    (∀ dl, Chosen P.cfg nx p dl → ∃ repo, P.Gets e p repo dl.config.type dl.package ∧
      dl.config.repo = { name := repo.1, url := repo.2, suffix := (P.entry repo.1).repoSuffix }) ∧
    (∀ repo ty d, P.Gets e p repo ty d → Chosen P.cfg nx p { package := d, config := { type := ty, repo := { name := repo.1, url := repo.2, suffix := (P.entry repo.1).repoSuffix } } }) := by
  have hfw := firstWith_forall₂ (R := fun (r : Str × Str) (db : RepoDb) =>
      db.repo = { name := r.1, url := r.2, suffix := (P.entry r.1).repoSuffix } ∧ ∃ rc, ReadAs (P.entry r.1) rc ∧
      db.defaultSourceType = Spec.repoType rc (platformType e.platform) ∧
      ∀ st p d, Offers db st p d ↔ Publishes e { name := r.1, url := r.2 } rc st p d)
    (A := fun r => ∃ ty d, P.Supplies e r p ty d) (B := fun db => ∃ ty d, CanServe P.cfg nx p db ty d)
    (by
      rintro r db ⟨h1, rc, h2, h3, h4⟩
      simp only [canServe_iff hm.dst h1 h2 h3 h4]) hm.dbs
  constructor
  · rintro dl ⟨db, hf, hc, hrepo⟩
    obtain ⟨r, ⟨h1, rc, h2, h3, h4⟩, hr⟩ := hfw.1 db hf
    exact ⟨r, ⟨hr, (canServe_iff hm.dst h1 h2 h3 h4 _ _ _).1 hc⟩, hrepo.trans h1⟩
  · rintro r ty d ⟨hf, hs⟩
    obtain ⟨db, ⟨h1, rc, h2, h3, h4⟩, hdb⟩ := hfw.2 r hf
    exact ⟨db, hdb, (canServe_iff hm.dst h1 h2 h3 h4 _ _ _).2 hs, h1.symm⟩

theorem publishes_name {e : RepoEnv} {url : RepoURL} {rc : RepoConfig} {st : SourceType} {k : Str} {d : Desc}
    (h : Publishes e url rc st k d) : d.package = k := by
  obtain ⟨_, _, _, _, _, _, _, _, _, _, _, _, ⟨_, _, _, _, hk, _⟩, _⟩ := h
  exact hk

theorem matches_each {P : Project} {e : RepoEnv} {nx : Nexus} (hm : Matches P e nx) {db : RepoDb} (hdb : db ∈ nx.db) :
    ∃ r ∈ P.repos, ∃ rc, ∀ st p d, Offers db st p d ↔ Publishes e { name := r.1, url := r.2 } rc st p d := by
  have := hm.dbs
  generalize P.repos = l at this ⊢
  generalize nx.db = m at this hdb
  induction this with
  | nil => simp at hdb
  | @cons a b l m hab _ ih =>
    rcases List.mem_cons.1 hdb with rfl | hdb
    · obtain ⟨_, rc, _, _, h⟩ := hab
      exact ⟨a, by simp, rc, h⟩
    · obtain ⟨r, hr, h⟩ := ih hdb
      exact ⟨r, by simp [hr], h⟩

theorem matches_keyed {P : Project} {e : RepoEnv} {nx : Nexus} (hm : Matches P e nx) : Keyed nx := by
  intro db hdb st k d hd
  obtain ⟨_, _, _, h⟩ := matches_each hm hdb
  exact publishes_name ((h st k d).1 hd)

theorem matches_noR {P : Project} {e : RepoEnv} {nx : Nexus} (hm : Matches P e nx)
    (hR : ∀ r ∈ P.repos, ∀ rc st d, ¬ Publishes e { name := r.1, url := r.2 } rc st (s%"R") d) : NoR nx := by
  intro db hdb st
  obtain ⟨r, hr, rc, h⟩ := matches_each hm hdb
  cases hg : GoMap.get? (db.table st) (s%"R") with
  | none => rfl
  | some d => exact absurd ((h st _ d).1 hg) (hR r hr rc st d)

theorem wants_iff {P : Project} (hP : P.Plain) (p : Str) : wantsSuggests P.cfg p ↔ P.WantsSuggests p := by
  unfold wantsSuggests Project.WantsSuggests
  have key : ∀ e ∈ P.cfg.customizations, e.1 = p → settingOf P.cfg p = e.2 := by
    intro e he hp
    have := GoMap.get?_of_mem hP.packages he
    unfold settingOf
    cases hf : P.cfg.customizations.find? (fun e => decide (e.1 = p)) with
    | none =>
      have := List.find?_eq_none.1 hf e he
      simp [hp] at this
    | some e' =>
      have h1 : e'.1 = p := by simpa using List.find?_some hf
      have h2 := GoMap.get?_of_mem hP.packages (List.mem_of_find?_eq_some hf)
      rw [h1, ← hp, this] at h2
      simpa using h2.symm
  constructor
  · rintro (⟨e, he, hp, hs⟩ | ⟨hn, h1, h2⟩)
    · exact .inl (by rw [key e he hp]; exact hs)
    · refine .inr ⟨?_, h1, h2⟩
      rcases settingOf_mem (cfg := P.cfg) (p := p) with h | ⟨e, he, hp, h⟩
      · rw [h]
      · rw [h]; exact hn e he hp
  · rintro (h | ⟨h, h1, h2⟩)
    · rcases settingOf_mem (cfg := P.cfg) (p := p) with h' | ⟨e, he, hp, h'⟩
      · rw [h'] at h; cases h
      · exact .inl ⟨e, he, hp, h' ▸ h⟩
    · exact .inr ⟨fun e he hp => by rw [← key e he hp]; exact h, h1, h2⟩

/-! ### C89 -/

/-- C89 (partial: an unambiguous configuration, young cache files that say what is published, different cache files for different repositories, no package called R).
Whatever order the repositories answer in, every planned download comes from the first configured repository that can
supply the package, with the description that this repository's index gives. -/
theorem C89_downloads_partial {e : RepoEnv} (hrv : SmallR e.rv) {P : Project} (hP : P.Plain) {ρ₁ ρ₂ : Order} (h₁ : ρ₁.Fair)
    (h₂ : ρ₂.Fair) {c : DbCache} {sched : List (Nat × Bool)} {nx nx' : Nexus}
    (hsched : (sched.map Prod.fst).Perm (List.range P.repos.length)) (hfiles : P.OwnFiles e)
    (hold : P.CacheTrue e c)
    (hR : ∀ r ∈ P.repos, ∀ rc st d, ¬ Publishes e { name := r.1, url := r.2 } rc st (s%"R") d)
    (hopen : (e.openConfigured ρ₁ ρ₂ P.custom (P.repos.map fun r => [r]) c sched).2 = some nx)
    {installed : GoMap Desc} {libEx : Bool} {tb ds : List Desc} {add : GoMap AdditionalPkg} {ρ ρ' ρ'' : Order} (hρ : ρ''.Fair)
    {req : List Str} {ip : InstallPlan} (h : planInstall P.cfg nx installed libEx tb ds add ρ ρ' ρ'' = .planned req nx' ip) :
    ∀ dl ∈ ip.downloads, ∃ repo, P.Gets e dl.package.package repo dl.config.type dl.package ∧
      dl.config.repo.name = repo.1 ∧ dl.config.repo.url = repo.2 := by
  have hm := project_matches hrv hP h₁ h₂ hsched hfiles hold hopen
  intro dl hdl
  obtain ⟨repo, hg, hr⟩ := (matches_chosen hm _).1 dl
    (C88_downloads_partial (matches_keyed hm) (matches_noR hm hR) hρ hm.fresh hP.packages hP.pins h dl hdl)
  exact ⟨repo, hg, by rw [hr], by rw [hr]⟩

/-- C89 (partial, as above). The packages of the plan are exactly what has to be installed according to the index files
and the configuration, each once, and each is downloaded once. -/
theorem C89_packages_partial {e : RepoEnv} (hrv : SmallR e.rv) {P : Project} (hP : P.Plain) {ρ₁ ρ₂ : Order} (h₁ : ρ₁.Fair)
    (h₂ : ρ₂.Fair) {c : DbCache} {sched : List (Nat × Bool)} {nx nx' : Nexus}
    (hsched : (sched.map Prod.fst).Perm (List.range P.repos.length)) (hfiles : P.OwnFiles e)
    (hold : P.CacheTrue e c)
    (hR : ∀ r ∈ P.repos, ∀ rc st d, ¬ Publishes e { name := r.1, url := r.2 } rc st (s%"R") d)
    (hopen : (e.openConfigured ρ₁ ρ₂ P.custom (P.repos.map fun r => [r]) c sched).2 = some nx)
    {installed : GoMap Desc} {libEx : Bool} {tb ds : List Desc} {add : GoMap AdditionalPkg} {ρ ρ' ρ'' : Order} (hρ : ρ''.Fair)
    {req : List Str} {ip : InstallPlan} (h : planInstall P.cfg nx installed libEx tb ds add ρ ρ' ρ'' = .planned req nx' ip) :
    (∀ p, p ∈ ip.packages ↔ P.ToInstall e req p) ∧ ip.packages.Nodup ∧
      (ip.downloads.map fun dl => dl.package.package).Perm ip.packages := by
  have hm := project_matches hrv hP h₁ h₂ hsched hfiles hold hopen
  have hk := matches_keyed hm
  have hnR := matches_noR hm hR
  refine ⟨?_, (C19_plan_packages hk hnR hρ h).elim fun _ hc => hc.2.2, (C26_downloads hk hnR hρ h).1⟩
  intro p
  rw [C28_suggests_partial hk hnR hρ hP.packages h p]
  have hch := fun q dl => C88_choice_partial hm.fresh hP.packages hP.pins h q dl
  have hav : ∀ q, Available nx' q ↔ P.Has e q := by
    intro q
    unfold Available Project.Has
    constructor
    · rintro ⟨dl, hdl⟩
      obtain ⟨repo, hg, _⟩ := (matches_chosen hm q).1 dl ((hch q dl).1 hdl)
      exact ⟨repo, _, _, hg⟩
    · rintro ⟨repo, ty, d, hg⟩
      exact ⟨_, (hch q _).2 ((matches_chosen hm q).2 repo ty d hg)⟩
  constructor
  · intro hin
    induction hin with
    | requested ha => exact .requested ha
    | needed _ hn ih =>
      obtain ⟨dl, hr, hd, hb, hs⟩ := hn
      obtain ⟨repo, hg, _⟩ := (matches_chosen hm _).1 dl ((hch _ dl).1 hr)
      exact .needed ih hg hd ((hav _).1 hb) hs
    | suggested _ hw hr hd hb ih =>
      obtain ⟨repo, hg, _⟩ := (matches_chosen hm _).1 _ ((hch _ _).1 hr)
      exact .suggested ih ((wants_iff hP _).1 hw) hg hd ((hav _).1 hb)
  · intro hin
    induction hin with
    | requested ha => exact .requested ha
    | needed _ hg hd hb hs ih =>
      exact .needed ih ⟨_, (hch _ _).2 ((matches_chosen hm _).2 _ _ _ hg), hd, (hav _).2 hb, hs⟩
    | suggested _ hw hg hd hb ih =>
      exact .suggested ih ((wants_iff hP _).2 hw) ((hch _ _).2 ((matches_chosen hm _).2 _ _ _ hg)) hd ((hav _).2 hb)

/-- C89 (partial, as above; and without a suffix for binary packages outside Linux). A download is fetched from the
directory in which the index that lists it is. -/
theorem C89_fetched_from_partial {e : RepoEnv} (hrv : SmallR e.rv) {P : Project} (hP : P.Plain) {ρ₁ ρ₂ : Order} (h₁ : ρ₁.Fair)
    (h₂ : ρ₂.Fair) {c : DbCache} {sched : List (Nat × Bool)} {nx nx' : Nexus}
    (hsched : (sched.map Prod.fst).Perm (List.range P.repos.length)) (hfiles : P.OwnFiles e)
    (hold : P.CacheTrue e c)
    (hR : ∀ r ∈ P.repos, ∀ rc st d, ¬ Publishes e { name := r.1, url := r.2 } rc st (s%"R") d)
    (hopen : (e.openConfigured ρ₁ ρ₂ P.custom (P.repos.map fun r => [r]) c sched).2 = some nx)
    {installed : GoMap Desc} {libEx : Bool} {tb ds : List Desc} {add : GoMap AdditionalPkg} {ρ ρ' ρ'' : Order} (hρ : ρ''.Fair)
    {req : List Str} {ip : InstallPlan} (h : planInstall P.cfg nx installed libEx tb ds add ρ ρ' ρ'' = .planned req nx' ip)
    (de : DlEnv) (hde : de.platform = e.platform ∧ de.linuxUri = e.linuxUri ∧ de.rv = e.rv) :
    ∀ dl ∈ ip.downloads, ∃ repo, P.Gets e dl.package.package repo dl.config.type dl.package ∧
      ((P.entry repo.1).repoSuffix = [] ∨ dl.config.type = .source ∨ e.platform.os = .linux → ∀ dest, ∃ dir,
        indexAt e repo.2 (P.entry repo.1).repoSuffix dl.config.type = dir ++ s%"PACKAGES" ∧ de.url dl dest = dir ++ basePath dest) := by
  have hm := project_matches hrv hP h₁ h₂ hsched hfiles hold hopen
  intro dl hdl
  obtain ⟨repo, hg, hr⟩ := (matches_chosen hm _).1 dl
    (C88_downloads_partial (matches_keyed hm) (matches_noR hm hR) hρ hm.fresh hP.packages hP.pins h dl hdl)
  refine ⟨repo, hg, fun hc dest => ?_⟩
  generalize (P.entry repo.1).repoSuffix = suf at hc hr ⊢
  have hsame := C82_same_directory_partial de { repo := { name := repo.1, url := repo.2, suffix := suf }, repoSuffix := suf } dl dest hr rfl
    (by rw [hde.1]; rcases hc with h | h | h <;> simp [h])
  refine ⟨_, ?_, hsame⟩
  rw [hde.1, hde.2.1, hde.2.2]
  have hi := indexURL_eq e { name := repo.1, url := repo.2, suffix := suf } .default { repoSuffix := suf } dl.config.type
  rw [← hi]
  rfl

/-- C89 fails outside Linux for binary packages of a repository with a suffix: a planned download is fetched from a
directory other than that of the index that lists it. -/
theorem C89_violated_suffix {e : RepoEnv} (hrv : SmallR e.rv) {P : Project} (hP : P.Plain) {ρ₁ ρ₂ : Order} (h₁ : ρ₁.Fair)
    (h₂ : ρ₂.Fair) {c : DbCache} {sched : List (Nat × Bool)} {nx nx' : Nexus}
    (hsched : (sched.map Prod.fst).Perm (List.range P.repos.length)) (hfiles : P.OwnFiles e)
    (hold : P.CacheTrue e c)
    (hR : ∀ r ∈ P.repos, ∀ rc st d, ¬ Publishes e { name := r.1, url := r.2 } rc st (s%"R") d)
    (hopen : (e.openConfigured ρ₁ ρ₂ P.custom (P.repos.map fun r => [r]) c sched).2 = some nx)
    {installed : GoMap Desc} {libEx : Bool} {tb ds : List Desc} {add : GoMap AdditionalPkg} {ρ ρ' ρ'' : Order} (hρ : ρ''.Fair)
    {req : List Str} {ip : InstallPlan} (h : planInstall P.cfg nx installed libEx tb ds add ρ ρ' ρ'' = .planned req nx' ip)
    (de : DlEnv) (hde : de.platform = e.platform ∧ de.linuxUri = e.linuxUri ∧ de.rv = e.rv) :
    ∀ dl ∈ ip.downloads, ∃ repo, P.Gets e dl.package.package repo dl.config.type dl.package ∧
      ((P.entry repo.1).repoSuffix ≠ [] → dl.config.type = .binary → e.platform.os ≠ .linux → ∀ dest dir,
        indexAt e repo.2 (P.entry repo.1).repoSuffix dl.config.type = dir ++ s%"PACKAGES" → de.url dl dest ≠ dir ++ basePath dest) := by
  have hm := project_matches hrv hP h₁ h₂ hsched hfiles hold hopen
  intro dl hdl
  obtain ⟨repo, hg, hr⟩ := (matches_chosen hm _).1 dl
    (C88_downloads_partial (matches_keyed hm) (matches_noR hm hR) hρ hm.fresh hP.packages hP.pins h dl hdl)
  refine ⟨repo, hg, fun hs ht hos dest dir hdir hurl => ?_⟩
  generalize (P.entry repo.1).repoSuffix = suf at hs hr hdir
  have hi := indexURL_eq e { name := repo.1, url := repo.2, suffix := suf } .default { repoSuffix := suf } dl.config.type
  have hlen := congrArg List.length (hi.trans hdir)
  have hlen2 := congrArg List.length hurl
  have hsl : 0 < suf.length := List.length_pos_of_ne_nil hs
  unfold RepoEnv.indexURL at hlen
  unfold DlEnv.url at hlen2
  rw [hde.1, hde.2.1, hde.2.2, hr, ht] at hlen2
  rw [ht] at hlen
  have hu : (initRepoDb e.platform { name := repo.1, url := repo.2, suffix := suf } .default { repoSuffix := suf }).repo.url = repo.2 := rfl
  simp [packagesDirURL, hos, hs, hu] at hlen hlen2
  omega

/-! ### A concrete project -/

/-- The stanzas of the example indices: `a` imports `b` and `methods` and suggests `c`; `b` needs R 3.5 or later. -/
def exDecode : Str → Option RawDesc
  | ['a'] => some { package := s%"a", version := s%"1.0", imports := [s%"b (>= 1.0)", s%"methods"], suggests := [s%"c"] }
  | ['b'] => some { package := s%"b", version := s%"1.1", depends := [s%"R (>= 3.5)"] }
  | ['B'] => some { package := s%"b", version := s%"2.0" }
  | r => some { package := r, version := s%"0.1" }

/-- Two repositories on an R 4.0.2; MPN also has Linux binaries. -/
def exEnv : RepoEnv :=
  { platform := { os := .linux, linuxKnown := true }, decode := exDecode, md5hex := fun x => x, linuxUri := s%"bionic", rv := ⟨4, 0, 2⟩,
    now := 100000,
    server := fun u =>
      if u = s%"http://m/src/contrib/PACKAGES" then .text (s%"b\n\nB")
      else if u = s%"http://m/bin/linux/bionic/x/contrib/4.0/PACKAGES" then .text (s%"b")
      else if u = s%"http://c/src/contrib/PACKAGES" then .text (s%"a\r\n\r\nb\n\nc")
      else .refused }

/-- MPN first, with a suffix, then CRAN; the suggested packages of `a` are wanted. -/
def exProject : Project :=
  { cfg := { packages := [s%"a"], customizations := [(s%"a", { suggests := some true, repo := some (s%"CRAN") })] },
    repos := [(s%"MPN", s%"http://m/"), (s%"CRAN", s%"http://c")],
    custom := [[(s%"MPN", { repoType := s%"mpn", repoSuffix := s%"x" })]] }

theorem exProject_plain : exProject.Plain := ⟨by decide, by decide, by decide⟩

/-- The database of the example: CRAN answers first. -/
def exNexus : Nexus :=
  ((exEnv.openConfigured idOrder idOrder exProject.custom (exProject.repos.map fun r => [r]) (fun _ => none) [(1, false), (0, true)]).2).getD
    { db := [], packages := [], defaultSourceType := .default }

theorem exOpens : (exEnv.openConfigured idOrder idOrder exProject.custom (exProject.repos.map fun r => [r]) (fun _ => none)
    [(1, false), (0, true)]).2 = some exNexus := by
  have h : ((exEnv.openConfigured idOrder idOrder exProject.custom (exProject.repos.map fun r => [r]) (fun _ => none)
    [(1, false), (0, true)]).2).isSome = true := by decide +kernel
  obtain ⟨nx, h⟩ := Option.isSome_iff_exists.1 h
  unfold exNexus
  rw [h]
  rfl

/-- The downloads of a plan: package, version, repository, type. -/
def PlanOutcome.summary : PlanOutcome → List (Str × Str × Str × SourceType)
  | .planned _ _ ip => ip.downloads.map fun dl => (dl.package.package, dl.package.version, dl.config.repo.name, dl.config.type)
  | _ => []

theorem exPlanned : (planInstall exProject.cfg exNexus [] true [] [] [] idOrder idOrder idOrder).summary =
    [(s%"b", s%"1.1", s%"MPN", SourceType.binary), (s%"c", s%"0.1", s%"CRAN", SourceType.source),
      (s%"a", s%"1.0", s%"CRAN", SourceType.source)] := by decide +kernel

theorem exTexts (u body : Str) (h : exEnv.server u = .text body) :
    body = s%"b\n\nB" ∨ body = s%"b" ∨ body = s%"a\r\n\r\nb\n\nc" := by
  unfold exEnv at h
  dsimp only at h
  split at h
  · simp_all
  · split at h
    · simp_all
    · split at h
      · simp_all
      · cases h

/-- Does the text list a package called R? -/
def exHasR (body : Str) : Bool :=
  match fetchOne exEnv.decode exEnv.rv (some body) with
  | .ok m => (GoMap.get? m (s%"R")).isSome
  | .error _ => false

theorem exNoR : ∀ r ∈ exProject.repos, ∀ rc st d, ¬ Publishes exEnv { name := r.1, url := r.2 } rc st (s%"R") d := by
  rintro r _ rc st d ⟨_, body, hb, hu, hl⟩
  obtain ⟨m, hm⟩ := (usable_iff _ exEnv.rv _).1 hu
  have := (lists_iff (by decide) hm _ _).1 hl
  have hn : exHasR body = false := by
    rcases exTexts _ _ hb with rfl | rfl | rfl <;> decide +kernel
  unfold exHasR at hn
  rw [hm] at hn
  dsimp only at hn
  rw [this] at hn
  cases hn

/-- Non-vacuity of C86-C89: the example project is opened and planned, its hypotheses are met; `b` comes from MPN as a
binary, the others from CRAN. -/
example : ∃ req nx' ip, planInstall exProject.cfg exNexus [] true [] [] [] idOrder idOrder idOrder = .planned req nx' ip ∧
    ip.downloads.map (fun dl => dl.package.package) = [s%"b", s%"c", s%"a"] ∧
    (∀ p, p ∈ ip.packages ↔ exProject.ToInstall exEnv req p) ∧
    ∀ dl ∈ ip.downloads, ∃ repo, exProject.Gets exEnv dl.package.package repo dl.config.type dl.package ∧
      dl.config.repo.name = repo.1 ∧ dl.config.repo.url = repo.2 := by
  have hs := exPlanned
  cases h : planInstall exProject.cfg exNexus [] true [] [] [] idOrder idOrder idOrder with
  | planned req nx' ip =>
    have hid : idOrder.Fair := fun _ _ => List.Perm.refl _
    refine ⟨req, nx', ip, rfl, ?_, ?_, ?_⟩
    · rw [h] at hs
      have := congrArg (List.map Prod.fst) hs
      simpa [PlanOutcome.summary, Function.comp_def] using this
    · exact (C89_packages_partial (by decide) exProject_plain hid hid (by decide) (by decide +kernel) (cacheTrue_old (by simp)) exNoR exOpens hid h).1
    · exact C89_downloads_partial (by decide) exProject_plain hid hid (by decide) (by decide +kernel) (cacheTrue_old (by simp)) exNoR exOpens hid h
  | badCustomization => rw [h] at hs; cases hs
  | missing _ => rw [h] at hs; cases hs
  | failed _ => rw [h] at hs; cases hs

/-- Non-vacuity of C89_cache_afterwards (and with it of C87_true_cache): the files that the first opening leaves say what
is published, and half an hour later the project can be opened from them; `CacheTrue` then holds of young files. -/
example : ∃ c', exEnv.openConfigured idOrder idOrder exProject.custom (exProject.repos.map fun r => [r]) (fun _ => none) [(1, false), (0, true)] = (c', some exNexus) ∧
    exProject.CacheTrue { exEnv with now := 101800 } c' := by
  have h := exOpens
  generalize hr : exEnv.openConfigured idOrder idOrder exProject.custom (exProject.repos.map fun r => [r]) (fun _ => none) [(1, false), (0, true)] = r at h
  obtain ⟨c', o⟩ := r
  dsimp only at h
  subst h
  have hid : idOrder.Fair := fun _ _ => List.Perm.refl _
  exact ⟨c', rfl, C89_cache_afterwards (by decide) exProject_plain hid hid (by decide) (by decide +kernel) (cacheTrue_old (by simp)) hr rfl rfl rfl rfl rfl rfl⟩

/-- On a Mac: one repository with a suffix, which has source and binary packages. -/
def macEnv : RepoEnv :=
  { exEnv with
    platform := { os := .darwin }
    server := fun u =>
      if u = s%"http://m/src/contrib/PACKAGES" then .text (s%"c")
      else if u = s%"http://m/bin/macosx/contrib/4.0/PACKAGES" then .text (s%"c")
      else .refused }

/-- see above -/
def macProject : Project :=
  { cfg := { packages := [s%"c"] }, repos := [(s%"MPN", s%"http://m/")],
    custom := [[(s%"MPN", { repoType := s%"mpn", repoSuffix := s%"x" })]] }

/-- see above -/
def macNexus : Nexus :=
  ((macEnv.openConfigured idOrder idOrder macProject.custom (macProject.repos.map fun r => [r]) (fun _ => none) [(0, true)]).2).getD
    { db := [], packages := [], defaultSourceType := .default }

theorem macOpens : (macEnv.openConfigured idOrder idOrder macProject.custom (macProject.repos.map fun r => [r]) (fun _ => none)
    [(0, true)]).2 = some macNexus := by
  have h : ((macEnv.openConfigured idOrder idOrder macProject.custom (macProject.repos.map fun r => [r]) (fun _ => none)
    [(0, true)]).2).isSome = true := by decide +kernel
  obtain ⟨nx, h⟩ := Option.isSome_iff_exists.1 h
  unfold macNexus
  rw [h]
  rfl

theorem macPlanned : (planInstall macProject.cfg macNexus [] true [] [] [] idOrder idOrder idOrder).summary =
    [(s%"c", s%"0.1", s%"MPN", SourceType.binary)] := by decide +kernel

theorem macNoR : ∀ r ∈ macProject.repos, ∀ rc st d, ¬ Publishes macEnv { name := r.1, url := r.2 } rc st (s%"R") d := by
  rintro r _ rc st d ⟨_, body, hb, hu, hl⟩
  obtain ⟨m, hm⟩ := (usable_iff _ macEnv.rv _).1 hu
  have := (lists_iff (by decide) hm _ _).1 hl
  have hbody : body = s%"c" := by
    unfold macEnv at hb
    dsimp only at hb
    split at hb
    · simp_all
    · split at hb
      · simp_all
      · cases hb
  subst hbody
  have hn : exHasR (s%"c") = false := by decide +kernel
  have hm' : fetchOne exEnv.decode exEnv.rv (some (s%"c")) = .ok m := hm
  unfold exHasR at hn
  rw [hm'] at hn
  dsimp only at hn
  rw [this] at hn
  cases hn

/-- Non-vacuity of C89_violated_suffix. -/
example (de : DlEnv) (hde : de.platform = macEnv.platform ∧ de.linuxUri = macEnv.linuxUri ∧ de.rv = macEnv.rv) :
    ∃ req nx' ip, planInstall macProject.cfg macNexus [] true [] [] [] idOrder idOrder idOrder = .planned req nx' ip ∧
    ∃ dl ∈ ip.downloads, ∃ repo, macProject.Gets macEnv dl.package.package repo dl.config.type dl.package ∧
      ∀ dest dir, indexAt macEnv repo.2 (macProject.entry repo.1).repoSuffix dl.config.type = dir ++ s%"PACKAGES" →
        de.url dl dest ≠ dir ++ basePath dest := by
  have hs := macPlanned
  cases h : planInstall macProject.cfg macNexus [] true [] [] [] idOrder idOrder idOrder with
  | planned req nx' ip =>
    have hid : idOrder.Fair := fun _ _ => List.Perm.refl _
    refine ⟨req, nx', ip, rfl, ?_⟩
    rw [h] at hs
    match hd : ip.downloads, hs with
    | [dl], hs =>
      have hty : dl.config.type = .binary := by
        simp only [PlanOutcome.summary, hd, List.map_cons, List.map_nil, List.cons.injEq, Prod.mk.injEq] at hs
        exact hs.1.2.2.2
      obtain ⟨repo, hg, hv⟩ := C89_violated_suffix (by decide) (P := macProject) ⟨by decide, by decide, by decide⟩ hid hid (by decide)
        (by decide +kernel) (cacheTrue_old (by simp)) macNoR macOpens hid h de hde dl (by rw [hd]; exact List.mem_singleton.2 rfl)
      refine ⟨dl, List.mem_singleton.2 rfl, repo, hg, hv ?_ hty (by decide)⟩
      have : repo = (s%"MPN", s%"http://m/") := by
        obtain ⟨pre, post, he, _⟩ := hg.1
        have hm : repo ∈ macProject.repos := by rw [he]; simp
        exact List.mem_singleton.1 hm
      rw [this]
      decide
    | [], hs => rw [PlanOutcome.summary, hd] at hs; cases hs
    | _ :: _ :: _, hs => rw [PlanOutcome.summary, hd] at hs; simp at hs
  | badCustomization => rw [h] at hs; cases hs
  | missing _ => rw [h] at hs; cases hs
  | failed _ => rw [h] at hs; cases hs

/-- The same half an hour later, with all connections gone. -/
def exEnvLater : RepoEnv := { exEnv with now := 101800, server := fun _ => .unreachable }

/-- The same where the cache file is not written to its end. -/
def exEnvFull : RepoEnv := { exEnv with writes := false }

/-- Non-vacuity of C87: the database of the first run is read back half an hour later, when nothing can be reached. -/
example : ∃ c' db, exEnv.newRepoDb (fun _ => none) { name := s%"CRAN", url := s%"http://c" } .source {} false = (c', .ok db) ∧
    exEnvLater.newRepoDb c' { name := s%"CRAN", url := s%"http://c" } .source {} true
      = (c', .ok db) ∧ (GoMap.get? db.src (s%"a")).isSome = true := by
  have h : (match (exEnv.newRepoDb (fun _ => none) { name := s%"CRAN", url := s%"http://c" } .source {} false).2 with
    | .ok db => (GoMap.get? db.src (s%"a")).isSome | .error _ => false) = true := by decide +kernel
  generalize hr : exEnv.newRepoDb (fun _ => none) { name := s%"CRAN", url := s%"http://c" } .source {} false = r at h
  obtain ⟨c', res⟩ := r
  cases res with
  | error _ => cases h
  | ok db => exact ⟨c', db, rfl, C87_same_answer_partial (by simp) hr [] (by simp) exEnvLater (by show (101800 : Int) - 100000 < 3600; decide) rfl rfl rfl true, h⟩

/-- Non-vacuity of C87_violated_interrupted. -/
example : ∃ c', exEnvFull.newRepoDb (fun _ => none) { name := s%"CRAN", url := s%"http://c" } .source {} false =
    (c', .error .write) ∧ (exEnv.newRepoDb c' { name := s%"CRAN", url := s%"http://c" } .source {} false).2 = .error .decode := by
  have h : (match (exEnvFull.newRepoDb (fun _ => none) { name := s%"CRAN", url := s%"http://c" } .source {} false).2 with
    | .error .write => true | _ => false) = true := by decide +kernel
  generalize hr : exEnvFull.newRepoDb (fun _ => none) { name := s%"CRAN", url := s%"http://c" } .source {} false = r at h
  obtain ⟨c', res⟩ := r
  cases res with
  | ok _ => cases h
  | error x =>
    cases x <;> first | cases h | skip
    exact ⟨c', rfl, C87_violated_interrupted (by simp) hr exEnv (by show (100000 : Int) - 100000 < 3600; decide) rfl rfl rfl false⟩

/-- Non-vacuity of C88_rejected_iff: a package set to a repository that is not configured. -/
example : planInstall { customizations := [(s%"a", { repo := some (s%"nowhere") })] } exNexus [] true [] [] [] idOrder idOrder idOrder =
    .badCustomization :=
  (C88_rejected_iff _ _ _ _ _ _ _ _ _ _ (by decide)).2 ⟨(s%"a", { repo := some (s%"nowhere") }), by decide, fun h => by
    obtain ⟨db, hdb, hn⟩ := h.1 _ rfl
    have : (exNexus.db.all fun db => decide (db.repo.name ≠ s%"nowhere")) = true := by decide +kernel
    simpa [hn] using List.all_eq_true.1 this db hdb⟩

/-- Non-vacuity of C88_violated_two_entries. -/
example : planInstall { customizations := [(s%"a", { repo := some (s%"CRAN") }), (s%"a", { type := some (s%"Source") })] } exNexus [] true [] [] []
    idOrder idOrder idOrder = .badCustomization := by
  have hex : (exNexus.db.any fun db => decide (db.repo.name = s%"CRAN")) = true := by decide +kernel
  obtain ⟨db, hdb, hn⟩ := List.any_eq_true.1 hex
  exact (C88_violated_two_entries { customizations := [(s%"a", { repo := some (s%"CRAN") }), (s%"a", { type := some (s%"Source") })] }
    exNexus [] true [] [] [] idOrder idOrder idOrder _ _ _ rfl ⟨db, hdb, of_decide_eq_true hn⟩ ⟨.source, .inl ⟨by decide, rfl⟩⟩).2

end Pkgr
