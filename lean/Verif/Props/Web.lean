/- C163-C165: certificates, routes, and what was downloaded without checks. -/
import Verif.Proof.Web
import Verif.Props.Options
import Verif.Props.Opening

namespace Pkgr
open Spec

/-- `NoSecure` is asked for: the value in force for it is read as true. -/
def Spec.NoSecureAsked (s : Sources) : Prop := ∃ v, InForce s infoNoSecure v ∧ ReadsBool v true

theorem noSecure_off {s : Sources} {o : Options} (ho : s.options = some o) (h : ¬ NoSecureAsked s) : o.noSecure = false := by
  obtain ⟨v, h1, h2⟩ := (C135_in_force s o ho).noSecure
  cases hn : o.noSecure with
  | false => rfl
  | true => rw [hn] at h2; exact absurd ⟨v, h1, h2⟩ h

theorem remote_prefix {u : Str} : hasPrefix u (s%"http") = true ↔ Remote u :=
  (hasPrefix_iff u (s%"http")).trans ⟨fun ⟨t, h⟩ => ⟨t, h.symm⟩, fun ⟨t, h⟩ => ⟨t, h.symm⟩⟩

theorem remote_noSlash {u : Str} (h : Remote u) (rest : Str) : Remote (trimSlash u ++ rest) := by
  obtain ⟨r, rfl⟩ := h
  unfold trimSlash
  split
  · rename_i hl
    cases r with
    | nil => exact absurd hl (by decide)
    | cons x r =>
      rw [List.dropLast_append_cons, List.append_assoc]
      exact ⟨_, rfl⟩
  · rw [List.append_assoc]
    exact ⟨_, rfl⟩

theorem remote_package {e : DlEnv} {d : PkgDl} (h : Remote d.config.repo.url) : Remote (packageAt e d) := by
  unfold packageAt DlEnv.url settled
  dsimp only
  split
  · rw [List.append_assoc]; exact remote_noSlash h _
  · split
    · simp only [List.append_assoc]; exact remote_noSlash h _
    · simp only [List.append_assoc]; exact remote_noSlash h _

theorem remote_index {e : RepoEnv} {url sfx : Str} {st : SourceType} (h : Remote url) : Remote (indexAt e url sfx st) := by
  have hn : noSlash url = trimSlash url := by
    unfold noSlash trimSlash
    rw [List.dropLast_eq_take]
  unfold indexAt
  rw [hn]
  split
  · exact remote_noSlash h _
  · simp only [List.append_assoc]; exact remote_noSlash h _

theorem file_checked (w : Web) (url c : Str) (b : Bool) : w.file false url = .body c b ↔ Vouched w.byEnv url c b := by
  have h := get_checked (httpClient false) w rfl maxRequests url c b
  unfold Vouched
  refine Iff.trans ?_ h
  unfold Web.file
  split <;> simp_all

theorem file_unchecked (w : Web) (url c : Str) (b : Bool) : w.file true url = .body c b ↔ Delivered w.direct url c b := by
  have h := get_unchecked (httpClient true) w rfl maxRequests url c b
  unfold Delivered
  refine Iff.trans ?_ h
  unfold Web.file
  split <;> simp_all

theorem index_checked (w : Web) (url c : Str) : w.index false url = .text c ↔ Vouched w.byEnv url c true := by
  have h := get_checked (httpClient false) w rfl maxRequests url c true
  unfold Vouched
  refine Iff.trans ?_ h
  unfold Web.index
  split
  · simp_all
  · simp_all
  · rename_i b k hk
    rw [hk]
    cases k <;> simp

theorem index_unchecked (w : Web) (url c : Str) : w.index true url = .text c ↔ Delivered w.direct url c true := by
  have h := get_unchecked (httpClient true) w rfl maxRequests url c true
  unfold Delivered
  refine Iff.trans ?_ h
  unfold Web.index
  split
  · simp_all
  · simp_all
  · rename_i b k hk
    rw [hk]
    cases k <;> simp

theorem on_dest (e : DlEnv) (m : Computer) (d : PkgDl) : (e.on m).dest d = e.dest d := rfl

theorem on_packageAt (e : DlEnv) (m : Computer) (d : PkgDl) : packageAt (e.on m) d = packageAt e d := rfl

theorem on_indexAt (e : RepoEnv) (m : Computer) (u sfx : Str) (st : SourceType) : indexAt (e.on m) u sfx st = indexAt e u sfx st := rfl

theorem online_file {m : Computer} {w : Web} {ns : Bool} {url : Str} (h : Remote url) : (m.online w ns).file url = w.file ns url := by
  unfold Computer.file
  rw [if_pos (remote_prefix.2 h)]
  rfl

theorem online_index {m : Computer} {w : Web} {ns : Bool} {url : Str} (h : Remote url) : (m.online w ns).index url = w.index ns url := by
  unfold Computer.index
  rw [if_pos (remote_prefix.2 h)]
  rfl

/-! ## C163: certificates are verified -/

/-- C163, package files: unless `NoSecure` is in force, whenever the run ends, in whatever way the downloads are interleaved, every file in
the cache that was not there before is the file of a package of the plan, and if the repository of this package is on the network, it has (a
first part of) what was delivered over connections all of which, where TLS was asked for, were with parties whose certificate verifies; missing:
a server that is trusted may redirect to one that needs no certificate (`C163_violated`). -/
theorem C163_packages_partial (src : Sources) (o : Options) (ho : src.options = some o) (hns : ¬ NoSecureAsked src)
    (m : Computer) (w : Web) (e : DlEnv) (ds : List PkgDl) (fs : Fs) (s : FineState) (hdests : (ds.map e.dest).Nodup)
    (h : FineReach (e.on (m.online w o.noSecure)) ds fs s) (p : Path) (c : Str) (hp : s.fs p = some (.file c)) :
    fs p = some (.file c) ∨
    ∃ d ∈ ds, p = e.dest d ∧ fs p = none ∧
      (Remote d.config.repo.url → ∃ whole b, Vouched w.byEnv (packageAt e d) whole b ∧ c <+: whole) := by
  rw [noSecure_off ho hns] at h
  rcases fine_contents (e := e.on (m.online w false)) hdests h hp with h | ⟨d, hd, h1, h2, whole, b, h3, h4⟩
  · exact .inl h
  · refine .inr ⟨d, hd, h1, h2, fun hr => ⟨whole, b, ?_, h4⟩⟩
    change (m.online w false).file (packageAt e d) = _ at h3
    rw [online_file (remote_package hr)] at h3
    exact (file_checked _ _ _ _).1 h3

/-- C163, package files that are refused: if the party that is met at the URL of the package asks for TLS and its certificate does not verify, there
is no file of the package at any moment of the downloads, unless there was one before. -/
theorem C163_refused_partial (src : Sources) (o : Options) (ho : src.options = some o) (hns : ¬ NoSecureAsked src)
    (m : Computer) (w : Web) (e : DlEnv) (ds : List PkgDl) (fs : Fs) (s : FineState) (hdests : (ds.map e.dest).Nodup)
    (h : FineReach (e.on (m.online w o.noSecure)) ds fs s) (d : PkgDl) (hd : d ∈ ds) (hr : Remote d.config.repo.url)
    (htls : AsksTLS (packageAt e d)) (hbad : (w.byEnv (packageAt e d)).trusted = false) (c : Str) (hnew : fs (e.dest d) ≠ some (.file c)) :
    s.fs (e.dest d) ≠ some (.file c) := by
  intro hp
  rcases C163_packages_partial src o ho hns m w e ds fs s hdests h _ c hp with h | ⟨d', hd', h1, _, h3⟩
  · exact hnew h
  · obtain ⟨i, hi⟩ := List.getElem?_of_mem hd
    obtain ⟨j, hj⟩ := List.getElem?_of_mem hd'
    have hij := dests_uniq hdests hi hj h1
    subst hij
    rw [hi] at hj
    cases hj
    obtain ⟨whole, b, ⟨us, _, _, k⟩, _⟩ := h3 hr
    have := k _ (by simp) htls
    rw [hbad] at this
    cases this

/-- C163, package files that are refused are reported as failures: when the downloads have returned, the package for whose URL the certificate does not
verify has no entry in the table of downloaded packages, unless its file was there before. -/
theorem C163_reported_partial (src : Sources) (o : Options) (ho : src.options = some o) (hns : ¬ NoSecureAsked src)
    (m : Computer) (w : Web) (e : DlEnv) (ds : List PkgDl) (fs : Fs) (s : FineState) (hnames : (ds.map fun d => d.package.package).Nodup)
    (hdests : (ds.map e.dest).Nodup) (h : FineReach (e.on (m.online w o.noSecure)) ds fs s) (hret : s.returned = true) (d : PkgDl) (hd : d ∈ ds)
    (hr : Remote d.config.repo.url) (htls : AsksTLS (packageAt e d)) (hbad : (w.byEnv (packageAt e d)).trusted = false)
    (hnew : e.mkDirs fs ds (e.dest d) = none) : GoMap.get? s.result d.package.package = none := by
  rw [noSecure_off ho hns] at h
  rw [((C47_fine_schedule_independent (e.on (m.online w false)) ds fs s hnames hdests h hret).1 d hd).1]
  have hsv : (e.on (m.online w false)).server (packageAt e d) = .netError := by
    change (m.online w false).file (packageAt e d) = _
    rw [online_file (remote_package hr)]
    unfold Web.file httpClient maxRequests Client.get
    simp only [Bool.false_eq_true, if_false]
    rw [(isTLS_iff _).2 htls]
    simp [Client.meets, hbad]
  unfold alone DlEnv.downloadPackage
  have hex : Fs.ex ((e.on (m.online w false)).mkDirs fs ds) ((e.on (m.online w false)).dest d) = false := by
    change Fs.ex (e.mkDirs fs ds) (e.dest d) = false
    simp [Fs.ex, hnew]
  rw [hex]
  simp only [Bool.false_eq_true, if_false]
  have hsv' : (e.on (m.online w false)).server ((e.on (m.online w false)).url (settled (e.on (m.online w false)).platform d) ((e.on (m.online w false)).dest d)) = .netError := hsv
  rw [hsv']
  rfl

/-- C163, indices: unless `NoSecure` is in force, a repository that is opened from the network lists only what indices say that were delivered,
completely, over connections all of which, where TLS was asked for, were with parties whose certificate verifies; missing: as above. -/
theorem C163_indices_partial (src : Sources) (o : Options) (ho : src.options = some o) (hns : ¬ NoSecureAsked src)
    (m : Computer) (w : Web) (e : RepoEnv) (hrv : SmallR e.rv) {c c' : DbCache} {url : RepoURL} {dst : SourceType} {rc : RepoConfig} {swap : Bool} {db : RepoDb}
    (hold : ∀ k f, c k = some f → ¬ Recent e f.mtime) (hr : Remote url.url)
    (h : (e.on (m.online w o.noSecure)).newRepoDb c url dst rc swap = (c', .ok db)) (st : SourceType) (p : Str) (d : Desc) :
    Offers db st p d ↔ (st = .source ∨ st = .binary ∧ HasBinaries e.platform rc.repoType) ∧
      ∃ body, Vouched w.byEnv (indexAt e url.url rc.repoSuffix st) body true ∧ Usable e.decode body ∧ Lists e.decode e.rv body p d := by
  rw [noSecure_off ho hns] at h
  have h' := (C86_one_repository (e := e.on (m.online w false)) hrv hold h).2.2 st p d
  rw [h']
  unfold Publishes
  have hs : ∀ body, (e.on (m.online w false)).server (indexAt (e.on (m.online w false)) url.url rc.repoSuffix st) = .text body ↔
      Vouched w.byEnv (indexAt e url.url rc.repoSuffix st) body true := by
    intro body
    change (m.online w false).index (indexAt e url.url rc.repoSuffix st) = _ ↔ _
    rw [online_index (remote_index hr)]
    exact index_checked _ _ _
  refine and_congr Iff.rfl (exists_congr fun body => ?_)
  rw [hs body]
  rfl

/-- C163: if the certificate of a party that is asked for an index does not verify, the program ends. -/
theorem C163_stops (src : Sources) (o : Options) (ho : src.options = some o) (hns : ¬ NoSecureAsked src)
    (m : Computer) (w : Web) (e : RepoEnv) {c : DbCache} {url : RepoURL} {dst : SourceType} {rc : RepoConfig} {swap : Bool}
    (hold : ∀ f, c (dbFileOf e url.name url.url) = some f → ¬ Recent e f.mtime) (hr : Remote url.url) (st : SourceType) (hst : AskedFor e rc st)
    (htls : AsksTLS (indexAt e url.url rc.repoSuffix st)) (hbad : (w.byEnv (indexAt e url.url rc.repoSuffix st)).trusted = false) :
    ((e.on (m.online w o.noSecure)).newRepoDb c url dst rc swap).2 = .error .abort := by
  rw [noSecure_off ho hns]
  refine (C139_stops (e := e.on (m.online w false)) hold).2 ⟨st, hst, .inl ?_⟩
  change (m.online w false).index (indexAt e url.url rc.repoSuffix st) = _
  rw [online_index (remote_index hr)]
  have : (httpClient false).get w maxRequests (indexAt e url.url rc.repoSuffix st) = .failed := by
    unfold maxRequests Client.get
    dsimp only
    rw [if_pos]
    simp only [(isTLS_iff _).2 htls, httpClient, Client.meets]
    simp [hbad]
  unfold Web.index
  rw [this]

/-- C163 is violated by redirects: a trusted server at the https URL of a package may redirect to a URL without TLS; what anybody answers there is
the package. -/
theorem C163_violated (m : Computer) (w : Web) (e : DlEnv) (fs : Fs) (d : PkgDl) (dest : Path) (v c : Str) (hr : Remote (e.url d dest))
    (_htls : AsksTLS (e.url d dest)) (hgood : w.byEnv (e.url d dest) = { trusted := true, served := .moved v }) (hplain : ¬ AsksTLS v)
    (hany : w.byEnv v = { trusted := false, served := .body c true }) (hnew : fs dest = none) (hdir : fs (dirPath dest) = some .dir) :
    ∃ fs' dl, (e.on (m.online w false)).downloadPackage fs d dest = (fs', .ok dl) ∧ dl.path = .abs dest ∧ fs' dest = some (.file c) := by
  have hsrv : (e.on (m.online w false)).server ((e.on (m.online w false)).url d dest) = .body c true := by
    change (m.online w false).file (e.url d dest) = _
    rw [online_file hr, file_checked]
    refine ⟨[v], by simp, .step (by rw [hgood]) (.last (by rw [hany])), ?_⟩
    intro u hu
    rcases List.mem_cons.1 hu with rfl | hu
    · intro _; rw [hgood]
    · rw [List.mem_singleton.1 hu]; exact fun h => absurd h hplain
  unfold DlEnv.downloadPackage
  rw [if_neg (by simp [Fs.ex, hnew]), hsrv]
  simp [Fs.isDir, hdir, Fs.set]

/-! ## C164: what `NoSecure` changes -/

/-- C164: with `NoSecure`, no certificate matters: networks in which the same is served give the same. -/
theorem C164_no_certificate (m : Computer) (w w' : Web) (h : ∀ u, (w.direct u).served = (w'.direct u).served) :
    m.online w true = m.online w' true := by
  have hg : ∀ n u, (httpClient true).get w n u = (httpClient true).get w' n u := by
    intro n
    induction n with
    | zero => intro u; rfl
    | succ n ih =>
      intro u
      unfold Client.get
      have hu : ((httpClient true).meets w u).served = ((httpClient true).meets w' u).served := h u
      dsimp only [httpClient] at hu ⊢
      simp only [Bool.false_and, Bool.false_eq_true, if_false, if_true] at hu ⊢
      rw [hu]
      cases ((Client.meets { checks := false, proxied := false } w' u).served) with
      | moved v => exact ih v
      | _ => rfl
  unfold Computer.online
  congr 1
  · funext u; unfold Web.index; rw [hg]
  · funext u; unfold Web.file; rw [hg]

/-- C164, the part that holds: where there is no proxy and all certificates verify, `NoSecure` changes nothing; missing: with a proxy it does
(`C164_violated`). -/
theorem C164_nothing_else_partial (m : Computer) (w : Web) (hproxy : ∀ u, w.byEnv u = w.direct u) (hall : ∀ u, AsksTLS u → (w.direct u).trusted = true) :
    m.online w true = m.online w false := by
  have hg : ∀ n u, (httpClient true).get w n u = (httpClient false).get w n u := by
    intro n
    induction n with
    | zero => intro u; rfl
    | succ n ih =>
      intro u
      unfold Client.get
      have hu : (httpClient true).meets w u = (httpClient false).meets w u := (hproxy u).symm
      have hd : (httpClient false).meets w u = w.direct u := hproxy u
      dsimp only
      rw [if_neg (by simp [httpClient]), hu, if_neg]
      · cases (((httpClient false).meets w u).served) with
        | moved v => exact ih v
        | _ => rfl
      · rw [hd]
        by_cases ht : AsksTLS u
        · simp [hall u ht]
        · have : isTLS u = false := by rw [Bool.eq_false_iff]; exact fun h => ht ((isTLS_iff u).1 h)
          simp [this]
  unfold Computer.online
  congr 1
  · funext u; unfold Web.index; rw [hg]
  · funext u; unfold Web.file; rw [hg]

/-- C164 is violated where the environment has a proxy: with `NoSecure` the proxy is not used. Behind a firewall that lets only the proxy
through, a repository whose certificates all verify opens without `NoSecure`, and with it the program ends. -/
theorem C164_violated (m : Computer) (w : Web) (e : RepoEnv) {c : DbCache} {url : RepoURL} {dst : SourceType} {rc : RepoConfig} (swap : Bool) {b : Str}
    (hold : ∀ k f, c k = some f → ¬ Recent e f.mtime) (hw : e.writes = true) (hr : Remote url.url) (hbin : ¬ HasBinaries e.platform rc.repoType)
    (hfirewall : ∀ u, w.direct u = { trusted := true, served := .nothing })
    (hproxy : w.byEnv (indexAt e url.url rc.repoSuffix .source) = { trusted := true, served := .body b true }) (hu : Usable e.decode b) :
    (∃ db, ((e.on (m.online w false)).newRepoDb c url dst rc swap).2 = .ok db) ∧
    ((e.on (m.online w true)).newRepoDb c url dst rc swap).2 = .error .abort := by
  constructor
  · refine C86_opens (e := e.on (m.online w false)) swap hold hw ⟨b, ?_, hu⟩ (fun h => absurd h hbin)
    change (m.online w false).index (indexAt e url.url rc.repoSuffix .source) = _
    rw [online_index (remote_index hr), index_checked]
    exact ⟨[], by simp, .last (by rw [hproxy]), by intro u hu; rw [List.mem_singleton.1 hu, hproxy]; simp⟩
  · refine (C139_stops (e := e.on (m.online w true)) (fun f hf => hold _ f hf)).2 ⟨.source, .inl rfl, .inl ?_⟩
    change (m.online w true).index (indexAt e url.url rc.repoSuffix .source) = _
    rw [online_index (remote_index hr)]
    have : (httpClient true).get w maxRequests (indexAt e url.url rc.repoSuffix .source) = .failed := by
      unfold maxRequests Client.get
      dsimp only [httpClient, Client.meets]
      simp [hfirewall]
    unfold Web.index
    rw [this]

/-! ## C165: what was downloaded without checks -/

/-- C165, the part that holds: after any number of runs without `NoSecure`, each ended at any moment, every file in the cache was there before the
first, or was downloaded by one of them, over verified connections if its repository is on the network; missing: the history may have runs with
`NoSecure` (`C165_violated_package`, `C165_violated_index`), and see C163. -/
theorem C165_history_partial (rs : List WebRun) (fs fs' : Fs) (h : RunsLead rs fs fs') (hsec : ∀ r ∈ rs, r.noSecure = false)
    (hdests : ∀ r ∈ rs, (r.ds.map r.env.dest).Nodup) (p : Path) (c : Str) (hp : fs' p = some (.file c)) :
    fs p = some (.file c) ∨
    ∃ r ∈ rs, ∃ d ∈ r.ds, p = r.env.dest d ∧
      (Remote d.config.repo.url → ∃ whole b, Vouched r.web.byEnv (packageAt r.env d) whole b ∧ c <+: whole) := by
  induction h with
  | none => exact .inl hp
  | run h1 h2 ih =>
    rename_i r rs fs fs' s
    rcases ih (fun r hr => hsec r (List.mem_cons_of_mem _ hr)) (fun r hr => hdests r (List.mem_cons_of_mem _ hr)) hp with h | ⟨r', hr', h⟩
    · unfold WebRun.downloads at h1
      rw [hsec r (by simp)] at h1
      rcases fine_contents (e := r.env.on (r.computer.online r.web false)) (hdests r (by simp)) h1 h with h | ⟨d, hd, k1, _, whole, b, k3, k4⟩
      · exact .inl h
      · refine .inr ⟨r, by simp, d, hd, k1, fun hr => ⟨whole, b, ?_, k4⟩⟩
        change (r.computer.online r.web false).file (packageAt r.env d) = _ at k3
        rw [online_file (remote_package hr)] at k3
        exact (file_checked _ _ _ _).1 k3
    · exact .inr ⟨r', List.mem_cons_of_mem _ hr', h⟩

/-- C165 is violated: what anybody delivered for a package in a run with `NoSecure` is the package in every later run, whether or not it verifies
certificates, and whatever the servers say then. -/
theorem C165_violated_package (m : Computer) (w : Web) (e : DlEnv) (fs : Fs) (d : PkgDl) (dest : Path) (c : Str) (hr : Remote (e.url d dest))
    (hany : w.direct (e.url d dest) = { trusted := false, served := .body c true }) (hnew : fs dest = none) (hdir : fs (dirPath dest) = some .dir) :
    ∃ fs' dl, (e.on (m.online w true)).downloadPackage fs d dest = (fs', .ok dl) ∧ fs' dest = some (.file c) ∧
      ∀ (m' : Computer) (w' : Web) (e' : DlEnv), ∃ dl', (e'.on (m'.online w' false)).downloadPackage fs' d dest = (fs', .ok dl') ∧ dl'.path = .abs dest := by
  have hsrv : (e.on (m.online w true)).server ((e.on (m.online w true)).url d dest) = .body c true := by
    change (m.online w true).file (e.url d dest) = _
    rw [online_file hr, file_unchecked]
    exact ⟨[], by simp, .last (by rw [hany])⟩
  have h1 : (e.on (m.online w true)).downloadPackage fs d dest =
      (fs.set dest (.file c), .ok { path := .abs dest, new := true, metadata := d, size := c.length }) := by
    unfold DlEnv.downloadPackage
    rw [if_neg (by simp [Fs.ex, hnew]), hsrv]
    simp [Fs.isDir, hdir]
  refine ⟨_, _, h1, by simp [Fs.set], fun m' w' e' => ⟨{ path := .abs dest, new := false, metadata := d, size := 0 }, ?_, rfl⟩⟩
  unfold DlEnv.downloadPackage
  rw [if_pos (by simp [Fs.ex, Fs.set])]

/-- C165 is violated for indices too: what a run with `NoSecure` took for the packages of a repository, every run takes for it that finds the
cache file young, whether or not it verifies certificates. -/
theorem C165_violated_index (m : Computer) (w : Web) (e : RepoEnv) {c c' : DbCache} {url : RepoURL} {dst : SourceType} {rc : RepoConfig} {swap : Bool}
    {db : RepoDb} (hold : ∀ k f, c k = some f → ¬ Recent e f.mtime) (h : (e.on (m.online w true)).newRepoDb c url dst rc swap = (c', .ok db))
    (m' : Computer) (w' : Web) (later : RepoEnv) (hl : Recent later e.now) (hp : later.platform = e.platform)
    (hm : later.md5hex = e.md5hex) (hv : later.rv = e.rv) (swap' : Bool) :
    (later.on (m'.online w' false)).newRepoDb c' url dst rc swap' = (c', .ok db) :=
  C87_same_answer_partial (e := e.on (m.online w true)) hold h [] (by simp) (later.on (m'.online w' false)) hl hp hm hv swap'

/-! ## Concrete cases -/

/-- A network: packages are delivered by a trusted server, which has moved one of them to another one; the index is delivered by somebody without a
valid certificate; there is no proxy. -/
def wbParty (u : Str) : Party :=
  if u = s%"https:hh/src/contrib/a_1.tar.gz" then { trusted := true, served := .moved (s%"HTTPS://mirror/a_1.tar.gz") }
  else if u = s%"HTTPS://mirror/a_1.tar.gz" then { trusted := true, served := .body (s%"of a") true }
  else if u = s%"https:hh/src/contrib/b_1.tar.gz" then { trusted := false, served := .body (s%"of b") true }
  else if u = s%"https:hh/src/contrib/c_1.tar.gz" then { trusted := true, served := .moved (s%"http://plain/c") }
  else if u = s%"http://plain/c" then { trusted := false, served := .body (s%"of c") true }
  else if u = s%"https:hh/src/contrib/PACKAGES" then { trusted := false, served := .body (s%"a") true }
  else { trusted := true, served := .nothing }

/-- see `wbParty` -/
def wbWeb : Web := { direct := wbParty, byEnv := wbParty }

/-- see `wbParty` -/
def wbComputer : Computer :=
  { fs := fun _ => none, readable := fun _ => true, web := fun _ => .unreachable, webFile := fun _ => .netError, home := none, cwd := [] }

theorem wb_off : ¬ NoSecureAsked optSources := by
  rintro ⟨v, h1, h2⟩
  have hv := (C135_in_force optSources _ (by decide : optSources.options = some { noUpdate := true, noRollback := true, noSecure := false, strict := true, threads := 3, library := s%"/env/lib", rpath := s%"/opt/R" }))
  unfold InForce at h1
  cases h1 <;> simp_all [infoNoSecure, optSources]
  cases h2

/-- `C163_packages_partial` and `C163_refused_partial`: of two packages, the one that comes over verified connections is stored, the other one is not. -/
example : ∃ s, FineReach ((toyDl .badStatus).on (wbComputer.online wbWeb false)) [toyPkg (s%"a"), toyPkg (s%"b")] (fun _ => none) s ∧ s.returned = true ∧
    s.fs ((toyDl .badStatus).dest (toyPkg (s%"a"))) = some (.file (s%"of a")) ∧ s.fs ((toyDl .badStatus).dest (toyPkg (s%"b"))) = none := by
  refine ⟨_, ⟨[.spawn, .spawn, .acquire 0, .acquire 1, .io 0 .check, .io 1 .check, .io 1 .reply, .io 0 .reply, .io 0 .create, .io 0 (.write 4), .io 0 .close,
    .finish 1, .finish 0, .ret], rfl⟩, rfl, by decide +kernel, by decide +kernel⟩

example : (([toyPkg (s%"a"), toyPkg (s%"b")].map (toyDl .badStatus).dest).Nodup) ∧ Remote (toyPkg (s%"b")).config.repo.url ∧
    AsksTLS (packageAt (toyDl .badStatus) (toyPkg (s%"b"))) ∧ (wbWeb.byEnv (packageAt (toyDl .badStatus) (toyPkg (s%"b")))).trusted = false ∧
    Vouched wbWeb.byEnv (packageAt (toyDl .badStatus) (toyPkg (s%"a"))) (s%"of a") true :=
  ⟨by decide, ⟨s%"s:hh", rfl⟩, (isTLS_iff _).1 (by decide), by decide, (file_checked wbWeb _ _ _).1 (by decide)⟩

/-- `C163_reported_partial`: the second package has no entry, the first has one. -/
example : (toyDl .badStatus).mkDirs (fun _ => none) [toyPkg (s%"a"), toyPkg (s%"b")] ((toyDl .badStatus).dest (toyPkg (s%"b"))) = none ∧
    ∃ s, FineReach ((toyDl .badStatus).on (wbComputer.online wbWeb false)) [toyPkg (s%"a"), toyPkg (s%"b")] (fun _ => none) s ∧ s.returned = true ∧
      GoMap.get? s.result (s%"b") = none ∧ GoMap.get? s.result (s%"a") ≠ none := by
  refine ⟨by decide, _, ⟨[.spawn, .spawn, .acquire 0, .acquire 1, .io 0 .check, .io 1 .check, .io 1 .reply, .io 0 .reply, .io 0 .create, .io 0 (.write 4), .io 0 .close,
    .finish 1, .finish 0, .ret], rfl⟩, rfl, by decide +kernel, by decide +kernel⟩

/-- `C163_stops`, `C163_indices_partial`: an index that is not vouched for, and one that is. -/
example : ((opBad.on (wbComputer.online wbWeb false)).newRepoDb (fun _ => none) { name := s%"r", url := s%"https:hh" } .source {} false).2 = .error .abort := by
  have h := C163_stops optSources _ (by decide : optSources.options = some { noUpdate := true, noRollback := true, noSecure := false, strict := true, threads := 3, library := s%"/env/lib", rpath := s%"/opt/R" })
    wb_off wbComputer wbWeb opBad (c := fun _ => none) (url := { name := s%"r", url := s%"https:hh" }) (dst := .source) (rc := {}) (swap := false)
    (by intro f hf; cases hf) ⟨s%"s:hh", rfl⟩ .source (.inl rfl) ((isTLS_iff _).1 (by decide)) (by decide)
  exact h

/-- see above: the network as it is when the certificate of the index verifies -/
def wbGood : Web := { direct := fun u => { wbParty u with trusted := true }, byEnv := fun u => { wbParty u with trusted := true } }

example : (∃ db, ((opBad.on (wbComputer.online wbGood false)).newRepoDb (fun _ => none) { name := s%"r", url := s%"https:hh" } .source {} false).2 = .ok db) ∧
    Vouched wbGood.byEnv (indexAt opBad (s%"https:hh") [] .source) (s%"a") true ∧ SmallR opBad.rv := by
  refine ⟨?_, (index_checked wbGood _ _).1 (by decide), by decide⟩
  have : (match ((opBad.on (wbComputer.online wbGood false)).newRepoDb (fun _ => none) { name := s%"r", url := s%"https:hh" } .source {} false).2 with
    | .ok _ => true | _ => false) = true := by decide +kernel
  revert this
  cases ((opBad.on (wbComputer.online wbGood false)).newRepoDb (fun _ => none) { name := s%"r", url := s%"https:hh" } .source {} false).2 with
  | ok a => exact fun _ => ⟨a, rfl⟩
  | error x => intro h; cases h

/-- `C163_violated`: the third package. -/
example : let d := toyPkg (s%"c"); let e := toyDl .badStatus
    Remote (e.url d (e.dest d)) ∧ AsksTLS (e.url d (e.dest d)) ∧ wbWeb.byEnv (e.url d (e.dest d)) = { trusted := true, served := .moved (s%"http://plain/c") } ∧
    ¬ AsksTLS (s%"http://plain/c") ∧ wbWeb.byEnv (s%"http://plain/c") = { trusted := false, served := .body (s%"of c") true } ∧
    toyCache (e.dest d) = none ∧ toyCache (dirPath (e.dest d)) = some .dir :=
  ⟨⟨s%"s:hh/src/contrib/c_1.tar.gz", rfl⟩, (isTLS_iff _).1 (by decide), by decide, fun h => absurd ((isTLS_iff _).2 h) (by decide), by decide, by decide, by decide⟩

/-- `C164_no_certificate`, `C164_nothing_else_partial`: the two networks. -/
example : wbComputer.online wbWeb true = wbComputer.online wbGood true ∧ wbComputer.online wbGood true = wbComputer.online wbGood false :=
  ⟨C164_no_certificate wbComputer wbWeb wbGood (fun _ => rfl), C164_nothing_else_partial wbComputer wbGood (fun _ => rfl) (fun _ _ => rfl)⟩

/-- `C164_violated`: only the proxy gets through. -/
example : ((opBad.on (wbComputer.online { wbGood with direct := fun _ => { trusted := true, served := .nothing } } true)).newRepoDb (fun _ => none)
    { name := s%"r", url := s%"https:hh" } .source {} false).2 = .error .abort := by
  refine (C164_violated wbComputer { wbGood with direct := fun _ => { trusted := true, served := .nothing } } opBad (c := fun _ => none)
    (url := { name := s%"r", url := s%"https:hh" }) (dst := .source) (rc := {}) false (b := s%"a") (by simp) rfl ⟨s%"s:hh", rfl⟩ ?_ (fun _ => rfl) (by decide) ?_).2
  · simp [HasBinaries, opBad]
  · exact (usable_iff _ ⟨4, 1, 0⟩ _).2 ⟨_, rfl⟩

/-- `C165_history_partial`: a history of two runs, the first of which was ended while it was writing. -/
example : ∃ fs', RunsLead [⟨wbWeb, false, wbComputer, toyDl .badStatus, [toyPkg (s%"a")]⟩, ⟨wbGood, false, wbComputer, toyDl .badStatus, [toyPkg (s%"b")]⟩]
    (fun _ => none) fs' ∧ fs' ((toyDl .badStatus).dest (toyPkg (s%"a"))) = some (.file (s%"of")) ∧
    fs' ((toyDl .badStatus).dest (toyPkg (s%"b"))) = some (.file (s%"of b")) := by
  refine ⟨_, .run (s := _) ⟨[.spawn, .acquire 0, .io 0 .check, .io 0 .reply, .io 0 .create, .io 0 (.write 2)], rfl⟩
    (.run (s := _) ⟨[.spawn, .acquire 0, .io 0 .check, .io 0 .reply, .io 0 .create, .io 0 (.write 4), .io 0 .close, .finish 0, .ret], rfl⟩ .none),
    by decide +kernel, by decide +kernel⟩

/-- `C165_violated_package`: the second package. -/
example : let d := toyPkg (s%"b"); let e := toyDl .badStatus
    Remote (e.url d (e.dest d)) ∧ wbWeb.direct (e.url d (e.dest d)) = { trusted := false, served := .body (s%"of b") true } ∧
    toyCache (e.dest d) = none ∧ toyCache (dirPath (e.dest d)) = some .dir :=
  ⟨⟨s%"s:hh/src/contrib/b_1.tar.gz", rfl⟩, by decide, by decide, by decide⟩

/-- `C165_violated_index`: the index that nobody vouches for is used by the next run, which would have refused it. -/
example : ∃ c' db, (opBad.on (wbComputer.online wbWeb true)).newRepoDb (fun _ => none) { name := s%"r", url := s%"https:hh" } .source {} false = (c', .ok db) ∧
    (opBad.on (wbComputer.online wbWeb false)).newRepoDb c' { name := s%"r", url := s%"https:hh" } .source {} false = (c', .ok db) := by
  have : (match ((opBad.on (wbComputer.online wbWeb true)).newRepoDb (fun _ => none) { name := s%"r", url := s%"https:hh" } .source {} false).2 with
    | .ok _ => true | _ => false) = true := by decide +kernel
  revert this
  generalize hr : (opBad.on (wbComputer.online wbWeb true)).newRepoDb (fun _ => none) { name := s%"r", url := s%"https:hh" } .source {} false = r
  obtain ⟨c', x⟩ := r
  cases x with
  | ok db =>
    intro _
    exact ⟨c', db, rfl, C165_violated_index wbComputer wbWeb opBad (by simp) hr wbComputer wbWeb opBad (by simp [Recent, opBad]) rfl rfl rfl false⟩
  | error x => intro h; cases h

end Pkgr
