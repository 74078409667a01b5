/- C106, C107: packages given as tarballs. -/
import Verif.Spec.Tarballs
import Verif.Props.Archive
import Verif.Props.Rollback
import Verif.Props.Plan

namespace Pkgr
open Spec

/-! ### C106 -/

theorem extractLoop_length (root : Path) (readOk : Bool) : ∀ (es : List (Entry × IoEnd)) (fs : Fs) (past : List Fs),
    past.length < (extractLoop root readOk fs es past).1.length
  | [], fs, past => by simp [extractLoop]
  | (e, io) :: es, fs, past => by
    rw [extractLoop]
    split
    · have := extractLoop_length root readOk es (by assumption) (fs :: past)
      simp only [List.length_cons] at this
      omega
    · simp only [List.length_cons]; omega

theorem untar_new {digest : Str → Str} {names : List Str} {fs : Fs} {cache : Path} {t : Tarball}
    (hd : fs.isDir (cache ++ [digest t.bytes]) = false) :
    (untar digest names fs cache t).1 = (extract fs (cache ++ [digest t.bytes]) t.entries t.readOk).1 := by
  unfold untar
  dsimp only
  rw [hd, if_neg (by decide)]
  cases extract fs (cache ++ [digest t.bytes]) t.entries t.readOk with
  | mk l ok => cases ok <;> rfl

theorem untar_old {digest : Str → Str} {names : List Str} {fs : Fs} {cache : Path} {t : Tarball}
    (hd : fs.isDir (cache ++ [digest t.bytes]) = true) :
    untar digest names fs cache t = ([fs], pickFolder names fs (cache ++ [digest t.bytes])) := by
  unfold untar; dsimp only; rw [if_pos hd]

theorem untar_isDir {digest : Str → Str} {names : List Str} {fs : Fs} {cache : Path} {t : Tarball} {p : Path}
    (hp : (untar digest names fs cache t).2 = .folder p) :
    (lastState fs (untar digest names fs cache t).1).isDir (cache ++ [digest t.bytes]) = true ∧
    pickFolder names (lastState fs (untar digest names fs cache t).1) (cache ++ [digest t.bytes]) = .folder p := by
  cases hd : fs.isDir (cache ++ [digest t.bytes]) with
  | true =>
    rw [untar_old hd] at hp ⊢
    exact ⟨hd, hp⟩
  | false =>
    have h := (C71_complete_partial digest names fs cache t hd p hp).2
    generalize lastState fs (untar digest names fs cache t).1 = f at h ⊢
    cases hd' : f.isDir (cache ++ [digest t.bytes]) with
    | true =>
      rw [untar_old hd'] at h
      exact ⟨rfl, (Prod.mk.inj h).2⟩
    | false =>
      exfalso
      have h1 := untar_new (names := names) hd'
      rw [h] at h1
      have h2 := extractLoop_length (cache ++ [digest t.bytes]) t.readOk t.entries
        ((f.removeAll (cache ++ [digest t.bytes])).mkdirAll (cache ++ [digest t.bytes])) [f.removeAll (cache ++ [digest t.bytes]), f]
      have h3 : (extract f (cache ++ [digest t.bytes]) t.entries t.readOk).1.length = 1 := by rw [← h1]; rfl
      unfold extract at h3
      simp only [List.length_cons, List.length_nil] at h2
      dsimp only at h3
      omega

/-- What unpacking a tarball does outside its directory. -/
theorem untar_frame (digest : Str → Str) (names : List Str) (fs : Fs) (cache : Path) (t : Tarball) (q : Path)
    (hq : ¬ (cache ++ [digest t.bytes]) <+: q) :
    lastState fs (untar digest names fs cache t).1 q = fs q ∨
      (q <+: cache ++ [digest t.bytes] ∧ fs q = none ∧ lastState fs (untar digest names fs cache t).1 q = some .dir) := by
  cases hd : fs.isDir (cache ++ [digest t.bytes]) with
  | true => rw [untar_old hd]; exact .inl rfl
  | false =>
    rw [untar_new hd]
    cases hl : (extract fs (cache ++ [digest t.bytes]) t.entries t.readOk).1 with
    | nil => exact .inl rfl
    | cons s rest =>
      have := C69_confined fs (cache ++ [digest t.bytes]) t.entries t.readOk s (by rw [hl]; exact List.mem_cons_self) q hq
      exact this

theorem sibling_prefix {c : Path} {a b : Str} {q : Path} (h1 : (c ++ [a]) <+: q) (h2 : (c ++ [b]) <+: q ∨ q <+: c ++ [b]) : a = b := by
  have h : (c ++ [a]) <+: (c ++ [b]) ∨ (c ++ [b]) <+: (c ++ [a]) := by
    rcases h2 with h2 | h2
    · exact List.prefix_or_prefix_of_prefix h1 h2
    · exact .inl (h1.trans h2)
  rcases h with h | h
  · have := List.IsPrefix.eq_of_length h (by simp)
    simpa using this
  · have := List.IsPrefix.eq_of_length h (by simp)
    simpa using this.symm

/-- Another tarball does not touch what is unpacked. -/
theorem untar_keeps {digest : Str → Str} {names : List Str} {fs : Fs} {cache : Path} {g : Str} (hg : fs.isDir (cache ++ [g]) = true)
    (t : Tarball) {q : Path} (hq : (cache ++ [g]) <+: q) : lastState fs (untar digest names fs cache t).1 q = fs q := by
  by_cases he : digest t.bytes = g
  · rw [untar_old (by rw [he]; exact hg)]; rfl
  · rcases untar_frame digest names fs cache t q (fun h => he (sibling_prefix hq (.inl h)).symm) with h | ⟨h, _, _⟩
    · exact h
    · exact absurd (sibling_prefix hq (.inr h)).symm he

theorem pickFolder_iff {names : List Str} {fs : Fs} {dir p : Path} (h : pickFolder names fs dir = .folder p) :
    ∃ before n after, names = before ++ n :: after ∧ p = dir ++ [n] ∧ fs (dir ++ [n]) = some .dir ∧ ∀ m ∈ before, fs (dir ++ [m]) ≠ some .dir := by
  have hd : ∀ q, fs.isDir q = true ↔ fs q = some .dir := fun q => by unfold Fs.isDir; rw [decide_eq_true_eq]
  unfold pickFolder Fs.ls at h
  rw [List.filter_filter] at h
  revert h
  induction names with
  | nil => intro h; simp at h
  | cons m ms ih =>
    intro h
    by_cases hm : fs (dir ++ [m]) = some .dir
    · rw [List.filter_cons_of_pos (by simp [(hd _).2 hm, Fs.ex, hm])] at h
      refine ⟨[], m, ms, rfl, ?_, hm, by simp⟩
      simpa using h.symm
    · rw [List.filter_cons_of_neg (by simp [hm, Fs.isDir])] at h
      obtain ⟨b, n, a, h1, h2, h3, h4⟩ := ih h
      refine ⟨m :: b, n, a, by rw [h1]; rfl, h2, h3, ?_⟩
      intro x hx
      rcases List.mem_cons.1 hx with rfl | hx
      · exact hm
      · exact h4 x hx

theorem lastWith_append {α : Type} {key : α → Str} {l : List α} {y : α} {k : Str} {x : α} :
    LastWith key (l ++ [y]) k x ↔ if key y = k then x = y else LastWith key l k x := by
  constructor
  · rintro ⟨pre, post, h, hk, hp⟩
    rcases List.eq_nil_or_concat post with rfl | ⟨post', z, rfl⟩
    · have h' : l ++ [y] = pre ++ [x] := h
      have := List.append_inj' h' rfl
      simp only [List.cons.injEq, and_true] at this
      rw [if_pos (by rw [this.2]; exact hk)]
      exact this.2.symm
    · have h' : l ++ [y] = (pre ++ x :: post') ++ [z] := by rw [h]; simp
      have := List.append_inj' h' rfl
      simp only [List.cons.injEq, and_true] at this
      obtain ⟨h1, rfl⟩ := this
      rw [if_neg (hp y (by simp))]
      exact ⟨pre, post', h1, hk, fun z hz => hp z (by simp [hz])⟩
  · split
    · rintro rfl
      exact ⟨l, [], rfl, by assumption, by simp⟩
    · rintro ⟨pre, post, rfl, hk, hp⟩
      rename_i hy
      refine ⟨pre, post ++ [y], by simp, hk, ?_⟩
      intro z hz
      rcases List.mem_append.1 hz with hz | hz
      · exact hp z hz
      · simp only [List.mem_singleton] at hz; rw [hz]; exact hy

/-- The entry of the table that a row stands for. -/
def rowEntry (r : TarballRow) : AdditionalPkg := { installPath := pathStr r.folder, originPath := r.path, type := s%"tarball" }

theorem unpackTarballs_spec (digest : Str → Str) (names : List Str) (parse : Str → Option Desc) (cache : Path) :
    ∀ (ts : List (Str × Option Tarball)) (fs : Fs) (m : GoMap AdditionalPkg) (rows : List TarballRow) (out : Fs × List Desc × GoMap AdditionalPkg),
    (∀ r ∈ rows, r.In digest names parse cache fs ∧ fs.isDir (cache ++ [digest r.tarball.bytes]) = true) →
    (∀ name a, GoMap.get? m name = some a ↔ ∃ r, LastWith (fun r => r.desc.package) rows name r ∧ a = rowEntry r) →
    unpackTarballs digest names parse cache fs (rows.map TarballRow.desc) m ts = some out →
    ∃ rows', ts = rows'.map (fun r => (r.path, some r.tarball)) ∧
      out.2.1 = (rows ++ rows').map TarballRow.desc ∧
      (∀ r ∈ rows ++ rows', r.In digest names parse cache out.1 ∧ out.1.isDir (cache ++ [digest r.tarball.bytes]) = true) ∧
      (∀ name a, GoMap.get? out.2.2 name = some a ↔ ∃ r, LastWith (fun r => r.desc.package) (rows ++ rows') name r ∧ a = rowEntry r)
  | [], fs, m, rows, out, hrows, hm, h => by
    simp only [unpackTarballs, Option.some.injEq] at h
    subst h
    exact ⟨[], rfl, by simp, by simpa using hrows, by simpa using hm⟩
  | (path, file) :: ts, fs, m, rows, out, hrows, hm, h => by
    rw [unpackTarballs] at h
    cases file with
    | none => simp [unpackOne] at h
    | some t =>
      unfold unpackOne at h
      dsimp only at h
      cases hu : (untar digest names fs cache t).2 with
      | fatal => rw [hu] at h; simp at h
      | folder p =>
        rw [hu] at h
        dsimp only at h
        obtain ⟨hdir, hpick⟩ := untar_isDir hu
        have hframe := untar_frame digest names fs cache t
        have hkeep := fun (g : Str) (hg : fs.isDir (cache ++ [g]) = true) (q : Path) => untar_keeps (digest := digest) (names := names) hg t (q := q)
        generalize lastState fs (untar digest names fs cache t).1 = fs1 at h hdir hpick hframe hkeep
        cases hc : fs1 (p ++ [s%"DESCRIPTION"]) with
        | none => rw [hc] at h; simp at h
        | some n =>
          cases n with
          | dir => rw [hc] at h; simp at h
          | file c =>
            rw [hc] at h
            dsimp only at h
            cases hd : parse c with
            | none => rw [hd] at h; simp at h
            | some d =>
              rw [hd] at h
              dsimp only at h
              have hplace := pickFolder_iff hpick
              have hrow : TarballRow.In ⟨path, t, p, d⟩ digest names parse cache fs1 := by
                refine ⟨?_, c, hc, hd⟩
                obtain ⟨b, n, a, h1, h2, h3, h4⟩ := hplace
                refine ⟨b, n, a, h1, by simpa using h2, by simpa using h3, ?_⟩
                intro x hx
                simpa using h4 x hx
              have hmono : ∀ r ∈ rows, r.In digest names parse cache fs1 ∧ fs1.isDir (cache ++ [digest r.tarball.bytes]) = true := by
                intro r hr
                obtain ⟨⟨hp, hde⟩, hdi⟩ := hrows r hr
                have hk := hkeep _ hdi
                refine ⟨⟨?_, ?_⟩, ?_⟩
                · obtain ⟨b, n, a, h1, h2, h3, h4⟩ := hp
                  refine ⟨b, n, a, h1, h2, ?_, ?_⟩
                  · rw [hk _ ⟨[n], by simp⟩]; exact h3
                  · intro x hx; rw [hk _ ⟨[x], by simp⟩]; exact h4 x hx
                · obtain ⟨text, ht, hpa⟩ := hde
                  obtain ⟨b, n, a, h1, h2, h3, h4⟩ := hp
                  refine ⟨text, ?_, hpa⟩
                  rw [hk _ (by rw [h2]; exact ⟨[n, s%"DESCRIPTION"], by simp⟩)]; exact ht
                · unfold Fs.isDir at hdi ⊢
                  rw [hk _ (List.prefix_refl _)]; exact hdi
              have hrows1 : ∀ r ∈ rows ++ [⟨path, t, p, d⟩], r.In digest names parse cache fs1 ∧ fs1.isDir (cache ++ [digest r.tarball.bytes]) = true := by
                intro r hr
                rcases List.mem_append.1 hr with hr | hr
                · exact hmono r hr
                · simp only [List.mem_singleton] at hr
                  subst hr
                  exact ⟨hrow, hdir⟩
              have hm1 : ∀ name a, GoMap.get? (GoMap.put m d.package { installPath := pathStr p, originPath := path, type := s%"tarball" }) name = some a ↔
                  ∃ r, LastWith (fun r => r.desc.package) (rows ++ [⟨path, t, p, d⟩]) name r ∧ a = rowEntry r := by
                intro name a
                rw [GoMap.get?_put]
                by_cases hn : name = d.package
                · rw [if_pos hn]
                  constructor
                  · intro h
                    refine ⟨⟨path, t, p, d⟩, lastWith_append.2 ?_, by cases h; rfl⟩
                    rw [if_pos hn.symm]
                  · rintro ⟨r, hr, rfl⟩
                    rw [lastWith_append, if_pos hn.symm] at hr
                    rw [hr]; rfl
                · rw [if_neg hn, hm]
                  constructor
                  · rintro ⟨r, hr, rfl⟩
                    exact ⟨r, lastWith_append.2 (by rw [if_neg (fun h => hn h.symm)]; exact hr), rfl⟩
                  · rintro ⟨r, hr, rfl⟩
                    rw [lastWith_append, if_neg (fun h => hn h.symm)] at hr
                    exact ⟨r, hr, rfl⟩
              have hds : rows.map TarballRow.desc ++ [d] = (rows ++ [(⟨path, t, p, d⟩ : TarballRow)]).map TarballRow.desc := by simp
              rw [hds] at h
              obtain ⟨rows', e1, e2, e3, e4⟩ := unpackTarballs_spec digest names parse cache ts fs1 _ _ out hrows1 hm1 h
              refine ⟨⟨path, t, p, d⟩ :: rows', by rw [e1]; rfl, by rw [e2]; simp, ?_, ?_⟩
              · intro r hr; exact e3 r (by simpa using hr)
              · intro name a; rw [e4]; simp

/-- C106: when the configured tarballs could be unpacked, each has a folder in its own directory in the cache, which
still holds its DESCRIPTION when all are unpacked; all descriptions are taken into account, in the order of the
configuration; and each package that a tarball contains will be installed from the folder of the last configured tarball
that contains it. -/
theorem C106_table {digest : Str → Str} {names : List Str} {parse : Str → Option Desc} {cache : Path} {fs fs' : Fs}
    {ts : List (Str × Option Tarball)} {ds : List Desc} {table : GoMap AdditionalPkg}
    (h : unpackTarballs digest names parse cache fs [] [] ts = some (fs', ds, table)) :
    ∃ rows : List TarballRow, ts = rows.map (fun r => (r.path, some r.tarball)) ∧ ds = rows.map TarballRow.desc ∧
      (∀ r ∈ rows, r.In digest names parse cache fs') ∧
      ∀ name a, GoMap.get? table name = some a ↔ ∃ r, LastWith (fun r => r.desc.package) rows name r ∧
        a = { installPath := pathStr r.folder, originPath := r.path, type := s%"tarball" } := by
  obtain ⟨rows, h1, h2, h3, h4⟩ := unpackTarballs_spec digest names parse cache ts fs [] [] _ (by simp)
    (by
      intro name a
      constructor
      · intro h; simp [GoMap.get?] at h
      · rintro ⟨r, ⟨pre, post, h, _⟩, _⟩; simp at h) h
  exact ⟨rows, h1, by simpa using h2, fun r hr => (h3 r (by simpa using hr)).1, by simpa [rowEntry] using h4⟩

theorem unpack_cons {digest : Str → Str} {names : List Str} {parse : Str → Option Desc} {cache : Path} {fs : Fs} {ds : List Desc}
    {m : GoMap AdditionalPkg} {path : Str} {file : Option Tarball} {ts : List (Str × Option Tarball)} {out : Fs × List Desc × GoMap AdditionalPkg}
    (h : unpackTarballs digest names parse cache fs ds m ((path, file) :: ts) = some out) :
    ∃ t p ds' m', file = some t ∧ (untar digest names fs cache t).2 = .folder p ∧
      unpackTarballs digest names parse cache (lastState fs (untar digest names fs cache t).1) ds' m' ts = some out := by
  rw [unpackTarballs] at h
  cases file with
  | none => simp [unpackOne] at h
  | some t =>
    unfold unpackOne at h
    dsimp only at h
    cases hu : (untar digest names fs cache t).2 with
    | fatal => rw [hu] at h; simp at h
    | folder p =>
      rw [hu] at h
      dsimp only at h
      cases hc : lastState fs (untar digest names fs cache t).1 (p ++ [s%"DESCRIPTION"]) with
      | none => rw [hc] at h; simp at h
      | some n =>
        cases n with
        | dir => rw [hc] at h; simp at h
        | file c =>
          rw [hc] at h
          dsimp only at h
          cases hd : parse c with
          | none => rw [hd] at h; simp at h
          | some d =>
            rw [hd] at h
            exact ⟨t, p, _, _, rfl, hu, h⟩

theorem unpack_keeps {digest : Str → Str} {names : List Str} {parse : Str → Option Desc} {cache : Path} :
    ∀ (ts : List (Str × Option Tarball)) {fs : Fs} {ds : List Desc} {m : GoMap AdditionalPkg} {out : Fs × List Desc × GoMap AdditionalPkg},
    unpackTarballs digest names parse cache fs ds m ts = some out → ∀ {g : Str} {q : Path}, fs.isDir (cache ++ [g]) = true →
      (cache ++ [g]) <+: q → out.1 q = fs q
  | [], fs, ds, m, out, h, g, q, _, _ => by
    simp only [unpackTarballs, Option.some.injEq] at h
    rw [← h]
  | (path, file) :: ts, fs, ds, m, out, h, g, q, hg, hq => by
    obtain ⟨t, p, ds', m', rfl, hu, h⟩ := unpack_cons h
    have hk := fun q => untar_keeps (digest := digest) (names := names) hg t (q := q)
    rw [unpack_keeps ts h (g := g) (q := q) (by unfold Fs.isDir at hg ⊢; rw [hk _ (List.prefix_refl _)]; exact hg) hq, hk q hq]

/-- C106: a tarball whose directory was not in the cache is unpacked completely: after all tarballs are unpacked, every
file of it is there with its content. -/
theorem C106_complete {digest : Str → Str} {names : List Str} {parse : Str → Option Desc} {cache : Path} {fs fs' : Fs}
    {ts : List (Str × Option Tarball)} {ds : List Desc} {table : GoMap AdditionalPkg}
    (h : unpackTarballs digest names parse cache fs [] [] ts = some (fs', ds, table))
    {before after : List (Str × Option Tarball)} {path : Str} {t : Tarball} (hts : ts = before ++ (path, some t) :: after)
    (hnew : fs (cache ++ [digest t.bytes]) ≠ some .dir)
    (hfirst : ∀ x t', (x, some t') ∈ before → digest t'.bytes ≠ digest t.bytes)
    {e : Entry} {io : IoEnd} {c : Str} (he : (e, io) ∈ t.entries) (hk : e.kind = .regular c) :
    ∃ q, Leads (cache ++ [digest t.bytes]) e.name q ∧ fs' q = some (.file c) := by
  subst hts
  have key : ∀ (before : List (Str × Option Tarball)) (fs : Fs) (ds0 : List Desc) (m : GoMap AdditionalPkg),
      fs (cache ++ [digest t.bytes]) ≠ some .dir → (∀ x t', (x, some t') ∈ before → digest t'.bytes ≠ digest t.bytes) →
      unpackTarballs digest names parse cache fs ds0 m (before ++ (path, some t) :: after) = some (fs', ds, table) →
      ∃ q, Leads (cache ++ [digest t.bytes]) e.name q ∧ fs' q = some (.file c) := by
    intro before
    induction before with
    | nil =>
      intro fs ds0 m hnew _ h
      obtain ⟨t1, p, ds1, m1, ht, hu, h⟩ := unpack_cons h
      cases ht
      obtain ⟨hdir, _⟩ := untar_isDir hu
      obtain ⟨q, hq1, hq2, hq3⟩ := (C71_complete_partial digest names fs cache t (by simp [Fs.isDir, hnew]) p hu).1 e io c he hk
      exact ⟨q, hq1, (unpack_keeps after h hdir hq2).trans hq3⟩
    | cons b before ih =>
      intro fs ds0 m hnew hf h
      obtain ⟨x, file⟩ := b
      obtain ⟨t1, p, ds1, m1, rfl, hu, h⟩ := unpack_cons h
      have hne := hf x t1 List.mem_cons_self
      refine ih _ ds1 m1 ?_ (fun y t' hy => hf y t' (List.mem_cons_of_mem _ hy)) h
      have hfr := untar_frame digest names fs cache t1 (cache ++ [digest t.bytes]) (fun h => hne (sibling_prefix h (.inl (List.prefix_refl _))))
      rcases hfr with h | ⟨h, _, _⟩
      · rw [h]; exact hnew
      · exact absurd (sibling_prefix h (.inl (List.prefix_refl _))).symm hne
  exact key before fs [] [] hnew hfirst h

/-- Two tarballs with the same package in different versions. -/
def twoTarballs : List (Str × Option Tarball) :=
  [(s%"R6_1.tar.gz", some ⟨s%"v1", [(⟨s%"R6/DESCRIPTION", .regular (s%"one")⟩, .ok)], true⟩),
   (s%"R6_2.tar.gz", some ⟨s%"v2", [(⟨s%"R6/DESCRIPTION", .regular (s%"two")⟩, .ok)], true⟩)]

example : (unpackTarballs id [s%"R6"] (fun c => some { package := s%"R6", version := c }) [s%"cache"] (fun _ => none) [] [] twoTarballs).map
      (fun o => (o.2, o.1 [s%"cache", s%"v1", s%"R6", s%"DESCRIPTION"], o.1 [s%"cache", s%"v2", s%"R6", s%"DESCRIPTION"])) =
    some (([{ package := s%"R6", version := s%"one" }, { package := s%"R6", version := s%"two" }],
      [(s%"R6", { installPath := s%"/cache/v2/R6", originPath := s%"R6_2.tar.gz", type := s%"tarball" })]),
      some (.file (s%"one")), some (.file (s%"two"))) := by decide

theorem unpackDescriptions_iff (parse : Str → Option Desc) (fs : Fs) : ∀ (paths : List Path) (ds : List Desc),
    unpackDescriptions parse fs paths = some ds ↔
      ds.length = paths.length ∧ ∀ (i : Nat) p d, paths[i]? = some p → ds[i]? = some d → ∃ c, fs p = some (.file c) ∧ parse c = some d
  | [], ds => by
    unfold unpackDescriptions
    cases ds with
    | nil => simp
    | cons d ds => simp
  | p :: ps, ds => by
    have ih := unpackDescriptions_iff parse fs ps
    unfold unpackDescriptions at ih ⊢
    rw [List.mapM_cons]
    rw [show unpackDescription parse fs p = (match fs p with | some (.file c) => parse c | _ => none) from rfl]
    constructor
    · intro h
      cases hp : fs p with
      | none => rw [hp] at h; cases h
      | some n =>
        rw [hp] at h
        cases n with
        | dir => cases h
        | file c =>
          dsimp only at h
          cases hc : parse c with
          | none => rw [hc] at h; cases h
          | some d =>
            rw [hc] at h
            cases ht : ps.mapM (unpackDescription parse fs) with
            | none => rw [ht] at h; cases h
            | some ds' =>
              rw [ht] at h
              cases h
              obtain ⟨h1, h2⟩ := (ih ds').1 ht
              refine ⟨by simp [h1], ?_⟩
              intro i q e hq he
              cases i with
              | zero =>
                simp only [List.getElem?_cons_zero, Option.some.injEq] at hq he
                subst hq he
                exact ⟨c, hp, hc⟩
              | succ i =>
                simp only [List.getElem?_cons_succ] at hq he
                exact h2 i q e hq he
    · rintro ⟨h1, h2⟩
      cases ds with
      | nil => simp at h1
      | cons d ds =>
        obtain ⟨c, hc, hd⟩ := h2 0 p d rfl rfl
        have := (ih ds).2 ⟨by simpa using h1, fun i q e hq he => h2 (i + 1) q e (by simpa using hq) (by simpa using he)⟩
        rw [this, hc]
        dsimp only
        rw [hd]
        rfl

/-- C29 (partial: not for what is needed through Depends), from the files on: when the configured tarballs and DESCRIPTION
files have been read, each package that the DESCRIPTION in an unpacked tarball names under Imports or LinkingTo, or a
listed DESCRIPTION file under Imports, LinkingTo or Suggests, is requested unless it comes with R; and nothing else is
but what the configuration lists. -/
theorem C29_files_partial {digest : Str → Str} {names : List Str} {parse : Str → Option Desc} {cache : Path} {fs fs' : Fs}
    {ts : List (Str × Option Tarball)} {paths : List Path} {tb ds : List Desc} {table : GoMap AdditionalPkg}
    (htb : unpackTarballs digest names parse cache fs [] [] ts = some (fs', tb, table))
    (hds : unpackDescriptions parse fs' paths = some ds)
    (cfg : PlanCfg) {ρ ρ' : Order} (hρ : ρ.Fair) (hρ' : ρ'.Fair) :
    ∃ rows : List TarballRow, ts = rows.map (fun r => (r.path, some r.tarball)) ∧ (∀ r ∈ rows, r.In digest names parse cache fs') ∧
      ∀ p, p ∈ requestedPackages cfg tb ds ρ ρ' ↔ p ∉ basePkgs ∧ (p ∈ cfg.packages ∨
        (∃ r ∈ rows, p ∈ GoMap.keys r.desc.imports ∨ p ∈ GoMap.keys r.desc.linkingTo) ∨
        (∃ q ∈ paths, ∃ c d, fs' q = some (.file c) ∧ parse c = some d ∧
          (p ∈ GoMap.keys d.imports ∨ p ∈ GoMap.keys d.linkingTo ∨ p ∈ GoMap.keys d.suggests))) := by
  obtain ⟨rows, h1, h2, h3, -⟩ := C106_table htb
  obtain ⟨hl, hd⟩ := (unpackDescriptions_iff parse fs' paths ds).1 hds
  refine ⟨rows, h1, h3, ?_⟩
  intro p
  rw [C29_requested_partial cfg tb ds hρ hρ' p]
  apply and_congr_right
  intro _
  apply or_congr_right
  apply or_congr
  · rw [h2]
    constructor
    · rintro ⟨d, hd, h⟩
      obtain ⟨r, hr, rfl⟩ := List.mem_map.1 hd
      exact ⟨r, hr, h⟩
    · rintro ⟨r, hr, h⟩
      exact ⟨r.desc, List.mem_map.2 ⟨r, hr, rfl⟩, h⟩
  · constructor
    · rintro ⟨d, hmem, h⟩
      obtain ⟨i, hi, hx⟩ := List.mem_iff_getElem.1 hmem
      have hi' : i < paths.length := hl ▸ hi
      obtain ⟨c, hc, hp⟩ := hd i paths[i] d (List.getElem?_eq_getElem hi') (by rw [List.getElem?_eq_getElem hi, hx])
      exact ⟨paths[i], List.getElem_mem hi', c, d, hc, hp, h⟩
    · rintro ⟨q, hq, c, d, hc, hp, h⟩
      obtain ⟨i, hi, hx⟩ := List.mem_iff_getElem.1 hq
      have hi' : i < ds.length := hl.symm ▸ hi
      obtain ⟨c', hc', hp'⟩ := hd i q ds[i] (by rw [List.getElem?_eq_getElem hi, hx]) (List.getElem?_eq_getElem hi')
      rw [hc'] at hc
      cases hc
      rw [hp'] at hp
      cases hp
      exact ⟨ds[i], List.getElem_mem hi', h⟩

/-- C106 (the DESCRIPTION files): they are all read, or the program ends. -/
theorem C106_descriptions (parse : Str → Option Desc) (fs : Fs) (paths : List Path) :
    (unpackDescriptions parse fs paths = none ↔ ∃ p ∈ paths, ∀ c, fs p = some (.file c) → parse c = none) ∧
    ∀ ds, unpackDescriptions parse fs paths = some ds →
      ds.length = paths.length ∧ ∀ (i : Nat) p d, paths[i]? = some p → ds[i]? = some d → ∃ c, fs p = some (.file c) ∧ parse c = some d := by
  refine ⟨?_, fun ds h => (unpackDescriptions_iff parse fs paths ds).1 h⟩
  unfold unpackDescriptions
  induction paths with
  | nil => simp
  | cons p ps ih =>
    rw [List.mapM_cons]
    rw [show unpackDescription parse fs p = (match fs p with | some (.file c) => parse c | _ => none) from rfl]
    cases hp : fs p with
    | none => simpa using Or.inl fun c h => by rw [hp] at h; cases h
    | some n =>
      cases n with
      | dir => simpa using Or.inl fun c h => by rw [hp] at h; cases h
      | file c =>
        dsimp only
        cases hc : parse c with
        | none => simpa using Or.inl fun c' h => by rw [hp] at h; cases h; exact hc
        | some d =>
          cases ht : ps.mapM (unpackDescription parse fs) with
          | none =>
            rw [ht] at ih
            obtain ⟨q, hq, h⟩ := ih.1 rfl
            simpa using Or.inr ⟨q, hq, h⟩
          | some ds =>
            rw [ht] at ih
            have hno : ¬ ∃ p ∈ ps, ∀ c, fs p = some (.file c) → parse c = none := fun h => by cases ih.2 h
            simp only [Option.bind_eq_bind, Option.bind_some, Option.pure_def, reduceCtorEq, List.mem_cons, false_iff]
            rintro ⟨q, rfl | hq, h⟩
            · rw [h c hp] at hc; cases hc
            · exact hno ⟨q, hq, h⟩

example : let parse : Str → Option Desc := fun c => if c = [] then none else some { imports := [toyDep c] }
    let fs : Fs := fun q => if q = [s%"D"] then some (.file (s%"x")) else if q = [s%"E"] then some (.file []) else none
    unpackDescriptions parse fs [[s%"D"], [s%"D"]] = some [{ imports := [toyDep (s%"x")] }, { imports := [toyDep (s%"x")] }] ∧
    unpackDescriptions parse fs [[s%"D"], [s%"E"]] = none ∧ unpackDescriptions parse fs [[s%"F"]] = none := by decide

/-! ### C107 -/

theorem install_there (R : ROracle) (cwd : Path) (fs : Fs) (pkg : Str) (src lib rdir : Path) (b : Bool) (st : Stamp)
    (hd : fs.isDir rdir = true) (hs : fs.ex src = true) :
    install R cwd fs pkg (.abs src) lib b (some rdir) st =
      { fs := if (R ⟨pkg, lib, b, src, rdir⟩ fs).2 = .ok then stampFile (R ⟨pkg, lib, b, src, rdir⟩ fs).1 lib pkg st else (R ⟨pkg, lib, b, src, rdir⟩ fs).1,
        calls := [⟨pkg, lib, b, src, rdir⟩], val := some (exitOf (R ⟨pkg, lib, b, src, rdir⟩ fs).2) } := by
  unfold install
  by_cases h : (R ⟨pkg, lib, b, src, rdir⟩ fs).2 = .ok <;> simp [PathArg.resolve, hd, hs, h]

/-- What the program does for one tarball whose folder is there. -/
theorem installTarball_outcome {e : RunEnv} {lib : Path} {needs : Str → List Str} (hR : NeedsOnly e.ie.R lib needs)
    (w : World) (n : Str) (a : AdditionalPkg) (hdir : w.fs (dirPath (absPath e.ie.cwd a.installPath)) = some .dir)
    (hsrc : w.fs (absPath e.ie.cwd a.installPath) ≠ none) :
    ((∀ d ∈ needs n, w.fs (lib ++ [d]) = some .dir) → (e.installTarball lib w n a).2 = .ok) ∧
    (¬ (∀ d ∈ needs n, w.fs (lib ++ [d]) = some .dir) → (e.installTarball lib w n a).2 = .failed) ∧
    ∀ q, ¬ (lib ++ [n]) <+: q → ¬ (lib ++ [lockName n]) <+: q → (e.installTarball lib w n a).1.fs q = w.fs q := by
  have hd : w.fs.isDir (dirPath (absPath e.ie.cwd a.installPath)) = true := by simp [Fs.isDir, hdir]
  have hs : w.fs.ex (absPath e.ie.cwd a.installPath) = true := by
    cases h : w.fs (absPath e.ie.cwd a.installPath) with
    | none => exact absurd h hsrc
    | some x => simp [Fs.ex, h]
  unfold RunEnv.installTarball
  dsimp only
  rw [install_there _ _ _ _ _ _ _ _ _ hd hs]
  dsimp only
  have hc := fun c => hR.succeeds c w.fs
  have hf := fun c => hR.confined c w.fs
  refine ⟨?_, ?_, ?_⟩
  · intro h
    rw [(hc ⟨n, lib, true, _, _⟩ rfl).2 h]
    rfl
  · intro h
    have := mt (hc ⟨n, lib, true, absPath e.ie.cwd a.installPath, dirPath (absPath e.ie.cwd a.installPath)⟩ rfl).1 h
    revert this
    cases (e.ie.R ⟨n, lib, true, absPath e.ie.cwd a.installPath, dirPath (absPath e.ie.cwd a.installPath)⟩ w.fs).2 with
    | ok => intro h; exact absurd rfl h
    | status k => intro _; rfl
    | notRun => intro _; rfl
  · intro q h1 h2
    show (if _ then _ else _ : Fs) q = _
    split
    · rw [stampFile_other]
      · exact hf ⟨n, lib, true, _, _⟩ q rfl h1 h2
      · rintro rfl; exact h1 ⟨[s%"DESCRIPTION"], by simp⟩
    · exact hf ⟨n, lib, true, _, _⟩ q rfl h1 h2

theorem installTarballs_outcome {e : RunEnv} {lib : Path} {needs : Str → List Str} (hR : NeedsOnly e.ie.R lib needs)
    (m : GoMap AdditionalPkg) (all : List Str)
    (hind : ∀ n ∈ all, ∀ d ∈ needs n, ∀ k ∈ all, d ≠ k ∧ d ≠ lockName k)
    (hout : ∀ n ∈ all, ¬ lib <+: absPath e.ie.cwd ((GoMap.get? m n).getD {}).installPath) :
    ∀ (ns : List Str) (w : World), (∀ n ∈ ns, n ∈ all) →
    (∀ n ∈ ns, w.fs (dirPath (absPath e.ie.cwd ((GoMap.get? m n).getD {}).installPath)) = some .dir ∧
      w.fs (absPath e.ie.cwd ((GoMap.get? m n).getD {}).installPath) ≠ none) →
    (e.installTarballs lib m w ns).2 = (open Classical in if ∀ n ∈ ns, ∀ d ∈ needs n, w.fs (lib ++ [d]) = some .dir then PhaseEnd.ok else PhaseEnd.failed)
  | [], w, _, _ => by simp [RunEnv.installTarballs]
  | n :: ns, w, hall, hs => by
    obtain ⟨h1, h2, h3⟩ := installTarball_outcome hR w n ((GoMap.get? m n).getD {}) (hs n List.mem_cons_self).1 (hs n List.mem_cons_self).2
    have hnotlib : ∀ (q : Path), ¬ lib <+: q → ∀ k : Str, ¬ (lib ++ [k]) <+: q := fun q hq k h => hq ((List.prefix_append lib [k]).trans h)
    have hnd : ∀ k ∈ all, ¬ lib <+: dirPath (absPath e.ie.cwd ((GoMap.get? m k).getD {}).installPath) :=
      fun k hk h => hout k hk (h.trans (List.dropLast_prefix _))
    have ih := installTarballs_outcome hR m all hind hout ns (e.installTarball lib w n ((GoMap.get? m n).getD {})).1
      (fun k hk => hall k (List.mem_cons_of_mem _ hk)) (by
        intro k hk
        have hk' := hall k (List.mem_cons_of_mem _ hk)
        rw [h3 _ (hnotlib _ (hnd k hk') _) (hnotlib _ (hnd k hk') _), h3 _ (hnotlib _ (hout k hk') _) (hnotlib _ (hout k hk') _)]
        exact hs k (List.mem_cons_of_mem _ hk))
    have hsame : (∀ k ∈ ns, ∀ d ∈ needs k, (e.installTarball lib w n ((GoMap.get? m n).getD {})).1.fs (lib ++ [d]) = some .dir) ↔
        (∀ k ∈ ns, ∀ d ∈ needs k, w.fs (lib ++ [d]) = some .dir) := by
      have : ∀ k ∈ ns, ∀ d ∈ needs k, (e.installTarball lib w n ((GoMap.get? m n).getD {})).1.fs (lib ++ [d]) = w.fs (lib ++ [d]) := by
        intro k hk d hd
        obtain ⟨e1, e2⟩ := hind k (hall k (List.mem_cons_of_mem _ hk)) d hd n (hall n List.mem_cons_self)
        exact h3 _ (fun h => e1 (sibling_prefix h (.inl (List.prefix_refl _))).symm) (fun h => e2 (sibling_prefix h (.inl (List.prefix_refl _))).symm)
      exact ⟨fun h k hk d hd => (this k hk d hd) ▸ h k hk d hd, fun h k hk d hd => (this k hk d hd).trans (h k hk d hd)⟩
    rw [RunEnv.installTarballs]
    dsimp only
    rw [ih]
    by_cases hA : ∀ d ∈ needs n, w.fs (lib ++ [d]) = some .dir
    · rw [h1 hA]
      by_cases hB : ∀ k ∈ ns, ∀ d ∈ needs k, w.fs (lib ++ [d]) = some .dir
      · rw [if_pos (hsame.2 hB), if_pos]
        · rfl
        · intro k hk
          rcases List.mem_cons.1 hk with rfl | hk
          · exact hA
          · exact hB k hk
      · rw [if_neg (fun h => hB (hsame.1 h)), if_neg (fun h => hB fun k hk => h k (List.mem_cons_of_mem _ hk))]
        rfl
    · rw [h2 hA]
      rw [if_neg (c := ∀ k ∈ n :: ns, ∀ d ∈ needs k, w.fs (lib ++ [d]) = some .dir) (fun h => hA (h n List.mem_cons_self))]
      dsimp only
      by_cases hC : ∀ k ∈ ns, ∀ d ∈ needs k, (e.installTarball lib w n ((GoMap.get? m n).getD {})).1.fs (lib ++ [d]) = some .dir
      · rw [if_pos hC]; rfl
      · rw [if_neg hC]; rfl

/-- C107, partial: when no tarball needs the package of another one, the outcome of installing them does not depend on
the order in which they are visited; it is a success exactly if all they need is in the library when the last package of
the plan is installed. Missing: tarballs that need each other, see `C107_violated`. -/
theorem C107_independent_partial {e : RunEnv} {lib : Path} {needs : Str → List Str} (hR : NeedsOnly e.ie.R lib needs)
    (ip : InstallPlan) (w : World)
    (hind : ∀ n ∈ tarballs ip, ∀ d ∈ needs n, ∀ k ∈ tarballs ip, d ≠ k ∧ d ≠ lockName k)
    (hsrc : ∀ n a, GoMap.get? ip.additional n = some a → ¬ lib <+: absPath e.ie.cwd a.installPath ∧
      w.fs (dirPath (absPath e.ie.cwd a.installPath)) = some .dir ∧ w.fs (absPath e.ie.cwd a.installPath) ≠ none)
    (order : List Str) (ho : order.Perm (tarballs ip)) :
    (e.installTarballs lib ip.additional w order).2 ≠ .dead ∧
    ((e.installTarballs lib ip.additional w order).2 = .ok ↔ ∀ n ∈ tarballs ip, ∀ d ∈ needs n, w.fs (lib ++ [d]) = some .dir) := by
  have hget : ∀ n ∈ tarballs ip, ∃ a, GoMap.get? ip.additional n = some a := by
    intro n hn
    cases h : GoMap.get? ip.additional n with
    | none => exact absurd hn ((GoMap.get?_eq_none_iff _ _).1 h)
    | some a => exact ⟨a, rfl⟩
  have := installTarballs_outcome hR ip.additional (tarballs ip) hind (by
      intro n hn
      obtain ⟨a, ha⟩ := hget n hn
      rw [ha]; exact (hsrc n a ha).1) order w (fun n hn => ho.mem_iff.1 hn) (by
      intro n hn
      obtain ⟨a, ha⟩ := hget n (ho.mem_iff.1 hn)
      rw [ha]; exact (hsrc n a ha).2)
  rw [this]
  have hiff : (∀ n ∈ order, ∀ d ∈ needs n, w.fs (lib ++ [d]) = some .dir) ↔ ∀ n ∈ tarballs ip, ∀ d ∈ needs n, w.fs (lib ++ [d]) = some .dir :=
    ⟨fun h n hn => h n (ho.mem_iff.2 hn), fun h n hn => h n (ho.mem_iff.1 hn)⟩
  by_cases h : ∀ n ∈ order, ∀ d ∈ needs n, w.fs (lib ++ [d]) = some .dir
  · rw [if_pos h]; exact ⟨by decide, by simpa using hiff.1 h⟩
  · rw [if_neg h]; exact ⟨by decide, by simp only [reduceCtorEq, false_iff]; exact fun h' => h (hiff.2 h')⟩

/-- The iteration order that visits `a` first. -/
def firstOrder (a : Str) : Order := fun _ l => if a ∈ l then a :: l.erase a else l

theorem firstOrder_fair (a : Str) : (firstOrder a).Fair := by
  intro t l
  unfold firstOrder
  split
  · exact (List.perm_cons_erase (by assumption)).symm
  · exact List.Perm.refl _

/-- C107 is violated: if the tarball of `a` needs the package `b`, which is not in the library but given by another
tarball, there is an order of visiting the tarballs in which the installation fails. -/
theorem C107_violated {e : RunEnv} {lib : Path} {needs : Str → List Str} (hR : NeedsOnly e.ie.R lib needs) (ip : InstallPlan)
    (w : World) {a b : Str} (ha : a ∈ tarballs ip) (hb : b ∈ tarballs ip) (hab : b ∈ needs a) (hnot : w.fs (lib ++ [b]) ≠ some .dir)
    (hsrc : ∀ x, GoMap.get? ip.additional a = some x →
      w.fs (dirPath (absPath e.ie.cwd x.installPath)) = some .dir ∧ w.fs (absPath e.ie.cwd x.installPath) ≠ none) :
    ∃ ρ : Order, ρ.Fair ∧ (e.installTarballs lib ip.additional w (ρ 3 (tarballs ip))).2 ≠ .ok := by
  refine ⟨firstOrder a, firstOrder_fair a, ?_⟩
  unfold firstOrder
  rw [if_pos ha, RunEnv.installTarballs]
  dsimp only
  cases hg : GoMap.get? ip.additional a with
  | none => exact absurd ha ((GoMap.get?_eq_none_iff _ _).1 hg)
  | some x =>
    obtain ⟨h1, h2⟩ := hsrc x hg
    rw [Option.getD_some, (installTarball_outcome hR w a x h1 h2).2.1 (fun h => hnot (h b hab))]
    dsimp only
    cases (e.installTarballs lib ip.additional (e.installTarball lib w a x).1 ((tarballs ip).erase a)).2 <;> simp

/-- R, as far as the examples need it: the package `a` needs `b`. -/
def chainR : ROracle := fun c fs =>
  if c.pkg = s%"a" ∧ fs (c.lib ++ [s%"b"]) ≠ some .dir then (fs, .status 1) else (fs.set (c.lib ++ [c.pkg]) .dir, .ok)

theorem chainR_needs (lib : Path) : NeedsOnly chainR lib fun p => if p = s%"a" then [s%"b"] else [] where
  succeeds := by
    intro c fs hc
    unfold chainR
    by_cases h : c.pkg = s%"a" <;> by_cases hb : fs (lib ++ [s%"b"]) = some .dir <;> simp [h, hb, hc]
  confined := by
    intro c fs q hc h _
    unfold chainR
    split
    · rfl
    · simp only [Fs.set, hc]
      rw [if_neg]
      rintro rfl
      exact h (List.prefix_refl _)

/-- The two orders, for a plan with tarballs of `a` and `b`: in one the installation succeeds, in the other it fails. -/
example : let e := { libRun .ok with ie := { toyEnv true with R := chainR } }
    let ip : InstallPlan := { additional := [(s%"a", { installPath := s%"/w/t.tar.gz" }), (s%"b", { installPath := s%"/w/t.tar.gz" })] }
    (e.installTarballs [s%"lib"] ip.additional { fs := fun q => if q = [s%"lib", s%"a"] then none else toyLib q } [s%"b", s%"a"]).2 = .ok ∧
    (e.installTarballs [s%"lib"] ip.additional { fs := fun q => if q = [s%"lib", s%"a"] then none else toyLib q } [s%"a", s%"b"]).2 = .failed := by decide

/-- The hypotheses of `C107_independent_partial` are met by two tarballs that need nothing of each other. -/
example : let e := { libRun .ok with ie := { toyEnv true with R := chainR } }
    (e.installTarballs [s%"lib"] [(s%"b", { installPath := s%"/w/t.tar.gz" }), (s%"c", { installPath := s%"/w/t.tar.gz" })] { fs := toyLib } [s%"c", s%"b"]).2 = .ok ∧
    ¬ [s%"lib"] <+: absPath e.ie.cwd (s%"/w/t.tar.gz") ∧ toyLib (dirPath (absPath e.ie.cwd (s%"/w/t.tar.gz"))) = some .dir ∧
    toyLib (absPath e.ie.cwd (s%"/w/t.tar.gz")) ≠ none := by decide

end Pkgr
