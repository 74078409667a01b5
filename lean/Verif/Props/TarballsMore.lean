/- C106: what the table of tarballs records denotes the unpacked folders. -/
import Verif.Props.Tarballs
import Verif.Props.RSettings

namespace Pkgr
open Spec

theorem splitOn_pathStr : ∀ (p : Path), (∀ c ∈ p, PlainName c) → p ≠ [] → splitOn '/' (p.flatMap fun c => s%"/" ++ c) = [] :: p := by
  intro p
  induction p with
  | nil => intro _ h; exact absurd rfl h
  | cons a p ih =>
    intro hp _
    have ha : '/' ∉ a := (hp a List.mem_cons_self).2.2.2
    have hs : ∀ t : Str, splitOn '/' (s%"/" ++ t) = [] :: splitOn '/' t := by
      intro t
      exact splitOn_append '/' [] t (by simp)
    rw [List.flatMap_cons, List.append_assoc, hs]
    congr 1
    cases p with
    | nil => simp only [List.flatMap_nil, List.append_nil]; exact splitOn_of_not_mem _ _ ha
    | cons b p =>
      have h1 : ((b :: p).flatMap fun c => s%"/" ++ c) = '/' :: (b ++ p.flatMap fun c => s%"/" ++ c) := by
        rw [List.flatMap_cons]; rfl
      have ih' := ih (fun c hc => hp c (List.mem_cons_of_mem _ hc)) (by simp)
      rw [h1] at ih' ⊢
      rw [splitOn_append _ _ _ ha]
      have h2 := splitOn_append '/' [] (b ++ p.flatMap fun c => s%"/" ++ c) (by simp)
      rw [List.nil_append] at h2
      rw [h2] at ih'
      exact congrArg _ (List.cons.inj ih').2

theorem foldl_joinComp_plain : ∀ (p q : Path), (∀ c ∈ p, PlainName c) → p.foldl joinComp q = q ++ p := by
  intro p
  induction p with
  | nil => intro q _; simp
  | cons a p ih =>
    intro q hp
    obtain ⟨h1, h2, h3, _⟩ := hp a List.mem_cons_self
    rw [List.foldl_cons, ih _ (fun c hc => hp c (List.mem_cons_of_mem _ hc))]
    unfold joinComp
    rw [if_neg (by simp [h1, h2]), if_neg h3]
    simp

theorem pathStr_leads (p : Path) (hp : ∀ c ∈ p, PlainName c) (cwd e : Path) : Leads cwd (pathStr p) e ↔ e = p := by
  rw [leads_iff]
  unfold pathStr
  by_cases h0 : p = []
  · subst h0
    rw [if_pos rfl]
    have : splitOn '/' (s%"/") = [[], []] := by decide
    rw [this, if_pos (by decide)]
    constructor
    · intro h; rw [← h]; decide
    · rintro rfl; decide
  · rw [if_neg h0, splitOn_pathStr p hp h0]
    have hh : (p.flatMap fun c => s%"/" ++ c).head? = some '/' := by
      cases p with
      | nil => exact absurd rfl h0
      | cons a p => rw [List.flatMap_cons]; rfl
    rw [if_pos hh, List.foldl_cons]
    have : joinComp [] [] = [] := by decide
    rw [this, foldl_joinComp_plain p [] hp, List.nil_append]
    exact ⟨fun h => h.symm, fun h => h.symm⟩

/-- C106: what is recorded for a package given as a tarball denotes, from whatever directory it is used, the folder that was
unpacked from the last tarball of the configuration that contains the package, which holds that tarball's DESCRIPTION; and where
this tarball came from. -/
theorem C106_recorded {digest : Str → Str} {names : List Str} {parse : Str → Option Desc} {cache : Path} {fs fs' : Fs}
    {ts : List (Str × Option Tarball)} {ds : List Desc} {table : GoMap AdditionalPkg}
    (h : unpackTarballs digest names parse cache fs [] [] ts = some (fs', ds, table))
    (hcache : ∀ c ∈ cache, PlainName c) (hdig : ∀ b, PlainName (digest b)) (hnames : ∀ n ∈ names, PlainName n)
    {name : Str} {a : AdditionalPkg} (ha : GoMap.get? table name = some a) :
    ∃ before path t after d, ts = before ++ (path, some t) :: after ∧ a.originPath = path ∧ a.type = s%"tarball" ∧ d.package = name ∧
      (∀ x ∈ after, ∀ t', x.2 = some t' → ∀ n c, n ∈ names → fs' (cache ++ [digest t'.bytes, n, s%"DESCRIPTION"]) = some (.file c) →
        (∀ m ∈ names, fs' (cache ++ [digest t'.bytes, m]) = some .dir → m = n) → ∀ d', parse c = some d' → d'.package ≠ name) ∧
      ∃ n ∈ names, (∀ cwd e, Leads cwd a.installPath e ↔ e = cache ++ [digest t.bytes, n]) ∧
        fs' (cache ++ [digest t.bytes, n]) = some .dir ∧ ∃ c, fs' (cache ++ [digest t.bytes, n, s%"DESCRIPTION"]) = some (.file c) ∧ parse c = some d := by
  obtain ⟨rows, h1, h2, h3, h4⟩ := C106_table h
  obtain ⟨r, ⟨pre, post, hr, hk, hlast⟩, rfl⟩ := (h4 name a).mp ha
  have hin := h3 r (by rw [hr]; simp)
  obtain ⟨b, n, af, hn, hf, hd, _⟩ := hin.place
  obtain ⟨text, ht, hp⟩ := hin.description
  have hnm : n ∈ names := by rw [hn]; simp
  refine ⟨pre.map fun r => (r.path, some r.tarball), r.path, r.tarball, post.map fun r => (r.path, some r.tarball), r.desc,
    by rw [h1, hr]; simp, rfl, rfl, hk, ?_, n, hnm, ?_, hd, text, ?_, hp⟩
  · intro x hx t' hxt m c hm hfile honly d' hd'
    obtain ⟨r', hr', rfl⟩ := List.mem_map.mp hx
    simp only [Option.some.injEq] at hxt
    subst hxt
    have hin' := h3 r' (by rw [hr]; simp [hr'])
    obtain ⟨b', n', af', hn', hf', hd2, _⟩ := hin'.place
    obtain ⟨text', ht', hp'⟩ := hin'.description
    have hmn : n' = m := honly n' (by rw [hn']; simp) hd2
    subst hmn
    rw [hf'] at ht'
    simp only [List.append_assoc, List.cons_append, List.nil_append] at ht'
    rw [ht'] at hfile
    cases hfile
    rw [hp'] at hd'
    cases hd'
    exact hlast r' hr'
  · intro cwd e
    rw [hf]
    refine pathStr_leads _ ?_ _ _
    intro c hc
    simp only [List.mem_append, List.mem_cons, List.not_mem_nil, or_false] at hc
    rcases hc with hc | rfl | rfl
    · exact hcache c hc
    · exact hdig _
    · exact hnames _ hnm
  · rw [hf] at ht
    simpa using ht

example : (∀ c ∈ [s%"cache"], PlainName c) ∧ (∀ b : Str, PlainName (s%"d" ++ b.map fun _ => 'x')) ∧ ∀ n ∈ [s%"R6"], PlainName n := by
  refine ⟨by decide, ?_, by decide⟩
  intro b
  refine ⟨by simp, ?_, ?_, ?_⟩
  · intro h; have := congrArg List.head? h; simp at this
  · intro h; have := congrArg List.head? h; simp at this
  · simp

example : (unpackTarballs (fun b => s%"d" ++ b.map fun _ => 'x') [s%"R6"] (fun c => some { package := s%"R6", version := c }) [s%"cache"] (fun _ => none) [] []
    [(s%"R6_1.tar.gz", some ⟨s%"v1", [(⟨s%"R6/DESCRIPTION", .regular (s%"one")⟩, .ok)], true⟩)]).map (fun o => o.2.2) =
    some [(s%"R6", { installPath := s%"/cache/dxx/R6", originPath := s%"R6_1.tar.gz", type := s%"tarball" })] := by decide

/-- C106: a package given as a tarball is installed by R from the folder recorded for it: R is called for the package and the library
with this folder, in the directory that contains it; the installation succeeds exactly if R does; and what is in the file system
afterwards is what R has left, but for the DESCRIPTION of the package. -/
theorem C106_installed_from (e : RunEnv) (lib : Path) (w : World) (name : Str) (a : AdditionalPkg) (folder : Path)
    (hl : ∀ x, Leads e.ie.cwd a.installPath x ↔ x = folder) (hd : w.fs.isDir folder = true) (hp : w.fs.isDir folder.dropLast = true) :
    ∃ c : RCall, c.pkg = name ∧ c.lib = lib ∧ c.src = folder ∧ c.workDir = folder.dropLast ∧
      ((e.installTarball lib w name a).2 = .ok ↔ (e.ie.R c w.fs).2 = .ok) ∧
      ∀ q, q ≠ lib ++ [name, s%"DESCRIPTION"] → (e.installTarball lib w name a).1.fs q = (e.ie.R c w.fs).1 q := by
  have habs : absPath e.ie.cwd a.installPath = folder := by
    have : Leads e.ie.cwd a.installPath (absPath e.ie.cwd a.installPath) := by
      rw [leads_iff]
      unfold absPath joinPath
      by_cases h : a.installPath.head? = some '/'
      · rw [if_pos h, if_pos]
        cases hi : a.installPath with
        | nil => rw [hi] at h; cases h
        | cons c r => rw [hi] at h; simp at h; subst h; exact (hasPrefix_iff _ _).mpr ⟨r, rfl⟩
      · rw [if_neg h, if_neg]
        intro hc
        obtain ⟨r, hr⟩ := (hasPrefix_iff _ _).mp hc
        exact h (by rw [← hr]; rfl)
    exact (hl _).mp this
  have hex : w.fs.ex folder = true := by
    unfold Fs.isDir at hd
    unfold Fs.ex
    cases hf : w.fs folder with
    | none => rw [hf] at hd; simp at hd
    | some n => rfl
  refine ⟨{ pkg := name, lib := lib, build := true, src := folder, workDir := folder.dropLast }, rfl, rfl, rfl, rfl, ?_, ?_⟩
  · unfold RunEnv.installTarball install
    simp only [habs, dirPath, Option.getD_some, Option.isSome_some, hp, PathArg.resolve, hex, Bool.not_true, Bool.and_false, Bool.false_eq_true, if_false]
    cases (e.ie.R { pkg := name, lib := lib, build := true, src := folder, workDir := folder.dropLast } w.fs).2 <;> simp [exitOf]
  · intro q hq
    unfold RunEnv.installTarball install
    simp only [habs, dirPath, Option.getD_some, Option.isSome_some, hp, PathArg.resolve, hex, Bool.not_true, Bool.and_false, Bool.false_eq_true, if_false, World.move]
    split
    · exact stampFile_other _ _ _ _ _ hq
    · rfl

example : (∀ x, Leads [s%"home"] (s%"/cache/v2/R6") x ↔ x = [s%"cache", s%"v2", s%"R6"]) :=
  fun x => pathStr_leads [s%"cache", s%"v2", s%"R6"] (by decide) [s%"home"] x

end Pkgr
