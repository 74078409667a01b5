/- C166: what a tarball is installed from. -/
import Verif.Spec.Contents
import Verif.Props.TarballsMore

namespace Pkgr
open Spec

theorem untar_found (digest : Str → Str) (names : List Str) (fs : Fs) (cache : Path) (t : Tarball) (h : fs.isDir (cache ++ [digest t.bytes]) = true) :
    untar digest names fs cache t = ([fs], pickFolder names fs (cache ++ [digest t.bytes])) := by
  unfold untar
  dsimp only
  rw [if_pos h]

theorem untar_fresh (digest : Str → Str) (names : List Str) (fs : Fs) (cache : Path) (t : Tarball) (h : fs.isDir (cache ++ [digest t.bytes]) = false)
    {p : Path} (hp : (untar digest names fs cache t).2 = .folder p) :
    ExactlyHas (lastState fs (untar digest names fs cache t).1) (cache ++ [digest t.bytes]) (t.entries.map Prod.fst) := by
  unfold untar at hp ⊢
  dsimp only at hp ⊢
  rw [if_neg (by simp [h])] at hp ⊢
  cases hex : extract fs (cache ++ [digest t.bytes]) t.entries t.readOk with
  | mk l ok =>
    rw [hex] at hp
    cases ok with
    | false => cases hp
    | true =>
      obtain ⟨s, rest, h1, _, h3, _, h5⟩ := C70_exact fs _ t.entries t.readOk (by rw [hex])
      rw [hex] at h1
      dsimp only at h1 ⊢
      rw [h1]
      change ExactlyHas s _ _
      intro q c hq
      constructor
      · intro hc
        obtain ⟨e, io, k1, k2, k3⟩ := h5 q c hq hc
        exact ⟨e, List.mem_map.2 ⟨(e, io), k1, rfl⟩, k2, k3⟩
      · rintro ⟨e, he, k2, k3⟩
        obtain ⟨⟨e', io⟩, k1, rfl⟩ := List.mem_map.1 he
        obtain ⟨p', j1, _, j3⟩ := h3 _ io c k1 k2
        rw [leads_iff] at j1 k3
        dsimp only at k3
        rw [← k3, j1]
        exact j3

/-- C166, the part that holds: as long as unpacking it never failed or was interrupted, and only pkgr changed the directory of the tarball in the
cache, a run that unpacks the tarball, or finds it unpacked, has exactly the files of the tarball in that directory; missing: R installs in that
directory and may leave files there (`C166_violated`); for failures and interruptions see C71. -/
theorem C166_own_content_partial (digest : Str → Str) (names : List Str) (cache : Path) (t t' : Tarball) (fs0 fs : Fs) (p : Path)
    (hnew : fs0 (cache ++ [digest t.bytes]) ≠ some .dir) (h : Lived digest names cache t fs0 fs) (hsame : SameTarball t t')
    (hp : (untar digest names fs cache t').2 = .folder p) :
    ExactlyHas (lastState fs (untar digest names fs cache t').1) (cache ++ [digest t.bytes]) (t.entries.map Prod.fst) := by
  have hone : ∀ (fs : Fs) (t' : Tarball) (p : Path), SameTarball t t' → (untar digest names fs cache t').2 = .folder p →
      (fs.isDir (cache ++ [digest t.bytes]) = false ∨ ExactlyHas fs (cache ++ [digest t.bytes]) (t.entries.map Prod.fst)) →
      ExactlyHas (lastState fs (untar digest names fs cache t').1) (cache ++ [digest t.bytes]) (t.entries.map Prod.fst) := by
    intro fs t' p hs hp hor
    have hd : cache ++ [digest t'.bytes] = cache ++ [digest t.bytes] := by rw [hs.1]
    by_cases hdir : fs.isDir (cache ++ [digest t'.bytes]) = true
    · rw [untar_found digest names fs cache t' hdir]
      rcases hor with h | h
      · rw [← hd, hdir] at h; cases h
      · exact h
    · have := untar_fresh digest names fs cache t' (by simpa using hdir) hp
      rw [hd, hs.2] at this
      exact this
  refine hone fs t' p hsame hp ?_
  clear hp
  induction h with
  | begin => left; simpa [Fs.isDir] using hnew
  | unpacked h hs hu ih => exact .inr (hone _ _ _ hs hu ih)
  | elsewhere h he ih =>
    rcases ih with h | h
    · left
      unfold Fs.isDir at h ⊢
      rw [he _ (List.prefix_refl _)]
      exact h
    · right
      intro q c hq
      rw [he q hq]
      exact h q c hq

theorem pickFolder_congr {names : List Str} {fs fs' : Fs} {dir : Path} (h : ∀ n ∈ names, fs'.isDir (dir ++ [n]) = fs.isDir (dir ++ [n])) :
    pickFolder names fs' dir = pickFolder names fs dir := by
  have hl : ((fs'.ls names dir).filter fun n => fs'.isDir (dir ++ [n])) = (fs.ls names dir).filter fun n => fs.isDir (dir ++ [n]) := by
    unfold Fs.ls
    rw [List.filter_filter, List.filter_filter]
    refine List.filter_congr fun n hn => ?_
    have h1 : ∀ g : Fs, (g.isDir (dir ++ [n]) && g.ex (dir ++ [n])) = g.isDir (dir ++ [n]) := by
      intro g
      unfold Fs.isDir Fs.ex
      cases g (dir ++ [n]) with
      | none => simp
      | some x => simp
    rw [h1, h1, h n hn]
  unfold pickFolder
  rw [hl]

/-- C166 is violated by packages for which R leaves a file in the directory that it installs from (such as an object file, of a package with
compiled code): once the tarball is installed, every later run finds its directory, takes it for the tarball and installs from it, with a file that is
not in the tarball. -/
theorem C166_violated (digest : Str → Str) (names : List Str) (cache : Path) (t t' : Tarball) (hsame : SameTarball t t') (e : RunEnv) (lib : Path) (w : World)
    (name : Str) (a : AdditionalPkg) (n : Str) (left : List Str) (x : Str) (hl : ∀ y, Leads e.ie.cwd a.installPath y ↔ y = cache ++ [digest t.bytes, n])
    (hdir : w.fs (cache ++ [digest t.bytes]) = some .dir) (hfolder : w.fs (cache ++ [digest t.bytes, n]) = some .dir)
    (hused : pickFolder names w.fs (cache ++ [digest t.bytes]) = .folder (cache ++ [digest t.bytes, n]))
    (hlib : ¬ cache ++ [digest t.bytes] <+: lib ++ [name, s%"DESCRIPTION"])
    (hleaves : ∀ (c : RCall) (fs : Fs), c.src = cache ++ [digest t.bytes, n] → (e.ie.R c fs).1 (cache ++ [digest t.bytes, n] ++ left) = some (.file x))
    (hdirs : ∀ (c : RCall) (fs : Fs) (m : Str), (e.ie.R c fs).1.isDir (cache ++ [digest t.bytes] ++ [m]) = fs.isDir (cache ++ [digest t.bytes] ++ [m]))
    (hkept : ∀ (c : RCall) (fs : Fs), fs (cache ++ [digest t.bytes]) = some .dir → (e.ie.R c fs).1 (cache ++ [digest t.bytes]) = some .dir)
    (hnot : ∀ en ∈ t.entries.map Prod.fst, ¬ Leads (cache ++ [digest t.bytes]) en.name (cache ++ [digest t.bytes, n] ++ left)) :
    let fs' := (e.installTarball lib w name a).1.fs
    untar digest names fs' cache t' = ([fs'], .folder (cache ++ [digest t.bytes, n])) ∧
    fs' (cache ++ [digest t.bytes, n] ++ left) = some (.file x) ∧ ¬ ExactlyHas fs' (cache ++ [digest t.bytes]) (t.entries.map Prod.fst) := by
  intro fs'
  have hf : cache ++ [digest t.bytes, n] = (cache ++ [digest t.bytes]) ++ [n] := by simp
  have hdl : (cache ++ [digest t.bytes, n]).dropLast = cache ++ [digest t.bytes] := by rw [hf, List.dropLast_concat]
  obtain ⟨c, _, _, c3, _, _, c6⟩ := C106_installed_from e lib w name a (cache ++ [digest t.bytes, n]) hl (by simp [Fs.isDir, hfolder])
    (by rw [hdl]; simp [Fs.isDir, hdir])
  have hq : ∀ q, fs' (cache ++ [digest t.bytes] ++ q) = (e.ie.R c w.fs).1 (cache ++ [digest t.bytes] ++ q) := fun q =>
    c6 _ (fun h => hlib ⟨q, h⟩)
  have hd' : fs' (cache ++ [digest t.bytes]) = some .dir := by
    have := hq []
    rw [List.append_nil] at this
    rw [this]
    exact hkept c w.fs hdir
  have hfile : fs' (cache ++ [digest t.bytes, n] ++ left) = some (.file x) := by
    rw [hf, List.append_assoc, hq, ← List.append_assoc, ← hf]
    exact hleaves c w.fs c3
  refine ⟨?_, hfile, ?_⟩
  · rw [untar_found digest names fs' cache t' (by rw [hsame.1]; simp [Fs.isDir, hd']), hsame.1, ← hused]
    congr 1
    refine pickFolder_congr fun m _ => ?_
    have : fs'.isDir (cache ++ [digest t.bytes] ++ [m]) = (e.ie.R c w.fs).1.isDir (cache ++ [digest t.bytes] ++ [m]) := by
      unfold Fs.isDir
      rw [hq]
    rw [this, hdirs]
  · intro h
    obtain ⟨en, h1, _, h3⟩ := (h _ x (by rw [hf, List.append_assoc]; exact List.prefix_append _ _)).1 hfile
    exact hnot en h1 h3

/-- A package with compiled code: R leaves an object file where it installs from. -/
def objR : ROracle := fun _ fs => (fs.set [s%"cache", s%"v1", s%"R6", s%"src", s%"a.o"] (.file (s%"object")), .ok)

def objRun : RunEnv :=
  { disk := { renameFails := fun _ _ _ => false, removing := fun _ _ => ([], false) }
    ρ := fun _ l => l
    mkdirFails := fun _ => false
    download := fun fs => { fs := fs, out := .ok }
    planned := fun fs => { fs := fs, out := .ok }
    ie := { toyEnv true with R := objR }
    during := fun _ _ => [] }

def objTarball : Tarball := ⟨s%"v1", [(⟨s%"R6/src/a.c", .regular (s%"code")⟩, .ok)], true⟩

def objFs : Fs := lastState (fun _ => none) (untar id [s%"R6"] (fun _ => none) [s%"cache"] objTarball).1

/-- Non-vacuity of `C166_own_content_partial`: the tarball is unpacked and found again, after something else happened. -/
example : (fun _ => none : Fs) ([s%"cache"] ++ [id objTarball.bytes]) ≠ some .dir ∧
    Lived id [s%"R6"] [s%"cache"] objTarball (fun _ => none) (objFs.set [s%"lib"] .dir) ∧ SameTarball objTarball objTarball ∧
    (untar id [s%"R6"] (objFs.set [s%"lib"] .dir) [s%"cache"] objTarball).2 = .folder [s%"cache", s%"v1", s%"R6"] := by
  refine ⟨by simp, ?_, ⟨rfl, rfl⟩, by decide +kernel⟩
  refine .elsewhere (.unpacked .begin ⟨rfl, rfl⟩ (by decide +kernel : (untar id [s%"R6"] (fun _ => none) [s%"cache"] objTarball).2 = .folder [s%"cache", s%"v1", s%"R6"])) ?_
  intro q hq
  unfold Fs.set
  rw [if_neg (by rintro rfl; revert hq; decide)]
  rfl

/-- Non-vacuity of `C166_violated`. -/
example : let e := objRun
    (untar id [s%"R6"] (e.installTarball [s%"lib"] { fs := objFs } (s%"R6") { installPath := s%"/cache/v1/R6", originPath := s%"R6.tar.gz", type := s%"tarball" }).1.fs
      [s%"cache"] objTarball).2 = .folder [s%"cache", s%"v1", s%"R6"] ∧
    (e.installTarball [s%"lib"] { fs := objFs } (s%"R6") { installPath := s%"/cache/v1/R6", originPath := s%"R6.tar.gz", type := s%"tarball" }).1.fs
      [s%"cache", s%"v1", s%"R6", s%"src", s%"a.o"] = some (.file (s%"object")) := by
  intro e
  obtain ⟨h1, h2, _⟩ := C166_violated id [s%"R6"] [s%"cache"] objTarball objTarball ⟨rfl, rfl⟩ objRun [s%"lib"] { fs := objFs } (s%"R6")
    { installPath := s%"/cache/v1/R6", originPath := s%"R6.tar.gz", type := s%"tarball" } (s%"R6") [s%"src", s%"a.o"] (s%"object")
    (fun y => pathStr_leads [s%"cache", s%"v1", s%"R6"] (by decide) _ y) (by decide +kernel) (by decide +kernel) (by decide +kernel) (by decide)
    (fun c fs _ => rfl)
    (by intro c fs m
        change (objR c fs).1.isDir _ = _
        have h : (objR c fs).1 ([s%"cache"] ++ [id objTarball.bytes] ++ [m]) = fs ([s%"cache"] ++ [id objTarball.bytes] ++ [m]) := by
          unfold objR Fs.set
          dsimp only
          rw [if_neg (by simp [id])]
        unfold Fs.isDir
        rw [h])
    (by intro c fs h
        change (objR c fs).1 _ = _
        unfold objR Fs.set
        dsimp only
        rw [if_neg (by simp [id])]
        exact h)
    (by intro en hen
        have : en = ⟨s%"R6/src/a.c", .regular (s%"code")⟩ := by simpa [objTarball] using hen
        subst this
        rw [leads_iff]
        decide)
  exact ⟨by rw [h1]; rfl, h2⟩

end Pkgr
