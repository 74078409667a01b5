/- C174: pkgr.yml is edited between runs, any of which may fail. -/
import Verif.Props.MoreSaid
import Verif.Props.Rounds

namespace Pkgr
open Spec

variable {P P' : Project} {re : RepoEnv} {c : DbCache} {parse : Str → Option Desc} {x x' : Extras} {fs : Fs} {lib : Path}
  {Complete Unpacked Complete' Unpacked' Made : Str → (Path → Option Node) → Prop}

/-- C174 (partial, as C175).  Runs with the first pkgr.yml, one of which succeeds; then the file is edited so that it says at least what it said before; then runs with
the second one.  However many there are of each and whichever of them fail, the library is at the end as the first file says (and, if a run with the second one has succeeded, as that
one says, by C175). -/
theorem C174_history_partial (hW : WellPosed P re c) (hL : LibraryOK P re x parse fs lib) (hC : TellsEnough Complete parse Made P re x fs lib)
    (hmade : ∀ t D, x.Given t → Made t D → Announced parse P re t D) {l : List Bool} {re1 : RepoEnv} {c1 : DbCache} {fs1 : Fs}
    (h1 : Rounds P x parse Complete Unpacked lib re c fs l re1 c1 fs1) (hl : false ∈ l)
    -- the file is edited
    (hm : SaysMore re1 P P' x x') (hW' : WellPosed P' re1 c1) (hL' : LibraryOK P' re1 x' parse fs1 lib) (hC' : TellsEnough Complete' parse Made P' re1 x' fs1 lib)
    (hmade' : ∀ t D, x'.Given t → Made t D → Announced parse P' re1 t D) {l' : List Bool} {re2 : RepoEnv} {c2 : DbCache} {fs2 : Fs}
    (h2 : Rounds P' x' parse Complete' Unpacked' lib re1 c1 fs1 l' re2 c2 fs2) :
    (∀ p, P.Fetched re x p → AsListed parse P re p (contentOf fs2 lib p)) ∧ (∀ p, x.Given p → Made p (contentOf fs2 lib p)) := by
  have i := rounds_inv hW hL hC hmade h1
  have i' := rounds_inv hW' hL' hC' hmade' h2
  obtain ⟨k1, k2⟩ := (C175_lasting_partial hW hL hC hmade h1).2 hl
  have hP := hW.plain.packages
  by_cases hl' : false ∈ l'
  · obtain ⟨m1, m2⟩ := (C175_lasting_partial hW' hL' hC' hmade' h2).2 hl'
    have hu := i'.uniq (by rintro rfl; cases hl')
    refine ⟨fun p hp => ?_, fun p hp => m2 p (hm.given p hp)⟩
    obtain ⟨_, _, _, repo, ty, o, _, _, _, hg, _⟩ := k1 p hp
    have hg1 := (same_gets i.same ..).2 hg
    obtain ⟨g0, y, d, repo', ty', o', g1, g2, g3, g4, g5⟩ := m1 p ((C174_wanted hm hP).1 ((same_fetched i.same p).2 hp))
    have := hu _ _ _ _ _ _ _ g4 (C174_source hm hP hg1)
    exact ⟨g0, y, d, repo, ty, o, g1, g2, g3, hg, by rw [← this]; exact g5⟩
  · refine ⟨fun p hp => ?_, fun p hp => ?_⟩
    · rw [i'.stays hl' p (.inl ((C174_wanted hm hP).1 ((same_fetched i.same p).2 hp)))]
      exact k1 p hp
    · rw [i'.stays hl' p (.inr (hm.given p hp))]
      exact k2 p hp

/-! ### Example: `c` is listed a second time, after the tarball was installed -/

/-- `c` is listed twice. -/
def relistP : Project := { ymlProject with cfg := editTwice }

theorem relist_more {e : RepoEnv} : SaysMore e relistP ymlProject ymlX ymlX :=
  ⟨fun p h => by simpa [relistP, editTwice, ymlProject] using h, fun d h => h, fun d h => h, fun p h => h, List.Perm.refl _, fun p => Iff.rfl, rfl, rfl, rfl, .inl (List.prefix_refl _)⟩
theorem relist_less {e : RepoEnv} : SaysMore e ymlProject relistP ymlX ymlX :=
  ⟨fun p h => by simpa [relistP, editTwice, ymlProject] using h, fun d h => h, fun d h => h, fun p h => h, List.Perm.refl _, fun p => Iff.rfl, rfl, rfl, rfl, .inl (List.prefix_refl _)⟩

theorem relist_gets {e : RepoEnv} {p : Str} {repo : Str × Str} {ty : SourceType} {d : Desc} : relistP.Gets e p repo ty d ↔ ymlProject.Gets e p repo ty d :=
  ⟨C174_source relist_more (by decide), C174_source relist_less (by decide)⟩

theorem relist_fetched {e : RepoEnv} {p : Str} : relistP.Fetched e ymlX p ↔ ymlProject.Fetched e ymlX p :=
  ⟨(C174_wanted relist_more (by decide)).1, (C174_wanted relist_less (by decide)).1⟩

theorem relist_listed {e : RepoEnv} {p : Str} {D : Path → Option Node} : AsListed installedDesc relistP e p D ↔ AsListed installedDesc ymlProject e p D := by
  unfold AsListed
  simp only [relist_gets]

theorem relist_announced {e : RepoEnv} {p : Str} {D : Path → Option Node} : Announced installedDesc relistP e p D ↔ Announced installedDesc ymlProject e p D := by
  unfold Announced
  simp only [relist_gets]

theorem relist_posed {e : RepoEnv} {c : DbCache} (h : WellPosed ymlProject e c) : WellPosed relistP e c :=
  ⟨h.small, ⟨h.plain.once, by decide, by decide⟩, h.repos, h.digest, h.cache, h.noR, fun p repo ty d g => h.names p repo ty d (relist_gets.1 g),
    fun p repo ty d g => h.files p repo ty d (relist_gets.1 g)⟩

theorem relist_library {e : RepoEnv} {fs : Fs} (h : LibraryOK ymlProject e ymlX installedDesc fs [s%"lib"]) : LibraryOK relistP e ymlX installedDesc fs [s%"lib"] :=
  have hw : ∀ p, relistP.Wanted e ymlX p → ymlProject.Wanted e ymlX p := fun _ hp => hp.imp relist_fetched.1 id
  ⟨h.place, h.named, fun p hp => h.wanted p (hw p hp), fun p hp => h.noBackup p (hw p hp), h.tarballs.once, h.tarballs.names,
    fun t ht hf => h.tarballs.apart t ht (relist_fetched.1 hf), fun t d repo ty o ht h1 h2 => h.tarballs.current t d repo ty o ht h1 (relist_gets.1 h2)⟩

theorem relist_tells {e : RepoEnv} {fs : Fs} (h : TellsEnough ymlDone installedDesc ymlTar ymlProject e ymlX fs [s%"lib"]) :
    TellsEnough ymlDone installedDesc ymlTar relistP e ymlX fs [s%"lib"] :=
  ⟨fun p D hd => ⟨(h.says p D hd).1, fun hg => relist_listed.2 ((h.says p D hd).2 hg)⟩, fun p hp hg hl => h.there p (relist_fetched.1 hp) hg (relist_listed.1 hl)⟩

theorem relistMade : ∃ c'', PlanMade relistP ymlLater ymlCache c'' installedDesc ymlX twiceFs [s%"lib"] twicePre twicePlan := by
  have h : ((ymlLater.openConfigured idOrder idOrder ymlProject.custom (ymlProject.repos.map fun r => [r]) ymlCache
    [(0, false)]).2).isSome = true := by decide +kernel
  obtain ⟨nx, h⟩ := Option.isSome_iff_exists.1 h
  have hp : ∃ req nx', planInstall relistP.cfg ymlNexus2 twicePre true ymlX.tarballs ymlX.descriptions ymlX.table idOrder idOrder idOrder = .planned req nx' twicePlan :=
    ⟨_, _, by rfl⟩
  obtain ⟨req, nx', hp⟩ := hp
  have hid : idOrder.Fair := fun _ _ => List.Perm.refl _
  refine ⟨(ymlLater.openConfigured idOrder idOrder ymlProject.custom (ymlProject.repos.map fun r => [r]) ymlCache [(0, false)]).1,
    idOrder, idOrder, idOrder, idOrder, idOrder, [(0, false)], ymlNexus2, nx', [s%"c", s%"t"], req, hid, hid, hid, hid, hid, by decide, ?_, twiceNames, rfl, ?_⟩
  · unfold ymlNexus2
    rw [h]
    exact Prod.ext rfl h
  · rw [show twiceFs.isDir [s%"lib"] = true from by decide +kernel]
    exact hp

theorem relist_lock (n : Str) (hl : IsLock n) : (twiceRun.rInstall { lib := [s%"lib"] } twicePlan twicePre twiceFs).1.fs ([s%"lib"] ++ [n, s%"DESCRIPTION"]) = none := by
  rw [twice_eq]
  have h : (twiceRun'.rInstall { lib := [s%"lib"] } twicePlan twicePre twiceFs).1.fs = fun q => if [s%"lib", s%"__OLD__t"] <+: q then none else
      (((twiceFs1.set [s%"lib", s%"t"] .dir).set [s%"lib", s%"t", s%"DESCRIPTION"] (.file (ymlText (s%"t") (s%"0.1")))).set [s%"lib", s%"t", s%"DESCRIPTION"]
        (((twiceRun'.rInstall { lib := [s%"lib"] } twicePlan twicePre twiceFs).1.fs [s%"lib", s%"t", s%"DESCRIPTION"]).getD .dir)) q := by rfl
  rw [h]
  have h1 : n ≠ s%"t" := by rintro rfl; exact absurd hl (by decide)
  have h2 : n ≠ s%"__OLD__t" := by rintro rfl; exact absurd hl (by decide)
  have h3 : twiceFs [s%"lib", n, s%"DESCRIPTION"] = none := by
    rw [twiceFs_other _ (by simp [Ne.symm h1])]
    exact mendLock n hl
  simp [Fs.set, h1, Ne.symm h2, twiceFs1, Fs.rename, Ne.symm h1, h3]

/-- Non-vacuity of C174_history_partial: the tarball is installed with the first file, and again with the second one. -/
example : ∃ re2 c2 fs2, Rounds relistP ymlX installedDesc ymlDone ymlUnpacked [s%"lib"] ymlLater ymlCache twiceFs [false] re2 c2 fs2 ∧
    ymlTar (s%"t") (contentOf fs2 [s%"lib"] (s%"t")) := by
  obtain ⟨c'', h2⟩ := relistMade
  have hs : SameRepos ymlEnv ymlLater := ⟨rfl, rfl, rfl, rfl, rfl, rfl⟩
  have hF := planFacts ymlPosed mendDescribed (ymlTarballs _) mendMade
  have hd0 : NoFaults (mendRun ymlR).disk := ⟨fun _ _ _ => rfl, fun _ _ => rfl⟩
  have hlk : ∀ n, IsLock n → twiceFs ([s%"lib"] ++ [n, s%"DESCRIPTION"]) = none := by
    intro n hl
    rw [twiceFs_other _ (by simp; rintro rfl; exact absurd hl (by decide))]
    exact mendLock n hl
  have hround := Rounds.more .none (⟨mendRun ymlR, ymlDe, mendQ, { lib := [s%"lib"] }, mendPre, mendPlan, fun _ => False, ToyHolds, rfl, rfl, rfl, mendMade,
    mend_queue ymlR ⟨1, 0, fun _ l => l, by decide +kernel⟩, mend_downloads ymlR (.inl rfl) hF.downloads, mend_places,
    mend_stocked (by decide +kernel) (by decide +kernel), mend_outside ymlR_confined, hd0, yml_R, fun _ t ht st hst => (twice_tar1 t ht st hst).1,
    twice_ok, twice_first, hlk⟩ :
      CompletedRun ymlProject ymlX installedDesc ymlDone ymlUnpacked [s%"lib"] ymlEnv (fun _ => none) mendFs ymlCache twiceFs false) hs
  have hC : TellsEnough ymlDone installedDesc ymlTar ymlProject ymlEnv ymlX mendFs [s%"lib"] := tellsEnough_real mendStamped
  have i := rounds_inv ymlPosed mendLibrary hC yml_made hround
  have hW' := relist_posed i.posed
  have hL' := relist_library i.order
  have hF2 := planFacts hW' hL'.named hL'.tarballs h2
  have hok : (twiceRun.rInstall { lib := [s%"lib"] } twicePlan twicePre twiceFs).2 = .exit0 false := by
    rw [twice_eq]
    decide +kernel
  have hround2 := Rounds.more .none (⟨twiceRun, ymlDe, mendQ, { lib := [s%"lib"] }, twicePre, twicePlan, fun _ => False, ToyHolds, rfl, rfl, rfl, h2,
    twice_queue, twice_downloads hF2.downloads, mend_places, twice_stocked,
    ⟨ymlR_confined, by intro n fs st h; simp [twiceRun, twRun] at h, by intro fs p st h; simp [twiceRun, twRun] at h, fun _ l => List.Perm.refl l⟩,
    ⟨fun _ _ _ => rfl, fun _ _ => rfl⟩, yml_R, fun _ t ht st hst => (twice_tar2 t ht st hst).1, hok, rfl, relist_lock⟩ :
      CompletedRun relistP ymlX installedDesc ymlDone ymlUnpacked [s%"lib"] ymlLater ymlCache twiceFs c''
        (twiceRun.rInstall { lib := [s%"lib"] } twicePlan twicePre twiceFs).1.fs false) (⟨rfl, rfl, rfl, rfl, rfl, rfl⟩ : SameRepos ymlLater ymlLater)
  refine ⟨_, _, _, hround2, (C174_history_partial ymlPosed mendLibrary hC yml_made hround (by decide) relist_less hW' hL' (relist_tells i.tells) ?_ hround2).2 _ ((ymlGiven _).2 rfl)⟩
  exact fun t D ht hm => relist_announced.2 ((same_announced hs t D).2 (yml_made t D ht hm))

end Pkgr
