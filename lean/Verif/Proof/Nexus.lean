/- Helper lemmas about package resolution. -/
import Verif.Model.Nexus
import Verif.Spec.Nexus
import Verif.Proof.Base

namespace Pkgr
open Spec

theorem getPackageLoop_eq_some_iff (nx : Nexus) (pkg : Str) (dbs : List RepoDb) (dl : PkgDl) :
    getPackageLoop nx pkg dbs = some dl ↔
      ∃ pre db post, dbs = pre ++ db :: post ∧
        GoMap.get? (db.table (typeInRepo nx pkg db)) pkg = some dl.package ∧
        isCorrectRepo pkg db.repo nx.packages = true ∧
        dl.config = { repo := db.repo, type := typeInRepo nx pkg db } ∧
        ∀ d ∈ pre, ¬ (GoMap.has (d.table (typeInRepo nx pkg d)) pkg = true ∧
          isCorrectRepo pkg d.repo nx.packages = true) := by
  induction dbs with
  | nil => simp [getPackageLoop]
  | cons db dbs ih =>
    by_cases hex : ∃ d, GoMap.get? (db.table (typeInRepo nx pkg db)) pkg = some d ∧
        isCorrectRepo pkg db.repo nx.packages = true
    · obtain ⟨d, hd, hc⟩ := hex
      have hstep : getPackageLoop nx pkg (db :: dbs) = some { package := d, config := { repo := db.repo, type := typeInRepo nx pkg db } } := by
        simp [getPackageLoop, hd, hc]
      rw [hstep]
      constructor
      · intro h
        injection h with h
        subst h
        exact ⟨[], db, dbs, rfl, hd, hc, rfl, by simp⟩
      · rintro ⟨pre, db', post, heq, h1, h2, h3, h4⟩
        cases pre with
        | nil =>
          simp only [List.nil_append, List.cons.injEq] at heq
          obtain ⟨rfl, rfl⟩ := heq
          rw [hd] at h1
          injection h1 with h1
          cases dl
          simp_all
        | cons p pre =>
          simp only [List.cons_append, List.cons.injEq] at heq
          obtain ⟨rfl, rfl⟩ := heq
          exact absurd ⟨by simp [GoMap.has, hd], hc⟩ (h4 db (by simp))
    · have hstep : getPackageLoop nx pkg (db :: dbs) = getPackageLoop nx pkg dbs := by
        rw [getPackageLoop]
        split
        · rename_i d hd
          rw [if_neg]
          intro hc
          exact hex ⟨d, hd, hc⟩
        · rfl
      rw [hstep, ih]
      constructor
      · rintro ⟨pre, db', post, rfl, h1, h2, h3, h4⟩
        refine ⟨db :: pre, db', post, rfl, h1, h2, h3, ?_⟩
        intro d hd
        rcases List.mem_cons.1 hd with rfl | hd
        · rintro ⟨ha, hb⟩
          rw [GoMap.has, Option.isSome_iff_exists] at ha
          obtain ⟨x, hx⟩ := ha
          exact hex ⟨x, hx, hb⟩
        · exact h4 d hd
      · rintro ⟨pre, db', post, heq, h1, h2, h3, h4⟩
        cases pre with
        | nil =>
          simp only [List.nil_append, List.cons.injEq] at heq
          obtain ⟨rfl, rfl⟩ := heq
          exact absurd ⟨_, h1, h2⟩ hex
        | cons p pre =>
          simp only [List.cons_append, List.cons.injEq] at heq
          obtain ⟨rfl, rfl⟩ := heq
          exact ⟨pre, db', post, rfl, h1, h2, h3, fun d hd => h4 d (List.mem_cons_of_mem _ hd)⟩

theorem getPackageLoop_eq_none_iff (nx : Nexus) (pkg : Str) (dbs : List RepoDb) :
    getPackageLoop nx pkg dbs = none ↔
      ∀ d ∈ dbs, ¬ (GoMap.has (d.table (typeInRepo nx pkg d)) pkg = true ∧
          isCorrectRepo pkg d.repo nx.packages = true) := by
  induction dbs with
  | nil => simp [getPackageLoop]
  | cons db dbs ih =>
    rw [getPackageLoop]
    split
    · rename_i d hd
      have : GoMap.has (db.table (typeInRepo nx pkg db)) pkg = true := by simp [GoMap.has, hd]
      split
      · rename_i hc; simp [this, hc]
      · rename_i hc; simp only [List.mem_cons, forall_eq_or_imp, this, hc, ih]; simp
    · rename_i hd
      have : GoMap.has (db.table (typeInRepo nx pkg db)) pkg = false := by simp [GoMap.has, hd]
      simp only [List.mem_cons, forall_eq_or_imp, this, ih]; simp

theorem collectRepos_err (n : Nat) (arrivals : List RepoResult) :
    (collectRepos n arrivals).2.isSome ↔ ∃ i e, (i, Except.error e) ∈ arrivals := by
  unfold collectRepos
  generalize (List.replicate n (none : Option RepoDb)) = s
  suffices h : ∀ (s : List (Option RepoDb)) (o : Option LoadErr),
      (arrivals.foldl collectStep (s, o)).2.isSome ↔
        o.isSome ∨ ∃ i e, ((i, Except.error e) : RepoResult) ∈ arrivals by
    simpa using h s none
  induction arrivals with
  | nil => simp
  | cons r rs ih =>
    intro s o
    rw [List.foldl_cons]
    obtain ⟨i, r⟩ := r
    cases r with
    | error e =>
      rw [ih]
      simp only [collectStep]
      simp only [Option.isSome_some, true_or, true_iff]
      exact .inr ⟨i, e, by simp⟩
    | ok d => rw [ih]; simp [collectStep]

theorem collectRepos_slots (s : List (Option RepoDb)) (o : Option LoadErr) (arrivals : List RepoResult)
    (hnd : (arrivals.map Prod.fst).Nodup) (j : Nat) (hj : j < s.length) :
    (arrivals.foldl collectStep (s, o)).1[j]? =
      some (match arrivals.find? (fun r => r.1 = j) with
        | some (_, .ok d) => some d
        | _ => s[j]) := by
  induction arrivals generalizing s o with
  | nil => simp [List.getElem?_eq_getElem hj]
  | cons r rs ih =>
    obtain ⟨i, r⟩ := r
    simp only [List.map_cons, List.nodup_cons] at hnd
    rw [List.foldl_cons]
    by_cases hij : i = j
    · subst hij
      have hnone : rs.find? (fun r => decide (r.1 = i)) = none := by
        rw [List.find?_eq_none]
        intro x hx hxi
        exact hnd.1 (by simp at hxi; rw [← hxi]; exact List.mem_map_of_mem hx)
      cases r with
      | error e => simp only [collectStep]; rw [ih _ _ hnd.2 hj, hnone]; simp
      | ok d => simp only [collectStep]; rw [ih _ _ hnd.2 (by simpa using hj), hnone]; simp
    · cases r with
      | error e => simp only [collectStep]; rw [ih _ _ hnd.2 hj]; simp [hij]
      | ok d =>
        simp only [collectStep]; rw [ih _ _ hnd.2 (by simpa using hj)]; simp [hij]

theorem typeInRepo_eq (nx : Nexus) (pkg : Str) (db : RepoDb) : typeInRepo nx pkg db = Spec.typeFor nx pkg db := by
  unfold typeInRepo wantedType Spec.typeFor Spec.unsetType
  cases h : GoMap.get? nx.packages pkg with
  | some c => by_cases h2 : c.type = .default <;> simp [h2]
  | none =>
    by_cases h1 : db.defaultSourceType = .default
    · simp [h1]
    · by_cases h2 : db.defaultSourceType = nx.defaultSourceType <;> simp [h1, h2]

theorem isCorrectRepo_iff (nx : Nexus) (pkg : Str) (db : RepoDb) :
    isCorrectRepo pkg db.repo nx.packages = true ↔ Spec.PinAllows nx pkg db := by
  unfold isCorrectRepo Spec.PinAllows
  cases h : GoMap.get? nx.packages pkg with
  | none => simp
  | some c => by_cases h2 : c.repo.name = [] <;> simp [h2]

theorem resolves_iff {nx : Nexus} {pkg : Str} {dl : PkgDl} :
    Spec.Resolves nx pkg dl ↔ getPackage nx pkg = some dl := by
  unfold getPackage
  rw [getPackageLoop_eq_some_iff]
  simp only [typeInRepo_eq, isCorrectRepo_iff]
  unfold Spec.Resolves Spec.FirstWith Spec.Serves
  constructor
  · rintro ⟨db, ⟨pre, post, h1, ⟨hp, _⟩, h4⟩, h2, h3⟩
    refine ⟨pre, db, post, h1, h2, hp, h3, ?_⟩
    rintro d hd ⟨hh, hh2⟩
    rw [GoMap.has, Option.isSome_iff_exists] at hh
    exact h4 d hd ⟨hh2, hh⟩
  · rintro ⟨pre, db, post, h1, h2, hp, h3, h4⟩
    refine ⟨db, ⟨pre, post, h1, ⟨hp, _, h2⟩, ?_⟩, h2, h3⟩
    rintro d hd ⟨hp', x, hx⟩
    exact h4 d hd ⟨by unfold Spec.Offers at hx; simp [GoMap.has, hx], hp'⟩


theorem foldChar_ascii (l : Char) (hl : l.toNat < 123 ∧ 97 ≤ l.toNat) (c : Char) (hc : c.toNat < 128) :
    foldChar c = l ↔ Spec.capital c = l.toUpper := by
  have key : ∀ m : Nat, m < 123 ∧ 97 ≤ m → ∀ n : Nat, n < 128 →
      (foldChar (Char.ofNat n) = Char.ofNat m ↔ Spec.capital (Char.ofNat n) = (Char.ofNat m).toUpper) := by
    have : ∀ m : Fin 123, 97 ≤ m.1 → ∀ n : Fin 128,
        (foldChar (Char.ofNat n.1) = Char.ofNat m.1 ↔ Spec.capital (Char.ofNat n.1) = (Char.ofNat m.1).toUpper) := by
      decide +kernel
    exact fun m hm n hn => this ⟨m, hm.1⟩ hm.2 ⟨n, hn⟩
  have := key l.toNat hl c.toNat hc
  rwa [Char.ofNat_toNat, Char.ofNat_toNat] at this

theorem letter_upper (l : Char) (hl : l.toNat < 123 ∧ 97 ≤ l.toNat) :
    l.toUpper.toNat < 128 ∧ (l = 's' ↔ l.toUpper = 'S') ∧ (l = 'k' ↔ l.toUpper = 'K') := by
  have key : ∀ m : Fin 123, 97 ≤ m.1 → (Char.ofNat m.1).toUpper.toNat < 128 ∧
      (Char.ofNat m.1 = 's' ↔ (Char.ofNat m.1).toUpper = 'S') ∧ (Char.ofNat m.1 = 'k' ↔ (Char.ofNat m.1).toUpper = 'K') := by
    decide +kernel
  have := key ⟨l.toNat, hl.1⟩ hl.2
  rwa [Char.ofNat_toNat] at this

theorem asciiUpper_big (c : Char) (hc : 128 ≤ c.toNat) : Spec.asciiUpper c = c := by
  have : c.isLower = false := by
    rw [Char.isLower, Bool.and_eq_false_iff]; right
    rw [decide_eq_false_iff_not, UInt32.not_le]
    have : ('z'.val).toNat < c.val.toNat := by
      have : c.val.toNat = c.toNat := rfl
      have h2 : 'z'.val.toNat = 122 := rfl
      omega
    exact this
  simp [Spec.asciiUpper, this]

theorem foldChar_iff (l : Char) (hl : l.toNat < 123 ∧ 97 ≤ l.toNat) (c : Char) :
    foldChar c = l ↔ Spec.capital c = l.toUpper := by
  by_cases hc : c.toNat < 128
  · exact foldChar_ascii l hl c hc
  · obtain ⟨h1, h2, h3⟩ := letter_upper l hl
    unfold foldChar Spec.capital
    rw [if_neg (by omega), asciiUpper_big c (by omega)]
    split
    · rw [eq_comm, h2, eq_comm]
    · split
      · rw [eq_comm, h3, eq_comm]
      · constructor
        · rintro rfl; omega
        · intro h; rw [h] at hc; omega

theorem map_fold_iff (w : Str) (hw : ∀ l ∈ w, l.toNat < 123 ∧ 97 ≤ l.toNat) (t : Str) :
    t.map foldChar = w ↔ t.map Spec.capital = w.map Char.toUpper := by
  induction t generalizing w with
  | nil => cases w <;> simp
  | cons c t ih =>
    cases w with
    | nil => simp
    | cons l w =>
      simp only [List.map_cons, List.cons.injEq]
      rw [foldChar_iff l (hw l (by simp)) c, ih w (fun x hx => hw x (by simp [hx]))]

theorem parseType_iff {t : Str} {ty : SourceType} : parseType t = some ty ↔ Spec.SaysType t ty := by
  have e1 := map_fold_iff (s%"source") (by decide) t
  have e2 := map_fold_iff (s%"binary") (by decide) t
  have u1 : (s%"source").map Char.toUpper = s%"SOURCE" := by decide
  have u2 : (s%"binary").map Char.toUpper = s%"BINARY" := by decide
  have f1 : (s%"source").map foldChar = s%"source" := by decide
  have f2 : (s%"binary").map foldChar = s%"binary" := by decide
  unfold parseType eqFold Spec.SaysType
  rw [← u1, ← u2, ← e1, ← e2, f1, f2]
  by_cases h1 : t.map foldChar = s%"source"
  · simp [h1, eq_comm]
  · by_cases h2 : t.map foldChar = s%"binary" <;> simp [h1, h2, eq_comm]

theorem getPackages_aux (nx : Nexus) (pkgs : List Str) (ap : AvailablePkgs) :
    pkgs.foldl (getPackagesStep nx) ap =
    { packages := ap.packages ++ pkgs.map (fun p => (getPackage nx p).getD {}),
      missing := ap.missing ++ pkgs.filter (fun p => (getPackage nx p).isNone) } := by
  induction pkgs generalizing ap with
  | nil => simp
  | cons p ps ih =>
    rw [List.foldl_cons]
    cases h : getPackage nx p with
    | some dl => rw [ih]; simp [getPackagesStep, h]
    | none => rw [ih]; simp [getPackagesStep, h]

theorem getPackages_eq (nx : Nexus) (pkgs : List Str) :
    getPackages nx pkgs = AvailablePkgs.mk (pkgs.map (fun p => (getPackage nx p).getD {}))
      (pkgs.filter (fun p => (getPackage nx p).isNone)) := by
  unfold getPackages; rw [getPackages_aux]; simp

/-- A table after ignoring packages. -/
theorem ignore_fold_get? (ignore : List Str) (db : RepoDb) (st : SourceType) (k : Str) :
    GoMap.get? ((ignore.foldl RepoDb.drop db).table st) k
      = if k ∈ ignore then none else GoMap.get? (db.table st) k := by
  induction ignore generalizing db with
  | nil => simp
  | cons p ps ih =>
    rw [List.foldl_cons, ih]
    have : GoMap.get? ((db.drop p).table st) k
        = if k = p then none else GoMap.get? (db.table st) k := by
      cases st with
      | default => simp [RepoDb.table]
      | source => simp [RepoDb.table, RepoDb.drop, GoMap.get?_del]
      | binary => cases hb : db.bin <;> simp [RepoDb.table, RepoDb.drop, GoMap.get?_del, hb]
    rw [this]
    by_cases h1 : k ∈ ps <;> by_cases h2 : k = p <;> simp [h1, h2]

theorem ignore_fold_meta (ignore : List Str) (db : RepoDb) :
    let db' := ignore.foldl RepoDb.drop db
    db'.repo = db.repo ∧ db'.defaultSourceType = db.defaultSourceType := by
  induction ignore generalizing db with
  | nil => simp
  | cons p ps ih => rw [List.foldl_cons]; exact ih _

end Pkgr
