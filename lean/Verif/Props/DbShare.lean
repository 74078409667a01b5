/- C146: several runs may share the database cache. -/
import Verif.Spec.DbShare
import Verif.Props.Fetching

namespace Pkgr
open Spec

theorem setAt_same {β : Type} (f : Nat → β) (i : Nat) (v : β) : setAt f i v i = v := by simp [setAt]
theorem setAt_other {β : Type} (f : Nat → β) {i j : Nat} (h : j ≠ i) (v : β) : setAt f i v j = f j := by simp [setAt, h]

theorem writeAt_append (f w : Str) : writeAt f f.length w = f ++ w := by
  unfold writeAt
  simp

/-! ### Everybody reads -/

/-- A run that finds the file fresh, in all its steps. -/
def ReadingPc {α : Type} (f : Nat) (bytes : Str) (d : α) : DbPc α → Prop
  | .start => True
  | .opening => True
  | .reading i acc => i = f ∧ acc <+: bytes
  | .got d' => d' = d
  | .dead => True
  | _ => False

theorem reading_step {α : Type} {C : DbCode α} {age : Option Int} {k : DbDisk} {f : Nat} {d : α} {pc : DbPc α} {a : DbAct α} {r : DbDisk × DbPc α}
    (he : k.entry = some f) (hb : C.enc (k.content f) d) (hf : ∀ now, a = .stat now → now < k.mtime f + age.getD 3600)
    (hpc : ReadingPc f (k.content f) d pc) (h : dbAct C.dec age k pc a = some r) :
    r.1 = k ∧ ReadingPc f (k.content f) d r.2 := by
  cases pc with
  | start =>
    cases a <;> simp only [dbAct, Option.some.injEq, reduceCtorEq] at h
    · rename_i now
      have hn := hf now rfl
      have : cacheAction (k.entry.map k.mtime) now age = .decode := by
        rw [he]
        show (if cacheIsFresh (k.mtime f) now age then _ else _) = _
        rw [if_pos (by unfold cacheIsFresh; simpa using hn)]
      rw [this] at h
      cases h
      exact ⟨rfl, trivial⟩
    · cases h; exact ⟨rfl, trivial⟩
  | opening =>
    cases a <;> simp only [dbAct, Option.some.injEq, reduceCtorEq] at h
    · rw [he] at h
      cases h
      exact ⟨rfl, rfl, List.nil_prefix⟩
    · cases h; exact ⟨rfl, trivial⟩
  | reading i acc =>
    obtain ⟨rfl, hp⟩ := hpc
    cases a <;> simp only [dbAct, Option.some.injEq, reduceCtorEq] at h
    · rename_i n
      by_cases hc : 0 < n ∧ (C.dec acc).isNone = true
      · rw [if_pos hc] at h
        have hne : acc ≠ k.content i := by
          intro e
          rw [e, C.decodes _ _ hb] at hc
          simp at hc
        obtain ⟨rest, hrest⟩ := hp
        rw [← hrest, List.drop_left] at h
        cases rest with
        | nil => rw [List.append_nil] at hrest; exact absurd hrest hne
        | cons c rest =>
          cases h
          refine ⟨rfl, rfl, ?_⟩
          rw [← hrest]
          exact (List.prefix_append_right_inj _).mpr (List.take_prefix _ _)
      · rw [if_neg hc] at h; cases h
    · cases hd : C.dec acc with
      | none => rw [hd] at h; cases h
      | some d' =>
        rw [hd] at h
        cases h
        refine ⟨rfl, ?_⟩
        by_cases e : acc = k.content i
        · rw [e, C.decodes _ _ hb] at hd
          exact (Option.some.inj hd).symm
        · rw [C.cutOff _ _ _ hb hp e] at hd
          cases hd
    · cases h; exact ⟨rfl, trivial⟩
  | got d' => cases a <;> simp [dbAct] at h
  | dead => cases a <;> simp [dbAct] at h
  | removing => cases hpc
  | fetching => cases hpc
  | creating _ _ => cases hpc
  | writing _ _ _ _ => cases hpc
  | failed => cases hpc

/-- **C146** (partial: a complete and fresh file; the full claim is for any state of the cache). Any number of runs that start when the file is complete and that take it for fresh
get exactly the database in it, whatever the order of their steps and whichever of them are interrupted; none fails, and the file stays as it is. -/
theorem C146_readers_partial {α : Type} {C : DbCode α} {age : Nat → Option Int} {s t : DbShared α} {f : Nat} {d : α}
    (h0 : AllStart s) (he : s.disk.entry = some f) (hb : C.enc (s.disk.content f) d)
    (hr : SharedRun C age (fun _ => True) (FreshFor age (s.disk.mtime f)) s t) :
    t.disk = s.disk ∧ ∀ i, t.pcs i ≠ .failed ∧ ∀ d', t.pcs i = .got d' → d' = d := by
  have key : t.disk = s.disk ∧ ∀ i, ReadingPc f (s.disk.content f) d (t.pcs i) := by
    induction hr with
    | refl _ => exact ⟨rfl, fun i => by rw [h0 i]; trivial⟩
    | @step t u i a hr hm hs _ ih =>
      obtain ⟨ih1, ih2⟩ := ih
      unfold dbStep at hs
      cases hd : dbAct C.dec (age i) t.disk (t.pcs i) a with
      | none => rw [hd] at hs; cases hs
      | some r =>
        rw [hd] at hs
        cases hs
        rw [ih1] at hd
        obtain ⟨g1, g2⟩ := reading_step (C := C) he hb (fun now e => by subst e; exact hm i) (ih2 i) hd
        refine ⟨g1, fun j => ?_⟩
        show ReadingPc _ _ _ (setAt t.pcs i r.2 j)
        by_cases e : j = i
        · subst e; rw [setAt_same]; exact g2
        · rw [setAt_other _ e]; exact ih2 j
  refine ⟨key.1, fun i => ⟨fun h => ?_, fun d' h => ?_⟩⟩
  · have := key.2 i; rw [h] at this; exact this
  · have := key.2 i; rw [h] at this; exact this

/-! ### One updates, the others read -/

/-- What is true of a run when at most one run updates the file at a time. -/
def SharedPc {α : Type} (C : DbCode α) (Known : α → Prop) (k : DbDisk) : DbPc α → Prop
  | .fetching => k.entry = none
  | .creating d b => k.entry = none ∧ Known d ∧ C.enc b d
  | .writing d i off b => i < k.next ∧ off ≤ b.length ∧ k.content i = b.take off ∧ Known d ∧ C.enc b d
  | .reading i acc => i < k.next ∧ acc <+: k.content i
  | .got d => Known d
  | _ => True

/-- Files are beginnings of texts for known databases. -/
def DiskOk {α : Type} (C : DbCode α) (Known : α → Prop) (k : DbDisk) : Prop :=
  (∀ i, k.entry = some i → i < k.next) ∧ ∀ i, i < k.next → ∃ b d, k.content i <+: b ∧ C.enc b d ∧ Known d

/-- What a step does to the file while no other run updates it. -/
def Grows {α : Type} (k k' : DbDisk) (pc : DbPc α) : Prop :=
  k.next ≤ k'.next ∧ (∀ i, i < k.next → k.content i <+: k'.content i) ∧ (¬ Updating pc → k' = k)

theorem shared_step {α : Type} {C : DbCode α} {Known : α → Prop} {age : Option Int} {k : DbDisk} {pc : DbPc α} {a : DbAct α} {r : DbDisk × DbPc α}
    (hk : DiskOk C Known k) (hpc : SharedPc C Known k pc) (hh : Honest C Known a) (h : dbAct C.dec age k pc a = some r) :
    DiskOk C Known r.1 ∧ SharedPc C Known r.1 r.2 ∧ Grows k r.1 pc := by
  have same : ∀ pc' : DbPc α, r = (k, pc') → SharedPc C Known k pc' → DiskOk C Known r.1 ∧ SharedPc C Known r.1 r.2 ∧ Grows k r.1 pc := by
    intro pc' e hp
    subst e
    exact ⟨hk, hp, Nat.le_refl _, fun _ _ => List.prefix_refl _, fun _ => rfl⟩
  cases pc with
  | start =>
    cases a <;> simp only [dbAct, Option.some.injEq, reduceCtorEq] at h
    · rename_i now
      cases hc : cacheAction (k.entry.map k.mtime) now age with
      | decode => rw [hc] at h; cases h; exact same _ rfl trivial
      | fetch =>
        rw [hc] at h
        have h' := (Option.some.inj h).symm
        cases he : k.entry with
        | none => exact same .fetching (by rw [h', he]; rfl) he
        | some i => exact same .removing (by rw [h', he]; rfl) trivial
    · exact same _ h.symm trivial
  | removing =>
    cases a <;> simp only [dbAct, Option.some.injEq, reduceCtorEq] at h
    · cases h
      exact ⟨⟨by simp, hk.2⟩, rfl, Nat.le_refl _, fun _ _ => List.prefix_refl _, fun hn => absurd trivial hn⟩
    · exact same _ h.symm trivial
  | fetching =>
    cases a <;> simp only [dbAct, Option.some.injEq, reduceCtorEq] at h
    · exact same _ h.symm ⟨hpc, hh.1, hh.2⟩
    · exact same _ h.symm trivial
    · exact same _ h.symm trivial
  | creating d b =>
    obtain ⟨he, hkn, hen⟩ := hpc
    cases a <;> simp only [dbAct, Option.some.injEq, reduceCtorEq] at h
    · rw [he] at h
      cases h
      refine ⟨⟨?_, ?_⟩, ?_, ?_, ?_, fun hn => absurd trivial hn⟩
      · intro i hi; cases hi; exact Nat.lt_succ_self _
      · intro i hi
        dsimp only at hi ⊢
        by_cases e : i = k.next
        · subst e; rw [setAt_same]; exact ⟨b, d, List.nil_prefix, hen, hkn⟩
        · rw [setAt_other _ e]; exact hk.2 i (by omega)
      · refine ⟨Nat.lt_succ_self _, Nat.zero_le _, ?_, hkn, hen⟩
        dsimp only
        rw [setAt_same, List.take_zero]
      · exact Nat.le_succ _
      · intro i hi
        dsimp only
        rw [setAt_other _ (by omega)]
        exact List.prefix_refl _
    · exact same _ h.symm trivial
    · exact same _ h.symm trivial
  | writing d i off b =>
    obtain ⟨hi, hoff, hct, hkn, hen⟩ := hpc
    cases a <;> simp only [dbAct, Option.some.injEq, reduceCtorEq] at h
    · rename_i n now
      by_cases hc : 0 < n ∧ off + n ≤ b.length
      · rw [if_pos hc] at h
        cases h
        have hlen : (k.content i).length = off := by rw [hct, List.length_take]; omega
        have hw : writeAt (k.content i) off ((b.drop off).take n) = b.take (off + n) := by
          have := writeAt_append (k.content i) ((b.drop off).take n)
          rw [hlen] at this
          rw [this, hct, List.take_add]
        refine ⟨⟨hk.1, ?_⟩, ?_, ?_, ?_, fun hn => absurd trivial hn⟩
        · intro j hj
          dsimp only at hj ⊢
          by_cases e : j = i
          · subst e; rw [setAt_same, hw]; exact ⟨b, d, List.take_prefix _ _, hen, hkn⟩
          · rw [setAt_other _ e]; exact hk.2 j hj
        · refine ⟨hi, hc.2, ?_, hkn, hen⟩
          dsimp only
          rw [setAt_same, hw]
        · exact Nat.le_refl _
        · intro j hj
          dsimp only
          by_cases e : j = i
          · subst e
            rw [setAt_same, hw, hct, List.take_add]
            exact List.prefix_append _ _
          · rw [setAt_other _ e]; exact List.prefix_refl _
      · rw [if_neg hc] at h; cases h
    · by_cases hc : off = b.length
      · rw [if_pos hc] at h; cases h; exact same _ rfl hkn
      · rw [if_neg hc] at h; cases h
    · exact same _ h.symm trivial
    · exact same _ h.symm trivial
  | opening =>
    cases a <;> simp only [dbAct, Option.some.injEq, reduceCtorEq] at h
    · cases he : k.entry with
      | none => rw [he] at h; cases h; exact same _ rfl trivial
      | some i => rw [he] at h; cases h; exact same _ rfl ⟨hk.1 i he, List.nil_prefix⟩
    · exact same _ h.symm trivial
  | reading i acc =>
    obtain ⟨hi, hp⟩ := hpc
    cases a <;> simp only [dbAct, Option.some.injEq, reduceCtorEq] at h
    · rename_i n
      by_cases hc : 0 < n ∧ (C.dec acc).isNone = true
      · rw [if_pos hc] at h
        obtain ⟨rest, hrest⟩ := hp
        rw [← hrest, List.drop_left] at h
        cases rest with
        | nil => cases h; exact same _ rfl trivial
        | cons c rest =>
          cases h
          refine same _ rfl ⟨hi, ?_⟩
          rw [← hrest]
          exact (List.prefix_append_right_inj _).mpr (List.take_prefix _ _)
      · rw [if_neg hc] at h; cases h
    · cases hd : C.dec acc with
      | none => rw [hd] at h; cases h
      | some d' =>
        rw [hd] at h
        cases h
        refine same _ rfl ?_
        obtain ⟨b, d, hb, hen, hkn⟩ := hk.2 i hi
        have hab : acc <+: b := hp.trans hb
        by_cases e : acc = b
        · rw [e, C.decodes _ _ hen] at hd
          cases hd
          exact hkn
        · rw [C.cutOff _ _ _ hen hab e] at hd
          cases hd
    · exact same _ h.symm trivial
  | got d' => cases a <;> simp [dbAct] at h
  | dead => cases a <;> simp [dbAct] at h
  | failed => cases a <;> simp [dbAct] at h

theorem sharedPc_other {α : Type} {C : DbCode α} {Known : α → Prop} {k k' : DbDisk} {pc pc' : DbPc α} (hg : Grows k k' pc)
    (hx : Updating pc → ¬ Updating pc') (h : SharedPc C Known k pc') : SharedPc C Known k' pc' := by
  by_cases hu : Updating pc
  · have hn := hx hu
    cases pc' with
    | reading i acc => exact ⟨by have := h.1; have := hg.1; omega, h.2.trans (hg.2.1 i h.1)⟩
    | fetching => exact absurd trivial hn
    | creating _ _ => exact absurd trivial hn
    | writing _ _ _ _ => exact absurd trivial hn
    | got d => exact h
    | start => trivial
    | removing => trivial
    | opening => trivial
    | failed => trivial
    | dead => trivial
  · rw [hg.2.2 hu]; exact h

/-- **C146** (partial: when no two runs update the file at the same time; any number may read it meanwhile, run
one after the other, or be interrupted anywhere). Whenever a run opens the repository, the database it gets is one that
the repository published and that was fetched in full, by this run or an earlier one, or one that was in the file completely at the beginning: never a
part of a database, or a mixture. The file at the beginning may itself have been left by an interrupted run. -/
theorem C146_never_a_part_partial {α : Type} {C : DbCode α} {Known : α → Prop} {age : Nat → Option Int} {s t : DbShared α}
    (h0 : AllStart s) (hent : ∀ i, s.disk.entry = some i → i < s.disk.next)
    (hfile : ∀ i, i < s.disk.next → ∃ b d, s.disk.content i <+: b ∧ C.enc b d ∧ Known d)
    (hr : SharedRun C age OneUpdates (Honest C Known) s t) (i : Nat) (d : α) (hd : t.pcs i = .got d) : Known d := by
  have key : DiskOk C Known t.disk ∧ (∀ i, SharedPc C Known t.disk (t.pcs i)) ∧ OneUpdates t := by
    clear hd
    induction hr with
    | refl hok => exact ⟨⟨hent, hfile⟩, fun i => by rw [h0 i]; trivial, hok⟩
    | @step t u i a hr hm hs hok ih =>
      obtain ⟨ih1, ih2, ih3⟩ := ih
      unfold dbStep at hs
      cases hd : dbAct C.dec (age i) t.disk (t.pcs i) a with
      | none => rw [hd] at hs; cases hs
      | some r =>
        rw [hd] at hs
        cases hs
        obtain ⟨g1, g2, g3⟩ := shared_step (C := C) ih1 (ih2 i) hm hd
        refine ⟨g1, fun j => ?_, hok⟩
        show SharedPc _ _ _ (setAt t.pcs i r.2 j)
        by_cases e : j = i
        · subst e; rw [setAt_same]; exact g2
        · rw [setAt_other _ e]
          exact sharedPc_other g3 (fun hu hu' => e (ih3 _ _ hu' hu)) (ih2 j)
  have := key.2.1 i
  rw [hd] at this
  exact this

/-! ### Two update at the same time, or one reads what another is writing -/

/-- A code for the examples: two packages with one-letter names, in any order. -/
def letterDec : Str → Option Str
  | '2' :: x :: y :: _ => some (if x.toNat < y.toNat then [x, y] else if y.toNat < x.toNat then [y, x] else [x])
  | _ => none

/-- See `letterDec`. -/
def letterCode : DbCode Str where
  enc b d := ∃ x y : Char, x ≠ y ∧ b = ['2', x, y] ∧ letterDec b = some d
  dec := letterDec
  decodes := by rintro b d ⟨_, _, _, _, h⟩; exact h
  cutOff := by
    rintro b d p ⟨x, y, _, rfl, _⟩ hp hne
    obtain ⟨t, ht⟩ := hp
    match p, ht, hne with
    | [], _, _ => rfl
    | [a], _, _ => simp [letterDec]
    | [a, b], _, _ => simp [letterDec]
    | [a, b, c], ht, hne =>
      simp at ht
      obtain ⟨rfl, rfl, rfl, _⟩ := ht
      exact absurd rfl hne
    | a :: b :: c :: e :: r, ht, _ => simp at ht

/-- No database file, and runs about to begin. -/
def noDbFile : DbShared Str := { disk := { entry := none, content := fun _ => [], mtime := fun _ => 0, next := 0 }, pcs := fun _ => .start }

/-- The steps of a list, one after the other. -/
def dbSteps (s : DbShared Str) : List (Nat × DbAct Str) → Option (DbShared Str)
  | [] => some s
  | (i, a) :: r => (dbStep letterDec (fun _ => none) s i a).bind fun t => dbSteps t r

theorem dbSteps_run {Published : Str → Prop} (l : List (Nat × DbAct Str)) (s t u : DbShared Str) (hm : ∀ x ∈ l, Honest letterCode Published x.2)
    (h0 : SharedRun letterCode (fun _ => none) (fun _ => True) (Honest letterCode Published) s t) (h : dbSteps t l = some u) :
    SharedRun letterCode (fun _ => none) (fun _ => True) (Honest letterCode Published) s u := by
  induction l generalizing t with
  | nil => cases h; exact h0
  | cons x l ih =>
    obtain ⟨i, a⟩ := x
    unfold dbSteps at h
    cases hs : dbStep letterDec (fun _ => none) t i a with
    | none => rw [hs] at h; cases h
    | some t' =>
      rw [hs] at h
      exact ih t' (fun y hy => hm y (List.mem_cons_of_mem _ hy)) (.step h0 (hm _ List.mem_cons_self) hs trivial) h

/-- Two runs fetch the same two packages and write them at the same time, in different order; a third reads the file. -/
def mixedSteps : List (Nat × DbAct Str) :=
  [(0, .stat 0), (1, .stat 0), (0, .fetched (s%"ab") (s%"2ab")), (1, .fetched (s%"ab") (s%"2ba")), (0, .create 0), (1, .create 0),
    (0, .write 2 0), (1, .write 3 0), (1, .close), (0, .write 1 0), (0, .close),
    (2, .stat 1), (2, .openFile), (2, .read 512), (2, .decode)]

/-- A run is reading while another writes. -/
def earlySteps : List (Nat × DbAct Str) :=
  [(0, .stat 0), (0, .fetched (s%"ab") (s%"2ab")), (0, .create 0), (1, .stat 0), (1, .openFile), (1, .read 512), (0, .write 3 0), (0, .close)]

/-- An interrupted run, and the next. -/
def cutSteps : List (Nat × DbAct Str) :=
  [(0, .stat 0), (0, .fetched (s%"ab") (s%"2ab")), (0, .create 0), (0, .write 2 0), (0, .killed), (1, .stat 3599), (1, .openFile), (1, .read 512), (1, .read 512)]

/-- C146 fails when two runs update the file at the same time: both fetched all packages of the repository and both ended well,
and a later run opens the repository with one package missing. -/
theorem C146_violated_mixed : ∃ t : DbShared Str,
    SharedRun letterCode (fun _ => none) (fun _ => True) (Honest letterCode (· = s%"ab")) noDbFile t ∧
    t.pcs 0 = .got (s%"ab") ∧ t.pcs 1 = .got (s%"ab") ∧ t.pcs 2 = .got (s%"b") := by
  cases h : dbSteps noDbFile mixedSteps with
  | none => exact absurd h (by decide +kernel)
  | some t =>
    refine ⟨t, dbSteps_run mixedSteps _ _ _ ?_ (.refl trivial) h, ?_⟩
    · intro x hx
      simp only [mixedSteps, List.mem_cons, List.not_mem_nil, or_false] at hx
      rcases hx with rfl | rfl | rfl | rfl | rfl | rfl | rfl | rfl | rfl | rfl | rfl | rfl | rfl | rfl | rfl
      case inr.inr.inl => exact ⟨rfl, 'a', 'b', by decide, rfl, rfl⟩
      case inr.inr.inr.inl => exact ⟨rfl, 'b', 'a', by decide, rfl, rfl⟩
      all_goals trivial
    · cases h; exact ⟨rfl, rfl, rfl⟩

/-- C146 fails when a run opens the file that another is writing: it ends with an error although the repository is in order and
the other run ends well; and when a run was interrupted while writing: up to an hour later the next ends with an error. -/
theorem C146_violated_early :
    (∃ t : DbShared Str, SharedRun letterCode (fun _ => none) (fun _ => True) (Honest letterCode (· = s%"ab")) noDbFile t ∧
      t.pcs 0 = .got (s%"ab") ∧ t.pcs 1 = .failed) ∧
    ∃ t : DbShared Str, SharedRun letterCode (fun _ => none) (fun _ => True) (Honest letterCode (· = s%"ab")) noDbFile t ∧
      t.pcs 0 = .dead ∧ t.pcs 1 = .failed := by
  constructor
  · cases h : dbSteps noDbFile earlySteps with
    | none => exact absurd h (by decide +kernel)
    | some t =>
      refine ⟨t, dbSteps_run earlySteps _ _ _ ?_ (.refl trivial) h, ?_⟩
      · intro x hx
        simp only [earlySteps, List.mem_cons, List.not_mem_nil, or_false] at hx
        rcases hx with rfl | rfl | rfl | rfl | rfl | rfl | rfl | rfl
        case inr.inl => exact ⟨rfl, 'a', 'b', by decide, rfl, rfl⟩
        all_goals trivial
      · cases h; exact ⟨rfl, rfl⟩
  · cases h : dbSteps noDbFile cutSteps with
    | none => exact absurd h (by decide +kernel)
    | some t =>
      refine ⟨t, dbSteps_run cutSteps _ _ _ ?_ (.refl trivial) h, ?_⟩
      · intro x hx
        simp only [cutSteps, List.mem_cons, List.not_mem_nil, or_false] at hx
        rcases hx with rfl | rfl | rfl | rfl | rfl | rfl | rfl | rfl | rfl
        case inr.inl => exact ⟨rfl, 'a', 'b', by decide, rfl, rfl⟩
        all_goals trivial
      · cases h; exact ⟨rfl, rfl⟩

/-- Non-vacuity of `C146_never_a_part_partial`: run 1 reads the file that an earlier run left complete while run 0 (with a shorter age) replaces
it; run 2 then reads the new file. -/
example : ∃ s t : DbShared Str, AllStart s ∧ s.disk.entry = some 0 ∧ letterCode.enc (s.disk.content 0) (s%"ab") ∧
    dbStep letterDec (fun i => if i = 0 then some 10 else none) s 1 (.stat 100) = some t ∧ t.pcs 1 = .opening ∧
    ∃ u : DbShared Str, dbStep letterDec (fun i => if i = 0 then some 10 else none) t 0 (.stat 100) = some u ∧ u.pcs 0 = .removing ∧ OneUpdates u := by
  refine ⟨{ disk := { entry := some 0, content := fun _ => s%"2ba", mtime := fun _ => 0, next := 1 }, pcs := fun _ => .start }, _,
    fun _ => rfl, rfl, ⟨'b', 'a', by decide, rfl, rfl⟩, rfl, rfl, _, rfl, rfl, ?_⟩
  have : ∀ i, Updating (setAt (setAt (fun _ => (.start : DbPc Str)) 1 .opening) 0 .removing i) → i = 0 := by
    intro i h
    refine Classical.byContradiction fun hn => ?_
    rw [setAt_other _ hn] at h
    by_cases h1 : i = 1
    · subst h1; exact h
    · rw [setAt_other _ h1] at h; exact h
  exact fun i j hi hj => (this i hi).trans (this j hj).symm

end Pkgr
