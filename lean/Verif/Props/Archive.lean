/- C69-C71: unpacking tarballs. -/
import Verif.Model.Archive
import Verif.Props.RSettings

namespace Pkgr
open Spec

/-! ### Local names stay inside -/

/-- The stack of the cleaning loop: ordinary names above a number of `..`. -/
def StackForm (stk : List Str) (k : Nat) : Prop :=
  ∃ N : List Str, stk = N ++ List.replicate k (s%"..") ∧ ∀ x ∈ N, x ≠ [] ∧ x ≠ s%"." ∧ x ≠ s%".."

theorem cleanComp_form (stk : List Str) (c : Str) (k : Nat) (h : StackForm stk k) : ∃ k', StackForm (cleanComp false stk c) k' := by
  obtain ⟨N, rfl, hN⟩ := h
  unfold cleanComp
  split
  · exact ⟨k, N, rfl, hN⟩
  · rename_i hc
    simp only [not_or] at hc
    split
    · rename_i hu
      cases N with
      | nil =>
        cases k with
        | zero => simp only [List.replicate, List.append_nil, Bool.false_eq_true, if_false]; exact ⟨1, [], by simp [hu], by simp⟩
        | succ k =>
          simp only [List.nil_append, List.replicate_succ, if_true]
          refine ⟨k + 2, [], ?_, by simp⟩
          rw [hu]
          simp [List.replicate_succ]
      | cons x N =>
        have hx := hN x (by simp)
        simp only [List.cons_append, if_neg hx.2.2]
        exact ⟨k, N, rfl, fun y hy => hN y (by simp [hy])⟩
    · rename_i hu
      refine ⟨k, c :: N, rfl, ?_⟩
      intro x hx
      rcases List.mem_cons.1 hx with e | hx
      · subst e; exact ⟨hc.1, hc.2, hu⟩
      · exact hN x hx

theorem cleanFold_form (cs : List Str) (stk : List Str) (k : Nat) (h : StackForm stk k) :
    ∃ k', StackForm (cs.foldl (cleanComp false) stk) k' := by
  induction cs generalizing stk k with
  | nil => exact ⟨k, h⟩
  | cons c cs ih =>
    obtain ⟨k', h'⟩ := cleanComp_form stk c k h
    exact ih _ k' h'

theorem joinFold_names (P : List Str) (N : List Str) (h : ∀ x ∈ N, x ≠ s%"..") : P <+: N.foldl joinComp P := by
  induction N generalizing P with
  | nil => exact List.prefix_refl _
  | cons x N ih =>
    rw [List.foldl_cons]
    refine List.IsPrefix.trans ?_ (ih _ fun y hy => h y (by simp [hy]))
    unfold joinComp
    split
    · exact List.prefix_refl _
    · rw [if_neg (h x (by simp))]; exact List.prefix_append _ _

theorem isLocal_inside (root : Path) (name : Str) (h : isLocal name = true) :
    name.head? ≠ some '/' ∧ root <+: joinPath root name := by
  unfold isLocal at h
  split at h
  · simp at h
  rename_i hn
  simp only [not_or] at hn
  refine ⟨hn.2, ?_⟩
  unfold joinPath
  dsimp only at h
  split at h
  · obtain ⟨k, hk⟩ := cleanFold_form (splitOn '/' name) [] 0 ⟨[], by simp, by simp⟩
    have hkey := cleanFold_spec false root (by simp) (splitOn '/' name) [] (by simp)
    simp only [List.reverse_nil, List.foldl_nil] at hkey
    rw [← hkey]
    obtain ⟨N, hN, hall⟩ := hk
    cases k with
    | zero =>
      rw [hN]
      apply joinFold_names
      intro x hx
      have hx' : x ∈ N := by simpa using hx
      exact (hall x hx').2.2
    | succ k =>
      exfalso
      have hd : decide (name.head? = some '/') = false := by simpa using hn.2
      have hclean : cleanPath name = joinWith '/' ((s%"..") :: (List.replicate k (s%"..") ++ N.reverse)) := by
        unfold cleanPath
        dsimp only
        have hrev : (N ++ List.replicate (k + 1) (s%"..")).reverse = (s%"..") :: (List.replicate k (s%"..") ++ N.reverse) := by
          rw [List.reverse_append, List.reverse_replicate, List.replicate_succ, List.cons_append]
        rw [hd, hN, hrev]
        simp only [Bool.false_eq_true, if_false]
        split
        · rename_i hb
          cases hl : List.replicate k (s%"..") ++ N.reverse <;> rw [hl] at hb <;> simp [joinWith] at hb
        · rfl
      rw [hclean] at h
      cases hl : List.replicate k (s%"..") ++ N.reverse with
      | nil => rw [hl] at h; simp [joinWith] at h
      | cons b l =>
        rw [hl] at h
        have : hasPrefix (joinWith '/' ((s%"..") :: b :: l)) (s%"../") = true := by
          rw [joinWith, hasPrefix_iff]
          exact ⟨joinWith '/' (b :: l), by simp⟩
        rw [this] at h
        simp at h
  · rename_i hno
    apply joinFold_names
    intro x hx e
    apply hno
    rw [List.any_eq_true]
    exact ⟨x, hx, by simp [e]⟩

/-! ### One entry -/

theorem mkdirAll_keeps (fs : Fs) (p q : Path) (n : Node) (h : fs q = some n) : (fs.mkdirAll p) q = some n := by
  unfold Fs.mkdirAll
  simp [h]

theorem mkdirAll_outside (fs : Fs) (dir p q : Path) (hp : dir <+: p) (hd : ∀ r, r <+: dir → fs r ≠ none) (hq : ¬ dir <+: q) :
    (fs.mkdirAll p) q = fs q := by
  unfold Fs.mkdirAll
  split
  · rename_i h
    exfalso
    rcases List.prefix_or_prefix_of_prefix h.1 hp with h' | h'
    · exact hd q h' h.2
    · exact hq h'
  · rfl

/-- One entry: nothing outside changes, existing nodes stay as they are. -/
theorem extractFile_spec (root : Path) (fs : Fs) (e : Entry) (io : IoEnd) (hroot : ∀ r, r <+: root → fs r ≠ none) :
    (∀ q, ¬ root <+: q → (extractFile root fs e io).1 q = fs q) ∧
    (∀ q n, fs q = some n → (extractFile root fs e io).1 q = some n) := by
  unfold extractFile
  split
  · rename_i hl
    have hin := (isLocal_inside root e.name hl).2
    split
    · dsimp only
      split
      · exact ⟨fun q hq => mkdirAll_outside fs root _ q hin hroot hq, fun q n h => mkdirAll_keeps _ _ _ _ h⟩
      · exact ⟨fun _ _ => rfl, fun _ _ h => h⟩
    · rename_i content hk
      dsimp only
      split
      · -- the parent is made, then the file is written
        have hw : ∀ (fs1 : Fs) (t : Path), (∀ q, (writeNew fs1 t content io).1 q = fs1 q ∨ (q = t ∧ fs1 t = none)) := by
          intro fs1 t q
          unfold writeNew
          have hset : ∀ w : Str, fs1.ex t = false → ((fs1.set t (.file w)) q = fs1 q ∨ (q = t ∧ fs1 t = none)) := by
            intro w hex
            unfold Fs.set
            split
            · rename_i he
              right
              refine ⟨he, ?_⟩
              unfold Fs.ex at hex
              simpa using hex
            · exact Or.inl rfl
          split
          · exact Or.inl rfl
          · split
            · exact Or.inl rfl
            · rename_i h; exact hset _ (by simpa using h)
          · split
            · exact Or.inl rfl
            · rename_i h; exact hset _ (by simpa using h)
        have hmk : ∀ q, ¬ root <+: q → (fs.mkdirAll (dirPath (joinPath root e.name))) q = fs q := by
          intro q hq
          unfold Fs.mkdirAll
          split
          · rename_i h
            exfalso
            have h1 : q <+: joinPath root e.name := h.1.trans (List.dropLast_prefix _)
            rcases List.prefix_or_prefix_of_prefix h1 hin with h' | h'
            · exact hroot q h' h.2
            · exact hq h'
          · rfl
        refine ⟨?_, ?_⟩
        · intro q hq
          rcases hw (fs.mkdirAll (dirPath (joinPath root e.name))) (joinPath root e.name) q with h | ⟨h, _⟩
          · rw [h, hmk q hq]
          · exact absurd (h ▸ hin) hq
        · intro q n hn
          have h1 := mkdirAll_keeps fs (dirPath (joinPath root e.name)) q n hn
          rcases hw (fs.mkdirAll (dirPath (joinPath root e.name))) (joinPath root e.name) q with h | ⟨h, h'⟩
          · rw [h, h1]
          · rw [h] at h1; rw [h1] at h'; simp at h'
      · exact ⟨fun _ _ => rfl, fun _ _ h => h⟩
    · exact ⟨fun _ _ => rfl, fun _ _ h => h⟩
  · exact ⟨fun _ _ => rfl, fun _ _ h => h⟩

/-- Files after one entry: old ones, or the one of the entry. -/
theorem extractFile_files (root : Path) (fs : Fs) (e : Entry) (io : IoEnd) (q : Path) (c : Str)
    (h : (extractFile root fs e io).1 q = some (.file c)) (hok : (extractFile root fs e io).2 = true) :
    fs q = some (.file c) ∨ (e.kind = .regular c ∧ q = joinPath root e.name ∧ isLocal e.name = true) := by
  have hmk : ∀ p : Path, (fs.mkdirAll p) q = some (.file c) → fs q = some (.file c) := by
    intro p h
    unfold Fs.mkdirAll at h
    split at h
    · simp at h
    · exact h
  unfold extractFile at h hok
  split at h
  · rename_i hl
    rw [if_pos hl] at hok
    split at h
    · dsimp only at h
      split at h
      · exact Or.inl (hmk _ h)
      · exact Or.inl h
    · rename_i content hk
      rw [hk] at hok
      dsimp only at h hok
      split at h
      · rename_i hmok
        rw [if_pos hmok] at hok
        unfold writeNew at h hok
        split at h
        · simp at hok
        · split at h <;> rename_i hex
          · simp [hex] at hok
          · simp [hex] at hok
        · split at h
          · exact Or.inl (hmk _ h)
          · unfold Fs.set at h
            dsimp only at h
            split at h
            · rename_i hq
              simp only [Option.some.injEq, Node.file.injEq] at h
              subst h
              exact Or.inr ⟨hk, hq, hl⟩
            · exact Or.inl (hmk _ h)
      · exact Or.inl h
    · exact Or.inl h
  · exact Or.inl h

/-- After a successful entry its node is there. -/
theorem extractFile_there (root : Path) (fs : Fs) (e : Entry) (io : IoEnd) (hok : (extractFile root fs e io).2 = true) :
    isLocal e.name = true ∧
    ((e.kind = .dir ∧ (extractFile root fs e io).1 (joinPath root e.name) = some .dir) ∨
      ∃ c, e.kind = .regular c ∧ (extractFile root fs e io).1 (joinPath root e.name) = some (.file c)) := by
  unfold extractFile at hok ⊢
  split at hok
  · rename_i hl
    refine ⟨hl, ?_⟩
    simp only [hl, if_true]
    split at hok
    · rename_i hk
      left
      refine ⟨hk, ?_⟩
      dsimp only at hok
      split at hok
      · rename_i hm
        rw [if_pos hm]
        dsimp only
        unfold Fs.mkdirAllOk at hm
        rw [List.all_eq_true] at hm
        have := hm (joinPath root e.name).length (by simp)
        rw [List.take_length] at this
        unfold Fs.mkdirAll
        cases hn : fs (joinPath root e.name) with
        | none => simp
        | some n =>
          rw [hn] at this
          cases n with
          | dir => simp
          | file c => simp at this
      · simp at hok
    · rename_i c hk
      right
      refine ⟨c, hk, ?_⟩
      dsimp only at hok
      split at hok
      · rename_i hm
        rw [if_pos hm]
        unfold writeNew at hok ⊢
        split at hok
        · simp at hok
        · split at hok <;> simp at hok
        · split at hok
          · simp at hok
          · rename_i hex
            rw [if_neg hex]
            unfold Fs.set
            simp
      · simp at hok
    · simp at hok
  · simp at hok

/-! ### All entries -/

theorem extractLoop_states (root : Path) (readOk : Bool) (es : List (Entry × IoEnd)) (fs : Fs) (past : List Fs)
    (hroot : ∀ r, r <+: root → fs r ≠ none) :
    ∃ new : List Fs, (extractLoop root readOk fs es past).1 = new ++ past ∧ new ≠ [] ∧
      ∀ s ∈ new, (∀ q, ¬ root <+: q → s q = fs q) ∧ ∀ q n, fs q = some n → s q = some n := by
  induction es generalizing fs past with
  | nil => exact ⟨[fs], rfl, by simp, by simp⟩
  | cons e es ih =>
    obtain ⟨e, io⟩ := e
    have hspec := extractFile_spec root fs e io hroot
    rw [extractLoop]
    cases h : extractFile root fs e io with
    | mk fs' ok =>
      rw [h] at hspec
      dsimp only at hspec
      cases ok with
      | true =>
        obtain ⟨new, h1, h2, h3⟩ := ih fs' (fs :: past) (by
          intro r hr
          cases hn : fs r with
          | none => exact absurd hn (hroot r hr)
          | some n => rw [hspec.2 r n hn]; simp)
        refine ⟨new ++ [fs], ?_, by simp, ?_⟩
        · dsimp only; rw [h1]; simp
        · intro s hs
          rcases List.mem_append.1 hs with hs | hs
          · have := h3 s hs
            refine ⟨fun q hq => (this.1 q hq).trans (hspec.1 q hq), fun q n hn => this.2 q n (hspec.2 q n hn)⟩
          · simp only [List.mem_singleton] at hs
            subst hs
            exact ⟨fun _ _ => rfl, fun _ _ h => h⟩
      | false =>
        refine ⟨[fs', fs], rfl, by simp, ?_⟩
        intro s hs
        simp only [List.mem_cons, List.not_mem_nil, or_false] at hs
        rcases hs with rfl | rfl
        · exact hspec
        · exact ⟨fun _ _ => rfl, fun _ _ h => h⟩

/-- After clearing and making the destination: only the destination and its missing parents are new. -/
theorem cleared_spec (fs : Fs) (dir : Path) :
    (∀ r, r <+: dir → ((fs.removeAll dir).mkdirAll dir) r ≠ none) ∧
    (∀ q, ¬ dir <+: q → ((fs.removeAll dir).mkdirAll dir) q = fs q ∨
      (q <+: dir ∧ fs q = none ∧ ((fs.removeAll dir).mkdirAll dir) q = some .dir)) ∧
    (∀ q c, dir <+: q → ((fs.removeAll dir).mkdirAll dir) q ≠ some (.file c)) := by
  unfold Fs.mkdirAll Fs.removeAll
  refine ⟨?_, ?_, ?_⟩
  · intro r hr
    by_cases hd : dir <+: r
    · simp [hr, hd]
    · cases hn : fs r with
      | none => simp [hr, hd]
      | some n => simp [hd]
  · intro q hq
    simp only [if_neg hq]
    by_cases h : q <+: dir ∧ fs q = none
    · right; exact ⟨h.1, h.2, by simp [h.1, h.2]⟩
    · left; simp [h]
  · intro q c hq
    simp only [if_pos hq]
    by_cases h : q <+: dir
    · simp [h]
    · simp [h]

/-- C69. Whatever the archive contains, and wherever the extraction fails or is interrupted: outside the destination
nothing changes, except that missing parent directories of the destination may have been made. -/
theorem C69_confined (fs : Fs) (dir : Path) (entries : List (Entry × IoEnd)) (readOk : Bool) :
    ∀ s ∈ (extract fs dir entries readOk).1, ∀ q, ¬ dir <+: q →
      s q = fs q ∨ (q <+: dir ∧ fs q = none ∧ s q = some .dir) := by
  intro s hs q hq
  unfold extract at hs
  have hc := cleared_spec fs dir
  obtain ⟨new, h1, _, h3⟩ := extractLoop_states dir readOk entries ((fs.removeAll dir).mkdirAll dir) [fs.removeAll dir, fs] hc.1
  rw [h1] at hs
  rcases List.mem_append.1 hs with hs | hs
  · rw [(h3 s hs).1 q hq]
    exact hc.2.1 q hq
  · simp only [List.mem_cons, List.not_mem_nil, or_false] at hs
    left
    rcases hs with rfl | rfl
    · unfold Fs.removeAll; simp [hq]
    · rfl

/-- C69. Extracting never overwrites: an entry leaves every file (and directory) that is there as it is, also when two
entries have the same name. -/
theorem C69_no_overwrite (root : Path) (fs : Fs) (e : Entry) (io : IoEnd) (hroot : ∀ r, r <+: root → fs r ≠ none) :
    ∀ q n, fs q = some n → (extractFile root fs e io).1 q = some n := (extractFile_spec root fs e io hroot).2

/-- C69. An archive with an entry that leads outside the destination, or is neither a file nor a directory (such as a
link), is refused. -/
theorem C69_refused (fs : Fs) (dir : Path) (entries : List (Entry × IoEnd)) (readOk : Bool) (e : Entry) (io : IoEnd)
    (he : (e, io) ∈ entries) (hbad : e.kind = .other ∨ e.name.head? = some '/' ∨ ∃ p, Leads dir e.name p ∧ ¬ dir <+: p) :
    (extract fs dir entries readOk).2 = false := by
  have hfail : ∀ fs : Fs, (extractFile dir fs e io).2 = false := by
    intro fs
    cases h : (extractFile dir fs e io).2 with
    | false => rfl
    | true =>
      exfalso
      obtain ⟨hl, hk⟩ := extractFile_there dir fs e io h
      have hin := isLocal_inside dir e.name hl
      rcases hbad with hb | hb | ⟨p, hp, hnp⟩
      · rcases hk with ⟨hk, _⟩ | ⟨c, hk, _⟩ <;> rw [hb] at hk <;> simp at hk
      · exact hin.1 hb
      · rw [leads_iff, if_neg hin.1] at hp
        apply hnp
        rw [← hp]
        exact hin.2
  have key : ∀ (fs0 : Fs) (past : List Fs), (extractLoop dir readOk fs0 entries past).2 = false := by
    clear hbad
    induction entries with
    | nil => simp at he
    | cons x xs ih =>
    intro fs0 past
    obtain ⟨e', io'⟩ := x
    rw [extractLoop]
    cases hx : extractFile dir fs0 e' io' with
    | mk fs' ok =>
      cases ok with
      | false => rfl
      | true =>
        rcases List.mem_cons.1 he with h | h
        · simp only [Prod.mk.injEq] at h
          rw [← h.1, ← h.2] at hx
          have := hfail fs0
          rw [hx] at this
          simp at this
        · exact ih h _ _
  exact key _ _

/-! ### C70 -/

theorem extractLoop_ok (root : Path) (readOk : Bool) (es : List (Entry × IoEnd)) (fs : Fs) (past : List Fs)
    (hroot : ∀ r, r <+: root → fs r ≠ none) (hok : (extractLoop root readOk fs es past).2 = true) :
    ∃ s rest, (extractLoop root readOk fs es past).1 = s :: rest ∧
      (∀ q n, fs q = some n → s q = some n) ∧
      (∀ e io, (e, io) ∈ es → isLocal e.name = true ∧ ((e.kind = .dir ∧ s (joinPath root e.name) = some .dir) ∨
        ∃ c, e.kind = .regular c ∧ s (joinPath root e.name) = some (.file c))) ∧
      (∀ q c, s q = some (.file c) → fs q = some (.file c) ∨
        ∃ e io, (e, io) ∈ es ∧ e.kind = .regular c ∧ q = joinPath root e.name ∧ isLocal e.name = true) := by
  induction es generalizing fs past with
  | nil => exact ⟨fs, past, rfl, fun _ _ h => h, by simp, fun _ _ h => Or.inl h⟩
  | cons x es ih =>
    obtain ⟨e, io⟩ := x
    have hspec := extractFile_spec root fs e io hroot
    have hthere := extractFile_there root fs e io
    have hfiles := extractFile_files root fs e io
    rw [extractLoop] at hok ⊢
    cases h : extractFile root fs e io with
    | mk fs' ok =>
      rw [h] at hspec hok hthere hfiles
      cases ok with
      | false => simp at hok
      | true =>
        dsimp only at hok hspec hthere hfiles ⊢
        have hroot' : ∀ r, r <+: root → fs' r ≠ none := by
          intro r hr
          cases hn : fs r with
          | none => exact absurd hn (hroot r hr)
          | some n => rw [hspec.2 r n hn]; simp
        obtain ⟨s, rest, h1, h2, h3, h4⟩ := ih fs' (fs :: past) hroot' hok
        refine ⟨s, rest, h1, fun q n hn => h2 q n (hspec.2 q n hn), ?_, ?_⟩
        · intro e' io' hmem
          rcases List.mem_cons.1 hmem with heq | hmem
          · simp only [Prod.mk.injEq] at heq
            rw [heq.1]
            obtain ⟨hl, hk⟩ := hthere rfl
            refine ⟨hl, ?_⟩
            rcases hk with ⟨hk, hn⟩ | ⟨c, hk, hn⟩
            · exact Or.inl ⟨hk, h2 _ _ hn⟩
            · exact Or.inr ⟨c, hk, h2 _ _ hn⟩
          · exact h3 e' io' hmem
        · intro q c hq
          rcases h4 q c hq with hq' | ⟨e', io', hmem, hk⟩
          · rcases hfiles q c hq' rfl with h5 | h5
            · exact Or.inl h5
            · exact Or.inr ⟨e, io, by simp, h5⟩
          · exact Or.inr ⟨e', io', by simp [hmem], hk⟩

/-- C70. If the extraction succeeds, every regular file of the archive is at its place with its content, every directory
is there, and there is no file in the destination that is not in the archive. -/
theorem C70_exact (fs : Fs) (dir : Path) (entries : List (Entry × IoEnd)) (readOk : Bool)
    (hok : (extract fs dir entries readOk).2 = true) :
    ∃ s rest, (extract fs dir entries readOk).1 = s :: rest ∧ readOk = true ∧
      (∀ e io c, (e, io) ∈ entries → e.kind = .regular c → ∃ p, Leads dir e.name p ∧ dir <+: p ∧ s p = some (.file c)) ∧
      (∀ e io, (e, io) ∈ entries → e.kind = .dir → ∃ p, Leads dir e.name p ∧ dir <+: p ∧ s p = some .dir) ∧
      (∀ q c, dir <+: q → s q = some (.file c) → ∃ e io, (e, io) ∈ entries ∧ e.kind = .regular c ∧ Leads dir e.name q) := by
  have hc := cleared_spec fs dir
  have hro : readOk = true := by
    unfold extract at hok
    have : ∀ (es : List (Entry × IoEnd)) (fs : Fs) (past : List Fs), (extractLoop dir readOk fs es past).2 = true → readOk = true := by
      intro es
      induction es with
      | nil => intro fs past h; exact h
      | cons x es ih =>
        intro fs past h
        obtain ⟨e, io⟩ := x
        rw [extractLoop] at h
        split at h
        · exact ih _ _ h
        · simp at h
    exact this _ _ _ hok
  unfold extract at hok ⊢
  obtain ⟨s, rest, h1, _, h3, h4⟩ := extractLoop_ok dir readOk entries _ _ hc.1 hok
  refine ⟨s, rest, h1, hro, ?_, ?_, ?_⟩
  · intro e io c he hk
    obtain ⟨hl, h⟩ := h3 e io he
    have hin := isLocal_inside dir e.name hl
    refine ⟨joinPath dir e.name, ?_, hin.2, ?_⟩
    · rw [leads_iff, if_neg hin.1]; rfl
    · rcases h with ⟨h, _⟩ | ⟨c', h, hs⟩
      · rw [hk] at h; simp at h
      · rw [hk] at h
        simp only [EntryKind.regular.injEq] at h
        rw [h]; exact hs
  · intro e io he hk
    obtain ⟨hl, h⟩ := h3 e io he
    have hin := isLocal_inside dir e.name hl
    refine ⟨joinPath dir e.name, ?_, hin.2, ?_⟩
    · rw [leads_iff, if_neg hin.1]; rfl
    · rcases h with ⟨_, h⟩ | ⟨c', h, hs⟩
      · exact h
      · rw [hk] at h; simp at h
  · intro q c hq hs
    rcases h4 q c hs with h | ⟨e, io, he, hk, hq', hl⟩
    · exact absurd h (hc.2.2 q c hq)
    · refine ⟨e, io, he, hk, ?_⟩
      have hin := isLocal_inside dir e.name hl
      rw [leads_iff, if_neg hin.1, hq']
      rfl

/-- A file system with only the cache directory. -/
def toyCacheFs : Fs := fun q => if q = [] ∨ q = [s%"cache"] then some .dir else none

/-- A small package. -/
def toyEntries : List (Entry × IoEnd) :=
  [(⟨s%"R6/DESCRIPTION", .regular (s%"Package: R6")⟩, .ok), (⟨s%"R6/R", .dir⟩, .ok), (⟨s%"R6/R/a.R", .regular (s%"1")⟩, .ok)]

example : (extract toyCacheFs [s%"cache", s%"abc"] toyEntries true).2 = true := by decide
example : (extract toyCacheFs [s%"cache", s%"abc"] (toyEntries ++ [(⟨s%"R6/../../x", .regular []⟩, .ok)]) true).2 = false :=
  C69_refused _ _ _ _ _ _ (List.mem_append_right _ (List.mem_singleton.2 rfl))
    (Or.inr (Or.inr ⟨[s%"cache", s%"x"], (leads_iff _ _ _).2 (by decide), by decide⟩))

/-! ### C71 -/

/-- C71 fails: when writing a file fails (or the run is killed) during the extraction, the next run of the same tarball
finds the directory and uses it, with what is missing still missing. -/
theorem C71_violated : ∃ (digest : Str → Str) (names : List Str) (fs : Fs) (cache : Path) (bad good : Tarball),
    bad.bytes = good.bytes ∧ bad.entries.map Prod.fst = good.entries.map Prod.fst ∧
    (untar digest names fs cache bad).2 = .fatal ∧
    (let fs' := lastState fs (untar digest names fs cache bad).1
     untar digest names fs' cache good = ([fs'], .folder (cache ++ [digest good.bytes, s%"R6"])) ∧
     fs' (cache ++ [digest good.bytes, s%"R6", s%"R", s%"a.R"]) = some (.file [])) ∧
    (untar digest names fs cache good).2 = .folder (cache ++ [digest good.bytes, s%"R6"]) := by
  refine ⟨fun _ => s%"abc", [s%"R6"], toyCacheFs, [s%"cache"],
    ⟨s%"tgz", [(⟨s%"R6/DESCRIPTION", .regular (s%"Package: R6")⟩, .ok), (⟨s%"R6/R", .dir⟩, .ok), (⟨s%"R6/R/a.R", .regular (s%"1")⟩, .copyFails [])], true⟩,
    ⟨s%"tgz", toyEntries, true⟩, rfl, by decide, by decide, ⟨?_, by decide⟩, by decide⟩
  rw [untar]
  dsimp only
  rw [if_pos (by decide)]
  congr 1

/-- C71 fails in the same way for an interrupted extraction: already the state after the destination was made is taken
for a finished extraction. -/
theorem C71_violated_interrupted : ∃ (digest : Str → Str) (names : List Str) (fs s : Fs) (cache : Path) (t : Tarball),
    s ∈ (untar digest names fs cache t).1 ∧ (untar digest names fs cache t).2 = .folder (cache ++ [digest t.bytes, s%"R6"]) ∧
    (untar digest names s cache t).1 = [s] ∧ (untar digest names s cache t).2 = .folder (cache ++ [digest t.bytes, s%"R6"]) ∧
    s (cache ++ [digest t.bytes, s%"R6", s%"R", s%"a.R"]) = none := by
  refine ⟨fun _ => s%"abc", [s%"R6"], toyCacheFs, ((untar (fun _ => s%"abc") [s%"R6"] toyCacheFs [s%"cache"] ⟨s%"tgz", toyEntries, true⟩).1)[1],
    [s%"cache"], ⟨s%"tgz", toyEntries, true⟩, List.getElem_mem (by decide), by decide, ?_, by decide, by decide⟩
  rw [untar]
  dsimp only
  rw [if_pos (by decide)]

/-- C71 (partial). A run that does not find the directory either ends with an error or with a complete extraction, and
the next run, if nothing else has changed, uses the same folder and changes nothing. -/
theorem C71_complete_partial (digest : Str → Str) (names : List Str) (fs : Fs) (cache : Path) (t : Tarball)
    (hnew : fs.isDir (cache ++ [digest t.bytes]) = false) (p : Path) (hp : (untar digest names fs cache t).2 = .folder p) :
    let fs' := lastState fs (untar digest names fs cache t).1
    (∀ e io c, (e, io) ∈ t.entries → e.kind = .regular c → ∃ q, Leads (cache ++ [digest t.bytes]) e.name q ∧
      (cache ++ [digest t.bytes]) <+: q ∧ fs' q = some (.file c)) ∧
    untar digest names fs' cache t = ([fs'], .folder p) := by
  intro fs'
  have hun : untar digest names fs cache t = match extract fs (cache ++ [digest t.bytes]) t.entries t.readOk with
      | (l, false) => (l, .fatal)
      | (l, true) => (l, pickFolder names (lastState fs l) (cache ++ [digest t.bytes])) := by
    unfold untar
    dsimp only
    rw [hnew]
    simp only [Bool.false_eq_true, if_false]
    rfl
  cases hex : extract fs (cache ++ [digest t.bytes]) t.entries t.readOk with
  | mk l ok =>
    rw [hex] at hun
    cases ok with
    | false => rw [hun] at hp; simp at hp
    | true =>
      dsimp only at hun
      have hok : (extract fs (cache ++ [digest t.bytes]) t.entries t.readOk).2 = true := by rw [hex]
      obtain ⟨s, rest, h1, _, h3, _, _⟩ := C70_exact fs _ t.entries t.readOk hok
      rw [hex] at h1
      dsimp only at h1
      have hfs' : fs' = s := by
        show lastState fs (untar digest names fs cache t).1 = s
        rw [hun, h1]
        rfl
      have hdir : fs'.isDir (cache ++ [digest t.bytes]) = true := by
        have hc := cleared_spec fs (cache ++ [digest t.bytes])
        obtain ⟨s', rest', e1, e2, _, _⟩ := extractLoop_ok _ t.readOk t.entries _ [fs.removeAll (cache ++ [digest t.bytes]), fs] hc.1
          (by unfold extract at hok; exact hok)
        have : s' = s := by
          have : (extract fs (cache ++ [digest t.bytes]) t.entries t.readOk).1 = s' :: rest' := e1
          rw [hex, h1] at this
          simp only [List.cons.injEq] at this
          exact this.1.symm
        rw [hfs', ← this]
        unfold Fs.isDir
        rw [decide_eq_true_eq]
        apply e2
        have hne := hc.1 (cache ++ [digest t.bytes]) (List.prefix_refl _)
        have hnf := hc.2.2 (cache ++ [digest t.bytes])
        cases hn : ((fs.removeAll (cache ++ [digest t.bytes])).mkdirAll (cache ++ [digest t.bytes])) (cache ++ [digest t.bytes]) with
        | none => exact absurd hn hne
        | some n =>
          cases n with
          | dir => rfl
          | file c => exact absurd hn (hnf c (List.prefix_refl _))
      refine ⟨?_, ?_⟩
      · intro e io c he hk
        obtain ⟨q, hq1, hq2, hq3⟩ := h3 e io c he hk
        exact ⟨q, hq1, hq2, by rw [hfs']; exact hq3⟩
      · rw [hun] at hp
        dsimp only at hp
        rw [h1] at hp
        have hp' : pickFolder names fs' (cache ++ [digest t.bytes]) = .folder p := by rw [hfs']; exact hp
        generalize fs' = f at hdir hp'
        unfold untar
        dsimp only
        rw [if_pos hdir, hp']

example : (untar (fun _ => s%"abc") [s%"R6"] toyCacheFs [s%"cache"] ⟨s%"tgz", toyEntries, true⟩).2 = .folder [s%"cache", s%"abc", s%"R6"] ∧
    toyCacheFs.isDir [s%"cache", s%"abc"] = false := by decide

/-- C71: the folder that is used, whether it was there before or has just been unpacked, is a directory directly in the
directory of the tarball (named after its digest), and the first such directory in the order of listings. -/
theorem C71_folder (digest : Str → Str) (names : List Str) (fs : Fs) (cache : Path) (t : Tarball) (p : Path)
    (hp : (untar digest names fs cache t).2 = .folder p) :
    let fs' := lastState fs (untar digest names fs cache t).1
    ∃ a n b, names = a ++ n :: b ∧ p = cache ++ [digest t.bytes, n] ∧ fs' p = some .dir ∧
      ∀ m ∈ a, fs' (cache ++ [digest t.bytes, m]) ≠ some .dir := by
  have key : ∀ (g : Fs), pickFolder names g (cache ++ [digest t.bytes]) = .folder p →
      ∃ a n b, names = a ++ n :: b ∧ p = cache ++ [digest t.bytes, n] ∧ g p = some .dir ∧
      ∀ m ∈ a, g (cache ++ [digest t.bytes, m]) ≠ some .dir := by
    intro g hg
    unfold pickFolder at hg
    split at hg
    · simp at hg
    · rename_i n r hr
      simp only [UntarEnd.folder.injEq] at hg
      unfold Fs.ls at hr
      rw [List.filter_filter] at hr
      obtain ⟨a, b, e, hna, hpn, -⟩ := List.filter_eq_cons_iff.1 hr
      have hdir : ∀ q : Path, g.isDir q = true ↔ g q = some .dir := by
        intro q
        unfold Fs.isDir
        cases hq : g q with
        | none => simp
        | some x => cases x <;> simp
      refine ⟨a, n, b, e, by rw [← hg]; simp, ?_, ?_⟩
      · rw [← hg, ← hdir]
        rw [Bool.and_eq_true] at hpn
        exact hpn.1
      · intro m hm hd
        have hd' : g (cache ++ [digest t.bytes] ++ [m]) = some .dir := by simpa using hd
        refine hna m hm ?_
        rw [Bool.and_eq_true, hdir]
        refine ⟨hd', ?_⟩
        unfold Fs.ex
        rw [hd']
        rfl
  unfold untar at hp ⊢
  dsimp only at hp ⊢
  split at hp
  · rename_i h
    rw [if_pos h]
    exact key fs hp
  · rename_i h
    rw [if_neg h]
    split at hp
    · simp at hp
    · exact key _ hp

/-- Non-vacuity of `C71_folder`: a file before the directory in the listing is passed over. -/
example : (untar (fun _ => s%"abc") [s%"A", s%"R6", s%"Z"] (((toyCacheFs.set [s%"cache", s%"abc"] .dir).set [s%"cache", s%"abc", s%"A"] (.file [])).set
      [s%"cache", s%"abc", s%"R6"] .dir) [s%"cache"] ⟨s%"tgz", toyEntries, true⟩).2 = .folder [s%"cache", s%"abc", s%"R6"] := by decide

end Pkgr
