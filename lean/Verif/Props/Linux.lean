/- C104, C105: the Linux distribution. -/
import Verif.Spec.Linux
import Verif.Props.Settings

namespace Pkgr
open Spec

theorem eqSplit_newline (r : Str) : eqSplit ('\n' :: r) = none := by
  cases r <;> simp [eqSplit]

theorem eqSplit_skip {c : Char} {r : Str} (h1 : c ≠ '\n') (h2 : c ≠ '=' ∨ r.head? = some '"') (hr : r ≠ []) :
    eqSplit (c :: r) = (eqSplit r).map fun p => (c :: p.1, p.2) := by
  obtain ⟨d, r, rfl⟩ := List.exists_cons_of_ne_nil hr
  rw [eqSplit, if_neg h1, if_neg]
  rintro ⟨rfl, hd⟩
  rcases h2 with h2 | h2
  · exact h2 rfl
  · cases h2; exact hd rfl

theorem eqSplit_prefix {k r : Str} (hk : ∀ c ∈ k, c ≠ '\n' ∧ c ≠ '=') (hr : r ≠ []) :
    eqSplit (k ++ r) = (eqSplit r).map fun p => (k ++ p.1, p.2) := by
  induction k with
  | nil => simp
  | cons c k ih =>
    have hc := hk c List.mem_cons_self
    rw [List.cons_append, eqSplit_skip hc.1 (.inl hc.2) (by simp [hr]), ih fun x hx => hk x (List.mem_cons_of_mem _ hx), Option.map_map]
    rfl

/-- The line with quotes. -/
def quotedLine (e : OsEntry) : Str := e.key ++ '=' :: '"' :: (e.value ++ ['"'])

theorem key_chars {e : OsEntry} (h : e.Usual) : ∀ c ∈ e.key, c ≠ '\n' ∧ c ≠ '=' ∧ isKeyChar c = true := by
  intro c hc
  have h1 := h.2.1 c hc
  have hk : isKeyChar c = true := by
    simp only [char_le_iff] at h1
    simp only [isKeyChar, Bool.or_eq_true, Bool.and_eq_true, decide_eq_true_eq]
    rcases h1 with h | h | h | h | h
    · exact .inl (.inl (.inl (.inl h)))
    · exact .inl (.inl (.inl (.inr h)))
    · exact .inl (.inl (.inr h))
    · exact .inl (.inr h)
    · exact .inr h
  refine ⟨?_, ?_, hk⟩
  · rintro rfl; revert hk; decide
  · rintro rfl; revert hk; decide

theorem value_chars {e : OsEntry} (h : e.Usual) : ∀ c ∈ e.value, c ≠ '\n' ∧ isTextChar c = true := by
  intro c hc
  obtain ⟨h1, h2, h3, h4⟩ := h.2.2 c hc
  rw [char_le_iff] at h3
  have h3' : 32 ≤ c.toNat := h3
  refine ⟨?_, ?_⟩
  · rintro rfl; revert h3; decide
  · simp [isTextChar, h1, h2, h3', h4]

theorem quoteLoop_entry {e : OsEntry} (h : e.Usual) (hq : e.quoted = true → '=' ∉ e.value)
    (hu : e.quoted = false → e.value ≠ []) {rest : Str} {k : Nat} (hk : (e.line ++ '\n' :: rest).length < k) :
    ∃ k', rest.length < k' ∧ quoteLoop k (e.line ++ '\n' :: rest) = quotedLine e ++ '\n' :: quoteLoop k' rest := by
  obtain ⟨k, rfl⟩ : ∃ n, k = n + 1 := ⟨k - 1, by omega⟩
  have hkey := key_chars h
  have hval := value_chars h
  have hkey' : ∀ c ∈ e.key, c ≠ '\n' ∧ c ≠ '=' := fun c hc => ⟨(hkey c hc).1, (hkey c hc).2.1⟩
  cases hqd : e.quoted with
  | true =>
    have hline : e.line = e.key ++ '=' :: '"' :: (e.value ++ ['"']) := by simp [OsEntry.line, hqd]
    have hnone : eqSplit (e.line ++ '\n' :: rest) = none := by
      rw [hline, List.append_assoc, eqSplit_prefix hkey' (by simp)]
      have h1 : eqSplit ('=' :: '"' :: (e.value ++ ['"']) ++ '\n' :: rest) = none := by
        rw [List.cons_append, eqSplit_skip (by decide) (.inr rfl) (by simp)]
        rw [List.cons_append, eqSplit_skip (by decide) (.inl (by decide)) (by simp)]
        rw [List.append_assoc, eqSplit_prefix (fun c hc => ⟨(hval c hc).1, by rintro rfl; exact hq hqd hc⟩) (by simp)]
        rw [List.singleton_append, eqSplit_skip (by decide) (.inl (by decide)) (by simp), eqSplit_newline]
        rfl
      rw [h1]; rfl
    have hnl : ∀ c ∈ e.line, (decide (c ≠ '\n')) = true := by
      intro c hc
      rw [decide_eq_true_eq]
      rw [hline] at hc
      simp only [List.mem_append, List.mem_cons, List.not_mem_nil, or_false] at hc
      rcases hc with hc | rfl | rfl | hc | rfl
      · exact (hkey c hc).1
      · decide
      · decide
      · exact (hval c hc).1
      · decide
    have htw : (e.line ++ '\n' :: rest).takeWhile (fun x => decide (x ≠ '\n')) = e.line :=
      takeWhile_append_stop hnl (by intro c hc; cases hc; decide)
    have hdw : (e.line ++ '\n' :: rest).dropWhile (fun x => decide (x ≠ '\n')) = '\n' :: rest := by
      have := List.takeWhile_append_dropWhile (p := fun x => decide (x ≠ '\n')) (l := e.line ++ '\n' :: rest)
      rw [htw] at this
      exact List.append_cancel_left this
    refine ⟨k, by simp at hk; omega, ?_⟩
    rw [quoteLoop, hnone]
    simp only
    rw [hdw, htw]
    simp [hline, quotedLine]
  | false =>
    have hline : e.line = e.key ++ '=' :: e.value := by simp [OsEntry.line, hqd]
    obtain ⟨c, v, hv⟩ := List.exists_cons_of_ne_nil (hu hqd)
    have hcq : c ≠ '"' := (h.2.2 c (by rw [hv]; exact List.mem_cons_self)).1
    have hsome : eqSplit (e.line ++ '\n' :: rest) = some (e.key ++ ['='], c :: (v ++ '\n' :: rest)) := by
      rw [hline, List.append_assoc, eqSplit_prefix hkey' (by simp), hv]
      simp [eqSplit, hcq]
    have hvn : ∀ x ∈ v, (decide (x ≠ '\n')) = true := by
      intro x hx; rw [decide_eq_true_eq]
      exact (hval x (by rw [hv]; exact List.mem_cons_of_mem _ hx)).1
    have htw : (v ++ '\n' :: rest).takeWhile (fun x => decide (x ≠ '\n')) = v :=
      takeWhile_append_stop hvn (by intro c hc; cases hc; decide)
    have hdw : (v ++ '\n' :: rest).dropWhile (fun x => decide (x ≠ '\n')) = '\n' :: rest := by
      have := List.takeWhile_append_dropWhile (p := fun x => decide (x ≠ '\n')) (l := v ++ '\n' :: rest)
      rw [htw] at this
      exact List.append_cancel_left this
    have hlen : 2 + rest.length < k := by
      rw [hline, hv] at hk; simp at hk; omega
    obtain ⟨k, rfl⟩ : ∃ n, k = n + 1 := ⟨k - 1, by omega⟩
    refine ⟨k, by omega, ?_⟩
    rw [quoteLoop, hsome]
    simp only
    rw [htw, hdw, quoteLoop, eqSplit_newline]
    simp [quotedLine, hv]

theorem eqSplit_remark : ∀ (t : Str) (rest : Str), '\n' ∉ t → t.getLast? ≠ some '=' →
    eqSplit (t ++ '\n' :: rest) = none ∨
      ∃ g c v, t = g ++ c :: v ∧ g ≠ [] ∧ eqSplit (t ++ '\n' :: rest) = some (g, c :: (v ++ '\n' :: rest)) := by
  intro t
  induction t with
  | nil => intro rest _ _; exact .inl (eqSplit_newline rest)
  | cons c t ih =>
    intro rest hn hl
    have hc : c ≠ '\n' := fun h => hn (h ▸ List.mem_cons_self)
    have hn' : '\n' ∉ t := fun h => hn (List.mem_cons_of_mem _ h)
    cases t with
    | nil =>
      left
      have hce : c ≠ '=' := by rintro rfl; exact hl rfl
      rw [List.singleton_append, eqSplit_skip hc (.inl hce) (by simp), eqSplit_newline]; rfl
    | cons d t =>
      have hl' : (d :: t).getLast? ≠ some '=' := by rwa [List.getLast?_cons_cons] at hl
      by_cases hm : c = '=' ∧ d ≠ '"'
      · right
        refine ⟨[c], d, t, rfl, by simp, ?_⟩
        rw [List.cons_append, List.cons_append, eqSplit, if_neg hc, if_pos hm]
      · have hskip : eqSplit (c :: (d :: t ++ '\n' :: rest)) = (eqSplit (d :: t ++ '\n' :: rest)).map fun p => (c :: p.1, p.2) := by
          refine eqSplit_skip hc ?_ (by simp)
          by_cases hce : c = '='
          · right
            have : d = '"' := Classical.byContradiction fun h => hm ⟨hce, h⟩
            rw [this]; rfl
          · exact .inl hce
        rcases ih rest hn' hl' with h | ⟨g, c', v, h1, h2, h3⟩
        · left; rw [List.cons_append, hskip, h]; rfl
        · right
          refine ⟨c :: g, c', v, by rw [h1]; rfl, by simp, ?_⟩
          rw [List.cons_append, hskip, h3]; rfl

theorem take_drop_line {v : Str} (rest : Str) (hv : '\n' ∉ v) :
    (v ++ '\n' :: rest).takeWhile (fun x => decide (x ≠ '\n')) = v ∧
    (v ++ '\n' :: rest).dropWhile (fun x => decide (x ≠ '\n')) = '\n' :: rest := by
  have htw : (v ++ '\n' :: rest).takeWhile (fun x => decide (x ≠ '\n')) = v :=
    takeWhile_append_stop (fun x hx => by rw [decide_eq_true_eq]; rintro rfl; exact hv hx) (by intro c hc; cases hc; decide)
  refine ⟨htw, ?_⟩
  have := List.takeWhile_append_dropWhile (p := fun x => decide (x ≠ '\n')) (l := v ++ '\n' :: rest)
  rw [htw] at this
  exact List.append_cancel_left this

theorem quoteLoop_remark {t : Str} (h : IsRemark t) (hl : t.getLast? ≠ some '=') {rest : Str} {k : Nat}
    (hk : (t ++ '\n' :: rest).length < k) :
    ∃ k' t', IsRemark t' ∧ rest.length < k' ∧ quoteLoop k (t ++ '\n' :: rest) = t' ++ '\n' :: quoteLoop k' rest := by
  obtain ⟨k, rfl⟩ : ∃ n, k = n + 1 := ⟨k - 1, by omega⟩
  have hk' : t.length + (rest.length + 1) < k + 1 := by simpa using hk
  obtain ⟨htw, hdw⟩ := take_drop_line rest h.1
  rcases eqSplit_remark t rest h.1 hl with hnone | ⟨g, c, v, hgt, hg, hsome⟩
  · refine ⟨k, t, h, by omega, ?_⟩
    rw [quoteLoop, hnone]
    simp only
    rw [hdw, htw]
  · have hv : '\n' ∉ v := fun hm => h.1 (by rw [hgt]; simp [hm])
    have hlen : 2 ≤ t.length := by
      rw [hgt]
      have := List.length_pos_iff.mpr hg
      simp; omega
    obtain ⟨k, rfl⟩ : ∃ n, k = n + 1 := ⟨k - 1, by omega⟩
    obtain ⟨htv, hdv⟩ := take_drop_line rest hv
    refine ⟨k, g ++ '"' :: c :: (v ++ ['"']), ⟨?_, .inr ?_⟩, by omega, ?_⟩
    · intro hm
      have : '\n' ∈ t := by
        simp only [List.mem_append, List.mem_cons, List.not_mem_nil, or_false] at hm
        rw [hgt]
        simp only [List.mem_append, List.mem_cons]
        rcases hm with hm | hm | hm | hm | hm
        · exact .inl hm
        · exact absurd hm (by decide)
        · exact .inr (.inl hm)
        · exact .inr (.inr hm)
        · exact absurd hm (by decide)
      exact h.1 this
    · rcases h.2 with h0 | ⟨r, hr⟩
      · rw [h0] at hlen; simp at hlen
      · obtain ⟨x, g, rfl⟩ := List.exists_cons_of_ne_nil hg
        rw [hr] at hgt
        cases hgt
        exact ⟨_, rfl⟩
    · rw [quoteLoop, hsome]
      simp only
      rw [htv, hdv, quoteLoop, eqSplit_newline]
      simp

/-- What the program can read: usual settings, quoted without equals sign or unquoted and not empty, and remarks that do
not end in an equals sign. -/
def LineOK : OsLine → Prop
  | .setting e => e.Usual ∧ (e.quoted = true → '=' ∉ e.value) ∧ (e.quoted = false → e.value ≠ [])
  | .remark t => IsRemark t ∧ t.getLast? ≠ some '='

theorem quotedLine_line {e : OsEntry} (h : e.Usual) : '\n' ∉ quotedLine e := by
  intro hc
  have hkey := key_chars h
  have hval := value_chars h
  simp only [quotedLine, List.mem_append, List.mem_cons, List.not_mem_nil, or_false] at hc
  rcases hc with hc | hc | hc | hc | hc
  · exact (hkey _ hc).1 rfl
  · exact absurd hc (by decide)
  · exact absurd hc (by decide)
  · exact (hval _ hc).1 rfl
  · exact absurd hc (by decide)

theorem tomlLine_entry {e : OsEntry} (h : e.Usual) : tomlLine (quotedLine e) = .set e.key e.value := by
  have hkey := key_chars h
  have hval := value_chars h
  obtain ⟨c, k, hk⟩ := List.exists_cons_of_ne_nil h.1
  have hhash : c ≠ '#' := by
    rintro rfl
    have := (hkey '#' (by rw [hk]; exact List.mem_cons_self)).2.2
    revert this; decide
  have htw : (quotedLine e).takeWhile isKeyChar = e.key :=
    takeWhile_append_stop (fun c hc => (hkey c hc).2.2) (by intro c hc; cases hc; decide)
  have hdw : (quotedLine e).dropWhile isKeyChar = '=' :: '"' :: (e.value ++ ['"']) := by
    have := List.takeWhile_append_dropWhile (p := isKeyChar) (l := quotedLine e)
    rw [htw] at this
    exact List.append_cancel_left this
  have htv : (e.value ++ ['"']).takeWhile isTextChar = e.value :=
    takeWhile_append_stop (fun c hc => (hval c hc).2) (by intro c hc; cases hc; decide)
  have hdv : (e.value ++ ['"']).dropWhile isTextChar = ['"'] := by
    have := List.takeWhile_append_dropWhile (p := isTextChar) (l := e.value ++ ['"'])
    rw [htv] at this
    exact List.append_cancel_left this
  unfold tomlLine
  split
  · rename_i heq
    rw [quotedLine, hk] at heq; cases heq
  · rename_i heq
    rw [quotedLine, hk] at heq
    cases heq
    exact absurd rfl hhash
  · dsimp only
    rw [htw, hdw, hk]
    simp only [hdv, htv]
    simp

theorem tomlLine_remark {t : Str} (h : IsRemark t) : tomlLine t = .skip := by
  rcases h.2 with rfl | ⟨r, rfl⟩ <;> rfl

/-- Everything that is read: the table of the settings, whatever the table was before. -/
theorem toml_text : ∀ (ls : List OsLine), (∀ l ∈ ls, LineOK l) → ∀ m : GoMap Str,
    ((settings ls).map OsEntry.key).Nodup → (∀ e ∈ settings ls, GoMap.get? m e.key = none) →
    ∀ k, (osText ls).length < k →
    ∃ m', tomlLoop (splitOn '\n' (quoteLoop k (osText ls))) m = some m' ∧
      ∀ k, GoMap.get? m' k = match (settings ls).find? fun e => decide (e.key = k) with
        | some e => some e.value
        | none => GoMap.get? m k := by
  intro ls
  induction ls with
  | nil =>
    intro _ m _ _ k hk
    obtain ⟨k, rfl⟩ : ∃ n, k = n + 1 := ⟨k - 1, by omega⟩
    exact ⟨m, rfl, fun k => rfl⟩
  | cons l ls ih =>
    intro hu m hnd hm k hk
    have he : osText (l :: ls) = l.text ++ '\n' :: osText ls := by simp [osText]
    have hu' : ∀ x ∈ ls, LineOK x := fun x hx => hu x (List.mem_cons_of_mem _ hx)
    have hl := hu l List.mem_cons_self
    rw [he] at hk ⊢
    cases l with
    | remark t =>
      obtain ⟨k', t', ht', hk', heq⟩ := quoteLoop_remark hl.1 hl.2 hk
      obtain ⟨m', h1, h2⟩ := ih hu' m hnd hm k' hk'
      refine ⟨m', ?_, h2⟩
      show tomlLoop (splitOn '\n' (quoteLoop k (t ++ '\n' :: osText ls))) m = some m'
      rw [heq, splitOn_append_any, splitOn_of_not_mem _ _ ht'.1, List.singleton_append, tomlLoop, tomlLine_remark ht']
      exact h1
    | setting e =>
      have hs : settings (.setting e :: ls) = e :: settings ls := rfl
      rw [hs] at hnd hm ⊢
      simp only [List.map_cons, List.nodup_cons] at hnd
      have hm' : ∀ x ∈ settings ls, GoMap.get? (GoMap.put m e.key e.value) x.key = none := by
        intro x hx
        rw [GoMap.get?_put, if_neg]
        · exact hm x (List.mem_cons_of_mem _ hx)
        · intro heq; exact hnd.1 (by rw [← heq]; exact List.mem_map_of_mem hx)
      obtain ⟨k', hk', heq⟩ := quoteLoop_entry hl.1 hl.2.1 hl.2.2 hk
      obtain ⟨m', h1, h2⟩ := ih hu' (GoMap.put m e.key e.value) hnd.2 hm' k' hk'
      refine ⟨m', ?_, ?_⟩
      · show tomlLoop (splitOn '\n' (quoteLoop k (e.line ++ '\n' :: osText ls))) m = some m'
        rw [heq, splitOn_append_any, splitOn_of_not_mem _ _ (quotedLine_line hl.1), List.singleton_append, tomlLoop, tomlLine_entry hl.1]
        simp only
        rw [if_neg, h1]
        simp [GoMap.has, hm e List.mem_cons_self]
      · intro k
        rw [h2 k]
        by_cases hk : e.key = k
        · have hnone : (settings ls).find? (fun e => decide (e.key = k)) = none := by
            rw [List.find?_eq_none]
            intro x hx
            rw [decide_eq_true_eq]
            intro heq
            exact hnd.1 (by rw [hk, ← heq]; exact List.mem_map_of_mem hx)
          rw [hnone, List.find?_cons_of_pos (by simp [hk])]
          simp only
          rw [GoMap.get?_put, if_pos hk.symm]
        · rw [List.find?_cons_of_neg (by simp [hk]), GoMap.get?_put, if_neg (fun h => hk h.symm)]

/-- C104, partial: for a file of remarks and of settings with distinct names and usual characters, in which quoted values
have no equals sign, values without quotes are not empty and remarks do not end in an equals sign, name, version and
code name of the distribution are those of the file. Missing: see `C104_violated`. -/
theorem C104_os_release_partial {ls : List OsLine} (hnd : ((settings ls).map OsEntry.key).Nodup)
    (hset : ∀ e, .setting e ∈ ls → e.Usual ∧ (e.quoted = true → '=' ∉ e.value) ∧ (e.quoted = false → e.value ≠ []))
    (hrem : ∀ t, .remark t ∈ ls → IsRemark t ∧ t.getLast? ≠ some '=') :
    readOsRelease (some (osText ls)) = some { id := osValue (settings ls) (s%"ID"), versionId := osValue (settings ls) (s%"VERSION_ID"), codename := osValue (settings ls) (s%"VERSION_CODENAME") } := by
  unfold readOsRelease
  dsimp only
  have hok : ∀ l ∈ ls, LineOK l := by
    intro l hl
    cases l with
    | setting e => exact hset e hl
    | remark t => exact hrem t hl
  obtain ⟨m, hm, hget⟩ := toml_text ls hok [] hnd (fun _ _ => rfl) ((osText ls).length + 1) (Nat.lt_succ_self _)
  have hm' : tomlLoop (splitOn '\n' (quoteValues (osText ls))) [] = some m := hm
  rw [hm']
  simp only
  have hv : ∀ k, (GoMap.get? m k).getD [] = osValue (settings ls) k := by
    intro k
    rw [hget k]
    unfold osValue
    cases (settings ls).find? (fun e => decide (e.key = k)) <;> rfl
  rw [hv, hv, hv]

example : readOsRelease (some (s%"# made by hand, a=b\n\nNAME=\"Ubuntu\"\nID=ubuntu\nVERSION_ID=\"22.04\"\nVERSION_CODENAME=jammy\n")) =
    some { id := s%"ubuntu", versionId := s%"22.04", codename := s%"jammy" } := by decide

example : (∀ e ∈ [OsEntry.mk (s%"NAME") (s%"Ubuntu") true, ⟨s%"ID", s%"ubuntu", false⟩],
      (e.quoted = true → '=' ∉ e.value) ∧ (e.quoted = false → e.value ≠ [])) ∧
    OsEntry.Usual ⟨s%"ID", s%"ubuntu", false⟩ ∧ IsRemark (s%"# made by hand, a=b") ∧ IsRemark [] := by
  refine ⟨by decide, ⟨by decide, ?_, ?_⟩, ⟨by decide, .inr ⟨_, rfl⟩⟩, by decide, .inl rfl⟩
  · intro c hc
    simp only [List.mem_cons, List.not_mem_nil, or_false] at hc
    rcases hc with rfl | rfl <;> exact .inr (.inr (.inr (.inr ⟨by decide, by decide⟩)))
  · intro c hc
    simp only [List.mem_cons, List.not_mem_nil, or_false] at hc
    rcases hc with rfl | rfl | rfl | rfl | rfl | rfl <;> exact ⟨by decide, by decide, by decide, by decide⟩

/-- C104 is violated: a quoted value with an equals sign, as in many URLs, or an empty value makes the whole file
unreadable, and so does a remark that ends in an equals sign; a value in single quotes, which os-release allows, keeps
its quotes; an escaped dollar sign, which os-release asks for, is no escape of TOML and makes the file unreadable. -/
theorem C104_violated :
    readOsRelease (some (s%"ID=ubuntu\nPRETTY_NAME=\"the \\$ system\"\n")) = none ∧
    readOsRelease (some (s%"# name=\nID=ubuntu\n")) = none ∧
    readOsRelease (some (s%"ID=ubuntu\nBUG_REPORT_URL=\"https://x.org/bug?product=ubuntu\"\n")) = none ∧
    readOsRelease (some (s%"VARIANT_ID=\nID=ubuntu\n")) = none ∧
    readOsRelease (some (s%"ID='ubuntu'\n")) = some { id := s%"'ubuntu'" } := by decide

/-! ### C105 -/

/-- C105, partial: the directory of the binaries is `ubuntu/<code name>` on Ubuntu, `centos/<major version>` on CentOS
and RHEL with a major version of one digit, and `<name>/<version>` elsewhere. Missing: see
`C105_violated_major_version`. -/
theorem C105_directory_partial (r : OsRelease) (hid : r.id ≠ []) :
    (r.id = s%"ubuntu" → linuxBinaryUri r = some (s%"ubuntu/" ++ r.codename)) ∧
    (r.id = s%"centos" ∨ r.id = s%"rhel" → ∀ major, (∃ minor, r.versionId = major ++ minor ∧ ∀ c, minor.head? = some c → c = '.') →
      major.length = 1 → linuxBinaryUri r = some (s%"centos/" ++ major)) ∧
    (r.id ≠ s%"ubuntu" → r.id ≠ s%"centos" → r.id ≠ s%"rhel" → linuxBinaryUri r = some (r.id ++ s%"/" ++ r.versionId)) := by
  refine ⟨?_, ?_, ?_⟩
  · intro h
    rw [linuxBinaryUri, if_neg hid, if_pos h, h]; rfl
  · rintro h major ⟨minor, hv, _⟩ hl
    have hu : r.id ≠ s%"ubuntu" := by rcases h with h | h <;> rw [h] <;> decide
    obtain ⟨c, rfl⟩ := List.length_eq_one_iff.mp hl
    rw [linuxBinaryUri, if_neg hid, if_neg hu, if_pos h, hv]
    rfl
  · intro h1 h2 h3
    rw [linuxBinaryUri, if_neg hid, if_neg h1, if_neg (fun h => h.elim h2 h3)]
    simp

example : linuxBinaryUri { id := s%"rhel", versionId := s%"8.4" } = some (s%"centos/8") := by decide

/-- C105 is violated for a major version of two digits, of which only the first is used, and the program crashes when a
CentOS does not say its version. -/
theorem C105_violated_major_version :
    linuxBinaryUri { id := s%"rhel", versionId := s%"10.0" } = some (s%"centos/1") ∧ linuxBinaryUri { id := s%"centos" } = none := by
  decide

/-- C105 (which distributions): every distribution that says its name is taken to support binaries. -/
theorem C105_supports_iff (file : Option Str) :
    linuxSupportsBinary file = true ↔ ∃ r, readOsRelease file = some r ∧ r.id ≠ [] := by
  unfold linuxSupportsBinary
  cases readOsRelease file with
  | none => simp
  | some r => by_cases h : r.id = [] <;> simp [h]

/-- C105 is violated as to the distributions: one that is not in the program's table is treated as supporting binaries. -/
theorem C105_violated_unknown : linuxSupportsBinary (some (s%"ID=alpine\nVERSION_ID=3.19.0\n")) = true := by decide

end Pkgr
