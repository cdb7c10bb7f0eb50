import Verif.Ljh.Records
/-! Which LJH files can be opened, which attributes they then have, and which error is raised otherwise (files.py L181-305). -/
namespace Mass.Ljh.Open
open Mass.Names (Str)
open Mass.Ljh

/-! ### what a header says [specification] -/

/-- the header has this key, with a whole number `v` as its value [specification] -/
def IntAt (d : Dict) (k : Bytes) (v : Int) : Prop := ∃ b, dictGet d k = some b ∧ pyIntB b = .ok v

/-- the header has this key with the whole number `v`, or lacks it and `v` is the default [specification] -/
def IntOr (d : Dict) (k : Bytes) (dflt v : Int) : Prop := (dictGet d k = none ∧ v = dflt) ∨ IntAt d k v

/-- the first key that starts with `p` has the whole number `v`; without such a key `v` is the default [specification] -/
def FirstOr (d : Dict) (p : Bytes) (dflt v : Int) : Prop :=
  ((∀ e ∈ d, ¬ p <+: e.1) ∧ v = dflt) ∨
  ∃ pre e post, d = pre ++ e :: post ∧ (∀ x ∈ pre, ¬ p <+: x.1) ∧ p <+: e.1 ∧ pyIntB e.2 = .ok v

/-- the header has this key, and its value contains the text [specification] -/
def Mentions (d : Dict) (k text : Bytes) : Prop := ∃ v, dictGet d k = some v ∧ text <:+: v

/-- the header has this key, with a number as its value [specification] -/
def NumAt (pf : Bytes → Option Rat) (d : Dict) (k : Bytes) (x : Rat) : Prop := ∃ b, dictGet d k = some b ∧ pf b = some x

/-- the version of the header, as a list of numbers [specification] -/
def VersionIs (d : Dict) (l : List Nat) : Prop :=
  ∃ v, dictGet d (asc "Save File Format Version") = some v ∧ verParts none v = some l

/-! ### lemmas -/

theorem bind_ok_iff {ε α β} {x : Except ε α} {f : α → Except ε β} {b : β} : (x >>= f) = .ok b ↔ ∃ a, x = .ok a ∧ f a = .ok b := by
  cases x with
  | error e => exact ⟨fun h => (by cases h), fun h => by obtain ⟨a, h, _⟩ := h; cases h⟩
  | ok a => exact ⟨fun h => ⟨a, rfl, h⟩, fun h => by obtain ⟨a', h, h'⟩ := h; cases h; exact h'⟩

theorem bind_error_iff {ε α β} {x : Except ε α} {f : α → Except ε β} {e : ε} :
    (x >>= f) = .error e ↔ x = .error e ∨ ∃ a, x = .ok a ∧ f a = .error e := by
  cases x with
  | error e' => exact ⟨fun h => .inl (by cases h; rfl), fun h => by rcases h with h | ⟨a, h, _⟩ <;> cases h; rfl⟩
  | ok a => exact ⟨fun h => .inr ⟨a, rfl, h⟩, fun h => by rcases h with h | ⟨a', h, h'⟩ <;> cases h; exact h'⟩

theorem containsB_iff (n : Bytes) : ∀ h : Bytes, containsB n h = true ↔ n <:+: h
  | [] => by simp [containsB]
  | b :: t => by rw [containsB, Bool.or_eq_true, containsB_iff n t, List.isPrefixOf_iff_prefix, List.infix_cons_iff]

theorem reqKey_ok {d : Dict} {k v : Bytes} : reqKey d k = .ok v ↔ dictGet d k = some v := by
  unfold reqKey; cases dictGet d k <;> simp

theorem reqKey_error {d : Dict} {k : Bytes} {e : Exc} : reqKey d k = .error e ↔ e = .key ∧ dictGet d k = none := by
  unfold reqKey; cases dictGet d k <;> simp [eq_comm]

theorem toFloat_ok {pf : Bytes → Option Rat} {v : Bytes} {x : Rat} : toFloat pf v = .ok x ↔ pf v = some x := by
  unfold toFloat; cases pf v <;> simp

theorem toFloat_error {pf : Bytes → Option Rat} {v : Bytes} {e : Exc} : toFloat pf v = .error e ↔ e = .value ∧ pf v = none := by
  unfold toFloat; cases pf v <;> simp [eq_comm]

theorem pyIntB_error {b : Bytes} {e : Exc} (h : pyIntB b = .error e) : e = .value := by
  unfold pyIntB Names.pyInt at h
  dsimp only at h
  split at h
  · cases h
  · cases h; rfl

theorem reqInt_ok {d : Dict} {k : Bytes} {v : Int} : reqInt d k = .ok v ↔ IntAt d k v := by
  unfold reqInt IntAt; cases dictGet d k <;> simp

theorem reqInt_error {d : Dict} {k : Bytes} {e : Exc} (h : reqInt d k = .error e) :
    (e = .key ∧ dictGet d k = none) ∨ (e = .value ∧ dictGet d k ≠ none) := by
  unfold reqInt at h
  cases hk : dictGet d k with
  | none => rw [hk] at h; cases h; exact .inl ⟨rfl, rfl⟩
  | some b => rw [hk] at h; exact .inr ⟨pyIntB_error h, by simp⟩

theorem getIntD_ok {d : Dict} {k : Bytes} {t v : Int} : getIntD d k t = .ok v ↔ IntOr d k t v := by
  unfold getIntD IntOr IntAt; cases dictGet d k <;> simp [eq_comm]

theorem getIntD_error {d : Dict} {k : Bytes} {t : Int} {e : Exc} (h : getIntD d k t = .error e) : e = .value := by
  unfold getIntD at h
  split at h
  · cases h
  · exact pyIntB_error h

theorem prefixInt_ok {d : Dict} {p : Bytes} {t v : Int} : prefixInt d p t = .ok v ↔ FirstOr d p t v := by
  unfold prefixInt FirstOr
  cases h : d.find? (fun e => p.isPrefixOf e.1) with
  | none =>
    rw [List.find?_eq_none] at h
    simp only [List.isPrefixOf_iff_prefix] at h
    constructor
    · intro hv; cases hv; exact .inl ⟨h, rfl⟩
    · rintro (⟨-, rfl⟩ | ⟨pre, e, post, rfl, -, he, -⟩)
      · rfl
      · exact absurd he (h e (by simp))
  | some e =>
    rw [List.find?_eq_some_iff_append] at h
    obtain ⟨hp, pre, post, rfl, hpre⟩ := h
    rw [List.isPrefixOf_iff_prefix] at hp
    have hpre' : ∀ x ∈ pre, ¬ p <+: x.1 := by
      intro x hx hc
      have := hpre x hx
      rw [List.isPrefixOf_iff_prefix.2 hc] at this
      exact absurd this (by simp)
    constructor
    · intro hv; exact .inr ⟨pre, e, post, rfl, hpre', hp, hv⟩
    · rintro (⟨hn, -⟩ | ⟨pre', e', post', he, hpre2, hp2, hv⟩)
      · exact absurd hp (hn e (by simp))
      · have h1 : (pre ++ e :: post).find? (fun e => p.isPrefixOf e.1) = some e := by
          rw [List.find?_eq_some_iff_append]
          exact ⟨List.isPrefixOf_iff_prefix.2 hp, pre, post, rfl, hpre⟩
        have h2 : (pre ++ e :: post).find? (fun e => p.isPrefixOf e.1) = some e' := by
          rw [he, List.find?_eq_some_iff_append]
          refine ⟨List.isPrefixOf_iff_prefix.2 hp2, pre', post', rfl, fun x hx => ?_⟩
          have := hpre2 x hx
          rw [← List.isPrefixOf_iff_prefix] at this
          rw [Bool.not_eq_true] at this
          rw [this]; rfl
        rw [h1] at h2
        cases h2
        exact hv

theorem prefixInt_error {d : Dict} {p : Bytes} {t : Int} {e : Exc} (h : prefixInt d p t = .error e) : e = .value := by
  unfold prefixInt at h
  split at h
  · cases h
  · exact pyIntB_error h

theorem tsOffset_ok {pf : Bytes → Option Rat} {d : Dict} : (∃ x, tsOffset pf d = .ok x) ↔
    ∀ t, dictGet d (asc "Timestamp offset (s)") = some t → ∃ x, pf t = some x := by
  unfold tsOffset
  cases dictGet d (asc "Timestamp offset (s)") with
  | none => simp
  | some t => simp [toFloat_ok]

theorem tsOffset_error {pf : Bytes → Option Rat} {d : Dict} {e : Exc} (h : tsOffset pf d = .error e) : e = .value := by
  unfold tsOffset at h
  split at h
  · cases h
  · exact (toFloat_error.1 h).1

theorem below_ok {v : Bytes} {o : Bool} : below220 v = .ok o ↔
    ∃ l, verParts none v = some l ∧ (o = true ↔ l.getD 0 0 < 2 ∨ l.getD 0 0 = 2 ∧ l.getD 1 0 < 2) := by
  unfold below220
  cases verParts none v with
  | none => simp
  | some l => cases o <;> simp

theorem below_error {v : Bytes} {e : Exc} (h : below220 v = .error e) : e = .value ∧ verParts none v = none := by
  unfold below220 at h
  split at h
  · rename_i hv; cases h; exact ⟨rfl, hv⟩
  · cases h

open Classical in
theorem subframe_eq (d : Dict) (row nr : Int) : subframeDefaults d row nr =
    (if Mentions d (asc "Data source") (asc "Abaco") then 64 else max nr 1, if Mentions d (asc "Data source") (asc "Abaco") then 0 else row) := by
  have hm : (if nr ≤ 0 then 1 else nr) = max nr 1 := by split <;> omega
  unfold subframeDefaults
  rw [hm]
  cases h : dictGet d (asc "Data source") with
  | none =>
    have hn : ¬ Mentions d (asc "Data source") (asc "Abaco") := by rintro ⟨v, hv, -⟩; rw [h] at hv; cases hv
    rw [if_neg hn, if_neg hn]; simp
  | some s =>
    by_cases hc : containsB (asc "Abaco") s = true
    · have hn : Mentions d (asc "Data source") (asc "Abaco") := ⟨s, h, (containsB_iff _ _).1 hc⟩
      rw [if_pos hn, if_pos hn]; simp [hc]
    · have hn : ¬ Mentions d (asc "Data source") (asc "Abaco") := by
        rintro ⟨v, hv, hv'⟩; rw [h] at hv; cases hv; exact hc ((containsB_iff _ _).2 hv')
      rw [if_neg hn, if_neg hn]; simp [hc]

theorem dastard_iff {d : Dict} : isDastard d = true ↔ Mentions d (asc "Software Version") (asc "DASTARD") := by
  unfold Mentions isDastard
  cases dictGet d (asc "Software Version") with
  | none => simp
  | some s => simp [containsB_iff]

theorem fields_ok {pf : Bytes → Option Rat} {fname : Str} {d : Dict} {p : Fields} : parseFields pf fname d = .ok p ↔
    (∃ l, VersionIs d l ∧ (p.old = true ↔ l.getD 0 0 < 2 ∨ l.getD 0 0 = 2 ∧ l.getD 1 0 < 2)) ∧
    Names.fileChannum fname = .ok p.ch ∧ NumAt pf d (asc "Timebase") p.tb ∧ IntAt d (asc "Total Samples") p.ns ∧
    IntAt d (asc "Presamples") p.np ∧
    (∃ row nr, FirstOr d (asc "Row number") 0 row ∧ IntOr d (asc "Number of rows") 1 nr ∧
      IntOr d (asc "Subframe divisions") (subframeDefaults d row nr).1 p.sd ∧
      IntOr d (asc "Subframe offset") (subframeDefaults d row nr).2 p.so) ∧
    (∃ c, FirstOr d (asc "Column number") 0 c) ∧ (∃ c, IntOr d (asc "Number of columns") 1 c) ∧
    (∀ t, dictGet d (asc "Timestamp offset (s)") = some t → ∃ x, pf t = some x) := by
  unfold parseFields
  simp only [bind_ok_iff, reqKey_ok, toFloat_ok, reqInt_ok, prefixInt_ok, getIntD_ok, below_ok, pure, Except.pure, Except.ok.injEq]
  rw [← tsOffset_ok]
  constructor
  · rintro ⟨v, h1, o, ⟨l, h2, h2'⟩, ch, h3, tbs, h4, tb, h5, ns, h6, np, h7, row, h8, c, h9, c', h10, nr, h11, ts, h12, sd, h13, so, h14, rfl⟩
    exact ⟨⟨l, ⟨v, h1, h2⟩, h2'⟩, h3, ⟨tbs, h4, h5⟩, h6, h7, ⟨row, nr, h8, h11, h13, h14⟩, ⟨c, h9⟩, ⟨c', h10⟩, ⟨ts, h12⟩⟩
  · rintro ⟨⟨l, ⟨v, h1, h2⟩, h2'⟩, h3, ⟨tbs, h4, h5⟩, h6, h7, ⟨row, nr, h8, h11, h13, h14⟩, ⟨c, h9⟩, ⟨c', h10⟩, ⟨ts, h12⟩⟩
    exact ⟨v, h1, p.old, ⟨l, h2, h2'⟩, p.ch, h3, tbs, h4, p.tb, h5, p.ns, h6, p.np, h7, row, h8, c, h9, c', h10, nr, h11, ts, h12, p.sd, h13,
      p.so, h14, rfl⟩

/-! ### the theorems -/

open Classical in
/-- C157. A file whose header was found opens exactly if: the header has a readable version, `Timebase`, `Total Samples` and
`Presamples`, the file name has a channel number, whatever of the optional entries is there can be read, and one record fits into 16 MiB; and then its
attributes are those of the header: the layout by the version, three presamples more than the header says unless DASTARD wrote the file, and
subframe divisions and offset as in the header, else 64 and 0 for an Abaco source, else the number of rows (at least one) and the row. -/
theorem open_spec (pf : Bytes → Option Rat) (fname : Str) (d : Dict) (hs b : Nat) (l : Ljh) : parseHeader pf fname d hs b = .ok l ↔
    l.dict = d ∧ l.headerSize = hs ∧ l.binarySize = b ∧
    (∃ ver, VersionIs d ver ∧ (l.v22 = true ↔ 2 < ver.getD 0 0 ∨ ver.getD 0 0 = 2 ∧ 2 ≤ ver.getD 1 0)) ∧
    Names.fileChannum fname = .ok l.channum ∧ NumAt pf d (asc "Timebase") l.timebase ∧ IntAt d (asc "Total Samples") l.nSamples ∧
    IntAt d (asc "Presamples") (l.nPresamples - if Mentions d (asc "Software Version") (asc "DASTARD") then 0 else 3) ∧
    (∃ row nr, FirstOr d (asc "Row number") 0 row ∧ IntOr d (asc "Number of rows") 1 nr ∧
      IntOr d (asc "Subframe divisions") (if Mentions d (asc "Data source") (asc "Abaco") then 64 else max nr 1) l.subDiv ∧
      IntOr d (asc "Subframe offset") (if Mentions d (asc "Data source") (asc "Abaco") then 0 else row) l.subOff) ∧
    (∃ c, FirstOr d (asc "Column number") 0 c) ∧ (∃ c, IntOr d (asc "Number of columns") 1 c) ∧
    (∀ t, dictGet d (asc "Timestamp offset (s)") = some t → ∃ x, pf t = some x) ∧
    (if l.v22 then 16 else 6) + 2 * l.nSamples ≤ 16 * 1024 * 1024 := by
  have hpre : ∀ n : Int, (if isDastard d = true then n else n + 3) = n + if Mentions d (asc "Software Version") (asc "DASTARD") then 0 else 3 := by
    intro n
    by_cases h : Mentions d (asc "Software Version") (asc "DASTARD")
    · rw [if_pos (dastard_iff.2 h), if_pos h, Int.add_zero]
    · rw [if_neg (fun hc => h (dastard_iff.1 hc)), if_neg h]
  unfold parseHeader
  rw [bind_ok_iff]
  simp only [fields_ok, subframe_eq]
  constructor
  · rintro ⟨p, ⟨⟨ver, h1, h1'⟩, h2, h3, h4, h5, h6, h7, h8, h9⟩, hf⟩
    unfold finishOpen at hf
    split at hf
    · cases hf
    · rename_i hns
      split at hf
      · cases hf
      · rename_i hsz
        cases hf
        dsimp only
        rw [hpre]
        refine ⟨rfl, rfl, rfl, ⟨ver, h1, ?_⟩, h2, h3, ?_, by simpa using h5, h6, h7, h8, h9, ?_⟩
        · cases ho : p.old <;> simp [ho] at h1' ⊢ <;> omega
        · rw [Int.toNat_of_nonneg (by omega)]; exact h4
        · unfold recSize at hsz
          cases ho : p.old <;> simp [ho] at hsz ⊢ <;> omega
  · rintro ⟨rfl, rfl, rfl, ⟨ver, h1, h1'⟩, h2, h3, h4, h5, h6, h7, h8, h9, h10⟩
    refine ⟨⟨!l.v22, l.channum, l.timebase, l.nSamples, _, l.subDiv, l.subOff⟩, ⟨⟨ver, h1, ?_⟩, h2, h3, h4, h5, h6, h7, h8, h9⟩, ?_⟩
    · dsimp only
      cases ho : l.v22 <;> simp [ho] at h1' ⊢ <;> omega
    · unfold finishOpen recSize
      dsimp only
      rw [if_neg (by omega), if_neg (by cases ho : l.v22 <;> simp [ho] at h10 ⊢ <;> omega), hpre]
      simp

/-- C157. KeyError is raised exactly if one of the four required entries is missing and everything read before it could be read: the version; after a
readable version and channel number the `Timebase`; after a readable `Timebase` the `Total Samples`; after that `Presamples`. -/
theorem key_error_iff (pf : Bytes → Option Rat) (fname : Str) (d : Dict) (hs b : Nat) : parseHeader pf fname d hs b = .error .key ↔
    dictGet d (asc "Save File Format Version") = none ∨
    (∃ ver, VersionIs d ver) ∧ (∃ ch, Names.fileChannum fname = .ok ch) ∧
      (dictGet d (asc "Timebase") = none ∨ (∃ tb, NumAt pf d (asc "Timebase") tb) ∧
        (dictGet d (asc "Total Samples") = none ∨ (∃ ns, IntAt d (asc "Total Samples") ns) ∧ dictGet d (asc "Presamples") = none)) := by
  have hfin : ∀ p, finishOpen d hs b p ≠ .error .key := by
    intro p h
    unfold finishOpen at h
    split at h
    · injection h with h
      by_cases h0 : (if p.old then (6 : Int) else 16) + 2 * p.ns = 0
      · rw [if_pos h0] at h; cases h
      · rw [if_neg h0] at h; cases h
    · split at h <;> cases h
  have hch : Names.fileChannum fname ≠ .error .key := by
    unfold Names.fileChannum
    split
    · intro h; cases h
    · intro h
      unfold Names.pyInt at h
      dsimp only at h
      split at h <;> cases h
  have hb : ∀ v, below220 v ≠ .error .key := fun v h => by cases (below_error h).1
  have hi : ∀ k, reqInt d k = .error .key ↔ dictGet d k = none := by
    intro k
    constructor
    · intro h
      rcases reqInt_error h with ⟨-, h⟩ | ⟨h, -⟩
      · exact h
      · cases h
    · intro h; unfold reqInt; rw [h]
  have hp : ∀ k t, prefixInt d k t ≠ .error .key := fun k t h => by cases prefixInt_error h
  have hg : ∀ k t, getIntD d k t ≠ .error .key := fun k t h => by cases getIntD_error h
  have ht : tsOffset pf d ≠ .error .key := fun h => by cases tsOffset_error h
  unfold parseHeader
  rw [bind_error_iff]
  simp only [hfin, and_false, exists_false, or_false]
  unfold parseFields
  simp only [bind_error_iff, hch, hb, hp, hg, ht, hi, false_or, pure, Except.pure, reduceCtorEq, and_false, exists_false, or_false, reqKey_ok,
    reqKey_error, true_and, toFloat_error, toFloat_ok, false_and, reqInt_ok, below_ok, VersionIs, NumAt]
  constructor
  · rintro (h | ⟨v, h1, o, ⟨l, h2, -⟩, ch, h3, h⟩)
    · exact .inl h
    · refine .inr ⟨⟨l, v, h1, h2⟩, ⟨ch, h3⟩, ?_⟩
      rcases h with h | ⟨tbs, h4, tb, h5, h⟩
      · exact .inl h
      · refine .inr ⟨⟨tb, tbs, h4, h5⟩, ?_⟩
        rcases h with h | ⟨ns, h6, h⟩
        · exact .inl h
        · exact .inr ⟨⟨ns, h6⟩, h⟩
  · rintro (h | ⟨⟨l, v, h1, h2⟩, ⟨ch, h3⟩, h⟩)
    · exact .inl h
    · refine .inr ⟨v, h1, decide (l.getD 0 0 < 2 ∨ l.getD 0 0 = 2 ∧ l.getD 1 0 < 2), ⟨l, h2, decide_eq_true_iff⟩, ch, h3, ?_⟩
      rcases h with h | ⟨⟨tb, tbs, h4, h5⟩, h⟩
      · exact .inl h
      · refine .inr ⟨tbs, h4, tb, h5, ?_⟩
        rcases h with h | ⟨⟨ns, h6⟩, h⟩
        · exact .inl h
        · exact .inr ⟨ns, h6, h⟩

/-- C157. Every other failure is a ValueError, with two exceptions: an IndexError exactly if the version can be read but the name of the file has no
"_chan", and a ZeroDivisionError only for a header whose number of samples is −3 (version below 2.2) or −8. -/
theorem error_kinds (pf : Bytes → Option Rat) (fname : Str) (d : Dict) (hs b : Nat) :
    (∀ e, parseHeader pf fname d hs b = .error e → e = .key ∨ e = .value ∨ e = .index ∨ e = .zeroDiv) ∧
    (parseHeader pf fname d hs b = .error .index ↔ (∃ ver, VersionIs d ver) ∧ (Names.splitTag 0 [] fname)[1]? = none) ∧
    (parseHeader pf fname d hs b = .error .zeroDiv → IntAt d (asc "Total Samples") (-3) ∨ IntAt d (asc "Total Samples") (-8)) := by
  have hch : ∀ e, Names.fileChannum fname = .error e → e = .value ∨ (e = .index ∧ (Names.splitTag 0 [] fname)[1]? = none) := by
    intro e h
    unfold Names.fileChannum at h
    split at h
    · rename_i hn; cases h; exact .inr ⟨rfl, hn⟩
    · unfold Names.pyInt at h
      dsimp only at h
      split at h <;> cases h
      exact .inl rfl
  have hch2 : (Names.splitTag 0 [] fname)[1]? = none → Names.fileChannum fname = .error .index := by
    intro h; unfold Names.fileChannum; rw [h]
  have hfin : ∀ p e, finishOpen d hs b p = .error e → e = .value ∨ (e = .zeroDiv ∧ (p.ns = -3 ∨ p.ns = -8)) := by
    intro p e h
    unfold finishOpen at h
    split at h
    · injection h with h
      by_cases h0 : (if p.old then (6 : Int) else 16) + 2 * p.ns = 0
      · rw [if_pos h0] at h
        right
        refine ⟨h.symm, ?_⟩
        cases ho : p.old <;> simp [ho] at h0 <;> omega
      · rw [if_neg h0] at h
        exact .inl h.symm
    · split at h <;> cases h
      exact .inl rfl
  have hpf : ∀ e, parseFields pf fname d = .error e → e = .key ∨ e = .value ∨ (e = .index ∧ (∃ ver, VersionIs d ver) ∧ (Names.splitTag 0 [] fname)[1]? = none) := by
    intro e h
    unfold parseFields at h
    simp only [bind_error_iff] at h
    rcases h with h | ⟨v, hv, h | ⟨o, ho, h | ⟨ch, -, h | ⟨tbs, -, h | ⟨tb, -, h | ⟨ns, -, h | ⟨np, -, h | ⟨row, -, h | ⟨c, -, h | ⟨c', -, h | ⟨nr, -, h | ⟨ts, -, h | ⟨sd, -, h | ⟨so, -, h⟩⟩⟩⟩⟩⟩⟩⟩⟩⟩⟩⟩⟩⟩
    · exact .inl (reqKey_error.1 h).1
    · exact .inr (.inl (below_error h).1)
    · rcases hch e h with h | h
      · exact .inr (.inl h)
      · obtain ⟨l, hl, -⟩ := below_ok.1 ho
        exact .inr (.inr ⟨h.1, ⟨l, v, reqKey_ok.1 hv, hl⟩, h.2⟩)
    · exact .inl (reqKey_error.1 h).1
    · exact .inr (.inl (toFloat_error.1 h).1)
    · rcases reqInt_error h with h | h
      · exact .inl h.1
      · exact .inr (.inl h.1)
    · rcases reqInt_error h with h | h
      · exact .inl h.1
      · exact .inr (.inl h.1)
    · exact .inr (.inl (prefixInt_error h))
    · exact .inr (.inl (prefixInt_error h))
    · exact .inr (.inl (getIntD_error h))
    · exact .inr (.inl (getIntD_error h))
    · exact .inr (.inl (tsOffset_error h))
    · exact .inr (.inl (getIntD_error h))
    · exact .inr (.inl (getIntD_error h))
    · cases h
  unfold parseHeader
  refine ⟨fun e h => ?_, ⟨fun h => ?_, fun ⟨⟨l, v, hv, hl⟩, hn⟩ => ?_⟩, fun h => ?_⟩
  · rcases bind_error_iff.1 h with h | ⟨p, -, h⟩
    · rcases hpf e h with h | h | h
      · exact .inl h
      · exact .inr (.inl h)
      · exact .inr (.inr (.inl h.1))
    · rcases hfin p e h with h | h
      · exact .inr (.inl h)
      · exact .inr (.inr (.inr h.1))
  · rcases bind_error_iff.1 h with h | ⟨p, -, h⟩
    · rcases hpf _ h with h | h | h
      · cases h
      · cases h
      · exact h.2
    · rcases hfin p _ h with h | h
      · cases h
      · cases h.1
  · rw [bind_error_iff]
    left
    unfold parseFields
    rw [bind_error_iff]
    right
    refine ⟨v, reqKey_ok.2 hv, ?_⟩
    rw [bind_error_iff]
    right
    refine ⟨_, below_ok.2 ⟨l, hl, decide_eq_true_iff⟩, ?_⟩
    rw [bind_error_iff]
    exact .inl (hch2 hn)
  · rcases bind_error_iff.1 h with h | ⟨p, hp, h⟩
    · rcases hpf _ h with h | h | h
      · cases h
      · cases h
      · cases h.1
    · rcases hfin p _ h with h | h
      · cases h
      · have := (fields_ok.1 hp).2.2.2.1
        rcases h.2 with h | h
        · rw [h] at this; exact .inl this
        · rw [h] at this; exact .inr this

/-- a header dictionary for the instances (example data, cites no lines) [specification] -/
def demo (src client : String) : Dict :=
  [(asc "Save File Format Version", asc "2.2.0"), (asc "Software Version", asc client), (asc "Data source", asc src), (asc "Timebase", asc "1"),
   (asc "Row number (from 0-7 inclusive)", asc "5"), (asc "Number of rows", asc "8"), (asc "Presamples", asc "250"), (asc "Total Samples", asc "1000")]

/-- `open_spec`, instance: the same header from an Abaco system with DASTARD and from another source and client -/
example : (parseHeader (fun _ => some 1) "a_chan3.ljh".toList (demo "Abaco" "DASTARD 0.2") 100 4032).toOption.map
      (fun l => (l.v22, l.channum, l.nPulses, [(l.nSamples : Int), l.nPresamples, l.subDiv, l.subOff])) = some (true, 3, 2, [1000, 250, 64, 0]) ∧
    (parseHeader (fun _ => some 1) "a_chan3.ljh".toList (demo "Lancero" "MATTER") 100 4032).toOption.map
      (fun l => (l.nPresamples, l.subDiv, l.subOff)) = some (253, 8, 5) := by decide +kernel

/-- `key_error_iff` and `error_kinds`, instances: without `Presamples`; a name without a channel; a timebase that is no number; −8 samples -/
example : parseHeader (fun _ => some 1) "a_chan3.ljh".toList ((demo "x" "y").filter (fun e => e.1 ≠ asc "Presamples")) 100 0 = .error .key ∧
    parseHeader (fun _ => some 1) "a.ljh".toList (demo "x" "y") 100 0 = .error .index ∧
    parseHeader (fun _ => none) "a_chan3.ljh".toList (demo "x" "y") 100 0 = .error .value ∧
    parseHeader (fun _ => some 1) "a_chan3.ljh".toList (dictSet (demo "x" "y") (asc "Total Samples") (asc "-8")) 100 0 = .error .zeroDiv := by
  decide +kernel

end Mass.Ljh.Open
