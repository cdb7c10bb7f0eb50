import Verif.Ljh.Props
import Verif.Names.Props
/-! C16 (truncate), C17 (copy), C59 (append). -/
namespace Mass.Ljh
open Mass.Names (Str)

/-! ### file system -/

/-- every name refers to an inode below `next` [specification] -/
def Fs.WF (fs : Fs) : Prop := ∀ p i, fs.ino p = some i → i < fs.next

theorem append_append (fs : Fs) (i : Nat) (a b : Bytes) : (fs.append i a).append i b = fs.append i (a ++ b) := by
  unfold Fs.append
  congr 1
  funext j
  by_cases h : j = i <;> simp [h]

theorem append_nil (fs : Fs) (i : Nat) : fs.append i [] = fs := by
  unfold Fs.append
  cases fs
  congr 1
  funext j
  by_cases h : j = i <;> simp [h]

theorem append_data (fs : Fs) (i j : Nat) (b : Bytes) : ∃ c, (fs.append i b).data j = fs.data j ++ c := by
  unfold Fs.append
  by_cases h : j = i
  · subst h; exact ⟨b, by simp⟩
  · exact ⟨[], by simp [h]⟩

theorem append_data_self (fs : Fs) (i : Nat) (b : Bytes) : (fs.append i b).data i = fs.data i ++ b := by
  simp [Fs.append]
theorem append_data_ne (fs : Fs) {i j : Nat} (b : Bytes) (h : j ≠ i) : (fs.append i b).data j = fs.data j := by
  simp [Fs.append, h]
theorem append_ino (fs : Fs) (i : Nat) (b : Bytes) (p : Str) : (fs.append i b).ino p = fs.ino p := rfl

theorem openW_spec {fs : Fs} (hw : fs.WF) {si : Nat} {src dst : Str} (hs : fs.ino src = some si)
    (hne : fs.ino dst ≠ some si) :
    (fs.openW dst).1.ino dst = some (fs.openW dst).2 ∧ (fs.openW dst).1.data (fs.openW dst).2 = [] ∧
    (fs.openW dst).2 ≠ si ∧ (fs.openW dst).1.data si = fs.data si ∧ (fs.openW dst).1.ino src = some si := by
  unfold Fs.openW
  cases h : fs.ino dst with
  | some i =>
    have hi : i ≠ si := fun e => hne (by rw [h, e])
    simp [h, hs, hi, Ne.symm hi]
  | none =>
    have hi : fs.next ≠ si := fun e => by have := hw _ _ hs; omega
    have hsd : src ≠ dst := fun e => by rw [e, h] at hs; cases hs
    simp [hs, hi, Ne.symm hi, hsd]

theorem openA_spec {fs : Fs} (hw : fs.WF) {si : Nat} {src dst : Str} (hs : fs.ino src = some si) :
    (fs.openA dst).1.ino dst = some (fs.openA dst).2 ∧
    (fs.openA dst).1.data (fs.openA dst).2 = (fs.read dst).getD [] ∧
    (fs.openA dst).1.data si = fs.data si ∧ (fs.openA dst).1.ino src = some si := by
  unfold Fs.openA Fs.read
  cases h : fs.ino dst with
  | some i => simp [h, hs]
  | none =>
    have hi : fs.next ≠ si := fun e => by have := hw _ _ hs; omega
    have hsd : src ≠ dst := fun e => by rw [e, h] at hs; cases hs
    simp [hs, Ne.symm hi, hsd]

/-! ### copying loops -/

theorem readRec_grow {l : Ljh} {f : Bytes} {i : Int} {r : Rec} (h : readRec l f i = .ok r) (c : Bytes) :
    readRec l (f ++ c) i = .ok r := by
  unfold readRec at h ⊢
  split at h
  · cases h
  · rename_i k hk
    dsimp only at h ⊢
    split at h
    · cases h
    · rename_i hl
      have e : ((f ++ c).drop (l.headerSize + k * l.pulseSize)).take l.pulseSize =
          (f.drop (l.headerSize + k * l.pulseSize)).take l.pulseSize := by
        rw [List.length_take, List.length_drop] at hl
        by_cases hp : l.pulseSize = 0
        · simp [hp]
        · rw [List.drop_append_of_le_length (by omega), List.take_append_of_le_length (by rw [List.length_drop]; omega)]
      rw [e]
      rw [if_neg hl]; exact h

/-- `r` can be written by `helper_write_pulse`: its count and time are not negative [specification] -/
def Writable (r : Rec) : Prop := 0 ≤ r.sub.toInt ∧ 0 ≤ r.usec.toInt

theorem writeLoop_ok {l : Ljh} {src dst : Nat} {fs : Fs} {pulses : List Int} {rs : List Rec}
    (h : List.Forall₂ (fun i r => readRec l (fs.data src) i = .ok r ∧ Writable r) pulses rs) :
    writeLoop l src dst fs pulses = (fs.append dst (rs.flatMap encRec), none) := by
  induction pulses generalizing fs rs with
  | nil => cases h; simp [writeLoop, append_nil]
  | cons i t ih =>
    cases h with
    | @cons _ r _ rs hr ht =>
      unfold writeLoop
      rw [hr.1]
      dsimp only
      rw [if_neg (by have := hr.2.1; omega), if_neg (by have := hr.2.2; omega), append_append, append_append]
      rw [ih (rs := rs)]
      · rw [append_append]; simp [encRec]
      · refine List.Forall₂.imp ?_ ht
        intro i r' ⟨h1, h2⟩
        obtain ⟨c, hc⟩ := append_data fs dst src (le 8 r.sub.toNat ++ (le 8 r.usec.toNat ++ encData r.data))
        refine ⟨?_, h2⟩
        rw [hc]
        exact readRec_grow h1 c

theorem truncLoop_eq {l : Ljh} {src dst : Nat} {late : Rec → Bool} {recs : List Rec} (hlen : l.nPulses = recs.length)
    (n : Nat) (i : Nat) (fs : Fs) (hrec : ∀ k (h : k < recs.length), readRec l (fs.data src) (k : Int) = .ok recs[k]) :
    truncLoop l src dst late i n fs =
      (fs.append dst ((((recs.drop i).take n).takeWhile (fun r => !late r)).flatMap encRec),
       if ((recs.drop i).take n).all (fun r => !late r) = true ∧ ((recs.drop i).take n).length < n then some .index
       else none) := by
  induction n generalizing i fs with
  | zero => simp [truncLoop, append_nil]
  | succ n ih =>
    unfold truncLoop
    by_cases hi : i < recs.length
    · rw [hrec i hi]
      dsimp only
      rw [List.drop_eq_getElem_cons hi, List.take_succ_cons]
      by_cases hl : late recs[i] = true
      · simp [hl, append_nil]
      · rw [if_neg hl, ih]
        · rw [append_append, append_append, append_append]
          have hl' : late recs[i] = false := by simpa using hl
          simp only [List.takeWhile_cons, hl', Bool.not_false, if_true, List.flatMap_cons, encRec, List.append_assoc,
            List.all_cons, Bool.true_and, List.length_cons, Nat.add_lt_add_iff_right]
        · intro k hk
          rw [append_append, append_append]
          obtain ⟨c, hc⟩ := append_data fs dst src (le 8 recs[i].sub.toNat ++ (le 8 recs[i].usec.toNat ++ encData recs[i].data))
          rw [hc]
          exact readRec_grow (hrec k hk) c
    · have : readRec l (fs.data src) (i : Int) = .error .index := by
        unfold readRec
        have : normIdx l.nPulses (i : Int) = none := by
          unfold normIdx
          rw [if_neg (by omega), if_neg (by omega)]
        rw [this]
      rw [this]
      dsimp only
      rw [List.drop_of_length_le (by omega)]
      simp [append_nil]

/-! ### rewriting a header -/

/-- the state of a header dictionary that came from a scan [specification] -/
def DictWF (d : Dict) : Prop :=
  (d.map Prod.fst).Nodup ∧ ∀ e ∈ d, strip e.1 = e.1 ∧ strip e.2 = e.2 ∧ (58 : UInt8) ∉ e.1 ∧ (10 : UInt8) ∉ e.1 ∧ (10 : UInt8) ∉ e.2

theorem mem_dictSet {d : Dict} {k v : Bytes} {e : Bytes × Bytes} (h : e ∈ dictSet d k v) : e = (k, v) ∨ e ∈ d := by
  unfold dictSet at h
  split at h
  · obtain ⟨x, hx, rfl⟩ := List.mem_map.1 h
    split
    · exact .inl rfl
    · exact .inr hx
  · rcases List.mem_append.1 h with h | h
    · exact .inr h
    · exact .inl (by simpa using h)

theorem keys_dictSet {d : Dict} {k v : Bytes} :
    (dictSet d k v).map Prod.fst = if k ∈ d.map Prod.fst then d.map Prod.fst else d.map Prod.fst ++ [k] := by
  unfold dictSet
  by_cases h : k ∈ d.map Prod.fst
  · rw [if_pos (by simpa using h), if_pos h, List.map_map]
    apply List.map_congr_left
    intro x _
    simp only [Function.comp]
    split
    · simp_all
    · rfl
  · rw [if_neg (by simpa using h), if_neg h]; simp

theorem strip_strip (s : Bytes) : strip (strip s) = strip s := by
  apply Trims.eq_strip
  obtain ⟨_, _, _, _, _, h1, h2⟩ := strip_trims s
  exact ⟨[], [], by simp, by simp, by simp, h1, h2⟩

theorem mem_strip {s : Bytes} {b : UInt8} (h : b ∈ strip s) : b ∈ s := by
  obtain ⟨p, q, e, -⟩ := strip_trims s
  rw [e]; simp [h]

/-- stripping removes the newline at the end of a line -/
theorem nl_notMem_strip {a s : Bytes} (h : IsLine a ∨ (10 : UInt8) ∉ a) (hs : s <:+ a) : (10 : UInt8) ∉ strip s := by
  obtain ⟨p, q, e, hp, hq, h1, h2⟩ := strip_trims s
  intro hm
  rcases h with ⟨x, rfl, hx⟩ | h
  · obtain ⟨y, hy⟩ := hs
    -- the newline in `strip s` can only be the last byte
    obtain ⟨u, w, hw⟩ := List.append_of_mem hm
    have e2 : y ++ p ++ u ++ 10 :: (w ++ q) = x ++ [10] := by
      rw [← hy, e, hw]; simp
    have hwq : w ++ q = [] := by
      by_contra hc
      obtain ⟨z, hz⟩ := List.eq_nil_or_concat (w ++ q) |>.resolve_left hc
      obtain ⟨z2, hz⟩ := hz
      rw [hz] at e2
      have : (y ++ p ++ u ++ 10 :: z) ++ [z2] = x ++ [10] := by simpa using e2
      have := (List.append_inj' this rfl).1
      exact hx (by rw [← this]; simp)
    have hw0 : w = [] := (List.append_eq_nil_iff.1 hwq).1
    subst hw0
    have : (strip s).getLast? = some 10 := by rw [hw]; simp
    exact h2 10 this (by simp [Ws])
  · exact h (hs.mem (mem_strip hm))

theorem headerLine_wf {d : Dict} (hd : DictWF d) {line : Bytes} (hl : IsLine line ∨ (10 : UInt8) ∉ line) :
    DictWF (headerLine d line) := by
  unfold headerLine
  split
  · refine ⟨?_, ?_⟩
    · rw [keys_dictSet]
      split
      · exact hd.1
      · rename_i hn; exact List.nodup_append.2 ⟨hd.1, by simp, by simpa using fun a b hb e => hn (by rw [← e]; exact List.mem_map_of_mem hb)⟩
    · intro e he
      rcases mem_dictSet he with rfl | he
      · refine ⟨strip_strip _, strip_strip _, ?_, ?_, ?_⟩
        · intro hm
          have := mem_takeWhile (mem_strip hm)
          simp at this
        · intro hm
          have hm := mem_strip hm
          -- a newline before the colon: the line would have one in the middle
          rename_i hc _
          rcases hl with ⟨s, rfl, hs⟩ | hl
          · have hc : (58 : UInt8) ∈ s := by simpa using hc
            obtain ⟨a, b, rfl, ha⟩ := mem_split_ne hc
            rw [List.append_assoc, List.cons_append, (takeWhile_ne ha).1] at hm
            exact hs (by simp [hm])
          · exact hl ((List.takeWhile_sublist _).mem hm)
        · exact nl_notMem_strip hl (List.IsSuffix.trans (List.drop_suffix _ _) (List.dropWhile_suffix _))
      · exact hd.2 e he
  · exact hd

theorem foldl_wf {pre : List Bytes} (h : ∀ l ∈ pre, IsLine l) {d : Dict} (hd : DictWF d) :
    DictWF (pre.foldl headerLine d) := by
  induction pre generalizing d with
  | nil => exact hd
  | cons l t ih => exact ih (fun x hx => h x (by simp [hx])) (headerLine_wf hd (.inl (h l (by simp))))

theorem foldl_length (pre : List Bytes) (d : Dict) : (pre.foldl headerLine d).length ≤ d.length + pre.length := by
  induction pre generalizing d with
  | nil => simp
  | cons l t ih =>
    refine Nat.le_trans (ih _) ?_
    have : (headerLine d l).length ≤ d.length + 1 := by
      unfold headerLine
      split
      · unfold dictSet; split <;> simp
      · omega
    simp only [List.length_cons]; omega

theorem readHeader_wf {f : Bytes} {d : Dict} {n : Nat} (h : readHeader f = .ok (d, n)) : DictWF d ∧ d.length ≤ 256 := by
  obtain ⟨pre, endl, body, hs, hlen, -⟩ := header_scan_only h
  have := readHeader_run hs hlen
  rw [h] at this; injection this with this; injection this with h1 _
  subst h1
  refine ⟨foldl_wf (fun l hl => (hs.2.1 l hl).1) ⟨by simp, by simp⟩, ?_⟩
  have := foldl_length pre []
  simp at this; omega

/-- scanning `key ":" value` lines with new keys -/
theorem foldl_kv (kvs : List (Bytes × Bytes)) (d : Dict) (hk : ∀ e ∈ kvs, strip e.1 = e.1 ∧ (58 : UInt8) ∉ e.1)
    (hnd : (d.map Prod.fst ++ kvs.map Prod.fst).Nodup) :
    (kvs.map (fun e => e.1 ++ 58 :: e.2)).foldl headerLine d = d ++ kvs.map (fun e => (e.1, strip e.2)) := by
  induction kvs generalizing d with
  | nil => simp
  | cons e t ih =>
    obtain ⟨k, x⟩ := e
    obtain ⟨h1, h2⟩ := hk (k, x) (by simp)
    have hkd : k ∉ d.map Prod.fst := by
      have := (List.nodup_append.1 hnd).2.2
      intro hm; exact this k hm k (by simp) rfl
    have hl : headerLine d (k ++ 58 :: x) = d ++ [(k, strip x)] := by
      unfold headerLine
      rw [if_pos (by simp), (takeWhile_ne h2).1, (takeWhile_ne h2).2]
      simp only [List.drop_succ_cons, List.drop_zero]
      rw [h1]
      unfold dictSet
      rw [if_neg (by simpa using hkd)]
    rw [List.map_cons, List.foldl_cons, hl, ih]
    · simp
    · exact fun e he => hk e (by simp [he])
    · simpa [List.append_assoc] using hnd

theorem endMark_prefix_key {k x : Bytes} (h : endMark <+: k ++ 58 :: x) : endMark <+: k := by
  obtain ⟨w, hw⟩ := h
  rcases List.append_eq_append_iff.1 hw with ⟨a, ha, -⟩ | ⟨t, ht1, ht2⟩
  · exact ⟨a, ha.symm⟩
  · have h58 : (58 : UInt8) ∉ endMark := by decide +kernel
    cases t with
    | nil => rw [ht1]; simp
    | cons b t =>
      simp only [List.cons_append, List.cons.injEq] at ht2
      exact absurd (by rw [ht1, ← ht2.1]; simp) h58

theorem strip_value {v : Bytes} (h : strip v = v) : strip (32 :: (v ++ [13, 10])) = v := by
  apply Trims.eq_strip
  obtain ⟨_, _, _, _, _, h1, h2⟩ := strip_trims v
  rw [h] at h1 h2
  exact ⟨[32], [13, 10], by simp, by simp [Ws], by simp [Ws], h1, h2⟩

/-- the header written by `ljh_truncate` reads back as the same dictionary -/
theorem readHeader_dictBytes {d : Dict} (hd : DictWF d) (hlen : d.length ≤ 256)
    (hno : ∀ e ∈ d, ¬ endMark <+: e.1) (body : Bytes) :
    readHeader (dictBytes d ++ body) = .ok (d, (dictBytes d).length) := by
  let kvs : List (Bytes × Bytes) := d.map (fun e => (e.1, 32 :: (e.2 ++ [13, 10])))
  have hpre : dictBytes d = ((kvs.map (fun e => e.1 ++ 58 :: e.2))).flatten ++ asc "#End of Header\r\n" := by
    unfold dictBytes
    congr 1
    rw [List.flatMap_def]
    congr 1
    simp only [kvs, List.map_map]
    apply List.map_congr_left
    intro e _
    have h1 : asc ": " = [58, 32] := by decide +kernel
    have h2 : asc "\r\n" = [13, 10] := by decide +kernel
    simp [h1, h2]
  have hline : IsLine (asc "#End of Header\r\n") := ⟨asc "#End of Header\r", by decide +kernel, by decide +kernel⟩
  have hs : HeaderSplit (dictBytes d ++ body) (kvs.map (fun e => e.1 ++ 58 :: e.2)) (asc "#End of Header\r\n") body := by
    refine ⟨by rw [hpre]; simp, ?_, by decide +kernel, .inl hline⟩
    intro l hl
    obtain ⟨e, he, rfl⟩ := List.mem_map.1 hl
    obtain ⟨e0, he0, rfl⟩ := List.mem_map.1 he
    obtain ⟨-, -, -, hk, hv⟩ := hd.2 e0 he0
    refine ⟨⟨e0.1 ++ 58 :: 32 :: (e0.2 ++ [13]), by simp, by simp [hk, hv]⟩, fun hp => hno e0 he0 (endMark_prefix_key hp)⟩
  have := readHeader_run hs (by simpa [kvs] using hlen)
  rw [this, foldl_kv]
  · have e1 : [] ++ kvs.map (fun e => (e.1, strip e.2)) = d := by
      simp only [kvs, List.nil_append, List.map_map]
      conv_rhs => rw [← List.map_id d]
      apply List.map_congr_left
      intro e he
      simp only [Function.comp, id]
      rw [strip_value (hd.2 e he).2.1]
    rw [e1, hpre]; simp
  · intro e he
    obtain ⟨e0, he0, rfl⟩ := List.mem_map.1 he
    exact ⟨(hd.2 e0 he0).1, (hd.2 e0 he0).2.2.1⟩
  · simp only [kvs, List.map_nil, List.nil_append, List.map_map]
    exact hd.1

theorem parseFields_name {pf : Bytes → Option Rat} {f g : Str} {d : Dict} {p : Fields} {c : Int}
    (h : parseFields pf f d = .ok p) (hc : Names.fileChannum g = .ok c) : parseFields pf g d = .ok { p with ch := c } := by
  unfold parseFields at h ⊢
  obtain ⟨ver, h1, h⟩ := bind_ok h
  rw [h1]; dsimp only [bind, Except.bind]
  obtain ⟨old, h2, h⟩ := bind_ok h
  rw [h2]; dsimp only [bind, Except.bind]
  obtain ⟨ch, h3, h⟩ := bind_ok h
  rw [hc]; dsimp only [bind, Except.bind]
  obtain ⟨_, h4, h⟩ := bind_ok h
  rw [h4]; dsimp only [bind, Except.bind]
  obtain ⟨_, h5, h⟩ := bind_ok h
  rw [h5]; dsimp only [bind, Except.bind]
  obtain ⟨_, h6, h⟩ := bind_ok h
  rw [h6]; dsimp only [bind, Except.bind]
  obtain ⟨_, h7, h⟩ := bind_ok h
  rw [h7]; dsimp only [bind, Except.bind]
  obtain ⟨_, h8, h⟩ := bind_ok h
  rw [h8]; dsimp only [bind, Except.bind]
  obtain ⟨_, h9, h⟩ := bind_ok h
  rw [h9]; dsimp only [bind, Except.bind]
  obtain ⟨_, h10, h⟩ := bind_ok h
  rw [h10]; dsimp only [bind, Except.bind]
  obtain ⟨_, h11, h⟩ := bind_ok h
  rw [h11]; dsimp only [bind, Except.bind]
  obtain ⟨_, h12, h⟩ := bind_ok h
  rw [h12]; dsimp only [bind, Except.bind]
  obtain ⟨_, h13, h⟩ := bind_ok h
  rw [h13]; dsimp only [bind, Except.bind]
  obtain ⟨_, h14, h⟩ := bind_ok h
  rw [h14]; dsimp only [bind, Except.bind]
  simp only [pure, Except.pure, Except.ok.injEq] at h ⊢
  rw [← h]

end Mass.Ljh
