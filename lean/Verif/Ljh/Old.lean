import Verif.Ljh.Props
import Verif.Ljh.Open
import Mathlib.Data.Rat.Floor
import Mathlib.Tactic.Linarith
import Mathlib.Tactic.Ring
/-! C183: files of version 2.1 and older (`LJHFile2_1`, files.py L344-404) read back what was written to them. -/
namespace Mass.Ljh.Old
open Mass.Names (Str)

/-- a record as an old data acquisition writes it: 4 µs ticks, a byte that is not used, milliseconds, samples [specification] -/
structure Old where
  tick : UInt8
  unused : UInt8
  ms : BitVec 32
  data : List (BitVec 16)
  deriving DecidableEq

/-- its bytes [specification] -/
def enc (r : Old) : Bytes := [r.tick, r.unused] ++ (le 4 r.ms.toNat ++ encData r.data)

/-- its time stamp in ns [specification] -/
def Old.ns (r : Old) : ℤ := 4000 * (r.tick.toNat : ℤ) + 1000000 * (r.ms.toNat : ℤ)

theorem enc_length (r : Old) : (enc r).length = 6 + 2 * r.data.length := by
  simp only [enc, List.length_append, le_length, List.length_cons, List.length_nil, encData_length]
  omega

theorem flat_length (recs : List Old) {n : ℕ} (hn : ∀ r ∈ recs, r.data.length = n) : (recs.flatMap enc).length = recs.length * (6 + 2 * n) := by
  induction recs with
  | nil => simp
  | cons r t ih =>
    rw [List.flatMap_cons, List.length_append, enc_length, hn r (by simp), ih (fun x hx => hn x (by simp [hx])), List.length_cons]
    ring

theorem flat_drop (recs : List Old) {n : ℕ} (hn : ∀ r ∈ recs, r.data.length = n) (k : ℕ) (hk : k ≤ recs.length) (tl : Bytes) :
    (recs.flatMap enc ++ tl).drop (k * (6 + 2 * n)) = (recs.drop k).flatMap enc ++ tl := by
  have hn' : ∀ r ∈ recs.take k, r.data.length = n := fun r hr => hn r (List.mem_of_mem_take hr)
  have e : recs.flatMap enc = (recs.take k).flatMap enc ++ (recs.drop k).flatMap enc := by
    rw [← List.flatMap_append, List.take_append_drop]
  have hl : ((recs.take k).flatMap enc).length = k * (6 + 2 * n) := by
    rw [flat_length _ hn', List.length_take, Nat.min_eq_left hk]
  rw [e, List.append_assoc, List.drop_append_of_le_length (by omega), List.drop_of_length_le (by omega)]
  rfl

theorem decode_enc (l : Ljh) (r : Old) (h : r.data.length = l.nSamples) :
    (decode21 l (enc r)).data = r.data ∧ leNat ((enc r).take 1) = r.tick.toNat ∧ leNat (((enc r).drop 2).take 4) = r.ms.toNat := by
  have e6 : (enc r).drop 6 = encData r.data := by
    have : enc r = ([r.tick, r.unused] ++ le 4 r.ms.toNat) ++ encData r.data := by simp [enc]
    rw [this, List.drop_append_of_le_length (by simp [le_length]), List.drop_of_length_le (by simp [le_length])]
    rfl
  refine ⟨?_, by simp [enc, leNat], ?_⟩
  · unfold decode21
    dsimp only
    rw [e6, ← h]
    have := words_enc r.data []
    rwa [List.append_nil] at this
  · have : (enc r).drop 2 = le 4 r.ms.toNat ++ encData r.data := by simp [enc]
    rw [this, List.take_append_of_le_length (by simp [le_length]), List.take_of_length_le (by simp [le_length]), leNat_le, Nat.mod_eq_of_lt]
    exact r.ms.isLt

theorem trunc_nonneg (x : ℚ) (h : 0 ≤ x) : x.num.tdiv x.den = ⌊x⌋ := by
  rw [Int.tdiv_eq_ediv_of_nonneg (Rat.num_nonneg.2 h), ← Rat.floor_def]
  rfl

/-- What is read of a record: its samples; its frame, the first that begins at or after the time stamp, and three more for the 4-point trigger, as the subframe count; and the time of this
subframe in µs, rounded. `N` is the whole number of ns of a frame. [specification] -/
structure Reads (l : Ljh) (N : ℤ) (r : Old) (x : Rec) : Prop where
  data : x.data = r.data
  frame : ∃ k : ℤ, (k - 1) * N < r.ns ∧ r.ns ≤ k * N ∧ x.sub = BitVec.ofInt 64 ((k + 3) * l.subDiv + l.subOff) ∧
    ∀ t : ℚ, t = ((k : ℚ) + 3 + (l.subOff : ℚ) / l.subDiv) * l.timebase * 1000000 → 0 ≤ t → ∃ u : ℤ, x.usec = BitVec.ofInt 64 u ∧ t - 1 / 2 < u ∧ (u : ℚ) ≤ t + 1 / 2

theorem decode_reads (l : Ljh) (N : ℤ) (hN : 0 < N) (h1 : (N : ℚ) ≤ l.timebase * 1000000000) (h2 : l.timebase * 1000000000 < N + 1) (r : Old) (h : r.data.length = l.nSamples) :
    Reads l N r (decode21 l (enc r)) := by
  obtain ⟨hd, ht, hm⟩ := decode_enc l r h
  have hx : (l.timebase * 1000000000).num.tdiv (l.timebase * 1000000000).den = N := by
    have hNq : (0 : ℚ) < N := by exact_mod_cast hN
    rw [trunc_nonneg _ (by linarith), Int.floor_eq_iff]
    exact ⟨h1, h2⟩
  refine ⟨hd, ⟨(r.ns - 1) / N + 1, ?_, ?_, ?_, ?_⟩⟩
  · have := Int.mul_ediv_self_le (x := r.ns - 1) (k := N) (by omega)
    have e : ((r.ns - 1) / N + 1 - 1) * N = N * ((r.ns - 1) / N) := by ring
    omega
  · have := Int.lt_mul_ediv_self_add (x := r.ns - 1) hN
    have e : ((r.ns - 1) / N + 1) * N = N * ((r.ns - 1) / N) + N := by ring
    omega
  · unfold decode21 frameCount21
    dsimp only
    rw [ht, hm, hx]
    congr 2
    unfold Old.ns
    ring
  · intro t hte ht0
    refine ⟨⌊t + 1 / 2⌋, ?_, ?_, Int.floor_le _⟩
    · unfold decode21 frameCount21
      dsimp only
      rw [ht, hm, hx]
      rw [← trunc_nonneg _ (by linarith), hte]
      have : (((4 + ((4000 * (r.tick.toNat : ℤ) + 1000000 * (r.ms.toNat : ℤ)) - 1) / N : ℤ)) : ℚ) = (((r.ns - 1) / N + 1 : ℤ) : ℚ) + 3 := by
        unfold Old.ns; push_cast; ring
      rw [this]
    · have := Int.lt_floor_add_one (t + 1 / 2)
      linarith

/-- C183. A file with an old header, written record by record and perhaps ending within a record: it opens, has as many pulses as complete records, and each is read as it was written. -/
theorem old_records {pf : Bytes → Option ℚ} {fname : Str} {h : Bytes} {l0 : Ljh} (hh : HeaderOnly h) (ho : openBytes pf fname h = .ok l0) (hv : l0.v22 = false) (hdiv : l0.subDiv ≠ 0)
    (N : ℤ) (hN : 0 < N) (h1 : (N : ℚ) ≤ l0.timebase * 1000000000) (h2 : l0.timebase * 1000000000 < N + 1)
    {recs : List Old} (hn : ∀ r ∈ recs, r.data.length = l0.nSamples) {tl : Bytes} (ht : tl.length < 6 + 2 * l0.nSamples) :
    ∃ l, openBytes pf fname (h ++ (recs.flatMap enc ++ tl)) = .ok l ∧ l.nPulses = recs.length ∧ l.timebase = l0.timebase ∧ l.subDiv = l0.subDiv ∧ l.subOff = l0.subOff ∧
      ∀ k (hk : k < recs.length), ∃ x, readRec l (h ++ (recs.flatMap enc ++ tl)) k = .ok x ∧ Reads l N recs[k] x := by
  obtain ⟨ha, hb⟩ := open_append hh ho (recs.flatMap enc ++ tl)
  have hps : ∀ b, Ljh.pulseSize { l0 with binarySize := b } = 6 + 2 * l0.nSamples := by intro b; simp [Ljh.pulseSize, hv]
  have hp : Ljh.nPulses { l0 with binarySize := (recs.flatMap enc ++ tl).length } = recs.length := by
    unfold Ljh.nPulses
    rw [hps]
    dsimp only
    rw [List.length_append, flat_length recs hn, Nat.mul_comm, Nat.mul_add_div (by omega), Nat.div_eq_of_lt ht]
    rfl
  refine ⟨_, ha, hp, rfl, rfl, rfl, fun k hk => ?_⟩
  refine ⟨decode21 { l0 with binarySize := (recs.flatMap enc ++ tl).length } (enc recs[k]), ?_, decode_reads { l0 with binarySize := (recs.flatMap enc ++ tl).length } N hN h1 h2 _ (hn _ (List.getElem_mem hk))⟩
  have hi : normIdx (Ljh.nPulses { l0 with binarySize := (recs.flatMap enc ++ tl).length }) (k : ℤ) = some k := by
    unfold normIdx; rw [hp, if_pos ⟨by omega, by exact_mod_cast hk⟩]; simp
  have hd : (h ++ (recs.flatMap enc ++ tl)).drop (l0.headerSize + k * (6 + 2 * l0.nSamples)) = enc recs[k] ++ ((recs.drop (k + 1)).flatMap enc ++ tl) := by
    rw [hb, ← List.drop_drop, List.drop_append_of_le_length (by omega), List.drop_of_length_le (Nat.le_refl _),
      List.nil_append, flat_drop recs hn k (by omega), List.drop_eq_getElem_cons hk, List.flatMap_cons, List.append_assoc]
  have hlen := enc_length recs[k]
  rw [hn _ (List.getElem_mem hk)] at hlen
  unfold readRec
  rw [hi]
  dsimp only
  rw [hps, hd, List.take_append_of_le_length (by omega), List.take_of_length_le (by omega), if_neg (by omega), hv]
  simp only [Bool.false_eq_true, if_false, hdiv]

/-- C183 (crash). Such a file cut off at any byte after the header still opens, with exactly the records that were complete. -/
theorem old_crash {pf : Bytes → Option ℚ} {fname : Str} {h : Bytes} {l0 : Ljh} (hh : HeaderOnly h) (ho : openBytes pf fname h = .ok l0) (hv : l0.v22 = false) (hdiv : l0.subDiv ≠ 0)
    (N : ℤ) (hN : 0 < N) (h1 : (N : ℚ) ≤ l0.timebase * 1000000000) (h2 : l0.timebase * 1000000000 < N + 1)
    {recs : List Old} (hn : ∀ r ∈ recs, r.data.length = l0.nSamples) {c : ℕ} (hc : h.length ≤ c) :
    ∃ l m, openBytes pf fname ((h ++ recs.flatMap enc).take c) = .ok l ∧ l.nPulses = m ∧ m ≤ recs.length ∧ (∀ j ≤ recs.length, (j ≤ m ↔ (h ++ (recs.take j).flatMap enc).length ≤ c)) ∧
      ∀ k (hk : k < recs.length), k < m → ∃ x, readRec l ((h ++ recs.flatMap enc).take c) k = .ok x ∧ Reads l N recs[k] x := by
  have hnt : ∀ j, ∀ r ∈ recs.take j, r.data.length = l0.nSamples := fun j r hr => hn r (List.mem_of_mem_take hr)
  have hlenj : ∀ j ≤ recs.length, (h ++ (recs.take j).flatMap enc).length = h.length + j * (6 + 2 * l0.nSamples) := by
    intro j hj
    rw [List.length_append, flat_length _ (hnt j), List.length_take, Nat.min_eq_left hj]
  have hS : 0 < 6 + 2 * l0.nSamples := by omega
  obtain ⟨m, tl, hm, htl, heq, hiff⟩ : ∃ m tl, m ≤ recs.length ∧ tl.length < 6 + 2 * l0.nSamples ∧ (h ++ recs.flatMap enc).take c = h ++ ((recs.take m).flatMap enc ++ tl) ∧
      ∀ j ≤ recs.length, (j ≤ m ↔ h.length + j * (6 + 2 * l0.nSamples) ≤ c) := by
    by_cases hfull : h.length + recs.length * (6 + 2 * l0.nSamples) ≤ c
    · refine ⟨recs.length, [], Nat.le_refl _, by simp, ?_, fun j hj => ⟨fun _ => ?_, fun _ => hj⟩⟩
      · rw [List.take_length, List.append_nil, List.take_of_length_le]
        rw [List.length_append, flat_length _ hn]; exact hfull
      · have := Nat.mul_le_mul_right (6 + 2 * l0.nSamples) hj
        omega
    · generalize hSe : 6 + 2 * l0.nSamples = S at hS hfull
      have hq := Nat.div_add_mod (c - h.length) S
      have hr := Nat.mod_lt (c - h.length) hS
      generalize hm : (c - h.length) / S = m at hq
      generalize (c - h.length) % S = q at hq hr
      have hml : m < recs.length := by
        by_contra hge
        have := Nat.mul_le_mul_right S (Nat.le_of_not_lt hge)
        rw [Nat.mul_comm S m] at hq
        omega
      have hfl := flat_length (recs.take m) (hnt m)
      rw [List.length_take, Nat.min_eq_left (by omega), hSe] at hfl
      refine ⟨m, ((recs.drop m).flatMap enc).take q, by omega, ?_, ?_, fun j hj => ⟨fun hjm => ?_, fun hle => ?_⟩⟩
      · rw [List.length_take]; omega
      · have e : recs.flatMap enc = (recs.take m).flatMap enc ++ (recs.drop m).flatMap enc := by rw [← List.flatMap_append, List.take_append_drop]
        rw [e, List.take_append, List.take_of_length_le hc, List.take_append, List.take_of_length_le (i := c - h.length)]
        · congr 3
          rw [hfl]
          rw [Nat.mul_comm] at hq
          omega
        · rw [hfl]
          rw [Nat.mul_comm] at hq
          omega
      · have := Nat.mul_le_mul_right S hjm
        rw [Nat.mul_comm] at hq
        omega
      · by_contra hlt
        have := Nat.mul_le_mul_right S (Nat.lt_of_not_le hlt)
        rw [Nat.succ_mul] at this
        rw [Nat.mul_comm] at hq
        omega
  obtain ⟨l, a1, a2, -, -, -, a3⟩ := old_records hh ho hv hdiv N hN h1 h2 (hnt m) htl
  rw [← heq] at a1 a3
  have hmt : (recs.take m).length = m := by rw [List.length_take]; omega
  refine ⟨l, m, a1, a2.trans hmt, hm, fun j hj => by rw [hlenj j hj]; exact hiff j hj, fun k hk hkm => ?_⟩
  obtain ⟨x, b1, b2⟩ := a3 k (by omega)
  rw [List.getElem_take] at b2
  exact ⟨x, b1, b2⟩

/-- C183. So records written in order of time have subframe counts in order. -/
theorem old_in_order {l : Ljh} {N : ℤ} (hN : 0 < N) (hdiv : 0 < l.subDiv) {r r' : Old} {x x' : Rec} (h : Reads l N r x) (h' : Reads l N r' x') (ho : r.ns ≤ r'.ns) :
    ∃ s s' : ℤ, x.sub = BitVec.ofInt 64 s ∧ x'.sub = BitVec.ofInt 64 s' ∧ s ≤ s' ∧ (r.ns + N ≤ r'.ns → s + l.subDiv ≤ s') := by
  obtain ⟨k, a1, a2, a3, -⟩ := h.frame
  obtain ⟨k', b1, b2, b3, -⟩ := h'.frame
  have step : ∀ d : ℤ, 0 ≤ d → r.ns + d * N ≤ r'.ns → k + d ≤ k' := by
    intro d hd hle
    by_contra hlt
    have h0 : k' ≤ k - 1 + d := by omega
    have := Int.mul_le_mul_of_nonneg_right h0 (Int.le_of_lt hN)
    have e : (k - 1 + d) * N = (k - 1) * N + d * N := by ring
    omega
  refine ⟨_, _, a3, b3, ?_, fun hle => ?_⟩
  · have := step 0 (by omega) (by omega)
    have := Int.mul_le_mul_of_nonneg_right (show k + 3 ≤ k' + 3 by omega) (Int.le_of_lt hdiv)
    omega
  · have := step 1 (by omega) (by omega)
    have := Int.mul_le_mul_of_nonneg_right (show k + 1 + 3 ≤ k' + 3 by omega) (Int.le_of_lt hdiv)
    have e : (k + 1 + 3) * l.subDiv = (k + 3) * l.subDiv + l.subDiv := by ring
    omega

/-- C183. Opening raises an OSError exactly for a file that does not exist or whose first 256 lines have no end of a header: no value in a header raises one. -/
theorem open_missing (pf : Bytes → Option ℚ) (fs : Fs) (p : Str) : openFile pf fs p = .error .os ↔ fs.ino p = none ∨ ∃ i, fs.ino p = some i ∧ readHeader (fs.data i) = .error .os := by
  unfold openFile
  cases fs.ino p with
  | none => simp
  | some i =>
    simp only [Option.some.injEq, exists_eq_left', reduceCtorEq, false_or]
    unfold openBytes
    cases readHeader (fs.data i) with
    | error e => simp [bind, Except.bind, Except.map]
    | ok x =>
      obtain ⟨d, hs⟩ := x
      simp only [bind, Except.bind, reduceCtorEq, iff_false]
      intro h
      cases hp : parseHeader pf p d hs ((fs.data i).length - hs) with
      | ok l => rw [hp] at h; cases h
      | error e =>
        rw [hp] at h
        simp only [Except.map, Except.error.injEq] at h
        subst h
        rcases (Open.error_kinds pf p d hs ((fs.data i).length - hs)).1 _ hp with h | h | h | h <;> cases h

/-- an old header with 10 µs frames, four rows, row 2 [specification] -/
def oldHeader : Bytes := asc "Save File Format Version: 2.1.0\nTimebase: 1e-5\nTotal Samples: 2\nPresamples: 1\nNumber of rows: 4\nRow number (from 0-3 inclusive): 2\n#End of Header\n"
/-- the one number there is to parse [specification] -/
def pf5 (b : Bytes) : Option ℚ := if b = asc "1e-5" then some (1 / 100000) else none

/-- the hypotheses are met; 2.004 ms are in frame 201, read as 204, 2040 + 5 µs -/
example : let r : Old := ⟨1, 7, 2, [11, 12]⟩
    ((openBytes pf5 "a_chan1.ljh".toList oldHeader).map (fun l => (l.v22, l.subDiv, l.subOff, l.nSamples, l.timebase))) = .ok (false, 4, 2, 2, 1 / 100000) ∧
    ((readHeader oldHeader).map Prod.snd) = .ok oldHeader.length ∧ oldHeader.getLast? = some 10 ∧
    ((openBytes pf5 "a_chan1.ljh".toList (oldHeader ++ (enc r ++ [1, 2, 3]))).map (fun l => (l.nPulses, readRec l (oldHeader ++ (enc r ++ [1, 2, 3])) 0))) =
      .ok (1, .ok ⟨204 * 4 + 2, 2045, [11, 12]⟩) := by decide +kernel

/-- Disagreement (C183): a header with 0 subframe divisions is accepted, but then no record can be read with its time (ZeroDivisionError). -/
theorem no_divisions_fails : let h := asc "Save File Format Version: 2.1.0\nTimebase: 1e-5\nTotal Samples: 2\nPresamples: 1\nNumber of rows: 4\nRow number (from 0-3 inclusive): 2\nSubframe divisions: 0\n#End of Header\n"
    (openBytes pf5 "a_chan1.ljh".toList (h ++ enc ⟨1, 7, 2, [11, 12]⟩)).map (fun l => (l.nPulses, readRec l (h ++ enc ⟨1, 7, 2, [11, 12]⟩) 0)) = .ok (1, .error .zeroDiv) := by decide +kernel

/-- Disagreement (C183): a frame of less than 1 ns is taken for 0 ns; by NumPy a division by 0 is 0, so every record is in frame 4. -/
theorem short_frames_fails : let pf : Bytes → Option ℚ := fun _ => some (1 / 10000000000)
    let f := oldHeader ++ (enc ⟨1, 0, 2, [11, 12]⟩ ++ enc ⟨2, 0, 3, [13, 14]⟩)
    (openBytes pf "a_chan1.ljh".toList f).map (fun l => (records l f).map (fun r => r.map Rec.sub)) = .ok [.ok 18, .ok 18] := by decide +kernel

end Mass.Ljh.Old
