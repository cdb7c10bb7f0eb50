import Verif.Py
import Verif.Lin.Dft
import Verif.Stat.Autocorr
import Mathlib.Tactic.NormNum
/-! Power spectra, mass/mathstat/power_spectrum.py and mass/core/channel.py: C47 (segments), C72 (rebinning), C73 (normalisation), C74 (noise spectra). Over the reals, data without NaN. -/
namespace Mass.Stat.Spectrum
open Mass Mass.Lin.Dft Finset

/-- `PowerSpectrum`, mass/mathstat/power_spectrum.py L65-83 -/
structure Spec where
  m : ℕ
  dt : ℝ
  nseg : ℕ
  sum : ℕ → ℝ

/-- a new one, power_spectrum.py L73-83; only entries 0..m of the sum exist -/
def Spec.new (m : ℕ) (dt : ℝ) : Spec := ⟨m, dt, 0, fun _ => 0⟩

/-- w * data, power_spectrum.py L107 -/
def windowed (w : Option (List ℝ)) (d : List ℝ) : List ℝ :=
  match w with
  | none => d
  | some w => List.zipWith (· * ·) w d

/-- sum_window, power_spectrum.py L102, L108 -/
noncomputable def sumWindow (m : ℕ) (w : Option (List ℝ)) : ℝ :=
  match w with
  | none => (2 * m : ℕ)
  | some w => (w.map (· ^ 2)).sum

/-- scale_factor * ps, power_spectrum.py L110-117: entry k of what one segment adds -/
noncomputable def segPower (m : ℕ) (dt : ℝ) (w : Option (List ℝ)) (d : List ℝ) (k : ℕ) : ℝ :=
  2 / (sumWindow m w * (2 * m : ℕ)) * (dt * (2 * m : ℕ)) * power (2 * m) (fun j => (windowed w d).getD j 0) k

/-- `addDataSegment`, power_spectrum.py L93-118. The window is given as its values (the code also takes a function and calls it with 2m); values of another length do not multiply (a single value, which numpy would
    spread, is not modelled). With m = 0 the division or the transform fails. -/
noncomputable def addSeg (w : Option (List ℝ)) (s : Spec) (d : List ℝ) : Except Exc Spec :=
  if d.length ≠ 2 * s.m then .error .value
  else match w with
    | some w' => if w'.length ≠ 2 * s.m ∨ s.m = 0 then .error .value else .ok { s with nseg := s.nseg + 1, sum := fun k => s.sum k + segPower s.m s.dt w d k }
    | none => if s.m = 0 then .error .zeroDiv else .ok { s with nseg := s.nseg + 1, sum := fun k => s.sum k + segPower s.m s.dt w d k }

/-- the loops over segments: data[noff:noff+2m] for each offset (used for power_spectrum.py L120-128) -/
noncomputable def addAt (w : Option (List ℝ)) (data : List ℝ) : Spec → List ℕ → Except Exc Spec
  | s, [] => .ok s
  | s, o :: os => match addSeg w s ((data.drop o).take (2 * s.m)) with
    | .error e => .error e
    | .ok s' => addAt w data s' os

/-- `PowerSpectrum.addLongData`, power_spectrum.py L120-128 -/
noncomputable def addLong (w : Option (List ℝ)) (s : Spec) (data : List ℝ) : Except Exc Spec :=
  if s.m = 0 then .error .zeroDiv
  else addAt w data s ((List.range (data.length / (2 * s.m))).map (fun k => k * (2 * s.m)))

/-- the number of overlapping segments, power_spectrum.py L204; (nt - 1) // m is -1 for no data, giving an empty loop as 0 does -/
def nOverlap (m nt : ℕ) : ℕ := (nt - 1) / m

/-- the offsets int(k * delta_el + 0.5), power_spectrum.py L205-210, as exact fractions; nt < 2m never has two segments -/
def offset (m nt k : ℕ) : ℕ :=
  if 1 < nOverlap m nt then (2 * k * (nt - 2 * m) + (nOverlap m nt - 1)) / (2 * (nOverlap m nt - 1)) else 0

/-- `PowerSpectrumOverlap.addLongData`, power_spectrum.py L200-213 -/
noncomputable def addLongOverlap (w : Option (List ℝ)) (s : Spec) (data : List ℝ) : Except Exc Spec :=
  if s.m = 0 then .error .zeroDiv
  else addAt w data s ((List.range (nOverlap s.m data.length)).map (offset s.m data.length))

/-- `PowerSpectrumOverlap.addDataSegment`, power_spectrum.py L188-198: `prev` is the last half segment, none before the first. Segments of length m (a first segment of another length fails at the next call, not modelled). -/
noncomputable def addHalf (w : Option (List ℝ)) (st : Option (List ℝ) × Spec) (d : List ℝ) : Except Exc (Option (List ℝ) × Spec) :=
  match st.1 with
  | none => .ok (some d, st.2)
  | some p => match addSeg w st.2 (p ++ d) with
    | .error e => .error e
    | .ok s => .ok (some d, s)

/-- addHalf for several segments in turn (used for power_spectrum.py L262-305) -/
noncomputable def addHalves (w : Option (List ℝ)) : Option (List ℝ) × Spec → List (List ℝ) → Except Exc (Option (List ℝ) × Spec)
  | st, [] => .ok st
  | st, d :: ds => match addHalf w st d with
    | .error e => .error e
    | .ok st' => addHalves w st' ds

/-- `spectrum()`, power_spectrum.py L130-133; NaN (none) if there are no segments -/
noncomputable def spectrum (s : Spec) : List (Option ℝ) := (List.range (s.m + 1)).map (fun k => if s.nseg = 0 then none else some (s.sum k / s.nseg))

/-- newbin, power_spectrum.py L137, as exact fractions: int(0.5 + i / (m+1) * nbins) -/
def newbin (m nbins i : ℕ) : ℕ := (2 * i * nbins + (m + 1)) / (2 * (m + 1))

/-- the frequencies averaged into bin b (used for power_spectrum.py L130-141) -/
def binMembers (m nbins b : ℕ) : List ℕ := (List.range (m + 1)).filter (fun i => newbin m nbins i == b)

/-- `spectrum(nbins)`, power_spectrum.py L130-141; the mean of an empty bin is NaN (none) -/
noncomputable def rebin (s : Spec) (nbins : ℕ) : Except Exc (List (Option ℝ)) :=
  if s.m < nbins then .error .value
  else .ok ((List.range (nbins + 1)).map (fun b =>
    if binMembers s.m nbins b = [] ∨ s.nseg = 0 then none
    else some (((binMembers s.m nbins b).map s.sum).sum / (binMembers s.m nbins b).length / s.nseg)))

/-- frequencies()[k], power_spectrum.py L147-153 -/
noncomputable def frequency (m : ℕ) (dt : ℝ) (k : ℕ) : ℝ := k / (2 * dt * m)

/-- `computeSpectrum`, power_spectrum.py L262-305, the spectrum only. The window is a function of the length, or none (a sequence is ignored by the code: L287-290). `dt` none means 1. -/
noncomputable def computeSpectrum (data : List ℝ) (segfactor : ℕ) (dt : Option ℝ) (window : Option (ℕ → List ℝ)) : Except Exc (List (Option ℝ)) :=
  if segfactor = 0 then .error .zeroDiv
  else
    let M := data.length / (2 * segfactor)
    let w := window.map (fun f => f (2 * M))
    if segfactor = 1 then (addSeg w (.new M (dt.getD 1)) (data.take (2 * (data.length / 2)))).map spectrum
    else (addHalves w (none, .new M (dt.getD 1)) ((List.range (2 * segfactor - 1)).map (fun i => (data.drop (i * M)).take M))).map (fun st => spectrum st.2)

/-! ### Segments -/

/-- what is needed for segments to be processed: a positive length, a window of the right length [specification] -/
def Fits (w : Option (List ℝ)) (m : ℕ) : Prop := m ≠ 0 ∧ ∀ w', w = some w' → w'.length = 2 * m

theorem addSeg_ok (w : Option (List ℝ)) (s : Spec) (d : List ℝ) (hw : Fits w s.m) (hd : d.length = 2 * s.m) :
    addSeg w s d = .ok { s with nseg := s.nseg + 1, sum := fun k => s.sum k + segPower s.m s.dt w d k } := by
  unfold addSeg
  rw [if_neg (by simpa using hd)]
  cases w with
  | none => simp [hw.1]
  | some w' => simp [hw.1, hw.2 w' rfl]

theorem addAt_ok (w : Option (List ℝ)) (data : List ℝ) (os : List ℕ) (s : Spec) (hw : Fits w s.m) (ho : ∀ o ∈ os, o + 2 * s.m ≤ data.length) :
    addAt w data s os = .ok { s with nseg := s.nseg + os.length, sum := fun k => s.sum k + (os.map (fun o => segPower s.m s.dt w ((data.drop o).take (2 * s.m)) k)).sum } := by
  induction os generalizing s with
  | nil => simp [addAt]
  | cons o os ih =>
    have h1 := ho o (by simp)
    unfold addAt
    rw [addSeg_ok w s _ hw (by rw [List.length_take, List.length_drop]; omega)]
    dsimp only
    rw [ih]
    rotate_left
    · exact hw
    · exact fun o' ho' => ho o' (by simp [ho'])
    simp only [List.length_cons, List.map_cons, List.sum_cons, Except.ok.injEq, Spec.mk.injEq, true_and]
    refine ⟨by omega, funext fun k => by ring⟩

/-- C47: addLongData takes the complete non-overlapping segments, from the start, each inside the data, and nothing else. -/
theorem add_long (w : Option (List ℝ)) (s : Spec) (data : List ℝ) (hw : Fits w s.m) :
    addLong w s data = .ok { s with
      nseg := s.nseg + data.length / (2 * s.m)
      sum := fun k => s.sum k + ((List.range (data.length / (2 * s.m))).map (fun i => segPower s.m s.dt w ((data.drop (i * (2 * s.m))).take (2 * s.m)) k)).sum } ∧
    ∀ i < data.length / (2 * s.m), ((data.drop (i * (2 * s.m))).take (2 * s.m)).length = 2 * s.m := by
  have hin : ∀ i < data.length / (2 * s.m), i * (2 * s.m) + 2 * s.m ≤ data.length := by
    intro i hi
    have h1 : (i + 1) * (2 * s.m) ≤ data.length := le_trans (Nat.mul_le_mul_right _ hi) (Nat.div_mul_le_self _ _)
    have : (i + 1) * (2 * s.m) = i * (2 * s.m) + 2 * s.m := by ring
    omega
  constructor
  · unfold addLong
    rw [if_neg hw.1, addAt_ok w data _ s hw]
    · simp [List.map_map, Function.comp_def]
    · intro o ho
      obtain ⟨i, hi, rfl⟩ := List.mem_map.1 ho
      exact hin i (List.mem_range.1 hi)
  · intro i hi
    rw [List.length_take, List.length_drop]
    have := hin i hi
    omega

/-- C47: splitting the data between calls at a segment boundary makes no difference. -/
theorem add_long_split (w : Option (List ℝ)) (s : Spec) (xs ys : List ℝ) (hw : Fits w s.m) (hd : 2 * s.m ∣ xs.length) :
    addLong w s (xs ++ ys) = (addLong w s xs).bind (fun s' => addLong w s' ys) := by
  obtain ⟨q, hq⟩ := hd
  have hpos : 0 < 2 * s.m := by have := hw.1; omega
  rw [(add_long w s (xs ++ ys) hw).1, (add_long w s xs hw).1]
  simp only [Except.bind]
  rw [(add_long w _ ys (by exact hw)).1]
  have e1 : xs.length / (2 * s.m) = q := by rw [hq, Nat.mul_div_cancel_left _ hpos]
  have e2 : (xs ++ ys).length / (2 * s.m) = q + ys.length / (2 * s.m) := by
    rw [List.length_append, hq, Nat.mul_add_div hpos]
  simp only [e1, e2, Except.ok.injEq, Spec.mk.injEq, true_and]
  refine ⟨by omega, funext fun k => ?_⟩
  rw [List.range_add, List.map_append, List.sum_append, ← add_assoc]
  congr 1
  · congr 2
    refine List.map_congr_left (fun i hi => ?_)
    have hi := List.mem_range.1 hi
    have h1 : i * (2 * s.m) + 2 * s.m ≤ xs.length := by
      have : (i + 1) * (2 * s.m) ≤ q * (2 * s.m) := Nat.mul_le_mul_right _ hi
      rw [hq]
      have e : (i + 1) * (2 * s.m) = i * (2 * s.m) + 2 * s.m := by ring
      rw [mul_comm (2 * s.m) q]
      omega
    rw [List.drop_append_of_le_length (by omega), List.take_append_of_le_length (by rw [List.length_drop]; omega)]
  · rw [List.map_map]
    congr 1
    refine List.map_congr_left (fun i _ => ?_)
    simp only [Function.comp]
    have : (q + i) * (2 * s.m) = xs.length + i * (2 * s.m) := by rw [hq]; ring
    rw [this, List.drop_append, List.drop_of_length_le (by omega)]
    simp

example : (addLong none (.new 1 1) [1, 2, 3, 4, 5]).map (·.nseg) = .ok 2 := by
  rw [(add_long none (.new 1 1) _ ⟨by simp [Spec.new], by simp⟩).1]
  rfl

/-! Overlapping segments -/

theorem nOverlap_ge (m nt : ℕ) (hm : 1 ≤ m) (h : 2 * m < nt) : 2 ≤ nOverlap m nt := by
  unfold nOverlap
  exact (Nat.le_div_iff_mul_le hm).2 (by omega)

/-- C47, overlapping segments of at least one full segment of data: the first starts at 0, the last ends at the end, all are inside the data, and each starts at most half a segment (m) after the
    one before, so that no sample is left out. -/
theorem overlap_offsets (m nt : ℕ) (hm : 1 ≤ m) (h : 2 * m ≤ nt) :
    1 ≤ nOverlap m nt ∧ offset m nt 0 = 0 ∧ offset m nt (nOverlap m nt - 1) + 2 * m = nt ∧ (∀ k < nOverlap m nt, offset m nt k + 2 * m ≤ nt) ∧
    ∀ k, offset m nt k ≤ offset m nt (k + 1) ∧ offset m nt (k + 1) ≤ offset m nt k + m := by
  rcases Nat.lt_or_ge (2 * m) nt with h2 | h2
  · have hn := nOverlap_ge m nt hm h2
    have hcover : nt - m ≤ m * nOverlap m nt := by
      unfold nOverlap
      have := Nat.div_add_mod (nt - 1) m
      have := Nat.mod_lt (nt - 1) hm
      omega
    unfold offset
    generalize nOverlap m nt = n at hn hcover
    obtain ⟨p, rfl⟩ : ∃ p, n = p + 2 := ⟨n - 2, by omega⟩
    have hpos : 0 < 2 * (p + 2 - 1) := by omega
    simp only [show 1 < p + 2 by omega, if_true]
    obtain ⟨D, rfl⟩ : ∃ D, nt = D + 2 * m := ⟨nt - 2 * m, by omega⟩
    have hD : D ≤ m * (p + 1) := by
      have : m * (p + 2) = m * (p + 1) + m := by ring
      omega
    rw [Nat.add_sub_cancel]
    refine ⟨by omega, ?_, ?_, ?_, ?_⟩
    · simp only [Nat.mul_zero, Nat.zero_mul, Nat.zero_add]
      exact Nat.div_eq_of_lt (by omega)
    · have e : 2 * (p + 2 - 1) * D + (p + 2 - 1) = 2 * (p + 2 - 1) * D + (p + 2 - 1) := rfl
      rw [Nat.mul_add_div hpos, Nat.div_eq_of_lt (by omega)]
      omega
    · intro k hk
      have : (2 * k * D + (p + 2 - 1)) / (2 * (p + 2 - 1)) ≤ D := by
        refine Nat.lt_succ_iff.1 ((Nat.div_lt_iff_lt_mul hpos).2 ?_)
        have h1 : k * D ≤ (p + 2 - 1) * D := Nat.mul_le_mul_right _ (by omega)
        have h2 : (D + 1) * (2 * (p + 2 - 1)) = 2 * ((p + 2 - 1) * D) + 2 * (p + 2 - 1) := by ring
        have h3 : 2 * k * D = 2 * (k * D) := by ring
        rw [Nat.succ_eq_add_one]
        omega
      omega
    · intro k
      have e : 2 * (k + 1) * D = 2 * k * D + 2 * D := by ring
      constructor
      · exact Nat.div_le_div_right (by omega)
      · rw [← Nat.add_mul_div_left _ _ hpos]
        refine Nat.div_le_div_right ?_
        have e2 : 2 * (p + 2 - 1) * m = 2 * (m * (p + 1)) := by
          rw [show p + 2 - 1 = p + 1 by omega]; ring
        omega
  · have hnt : nt = 2 * m := by omega
    subst hnt
    have hn : nOverlap m (2 * m) = 1 := by
      unfold nOverlap
      rw [Nat.div_eq_iff (by omega)]
      omega
    have ho : ∀ k, offset m (2 * m) k = 0 := by
      intro k
      unfold offset
      rw [hn, if_neg (by omega)]
    simp only [hn, ho]
    exact ⟨le_refl _, trivial, by omega, fun _ _ => by omega, fun _ => by omega⟩

/-- C47 for overlapping segments: the segments at these offsets are what is added. -/
theorem add_long_overlap_partial (w : Option (List ℝ)) (s : Spec) (data : List ℝ) (hw : Fits w s.m) (hd : 2 * s.m ≤ data.length) :
    addLongOverlap w s data = .ok { s with
      nseg := s.nseg + nOverlap s.m data.length
      sum := fun k => s.sum k + ((List.range (nOverlap s.m data.length)).map (fun i => segPower s.m s.dt w ((data.drop (offset s.m data.length i)).take (2 * s.m)) k)).sum } := by
  unfold addLongOverlap
  have hm : 1 ≤ s.m := by have := hw.1; omega
  rw [if_neg hw.1, addAt_ok w data _ s hw]
  · simp [List.map_map, Function.comp_def]
  · intro o ho
    obtain ⟨i, hi, rfl⟩ := List.mem_map.1 ho
    exact (overlap_offsets s.m data.length hm hd).2.2.2.1 i (List.mem_range.1 hi)

example : nOverlap 4 19 = 4 ∧ (List.range 4).map (offset 4 19) = [0, 4, 7, 11] := by decide +kernel

/-- Data longer than half a segment but shorter than a segment are not ignored but raise ValueError. -/
theorem add_long_overlap_fails (w : Option (List ℝ)) (s : Spec) (data : List ℝ) (h1 : s.m < data.length) (h2 : data.length < 2 * s.m) : addLongOverlap w s data = .error .value := by
  unfold addLongOverlap
  have hn : nOverlap s.m data.length = 1 := by
    unfold nOverlap
    rw [Nat.div_eq_iff (by omega)]
    omega
  rw [if_neg (by omega), hn]
  simp only [List.range_succ, List.range_zero, List.nil_append, List.map_cons, List.map_nil, addAt]
  unfold addSeg
  rw [if_pos (by rw [List.length_take, List.length_drop]; omega)]

/-- Splitting overlapping data at a segment boundary loses the segment across the boundary. -/
theorem overlap_split_fails (w : Option (List ℝ)) (xs ys : List ℝ) (hx : xs.length = 4) (hy : ys.length = 4) (hw : Fits w 2) :
    (addLongOverlap w (.new 2 1) (xs ++ ys)).map (·.nseg) = .ok 3 ∧ ((addLongOverlap w (.new 2 1) xs).bind (fun s => addLongOverlap w s ys)).map (·.nseg) = .ok 2 := by
  constructor
  · rw [add_long_overlap_partial w _ _ hw (by simp [Spec.new, hx])]
    simp [Except.map, Spec.new, hx, hy]
    decide
  · rw [add_long_overlap_partial w _ _ hw (by simp [Spec.new, hx])]
    simp only [Except.bind]
    rw [add_long_overlap_partial w _ _ hw (by simp [Spec.new, hy])]
    simp [Except.map, Spec.new, hx, hy]
    decide

/-- Half segments b0, b1, ..., bn added in turn: each two neighbours make one segment. -/
theorem add_halves (w : Option (List ℝ)) (s : Spec) (b : List ℝ) (bs : List (List ℝ)) (hw : Fits w s.m) (hl : ∀ d ∈ b :: bs, d.length = s.m) :
    addHalves w (none, s) (b :: bs) = .ok ((b :: bs).getLast?,
      { s with nseg := s.nseg + bs.length, sum := fun k => s.sum k + ((List.zipWith (· ++ ·) (b :: bs) bs).map (fun d => segPower s.m s.dt w d k)).sum }) := by
  have key : ∀ (bs : List (List ℝ)) (b : List ℝ) (s : Spec), Fits w s.m → (∀ d ∈ b :: bs, d.length = s.m) → addHalves w (some b, s) bs = .ok ((b :: bs).getLast?,
      { s with nseg := s.nseg + bs.length, sum := fun k => s.sum k + ((List.zipWith (· ++ ·) (b :: bs) bs).map (fun d => segPower s.m s.dt w d k)).sum }) := by
    intro bs
    induction bs with
    | nil => intro b s _ _; simp [addHalves]
    | cons c bs ih =>
      intro b s hw hl
      have hb := hl b (by simp)
      have hc := hl c (by simp)
      unfold addHalves addHalf
      dsimp only
      rw [addSeg_ok w s (b ++ c) hw (by simp [hb, hc]; omega)]
      dsimp only
      rw [ih]
      rotate_left
      · exact hw
      · exact fun d hd => hl d (by simp at hd ⊢; tauto)
      simp only [List.length_cons, List.zipWith_cons_cons, List.map_cons, List.sum_cons, Except.ok.injEq, Prod.mk.injEq, Spec.mk.injEq, true_and]
      refine ⟨by simp, by omega, funext fun k => by ring⟩
  unfold addHalves addHalf
  exact key bs b s hw hl

/-- computeSpectrum with more than one segment never looks at the last half segment. -/
theorem compute_spectrum_tail_fails (xs ys zs : List ℝ) (sf : ℕ) (dt : Option ℝ) (window : Option (ℕ → List ℝ)) (hs : 2 ≤ sf) (hl : ys.length = zs.length)
    (hx : (2 * sf - 1) * ((xs ++ ys).length / (2 * sf)) ≤ xs.length) : computeSpectrum (xs ++ ys) sf dt window = computeSpectrum (xs ++ zs) sf dt window := by
  unfold computeSpectrum
  have e : (xs ++ ys).length = (xs ++ zs).length := by simp [hl]
  rw [if_neg (by omega), if_neg (by omega)]
  dsimp only
  rw [if_neg (by omega), if_neg (by omega), ← e]
  generalize hM : (xs ++ ys).length / (2 * sf) = M at hx ⊢
  congr 2
  refine List.map_congr_left (fun i hi => ?_)
  have hi := List.mem_range.1 hi
  have h1 : (i + 1) * M ≤ (2 * sf - 1) * M := Nat.mul_le_mul_right _ (by omega)
  have h2 : (i + 1) * M = i * M + M := by ring
  rw [List.drop_append_of_le_length (by omega), List.drop_append_of_le_length (by omega), List.take_append_of_le_length (by rw [List.length_drop]; omega),
    List.take_append_of_le_length (by rw [List.length_drop]; omega)]

example : computeSpectrum [1, 2, 3, 4] 2 none none = computeSpectrum [1, 2, 3, 99] 2 none none :=
  compute_spectrum_tail_fails [1, 2, 3] [4] [99] 2 none none (by norm_num) rfl (by norm_num)

/-! ### Rebinning -/

theorem newbin_zero (m nb : ℕ) : newbin m nb 0 = 0 := by
  unfold newbin
  rw [Nat.mul_zero, Nat.zero_mul, Nat.zero_add]
  exact Nat.div_eq_of_lt (by omega)

theorem newbin_step (m nb i : ℕ) (h : nb ≤ m + 1) : newbin m nb i ≤ newbin m nb (i + 1) ∧ newbin m nb (i + 1) ≤ newbin m nb i + 1 := by
  unfold newbin
  have e : 2 * (i + 1) * nb = 2 * i * nb + 2 * nb := by ring
  constructor
  · exact Nat.div_le_div_right (by omega)
  · rw [← Nat.add_div_right _ (show 0 < 2 * (m + 1) by omega)]
    exact Nat.div_le_div_right (by omega)

theorem newbin_last (m nb : ℕ) : nb ≤ newbin m nb m ↔ 2 * nb ≤ m + 1 := by
  unfold newbin
  rw [Nat.le_div_iff_mul_le (by omega)]
  have e1 : nb * (2 * (m + 1)) = 2 * m * nb + 2 * nb := by ring
  omega

theorem newbin_le (m nb i : ℕ) (h : i ≤ m) : newbin m nb i ≤ nb := by
  unfold newbin
  refine Nat.lt_succ_iff.1 ((Nat.div_lt_iff_lt_mul (by omega)).2 ?_)
  have h1 : i * nb ≤ m * nb := Nat.mul_le_mul_right _ h
  have e : (nb + 1) * (2 * (m + 1)) = 2 * (m * nb) + 2 * nb + 2 * (m + 1) := by ring
  have e2 : 2 * i * nb = 2 * (i * nb) := by ring
  rw [Nat.succ_eq_add_one]
  omega

theorem newbin_hits (m nb b : ℕ) (h : 2 * nb ≤ m + 1) (hb : b ≤ nb) : ∃ i ≤ m, newbin m nb i = b := by
  have key : ∀ n, b ≤ newbin m nb n → ∃ i ≤ n, newbin m nb i = b := by
    intro n
    induction n with
    | zero =>
      intro hn
      rw [newbin_zero] at hn
      exact ⟨0, le_refl _, by rw [newbin_zero]; omega⟩
    | succ n ih =>
      intro hn
      by_cases hlt : b ≤ newbin m nb n
      · obtain ⟨i, hi, he⟩ := ih hlt
        exact ⟨i, by omega, he⟩
      · have := (newbin_step m nb n (by omega)).2
        exact ⟨n + 1, le_refl _, by omega⟩
  exact key m (le_trans hb ((newbin_last m nb).2 h))

theorem bins_sum (f : ℕ → ℝ) (m nb : ℕ) : ((List.range (nb + 1)).map (fun b => ((binMembers m nb b).map f).sum)).sum = ((List.range (m + 1)).map f).sum := by
  unfold binMembers
  have hall : ∀ i ∈ List.range (m + 1), newbin m nb i ∈ List.range (nb + 1) := by
    intro i hi
    have := newbin_le m nb i (by have := List.mem_range.1 hi; omega)
    exact List.mem_range.2 (by omega)
  generalize List.range (m + 1) = l at hall
  have hnd : (List.range (nb + 1)).Nodup := List.nodup_range
  generalize List.range (nb + 1) = bs at hall hnd
  induction l with
  | nil => simp
  | cons a l ih =>
    have ih' := ih (fun i hi => hall i (by simp [hi]))
    have ha := hall a (by simp)
    rw [List.map_cons, List.sum_cons, ← ih']
    clear ih ih' hall
    induction bs with
    | nil => simp at ha
    | cons b bs ihb =>
      have hnd' := List.nodup_cons.1 hnd
      simp only [List.map_cons, List.sum_cons]
      by_cases hb : newbin m nb a = b
      · have hrest : (bs.map (fun b => (((a :: l).filter (fun i => newbin m nb i == b)).map f).sum)) = bs.map (fun b => ((l.filter (fun i => newbin m nb i == b)).map f).sum) := by
          refine List.map_congr_left (fun c hc => ?_)
          have : newbin m nb a ≠ c := by rintro rfl; exact hnd'.1 (hb ▸ hc)
          rw [List.filter_cons_of_neg (by simpa using this)]
        rw [hrest, List.filter_cons_of_pos (by simpa using hb), List.map_cons, List.sum_cons]
        ring
      · have ha' : newbin m nb a ∈ bs := by
          rcases List.mem_cons.1 ha with h | h
          · exact absurd h hb
          · exact h
        rw [List.filter_cons_of_neg (by simpa using hb), ihb hnd'.2 ha']
        ring

/-- C72, up to half as many bins as frequencies: every bin holds the mean of its members (each frequency is a member of exactly one bin, in order), and the means weighted with the numbers of
    members add up to the whole spectrum. -/
theorem rebin_partial (s : Spec) (nb : ℕ) (h : 2 * nb ≤ s.m + 1) (h0 : s.nseg ≠ 0) (hm : nb ≤ s.m) :
    ∃ v : ℕ → ℝ, rebin s nb = .ok ((List.range (nb + 1)).map (fun b => some (v b))) ∧ (∀ b ≤ nb, binMembers s.m nb b ≠ [] ∧ v b * (binMembers s.m nb b).length = ((binMembers s.m nb b).map s.sum).sum / s.nseg) ∧
    ((List.range (nb + 1)).map (fun b => v b * (binMembers s.m nb b).length)).sum = ((List.range (s.m + 1)).map s.sum).sum / s.nseg := by
  have hne : ∀ b ≤ nb, binMembers s.m nb b ≠ [] := by
    intro b hb
    obtain ⟨i, hi, he⟩ := newbin_hits s.m nb b h hb
    have : i ∈ binMembers s.m nb b := List.mem_filter.2 ⟨List.mem_range.2 (by omega), by simpa using he⟩
    exact List.ne_nil_of_mem this
  have hval : ∀ b ≤ nb, ((binMembers s.m nb b).map s.sum).sum / (binMembers s.m nb b).length / s.nseg * (binMembers s.m nb b).length = ((binMembers s.m nb b).map s.sum).sum / s.nseg := by
    intro b hb
    have : ((binMembers s.m nb b).length : ℝ) ≠ 0 := by
      have := List.length_pos_iff.2 (hne b hb)
      exact_mod_cast this.ne'
    field_simp
  refine ⟨fun b => ((binMembers s.m nb b).map s.sum).sum / (binMembers s.m nb b).length / s.nseg, ?_, fun b hb => ⟨hne b hb, hval b hb⟩, ?_⟩
  · unfold rebin
    rw [if_neg (by omega)]
    congr 1
    refine List.map_congr_left (fun b hb => ?_)
    have := List.mem_range.1 hb
    rw [if_neg (by simp [hne b (by omega), h0])]
  · have : (List.range (nb + 1)).map (fun b => ((binMembers s.m nb b).map s.sum).sum / (binMembers s.m nb b).length / s.nseg * (binMembers s.m nb b).length) =
        (List.range (nb + 1)).map (fun b => ((binMembers s.m nb b).map s.sum).sum * (1 / s.nseg)) := by
      refine List.map_congr_left (fun b hb => ?_)
      have := List.mem_range.1 hb
      rw [hval b (by omega)]
      ring
    rw [this, List.sum_map_mul_right, bins_sum]
    ring

example : (List.range 9).map (newbin 8 3) = [0, 0, 1, 1, 1, 2, 2, 2, 3] := by decide +kernel

/-- With more bins, up to the permitted m, the last bin is always empty and NaN. -/
theorem rebin_fails (s : Spec) (nb : ℕ) (h : s.m + 1 < 2 * nb) (hm : nb ≤ s.m) : ∃ l, rebin s nb = .ok (l ++ [none]) := by
  have he : binMembers s.m nb nb = [] := by
    unfold binMembers
    rw [List.filter_eq_nil_iff]
    intro i hi
    have hi := List.mem_range.1 hi
    have h1 : newbin s.m nb i ≤ newbin s.m nb s.m := by
      unfold newbin
      refine Nat.div_le_div_right ?_
      have : i * nb ≤ s.m * nb := Nat.mul_le_mul_right _ (by omega)
      have e1 : 2 * i * nb = 2 * (i * nb) := by ring
      have e2 : 2 * s.m * nb = 2 * (s.m * nb) := by ring
      omega
    have h2 : ¬ nb ≤ newbin s.m nb s.m := fun hc => by have := (newbin_last s.m nb).1 hc; omega
    have : newbin s.m nb i ≠ nb := by omega
    simpa using this
  unfold rebin
  rw [if_neg (by omega), List.range_succ, List.map_append, List.map_singleton, if_pos (.inl he)]
  exact ⟨_, rfl⟩

/-! ### Normalisation -/

/-- the mean square of a windowed segment, relative to the window's [specification] -/
noncomputable def meanSquare (w : Option (List ℝ)) (d : List ℝ) : ℝ :=
  match w with
  | none => (∑ j ∈ range d.length, d.getD j 0 ^ 2) / d.length
  | some w => (∑ j ∈ range d.length, (w.getD j 0 * d.getD j 0) ^ 2) / ∑ j ∈ range d.length, w.getD j 0 ^ 2

theorem meanSquare_eq {m : ℕ} {w : Option (List ℝ)} {d : List ℝ} (hw : Fits w m) (hd : d.length = 2 * m) :
    meanSquare w d = ((windowed w d).map (· ^ 2)).sum / sumWindow m w := by
  have sq : ∀ l : List ℝ, (l.map (· ^ 2)).sum = ∑ j ∈ range l.length, l.getD j 0 ^ 2 := by
    intro l
    rw [← Autocorr.sum_getD, List.length_map]
    refine sum_congr rfl (fun j hj => ?_)
    have := mem_range.1 hj
    simp [this]
  cases w with
  | none => simp only [meanSquare, windowed, sumWindow, sq, hd]
  | some w' =>
    have hl := hw.2 w' rfl
    simp only [meanSquare, windowed, sumWindow, sq, hd, hl, List.length_zipWith, min_self]
    congr 1
    refine sum_congr rfl (fun j hj => ?_)
    have hj := mem_range.1 hj
    rw [List.getD_eq_getElem?_getD, List.getD_eq_getElem?_getD, List.getD_eq_getElem?_getD, List.getElem?_zipWith,
      List.getElem?_eq_getElem (by omega), List.getElem?_eq_getElem (by omega)]
    simp

/-- the integral over frequency, the first and last counted half, of a spectrum given by its entries [specification] -/
noncomputable def integral (m : ℕ) (dt : ℝ) (S : ℕ → ℝ) : ℝ := (frequency m dt 1 - frequency m dt 0) * (S 0 / 2 + ∑ k ∈ Ico 1 m, S k + S m / 2)

theorem sum_sq_getD (l : List ℝ) : ∑ j ∈ range l.length, l.getD j 0 ^ 2 = (l.map (· ^ 2)).sum := by
  rw [← Autocorr.sum_getD]
  rw [List.length_map]
  refine sum_congr rfl (fun j hj => ?_)
  have := mem_range.1 hj
  simp [this]

theorem segPower_integral (m : ℕ) (dt : ℝ) (w : Option (List ℝ)) (d : List ℝ) (hw : Fits w m) (hd : d.length = 2 * m) (hdt : dt ≠ 0) (hs : sumWindow m w ≠ 0) :
    integral m dt (segPower m dt w d) = meanSquare w d := by
  rw [meanSquare_eq hw hd]
  have hm : m ≠ 0 := hw.1
  have hlen : (windowed w d).length = 2 * m := by
    unfold windowed
    cases w with
    | none => exact hd
    | some w' => simp [hd, hw.2 w' rfl]
  have hp := parseval m hm (fun j => (windowed w d).getD j 0)
  have hsq : ∑ j ∈ range (2 * m), (windowed w d).getD j 0 ^ 2 = ((windowed w d).map (· ^ 2)).sum := by rw [← hlen, sum_sq_getD]
  rw [hsq] at hp
  have hmr : (m : ℝ) ≠ 0 := by exact_mod_cast hm
  unfold integral segPower frequency
  rw [← mul_sum]
  generalize power (2 * m) (fun j => (windowed w d).getD j 0) 0 = P0 at hp ⊢
  generalize power (2 * m) (fun j => (windowed w d).getD j 0) m = Pm at hp ⊢
  generalize ∑ k ∈ Ico 1 m, power (2 * m) (fun j => (windowed w d).getD j 0) k = Ps at hp ⊢
  generalize ((windowed w d).map (· ^ 2)).sum = Q at hp ⊢
  generalize sumWindow m w = W at hs ⊢
  push_cast at hp ⊢
  have : Q = (P0 + 2 * Ps + Pm) / (2 * m) := by
    rw [hp]; field_simp
  rw [this]
  field_simp
  ring

theorem integral_add (m : ℕ) (dt : ℝ) (S T : ℕ → ℝ) : integral m dt (fun k => S k + T k) = integral m dt S + integral m dt T := by
  unfold integral
  rw [sum_add_distrib]
  ring

theorem integral_sum {A : Type} (m : ℕ) (dt : ℝ) (l : List A) (f : A → ℕ → ℝ) : integral m dt (fun k => (l.map (fun a => f a k)).sum) = (l.map (fun a => integral m dt (f a))).sum := by
  induction l with
  | nil => simp [integral]
  | cons a l ih => simp only [List.map_cons, List.sum_cons, integral_add, ih]

theorem integral_div (m : ℕ) (dt c : ℝ) (S : ℕ → ℝ) : integral m dt (fun k => S k / c) = integral m dt S / c := by
  unfold integral
  simp only [div_eq_mul_inv]
  rw [← sum_mul]
  ring

/-- C73: the spectrum of long data, integrated over frequency (first and last entries counted half), is the average over the segments of the mean square of the windowed data. -/
theorem psd_normalised (w : Option (List ℝ)) (m : ℕ) (dt : ℝ) (data : List ℝ) (hw : Fits w m) (hdt : dt ≠ 0) (hs : sumWindow m w ≠ 0) (hd : 2 * m ≤ data.length) :
    ∃ S : ℕ → ℝ, (addLong w (.new m dt) data).map spectrum = .ok ((List.range (m + 1)).map (fun k => some (S k))) ∧
      integral m dt S = ((List.range (data.length / (2 * m))).map (fun i => meanSquare w ((data.drop (i * (2 * m))).take (2 * m)))).sum / (data.length / (2 * m) : ℕ) := by
  obtain ⟨h1, h2⟩ := add_long w (.new m dt) data hw
  rw [h1]
  simp only [Spec.new, zero_add, Except.map] at h2 ⊢
  have hm := hw.1
  have hpos : data.length / (2 * m) ≠ 0 := (Nat.div_pos hd (by omega)).ne'
  refine ⟨fun k => ((List.range (data.length / (2 * m))).map (fun i => segPower m dt w ((data.drop (i * (2 * m))).take (2 * m)) k)).sum / (data.length / (2 * m) : ℕ), ?_, ?_⟩
  · unfold spectrum
    simp [hpos]
  · rw [integral_div, integral_sum]
    congr 2
    refine List.map_congr_left (fun i hi => ?_)
    exact segPower_integral m dt w _ hw (h2 i (List.mem_range.1 hi)) hdt hs

/-- four samples, one segment: mean square 5/2 without window -/
example : ∃ S : ℕ → ℝ, (addLong none (.new 2 (1 / 10)) [1, 2, 1, -2]).map spectrum = .ok ((List.range 3).map (fun k => some (S k))) ∧ integral 2 (1 / 10) S = 5 / 2 := by
  obtain ⟨S, h1, h2⟩ := psd_normalised none 2 (1 / 10) [1, 2, 1, -2] ⟨by norm_num, by simp⟩ (by norm_num) (by norm_num [sumWindow]) (by norm_num)
  refine ⟨S, h1, ?_⟩
  rw [h2]
  norm_num [meanSquare, sum_range_succ]

/-! ### Noise spectra -/

/-- y = d - d.mean(), channel.py L198; y.max() - y.min() < max_excursion, L199 -/
noncomputable def quiet (e : ℝ) (d : List ℝ) : Prop := ∀ u ∈ Autocorr.center d, ∀ v ∈ Autocorr.center d, u - v < e

/-- the loop of `compute_power_spectrum_reshape`, mass/core/channel.py L197-200 -/
noncomputable def addQuiet (w : Option (List ℝ)) (e : ℝ) : Spec → List (List ℝ) → Except Exc Spec
  | s, [] => .ok s
  | s, d :: ds =>
    open Classical in
    if quiet e d ∧ d.length = 2 * s.m then
      match addSeg w s (Autocorr.center d) with
      | .error x => .error x
      | .ok s' => addQuiet w e s' ds
    else addQuiet w e s ds

/-- `compute_power_spectrum_reshape`, mass/core/channel.py L159-209, up to the spectrum: `rows` are the records (alldata). `data[:n]` takes the first n records (not samples), then reshape wants exactly n samples. -/
noncomputable def noiseSpectrum (continuous : Bool) (ns : ℕ) (dt : ℝ) (rows : List (List ℝ)) (window : Option (ℕ → List ℝ)) (seg : Option ℕ) (e : ℝ) : Except Exc Spec :=
  if !continuous && seg.any (· != ns) then .error .value
  else
    let L := seg.getD ns
    let w := window.map (fun f => f L)
    if continuous then
      if L = 0 then .error .value
      else
        let total := rows.flatten.length
        let n := total - total % L
        if (rows.take n).flatten.length ≠ n then .error .value
        else addQuiet w e (.new (L / 2) dt) (Autocorr.pieces L (rows.take n).flatten)
    else addQuiet w e (.new (L / 2) dt) rows

open Classical in
theorem addQuiet_ok (w : Option (List ℝ)) (e : ℝ) (ds : List (List ℝ)) (s : Spec) (hw : Fits w s.m) (hl : ∀ d ∈ ds, d.length = 2 * s.m) :
    addQuiet w e s ds = .ok { s with
      nseg := s.nseg + (ds.filter (fun d => decide (quiet e d))).length
      sum := fun k => s.sum k + ((ds.filter (fun d => decide (quiet e d))).map (fun d => segPower s.m s.dt w (Autocorr.center d) k)).sum } := by
  induction ds generalizing s with
  | nil => simp [addQuiet]
  | cons d ds ih =>
    unfold addQuiet
    have hd := hl d (by simp)
    by_cases hq : quiet e d
    · rw [if_pos ⟨hq, hd⟩, addSeg_ok w s _ hw (by rw [Autocorr.center_length, hd])]
      dsimp only
      rw [ih]
      rotate_left
      · exact hw
      · exact fun d' hd' => hl d' (by simp [hd'])
      rw [List.filter_cons_of_pos (by simpa using hq)]
      simp only [List.length_cons, List.map_cons, List.sum_cons, Except.ok.injEq, Spec.mk.injEq, true_and]
      refine ⟨by omega, funext fun k => by ring⟩
    · rw [if_neg (by tauto), ih s hw (fun d' hd' => hl d' (by simp [hd'])), List.filter_cons_of_neg (by simpa using hq)]

open Classical in
/-- C74, records of even length, not resegmented: the noise spectrum is accumulated from exactly the records with small enough excursion, each with its mean removed. -/
theorem noise_spectrum_partial (ns : ℕ) (dt : ℝ) (rows : List (List ℝ)) (window : Option (ℕ → List ℝ)) (seg : Option ℕ) (e : ℝ) (hseg : seg = none ∨ seg = some ns) (hns : ns ≠ 0) (hev : 2 ∣ ns)
    (hrows : ∀ d ∈ rows, d.length = ns) (hw : ∀ f, window = some f → (f ns).length = ns) :
    noiseSpectrum false ns dt rows window seg e = .ok {
      m := ns / 2, dt := dt
      nseg := (rows.filter (fun d => decide (quiet e d))).length
      sum := fun k => ((rows.filter (fun d => decide (quiet e d))).map (fun d => segPower (ns / 2) dt (window.map (fun f => f ns)) (Autocorr.center d) k)).sum } := by
  obtain ⟨h, rfl⟩ := hev
  have e1 : 2 * h / 2 = h := by omega
  have hf : Fits (window.map (fun f => f (2 * h))) h := by
    refine ⟨by omega, fun w' hw' => ?_⟩
    cases window with
    | none => simp at hw'
    | some f =>
      simp at hw'
      rw [← hw']
      exact hw f rfl
  unfold noiseSpectrum
  have hb : (!false && seg.any (· != 2 * h)) = false := by rcases hseg with rfl | rfl <;> simp
  have hg : seg.getD (2 * h) = 2 * h := by rcases hseg with rfl | rfl <;> simp
  rw [hb, hg, e1]
  simp only [Bool.false_eq_true, if_false]
  rw [e1, addQuiet_ok _ e rows (.new h dt) hf hrows]
  simp [Spec.new]

/-- two records, the second quiet enough -/
example : (noiseSpectrum false 2 1 [[0, 10], [1, 3]] none none 5).map (·.nseg) = .ok 1 := by
  classical
  rw [noise_spectrum_partial 2 1 _ none none 5 (.inl rfl) (by norm_num) (by norm_num) (by simp) (by simp)]
  have h1 : ¬ quiet 5 [0, 10] := by
    unfold quiet Autocorr.center
    simp
    norm_num
  have h2 : quiet 5 [1, 3] := by
    unfold quiet Autocorr.center
    norm_num
  simp [Except.map, h1, h2]

/-- For records with an odd number of samples no record is ever used: the spectrum is NaN throughout. -/
theorem noise_spectrum_odd_fails (ns : ℕ) (dt : ℝ) (rows : List (List ℝ)) (window : Option (ℕ → List ℝ)) (e : ℝ) (hodd : ns % 2 = 1) (hrows : ∀ d ∈ rows, d.length = ns) :
    (noiseSpectrum false ns dt rows window none e).map spectrum = .ok (List.replicate (ns / 2 + 1) none) := by
  unfold noiseSpectrum
  simp only [Bool.not_false, Bool.true_and, Option.any_none, Bool.false_eq_true, if_false, Option.getD_none]
  have key : ∀ ds : List (List ℝ), (∀ d ∈ ds, d.length = ns) → addQuiet (window.map (fun f => f ns)) e (.new (ns / 2) dt) ds = .ok (.new (ns / 2) dt) := by
    intro ds
    induction ds with
    | nil => intro _; rfl
    | cons d ds ih =>
      intro hl
      unfold addQuiet
      have := hl d (by simp)
      rw [if_neg (by simp only [Spec.new]; omega), ih (fun d' hd' => hl d' (by simp [hd']))]
  rw [key rows hrows]
  simp [Except.map, spectrum, Spec.new]

/-- Continuous noise cannot be resegmented unless the segment length divides the total number of samples: otherwise ValueError, although the remainder is meant to be dropped. -/
theorem noise_resegment_fails (ns L : ℕ) (dt : ℝ) (rows : List (List ℝ)) (window : Option (ℕ → List ℝ)) (e : ℝ) (hrows : ∀ d ∈ rows, d.length = ns) (hns : 2 ≤ ns) (hL : L ≤ ns * rows.length)
    (hnd : ¬ L ∣ ns * rows.length) : noiseSpectrum true ns dt rows window (some L) e = .error .value := by
  have hlen : ∀ l : List (List ℝ), (∀ d ∈ l, d.length = ns) → l.flatten.length = ns * l.length := by
    intro l
    induction l with
    | nil => simp
    | cons a l ih =>
      intro h
      rw [List.flatten_cons, List.length_append, ih (fun d hd => h d (by simp [hd])), h a (by simp), List.length_cons]
      ring
  have htot := hlen rows hrows
  have hmod : (ns * rows.length) % L ≠ 0 := fun h => hnd (Nat.dvd_of_mod_eq_zero h)
  unfold noiseSpectrum
  simp only [Bool.not_true, Bool.false_and, Bool.false_eq_true, if_false, if_true, Option.getD_some]
  by_cases hz : L = 0
  · rw [if_pos hz]
  · rw [if_neg hz, if_pos]
    rw [htot, hlen _ (fun d hd => hrows d (List.mem_of_mem_take hd)), List.length_take]
    have hlt := Nat.mod_lt (ns * rows.length) (Nat.pos_of_ne_zero hz)
    generalize (ns * rows.length) % L = r at hmod hlt ⊢
    rcases Nat.le_total rows.length (ns * rows.length - r) with h | h
    · rw [Nat.min_eq_right h]; omega
    · rw [Nat.min_eq_left h]
      have : 1 ≤ ns * rows.length - r := by omega
      have : 2 * (ns * rows.length - r) ≤ ns * (ns * rows.length - r) := Nat.mul_le_mul_right _ hns
      omega

end Mass.Stat.Spectrum
