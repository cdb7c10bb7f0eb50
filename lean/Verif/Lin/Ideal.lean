import Verif.Lin.Filter
import Verif.Stat.FirstN
import Verif.Algo.FilterData
import Verif.Calc.Curve
import Verif.Ljh.Props
import Verif.Off.Runs
/-! C155: pulses of one shape, from the records to energies, by the analysis of LJH files (average pulse, five-lag filter, `filter_data`, calibration) and by that of OFF files
(projectors, basis, five-lag recipes). Exact arithmetic. -/
namespace Mass.Lin.Ideal
open Mass Mass.Algo Mass.Stat.FirstN
set_option linter.unusedSectionVars false
variable {K : Type} [Field K] [LinearOrder K] [IsStrictOrderedRing K]

/-! ### model -/

/-- `compute_5lag_filter` of a channel, mass/core/channel.py L1153-1180, where no filter is stored yet or forceNew: the noise autocorrelation and the average pulse must not be all zeros; the
filter maker gets the average pulse, nPresamples - pretrigger_ignore_samples and the autocorrelation. fmax and f_3db are None, category is empty. -/
def channelFilter (noise avg : List K) (nPresamples ignore : Nat) (cutPre cutPost : Int) : Except Exc (Filt K) :=
  if noise.all (fun v => decide (v = 0)) then .error .exception
  else if avg.all (fun v => decide (v = 0)) then .error .exception
  else compute5lag ⟨avg, nPresamples - ignore, some noise, none, none, 0⟩ cutPre cutPost

/-- A record of the pulse shape `s` of size `p.2` on the baseline `p.1` [specification] -/
def ideal (s : List K) (p : K × K) : List K := s.map (fun a => p.1 + p.2 * a)

/-- `H` is the largest value of the pulse shape [specification] -/
def Height (s : List K) (H : K) : Prop := H ∈ s ∧ ∀ a ∈ s, a ≤ H

/-! ### the average pulse -/

theorem pick_map {α β : Type} (f : α → β) (g : List Bool) (l : List α) : pick g (l.map f) = (pick g l).map f := by
  unfold pick
  induction g generalizing l with
  | nil => rfl
  | cons b g ih =>
    cases l with
    | nil => rfl
    | cons a l =>
      cases b with
      | false => simpa using ih l
      | true => simpa using ih l

theorem sum_lin (l : List (K × K)) (x : K) : (l.map (fun p => p.1 + p.2 * x)).sum = (l.map Prod.fst).sum + (l.map Prod.snd).sum * x := by
  induction l with
  | nil => simp
  | cons a l ih => simp only [List.map_cons, List.sum_cons, ih]; ring

theorem column_ideal (s : List K) (l : List (K × K)) (k : Nat) (hk : k < s.length) :
    mean (column (l.map (ideal s)) k) = mean (l.map Prod.fst) + mean (l.map Prod.snd) * s.getD k 0 := by
  unfold column
  rw [List.map_map]
  have e : ((fun r : List K => r.getD k 0) ∘ ideal s) = fun p => p.1 + p.2 * s.getD k 0 := by
    funext p
    unfold ideal
    simp [hk]
  rw [e]
  unfold mean
  rw [sum_lin, List.length_map, List.length_map, List.length_map]
  ring

theorem mean_const (l : List K) (c : K) (hl : l ≠ []) (h : ∀ v ∈ l, v = c) : mean l = c := by
  unfold mean
  rw [List.eq_replicate_of_mem h, List.sum_replicate, List.length_replicate, nsmul_eq_mul]
  have : ((l.length : Nat) : K) ≠ 0 := by
    rw [Nat.cast_ne_zero]
    exact fun h0 => hl (List.length_eq_zero_iff.1 h0)
  field_simp

/-- C155. The average of pulses of one shape whose pretrigger part is zero is that shape times the mean size of the chosen pulses; baselines drop out. -/
theorem average_ideal (stored : List K) (mask : List Bool) (pulses : List (K × K)) (s : List K) (nsamp : Nat) (force : Bool) (h : (∀ v ∈ stored, v = 0) ∨ force = true)
    (h1 : 1 ≤ nsamp) (h2 : nsamp ≤ s.length) (hz : ∀ k < nsamp, s.getD k 0 = 0) :
    averagePulse stored mask (pulses.map (ideal s)) s.length nsamp true force = s.map (fun a => mean ((pick mask pulses).map Prod.snd) * a) := by
  have hgo : (stored.any (fun v => decide (v ≠ 0)) && !force) = false := by
    rcases h with h | h
    · rw [show stored.any (fun v => decide (v ≠ 0)) = false from by rw [List.any_eq_false]; intro v hv; simp [h v hv]]; rfl
    · rw [h]; simp
  unfold averagePulse
  rw [hgo]
  simp only [Bool.false_eq_true, if_false, if_true]
  rw [pick_map]
  set l := pick mask pulses
  have hav : (List.range s.length).map (fun k => mean (column (l.map (ideal s)) k)) = s.map (fun a => mean (l.map Prod.fst) + mean (l.map Prod.snd) * a) := by
    refine List.ext_getElem (by simp) (fun k hk hk' => ?_)
    have hks : k < s.length := by simpa using hk'
    simp only [List.getElem_map, List.getElem_range]
    rw [column_ideal s l k hks]
    simp [hks]
  rw [hav]
  have hm : mean ((s.map (fun a => mean (l.map Prod.fst) + mean (l.map Prod.snd) * a)).take nsamp) = mean (l.map Prod.fst) := by
    refine mean_const _ _ ?_ ?_
    · intro hnil
      have := congrArg List.length hnil
      simp at this
      rcases this with h0 | h0
      · omega
      · rw [h0] at h2; simp at h2; omega
    · intro v hv
      obtain ⟨k, hk, rfl⟩ := List.getElem_of_mem hv
      have hkn : k < nsamp := by rw [List.length_take] at hk; omega
      have := hz k hkn
      have hks : k < s.length := by omega
      simp only [List.getElem_take, List.getElem_map]
      rw [show s[k] = 0 by simpa [List.getD_eq_getElem?_getD, hks] using this]
      ring
  rw [hm, List.map_map]
  refine List.map_congr_left (fun a _ => ?_)
  simp only [Function.comp]
  ring

/-! ### the filter -/

theorem foldl_max_mem (l : List K) (a : K) : l.foldl max a ∈ a :: l ∧ ∀ b ∈ a :: l, b ≤ l.foldl max a := by
  induction l generalizing a with
  | nil => simp
  | cons x l ih =>
    rw [List.foldl_cons]
    obtain ⟨h1, h2⟩ := ih (max a x)
    refine ⟨?_, ?_⟩
    · rcases List.mem_cons.1 h1 with h | h
      · rw [h]
        rcases max_choice a x with h' | h' <;> rw [h'] <;> simp
      · exact List.mem_cons_of_mem _ (List.mem_cons_of_mem _ h)
    · intro b hb
      have hm := h2 (max a x) (List.mem_cons_self ..)
      rcases List.mem_cons.1 hb with rfl | hb
      · exact (le_max_left _ _).trans hm
      · rcases List.mem_cons.1 hb with rfl | hb
        · exact (le_max_right _ _).trans hm
        · exact h2 b (List.mem_cons_of_mem _ hb)

theorem lmax_eq {l : List K} {H : K} (h : Height l H) : lmax l = H := by
  cases l with
  | nil => exact absurd h.1 (by simp)
  | cons a l =>
    obtain ⟨h1, h2⟩ := foldl_max_mem l a
    exact le_antisymm (h.2 _ h1) (h2 _ h.1)

theorem height_scale {s : List K} {H a : K} (ha : 0 ≤ a) (h : Height s H) : Height (s.map (a * ·)) (a * H) := by
  refine ⟨List.mem_map.2 ⟨H, h.1, rfl⟩, fun b hb => ?_⟩
  obtain ⟨x, hx, rfl⟩ := List.mem_map.1 hb
  exact mul_le_mul_of_nonneg_left (h.2 x hx) ha

/-- C155. The model signal of the filter made from a positive multiple of the shape is the part of the shape between the cut windows, scaled to height 1. -/
theorem signal_ideal {s : List K} {H a : K} (hH : Height s H) (hp : 0 < H) (ha : 0 < a) {nsamp : Nat} (h1 : 1 ≤ nsamp) (hz : ∀ k < nsamp, s.getD k 0 = 0) {ac : Option (List K)} {cutPre cutPost : Int}
    {sig dt : List K} {peak : K} (h : normalizeSignal ⟨s.map (a * ·), nsamp, ac, none, none, 0⟩ cutPre cutPost = .ok (sig, peak, dt)) :
    ∀ i < sig.length, sig.getD i 0 = s.getD (cutPre.toNat + i) 0 / H := by
  have hlen := normalize_length h
  obtain ⟨hc1, hc2, hsl⟩ := hlen
  unfold normalizeSignal at h
  dsimp only at h
  split at h
  · cases h
  split at h
  · cases h
  split at h
  · cases h
  injection h with h
  rw [Prod.mk.injEq, Prod.mk.injEq] at h
  obtain ⟨hs, -, -⟩ := h
  have hpz : (pySlice (s.map (a * ·)) cutPre.toNat ((nsamp : Int) - 1)).sum = 0 := by
    rw [List.sum_eq_zero]
    intro v hv
    unfold pySlice at hv
    dsimp only at hv
    split at hv
    · omega
    · have hv2 := List.mem_of_mem_drop hv
      obtain ⟨k, hk, rfl⟩ := List.getElem_of_mem hv2
      rw [List.length_take, List.length_map] at hk
      have := hz k (by omega)
      simp only [List.getElem_take, List.getElem_map]
      rw [show s[k]'(by omega) = 0 by simpa [List.getD_eq_getElem?_getD, show k < s.length by omega] using this]
      ring
  rw [hpz] at hs
  simp only [zero_div, sub_zero, List.map_id'] at hs
  rw [lmax_eq (height_scale ha.le hH)] at hs
  intro i hi
  have hsl' : sig.length + cutPre.toNat + cutPost.toNat = s.length := by simpa using hsl
  have e : ((s.map (a * ·)).length : Int) - cutPost = (((s.map (a * ·)).length - cutPost.toNat : Nat) : Int) := by rw [List.length_map]; omega
  rw [e] at hs
  rw [← hs, getD_pySlice_win _ _ _ _ (by rw [List.length_map]; omega) (by simp; omega)]
  by_cases hn : nsamp ≤ cutPre.toNat + i
  · rw [List.getD_eq_getElem?_getD, List.getElem?_append_right (by simp; omega), List.length_replicate, List.getElem?_drop]
    rw [List.length_map, show nsamp + (cutPre.toNat + i - min nsamp s.length) = cutPre.toNat + i by omega]
    have hk : cutPre.toNat + i < s.length := by omega
    simp only [List.getElem?_map, List.getElem?_eq_getElem hk, Option.map_some, Option.getD_some, List.getD_eq_getElem?_getD]
    field_simp
  · rw [hz _ (by omega), zero_div, List.getD_eq_getElem?_getD, List.getElem?_append_left (by simp; omega), List.getElem?_replicate]
    split <;> rfl

/-! ### filtering -/

theorem lags_ideal (v s : List K) (p : K × K) (hl : s.length = v.length + 4) (hs : v.sum = 0) :
    FilterData.lags v (ideal s p) = ⟨p.2 * lag v s 0, p.2 * lag v s 1, p.2 * lag v s 2, p.2 * lag v s 3, p.2 * lag v s 4⟩ := by
  unfold FilterData.lags ideal
  rw [lag_affine v s _ _ 0 (by omega) hl hs, lag_affine v s _ _ 1 (by omega) hl hs, lag_affine v s _ _ 2 (by omega) hl hs, lag_affine v s _ _ 3 (by omega) hl hs, lag_affine v s _ _ 4 (by omega) hl hs]

theorem peakX_scale (c : K) (hc : c ≠ 0) (v : Conv K) : peakX (parabola ⟨c * v.c0, c * v.c1, c * v.c2, c * v.c3, c * v.c4⟩) = peakX (parabola v) := by
  have e : parabola (K := K) ⟨c * v.c0, c * v.c1, c * v.c2, c * v.c3, c * v.c4⟩ = (c * (parabola v).1, c * (parabola v).2.1, c * (parabola v).2.2) := by
    unfold parabola
    dsimp only
    refine Prod.ext ?_ (Prod.ext ?_ ?_) <;> (dsimp only; ring)
  rw [e]
  unfold peakX
  dsimp only
  rw [show -(1 / 2) * (c * (parabola v).2.1) = c * (-(1 / 2) * (parabola v).2.1) by ring, mul_div_mul_left _ _ hc]

theorem mean_pos (l : List K) (hl : l ≠ []) (h : ∀ v ∈ l, 0 < v) : 0 < mean l := by
  unfold mean
  refine div_pos (List.sum_pos l h hl) ?_
  rw [Nat.cast_pos]
  exact List.length_pos_iff.2 hl

theorem pick_mem {α : Type} {g : List Bool} {l : List α} {x : α} (h : x ∈ pick g l) : x ∈ l := by
  unfold pick at h
  obtain ⟨p, hp, hx⟩ := List.mem_filterMap.1 h
  split at hx
  · injection hx with hx
    rw [← hx]
    exact (List.of_mem_zip hp).2
  · cases hx

/-- What the filter made from the average of ideal pulses does to any ideal pulse -/
theorem response_ideal {s : List K} {H : K} (hH : Height s H) (hp : 0 < H) (npre ign : Nat) (h1 : ign < npre) (h2 : npre - ign ≤ s.length) (hz : ∀ k < npre - ign, s.getD k 0 = 0)
    {stored : List K} {force : Bool} (hst : (∀ v ∈ stored, v = 0) ∨ force = true) {mask : List Bool} {pulses : List (K × K)} (hpos : ∀ p ∈ pulses, 0 < p.2) (hm : pick mask pulses ≠ [])
    {noise : List K} {cutPre cutPost : Int} {F : Filt K}
    (hF : channelFilter noise (averagePulse stored mask (pulses.map (ideal s)) s.length (npre - ign) true force) npre ign cutPre cutPost = .ok F) (hne : ∃ w ∈ F.values, w ≠ 0)
    (p : K × K) (hp2 : p.2 ≠ 0) :
    F.values.length + 4 = s.length ∧ peakY (parabola (FilterData.lags F.values (ideal s p))) = p.2 * H ∧
      peakX (parabola (FilterData.lags F.values (ideal s p))) = peakX (parabola (FilterData.lags F.values s)) := by
  rw [average_ideal stored mask pulses s (npre - ign) force hst (by omega) h2 hz] at hF
  set a := mean ((pick mask pulses).map Prod.snd) with ha
  have hapos : 0 < a := by
    refine mean_pos _ (by simpa using hm) (fun v hv => ?_)
    obtain ⟨q, hq, rfl⟩ := List.mem_map.1 hv
    exact hpos q (pick_mem hq)
  unfold channelFilter at hF
  split at hF
  · cases hF
  split at hF
  · cases hF
  have hsh := fivelag_shape hF
  have hl : F.values.length + 4 = s.length := by simpa using hsh.1
  obtain ⟨sig, peak, dt, S, x, u, f, -, -, hn, -, -, -, -, -, -, -, -, hsig⟩ := compute5_inv hF
  have hsg := signal_ideal hH hp hapos (by omega) hz hn
  refine ⟨hl, ?_, ?_⟩
  · obtain ⟨v, hv, hy⟩ := fivelag_response hF hne (ideal s p) (by simp [ideal]) p.1 (p.2 * H) (mul_ne_zero hp2 hp.ne') (by
      intro i hi
      rw [hsig] at hi ⊢
      rw [hsg i hi]
      have hk : cutPre.toNat + i < s.length := by
        have h5 := hsh.2.2.2.2
        rw [hsig] at h5
        simp at h5
        omega
      unfold ideal
      simp only [List.getD_eq_getElem?_getD, List.getElem?_map, List.getElem?_eq_getElem hk, Option.map_some, Option.getD_some]
      field_simp)
    rw [direct_eq_lags (by simp [ideal]; omega)] at hv
    injection hv with hv
    rw [← hy, ← hv]
    rfl
  · rw [lags_ideal F.values s p (by omega) hsh.2.1]
    exact peakX_scale p.2 hp2 (FilterData.lags F.values s)

/-- C155. Records of one pulse shape, of any positive sizes on any baselines: after averaging any of them, making the five-lag filter and filtering the channel, in segments of any size and
in Cython or Python, the filtered value of every record is the height of its own pulse above its baseline, and all have the same phase. -/
theorem filtered_ideal {s : List K} {H : K} (hH : Height s H) (hp : 0 < H) (npre ign : Nat) (h1 : ign < npre) (h2 : npre - ign ≤ s.length) (hz : ∀ k < npre - ign, s.getD k 0 = 0)
    {stored : List K} {force : Bool} (hst : (∀ v ∈ stored, v = 0) ∨ force = true) {mask : List Bool} {pulses : List (K × K)} (hpos : ∀ p ∈ pulses, 0 < p.2) (hm : pick mask pulses ≠ [])
    {noise : List K} {cutPre cutPost : Int} {F : Filt K}
    (hF : channelFilter noise (averagePulse stored mask (pulses.map (ideal s)) s.length (npre - ign) true force) npre ign cutPre cutPost = .ok F) (hne : ∃ w ∈ F.values, w ≠ 0)
    {c : FilterData.Chan K} (hc : FilterData.Fits c) (hd : c.data = pulses.map (ideal s)) (hns : c.nSamples = s.length) (hf : c.filter = some (F.values, F.dtValues)) (ht : c.ftype = "5lag")
    {force' : Bool} (hn : force' = true ∨ ∀ x ∈ c.filtValue, x = 0) (cy : Option Bool) (hcy : cy = some false ∨ cy = none ∧ 8 ≤ s.length) :
    ∃ φ, FilterData.filterData c none force' cy = ({ c with filtValue := pulses.map (fun p => p.2 * H), filtPhase := pulses.map (fun _ => φ) }, none) := by
  have hr := fun p hp2 => response_ideal hH hp npre ign h1 h2 hz hst hpos hm hF hne p hp2
  have hl : F.values.length + 4 = s.length := (hr (0, 1) one_ne_zero).1
  have hpy := FilterData.filter_5lag_python hc hf ht (by omega) hn none (by simp)
  have hpy' : FilterData.filterData c none force' (some false) = ({ c with filtValue := pulses.map (fun p => p.2 * H), filtPhase := pulses.map (fun _ => peakX (parabola (FilterData.lags F.values s))) }, none) := by
    rw [Option.map_none] at hpy
    rw [hpy]
    unfold FilterData.prepared
    dsimp only
    rw [hd, List.map_map, List.map_map]
    congr 1
    congr 1
    · exact List.map_congr_left (fun p hpp => (hr p (hpos p hpp).ne').2.1)
    · exact List.map_congr_left (fun p hpp => (hr p (hpos p hpp).ne').2.2)
  refine ⟨peakX (parabola (FilterData.lags F.values s)), ?_⟩
  rcases hcy with rfl | ⟨rfl, h8⟩
  · exact hpy'
  · rw [FilterData.filter_5lag_partial hc hf ht (by omega) (by omega) hn]
    exact hpy'

/-! ### energies -/

/-- C155. Calibrated on one line, of energy `E` and made by pulses of size `A0`, filtered values of such pulses become energies in proportion to their sizes ("gain" and "invgain" curves), or to
the power of the sizes ("loglog"). -/
theorem energy_ideal (H A0 E nonlin : ℝ) (hH : 0 < H) (hA : 0 < A0) (pulses : List (ℝ × ℝ)) (hpos : ∀ p ∈ pulses, 0 < p.2) :
    (∀ curve, curve = 3 ∨ curve = 4 → ∃ f, Calc.Cal.exactCurve curve nonlin [(A0 * H, E)] = .ok f ∧ (pulses.map (fun p => p.2 * H)).map f = pulses.map (fun p => E * (p.2 / A0))) ∧
    ∃ f, Calc.Cal.exactCurve 0 nonlin [(A0 * H, E)] = .ok f ∧ (pulses.map (fun p => p.2 * H)).map f = pulses.map (fun p => E * (p.2 / A0) ^ nonlin) := by
  refine ⟨fun curve hcv => ?_, ?_⟩
  · obtain ⟨f, hf, hv, -⟩ := Calc.Cal.one_point_gain curve nonlin (A0 * H) E (mul_pos hA hH).ne' hcv
    refine ⟨f, hf, ?_⟩
    rw [List.map_map]
    refine List.map_congr_left (fun p _ => ?_)
    simp only [Function.comp]
    rw [hv]
    field_simp
  · obtain ⟨f, hf, hv, -⟩ := Calc.Cal.one_point_loglog nonlin (A0 * H) E (mul_pos hA hH)
    refine ⟨f, hf, ?_⟩
    rw [List.map_map]
    refine List.map_congr_left (fun p hp => ?_)
    simp only [Function.comp]
    rw [hv _ (mul_pos (hpos p hp) hH), mul_div_mul_right _ _ hH.ne']

/-! ### OFF files -/

/-- C155. A record in the span of the basis, with projectors dual to it, is stored in an OFF file exactly: its coefficients reproduce it, and the residual deviation is zero. -/
theorem off_exact {k ns nb : Nat} (P : Matrix (Fin nb) (Fin ns) ℚ) (B : Matrix (Fin ns) (Fin nb) ℚ) (hPB : P * B = 1) (np : Nat) (ptd : (Fin ns → ℚ) → ℚ) (data : Matrix (Fin k) (Fin ns) ℚ)
    (j : Fin k) (x : Fin nb → ℚ) (hx : data j = B.mulVec x) :
    (Ljh.offSegment P B np ptd data j).coefs = x ∧ (Ljh.offSegment P B np ptd data j).resid2 = 0 := by
  have hc : (P * data.transpose).transpose j = x := by
    have : (P * data.transpose).transpose j = P.mulVec (data j) := by
      funext i
      simp [Matrix.mul_apply, Matrix.mulVec, dotProduct]
    rw [this, hx, Matrix.mulVec_mulVec, hPB, Matrix.one_mulVec]
  refine ⟨hc, ?_⟩
  unfold Ljh.offSegment
  dsimp only
  have hres : (fun i => (B * (P * data.transpose) - data.transpose) i j) = fun _ => 0 := by
    funext i
    rw [Matrix.sub_apply, Matrix.transpose_apply, hx, ← hc]
    simp [Matrix.mul_apply, Matrix.mulVec, dotProduct]
  rw [hres]
  simp [Ljh.variance]

/-- C155. Converted to an OFF file whose basis spans a constant and the pulse shape, with dual projectors, such records get, from the five-lag recipes made with the same filter, the filtered
values that the LJH analysis gives: the height of each pulse above its baseline, with the same phase. -/
theorem off_ideal {s : List ℚ} {H : ℚ} (hH : Height s H) (hp : 0 < H) (npre ign : Nat) (h1 : ign < npre) (h2 : npre - ign ≤ s.length) (hz : ∀ k < npre - ign, s.getD k 0 = 0)
    {stored : List ℚ} {force : Bool} (hst : (∀ v ∈ stored, v = 0) ∨ force = true) {mask : List Bool} {pulses : List (ℚ × ℚ)} (hpos : ∀ p ∈ pulses, 0 < p.2) (hm : pick mask pulses ≠ [])
    {noise : List ℚ} {cutPre cutPost : Int} {F : Filt ℚ}
    (hF : channelFilter noise (averagePulse stored mask (pulses.map (ideal s)) s.length (npre - ign) true force) npre ign cutPre cutPost = .ok F) (hne : ∃ w ∈ F.values, w ≠ 0)
    {nb k : Nat} (P : Matrix (Fin nb) (Fin s.length) ℚ) (B : Matrix (Fin s.length) (Fin nb) ℚ) (hPB : P * B = 1) (u w : Fin nb → ℚ)
    (hu : B.mulVec u = fun _ => 1) (hw : B.mulVec w = fun i => s[i]) (np : Nat) (ptd : (Fin s.length → ℚ) → ℚ)
    (data : Matrix (Fin k) (Fin s.length) ℚ) (j : Fin k) (p : ℚ × ℚ) (hp2 : p.2 ≠ 0) (hd : ∀ i, data j i = (ideal s p)[i]'(by simp [ideal]))
    {c : Off.Runs.Chan ℚ nb} (hb : c.basis = List.ofFn (fun i => B i)) (hnew : ∀ p ∈ c.recipes, p.1 ≠ "cba5Lag" ∧ p.1 ≠ "filtValue5Lag" ∧ p.1 ≠ "peakX5Lag") :
    (Ljh.offSegment P B np ptd data j).resid2 = 0 ∧
    ∃ r1 r2 r3, Off.Runs.addFive c F.values = ({ c with recipes := c.recipes ++ [("cba5Lag", r1), ("filtValue5Lag", r2), ("peakX5Lag", r3)] }, none) ∧
      r2 (Ljh.offSegment P B np ptd data j).coefs = [p.2 * H] ∧ r3 (Ljh.offSegment P B np ptd data j).coefs = [peakX (parabola (FilterData.lags F.values s))] := by
  obtain ⟨hl, hy, hX⟩ := response_ideal hH hp npre ign h1 h2 hz hst hpos hm hF hne p hp2
  have hx : data j = B.mulVec (p.1 • u + p.2 • w) := by
    rw [Matrix.mulVec_add, Matrix.mulVec_smul, Matrix.mulVec_smul, hu, hw]
    funext i
    rw [hd]
    simp [ideal]
  obtain ⟨hc, hr⟩ := off_exact P B hPB np ptd data j _ hx
  refine ⟨hr, ?_⟩
  obtain ⟨r1, r2, r3, hadd, hspec⟩ := Off.Runs.five_spec c F.values (by rw [hb, List.length_ofFn]; omega) hnew
  refine ⟨r1, r2, r3, hadd, ?_⟩
  rw [hc]
  obtain ⟨v, hv, -, e2, e3⟩ := hspec (p.1 • u + p.2 • w)
  have hmod : modelled c.basis (p.1 • u + p.2 • w) = ideal s p := by
    unfold modelled
    rw [hb]
    refine List.ext_getElem (by simp [ideal]) (fun i hi hi' => ?_)
    have his : i < s.length := by simpa [ideal] using hi'
    rw [List.getElem_map, List.getElem_ofFn]
    have := congrFun hx ⟨i, his⟩
    rw [hd] at this
    exact this.symm
  rw [hmod, direct_eq_lags (by simp [ideal]; omega)] at hv
  injection hv with hv
  rw [e2, e3, ← hv]
  exact ⟨congrArg (fun x => [x]) hy, congrArg (fun x => [x]) hX⟩

/-- the pulses of the examples: three sizes on three baselines, and their shape -/
def pulsesEx : List (ℚ × ℚ) := [(100, 3), (-7, 5), (20, 1 / 2)]
/-- the pulse shape of the examples -/
def shapeEx : List ℚ := [0, 0, 0, 0, 4, 2, 1, 0]

/-- `average_ideal`, instance: the mean of the first two sizes times the shape -/
example : averagePulse [0, 0] [true, true, false] (pulsesEx.map (ideal shapeEx)) 8 3 true false = [0, 0, 0, 0, 16, 8, 4, 0] := by decide +kernel
/-- `filtered_ideal`, instance: heights 12, 20 and 2, one phase -/
example : (channelFilter [2, 1, 0, 0, 0, 0, 0, 0] (averagePulse [] [true, true, false] (pulsesEx.map (ideal shapeEx)) 8 3 true false) 4 1 0 0).map (fun F =>
    let c : FilterData.Chan ℚ := ⟨8, pulsesEx.map (ideal shapeEx), [0, 0, 0], [false, false, false], 2, 2, "5lag", some (F.values, F.dtValues), none, [0, 0, 0], [0, 0, 0]⟩
    let r := FilterData.filterData c none false none
    (F.values.any (· ≠ 0), r.1.filtValue, r.1.filtPhase.all (fun x => x = r.1.filtPhase.getD 0 0), r.2)) = .ok (true, [12, 20, 2], true, none) := by decide +kernel
example : Height shapeEx 4 := by
  refine ⟨by decide +kernel, fun a ha => ?_⟩
  simp [shapeEx] at ha
  rcases ha with rfl | rfl | rfl | rfl | rfl <;> norm_num
/-- `energy_ideal`, instance -/
example : ∃ f, Calc.Cal.exactCurve 4 1 [(3 * 4, 6000)] = .ok f ∧ ([(100, 3), (-7, 5)].map (fun p : ℝ × ℝ => p.2 * 4)).map f = [6000, 10000] := by
  obtain ⟨f, hf, h⟩ := (energy_ideal 4 3 6000 1 (by norm_num) (by norm_num) [(100, 3), (-7, 5)] (by simp)).1 4 (.inr rfl)
  refine ⟨f, hf, h.trans ?_⟩
  norm_num
/-- `off_exact`, instance: a basis of a constant and a shape for records of 3 samples -/
example : (Ljh.offSegment (k := 1) !![1, 0, 0; -1, 1, 0] !![1, 0; 1, 1; 1, 2] 1 (fun _ => (0 : ℚ)) !![7, 10, 13] 0).coefs = ![7, 3] ∧
    (Ljh.offSegment (k := 1) !![1, 0, 0; -1, 1, 0] !![1, 0; 1, 1; 1, 2] 1 (fun _ => (0 : ℚ)) !![7, 10, 13] 0).resid2 = 0 := by
  refine off_exact _ _ ?_ 1 _ _ 0 ![7, 3] ?_
  · decide +kernel
  · decide +kernel

end Mass.Lin.Ideal
