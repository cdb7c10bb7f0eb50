import Verif.Lin.Dft
import Verif.Py
import Mathlib.Analysis.SpecialFunctions.ImproperIntegrals
import Mathlib.Tactic.LinearCombination
import Mathlib.Tactic.Conv
/-! C92: exponential tails of a spectrum (mass/calibration/line_models.py `_smear_exponential_tail`). Values are real numbers, the transforms exact. -/
namespace Mass.Line
open Finset Complex Mass.Lin.Dft

/-- np.fft.irfft(X, n=N)[t] for complex coefficients (called at line_models.py L68): the imaginary parts of the first and, for even `N`, of the last
coefficient are ignored. -/
noncomputable def irfftC (N : ℕ) (X : ℕ → ℂ) (t : ℕ) : ℝ :=
  ((X 0).re + ∑ k ∈ Ico 1 ((N + 1) / 2), 2 * (X k * zeta N ^ (k * t)).re + if N % 2 = 0 then (X (N / 2)).re * (-1) ^ t else 0) / N

/-- line_models.py L60-66: the factor at frequency `freq`. -/
noncomputable def tailFactor (frac tau share tauHi freq : ℝ) : ℂ :=
  let fracHi := frac * share
  let fracLo := frac - fracHi
  (1 - frac : ℝ) + (if fracLo > 1 / 1000000 then (fracLo : ℂ) / (1 - 2 * I * Real.pi * freq * tau) else 0)
    + (if fracHi > 1 / 1000000 then (fracHi : ℂ) / (1 + 2 * I * Real.pi * freq * tauHi) else 0)

/-- line_models.py L45-50: how many steps the range is extended below and above. `int` of a positive number; the argument is positive for increasing `x`. -/
noncomputable def extension (n : ℕ) (step res tau tauHi : ℝ) : ℕ × ℕ :=
  (min (10 * n) ⌊(res + max (tau * 6) tauHi) / step + 1 / 2⌋₊, min (10 * n) ⌊(res + max tau (tauHi * 6)) / step + 1 / 2⌋₊)

open Classical in
/-- line_models.py L12-73 `_smear_exponential_tail`; `clean` is the spectrum function, which may raise. -/
noncomputable def smear (clean : ℝ → Except Exc ℝ) (x : List ℝ) (res frac tau share tauHi : ℝ) : Except Exc (List ℝ) :=
  if frac ≤ 1 / 1000000 then x.mapM clean else
    match x with
    | x0 :: x1 :: _ =>
      let step := x1 - x0
      let nlow := (extension x.length step res tau tauHi).1
      let nhi := (extension x.length step res tau tauHi).2
      let N := nlow + nhi + x.length
      if N > 100000 then .error .value else
      match ((List.range N).map (fun j : ℕ => ((j : ℝ) - nlow) * step + x0)).mapM clean with
      | .error e => .error e
      | .ok raw =>
        let ft := fun k : ℕ => dft N (fun j => raw.getD j 0) k * tailFactor frac tau share tauHi (k / (N * step))
        .ok ((List.range x.length).map (fun i : ℕ => let v := irfftC N ft (nlow + i); if v < 0 then 0 else v))
    | _ => .error .index

/-! ### specification -/

/-- the band-limited periodic function through the points `(j * step, raw j)`, `j < N` [specification] -/
noncomputable def interp (N : ℕ) (step : ℝ) (raw : ℕ → ℝ) (x : ℝ) : ℝ :=
  ((dft N raw 0).re + ∑ k ∈ Ico 1 ((N + 1) / 2), 2 * (dft N raw k * exp (2 * Real.pi * I * k / (N * step) * x)).re
    + if N % 2 = 0 then (dft N raw (N / 2)).re * Real.cos (Real.pi * x / step) else 0) / N

/-- a function smeared with an exponential of length `tau` towards low energies (`sign = 1`) or high energies (`sign = -1`) [specification] -/
noncomputable def expTail (f : ℝ → ℝ) (sign tau x : ℝ) : ℝ :=
  if tau = 0 then f x else ∫ s in Set.Ioi 0, f (x + sign * s) * (Real.exp (-s / tau) / tau)

/-- a sum over the frequencies in two halves -/
theorem sum_halves (N : ℕ) (h : N ≠ 0) (g : ℕ → ℂ) (hg : ∀ k, 1 ≤ k → k < N → g (N - k) = (starRingEnd ℂ) (g k)) (h0 : (g 0).im = 0) :
    ∑ k ∈ range N, g k = (((g 0).re + ∑ k ∈ Ico 1 ((N + 1) / 2), 2 * (g k).re + if N % 2 = 0 then (g (N / 2)).re else 0 : ℝ) : ℂ) := by
  have e0 : g 0 = ((g 0).re : ℂ) := by
    apply Complex.ext <;> simp [h0]
  have hr : ∀ a b, 1 ≤ a → a ≤ b → b ≤ N → ∑ k ∈ Ico (N + 1 - b) (N + 1 - a), g k = ∑ k ∈ Ico a b, (starRingEnd ℂ) (g k) := by
    intro a b ha hab hb
    have := sum_Ico_reflect g a (m := b) (n := N) (by omega)
    rw [← this]
    refine sum_congr rfl fun k hk => hg k ?_ ?_
    · have := (mem_Ico.1 hk).1; omega
    · have := (mem_Ico.1 hk).2; omega
  have hadd : ∀ s : Finset ℕ, ∑ k ∈ s, g k + ∑ k ∈ s, (starRingEnd ℂ) (g k) = ((∑ k ∈ s, 2 * (g k).re : ℝ) : ℂ) := by
    intro s
    rw [← sum_add_distrib, ofReal_sum]
    refine sum_congr rfl fun k _ => ?_
    rw [add_conj]
  rw [range_eq_Ico, sum_eq_sum_Ico_succ_bot (by omega), e0, zero_add]
  rcases Nat.even_or_odd' N with ⟨m, hm | hm⟩
  · have hm0 : 1 ≤ m := by omega
    have e1 : (N + 1) / 2 = m := by omega
    have e2 : N % 2 = 0 := by omega
    have e3 : N / 2 = m := by omega
    rw [e1, if_pos e2, e3, ← sum_Ico_consecutive g hm0 (by omega : m ≤ N), sum_eq_sum_Ico_succ_bot (by omega : m < N)]
    have h1 := hr 1 m le_rfl hm0 (by omega)
    rw [show N + 1 - m = m + 1 by omega, show N + 1 - 1 = N by omega] at h1
    have h2 : g m = ((g m).re : ℂ) := by
      have := hg m hm0 (by omega)
      rw [show N - m = m by omega] at this
      exact (conj_eq_iff_real.1 this.symm).elim fun r hr => by rw [hr]; simp
    rw [h1]
    push_cast
    have h3 := hadd (Ico 1 m)
    push_cast at h3
    rw [← h2, ← h3]
    simp only [ofReal_re]
    ring
  · have e1 : (N + 1) / 2 = m + 1 := by omega
    have e2 : ¬ N % 2 = 0 := by omega
    rw [e1, if_neg e2, ← sum_Ico_consecutive g (by omega : 1 ≤ m + 1) (by omega : m + 1 ≤ N)]
    have h1 := hr 1 (m + 1) le_rfl (by omega) (by omega)
    rw [show N + 1 - (m + 1) = m + 1 by omega, show N + 1 - 1 = N by omega] at h1
    rw [h1]
    push_cast
    have h3 := hadd (Ico 1 (m + 1))
    push_cast at h3
    rw [← h3]
    simp only [ofReal_re]
    ring

theorem dft_zero_real (N : ℕ) (x : ℕ → ℝ) : (dft N x 0).im = 0 := by
  unfold dft
  simp

/-- the interpolation passes through the points -/
theorem interp_point (N : ℕ) (h : N ≠ 0) {step : ℝ} (hs : step ≠ 0) (raw : ℕ → ℝ) (t : ℕ) (ht : t < N) : interp N step raw (t * step) = raw t := by
  have hN : (N : ℂ) ≠ 0 := Nat.cast_ne_zero.2 h
  have hsC : (step : ℂ) ≠ 0 := ofReal_ne_zero.2 hs
  have hexp : ∀ k : ℕ, exp (2 * Real.pi * I * k / (N * step) * ((t * step : ℝ) : ℂ)) = zeta N ^ (k * t) := by
    intro k
    unfold zeta
    rw [← exp_nat_mul]
    congr 1
    push_cast
    field_simp
  have hcos : Real.cos (Real.pi * (t * step) / step) = (-1) ^ t := by
    rw [show Real.pi * (t * step) / step = t * Real.pi by field_simp, Real.cos_nat_mul_pi]
  have key := sum_halves N h (fun k => dft N raw k * zeta N ^ (k * t)) ?_ ?_
  · have hfull : ∑ k ∈ range N, dft N raw k * zeta N ^ (k * t) = N * raw t := by
      unfold dft
      simp_rw [sum_mul]
      rw [sum_comm]
      have : ∀ j ∈ range N, ∑ k ∈ range N, (raw j : ℂ) * (zeta N ^ (j * k))⁻¹ * zeta N ^ (k * t) = if j = t then (raw j : ℂ) * N else 0 := by
        intro j hj
        have e : ∀ k, (raw j : ℂ) * (zeta N ^ (j * k))⁻¹ * zeta N ^ (k * t) = raw j * (zeta N ^ ((t : ℤ) - j)) ^ k := by
          intro k
          rw [← zpow_natCast (zeta N ^ ((t : ℤ) - j)), ← zpow_mul, ← zpow_natCast, ← zpow_natCast, ← zpow_neg, mul_assoc, ← zpow_add₀ (zeta_ne N)]
          congr 2
          push_cast
          ring
        simp_rw [e]
        rw [← mul_sum, orth N h]
        have hj' := mem_range.1 hj
        by_cases hjt : j = t
        · subst hjt
          simp
        · rw [if_neg hjt, if_neg, mul_zero]
          intro hd
          have := Int.eq_zero_of_abs_lt_dvd hd (by rw [abs_lt]; constructor <;> omega)
          omega
      rw [sum_congr rfl this, sum_ite_eq' (range N) t, if_pos (mem_range.2 ht)]
      ring
    rw [hfull] at key
    have key2 : (N : ℝ) * raw t = (dft N raw 0).re + ∑ k ∈ Ico 1 ((N + 1) / 2), 2 * (dft N raw k * zeta N ^ (k * t)).re
        + if N % 2 = 0 then (dft N raw (N / 2) * zeta N ^ (N / 2 * t)).re else 0 := by
      have := congrArg Complex.re key
      simpa using this
    unfold interp
    simp_rw [hexp]
    rw [hcos]
    have hmid : (if N % 2 = 0 then (dft N raw (N / 2) * zeta N ^ (N / 2 * t)).re else 0) = if N % 2 = 0 then (dft N raw (N / 2)).re * (-1) ^ t else 0 := by
      split
      · rename_i he
        have e : N = 2 * (N / 2) := by omega
        have hz : zeta N ^ (N / 2) = -1 := by
          conv_lhs => rw [e]
          rw [show 2 * (N / 2) / 2 = N / 2 by omega]
          exact zeta_half _ (by omega)
        rw [pow_mul, hz]
        rcases Nat.even_or_odd t with h1 | h1
        · simp [h1.neg_one_pow]
        · simp [h1.neg_one_pow]
      · rfl
    rw [← hmid, ← key2]
    have : (N : ℝ) ≠ 0 := Nat.cast_ne_zero.2 h
    field_simp
  · intro k h1 h2
    rw [dft_reflect N h raw k h2.le, map_mul, map_pow, conj_zeta]
    congr 1
    have : zeta N ^ ((N - k) * t) * zeta N ^ (k * t) = 1 := by
      rw [← pow_add, ← Nat.add_mul, Nat.sub_add_cancel h2.le, pow_mul, (zeta_prim N h).pow_eq_one, one_pow]
    rw [inv_pow]
    exact eq_inv_of_mul_eq_one_left this
  · simp [dft_zero_real]

/-- smearing a wave with an exponential towards low energies -/
theorem wave_tail {tau : ℝ} (ht : 0 < tau) (z : ℂ) (w : ℝ) :
    MeasureTheory.IntegrableOn (fun s : ℝ => (z * exp (w * I * s)).re * (Real.exp (-s / tau) / tau)) (Set.Ioi 0) ∧
    ∫ s : ℝ in Set.Ioi 0, (z * exp (w * I * s)).re * (Real.exp (-s / tau) / tau) = (z / (1 - w * I * tau)).re := by
  have htC : (tau : ℂ) ≠ 0 := ofReal_ne_zero.2 ht.ne'
  have ha : ((w : ℂ) * I - 1 / tau).re < 0 := by
    have : ((1 : ℂ) / tau).re = 1 / tau := by
      rw [← ofReal_one, ← ofReal_div, ofReal_re]
    simp only [sub_re, this, mul_re, ofReal_re, I_re, mul_zero, ofReal_im, I_im, mul_one, sub_self, zero_sub, Left.neg_neg_iff]
    positivity
  have e : (fun s : ℝ => (z * exp (w * I * s)).re * (Real.exp (-s / tau) / tau)) = fun s : ℝ => (z / tau * exp ((w * I - 1 / tau) * s)).re := by
    funext s
    have : z / tau * exp ((w * I - 1 / tau) * s) = (z * exp (w * I * s)) * ((Real.exp (-s / tau) / tau : ℝ) : ℂ) := by
      rw [sub_mul, exp_sub]
      push_cast
      rw [show -(s : ℂ) / tau = -(1 / tau * s) by ring, exp_neg]
      field_simp
    rw [this, re_mul_ofReal]
  have hint : MeasureTheory.IntegrableOn (fun s : ℝ => z / tau * exp ((w * I - 1 / tau) * s)) (Set.Ioi 0) :=
    (integrableOn_exp_mul_complex_Ioi ha 0).const_mul _
  rw [e]
  refine ⟨hint.re, ?_⟩
  have h1 := integral_re (𝕜 := ℂ) hint
  simp only [RCLike.re_to_complex] at h1
  rw [h1, MeasureTheory.integral_const_mul, integral_exp_mul_complex_Ioi ha]
  congr 1
  have h3 : (1 : ℂ) - w * I * tau ≠ 0 := by
    intro hc
    have := congrArg Complex.re hc
    simp at this
  have h2 : (w : ℂ) * I - 1 / tau = -(1 - w * I * tau) / tau := by
    field_simp
    ring
  simp only [ofReal_zero, mul_zero, exp_zero]
  rw [h2]
  field_simp

/-- smearing a sum of waves, either direction -/
theorem waves_expTail {tau : ℝ} (ht : 0 ≤ tau) (S : Finset ℕ) (c : ℕ → ℂ) (w : ℕ → ℝ) (sign x : ℝ) :
    expTail (fun y => ∑ k ∈ S, (c k * exp (w k * I * y)).re) sign tau x
      = ∑ k ∈ S, (c k / (1 - sign * w k * I * tau) * exp (w k * I * x)).re := by
  unfold expTail
  by_cases h0 : tau = 0
  · rw [if_pos h0, h0]
    simp
  · rw [if_neg h0]
    have hp : 0 < tau := lt_of_le_of_ne ht (Ne.symm h0)
    have e : ∀ k (s : ℝ), c k * exp (w k * I * (x + sign * s : ℝ)) = c k * exp (w k * I * x) * exp (((sign * w k : ℝ) : ℂ) * I * s) := by
      intro k s
      rw [mul_assoc (c k), ← exp_add]
      congr 2
      push_cast
      ring
    simp_rw [e, sum_mul]
    rw [MeasureTheory.integral_finsetSum S fun k _ => (wave_tail hp _ _).1]
    refine sum_congr rfl fun k _ => ?_
    rw [(wave_tail hp _ _).2]
    congr 1
    push_cast
    ring

/-- the frequencies 0 .. N/2 -/
theorem sum_freqs {M : Type} [AddCommMonoid M] (N : ℕ) (h : N ≠ 0) (T : ℕ → M) :
    ∑ k ∈ range (N / 2 + 1), T k = T 0 + ∑ k ∈ Ico 1 ((N + 1) / 2), T k + if N % 2 = 0 then T (N / 2) else 0 := by
  rw [range_eq_Ico, sum_eq_sum_Ico_succ_bot (by omega), zero_add]
  split
  · rename_i he
    rw [sum_Ico_succ_top (by omega), show (N + 1) / 2 = N / 2 by omega, add_assoc]
  · rename_i he
    rw [show (N + 1) / 2 = N / 2 + 1 by omega, add_zero]

/-- amplitude of the k-th wave of the interpolation -/
noncomputable def amp (N : ℕ) (raw : ℕ → ℝ) (k : ℕ) : ℂ :=
  if k = 0 ∨ 2 * k = N then ((dft N raw k).re / N : ℝ) else 2 * dft N raw k / N

theorem interp_waves (N : ℕ) (h : N ≠ 0) (step : ℝ) (raw : ℕ → ℝ) (x : ℝ) :
    interp N step raw x = ∑ k ∈ range (N / 2 + 1), (amp N raw k * exp ((2 * Real.pi * k / (N * step) : ℝ) * I * x)).re := by
  have hN : (N : ℝ) ≠ 0 := Nat.cast_ne_zero.2 h
  rw [sum_freqs N h]
  unfold interp
  rw [add_div, add_div, sum_div]
  congr 1
  · congr 1
    · simp [amp]
    · refine sum_congr rfl fun k hk => ?_
      have := mem_Ico.1 hk
      unfold amp
      rw [if_neg (by omega)]
      rw [show 2 * dft N raw k / N * exp (((2 * Real.pi * k / (N * step) : ℝ) : ℂ) * I * x)
        = ((2 / N : ℝ) : ℂ) * (dft N raw k * exp (2 * Real.pi * I * k / (N * step) * x)) by
          push_cast
          rw [show 2 * (Real.pi : ℂ) * k / (N * step) * I * x = 2 * Real.pi * I * k / (N * step) * x by ring]
          ring]
      rw [re_ofReal_mul]
      ring
  · split
    · rename_i he
      have h2 : 2 * (N / 2) = N := by omega
      unfold amp
      rw [if_pos (.inr h2)]
      have hc : ((N / 2 : ℕ) : ℝ) * 2 = N := by exact_mod_cast (by omega : N / 2 * 2 = N)
      have : (2 * Real.pi * (N / 2 : ℕ) / (N * step) : ℝ) = Real.pi / step := by
        rw [← hc]
        have : ((N / 2 : ℕ) : ℝ) ≠ 0 := fun e => hN (by rw [← hc, e, zero_mul])
        by_cases hs : step = 0
        · simp [hs]
        · field_simp
      rw [this, re_ofReal_mul, show ((Real.pi / step : ℝ) : ℂ) * I * x = ((Real.pi * x / step : ℝ) : ℂ) * I by push_cast; ring, exp_ofReal_mul_I_re]
      ring
    · simp

theorem dft_mid_real (N : ℕ) (h : N ≠ 0) (raw : ℕ → ℝ) (he : N % 2 = 0) : (dft N raw (N / 2)).im = 0 := by
  have := dft_reflect N h raw (N / 2) (by omega)
  rw [show N - N / 2 = N / 2 by omega] at this
  exact conj_eq_iff_im.1 this.symm

/-- the transform back of the product is the sum of waves, each changed by the factor -/
theorem irfft_waves (N : ℕ) (h : N ≠ 0) {step : ℝ} (hs : step ≠ 0) (raw : ℕ → ℝ) (F : ℕ → ℂ) (t : ℕ) :
    irfftC N (fun k => dft N raw k * F k) t
      = ∑ k ∈ range (N / 2 + 1), (amp N raw k * F k * exp ((2 * Real.pi * k / (N * step) : ℝ) * I * (t * step : ℝ))).re := by
  have hN : (N : ℝ) ≠ 0 := Nat.cast_ne_zero.2 h
  have hNC : (N : ℂ) ≠ 0 := Nat.cast_ne_zero.2 h
  have hsC : (step : ℂ) ≠ 0 := ofReal_ne_zero.2 hs
  have hexp : ∀ k : ℕ, exp ((2 * Real.pi * k / (N * step) : ℝ) * I * (t * step : ℝ)) = zeta N ^ (k * t) := by
    intro k
    unfold zeta
    rw [← exp_nat_mul]
    congr 1
    push_cast
    field_simp
  have hreal : ∀ k, (dft N raw k).im = 0 → dft N raw k = ((dft N raw k).re : ℂ) := fun k hk => by apply Complex.ext <;> simp [hk]
  simp_rw [hexp]
  rw [sum_freqs N h]
  unfold irfftC
  rw [add_div, add_div, sum_div]
  congr 1
  · congr 1
    · have e : amp N raw 0 * F 0 * zeta N ^ (0 * t) = ((1 / N : ℝ) : ℂ) * (dft N raw 0 * F 0) := by
        rw [hreal 0 (dft_zero_real N raw)]
        simp [amp]
        ring
      rw [e, re_ofReal_mul]
      ring
    · refine sum_congr rfl fun k hk => ?_
      have := mem_Ico.1 hk
      unfold amp
      rw [if_neg (by omega)]
      rw [show 2 * dft N raw k / N * F k * zeta N ^ (k * t) = ((2 / N : ℝ) : ℂ) * (dft N raw k * F k * zeta N ^ (k * t)) by push_cast; ring, re_ofReal_mul]
      ring
  · split
    · rename_i he
      have hz : zeta N ^ (N / 2) = -1 := by
        conv_lhs => rw [show N = 2 * (N / 2) by omega]
        rw [show 2 * (N / 2) / 2 = N / 2 by omega]
        exact zeta_half _ (by omega)
      have e : amp N raw (N / 2) * F (N / 2) * zeta N ^ (N / 2 * t) = (((-1) ^ t / N : ℝ) : ℂ) * (dft N raw (N / 2) * F (N / 2)) := by
        rw [pow_mul, hz, hreal _ (dft_mid_real N h raw he)]
        unfold amp
        rw [if_pos (.inr (by omega))]
        push_cast
        ring
      rw [e, re_ofReal_mul]
      ring
    · simp

theorem mapM_ok {f : ℝ → ℝ} {clean : ℝ → Except Exc ℝ} (hc : ∀ y, clean y = .ok (f y)) (l : List ℝ) : l.mapM clean = .ok (l.map f) := by
  induction l with
  | nil => rfl
  | cons a t ih =>
    rw [List.mapM_cons, hc, ih]
    rfl

/-- the weights the code gives to the tails: shares of one in a million or less are dropped [specification] -/
noncomputable def weight (a : ℝ) : ℝ := if a > 1 / 1000000 then a else 0

theorem tailFactor_eq (frac tau share tauHi freq : ℝ) : tailFactor frac tau share tauHi freq
    = (1 - frac : ℝ) + (weight (frac - frac * share) : ℂ) / (1 - (1 : ℝ) * (2 * Real.pi * freq : ℝ) * I * tau)
      + (weight (frac * share) : ℂ) / (1 - (-1 : ℝ) * (2 * Real.pi * freq : ℝ) * I * tauHi) := by
  unfold tailFactor weight
  dsimp only
  congr 1
  · congr 1
    split
    · congr 1
      push_cast
      ring
    · simp
  · split
    · congr 1
      push_cast
      ring
    · simp

/-- C92. The smeared spectrum is, exactly, the band-limited function through the values of the spectrum on the widened grid, smeared with an exponential of
length `tau` towards low energies and one of length `tauHi` towards high energies; negative values are replaced with 0. Without tails it is the spectrum. -/
theorem smear_tails {clean : ℝ → Except Exc ℝ} {f : ℝ → ℝ} (hc : ∀ y, clean y = .ok (f y)) (x : List ℝ) (res frac tau share tauHi : ℝ) :
    (frac ≤ 1 / 1000000 → smear clean x res frac tau share tauHi = .ok (x.map f)) ∧
    (1 / 1000000 < frac → 0 ≤ tau → 0 ≤ tauHi → (h2 : 2 ≤ x.length) → x[0] < x[1] →
      ∀ step lo hi N, step = x[1] - x[0] → lo = (extension x.length step res tau tauHi).1 → hi = (extension x.length step res tau tauHi).2 →
      N = lo + hi + x.length →
      (100000 < N → smear clean x res frac tau share tauHi = .error .value) ∧
      (N ≤ 100000 → ∃ r P, smear clean x res frac tau share tauHi = .ok r ∧ r.length = x.length ∧
        P = interp N step (fun j => f (x[0] + ((j : ℝ) - lo) * step)) ∧
        (∀ j < N, P (j * step) = f (x[0] + ((j : ℝ) - lo) * step)) ∧
        ∀ i (hi : i < r.length), r[i] = max 0 ((1 - frac) * P ((lo + i : ℕ) * step) + weight (frac - frac * share) * expTail P 1 tau ((lo + i : ℕ) * step)
          + weight (frac * share) * expTail P (-1) tauHi ((lo + i : ℕ) * step)))) := by
  refine ⟨fun h => ?_, fun h ht hth h2 hlt step lo hi N hst hlo hhi hNe => ?_⟩
  · unfold smear
    rw [if_pos h]
    exact mapM_ok hc x
  · match x, h2 with
    | x0 :: x1 :: rest, _ =>
    simp only [List.getElem_cons_zero, List.getElem_cons_succ] at hlt hst ⊢
    have hs : 0 < step := by linarith
    constructor
    · intro hbig
      unfold smear
      rw [if_neg (not_le.2 h)]
      dsimp only
      rw [← hst, ← hlo, ← hhi, ← hNe, if_pos hbig]
    · intro hN
      have hN0 : N ≠ 0 := by
        simp only [List.length_cons] at hNe
        omega
      unfold smear
      rw [if_neg (not_le.2 h)]
      dsimp only
      rw [← hst, ← hlo, ← hhi, ← hNe, if_neg (not_lt.2 hN), mapM_ok hc]
      dsimp only
      refine ⟨_, _, rfl, by simp, rfl, fun j hj => interp_point N hN0 hs.ne' _ j hj, fun i hi' => ?_⟩
      simp only [List.getElem_map, List.getElem_range]
      have hraw : dft N (fun j => (((List.range N).map (fun j : ℕ => ((j : ℝ) - lo) * step + x0)).map f).getD j 0)
          = dft N (fun j => f (x0 + ((j : ℝ) - lo) * step)) := by
        funext k
        unfold dft
        refine sum_congr rfl fun j hj => ?_
        congr 2
        dsimp only
        rw [List.getD_eq_getElem?_getD]
        simp only [List.getElem?_map, List.getElem?_range (mem_range.1 hj), Option.map_some, Option.getD_some]
        rw [add_comm]
      rw [hraw]
      generalize (fun j : ℕ => f (x0 + ((j : ℝ) - lo) * step)) = raw
      rw [irfft_waves N hN0 hs.ne']
      have hP : interp N step raw = fun y : ℝ => ∑ k ∈ range (N / 2 + 1), (amp N raw k * exp ((2 * Real.pi * k / (N * step) : ℝ) * I * y)).re := by
        funext y
        exact interp_waves N hN0 step raw y
      rw [hP, waves_expTail ht, waves_expTail hth]
      have : ∑ k ∈ range (N / 2 + 1), (amp N raw k * tailFactor frac tau share tauHi (k / (N * step))
            * exp ((2 * Real.pi * k / (N * step) : ℝ) * I * ((lo + i : ℕ) * step : ℝ))).re
          = (1 - frac) * ∑ k ∈ range (N / 2 + 1), (amp N raw k * exp ((2 * Real.pi * k / (N * step) : ℝ) * I * ((lo + i : ℕ) * step : ℝ))).re
          + weight (frac - frac * share) * ∑ k ∈ range (N / 2 + 1), (amp N raw k / (1 - (1 : ℝ) * (2 * Real.pi * k / (N * step) : ℝ) * I * tau)
            * exp ((2 * Real.pi * k / (N * step) : ℝ) * I * ((lo + i : ℕ) * step : ℝ))).re
          + weight (frac * share) * ∑ k ∈ range (N / 2 + 1), (amp N raw k / (1 - (-1 : ℝ) * (2 * Real.pi * k / (N * step) : ℝ) * I * tauHi)
            * exp ((2 * Real.pi * k / (N * step) : ℝ) * I * ((lo + i : ℕ) * step : ℝ))).re := by
        rw [mul_sum, mul_sum, mul_sum, ← sum_add_distrib, ← sum_add_distrib]
        refine sum_congr rfl fun k _ => ?_
        rw [← re_ofReal_mul, ← re_ofReal_mul, ← re_ofReal_mul, ← add_re, ← add_re, tailFactor_eq,
          show 2 * Real.pi * ((k : ℝ) / (N * step)) = 2 * Real.pi * k / (N * step) by ring]
        congr 1
        ring
      rw [this]
      split
      · rename_i hneg
        rw [max_eq_left hneg.le]
      · rename_i hneg
        rw [max_eq_right (not_lt.1 hneg)]

theorem interp_const (N : ℕ) (h : N ≠ 0) (step c x : ℝ) : interp N step (fun _ => c) x = c := by
  have hN : (N : ℝ) ≠ 0 := Nat.cast_ne_zero.2 h
  have hd : ∀ k, k < N → dft N (fun _ => c) k = if k = 0 then ((c * N : ℝ) : ℂ) else 0 := by
    intro k hk
    unfold dft
    have e : ∀ j, (c : ℂ) * (zeta N ^ (j * k))⁻¹ = c * (zeta N ^ (-(k : ℤ))) ^ j := by
      intro j
      rw [zpow_neg, zpow_natCast, inv_pow, ← pow_mul, mul_comm k j]
    simp_rw [e]
    rw [← mul_sum, orth N h]
    by_cases h0 : k = 0
    · simp [h0]
    · rw [if_neg h0, if_neg, mul_zero]
      intro hdv
      have := Int.eq_zero_of_abs_lt_dvd hdv (by rw [abs_lt]; constructor <;> omega)
      omega
  unfold interp
  rw [hd 0 (by omega), if_pos rfl, sum_eq_zero]
  · have : (if N % 2 = 0 then (dft N (fun _ => c) (N / 2)).re * Real.cos (Real.pi * x / step) else 0) = 0 := by
      split
      · rw [hd _ (by omega), if_neg (by omega)]
        simp
      · rfl
    rw [this, ofReal_re]
    field_simp
    ring
  · intro k hk
    have := mem_Ico.1 hk
    rw [hd k (by omega), if_neg (by omega)]
    simp

theorem expTail_const {tau : ℝ} (ht : 0 ≤ tau) (c sign x : ℝ) : expTail (fun _ => c) sign tau x = c := by
  have := waves_expTail ht {0} (fun _ => (c : ℂ)) (fun _ => 0) sign x
  simpa using this

-- example for C92: a flat spectrum with half of the events in tails (three quarters of them low) stays flat, on a grid widened from 2 to 14 points
example : smear (fun _ => .ok 3) [10, 11] 0 (1 / 2) 1 (1 / 4) 1 = .ok [3, 3] := by
  have hx : extension 2 1 0 1 1 = (6, 6) := by
    unfold extension
    have : ⌊(0 + max (1 * 6) 1 : ℝ) / 1 + 1 / 2⌋₊ = 6 := by
      rw [Nat.floor_eq_iff (by norm_num)]
      norm_num
    have h2 : ⌊(0 + max 1 (1 * 6) : ℝ) / 1 + 1 / 2⌋₊ = 6 := by
      rw [Nat.floor_eq_iff (by norm_num)]
      norm_num
    rw [this, h2]
    norm_num
  obtain ⟨r, P, h1, h2, h3, -, h5⟩ := ((smear_tails (f := fun _ => 3) (fun _ => rfl) [10, 11] 0 (1 / 2) 1 (1 / 4) 1).2 (by norm_num) (by norm_num)
    (by norm_num) (by simp) (by norm_num) 1 6 6 14 (by norm_num) (by simp [hx]) (by simp [hx]) (by simp)).2 (by norm_num)
  have hP : P = fun _ => 3 := by
    rw [h3]
    funext y
    exact interp_const 14 (by norm_num) 1 3 y
  rw [h1]
  congr 1
  have hall : ∀ i (hi : i < r.length), r[i] = 3 := by
    intro i hi
    rw [h5 i hi, hP, expTail_const (by norm_num), expTail_const (by norm_num)]
    unfold weight
    norm_num
  refine List.ext_getElem (by simpa using h2) fun i h6 h7 => ?_
  rw [hall i h6]
  simp only [List.length_cons, List.length_nil] at h7
  match i, h7 with
  | 0, _ => rfl
  | 1, _ => rfl

end Mass.Line
