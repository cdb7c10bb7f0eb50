import Mathlib.RingTheory.RootsOfUnity.Complex
import Mathlib.Algebra.Field.GeomSum
import Mathlib.Algebra.BigOperators.Intervals
import Mathlib.Algebra.BigOperators.Ring.Finset
import Mathlib.Analysis.SpecialFunctions.Trigonometric.Basic
import Mathlib.Tactic.Ring
import Mathlib.Tactic.FieldSimp
import Mathlib.Tactic.Linarith
/-! The discrete Fourier transform of real data as numpy defines it (np.fft.rfft, np.fft.irfft), and what the code uses of it: correlation by transform, Parseval's identity. Exact arithmetic. -/
namespace Mass.Lin.Dft
open Finset Complex

/-- e^(2 pi i / N) (definition used by np.fft, called at channel.py L331-334 and power_spectrum.py L115) -/
noncomputable def zeta (N : ℕ) : ℂ := exp (2 * Real.pi * I / N)

/-- np.fft.rfft(x)[k] for x of length N: sum of x[j] e^(-2 pi i j k / N) (called at channel.py L331 and power_spectrum.py L115) -/
noncomputable def dft (N : ℕ) (x : ℕ → ℝ) (k : ℕ) : ℂ := ∑ j ∈ range N, (x j : ℂ) * (zeta N ^ (j * k))⁻¹

/-- (ft * ft.conj()).real, |ft|^2 (channel.py L331-334, power_spectrum.py L115-117) -/
noncomputable def power (N : ℕ) (x : ℕ → ℝ) (k : ℕ) : ℝ := normSq (dft N x k)

/-- np.fft.irfft(p)[l] for p real of length m+1: the output has length 2m (called at channel.py L334) -/
noncomputable def irfft (m : ℕ) (p : ℕ → ℝ) (l : ℕ) : ℝ :=
  (p 0 + 2 * ∑ k ∈ Ico 1 m, p k * Real.cos (2 * Real.pi * (k * l : ℕ) / (2 * m : ℕ)) + p m * (-1) ^ l) / (2 * m : ℕ)

theorem zeta_prim (N : ℕ) (h : N ≠ 0) : IsPrimitiveRoot (zeta N) N := Complex.isPrimitiveRoot_exp N h

theorem zeta_ne (N : ℕ) : zeta N ≠ 0 := exp_ne_zero _

theorem conj_zeta (N : ℕ) : (starRingEnd ℂ) (zeta N) = (zeta N)⁻¹ := by
  unfold zeta
  rw [← exp_conj, ← exp_neg]
  congr 1
  rw [map_div₀, map_mul, map_mul, conj_I, conj_ofReal, map_natCast, show (starRingEnd ℂ) 2 = 2 from map_ofNat _ 2]
  ring

theorem orth (N : ℕ) (h : N ≠ 0) (m : ℤ) : ∑ k ∈ range N, (zeta N ^ m) ^ k = if (N : ℤ) ∣ m then (N : ℂ) else 0 := by
  split
  · rename_i hd
    rw [((zeta_prim N h).zpow_eq_one_iff_dvd m).2 hd]
    simp
  · rename_i hd
    have h1 : zeta N ^ m ≠ 1 := fun e => hd (((zeta_prim N h).zpow_eq_one_iff_dvd m).1 e)
    rw [geom_sum_eq h1]
    have : (zeta N ^ m) ^ N = 1 := by
      rw [← zpow_natCast, ← zpow_mul, mul_comm, zpow_mul, zpow_natCast, (zeta_prim N h).pow_eq_one, one_zpow]
    rw [this]
    simp

theorem conj_dft (N : ℕ) (x : ℕ → ℝ) (k : ℕ) : (starRingEnd ℂ) (dft N x k) = ∑ j ∈ range N, (x j : ℂ) * zeta N ^ (j * k) := by
  unfold dft
  rw [map_sum]
  refine sum_congr rfl (fun j _ => ?_)
  rw [map_mul, conj_ofReal, map_inv₀, map_pow, conj_zeta, inv_pow, inv_inv]

theorem power_eq (N : ℕ) (x : ℕ → ℝ) (k : ℕ) : (power N x k : ℂ) = ∑ i ∈ range N, ∑ j ∈ range N, (x i : ℂ) * x j * (zeta N ^ ((j : ℤ) - i)) ^ k := by
  unfold power
  rw [normSq_eq_conj_mul_self, conj_dft, dft, sum_mul_sum, sum_comm]
  refine sum_congr rfl (fun i _ => sum_congr rfl (fun j _ => ?_))
  rw [← zpow_natCast (zeta N ^ ((j : ℤ) - i)), ← zpow_mul, ← zpow_natCast, ← zpow_natCast, ← zpow_neg,
    show ((j : ℤ) - i) * (k : ℤ) = ((j * k : ℕ) : ℤ) + -((i * k : ℕ) : ℤ) by push_cast; ring, zpow_add₀ (zeta_ne N)]
  ring

/-- inverse transform (over all N frequencies) of the power: the circular correlation -/
theorem full_inverse (N : ℕ) (h : N ≠ 0) (x : ℕ → ℝ) (l : ℕ) : ∑ k ∈ range N, (power N x k : ℂ) * (zeta N ^ l) ^ k = N * ∑ j ∈ range N, (x j : ℂ) * x ((j + l) % N) := by
  have h1 : ∀ k ∈ range N, (power N x k : ℂ) * (zeta N ^ l) ^ k = ∑ i ∈ range N, ∑ j ∈ range N, (x i : ℂ) * x j * (zeta N ^ ((j : ℤ) + l - i)) ^ k := by
    intro k _
    rw [power_eq, sum_mul]
    refine sum_congr rfl (fun i _ => ?_)
    rw [sum_mul]
    refine sum_congr rfl (fun j _ => ?_)
    rw [mul_assoc, ← mul_pow, ← zpow_natCast (zeta N) l, ← zpow_add₀ (zeta_ne N), show (j : ℤ) - i + l = j + l - i by ring]
  rw [sum_congr rfl h1, sum_comm]
  rw [sum_congr rfl (fun i _ => sum_comm)]
  rw [sum_comm, mul_sum]
  refine sum_congr rfl (fun j hj => ?_)
  have hlt : (j + l) % N < N := Nat.mod_lt _ (Nat.pos_of_ne_zero h)
  rw [sum_eq_single ((j + l) % N)]
  · rw [← mul_sum, orth N h, if_pos]
    · ring
    · have h2 : ((j : ℤ) + l) = N * ((j + l) / N : ℕ) + ((j + l) % N : ℕ) := by exact_mod_cast (Nat.div_add_mod (j + l) N).symm
      rw [h2, add_sub_cancel_right]
      exact dvd_mul_right _ _
  · intro i hi hne
    rw [← mul_sum, orth N h, if_neg, mul_zero]
    intro hd
    apply hne
    have hi := mem_range.1 hi
    have : i ≡ j + l [MOD N] := (Nat.modEq_iff_dvd (n := N)).2 (by push_cast; exact hd)
    rw [Nat.ModEq, Nat.mod_eq_of_lt hi] at this
    exact this
  · intro hn
    exact absurd (mem_range.2 hlt) hn

theorem dft_reflect (N : ℕ) (h : N ≠ 0) (x : ℕ → ℝ) (k : ℕ) (hk : k ≤ N) : dft N x (N - k) = (starRingEnd ℂ) (dft N x k) := by
  rw [conj_dft]
  unfold dft
  refine sum_congr rfl (fun j _ => ?_)
  congr 1
  have h1 : zeta N ^ (j * (N - k)) * zeta N ^ (j * k) = 1 := by
    rw [← pow_add, ← Nat.mul_add, Nat.sub_add_cancel hk, mul_comm, pow_mul, (zeta_prim N h).pow_eq_one, one_pow]
  exact inv_eq_of_mul_eq_one_right h1

theorem power_reflect (N : ℕ) (h : N ≠ 0) (x : ℕ → ℝ) (k : ℕ) (hk : k ≤ N) : power N x (N - k) = power N x k := by
  unfold power
  rw [dft_reflect N h x k hk, normSq_conj]

theorem zeta_half (m : ℕ) (hm : m ≠ 0) : zeta (2 * m) ^ m = -1 := by
  unfold zeta
  rw [← exp_nat_mul, ← exp_pi_mul_I]
  congr 1
  have : (m : ℂ) ≠ 0 := by exact_mod_cast hm
  push_cast
  field_simp

theorem zeta_cos (N q : ℕ) : zeta N ^ q + (zeta N ^ q)⁻¹ = 2 * (Real.cos (2 * Real.pi * q / N) : ℝ) := by
  have h : zeta N ^ q = exp ((2 * Real.pi * q / N : ℝ) * I) := by
    unfold zeta
    rw [← exp_nat_mul]
    congr 1
    push_cast
    ring
  rw [h, ← exp_neg, ofReal_cos, Complex.cos]
  rw [neg_mul]
  ring

/-- irfft of a symmetric real spectrum is the inverse transform over all 2m frequencies -/
theorem irfft_full (m : ℕ) (hm : m ≠ 0) (p : ℕ → ℝ) (hp : ∀ k, 1 ≤ k → k < m → p (2 * m - k) = p k) (l : ℕ) :
    (irfft m p l : ℂ) * (2 * m : ℕ) = ∑ k ∈ range (2 * m), (p k : ℂ) * (zeta (2 * m) ^ l) ^ k := by
  have hN : 2 * m ≠ 0 := by omega
  have hrefl : ∑ k ∈ Ico (m + 1) (2 * m), (p k : ℂ) * (zeta (2 * m) ^ l) ^ k = ∑ k ∈ Ico 1 m, (p k : ℂ) * ((zeta (2 * m) ^ (k * l)))⁻¹ := by
    have := sum_Ico_reflect (fun k => (p k : ℂ) * (zeta (2 * m) ^ l) ^ k) 1 (show m ≤ 2 * m + 1 by omega)
    rw [show 2 * m + 1 - m = m + 1 by omega, show 2 * m + 1 - 1 = 2 * m by omega] at this
    rw [← this]
    refine sum_congr rfl (fun k hk => ?_)
    obtain ⟨h1, h2⟩ := mem_Ico.1 hk
    rw [hp k h1 h2]
    congr 1
    refine eq_inv_of_mul_eq_one_left ?_
    rw [← pow_mul, ← pow_add, mul_comm k l, ← Nat.mul_add, Nat.sub_add_cancel (by omega), mul_comm l (2 * m), pow_mul, (zeta_prim _ hN).pow_eq_one, one_pow]
  rw [← Finset.sum_range_add_sum_Ico _ (show m + 1 ≤ 2 * m by omega), hrefl, sum_range_succ, range_eq_Ico, Finset.sum_eq_sum_Ico_succ_bot (by omega)]
  have hmid : (zeta (2 * m) ^ l) ^ m = (-1) ^ l := by rw [← pow_mul, mul_comm l m, pow_mul, zeta_half m hm]
  rw [hmid, pow_zero, mul_one]
  unfold irfft
  have hN' : ((2 * m : ℕ) : ℂ) ≠ 0 := by exact_mod_cast hN
  rw [ofReal_div, ofReal_natCast, div_mul_cancel₀ _ hN']
  push_cast
  have hsum : ∑ k ∈ Ico 1 m, (p k : ℂ) * (zeta (2 * m) ^ l) ^ k + ∑ k ∈ Ico 1 m, (p k : ℂ) * (zeta (2 * m) ^ (k * l))⁻¹ =
      2 * ∑ k ∈ Ico 1 m, (p k : ℂ) * Complex.cos (2 * Real.pi * (k * l) / (2 * m)) := by
    rw [← sum_add_distrib, mul_sum]
    refine sum_congr rfl (fun k _ => ?_)
    rw [← pow_mul, mul_comm l k, ← mul_add, zeta_cos]
    push_cast
    ring
  rw [← hsum]
  ring

/-- Correlation by transform, as in the autocorrelation of continuous noise: the transform's zero frequency is removed, squared, and transformed back. -/
theorem autocorr_fft (m : ℕ) (hm : m ≠ 0) (x : ℕ → ℝ) (l : ℕ) :
    irfft m (fun k => if k = 0 then 0 else power (2 * m) x k) l = ∑ j ∈ range (2 * m), x j * x ((j + l) % (2 * m)) - (∑ j ∈ range (2 * m), x j) ^ 2 / (2 * m : ℕ) := by
  have hN : 2 * m ≠ 0 := by omega
  have hN' : ((2 * m : ℕ) : ℂ) ≠ 0 := by exact_mod_cast hN
  have h1 := irfft_full m hm (fun k => if k = 0 then 0 else power (2 * m) x k) (fun k h1 h2 => by
    rw [if_neg (by omega), if_neg (by omega), power_reflect _ hN x k (by omega)]) l
  have h2 := full_inverse (2 * m) hN x l
  have h3 : ∑ k ∈ range (2 * m), (((if k = 0 then 0 else power (2 * m) x k : ℝ)) : ℂ) * (zeta (2 * m) ^ l) ^ k =
      ∑ k ∈ range (2 * m), (power (2 * m) x k : ℂ) * (zeta (2 * m) ^ l) ^ k - power (2 * m) x 0 := by
    obtain ⟨n, hn⟩ : ∃ n, 2 * m = n + 1 := ⟨2 * m - 1, by omega⟩
    rw [hn, sum_range_succ', sum_range_succ']
    simp
  have h4 : (power (2 * m) x 0 : ℂ) = (∑ j ∈ range (2 * m), (x j : ℂ)) ^ 2 := by
    rw [power_eq]
    simp only [pow_zero, mul_one]
    rw [sq, sum_mul_sum]
  rw [h3, h2, h4] at h1
  have h5 : (irfft m (fun k => if k = 0 then 0 else power (2 * m) x k) l : ℂ) =
      ((∑ j ∈ range (2 * m), x j * x ((j + l) % (2 * m)) - (∑ j ∈ range (2 * m), x j) ^ 2 / (2 * m : ℕ) : ℝ) : ℂ) := by
    rw [eq_div_of_mul_eq hN' h1]
    push_cast
    field_simp
  exact_mod_cast h5

/-- Parseval's identity for rfft: with the inner frequencies counted twice the power adds up to N times the sum of squares. -/
theorem parseval (m : ℕ) (hm : m ≠ 0) (x : ℕ → ℝ) :
    power (2 * m) x 0 + 2 * ∑ k ∈ Ico 1 m, power (2 * m) x k + power (2 * m) x m = (2 * m : ℕ) * ∑ j ∈ range (2 * m), x j ^ 2 := by
  have hN : 2 * m ≠ 0 := by omega
  have h1 := irfft_full m hm (power (2 * m) x) (fun k h1 h2 => power_reflect _ hN x k (by omega)) 0
  rw [full_inverse (2 * m) hN x 0] at h1
  have h2 : irfft m (power (2 * m) x) 0 * (2 * m : ℕ) = (2 * m : ℕ) * ∑ j ∈ range (2 * m), x j * x ((j + 0) % (2 * m)) := by exact_mod_cast h1
  have hN' : ((2 * m : ℕ) : ℝ) ≠ 0 := by exact_mod_cast hN
  unfold irfft at h2
  rw [div_mul_cancel₀ _ hN'] at h2
  have h3 : ∀ j ∈ range (2 * m), x j * x ((j + 0) % (2 * m)) = x j ^ 2 := by
    intro j hj
    rw [Nat.add_zero, Nat.mod_eq_of_lt (mem_range.1 hj), sq]
  rw [sum_congr rfl h3] at h2
  rw [← h2]
  simp

/-- Data that are zero from index n on, with room for lags up to N - n: the correlation by transform is the plain correlation, without wrapping around. -/
theorem autocorr_padded (m n l : ℕ) (hm : m ≠ 0) (x : ℕ → ℝ) (hz : ∀ j, n ≤ j → x j = 0) (hroom : n + l ≤ 2 * m) (hsum : ∑ j ∈ range n, x j = 0) :
    irfft m (fun k => if k = 0 then 0 else power (2 * m) x k) l = ∑ j ∈ range (n - l), x j * x (j + l) := by
  have hs : ∑ j ∈ range (2 * m), x j = 0 := by
    rw [← sum_range_add_sum_Ico _ (show n ≤ 2 * m by omega), hsum, zero_add]
    exact sum_eq_zero (fun j hj => hz j (mem_Ico.1 hj).1)
  rw [autocorr_fft m hm, hs]
  simp only [ne_eq, OfNat.ofNat_ne_zero, not_false_eq_true, zero_pow, zero_div, sub_zero]
  rw [← sum_range_add_sum_Ico _ (show n - l ≤ 2 * m by omega)]
  have h1 : ∑ j ∈ Ico (n - l) (2 * m), x j * x ((j + l) % (2 * m)) = 0 := by
    refine sum_eq_zero (fun j hj => ?_)
    obtain ⟨a, b⟩ := mem_Ico.1 hj
    by_cases hj' : n ≤ j
    · rw [hz j hj', zero_mul]
    · have hlt : j + l < 2 * m := by omega
      rw [Nat.mod_eq_of_lt hlt, hz (j + l) (by omega), mul_zero]
  rw [h1, add_zero]
  refine sum_congr rfl (fun j hj => ?_)
  have := mem_range.1 hj
  rw [Nat.mod_eq_of_lt (by omega)]

end Mass.Lin.Dft
