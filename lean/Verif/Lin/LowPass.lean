import Verif.Lin.Ats
import Verif.Line.Tails
import Mathlib.LinearAlgebra.Matrix.NonsingularInverse
import Mathlib.LinearAlgebra.Matrix.Block
import Mathlib.Data.Complex.BigOperators
import Mathlib.Tactic.IntervalCases
/-! C120: low-pass filtered optimal filters, the Fourier-domain filter and the whitening matrix (mass/core/optimal_filtering.py `band_limit`, `compute_5lag`,
`compute_ats`, `compute_fourier`, `_normalize_filter`, `ToeplitzWhitener.W`). Values are real numbers, the transforms exact. -/
namespace Mass.Lin.Low
open Finset Complex Mass.Lin.Dft Mass.Line Mass.Algo

/-! ### band_limit -/

/-- optimal_filtering.py L216-217: |np.fft.fftfreq(N, d)[k]|: the first half counts up from 0, the second half up from -(N//2), all over N d -/
noncomputable def absFreq (N : ℕ) (d : ℝ) (k : ℕ) : ℝ :=
  |(if k < (N + 1) / 2 then (k : ℝ) else (k : ℝ) - N) / (N * d)|

open Classical in
/-- optimal_filtering.py L215-221: the transform after both low-pass filters -/
noncomputable def spectrum (v : List ℝ) (d : ℝ) (fmax f3db : Option ℝ) (k : ℕ) : ℂ :=
  let freq := absFreq v.length d k
  let ft := dft v.length (fun j => v.getD j 0) k
  let ft := match fmax with
    | none => ft
    | some f => if freq > f then 0 else ft
  match f3db with
    | none => ft
    | some g => ft / ((1 + (1 * freq / g) ^ 2 : ℝ) : ℂ)

open Classical in
/-- optimal_filtering.py L186-224 `band_limit` of one vector; the result is the new content of the argument. rfft refuses an empty vector (ValueError),
fftfreq raises ZeroDivisionError for a sample time of 0. With f_3db = 0 every value becomes NaN; that is the error `.zeroDiv` here. -/
noncomputable def bandLimit (v : List ℝ) (d : ℝ) (fmax f3db : Option ℝ) : Except Exc (List ℝ) :=
  if fmax.isNone ∧ f3db.isNone then .ok v
  else if v = [] then .error .value
  else if d = 0 then .error .zeroDiv
  else if f3db = some 0 then .error .zeroDiv
  else .ok ((List.range v.length).map (irfftC v.length (spectrum v d fmax f3db)))

/-- amplitude of the filter at frequency f: 0 above fmax, times 1/(1+(f/f_3db)^2) [specification] -/
noncomputable def gain (fmax f3db : Option ℝ) (f : ℝ) : ℝ := by
  classical exact (if ∃ a, fmax = some a ∧ a < f then 0 else 1) * (match f3db with | none => 1 | some g => 1 / (1 + (f / g) ^ 2))

/-- k-th frequency of a record of N samples (0 ≤ k < N); k and N-k are the same one [specification] -/
noncomputable def freqOf (N : ℕ) (d : ℝ) (k : ℕ) : ℝ := (min k (N - k) : ℕ) / (N * |d|)

theorem absFreq_eq (N : ℕ) (hN : N ≠ 0) (d : ℝ) (k : ℕ) (hk : k ≤ N / 2) : absFreq N d k = freqOf N d k := by
  unfold absFreq freqOf
  have hNr : (0 : ℝ) < N := by exact_mod_cast Nat.pos_of_ne_zero hN
  rw [abs_div, abs_mul, abs_of_pos hNr]
  congr 1
  have hm : min k (N - k) = k := by omega
  rw [hm]
  split
  · exact abs_of_nonneg (Nat.cast_nonneg _)
  · have h2 : 2 * k = N := by omega
    have : (N : ℝ) = 2 * k := by exact_mod_cast h2.symm
    rw [this, show (k : ℝ) - 2 * k = -k by ring, abs_neg, abs_of_nonneg (Nat.cast_nonneg _)]

theorem spectrum_eq (v : List ℝ) (hv : v ≠ []) (d : ℝ) (fmax f3db : Option ℝ) (k : ℕ) (hk : k ≤ v.length / 2) :
    spectrum v d fmax f3db k = dft v.length (fun j => v.getD j 0) k * (gain fmax f3db (freqOf v.length d k) : ℝ) := by
  have hN : v.length ≠ 0 := fun h => hv (List.length_eq_zero_iff.1 h)
  unfold spectrum gain
  dsimp only
  rw [absFreq_eq _ hN d k hk]
  cases fmax with
  | none =>
    cases f3db with
    | none => simp
    | some g =>
      simp
      rw [div_eq_mul_inv]
  | some f =>
    by_cases hf : freqOf v.length d k > f
    · cases f3db <;> simp [hf]
    · cases f3db with
      | none => simp [hf]
      | some g =>
        simp [hf]
        rw [div_eq_mul_inv]

theorem freqOf_reflect (N : ℕ) (d : ℝ) (k : ℕ) (hk : k ≤ N) : freqOf N d (N - k) = freqOf N d k := by
  unfold freqOf
  rw [show min (N - k) (N - (N - k)) = min k (N - k) by omega]

theorem conj_zeta_pow (N a : ℕ) : (starRingEnd ℂ) (zeta N ^ a) = (zeta N ^ a)⁻¹ := by rw [map_pow, conj_zeta, inv_pow]

/-- the transform back, as a sum over all N frequencies -/
theorem irfftC_full (N : ℕ) (h : N ≠ 0) (x : ℕ → ℝ) (G : ℕ → ℝ) (hG : ∀ k, 1 ≤ k → k < N → G (N - k) = G k) (X : ℕ → ℂ)
    (hX : ∀ k, k ≤ N / 2 → X k = dft N x k * (G k : ℂ)) (t : ℕ) :
    (irfftC N X t : ℂ) = (∑ k ∈ range N, dft N x k * (G k : ℂ) * zeta N ^ (k * t)) / N := by
  have hs := sum_halves N h (fun k => dft N x k * (G k : ℂ) * zeta N ^ (k * t)) (fun k h1 h2 => by
    rw [dft_reflect N h x k h2.le, hG k h1 h2, map_mul, map_mul, conj_ofReal, conj_zeta_pow]
    congr 1
    apply eq_inv_of_mul_eq_one_left
    rw [← pow_add, ← Nat.add_mul, Nat.sub_add_cancel h2.le, pow_mul, (zeta_prim N h).pow_eq_one, one_pow]) (by
      simp [dft_zero_real])
  rw [hs]
  unfold irfftC
  rw [ofReal_div, ofReal_natCast]
  congr 2
  congr 1
  · congr 1
    · rw [hX 0 (Nat.zero_le _)]
      simp
    · refine sum_congr rfl fun k hk => ?_
      have := mem_Ico.1 hk
      rw [hX k (by omega)]
  · split
    · rename_i he
      have hz : zeta N ^ (N / 2) = -1 := by
        conv_lhs => rw [show N = 2 * (N / 2) by omega]
        rw [show 2 * (N / 2) / 2 = N / 2 by omega]
        exact zeta_half _ (by omega)
      rw [hX _ le_rfl, pow_mul, hz]
      have hr := dft_mid_real N h x he
      rcases neg_one_pow_eq_or ℂ t with e | e
      · have e' : ((-1 : ℝ)) ^ t = 1 := by
          have : (((-1 : ℝ) ^ t : ℝ) : ℂ) = 1 := by push_cast; exact e
          exact_mod_cast this
        rw [e, e', mul_one, mul_one]
      · have e' : ((-1 : ℝ)) ^ t = -1 := by
          have : (((-1 : ℝ) ^ t : ℝ) : ℂ) = -1 := by push_cast; exact e
          exact_mod_cast this
        rw [e, e']
        simp
    · rfl

/-- transform of a sum of waves -/
theorem dft_waves (N : ℕ) (h : N ≠ 0) (c : ℕ → ℂ) (y : ℕ → ℝ) (hy : ∀ t, t < N → (y t : ℂ) = (∑ k ∈ range N, c k * zeta N ^ (k * t)) / N) (j : ℕ) (hj : j < N) :
    dft N y j = c j := by
  have hNC : (N : ℂ) ≠ 0 := Nat.cast_ne_zero.2 h
  unfold dft
  have h1 : ∀ t ∈ range N, (y t : ℂ) * (zeta N ^ (t * j))⁻¹ = (∑ k ∈ range N, c k * (zeta N ^ ((k : ℤ) - j)) ^ t) / N := by
    intro t ht
    rw [hy t (mem_range.1 ht), div_mul_eq_mul_div, sum_mul]
    congr 1
    refine sum_congr rfl fun k _ => ?_
    rw [mul_assoc]
    congr 1
    rw [← zpow_natCast (zeta N ^ ((k : ℤ) - j)), ← zpow_mul, ← zpow_natCast, ← zpow_natCast, ← zpow_neg, ← zpow_add₀ (zeta_ne N)]
    congr 1
    push_cast
    ring
  rw [sum_congr rfl h1, ← sum_div, sum_comm]
  rw [sum_congr rfl (fun k _ => (mul_sum _ _ _).symm)]
  rw [sum_eq_single j]
  · rw [orth N h, if_pos (by simp)]
    field_simp
  · intro k hk hne
    rw [orth N h, if_neg, mul_zero]
    intro hd
    apply hne
    have hk := mem_range.1 hk
    have : j ≡ k [MOD N] := (Nat.modEq_iff_dvd (n := N)).2 (by exact_mod_cast hd)
    rw [Nat.ModEq, Nat.mod_eq_of_lt hk, Nat.mod_eq_of_lt hj] at this
    exact this.symm
  · intro hn
    exact absurd (mem_range.2 hj) hn

/-- a record is determined by its transform -/
theorem dft_inverse (N : ℕ) (h : N ≠ 0) (x : ℕ → ℝ) (t : ℕ) (ht : t < N) : (x t : ℂ) = (∑ k ∈ range N, dft N x k * zeta N ^ (k * t)) / N := by
  have hNC : (N : ℂ) ≠ 0 := Nat.cast_ne_zero.2 h
  rw [eq_div_iff hNC]
  unfold dft
  have h1 : ∀ k ∈ range N, (∑ j ∈ range N, (x j : ℂ) * (zeta N ^ (j * k))⁻¹) * zeta N ^ (k * t)
      = ∑ j ∈ range N, (x j : ℂ) * (zeta N ^ ((t : ℤ) - j)) ^ k := by
    intro k _
    rw [sum_mul]
    refine sum_congr rfl fun j _ => ?_
    rw [mul_assoc]
    congr 1
    rw [← zpow_natCast (zeta N ^ ((t : ℤ) - j)), ← zpow_mul, ← zpow_natCast, ← zpow_natCast, ← zpow_neg, ← zpow_add₀ (zeta_ne N)]
    congr 1
    push_cast
    ring
  rw [sum_congr rfl h1, sum_comm, sum_congr rfl (fun k _ => (mul_sum _ _ _).symm), sum_eq_single t]
  · rw [orth N h, if_pos (by simp)]
  · intro k hk hne
    rw [orth N h, if_neg, mul_zero]
    intro hd
    apply hne
    have hk := mem_range.1 hk
    have : k ≡ t [MOD N] := (Nat.modEq_iff_dvd (n := N)).2 (by exact_mod_cast hd)
    rw [Nat.ModEq, Nat.mod_eq_of_lt hk, Nat.mod_eq_of_lt ht] at this
    exact this
  · intro hn
    exact absurd (mem_range.2 ht) hn

/-- the record as a function -/
theorem getD_range_map (N : ℕ) (f : ℕ → ℝ) (t : ℕ) (ht : t < N) : ((List.range N).map f).getD t 0 = f t := by
  rw [List.getD_eq_getElem?_getD, List.getElem?_map, List.getElem?_range ht]
  rfl

theorem bandLimit_length {v w : List ℝ} {d : ℝ} {fmax f3db : Option ℝ} (h : bandLimit v d fmax f3db = .ok w) : w.length = v.length := by
  unfold bandLimit at h
  split at h
  · injection h with h; rw [h]
  split at h
  · exact absurd h (by simp)
  split at h
  · exact absurd h (by simp)
  split at h
  · exact absurd h (by simp)
  injection h with h
  rw [← h]
  simp

/-- C120. What the low-pass filters do: the component of every frequency is multiplied by a real factor that depends only on the frequency: 0 above `fmax`, and
1/(1+(f/f_3db)^2) if `f_3db` is given. Nothing else changes (no shift in time). -/
theorem bandLimit_spectrum {v w : List ℝ} {d : ℝ} {fmax f3db : Option ℝ} (h : bandLimit v d fmax f3db = .ok w) (k : ℕ) (hk : k < v.length) :
    dft v.length (fun j => w.getD j 0) k = (gain fmax f3db (freqOf v.length d k) : ℝ) * dft v.length (fun j => v.getD j 0) k := by
  have hN : v.length ≠ 0 := by omega
  have hv : v ≠ [] := fun e => hN (by rw [e]; rfl)
  unfold bandLimit at h
  split at h
  · rename_i hno
    injection h with h
    rw [Option.isNone_iff_eq_none, Option.isNone_iff_eq_none] at hno
    rw [← h, hno.1, hno.2]
    simp [gain]
  split at h
  · exact absurd h (by simp)
  split at h
  · exact absurd h (by simp)
  injection h with h
  have hfull := irfftC_full v.length hN (fun j => v.getD j 0) (fun k => gain fmax f3db (freqOf v.length d k))
    (fun k _ h2 => by rw [freqOf_reflect _ _ _ h2.le]) (spectrum v d fmax f3db) (fun k hk => spectrum_eq v hv d fmax f3db k hk)
  rw [dft_waves v.length hN (fun k => dft v.length (fun j => v.getD j 0) k * (gain fmax f3db (freqOf v.length d k) : ℝ)) _ ?_ k hk, mul_comm]
  intro t ht
  rw [← h, getD_range_map _ _ _ ht]
  exact hfull t

/-- two records of the same length with the same transform are equal -/
theorem eq_of_dft {v w : List ℝ} (hl : w.length = v.length)
    (h : ∀ k, k < v.length → dft v.length (fun j => w.getD j 0) k = dft v.length (fun j => v.getD j 0) k) : w = v := by
  by_cases hN : v.length = 0
  · rw [List.length_eq_zero_iff.1 hN, List.length_eq_zero_iff.1 (hl.trans hN)]
  refine list_eq_of_getD hl fun t ht => ?_
  have h1 := dft_inverse v.length hN (fun j => w.getD j 0) t ht
  have h2 := dft_inverse v.length hN (fun j => v.getD j 0) t ht
  have : ((w.getD t 0 : ℝ) : ℂ) = ((v.getD t 0 : ℝ) : ℂ) := by
    rw [h1, h2]
    congr 1
    exact sum_congr rfl fun k hk => by rw [h k (mem_range.1 hk)]
  exact_mod_cast this

theorem dft_sum (v : List ℝ) : dft v.length (fun j => v.getD j 0) 0 = (v.sum : ℝ) := by
  unfold dft
  rw [sum_getD, ofReal_sum]
  exact sum_congr rfl fun j _ => by simp

theorem freqOf_zero (N : ℕ) (d : ℝ) : freqOf N d 0 = 0 := by
  unfold freqOf
  simp

theorem gain_zero (fmax f3db : Option ℝ) (hf : ∀ a, fmax = some a → 0 ≤ a) : gain fmax f3db 0 = 1 := by
  unfold gain
  rw [if_neg (by rintro ⟨a, h1, h2⟩; exact absurd (hf a h1) (by linarith))]
  cases f3db <;> simp

/-- C120. Low-pass filtering does not change the sum of the weights (so a filter blind to a constant level stays blind). -/
theorem bandLimit_sum {v w : List ℝ} {d : ℝ} {fmax f3db : Option ℝ} (h : bandLimit v d fmax f3db = .ok w) (hf : ∀ a, fmax = some a → 0 ≤ a) :
    w.sum = v.sum := by
  by_cases hN : v.length = 0
  · have := bandLimit_length h
    rw [List.length_eq_zero_iff.1 hN, List.length_eq_zero_iff.1 (this.trans hN)]
  have h0 := bandLimit_spectrum h 0 (by omega)
  rw [freqOf_zero, gain_zero fmax f3db hf, dft_sum v] at h0
  have h1 := dft_sum w
  rw [bandLimit_length h, h0] at h1
  have h2 : ((v.sum : ℝ) : ℂ) = (w.sum : ℝ) := by rw [← h1]; simp
  exact (by exact_mod_cast h2 : v.sum = w.sum).symm

theorem gain_range (fmax f3db : Option ℝ) (f : ℝ) : 0 ≤ gain fmax f3db f ∧ gain fmax f3db f ≤ 1 := by
  unfold gain
  have h2 : ∀ o : Option ℝ, 0 ≤ (match o with | none => (1 : ℝ) | some g => 1 / (1 + (f / g) ^ 2)) ∧
      (match o with | none => (1 : ℝ) | some g => 1 / (1 + (f / g) ^ 2)) ≤ 1 := by
    intro o
    cases o with
    | none => exact ⟨zero_le_one, le_rfl⟩
    | some g =>
      have : 0 ≤ (f / g) ^ 2 := sq_nonneg _
      refine ⟨by positivity, ?_⟩
      show 1 / (1 + (f / g) ^ 2) ≤ 1
      rw [div_le_one (by linarith)]
      linarith
  obtain ⟨a, b⟩ := h2 f3db
  split
  · simp
  · rw [one_mul]
    exact ⟨a, b⟩

theorem parsevalN (N : ℕ) (h : N ≠ 0) (x : ℕ → ℝ) : ∑ k ∈ range N, power N x k = N * ∑ j ∈ range N, x j ^ 2 := by
  have h1 := full_inverse N h x 0
  have h2 : ((∑ k ∈ range N, power N x k : ℝ) : ℂ) = ((N * ∑ j ∈ range N, x j ^ 2 : ℝ) : ℂ) := by
    push_cast
    rw [← sum_congr rfl (fun k _ => by rw [pow_zero, one_pow, mul_one] : ∀ k ∈ range N, (power N x k : ℂ) * (zeta N ^ 0) ^ k = (power N x k : ℂ)), h1]
    congr 1
    refine sum_congr rfl fun j hj => ?_
    rw [Nat.add_zero, Nat.mod_eq_of_lt (mem_range.1 hj)]
    ring
  exact_mod_cast h2

/-- C120. Low-pass filtering never increases the sum of the squared weights (the response to white noise). -/
theorem bandLimit_energy {v w : List ℝ} {d : ℝ} {fmax f3db : Option ℝ} (h : bandLimit v d fmax f3db = .ok w) :
    (w.map (· ^ 2)).sum ≤ (v.map (· ^ 2)).sum := by
  by_cases hN : v.length = 0
  · have := bandLimit_length h
    rw [List.length_eq_zero_iff.1 hN, List.length_eq_zero_iff.1 (this.trans hN)]
  have hsq : ∀ l : List ℝ, (l.map (· ^ 2)).sum = ∑ j ∈ range l.length, (l.getD j 0) ^ 2 := by
    intro l
    induction l with
    | nil => simp
    | cons a t ih => rw [List.map_cons, List.sum_cons, List.length_cons, sum_range_succ', ih]; simp [add_comm]
  rw [hsq, hsq, bandLimit_length h]
  have h1 := parsevalN v.length hN (fun j => w.getD j 0)
  have h2 := parsevalN v.length hN (fun j => v.getD j 0)
  have h3 : ∑ k ∈ range v.length, power v.length (fun j => w.getD j 0) k ≤ ∑ k ∈ range v.length, power v.length (fun j => v.getD j 0) k := by
    refine sum_le_sum fun k hk => ?_
    unfold power
    rw [bandLimit_spectrum h k (mem_range.1 hk), map_mul, normSq_ofReal]
    obtain ⟨a, b⟩ := gain_range fmax f3db (freqOf v.length d k)
    have : gain fmax f3db (freqOf v.length d k) * gain fmax f3db (freqOf v.length d k) ≤ 1 := by nlinarith
    have hn := normSq_nonneg (dft v.length (fun j => v.getD j 0) k)
    nlinarith
  rw [h1, h2] at h3
  have hNr : (0 : ℝ) < v.length := by exact_mod_cast Nat.pos_of_ne_zero hN
  exact le_of_mul_le_mul_left h3 hNr

/-- C120. Frequencies above `fmax` are removed completely, those up to `fmax` are kept as they are. -/
theorem bandLimit_hard {v w : List ℝ} {d f : ℝ} (h : bandLimit v d (some f) none = .ok w) (k : ℕ) (hk : k < v.length) :
    dft v.length (fun j => w.getD j 0) k = if f < freqOf v.length d k then 0 else dft v.length (fun j => v.getD j 0) k := by
  rw [bandLimit_spectrum h k hk]
  unfold gain
  by_cases hf : f < freqOf v.length d k <;> simp [hf]

/-- C120. Applying the hard limit twice is applying it once. -/
theorem bandLimit_idempotent {v w u : List ℝ} {d f : ℝ} (h : bandLimit v d (some f) none = .ok w) (h2 : bandLimit w d (some f) none = .ok u) : u = w := by
  have hl := bandLimit_length h
  refine eq_of_dft (bandLimit_length h2) fun k hk => ?_
  rw [bandLimit_hard h2 k hk]
  split
  · rename_i hf
    rw [hl] at hf hk ⊢
    rw [bandLimit_hard h k hk, if_pos hf]
  · rfl

/-- C120. A hard limit at or above half the sampling rate changes nothing. -/
theorem bandLimit_nyquist {v : List ℝ} {d f : ℝ} (hv : v ≠ []) (hd : 0 < d) (hf : 1 / (2 * d) ≤ f) : bandLimit v d (some f) none = .ok v := by
  have hN : v.length ≠ 0 := fun h => hv (List.length_eq_zero_iff.1 h)
  have hNr : (0 : ℝ) < v.length := by exact_mod_cast Nat.pos_of_ne_zero hN
  have hok : bandLimit v d (some f) none = .ok ((List.range v.length).map (irfftC v.length (spectrum v d (some f) none))) := by
    unfold bandLimit
    rw [if_neg (by simp), if_neg hv, if_neg hd.ne', if_neg (by simp)]
  rw [hok]
  congr 1
  refine eq_of_dft (by simp) fun k hk => ?_
  rw [bandLimit_hard hok k hk, if_neg]
  have : freqOf v.length d k ≤ 1 / (2 * d) := by
    unfold freqOf
    rw [abs_of_pos hd, div_le_div_iff₀ (by positivity) (by positivity)]
    have : ((min k (v.length - k) : ℕ) : ℝ) * 2 ≤ v.length := by exact_mod_cast (by omega : min k (v.length - k) * 2 ≤ v.length)
    nlinarith
  linarith

/-- C120. A hard limit below the lowest non-zero frequency leaves only the mean: the low-pass filtered vector is constant. -/
theorem bandLimit_mean {v : List ℝ} {d f : ℝ} {f3db : Option ℝ} (hv : v ≠ []) (hd : 0 < d) (h0 : 0 ≤ f) (hf : f < 1 / (v.length * d)) (hg : f3db ≠ some 0) :
    bandLimit v d (some f) f3db = .ok (List.replicate v.length (v.sum / v.length)) := by
  have hN : v.length ≠ 0 := fun h => hv (List.length_eq_zero_iff.1 h)
  have hNr : (0 : ℝ) < v.length := by exact_mod_cast Nat.pos_of_ne_zero hN
  have hok : bandLimit v d (some f) f3db = .ok ((List.range v.length).map (irfftC v.length (spectrum v d (some f) f3db))) := by
    unfold bandLimit
    rw [if_neg (by simp), if_neg hv, if_neg hd.ne', if_neg hg]
  have hsum := bandLimit_sum hok (fun a ha => by injection ha with ha; rw [← ha]; exact h0)
  rw [hok]
  congr 1
  have hz : ∀ k, 1 ≤ k → k < v.length → dft v.length (fun j => ((List.range v.length).map (irfftC v.length (spectrum v d (some f) f3db))).getD j 0) k = 0 := by
    intro k h1 hk
    rw [bandLimit_spectrum hok k hk]
    have : f < freqOf v.length d k := by
      refine lt_of_lt_of_le hf ?_
      unfold freqOf
      rw [abs_of_pos hd]
      apply div_le_div_of_nonneg_right _ (by positivity)
      exact_mod_cast (by omega : 1 ≤ min k (v.length - k))
    unfold gain
    rw [if_pos ⟨f, rfl, this⟩]
    simp
  refine list_eq_of_getD (by simp) fun t ht => ?_
  rw [List.length_replicate] at ht
  have h1 := dft_inverse v.length hN (fun j => ((List.range v.length).map (irfftC v.length (spectrum v d (some f) f3db))).getD j 0) t ht
  rw [sum_eq_single_of_mem 0 (mem_range.2 (by omega)) (fun k hk hne => by rw [hz k (by omega) (mem_range.1 hk), zero_mul])] at h1
  have h2 := dft_sum ((List.range v.length).map (irfftC v.length (spectrum v d (some f) f3db)))
  rw [show ((List.range v.length).map (irfftC v.length (spectrum v d (some f) f3db))).length = v.length by simp] at h2
  rw [h2, hsum, Nat.zero_mul, pow_zero, mul_one] at h1
  have h3 : ((((List.range v.length).map (irfftC v.length (spectrum v d (some f) f3db))).getD t 0 : ℝ) : ℂ) = ((v.sum / v.length : ℝ) : ℂ) := by
    rw [h1]
    push_cast
    rfl
  have h4 : ((List.range v.length).map (irfftC v.length (spectrum v d (some f) f3db))).getD t 0 = v.sum / v.length := by exact_mod_cast h3
  rw [h4, List.getD_eq_getElem?_getD, List.getElem?_replicate, if_pos ht]
  rfl

/-- C120, instance: four samples at 1 s, hard limit 0.1 Hz -/
example : bandLimit [1, 2, 3, 6] 1 (some (1 / 10)) none = .ok [3, 3, 3, 3] := by
  rw [bandLimit_mean (by simp) one_pos (by norm_num) (by norm_num) (by simp)]
  norm_num [List.replicate]

/-- C120. Disagreement (C120): `f_3db` is described as the 3 dB point of a one-pole low-pass filter, the frequency at which the power falls to one half. It is reduced to
one quarter there (6 dB): the code multiplies the amplitude by 1/(1+(f/f_3db)^2), which is the factor for the power. For every record, at any frequency. -/
theorem three_db_fails {v w : List ℝ} {d g : ℝ} (h : bandLimit v d none (some g) = .ok w) (k : ℕ) (hk : k < v.length) (hg : freqOf v.length d k = g) :
    power v.length (fun j => w.getD j 0) k = power v.length (fun j => v.getD j 0) k / 4 := by
  have hg0 : g ≠ 0 := by
    rintro rfl
    unfold bandLimit at h
    rw [if_neg (by simp)] at h
    split at h
    · exact absurd h (by simp)
    split at h
    · exact absurd h (by simp)
    rw [if_pos rfl] at h
    exact absurd h (by simp)
  unfold power
  rw [bandLimit_spectrum h k hk, hg, map_mul, normSq_ofReal]
  have : gain none (some g) g = 1 / 2 := by
    unfold gain
    simp
    rw [div_self hg0]
    norm_num
  rw [this]
  ring

/-! ### compute_5lag with low-pass filters -/

open Classical in
/-- optimal_filtering.py L362-424 `compute_5lag` with any fmax and f_3db. `1/fit_peak` with a zero peak is 0 here (it is NaN in numpy). -/
noncomputable def compute5 (m : Maker ℝ) (d : ℝ) (fmax f3db : Option ℝ) (cutPre cutPost : Int) : Except Exc (Filt ℝ) :=
  if m.autocorr.isNone ∧ m.whitener.isNone then .error .value
  else
    let noise := computeAutocorr m cutPre cutPost
    match normalizeSignal m cutPre cutPost with
    | .error e => .error e
    | .ok (sig, peak, _) =>
      if d ≤ 0 ∧ ¬ (fmax.isNone ∧ f3db.isNone) then .error .value
      else
      let tr := pySlice sig 2 (-2)
      let n := tr.length
      if noise.length < n then .error .assertion
      else
        let noiseCorr := noise.take n
        match mkSym noiseCorr with
        | .error e => .error e
        | .ok S =>
          match solveSym S tr with
          | .error e => .error e
          | .ok x =>
            match solveSym S (List.replicate n 1) with
            | .error e => .error e
            | .ok u =>
              match bandLimit (rawFilter x u) d fmax f3db with
              | .error e => .error e
              | .ok bl =>
                match normalize5 bl sig with
                | .error e => .error e
                | .ok f =>
                  match bracketR f noiseCorr with
                  | .error e => .error e
                  | .ok v => .ok ⟨padded cutPre.toNat f cutPost.toNat, peak, v, [], [], sig, []⟩

/-- C120. Without low-pass options this is the filter of C63. -/
theorem compute5_plain (m : Maker ℝ) (d : ℝ) (cutPre cutPost : Int) : compute5 m d none none cutPre cutPost = compute5lag m cutPre cutPost := by
  have hb : ∀ v, bandLimit v d none none = .ok v := fun v => by simp [bandLimit]
  unfold compute5 compute5lag
  by_cases h0 : m.autocorr.isNone = true ∧ m.whitener.isNone = true
  · rw [if_pos h0, if_pos h0]
  rw [if_neg h0, if_neg h0]
  dsimp only
  cases normalizeSignal m cutPre cutPost with
  | error e => rfl
  | ok r =>
    obtain ⟨sig, peak, dt⟩ := r
    dsimp only
    rw [if_neg (by simp)]
    split
    · rfl
    cases mkSym ((computeAutocorr m cutPre cutPost).take (pySlice sig 2 (-2)).length) with
    | error e => rfl
    | ok S =>
      dsimp only
      cases solveSym S (pySlice sig 2 (-2)) with
      | error e => rfl
      | ok x =>
        dsimp only
        cases solveSym S (List.replicate (pySlice sig 2 (-2)).length 1) with
        | error e => rfl
        | ok u =>
          dsimp only
          rw [hb]
          dsimp only
          cases normalize5 (rawFilter x u) sig with
          | error e => rfl
          | ok f =>
            dsimp only
            cases bracketR f ((computeAutocorr m cutPre cutPost).take (pySlice sig 2 (-2)).length) with
            | error e => rfl
            | ok v => rfl

/-- What a successful `compute_5lag` has done -/
theorem compute5_inv {m : Maker ℝ} {d : ℝ} {fmax f3db : Option ℝ} {cutPre cutPost : Int} {F : Filt ℝ} (h : compute5 m d fmax f3db cutPre cutPost = .ok F) :
    ∃ (sig : List ℝ) (peak : ℝ) (dt : List ℝ) (raw bl f : List ℝ),
      normalizeSignal m cutPre cutPost = .ok (sig, peak, dt) ∧ raw.sum = 0 ∧ raw.length + 4 = sig.length ∧
      bandLimit raw d fmax f3db = .ok bl ∧ normalize5 bl sig = .ok f ∧
      F.values = padded cutPre.toNat f cutPost.toNat ∧ F.peak = peak ∧ F.signal = sig ∧ (fmax = none ∧ f3db = none ∨ 0 < d) := by
  unfold compute5 at h
  split at h
  · exact absurd h (by simp)
  · dsimp only at h
    cases hn : normalizeSignal m cutPre cutPost with
    | error e => rw [hn] at h; exact absurd h (by simp)
    | ok r =>
      obtain ⟨sig, peak, dt⟩ := r
      rw [hn] at h
      dsimp only at h
      split at h
      · exact absurd h (by simp)
      rename_i hd
      split at h
      · exact absurd h (by simp)
      · rename_i hlen
        cases hS : mkSym ((computeAutocorr m cutPre cutPost).take (pySlice sig 2 (-2)).length) with
        | error e => rw [hS] at h; exact absurd h (by simp)
        | ok S =>
          rw [hS] at h
          dsimp only at h
          cases hx : solveSym S (pySlice sig 2 (-2)) with
          | error e => rw [hx] at h; exact absurd h (by simp)
          | ok x =>
            rw [hx] at h
            dsimp only at h
            cases hu : solveSym S (List.replicate (pySlice sig 2 (-2)).length 1) with
            | error e => rw [hu] at h; exact absurd h (by simp)
            | ok u =>
              rw [hu] at h
              dsimp only at h
              cases hbl : bandLimit (rawFilter x u) d fmax f3db with
              | error e => rw [hbl] at h; exact absurd h (by simp)
              | ok bl =>
                rw [hbl] at h
                dsimp only at h
                cases hf : normalize5 bl sig with
                | error e => rw [hf] at h; exact absurd h (by simp)
                | ok f =>
                  rw [hf] at h
                  dsimp only at h
                  cases hv : bracketR f ((computeAutocorr m cutPre cutPost).take (pySlice sig 2 (-2)).length) with
                  | error e => rw [hv] at h; exact absurd h (by simp)
                  | ok v =>
                    rw [hv] at h
                    dsimp only at h
                    injection h with h
                    have hxl := solveSym_length hx
                    have hul := solveSym_length hu
                    have hrl : (rawFilter x u).length = x.length := length_raw x u (by omega)
                    have hbl' := bandLimit_length hbl
                    have hsl : 4 ≤ sig.length := by
                      unfold normalize5 at hf
                      split at hf
                      · exact absurd hf (by simp)
                      · omega
                    have := length_mid sig
                    refine ⟨sig, peak, dt, rawFilter x u, bl, f, rfl, raw_sum_zero x u (by omega), by omega, hbl, hf, ?_, ?_, ?_, ?_⟩
                    · rw [← h]
                    · rw [← h]
                    · rw [← h]
                    · by_cases hnn : fmax = none ∧ f3db = none
                      · exact .inl hnn
                      · right
                        by_contra hd0
                        apply hd
                        refine ⟨by linarith, ?_⟩
                        rw [Option.isNone_iff_eq_none, Option.isNone_iff_eq_none]
                        exact hnn

/-- C120. Whatever the low-pass options, a five-lag filter ignores a constant and gives exactly c for c times the model signal: it is normalised again after the
low-pass filter. -/
theorem fivelag_lowpass_response {m : Maker ℝ} {d : ℝ} {fmax f3db : Option ℝ} {cutPre cutPost : Int} {F : Filt ℝ} (h : compute5 m d fmax f3db cutPre cutPost = .ok F)
    (hfm : ∀ a, fmax = some a → 0 ≤ a) (hne : ∃ w ∈ F.values, w ≠ 0)
    (rec : List ℝ) (hr : rec.length = m.signal.length) (b c : ℝ) (hc : c ≠ 0)
    (hrec : ∀ i : Nat, i < F.signal.length → rec.getD (cutPre.toNat + i) 0 = b + c * F.signal.getD i 0) :
    F.values.sum = 0 ∧ ∃ v, lagDirect F.values rec = .ok v ∧ peakY (parabola v) = c := by
  obtain ⟨sig, peak, dt, raw, bl, f, hn, hrs, hrl, hbl, hf, hval, hpk, hsig, -⟩ := compute5_inv h
  rw [hsig] at hrec
  have hbs := bandLimit_sum hbl hfm
  have hbll := bandLimit_length hbl
  unfold normalize5 at hf
  split at hf
  · exact absurd hf (by simp)
  rename_i hlen
  dsimp only at hf
  injection hf with hf
  set p := peakY (parabola ⟨lag bl sig 0, lag bl sig 1, lag bl sig 2, lag bl sig 3, lag bl sig 4⟩) with hp
  have hfl : f.length + 4 = sig.length := by rw [← hf, List.length_map]; omega
  have hfs : f.sum = 0 := by rw [← hf, sum_scale, hbs, hrs, zero_mul]
  have hp0 : p ≠ 0 := by
    intro h0
    obtain ⟨w, hw, hw0⟩ := hne
    rw [hval, ← hf, h0] at hw
    unfold padded at hw
    simp only [div_zero, mul_zero, List.mem_append, List.mem_replicate, List.mem_map] at hw
    rcases hw with (⟨-, hw⟩ | ⟨-, -, hw⟩) | ⟨-, hw⟩
    · exact hw0 hw
    · exact hw0 hw.symm
    · exact hw0 hw
  have hnl := normalize_length hn
  have hvl : F.values.length + 4 = rec.length := by
    rw [hval, length_padded]
    omega
  refine ⟨by rw [hval]; unfold padded; simp [hfs], _, direct_eq_lags (by omega), ?_⟩
  have hlag : ∀ j, j ≤ 4 → lag F.values rec j = c * lag f sig j := by
    intro j hj
    rw [hval, lag_padded _ _ f rec (sig.map (fun a => b + c * a)) j hj (by simp; omega), lag_affine f sig b c j hj (by omega) hfs]
    intro i hi
    rw [List.length_map] at hi
    rw [hrec i hi]
    simp only [List.getD_eq_getElem?_getD, List.getElem?_map]
    rw [List.getElem?_eq_getElem hi]
    rfl
  rw [hlag 0 (by omega), hlag 1 (by omega), hlag 2 (by omega), hlag 3 (by omega), hlag 4 (by omega),
    peakY_scale c hc ⟨lag f sig 0, lag f sig 1, lag f sig 2, lag f sig 3, lag f sig 4⟩]
  have hf1 : ∀ j, lag f sig j = 1 / p * lag bl sig j := by
    intro j
    rw [← hf, lag_scale]
  rw [hf1 0, hf1 1, hf1 2, hf1 3, hf1 4, peakY_scale (1 / p) (one_div_ne_zero hp0) ⟨lag bl sig 0, lag bl sig 1, lag bl sig 2, lag bl sig 3, lag bl sig 4⟩, ← hp,
    one_div, inv_mul_cancel₀ hp0, mul_one]

theorem bandLimit_ok {v : List ℝ} {d : ℝ} {fmax f3db : Option ℝ} (hv : v ≠ []) (hd : 0 < d) (hg : f3db ≠ some 0) : ∃ w, bandLimit v d fmax f3db = .ok w := by
  by_cases hno : fmax.isNone = true ∧ f3db.isNone = true
  · exact ⟨v, by unfold bandLimit; rw [if_pos hno]⟩
  · exact ⟨_, by unfold bandLimit; rw [if_neg hno, if_neg hv, if_neg hd.ne', if_neg hg]⟩

theorem bracketR_len {f g noise : List ℝ} {r : ℝ} (h : bracketR f noise = .ok r) (hl : g.length = f.length) : ∃ r', bracketR g noise = .ok r' := by
  unfold bracketR at h ⊢
  dsimp only at h ⊢
  rw [hl]
  split at h
  · exact absurd h (by simp)
  rename_i h1
  rw [if_neg h1]
  split at h
  · exact absurd h (by simp)
  rename_i h2
  rw [if_neg h2]
  exact ⟨_, rfl⟩

/-- C120. With a positive sample time and f_3db ≠ 0, low-pass filtering never makes `compute_5lag` fail: it succeeds whenever the plain filter can be computed. -/
theorem fivelag_lowpass_ok {m : Maker ℝ} {d : ℝ} {fmax f3db : Option ℝ} {cutPre cutPost : Int} {F : Filt ℝ} (h : compute5lag m cutPre cutPost = .ok F) (hd : 0 < d)
    (hg : f3db ≠ some 0) : ∃ G, compute5 m d fmax f3db cutPre cutPost = .ok G ∧ G.peak = F.peak ∧ G.signal = F.signal ∧ G.values.length = F.values.length := by
  obtain ⟨sig, peak, dt, S, x, u, f, h1, h2, hn, hl, hS, hx, hu, hf, hv, hval, hpk, hsig⟩ := Mass.Lin.compute5_inv h
  have hxl := solveSym_length hx
  have hul := solveSym_length hu
  have hT := mkSym_T hS
  have hrl : (rawFilter x u).length = x.length := length_raw x u (by omega)
  have hne : rawFilter x u ≠ [] := by
    intro e
    rw [e] at hrl
    have := hT.2
    rw [← hT.1] at this
    simp at hrl
    omega
  obtain ⟨bl, hbl⟩ := bandLimit_ok (fmax := fmax) (f3db := f3db) hne hd hg
  have hbll := bandLimit_length hbl
  have hff : f.length = (rawFilter x u).length := by
    unfold normalize5 at hf
    split at hf
    · exact absurd hf (by simp)
    · dsimp only at hf
      injection hf with hf
      rw [← hf, List.length_map]
  obtain ⟨g, hg', hgl⟩ : ∃ g, normalize5 bl sig = .ok g ∧ g.length = bl.length := by
    unfold normalize5 at hf ⊢
    split at hf
    · exact absurd hf (by simp)
    rename_i hlen
    rw [if_neg (by omega)]
    exact ⟨_, rfl, by simp⟩
  obtain ⟨r, hr⟩ := bracketR_len hv (g := g) (by omega)
  refine ⟨⟨padded cutPre.toNat g cutPost.toNat, peak, r, [], [], sig, []⟩, ?_, hpk.symm, hsig.symm, ?_⟩
  · have h0 : ¬ (m.autocorr.isNone = true ∧ m.whitener.isNone = true) := by
      intro h0
      unfold compute5lag at h
      rw [if_pos h0] at h
      exact absurd h (by simp)
    unfold compute5
    rw [if_neg h0]
    dsimp only
    rw [hn]
    dsimp only
    rw [if_neg (by rintro ⟨a, -⟩; linarith), if_neg (by omega), hS]
    dsimp only
    rw [hx]
    dsimp only
    rw [hu]
    dsimp only
    rw [hbl]
    dsimp only
    rw [hg']
    dsimp only
    rw [hr]
  · rw [hval, length_padded, length_padded]
    omega

/-! ### compute_ats with low-pass filters -/

/-- optimal_filtering.py L509-589 `compute_ats` with any fmax and f_3db: the three filters are low-pass filtered and not normalised again. The sample time is a number
here (L541 only refuses None). -/
noncomputable def ats (m : Maker ℝ) (d : ℝ) (fmax f3db : Option ℝ) (cutPre cutPost : Int) : Except Exc (Filt ℝ) :=
  if m.autocorr.isNone ∧ m.whitener.isNone then .error .value
  else if m.dtModel.isNone then .error .value
  else
    let noise := computeAutocorr m cutPre cutPost
    match normalizeSignal m cutPre cutPost with
    | .error e => .error e
    | .ok (sig, peak, dt) =>
      if sig.length ≠ dt.length then .error .assertion
      else
        let ns := sig.length
        if (ns : Int) ≤ cutPre + cutPost then .error .value
        else
          match atsFilters m noise sig dt with
          | .error e => .error e
          | .ok filt0 =>
            match mapM3 (fun l => bandLimit l d fmax f3db) filt0 with
            | .error e => .error e
            | .ok filt =>
              let pad := fun l => padded cutPre.toNat l cutPost.toNat
              match m.autocorr with
              | none => .error .type
              | some l =>
                match bracketR (pad (filt 0)) l with
                | .error e => .error e
                | .ok v => .ok ⟨pad (filt 0), peak, v, pad (filt 1), pad (filt 2), sig, dt⟩

theorem mapM3_intro {f : List ℝ → Except Exc (List ℝ)} {M X : Fin 3 → List ℝ} (h : ∀ a, f (M a) = .ok (X a)) : mapM3 f M = .ok X := by
  unfold mapM3
  rw [h 0, h 1, h 2]
  dsimp only
  congr 1
  funext a
  fin_cases a <;> rfl

/-- C120. Without low-pass options this is the filter of C64. -/
theorem ats_plain (m : Maker ℝ) (d : ℝ) (cutPre cutPost : Int) : ats m d none none cutPre cutPost = computeAts m cutPre cutPost := by
  unfold ats computeAts
  have : ∀ M : Fin 3 → List ℝ, mapM3 (fun l => bandLimit l d none none) M = .ok M := fun M => mapM3_intro fun a => by simp [bandLimit]
  by_cases h0 : m.autocorr.isNone = true ∧ m.whitener.isNone = true
  · rw [if_pos h0, if_pos h0]
  rw [if_neg h0, if_neg h0]
  split
  · rfl
  dsimp only
  cases normalizeSignal m cutPre cutPost with
  | error e => rfl
  | ok r =>
    obtain ⟨sig, peak, dt⟩ := r
    dsimp only
    split
    · rfl
    split
    · rfl
    cases atsFilters m (computeAutocorr m cutPre cutPost) sig dt with
    | error e => rfl
    | ok filt =>
      dsimp only
      rw [this]
      dsimp only
      cases m.autocorr with
      | none => rfl
      | some l =>
        dsimp only
        cases bracketR (padded cutPre.toNat (filt 0) cutPost.toNat) l with
        | error e => rfl
        | ok v => rfl

/-- What a successful low-pass filtered `compute_ats` has done: every filter is the low-pass filtered one of the plain calculation (which succeeds) -/
theorem ats_inv {m : Maker ℝ} {d : ℝ} {fmax f3db : Option ℝ} {cutPre cutPost : Int} {F : Filt ℝ} (h : ats m d fmax f3db cutPre cutPost = .ok F) :
    ∃ (filt0 filt : Fin 3 → List ℝ), 0 ≤ cutPre ∧ 0 ≤ cutPost ∧ F.signal.length + cutPre.toNat + cutPost.toNat = m.signal.length ∧
      F.dtModel.length = F.signal.length ∧ F.signal ≠ [] ∧ atsFilters m (computeAutocorr m cutPre cutPost) F.signal F.dtModel = .ok filt0 ∧
      (∀ a, bandLimit (filt0 a) d fmax f3db = .ok (filt a)) ∧
      F.values = padded cutPre.toNat (filt 0) cutPost.toNat ∧ F.dtValues = padded cutPre.toNat (filt 1) cutPost.toNat ∧
      F.constValues = padded cutPre.toNat (filt 2) cutPost.toNat := by
  unfold ats at h
  split at h
  · exact absurd h (by simp)
  split at h
  · exact absurd h (by simp)
  dsimp only at h
  cases hn : normalizeSignal m cutPre cutPost with
  | error e => rw [hn] at h; exact absurd h (by simp)
  | ok r =>
    obtain ⟨sig, peak, dt⟩ := r
    rw [hn] at h
    dsimp only at h
    have hnl := normalize_length hn
    split at h
    · exact absurd h (by simp)
    rename_i hdt
    split at h
    · exact absurd h (by simp)
    rename_i hcut
    cases hf : atsFilters m (computeAutocorr m cutPre cutPost) sig dt with
    | error e => rw [hf] at h; exact absurd h (by simp)
    | ok filt0 =>
      rw [hf] at h
      dsimp only at h
      cases hb : mapM3 (fun l => bandLimit l d fmax f3db) filt0 with
      | error e => rw [hb] at h; exact absurd h (by simp)
      | ok filt =>
        rw [hb] at h
        dsimp only at h
        cases hl : m.autocorr with
        | none => rw [hl] at h; exact absurd h (by simp)
        | some l =>
          rw [hl] at h
          dsimp only at h
          cases hbr : bracketR (padded cutPre.toNat (filt 0) cutPost.toNat) l with
          | error e => rw [hbr] at h; exact absurd h (by simp)
          | ok v =>
            rw [hbr] at h
            dsimp only at h
            injection h with h
            rw [← h]
            refine ⟨filt0, filt, hnl.1, hnl.2.1, hnl.2.2, by dsimp only; omega, ?_, hf, mapM3_ok hb, rfl, rfl, rfl⟩
            intro h0
            dsimp only at h0
            rw [h0] at hcut
            simp at hcut
            omega

/-- C120. Whatever the low-pass options, the pulse-height and the arrival-time filter of `compute_ats` ignore a constant, and the third one still measures it. -/
theorem ats_lowpass_dc {m : Maker ℝ} {d : ℝ} {fmax f3db : Option ℝ} {cutPre cutPost : Int} {F : Filt ℝ} (h : ats m d fmax f3db cutPre cutPost = .ok F)
    (hok : AtsOK m (computeAutocorr m cutPre cutPost) F.signal.length) (hfm : ∀ a, fmax = some a → 0 ≤ a) :
    F.values.sum = 0 ∧ F.dtValues.sum = 0 ∧ F.constValues.sum = 1 := by
  obtain ⟨filt0, filt, h1, h2, hlen, hdl, hne, hf, hb, hv0, hv1, hv2⟩ := ats_inv h
  have hdual := fun a => ats_dual hf hdl hne hok a 2
  have key : ∀ a, (padded cutPre.toNat (filt a) cutPost.toNat).sum = if a = 2 then 1 else 0 := by
    intro a
    have e : (padded cutPre.toNat (filt a) cutPost.toNat).sum = (filt a).sum := by unfold padded; simp
    rw [e, bandLimit_sum (hb a) hfm, ← (hdual a).2, sum_getD, (hdual a).1]
    unfold ip
    refine sum_congr rfl fun i hi => ?_
    have : ((![F.signal, F.dtModel, List.replicate F.signal.length 1] : Fin 3 → List ℝ) 2).getD i 0 = 1 := by
      show (List.replicate F.signal.length (1 : ℝ)).getD i 0 = 1
      rw [List.getD_eq_getElem?_getD, List.getElem?_replicate, if_pos (mem_range.1 hi)]
      rfl
    rw [this, mul_one]
  refine ⟨?_, ?_, ?_⟩
  · rw [hv0, key 0]; simp
  · rw [hv1, key 1]; simp
  · rw [hv2, key 2]; simp

/-- C120. Disagreement (C120): a low-pass filtered `compute_ats` filter no longer gives the pulse height: it is not normalised again. With `fmax` below the lowest
non-zero frequency of the record, every weight is 0 for every signal and noise model, so all pulses get height 0; no error is raised. -/
theorem ats_lowpass_response_fails {m : Maker ℝ} {d f : ℝ} {cutPre cutPost : Int} {F : Filt ℝ} (h : ats m d (some f) none cutPre cutPost = .ok F)
    (hok : AtsOK m (computeAutocorr m cutPre cutPost) F.signal.length) (hd : 0 < d) (h0 : 0 ≤ f) (hf : f < 1 / (F.signal.length * d)) :
    ∀ w ∈ F.values, w = 0 := by
  obtain ⟨filt0, filt, h1, h2, hlen, hdl, hne, hfl, hb, hv0, hv1, hv2⟩ := ats_inv h
  have hl0 := (ats_dual hfl hdl hne hok 0 2).1
  have hnil : filt0 0 ≠ [] := by
    intro e
    rw [e] at hl0
    exact hne (List.length_eq_zero_iff.1 hl0.symm)
  have hs : (filt0 0).sum = 0 := by
    have hdc := (ats_lowpass_dc h hok (fun a ha => by injection ha with ha; rw [← ha]; exact h0)).1
    rw [← bandLimit_sum (hb 0) (fun a ha => by injection ha with ha; rw [← ha]; exact h0)]
    rw [hv0] at hdc
    unfold padded at hdc
    simpa using hdc
  have hm := bandLimit_mean (f3db := none) hnil hd h0 (by rw [hl0]; exact hf) (by simp)
  rw [hb 0, hs, zero_div] at hm
  injection hm with hm
  intro w hw
  rw [hv0, hm] at hw
  unfold padded at hw
  simp only [List.mem_append, List.mem_replicate] at hw
  rcases hw with (⟨-, hw⟩ | ⟨-, hw⟩) | ⟨-, hw⟩ <;> exact hw

/-- C120. With a positive sample time and f_3db ≠ 0, `compute_ats` succeeds with low-pass options whenever it succeeds without. -/
theorem ats_lowpass_ok {m : Maker ℝ} {d : ℝ} {fmax f3db : Option ℝ} {cutPre cutPost : Int} {F : Filt ℝ} (h : computeAts m cutPre cutPost = .ok F)
    (hok : AtsOK m (computeAutocorr m cutPre cutPost) F.signal.length) (hd : 0 < d)
    (hg : f3db ≠ some 0) : ∃ G, ats m d fmax f3db cutPre cutPost = .ok G ∧ G.peak = F.peak ∧ G.signal = F.signal ∧ G.dtModel = F.dtModel := by
  obtain ⟨filt, l, h1, h2, hlen, hdl, hne, hf, hl, hb, hv0, hv1, hv2⟩ := computeAts_inv h
  have hfl : ∀ a, (filt a).length = F.signal.length := fun a => (ats_dual hf hdl hne hok a 0).1
  have hfne : ∀ a, filt a ≠ [] := by
    intro a e
    have := hfl a
    rw [e] at this
    exact hne (List.length_eq_zero_iff.1 this.symm)
  choose g hgl using fun a => bandLimit_ok (fmax := fmax) (f3db := f3db) (hfne a) hd hg
  have hm := mapM3_intro (f := fun l => bandLimit l d fmax f3db) hgl
  rw [hv0] at hb
  obtain ⟨r, hr⟩ := bracketR_len hb (g := padded cutPre.toNat (g 0) cutPost.toNat) (by rw [length_padded, length_padded, bandLimit_length (hgl 0)])
  unfold computeAts at h
  split at h
  · exact absurd h (by simp)
  rename_i hc1
  split at h
  · exact absurd h (by simp)
  rename_i hc2
  dsimp only at h
  cases hn : normalizeSignal m cutPre cutPost with
  | error e => rw [hn] at h; exact absurd h (by simp)
  | ok q =>
    obtain ⟨sig, peak, dt⟩ := q
    rw [hn] at h
    dsimp only at h
    split at h
    · exact absurd h (by simp)
    rename_i hdt
    split at h
    · exact absurd h (by simp)
    rename_i hcut
    cases hf' : atsFilters m (computeAutocorr m cutPre cutPost) sig dt with
    | error e => rw [hf'] at h; exact absurd h (by simp)
    | ok filt' =>
      rw [hf', hl] at h
      dsimp only at h
      cases hbr : bracketR (padded cutPre.toNat (filt' 0) cutPost.toNat) l with
      | error e => rw [hbr] at h; exact absurd h (by simp)
      | ok v =>
        rw [hbr] at h
        dsimp only at h
        injection h with h
        rw [← h] at hf
        dsimp only at hf
        refine ⟨⟨padded cutPre.toNat (g 0) cutPost.toNat, peak, r, padded cutPre.toNat (g 1) cutPost.toNat, padded cutPre.toNat (g 2) cutPost.toNat, sig, dt⟩, ?_, ?_, ?_, ?_⟩
        · unfold ats
          rw [if_neg hc1, if_neg hc2]
          dsimp only
          rw [hn]
          dsimp only
          rw [if_neg hdt, if_neg hcut, hf]
          dsimp only
          rw [hm]
          dsimp only
          rw [hl]
          dsimp only
          rw [hr]
        all_goals rw [← h]

/-- a model with an (identity) whitener, for the instances [specification] -/
noncomputable def demoR : Maker ℝ := ⟨[0, 0, 1], 2, some [1, 0, 0], some [0, 1, 0], some ([1, 0], [1]), 0⟩

theorem demoR_ok : ∃ F, computeAts demoR 0 0 = .ok F ∧ F.signal = [0, 0, 1] ∧ AtsOK demoR (computeAutocorr demoR 0 0) F.signal.length := by
  have hw : ∀ a b c : ℝ, whiten [1, 0] [1] [a, b, c] = .ok [a, b, c] := by
    intro a b c
    obtain ⟨w, hw, hwl, hs⟩ := whiten_spec_partial (θ := [(1 : ℝ), 0]) (φ := [1]) (v := [a, b, c]) (by simp) (by simp) (by simp) (by simp)
    rw [hw]
    congr 1
    have h0 := hs 0 (by simp)
    have h1 := hs 1 (by simp)
    have h2 := hs 2 (by simp)
    simp [sum_range_succ] at h0 h1 h2
    refine list_eq_of_getD (by rw [hwl]) fun i hi => ?_
    simp at hi
    interval_cases i
    · simpa using h0
    · simpa using h1
    · simpa using h2
  have ha : ∀ v : List ℝ, v ≠ [] → ∃ w, applyWT [1, 0] [1] v = .ok w := by
    intro v hv
    unfold applyWT solveWT
    rw [if_neg (fun e => hv (List.length_eq_zero_iff.1 e))]
    exact ⟨_, rfl⟩
  have hn : normalizeSignal demoR 0 0 = .ok ([0, 0, 1], 1, [0, 1, 0]) := by
    unfold normalizeSignal demoR
    simp [pySlice, lmax, lmin]
  obtain ⟨w0, hw0⟩ := ha [0, 0, 1] (by simp)
  obtain ⟨w1, hw1⟩ := ha [0, 1, 0] (by simp)
  obtain ⟨w2, hw2⟩ := ha [1, 1, 1] (by simp)
  have hf : ∃ filt, atsFilters demoR (computeAutocorr demoR 0 0) [0, 0, 1] [0, 1, 0] = .ok filt := by
    unfold atsFilters
    have e1 : demoR.whitener = some ([1, 0], [1]) := rfl
    rw [e1]
    dsimp only
    have e2 : mapM3 (whiten [1, 0] [1]) (![[0, 0, 1], [0, 1, 0], List.replicate ([0, 0, 1] : List ℝ).length 1] : Fin 3 → List ℝ) = .ok ![[0, 0, 1], [0, 1, 0], [1, 1, 1]] :=
      mapM3_intro fun a => by fin_cases a <;> exact hw _ _ _
    rw [e2]
    dsimp only
    have e3 : (Matrix.of fun a b : Fin 3 => ip ([0, 0, 1] : List ℝ).length ((![[0, 0, 1], [0, 1, 0], [1, 1, 1]] : Fin 3 → List ℝ) a)
        ((![[0, 0, 1], [0, 1, 0], [1, 1, 1]] : Fin 3 → List ℝ) b)).det ≠ 0 := by
      rw [Matrix.det_fin_three]
      simp [ip, sum_range_succ]
    unfold inv3
    rw [if_neg e3]
    dsimp only
    have e4 : mapM3 (applyWT [1, 0] [1]) (![[0, 0, 1], [0, 1, 0], [1, 1, 1]] : Fin 3 → List ℝ) = .ok ![w0, w1, w2] :=
      mapM3_intro fun a => by
        fin_cases a
        · exact hw0
        · exact hw1
        · exact hw2
    rw [e4]
    exact ⟨_, rfl⟩
  obtain ⟨filt, hf⟩ := hf
  have hok : AtsOK demoR (computeAutocorr demoR 0 0) 3 := by
    unfold AtsOK demoR
    simp
  have hfl := (ats_dual hf rfl (by simp) hok 0 0).1
  have hbr : ∃ r, bracketR (padded 0 (filt 0) 0) [1, 0, 0] = .ok r := by
    have hl : (padded 0 (filt 0) 0).length = 3 := by rw [length_padded, hfl]; rfl
    exact ⟨_, bracketR_spec (by rw [hl]; rfl) (fun e => by rw [e] at hl; simp at hl)⟩
  obtain ⟨r, hr⟩ := hbr
  refine ⟨⟨padded 0 (filt 0) 0, 1, r, padded 0 (filt 1) 0, padded 0 (filt 2) 0, [0, 0, 1], [0, 1, 0]⟩, ?_, rfl, hok⟩
  unfold computeAts
  rw [if_neg (by simp [demoR]), if_neg (by simp [demoR])]
  dsimp only
  rw [hn]
  dsimp only
  rw [if_neg (by simp), if_neg (by simp), hf]
  have e1 : demoR.autocorr = some [1, 0, 0] := rfl
  rw [e1]
  dsimp only
  rw [show (0 : Int).toNat = 0 from rfl, hr]

/-- C120, instance: a filter whose weights are all zero -/
example : ∃ F, ats demoR 1 (some (1 / 10)) none 0 0 = .ok F ∧ (∀ w ∈ F.values, w = 0) ∧ F.constValues.sum = 1 := by
  obtain ⟨F0, h0, hs, hok⟩ := demoR_ok
  obtain ⟨F, hF, -, hsig, -⟩ := ats_lowpass_ok (d := 1) (fmax := some (1 / 10)) (f3db := none) h0 hok one_pos (by simp)
  rw [← hsig] at hok
  refine ⟨F, hF, ats_lowpass_response_fails hF hok one_pos (by norm_num) (by rw [hsig, hs]; norm_num), ?_⟩
  exact (ats_lowpass_dc hF hok (by intro a ha; injection ha with ha; rw [← ha]; norm_num)).2.2

/-- C120. Disagreement (C120): a maker created without a sample time has `sample_time_sec = 0.0`, and `compute_ats` then only checks for None: with `fmax` or `f_3db` given it never
returns a filter and raises ZeroDivisionError instead of the ValueError that `compute_5lag` raises. -/
theorem ats_no_sample_time_fails {m : Maker ℝ} {fmax f3db : Option ℝ} {cutPre cutPost : Int} {F : Filt ℝ} (h : ats m 0 none none cutPre cutPost = .ok F)
    (hok : AtsOK m (computeAutocorr m cutPre cutPost) F.signal.length) (hlp : fmax ≠ none ∨ f3db ≠ none) :
    ats m 0 fmax f3db cutPre cutPost = .error .zeroDiv ∧ compute5 m 0 fmax f3db cutPre cutPost = .error .value := by
  have hdual : ∀ filt, atsFilters m (computeAutocorr m cutPre cutPost) F.signal F.dtModel = .ok filt → filt 0 ≠ [] := by
    obtain ⟨filt0, filt, h1, h2, hlen, hdl, hne, hf, hb, hv0, hv1, hv2⟩ := ats_inv h
    intro filt hf' e
    have := (ats_dual hf' hdl hne hok 0 0).1
    rw [e] at this
    exact hne (List.length_eq_zero_iff.1 this.symm)
  have hnn : ¬ (fmax.isNone = true ∧ f3db.isNone = true) := by
    rw [Option.isNone_iff_eq_none, Option.isNone_iff_eq_none]
    rintro ⟨a, b⟩
    rcases hlp with h | h
    · exact h a
    · exact h b
  have hbl : ∀ v : List ℝ, v ≠ [] → bandLimit v 0 fmax f3db = .error .zeroDiv := by
    intro v hv
    unfold bandLimit
    rw [if_neg hnn, if_neg hv, if_pos rfl]
  unfold ats at h ⊢
  split at h
  · exact absurd h (by simp)
  rename_i hc1
  split at h
  · exact absurd h (by simp)
  rename_i hc2
  dsimp only at h
  rw [if_neg hc1, if_neg hc2]
  dsimp only
  unfold compute5
  rw [if_neg hc1]
  dsimp only
  cases hn : normalizeSignal m cutPre cutPost with
  | error e => rw [hn] at h; exact absurd h (by simp)
  | ok r =>
    obtain ⟨sig, peak, dt⟩ := r
    rw [hn] at h
    dsimp only at h ⊢
    refine ⟨?_, ?_⟩
    · split at h
      · exact absurd h (by simp)
      rename_i hdt
      rw [if_neg hdt]
      split at h
      · exact absurd h (by simp)
      rename_i hcut
      rw [if_neg hcut]
      cases hf : atsFilters m (computeAutocorr m cutPre cutPost) sig dt with
      | error e => rw [hf] at h; exact absurd h (by simp)
      | ok filt0 =>
        rw [hf] at h
        dsimp only at h ⊢
        have hsd : F.signal = sig ∧ F.dtModel = dt := by
          cases hb : mapM3 (fun l => bandLimit l 0 none none) filt0 with
          | error e => rw [hb] at h; exact absurd h (by simp)
          | ok filt =>
            rw [hb] at h
            dsimp only at h
            cases hl : m.autocorr with
            | none => rw [hl] at h; exact absurd h (by simp)
            | some l =>
              rw [hl] at h
              dsimp only at h
              cases hbr : bracketR (padded cutPre.toNat (filt 0) cutPost.toNat) l with
              | error e => rw [hbr] at h; exact absurd h (by simp)
              | ok v =>
                rw [hbr] at h
                dsimp only at h
                injection h with h
                rw [← h]
                exact ⟨rfl, rfl⟩
        have hz := hdual filt0 (by rw [hsd.1, hsd.2]; exact hf)
        have : mapM3 (fun l => bandLimit l 0 fmax f3db) filt0 = .error .zeroDiv := by
          unfold mapM3
          dsimp only
          rw [hbl _ hz]
        rw [this]
    · rw [if_pos ⟨le_rfl, hnn⟩]

/-! ### compute_fourier -/

/-- optimal_filtering.py L475-481: irfft of the noise PSD, its middle cut out, transformed again. `n` is the length of the PSD; irfft returns 2(n-1) values, of which the first n-3 and
the last n-2 are kept. -/
noncomputable def shortPsd (psd : List ℝ) (k : ℕ) : ℂ :=
  let n := psd.length
  let ac := (List.range (2 * (n - 1))).map (irfftC (2 * (n - 1)) (fun k => (psd.getD k 0 : ℂ)))
  let cut := ac.take (n - 3) ++ ac.drop (ac.length - (n - 2))
  dft cut.length (fun j => cut.getD j 0) k

open Classical in
/-- optimal_filtering.py L426-507 `compute_fourier`. NotImplementedError is `.exception`. irfft of a transform of length 1 raises ValueError. A zero denominator gives infinities in numpy and 0 here. -/
noncomputable def fourier (m : Maker ℝ) (psd : Option (List ℝ)) (d : ℝ) (fmax f3db : Option ℝ) (cutPre cutPost : Int) : Except Exc (Filt ℝ) :=
  match psd with
  | none => .error .value
  | some psd =>
    if cutPre > 0 ∨ cutPost > 0 then .error .exception
    else if cutPre < 0 ∨ cutPost < 0 then .error .value
    else
      match normalizeSignal m cutPre cutPost with
      | .error e => .error e
      | .ok (sig, peak, _) =>
        let sig := pySlice sig 2 (-2)
        let n := psd.length
        if sig = [] then .error .value
        else if ((sig.length / 2 + 1 : ℕ) : Int) ≠ (n : Int) - 2 then .error .value
        else
          let freq := fun k : ℕ => (k : ℝ) * (1 / 2) / (((n : ℝ) - 1) * d)
          let weighted := fun k : ℕ => dft sig.length (fun j => sig.getD j 0) k / shortPsd psd k
          let weighted := fun k : ℕ => match fmax with
            | none => weighted k
            | some f => if freq k > f then 0 else weighted k
          let weighted := fun k : ℕ => match f3db with
            | none => weighted k
            | some g => weighted k / ((1 + (freq k * 1 / g) ^ 2 : ℝ) : ℂ)
          let weighted := fun k : ℕ => if k = 0 then 0 else weighted k
          let len := 2 * (sig.length / 2 + 1 - 1)
          if len = 0 then .error .value
          else
            let filt := (List.range len).map (irfftC len weighted)
            match normalize5 filt sig with
            | .error e => .error e
            | .ok f =>
              match m.autocorr with
              | none =>
                let kappa := ∑ k ∈ Ico 1 (n - 2), normSq (dft sig.length (fun j => sig.getD j 0) k * (m.peak : ℂ)) / (((n : ℝ) - 2 - 1) / d * (shortPsd psd k).re)
                .ok ⟨f, peak, 1 / kappa, [], [], sig, []⟩
              | some ac =>
                match bracketR f (ac.take f.length) with
                | .error e => .error e
                | .ok v => .ok ⟨f, peak, v / m.peak ^ 2, [], [], sig, []⟩

/-- C120. Disagreement (C120): `compute_fourier` never returns a filter. The signal is already cut by two samples on either side when the filter is normalised on it, and the normalisation
demands a signal at least four samples longer than the filter: AssertionError, for every signal, noise spectrum and option. -/
theorem fourier_fails (m : Maker ℝ) (psd : Option (List ℝ)) (d : ℝ) (fmax f3db : Option ℝ) (cutPre cutPost : Int) :
    ∃ e, fourier m psd d fmax f3db cutPre cutPost = .error e := by
  unfold fourier
  cases psd with
  | none => exact ⟨_, rfl⟩
  | some psd =>
    dsimp only
    split
    · exact ⟨_, rfl⟩
    split
    · exact ⟨_, rfl⟩
    cases normalizeSignal m cutPre cutPost with
    | error e => exact ⟨_, rfl⟩
    | ok r =>
      obtain ⟨sig, peak, dt⟩ := r
      dsimp only
      split
      · exact ⟨_, rfl⟩
      split
      · exact ⟨_, rfl⟩
      split
      · exact ⟨_, rfl⟩
      refine ⟨.assertion, ?_⟩
      unfold normalize5
      rw [if_pos (by simp only [List.length_map, List.length_range]; omega)]

/-- C120. ... and with a consistent signal and spectrum the exception is AssertionError. -/
theorem fourier_assertion_fails {m : Maker ℝ} {psd : List ℝ} {d : ℝ} {fmax f3db : Option ℝ} {sig dt : List ℝ} {peak : ℝ} (hn : normalizeSignal m 0 0 = .ok (sig, peak, dt))
    (hl : 6 ≤ sig.length) (hp : psd.length = (sig.length - 4) / 2 + 3) : fourier m (some psd) d fmax f3db 0 0 = .error .assertion := by
  have hm := length_mid sig
  unfold fourier
  dsimp only
  rw [if_neg (by omega), if_neg (by omega), hn]
  dsimp only
  rw [if_neg (by intro e; rw [e] at hm; simp at hm; omega), if_neg (by push_cast; omega), if_neg (by omega)]
  unfold normalize5
  rw [if_pos (by simp only [List.length_map, List.length_range]; omega)]

/-! ### _normalize_filter -/

variable {K : Type} [Field K] [LinearOrder K] [IsStrictOrderedRing K]

/-- optimal_filtering.py L691-703 `_normalize_filter`. With a zero product the result is infinite or NaN in numpy and 0 here. -/
def normalize1 (f sig : List K) : Except Exc (List K) :=
  if f.length ≠ sig.length then .error .assertion
  else .ok (f.map (· * (1 / ip f.length f sig)))

/-- C120. After `_normalize_filter` the filter gives exactly 1 on the signal (if it gave anything), and all ratios between weights are unchanged; it succeeds exactly if filter and signal have the same length. -/
theorem normalize1_unit {f g sig : List K} (h : normalize1 f sig = .ok g) (h0 : ip f.length f sig ≠ 0) :
    ip g.length g sig = 1 ∧ g.length = f.length ∧ f.length = sig.length ∧ ∀ i j, g.getD i 0 * f.getD j 0 = g.getD j 0 * f.getD i 0 := by
  unfold normalize1 at h
  split at h
  · exact absurd h (by simp)
  rename_i hlen
  injection h with h
  subst h
  refine ⟨?_, by simp, not_not.1 hlen, fun i j => ?_⟩
  · rw [List.length_map]
    have : ip f.length (f.map (· * (1 / ip f.length f sig))) sig = 1 / ip f.length f sig * ip f.length f sig := by
      generalize 1 / ip f.length f sig = c
      unfold ip
      rw [mul_sum]
      refine sum_congr rfl fun i _ => ?_
      rw [getD_map_mul]
      ring
    rw [this, one_div, inv_mul_cancel₀ h0]
  · rw [getD_map_mul, getD_map_mul]
    ring

example : normalize1 [1, 2, (3 : ℚ)] [0, 1, 2] = .ok [1 / 8, 1 / 4, 3 / 8] ∧ normalize1 [1, (2 : ℚ)] [0, 1, 2] = .error .assertion := by decide +kernel

/-! ### The whitening matrix -/

/-- optimal_filtering.py L175-182: the banded Toeplitz matrices AR and MA: row i gets c[i-j] for j from max(0, i-(len(c)-1)) to i -/
def toepl (c : List K) (N : Nat) : Matrix (Fin N) (Fin N) K :=
  Matrix.of fun i j => if (i.val : Int) - ((c.length : Int) - 1) ≤ j.val ∧ j.val ≤ i.val then c.getD (i.val - j.val) 0 else 0

/-- optimal_filtering.py L170-183 `W`: np.linalg.solve(MA, AR), LinAlgError if MA is singular -/
def whitenMatrix (θ φ : List K) (N : Nat) : Except Exc (Matrix (Fin N) (Fin N) K) :=
  if (toepl θ N).det = 0 then .error .exception else .ok (((toepl θ N).det⁻¹ • (toepl θ N).adjugate) * toepl φ N)

omit [LinearOrder K] [IsStrictOrderedRing K] in
theorem toepl_mul (c : List K) (N : Nat) (v : Nat → K) (i : Fin N) : (toepl c N).mulVec (fun j => v j.val) i = lower c v i.val := by
  unfold Matrix.mulVec dotProduct lower toepl
  simp only [Matrix.of_apply]
  rw [Fin.sum_univ_eq_sum_range (fun j => (if (i.val : Int) - ((c.length : Int) - 1) ≤ j ∧ j ≤ i.val then c.getD (i.val - j) 0 else 0) * v j) N]
  rw [← Finset.sum_subset (Finset.range_subset_range.2 (by omega : i.val + 1 ≤ N))]
  · refine sum_congr rfl fun j hj => ?_
    have hj := mem_range.1 hj
    split
    · rfl
    · rw [List.getD_eq_getElem?_getD, List.getElem?_eq_none (by omega)]
      rfl
  · intro j _ hj
    rw [if_neg (by rw [mem_range] at hj; omega), zero_mul]

omit [LinearOrder K] [IsStrictOrderedRing K] in
theorem toepl_det (c : List K) (N : Nat) : (toepl c N).det = c.getD 0 0 ^ N := by
  rw [Matrix.det_of_lowerTriangular]
  · have : ∀ i : Fin N, toepl c N i i = c.getD 0 0 := by
      intro i
      unfold toepl
      rw [Matrix.of_apply]
      split
      · rw [Nat.sub_self]
      · rename_i h
        rw [List.getD_eq_getElem?_getD, List.getElem?_eq_none (by omega)]
        rfl
    rw [Finset.prod_congr rfl (fun i _ => this i)]
    simp
  · intro i j hij
    unfold toepl
    rw [Matrix.of_apply, if_neg]
    have : i.val < j.val := hij
    omega

/-- C120. The matrix exists exactly if the first MA coefficient is not zero (or the matrix is empty). -/
theorem whitenMatrix_exists (θ φ : List K) (N : Nat) : (whitenMatrix θ φ N).isOk = true ↔ N = 0 ∨ θ.getD 0 0 ≠ 0 := by
  unfold whitenMatrix
  rw [toepl_det]
  by_cases h : θ.getD 0 0 ^ N = 0
  · rw [if_pos h]
    constructor
    · intro h2; exact absurd h2 (by simp [Except.isOk, Except.toBool])
    · rintro (rfl | h2)
      · simp at h
      · exact absurd h (pow_ne_zero _ h2)
  · rw [if_neg h]
    refine ⟨fun _ => ?_, fun _ => rfl⟩
    by_cases hN : N = 0
    · exact .inl hN
    · exact .inr fun h0 => h (by rw [h0, zero_pow hN])

/-- C120. `W(len(v))` times v equals `whiten(v)`, for every vector and every ARMA model with at least one MA term beyond the first. -/
theorem whitenMatrix_whiten_partial {θ φ v : List K} (hθ : θ.getD 0 0 ≠ 0) (hφ : φ ≠ []) (hv : v ≠ []) (hq : 2 ≤ θ.length ∨ v.length = 1)
    {M : Matrix (Fin v.length) (Fin v.length) K} (hM : whitenMatrix θ φ v.length = .ok M) :
    whiten θ φ v = .ok ((List.finRange v.length).map (M.mulVec (fun j => v.getD j.val 0))) := by
  obtain ⟨w, hw, hwl, hlow⟩ := whiten_spec_partial (θ := θ) (φ := φ) (v := v) hθ hφ hv hq
  rw [hw]
  congr 1
  unfold whitenMatrix at hM
  split at hM
  · exact absurd hM (by simp)
  rename_i hdet
  injection hM with hM
  have hu : ((toepl θ v.length).det⁻¹ • (toepl θ v.length).adjugate) * toepl θ v.length = 1 := by
    rw [Matrix.smul_mul, Matrix.adjugate_mul, smul_smul, inv_mul_cancel₀ hdet, one_smul]
  have e1 : (toepl θ v.length).mulVec (fun j => w.getD j.val 0) = (toepl φ v.length).mulVec (fun j => v.getD j.val 0) := by
    funext i
    rw [toepl_mul θ v.length (fun j => w.getD j 0) i, toepl_mul φ v.length (fun j => v.getD j 0) i]
    exact hlow i.val i.isLt
  have e2 : (fun j : Fin v.length => w.getD j.val 0) = M.mulVec (fun j => v.getD j.val 0) := by
    rw [← hM, ← Matrix.mulVec_mulVec, ← e1, Matrix.mulVec_mulVec, hu, Matrix.one_mulVec]
  rw [← e2]
  refine (list_eq_of_getD (by simp [hwl]) fun i hi => ?_).symm
  rw [hwl] at hi
  have e : ((List.finRange v.length).map (fun j => w.getD j.val 0)).getD i 0 = w.getD i 0 := by
    rw [List.getD_eq_getElem?_getD, List.getElem?_map, List.getElem?_eq_getElem (by rw [List.length_finRange]; exact hi)]
    simp
  exact e

example : (whitenMatrix [2, 1] [1, (1 : ℚ)] 2).map (fun M => (List.finRange 2).map (M.mulVec (fun j => [4, 8].getD j.val 0))) = whiten [2, 1] [1, 1] [4, 8] ∧
    whiten [2, 1] [1, (1 : ℚ)] [4, 8] = .ok [2, 5] := by decide +kernel

/-- C120. Disagreement (C120): `W(len(v))` times v is not `whiten(v)` if the model has a single MA coefficient (other than 1): [2, 6] and [1, 6] for v = [4, 8]. -/
theorem whitenMatrix_pure_AR_fails : (whitenMatrix [2] [1, (1 : ℚ)] 2).map (fun M => (List.finRange 2).map (M.mulVec (fun j => [4, 8].getD j.val 0))) = .ok [2, 6] ∧
    whiten [2] [1, (1 : ℚ)] [4, 8] = .ok [1, 6] := by decide +kernel

end Mass.Lin.Low
