import Verif.Py
import Verif.Lin.Dft
import Mathlib.Data.Rat.Floor
import Mathlib.Algebra.BigOperators.Field
import Mathlib.Tactic.Positivity
/-! C179: the lowpass filter of traces (mass/core/analysis_algorithms.pyx `filter_signal_lowpass`), by discrete Fourier transform. Exact arithmetic. -/
namespace Mass.Lin.Lowpass
open Finset Complex Mass.Lin.Dft

/-- `np.fft.fft(x)[k]` for `N` complex numbers (analysis_algorithms.pyx L774) -/
noncomputable def fft (N : ℕ) (x : ℕ → ℂ) (k : ℕ) : ℂ := ∑ j ∈ range N, x j * (zeta N ^ (j * k))⁻¹

/-- `np.fft.ifft(X)[l]` (analysis_algorithms.pyx L778) -/
noncomputable def ifft (N : ℕ) (X : ℕ → ℂ) (l : ℕ) : ℂ := (∑ k ∈ range N, X k * zeta N ^ (k * l)) / N

/-- `np.arange(0, N/2+1)` (analysis_algorithms.pyx L775; the extension is compiled with `language_level` 3, setup.py L36, so `/` is true division):
`ceil(stop)` numbers -/
def upFreqs (N : ℕ) : List ℚ := (List.range ⌈(N : ℚ) / 2 + 1⌉.toNat).map (fun (j : ℕ) => (j : ℚ))

/-- `np.arange(N/2-1, 0, -1)` (analysis_algorithms.pyx L775): `ceil(start)` numbers, none if that is negative -/
def downFreqs (N : ℕ) : List ℚ := (List.range ⌈(N : ℚ) / 2 - 1⌉.toNat).map (fun (j : ℕ) => (N : ℚ) / 2 - 1 - j)

/-- analysis_algorithms.pyx L775: the frequencies, in units of `fs/N` -/
def freqs (N : ℕ) : List ℚ := upFreqs N ++ downFreqs N

/-- analysis_algorithms.pyx L776-777: `filt`, 1 where the frequency is below the cutoff -/
noncomputable def filt (N : ℕ) (fs fcut : ℝ) (k : ℕ) : ℂ := open Classical in
  if fs / N * ((freqs N).getD k 0 : ℚ) < fcut then 1 else 0

/-- analysis_algorithms.pyx L762-779 `filter_signal_lowpass`. The transform of no data is a ValueError; a mask that is not as long as the data is
an IndexError. The result is an array of complex numbers. -/
noncomputable def lowpass (sig : List ℝ) (fs fcut : ℝ) : Except Exc (List ℂ) :=
  if sig.length = 0 then .error .value
  else if (freqs sig.length).length ≠ sig.length then .error .index
  else .ok ((List.range sig.length).map (ifft sig.length
    (fun k => fft sig.length (fun j => ((sig.getD j 0 : ℝ) : ℂ)) k * filt sig.length fs fcut k)))

/-! ### transforms -/

theorem getD_get {l : List ℝ} {j : ℕ} (h : j < l.length) : l.getD j 0 = l[j] := by
  rw [List.getD_eq_getElem?_getD, List.getElem?_eq_getElem h]; rfl

theorem ifft_fft (N : ℕ) (h : N ≠ 0) (x : ℕ → ℂ) (l : ℕ) (hl : l < N) : ifft N (fft N x) l = x l := by
  have hN : (N : ℂ) ≠ 0 := by exact_mod_cast h
  unfold ifft fft
  rw [div_eq_iff hN]
  have h1 : ∀ k ∈ range N, (∑ j ∈ range N, x j * (zeta N ^ (j * k))⁻¹) * zeta N ^ (k * l) = ∑ j ∈ range N, x j * (zeta N ^ ((l : ℤ) - j)) ^ k := by
    intro k _
    rw [sum_mul]
    refine sum_congr rfl (fun j _ => ?_)
    rw [← zpow_natCast (zeta N ^ ((l : ℤ) - j)), ← zpow_mul, ← zpow_natCast, ← zpow_natCast, ← zpow_neg, mul_assoc, ← zpow_add₀ (zeta_ne N)]
    congr 2
    push_cast
    ring
  rw [sum_congr rfl h1, sum_comm, sum_eq_single l]
  · rw [← mul_sum, orth N h, if_pos (by simp)]
  · intro j hj hne
    rw [← mul_sum, orth N h, if_neg, mul_zero]
    intro hd
    have hj := mem_range.1 hj
    have : j ≡ l [MOD N] := (Nat.modEq_iff_dvd (n := N)).2 hd
    rw [Nat.ModEq, Nat.mod_eq_of_lt hj, Nat.mod_eq_of_lt hl] at this
    exact hne this
  · intro hn
    exact absurd (mem_range.2 hl) hn

theorem fft_ifft (N : ℕ) (h : N ≠ 0) (X : ℕ → ℂ) (k : ℕ) (hk : k < N) : fft N (ifft N X) k = X k := by
  have hN : (N : ℂ) ≠ 0 := by exact_mod_cast h
  unfold ifft fft
  have h1 : ∀ j ∈ range N, (∑ q ∈ range N, X q * zeta N ^ (q * j)) / N * (zeta N ^ (j * k))⁻¹ = ∑ q ∈ range N, X q / N * (zeta N ^ ((q : ℤ) - k)) ^ j := by
    intro j _
    rw [div_mul_eq_mul_div, sum_mul, sum_div]
    refine sum_congr rfl (fun q _ => ?_)
    rw [← zpow_natCast (zeta N ^ ((q : ℤ) - k)), ← zpow_mul, ← zpow_natCast, ← zpow_natCast, ← zpow_neg, mul_assoc, ← zpow_add₀ (zeta_ne N)]
    rw [div_mul_eq_mul_div]
    congr 3
    push_cast
    ring
  rw [sum_congr rfl h1, sum_comm, sum_eq_single k]
  · rw [← mul_sum, orth N h, if_pos (by simp)]
    field_simp
  · intro q hq hne
    rw [← mul_sum, orth N h, if_neg, mul_zero]
    intro hd
    have hq := mem_range.1 hq
    have : k ≡ q [MOD N] := (Nat.modEq_iff_dvd (n := N)).2 hd
    rw [Nat.ModEq, Nat.mod_eq_of_lt hq, Nat.mod_eq_of_lt hk] at this
    exact hne this.symm
  · intro hn
    exact absurd (mem_range.2 hk) hn

/-- the inverse transform of a spectrum with `X[N-k] = conj X[k]` is real -/
theorem ifft_real (N : ℕ) (h : N ≠ 0) (X : ℕ → ℂ) (h0 : (starRingEnd ℂ) (X 0) = X 0) (hX : ∀ k, 1 ≤ k → k < N → X (N - k) = (starRingEnd ℂ) (X k)) (l : ℕ) :
    (((ifft N X l).re : ℝ) : ℂ) = ifft N X l := by
  rw [← conj_eq_iff_re]
  unfold ifft
  rw [map_div₀, map_natCast, map_sum]
  congr 1
  rw [range_eq_Ico, sum_eq_sum_Ico_succ_bot (Nat.pos_of_ne_zero h), sum_eq_sum_Ico_succ_bot (Nat.pos_of_ne_zero h)]
  congr 1
  · rw [map_mul, h0]; simp
  · have := sum_Ico_reflect (fun k => X k * zeta N ^ (k * l)) 1 (show N ≤ N + 1 by omega)
    rw [show N + 1 - N = 1 by omega, show N + 1 - 1 = N by omega] at this
    rw [zero_add, ← this]
    refine sum_congr rfl (fun k hk => ?_)
    obtain ⟨h1, h2⟩ := mem_Ico.1 hk
    rw [map_mul, hX k h1 h2, map_pow, conj_zeta]
    congr 1
    rw [inv_pow]
    refine inv_eq_of_mul_eq_one_left ?_
    rw [← pow_add, ← Nat.add_mul, Nat.sub_add_cancel (by omega), pow_mul, (zeta_prim N h).pow_eq_one, one_pow]

/-! ### frequencies -/

theorem freqs_even (m : ℕ) (hm : m ≠ 0) : (freqs (2 * m)).length = 2 * m ∧ ∀ k, k < 2 * m → (freqs (2 * m)).getD k 0 = (min k (2 * m - k) : ℕ) := by
  have e0 : (((2 * m : ℕ) : ℚ)) / 2 = m := by push_cast; ring
  have e1 : ⌈((2 * m : ℕ) : ℚ) / 2 + 1⌉.toNat = m + 1 := by
    rw [e0, show (m : ℚ) + 1 = ((m + 1 : ℕ) : ℚ) by push_cast; rfl, Int.ceil_natCast]; rfl
  have e2 : ⌈((2 * m : ℕ) : ℚ) / 2 - 1⌉.toNat = m - 1 := by
    obtain ⟨q, rfl⟩ : ∃ q, m = q + 1 := ⟨m - 1, by omega⟩
    rw [e0, show ((q + 1 : ℕ) : ℚ) - 1 = (q : ℚ) by push_cast; ring, Int.ceil_natCast]; rfl
  unfold freqs upFreqs downFreqs
  rw [e1, e2, e0]
  refine ⟨by simp; omega, ?_⟩
  intro k hk
  rw [List.getD_eq_getElem?_getD]
  by_cases hkm : k < m + 1
  · rw [List.getElem?_append_left (by simpa using hkm), List.getElem?_map, List.getElem?_range hkm]
    simp only [Option.map_some, Option.getD_some]
    rw [Nat.min_eq_left (by omega)]
  · rw [List.getElem?_append_right (by simp; omega), List.length_map, List.length_range, List.getElem?_map, List.getElem?_range (by omega)]
    simp only [Option.map_some, Option.getD_some]
    rw [Nat.min_eq_right (by omega), Nat.cast_sub (by omega), Nat.cast_sub (by omega)]
    push_cast
    ring

theorem freqs_odd (m : ℕ) : (freqs (2 * m + 1)).length = 2 * m + 2 := by
  have e0 : (((2 * m + 1 : ℕ) : ℚ)) / 2 = m + 1 / 2 := by push_cast; ring
  have e1 : ⌈((2 * m + 1 : ℕ) : ℚ) / 2 + 1⌉ = ((m + 2 : ℕ) : ℤ) := by
    rw [e0, Int.ceil_eq_iff]; push_cast; constructor <;> linarith
  have e2 : ⌈((2 * m + 1 : ℕ) : ℚ) / 2 - 1⌉ = ((m : ℕ) : ℤ) := by
    rw [e0, Int.ceil_eq_iff]; push_cast; constructor <;> linarith
  unfold freqs upFreqs downFreqs
  rw [e1, e2]
  simp
  omega

/-! ### the filter -/

/-- the frequency of term `k` of the transform of `N` samples taken at `fs` per second is below `fcut` [specification] -/
def Passes (N : ℕ) (fs fcut : ℝ) (k : ℕ) : Prop := fs * (min k (N - k) : ℕ) / N < fcut

open Classical in
/-- C179: for an even number of samples the result is real, as long as the data, and its transform is that of the data at frequencies below the cutoff
and zero at the others. -/
theorem lowpass_spec_partial (sig : List ℝ) (fs fcut : ℝ) (m : ℕ) (hm : m ≠ 0) (hlen : sig.length = 2 * m) :
    ∃ y : List ℝ, lowpass sig fs fcut = .ok (y.map ofReal) ∧ y.length = sig.length ∧
      ∀ k, k < 2 * m → dft (2 * m) (fun j => y.getD j 0) k = if Passes (2 * m) fs fcut k then dft (2 * m) (fun j => sig.getD j 0) k else 0 := by
  have hN : 2 * m ≠ 0 := by omega
  obtain ⟨f1, f2⟩ := freqs_even m hm
  have hf : ∀ k, k < 2 * m → filt (2 * m) fs fcut k = if Passes (2 * m) fs fcut k then 1 else 0 := by
    intro k hk
    unfold filt Passes
    rw [f2 k hk, show fs / ((2 * m : ℕ) : ℝ) * (((min k (2 * m - k) : ℕ) : ℚ) : ℝ) = fs * (min k (2 * m - k) : ℕ) / ((2 * m : ℕ) : ℝ) by push_cast; ring]
  set X : ℕ → ℂ := fun k => fft (2 * m) (fun j => ((sig.getD j 0 : ℝ) : ℂ)) k * filt (2 * m) fs fcut k with hXdef
  have hXv : ∀ k, k < 2 * m → X k = if Passes (2 * m) fs fcut k then dft (2 * m) (fun j => sig.getD j 0) k else 0 := by
    intro k hk
    show dft (2 * m) (fun j => sig.getD j 0) k * filt (2 * m) fs fcut k = _
    rw [hf k hk]
    split <;> simp
  have hreal : ∀ l, (((ifft (2 * m) X l).re : ℝ) : ℂ) = ifft (2 * m) X l := by
    refine ifft_real _ hN X ?_ ?_
    · rw [hXv 0 (by omega)]
      have : (starRingEnd ℂ) (dft (2 * m) (fun j => sig.getD j 0) 0) = dft (2 * m) (fun j => sig.getD j 0) 0 := by
        rw [conj_dft]; unfold dft; simp
      split
      · exact this
      · simp
    · intro k h1 h2
      rw [hXv _ (by omega), hXv k h2]
      have hsym : Passes (2 * m) fs fcut (2 * m - k) ↔ Passes (2 * m) fs fcut k := by
        unfold Passes
        rw [show min (2 * m - k) (2 * m - (2 * m - k)) = min k (2 * m - k) by rw [Nat.sub_sub_self (by omega), Nat.min_comm]]
      by_cases hp : Passes (2 * m) fs fcut k
      · rw [if_pos (hsym.2 hp), if_pos hp, dft_reflect _ hN _ k (by omega)]
      · rw [if_neg (fun h => hp (hsym.1 h)), if_neg hp]; simp
  refine ⟨(List.range (2 * m)).map (fun l => (ifft (2 * m) X l).re), ?_, by simp [hlen], ?_⟩
  · unfold lowpass
    rw [hlen, if_neg hN, if_neg (by rw [f1]; simp)]
    congr 1
    rw [List.map_map]
    exact List.map_congr_left (fun l _ => (hreal l).symm)
  · intro k hk
    rw [← hXv k hk, ← fft_ifft (2 * m) hN X k hk]
    unfold dft fft
    refine sum_congr rfl (fun j hj => ?_)
    dsimp only
    rw [List.getD_eq_getElem?_getD, List.getElem?_map, List.getElem?_range (mem_range.1 hj)]
    simp only [Option.map_some, Option.getD_some]
    rw [hreal]

/-- a list is known by its transform -/
theorem dft_inj (N : ℕ) (h : N ≠ 0) (x y : List ℝ) (hx : x.length = N) (hy : y.length = N)
    (he : ∀ k, k < N → dft N (fun j => x.getD j 0) k = dft N (fun j => y.getD j 0) k) : x = y := by
  apply List.ext_getElem (by rw [hx, hy])
  intro l h1 h2
  have hl : l < N := by omega
  have a := ifft_fft N h (fun j => ((x.getD j 0 : ℝ) : ℂ)) l hl
  have b := ifft_fft N h (fun j => ((y.getD j 0 : ℝ) : ℂ)) l hl
  have : ifft N (fft N (fun j => ((x.getD j 0 : ℝ) : ℂ))) l = ifft N (fft N (fun j => ((y.getD j 0 : ℝ) : ℂ))) l := by
    unfold ifft
    congr 1
    refine sum_congr rfl (fun k hk => ?_)
    have := he k (mem_range.1 hk)
    unfold dft at this
    unfold fft
    rw [this]
  rw [a, b] at this
  have := ofReal_injective this
  rw [getD_get h1, getD_get h2] at this
  exact this

theorem map_ofReal_inj {x y : List ℝ} (h : x.map ofReal = y.map ofReal) : x = y :=
  (List.map_inj_right (fun _ _ h => ofReal_injective h)).1 h

/-- C179: filtering twice is the same as filtering once. -/
theorem lowpass_idem (sig y : List ℝ) (fs fcut : ℝ) (m : ℕ) (hm : m ≠ 0) (hlen : sig.length = 2 * m)
    (h : lowpass sig fs fcut = .ok (y.map ofReal)) : lowpass y fs fcut = .ok (y.map ofReal) := by
  classical
  obtain ⟨y1, a1, a2, a3⟩ := lowpass_spec_partial sig fs fcut m hm hlen
  have e : y = y1 := map_ofReal_inj (Except.ok.inj (h.symm.trans a1))
  subst e
  obtain ⟨y2, b1, b2, b3⟩ := lowpass_spec_partial y fs fcut m hm (a2.trans hlen)
  rw [b1]
  congr 2
  refine dft_inj (2 * m) (by omega) _ _ (by omega) (by omega) (fun k hk => ?_)
  rw [b3 k hk]
  split
  · rfl
  · rename_i hp
    rw [a3 k hk, if_neg hp]

/-- C179: data without content at the cutoff or above come through unchanged, and of data without content below the cutoff nothing is left. In particular
nothing changes with a cutoff above half the sampling rate, and nothing is left with a cutoff of zero or less. -/
theorem lowpass_passes (sig : List ℝ) (fs fcut : ℝ) (m : ℕ) (hm : m ≠ 0) (hlen : sig.length = 2 * m) :
    ((∀ k, k < 2 * m → fcut ≤ fs * (min k (2 * m - k) : ℕ) / (2 * m : ℕ) → dft (2 * m) (fun j => sig.getD j 0) k = 0) →
      lowpass sig fs fcut = .ok (sig.map ofReal)) ∧
    ((∀ k, k < 2 * m → fs * (min k (2 * m - k) : ℕ) / (2 * m : ℕ) < fcut → dft (2 * m) (fun j => sig.getD j 0) k = 0) →
      lowpass sig fs fcut = .ok ((List.replicate (2 * m) (0 : ℝ)).map ofReal)) ∧
    (0 ≤ fs → fs / 2 < fcut → lowpass sig fs fcut = .ok (sig.map ofReal)) ∧
    (0 ≤ fs → fcut ≤ 0 → lowpass sig fs fcut = .ok ((List.replicate (2 * m) (0 : ℝ)).map ofReal)) := by
  classical
  have hmR : (0 : ℝ) < (2 * m : ℕ) := by exact_mod_cast (show 0 < 2 * m by omega)
  have key1 : (∀ k, k < 2 * m → fcut ≤ fs * (min k (2 * m - k) : ℕ) / (2 * m : ℕ) → dft (2 * m) (fun j => sig.getD j 0) k = 0) →
      lowpass sig fs fcut = .ok (sig.map ofReal) := by
    intro h
    obtain ⟨y, a1, a2, a3⟩ := lowpass_spec_partial sig fs fcut m hm hlen
    rw [a1]
    congr 2
    refine dft_inj (2 * m) (by omega) _ _ (by omega) (by omega) (fun k hk => ?_)
    rw [a3 k hk]
    split
    · rfl
    · rename_i hp
      exact (h k hk (not_lt.1 hp)).symm
  have key2 : (∀ k, k < 2 * m → fs * (min k (2 * m - k) : ℕ) / (2 * m : ℕ) < fcut → dft (2 * m) (fun j => sig.getD j 0) k = 0) →
      lowpass sig fs fcut = .ok ((List.replicate (2 * m) (0 : ℝ)).map ofReal) := by
    intro h
    obtain ⟨y, a1, a2, a3⟩ := lowpass_spec_partial sig fs fcut m hm hlen
    rw [a1]
    congr 2
    refine dft_inj (2 * m) (by omega) _ _ (by omega) (by simp) (fun k hk => ?_)
    have hz : dft (2 * m) (fun j => (List.replicate (2 * m) (0 : ℝ)).getD j 0) k = 0 := by
      unfold dft
      refine sum_eq_zero (fun j hj => ?_)
      simp [List.getD_eq_getElem?_getD, List.getElem?_replicate, mem_range.1 hj]
    rw [a3 k hk, hz]
    split
    · rename_i hp
      exact h k hk hp
    · rfl
  refine ⟨key1, key2, ?_, ?_⟩
  · intro h0 h
    refine key1 (fun k hk hc => absurd (lt_of_lt_of_le h hc) (not_lt.2 ?_))
    rw [div_le_iff₀ hmR]
    have h2 : ((min k (2 * m - k) : ℕ) : ℝ) ≤ m := by exact_mod_cast (show min k (2 * m - k) ≤ m by omega)
    have := mul_le_mul_of_nonneg_left h2 h0
    push_cast at this ⊢
    linarith
  · intro h0 h
    refine key2 (fun k hk hc => absurd (lt_of_lt_of_le hc h) (not_lt.2 ?_))
    positivity

/-- C179: the filter is linear. -/
theorem lowpass_linear (u v : List ℝ) (a b fs fcut : ℝ) (m : ℕ) (hm : m ≠ 0) (hu : u.length = 2 * m) (hv : v.length = 2 * m) (yu yv : List ℝ)
    (h1 : lowpass u fs fcut = .ok (yu.map ofReal)) (h2 : lowpass v fs fcut = .ok (yv.map ofReal)) :
    lowpass (List.zipWith (fun p q => a * p + b * q) u v) fs fcut = .ok ((List.zipWith (fun p q => a * p + b * q) yu yv).map ofReal) := by
  classical
  have lin : ∀ (x y : List ℝ), x.length = 2 * m → y.length = 2 * m → ∀ k,
      dft (2 * m) (fun j => (List.zipWith (fun p q => a * p + b * q) x y).getD j 0) k =
        a * dft (2 * m) (fun j => x.getD j 0) k + b * dft (2 * m) (fun j => y.getD j 0) k := by
    intro x y hx hy k
    unfold dft
    rw [mul_sum, mul_sum, ← sum_add_distrib]
    refine sum_congr rfl (fun j hj => ?_)
    have hj := mem_range.1 hj
    dsimp only
    rw [getD_get (by rw [List.length_zipWith]; omega), List.getElem_zipWith, getD_get (by omega), getD_get (by omega)]
    push_cast
    ring
  obtain ⟨y1, a1, a2, a3⟩ := lowpass_spec_partial u fs fcut m hm hu
  obtain ⟨y2, b1, b2, b3⟩ := lowpass_spec_partial v fs fcut m hm hv
  have e1 : yu = y1 := map_ofReal_inj (Except.ok.inj (h1.symm.trans a1))
  have e2 : yv = y2 := map_ofReal_inj (Except.ok.inj (h2.symm.trans b1))
  subst e1 e2
  have hl : (List.zipWith (fun p q => a * p + b * q) u v).length = 2 * m := by rw [List.length_zipWith]; omega
  obtain ⟨y3, c1, c2, c3⟩ := lowpass_spec_partial _ fs fcut m hm hl
  rw [c1]
  congr 2
  refine dft_inj (2 * m) (by omega) _ _ (by omega) (by rw [List.length_zipWith]; omega) (fun k hk => ?_)
  rw [c3 k hk, lin _ _ (by omega) (by omega), lin _ _ (by omega) (by omega), a3 k hk, b3 k hk]
  split <;> simp

/-- C179: the mean squared value does not grow, and with a cutoff above zero the mean does not change. -/
theorem lowpass_energy (sig y : List ℝ) (fs fcut : ℝ) (m : ℕ) (hm : m ≠ 0) (hlen : sig.length = 2 * m)
    (h : lowpass sig fs fcut = .ok (y.map ofReal)) :
    ∑ j ∈ range (2 * m), (y.getD j 0) ^ 2 ≤ ∑ j ∈ range (2 * m), (sig.getD j 0) ^ 2 ∧
    (0 < fcut → ∑ j ∈ range (2 * m), y.getD j 0 = ∑ j ∈ range (2 * m), sig.getD j 0) := by
  classical
  obtain ⟨y1, a1, a2, a3⟩ := lowpass_spec_partial sig fs fcut m hm hlen
  have e : y = y1 := map_ofReal_inj (Except.ok.inj (h.symm.trans a1))
  subst e
  have hp : ∀ k, k < 2 * m → power (2 * m) (fun j => y.getD j 0) k ≤ power (2 * m) (fun j => sig.getD j 0) k := by
    intro k hk
    unfold power
    rw [a3 k hk]
    split
    · exact le_refl _
    · simp only [map_zero]; exact normSq_nonneg _
  constructor
  · have p1 := parseval m hm (fun j => y.getD j 0)
    have p2 := parseval m hm (fun j => sig.getD j 0)
    have hmR : (0 : ℝ) < (2 * m : ℕ) := by exact_mod_cast (show 0 < 2 * m by omega)
    have hs : ∑ k ∈ Ico 1 m, power (2 * m) (fun j => y.getD j 0) k ≤ ∑ k ∈ Ico 1 m, power (2 * m) (fun j => sig.getD j 0) k :=
      sum_le_sum (fun k hk => hp k (by have := (mem_Ico.1 hk).2; omega))
    have := hp 0 (by omega)
    have := hp m (by omega)
    exact le_of_mul_le_mul_left (by linarith) hmR
  · intro h0
    have h1 := a3 0 (by omega)
    rw [if_pos (by unfold Passes; simpa using h0)] at h1
    have s : ∀ x : ℕ → ℝ, dft (2 * m) x 0 = ((∑ j ∈ range (2 * m), x j : ℝ) : ℂ) := by
      intro x
      unfold dft
      simp
    rw [s, s] at h1
    exact ofReal_injective h1

/-- Disagreement (C179): with an odd number of samples the filter always raises IndexError, since one frequency too many is made up. -/
theorem lowpass_odd_fails (sig : List ℝ) (fs fcut : ℝ) (m : ℕ) (hlen : sig.length = 2 * m + 1) : lowpass sig fs fcut = .error .index := by
  unfold lowpass
  rw [hlen, if_neg (by omega), if_pos (by rw [freqs_odd]; omega)]

/-- the frequencies of 8 and, wrongly, of 5 samples -/
example : freqs 8 = [0, 1, 2, 3, 4, 3, 2, 1] ∧ freqs 5 = [0, 1, 2, 3, 3 / 2, 1 / 2] := by decide +kernel

/-- C179, instance: the slowest cutoff leaves the mean of two samples, one above half the sampling rate leaves both. -/
example (a b : ℝ) : lowpass [a, b] 2 (3 / 2) = .ok ([a, b].map ofReal) := (lowpass_passes [a, b] 2 (3 / 2) 1 one_ne_zero rfl).2.2.1 (by norm_num) (by norm_num)

end Mass.Lin.Lowpass
