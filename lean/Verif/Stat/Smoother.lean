import Verif.Lin.Dft
import Mathlib.Analysis.SpecialFunctions.Log.Basic
import Mathlib.Algebra.Order.Floor.Semiring
import Mathlib.Data.List.Perm.Basic
/-! C126: smoothed histograms and the drift correction that minimizes their entropy (mass/core/analysis_algorithms.pyx L232-341: `HistogramSmoother`, `make_smooth_histogram`, `drift_correct`). Real numbers, exact
arithmetic. -/
namespace Mass.Stat.Smoother
open Mass.Lin.Dft Finset
open scoped Classical
set_option linter.unusedSectionVars false

/-! ### The model -/

/-- `while pow2 < nbins: pow2 *= 2`, analysis_algorithms.pyx L251-253 (always called with 1024; the test `0 < p` only makes the recursion total) -/
def grow (p n : ℕ) : ℕ := if 0 < p ∧ p < n then grow (2 * p) n else p
termination_by n - p
decreasing_by omega

/-- the number of bins, analysis_algorithms.pyx L248-254; `int()` of a nonnegative number is its floor -/
noncomputable def nbins (d sigma : ℝ) : ℕ := grow 1024 ⌊d / (4 / 10 * sigma) + 1 / 2⌋₊

/-- analysis_algorithms.pyx L258, one element -/
noncomputable def gauss (step sigma : ℝ) (i : ℕ) : ℝ := Real.exp (-(1 / 2) * ((i : ℝ) * step / sigma) ^ 2)

/-- analysis_algorithms.pyx L258-259: `kernel[1:] += kernel[-1:0:-1]` -/
noncomputable def raw (n : ℕ) (step sigma : ℝ) (j : ℕ) : ℝ := if j = 0 then gauss step sigma 0 else gauss step sigma j + gauss step sigma (n - j)

/-- the normalized kernel, analysis_algorithms.pyx L258-260 -/
noncomputable def kern (n : ℕ) (step sigma : ℝ) (j : ℕ) : ℝ := raw n step sigma j / ∑ i ∈ range n, raw n step sigma i

/-- `np.fft.irfft(c)` for a complex spectrum of length m + 1 (called at analysis_algorithms.pyx L267): the imaginary parts of the first and the last element are not used -/
noncomputable def irfftC (m : ℕ) (c : ℕ → ℂ) (l : ℕ) : ℝ :=
  ((c 0).re + 2 * ∑ k ∈ Ico 1 m, (c k * zeta (2 * m) ^ (k * l)).re + (c m).re * (-1) ^ l) / (2 * m : ℕ)

/-- `np.histogram(values, n, [lo, hi])`, analysis_algorithms.pyx L265: bins of equal width, the last one closed (numpy raises ValueError unless lo < hi) -/
noncomputable def contents (n : ℕ) (lo hi : ℝ) (values : List ℝ) (i : ℕ) : ℕ :=
  values.countP (fun v => decide (lo + i * ((hi - lo) / n) ≤ v ∧ (v < lo + (i + 1) * ((hi - lo) / n) ∨ (i + 1 = n ∧ v = hi))))

/-- `HistogramSmoother.__call__`, analysis_algorithms.pyx L262-269, bin `i` -/
noncomputable def smooth (sigma lo hi : ℝ) (values : List ℝ) (i : ℕ) : ℝ :=
  let n := nbins (hi - lo) sigma
  let c := irfftC (n / 2) (fun k => dft n (kern n ((hi - lo) / n) sigma) k * dft n (fun j => (contents n lo hi values j : ℝ)) k) i
  if c < 0 then 0 else c

/-- `entropy` of `drift_correct`, analysis_algorithms.pyx L326-330: pulses are (indicator less its median, uncorrected height) -/
noncomputable def entropy (limit : ℝ) (pulses : List (ℝ × ℝ)) (param : ℝ) : ℝ :=
  let h := smooth (1 / 2) 0 limit (pulses.map (fun p => p.2 * (1 + p.1 * param)))
  Neg.neg (∑ i ∈ range (nbins (limit - 0) (1 / 2)), if 0 < h i then Real.log (h i) * h i else 0)

/-- `drift_correct`, analysis_algorithms.pyx L293-337: slope and median. `med` is `np.median`, `pct99` the 99 % point, `brent f` the answer of `sp.optimize.brent(f, brack=[0, .001])`. -/
noncomputable def driftCorrect (med pct99 : List ℝ → ℝ) (brent : (ℝ → ℝ) → ℝ) (limit : Option ℝ) (pulses : List (ℝ × ℝ)) : ℝ × ℝ :=
  let m := med (pulses.map Prod.fst)
  let lim := match limit with
    | none => 5 / 4 * pct99 (pulses.map Prod.snd)
    | some l => l
  (brent (entropy lim (pulses.map (fun p => (p.1 - m, p.2)))), m)

/-! ### Bins -/

theorem grow_spec (p n : ℕ) (hp : 0 < p) : (∃ k, grow p n = p * 2 ^ k) ∧ n ≤ grow p n ∧ (grow p n = p ∨ grow p n < 2 * n) := by
  induction hm : n - p using Nat.strong_induction_on generalizing p with
  | _ d ih =>
    rw [grow]
    by_cases h : p < n
    · rw [if_pos ⟨hp, h⟩]
      obtain ⟨⟨k, hk⟩, h2, h3⟩ := ih (n - 2 * p) (by omega) (2 * p) (by omega) rfl
      refine ⟨⟨k + 1, by rw [hk, pow_succ]; ring⟩, h2, .inr ?_⟩
      rcases h3 with h3 | h3
      · rw [h3]; omega
      · exact h3
    · rw [if_neg (by omega)]
      exact ⟨⟨0, by simp⟩, by omega, .inl rfl⟩

/-- C126. The number of bins is 1024 or the least larger power of two that is at least the number asked for; the bins are at most half a smoothing width wide. -/
theorem nbins_spec {d sigma : ℝ} (hd : 0 < d) (hs : 0 < sigma) :
    (∃ k, nbins d sigma = 1024 * 2 ^ k) ∧ (nbins d sigma = 1024 ∨ (nbins d sigma : ℝ) < 2 * (d / (4 / 10 * sigma) + 1 / 2)) ∧ d / nbins d sigma ≤ sigma / 2 := by
  have hq : 0 ≤ d / (4 / 10 * sigma) + 1 / 2 := by positivity
  obtain ⟨h1, h2, h3⟩ := grow_spec 1024 ⌊d / (4 / 10 * sigma) + 1 / 2⌋₊ (by norm_num)
  have hbig : 1024 ≤ nbins d sigma := by
    obtain ⟨k, hk⟩ := h1
    unfold nbins
    rw [hk]
    exact Nat.le_mul_of_pos_right _ (by positivity)
  refine ⟨h1, ?_, ?_⟩
  · rcases h3 with h3 | h3
    · exact .inl h3
    · right
      have e1 : ((⌊d / (4 / 10 * sigma) + 1 / 2⌋₊ : ℕ) : ℝ) ≤ d / (4 / 10 * sigma) + 1 / 2 := Nat.floor_le hq
      have e2 : (nbins d sigma : ℝ) < 2 * ((⌊d / (4 / 10 * sigma) + 1 / 2⌋₊ : ℕ) : ℝ) := by exact_mod_cast h3
      linarith
  · have hn : (1024 : ℝ) ≤ (nbins d sigma : ℝ) := by exact_mod_cast hbig
    have hlt : d / (4 / 10 * sigma) + 1 / 2 < (nbins d sigma : ℝ) + 1 := by
      have e1 := Nat.lt_floor_add_one (d / (4 / 10 * sigma) + 1 / 2)
      have e2 : ((⌊d / (4 / 10 * sigma) + 1 / 2⌋₊ : ℕ) : ℝ) ≤ (nbins d sigma : ℝ) := by exact_mod_cast h2
      linarith
    have h5 : d / (4 / 10 * sigma) < (nbins d sigma : ℝ) * (5 / 4) := by linarith
    rw [div_lt_iff₀ (by positivity)] at h5
    rw [div_le_iff₀ (by linarith)]
    nlinarith

theorem nbins_even {d sigma : ℝ} (hd : 0 < d) (hs : 0 < sigma) : ∃ m, m ≠ 0 ∧ nbins d sigma = 2 * m ∧ nbins d sigma / 2 = m ∧ 2 ≤ m := by
  obtain ⟨⟨k, hk⟩, -⟩ := nbins_spec hd hs
  refine ⟨512 * 2 ^ k, by positivity, by rw [hk]; ring, by rw [hk]; omega, ?_⟩
  have : 1 ≤ 2 ^ k := Nat.one_le_two_pow
  omega

/-! ### Convolution by transform -/

/-- product of two transforms, transformed back over all frequencies: the circular convolution -/
theorem conv_full (N : ℕ) (h : N ≠ 0) (a b : ℕ → ℝ) (l : ℕ) :
    ∑ k ∈ range N, dft N a k * dft N b k * (zeta N ^ l) ^ k = N * ∑ j ∈ range N, (b j : ℂ) * a ((l + (N - j)) % N) := by
  have h1 : ∀ k ∈ range N, dft N a k * dft N b k * (zeta N ^ l) ^ k = ∑ i ∈ range N, ∑ j ∈ range N, (a i : ℂ) * b j * (zeta N ^ ((l : ℤ) - i - j)) ^ k := by
    intro k _
    unfold dft
    rw [sum_mul_sum, sum_mul]
    refine sum_congr rfl (fun i _ => ?_)
    rw [sum_mul]
    refine sum_congr rfl (fun j _ => ?_)
    have e : (zeta N ^ ((l : ℤ) - i - j)) ^ k = (zeta N ^ (i * k))⁻¹ * (zeta N ^ (j * k))⁻¹ * (zeta N ^ l) ^ k := by
      rw [← zpow_natCast (zeta N ^ ((l : ℤ) - i - j)), ← zpow_mul, ← pow_mul, ← zpow_natCast, ← zpow_natCast, ← zpow_natCast, ← zpow_neg, ← zpow_neg, ← zpow_add₀ (zeta_ne N), ← zpow_add₀ (zeta_ne N)]
      congr 1
      push_cast
      ring
    rw [e]
    ring
  rw [sum_congr rfl h1, sum_comm]
  rw [sum_congr rfl (fun i _ => sum_comm)]
  rw [sum_comm, mul_sum]
  refine sum_congr rfl (fun j hj => ?_)
  have hjN := mem_range.1 hj
  have hlt : (l + (N - j)) % N < N := Nat.mod_lt _ (Nat.pos_of_ne_zero h)
  rw [sum_eq_single ((l + (N - j)) % N)]
  · rw [← mul_sum, orth N h, if_pos]
    · ring
    · have h2 : ((l : ℤ) + (N - j)) = N * ((l + (N - j)) / N : ℕ) + ((l + (N - j)) % N : ℕ) := by
        have := (Nat.div_add_mod (l + (N - j)) N).symm
        have e : ((l + (N - j) : ℕ) : ℤ) = (l : ℤ) + (N - j) := by omega
        rw [← e]
        exact_mod_cast this
      have : (l : ℤ) - ((l + (N - j)) % N : ℕ) - j = N * (((l + (N - j)) / N : ℕ) - 1) := by linarith
      rw [this]
      exact dvd_mul_right _ _
  · intro i hi hne
    rw [← mul_sum, orth N h, if_neg, mul_zero]
    intro hd
    apply hne
    have hi := mem_range.1 hi
    have : i ≡ l + (N - j) [MOD N] := (Nat.modEq_iff_dvd (n := N)).2 (by
      have e : ((l + (N - j) : ℕ) : ℤ) - i = ((l : ℤ) - i - j) + N := by omega
      rw [e]
      exact dvd_add hd (dvd_refl _))
    rw [Nat.ModEq, Nat.mod_eq_of_lt hi] at this
    exact this
  · intro hn
    exact absurd (mem_range.2 hlt) hn

/-- irfft of a Hermitian spectrum is the inverse transform over all frequencies -/
theorem irfftC_full (m : ℕ) (hm : m ≠ 0) (c : ℕ → ℂ) (hc : ∀ k, k ≤ m → c (2 * m - k) = (starRingEnd ℂ) (c k)) (h0 : (c 0).im = 0) (l : ℕ) :
    (irfftC m c l : ℂ) * (2 * m : ℕ) = ∑ k ∈ range (2 * m), c k * (zeta (2 * m) ^ l) ^ k := by
  have hN : 2 * m ≠ 0 := by omega
  have hrefl : ∑ k ∈ Ico (m + 1) (2 * m), c k * (zeta (2 * m) ^ l) ^ k = ∑ k ∈ Ico 1 m, (starRingEnd ℂ) (c k * zeta (2 * m) ^ (k * l)) := by
    have := sum_Ico_reflect (fun k => c k * (zeta (2 * m) ^ l) ^ k) 1 (show m ≤ 2 * m + 1 by omega)
    rw [show 2 * m + 1 - m = m + 1 by omega, show 2 * m + 1 - 1 = 2 * m by omega] at this
    rw [← this]
    refine sum_congr rfl (fun k hk => ?_)
    obtain ⟨h1, h2⟩ := mem_Ico.1 hk
    rw [hc k h2.le, map_mul, map_pow, conj_zeta, inv_pow]
    congr 1
    refine eq_inv_of_mul_eq_one_left ?_
    rw [← pow_mul, ← pow_add, mul_comm k l, ← Nat.mul_add, Nat.sub_add_cancel (by omega), mul_comm l (2 * m), pow_mul, (zeta_prim _ hN).pow_eq_one, one_pow]
  rw [← Finset.sum_range_add_sum_Ico _ (show m + 1 ≤ 2 * m by omega), hrefl, sum_range_succ, range_eq_Ico, Finset.sum_eq_sum_Ico_succ_bot (by omega)]
  have hmid : (zeta (2 * m) ^ l) ^ m = (-1) ^ l := by rw [← pow_mul, mul_comm l m, pow_mul, zeta_half m hm]
  rw [hmid, pow_zero, mul_one]
  have hcm : c m = ((c m).re : ℂ) := by
    have := hc m (le_refl _)
    rw [show 2 * m - m = m by omega] at this
    exact (Complex.conj_eq_iff_re.1 this.symm).symm
  have hc0 : c 0 = ((c 0).re : ℂ) := by
    apply Complex.ext <;> simp [h0]
  unfold irfftC
  have hN' : ((2 * m : ℕ) : ℂ) ≠ 0 := by exact_mod_cast hN
  rw [Complex.ofReal_div, Complex.ofReal_natCast, div_mul_cancel₀ _ hN']
  have hsum : ∑ k ∈ Ico 1 m, c k * (zeta (2 * m) ^ l) ^ k + ∑ k ∈ Ico 1 m, (starRingEnd ℂ) (c k * zeta (2 * m) ^ (k * l)) =
      2 * ((∑ k ∈ Ico 1 m, (c k * zeta (2 * m) ^ (k * l)).re : ℝ) : ℂ) := by
    rw [← sum_add_distrib, Complex.ofReal_sum, mul_sum]
    refine sum_congr rfl (fun k _ => ?_)
    rw [← pow_mul, mul_comm l k, Complex.add_conj]
    push_cast
    ring
  rw [hcm, hc0]
  push_cast
  push_cast at hsum
  linear_combination -hsum

/-- The convolution theorem as the code uses it. -/
theorem conv_fft (m : ℕ) (hm : m ≠ 0) (a b : ℕ → ℝ) (l : ℕ) :
    irfftC m (fun k => dft (2 * m) a k * dft (2 * m) b k) l = ∑ j ∈ range (2 * m), b j * a ((l + (2 * m - j)) % (2 * m)) := by
  have hN : 2 * m ≠ 0 := by omega
  have hz : ∀ x : ℕ → ℝ, (dft (2 * m) x 0).im = 0 := by
    intro x
    unfold dft
    simp
  have h := irfftC_full m hm (fun k => dft (2 * m) a k * dft (2 * m) b k)
    (fun k hk => by
      rw [map_mul, dft_reflect _ hN a k (by omega), dft_reflect _ hN b k (by omega)])
    (by rw [Complex.mul_im, hz a, hz b]; ring) l
  rw [conv_full _ hN] at h
  have hN' : ((2 * m : ℕ) : ℂ) ≠ 0 := by exact_mod_cast hN
  rw [mul_comm] at h
  have h2 := mul_left_cancel₀ hN' h
  exact_mod_cast h2

/-! ### The kernel -/

theorem raw_pos (n : ℕ) (step sigma : ℝ) (j : ℕ) : 0 < raw n step sigma j := by
  unfold raw gauss
  split
  · exact Real.exp_pos _
  · exact add_pos (Real.exp_pos _) (Real.exp_pos _)

theorem raw_sum_pos {n : ℕ} (hn : n ≠ 0) (step sigma : ℝ) : 0 < ∑ i ∈ range n, raw n step sigma i :=
  sum_pos (fun i _ => raw_pos n step sigma i) (by simpa using hn)

/-- The weights are positive, add up to one, and are the same to both sides. -/
theorem kern_spec {n : ℕ} (hn : n ≠ 0) (step sigma : ℝ) :
    (∀ j, 0 < kern n step sigma j) ∧ ∑ j ∈ range n, kern n step sigma j = 1 ∧ (∀ j, 0 < j → j < n → kern n step sigma (n - j) = kern n step sigma j) := by
  have hs := raw_sum_pos hn step sigma
  refine ⟨fun j => div_pos (raw_pos n step sigma j) hs, ?_, fun j h1 h2 => ?_⟩
  · unfold kern
    simp only [div_eq_mul_inv]
    rw [← sum_mul, mul_inv_cancel₀ hs.ne']
  · unfold kern raw
    rw [if_neg (by omega), if_neg (by omega), show n - (n - j) = j by omega, add_comm]

/-- C126. A smoothed histogram is the histogram averaged with weights that are positive, the same to both sides and add up to one; nothing is cut off. (Bins are counted in a circle, see `wraps_fails`.) -/
theorem smooth_spec {sigma lo hi : ℝ} (hs : 0 < sigma) (hlh : lo < hi) (values : List ℝ) (i : ℕ) :
    let n := nbins (hi - lo) sigma
    smooth sigma lo hi values i = ∑ j ∈ range n, (contents n lo hi values j : ℝ) * kern n ((hi - lo) / n) sigma ((i + (n - j)) % n) := by
  dsimp only
  obtain ⟨m, hm, h2, h3, -⟩ := nbins_even (show 0 < hi - lo by linarith) hs
  unfold smooth
  dsimp only
  rw [h3, h2, conv_fft m hm]
  have hk := (kern_spec (show 2 * m ≠ 0 by omega) ((hi - lo) / ((2 * m : ℕ) : ℝ)) sigma).1
  rw [if_neg]
  rw [not_lt]
  exact sum_nonneg (fun j _ => mul_nonneg (by positivity) (hk _).le)

theorem sum_shift (n : ℕ) (hn : n ≠ 0) (f : ℕ → ℝ) (j : ℕ) (hj : j < n) : ∑ i ∈ range n, f ((i + (n - j)) % n) = ∑ i ∈ range n, f i := by
  refine sum_bij' (fun i _ => (i + (n - j)) % n) (fun i _ => (i + j) % n) ?_ ?_ ?_ ?_ ?_
  · intro i _; exact mem_range.2 (Nat.mod_lt _ (by omega))
  · intro i _; exact mem_range.2 (Nat.mod_lt _ (by omega))
  · intro i hi
    have hi := mem_range.1 hi
    rw [Nat.mod_add_mod, show i + (n - j) + j = i + n by omega, Nat.add_mod_right, Nat.mod_eq_of_lt hi]
  · intro i hi
    have hi := mem_range.1 hi
    rw [Nat.mod_add_mod, show i + j + (n - j) = i + n by omega, Nat.add_mod_right, Nat.mod_eq_of_lt hi]
  · intro i _; rfl

theorem mod_involutive (n i j : ℕ) (hj : j < n) : (i + (n - (i + (n - j)) % n)) % n = j := by
  have hlt : (i + (n - j)) % n < n := Nat.mod_lt _ (by omega)
  have e := Nat.div_add_mod (i + (n - j)) n
  have h : i + (n - (i + (n - j)) % n) + n * 0 = j + n * ((i + (n - j)) / n) := by omega
  rw [Nat.mul_zero, Nat.add_zero] at h
  rw [h, Nat.add_mul_mod_self_left, Nat.mod_eq_of_lt hj]

/-! ### Totals -/

theorem bin_one {n : ℕ} (hn : n ≠ 0) {lo hi : ℝ} (hlh : lo < hi) (v : ℝ) (h1 : lo ≤ v) (h2 : v ≤ hi) :
    ∑ i ∈ range n, (if lo + i * ((hi - lo) / n) ≤ v ∧ (v < lo + (i + 1) * ((hi - lo) / n) ∨ (i + 1 = n ∧ v = hi)) then 1 else 0) = 1 := by
  have hn' : (0 : ℝ) < n := by exact_mod_cast Nat.pos_of_ne_zero hn
  have hst : 0 < (hi - lo) / n := div_pos (by linarith) hn'
  have hfull : (n : ℝ) * ((hi - lo) / n) = hi - lo := by field_simp
  by_cases hv : v = hi
  · rw [sum_eq_single (n - 1)]
    · rw [if_pos]
      refine ⟨?_, .inr ⟨by omega, hv⟩⟩
      have : ((n - 1 : ℕ) : ℝ) ≤ n := by exact_mod_cast Nat.sub_le n 1
      nlinarith
    · intro i hi' hne
      have hi' := mem_range.1 hi'
      rw [if_neg]
      rintro ⟨-, h | h⟩
      · have : ((i : ℝ) + 1) ≤ n := by exact_mod_cast hi'
        nlinarith
      · omega
    · intro h; exact absurd (mem_range.2 (by omega)) h
  · have hq0 : 0 ≤ (v - lo) / ((hi - lo) / n) := div_nonneg (by linarith) hst.le
    have hkey : ∀ i : ℕ, (lo + i * ((hi - lo) / n) ≤ v ∧ (v < lo + (i + 1) * ((hi - lo) / n) ∨ (i + 1 = n ∧ v = hi))) ↔ i = ⌊(v - lo) / ((hi - lo) / n)⌋₊ := by
      intro i
      constructor
      · rintro ⟨ha, hb | hb⟩
        · symm
          rw [Nat.floor_eq_iff hq0]
          constructor
          · rw [le_div_iff₀ hst]; linarith
          · rw [div_lt_iff₀ hst]; linarith
        · exact absurd hb.2 hv
      · intro he
        have := (Nat.floor_eq_iff hq0).1 he.symm
        rw [le_div_iff₀ hst, div_lt_iff₀ hst] at this
        exact ⟨by linarith [this.1], .inl (by linarith [this.2])⟩
    have hlt : ⌊(v - lo) / ((hi - lo) / n)⌋₊ < n := by
      rw [Nat.floor_lt hq0, div_lt_iff₀ hst, hfull]
      have := lt_of_le_of_ne h2 hv
      linarith
    rw [sum_eq_single ⌊(v - lo) / ((hi - lo) / n)⌋₊]
    · rw [if_pos ((hkey _).2 rfl)]
    · intro i _ hne
      rw [if_neg (fun h => hne ((hkey i).1 h))]
    · intro h; exact absurd (mem_range.2 hlt) h

theorem bin_none {n : ℕ} (hn : n ≠ 0) {lo hi : ℝ} (hlh : lo < hi) (v : ℝ) (h : ¬ (lo ≤ v ∧ v ≤ hi)) (i : ℕ) (hi' : i < n) :
    ¬ (lo + i * ((hi - lo) / n) ≤ v ∧ (v < lo + (i + 1) * ((hi - lo) / n) ∨ (i + 1 = n ∧ v = hi))) := by
  have hn' : (0 : ℝ) < n := by exact_mod_cast Nat.pos_of_ne_zero hn
  have hst : 0 < (hi - lo) / n := div_pos (by linarith) hn'
  have hfull : (n : ℝ) * ((hi - lo) / n) = hi - lo := by field_simp
  rintro ⟨ha, hb⟩
  apply h
  have hi0 : (0 : ℝ) ≤ i := by positivity
  refine ⟨by nlinarith, ?_⟩
  rcases hb with hb | hb
  · have : ((i : ℝ) + 1) ≤ n := by exact_mod_cast hi'
    nlinarith
  · exact hb.2.le

/-- Every value within the limits (both included) is counted once, the others not at all. -/
theorem contents_total {n : ℕ} (hn : n ≠ 0) {lo hi : ℝ} (hlh : lo < hi) (values : List ℝ) :
    ∑ i ∈ range n, contents n lo hi values i = values.countP (fun v => decide (lo ≤ v ∧ v ≤ hi)) := by
  induction values with
  | nil => simp [contents]
  | cons v vs ih =>
    have e : ∀ i ∈ range n, contents n lo hi (v :: vs) i = contents n lo hi vs i +
        (if lo + i * ((hi - lo) / n) ≤ v ∧ (v < lo + (i + 1) * ((hi - lo) / n) ∨ (i + 1 = n ∧ v = hi)) then 1 else 0) := by
      intro i _
      unfold contents
      rw [List.countP_cons]
      simp only [decide_eq_true_eq]
    rw [sum_congr rfl e, sum_add_distrib, ih, List.countP_cons]
    congr 1
    simp only [decide_eq_true_eq]
    by_cases hv : lo ≤ v ∧ v ≤ hi
    · rw [if_pos hv, bin_one hn hlh v hv.1 hv.2]
    · rw [if_neg hv]
      exact sum_eq_zero (fun i hi' => if_neg (bin_none hn hlh v hv i (mem_range.1 hi')))

/-- C126. Smoothing keeps the number of values: the bins add up to the number of values within the limits. -/
theorem smooth_total {sigma lo hi : ℝ} (hs : 0 < sigma) (hlh : lo < hi) (values : List ℝ) :
    ∑ i ∈ range (nbins (hi - lo) sigma), smooth sigma lo hi values i = (values.countP (fun v => decide (lo ≤ v ∧ v ≤ hi)) : ℝ) := by
  obtain ⟨m, hm, h2, -, -⟩ := nbins_even (show 0 < hi - lo by linarith) hs
  have hn : nbins (hi - lo) sigma ≠ 0 := by omega
  rw [sum_congr rfl (fun i _ => smooth_spec hs hlh values i)]
  rw [sum_comm, ← contents_total hn hlh values, Nat.cast_sum]
  refine sum_congr rfl (fun j hj => ?_)
  rw [← mul_sum, sum_shift _ hn _ j (mem_range.1 hj), (kern_spec hn _ _).2.1, mul_one]

/-- C126. A flat histogram stays flat, and no smoothed bin exceeds the highest one or falls below the lowest one. -/
theorem smooth_bounds {sigma lo hi : ℝ} (hs : 0 < sigma) (hlh : lo < hi) (values : List ℝ) (i : ℕ) (a b : ℝ)
    (h : ∀ j, j < nbins (hi - lo) sigma → a ≤ contents (nbins (hi - lo) sigma) lo hi values j ∧ contents (nbins (hi - lo) sigma) lo hi values j ≤ b) :
    a ≤ smooth sigma lo hi values i ∧ smooth sigma lo hi values i ≤ b := by
  obtain ⟨m, hm, h2, -, -⟩ := nbins_even (show 0 < hi - lo by linarith) hs
  have hn : nbins (hi - lo) sigma ≠ 0 := by omega
  rw [smooth_spec hs hlh values i]
  obtain ⟨k1, k2, k3⟩ := kern_spec hn ((hi - lo) / (nbins (hi - lo) sigma : ℝ)) sigma
  have hsum : ∑ j ∈ range (nbins (hi - lo) sigma), kern (nbins (hi - lo) sigma) ((hi - lo) / (nbins (hi - lo) sigma : ℝ)) sigma ((i + (nbins (hi - lo) sigma - j)) % nbins (hi - lo) sigma) = 1 := by
    rw [← k2]
    generalize nbins (hi - lo) sigma = n at hn
    refine sum_bij' (fun j _ => (i + (n - j)) % n) (fun j _ => (i + (n - j)) % n) ?_ ?_ ?_ ?_ ?_
    · intro j _; exact mem_range.2 (Nat.mod_lt _ (by omega))
    · intro j _; exact mem_range.2 (Nat.mod_lt _ (by omega))
    · intro j hj
      exact mod_involutive n i j (mem_range.1 hj)
    · intro j hj
      exact mod_involutive n i j (mem_range.1 hj)
    · intro j _; rfl
  constructor
  · calc a = ∑ j ∈ range (nbins (hi - lo) sigma), a * kern (nbins (hi - lo) sigma) ((hi - lo) / (nbins (hi - lo) sigma : ℝ)) sigma ((i + (nbins (hi - lo) sigma - j)) % nbins (hi - lo) sigma) := by
          rw [← mul_sum, hsum, mul_one]
      _ ≤ _ := sum_le_sum (fun j hj => mul_le_mul_of_nonneg_right (h j (mem_range.1 hj)).1 (k1 _).le)
  · calc _ ≤ ∑ j ∈ range (nbins (hi - lo) sigma), b * kern (nbins (hi - lo) sigma) ((hi - lo) / (nbins (hi - lo) sigma : ℝ)) sigma ((i + (nbins (hi - lo) sigma - j)) % nbins (hi - lo) sigma) :=
          sum_le_sum (fun j hj => mul_le_mul_of_nonneg_right (h j (mem_range.1 hj)).2 (k1 _).le)
      _ = b := by rw [← mul_sum, hsum, mul_one]

example : nbins 1000 (1 / 2) = 8192 := by
  unfold nbins
  have : ⌊(1000 : ℝ) / (4 / 10 * (1 / 2)) + 1 / 2⌋₊ = 5000 := by
    rw [Nat.floor_eq_iff (by norm_num)]
    norm_num
  rw [this]
  decide +kernel

example : ∑ i ∈ range (nbins (1000 - 0) (1 / 2)), smooth (1 / 2) 0 1000 [10, 20, 2000, -1] i = 2 := by
  rw [smooth_total (by norm_num) (by norm_num)]
  norm_num [List.countP_cons]

/-! ### Wrapping around -/

theorem contents_top {n : ℕ} (hn : n ≠ 0) {lo hi : ℝ} (hlh : lo < hi) (j : ℕ) (hj : j < n) : contents n lo hi [hi] j = if j + 1 = n then 1 else 0 := by
  have hn' : (0 : ℝ) < n := by exact_mod_cast Nat.pos_of_ne_zero hn
  have hst : 0 < (hi - lo) / n := div_pos (by linarith) hn'
  have hfull : (n : ℝ) * ((hi - lo) / n) = hi - lo := by field_simp
  have hjn : ((j : ℝ) + 1) ≤ n := by exact_mod_cast hj
  unfold contents
  rw [List.countP_singleton]
  have : (lo + j * ((hi - lo) / n) ≤ hi ∧ (hi < lo + (j + 1) * ((hi - lo) / n) ∨ (j + 1 = n ∧ hi = hi))) ↔ j + 1 = n := by
    constructor
    · rintro ⟨-, h | h⟩
      · nlinarith
      · exact h.1
    · intro h
      exact ⟨by nlinarith, .inr ⟨h, rfl⟩⟩
  by_cases hc : j + 1 = n
  · rw [if_pos hc, if_pos (decide_eq_true (this.2 hc))]
  · rw [if_neg hc, if_neg (by simpa only [decide_eq_true_eq] using fun h => hc (this.1 h))]

/-- C126. Disagreement (C126): the smoothing joins both ends of the histogram: a value at the upper limit counts in the lowest bin exactly as much as in the last bin but one. -/
theorem wraps_fails {sigma lo hi : ℝ} (hs : 0 < sigma) (hlh : lo < hi) :
    smooth sigma lo hi [hi] 0 = smooth sigma lo hi [hi] (nbins (hi - lo) sigma - 2) ∧ 0 < smooth sigma lo hi [hi] 0 := by
  obtain ⟨m, hm, h2, -, h4⟩ := nbins_even (show 0 < hi - lo by linarith) hs
  have hn : nbins (hi - lo) sigma ≠ 0 := by omega
  have key : ∀ i, smooth sigma lo hi [hi] i = kern (nbins (hi - lo) sigma) ((hi - lo) / (nbins (hi - lo) sigma : ℝ)) sigma ((i + 1) % nbins (hi - lo) sigma) := by
    intro i
    rw [smooth_spec hs hlh]
    rw [sum_eq_single (nbins (hi - lo) sigma - 1)]
    · rw [contents_top hn hlh _ (by omega), if_pos (by omega), show nbins (hi - lo) sigma - (nbins (hi - lo) sigma - 1) = 1 by omega]
      simp
    · intro j hj hne
      have hj := mem_range.1 hj
      rw [contents_top hn hlh _ hj, if_neg (by omega)]
      simp
    · intro h; exact absurd (mem_range.2 (by omega)) h
  obtain ⟨k1, -, k3⟩ := kern_spec hn ((hi - lo) / (nbins (hi - lo) sigma : ℝ)) sigma
  rw [key, key]
  refine ⟨?_, k1 _⟩
  rw [Nat.mod_eq_of_lt (by omega), Nat.mod_eq_of_lt (by omega), show nbins (hi - lo) sigma - 2 + 1 = nbins (hi - lo) sigma - (0 + 1) by omega]
  exact (k3 (0 + 1) (by omega) (by omega)).symm

/-! ### The drift correction -/

/-- the entropy of a histogram of values as the code measures it, minus the sum of h log h over the bins that are not empty [specification] -/
noncomputable def measured (limit : ℝ) (values : List ℝ) : ℝ :=
  Neg.neg (∑ i ∈ range (nbins (limit - 0) (1 / 2)), if 0 < smooth (1 / 2) 0 limit values i then Real.log (smooth (1 / 2) 0 limit values i) * smooth (1 / 2) 0 limit values i else 0)

/-- C126. The measured entropy of the corrected heights is no larger than that of the uncorrected ones, if the minimizer's answer is no worse than its first starting point. -/
theorem drift_entropy (med pct99 : List ℝ → ℝ) (brent : (ℝ → ℝ) → ℝ) (hB : ∀ f : ℝ → ℝ, f (brent f) ≤ f 0) (limit : ℝ) (pulses : List (ℝ × ℝ)) :
    let r := driftCorrect med pct99 brent (some limit) pulses
    r.2 = med (pulses.map Prod.fst) ∧ measured limit (pulses.map (fun p => p.2 * (1 + (p.1 - r.2) * r.1))) ≤ measured limit (pulses.map Prod.snd) := by
  dsimp only
  refine ⟨rfl, ?_⟩
  have h := hB (entropy limit (pulses.map (fun p => (p.1 - med (pulses.map Prod.fst), p.2))))
  have e : ∀ q, entropy limit (pulses.map (fun p => (p.1 - med (pulses.map Prod.fst), p.2))) q = measured limit (pulses.map (fun p => p.2 * (1 + (p.1 - med (pulses.map Prod.fst)) * q))) := by
    intro q
    unfold entropy measured
    rw [List.map_map]
    rfl
  rw [e, e] at h
  have e0 : pulses.map (fun p => p.2 * (1 + (p.1 - med (pulses.map Prod.fst)) * 0)) = pulses.map Prod.snd := by
    apply List.map_congr_left
    intro p _
    ring
  rw [e0] at h
  exact h

/-- C126. Without a limit the entropy is measured up to 5/4 of the 99 % point. -/
theorem drift_default (med pct99 : List ℝ → ℝ) (brent : (ℝ → ℝ) → ℝ) (pulses : List (ℝ × ℝ)) :
    driftCorrect med pct99 brent none pulses = driftCorrect med pct99 brent (some (5 / 4 * pct99 (pulses.map Prod.snd))) pulses := rfl

theorem contents_perm (n : ℕ) (lo hi : ℝ) {a b : List ℝ} (h : a.Perm b) : contents n lo hi a = contents n lo hi b := by
  funext i
  exact h.countP_eq _

theorem smooth_perm (sigma lo hi : ℝ) {a b : List ℝ} (h : a.Perm b) : smooth sigma lo hi a = smooth sigma lo hi b := by
  funext i
  unfold smooth
  dsimp only
  rw [contents_perm _ lo hi h]

/-- C126. The correction does not depend on the order of the pulses. -/
theorem drift_perm (med pct99 : List ℝ → ℝ) (hm : ∀ a b : List ℝ, a.Perm b → med a = med b) (hp : ∀ a b : List ℝ, a.Perm b → pct99 a = pct99 b) (brent : (ℝ → ℝ) → ℝ) (limit : Option ℝ)
    {a b : List (ℝ × ℝ)} (h : a.Perm b) : driftCorrect med pct99 brent limit a = driftCorrect med pct99 brent limit b := by
  unfold driftCorrect
  dsimp only
  have e1 := hm _ _ (h.map Prod.fst)
  have e2 := hp _ _ (h.map Prod.snd)
  have e3 : ∀ l, entropy l (a.map (fun p => (p.1 - med (b.map Prod.fst), p.2))) = entropy l (b.map (fun p => (p.1 - med (b.map Prod.fst), p.2))) := by
    intro l
    funext q
    unfold entropy
    rw [smooth_perm _ _ _ ((h.map (fun p : ℝ × ℝ => (p.1 - med (b.map Prod.fst), p.2))).map (fun p : ℝ × ℝ => p.2 * (1 + p.1 * q)))]
  rw [e1, e2, e3]

/-- C126. Shifting the indicator of all pulses by a constant changes nothing but the median kept: the corrected heights are the same. -/
theorem drift_shift (med pct99 : List ℝ → ℝ) (hm : ∀ (l : List ℝ) (c : ℝ), med (l.map (· + c)) = med l + c) (brent : (ℝ → ℝ) → ℝ) (limit : Option ℝ) (pulses : List (ℝ × ℝ)) (c : ℝ) :
    let r := driftCorrect med pct99 brent limit pulses
    driftCorrect med pct99 brent limit (pulses.map (fun p => (p.1 + c, p.2))) = (r.1, r.2 + c) := by
  dsimp only
  unfold driftCorrect
  dsimp only
  have e1 : (pulses.map (fun p => (p.1 + c, p.2))).map Prod.fst = (pulses.map Prod.fst).map (· + c) := by rw [List.map_map, List.map_map]; rfl
  have e2 : (pulses.map (fun p => (p.1 + c, p.2))).map Prod.snd = pulses.map Prod.snd := by rw [List.map_map]; rfl
  have e3 : (pulses.map (fun p => (p.1 + c, p.2))).map (fun p => (p.1 - (med (pulses.map Prod.fst) + c), p.2)) = pulses.map (fun p => (p.1 - med (pulses.map Prod.fst), p.2)) := by
    rw [List.map_map]
    apply List.map_congr_left
    intro p _
    simp only [Function.comp]
    congr 1
    ring
  rw [e1, e2, hm, e3]

/-! ### Throwing pulses out -/

theorem gauss_anti {step sigma : ℝ} {i j : ℕ} (h : i ≤ j) : gauss step sigma j ≤ gauss step sigma i := by
  unfold gauss
  apply Real.exp_le_exp.2
  have h1 : ((i : ℝ)) ≤ j := by exact_mod_cast h
  have h0 : (0 : ℝ) ≤ i := by positivity
  have e : ∀ k : ℕ, ((k : ℝ) * step / sigma) ^ 2 = (k : ℝ) ^ 2 * (step / sigma) ^ 2 := fun k => by ring
  rw [e, e]
  have : (i : ℝ) ^ 2 ≤ (j : ℝ) ^ 2 := by nlinarith
  have h2 : 0 ≤ (step / sigma) ^ 2 := sq_nonneg _
  nlinarith

theorem gauss_one {step sigma : ℝ} (hs : 0 < sigma) (h0 : 0 ≤ step) (h : step ≤ sigma / 2) : 1 / 2 ≤ gauss step sigma 1 := by
  unfold gauss
  have h1 : step / sigma ≤ 1 / 2 := by rw [div_le_iff₀ hs]; linarith
  have h2 : 0 ≤ step / sigma := div_nonneg h0 hs.le
  have h3 := Real.add_one_le_exp (-(1 / 2) * (((1 : ℕ) : ℝ) * step / sigma) ^ 2)
  have h4 : (((1 : ℕ) : ℝ) * step / sigma) ^ 2 ≤ 1 / 4 := by
    have e : ((1 : ℕ) : ℝ) * step / sigma = step / sigma := by simp
    rw [e]
    nlinarith
  linarith

/-- no weight is more than half of the total -/
theorem kern_half {n : ℕ} (hn : 4 ≤ n) {step sigma : ℝ} (hs : 0 < sigma) (h0 : 0 ≤ step) (h : step ≤ sigma / 2) (j : ℕ) (hj : j < n) : kern n step sigma j ≤ 1 / 2 := by
  have hsum := raw_sum_pos (show n ≠ 0 by omega) step sigma
  unfold kern
  rw [div_le_iff₀ hsum]
  have hle : ∀ s : Finset ℕ, s ⊆ range n → ∑ i ∈ s, raw n step sigma i ≤ ∑ i ∈ range n, raw n step sigma i :=
    fun s hss => sum_le_sum_of_subset_of_nonneg hss (fun i _ _ => (raw_pos n step sigma i).le)
  have r0 : raw n step sigma 0 = 1 := by unfold raw gauss; simp
  have r1 : gauss step sigma 1 ≤ raw n step sigma 1 := by
    unfold raw
    rw [if_neg (by omega)]
    have : 0 < gauss step sigma (n - 1) := Real.exp_pos _
    linarith
  have rn : gauss step sigma 1 ≤ raw n step sigma (n - 1) := by
    unfold raw
    rw [if_neg (by omega), show n - (n - 1) = 1 by omega]
    have : 0 < gauss step sigma (n - 1) := Real.exp_pos _
    linarith
  have g1 := gauss_one hs h0 h
  by_cases hj0 : j = 0
  · subst hj0
    have := hle {0, 1, n - 1} (by intro x hx; simp only [mem_insert, mem_singleton] at hx; rw [mem_range]; omega)
    rw [sum_insert (by simp; omega), sum_insert (by simp; omega), sum_singleton] at this
    rw [r0] at this ⊢
    linarith
  · by_cases hm : n - j = j
    · have := hle {j, 1, n - 1} (by intro x hx; simp only [mem_insert, mem_singleton] at hx; rw [mem_range]; omega)
      rw [sum_insert (by simp; omega), sum_insert (by simp; omega), sum_singleton] at this
      have hrj : raw n step sigma j = 2 * gauss step sigma j := by
        unfold raw
        rw [if_neg hj0, hm]
        ring
      have ha : gauss step sigma j ≤ gauss step sigma 1 := gauss_anti (by omega)
      linarith
    · have := hle {j, n - j} (by intro x hx; simp only [mem_insert, mem_singleton] at hx; rw [mem_range]; omega)
      rw [sum_insert (by simp; omega), sum_singleton] at this
      have hrj : raw n step sigma (n - j) = raw n step sigma j := by
        unfold raw
        rw [if_neg hj0, if_neg (by omega), show n - (n - j) = j by omega, add_comm]
      rw [hrj] at this
      linarith

theorem measured_out {limit : ℝ} (hl : 0 < limit) (values : List ℝ) (h : ∀ v ∈ values, ¬ (0 ≤ v ∧ v ≤ limit)) : measured limit values = 0 := by
  obtain ⟨m, hm, h2, -, -⟩ := nbins_even (show 0 < limit - 0 by linarith) (show (0 : ℝ) < 1 / 2 by norm_num)
  have hn : nbins (limit - 0) (1 / 2) ≠ 0 := by omega
  have hz : ∀ i, smooth (1 / 2) 0 limit values i = 0 := by
    intro i
    rw [smooth_spec (by norm_num) hl]
    refine sum_eq_zero (fun j hj => ?_)
    have : contents (nbins (limit - 0) (1 / 2)) 0 limit values j = 0 := by
      unfold contents
      rw [List.countP_eq_zero]
      intro v hv
      simp only [decide_eq_true_eq]
      exact bin_none hn hl v (h v hv) j (mem_range.1 hj)
    rw [this]
    simp
  unfold measured
  rw [sum_eq_zero, neg_zero]
  intro i _
  rw [hz, if_neg (lt_irrefl _)]

/-- Two values within the limits always have a positive measured entropy. -/
theorem measured_two {limit : ℝ} (hl : 0 < limit) (x y : ℝ) (hx : 0 ≤ x ∧ x ≤ limit) (hy : 0 ≤ y ∧ y ≤ limit) : 0 < measured limit [x, y] := by
  have hd : 0 < limit - 0 := by linarith
  have hh : (0 : ℝ) < 1 / 2 := by norm_num
  obtain ⟨⟨k, hk⟩, -, hstep⟩ := nbins_spec hd hh
  have hbig : 1024 ≤ nbins (limit - 0) (1 / 2) := by
    rw [hk]
    exact Nat.le_mul_of_pos_right _ (by positivity)
  have hn : nbins (limit - 0) (1 / 2) ≠ 0 := by omega
  have hstep0 : 0 ≤ (limit - 0) / (nbins (limit - 0) (1 / 2) : ℝ) := by positivity
  have htot := smooth_total hh hl [x, y]
  have hcount : ([x, y].countP (fun v => decide (0 ≤ v ∧ v ≤ limit))) = 2 := by
    rw [List.countP_eq_length.2]
    · rfl
    · intro v hv
      simp only [List.mem_cons, List.not_mem_nil, or_false] at hv
      simp only [decide_eq_true_eq]
      rcases hv with rfl | rfl
      · exact hx
      · exact hy
  have hctot := contents_total hn hl [x, y]
  rw [hcount] at htot hctot
  have hpos : ∀ i, 0 < smooth (1 / 2) 0 limit [x, y] i := by
    intro i
    rw [smooth_spec hh hl]
    obtain ⟨k1, -, -⟩ := kern_spec hn ((limit - 0) / (nbins (limit - 0) (1 / 2) : ℝ)) (1 / 2)
    have hex : ∃ j ∈ range (nbins (limit - 0) (1 / 2)), contents (nbins (limit - 0) (1 / 2)) 0 limit [x, y] j ≠ 0 := by
      by_contra hc
      push Not at hc
      rw [sum_eq_zero hc] at hctot
      omega
    obtain ⟨j, hj, hne⟩ := hex
    refine sum_pos' (fun j _ => mul_nonneg (by positivity) (k1 _).le) ⟨j, hj, mul_pos ?_ (k1 _)⟩
    exact_mod_cast Nat.pos_of_ne_zero hne
  have hle : ∀ i, smooth (1 / 2) 0 limit [x, y] i ≤ 1 := by
    intro i
    rw [smooth_spec hh hl]
    calc _ ≤ ∑ j ∈ range (nbins (limit - 0) (1 / 2)), (contents (nbins (limit - 0) (1 / 2)) 0 limit [x, y] j : ℝ) * (1 / 2) := by
            refine sum_le_sum (fun j _ => mul_le_mul_of_nonneg_left ?_ (by positivity))
            exact kern_half (by omega) hh hstep0 hstep _ (Nat.mod_lt _ (by omega))
      _ = 1 := by rw [← sum_mul, ← Nat.cast_sum, hctot]; norm_num
  have hterm : ∀ i, (if 0 < smooth (1 / 2) 0 limit [x, y] i then Real.log (smooth (1 / 2) 0 limit [x, y] i) * smooth (1 / 2) 0 limit [x, y] i else 0) =
      Real.log (smooth (1 / 2) 0 limit [x, y] i) * smooth (1 / 2) 0 limit [x, y] i := fun i => if_pos (hpos i)
  unfold measured
  rw [sum_congr rfl (fun i _ => hterm i), ← sum_neg_distrib]
  have hnn : ∀ i ∈ range (nbins (limit - 0) (1 / 2)), 0 ≤ -(Real.log (smooth (1 / 2) 0 limit [x, y] i) * smooth (1 / 2) 0 limit [x, y] i) := by
    intro i _
    have := Real.log_nonpos (hpos i).le (hle i)
    have := hpos i
    nlinarith
  refine sum_pos' hnn ?_
  by_contra hc
  push Not at hc
  have hone : ∀ i ∈ range (nbins (limit - 0) (1 / 2)), (1 : ℝ) ≤ smooth (1 / 2) 0 limit [x, y] i := by
    intro i hi
    by_contra hlt
    have hlt := not_le.1 hlt
    have hlog := Real.log_neg (hpos i) hlt
    have := hc i hi
    have := hpos i
    nlinarith
  have hs := sum_le_sum hone
  rw [htot] at hs
  simp only [sum_const, card_range, nsmul_eq_mul, mul_one] at hs
  have : (1024 : ℝ) ≤ (nbins (limit - 0) (1 / 2) : ℝ) := by exact_mod_cast hbig
  have h2 : ((2 : ℕ) : ℝ) = 2 := by norm_num
  rw [h2] at hs
  linarith

/-- C126. Disagreement (C126): the entropy is measured only of the pulses that stay within the limits and is not divided by their number, so the correction with the least entropy may be one that
throws the pulses out: for two pulses within the limits there is a slope with no corrected height within them and with less entropy than without a correction. -/
theorem thrown_out_fails {limit d x y : ℝ} (hd : 0 < d) (hx : 0 < x ∧ x ≤ limit) (hy : 0 < y ∧ y ≤ limit) :
    ∃ q, entropy limit [(-d, x), (d, y)] q < entropy limit [(-d, x), (d, y)] 0 ∧ ¬ (0 ≤ x * (1 + -d * q) ∧ x * (1 + -d * q) ≤ limit) ∧ ¬ (0 ≤ y * (1 + d * q) ∧ y * (1 + d * q) ≤ limit) := by
  have hl : 0 < limit := lt_of_lt_of_le hx.1 hx.2
  have e : ∀ q, entropy limit [(-d, x), (d, y)] q = measured limit [x * (1 + -d * q), y * (1 + d * q)] := fun q => rfl
  have hdq : d * ((1 + limit / y) / d) = 1 + limit / y := by field_simp
  have hly : 0 < limit / y := div_pos hl hy.1
  have o1 : ¬ (0 ≤ x * (1 + -d * ((1 + limit / y) / d)) ∧ x * (1 + -d * ((1 + limit / y) / d)) ≤ limit) := by
    rintro ⟨h, -⟩
    rw [neg_mul, hdq] at h
    have : x * (1 + -(1 + limit / y)) = -(x * (limit / y)) := by ring
    rw [this] at h
    have := mul_pos hx.1 hly
    linarith
  have o2 : ¬ (0 ≤ y * (1 + d * ((1 + limit / y) / d)) ∧ y * (1 + d * ((1 + limit / y) / d)) ≤ limit) := by
    rintro ⟨-, h⟩
    rw [hdq] at h
    have : y * (1 + (1 + limit / y)) = 2 * y + limit := by
      have hne := hy.1.ne'
      field_simp
      ring
    rw [this] at h
    linarith [hy.1]
  refine ⟨(1 + limit / y) / d, ?_, o1, o2⟩
  rw [e, e]
  rw [measured_out hl]
  · simp only [mul_zero, add_zero, mul_one]
    exact measured_two hl x y ⟨hx.1.le, hx.2⟩ ⟨hy.1.le, hy.2⟩
  · intro v hv
    simp only [List.mem_cons, List.not_mem_nil, or_false] at hv
    rcases hv with rfl | rfl
    · exact o1
    · exact o2

end Mass.Stat.Smoother
