import Verif.Calc.Gpr
import Mathlib.Analysis.Calculus.ContDiff.Deriv
import Mathlib.Data.Real.StarOrdered
import Mathlib.MeasureTheory.Integral.IntervalIntegral.IntegrationByParts
/-! C99, C100: when Gaussian process regression works, and in which sense its curve is smooth (mass/mathstat/interpolate.py, class GPRSpline). -/
namespace Mass.Calc.Gpr
open Mass Mass.Calc Matrix

variable {n : Nat} {sf : ℝ} {x err : Fin n → ℝ} {L : Matrix (Fin n) (Fin n) ℝ}

/-! ### Covariances -/

/-- Covariance of the errors of the predictions Σ v_i y_i of f(s) and Σ w_i y_i of f(t), for the random functions of `predVar` [specification] -/
noncomputable def predCov (lo hi sf : ℝ) (x err : Fin n → ℝ) (s : ℝ) (v : Fin n → ℝ) (t : ℝ) (w : Fin n → ℝ) : ℝ :=
  sf ^ 2 * (∫ u in lo..hi, (pos (s - u) - ∑ i, v i * pos (x i - u)) * (pos (t - u) - ∑ i, w i * pos (x i - u))) + ∑ i, v i * w i * err i ^ 2

/-- a kernel applied to the errors of two predictions -/
noncomputable def form2 (k : ℝ → ℝ → ℝ) (x : Fin n → ℝ) (s : ℝ) (v : Fin n → ℝ) (t : ℝ) (w : Fin n → ℝ) : ℝ :=
  k s t - ∑ i, w i * k s (x i) - ∑ i, v i * k (x i) t + ∑ i, ∑ j, v i * w j * k (x i) (x j)

theorem form2_lines (k k' : ℝ → ℝ → ℝ) (p q : ℝ → ℝ) (h : ∀ s t, k s t = k' s t + p s + p t + s * q t + t * q s) (s t : ℝ) (v w : Fin n → ℝ) (hv : Unbiased x s v) (hw : Unbiased x t w) :
    form2 k x s v t w = form2 k' x s v t w := by
  obtain ⟨h1, h2⟩ := unb_sum t w hw
  obtain ⟨h3, h4⟩ := unb_sum s v hv
  unfold form2
  have e1 : ∑ i, w i * k s (x i) = ∑ i, w i * k' s (x i) + p s * ∑ i, w i + ∑ i, w i * p (x i) + s * ∑ i, w i * q (x i) + q s * ∑ i, w i * x i := by
    simp only [Finset.mul_sum, ← Finset.sum_add_distrib]
    exact Finset.sum_congr rfl fun i _ => by rw [h]; ring
  have e1' : ∑ i, v i * k (x i) t = ∑ i, v i * k' (x i) t + p t * ∑ i, v i + ∑ i, v i * p (x i) + t * ∑ i, v i * q (x i) + q t * ∑ i, v i * x i := by
    simp only [Finset.mul_sum, ← Finset.sum_add_distrib]
    exact Finset.sum_congr rfl fun i _ => by rw [h]; ring
  have e2 : ∀ i, ∑ j, v i * w j * k (x i) (x j) = ∑ j, v i * w j * k' (x i) (x j) + (v i * p (x i) * ∑ j, w j + v i * ∑ j, w j * p (x j) + v i * x i * ∑ j, w j * q (x j) + v i * q (x i) * ∑ j, w j * x j) := by
    intro i
    simp only [Finset.mul_sum, ← Finset.sum_add_distrib]
    exact Finset.sum_congr rfl fun j _ => by rw [h]; ring
  have e3 : ∑ i, ∑ j, v i * w j * k (x i) (x j) = ∑ i, ∑ j, v i * w j * k' (x i) (x j) + ((∑ i, v i * p (x i)) * (∑ j, w j) + (∑ i, v i) * (∑ j, w j * p (x j)) + (∑ i, v i * x i) * (∑ j, w j * q (x j)) + (∑ i, v i * q (x i)) * (∑ j, w j * x j)) := by
    rw [Finset.sum_congr rfl fun i _ => e2 i, Finset.sum_add_distrib]
    simp only [Finset.sum_add_distrib, Finset.sum_mul]
  rw [e1, e1', e3, h1, h2, h3, h4, h s t]
  ring

theorem form2_shift (l s t : ℝ) (v w : Fin n → ℝ) (hv : Unbiased x s v) (hw : Unbiased x t w) : form2 (fun s t => kSpline (s - l) (t - l)) x s v t w = form2 kSpline x s v t w := by
  rw [form2_lines kSpline (fun s t => |s - t| ^ 3 / 12) (fun s => -(s ^ 3) / 12) (fun s => s ^ 2 / 4) kSpline_abs s t v w hv hw]
  refine form2_lines _ _ (fun s => -((s - l) ^ 3) / 12 - l * ((s - l) ^ 2 / 4)) (fun s => (s - l) ^ 2 / 4) (fun s t => ?_) s t v w hv hw
  rw [kSpline_abs, show s - l - (t - l) = s - t by ring]
  ring

theorem integral_mul2 (lo hi s t : ℝ) (v w : Fin n → ℝ) (hs : lo ≤ s ∧ s ≤ hi) (ht : lo ≤ t ∧ t ≤ hi) (hx : ∀ i, lo ≤ x i ∧ x i ≤ hi) :
    ∫ u in lo..hi, (pos (s - u) - ∑ i, v i * pos (x i - u)) * (pos (t - u) - ∑ i, w i * pos (x i - u)) = form2 (fun s t => kSpline (s - lo) (t - lo)) x s v t w := by
  have hI : ∀ s t : ℝ, IntervalIntegrable (fun u : ℝ => pos (s - u) * pos (t - u)) MeasureTheory.volume lo hi := fun s t => ((pos_cont s).mul (pos_cont t)).intervalIntegrable _ _
  have e : ∀ u, (pos (s - u) - ∑ i, v i * pos (x i - u)) * (pos (t - u) - ∑ i, w i * pos (x i - u)) =
      pos (s - u) * pos (t - u) - ∑ i, w i * (pos (s - u) * pos (x i - u)) - ∑ i, v i * (pos (x i - u) * pos (t - u)) + ∑ i, ∑ j, v i * w j * (pos (x i - u) * pos (x j - u)) := by
    intro u
    have e1 : ∑ i, w i * (pos (s - u) * pos (x i - u)) = pos (s - u) * ∑ i, w i * pos (x i - u) := by
      rw [Finset.mul_sum]
      exact Finset.sum_congr rfl fun i _ => by ring
    have e1' : ∑ i, v i * (pos (x i - u) * pos (t - u)) = pos (t - u) * ∑ i, v i * pos (x i - u) := by
      rw [Finset.mul_sum]
      exact Finset.sum_congr rfl fun i _ => by ring
    have e2 : ∑ i, ∑ j, v i * w j * (pos (x i - u) * pos (x j - u)) = (∑ i, v i * pos (x i - u)) * ∑ j, w j * pos (x j - u) := by
      rw [Finset.sum_mul_sum]
      exact Finset.sum_congr rfl fun i _ => Finset.sum_congr rfl fun j _ => by ring
    rw [e1, e1', e2]
    ring
  simp only [e]
  have hI1 : ∀ i, IntervalIntegrable (fun u : ℝ => w i * (pos (s - u) * pos (x i - u))) MeasureTheory.volume lo hi := fun i => (hI s (x i)).const_mul _
  have hI1' : ∀ i, IntervalIntegrable (fun u : ℝ => v i * (pos (x i - u) * pos (t - u))) MeasureTheory.volume lo hi := fun i => (hI (x i) t).const_mul _
  have hI2 : ∀ i j, IntervalIntegrable (fun u : ℝ => v i * w j * (pos (x i - u) * pos (x j - u))) MeasureTheory.volume lo hi := fun i j => (hI (x i) (x j)).const_mul _
  have hS1 : IntervalIntegrable (fun u : ℝ => ∑ i, w i * (pos (s - u) * pos (x i - u))) MeasureTheory.volume lo hi :=
    (continuous_finsetSum _ fun i _ => continuous_const.mul ((pos_cont s).mul (pos_cont (x i)))).intervalIntegrable _ _
  have hS1' : IntervalIntegrable (fun u : ℝ => ∑ i, v i * (pos (x i - u) * pos (t - u))) MeasureTheory.volume lo hi :=
    (continuous_finsetSum _ fun i _ => continuous_const.mul ((pos_cont (x i)).mul (pos_cont t))).intervalIntegrable _ _
  have hS2 : ∀ i, IntervalIntegrable (fun u : ℝ => ∑ j, v i * w j * (pos (x i - u) * pos (x j - u))) MeasureTheory.volume lo hi := fun i =>
    (continuous_finsetSum _ fun j _ => continuous_const.mul ((pos_cont (x i)).mul (pos_cont (x j)))).intervalIntegrable _ _
  have hS3 : IntervalIntegrable (fun u : ℝ => ∑ i, ∑ j, v i * w j * (pos (x i - u) * pos (x j - u))) MeasureTheory.volume lo hi :=
    (continuous_finsetSum _ fun i _ => continuous_finsetSum _ fun j _ => continuous_const.mul ((pos_cont (x i)).mul (pos_cont (x j)))).intervalIntegrable _ _
  rw [intervalIntegral.integral_add (((hI s t).sub hS1).sub hS1') hS3, intervalIntegral.integral_sub ((hI s t).sub hS1) hS1', intervalIntegral.integral_sub (hI s t) hS1,
    intervalIntegral.integral_finsetSum fun i _ => hI1 i, intervalIntegral.integral_finsetSum fun i _ => hI1' i, intervalIntegral.integral_finsetSum fun i _ => hS2 i]
  unfold form2
  dsimp only
  rw [integral_pos lo hi s t hs ht]
  have f1 : ∀ i, ∫ u in lo..hi, w i * (pos (s - u) * pos (x i - u)) = w i * kSpline (s - lo) (x i - lo) := fun i => by
    rw [intervalIntegral.integral_const_mul, integral_pos lo hi s (x i) hs (hx i)]
  have f2 : ∀ i, ∫ u in lo..hi, v i * (pos (x i - u) * pos (t - u)) = v i * kSpline (x i - lo) (t - lo) := fun i => by
    rw [intervalIntegral.integral_const_mul, integral_pos lo hi (x i) t (hx i) ht]
  have f3 : ∀ i, ∫ u in lo..hi, ∑ j, v i * w j * (pos (x i - u) * pos (x j - u)) = ∑ j, v i * w j * kSpline (x i - lo) (x j - lo) := fun i => by
    rw [intervalIntegral.integral_finsetSum fun j _ => hI2 i j]
    exact Finset.sum_congr rfl fun j _ => by rw [intervalIntegral.integral_const_mul, integral_pos lo hi (x i) (x j) (hx i) (hx j)]
  simp only [f1, f2, f3]

theorem predCov_eq (lo hi s t : ℝ) (v w : Fin n → ℝ) (hs : lo ≤ s ∧ s ≤ hi) (ht : lo ≤ t ∧ t ≤ hi) (hx : ∀ i, lo ≤ x i ∧ x i ≤ hi) (hv : Unbiased x s v) (hw : Unbiased x t w) :
    predCov lo hi sf x err s v t w = sf ^ 2 * kSpline s t - w ⬝ᵥ ktest sf x s - v ⬝ᵥ ktest sf x t + v ⬝ᵥ (Ky sf x err *ᵥ w) := by
  unfold predCov Ky
  rw [integral_mul2 lo hi s t v w hs ht hx, form2_shift lo s t v w hv hw, add_mulVec, dotProduct_add]
  unfold form2
  have e1 : w ⬝ᵥ ktest sf x s = sf ^ 2 * ∑ i, w i * kSpline s (x i) := by
    simp only [dotProduct, ktest, Finset.mul_sum]
    exact Finset.sum_congr rfl fun i _ => by ring
  have e1' : v ⬝ᵥ ktest sf x t = sf ^ 2 * ∑ i, v i * kSpline (x i) t := by
    simp only [dotProduct, ktest, Finset.mul_sum]
    exact Finset.sum_congr rfl fun i _ => by rw [kSpline_comm]; ring
  have e2 : v ⬝ᵥ (Kmat sf x *ᵥ w) = sf ^ 2 * ∑ i, ∑ j, v i * w j * kSpline (x i) (x j) := by
    simp only [dotProduct, mulVec, Finset.mul_sum, Kmat_apply]
    exact Finset.sum_congr rfl fun i _ => Finset.sum_congr rfl fun j _ => by ring
  have e3 : v ⬝ᵥ (diagonal (fun i => err i ^ 2) *ᵥ w) = ∑ i, v i * w i * err i ^ 2 := by
    unfold dotProduct
    exact Finset.sum_congr rfl fun i _ => by rw [mulVec_diagonal]; ring
  rw [e1, e1', e2, e3]
  ring

/-- C99. `covariance` of two points is the covariance of the errors of the curve there. -/
theorem gpr_covariance (h : IsChol (Ky sf x err) L) (hn : 2 ≤ n) (hx : Function.Injective x) :
    ∃ W : ℝ → Fin n → ℝ, (∀ y, curve sf x y L = .ok fun t => ∑ i, W t i * y i) ∧
      ∀ s t lo hi, (lo ≤ s ∧ s ≤ hi) → (lo ≤ t ∧ t ≤ hi) → (∀ i, lo ≤ x i ∧ x i ≤ hi) → covariance sf x L s t = predCov lo hi sf x err s (W s) t (W t) := by
  have hxx : ∃ i j, x i ≠ x j := ⟨⟨0, by omega⟩, ⟨1, by omega⟩, fun e => by simpa using hx e⟩
  refine ⟨best sf x err L, fun y => curve_eq h hn hx y, fun s t lo hi hs ht hlh => ?_⟩
  have hus := (unbiased_iff x s _).2 (best_unbiased h hxx s)
  have hut := (unbiased_iff x t _).2 (best_unbiased h hxx t)
  rw [predCov_eq lo hi s t _ _ hs ht hlh hus hut, Ky_best h]
  unfold covariance
  have e1 : (L⁻¹ *ᵥ ktest sf x s) ⬝ᵥ (L⁻¹ *ᵥ ktest sf x t) = ktest sf x s ⬝ᵥ ((Ky sf x err)⁻¹ *ᵥ ktest sf x t) := by
    rw [← inv_L h, ← mulVec_mulVec, dotProduct_mulVec (ktest sf x s), ← mulVec_transpose, transpose_nonsing_inv, transpose_transpose]
  have e2 : best sf x err L t ⬝ᵥ ktest sf x s = ktest sf x s ⬝ᵥ ((Ky sf x err)⁻¹ *ᵥ ktest sf x t) + (Hmat x *ᵥ ((Ky sf x err)⁻¹ *ᵥ ktest sf x s)) ⬝ᵥ ((Amat x L)⁻¹ *ᵥ Rvec sf x L t) := by
    rw [dotProduct_comm]
    unfold best
    rw [mulVec_add, dotProduct_add]
    congr 1
    rw [dotProduct_mulVec, ← mulVec_transpose, Kinv_symm sf x err, dotProduct_mulVec, vecMul_transpose]
  have e3 : best sf x err L s ⬝ᵥ ((Hmat x)ᵀ *ᵥ ((Amat x L)⁻¹ *ᵥ Rvec sf x L t)) = ![1, s] ⬝ᵥ ((Amat x L)⁻¹ *ᵥ Rvec sf x L t) := by
    rw [dotProduct_mulVec, vecMul_transpose, best_unbiased h hxx]
  have e4 : Rvec sf x L s ⬝ᵥ ((Amat x L)⁻¹ *ᵥ Rvec sf x L t) = ![1, s] ⬝ᵥ ((Amat x L)⁻¹ *ᵥ Rvec sf x L t) - (Hmat x *ᵥ ((Ky sf x err)⁻¹ *ᵥ ktest sf x s)) ⬝ᵥ ((Amat x L)⁻¹ *ᵥ Rvec sf x L t) := by
    rw [← sub_dotProduct, ← Rvec_eq h]
  rw [dotProduct_add, e3, e2, e1, e4]
  ring

/-! ### Cholesky factors -/

theorem chol_exists {S : Matrix (Fin n) (Fin n) ℝ} (hS : S.PosDef) : ∃ L, IsChol S L := by
  set B := LDL.lower hS with hB
  set d := LDL.diagEntries hS with hd
  have hfac : B * diagonal d * Bᵀ = S := by
    have := LDL.lower_conj_diag hS
    rwa [conjTranspose_eq_transpose_of_trivial] at this
  have hlow : ∀ i j, i < j → B i j = 0 := by
    have h1 : BlockTriangular (LDL.lowerInv hS) (OrderDual.toDual : Fin n → (Fin n)ᵒᵈ) := fun i j hij => LDL.lowerInv_triangular hS hij
    have h2 := blockTriangular_inv_of_blockTriangular h1
    exact fun i j hij => h2 hij
  have hdet : B.det ≠ 0 := by
    intro h0
    have : S.det = 0 := by rw [← hfac, det_mul, det_mul, h0, zero_mul, zero_mul]
    exact hS.det_pos.ne' this
  have hdiag : ∀ i, B i i ≠ 0 := by
    have : B.det = ∏ i, B i i := det_of_isLowerTriangular B (fun i j hij => hlow i j hij)
    rw [this] at hdet
    exact fun i => Finset.prod_ne_zero_iff.1 hdet i (Finset.mem_univ i)
  have hdpos : ∀ i, 0 < d i := by
    intro i
    have h1 := LDL.diag_eq_lowerInv_conj hS
    have h2 : (LDL.lowerInv hS * S * (LDL.lowerInv hS)ᴴ).PosDef := by
      refine hS.mul_mul_conjTranspose_same ?_
      exact vecMul_injective_of_invertible _
    rw [← h1] at h2
    exact (posDef_diagonal_iff.1 h2) i
  set e : Fin n → ℝ := fun i => SignType.sign (B i i) * Real.sqrt (d i) with he
  have hee : ∀ i, e i * e i = d i := by
    intro i
    simp only [he]
    have h1 : (SignType.sign (B i i) : ℝ) * SignType.sign (B i i) = 1 := by
      rcases lt_or_gt_of_ne (hdiag i) with h | h
      · rw [sign_neg h]; norm_num
      · rw [sign_pos h]; norm_num
    calc _ = ((SignType.sign (B i i) : ℝ) * SignType.sign (B i i)) * (Real.sqrt (d i) * Real.sqrt (d i)) := by ring
      _ = _ := by rw [h1, Real.mul_self_sqrt (hdpos i).le, one_mul]
  refine ⟨B * diagonal e, ?_, ?_, ?_⟩
  · rw [transpose_mul, diagonal_transpose, ← Matrix.mul_assoc, Matrix.mul_assoc B, diagonal_mul_diagonal, ← hfac]
    simp only [hee]
  · intro i j hij
    rw [mul_diagonal, hlow i j hij, zero_mul]
  · intro i
    rw [mul_diagonal]
    simp only [he]
    rw [← mul_assoc]
    refine mul_pos ?_ (Real.sqrt_pos.2 (hdpos i))
    rcases lt_or_gt_of_ne (hdiag i) with h | h
    · rw [sign_neg h]; simpa using h
    · rw [sign_pos h]; simpa using h

theorem form_pos (hx : ∀ i, 0 ≤ x i) (v : Fin n → ℝ) : 0 ≤ v ⬝ᵥ (Kmat sf x *ᵥ v) := by
  obtain ⟨hi, hhi⟩ := (Set.finite_range x).bddAbove
  have h1 := integral_sq (x := x) 0 (max hi 0) 0 v ⟨le_refl _, le_max_right _ _⟩ fun i => ⟨hx i, (hhi ⟨i, rfl⟩).trans (le_max_left _ _)⟩
  have h2 : 0 ≤ ∫ u in (0 : ℝ)..max hi 0, (pos (0 - u) - ∑ i, v i * pos (x i - u)) ^ 2 := intervalIntegral.integral_nonneg (le_max_right _ _) fun u _ => sq_nonneg _
  rw [h1] at h2
  unfold form at h2
  simp only [sub_zero] at h2
  have h3 : ∀ s : ℝ, 0 ≤ s → kSpline 0 s = 0 := fun s hs => by rw [kSpline_le hs]; ring
  rw [h3 0 (le_refl _), Finset.sum_eq_zero fun i _ => by rw [h3 _ (hx i), mul_zero]] at h2
  have e : v ⬝ᵥ (Kmat sf x *ᵥ v) = sf ^ 2 * ∑ i, ∑ j, v i * v j * kSpline (x i) (x j) := by
    simp only [dotProduct, mulVec, Finset.mul_sum, Kmat_apply]
    exact Finset.sum_congr rfl fun i _ => Finset.sum_congr rfl fun j _ => by ring
  rw [e]
  exact mul_nonneg (sq_nonneg _) (by linarith)

/-- C99. No abscissa negative and no error zero: the matrix has its Cholesky factor, the regression works. -/
theorem gpr_works (hx : ∀ i, 0 ≤ x i) (he : ∀ i, err i ≠ 0) : ∃ L, IsChol (Ky sf x err) L := by
  refine chol_exists (PosDef.of_dotProduct_mulVec_pos ?_ fun v hv => ?_)
  · exact (conjTranspose_eq_transpose_of_trivial _).trans (Ky_symm sf x err)
  · rw [star_trivial]
    unfold Ky
    rw [add_mulVec, dotProduct_add]
    refine add_pos_of_nonneg_of_pos (form_pos hx v) ?_
    obtain ⟨i, hi⟩ := Function.ne_iff.1 hv
    have : v ⬝ᵥ (diagonal (fun i => err i ^ 2) *ᵥ v) = ∑ i, v i ^ 2 * err i ^ 2 := by
      unfold dotProduct
      exact Finset.sum_congr rfl fun i _ => by rw [mulVec_diagonal]; ring
    rw [this]
    refine Finset.sum_pos' (fun i _ => by positivity) ⟨i, Finset.mem_univ i, ?_⟩
    have h1 : v i ≠ 0 := hi
    have h2 := he i
    positivity

/-- C99. Negative abscissas (logarithms of pulse heights below 1, say) are another matter: if sigmaf² |x|³ / 3 is at least the square of the error there, there is no Cholesky factor and the
constructor raises LinAlgError, although the smoothed curve would be well defined. -/
theorem negative_abscissa_fails (i : Fin n) (hx : x i < 0) (he : err i ^ 2 ≤ sf ^ 2 * (|x i| ^ 3 / 3)) : ¬ ∃ L, IsChol (Ky sf x err) L := by
  rintro ⟨L, h⟩
  have hv := quad_pos h (Pi.single i 1)
  have e : (Pi.single i 1 : Fin n → ℝ) ⬝ᵥ (Ky sf x err *ᵥ Pi.single i 1) = Ky sf x err i i := by
    simp
  have e2 : Ky sf x err i i = sf ^ 2 * (x i ^ 3 / 3) + err i ^ 2 := by
    unfold Ky
    rw [Matrix.add_apply, diagonal_apply_eq, Kmat_apply]
    unfold kSpline
    simp
  have e3 : Ky sf x err i i ≤ 0 := by
    rw [e2]
    rw [abs_of_neg hx] at he
    nlinarith [he]
  rw [e] at hv
  have := hv.2 (le_antisymm e3 hv.1)
  have := congrFun this i
  simp at this

/-! ### Smoothness -/

theorem pos_pow_deriv (m : Nat) (z : ℝ) : HasDerivAt (fun z : ℝ => pos z ^ (m + 2)) ((m + 2 : ℝ) * pos z ^ (m + 1)) z := by
  rcases lt_trichotomy z 0 with h | h | h
  · have e : (fun z : ℝ => pos z ^ (m + 2)) =ᶠ[nhds z] fun _ => 0 := by
      filter_upwards [Iio_mem_nhds h] with u hu
      rw [pos_of_nonpos (le_of_lt hu), zero_pow (by omega)]
    rw [pos_of_nonpos h.le, zero_pow (by omega), mul_zero]
    exact (hasDerivAt_const z (0 : ℝ)).congr_of_eventuallyEq e
  · subst h
    rw [pos_of_nonpos (le_refl _), zero_pow (by omega), mul_zero, hasDerivAt_iff_tendsto_slope]
    have hc : Filter.Tendsto (fun z : ℝ => pos z ^ (m + 1)) (nhdsWithin 0 {0}ᶜ) (nhds 0) := by
      have : Continuous fun z : ℝ => pos z ^ (m + 1) := by unfold pos; fun_prop
      have h0 := (this.tendsto 0).mono_left (nhdsWithin_le_nhds (s := {0}ᶜ))
      rwa [pos_of_nonpos (le_refl _), zero_pow (by omega)] at h0
    refine hc.congr' ?_
    filter_upwards [self_mem_nhdsWithin] with u hu
    rw [slope_def_field, pos_of_nonpos (le_refl (0 : ℝ)), zero_pow (by omega), sub_zero, sub_zero]
    rcases lt_or_gt_of_ne (show u ≠ 0 from hu) with h | h
    · rw [pos_of_nonpos h.le, zero_pow (by omega), zero_pow (by omega), zero_div]
    · rw [pos_of_nonneg h.le, eq_div_iff h.ne']
      ring
  · have e : (fun z : ℝ => pos z ^ (m + 2)) =ᶠ[nhds z] fun z => z ^ (m + 2) := by
      filter_upwards [Ioi_mem_nhds h] with u hu
      rw [pos_of_nonneg (le_of_lt hu)]
    rw [pos_of_nonneg h.le]
    have := (hasDerivAt_pow (m + 2) z).congr_of_eventuallyEq e
    refine this.congr_deriv ?_
    push_cast
    rfl

theorem cub_deriv (s z : ℝ) : HasDerivAt (fun z => cub s z) (-(pos (s - z) ^ 2 / 2)) z := by
  have h := (pos_pow_deriv 1 (s - z)).comp z ((hasDerivAt_id z).const_sub s)
  have h2 := h.div_const 6
  refine h2.congr_deriv ?_
  push_cast
  ring

theorem sq_deriv (s z : ℝ) : HasDerivAt (fun z => -(pos (s - z) ^ 2 / 2)) (pos (s - z)) z := by
  have h := (pos_pow_deriv 0 (s - z)).comp z ((hasDerivAt_id z).const_sub s)
  have h2 := (h.div_const 2).fun_neg
  refine h2.congr_deriv ?_
  push_cast
  ring

theorem taylor (f : ℝ → ℝ) (hf : ContDiff ℝ 2 f) (lo hi s : ℝ) (h1 : lo ≤ s) (h2 : s ≤ hi) :
    ∫ u in lo..hi, pos (s - u) * deriv (deriv f) u = f s - f lo - (s - lo) * deriv f lo := by
  have hd0 : ∀ u, HasDerivAt f (deriv f u) u := fun u => (hf.differentiable (by norm_num) u).hasDerivAt
  have hf1 : ContDiff ℝ 1 (deriv f) := hf.deriv'
  have hd1 : ∀ u, HasDerivAt (deriv f) (deriv (deriv f) u) u := fun u => (hf1.differentiable (by norm_num) u).hasDerivAt
  have hc2 : Continuous (deriv (deriv f)) := hf1.continuous_deriv (by norm_num)
  have hc : Continuous fun u : ℝ => pos (s - u) * deriv (deriv f) u := (pos_cont s).mul hc2
  rw [← intervalIntegral.integral_add_adjacent_intervals (hc.intervalIntegrable lo s) (hc.intervalIntegrable s hi)]
  have e2 : ∫ u in s..hi, pos (s - u) * deriv (deriv f) u = 0 := by
    rw [intervalIntegral.integral_congr (g := fun _ => (0 : ℝ)), intervalIntegral.integral_zero]
    intro u hu
    rw [Set.uIcc_of_le h2] at hu
    show pos (s - u) * deriv (deriv f) u = 0
    rw [pos_of_nonpos (by linarith [hu.1]), zero_mul]
  have e1 : ∫ u in lo..s, pos (s - u) * deriv (deriv f) u = ∫ u in lo..s, (s - u) * deriv (deriv f) u := by
    refine intervalIntegral.integral_congr fun u hu => ?_
    rw [Set.uIcc_of_le h1] at hu
    show pos (s - u) * deriv (deriv f) u = (s - u) * deriv (deriv f) u
    rw [pos_of_nonneg (by linarith [hu.2])]
  have hd : ∀ u ∈ Set.uIcc lo s, HasDerivAt (fun u => (s - u) * deriv f u + f u) ((s - u) * deriv (deriv f) u) u := by
    intro u _
    have := (((hasDerivAt_id u).const_sub s).fun_mul (hd1 u)).fun_add (hd0 u)
    refine this.congr_deriv ?_
    simp only [id]
    ring
  rw [e1, e2, intervalIntegral.integral_eq_sub_of_hasDerivAt hd (((continuous_const.sub continuous_id).mul hc2).intervalIntegrable _ _)]
  ring

/-- sum of the squared distances, in units of the errors [specification] -/
noncomputable def chi2 (x err y : Fin n → ℝ) (f : ℝ → ℝ) : ℝ := ∑ i, ((y i - f (x i)) / err i) ^ 2

/-- curvature energy: the integral of the squared second derivative [specification] -/
noncomputable def energy (lo hi : ℝ) (f : ℝ → ℝ) : ℝ := ∫ u in lo..hi, deriv (deriv f) u ^ 2

theorem F_eq (y : Fin n → ℝ) (t : ℝ) : ktest sf x t ⬝ᵥ alpha sf x err y L + ![1, t] ⬝ᵥ beta x y L =
    ∑ i, sf ^ 2 * alpha sf x err y L i * cub (x i) t + ((beta x y L 0 - ∑ i, sf ^ 2 * alpha sf x err y L i * (x i ^ 3 / 6)) + (beta x y L 1 + ∑ i, sf ^ 2 * alpha sf x err y L i * (x i ^ 2 / 2)) * t) := by
  have e1 : ktest sf x t ⬝ᵥ alpha sf x err y L = ∑ i, sf ^ 2 * alpha sf x err y L i * cub (x i) t + (t * ∑ i, sf ^ 2 * alpha sf x err y L i * (x i ^ 2 / 2) - ∑ i, sf ^ 2 * alpha sf x err y L i * (x i ^ 3 / 6)) := by
    simp only [dotProduct, ktest, Finset.mul_sum]
    rw [← Finset.sum_sub_distrib, ← Finset.sum_add_distrib]
    exact Finset.sum_congr rfl fun i _ => by rw [kSpline_cub]; ring
  have e2 : ![1, t] ⬝ᵥ beta x y L = beta x y L 0 + beta x y L 1 * t := by
    simp [dotProduct, Fin.sum_univ_two, mul_comm]
  rw [e1, e2]
  ring

/-- the curve, its derivatives and its distance from the data -/
theorem curve_facts (h : IsChol (Ky sf x err) L) (hn : 2 ≤ n) (hx : Function.Injective x) (y : Fin n → ℝ) :
    ∃ (F : ℝ → ℝ) (a : Fin n → ℝ), curve sf x y L = .ok F ∧ ContDiff ℝ 2 F ∧ (∀ u, deriv (deriv F) u = ∑ i, sf ^ 2 * a i * pos (x i - u)) ∧ ∑ i, a i = 0 ∧ ∑ i, a i * x i = 0 ∧
      ∀ i, y i - F (x i) = err i ^ 2 * a i := by
  have hxx : ∃ i j, x i ≠ x j := ⟨⟨0, by omega⟩, ⟨1, by omega⟩, fun e => by simpa using hx e⟩
  set F : ℝ → ℝ := fun t => best sf x err L t ⬝ᵥ y with hF
  set a := alpha sf x err y L with ha
  have hal := H_alpha h hxx y
  rw [H_mulVec] at hal
  have hF' : ∀ t, F t = ktest sf x t ⬝ᵥ a + ![1, t] ⬝ᵥ beta x y L := fun t => best_dot h y t
  have hFe : F = fun t => _ := funext fun t => (hF' t).trans (F_eq (sf := sf) (x := x) (err := err) (L := L) y t)
  set c := beta x y L 0 - ∑ i, sf ^ 2 * alpha sf x err y L i * (x i ^ 3 / 6)
  set d := beta x y L 1 + ∑ i, sf ^ 2 * alpha sf x err y L i * (x i ^ 2 / 2)
  have hd1 : ∀ u, HasDerivAt F (∑ i, sf ^ 2 * a i * (-(pos (x i - u) ^ 2 / 2)) + d) u := by
    intro u
    rw [hFe]
    have h1 := HasDerivAt.fun_sum (u := Finset.univ) (fun i (_ : i ∈ Finset.univ) => (cub_deriv (x i) u).const_mul (sf ^ 2 * a i))
    have h2 := ((hasDerivAt_id u).const_mul d).const_add c
    refine (h1.fun_add h2).congr_deriv ?_
    ring
  have hderiv : deriv F = fun u => ∑ i, sf ^ 2 * a i * (-(pos (x i - u) ^ 2 / 2)) + d := funext fun u => (hd1 u).deriv
  have hd2 : ∀ u, HasDerivAt (deriv F) (∑ i, sf ^ 2 * a i * pos (x i - u)) u := by
    intro u
    rw [hderiv]
    exact (HasDerivAt.fun_sum (u := Finset.univ) (fun i (_ : i ∈ Finset.univ) => (sq_deriv (x i) u).const_mul (sf ^ 2 * a i))).add_const d
  have hdd : ∀ u, deriv (deriv F) u = ∑ i, sf ^ 2 * a i * pos (x i - u) := fun u => (hd2 u).deriv
  refine ⟨F, a, curve_eq h hn hx y, ?_, hdd, by simpa using congrFun hal 0, by simpa using congrFun hal 1, fun i => ?_⟩
  · have h1 : ContDiff ℝ 1 (deriv F) := by
      rw [contDiff_one_iff_deriv]
      refine ⟨fun u => (hd2 u).differentiableAt, ?_⟩
      rw [show deriv (deriv F) = fun u => ∑ i, sf ^ 2 * a i * pos (x i - u) from funext hdd]
      exact continuous_finsetSum _ fun i _ => continuous_const.mul (pos_cont (x i))
    rw [show (2 : WithTop ℕ∞) = 1 + 1 by norm_num, contDiff_succ_iff_deriv]
    exact ⟨fun u => (hd1 u).differentiableAt, fun hw => absurd hw (by simp), h1⟩
  · have hk := congrFun (Ky_alpha h y) i
    unfold Ky at hk
    rw [add_mulVec, Pi.add_apply, mulVec_diagonal, Pi.sub_apply, HT_mulVec] at hk
    have hv : F (x i) = (Kmat sf x *ᵥ a) i + (beta x y L 0 + beta x y L 1 * x i) := by
      rw [hF']
      congr 1
      · simp only [mulVec, dotProduct, Kmat_apply, ktest]
      · simp [dotProduct, Fin.sum_univ_two, mul_comm]
    rw [hv]
    linear_combination (-1 : ℝ) * hk

theorem penalty_eq (h : IsChol (Ky sf x err) L) (hn : 2 ≤ n) (hx : Function.Injective x) (hs : sf ≠ 0) (he : ∀ i, err i ≠ 0) (y : Fin n → ℝ) (lo hi : ℝ) (hlh : ∀ i, lo ≤ x i ∧ x i ≤ hi) :
    ∃ F, curve sf x y L = .ok F ∧ ContDiff ℝ 2 F ∧ ∀ f, ContDiff ℝ 2 f →
      chi2 x err y f + energy lo hi f / sf ^ 2 = chi2 x err y F + energy lo hi F / sf ^ 2 + (∑ i, ((f (x i) - F (x i)) / err i) ^ 2 + energy lo hi (fun u => f u - F u) / sf ^ 2) := by
  obtain ⟨F, a, h1, h2, h3, h4, h5, h6⟩ := curve_facts h hn hx y
  refine ⟨F, h1, h2, fun f hf => ?_⟩
  set g : ℝ → ℝ := fun u => f u - F u with hg
  have hgc : ContDiff ℝ 2 g := hf.sub h2
  have hcd : ∀ {q : ℝ → ℝ}, ContDiff ℝ 2 q → Continuous (deriv (deriv q)) := fun hq => (hq.deriv' : ContDiff ℝ 1 _).continuous_deriv (by norm_num)
  have hgd : ∀ u, deriv (deriv f) u = deriv (deriv F) u + deriv (deriv g) u := by
    intro u
    have e1 : deriv g = fun u => deriv f u - deriv F u := funext fun u =>
      ((hf.differentiable (by norm_num) u).hasDerivAt.fun_sub (h2.differentiable (by norm_num) u).hasDerivAt).deriv
    have hf1 : ContDiff ℝ 1 (deriv f) := hf.deriv'
    have hF1 : ContDiff ℝ 1 (deriv F) := h2.deriv'
    rw [e1, ((hf1.differentiable (by norm_num) u).hasDerivAt.fun_sub (hF1.differentiable (by norm_num) u).hasDerivAt).deriv]
    ring
  have hcross : ∫ u in lo..hi, deriv (deriv F) u * deriv (deriv g) u = sf ^ 2 * ∑ i, a i * g (x i) := by
    have e : ∀ u, deriv (deriv F) u * deriv (deriv g) u = ∑ i, sf ^ 2 * a i * (pos (x i - u) * deriv (deriv g) u) := by
      intro u
      rw [h3, Finset.sum_mul]
      exact Finset.sum_congr rfl fun i _ => by ring
    simp only [e]
    have hI : ∀ i, IntervalIntegrable (fun u => sf ^ 2 * a i * (pos (x i - u) * deriv (deriv g) u)) MeasureTheory.volume lo hi := fun i =>
      (continuous_const.mul ((pos_cont (x i)).mul (hcd hgc))).intervalIntegrable _ _
    rw [intervalIntegral.integral_finsetSum fun i _ => hI i]
    have e2 : ∀ i, ∫ u in lo..hi, sf ^ 2 * a i * (pos (x i - u) * deriv (deriv g) u) = sf ^ 2 * (a i * g (x i) - a i * (g lo - lo * deriv g lo) - a i * x i * deriv g lo) := by
      intro i
      rw [intervalIntegral.integral_const_mul, taylor g hgc lo hi (x i) (hlh i).1 (hlh i).2]
      ring
    rw [Finset.sum_congr rfl fun i _ => e2 i, ← Finset.mul_sum, Finset.sum_sub_distrib, Finset.sum_sub_distrib, ← Finset.sum_mul, ← Finset.sum_mul, h4, h5]
    ring
  have hen : energy lo hi f = energy lo hi F + 2 * (sf ^ 2 * ∑ i, a i * g (x i)) + energy lo hi g := by
    unfold energy
    rw [← hcross]
    have e : ∀ u, deriv (deriv f) u ^ 2 = deriv (deriv F) u ^ 2 + 2 * (deriv (deriv F) u * deriv (deriv g) u) + deriv (deriv g) u ^ 2 := by
      intro u
      rw [hgd]
      ring
    simp only [e]
    have i1 : IntervalIntegrable (fun u => deriv (deriv F) u ^ 2) MeasureTheory.volume lo hi := ((hcd h2).pow 2).intervalIntegrable _ _
    have i2 : IntervalIntegrable (fun u => 2 * (deriv (deriv F) u * deriv (deriv g) u)) MeasureTheory.volume lo hi := (continuous_const.mul ((hcd h2).mul (hcd hgc))).intervalIntegrable _ _
    have i3 : IntervalIntegrable (fun u => deriv (deriv g) u ^ 2) MeasureTheory.volume lo hi := ((hcd hgc).pow 2).intervalIntegrable _ _
    rw [intervalIntegral.integral_add (i1.add i2) i3, intervalIntegral.integral_add i1 i2, intervalIntegral.integral_const_mul]
  have hch : chi2 x err y f = chi2 x err y F - 2 * ∑ i, a i * g (x i) + ∑ i, ((f (x i) - F (x i)) / err i) ^ 2 := by
    unfold chi2
    rw [Finset.mul_sum, ← Finset.sum_sub_distrib, ← Finset.sum_add_distrib]
    refine Finset.sum_congr rfl fun i _ => ?_
    have h7 := h6 i
    have h8 : g (x i) = f (x i) - F (x i) := rfl
    have hne := he i
    have h9 : y i - f (x i) = err i ^ 2 * a i - g (x i) := by rw [← h7, h8]; ring
    rw [h7, h9, ← h8]
    field_simp
    ring
  rw [hen, hch]
  field_simp
  ring

/-- C100. Of all twice continuously differentiable functions the smoothed curve makes χ² + (curvature energy)/sigmaf² smallest, and it is the only one: any other function differs from it nowhere
between the lowest and the highest knot (or in any wider interval), or has a larger sum. -/
theorem gpr_penalty (h : IsChol (Ky sf x err) L) (hn : 2 ≤ n) (hx : Function.Injective x) (hs : sf ≠ 0) (he : ∀ i, err i ≠ 0) (y : Fin n → ℝ) (lo hi : ℝ) (hlh : ∀ i, lo ≤ x i ∧ x i ≤ hi) :
    ∃ F, curve sf x y L = .ok F ∧ ContDiff ℝ 2 F ∧ ∀ f, ContDiff ℝ 2 f →
      chi2 x err y F + energy lo hi F / sf ^ 2 < chi2 x err y f + energy lo hi f / sf ^ 2 ∨ ∀ u, lo ≤ u → u ≤ hi → f u = F u := by
  obtain ⟨F, h1, h2, h3⟩ := penalty_eq h hn hx hs he y lo hi hlh
  refine ⟨F, h1, h2, fun f hf => ?_⟩
  have hle : lo ≤ hi := (hlh ⟨0, by omega⟩).1.trans (hlh ⟨0, by omega⟩).2
  have hgc : ContDiff ℝ 2 (fun u => f u - F u) := hf.sub h2
  set g : ℝ → ℝ := fun u => f u - F u with hg
  have hE : 0 ≤ energy lo hi g := intervalIntegral.integral_nonneg hle fun u _ => sq_nonneg _
  have hS : 0 ≤ ∑ i, ((f (x i) - F (x i)) / err i) ^ 2 := Finset.sum_nonneg fun i _ => sq_nonneg _
  have hs2 : 0 < sf ^ 2 := by positivity
  have hE' : 0 ≤ energy lo hi g / sf ^ 2 := div_nonneg hE hs2.le
  rcases (add_nonneg hS hE').lt_or_eq with hlt | heq
  · left
    rw [h3 f hf]
    linarith
  · right
    have hS0 : ∑ i, ((f (x i) - F (x i)) / err i) ^ 2 = 0 := by linarith
    have hE0 : energy lo hi g = 0 := by
      have : energy lo hi g / sf ^ 2 = 0 := by linarith
      exact (div_eq_zero_iff.1 this).resolve_right hs2.ne'
    have hk : ∀ i, g (x i) = 0 := by
      intro i
      have := (Finset.sum_eq_zero_iff_of_nonneg fun i _ => sq_nonneg _).1 hS0 i (Finset.mem_univ i)
      have := pow_eq_zero_iff (two_ne_zero) |>.1 this
      exact (div_eq_zero_iff.1 this).resolve_right (he i)
    have hg1 : ContDiff ℝ 1 (deriv g) := hgc.deriv'
    have hcd : Continuous (deriv (deriv g)) := hg1.continuous_deriv (by norm_num)
    have hz : ∀ u ∈ Set.Icc lo hi, deriv (deriv g) u = 0 := by
      rcases hle.lt_or_eq with hlt | heq'
      · intro u hu
        by_contra hne
        have : 0 < energy lo hi g := by
          refine intervalIntegral.integral_pos hlt ((hcd.pow 2).continuousOn) (fun v _ => sq_nonneg _) ⟨u, hu, ?_⟩
          exact lt_of_le_of_ne (sq_nonneg _) (Ne.symm (pow_ne_zero 2 hne))
        exact absurd hE0 this.ne'
      · exfalso
        have hall : ∀ i, x i = lo := fun i => le_antisymm ((hlh i).2.trans heq'.ge) (hlh i).1
        have := hx ((hall ⟨0, by omega⟩).trans (hall ⟨1, by omega⟩).symm)
        simp at this
    have hline : ∀ s, lo ≤ s → s ≤ hi → g s = g lo + (s - lo) * deriv g lo := by
      intro s hs1 hs2
      have ht := taylor g hgc lo hi s hs1 hs2
      rw [intervalIntegral.integral_congr (g := fun _ => (0 : ℝ)), intervalIntegral.integral_zero] at ht
      · linarith
      · intro u hu
        rw [Set.uIcc_of_le hle] at hu
        show pos (s - u) * deriv (deriv g) u = 0
        rw [hz u hu, mul_zero]
    have k0 := hline _ (hlh ⟨0, by omega⟩).1 (hlh ⟨0, by omega⟩).2
    have k1 := hline _ (hlh ⟨1, by omega⟩).1 (hlh ⟨1, by omega⟩).2
    rw [hk] at k0 k1
    have hne : x ⟨0, by omega⟩ - x ⟨1, by omega⟩ ≠ 0 := sub_ne_zero.2 fun e => by simpa using hx e
    have hd : deriv g lo = 0 := by
      have : (x ⟨0, by omega⟩ - x ⟨1, by omega⟩) * deriv g lo = 0 := by linear_combination k1 - k0
      exact (mul_eq_zero.1 this).resolve_left hne
    rw [hd] at k0
    intro u hu1 hu2
    have := hline u hu1 hu2
    rw [hd] at this
    have h0 : g u = 0 := by linarith
    have : f u - F u = 0 := h0
    linarith

/-- C100. As the class promises: no function with a χ² no larger than the curve's has a smaller curvature energy. -/
theorem gpr_smoothest (h : IsChol (Ky sf x err) L) (hn : 2 ≤ n) (hx : Function.Injective x) (hs : sf ≠ 0) (he : ∀ i, err i ≠ 0) (y : Fin n → ℝ) (lo hi : ℝ) (hlh : ∀ i, lo ≤ x i ∧ x i ≤ hi) :
    ∃ F, curve sf x y L = .ok F ∧ ∀ f, ContDiff ℝ 2 f → chi2 x err y f ≤ chi2 x err y F → energy lo hi F ≤ energy lo hi f := by
  obtain ⟨F, h1, _, h3⟩ := penalty_eq h hn hx hs he y lo hi hlh
  refine ⟨F, h1, fun f hf hc => ?_⟩
  have hle : lo ≤ hi := (hlh ⟨0, by omega⟩).1.trans (hlh ⟨0, by omega⟩).2
  have hs2 : 0 < sf ^ 2 := by positivity
  have hE : 0 ≤ energy lo hi (fun u => f u - F u) / sf ^ 2 := div_nonneg (intervalIntegral.integral_nonneg hle fun u _ => sq_nonneg _) hs2.le
  have hS : 0 ≤ ∑ i, ((f (x i) - F (x i)) / err i) ^ 2 := Finset.sum_nonneg fun i _ => sq_nonneg _
  have := h3 f hf
  have h5 : energy lo hi F / sf ^ 2 ≤ energy lo hi f / sf ^ 2 := by linarith
  exact (div_le_div_iff_of_pos_right hs2).1 h5

/-! ### Arguments -/

/-- what `variance` and `covariance` are called with: one number, or a list -/
inductive Points | one (t : ℝ) | many (ts : List ℝ)

/-- `variance`, interpolate.py L340-354: a number is not iterable (TypeError), so that L352-353 are never reached -/
noncomputable def varianceCall (sf : ℝ) (x : Fin n → ℝ) (L : Matrix (Fin n) (Fin n) ℝ) : Points → Except Exc (List ℝ)
  | .one _ => .error .type
  | .many ts => .ok (ts.map (variance sf x L))

/-- C99. Lists of points have one variance per point. -/
theorem variance_call (ts : List ℝ) : ∃ v, varianceCall sf x L (.many ts) = .ok v ∧ v.length = ts.length ∧ ∀ k (hk : k < ts.length), v[k]? = some (covariance sf x L ts[k] ts[k]) := by
  refine ⟨_, rfl, by simp, fun k hk => ?_⟩
  rw [List.getElem?_map, List.getElem?_eq_getElem hk]
  show some _ = some _
  congr 1
  unfold covariance variance dotProduct
  congr 2
  exact Finset.sum_congr rfl fun i _ => by ring

/-- C99. One number raises TypeError, although the code has a branch to return its variance. -/
theorem variance_scalar_fails (t : ℝ) : varianceCall sf x L (.one t) = .error .type := rfl

/-! ### Examples -/

/-- three knots: the matrices are those the code would compute -/
theorem chol_ex : IsChol (Ky 6 ![0, 1, 2] ![1, 2, 5 / 16]) !![1, 0, 0; 0, 4, 0; 0, 15 / 2, 101 / 16] := by
  refine ⟨?_, ?_, ?_⟩
  · ext i j
    fin_cases i <;> fin_cases j <;> simp [Matrix.mul_apply, Fin.sum_univ_three, Ky, Kmat_apply, kSpline] <;> norm_num
  · intro i j hij
    fin_cases i <;> fin_cases j <;> simp_all
  · intro i
    fin_cases i <;> simp

theorem inj_ex : Function.Injective (![0, 1, 2] : Fin 3 → ℝ) := by
  intro i j hij
  fin_cases i <;> fin_cases j <;> simp_all

example : ∃ W : ℝ → Fin 3 → ℝ, (∀ y, curve 6 ![0, 1, 2] y !![1, 0, 0; 0, 4, 0; 0, 15 / 2, 101 / 16] = .ok fun t => ∑ i, W t i * y i) ∧ ∀ t, Unbiased ![0, 1, 2] t (W t) := by
  obtain ⟨W, h1, h2⟩ := gpr_best chol_ex (by norm_num) inj_ex
  exact ⟨W, h1, fun t => (h2 t).1⟩

/-- the residual of a kink is not zero: the example is not one of interpolation -/
example : 0 ≤ variance 6 ![0, 1, 2] !![1, 0, 0; 0, 4, 0; 0, 15 / 2, 101 / 16] 1 := (variance_nonneg chol_ex (by norm_num) inj_ex 1).1

example : ∃ F, curve 6 ![0, 1, 2] ![0, 1, 0] !![1, 0, 0; 0, 4, 0; 0, 15 / 2, 101 / 16] = .ok F ∧ ∀ f, ContDiff ℝ 2 f →
    chi2 ![0, 1, 2] ![1, 2, 5 / 16] ![0, 1, 0] f ≤ chi2 ![0, 1, 2] ![1, 2, 5 / 16] ![0, 1, 0] F → energy 0 2 F ≤ energy 0 2 f :=
  gpr_smoothest chol_ex (by norm_num) inj_ex (by norm_num) (fun i => by fin_cases i <;> norm_num) _ 0 2 (fun i => by fin_cases i <;> norm_num)

/-- pulse heights around 0.1 in a log fit, sigmaf 1 and errors 0.1 -/
example : ¬ ∃ L, IsChol (Ky 1 ![-2.3, 0, 1] ![0.1, 0.1, 0.1]) L := negative_abscissa_fails 0 (by norm_num) (by norm_num [abs_of_neg])

example : ∃ L, IsChol (Ky 1 ![3, 0, 1] ![0.1, 0.1, 0.2]) L := gpr_works (fun i => by fin_cases i <;> norm_num) (fun i => by fin_cases i <;> norm_num)

end Mass.Calc.Gpr
