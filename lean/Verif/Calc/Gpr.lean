import Verif.Calc.Natural
import Mathlib.Analysis.Matrix.LDL
import Mathlib.LinearAlgebra.Matrix.ToLinearEquiv
import Mathlib.LinearAlgebra.Matrix.Block
import Mathlib.Analysis.SpecialFunctions.Integrals.Basic
import Mathlib.Tactic.NoncommRing
/-! C99: smoothing by Gaussian process regression (mass/mathstat/interpolate.py, class GPRSpline). Over the reals. -/
namespace Mass.Calc.Gpr
open Mass Mass.Calc Matrix

variable {n : Nat}

/-- `k_spline`, mass/mathstat/interpolate.py L232-235 -/
noncomputable def kSpline (x y : ℝ) : ℝ := min x y ^ 3 / 3 + min x y ^ 2 / 2 * |x - y|

/-- the matrix K, interpolate.py L284-289 (and L323-328): the upper triangle is computed and mirrored -/
noncomputable def Kmat (sf : ℝ) (x : Fin n → ℝ) : Matrix (Fin n) (Fin n) ℝ := fun i j => if i ≤ j then sf ^ 2 * kSpline (x i) (x j) else sf ^ 2 * kSpline (x j) (x i)

/-- Ky, interpolate.py L290 -/
noncomputable def Ky (sf : ℝ) (x err : Fin n → ℝ) : Matrix (Fin n) (Fin n) ℝ := Kmat sf x + diagonal (fun i => err i ^ 2)

/-- H, interpolate.py L283: a row of ones and the abscissas -/
def Hmat (x : Fin n → ℝ) : Matrix (Fin 2) (Fin n) ℝ := fun r i => if r = 0 then 1 else x i

/-- numpy.linalg.cholesky(M) (interpolate.py L291): lower triangular with positive diagonal, L Lᵀ = M; it raises LinAlgError if there is none -/
def IsChol (M L : Matrix (Fin n) (Fin n) ℝ) : Prop := L * Lᵀ = M ∧ (∀ i j, i < j → L i j = 0) ∧ ∀ i, 0 < L i i

/-- LH, interpolate.py L292. numpy.linalg.solve(M, v) is M⁻¹ v. -/
noncomputable def LH (x : Fin n → ℝ) (L : Matrix (Fin n) (Fin n) ℝ) : Matrix (Fin n) (Fin 2) ℝ := L⁻¹ * (Hmat x)ᵀ

/-- A, interpolate.py L293 -/
noncomputable def Amat (x : Fin n → ℝ) (L : Matrix (Fin n) (Fin n) ℝ) : Matrix (Fin 2) (Fin 2) ℝ := (LH x L)ᵀ * LH x L

/-- KinvHT, interpolate.py L294 -/
noncomputable def KinvHT (x : Fin n → ℝ) (L : Matrix (Fin n) (Fin n) ℝ) : Matrix (Fin n) (Fin 2) ℝ := (Lᵀ)⁻¹ * LH x L

/-- beta, interpolate.py L298 -/
noncomputable def beta (x y : Fin n → ℝ) (L : Matrix (Fin n) (Fin n) ℝ) : Fin 2 → ℝ := ((Amat x L)⁻¹ * (KinvHT x L)ᵀ) *ᵥ y

/-- gbar, interpolate.py L302-304 -/
noncomputable def gbar (sf : ℝ) (x y : Fin n → ℝ) (L : Matrix (Fin n) (Fin n) ℝ) : Fin n → ℝ :=
  ((Lᵀ)⁻¹ * (L⁻¹ * Kmat sf x))ᵀ *ᵥ y + (Hmat x - (KinvHT x L)ᵀ * Kmat sf x)ᵀ *ᵥ beta x y L

/-- The curve, interpolate.py L305 and L135-193: the natural cubic spline through the values at the knots. The errors `err` (L269-278) and `sigmaf` (L280-281) enter
through `L`, the factor of `Ky sf x err`. -/
noncomputable def curve (sf : ℝ) (x y : Fin n → ℝ) (L : Matrix (Fin n) (Fin n) ℝ) : Except Exc (ℝ → ℝ) :=
  (mkSpline (List.ofFn (fun i => (x i, gbar sf x y L i))) none none).map (fun S t => eval S t 0)

/-- Ktest, interpolate.py L347 -/
noncomputable def ktest (sf : ℝ) (x : Fin n → ℝ) (t : ℝ) : Fin n → ℝ := fun i => sf ^ 2 * kSpline t (x i)

/-- R, interpolate.py L350 -/
noncomputable def Rvec (sf : ℝ) (x : Fin n → ℝ) (L : Matrix (Fin n) (Fin n) ℝ) (t : ℝ) : Fin 2 → ℝ := ![1, t] - (KinvHT x L)ᵀ *ᵥ ktest sf x t

/-- `variance` at one point, interpolate.py L340-354. (A scalar argument raises, L346: the loop needs a list.) -/
noncomputable def variance (sf : ℝ) (x : Fin n → ℝ) (L : Matrix (Fin n) (Fin n) ℝ) (t : ℝ) : ℝ :=
  sf ^ 2 * kSpline t t - ∑ i, (L⁻¹ *ᵥ ktest sf x t) i ^ 2 + Rvec sf x L t ⬝ᵥ ((Amat x L)⁻¹ *ᵥ Rvec sf x L t)

/-- one entry of `covariance`, interpolate.py L356-368 -/
noncomputable def covariance (sf : ℝ) (x : Fin n → ℝ) (L : Matrix (Fin n) (Fin n) ℝ) (s t : ℝ) : ℝ :=
  sf ^ 2 * kSpline s t - (L⁻¹ *ᵥ ktest sf x s) ⬝ᵥ (L⁻¹ *ᵥ ktest sf x t) + Rvec sf x L s ⬝ᵥ ((Amat x L)⁻¹ *ᵥ Rvec sf x L t)

/-! ### The random functions behind it -/

/-- covariance of twice integrated white noise that starts at 0, at two times that are not negative [specification] -/
noncomputable def cov (s t : ℝ) : ℝ := ∫ u in (0 : ℝ)..min s t, (s - u) * (t - u)

/-- Mean squared error of the prediction Σ w_i y_i of f(t), if f(t) = a + b t + sf ∫ max(t-u, 0) dW(u) (second derivative white noise), y_i = f(x_i) plus an independent error of
standard deviation `err i`, and the prediction is right for lines. All the abscissas are between lo and hi. [specification] -/
noncomputable def predVar (lo hi sf : ℝ) (x err : Fin n → ℝ) (t : ℝ) (w : Fin n → ℝ) : ℝ :=
  sf ^ 2 * (∫ u in lo..hi, (pos (t - u) - ∑ i, w i * pos (x i - u)) ^ 2) + ∑ i, w i ^ 2 * err i ^ 2

/-- the prediction is right for every line [specification] -/
def Unbiased (x : Fin n → ℝ) (t : ℝ) (w : Fin n → ℝ) : Prop := ∀ a b : ℝ, ∑ i, w i * (a + b * x i) = a + b * t

theorem kSpline_comm (x y : ℝ) : kSpline x y = kSpline y x := by unfold kSpline; rw [min_comm, abs_sub_comm]

theorem kSpline_le {s t : ℝ} (h : s ≤ t) : kSpline s t = s ^ 2 * t / 2 - s ^ 3 / 6 := by
  unfold kSpline
  rw [min_eq_left h, abs_sub_comm, abs_of_nonneg (by linarith)]
  ring

theorem integral_quad (s t m : ℝ) : ∫ u in (0 : ℝ)..m, (s - u) * (t - u) = s * t * m - (s + t) * m ^ 2 / 2 + m ^ 3 / 3 := by
  have h : ∀ u : ℝ, HasDerivAt (fun u : ℝ => s * t * u - (s + t) * u ^ 2 / 2 + u ^ 3 / 3) ((s - u) * (t - u)) u := by
    intro u
    have h1 := ((hasDerivAt_id u).const_mul (s * t)).fun_sub ((((hasDerivAt_id u).fun_pow 2).const_mul (s + t)).div_const 2)
    have h2 := h1.fun_add (((hasDerivAt_id u).fun_pow 3).div_const 3)
    refine h2.congr_deriv ?_
    simp
    ring
  rw [intervalIntegral.integral_eq_sub_of_hasDerivAt (fun u _ => h u) ((by fun_prop : Continuous fun u : ℝ => (s - u) * (t - u)).intervalIntegrable _ _)]
  ring

/-- C99. The kernel is the covariance of twice integrated white noise (for abscissas that are not negative). -/
theorem kernel_cov (s t : ℝ) : cov s t = kSpline s t := by
  unfold cov
  rw [integral_quad]
  rcases le_total s t with h | h
  · rw [kSpline_le h, min_eq_left h]; ring
  · rw [kSpline_comm, kSpline_le h, min_eq_right h]; ring

theorem Kmat_apply (sf : ℝ) (x : Fin n → ℝ) (i j : Fin n) : Kmat sf x i j = sf ^ 2 * kSpline (x i) (x j) := by
  unfold Kmat
  split
  · rfl
  · rw [kSpline_comm]

theorem Kmat_symm (sf : ℝ) (x : Fin n → ℝ) : (Kmat sf x)ᵀ = Kmat sf x := by
  ext i j
  rw [transpose_apply, Kmat_apply, Kmat_apply, kSpline_comm]

theorem Ky_symm (sf : ℝ) (x err : Fin n → ℝ) : (Ky sf x err)ᵀ = Ky sf x err := by
  unfold Ky
  rw [transpose_add, Kmat_symm, diagonal_transpose]

/-- the quadratic form of the matrix equations -/
noncomputable def quadVar (sf : ℝ) (x err : Fin n → ℝ) (t : ℝ) (w : Fin n → ℝ) : ℝ :=
  sf ^ 2 * kSpline t t - 2 * (w ⬝ᵥ ktest sf x t) + w ⬝ᵥ (Ky sf x err *ᵥ w)

/-! ### Linear algebra -/

section
variable {sf : ℝ} {x err : Fin n → ℝ} {L : Matrix (Fin n) (Fin n) ℝ}

theorem det_L (h : IsChol (Ky sf x err) L) : IsUnit L.det := by
  have : L.det = ∏ i, L i i := det_of_isLowerTriangular L (fun i j hij => h.2.1 i j hij)
  rw [this]
  exact (Finset.prod_pos fun i _ => h.2.2 i).ne'.isUnit

theorem inv_L (h : IsChol (Ky sf x err) L) : (Lᵀ)⁻¹ * L⁻¹ = (Ky sf x err)⁻¹ := by rw [← h.1, Matrix.mul_inv_rev]

theorem det_Ky (h : IsChol (Ky sf x err) L) : IsUnit (Ky sf x err).det := by
  rw [← h.1, det_mul, det_transpose]
  exact (det_L h).mul (det_L h)

theorem Kinv_symm (sf : ℝ) (x err : Fin n → ℝ) : ((Ky sf x err)⁻¹)ᵀ = (Ky sf x err)⁻¹ := by rw [transpose_nonsing_inv, Ky_symm]

theorem KinvHT_eq (h : IsChol (Ky sf x err) L) : KinvHT x L = (Ky sf x err)⁻¹ * (Hmat x)ᵀ := by
  unfold KinvHT LH
  rw [← Matrix.mul_assoc, inv_L h]

theorem Amat_eq (h : IsChol (Ky sf x err) L) : Amat x L = Hmat x * (Ky sf x err)⁻¹ * (Hmat x)ᵀ := by
  unfold Amat LH
  rw [transpose_mul, transpose_transpose, transpose_nonsing_inv, Matrix.mul_assoc, ← Matrix.mul_assoc (Lᵀ)⁻¹, inv_L h, Matrix.mul_assoc]

theorem HT_mulVec (x : Fin n → ℝ) (v : Fin 2 → ℝ) (i : Fin n) : ((Hmat x)ᵀ *ᵥ v) i = v 0 + v 1 * x i := by
  simp [mulVec, dotProduct, Fin.sum_univ_two, Hmat, mul_comm]

theorem H_mulVec (x w : Fin n → ℝ) : Hmat x *ᵥ w = ![∑ i, w i, ∑ i, w i * x i] := by
  ext r
  fin_cases r
  · simp [mulVec, dotProduct, Hmat]
  · simp [mulVec, dotProduct, Hmat, mul_comm]

theorem unbiased_iff (x : Fin n → ℝ) (t : ℝ) (w : Fin n → ℝ) : Unbiased x t w ↔ Hmat x *ᵥ w = ![1, t] := by
  rw [H_mulVec]
  have e : ∀ a b : ℝ, ∑ i, w i * (a + b * x i) = a * ∑ i, w i + b * ∑ i, w i * x i := by
    intro a b
    rw [Finset.mul_sum, Finset.mul_sum, ← Finset.sum_add_distrib]
    exact Finset.sum_congr rfl fun i _ => by ring
  constructor
  · intro h
    have h1 := h 1 0
    have h2 := h 0 1
    rw [e] at h1 h2
    ext r
    fin_cases r
    · simpa using h1
    · simpa using h2
  · intro h a b
    have h1 := congrFun h 0
    have h2 := congrFun h 1
    simp at h1 h2
    rw [e, h1, h2]
    ring

theorem det_A (h : IsChol (Ky sf x err) L) (hx : ∃ i j, x i ≠ x j) : IsUnit (Amat x L).det := by
  rw [isUnit_iff_ne_zero]
  intro hz
  obtain ⟨v, hv, hAv⟩ := exists_mulVec_eq_zero_iff.2 hz
  have h1 : LH x L *ᵥ v = 0 := by
    have h2 : (LH x L *ᵥ v) ⬝ᵥ (LH x L *ᵥ v) = 0 := by
      have : v ⬝ᵥ (Amat x L *ᵥ v) = 0 := by rw [hAv, dotProduct_zero]
      unfold Amat at this
      rw [← mulVec_mulVec, dotProduct_mulVec, vecMul_transpose] at this
      exact this
    exact dotProduct_self_eq_zero.1 h2
  have h3 : (Hmat x)ᵀ *ᵥ v = 0 := by
    have : L *ᵥ (LH x L *ᵥ v) = 0 := by rw [h1, mulVec_zero]
    unfold LH at this
    rwa [mulVec_mulVec, ← Matrix.mul_assoc, mul_nonsing_inv _ (det_L h), Matrix.one_mul] at this
  obtain ⟨i, j, hij⟩ := hx
  have hi := congrFun h3 i
  have hj := congrFun h3 j
  rw [HT_mulVec, Pi.zero_apply] at hi hj
  have hv1 : v 1 = 0 := by
    have : v 1 * (x i - x j) = 0 := by linear_combination hi - hj
    exact (mul_eq_zero.1 this).resolve_right (sub_ne_zero.2 hij)
  have hv0 : v 0 = 0 := by rw [hv1] at hi; linarith
  refine hv (funext fun r => ?_)
  fin_cases r
  · exact hv0
  · exact hv1

/-- the weights of the best prediction -/
noncomputable def best (sf : ℝ) (x err : Fin n → ℝ) (L : Matrix (Fin n) (Fin n) ℝ) (t : ℝ) : Fin n → ℝ :=
  (Ky sf x err)⁻¹ *ᵥ (ktest sf x t + (Hmat x)ᵀ *ᵥ ((Amat x L)⁻¹ *ᵥ Rvec sf x L t))

theorem Rvec_eq (h : IsChol (Ky sf x err) L) (t : ℝ) : Rvec sf x L t = ![1, t] - Hmat x *ᵥ ((Ky sf x err)⁻¹ *ᵥ ktest sf x t) := by
  unfold Rvec
  rw [KinvHT_eq h, transpose_mul, transpose_transpose, Kinv_symm sf x err, mulVec_mulVec]

theorem best_unbiased (h : IsChol (Ky sf x err) L) (hx : ∃ i j, x i ≠ x j) (t : ℝ) : Hmat x *ᵥ best sf x err L t = ![1, t] := by
  unfold best
  rw [mulVec_add, mulVec_add]
  have : Hmat x *ᵥ ((Ky sf x err)⁻¹ *ᵥ ((Hmat x)ᵀ *ᵥ ((Amat x L)⁻¹ *ᵥ Rvec sf x L t))) = Rvec sf x L t := by
    rw [mulVec_mulVec, mulVec_mulVec, mulVec_mulVec, ← Amat_eq h, mul_nonsing_inv _ (det_A h hx), one_mulVec]
  rw [this, Rvec_eq h]
  abel

theorem Ky_best (h : IsChol (Ky sf x err) L) (t : ℝ) : Ky sf x err *ᵥ best sf x err L t = ktest sf x t + (Hmat x)ᵀ *ᵥ ((Amat x L)⁻¹ *ᵥ Rvec sf x L t) := by
  unfold best
  rw [mulVec_mulVec, mul_nonsing_inv _ (det_Ky h), one_mulVec]

/-- Ky is positive definite if it has a Cholesky factor -/
theorem quad_Ky (h : IsChol (Ky sf x err) L) (v : Fin n → ℝ) : v ⬝ᵥ (Ky sf x err *ᵥ v) = (Lᵀ *ᵥ v) ⬝ᵥ (Lᵀ *ᵥ v) := by
  rw [← h.1, ← mulVec_mulVec, dotProduct_mulVec, ← mulVec_transpose]

theorem quad_pos (h : IsChol (Ky sf x err) L) (v : Fin n → ℝ) : 0 ≤ v ⬝ᵥ (Ky sf x err *ᵥ v) ∧ (v ⬝ᵥ (Ky sf x err *ᵥ v) = 0 → v = 0) := by
  rw [quad_Ky h]
  refine ⟨Finset.sum_nonneg fun i _ => mul_self_nonneg _, fun h0 => ?_⟩
  have h1 := dotProduct_self_eq_zero.1 h0
  have : (Lᵀ)⁻¹ *ᵥ (Lᵀ *ᵥ v) = 0 := by rw [h1, mulVec_zero]
  rwa [mulVec_mulVec, nonsing_inv_mul _ (by rw [det_transpose]; exact det_L h), one_mulVec] at this

theorem quadVar_diff (h : IsChol (Ky sf x err) L) (hx : ∃ i j, x i ≠ x j) (t : ℝ) (w : Fin n → ℝ) (hw : Hmat x *ᵥ w = ![1, t]) :
    quadVar sf x err t w = quadVar sf x err t (best sf x err L t) + (w - best sf x err L t) ⬝ᵥ (Ky sf x err *ᵥ (w - best sf x err L t)) := by
  unfold quadVar
  set b := best sf x err L t with hb
  have hz : Hmat x *ᵥ (w - b) = 0 := by rw [mulVec_sub, hw, hb, best_unbiased h hx, sub_self]
  have hs : ∀ u v : Fin n → ℝ, u ⬝ᵥ (Ky sf x err *ᵥ v) = v ⬝ᵥ (Ky sf x err *ᵥ u) := by
    intro u v
    rw [dotProduct_mulVec, ← mulVec_transpose, Ky_symm, dotProduct_comm]
  have hc : (w - b) ⬝ᵥ (Ky sf x err *ᵥ b) = (w - b) ⬝ᵥ ktest sf x t := by
    rw [hb, Ky_best h, ← hb, dotProduct_add]
    have : (w - b) ⬝ᵥ ((Hmat x)ᵀ *ᵥ ((Amat x L)⁻¹ *ᵥ Rvec sf x L t)) = 0 := by
      rw [dotProduct_mulVec, vecMul_transpose, hz, zero_dotProduct]
    rw [this, add_zero]
  have e : w ⬝ᵥ (Ky sf x err *ᵥ w) = b ⬝ᵥ (Ky sf x err *ᵥ b) + 2 * ((w - b) ⬝ᵥ (Ky sf x err *ᵥ b)) + (w - b) ⬝ᵥ (Ky sf x err *ᵥ (w - b)) := by
    have hwb := hs w b
    simp only [mulVec_sub, sub_dotProduct, dotProduct_sub]
    linear_combination (-1 : ℝ) * hwb
  rw [e, hc, sub_dotProduct]
  ring

theorem variance_best (h : IsChol (Ky sf x err) L) (hx : ∃ i j, x i ≠ x j) (t : ℝ) : variance sf x L t = quadVar sf x err t (best sf x err L t) := by
  unfold quadVar
  rw [Ky_best h]
  unfold variance
  have e1 : ∑ i, (L⁻¹ *ᵥ ktest sf x t) i ^ 2 = ktest sf x t ⬝ᵥ ((Ky sf x err)⁻¹ *ᵥ ktest sf x t) := by
    rw [← inv_L h, ← mulVec_mulVec, dotProduct_mulVec, ← mulVec_transpose, transpose_nonsing_inv, transpose_transpose]
    exact Finset.sum_congr rfl fun i _ => by ring
  have e2 : best sf x err L t ⬝ᵥ ktest sf x t = ktest sf x t ⬝ᵥ ((Ky sf x err)⁻¹ *ᵥ ktest sf x t) + ((Amat x L)⁻¹ *ᵥ Rvec sf x L t) ⬝ᵥ (Hmat x *ᵥ ((Ky sf x err)⁻¹ *ᵥ ktest sf x t)) := by
    rw [dotProduct_comm]
    unfold best
    rw [mulVec_add, dotProduct_add]
    congr 1
    rw [dotProduct_mulVec, ← mulVec_transpose, Kinv_symm sf x err, dotProduct_mulVec, vecMul_transpose, dotProduct_comm]
  have e3 : best sf x err L t ⬝ᵥ ((Hmat x)ᵀ *ᵥ ((Amat x L)⁻¹ *ᵥ Rvec sf x L t)) = ![1, t] ⬝ᵥ ((Amat x L)⁻¹ *ᵥ Rvec sf x L t) := by
    rw [dotProduct_mulVec, vecMul_transpose, best_unbiased h hx]
  rw [dotProduct_add, e3, e2, e1]
  have e4 : Rvec sf x L t ⬝ᵥ ((Amat x L)⁻¹ *ᵥ Rvec sf x L t) = ![1, t] ⬝ᵥ ((Amat x L)⁻¹ *ᵥ Rvec sf x L t) - (Hmat x *ᵥ ((Ky sf x err)⁻¹ *ᵥ ktest sf x t)) ⬝ᵥ ((Amat x L)⁻¹ *ᵥ Rvec sf x L t) := by
    rw [← sub_dotProduct, ← Rvec_eq h]
  rw [e4, dotProduct_comm ((Amat x L)⁻¹ *ᵥ Rvec sf x L t)]
  ring

/-! ### The prediction error as an integral -/

theorem unb_sum (t : ℝ) (w : Fin n → ℝ) (hw : Unbiased x t w) : ∑ i, w i = 1 ∧ ∑ i, w i * x i = t := by
  have h1 := hw 1 0
  have h2 := hw 0 1
  simpa using And.intro h1 h2

/-- a symmetric kernel applied twice to the error of the prediction -/
noncomputable def form (k : ℝ → ℝ → ℝ) (x : Fin n → ℝ) (t : ℝ) (w : Fin n → ℝ) : ℝ := k t t - 2 * ∑ i, w i * k t (x i) + ∑ i, ∑ j, w i * w j * k (x i) (x j)

/-- terms that are lines in one of the arguments do not matter -/
theorem form_lines (k k' : ℝ → ℝ → ℝ) (p q : ℝ → ℝ) (h : ∀ s t, k s t = k' s t + p s + p t + s * q t + t * q s) (t : ℝ) (w : Fin n → ℝ) (hw : Unbiased x t w) :
    form k x t w = form k' x t w := by
  obtain ⟨h1, h2⟩ := unb_sum t w hw
  unfold form
  have e1 : ∑ i, w i * k t (x i) = ∑ i, w i * k' t (x i) + p t * ∑ i, w i + ∑ i, w i * p (x i) + t * ∑ i, w i * q (x i) + q t * ∑ i, w i * x i := by
    simp only [Finset.mul_sum, ← Finset.sum_add_distrib]
    exact Finset.sum_congr rfl fun i _ => by rw [h]; ring
  have e2 : ∀ i, ∑ j, w i * w j * k (x i) (x j) = ∑ j, w i * w j * k' (x i) (x j) + (w i * p (x i) * ∑ j, w j + w i * ∑ j, w j * p (x j) + w i * x i * ∑ j, w j * q (x j) + w i * q (x i) * ∑ j, w j * x j) := by
    intro i
    simp only [Finset.mul_sum, ← Finset.sum_add_distrib]
    exact Finset.sum_congr rfl fun j _ => by rw [h]; ring
  have e3 : ∑ i, ∑ j, w i * w j * k (x i) (x j) = ∑ i, ∑ j, w i * w j * k' (x i) (x j) + ((∑ i, w i * p (x i)) * (∑ j, w j) + (∑ i, w i) * (∑ j, w j * p (x j)) + (∑ i, w i * x i) * (∑ j, w j * q (x j)) + (∑ i, w i * q (x i)) * (∑ j, w j * x j)) := by
    rw [Finset.sum_congr rfl fun i _ => e2 i, Finset.sum_add_distrib]
    simp only [Finset.sum_add_distrib, Finset.sum_mul]
  rw [e1, e3, h1, h2, h t t]
  ring

theorem kSpline_abs (s t : ℝ) : kSpline s t = |s - t| ^ 3 / 12 + -(s ^ 3) / 12 + -(t ^ 3) / 12 + s * (t ^ 2 / 4) + t * (s ^ 2 / 4) := by
  rcases le_total s t with h | h
  · rw [kSpline_le h, abs_sub_comm, abs_of_nonneg (by linarith)]; ring
  · rw [kSpline_comm, kSpline_le h, abs_of_nonneg (by linarith)]; ring

theorem form_shift (l t : ℝ) (w : Fin n → ℝ) (hw : Unbiased x t w) : form (fun s t => kSpline (s - l) (t - l)) x t w = form kSpline x t w := by
  rw [form_lines kSpline (fun s t => |s - t| ^ 3 / 12) (fun s => -(s ^ 3) / 12) (fun s => s ^ 2 / 4) kSpline_abs t w hw]
  refine form_lines _ _ (fun s => -((s - l) ^ 3) / 12 - l * ((s - l) ^ 2 / 4)) (fun s => (s - l) ^ 2 / 4) (fun s t => ?_) t w hw
  rw [kSpline_abs, show s - l - (t - l) = s - t by ring]
  ring

theorem pos_cont (s : ℝ) : Continuous fun u : ℝ => pos (s - u) := by unfold pos; fun_prop

theorem integral_pos (lo hi s t : ℝ) (hs : lo ≤ s ∧ s ≤ hi) (ht : lo ≤ t ∧ t ≤ hi) : ∫ u in lo..hi, pos (s - u) * pos (t - u) = kSpline (s - lo) (t - lo) := by
  have hc : Continuous fun u : ℝ => pos (s - u) * pos (t - u) := (pos_cont s).mul (pos_cont t)
  rw [← intervalIntegral.integral_add_adjacent_intervals (hc.intervalIntegrable lo (min s t)) (hc.intervalIntegrable (min s t) hi)]
  have hm : lo ≤ min s t := le_min hs.1 ht.1
  have hm' : min s t ≤ hi := (min_le_left _ _).trans hs.2
  have e2 : ∫ u in (min s t)..hi, pos (s - u) * pos (t - u) = 0 := by
    rw [intervalIntegral.integral_congr (g := fun _ => (0 : ℝ)), intervalIntegral.integral_zero]
    intro u hu
    rw [Set.uIcc_of_le hm'] at hu
    show pos (s - u) * pos (t - u) = 0
    rcases min_le_iff.1 hu.1 with h | h
    · rw [pos_of_nonpos (by linarith), zero_mul]
    · rw [pos_of_nonpos (by linarith : t - u ≤ 0), mul_zero]
  have e1 : ∫ u in lo..(min s t), pos (s - u) * pos (t - u) = ∫ u in lo..(min s t), (s - u) * (t - u) := by
    refine intervalIntegral.integral_congr fun u hu => ?_
    rw [Set.uIcc_of_le hm] at hu
    have := le_min_iff.1 hu.2
    rw [pos_of_nonneg (by linarith), pos_of_nonneg (by linarith)]
  rw [e1, e2, add_zero, ← kernel_cov]
  unfold cov
  have := intervalIntegral.integral_comp_add_right (a := 0) (b := min s t - lo) (fun u => (s - u) * (t - u)) lo
  rw [zero_add, sub_add_cancel] at this
  rw [← this, show min (s - lo) (t - lo) = min s t - lo from min_sub_sub_right s t lo]
  exact intervalIntegral.integral_congr fun u _ => by ring

theorem integral_sq (lo hi t : ℝ) (w : Fin n → ℝ) (ht : lo ≤ t ∧ t ≤ hi) (hx : ∀ i, lo ≤ x i ∧ x i ≤ hi) :
    ∫ u in lo..hi, (pos (t - u) - ∑ i, w i * pos (x i - u)) ^ 2 = form (fun s t => kSpline (s - lo) (t - lo)) x t w := by
  have hI : ∀ s t : ℝ, IntervalIntegrable (fun u : ℝ => pos (s - u) * pos (t - u)) MeasureTheory.volume lo hi := fun s t => ((pos_cont s).mul (pos_cont t)).intervalIntegrable _ _
  have e : ∀ u, (pos (t - u) - ∑ i, w i * pos (x i - u)) ^ 2 = pos (t - u) * pos (t - u) - 2 * ∑ i, w i * (pos (t - u) * pos (x i - u)) + ∑ i, ∑ j, w i * w j * (pos (x i - u) * pos (x j - u)) := by
    intro u
    have e1 : ∑ i, w i * (pos (t - u) * pos (x i - u)) = pos (t - u) * ∑ i, w i * pos (x i - u) := by
      rw [Finset.mul_sum]
      exact Finset.sum_congr rfl fun i _ => by ring
    have e2 : ∑ i, ∑ j, w i * w j * (pos (x i - u) * pos (x j - u)) = (∑ i, w i * pos (x i - u)) * ∑ j, w j * pos (x j - u) := by
      rw [Finset.sum_mul_sum]
      exact Finset.sum_congr rfl fun i _ => Finset.sum_congr rfl fun j _ => by ring
    rw [e1, e2]
    ring
  simp only [e]
  have hI1 : ∀ i, IntervalIntegrable (fun u : ℝ => w i * (pos (t - u) * pos (x i - u))) MeasureTheory.volume lo hi := fun i => (hI t (x i)).const_mul _
  have hI2 : ∀ i j, IntervalIntegrable (fun u : ℝ => w i * w j * (pos (x i - u) * pos (x j - u))) MeasureTheory.volume lo hi := fun i j => (hI (x i) (x j)).const_mul _
  have hS1 : IntervalIntegrable (fun u : ℝ => ∑ i, w i * (pos (t - u) * pos (x i - u))) MeasureTheory.volume lo hi :=
    (continuous_finsetSum _ fun i _ => continuous_const.mul ((pos_cont t).mul (pos_cont (x i)))).intervalIntegrable _ _
  have hS2 : ∀ i, IntervalIntegrable (fun u : ℝ => ∑ j, w i * w j * (pos (x i - u) * pos (x j - u))) MeasureTheory.volume lo hi := fun i =>
    (continuous_finsetSum _ fun j _ => continuous_const.mul ((pos_cont (x i)).mul (pos_cont (x j)))).intervalIntegrable _ _
  have hS3 : IntervalIntegrable (fun u : ℝ => ∑ i, ∑ j, w i * w j * (pos (x i - u) * pos (x j - u))) MeasureTheory.volume lo hi :=
    (continuous_finsetSum _ fun i _ => continuous_finsetSum _ fun j _ => continuous_const.mul ((pos_cont (x i)).mul (pos_cont (x j)))).intervalIntegrable _ _
  rw [intervalIntegral.integral_add ((hI t t).sub (hS1.const_mul 2)) hS3, intervalIntegral.integral_sub (hI t t) (hS1.const_mul 2), intervalIntegral.integral_const_mul,
    intervalIntegral.integral_finsetSum fun i _ => hI1 i, intervalIntegral.integral_finsetSum fun i _ => hS2 i]
  unfold form
  dsimp only
  rw [integral_pos lo hi t t ht ht]
  congr 2
  · congr 1
    exact Finset.sum_congr rfl fun i _ => by rw [intervalIntegral.integral_const_mul, integral_pos lo hi t (x i) ht (hx i)]
  · funext i
    rw [intervalIntegral.integral_finsetSum fun j _ => hI2 i j]
    exact Finset.sum_congr rfl fun j _ => by rw [intervalIntegral.integral_const_mul, integral_pos lo hi (x i) (x j) (hx i) (hx j)]

theorem predVar_eq (lo hi t : ℝ) (w : Fin n → ℝ) (ht : lo ≤ t ∧ t ≤ hi) (hx : ∀ i, lo ≤ x i ∧ x i ≤ hi) (hw : Unbiased x t w) :
    predVar lo hi sf x err t w = quadVar sf x err t w := by
  unfold predVar quadVar Ky
  rw [integral_sq lo hi t w ht hx, form_shift lo t w hw, add_mulVec, dotProduct_add]
  unfold form
  have e1 : w ⬝ᵥ ktest sf x t = sf ^ 2 * ∑ i, w i * kSpline t (x i) := by
    simp only [dotProduct, ktest, Finset.mul_sum]
    exact Finset.sum_congr rfl fun i _ => by ring
  have e2 : w ⬝ᵥ (Kmat sf x *ᵥ w) = sf ^ 2 * ∑ i, ∑ j, w i * w j * kSpline (x i) (x j) := by
    simp only [dotProduct, mulVec, Finset.mul_sum, Kmat_apply]
    exact Finset.sum_congr rfl fun i _ => Finset.sum_congr rfl fun j _ => by ring
  have e3 : w ⬝ᵥ (diagonal (fun i => err i ^ 2) *ᵥ w) = ∑ i, w i ^ 2 * err i ^ 2 := by
    unfold dotProduct
    exact Finset.sum_congr rfl fun i _ => by rw [mulVec_diagonal]; ring
  rw [e1, e2, e3]
  ring

/-! ### The curve -/

/-- the weights of the kernel in the curve -/
noncomputable def alpha (sf : ℝ) (x err y : Fin n → ℝ) (L : Matrix (Fin n) (Fin n) ℝ) : Fin n → ℝ := (Ky sf x err)⁻¹ *ᵥ (y - (Hmat x)ᵀ *ᵥ beta x y L)

theorem beta_eq (h : IsChol (Ky sf x err) L) (y : Fin n → ℝ) : beta x y L = (Amat x L)⁻¹ *ᵥ (Hmat x *ᵥ ((Ky sf x err)⁻¹ *ᵥ y)) := by
  unfold beta
  rw [KinvHT_eq h, transpose_mul, transpose_transpose, Kinv_symm, mulVec_mulVec, mulVec_mulVec, Matrix.mul_assoc]

theorem H_alpha (h : IsChol (Ky sf x err) L) (hx : ∃ i j, x i ≠ x j) (y : Fin n → ℝ) : Hmat x *ᵥ alpha sf x err y L = 0 := by
  unfold alpha
  rw [mulVec_sub, mulVec_sub, sub_eq_zero]
  have : Hmat x *ᵥ ((Ky sf x err)⁻¹ *ᵥ ((Hmat x)ᵀ *ᵥ beta x y L)) = Amat x L *ᵥ beta x y L := by
    rw [mulVec_mulVec, mulVec_mulVec, Amat_eq h]
  rw [this, beta_eq h, mulVec_mulVec _ (Amat x L), mul_nonsing_inv _ (det_A h hx), one_mulVec]

theorem Ky_alpha (h : IsChol (Ky sf x err) L) (y : Fin n → ℝ) : Ky sf x err *ᵥ alpha sf x err y L = y - (Hmat x)ᵀ *ᵥ beta x y L := by
  unfold alpha
  rw [mulVec_mulVec, mul_nonsing_inv _ (det_Ky h), one_mulVec]

theorem gbar_eq (h : IsChol (Ky sf x err) L) (y : Fin n → ℝ) : gbar sf x y L = Kmat sf x *ᵥ alpha sf x err y L + (Hmat x)ᵀ *ᵥ beta x y L := by
  unfold gbar alpha
  rw [← Matrix.mul_assoc, inv_L h, transpose_mul, Kmat_symm, Kinv_symm, transpose_sub, transpose_mul, transpose_transpose, Kmat_symm, KinvHT_eq h, sub_mulVec, mulVec_sub,
    mulVec_sub, mulVec_mulVec, mulVec_mulVec, mulVec_mulVec, Matrix.mul_assoc]
  abel

theorem A_symm : (Amat x L)ᵀ = Amat x L := by
  unfold Amat
  rw [transpose_mul, transpose_transpose]

theorem best_dot (h : IsChol (Ky sf x err) L) (y : Fin n → ℝ) (t : ℝ) : best sf x err L t ⬝ᵥ y = ktest sf x t ⬝ᵥ alpha sf x err y L + ![1, t] ⬝ᵥ beta x y L := by
  have e1 : best sf x err L t ⬝ᵥ y = (ktest sf x t + (Hmat x)ᵀ *ᵥ ((Amat x L)⁻¹ *ᵥ Rvec sf x L t)) ⬝ᵥ ((Ky sf x err)⁻¹ *ᵥ y) := by
    unfold best
    rw [dotProduct_mulVec, ← mulVec_transpose, Kinv_symm]
  have e2 : ((Hmat x)ᵀ *ᵥ ((Amat x L)⁻¹ *ᵥ Rvec sf x L t)) ⬝ᵥ ((Ky sf x err)⁻¹ *ᵥ y) = Rvec sf x L t ⬝ᵥ beta x y L := by
    rw [mulVec_transpose, ← dotProduct_mulVec, beta_eq h, dotProduct_mulVec (Rvec sf x L t), ← mulVec_transpose, transpose_nonsing_inv, A_symm]
  have e3 : ktest sf x t ⬝ᵥ alpha sf x err y L = ktest sf x t ⬝ᵥ ((Ky sf x err)⁻¹ *ᵥ y) - (Hmat x *ᵥ ((Ky sf x err)⁻¹ *ᵥ ktest sf x t)) ⬝ᵥ beta x y L := by
    unfold alpha
    rw [mulVec_sub, dotProduct_sub]
    congr 1
    rw [dotProduct_mulVec, ← mulVec_transpose, Kinv_symm, dotProduct_mulVec, vecMul_transpose]
  rw [e1, add_dotProduct, e2, e3, Rvec_eq h, sub_dotProduct]
  ring

theorem kSpline_cub (s z : ℝ) : kSpline z s = cub s z + (s ^ 2 * z / 2 - s ^ 3 / 6) := by
  unfold cub
  rcases le_total z s with h | h
  · rw [kSpline_le h, pos_of_nonneg (by linarith)]; ring
  · rw [kSpline_comm, kSpline_le h, pos_of_nonpos (by linarith)]; ring

theorem sum_sorted (pts : List (ℝ × ℝ)) (f : ℝ → ℝ) :
    ∑ i ∈ Finset.range pts.length, f ((pts.insertionSort (fun a b => a.1 ≤ b.1)).getD i (0, 0)).1 = (pts.map fun p => f p.1).sum := by
  have hperm : (pts.insertionSort (fun a b => a.1 ≤ b.1)).Perm pts := List.perm_insertionSort _ _
  rw [← (hperm.map fun p => f p.1).sum_eq, ← hperm.length_eq]
  generalize pts.insertionSort (fun a b => a.1 ≤ b.1) = s
  induction s with
  | nil => rfl
  | cons p s ih =>
    rw [List.length_cons, Finset.sum_range_succ', List.map_cons, List.sum_cons, ← ih, add_comm]
    rfl

theorem curve_eq (h : IsChol (Ky sf x err) L) (hn : 2 ≤ n) (hx : Function.Injective x) (y : Fin n → ℝ) : curve sf x y L = .ok fun t => best sf x err L t ⬝ᵥ y := by
  have hxx : ∃ i j, x i ≠ x j := ⟨⟨0, by omega⟩, ⟨1, by omega⟩, fun e => by simpa using hx e⟩
  set g := gbar sf x y L with hg
  set pts := List.ofFn (fun i => (x i, g i)) with hpts
  set a : Fin n → ℝ := fun i => sf ^ 2 * alpha sf x err y L i with ha
  set b := beta x y L with hb
  have hlen : pts.length = n := by rw [hpts, List.length_ofFn]
  have hnd : (pts.map Prod.fst).Nodup := by
    rw [hpts, List.map_ofFn]
    exact List.nodup_ofFn.2 hx
  set s := pts.insertionSort (fun a b => a.1 ≤ b.1) with hs
  have hperm : s.Perm pts := List.perm_insertionSort _ _
  have hsum : ∀ f : ℝ → ℝ, ∑ i ∈ Finset.range n, f (s.getD i (0, 0)).1 = ∑ i, f (x i) := by
    intro f
    have := sum_sorted pts f
    rw [hlen] at this
    rw [this, hpts, List.map_ofFn, List.sum_ofFn]
    rfl
  set av : ℝ → ℝ := fun z => ∑ i, if x i = z then a i else 0 with hav
  have hava : ∀ i, av (x i) = a i := by
    intro i
    simp only [hav, hx.eq_iff, Finset.sum_ite_eq', Finset.mem_univ, if_true]
  have hal := H_alpha h hxx y
  rw [H_mulVec] at hal
  have hal0 : ∑ i, alpha sf x err y L i = 0 := by simpa using congrFun hal 0
  have hal1 : ∑ i, alpha sf x err y L i * x i = 0 := by simpa using congrFun hal 1
  have h0 : ∑ i, a i = 0 := by rw [ha, ← Finset.mul_sum, hal0, mul_zero]
  have h1 : ∑ i, a i * x i = 0 := by
    simp only [ha, mul_assoc]
    rw [← Finset.mul_sum, hal1, mul_zero]
  set c := b 0 - ∑ i, a i * (x i ^ 3 / 6) with hc
  set d := b 1 + ∑ i, a i * (x i ^ 2 / 2) with hd
  have hP : ∀ t, ktest sf x t ⬝ᵥ alpha sf x err y L + ![1, t] ⬝ᵥ b = combo n (fun i => av (s.getD i (0, 0)).1) (fun i => (s.getD i (0, 0)).1) c d t := by
    intro t
    unfold combo
    rw [hsum fun z => av z * cub z t]
    have e1 : ktest sf x t ⬝ᵥ alpha sf x err y L = ∑ i, a i * cub (x i) t + (t * ∑ i, a i * (x i ^ 2 / 2) - ∑ i, a i * (x i ^ 3 / 6)) := by
      simp only [dotProduct, ktest, Finset.mul_sum]
      rw [← Finset.sum_sub_distrib, ← Finset.sum_add_distrib]
      exact Finset.sum_congr rfl fun i _ => by rw [kSpline_cub]; simp only [ha]; ring
    have e2 : ![1, t] ⬝ᵥ b = b 0 + b 1 * t := by
      simp [dotProduct, Fin.sum_univ_two, mul_comm]
    rw [e1, e2, hc, hd]
    simp only [hava]
    ring
  have hgk : ∀ i, g i = ktest sf x (x i) ⬝ᵥ alpha sf x err y L + ![1, x i] ⬝ᵥ b := by
    intro i
    rw [hg, gbar_eq h, Pi.add_apply, HT_mulVec]
    congr 1
    · simp only [mulVec, dotProduct, Kmat_apply, ktest]
    · simp [dotProduct, Fin.sum_univ_two, mul_comm, hb]
  have hmk : mkSpline pts none none = .ok (compute (fun i => (s.getD i (0, 0)).1) (fun i => (s.getD i (0, 0)).2) n none none) := by
    unfold mkSpline
    rw [if_neg (by omega), hlen]
  unfold curve
  rw [← hpts, hmk]
  show Except.ok _ = Except.ok _
  congr 1
  funext t
  rw [best_dot h, hP]
  have hinc := sorted_inc pts hnd
  rw [hlen] at hinc
  refine natural_eval hn hinc _ c d ?_ ?_ ?_ t
  · rw [hsum av, ← h0]
    exact Finset.sum_congr rfl fun i _ => hava i
  · rw [hsum fun z => av z * z, ← h1]
    exact Finset.sum_congr rfl fun i _ => by rw [hava]
  · intro k hk
    have hk' : k < s.length := by rw [hperm.length_eq, hlen]; exact hk
    have hmem : s.getD k (0, 0) ∈ pts := by
      rw [List.getD_eq_getElem?_getD, List.getElem?_eq_getElem hk']
      exact hperm.mem_iff.1 (List.getElem_mem hk')
    rw [hpts, List.mem_ofFn] at hmem
    obtain ⟨i, hi⟩ := hmem
    rw [← hP, ← hi]
    exact hgk i

/-- C99. The smoothed curve is, at every point, the best linear unbiased prediction: its value is a sum Σ w_i y_i that is right for every line, `variance` is the mean squared error of that
prediction, and every other prediction that is right for lines has a larger mean squared error. The random functions meant are lines plus `sigmaf` times twice integrated white noise. -/
theorem gpr_best (h : IsChol (Ky sf x err) L) (hn : 2 ≤ n) (hx : Function.Injective x) :
    ∃ W : ℝ → Fin n → ℝ, (∀ y, curve sf x y L = .ok fun t => ∑ i, W t i * y i) ∧
      ∀ t, Unbiased x t (W t) ∧ ∀ lo hi, (lo ≤ t ∧ t ≤ hi) → (∀ i, lo ≤ x i ∧ x i ≤ hi) →
        variance sf x L t = predVar lo hi sf x err t (W t) ∧ ∀ w, Unbiased x t w → w ≠ W t → predVar lo hi sf x err t (W t) < predVar lo hi sf x err t w := by
  have hxx : ∃ i j, x i ≠ x j := ⟨⟨0, by omega⟩, ⟨1, by omega⟩, fun e => by simpa using hx e⟩
  refine ⟨best sf x err L, fun y => curve_eq h hn hx y, fun t => ?_⟩
  have hu := (unbiased_iff x t _).2 (best_unbiased h hxx t)
  refine ⟨hu, fun lo hi ht hlh => ⟨?_, fun w hw hne => ?_⟩⟩
  · rw [predVar_eq lo hi t _ ht hlh hu, variance_best h hxx]
  · rw [predVar_eq lo hi t _ ht hlh hu, predVar_eq lo hi t w ht hlh hw, quadVar_diff h hxx t w ((unbiased_iff x t w).1 hw)]
    have hq := quad_pos h (w - best sf x err L t)
    have : (w - best sf x err L t) ⬝ᵥ (Ky sf x err *ᵥ (w - best sf x err L t)) ≠ 0 := fun e => hne (sub_eq_zero.1 (hq.2 e))
    have := lt_of_le_of_ne hq.1 (Ne.symm this)
    linarith

/-- C99. Points on a line are reproduced, everywhere. -/
theorem gpr_line (h : IsChol (Ky sf x err) L) (hn : 2 ≤ n) (hx : Function.Injective x) (a b : ℝ) : curve sf x (fun i => a + b * x i) L = .ok fun t => a + b * t := by
  obtain ⟨W, h1, h2⟩ := gpr_best h hn hx
  rw [h1]
  congr 1
  funext t
  exact (h2 t).1 a b

/-- C99. The variance is never negative, and it is the diagonal of `covariance`. -/
theorem variance_nonneg (h : IsChol (Ky sf x err) L) (hn : 2 ≤ n) (hx : Function.Injective x) (t : ℝ) : 0 ≤ variance sf x L t ∧ covariance sf x L t t = variance sf x L t := by
  constructor
  · obtain ⟨W, _, h2⟩ := gpr_best h hn hx
    obtain ⟨lo, hlo⟩ := (Set.finite_range x).bddBelow
    obtain ⟨hi, hhi⟩ := (Set.finite_range x).bddAbove
    rw [((h2 t).2 (min lo t) (max hi t) ⟨min_le_right _ _, le_max_right _ _⟩
      fun i => ⟨(min_le_left _ _).trans (hlo ⟨i, rfl⟩), (hhi ⟨i, rfl⟩).trans (le_max_left _ _)⟩).1]
    unfold predVar
    refine add_nonneg (mul_nonneg (sq_nonneg _) ?_) (Finset.sum_nonneg fun i _ => by positivity)
    exact intervalIntegral.integral_nonneg ((min_le_right _ _).trans (le_max_right _ _)) fun u _ => sq_nonneg _
  · unfold covariance variance dotProduct
    congr 2
    exact Finset.sum_congr rfl fun i _ => by ring

/-- C99. `covariance` does not depend on the order of its points. -/
theorem covariance_symm (s t : ℝ) : covariance sf x L s t = covariance sf x L t s := by
  unfold covariance
  rw [kSpline_comm, dotProduct_comm (L⁻¹ *ᵥ ktest sf x s)]
  congr 1
  rw [dotProduct_mulVec, ← mulVec_transpose, transpose_nonsing_inv, A_symm, dotProduct_comm]

end

end Mass.Calc.Gpr
