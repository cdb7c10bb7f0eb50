import Verif.Calc.GprSmooth
import Mathlib.Analysis.SpecialFunctions.Gaussian.GaussianIntegral
import Mathlib.LinearAlgebra.Matrix.SchurComplement
/-! C161: the choice of sigmaf (mass/mathstat/interpolate.py, GPRSpline.best_sigmaf and _marginal_like). Over the reals. -/
namespace Mass.Calc.Evidence
open Mass Mass.Calc Mass.Calc.Gpr Matrix

variable {n : Nat}

/-- C of `_marginal_like`, interpolate.py L334 -/
noncomputable def Cmat (x : Fin n → ℝ) (L : Matrix (Fin n) (Fin n) ℝ) : Matrix (Fin n) (Fin n) ℝ := KinvHT x L * ((Amat x L)⁻¹ * (KinvHT x L)ᵀ)

/-- The value of `_marginal_like`, interpolate.py L335-338, with the Cholesky factor `L` of `Ky sf x err` (L322-333 are the same lines as in the constructor). The second result of
`slogdet` is the logarithm of the size of the determinant; for a singular matrix it is -inf, here 0. -/
noncomputable def value (sf : ℝ) (x err y : Fin n → ℝ) (L : Matrix (Fin n) (Fin n) ℝ) : ℝ :=
  -(1 / 2) * (((n : ℝ) - 2) * Real.log (2 * Real.pi) + Real.log |(Amat x L).det| + Real.log |(Ky sf x err).det| - y ⬝ᵥ (Cmat x L *ᵥ y) + (L⁻¹ *ᵥ y) ⬝ᵥ (L⁻¹ *ᵥ y))

open Classical in
/-- `_marginal_like`, interpolate.py L321-338. `cholesky` raises LinAlgError, which is a ValueError, if there is no factor. -/
noncomputable def marginalLike (x err y : Fin n → ℝ) (sf : ℝ) : Except Exc ℝ := if h : ∃ L, IsChol (Ky sf x err) L then .ok (value sf x err y h.choose) else .error .value

/-- `best_sigmaf`, interpolate.py L311-319. `search` is `scipy.optimize.minimize_scalar` for a function and the two numbers of the bracket; it gives `success` and `x`, and passes on
what the function raises. `med` is `np.median`. -/
noncomputable def bestSigmaf (search : (ℝ → Except Exc ℝ) → ℝ → ℝ → Except Exc (Bool × ℝ)) (med : List ℝ → ℝ) (x err y : Fin n → ℝ) : Except Exc ℝ :=
  let guess := med (List.ofFn fun i => err i / y i)
  match search (fun s => (marginalLike x err y s).map fun v => -v) (guess / 10000) (guess * 10000) with
  | .error e => .error e
  | .ok (true, s) => .ok |s|
  | .ok (false, _) => .error .value

/-- density at `v` of the Gaussian distribution with mean 0 and the covariances `S` [specification] -/
noncomputable def density (S : Matrix (Fin n) (Fin n) ℝ) (v : Fin n → ℝ) : ℝ := (Real.sqrt ((2 * Real.pi) ^ n * S.det))⁻¹ * Real.exp (-(1 / 2) * (v ⬝ᵥ (S⁻¹ *ᵥ v)))

/-- covariances of the data about their line: `sf` times twice integrated white noise that starts at 0, and independent errors [specification] -/
noncomputable def spread (sf : ℝ) (x err : Fin n → ℝ) : Matrix (Fin n) (Fin n) ℝ := fun i j => sf ^ 2 * cov (x i) (x j) + if i = j then err i ^ 2 else 0

/-- The probability density of the data, for a line about which nothing is known: the density for each line, added up over all lines a + b x. [specification] -/
noncomputable def evidence (sf : ℝ) (x err y : Fin n → ℝ) : ℝ := ∫ a : ℝ, ∫ b : ℝ, density (spread sf x err) fun i => y i - (a + b * x i)

/-! ### Gaussian integrals -/

theorem gauss1 (c r : ℝ) : ∫ b : ℝ, Real.exp (-(1 / 2) * (r * (b - c) ^ 2)) = Real.sqrt (2 * Real.pi / r) := by
  have h := integral_gaussian (r / 2)
  have e : ∀ b : ℝ, Real.exp (-(1 / 2) * (r * (b - c) ^ 2)) = (fun t : ℝ => Real.exp (-(r / 2) * t ^ 2)) (b - c) := fun b => by
    show Real.exp _ = Real.exp _
    congr 1
    ring
  simp_rw [e]
  rw [MeasureTheory.integral_sub_right_eq_self (fun t : ℝ => Real.exp (-(r / 2) * t ^ 2)) c, h]
  congr 1
  field_simp

theorem gauss2 (p q r a0 b0 : ℝ) (hr : 0 < r) (hd : 0 < p * r - q ^ 2) :
    ∫ a : ℝ, ∫ b : ℝ, Real.exp (-(1 / 2) * (p * (a - a0) ^ 2 + 2 * q * (a - a0) * (b - b0) + r * (b - b0) ^ 2)) = 2 * Real.pi / Real.sqrt (p * r - q ^ 2) := by
  have hpi := Real.pi_pos
  have e : ∀ a b : ℝ, Real.exp (-(1 / 2) * (p * (a - a0) ^ 2 + 2 * q * (a - a0) * (b - b0) + r * (b - b0) ^ 2)) =
      Real.exp (-(1 / 2) * ((p - q ^ 2 / r) * (a - a0) ^ 2)) * Real.exp (-(1 / 2) * (r * (b - (b0 - q / r * (a - a0))) ^ 2)) := fun a b => by
    rw [← Real.exp_add]
    congr 1
    field_simp
    ring
  simp_rw [e, MeasureTheory.integral_const_mul, gauss1, MeasureTheory.integral_mul_const, gauss1]
  rw [← Real.sqrt_mul (by
    have : p - q ^ 2 / r = (p * r - q ^ 2) / r := by field_simp
    rw [this]
    positivity)]
  have : 2 * Real.pi / (p - q ^ 2 / r) * (2 * Real.pi / r) = (2 * Real.pi) ^ 2 / (p * r - q ^ 2) := by
    have h1 : p - q ^ 2 / r = (p * r - q ^ 2) / r := by field_simp
    rw [h1]
    field_simp
  rw [this, Real.sqrt_div (by positivity), Real.sqrt_sq (by positivity)]

/-! ### Linear algebra -/

section
variable {sf : ℝ} {x err : Fin n → ℝ} {L : Matrix (Fin n) (Fin n) ℝ}

theorem spread_eq : spread sf x err = Ky sf x err := by
  ext i j
  unfold spread Ky
  rw [Matrix.add_apply, Kmat_apply, kernel_cov, diagonal_apply]

theorem detKy_pos (h : IsChol (Ky sf x err) L) : 0 < (Ky sf x err).det := by
  rw [← h.1, det_mul, det_transpose]
  exact mul_self_pos.2 (det_L h).ne_zero

theorem A_quad (v : Fin 2 → ℝ) : v ⬝ᵥ (Amat x L *ᵥ v) = (LH x L *ᵥ v) ⬝ᵥ (LH x L *ᵥ v) := by
  unfold Amat
  rw [← mulVec_mulVec, dotProduct_mulVec, vecMul_transpose]

theorem A_nonneg (v : Fin 2 → ℝ) : 0 ≤ v ⬝ᵥ (Amat x L *ᵥ v) := by
  rw [A_quad]
  exact Finset.sum_nonneg fun i _ => mul_self_nonneg _

theorem A_form (v : Fin 2 → ℝ) : v ⬝ᵥ (Amat x L *ᵥ v) = Amat x L 0 0 * v 0 ^ 2 + 2 * Amat x L 0 1 * v 0 * v 1 + Amat x L 1 1 * v 1 ^ 2 := by
  have hs : Amat x L 1 0 = Amat x L 0 1 := congrFun (congrFun (A_symm (x := x) (L := L)) 0) 1
  simp [dotProduct, mulVec, Fin.sum_univ_two, hs]
  ring

theorem A_det : (Amat x L).det = Amat x L 0 0 * Amat x L 1 1 - Amat x L 0 1 ^ 2 := by
  have hs : Amat x L 1 0 = Amat x L 0 1 := congrFun (congrFun (A_symm (x := x) (L := L)) 0) 1
  rw [det_fin_two, hs]
  ring

theorem A_pos (h : IsChol (Ky sf x err) L) (hx : ∃ i j, x i ≠ x j) : 0 < Amat x L 1 1 ∧ 0 < (Amat x L).det := by
  have hdet := (det_A h hx).ne_zero
  have h0 := A_nonneg (x := x) (L := L) ![1, 0]
  have h1 := A_nonneg (x := x) (L := L) ![0, 1]
  have h2 := A_nonneg (x := x) (L := L) ![Amat x L 1 1, -Amat x L 0 1]
  have h3 := A_nonneg (x := x) (L := L) ![1, -Amat x L 0 1]
  rw [A_form] at h0 h1 h2 h3
  simp at h0 h1 h2 h3
  rw [A_det] at hdet ⊢
  have hne : Amat x L 1 1 ≠ 0 := by
    intro hz
    rw [hz] at h3 hdet
    have hq : Amat x L 0 1 ≠ 0 := fun e => hdet (by rw [e]; ring)
    have h4 := A_nonneg (x := x) (L := L) ![1, -(Amat x L 0 0 + 1) / Amat x L 0 1]
    rw [A_form, hz] at h4
    have h5 : Amat x L 0 1 * (-(Amat x L 0 0 + 1) / Amat x L 0 1) = -(Amat x L 0 0 + 1) := by field_simp
    have h6 : (![1, -(Amat x L 0 0 + 1) / Amat x L 0 1] : Fin 2 → ℝ) 0 = 1 := rfl
    have h7 : (![1, -(Amat x L 0 0 + 1) / Amat x L 0 1] : Fin 2 → ℝ) 1 = -(Amat x L 0 0 + 1) / Amat x L 0 1 := rfl
    rw [h6, h7] at h4
    linarith
  have hp := lt_of_le_of_ne h1 (Ne.symm hne)
  refine ⟨hp, lt_of_le_of_ne ?_ (Ne.symm hdet)⟩
  have h5 : 0 ≤ Amat x L 1 1 * (Amat x L 0 0 * Amat x L 1 1 - Amat x L 0 1 ^ 2) := by nlinarith
  exact nonneg_of_mul_nonneg_right h5 hp

theorem Linv_quad (h : IsChol (Ky sf x err) L) (y : Fin n → ℝ) : (L⁻¹ *ᵥ y) ⬝ᵥ (L⁻¹ *ᵥ y) = y ⬝ᵥ ((Ky sf x err)⁻¹ *ᵥ y) := by
  rw [← inv_L h, ← mulVec_mulVec, dotProduct_mulVec y, ← mulVec_transpose, transpose_nonsing_inv, transpose_transpose]

theorem C_quad (h : IsChol (Ky sf x err) L) (y : Fin n → ℝ) : y ⬝ᵥ (Cmat x L *ᵥ y) = (Hmat x *ᵥ ((Ky sf x err)⁻¹ *ᵥ y)) ⬝ᵥ beta x y L := by
  unfold Cmat
  have hb : beta x y L = ((Amat x L)⁻¹ * (KinvHT x L)ᵀ) *ᵥ y := rfl
  rw [← mulVec_mulVec, ← hb, dotProduct_mulVec, ← mulVec_transpose, KinvHT_eq h, transpose_mul, transpose_transpose, Kinv_symm, mulVec_mulVec]

/-- the two quadratic forms are one -/
theorem quad_alpha (h : IsChol (Ky sf x err) L) (y : Fin n → ℝ) : -(y ⬝ᵥ (Cmat x L *ᵥ y)) + (L⁻¹ *ᵥ y) ⬝ᵥ (L⁻¹ *ᵥ y) = y ⬝ᵥ alpha sf x err y L := by
  rw [C_quad h, Linv_quad h]
  unfold alpha
  rw [mulVec_sub, dotProduct_sub]
  have : y ⬝ᵥ ((Ky sf x err)⁻¹ *ᵥ ((Hmat x)ᵀ *ᵥ beta x y L)) = (Hmat x *ᵥ ((Ky sf x err)⁻¹ *ᵥ y)) ⬝ᵥ beta x y L := by
    rw [dotProduct_mulVec, ← mulVec_transpose, Kinv_symm, dotProduct_mulVec, vecMul_transpose]
  rw [this]
  ring

theorem value_eq (h : IsChol (Ky sf x err) L) (hx : ∃ i j, x i ≠ x j) (y : Fin n → ℝ) :
    value sf x err y L = -(1 / 2) * (((n : ℝ) - 2) * Real.log (2 * Real.pi) + Real.log ((Amat x L).det * (Ky sf x err).det) + y ⬝ᵥ alpha sf x err y L) := by
  unfold value
  rw [abs_of_pos (A_pos h hx).2, abs_of_pos (detKy_pos h), Real.log_mul (A_pos h hx).2.ne' (detKy_pos h).ne', ← quad_alpha h]
  ring

/-- completing the square -/
theorem complete (h : IsChol (Ky sf x err) L) (hx : ∃ i j, x i ≠ x j) (y : Fin n → ℝ) (a b : ℝ) :
    (fun i => y i - (a + b * x i)) ⬝ᵥ ((Ky sf x err)⁻¹ *ᵥ fun i => y i - (a + b * x i)) =
      y ⬝ᵥ alpha sf x err y L + (Amat x L 0 0 * (a - beta x y L 0) ^ 2 + 2 * Amat x L 0 1 * (a - beta x y L 0) * (b - beta x y L 1) + Amat x L 1 1 * (b - beta x y L 1) ^ 2) := by
  set P := (Ky sf x err)⁻¹ with hP
  have hPs : Pᵀ = P := Kinv_symm sf x err
  set d : Fin 2 → ℝ := ![a - beta x y L 0, b - beta x y L 1] with hd
  have hsplit : (fun i => y i - (a + b * x i)) = (y - (Hmat x)ᵀ *ᵥ beta x y L) - (Hmat x)ᵀ *ᵥ d := by
    funext i
    rw [Pi.sub_apply, Pi.sub_apply, HT_mulVec, HT_mulVec]
    simp [hd]
    ring
  have hal : P *ᵥ (y - (Hmat x)ᵀ *ᵥ beta x y L) = alpha sf x err y L := rfl
  have hform := A_form (x := x) (L := L) d
  have hd0 : d 0 = a - beta x y L 0 := rfl
  have hd1 : d 1 = b - beta x y L 1 := rfl
  rw [hd0, hd1] at hform
  rw [← hform, hsplit, mulVec_sub, hal, sub_dotProduct, dotProduct_sub, dotProduct_sub]
  have hH := H_alpha h hx y
  have h1 : ∀ v : Fin 2 → ℝ, ((Hmat x)ᵀ *ᵥ v) ⬝ᵥ alpha sf x err y L = 0 := fun v => by
    rw [mulVec_transpose, ← dotProduct_mulVec, hH, dotProduct_zero]
  have h2 : (y - (Hmat x)ᵀ *ᵥ beta x y L) ⬝ᵥ alpha sf x err y L = y ⬝ᵥ alpha sf x err y L := by rw [sub_dotProduct, h1, sub_zero]
  have h3 : (y - (Hmat x)ᵀ *ᵥ beta x y L) ⬝ᵥ (P *ᵥ ((Hmat x)ᵀ *ᵥ d)) = 0 := by
    rw [dotProduct_mulVec, ← mulVec_transpose, hPs, hal, dotProduct_comm]
    exact h1 d
  have h4 : ((Hmat x)ᵀ *ᵥ d) ⬝ᵥ (P *ᵥ ((Hmat x)ᵀ *ᵥ d)) = d ⬝ᵥ (Amat x L *ᵥ d) := by
    rw [Amat_eq h, mulVec_transpose, ← dotProduct_mulVec, ← mulVec_transpose, mulVec_mulVec, mulVec_mulVec]
  rw [h2, h1, h3, h4]
  ring

theorem value_evidence (h : IsChol (Ky sf x err) L) (hx : ∃ i j, x i ≠ x j) (y : Fin n → ℝ) : Real.exp (value sf x err y L) = evidence sf x err y := by
  have hA := A_pos h hx
  have hK := detKy_pos h
  have hpi := Real.pi_pos
  unfold evidence density
  rw [spread_eq]
  simp_rw [complete h hx y, mul_add (-(1 / 2) : ℝ) (y ⬝ᵥ alpha sf x err y L), Real.exp_add, MeasureTheory.integral_const_mul]
  rw [gauss2 _ _ _ _ _ hA.1 (by rw [← A_det]; exact hA.2), ← A_det]
  refine Real.log_injOn_pos (Set.mem_Ioi.2 (Real.exp_pos _)) (Set.mem_Ioi.2 (by have := hA.2; positivity)) ?_
  have hAd := hA.2
  have e1 : Real.log (Real.sqrt ((2 * Real.pi) ^ n * (Ky sf x err).det))⁻¹ = -((n * Real.log (2 * Real.pi) + Real.log (Ky sf x err).det) / 2) := by
    rw [Real.log_inv, Real.log_sqrt (by positivity), Real.log_mul (by positivity) hK.ne', Real.log_pow]
  have e2 : Real.log (2 * Real.pi / Real.sqrt (Amat x L).det) = Real.log (2 * Real.pi) - Real.log (Amat x L).det / 2 := by
    rw [Real.log_div (by positivity) (by positivity), Real.log_sqrt hAd.le]
  have e3 : Real.log ((Real.sqrt ((2 * Real.pi) ^ n * (Ky sf x err).det))⁻¹ * (Real.exp (-(1 / 2) * y ⬝ᵥ alpha sf x err y L) * (2 * Real.pi / Real.sqrt (Amat x L).det))) =
      Real.log (Real.sqrt ((2 * Real.pi) ^ n * (Ky sf x err).det))⁻¹ + (-(1 / 2) * y ⬝ᵥ alpha sf x err y L + Real.log (2 * Real.pi / Real.sqrt (Amat x L).det)) := by
    rw [Real.log_mul (by positivity) (by positivity), Real.log_mul (Real.exp_pos _).ne' (by positivity), Real.log_exp]
  rw [Real.log_exp, value_eq h hx, e3, e1, e2, Real.log_mul hAd.ne' hK.ne']
  ring

/-! ### Changes of line, origin and units -/

theorem alpha_unique (h : IsChol (Ky sf x err) L) (hx : ∃ i j, x i ≠ x j) (y u : Fin n → ℝ) (b : Fin 2 → ℝ) (h1 : Ky sf x err *ᵥ u + (Hmat x)ᵀ *ᵥ b = y) (h2 : Hmat x *ᵥ u = 0) :
    alpha sf x err y L = u := by
  have hK := Ky_alpha h y
  have hH := H_alpha h hx y
  set a := alpha sf x err y L
  have hd : Ky sf x err *ᵥ (a - u) = (Hmat x)ᵀ *ᵥ (b - beta x y L) := by
    rw [mulVec_sub, mulVec_sub, hK, ← h1]
    abel
  have h0 : Hmat x *ᵥ (a - u) = 0 := by rw [mulVec_sub, hH, h2, sub_zero]
  have hq : (a - u) ⬝ᵥ (Ky sf x err *ᵥ (a - u)) = 0 := by
    rw [hd, dotProduct_mulVec, vecMul_transpose, h0, zero_dotProduct]
  exact sub_eq_zero.1 ((quad_pos h (a - u)).2 hq)

/-- the covariances bordered by the lines -/
noncomputable def bord (S : Matrix (Fin n) (Fin n) ℝ) (H : Matrix (Fin 2) (Fin n) ℝ) : Matrix (Fin n ⊕ Fin 2) (Fin n ⊕ Fin 2) ℝ := fromBlocks S Hᵀ H 0

theorem bord_det (h : IsChol (Ky sf x err) L) : (Amat x L).det * (Ky sf x err).det = (bord (Ky sf x err) (Hmat x)).det := by
  haveI := invertibleOfIsUnitDet _ (det_Ky h)
  unfold bord
  rw [det_fromBlocks₁₁, zero_sub, det_neg, invOf_eq_nonsing_inv, ← Amat_eq h]
  simp
  ring

theorem bord_lines (S : Matrix (Fin n) (Fin n) ℝ) (H U : Matrix (Fin 2) (Fin n) ℝ) : (bord (S + Uᵀ * H + Hᵀ * U) H).det = (bord S H).det := by
  have e : bord (S + Uᵀ * H + Hᵀ * U) H = fromBlocks 1 Uᵀ 0 1 * bord S H * fromBlocks 1 0 U 1 := by
    unfold bord
    rw [fromBlocks_multiply, fromBlocks_multiply]
    simp
  rw [e, det_mul, det_mul, det_fromBlocks_zero₂₁, det_fromBlocks_zero₁₂]
  simp

theorem bord_change (S : Matrix (Fin n) (Fin n) ℝ) (H : Matrix (Fin 2) (Fin n) ℝ) (T : Matrix (Fin 2) (Fin 2) ℝ) : (bord S (T * H)).det = T.det ^ 2 * (bord S H).det := by
  have e : bord S (T * H) = fromBlocks 1 0 0 T * bord S H * fromBlocks 1 0 0 Tᵀ := by
    unfold bord
    rw [fromBlocks_multiply, fromBlocks_multiply]
    simp [transpose_mul]
  rw [e, det_mul, det_mul, det_fromBlocks_zero₂₁, det_fromBlocks_zero₂₁]
  simp
  ring

/-- other abscissas that give the same covariances up to lines -/
theorem value_change {sf' : ℝ} {x' err' : Fin n → ℝ} {L' : Matrix (Fin n) (Fin n) ℝ} (h : IsChol (Ky sf x err) L) (h' : IsChol (Ky sf' x' err') L') (hx : ∃ i j, x i ≠ x j)
    (hx' : ∃ i j, x' i ≠ x' j) (U : Matrix (Fin 2) (Fin n) ℝ) (T : Matrix (Fin 2) (Fin 2) ℝ) (hT : T.det ≠ 0) (hH : Hmat x' = T * Hmat x)
    (hK : Ky sf' x' err' = Ky sf x err + Uᵀ * Hmat x + (Hmat x)ᵀ * U) (y : Fin n → ℝ) :
    value sf' x' err' y L' = value sf x err y L - Real.log |T.det| := by
  have hdet : (Amat x' L').det * (Ky sf' x' err').det = T.det ^ 2 * ((Amat x L).det * (Ky sf x err).det) := by
    rw [bord_det h', bord_det h, hH, hK, bord_change, bord_lines]
  have hal : alpha sf' x' err' y L' = alpha sf x err y L := by
    have hHa := H_alpha h hx y
    refine alpha_unique h' hx' y _ ((Tᵀ)⁻¹ *ᵥ (beta x y L - U *ᵥ alpha sf x err y L)) ?_ ?_
    · rw [hK, hH, transpose_mul, ← mulVec_mulVec, mulVec_mulVec _ Tᵀ, mul_nonsing_inv _ (by rw [det_transpose]; exact hT.isUnit), one_mulVec, add_mulVec, add_mulVec, Ky_alpha h,
        ← mulVec_mulVec, hHa, mulVec_zero, ← mulVec_mulVec, mulVec_sub]
      abel
    · rw [hH, ← mulVec_mulVec, hHa, mulVec_zero]
  have hp : 0 < (Amat x L).det * (Ky sf x err).det := mul_pos (A_pos h hx).2 (detKy_pos h)
  rw [value_eq h hx, value_eq h' hx', hal, hdet, Real.log_mul (by positivity) hp.ne', Real.log_pow, ← Real.log_abs T.det]
  push_cast
  ring

end

theorem marginal_ok {x err : Fin n → ℝ} {sf : ℝ} (y : Fin n → ℝ) (h : ∃ L, IsChol (Ky sf x err) L) : ∃ L, IsChol (Ky sf x err) L ∧ marginalLike x err y sf = .ok (value sf x err y L) := by
  refine ⟨h.choose, h.choose_spec, ?_⟩
  unfold marginalLike
  rw [dif_pos h]

/-- C161. `_marginal_like` is the logarithm of the probability density of the data, added up over all lines. -/
theorem like_evidence (x err y : Fin n → ℝ) (sf : ℝ) (hx : ∀ i, 0 ≤ x i) (he : ∀ i, err i ≠ 0) (hd : ∃ i j, x i ≠ x j) :
    marginalLike x err y sf = .ok (Real.log (evidence sf x err y)) ∧ 0 < evidence sf x err y := by
  obtain ⟨L, hL, hm⟩ := marginal_ok y (gpr_works (sf := sf) hx he)
  have h := value_evidence hL hd y
  rw [hm, ← h, Real.log_exp]
  exact ⟨rfl, Real.exp_pos _⟩


/-- a search that says it succeeded has found the smallest value, if the function never raises [specification] -/
def Finds (search : (ℝ → Except Exc ℝ) → ℝ → ℝ → Except Exc (Bool × ℝ)) : Prop :=
  ∀ (f : ℝ → Except Exc ℝ) (g : ℝ → ℝ) (a b s : ℝ), (∀ t, f t = .ok (g t)) → search f a b = .ok (true, s) → ∀ t, g s ≤ g t

/-- C161. `best_sigmaf` gives the number for which the data are most probable, if scipy's search found the smallest value of the function it was given. -/
theorem best_sigmaf_spec (search : (ℝ → Except Exc ℝ) → ℝ → ℝ → Except Exc (Bool × ℝ)) (med : List ℝ → ℝ) (x err y : Fin n → ℝ) (hx : ∀ i, 0 ≤ x i) (he : ∀ i, err i ≠ 0)
    (hd : ∃ i j, x i ≠ x j) (hs : Finds search) (s : ℝ) (hb : bestSigmaf search med x err y = .ok s) : 0 ≤ s ∧ ∀ t, evidence t x err y ≤ evidence s x err y := by
  have hl := fun s => like_evidence x err y s hx he hd
  unfold bestSigmaf at hb
  dsimp only at hb
  split at hb
  · cases hb
  · rename_i s' h1
    obtain rfl : |s'| = s := by injection hb
    have h2 := hs _ (fun s => -Real.log (evidence s x err y)) _ _ s' (fun t => by rw [(hl t).1]; rfl) h1
    refine ⟨abs_nonneg s', fun t => ?_⟩
    have e : evidence |s'| x err y = evidence s' x err y := by
      unfold evidence spread
      rw [sq_abs]
    rw [e]
    exact (Real.log_le_log_iff (hl t).2 (hl s').2).1 (by linarith [h2 t])
  · cases hb

/-- C161. If the search fails, ValueError is raised; if it raises, so does `best_sigmaf`. -/
theorem best_sigmaf_failed (search : (ℝ → Except Exc ℝ) → ℝ → ℝ → Except Exc (Bool × ℝ)) (med : List ℝ → ℝ) (x err y : Fin n → ℝ) :
    (∀ s, (∀ f a b, search f a b = .ok (false, s)) → bestSigmaf search med x err y = .error .value) ∧ ∀ e, (∀ f a b, search f a b = .error e) → bestSigmaf search med x err y = .error e := by
  refine ⟨fun s hs => ?_, fun e hs => ?_⟩ <;> · unfold bestSigmaf; dsimp only; rw [hs]

/-- C161. A line added to the data changes nothing. -/
theorem like_line (x err y : Fin n → ℝ) (sf a b : ℝ) (hx : ∀ i, 0 ≤ x i) (he : ∀ i, err i ≠ 0) (hd : ∃ i j, x i ≠ x j) :
    marginalLike x err (fun i => y i + (a + b * x i)) sf = marginalLike x err y sf := by
  have hw := gpr_works (sf := sf) hx he
  unfold marginalLike
  rw [dif_pos hw, dif_pos hw]
  have h := hw.choose_spec
  set L := hw.choose
  have hy : (fun i => y i + (a + b * x i)) = y + (Hmat x)ᵀ *ᵥ ![a, b] := by
    funext i
    rw [Pi.add_apply, HT_mulVec]
    simp
  have hal : alpha sf x err (fun i => y i + (a + b * x i)) L = alpha sf x err y L := by
    refine alpha_unique h hd _ _ (beta x y L + ![a, b]) ?_ (H_alpha h hd y)
    rw [Ky_alpha h, hy, mulVec_add]
    abel
  have hz : ((Hmat x)ᵀ *ᵥ ![a, b]) ⬝ᵥ alpha sf x err y L = 0 := by rw [mulVec_transpose, ← dotProduct_mulVec, H_alpha h hd, dotProduct_zero]
  have hq : (fun i => y i + (a + b * x i)) ⬝ᵥ alpha sf x err y L = y ⬝ᵥ alpha sf x err y L := by rw [hy, add_dotProduct, hz, add_zero]
  rw [value_eq h hd, value_eq h hd, hal, hq]

/-- C161. The origin of the abscissas does not matter. -/
theorem like_origin (x err y : Fin n → ℝ) (sf l : ℝ) (hx : ∀ i, 0 ≤ x i) (hl : ∀ i, l ≤ x i) (he : ∀ i, err i ≠ 0) (hd : ∃ i j, x i ≠ x j) :
    marginalLike (fun i => x i - l) err y sf = marginalLike x err y sf := by
  obtain ⟨L, h, hm⟩ := marginal_ok y (gpr_works (sf := sf) hx he)
  obtain ⟨L', h', hm'⟩ := marginal_ok (x := fun i => x i - l) y (gpr_works (sf := sf) (fun i => sub_nonneg.2 (hl i)) he)
  have hd' : ∃ i j, (fun i => x i - l) i ≠ (fun i => x i - l) j := by
    obtain ⟨i, j, hij⟩ := hd
    exact ⟨i, j, fun e => hij (by simpa using e)⟩
  rw [hm, hm', value_change h h' hd hd' (Matrix.of ![fun i => sf ^ 2 * (l ^ 2 * x i / 2 - l ^ 3 / 6), fun i => sf ^ 2 * (-l * x i / 2)]) !![1, 0; -l, 1] (by simp) ?_ ?_ y]
  · simp
  · ext r i
    fin_cases r <;> simp [Hmat, Matrix.mul_apply, Fin.sum_univ_two]
    ring
  · ext i j
    unfold Ky
    rw [Matrix.add_apply, Matrix.add_apply, Matrix.add_apply, Matrix.add_apply, Kmat_apply, Kmat_apply, kSpline_abs, kSpline_abs (x i)]
    simp [Hmat, Matrix.mul_apply, Fin.sum_univ_two]
    ring

/-- C161. Other units of the abscissas: sigmaf has the unit of the data per unit of the abscissas to the power 3/2, and the likelihood changes by a constant. -/
theorem like_units_x (x err y : Fin n → ℝ) (sf c : ℝ) (hc : 0 < c) (hx : ∀ i, 0 ≤ x i) (he : ∀ i, err i ≠ 0) (hd : ∃ i j, x i ≠ x j) :
    marginalLike (fun i => c * x i) err y (sf / Real.sqrt (c ^ 3)) = (marginalLike x err y sf).map fun v => v - Real.log c := by
  obtain ⟨L, h, hm⟩ := marginal_ok y (gpr_works (sf := sf) hx he)
  obtain ⟨L', h', hm'⟩ := marginal_ok (x := fun i => c * x i) y (gpr_works (sf := sf / Real.sqrt (c ^ 3)) (fun i => mul_nonneg hc.le (hx i)) he)
  have hd' : ∃ i j, (fun i => c * x i) i ≠ (fun i => c * x i) j := by
    obtain ⟨i, j, hij⟩ := hd
    exact ⟨i, j, fun e => hij (mul_left_cancel₀ hc.ne' e)⟩
  rw [hm, hm', value_change h h' hd hd' 0 !![1, 0; 0, c] (by simp [hc.ne']) ?_ ?_ y]
  · simp [Except.map, abs_of_pos hc]
  · ext r i
    fin_cases r <;> simp [Hmat, Matrix.mul_apply, Fin.sum_univ_two]
  · ext i j
    unfold Ky
    rw [Matrix.add_apply, Matrix.add_apply, Matrix.add_apply, Matrix.add_apply, Kmat_apply, Kmat_apply, div_pow, Real.sq_sqrt (by positivity)]
    have hk : kSpline (c * x i) (c * x j) = c ^ 3 * kSpline (x i) (x j) := by
      rw [kSpline_abs, kSpline_abs, ← mul_sub, abs_mul, abs_of_pos hc]
      ring
    rw [hk]
    simp
    field_simp

/-- C161. Other units of the data: sigmaf scales with them, and the likelihood changes by a constant. -/
theorem like_units_y (x err y : Fin n → ℝ) (sf c : ℝ) (hc : 0 < c) (hx : ∀ i, 0 ≤ x i) (he : ∀ i, err i ≠ 0) (hd : ∃ i j, x i ≠ x j) :
    marginalLike x (fun i => c * err i) (fun i => c * y i) (c * sf) = (marginalLike x err y sf).map fun v => v - ((n : ℝ) - 2) * Real.log c := by
  obtain ⟨L, h, hm⟩ := marginal_ok y (gpr_works (sf := sf) hx he)
  obtain ⟨L', h', hm'⟩ := marginal_ok (err := fun i => c * err i) (fun i => c * y i) (gpr_works (sf := c * sf) hx fun i => mul_ne_zero hc.ne' (he i))
  have hK : Ky (c * sf) x (fun i => c * err i) = c ^ 2 • Ky sf x err := by
    ext i j
    unfold Ky
    rw [Matrix.add_apply, Kmat_apply, Matrix.smul_apply, Matrix.add_apply, Kmat_apply, diagonal_apply, diagonal_apply]
    split <;> simp <;> ring
  have hinv : (c ^ 2 • Ky sf x err)⁻¹ = (c ^ 2)⁻¹ • (Ky sf x err)⁻¹ := by
    refine inv_eq_right_inv ?_
    rw [smul_mul, Matrix.mul_smul, mul_nonsing_inv _ (det_Ky h), smul_smul, mul_inv_cancel₀ (by positivity), one_smul]
  have hA : (Amat x L').det = (c ^ 2)⁻¹ ^ 2 * (Amat x L).det := by
    rw [Amat_eq h', hK, hinv, Matrix.mul_smul, smul_mul, ← Amat_eq h, det_smul]
    simp
  have hKd : (Ky (c * sf) x fun i => c * err i).det = (c ^ 2) ^ n * (Ky sf x err).det := by
    rw [hK, det_smul]
    simp
  have hal : alpha (c * sf) x (fun i => c * err i) (fun i => c * y i) L' = c⁻¹ • alpha sf x err y L := by
    refine alpha_unique h' hd _ _ (c • beta x y L) ?_ (by rw [mulVec_smul, H_alpha h hd, smul_zero])
    rw [hK, mulVec_smul, mulVec_smul, smul_mulVec, Ky_alpha h, smul_smul]
    funext i
    simp
    field_simp
    ring
  have hq : (fun i => c * y i) ⬝ᵥ (c⁻¹ • alpha sf x err y L) = y ⬝ᵥ alpha sf x err y L := by
    have : (fun i => c * y i) = c • y := rfl
    rw [this, smul_dotProduct, dotProduct_smul, smul_smul, mul_inv_cancel₀ hc.ne', one_smul]
  have hAp := (A_pos h hd).2
  have hKp := detKy_pos h
  have hlog : Real.log ((c ^ 2)⁻¹ ^ 2 * (Amat x L).det * ((c ^ 2) ^ n * (Ky sf x err).det)) = Real.log ((Amat x L).det * (Ky sf x err).det) + (2 * n - 4) * Real.log c := by
    rw [Real.log_mul (by positivity) (by positivity), Real.log_mul (by positivity) (by positivity), Real.log_mul (by positivity) (by positivity), Real.log_mul (by positivity) (by positivity),
      Real.log_pow, Real.log_pow, Real.log_inv, Real.log_pow]
    push_cast
    ring
  rw [hm, hm']
  show Except.ok _ = Except.ok _
  congr 1
  rw [value_eq h hd, value_eq h' hd, hal, hq, hA, hKd, hlog]
  ring

/-- C161. For two points every sigmaf is as good as any other. -/
theorem like_two (x err y : Fin 2 → ℝ) (sf : ℝ) (hx : ∀ i, 0 ≤ x i) (he : ∀ i, err i ≠ 0) (hd : x 0 ≠ x 1) : marginalLike x err y sf = .ok (-Real.log |x 1 - x 0|) := by
  obtain ⟨L, h, hm⟩ := marginal_ok y (gpr_works (sf := sf) hx he)
  have hdet : (Hmat x).det = x 1 - x 0 := by
    rw [det_fin_two]
    simp [Hmat]
  have hu : IsUnit (Hmat x).det := by rw [hdet]; exact (sub_ne_zero.2 (Ne.symm hd)).isUnit
  have hal : alpha sf x err y L = 0 := by
    have h0 := H_alpha h ⟨0, 1, hd⟩ y
    have : (Hmat x)⁻¹ *ᵥ (Hmat x *ᵥ alpha sf x err y L) = 0 := by rw [h0, mulVec_zero]
    rwa [mulVec_mulVec, nonsing_inv_mul _ hu, one_mulVec] at this
  have hA : (Amat x L).det * (Ky sf x err).det = (x 1 - x 0) ^ 2 := by
    rw [Amat_eq h, det_mul, det_mul, det_transpose, hdet, det_nonsing_inv, Ring.inverse_eq_inv']
    have := (detKy_pos h).ne'
    field_simp
  rw [hm, value_eq h ⟨0, 1, hd⟩, hal, dotProduct_zero, hA, Real.log_pow, Real.log_abs]
  congr 1
  push_cast
  ring

example : marginalLike ![3, 5] ![0.1, 0.2] ![7, 1] 4 = .ok (-Real.log |(5 : ℝ) - 3|) :=
  like_two ![3, 5] ![0.1, 0.2] ![7, 1] 4 (fun i => by fin_cases i <;> norm_num) (fun i => by fin_cases i <;> norm_num) (by norm_num)

/-- there is such a search, and with it `best_sigmaf` succeeds for these data -/
example : ∃ search, Finds search ∧ ∃ s, bestSigmaf search (fun _ => 0.3) ![3, 5] ![0.1, 0.2] ![7, 1] = .ok s := by
  classical
  refine ⟨fun f _ _ => if h : ∃ s, ∀ g : ℝ → ℝ, (∀ t, f t = .ok (g t)) → ∀ t, g s ≤ g t then .ok (true, h.choose) else .ok (false, 0), ?_, ?_⟩
  · intro f g a b s hf h t
    dsimp only at h
    split at h
    · rename_i he
      obtain rfl : he.choose = s := by injection h with h; injection h
      exact he.choose_spec g hf t
    · injection h with h
      injection h with h
      cases h
  · have hl := fun s => like_two ![3, 5] ![0.1, 0.2] ![7, 1] s (fun i => by fin_cases i <;> norm_num) (fun i => by fin_cases i <;> norm_num) (by norm_num)
    have hm : ∃ s : ℝ, ∀ g : ℝ → ℝ, (∀ t, (marginalLike ![3, 5] ![0.1, 0.2] ![7, 1] t).map (fun v => -v) = .ok (g t)) → ∀ t, g s ≤ g t := by
      refine ⟨0, fun g hg t => ?_⟩
      have h0 := hg 0
      have ht := hg t
      rw [hl] at h0 ht
      have : g 0 = g t := by injection h0.symm.trans ht
      exact this.le
    unfold bestSigmaf
    dsimp only
    rw [dif_pos hm]
    exact ⟨_, rfl⟩

example : 0 < evidence 2 ![3, 0, 1] ![0.1, 0.1, 0.2] ![5, 2, 8] :=
  (like_evidence ![3, 0, 1] ![0.1, 0.1, 0.2] ![5, 2, 8] 2 (fun i => by fin_cases i <;> norm_num) (fun i => by fin_cases i <;> norm_num) ⟨0, 1, by norm_num⟩).2

end Mass.Calc.Evidence
