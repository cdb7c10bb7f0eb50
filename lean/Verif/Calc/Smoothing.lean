import Verif.Calc.GprSmooth
import Mathlib.Topology.Instances.Matrix
import Mathlib.Topology.Order.IntermediateValue
/-!
C103: mass/mathstat/interpolate.py, class SmoothingSpline: the matrix of curvatures, the linear system, the choice of its parameter, and in which sense the result is the smoothest curve.

The spline basis is any list of natural cubic splines on the knots (`NatSpline`); that the basis of the code is one is C104. All numbers are real numbers.
-/
namespace Mass.Calc.Smooth
open Mass Mass.Calc Matrix
open scoped Interval

/-! ### Functions with linear second derivative between knots -/

/-- `m` is linear between knots [specification] -/
def PieceLin (x : ℕ → ℝ) (n : ℕ) (m : ℝ → ℝ) : Prop :=
  ∀ k, k + 1 < n → ∀ u, x k ≤ u → u ≤ x (k + 1) → m u = m (x k) + (u - x k) * ((m (x (k + 1)) - m (x k)) / (x (k + 1) - x k))

/-- a function with its first and its (continuous) second derivative [specification] -/
structure C2 (g g1 g2 : ℝ → ℝ) : Prop where
  d1 : ∀ u, HasDerivAt g (g1 u) u
  d2 : ∀ u, HasDerivAt g1 (g2 u) u
  cont : Continuous g2

/-- a cubic spline: its second derivative is linear between the knots [specification] -/
structure CubSpline (x : ℕ → ℝ) (n : ℕ) (f f1 f2 : ℝ → ℝ) : Prop extends C2 f f1 f2 where
  lin : PieceLin x n f2

/-- a natural cubic spline: the second derivative is zero at both ends [specification] -/
structure NatSpline (x : ℕ → ℝ) (n : ℕ) (f f1 f2 : ℝ → ℝ) : Prop extends CubSpline x n f f1 f2 where
  low : f2 (x 0) = 0
  high : f2 (x (n - 1)) = 0

variable {x : ℕ → ℝ} {n : ℕ}

/-- integral of a linear function times a second derivative -/
theorem piece_parts {a b c s : ℝ} {g g1 g2 : ℝ → ℝ} (hg : C2 g g1 g2) :
    ∫ u in a..b, (c + (u - a) * s) * g2 u = (c + (b - a) * s) * g1 b - c * g1 a - s * (g b - g a) := by
  have hd : ∀ u ∈ [[a, b]], HasDerivAt (fun u => (c + (u - a) * s) * g1 u - s * g u) ((c + (u - a) * s) * g2 u) u := by
    intro u _
    have h1 : HasDerivAt (fun u : ℝ => c + (u - a) * s) s u := by
      have := (((hasDerivAt_id u).sub_const a).mul_const s).const_add c
      simpa using this
    have := (h1.fun_mul (hg.d2 u)).fun_sub ((hg.d1 u).const_mul s)
    refine this.congr_deriv ?_
    ring
  rw [intervalIntegral.integral_eq_sub_of_hasDerivAt hd]
  · ring
  · exact (((continuous_const.add ((continuous_id.sub continuous_const).mul continuous_const)).mul hg.cont)).intervalIntegrable _ _

/-- integral of the product of two linear functions -/
theorem piece_prod (a b p s q t : ℝ) :
    ∫ u in a..b, (p + (u - a) * s) * (q + (u - a) * t) =
      (b - a) / 6 * (2 * p * q + p * (q + (b - a) * t) + (p + (b - a) * s) * q + 2 * (p + (b - a) * s) * (q + (b - a) * t)) := by
  have hd : ∀ u ∈ [[a, b]], HasDerivAt (fun u => p * q * (u - a) + (p * t + q * s) * (u - a) ^ 2 / 2 + s * t * (u - a) ^ 3 / 3) ((p + (u - a) * s) * (q + (u - a) * t)) u := by
    intro u _
    have h0 : HasDerivAt (fun u : ℝ => u - a) 1 u := (hasDerivAt_id u).sub_const a
    have := ((h0.const_mul (p * q)).fun_add (((h0.fun_pow 2).const_mul (p * t + q * s)).div_const 2)).fun_add (((h0.fun_pow 3).const_mul (s * t)).div_const 3)
    refine this.congr_deriv ?_
    norm_num
    ring
  rw [intervalIntegral.integral_eq_sub_of_hasDerivAt hd]
  · ring
  · exact Continuous.intervalIntegrable (by fun_prop) _ _

theorem knot_lt (hx : Inc x n) {k : ℕ} (hk : k + 1 < n) : x k < x (k + 1) := hx k (k + 1) (by omega) hk

theorem piece_end (hx : Inc x n) (m : ℝ → ℝ) {k : ℕ} (hk : k + 1 < n) :
    m (x k) + (x (k + 1) - x k) * ((m (x (k + 1)) - m (x k)) / (x (k + 1) - x k)) = m (x (k + 1)) := by
  have := knot_lt hx hk
  have h : x (k + 1) - x k ≠ 0 := by linarith
  field_simp
  ring

/-- Integration by parts against a second derivative that is linear between knots. -/
theorem parts (hx : Inc x n) {m : ℝ → ℝ} (hm : PieceLin x n m) (hmc : Continuous m) {g g1 g2 : ℝ → ℝ} (hg : C2 g g1 g2) (N : ℕ) (hN : N < n) :
    ∫ u in x 0..x N, m u * g2 u = m (x N) * g1 (x N) - m (x 0) * g1 (x 0) -
      ∑ k ∈ Finset.range N, (m (x (k + 1)) - m (x k)) / (x (k + 1) - x k) * (g (x (k + 1)) - g (x k)) := by
  induction N with
  | zero => simp
  | succ N ih =>
    have hI : ∀ a b, IntervalIntegrable (fun u => m u * g2 u) MeasureTheory.volume a b := fun a b => (hmc.mul hg.cont).intervalIntegrable _ _
    rw [← intervalIntegral.integral_add_adjacent_intervals (hI (x 0) (x N)) (hI _ _), ih (by omega)]
    have hlt := knot_lt hx hN
    have e : ∫ u in x N..x (N + 1), m u * g2 u = ∫ u in x N..x (N + 1), (m (x N) + (u - x N) * ((m (x (N + 1)) - m (x N)) / (x (N + 1) - x N))) * g2 u := by
      apply intervalIntegral.integral_congr
      intro u hu
      rw [Set.uIcc_of_le hlt.le] at hu
      dsimp only
      rw [hm N hN u hu.1 hu.2]
    rw [e, piece_parts hg, piece_end hx m hN, Finset.sum_range_succ]
    ring

theorem prod_int (hx : Inc x n) {m l : ℝ → ℝ} (hm : PieceLin x n m) (hmc : Continuous m) (hl : PieceLin x n l) (hlc : Continuous l) (N : ℕ) (hN : N < n) :
    ∫ u in x 0..x N, m u * l u = ∑ k ∈ Finset.range N, (x (k + 1) - x k) / 6 *
      (2 * m (x k) * l (x k) + m (x k) * l (x (k + 1)) + m (x (k + 1)) * l (x k) + 2 * m (x (k + 1)) * l (x (k + 1))) := by
  induction N with
  | zero => simp
  | succ N ih =>
    have hI : ∀ a b, IntervalIntegrable (fun u => m u * l u) MeasureTheory.volume a b := fun a b => (hmc.mul hlc).intervalIntegrable _ _
    rw [← intervalIntegral.integral_add_adjacent_intervals (hI (x 0) (x N)) (hI _ _), ih (by omega)]
    have hlt := knot_lt hx hN
    have e : ∫ u in x N..x (N + 1), m u * l u = ∫ u in x N..x (N + 1), (m (x N) + (u - x N) * ((m (x (N + 1)) - m (x N)) / (x (N + 1) - x N))) *
        (l (x N) + (u - x N) * ((l (x (N + 1)) - l (x N)) / (x (N + 1) - x N))) := by
      apply intervalIntegral.integral_congr
      intro u hu
      rw [Set.uIcc_of_le hlt.le] at hu
      dsimp only
      rw [hm N hN u hu.1 hu.2, hl N hN u hu.1 hu.2]
    rw [e, piece_prod, piece_end hx m hN, piece_end hx l hN, Finset.sum_range_succ]

/-! ### The code -/

/-- the loops of `_compute_Omega`, interpolate.py L494-513; `N2 k j` is the second derivative of function j at knot k. (max(0, k-1) is k-1 in natural numbers.) -/
noncomputable def omegaSum (x : ℕ → ℝ) (n : ℕ) (N2 : ℕ → ℕ → ℝ) (i j : ℕ) : ℝ :=
  ∑ k ∈ Finset.range (n - 1), (N2 (k + 1) i * N2 k j + N2 (k + 1) j * N2 k i) * (x (k + 1) - x k) / 6 +
  ∑ k ∈ Finset.range n, N2 k i * N2 k j * (x (min (k + 1) (n - 1)) - x (k - 1)) / 3

/-- `_compute_Omega`, interpolate.py L494-513: computed for j ≤ i and copied -/
noncomputable def Omega (x : ℕ → ℝ) (n : ℕ) (N2 : ℕ → ℕ → ℝ) : Matrix (Fin n) (Fin n) ℝ :=
  fun i j => if (j : ℕ) ≤ i then omegaSum x n N2 i j else omegaSum x n N2 j i

/-- `lhs`, interpolate.py L522-524 -/
noncomputable def lhs (N0 : Matrix (Fin n) (Fin n) ℝ) (err : Fin n → ℝ) : Matrix (Fin n) (Fin n) ℝ :=
  fun i j => ∑ k, N0 k i * (err k ^ 2)⁻¹ * N0 k j

/-- `rhs`, interpolate.py L522-525 -/
noncomputable def rhs (N0 : Matrix (Fin n) (Fin n) ℝ) (err y : Fin n → ℝ) : Fin n → ℝ :=
  fun i => ∑ k, N0 k i * ((err k ^ 2)⁻¹ * y k)

open Classical in
/-- np.linalg.solve: none is LinAlgError (used for interpolate.py L527-528) -/
noncomputable def solve (A : Matrix (Fin n) (Fin n) ℝ) (b : Fin n → ℝ) : Option (Fin n → ℝ) := if IsUnit A.det then some (A⁻¹ *ᵥ b) else none

/-- `best_params`, interpolate.py L527-528 -/
noncomputable def best (N0 Om : Matrix (Fin n) (Fin n) ℝ) (err y : Fin n → ℝ) (p : ℝ) : Option (Fin n → ℝ) :=
  solve (p • (lhs N0 err - Om) + Om) (p • rhs N0 err y)

/-- chi-squared, interpolate.py L538, L546 -/
noncomputable def chisq (N0 : Matrix (Fin n) (Fin n) ℝ) (err y β : Fin n → ℝ) : ℝ := ∑ k, ((y k - (N0 *ᵥ β) k) / err k) ^ 2

/-- `chisq_difference`, interpolate.py L530-539 -/
noncomputable def chisqDiff (N0 Om : Matrix (Fin n) (Fin n) ℝ) (err y : Fin n → ℝ) (target p : ℝ) : ℝ :=
  match best N0 Om err y p with
  | none => 10 ^ 99
  | some β => chisq N0 err y β - target

/-- What is known of scipy's brentq (used for interpolate.py L542): ValueError if the values at the ends have the same sign, else a zero, if the function is continuous (exact arithmetic). -/
structure Brent (solver : (ℝ → ℝ) → ℝ → ℝ → Except Exc ℝ) : Prop where
  same : ∀ f a b, 0 < f a * f b → solver f a b = .error .value
  zero : ∀ f a b, a ≤ b → f a * f b ≤ 0 → ContinuousOn f (Set.Icc a b) → ∃ r, solver f a b = .ok r ∧ a ≤ r ∧ r ≤ b ∧ f r = 0

/-- `smooth`, interpolate.py L515-543: the coefficients of the curve, `solver` being brentq -/
noncomputable def smooth (solver : (ℝ → ℝ) → ℝ → ℝ → Except Exc ℝ) (N0 Om : Matrix (Fin n) (Fin n) ℝ) (err y : Fin n → ℝ) (target : ℝ) : Except Exc (Fin n → ℝ) := do
  let p ← solver (chisqDiff N0 Om err y target) (1 / 10 ^ 20) 1
  match best N0 Om err y p with
  | none => .error .value
  | some β => .ok β

/-! ### The curvature matrix -/

theorem omega_rearrange (c : ℕ → ℝ) (N : ℕ) :
    ∑ k ∈ Finset.range (N + 1), c k * (x (min (k + 1) N) - x (k - 1)) / 3 = ∑ k ∈ Finset.range N, (c k + c (k + 1)) * (x (k + 1) - x k) / 3 := by
  have e : ∀ k, c k * (x (min (k + 1) N) - x (k - 1)) / 3 = c k * (x (min (k + 1) N) - x k) / 3 + c k * (x k - x (k - 1)) / 3 := fun k => by ring
  simp only [e]
  rw [Finset.sum_add_distrib, Finset.sum_range_succ, Finset.sum_range_succ' (fun k => c k * (x k - x (k - 1)) / 3)]
  have h1 : ∑ k ∈ Finset.range N, c k * (x (min (k + 1) N) - x k) / 3 = ∑ k ∈ Finset.range N, c k * (x (k + 1) - x k) / 3 := by
    apply Finset.sum_congr rfl
    intro k hk
    have := Finset.mem_range.mp hk
    rw [min_eq_left (by omega)]
  rw [h1, min_eq_right (by omega)]
  simp only [add_tsub_cancel_right, Nat.zero_sub, sub_self, mul_zero, zero_div, add_zero]
  rw [← Finset.sum_add_distrib]
  exact Finset.sum_congr rfl fun k _ => by ring

/-- C103: the matrix Omega contains the integrals of the products of second derivatives. -/
theorem omega_integral (hn : 2 ≤ n) (hx : Inc x n) {B B1 B2 : ℕ → ℝ → ℝ} (hB : ∀ j < n, CubSpline x n (B j) (B1 j) (B2 j)) (i j : Fin n) :
    Omega x n (fun k j => B2 j (x k)) i j = ∫ u in x 0..x (n - 1), B2 i u * B2 j u := by
  have key : ∀ i j : Fin n, omegaSum x n (fun k j => B2 j (x k)) i j = ∫ u in x 0..x (n - 1), B2 i u * B2 j u := by
    intro i j
    rw [prod_int hx (hB i i.2).lin (hB i i.2).cont (hB j j.2).lin (hB j j.2).cont (n - 1) (by omega)]
    unfold omegaSum
    obtain ⟨N, rfl⟩ : ∃ N, n = N + 1 := ⟨n - 1, by omega⟩
    rw [Nat.add_sub_cancel, omega_rearrange (fun k => B2 i (x k) * B2 j (x k)) N, ← Finset.sum_add_distrib]
    exact Finset.sum_congr rfl fun k _ => by ring
  unfold Omega
  split
  · exact key i j
  · rw [key j i]
    exact intervalIntegral.integral_congr fun u _ => by ring

/-! ### The curve -/

/-- a combination of functions [specification] -/
noncomputable def combine (B : ℕ → ℝ → ℝ) (β : Fin n → ℝ) (u : ℝ) : ℝ := ∑ j, β j * B j u

theorem combine_nat (B B1 B2 : ℕ → ℝ → ℝ) (hB : ∀ j < n, NatSpline x n (B j) (B1 j) (B2 j)) (β : Fin n → ℝ) :
    NatSpline x n (combine B β) (combine B1 β) (combine B2 β) where
  d1 u := HasDerivAt.fun_sum fun j _ => ((hB j j.2).d1 u).const_mul _
  d2 u := HasDerivAt.fun_sum fun j _ => ((hB j j.2).d2 u).const_mul _
  cont := continuous_finsetSum _ fun j _ => continuous_const.mul (hB j j.2).cont
  lin k hk u h1 h2 := by
    unfold combine
    rw [← Finset.sum_sub_distrib, Finset.sum_div, Finset.mul_sum, ← Finset.sum_add_distrib]
    apply Finset.sum_congr rfl
    intro j _
    rw [(hB j j.2).lin k hk u h1 h2]
    ring
  low := Finset.sum_eq_zero fun j _ => by rw [(hB j j.2).low, mul_zero]
  high := Finset.sum_eq_zero fun j _ => by rw [(hB j j.2).high, mul_zero]

/-- the curvature of a curve: integral of the squared second derivative between the ends [specification] -/
noncomputable def energy (x : ℕ → ℝ) (n : ℕ) (g2 : ℝ → ℝ) : ℝ := ∫ u in x 0..x (n - 1), g2 u ^ 2

/-- the squared differences between data and curve, in units of the errors [specification] -/
noncomputable def misfit (x : ℕ → ℝ) (err y : Fin n → ℝ) (g : ℝ → ℝ) : ℝ := ∑ k : Fin n, ((y k - g (x k)) / err k) ^ 2

/-- values of the functions at the knots, `values_matrix(0)`, interpolate.py L422-426 -/
def valueMat (x : ℕ → ℝ) (n : ℕ) (B : ℕ → ℝ → ℝ) : Matrix (Fin n) (Fin n) ℝ := fun k j => B j (x k)

section
variable {B B1 B2 : ℕ → ℝ → ℝ} {err y : Fin n → ℝ}

theorem value_mul (β : Fin n → ℝ) (k : Fin n) : (valueMat x n B *ᵥ β) k = combine B β (x k) := by
  simp only [mulVec, dotProduct, valueMat, combine]
  exact Finset.sum_congr rfl fun j _ => mul_comm _ _

theorem chisq_eq (β : Fin n → ℝ) : chisq (valueMat x n B) err y β = misfit x err y (combine B β) := by
  unfold chisq misfit
  exact Finset.sum_congr rfl fun k _ => by rw [value_mul]

/-- integral of second derivatives of a natural spline and any curve: only the values of the curve at the knots matter -/
theorem natural_parts (hn : 2 ≤ n) (hx : Inc x n) {f f1 f2 g g1 g2 : ℝ → ℝ} (hf : NatSpline x n f f1 f2) (hg : C2 g g1 g2) :
    ∫ u in x 0..x (n - 1), f2 u * g2 u = - ∑ k ∈ Finset.range (n - 1), (f2 (x (k + 1)) - f2 (x k)) / (x (k + 1) - x k) * (g (x (k + 1)) - g (x k)) := by
  rw [parts hx hf.lin hf.cont hg (n - 1) (by omega), hf.low, hf.high]
  ring

theorem omega_mul (hn : 2 ≤ n) (hx : Inc x n) (hB : ∀ j < n, NatSpline x n (B j) (B1 j) (B2 j)) (v : Fin n → ℝ) (i : Fin n) :
    (Omega x n (fun k j => B2 j (x k)) *ᵥ v) i = ∫ u in x 0..x (n - 1), B2 i u * combine B2 v u := by
  simp only [mulVec, dotProduct]
  rw [show (fun u => B2 i u * combine B2 v u) = fun u => ∑ j : Fin n, v j * (B2 i u * B2 j u) from by
    funext u; unfold combine; rw [Finset.mul_sum]; exact Finset.sum_congr rfl fun j _ => by ring]
  rw [intervalIntegral.integral_finsetSum]
  · apply Finset.sum_congr rfl
    intro j _
    rw [omega_integral hn hx (fun j hj => (hB j hj).toCubSpline), intervalIntegral.integral_const_mul, mul_comm]
  · intro j _
    exact (continuous_const.mul ((hB i i.2).cont.mul (hB j j.2).cont)).intervalIntegrable _ _

theorem lhs_mul (N0 : Matrix (Fin n) (Fin n) ℝ) (v : Fin n → ℝ) (i : Fin n) :
    (lhs N0 err *ᵥ v) i = ∑ k, N0 k i * (err k ^ 2)⁻¹ * (N0 *ᵥ v) k := by
  simp only [mulVec, dotProduct, lhs, Finset.sum_mul, Finset.mul_sum]
  rw [Finset.sum_comm]
  exact Finset.sum_congr rfl fun k _ => Finset.sum_congr rfl fun j _ => by ring

theorem system_mul (N0 Om : Matrix (Fin n) (Fin n) ℝ) (p : ℝ) (v : Fin n → ℝ) (i : Fin n) :
    ((p • (lhs N0 err - Om) + Om) *ᵥ v) i = p * (lhs N0 err *ᵥ v) i + (1 - p) * (Om *ᵥ v) i := by
  rw [add_mulVec, smul_mulVec, sub_mulVec]
  simp only [Pi.add_apply, Pi.smul_apply, Pi.sub_apply, smul_eq_mul]
  ring

/-- If the system can be solved, so can the interpolation problem: the values at the knots can be prescribed. -/
theorem values_surj (hn : 2 ≤ n) (hx : Inc x n) (hB : ∀ j < n, NatSpline x n (B j) (B1 j) (B2 j)) {p : ℝ}
    (hA : IsUnit (p • (lhs (valueMat x n B) err - Omega x n (fun k j => B2 j (x k))) + Omega x n (fun k j => B2 j (x k))).det) (d : Fin n → ℝ) :
    ∃ v : Fin n → ℝ, ∀ k : Fin n, combine B v (x k) = d k := by
  have hinj : Function.Injective (valueMat x n B).mulVec := by
    rw [← Matrix.isUnit_iff_isUnit_det] at hA
    have h1 := mulVec_injective_iff_isUnit.mpr hA
    intro a b hab
    apply h1
    have h0 : ∀ k, (valueMat x n B *ᵥ (a - b)) k = 0 := by
      intro k
      rw [mulVec_sub]
      simp only [Pi.sub_apply]
      have := congrFun hab k
      linarith
    have h2 : ∀ k < n, combine B (a - b) (x k) = 0 := fun k hk => by rw [← h0 ⟨k, hk⟩, value_mul]
    have hC := combine_nat B B1 B2 hB (a - b)
    have h3 : (p • (lhs (valueMat x n B) err - Omega x n (fun k j => B2 j (x k))) + Omega x n (fun k j => B2 j (x k))) *ᵥ (a - b) = 0 := by
      funext i
      rw [system_mul, lhs_mul, omega_mul hn hx hB, natural_parts hn hx (hB i i.2) hC.toC2]
      rw [Finset.sum_eq_zero (fun k _ => by rw [h0 k, mul_zero]), Finset.sum_eq_zero (fun k hk => by
        have := Finset.mem_range.mp hk
        rw [h2 k (by omega), h2 (k + 1) (by omega), sub_zero, mul_zero])]
      simp
    rw [mulVec_sub] at h3
    exact sub_eq_zero.mp h3
  obtain ⟨v, hv⟩ := (mulVec_surjective_iff_isUnit.mpr (mulVec_injective_iff_isUnit.mp hinj)) d
  exact ⟨v, fun k => by rw [← value_mul, hv]⟩

/-- The equations of the system: the residuals pull the curve as much as its curvature resists, in any direction. -/
theorem balance (hn : 2 ≤ n) (hx : Inc x n) (hB : ∀ j < n, NatSpline x n (B j) (B1 j) (B2 j)) {p : ℝ} {β : Fin n → ℝ}
    (hβ : best (valueMat x n B) (Omega x n (fun k j => B2 j (x k))) err y p = some β) {g g1 g2 : ℝ → ℝ} (hg : C2 g g1 g2) :
    p * ∑ k : Fin n, (y k - combine B β (x k)) * (err k ^ 2)⁻¹ * g (x k) = (1 - p) * ∫ u in x 0..x (n - 1), combine B2 β u * g2 u := by
  unfold best solve at hβ
  split at hβ
  swap
  · exact absurd hβ (by simp)
  rename_i hA
  injection hβ with hβ
  have hsys : (p • (lhs (valueMat x n B) err - Omega x n (fun k j => B2 j (x k))) + Omega x n (fun k j => B2 j (x k))) *ᵥ β = p • rhs (valueMat x n B) err y := by
    rw [← hβ, mulVec_mulVec, Matrix.mul_nonsing_inv _ hA, one_mulVec]
  have hC := combine_nat B B1 B2 hB β
  -- the equation for a basis function
  have hone : ∀ i : Fin n, p * ∑ k : Fin n, (y k - combine B β (x k)) * (err k ^ 2)⁻¹ * B i (x k) = (1 - p) * ∫ u in x 0..x (n - 1), combine B2 β u * B2 i u := by
    intro i
    have := congrFun hsys i
    rw [system_mul, lhs_mul, omega_mul hn hx hB] at this
    simp only [Pi.smul_apply, smul_eq_mul, rhs] at this
    rw [show (fun u => combine B2 β u * B2 i u) = fun u => B2 i u * combine B2 β u from by funext u; ring]
    have e : ∑ k : Fin n, (y k - combine B β (x k)) * (err k ^ 2)⁻¹ * B i (x k) =
        ∑ k, valueMat x n B k i * ((err k ^ 2)⁻¹ * y k) - ∑ k, valueMat x n B k i * (err k ^ 2)⁻¹ * (valueMat x n B *ᵥ β) k := by
      rw [← Finset.sum_sub_distrib]
      apply Finset.sum_congr rfl
      intro k _
      rw [value_mul]
      unfold valueMat
      ring
    rw [e]
    linarith
  obtain ⟨v, hv⟩ := values_surj hn hx hB hA (fun k => g (x k))
  have hV := combine_nat B B1 B2 hB v
  -- both sides only depend on the values at the knots
  have e1 : ∫ u in x 0..x (n - 1), combine B2 β u * g2 u = ∫ u in x 0..x (n - 1), combine B2 β u * combine B2 v u := by
    rw [natural_parts hn hx hC hg, natural_parts hn hx hC hV.toC2]
    congr 1
    apply Finset.sum_congr rfl
    intro k hk
    have := Finset.mem_range.mp hk
    have a1 := hv ⟨k, by omega⟩
    have a2 := hv ⟨k + 1, by omega⟩
    dsimp only at a1 a2
    rw [a1, a2]
  have e2 : ∑ k : Fin n, (y k - combine B β (x k)) * (err k ^ 2)⁻¹ * g (x k) = ∑ i : Fin n, v i * ∑ k : Fin n, (y k - combine B β (x k)) * (err k ^ 2)⁻¹ * B i (x k) := by
    simp only [Finset.mul_sum]
    rw [Finset.sum_comm]
    apply Finset.sum_congr rfl
    intro k _
    rw [← hv k]
    unfold combine
    rw [Finset.mul_sum]
    exact Finset.sum_congr rfl fun i _ => by ring
  have e3 : ∫ u in x 0..x (n - 1), combine B2 β u * combine B2 v u = ∑ i : Fin n, v i * ∫ u in x 0..x (n - 1), combine B2 β u * B2 i u := by
    rw [show (fun u => combine B2 β u * combine B2 v u) = fun u => ∑ i : Fin n, v i * (combine B2 β u * B2 i u) from by
      funext u; conv_lhs => rw [show combine B2 v u = ∑ j : Fin n, v j * B2 j u from rfl, Finset.mul_sum]
      exact Finset.sum_congr rfl fun j _ => by ring]
    rw [intervalIntegral.integral_finsetSum]
    · exact Finset.sum_congr rfl fun i _ => by rw [intervalIntegral.integral_const_mul]
    · intro i _
      exact (continuous_const.mul (hC.cont.mul (hB i i.2).cont)).intervalIntegrable _ _
  rw [e1, e2, e3, Finset.mul_sum, Finset.mul_sum]
  apply Finset.sum_congr rfl
  intro i _
  have := hone i
  linear_combination v i * this

/-- The weighted sum of misfit and curvature of any curve, compared with that of the solution. -/
theorem penalty_eq (hn : 2 ≤ n) (hx : Inc x n) (hB : ∀ j < n, NatSpline x n (B j) (B1 j) (B2 j)) (he : ∀ k, err k ≠ 0) {p : ℝ} {β : Fin n → ℝ}
    (hβ : best (valueMat x n B) (Omega x n (fun k j => B2 j (x k))) err y p = some β) {g g1 g2 : ℝ → ℝ} (hg : C2 g g1 g2) :
    p * misfit x err y g + (1 - p) * energy x n g2 = p * misfit x err y (combine B β) + (1 - p) * energy x n (combine B2 β) +
      (p * ∑ k : Fin n, ((g (x k) - combine B β (x k)) / err k) ^ 2 + (1 - p) * energy x n (fun u => g2 u - combine B2 β u)) := by
  have hC := combine_nat B B1 B2 hB β
  have hD : C2 (fun u => g u - combine B β u) (fun u => g1 u - combine B1 β u) (fun u => g2 u - combine B2 β u) :=
    ⟨fun u => (hg.d1 u).fun_sub (hC.d1 u), fun u => (hg.d2 u).fun_sub (hC.d2 u), hg.cont.sub hC.cont⟩
  have hbal := balance hn hx hB hβ hD
  have e1 : misfit x err y g = misfit x err y (combine B β) + ∑ k : Fin n, ((g (x k) - combine B β (x k)) / err k) ^ 2 -
      2 * ∑ k : Fin n, (y k - combine B β (x k)) * (err k ^ 2)⁻¹ * (g (x k) - combine B β (x k)) := by
    unfold misfit
    rw [Finset.mul_sum, ← Finset.sum_add_distrib, ← Finset.sum_sub_distrib]
    apply Finset.sum_congr rfl
    intro k _
    have := he k
    field_simp
    ring
  have e2 : energy x n g2 = energy x n (combine B2 β) + energy x n (fun u => g2 u - combine B2 β u) +
      2 * ∫ u in x 0..x (n - 1), combine B2 β u * (g2 u - combine B2 β u) := by
    unfold energy
    rw [← intervalIntegral.integral_const_mul, ← intervalIntegral.integral_add, ← intervalIntegral.integral_add]
    · exact intervalIntegral.integral_congr fun u _ => by ring
    · exact ((hC.cont.pow 2).add (hD.cont.pow 2)).intervalIntegrable _ _
    · exact (continuous_const.mul (hC.cont.mul hD.cont)).intervalIntegrable _ _
    · exact (hC.cont.pow 2).intervalIntegrable _ _
    · exact (hD.cont.pow 2).intervalIntegrable _ _
  rw [e1, e2]
  linear_combination (-2) * hbal

theorem ends_le (hn : 2 ≤ n) (hx : Inc x n) : x 0 < x (n - 1) := hx 0 (n - 1) (by omega) (by omega)

theorem energy_nonneg (hn : 2 ≤ n) (hx : Inc x n) (g2 : ℝ → ℝ) : 0 ≤ energy x n g2 :=
  intervalIntegral.integral_nonneg (ends_le hn hx).le fun _ _ => sq_nonneg _

/-- no curvature and zero at two knots: zero in between -/
theorem flat_zero (hn : 2 ≤ n) (hx : Inc x n) {d d1 d2 : ℝ → ℝ} (hd : C2 d d1 d2) (hE : energy x n d2 = 0) (h0 : d (x 0) = 0) (hN : d (x (n - 1)) = 0) :
    ∀ u, x 0 ≤ u → u ≤ x (n - 1) → d u = 0 := by
  have hlt := ends_le hn hx
  have hz : ∀ u ∈ Set.Icc (x 0) (x (n - 1)), d2 u = 0 := by
    intro u hu
    by_contra hne
    have : 0 < energy x n d2 := by
      refine intervalIntegral.integral_pos hlt ((hd.cont.pow 2).continuousOn) (fun v _ => sq_nonneg _) ⟨u, hu, ?_⟩
      exact lt_of_le_of_ne (sq_nonneg _) (Ne.symm (pow_ne_zero 2 hne))
    exact absurd hE this.ne'
  have hline : ∀ s, x 0 ≤ s → s ≤ x (n - 1) → d s = (s - x 0) * d1 (x 0) := by
    intro s hs1 hs2
    have ht := piece_parts (a := x 0) (b := s) (c := s - x 0) (s := -1) hd
    rw [intervalIntegral.integral_congr (g := fun _ => (0 : ℝ)), intervalIntegral.integral_zero, h0] at ht
    · linarith
    · intro u hu
      rw [Set.uIcc_of_le hs1] at hu
      show _ * d2 u = 0
      rw [hz u ⟨hu.1, hu.2.trans hs2⟩, mul_zero]
  have hd1 : d1 (x 0) = 0 := by
    have := hline _ hlt.le le_rfl
    rw [hN] at this
    exact (mul_eq_zero.mp this.symm).resolve_left (by linarith)
  intro u h1 h2
  rw [hline u h1 h2, hd1, mul_zero]

/-- C103: the curve for the parameter p: whatever fits the data at least as well has at least its curvature, and it is the only one with both. -/
theorem smoothest (hn : 2 ≤ n) (hx : Inc x n) (hB : ∀ j < n, NatSpline x n (B j) (B1 j) (B2 j)) (he : ∀ k, err k ≠ 0) {p : ℝ} (hp0 : 0 < p) (hp1 : p < 1) {β : Fin n → ℝ}
    (hβ : best (valueMat x n B) (Omega x n (fun k j => B2 j (x k))) err y p = some β) {g g1 g2 : ℝ → ℝ} (hg : C2 g g1 g2)
    (hm : misfit x err y g ≤ misfit x err y (combine B β)) :
    energy x n (combine B2 β) ≤ energy x n g2 ∧
    (energy x n g2 ≤ energy x n (combine B2 β) → ∀ u, x 0 ≤ u → u ≤ x (n - 1) → g u = combine B β u) := by
  have hpen := penalty_eq hn hx hB he hβ hg
  have hS : 0 ≤ ∑ k : Fin n, ((g (x k) - combine B β (x k)) / err k) ^ 2 := Finset.sum_nonneg fun i _ => sq_nonneg _
  have hE := energy_nonneg hn hx (fun u => g2 u - combine B2 β u)
  have hq : 0 < 1 - p := by linarith
  have h1 := mul_nonneg hp0.le hS
  have h2 := mul_nonneg hq.le hE
  have h3 := mul_le_mul_of_nonneg_left hm hp0.le
  constructor
  · have : (1 - p) * energy x n (combine B2 β) ≤ (1 - p) * energy x n g2 := by linarith
    exact le_of_mul_le_mul_left this hq
  · intro hle
    have h4 := mul_le_mul_of_nonneg_left hle hq.le
    have hS0 : ∑ k : Fin n, ((g (x k) - combine B β (x k)) / err k) ^ 2 = 0 := by
      have : p * ∑ k : Fin n, ((g (x k) - combine B β (x k)) / err k) ^ 2 = 0 := by linarith
      exact (mul_eq_zero.mp this).resolve_left hp0.ne'
    have hE0 : energy x n (fun u => g2 u - combine B2 β u) = 0 := by
      have : (1 - p) * energy x n (fun u => g2 u - combine B2 β u) = 0 := by linarith
      exact (mul_eq_zero.mp this).resolve_left hq.ne'
    have hk : ∀ k : Fin n, g (x k) - combine B β (x k) = 0 := by
      intro i
      have := (Finset.sum_eq_zero_iff_of_nonneg fun i _ => sq_nonneg _).1 hS0 i (Finset.mem_univ i)
      have := pow_eq_zero_iff (two_ne_zero) |>.1 this
      exact (div_eq_zero_iff.1 this).resolve_right (he i)
    have hC := combine_nat B B1 B2 hB β
    have hD : C2 (fun u => g u - combine B β u) (fun u => g1 u - combine B1 β u) (fun u => g2 u - combine B2 β u) :=
      ⟨fun u => (hg.d1 u).fun_sub (hC.d1 u), fun u => (hg.d2 u).fun_sub (hC.d2 u), hg.cont.sub hC.cont⟩
    intro u hu1 hu2
    exact sub_eq_zero.mp (flat_zero hn hx hD hE0 (hk ⟨0, by omega⟩) (hk ⟨n - 1, by omega⟩) u hu1 hu2)

/-- Independent basis functions: the system can be solved for every 0 < p ≤ 1. -/
theorem best_some (hn : 2 ≤ n) (hx : Inc x n) (hB : ∀ j < n, NatSpline x n (B j) (B1 j) (B2 j)) (he : ∀ k, err k ≠ 0) (hN : IsUnit (valueMat x n B).det) {p : ℝ} (hp0 : 0 < p) (hp1 : p ≤ 1) :
    IsUnit (p • (lhs (valueMat x n B) err - Omega x n (fun k j => B2 j (x k))) + Omega x n (fun k j => B2 j (x k))).det := by
  rw [isUnit_iff_ne_zero]
  intro h0
  obtain ⟨v, hv0, hv⟩ := exists_mulVec_eq_zero_iff.mpr h0
  have hC := combine_nat B B1 B2 hB v
  have h1 : p * ∑ k : Fin n, (combine B v (x k)) ^ 2 * (err k ^ 2)⁻¹ + (1 - p) * energy x n (combine B2 v) = 0 := by
    have : ∑ i : Fin n, v i * ((p • (lhs (valueMat x n B) err - Omega x n (fun k j => B2 j (x k))) + Omega x n (fun k j => B2 j (x k))) *ᵥ v) i = 0 := by
      rw [hv]; simp
    simp only [system_mul, lhs_mul, omega_mul hn hx hB] at this
    rw [← this]
    have e1 : ∑ k : Fin n, (combine B v (x k)) ^ 2 * (err k ^ 2)⁻¹ = ∑ i : Fin n, v i * ∑ k, valueMat x n B k i * (err k ^ 2)⁻¹ * (valueMat x n B *ᵥ v) k := by
      simp only [Finset.mul_sum]
      rw [Finset.sum_comm]
      apply Finset.sum_congr rfl
      intro k _
      rw [value_mul, sq]
      conv_lhs => rw [show combine B v (x k) * combine B v (x k) = (∑ j : Fin n, v j * B j (x k)) * combine B v (x k) from rfl]
      rw [Finset.sum_mul, Finset.sum_mul]
      exact Finset.sum_congr rfl fun j _ => by unfold valueMat; ring
    have e2 : energy x n (combine B2 v) = ∑ i : Fin n, v i * ∫ u in x 0..x (n - 1), B2 i u * combine B2 v u := by
      unfold energy
      rw [show (fun u => combine B2 v u ^ 2) = fun u => ∑ i : Fin n, v i * (B2 i u * combine B2 v u) from by
        funext u
        rw [sq]
        conv_lhs => rw [show combine B2 v u * combine B2 v u = (∑ j : Fin n, v j * B2 j u) * combine B2 v u from rfl]
        rw [Finset.sum_mul]
        exact Finset.sum_congr rfl fun j _ => by ring]
      rw [intervalIntegral.integral_finsetSum]
      · exact Finset.sum_congr rfl fun i _ => by rw [intervalIntegral.integral_const_mul]
      · intro i _
        exact (continuous_const.mul ((hB i i.2).cont.mul hC.cont)).intervalIntegrable _ _
    rw [e1, e2, Finset.mul_sum, Finset.mul_sum, ← Finset.sum_add_distrib]
    exact Finset.sum_congr rfl fun i _ => by ring
  have hnn : ∀ k : Fin n, 0 ≤ (combine B v (x k)) ^ 2 * (err k ^ 2)⁻¹ := fun k => by positivity
  have h2 : 0 ≤ (1 - p) * energy x n (combine B2 v) := mul_nonneg (by linarith) (energy_nonneg hn hx _)
  have h3 : 0 ≤ ∑ k : Fin n, (combine B v (x k)) ^ 2 * (err k ^ 2)⁻¹ := Finset.sum_nonneg fun k _ => hnn k
  have h4 : ∑ k : Fin n, (combine B v (x k)) ^ 2 * (err k ^ 2)⁻¹ = 0 := by
    have := mul_nonneg hp0.le h3
    have : p * ∑ k : Fin n, (combine B v (x k)) ^ 2 * (err k ^ 2)⁻¹ = 0 := by linarith
    exact (mul_eq_zero.mp this).resolve_left hp0.ne'
  have h5 : valueMat x n B *ᵥ v = 0 := by
    funext k
    rw [value_mul]
    have := (Finset.sum_eq_zero_iff_of_nonneg fun k _ => hnn k).1 h4 k (Finset.mem_univ k)
    have he2 : (err k ^ 2)⁻¹ ≠ 0 := inv_ne_zero (pow_ne_zero 2 (he k))
    exact pow_eq_zero_iff (two_ne_zero) |>.1 ((mul_eq_zero.mp this).resolve_right he2)
  have := mulVec_injective_iff_isUnit.mpr ((isUnit_iff_isUnit_det _).mpr hN)
  exact hv0 (this (by rw [h5, mulVec_zero]))

/-- the coefficients for the parameter p [specification] -/
noncomputable def params (N0 Om : Matrix (Fin n) (Fin n) ℝ) (err y : Fin n → ℝ) (p : ℝ) : Fin n → ℝ := (p • (lhs N0 err - Om) + Om)⁻¹ *ᵥ (p • rhs N0 err y)

theorem best_params (hn : 2 ≤ n) (hx : Inc x n) (hB : ∀ j < n, NatSpline x n (B j) (B1 j) (B2 j)) (he : ∀ k, err k ≠ 0) (hN : IsUnit (valueMat x n B).det) {p : ℝ} (hp0 : 0 < p) (hp1 : p ≤ 1) :
    best (valueMat x n B) (Omega x n (fun k j => B2 j (x k))) err y p = some (params (valueMat x n B) (Omega x n (fun k j => B2 j (x k))) err y p) := by
  unfold best solve
  rw [if_pos (best_some hn hx hB he hN hp0 hp1)]
  rfl

theorem diff_cont (hn : 2 ≤ n) (hx : Inc x n) (hB : ∀ j < n, NatSpline x n (B j) (B1 j) (B2 j)) (he : ∀ k, err k ≠ 0) (hN : IsUnit (valueMat x n B).det) (target : ℝ) {a : ℝ} (ha : 0 < a) :
    ContinuousOn (chisqDiff (valueMat x n B) (Omega x n (fun k j => B2 j (x k))) err y target) (Set.Icc a 1) := by
  set N0 := valueMat x n B
  set Om := Omega x n (fun k j => B2 j (x k))
  have hA : Continuous (fun p : ℝ => p • (lhs N0 err - Om) + Om) := (continuous_id.smul continuous_const).add continuous_const
  have hpar : ContinuousOn (params N0 Om err y) (Set.Icc a 1) := by
    have e : ∀ p ∈ Set.Icc a 1, params N0 Om err y p = (p • (lhs N0 err - Om) + Om).det⁻¹ • ((p • (lhs N0 err - Om) + Om).adjugate *ᵥ (p • rhs N0 err y)) := by
      intro p _
      unfold params
      rw [Matrix.inv_def, Ring.inverse_eq_inv', smul_mulVec]
    refine ContinuousOn.congr ?_ e
    refine ContinuousOn.smul (ContinuousOn.inv₀ hA.matrix_det.continuousOn ?_) ?_
    · intro p hp
      exact (isUnit_iff_ne_zero.mp (best_some hn hx hB he hN (lt_of_lt_of_le ha hp.1) hp.2))
    · exact (hA.matrix_adjugate.matrix_mulVec (continuous_id.smul continuous_const)).continuousOn
  have hchi : Continuous (fun β : Fin n → ℝ => chisq N0 err y β - target) := by
    unfold chisq
    refine Continuous.sub (continuous_finsetSum _ fun k _ => ?_) continuous_const
    have : Continuous fun β : Fin n → ℝ => (N0 *ᵥ β) k := (continuous_apply k).comp (continuous_const.matrix_mulVec continuous_id)
    exact ((continuous_const.sub this).div_const _).pow 2
  refine ContinuousOn.congr (hchi.comp_continuousOn hpar) ?_
  intro p hp
  unfold chisqDiff
  rw [best_params hn hx hB he hN (lt_of_lt_of_le ha hp.1) hp.2]
  rfl

/-- p = 1 interpolates. -/
theorem interpolates (hn : 2 ≤ n) (hx : Inc x n) (hB : ∀ j < n, NatSpline x n (B j) (B1 j) (B2 j)) (he : ∀ k, err k ≠ 0) {β : Fin n → ℝ}
    (hβ : best (valueMat x n B) (Omega x n (fun k j => B2 j (x k))) err y 1 = some β) : misfit x err y (combine B β) = 0 := by
  have hA : IsUnit ((1 : ℝ) • (lhs (valueMat x n B) err - Omega x n (fun k j => B2 j (x k))) + Omega x n (fun k j => B2 j (x k))).det := by
    unfold best solve at hβ
    split at hβ
    · assumption
    · exact absurd hβ (by simp)
  obtain ⟨v, hv⟩ := values_surj hn hx hB hA (fun k => y k - combine B β (x k))
  have hV := combine_nat B B1 B2 hB v
  have := balance hn hx hB hβ hV.toC2
  unfold misfit
  rw [sub_self, zero_mul, one_mul] at this
  rw [← this]
  apply Finset.sum_congr rfl
  intro k _
  rw [hv k]
  have := he k
  field_simp

/-- C103: `smooth`. If the curve for p = 1e-20 misses the target, the result fits the data exactly as well as asked, no curve that fits as well is less curved,
and none is as good; otherwise ValueError. -/
theorem smooth_result {solver : (ℝ → ℝ) → ℝ → ℝ → Except Exc ℝ} (hs : Brent solver) (hn : 2 ≤ n) (hx : Inc x n) (hB : ∀ j < n, NatSpline x n (B j) (B1 j) (B2 j))
    (he : ∀ k, err k ≠ 0) (hN : IsUnit (valueMat x n B).det) {target : ℝ} (ht : 0 < target) {N0 Om : Matrix (Fin n) (Fin n) ℝ} (hN0 : N0 = valueMat x n B)
    (hOm : Om = Omega x n (fun k j => B2 j (x k))) :
    (target ≤ misfit x err y (combine B (params N0 Om err y (1 / 10 ^ 20))) →
      ∃ β, smooth solver N0 Om err y target = .ok β ∧ misfit x err y (combine B β) = target ∧
        ∀ g g1 g2, C2 g g1 g2 → misfit x err y g ≤ target → energy x n (combine B2 β) ≤ energy x n g2 ∧
          (energy x n g2 ≤ energy x n (combine B2 β) → ∀ u, x 0 ≤ u → u ≤ x (n - 1) → g u = combine B β u)) ∧
    (misfit x err y (combine B (params N0 Om err y (1 / 10 ^ 20))) < target → smooth solver N0 Om err y target = .error .value) := by
  subst hN0 hOm
  set N0 := valueMat x n B with hN0
  set Om := Omega x n (fun k j => B2 j (x k)) with hOm
  have ha : (0 : ℝ) < 1 / 10 ^ 20 := by positivity
  have ha1 : (1 : ℝ) / 10 ^ 20 ≤ 1 := by norm_num
  have hval : ∀ p, 0 < p → p ≤ 1 → chisqDiff N0 Om err y target p = misfit x err y (combine B (params N0 Om err y p)) - target := by
    intro p h0 h1
    unfold chisqDiff
    rw [best_params hn hx hB he hN h0 h1]
    show chisq N0 err y _ - target = _
    rw [chisq_eq]
  have h1 : chisqDiff N0 Om err y target 1 = -target := by
    rw [hval 1 one_pos le_rfl, interpolates hn hx hB he (best_params hn hx hB he hN one_pos le_rfl)]
    ring
  constructor
  · intro hge
    have h0 : 0 ≤ chisqDiff N0 Om err y target (1 / 10 ^ 20) := by rw [hval _ ha ha1]; linarith
    obtain ⟨r, hr, hr1, hr2, hr3⟩ := hs.zero (chisqDiff N0 Om err y target) (1 / 10 ^ 20) 1 ha1 (by rw [h1]; nlinarith) (diff_cont hn hx hB he hN target ha)
    have hr0 : 0 < r := lt_of_lt_of_le ha hr1
    have hne : r ≠ 1 := by
      rintro rfl
      rw [h1] at hr3
      linarith
    have hlt : r < 1 := lt_of_le_of_ne hr2 hne
    have hb := best_params (y := y) hn hx hB he hN hr0 hr2
    have hmis : misfit x err y (combine B (params N0 Om err y r)) = target := by
      have := hval r hr0 hr2
      linarith
    refine ⟨params N0 Om err y r, ?_, hmis, ?_⟩
    · unfold smooth
      rw [hr]
      show (match best N0 Om err y r with | none => _ | some β => _) = _
      rw [hb]
    · intro g g1 g2 hg hle
      exact smoothest hn hx hB he hr0 hlt hb hg (by rw [hmis]; exact hle)
  · intro hlt
    have h0 : chisqDiff N0 Om err y target (1 / 10 ^ 20) < 0 := by rw [hval _ ha ha1]; linarith
    unfold smooth
    rw [hs.same _ _ _ (by rw [h1]; nlinarith)]
    rfl

/-- When a straight line fits the data within the target, there is no curve: brentq finds no change of sign. -/
theorem line_fits {solver : (ℝ → ℝ) → ℝ → ℝ → Except Exc ℝ} (hs : Brent solver) (hn : 2 ≤ n) (hx : Inc x n) (hB : ∀ j < n, NatSpline x n (B j) (B1 j) (B2 j))
    (he : ∀ k, err k ≠ 0) (hN : IsUnit (valueMat x n B).det) {target : ℝ} {a b : ℝ} (hline : misfit x err y (fun u => a + b * u) < target) :
    smooth solver (valueMat x n B) (Omega x n (fun k j => B2 j (x k))) err y target = .error .value := by
  have ht : 0 < target := lt_of_le_of_lt (Finset.sum_nonneg fun k _ => sq_nonneg _) hline
  refine (smooth_result hs hn hx hB he hN ht rfl rfl).2 (lt_of_le_of_lt ?_ hline)
  have ha : (0 : ℝ) < 1 / 10 ^ 20 := by positivity
  have ha1 : (1 : ℝ) / 10 ^ 20 ≤ 1 := by norm_num
  have hg : C2 (fun u : ℝ => a + b * u) (fun _ => b) (fun _ => 0) := by
    refine ⟨fun u => ?_, fun u => hasDerivAt_const u b, continuous_const⟩
    simpa using ((hasDerivAt_id u).const_mul b).const_add a
  have hpen := penalty_eq hn hx hB he (best_params (y := y) hn hx hB he hN ha ha1) hg
  have hE0 : energy x n (fun _ => (0 : ℝ)) = 0 := by simp [energy]
  have h1 := energy_nonneg hn hx (combine B2 (params (valueMat x n B) (Omega x n fun k j => B2 j (x k)) err y (1 / 10 ^ 20)))
  have h2 := energy_nonneg hn hx (fun u => (fun _ : ℝ => (0 : ℝ)) u - combine B2 (params (valueMat x n B) (Omega x n fun k j => B2 j (x k)) err y (1 / 10 ^ 20)) u)
  have h3 : 0 ≤ ∑ k : Fin n, (((fun u : ℝ => a + b * u) (x k) - combine B (params (valueMat x n B) (Omega x n fun k j => B2 j (x k)) err y (1 / 10 ^ 20)) (x k)) / err k) ^ 2 :=
    Finset.sum_nonneg fun k _ => sq_nonneg _
  rw [hE0] at hpen
  have hq : (0 : ℝ) ≤ 1 - 1 / 10 ^ 20 := by linarith
  have k1 := mul_nonneg hq h1
  have k2 := mul_nonneg hq h2
  have k3 := mul_nonneg ha.le h3
  have : (1 : ℝ) / 10 ^ 20 * misfit x err y (combine B (params (valueMat x n B) (Omega x n fun k j => B2 j (x k)) err y (1 / 10 ^ 20))) ≤ 1 / 10 ^ 20 * misfit x err y (fun u => a + b * u) := by linarith
  exact le_of_mul_le_mul_left this ha

end

end Mass.Calc.Smooth
