import Verif.Stat.Merge
import Mathlib.Data.List.Sort
import Mathlib.MeasureTheory.Integral.IntegralEqImproper
import Mathlib.MeasureTheory.Integral.ExpDecay
import Mathlib.Analysis.SpecialFunctions.Trigonometric.ArctanDeriv
import Mathlib.Analysis.SpecialFunctions.Log.Deriv
import Mathlib.MeasureTheory.Measure.Lebesgue.Integral
import Mathlib.MeasureTheory.Measure.Haar.NormedSpace
import Mathlib.Tactic.LinearCombination
/-! C88: entropy of a Laplace kernel-density estimate, exact mode (mass/mathstat/entropy.pyx). Values are real numbers: no NaN, no rounding, no
overflow or underflow of `exp`. -/
namespace Mass.Stat
open Real MeasureTheory Set Filter Asymptotics intervalIntegral

/-- entropy.pyx L85-88 and L280-286: the left-to-right pass. `e i` is the decay from node `i` to node `i+1`, `S i` the step taken at node `i`. -/
noncomputable def cPass (e S : ℕ → ℝ) : ℕ → ℝ
  | 0 => S 0
  | i + 1 => e i * cPass e S i + S (i + 1)

/-- entropy.pyx L89-91 and L290-296: the right-to-left pass over `n` nodes. -/
noncomputable def dPass (e S : ℕ → ℝ) (n i : ℕ) : ℝ :=
  if i + 1 < n then e i * dPass e S n (i + 1) + S i else S i
termination_by n - i

/-- entropy.pyx L96-104: what one gap between neighbouring nodes adds to the sum: `c` from the left node, `dn` from the right node, `e` the decay. -/
noncomputable def gapTerm (w c dn e : ℝ) : ℝ :=
  let dp := dn * e
  let r1 := c / dn
  let e2 := √e
  4 * w * √(c * dp) * arctan ((e2 - 1 / e2) * √r1 / (r1 + 1)) + w * (dp - c) * (log (c + dp) - 1)
    - w * (dn - c * e) * (log (dn + c * e) - 1)

open Classical in
/-- entropy.pyx L76-104 `laplace_entropy_array` on the sorted and scaled values; `ex` is the C function `exp` of the machine. `r = sqrt(c[i]/dp)` (L97,
otherwise unused) divides by zero when the decay of a gap is 0. Cython 3 lets that ZeroDivisionError out of the function (Cython 0.29 prints it and
returns 0). -/
noncomputable def entropyArray (ex : ℝ → ℝ) (y : List ℝ) (w : ℝ) : Except Exc ℝ :=
  let n := y.length
  let e : ℕ → ℝ := fun i => ex (y.getD i 0 - y.getD (i + 1) 0)
  let S : ℕ → ℝ := fun _ => 1 / (2 * w * n)
  let c := cPass e S
  let d := dPass e S n
  if ∃ i < n - 1, d (i + 1) * e i = 0 then .error .zeroDiv
  else .ok (w * d 0 * (1 - log (d 0)) + w * c (n - 1) * (1 - log (c (n - 1)))
    + ((List.range (n - 1)).map (fun i : ℕ => gapTerm w (c i) (d (i + 1)) (e i))).sum)

/-- entropy.pyx L41-74 `laplace_entropy`, exact mode (`approx_mode="exact"`, or the default with at most 200000 values). `np.sort(x)/w`. -/
noncomputable def laplaceEntropy (ex : ℝ → ℝ) (x : List ℝ) (w : ℝ) : Except Exc ℝ :=
  if x.length = 0 then .error .value
  else if w ≤ 0 then .error .value
  else entropyArray ex ((x.insertionSort (· ≤ ·)).map (· / w)) w

/-- the kernel-density estimate of the data at `u`: the average of the Laplace densities of scale `w` centred at the data [specification] -/
noncomputable def kde (x : List ℝ) (w u : ℝ) : ℝ := (x.map (fun a : ℝ => exp (-|u - a| / w) / (2 * w))).sum / x.length

/-! ### the passes as sums -/

/-- decay between neighbouring nodes -/
noncomputable def dec (Y : ℕ → ℝ) (i : ℕ) : ℝ := exp (Y i - Y (i + 1))

theorem cPass_eq (Y S : ℕ → ℝ) (i : ℕ) : cPass (dec Y) S i = ∑ j ∈ Finset.range (i + 1), S j * exp (Y j - Y i) := by
  induction i with
  | zero => simp [cPass]
  | succ i ih =>
    rw [cPass, ih, dec, Finset.sum_range_succ _ (i + 1), sub_self, exp_zero, mul_one, Finset.mul_sum]
    congr 1
    refine Finset.sum_congr rfl fun j _ => ?_
    rw [mul_left_comm, ← exp_add]
    congr 2
    ring

theorem dPass_eq (Y S : ℕ → ℝ) (n i : ℕ) (hi : i < n) : dPass (dec Y) S n i = ∑ j ∈ Finset.Ico i n, S j * exp (Y i - Y j) := by
  fun_induction dPass (dec Y) S n i with
  | case1 i h ih =>
    rw [ih h, dec, Finset.sum_eq_sum_Ico_succ_bot hi, sub_self, exp_zero, mul_one, Finset.mul_sum, add_comm]
    congr 1
    refine Finset.sum_congr rfl fun j _ => ?_
    rw [mul_left_comm, ← exp_add]
    congr 2
    ring
  | case2 i h =>
    have : n = i + 1 := by omega
    subst this
    simp

/-- sum of Laplace kernels of scale 1 with heights `S j` at `Y j`, `j < n` -/
noncomputable def lap (Y S : ℕ → ℝ) (n : ℕ) (v : ℝ) : ℝ := ∑ j ∈ Finset.range n, S j * exp (-|v - Y j|)

section pieces
variable {Y S : ℕ → ℝ} {n : ℕ} (hY : ∀ i j, i ≤ j → j < n → Y i ≤ Y j)
include hY

theorem lap_left (h0 : 0 < n) {v : ℝ} (hv : v ≤ Y 0) : lap Y S n v = dPass (dec Y) S n 0 * exp (v - Y 0) := by
  rw [dPass_eq _ _ _ _ h0, lap, Nat.Ico_zero_eq_range, Finset.sum_mul]
  refine Finset.sum_congr rfl fun j hj => ?_
  have := hY 0 j (Nat.zero_le _) (Finset.mem_range.1 hj)
  rw [abs_of_nonpos (by linarith), mul_assoc, ← exp_add]
  congr 2
  ring

theorem lap_right (h0 : 0 < n) {v : ℝ} (hv : Y (n - 1) ≤ v) : lap Y S n v = cPass (dec Y) S (n - 1) * exp (Y (n - 1) - v) := by
  rw [cPass_eq, lap, Nat.sub_add_cancel h0, Finset.sum_mul]
  refine Finset.sum_congr rfl fun j hj => ?_
  have := hY j (n - 1) (by have := Finset.mem_range.1 hj; omega) (by omega)
  rw [abs_of_nonneg (by linarith), mul_assoc, ← exp_add]
  congr 2
  ring

theorem lap_mid {i : ℕ} (hi : i + 1 < n) {v : ℝ} (h1 : Y i ≤ v) (h2 : v ≤ Y (i + 1)) :
    lap Y S n v = cPass (dec Y) S i * exp (Y i - v) + dPass (dec Y) S n (i + 1) * exp (v - Y (i + 1)) := by
  rw [cPass_eq, dPass_eq _ _ _ _ hi, lap, Finset.sum_mul, Finset.sum_mul, ← Finset.sum_range_add_sum_Ico _ (le_of_lt hi)]
  congr 1
  · refine Finset.sum_congr rfl fun j hj => ?_
    have := hY j i (by have := Finset.mem_range.1 hj; omega) (by omega)
    rw [abs_of_nonneg (by linarith), mul_assoc, ← exp_add]
    congr 2
    ring
  · refine Finset.sum_congr rfl fun j hj => ?_
    rw [Finset.mem_Ico] at hj
    have := hY (i + 1) j hj.1 hj.2
    rw [abs_of_nonpos (by linarith), mul_assoc, ← exp_add]
    congr 2
    ring

omit hY in
theorem continuous_lap : Continuous (lap Y S n) := by
  unfold lap
  fun_prop

omit hY in
theorem lap_pos (h0 : 0 < n) (hS : ∀ i, 0 < S i) (v : ℝ) : 0 < lap Y S n v :=
  Finset.sum_pos (fun j _ => mul_pos (hS j) (exp_pos _)) ⟨0, Finset.mem_range.2 h0⟩

/-- the integral over the whole line is the sum of the integrals over the two tails and the gaps -/
theorem integral_split (h0 : 0 < n) {f : ℝ → ℝ} (hl : IntegrableOn f (Iic (Y 0))) (hr : IntegrableOn f (Ioi (Y (n - 1))))
    (hm : ∀ i < n - 1, IntervalIntegrable f volume (Y i) (Y (i + 1))) :
    Integrable f ∧ ∫ v, f v = (∫ v in Iic (Y 0), f v) + (∑ i ∈ Finset.range (n - 1), ∫ v in (Y i)..(Y (i + 1)), f v)
      + ∫ v in Ioi (Y (n - 1)), f v := by
  have hle : Y 0 ≤ Y (n - 1) := hY 0 (n - 1) (Nat.zero_le _) (by omega)
  have hmid : IntervalIntegrable f volume (Y 0) (Y (n - 1)) := IntervalIntegrable.trans_iterate hm
  rw [intervalIntegrable_iff_integrableOn_Ioc_of_le hle] at hmid
  have hr' : IntegrableOn f (Ioi (Y 0)) := by
    rw [← Ioc_union_Ioi_eq_Ioi hle]
    exact hmid.union hr
  refine ⟨?_, ?_⟩
  · rw [← integrableOn_univ, ← Iic_union_Ioi (a := Y 0)]
    exact hl.union hr'
  · rw [sum_integral_adjacent_intervals hm, ← integral_Iic_add_Ioi hl hr', integral_of_le hle, add_assoc]
    congr 1
    rw [← Ioc_union_Ioi_eq_Ioi hle]
    exact setIntegral_union (Set.disjoint_left.2 fun z hz hz' => absurd hz.2 (not_le.2 hz')) measurableSet_Ioi hmid hr
end pieces

/-! ### integrals over the tails -/

theorem tail_bigO (A B a : ℝ) : (fun v : ℝ => exp (a - v) * (A + B * v)) =O[atTop] fun v => exp (-(1 / 2) * v) := by
  have h1 : (fun v : ℝ => A + B * v) =O[atTop] fun v => exp ((1 / 2) * v) := by
    refine IsBigO.add ?_ ?_
    · refine IsBigO.of_bound |A| ?_
      filter_upwards [eventually_ge_atTop (0 : ℝ)] with v hv
      rw [norm_eq_abs, norm_eq_abs, abs_of_pos (exp_pos _)]
      exact le_mul_of_one_le_right (abs_nonneg _) (one_le_exp (by linarith))
    · refine IsBigO.const_mul_left ?_ B
      have := isLittleO_pow_exp_pos_mul_atTop 1 (b := (1 / 2 : ℝ)) (by norm_num)
      simpa using this.isBigO
  have h2 : (fun v : ℝ => exp (a - v)) =O[atTop] fun v => exp (-v) := by
    have : (fun v : ℝ => exp (a - v)) = fun v => exp a * exp (-v) := by
      funext v
      rw [← exp_add]
      rfl
    rw [this]
    exact IsBigO.const_mul_left (isBigO_refl _ _) _
  refine (h2.mul h1).congr_right fun v => ?_
  rw [← exp_add]
  congr 1
  ring

theorem tail_tendsto (A B a : ℝ) : Tendsto (fun v : ℝ => exp (a - v) * (A + B * v)) atTop (nhds 0) := by
  refine (tail_bigO A B a).trans_tendsto ?_
  refine tendsto_exp_atBot.comp ?_
  exact tendsto_id.const_mul_atTop_of_neg (by norm_num)

/-- right tail of an exponential times its logarithm -/
theorem tail_right {C : ℝ} (hC : 0 < C) (a : ℝ) :
    IntegrableOn (fun v => (C * exp (a - v)) * log (C * exp (a - v))) (Ioi a) ∧
      ∫ v in Ioi a, (C * exp (a - v)) * log (C * exp (a - v)) = C * (log C - 1) := by
  have e : (fun v => (C * exp (a - v)) * log (C * exp (a - v))) = fun v => exp (a - v) * (C * (log C + a) + (-C) * v) := by
    funext v
    rw [log_mul hC.ne' (exp_pos _).ne', log_exp]
    ring
  have hi : IntegrableOn (fun v => (C * exp (a - v)) * log (C * exp (a - v))) (Ioi a) := by
    rw [e]
    exact integrable_of_isBigO_exp_neg (b := 1 / 2) (by norm_num) (by fun_prop) (tail_bigO _ _ _)
  refine ⟨hi, ?_⟩
  have hd : ∀ v ∈ Ici a, HasDerivAt (fun v => exp (a - v) * (C * (1 - log C - a) + C * v)) ((C * exp (a - v)) * log (C * exp (a - v))) v := by
    intro v _
    have h1 : HasDerivAt (fun v : ℝ => exp (a - v)) (exp (a - v) * (-1)) v := ((hasDerivAt_id v).const_sub a).exp
    have h2 : HasDerivAt (fun v : ℝ => C * (1 - log C - a) + C * v) (C * 1) v := ((hasDerivAt_id v).const_mul C).const_add _
    refine (h1.mul h2).congr_deriv ?_
    rw [log_mul hC.ne' (exp_pos _).ne', log_exp]
    ring
  rw [integral_Ioi_of_hasDerivAt_of_tendsto' hd hi (tail_tendsto _ _ _), sub_self, exp_zero]
  ring

theorem tail_right_exp (C a : ℝ) :
    IntegrableOn (fun v => C * exp (a - v)) (Ioi a) ∧ ∫ v in Ioi a, C * exp (a - v) = C := by
  have e : (fun v => C * exp (a - v)) = fun v => exp (a - v) * (C + 0 * v) := by
    funext v
    ring
  have hi : IntegrableOn (fun v => C * exp (a - v)) (Ioi a) := by
    rw [e]
    exact integrable_of_isBigO_exp_neg (b := 1 / 2) (by norm_num) (by fun_prop) (tail_bigO _ _ _)
  refine ⟨hi, ?_⟩
  have hd : ∀ v ∈ Ici a, HasDerivAt (fun v => exp (a - v) * (-C + 0 * v)) (C * exp (a - v)) v := by
    intro v _
    have h1 : HasDerivAt (fun v : ℝ => exp (a - v)) (exp (a - v) * (-1)) v := ((hasDerivAt_id v).const_sub a).exp
    have h2 : HasDerivAt (fun v : ℝ => -C + 0 * v) (0 * 1) v := ((hasDerivAt_id v).const_mul 0).const_add _
    refine (h1.mul h2).congr_deriv ?_
    ring
  rw [integral_Ioi_of_hasDerivAt_of_tendsto' hd hi (tail_tendsto _ _ _), sub_self, exp_zero]
  ring

theorem reflect {g : ℝ → ℝ} {a I : ℝ} (h : IntegrableOn (fun v => g (-v)) (Ioi (-a)) ∧ ∫ v in Ioi (-a), g (-v) = I) :
    IntegrableOn g (Iic a) ∧ ∫ v in Iic a, g v = I := by
  have e : g = fun v => (fun u => g (-u)) (-v) := by
    funext v
    simp
  refine ⟨?_, ?_⟩
  · have := (integrableOn_Ici_iff_integrableOn_Ioi).2 h.1
    have h2 := this.comp_neg
    simpa using h2
  · rw [← h.2, ← integral_comp_neg_Iic]
    simp

theorem tail_left {D : ℝ} (hD : 0 < D) (a : ℝ) :
    IntegrableOn (fun v => (D * exp (v - a)) * log (D * exp (v - a))) (Iic a) ∧
      ∫ v in Iic a, (D * exp (v - a)) * log (D * exp (v - a)) = D * (log D - 1) := by
  refine reflect ?_
  have := tail_right hD (-a)
  have e : ∀ v : ℝ, -v - a = -a - v := fun v => by ring
  simpa only [e] using this

theorem tail_left_exp (D a : ℝ) :
    IntegrableOn (fun v => D * exp (v - a)) (Iic a) ∧ ∫ v in Iic a, D * exp (v - a) = D := by
  refine reflect ?_
  have := tail_right_exp D (-a)
  have e : ∀ v : ℝ, -v - a = -a - v := fun v => by ring
  simpa only [e] using this

/-! ### the integral over one gap -/

theorem gap_deriv {C G : ℝ} (hC : 0 < C) (hG : 0 < G) (a v : ℝ) :
    HasDerivAt (fun v => (G * exp (v - a) - C * exp (a - v)) * (log (C * exp (a - v) + G * exp (v - a)) - 1)
        + 4 * √(C * G) * arctan (√(G / C) * exp (v - a)))
      ((C * exp (a - v) + G * exp (v - a)) * log (C * exp (a - v) + G * exp (v - a))) v := by
  have h1 : HasDerivAt (fun v : ℝ => exp (a - v)) (exp (a - v) * (-1)) v := ((hasDerivAt_id v).const_sub a).exp
  have h2 : HasDerivAt (fun v : ℝ => exp (v - a)) (exp (v - a) * 1) v := ((hasDerivAt_id v).sub_const a).exp
  have hp : HasDerivAt (fun v : ℝ => C * exp (a - v) + G * exp (v - a)) (C * (exp (a - v) * (-1)) + G * (exp (v - a) * 1)) v :=
    (h1.const_mul C).add (h2.const_mul G)
  have hq : HasDerivAt (fun v : ℝ => G * exp (v - a) - C * exp (a - v)) (G * (exp (v - a) * 1) - C * (exp (a - v) * (-1))) v :=
    (h2.const_mul G).sub (h1.const_mul C)
  have hp0 : 0 < C * exp (a - v) + G * exp (v - a) := add_pos (mul_pos hC (exp_pos _)) (mul_pos hG (exp_pos _))
  have hl := (hp.log hp0.ne').sub_const 1
  have ha := ((h2.const_mul √(G / C)).arctan).const_mul (4 * √(C * G))
  refine ((hq.mul hl).add ha).congr_deriv ?_
  have et : exp (a - v) = (exp (v - a))⁻¹ := by rw [← exp_neg]; congr 1; ring
  have ht : 0 < exp (v - a) := exp_pos _
  rw [et] at hp0 ⊢
  generalize exp (v - a) = t at *
  have hs : √(C * G) * √(G / C) = G := by
    rw [← sqrt_mul (by positivity), show C * G * (G / C) = G * G by field_simp, sqrt_mul_self hG.le]
  have hk : √(G / C) ^ 2 = G / C := sq_sqrt (by positivity)
  have hat : 4 * √(C * G) * (1 / (1 + (√(G / C) * t) ^ 2) * (√(G / C) * (t * 1))) = 4 * G * C / (C * t⁻¹ + G * t) := by
    rw [mul_pow, hk]
    have : 4 * √(C * G) * (1 / (1 + G / C * t ^ 2) * (√(G / C) * (t * 1))) = 4 * (√(C * G) * √(G / C)) * t / (1 + G / C * t ^ 2) := by ring
    rw [this, hs]
    field_simp
  rw [hat]
  field_simp
  ring

theorem gap_alg {k r : ℝ} (hk : 0 < k) (hr : 0 < r) :
    (k / r * (k ^ 2)⁻¹ + -(k / r * 1)) / (1 - k / r * (k ^ 2)⁻¹ * -(k / r * 1)) = -((k - 1 / k) * r / (r ^ 2 + 1)) := by
  have h1 : r ^ 2 + 1 ≠ 0 := by positivity
  have h2 : 1 - k / r * (k ^ 2)⁻¹ * -(k / r * 1) = (r ^ 2 + 1) / r ^ 2 := by
    field_simp
    ring
  rw [h2]
  field_simp
  ring

/-- the integral of `p log p` between neighbouring nodes `a ≤ b` is what the code subtracts -/
theorem gap_integral {C D : ℝ} (hC : 0 < C) (hD : 0 < D) (a b : ℝ) :
    IntervalIntegrable (fun v => (C * exp (a - v) + D * exp (v - b)) * log (C * exp (a - v) + D * exp (v - b))) volume a b ∧
    ∫ v in a..b, (C * exp (a - v) + D * exp (v - b)) * log (C * exp (a - v) + D * exp (v - b)) = -gapTerm 1 C D (exp (a - b)) := by
  have hE : 0 < exp (a - b) := exp_pos _
  have hG : 0 < D * exp (a - b) := mul_pos hD hE
  have e : ∀ v, D * exp (v - b) = (D * exp (a - b)) * exp (v - a) := fun v => by
    rw [mul_assoc, ← exp_add]
    congr 2
    ring
  have hcont : Continuous (fun v => (C * exp (a - v) + D * exp (v - b)) * log (C * exp (a - v) + D * exp (v - b))) := by
    have hp : ∀ v, C * exp (a - v) + D * exp (v - b) ≠ 0 := fun v => (add_pos (mul_pos hC (exp_pos _)) (mul_pos hD (exp_pos _))).ne'
    have h1 : Continuous (fun v => C * exp (a - v) + D * exp (v - b)) := by fun_prop
    exact h1.mul (h1.log hp)
  refine ⟨hcont.intervalIntegrable _ _, ?_⟩
  have hd : ∀ v ∈ uIcc a b, HasDerivAt (fun v => (D * exp (a - b) * exp (v - a) - C * exp (a - v)) * (log (C * exp (a - v) + D * exp (a - b) * exp (v - a)) - 1)
        + 4 * √(C * (D * exp (a - b))) * arctan (√(D * exp (a - b) / C) * exp (v - a)))
      ((C * exp (a - v) + D * exp (v - b)) * log (C * exp (a - v) + D * exp (v - b))) v := by
    intro v _
    rw [e v]
    exact gap_deriv hC hG a v
  rw [integral_eq_sub_of_hasDerivAt hd (hcont.intervalIntegrable _ _)]
  have eb : exp (b - a) = (exp (a - b))⁻¹ := by rw [← exp_neg]; congr 1; ring
  rw [sub_self, exp_zero, eb]
  unfold gapTerm
  dsimp only
  generalize exp (a - b) = E at *
  have hat : arctan (√(D * E / C) * E⁻¹) - arctan (√(D * E / C) * 1) = -arctan ((√E - 1 / √E) * √(C / D) / (C / D + 1)) := by
    rw [sub_eq_add_neg, ← arctan_neg, arctan_add, ← arctan_neg]
    · congr 1
      have hsE : √E ^ 2 = E := sq_sqrt hE.le
      have hsE0 : 0 < √E := sqrt_pos.2 hE
      have hr : √(D * E / C) = √E / √(C / D) := by
        rw [← sqrt_div' _ (by positivity)]
        congr 1
        field_simp
      have hsr : √(C / D) ^ 2 = C / D := sq_sqrt (by positivity)
      have hsr0 : 0 < √(C / D) := sqrt_pos.2 (by positivity)
      have h := gap_alg hsE0 hsr0
      rw [hsE, hsr] at h
      rw [hr]
      exact h
    · have : 0 ≤ √(D * E / C) := sqrt_nonneg _
      have : 0 ≤ √(D * E / C) * E⁻¹ := by positivity
      nlinarith
  have e1 : D * E * E⁻¹ = D := by field_simp
  rw [e1]
  have e2 : log (C * E + D) = log (D + C * E) := by rw [add_comm]
  rw [e2]
  simp only [mul_one] at hat ⊢
  linear_combination (4 * √(C * (D * E))) * hat

/-! ### the whole line -/

theorem cPass_pos {Y S : ℕ → ℝ} (hS : ∀ i, 0 < S i) (i : ℕ) : 0 < cPass (dec Y) S i := by
  rw [cPass_eq]
  exact Finset.sum_pos (fun j _ => mul_pos (hS j) (exp_pos _)) ⟨0, Finset.mem_range.2 (Nat.succ_pos _)⟩

theorem dPass_pos {Y S : ℕ → ℝ} (hS : ∀ i, 0 < S i) {n i : ℕ} (hi : i < n) : 0 < dPass (dec Y) S n i := by
  rw [dPass_eq _ _ _ _ hi]
  exact Finset.sum_pos (fun j _ => mul_pos (hS j) (exp_pos _)) ⟨i, Finset.mem_Ico.2 ⟨le_refl _, hi⟩⟩

theorem lap_entropy {Y S : ℕ → ℝ} {n : ℕ} (hY : ∀ i j, i ≤ j → j < n → Y i ≤ Y j) (h0 : 0 < n) (hS : ∀ i, 0 < S i) :
    Integrable (fun v => lap Y S n v * log (lap Y S n v)) ∧
    ∫ v, lap Y S n v * log (lap Y S n v) = dPass (dec Y) S n 0 * (log (dPass (dec Y) S n 0) - 1)
      + (∑ i ∈ Finset.range (n - 1), -gapTerm 1 (cPass (dec Y) S i) (dPass (dec Y) S n (i + 1)) (dec Y i))
      + cPass (dec Y) S (n - 1) * (log (cPass (dec Y) S (n - 1)) - 1) := by
  have hl := tail_left (dPass_pos (Y := Y) hS h0) (Y 0)
  have hr := tail_right (cPass_pos (Y := Y) hS (n - 1)) (Y (n - 1))
  have el : EqOn (fun v => (dPass (dec Y) S n 0 * exp (v - Y 0)) * log (dPass (dec Y) S n 0 * exp (v - Y 0))) (fun v => lap Y S n v * log (lap Y S n v)) (Iic (Y 0)) := by
    intro v hv
    dsimp only
    rw [lap_left hY h0 hv]
  have er : EqOn (fun v => (cPass (dec Y) S (n - 1) * exp (Y (n - 1) - v)) * log (cPass (dec Y) S (n - 1) * exp (Y (n - 1) - v)))
      (fun v => lap Y S n v * log (lap Y S n v)) (Ioi (Y (n - 1))) := by
    intro v hv
    dsimp only
    rw [lap_right hY h0 (le_of_lt hv)]
  have hc : Continuous (fun v => lap Y S n v * log (lap Y S n v)) :=
    continuous_lap.mul (continuous_lap.log fun v => (lap_pos h0 hS v).ne')
  obtain ⟨hi, hs⟩ := integral_split hY h0 (hl.1.congr_fun el measurableSet_Iic) (hr.1.congr_fun er measurableSet_Ioi)
    (fun i _ => hc.intervalIntegrable _ _)
  refine ⟨hi, ?_⟩
  rw [hs, ← setIntegral_congr_fun measurableSet_Iic el, hl.2, ← setIntegral_congr_fun measurableSet_Ioi er, hr.2]
  congr 2
  refine Finset.sum_congr rfl fun i hi => ?_
  have hi' : i + 1 < n := by have := Finset.mem_range.1 hi; omega
  have hle := hY i (i + 1) (by omega) hi'
  rw [show dec Y i = exp (Y i - Y (i + 1)) from rfl, ← (gap_integral (cPass_pos hS i) (dPass_pos hS hi') (Y i) (Y (i + 1))).2]
  refine integral_congr fun v hv => ?_
  rw [uIcc_of_le hle] at hv
  rw [lap_mid hY hi' hv.1 hv.2]

theorem gapTerm_scale (w c d e : ℝ) : gapTerm w c d e = w * gapTerm 1 c d e := by
  unfold gapTerm
  ring

theorem sum_getD (g : ℝ → ℝ) (l : List ℝ) : ∑ j ∈ Finset.range l.length, g (l.getD j 0) = (l.map g).sum := by
  induction l with
  | nil => simp
  | cons a t ih =>
    rw [List.length_cons, Finset.sum_range_succ', List.map_cons, List.sum_cons, ← ih, add_comm]
    rfl

theorem range_sum (g : ℕ → ℝ) (n : ℕ) : ((List.range n).map g).sum = ∑ i ∈ Finset.range n, g i := by
  induction n with
  | zero => simp
  | succ n ih => rw [List.range_succ, List.map_append, List.sum_append, ih, Finset.sum_range_succ]; simp

theorem sorted_getD {y : List ℝ} (hy : y.Pairwise (· ≤ ·)) (i j : ℕ) (hij : i ≤ j) (hj : j < y.length) : y.getD i 0 ≤ y.getD j 0 := by
  rw [List.getD_eq_getElem?_getD, List.getD_eq_getElem?_getD, List.getElem?_eq_getElem hj, List.getElem?_eq_getElem (show i < y.length by omega)]
  simp only [Option.getD_some]
  rcases Nat.eq_or_lt_of_le hij with h | h
  · subst h; exact le_refl _
  · exact List.pairwise_iff_getElem.1 hy i j (by omega) hj h

/-- the data sorted and scaled -/
noncomputable def scaled (x : List ℝ) (w : ℝ) : List ℝ := (x.insertionSort (· ≤ ·)).map (· / w)

theorem scaled_length (x : List ℝ) (w : ℝ) : (scaled x w).length = x.length := by
  rw [scaled, List.length_map, List.length_insertionSort]

theorem scaled_sorted (x : List ℝ) {w : ℝ} (hw : 0 < w) : (scaled x w).Pairwise (· ≤ ·) := by
  unfold scaled
  rw [List.pairwise_map]
  exact (List.pairwise_insertionSort (· ≤ ·) x).imp fun h => by
    exact div_le_div_of_nonneg_right h hw.le

theorem kde_lap (x : List ℝ) {w : ℝ} (hw : 0 < w) (s : ℝ) (hs : s = 1 / (2 * w * x.length)) (u : ℝ) :
    kde x w u = lap (fun i => (scaled x w).getD i 0) (fun _ => s) x.length (u / w) := by
  have h := sum_getD (fun a => s * exp (-|u / w - a|)) (scaled x w)
  rw [scaled_length] at h
  rw [lap, h, scaled, List.map_map, ((List.perm_insertionSort (· ≤ ·) x).map _).sum_eq, kde, div_eq_mul_inv, ← List.sum_map_mul_right]
  congr 1
  refine List.map_congr_left fun a _ => ?_
  simp only [Function.comp]
  rw [← sub_div, abs_div, abs_of_pos hw, hs, neg_div]
  field_simp

/-- C88. In exact mode, for any data and any scale: without data or with a scale that is not positive a ValueError; otherwise the value is the entropy
`-∫ p log p` of the kernel-density estimate `p` of the data, and that integral exists. -/
theorem laplace_entropy_partial (x : List ℝ) (w : ℝ) :
    ((x = [] ∨ w ≤ 0) → laplaceEntropy exp x w = .error .value) ∧
    (x ≠ [] → 0 < w → Integrable (fun u => kde x w u * log (kde x w u)) ∧
      laplaceEntropy exp x w = .ok (-∫ u, kde x w u * log (kde x w u))) := by
  refine ⟨?_, fun hx hw => ?_⟩
  · rintro (rfl | h)
    · simp [laplaceEntropy]
    · unfold laplaceEntropy
      rw [if_pos h, ite_self]
  have hn : 0 < x.length := List.length_pos_iff.2 hx
  have hn' : (0 : ℝ) < x.length := by exact_mod_cast hn
  have hs : (0 : ℝ) < 1 / (2 * w * x.length) := by positivity
  obtain ⟨hi, hv⟩ := lap_entropy (Y := fun i => (scaled x w).getD i 0) (S := fun _ => 1 / (2 * w * x.length)) (n := x.length)
    (fun i j hij hj => sorted_getD (scaled_sorted x hw) i j hij (by rw [scaled_length]; exact hj)) hn (fun _ => hs)
  simp only [fun u => kde_lap x hw _ rfl u]
  refine ⟨hi.comp_div hw.ne', ?_⟩
  rw [Measure.integral_comp_div (fun v => lap (fun i => (scaled x w).getD i 0) (fun _ => 1 / (2 * w * x.length)) x.length v *
    log (lap (fun i => (scaled x w).getD i 0) (fun _ => 1 / (2 * w * x.length)) x.length v)) w, abs_of_pos hw, hv, smul_eq_mul]
  unfold laplaceEntropy
  rw [if_neg hn.ne', if_neg (not_le.2 hw)]
  unfold entropyArray
  have hlen := scaled_length x w
  unfold scaled at hlen ⊢
  dsimp only
  rw [hlen, if_neg, range_sum]
  · simp only [gapTerm_scale w]
    rw [Finset.sum_neg_distrib, ← Finset.mul_sum]
    congr 1
    unfold dec
    ring
  · rintro ⟨i, hi, h⟩
    exact (mul_pos (dPass_pos (Y := fun i => (scaled x w).getD i 0) (fun _ => hs) (show i + 1 < x.length by omega)) (exp_pos _)).ne' h

/-- one value: the entropy of a Laplace density of scale `w` is `1 + log (2 w)` -/
theorem laplace_entropy_single (a : ℝ) {w : ℝ} (hw : 0 < w) : laplaceEntropy exp [a] w = .ok (1 + log (2 * w)) := by
  unfold laplaceEntropy
  rw [if_neg (by simp), if_neg (not_le.2 hw)]
  unfold entropyArray
  dsimp only
  rw [if_neg (by rintro ⟨i, hi, _⟩; simp at hi)]
  congr 1
  have h1 : ∀ e S : ℕ → ℝ, dPass e S 1 0 = S 0 := fun e S => by rw [dPass, if_neg (by omega)]
  simp only [List.insertionSort_cons, List.insertionSort_nil, List.orderedInsert_nil, List.map_cons, List.map_nil, List.length_cons, List.length_nil,
    Nat.zero_add, h1, Nat.sub_self, cPass, List.range_zero, List.sum_nil, Nat.cast_one, mul_one, add_zero]
  rw [one_div, log_inv]
  field_simp
  ring

-- example for C88: a single value with scale 1/2 has entropy 1; two values give an entropy which is the stated integral; a scale of 0 is refused
example : laplaceEntropy exp [7] (1 / 2) = .ok 1 ∧ laplaceEntropy exp [2, 1] 3 = .ok (-∫ u, kde [2, 1] 3 u * log (kde [2, 1] 3 u)) ∧
    laplaceEntropy exp [2, 1] 0 = .error .value := by
  refine ⟨?_, ((laplace_entropy_partial _ _).2 (by simp) (by norm_num)).2, (laplace_entropy_partial _ _).1 (.inr (le_refl _))⟩
  rw [laplace_entropy_single 7 (by norm_num)]
  norm_num

/-- C88 fails for an `exp` which underflows: double precision `exp` gives 0 below -746, so two values more than 746 scales apart end in a division by
zero instead of an entropy. -/
theorem laplace_entropy_gap_fails (ex : ℝ → ℝ) (hex : ∀ t ≤ -746, ex t = 0) :
    laplaceEntropy ex [0, 746] 1 = .error .zeroDiv ∧
      Integrable (fun u => kde [0, 746] 1 u * log (kde [0, 746] 1 u)) := by
  refine ⟨?_, ((laplace_entropy_partial _ _).2 (by simp) (by norm_num)).1⟩
  unfold laplaceEntropy
  rw [if_neg (by simp), if_neg (by norm_num)]
  unfold entropyArray
  have hs : List.insertionSort (· ≤ ·) [(0 : ℝ), 746] = [0, 746] := by
    refine List.Pairwise.insertionSort_eq ?_
    simp
  rw [hs]
  dsimp only
  refine if_pos ⟨0, by simp, ?_⟩
  rw [hex _ (by norm_num), mul_zero]
