import Verif.Calc.Spline
import Mathlib.Algebra.BigOperators.Ring.Finset
import Mathlib.Data.Finset.Max
import Mathlib.Algebra.Order.BigOperators.Group.Finset
/-! The natural cubic spline through given points is unique: what C99 needs of mass/mathstat/interpolate.py, class CubicSpline. -/
namespace Mass.Calc
set_option linter.unusedSectionVars false
variable {K : Type} [Field K] [LinearOrder K] [IsStrictOrderedRing K]

/-- positive part [specification] -/
def pos (z : K) : K := max z 0

theorem pos_of_nonneg {z : K} (h : 0 ≤ z) : pos z = z := max_eq_left h
theorem pos_of_nonpos {z : K} (h : z ≤ 0) : pos z = 0 := max_eq_right h

/-- one truncated cubic [specification] -/
def cub (s z : K) : K := pos (s - z) ^ 3 / 6

/-- a combination of truncated cubics and a line [specification] -/
def combo (n : Nat) (a x : Nat → K) (c d t : K) : K := ∑ i ∈ Finset.range n, a i * cub (x i) t + (c + d * t)

theorem sum_lin4 (n : Nat) (a f g h k : Nat → K) (p q r s : K) : ∑ i ∈ Finset.range n, a i * (p * f i + q * g i + r * h i + s * k i) =
    p * ∑ i ∈ Finset.range n, a i * f i + q * ∑ i ∈ Finset.range n, a i * g i + r * ∑ i ∈ Finset.range n, a i * h i + s * ∑ i ∈ Finset.range n, a i * k i := by
  simp only [Finset.mul_sum, ← Finset.sum_add_distrib]
  exact Finset.sum_congr rfl fun i _ => by ring

theorem term_tridiag (u v w s : K) (huv : u < v) (hvw : v < w) (hs : s ≤ u ∨ s = v ∨ w ≤ s) :
    (v - u) * pos (s - u) + 2 * (w - u) * pos (s - v) + (w - v) * pos (s - w) = 6 * ((cub s w - cub s v) / (w - v) - (cub s v - cub s u) / (v - u)) := by
  have h1 : v - u ≠ 0 := by intro h; linarith
  have h2 : w - v ≠ 0 := by intro h; linarith
  unfold cub
  rcases hs with h | rfl | h
  · rw [pos_of_nonpos (by linarith), pos_of_nonpos (by linarith), pos_of_nonpos (by linarith)]
    ring
  · rw [pos_of_nonneg (by linarith : (0 : K) ≤ s - u), sub_self, pos_of_nonpos (le_refl _), pos_of_nonpos (by linarith)]
    field_simp
    ring
  · rw [pos_of_nonneg (by linarith), pos_of_nonneg (by linarith), pos_of_nonneg (by linarith)]
    field_simp
    ring

theorem term_piece (u v s t : K) (huv : u < v) (hu : u ≤ t) (hv : t ≤ v) (hs : s ≤ u ∨ v ≤ s) :
    (v - t) / (v - u) * cub s u + (t - u) / (v - u) * cub s v + (((v - t) / (v - u)) ^ 3 - (v - t) / (v - u)) * (v - u) * (v - u) / 6 * pos (s - u)
      + (((t - u) / (v - u)) ^ 3 - (t - u) / (v - u)) * (v - u) * (v - u) / 6 * pos (s - v) = cub s t := by
  have h1 : v - u ≠ 0 := by intro h; linarith
  unfold cub
  rcases hs with h | h
  · rw [pos_of_nonpos (by linarith), pos_of_nonpos (by linarith), pos_of_nonpos (by linarith)]
    ring
  · rw [pos_of_nonneg (by linarith), pos_of_nonneg (by linarith), pos_of_nonneg (by linarith)]
    field_simp
    ring

variable {x y : Nat → K} {n : Nat}

theorem knot_cases (hx : Inc x n) (i k : Nat) (hi : i < n) (hk : k + 1 < n) : x i ≤ x k ∨ x (k + 1) ≤ x i := by
  rcases lt_trichotomy i k with h | h | h
  · exact .inl (hx i k h (by omega)).le
  · exact .inl (by rw [h])
  · rcases Nat.lt_or_ge (k + 1) i with h' | h'
    · exact .inr (hx (k + 1) i h' hi).le
    · obtain rfl : i = k + 1 := by omega
      exact .inr le_rfl

/-- a solution of the homogeneous equations for second derivatives that is zero at both ends is zero -/
theorem tridiag_zero (hn : 2 ≤ n) (hx : Inc x n) (D : Nat → K) (h0 : D 0 = 0) (hN : D (n - 1) = 0)
    (h : ∀ i, i + 2 < n → (x (i + 1) - x i) * D i + 2 * (x (i + 2) - x i) * D (i + 1) + (x (i + 2) - x (i + 1)) * D (i + 2) = 0) : ∀ k < n, D k = 0 := by
  obtain ⟨m, hm, hmax⟩ := Finset.exists_max_image (Finset.range n) (fun k => |D k|) ⟨0, by simp; omega⟩
  have hm : m < n := by simpa using hm
  have hmax : ∀ k < n, |D k| ≤ |D m| := fun k hk => hmax k (by simpa using hk)
  suffices hz : |D m| = 0 by
    intro k hk
    have := hmax k hk
    rw [hz] at this
    exact abs_eq_zero.1 (le_antisymm this (abs_nonneg _))
  rcases Nat.eq_zero_or_pos m with rfl | hm0
  · rw [h0, abs_zero]
  rcases Nat.lt_or_ge (m + 1) n with hm1 | hm1
  · obtain ⟨i, rfl⟩ : ∃ i, m = i + 1 := ⟨m - 1, by omega⟩
    have e := h i hm1
    have a1 := hx i (i + 1) (by omega) hm
    have a2 := hx (i + 1) (i + 2) (by omega) hm1
    have b1 := hmax i (by omega)
    have b2 := hmax (i + 2) hm1
    have e2 : 2 * (x (i + 2) - x i) * D (i + 1) = -((x (i + 1) - x i) * D i) - (x (i + 2) - x (i + 1)) * D (i + 2) := by linear_combination e
    have e3 : |2 * (x (i + 2) - x i) * D (i + 1)| ≤ (x (i + 1) - x i) * |D i| + (x (i + 2) - x (i + 1)) * |D (i + 2)| := by
      rw [e2]
      refine (abs_sub _ _).trans (le_of_eq ?_)
      rw [abs_neg, abs_mul, abs_mul, abs_of_pos (by linarith : 0 < x (i + 1) - x i), abs_of_pos (by linarith : 0 < x (i + 2) - x (i + 1))]
    rw [abs_mul, abs_of_pos (by linarith : 0 < 2 * (x (i + 2) - x i))] at e3
    have c1 := mul_le_mul_of_nonneg_left b1 (by linarith : 0 ≤ x (i + 1) - x i)
    have c2 := mul_le_mul_of_nonneg_left b2 (by linarith : 0 ≤ x (i + 2) - x (i + 1))
    have e4 : (x (i + 2) - x i) * |D (i + 1)| ≤ 0 := by nlinarith
    have e5 : |D (i + 1)| ≤ 0 := by
      by_contra hc
      have := mul_pos (by linarith : 0 < x (i + 2) - x i) (not_le.1 hc)
      linarith
    exact le_antisymm e5 (abs_nonneg _)
  · obtain rfl : m = n - 1 := by omega
    rw [hN, abs_zero]

/-- The natural cubic spline through points of a combination of truncated cubics (one for each knot, coefficients orthogonal to lines) and a line is that
combination, everywhere. -/
theorem natural_eval (hn : 2 ≤ n) (hx : Inc x n) (a : Nat → K) (c d : K) (h0 : ∑ i ∈ Finset.range n, a i = 0) (h1 : ∑ i ∈ Finset.range n, a i * x i = 0)
    (hy : ∀ k < n, y k = combo n a x c d (x k)) (t : K) : eval (compute x y n none none) t 0 = combo n a x c d t := by
  let M : Nat → K := fun k => ∑ i ∈ Finset.range n, a i * pos (x i - x k)
  have hle : ∀ i j, i ≤ j → j < n → x i ≤ x j := by
    intro i j hij hj
    rcases Nat.lt_or_ge i j with h | h
    · exact (hx i j h hj).le
    · obtain rfl : i = j := by omega
      exact le_rfl
  have hM0 : M 0 = 0 := by
    have : M 0 = ∑ i ∈ Finset.range n, (a i * x i - a i * x 0) := by
      refine Finset.sum_congr rfl fun i hi => ?_
      rw [pos_of_nonneg (by have := hle 0 i (by omega) (by simpa using hi); linarith)]
      ring
    rw [this, Finset.sum_sub_distrib, h1, ← Finset.sum_mul, h0]
    ring
  have hMN : M (n - 1) = 0 := by
    refine Finset.sum_eq_zero fun i hi => ?_
    rw [pos_of_nonpos (by have := hle i (n - 1) (by have : i < n := by simpa using hi
                                                    omega) (by omega); linarith), mul_zero]
  have hMt : ∀ i, i + 2 < n → (x (i + 1) - x i) * M i + 2 * (x (i + 2) - x i) * M (i + 1) + (x (i + 2) - x (i + 1)) * M (i + 2) =
      6 * ((y (i + 2) - y (i + 1)) / (x (i + 2) - x (i + 1)) - (y (i + 1) - y i) / (x (i + 1) - x i)) := by
    intro k hk
    have a1 := hx k (k + 1) (by omega) (by omega)
    have a2 := hx (k + 1) (k + 2) (by omega) hk
    have n1 : x (k + 1) - x k ≠ 0 := by intro h; linarith
    have n2 : x (k + 2) - x (k + 1) ≠ 0 := by intro h; linarith
    have hL := sum_lin4 n a (fun i => pos (x i - x k)) (fun i => pos (x i - x (k + 1))) (fun i => pos (x i - x (k + 2))) (fun _ => 0) (x (k + 1) - x k) (2 * (x (k + 2) - x k)) (x (k + 2) - x (k + 1)) 0
    have hR := sum_lin4 n a (fun i => cub (x i) (x k)) (fun i => cub (x i) (x (k + 1))) (fun i => cub (x i) (x (k + 2))) (fun _ => 0) (6 / (x (k + 1) - x k))
      (-6 / (x (k + 2) - x (k + 1)) - 6 / (x (k + 1) - x k)) (6 / (x (k + 2) - x (k + 1))) 0
    have hT : ∑ i ∈ Finset.range n, a i * ((x (k + 1) - x k) * pos (x i - x k) + 2 * (x (k + 2) - x k) * pos (x i - x (k + 1)) + (x (k + 2) - x (k + 1)) * pos (x i - x (k + 2)) + 0 * 0) =
        ∑ i ∈ Finset.range n, a i * (6 / (x (k + 1) - x k) * cub (x i) (x k) + (-6 / (x (k + 2) - x (k + 1)) - 6 / (x (k + 1) - x k)) * cub (x i) (x (k + 1))
          + 6 / (x (k + 2) - x (k + 1)) * cub (x i) (x (k + 2)) + 0 * 0) := by
      refine Finset.sum_congr rfl fun i hi => ?_
      congr 1
      have hi : i < n := by simpa using hi
      have hc : x i ≤ x k ∨ x i = x (k + 1) ∨ x (k + 2) ≤ x i := by
        rcases knot_cases hx i k hi (by omega) with h | h
        · exact .inl h
        · rcases knot_cases hx i (k + 1) hi (by omega) with h' | h'
          · exact .inr (.inl (le_antisymm h' h))
          · exact .inr (.inr h')
      have := term_tridiag (x k) (x (k + 1)) (x (k + 2)) (x i) a1 a2 hc
      rw [zero_mul, add_zero, add_zero, this]
      ring
    rw [hT, hR] at hL
    simp only [M]
    rw [hy (k + 2) hk, hy (k + 1) (by omega), hy k (by omega)]
    unfold combo
    rw [show ∀ p q r s : K, 6 * ((p - q) / r - s) = 6 * ((p - q) / r) - 6 * s from fun p q r s => by ring]
    have hlin : (6 : K) * ((c + d * x (k + 2) - (c + d * x (k + 1))) / (x (k + 2) - x (k + 1))) - 6 * ((c + d * x (k + 1) - (c + d * x k)) / (x (k + 1) - x k)) = 0 := by
      field_simp
      ring
    linear_combination -hL - hlin
  have hy2 : ∀ k < n, (compute x y n none none).y2 k = M k := by
    intro k hk
    have := tridiag_zero hn hx (fun k => (compute x y n none none).y2 k - M k) (by rw [natural_start hn, hM0, sub_zero]) (by rw [natural_end, hMN, sub_zero])
      (fun i hi => by
        have e1 := tridiag (y := y) (yp1 := none) (ypN := none) hn hx i hi
        have e2 := hMt i hi
        linear_combination e1 - e2) k hk
    exact sub_eq_zero.1 this
  have hyp1 : (compute x y n none none).yp1 = d - ∑ i ∈ Finset.range n, a i * (x i) ^ 2 / 2 := by
    rw [start_slope hn hx, hy2 0 (by omega), hy2 1 (by omega), hM0, hy 1 (by omega), hy 0 (by omega)]
    have a1 := hx 0 1 (by omega) (by omega)
    have n1 : x 1 - x 0 ≠ 0 := by intro h; linarith
    have hT : ∑ i ∈ Finset.range n, a i * (1 / (x 1 - x 0) * cub (x i) (x 1) + -(1 / (x 1 - x 0)) * cub (x i) (x 0) + -((x 1 - x 0) / 3) * pos (x i - x 0) + -((x 1 - x 0) / 6) * pos (x i - x 1)) =
        ∑ i ∈ Finset.range n, (x 0 * (a i * x i) + -(x 0 ^ 2 / 2) * a i + -(a i * x i ^ 2 / 2)) := by
      refine Finset.sum_congr rfl fun i hi => ?_
      have hi : i < n := by simpa using hi
      rcases knot_cases hx i 0 hi (by omega) with h | h
      · have : x i = x 0 := le_antisymm h (hle 0 i (by omega) hi)
        unfold cub
        rw [this, sub_self, pos_of_nonpos (le_refl _), pos_of_nonpos (by linarith)]
        ring
      · have h0 := hle 0 i (by omega) hi
        unfold cub
        rw [zero_add] at h
        rw [pos_of_nonneg (by linarith), pos_of_nonneg (by linarith)]
        field_simp
        ring
    have hL := sum_lin4 n a (fun i => cub (x i) (x 1)) (fun i => cub (x i) (x 0)) (fun i => pos (x i - x 0)) (fun i => pos (x i - x 1)) (1 / (x 1 - x 0)) (-(1 / (x 1 - x 0))) (-((x 1 - x 0) / 3)) (-((x 1 - x 0) / 6))
    rw [hT, Finset.sum_add_distrib, Finset.sum_add_distrib, ← Finset.mul_sum, ← Finset.mul_sum, h0, h1, Finset.sum_neg_distrib] at hL
    have hM0' : ∑ i ∈ Finset.range n, a i * pos (x i - x 0) = 0 := hM0
    rw [hM0'] at hL
    unfold combo
    simp only [M]
    have hlin : (c + d * x 1 - (c + d * x 0)) / (x 1 - x 0) = d := by field_simp; ring
    rw [show ∀ p q r s t : K, (p + q - (r + s)) / t = (1 / t * p + -(1 / t) * r) + (q - s) / t from fun p q r s t => by ring, hlin]
    linear_combination -hL
  have hypN : (compute x y n none none).ypN = d := by
    rw [end_slope hn hx, hy2 (n - 2) (by omega), hy2 (n - 1) (by omega), hMN, hy (n - 1) (by omega), hy (n - 2) (by omega)]
    have a1 := hx (n - 2) (n - 1) (by omega) (by omega)
    have n1 : x (n - 1) - x (n - 2) ≠ 0 := by intro h; linarith
    have e : n - 2 + 1 = n - 1 := by omega
    have hT : ∑ i ∈ Finset.range n, a i * (1 / (x (n - 1) - x (n - 2)) * cub (x i) (x (n - 1)) + -(1 / (x (n - 1) - x (n - 2))) * cub (x i) (x (n - 2)) + ((x (n - 1) - x (n - 2)) / 6) * pos (x i - x (n - 2)) + 0 * 0) = 0 := by
      refine Finset.sum_eq_zero fun i hi => ?_
      have hi : i < n := by simpa using hi
      rcases knot_cases hx i (n - 2) hi (by omega) with h | h
      · unfold cub
        rw [pos_of_nonpos (by linarith), pos_of_nonpos (by linarith)]
        ring
      · rw [e] at h
        have : x i = x (n - 1) := le_antisymm (hle i (n - 1) (by omega) (by omega)) h
        unfold cub
        rw [this, sub_self, pos_of_nonpos (le_refl _), pos_of_nonneg (by linarith)]
        field_simp
        ring
    have hL := sum_lin4 n a (fun i => cub (x i) (x (n - 1))) (fun i => cub (x i) (x (n - 2))) (fun i => pos (x i - x (n - 2))) (fun _ => 0) (1 / (x (n - 1) - x (n - 2))) (-(1 / (x (n - 1) - x (n - 2)))) ((x (n - 1) - x (n - 2)) / 6) 0
    rw [hT] at hL
    unfold combo
    simp only [M]
    have hlin : (c + d * x (n - 1) - (c + d * x (n - 2))) / (x (n - 1) - x (n - 2)) = d := by field_simp; ring
    rw [show ∀ p q r s t : K, (p + q - (r + s)) / t = (1 / t * p + -(1 / t) * r) + (q - s) / t from fun p q r s t => by ring, hlin]
    linear_combination -hL
  obtain ⟨c1, c2⟩ := cnt_spec x t n hx
  have hcn := cnt_le x t n
  unfold eval
  show piece (compute x y n none none) (cnt x t n) 0 t = _
  generalize cnt x t n = m at c1 c2 hcn
  unfold piece
  by_cases hm0 : m = 0
  · subst hm0
    rw [if_pos rfl, if_pos rfl, hyp1]
    show y 0 + (t - x 0) * _ = _
    rw [hy 0 (by omega)]
    have e : ∀ z, z ≤ x 0 → ∑ i ∈ Finset.range n, a i * cub (x i) z = ∑ i ∈ Finset.range n, a i * (x i) ^ 3 / 6 - z * ∑ i ∈ Finset.range n, a i * (x i) ^ 2 / 2 := by
      intro z hz
      have : ∑ i ∈ Finset.range n, a i * cub (x i) z = ∑ i ∈ Finset.range n, (a i * (x i) ^ 3 / 6 - z * (a i * (x i) ^ 2 / 2) + z ^ 2 / 2 * (a i * x i) + -(z ^ 3 / 6) * a i) := by
        refine Finset.sum_congr rfl fun i hi => ?_
        unfold cub
        rw [pos_of_nonneg (by have := hle 0 i (by omega) (by simpa using hi); linarith)]
        ring
      rw [this, Finset.sum_add_distrib, Finset.sum_add_distrib, Finset.sum_sub_distrib, ← Finset.mul_sum, ← Finset.mul_sum, ← Finset.mul_sum, h0, h1]
      ring
    unfold combo
    rw [e _ le_rfl, e t (c2 0 (by omega) (by omega))]
    ring
  · rw [if_neg hm0]
    by_cases hmn : n ≤ m
    · rw [if_pos (show (compute x y n none none).n ≤ m from hmn), if_pos rfl, hypN]
      show y (n - 1) + (t - x (n - 1)) * _ = _
      rw [hy (n - 1) (by omega)]
      have e : ∀ z, x (n - 1) ≤ z → ∑ i ∈ Finset.range n, a i * cub (x i) z = 0 := by
        intro z hz
        refine Finset.sum_eq_zero fun i hi => ?_
        unfold cub
        rw [pos_of_nonpos (by have := hle i (n - 1) (by have : i < n := by simpa using hi
                                                        omega) (by omega); linarith)]
        ring
      unfold combo
      rw [e _ le_rfl, e t (c1 (n - 1) (by omega)).le]
      ring
    · rw [if_neg (show ¬ (compute x y n none none).n ≤ m from hmn)]
      obtain ⟨k, rfl⟩ : ∃ k, m = k + 1 := ⟨m - 1, by omega⟩
      dsimp only
      rw [if_pos rfl, Nat.add_sub_cancel, hy2 k (by omega), hy2 (k + 1) (by omega)]
      show (x (k + 1) - t) / (x (k + 1) - x k) * y k + (t - x k) / (x (k + 1) - x k) * y (k + 1) + ((((x (k + 1) - t) / (x (k + 1) - x k)) ^ 3 - (x (k + 1) - t) / (x (k + 1) - x k)) * M k
        + (((t - x k) / (x (k + 1) - x k)) ^ 3 - (t - x k) / (x (k + 1) - x k)) * M (k + 1)) * (x (k + 1) - x k) * (x (k + 1) - x k) / 6 = _
      rw [hy k (by omega), hy (k + 1) (by omega)]
      have a1 := hx k (k + 1) (by omega) (by omega)
      have n1 : x (k + 1) - x k ≠ 0 := by intro h; linarith
      have hL := sum_lin4 n a (fun i => cub (x i) (x k)) (fun i => cub (x i) (x (k + 1))) (fun i => pos (x i - x k)) (fun i => pos (x i - x (k + 1))) ((x (k + 1) - t) / (x (k + 1) - x k)) ((t - x k) / (x (k + 1) - x k))
        ((((x (k + 1) - t) / (x (k + 1) - x k)) ^ 3 - (x (k + 1) - t) / (x (k + 1) - x k)) * (x (k + 1) - x k) * (x (k + 1) - x k) / 6)
        ((((t - x k) / (x (k + 1) - x k)) ^ 3 - (t - x k) / (x (k + 1) - x k)) * (x (k + 1) - x k) * (x (k + 1) - x k) / 6)
      have hT : ∀ i ∈ Finset.range n, a i * cub (x i) t = _ := fun i hi => congrArg (a i * ·)
        (term_piece (x k) (x (k + 1)) (x i) t a1 (c1 k (by omega)).le (c2 (k + 1) le_rfl (by omega)) (knot_cases hx i k (by simpa using hi) (by omega))).symm
      have hT := (Finset.sum_congr rfl hT).trans hL
      have hlin : (x (k + 1) - t) / (x (k + 1) - x k) * (c + d * x k) + (t - x k) / (x (k + 1) - x k) * (c + d * x (k + 1)) = c + d * t := by
        field_simp
        ring
      unfold combo
      rw [hT]
      simp only [M]
      linear_combination hlin

end Mass.Calc
