import Verif.Calc.Smoothing
/-!
C104: B-splines by the recursion of Cox and de Boor on knots that are repeated at the ends, the way FITPACK's splev evaluates them: they are cubic splines, independent, and only three of them
have a second derivative at each end. Used by mass/mathstat/interpolate.py, class NaturalBsplineBasis.
-/
namespace Mass.Calc.BSpline
open Mass Mass.Calc Mass.Calc.Smooth

/-- `padknots`, interpolate.py L386-390: the first and the last knot four times -/
def pad (x : ℕ → ℝ) (n i : ℕ) : ℝ := x (min (i - 3) (n - 1))

/-- B-spline j of degree k on the knots t, as a polynomial on the interval from t l to t (l + 1) (scipy's splev with a unit vector of coefficients, used in interpolate.py L396-403, L420;
0/0 counts as 0) -/
noncomputable def bpoly (t : ℕ → ℝ) (l : ℕ) : ℕ → ℕ → ℝ → ℝ
  | 0, j, _ => if j = l then 1 else 0
  | k + 1, j, u => (u - t j) / (t (j + k + 1) - t j) * bpoly t l k j u + (t (j + k + 2) - u) / (t (j + k + 2) - t (j + 1)) * bpoly t l k (j + 1) u

section
variable {t : ℕ → ℝ} {l : ℕ}

theorem support (k j : ℕ) (u : ℝ) (h : l < j ∨ j + k < l) : bpoly t l k j u = 0 := by
  induction k generalizing j with
  | zero => exact if_neg (by omega)
  | succ k ih =>
    unfold bpoly
    rw [ih j (by omega), ih (j + 1) (by omega)]
    ring

theorem gap (ht : Monotone t) (hl : t l < t (l + 1)) {a b : ℕ} (h1 : a ≤ l) (h2 : l + 1 ≤ b) : t b - t a ≠ 0 := by
  have := ht h1
  have := ht h2
  linarith

theorem bpoly_deriv (ht : Monotone t) (hl : t l < t (l + 1)) (k j : ℕ) (u : ℝ) :
    HasDerivAt (bpoly t l (k + 1) j) ((k + 1) * (bpoly t l k j u / (t (j + k + 1) - t j) - bpoly t l k (j + 1) u / (t (j + k + 2) - t (j + 1)))) u := by
  induction k generalizing j with
  | zero =>
    have h : HasDerivAt (fun u => (u - t j) / (t (j + 0 + 1) - t j) * (if j = l then 1 else 0) + (t (j + 0 + 2) - u) / (t (j + 0 + 2) - t (j + 1)) * (if j + 1 = l then 1 else 0))
      ((1 / (t (j + 0 + 1) - t j)) * (if j = l then 1 else 0) + (-1) / (t (j + 0 + 2) - t (j + 1)) * (if j + 1 = l then 1 else 0)) u :=
      (((hasDerivAt_id u).sub_const (t j)).div_const _ |>.mul_const _).add ((((hasDerivAt_id u).const_sub (t (j + 0 + 2))).div_const _).mul_const _)
    refine h.congr_deriv ?_
    unfold bpoly
    push_cast
    ring
  | succ k ih =>
    have h1 := ((((hasDerivAt_id u).sub_const (t j)).div_const (t (j + (k + 1) + 1) - t j)).mul (ih j)).add
      ((((hasDerivAt_id u).const_sub (t (j + (k + 1) + 2))).div_const (t (j + (k + 1) + 2) - t (j + 1))).mul (ih (j + 1)))
    refine h1.congr_deriv ?_
    simp only [id]
    have e1 : j + 1 + k + 1 = j + k + 2 := by omega
    have e2 : j + 1 + k + 2 = j + k + 3 := by omega
    have e3 : j + (k + 1) + 1 = j + k + 2 := by omega
    have e4 : j + (k + 1) + 2 = j + k + 3 := by omega
    have e5 : j + 1 + 1 = j + 2 := by omega
    have hA : bpoly t l (k + 1) j u = (u - t j) / (t (j + k + 1) - t j) * bpoly t l k j u + (t (j + k + 2) - u) / (t (j + k + 2) - t (j + 1)) * bpoly t l k (j + 1) u := rfl
    have hB : bpoly t l (k + 1) (j + 1) u = (u - t (j + 1)) / (t (j + k + 2) - t (j + 1)) * bpoly t l k (j + 1) u +
        (t (j + k + 3) - u) / (t (j + k + 3) - t (j + 2)) * bpoly t l k (j + 2) u := by
      have : bpoly t l (k + 1) (j + 1) u = (u - t (j + 1)) / (t (j + 1 + k + 1) - t (j + 1)) * bpoly t l k (j + 1) u +
        (t (j + 1 + k + 2) - u) / (t (j + 1 + k + 2) - t (j + 1 + 1)) * bpoly t l k (j + 1 + 1) u := rfl
      rw [this, e1, e2, e5]
    have hc : bpoly t l k (j + 1) u * ((t (j + k + 2) - t j) * (t (j + k + 2) - t j)⁻¹) = bpoly t l k (j + 1) u ∧
        bpoly t l k (j + 1) u * ((t (j + k + 3) - t (j + 1)) * (t (j + k + 3) - t (j + 1))⁻¹) = bpoly t l k (j + 1) u := by
      by_cases hs : l < j + 1 ∨ j + 1 + k < l
      · rw [support (t := t) (l := l) k (j + 1) u hs]; simp
      · rw [mul_inv_cancel₀ (gap ht hl (by omega) (by omega)), mul_inv_cancel₀ (gap ht hl (by omega) (by omega))]; simp
    obtain ⟨h1, h2⟩ := hc
    rw [e1, e2, e3, e4, e5, hA, hB]
    push_cast
    simp only [div_eq_mul_inv]
    generalize (t (j + k + 2) - t j)⁻¹ = D1 at *
    generalize (t (j + k + 3) - t (j + 1))⁻¹ = D2 at *
    generalize (t (j + k + 1) - t j)⁻¹ = I0 at *
    generalize (t (j + k + 2) - t (j + 1))⁻¹ = I1 at *
    generalize (t (j + k + 3) - t (j + 2))⁻¹ = I2 at *
    linear_combination (k + 1 : ℝ) * I1 * (h2 - h1)

/-- the sum of the functions is 1 -/
theorem unity (ht : Monotone t) (k b : ℕ) (hl : t (b + k) < t (b + k + 1)) (u : ℝ) : ∑ i ∈ Finset.range (k + 1), bpoly t (b + k) k (b + i) u = 1 := by
  induction k generalizing b with
  | zero => simp [bpoly]
  | succ k ih =>
    have hb : b + (k + 1) = b + 1 + k := by omega
    rw [hb] at hl ⊢
    rw [← ih (b + 1) hl]
    have h0 := support (t := t) (l := b + 1 + k) k b u (Or.inr (by omega))
    have h1 := support (t := t) (l := b + 1 + k) k (b + (k + 1) + 1) u (Or.inl (by omega))
    simp only [bpoly]
    rw [Finset.sum_add_distrib, Finset.sum_range_succ', Finset.sum_range_succ (fun i => (t (b + i + k + 2) - u) / _ * _)]
    rw [h1]
    simp only [add_zero, h0, mul_zero]
    rw [← Finset.sum_add_distrib]
    apply Finset.sum_congr rfl
    intro i hi
    have hi := Finset.mem_range.mp hi
    rw [show b + (i + 1) + k + 1 = b + i + k + 2 from by omega, show b + (i + 1) = b + i + 1 from by omega, show b + 1 + i = b + i + 1 from by omega]
    have := gap ht hl (a := b + i + 1) (b := b + i + k + 2) (by omega) (by omega)
    field_simp
    ring

/-- the functions that are not zero on an interval are independent there -/
theorem local_indep (ht : Monotone t) (k b : ℕ) (hl : t (b + k) < t (b + k + 1)) (c : ℕ → ℝ)
    (h : ∀ u, t (b + k) < u → u < t (b + k + 1) → ∑ i ∈ Finset.range (k + 1), c i * bpoly t (b + k) k (b + i) u = 0) : ∀ i ≤ k, c i = 0 := by
  induction k generalizing b c with
  | zero =>
    intro i hi
    obtain rfl : i = 0 := by omega
    obtain ⟨u, h1, h2⟩ := exists_between hl
    simpa [bpoly] using h u h1 h2
  | succ k ih =>
    have hb : b + (k + 1) = b + 1 + k := by omega
    rw [hb] at hl h
    have hd : ∀ u, t (b + 1 + k) < u → u < t (b + 1 + k + 1) →
        ∑ i ∈ Finset.range (k + 1), ((c (i + 1) - c i) / (t (b + i + k + 2) - t (b + i + 1))) * bpoly t (b + 1 + k) k (b + 1 + i) u = 0 := by
      intro u h1 h2
      have hD : HasDerivAt (fun u => ∑ i ∈ Finset.range (k + 1 + 1), c i * bpoly t (b + 1 + k) (k + 1) (b + i) u)
          (∑ i ∈ Finset.range (k + 1 + 1), c i * ((k + 1) * (bpoly t (b + 1 + k) k (b + i) u / (t (b + i + k + 1) - t (b + i)) - bpoly t (b + 1 + k) k (b + i + 1) u / (t (b + i + k + 2) - t (b + i + 1))))) u :=
        HasDerivAt.fun_sum fun i _ => (bpoly_deriv ht hl k (b + i) u).const_mul _
      have hZ : HasDerivAt (fun u => ∑ i ∈ Finset.range (k + 1 + 1), c i * bpoly t (b + 1 + k) (k + 1) (b + i) u) 0 u := by
        refine (hasDerivAt_const u (0 : ℝ)).congr_of_eventuallyEq ?_
        filter_upwards [Ioo_mem_nhds h1 h2] with v hv
        exact h v hv.1 hv.2
      have he := hD.unique hZ
      have h0 := support (t := t) (l := b + 1 + k) k b u (Or.inr (by omega))
      have h1 := support (t := t) (l := b + 1 + k) k (b + (k + 1) + 1) u (Or.inl (by omega))
      simp only [mul_sub, Finset.sum_sub_distrib] at he
      rw [Finset.sum_range_succ', Finset.sum_range_succ (fun i => c i * ((k + 1 : ℝ) * (bpoly t (b + 1 + k) k (b + i + 1) u / (t (b + i + k + 2) - t (b + i + 1)))))] at he
      rw [h1] at he
      simp only [add_zero, h0, zero_div, mul_zero] at he
      rw [← Finset.sum_sub_distrib] at he
      have hk : ((k : ℝ) + 1) ≠ 0 := by positivity
      have : ((k : ℝ) + 1) * ∑ i ∈ Finset.range (k + 1), ((c (i + 1) - c i) / (t (b + i + k + 2) - t (b + i + 1))) * bpoly t (b + 1 + k) k (b + 1 + i) u = 0 := by
        rw [← he, Finset.mul_sum]
        apply Finset.sum_congr rfl
        intro i _
        rw [show b + (i + 1) + k + 1 = b + i + k + 2 from by omega, show b + (i + 1) = b + i + 1 from by omega, show b + 1 + i = b + i + 1 from by omega]
        ring
      exact (mul_eq_zero.mp this).resolve_left hk
    have hc := ih (b + 1) hl _ hd
    have hstep : ∀ i ≤ k, c (i + 1) = c i := by
      intro i hi
      have := hc i hi
      have hg := gap ht hl (a := b + i + 1) (b := b + i + k + 2) (by omega) (by omega)
      exact sub_eq_zero.mp ((div_eq_zero_iff.mp this).resolve_right hg)
    have hall : ∀ i ≤ k + 1, c i = c 0 := by
      intro i hi
      induction i with
      | zero => rfl
      | succ i ih2 => rw [hstep i (by omega), ih2 (by omega)]
    obtain ⟨u, h1, h2⟩ := exists_between hl
    have h0 := h u h1 h2
    rw [Finset.sum_congr rfl (g := fun i => c 0 * bpoly t (b + 1 + k) (k + 1) (b + i) u) (fun i hi => by rw [hall i (by have := Finset.mem_range.mp hi; omega)]), ← Finset.mul_sum] at h0
    have hu := unity ht (k + 1) b (by rw [hb]; exact hl) u
    rw [hb] at hu
    rw [hu, mul_one] at h0
    intro i hi
    rw [hall i hi, h0]

/-- neighbouring pieces agree at the knot between them -/
theorem joint (h1 : t l < t (l + 1)) (h2 : t (l + 1) < t (l + 2)) (k j : ℕ) : bpoly t l (k + 1) j (t (l + 1)) = bpoly t (l + 1) (k + 1) j (t (l + 1)) := by
  induction k generalizing j with
  | zero =>
    simp only [bpoly]
    have g1 : t (l + 1) - t l ≠ 0 := by linarith
    have g2 : t (l + 2) - t (l + 1) ≠ 0 := by linarith
    by_cases e1 : j = l
    · subst e1
      simp [g1, g2]
    · by_cases e2 : j = l + 1
      · subst e2
        simp
        intro h
        omega
      · by_cases e3 : j + 1 = l
        · subst e3
          simp
          intro h
          omega
        · simp [e1, e2, e3]
  | succ k ih =>
    have e : ∀ m, bpoly t m (k + 1 + 1) j (t (l + 1)) = (t (l + 1) - t j) / (t (j + (k + 1) + 1) - t j) * bpoly t m (k + 1) j (t (l + 1)) +
      (t (j + (k + 1) + 2) - t (l + 1)) / (t (j + (k + 1) + 2) - t (j + 1)) * bpoly t m (k + 1) (j + 1) (t (l + 1)) := fun m => rfl
    rw [e l, e (l + 1), ih, ih]

/-- first derivative of the cubic [specification] -/
noncomputable def bpoly1 (t : ℕ → ℝ) (l j : ℕ) (u : ℝ) : ℝ := 3 * (bpoly t l 2 j u / (t (j + 3) - t j) - bpoly t l 2 (j + 1) u / (t (j + 4) - t (j + 1)))

/-- second derivative of the cubic [specification] -/
noncomputable def bpoly2 (t : ℕ → ℝ) (l j : ℕ) (u : ℝ) : ℝ :=
  3 * (2 * (bpoly t l 1 j u / (t (j + 2) - t j) - bpoly t l 1 (j + 1) u / (t (j + 3) - t (j + 1))) / (t (j + 3) - t j) -
       2 * (bpoly t l 1 (j + 1) u / (t (j + 3) - t (j + 1)) - bpoly t l 1 (j + 2) u / (t (j + 4) - t (j + 2))) / (t (j + 4) - t (j + 1)))

theorem cubic_d1 (ht : Monotone t) (hl : t l < t (l + 1)) (j : ℕ) (u : ℝ) : HasDerivAt (bpoly t l 3 j) (bpoly1 t l j u) u := by
  refine (bpoly_deriv ht hl 2 j u).congr_deriv ?_
  unfold bpoly1
  push_cast
  ring

theorem cubic_d2 (ht : Monotone t) (hl : t l < t (l + 1)) (j : ℕ) (u : ℝ) : HasDerivAt (bpoly1 t l j) (bpoly2 t l j u) u := by
  have h := (((bpoly_deriv ht hl 1 j u).div_const (t (j + 3) - t j)).fun_sub ((bpoly_deriv ht hl 1 (j + 1) u).div_const (t (j + 4) - t (j + 1)))).const_mul 3
  refine h.congr_deriv ?_
  unfold bpoly2
  push_cast
  ring_nf

/-- slope of the second derivative of the cubic: it is linear -/
theorem cubic_lin (ht : Monotone t) (hl : t l < t (l + 1)) (j : ℕ) : ∃ a b, ∀ u, bpoly2 t l j u = a + b * u := by
  have h1 : ∀ j, ∃ a b, ∀ u, bpoly t l 1 j u = a + b * u := by
    intro j
    refine ⟨-(t j) / (t (j + 1) - t j) * (if j = l then 1 else 0) + t (j + 2) / (t (j + 2) - t (j + 1)) * (if j + 1 = l then 1 else 0),
      1 / (t (j + 1) - t j) * (if j = l then 1 else 0) - 1 / (t (j + 2) - t (j + 1)) * (if j + 1 = l then 1 else 0), fun u => ?_⟩
    simp only [bpoly, Nat.add_zero]
    ring
  obtain ⟨a0, b0, h0⟩ := h1 j
  obtain ⟨a1, b1, h1'⟩ := h1 (j + 1)
  obtain ⟨a2, b2, h2⟩ := h1 (j + 2)
  unfold bpoly2
  refine ⟨3 * (2 * (a0 / (t (j + 2) - t j) - a1 / (t (j + 3) - t (j + 1))) / (t (j + 3) - t j) - 2 * (a1 / (t (j + 3) - t (j + 1)) - a2 / (t (j + 4) - t (j + 2))) / (t (j + 4) - t (j + 1))),
    3 * (2 * (b0 / (t (j + 2) - t j) - b1 / (t (j + 3) - t (j + 1))) / (t (j + 3) - t j) - 2 * (b1 / (t (j + 3) - t (j + 1)) - b2 / (t (j + 4) - t (j + 2))) / (t (j + 4) - t (j + 1))), fun u => ?_⟩
  rw [h0, h1', h2]
  ring
end

/-! ### The pieces put together -/

/-- the number of the interval that contains u, m interior knots being left to look at (FITPACK's splev: values outside the knots belong to the first or last interval, interpolate.py L396-403, L420) -/
noncomputable def span (x : ℕ → ℝ) : ℕ → ℝ → ℕ
  | 0, _ => 3
  | m + 1, u => if u < x (m + 1) then span x m u else m + 4

/-- raw B-spline j of degree 3 (scipy's splev, used in interpolate.py L396-403, L420) -/
noncomputable def raw (x : ℕ → ℝ) (n j : ℕ) (u : ℝ) : ℝ := bpoly (pad x n) (span x (n - 2) u) 3 j u

/-- its first derivative (splev with der=1) -/
noncomputable def raw1 (x : ℕ → ℝ) (n j : ℕ) (u : ℝ) : ℝ := bpoly1 (pad x n) (span x (n - 2) u) j u

/-- its second derivative (splev with der=2; interpolate.py L396-403) -/
noncomputable def raw2 (x : ℕ → ℝ) (n j : ℕ) (u : ℝ) : ℝ := bpoly2 (pad x n) (span x (n - 2) u) j u

theorem ite_deriv {f f' g g' : ℝ → ℝ} {a : ℝ} (hf : ∀ u, HasDerivAt f (f' u) u) (hg : ∀ u, HasDerivAt g (g' u) u) (h : f a = g a) (h' : f' a = g' a) (u : ℝ) :
    HasDerivAt (fun u => if u < a then f u else g u) (if u < a then f' u else g' u) u := by
  rcases lt_trichotomy u a with hu | hu | hu
  · rw [if_pos hu]
    refine (hf u).congr_of_eventuallyEq ?_
    filter_upwards [Iio_mem_nhds hu] with v hv
    exact if_pos hv
  · subst hu
    rw [if_neg (lt_irrefl u)]
    have h1 : HasDerivWithinAt (fun v => if v < u then f v else g v) (g' u) (Set.Iic u) u := by
      refine ((h' ▸ hf u).hasDerivWithinAt).congr (fun v hv => ?_) ?_
      · rcases lt_or_eq_of_le (Set.mem_Iic.mp hv) with hv | hv
        · exact if_pos hv
        · subst hv; rw [if_neg (lt_irrefl v), h]
      · rw [if_neg (lt_irrefl u), h]
    have h2 : HasDerivWithinAt (fun v => if v < u then f v else g v) (g' u) (Set.Ici u) u := by
      refine ((hg u).hasDerivWithinAt).congr (fun v hv => if_neg (not_lt.mpr hv)) (if_neg (lt_irrefl u))
    have := h1.union h2
    rw [Set.Iic_union_Ici] at this
    exact this.hasDerivAt Filter.univ_mem
  · rw [if_neg (not_lt.mpr hu.le)]
    refine (hg u).congr_of_eventuallyEq ?_
    filter_upwards [Ioi_mem_nhds hu] with v hv
    exact if_neg (not_lt.mpr (le_of_lt hv))

section
variable {x : ℕ → ℝ} {n : ℕ}

theorem span_succ (m : ℕ) (u : ℝ) : span x (m + 1) u = if u < x (m + 1) then span x m u else m + 4 := rfl

theorem span_top (m : ℕ) (u : ℝ) (h : m = 0 ∨ x m ≤ u) : span x m u = m + 3 := by
  cases m with
  | zero => rfl
  | succ m => exact if_neg (not_lt.mpr (h.resolve_left (by omega)))

theorem span_range (m : ℕ) (u : ℝ) : 3 ≤ span x m u ∧ span x m u ≤ m + 3 := by
  induction m with
  | zero => exact ⟨le_rfl, le_rfl⟩
  | succ m ih =>
    unfold span
    split
    · omega
    · omega

theorem glue_deriv (hx : Inc x n) {P P' : ℕ → ℝ → ℝ} (m : ℕ) (hm : m < n) (hP : ∀ l, 3 ≤ l → l ≤ m + 3 → ∀ u, HasDerivAt (P l) (P' l u) u)
    (h : ∀ k < m, P (k + 3) (x (k + 1)) = P (k + 4) (x (k + 1))) (h' : ∀ k < m, P' (k + 3) (x (k + 1)) = P' (k + 4) (x (k + 1))) (u : ℝ) :
    HasDerivAt (fun u => P (span x m u) u) (P' (span x m u) u) u := by
  induction m generalizing u with
  | zero => exact hP 3 le_rfl le_rfl u
  | succ m ih =>
    have hs : span x m (x (m + 1)) = m + 3 := span_top m _ (by
      rcases Nat.eq_zero_or_pos m with h0 | h0
      · exact Or.inl h0
      · exact Or.inr (hx m (m + 1) (by omega) hm).le)
    have e : ∀ (Q : ℕ → ℝ → ℝ) v, Q (span x (m + 1) v) v = if v < x (m + 1) then Q (span x m v) v else Q (m + 4) v := by
      intro Q v
      rw [span_succ]
      split <;> rfl
    rw [e P', show (fun u => P (span x (m + 1) u) u) = fun v => if v < x (m + 1) then P (span x m v) v else P (m + 4) v from funext (e P)]
    refine ite_deriv (fun u => ih (by omega) (fun l h1 h2 => hP l h1 (by omega)) (fun k hk => h k (by omega)) (fun k hk => h' k (by omega)) u) (hP (m + 4) (by omega) (by omega)) ?_ ?_ u
    · rw [hs]; exact h m (by omega)
    · rw [hs]; exact h' m (by omega)

theorem glue_cont (hx : Inc x n) {P : ℕ → ℝ → ℝ} (m : ℕ) (hm : m < n) (hP : ∀ l, 3 ≤ l → l ≤ m + 3 → Continuous (P l))
    (h : ∀ k < m, P (k + 3) (x (k + 1)) = P (k + 4) (x (k + 1))) : Continuous (fun u => P (span x m u) u) := by
  induction m with
  | zero => exact hP 3 le_rfl le_rfl
  | succ m ih =>
    have hs : span x m (x (m + 1)) = m + 3 := span_top m _ (by
      rcases Nat.eq_zero_or_pos m with h0 | h0
      · exact Or.inl h0
      · exact Or.inr (hx m (m + 1) (by omega) hm).le)
    have e : (fun u => P (span x (m + 1) u) u) = fun v => if x (m + 1) ≤ v then P (m + 4) v else P (span x m v) v := by
      funext v
      rw [span_succ]
      by_cases hv : v < x (m + 1)
      · rw [if_pos hv, if_neg (not_le.mpr hv)]
      · rw [if_neg hv, if_pos (not_lt.mp hv)]
    rw [e]
    refine Continuous.if_le (hP (m + 4) (by omega) (by omega)) (ih (by omega) (fun l h1 h2 => hP l h1 (by omega)) (fun k hk => h k (by omega))) continuous_const continuous_id ?_
    rintro v rfl
    rw [hs]
    exact (h m (by omega)).symm

theorem pad_mono (hx : Inc x n) : Monotone (pad x n) := by
  intro i j hij
  unfold pad
  rcases Nat.lt_or_ge (min (i - 3) (n - 1)) (min (j - 3) (n - 1)) with h | h
  · exact (hx _ _ h (by omega)).le
  · rw [show min (i - 3) (n - 1) = min (j - 3) (n - 1) from by omega]

theorem pad_knot {k : ℕ} (hk : k < n) : pad x n (k + 3) = x k := by
  unfold pad
  rw [show min (k + 3 - 3) (n - 1) = k from by omega]

theorem pad_lt (hx : Inc x n) {l : ℕ} (h1 : 3 ≤ l) (h2 : l < n + 2) : pad x n l < pad x n (l + 1) := by
  unfold pad
  exact hx _ _ (by omega) (by omega)

theorem raw_joint2 (hx : Inc x n) (j k : ℕ) (hk : k < n - 2) : bpoly2 (pad x n) (k + 3) j (x (k + 1)) = bpoly2 (pad x n) (k + 4) j (x (k + 1)) := by
  have e : x (k + 1) = pad x n (k + 3 + 1) := (pad_knot (by omega)).symm
  have hj := fun i => joint (t := pad x n) (l := k + 3) (pad_lt hx (by omega) (by omega)) (pad_lt hx (l := k + 3 + 1) (by omega) (by omega)) 0 i
  unfold bpoly2
  rw [e]
  simp only [zero_add] at hj
  rw [hj, hj, hj]

theorem raw_joint1 (hx : Inc x n) (j k : ℕ) (hk : k < n - 2) : bpoly1 (pad x n) (k + 3) j (x (k + 1)) = bpoly1 (pad x n) (k + 4) j (x (k + 1)) := by
  have e : x (k + 1) = pad x n (k + 3 + 1) := (pad_knot (by omega)).symm
  have hj := fun i => joint (t := pad x n) (l := k + 3) (pad_lt hx (by omega) (by omega)) (pad_lt hx (l := k + 3 + 1) (by omega) (by omega)) 1 i
  unfold bpoly1
  rw [e]
  norm_num at hj
  rw [hj, hj]

theorem raw_joint (hx : Inc x n) (j k : ℕ) (hk : k < n - 2) : bpoly (pad x n) (k + 3) 3 j (x (k + 1)) = bpoly (pad x n) (k + 4) 3 j (x (k + 1)) := by
  have e : x (k + 1) = pad x n (k + 3 + 1) := (pad_knot (by omega)).symm
  rw [e]
  exact joint (t := pad x n) (l := k + 3) (pad_lt hx (by omega) (by omega)) (pad_lt hx (l := k + 3 + 1) (by omega) (by omega)) 2 j

theorem span_at (hx : Inc x n) {k : ℕ} (m : ℕ) (hm : m < n) (hk : k ≤ m) {u : ℝ} (h1 : k = 0 ∨ x k ≤ u) (h2 : k < m → u < x (k + 1)) : span x m u = k + 3 := by
  induction m with
  | zero => obtain rfl : k = 0 := by omega
            rfl
  | succ m ih =>
    rcases Nat.lt_or_ge m k with h | h
    · obtain rfl : k = m + 1 := by omega
      exact span_top _ _ h1
    · rw [span_succ, if_pos]
      · exact ih (by omega) h (fun h => h2 (by omega))
      · refine lt_of_lt_of_le (h2 (by omega)) ?_
        rcases Nat.lt_or_ge k m with h3 | h3
        · exact (hx _ _ (by omega) hm).le
        · rw [show k = m from by omega]

/-- C104: the B-splines are cubic splines. -/
theorem raw_cub (hn : 2 ≤ n) (hx : Inc x n) (j : ℕ) : CubSpline x n (raw x n j) (raw1 x n j) (raw2 x n j) := by
  have ht := pad_mono hx
  have hcont : Continuous (raw2 x n j) := by
    refine glue_cont hx (P := fun l => bpoly2 (pad x n) l j) (n - 2) (by omega) (fun l h1 h2 => ?_) (fun k hk => raw_joint2 hx j k hk)
    obtain ⟨a, b, h⟩ := cubic_lin ht (pad_lt hx h1 (by omega)) j
    rw [show bpoly2 (pad x n) l j = fun u => a + b * u from funext h]
    exact continuous_const.add (continuous_const.mul continuous_id)
  refine ⟨⟨fun u => ?_, fun u => ?_, hcont⟩, ?_⟩
  · exact glue_deriv hx (P := fun l => bpoly (pad x n) l 3 j) (P' := fun l => bpoly1 (pad x n) l j) (n - 2) (by omega) (fun l h1 h2 => cubic_d1 ht (pad_lt hx h1 (by omega)) j)
      (fun k hk => raw_joint hx j k hk) (fun k hk => raw_joint1 hx j k hk) u
  · exact glue_deriv hx (P := fun l => bpoly1 (pad x n) l j) (P' := fun l => bpoly2 (pad x n) l j) (n - 2) (by omega) (fun l h1 h2 => cubic_d2 ht (pad_lt hx h1 (by omega)) j)
      (fun k hk => raw_joint1 hx j k hk) (fun k hk => raw_joint2 hx j k hk) u
  · intro k hk u h1 h2
    have hlt := hx k (k + 1) (by omega) hk
    have hpiece : ∀ v, x k ≤ v → v ≤ x (k + 1) → raw2 x n j v = bpoly2 (pad x n) (k + 3) j v := by
      intro v h1 h2
      rcases lt_or_eq_of_le h2 with h | h
      · unfold raw2
        rw [span_at hx (n - 2) (by omega) (by omega) (Or.inr h1) (fun _ => h)]
      · rcases Nat.lt_or_ge k (n - 2) with hk2 | hk2
        · subst h
          have hs : span x (n - 2) (x (k + 1)) = k + 4 := span_at (k := k + 1) hx (n - 2) (by omega) (by omega) (Or.inr le_rfl) (fun h => hx _ _ (by omega) (by omega))
          unfold raw2
          rw [hs, raw_joint2 hx j k hk2]
        · unfold raw2
          rw [span_at (k := k) hx (n - 2) (by omega) (by omega) (Or.inr h1) (fun h => by omega)]
    obtain ⟨a, b, h⟩ := cubic_lin ht (pad_lt hx (l := k + 3) (by omega) (by omega)) j
    rw [hpiece u h1 h2, hpiece _ le_rfl hlt.le, hpiece _ hlt.le le_rfl, h, h, h]
    have : x (k + 1) - x k ≠ 0 := by linarith
    field_simp
    ring

/-! ### The ends -/

theorem hat_low (hn : 2 ≤ n) (hx : Inc x n) (j : ℕ) : bpoly (pad x n) 3 1 j (x 0) = if j = 2 then 1 else 0 := by
  have h3 : pad x n 3 = x 0 := pad_knot (k := 0) (by omega)
  have h4 : pad x n 4 = x 1 := pad_knot (k := 1) (by omega)
  have h01 := hx 0 1 (by omega) (by omega)
  unfold bpoly bpoly
  by_cases e : j = 2
  · subst e
    have hne : x 1 - x 0 ≠ 0 := by linarith
    simp only [h3, h4]
    norm_num
    exact hne
  · by_cases e3 : j = 3
    · subst e3
      simp [h3]
    · rw [if_neg e3, if_neg (by omega), if_neg e]
      ring

theorem hat_high (hn : 2 ≤ n) (hx : Inc x n) (j : ℕ) : bpoly (pad x n) (n + 1) 1 j (x (n - 1)) = if j = n + 1 then 1 else 0 := by
  have h3 : pad x n (n + 2) = x (n - 1) := by
    have := pad_knot (x := x) (n := n) (k := n - 1) (by omega)
    rwa [show n - 1 + 3 = n + 2 from by omega] at this
  have hl := pad_lt hx (l := n + 1) (by omega) (by omega)
  rw [show n + 1 + 1 = n + 2 from rfl, h3] at hl
  unfold bpoly bpoly
  by_cases e : j = n + 1
  · subst e
    have hne : x (n - 1) - pad x n (n + 1) ≠ 0 := by linarith
    rw [if_pos rfl, if_neg (by omega), show n + 1 + 0 + 1 = n + 2 from by omega, h3, div_self hne]
    ring
  · by_cases e3 : j = n
    · subst e3
      rw [if_neg (by omega), if_pos rfl, show j + 0 + 2 = j + 2 from by omega, h3]
      ring
    · rw [if_neg e, if_neg (by omega)]
      ring

theorem span_low (hn : 2 ≤ n) (hx : Inc x n) : span x (n - 2) (x 0) = 3 :=
  span_at (k := 0) hx (n - 2) (by omega) (by omega) (Or.inl rfl) (fun _ => hx 0 1 (by omega) (by omega))

theorem span_high (hn : 2 ≤ n) (hx : Inc x n) : span x (n - 2) (x (n - 1)) = n + 1 := by
  rw [span_top (n - 2) _ (Or.inr (hx _ _ (by omega) (by omega)).le)]
  omega

/-- C104: second derivatives at the first knot: only three functions have one. -/
theorem raw2_low (hn : 2 ≤ n) (hx : Inc x n) : (∀ j, 3 ≤ j → raw2 x n j (x 0) = 0) ∧ raw2 x n 0 (x 0) = 6 / (x 1 - x 0) ^ 2 := by
  have h3 : ∀ i ≤ 3, pad x n i = x 0 := fun i hi => by unfold pad; rw [show min (i - 3) (n - 1) = 0 from by omega]
  have h4 : pad x n 4 = x 1 := pad_knot (k := 1) (by omega)
  have h01 := hx 0 1 (by omega) (by omega)
  constructor
  · intro j hj
    unfold raw2 bpoly2
    rw [span_low hn hx, hat_low hn hx, hat_low hn hx, hat_low hn hx, if_neg (by omega), if_neg (by omega), if_neg (by omega)]
    simp
  · unfold raw2 bpoly2
    rw [span_low hn hx, hat_low hn hx, hat_low hn hx, hat_low hn hx, if_neg (by omega), if_neg (by omega), if_pos rfl]
    simp only [zero_add, h3 1 (by omega), h3 2 (by omega), h3 0 (by omega), h3 3 (by omega), h4]
    have : x 1 - x 0 ≠ 0 := by linarith
    field_simp
    ring

/-- C104: second derivatives at the last knot. -/
theorem raw2_high (hn : 2 ≤ n) (hx : Inc x n) : (∀ j, j + 1 < n → raw2 x n j (x (n - 1)) = 0) ∧ raw2 x n (n + 1) (x (n - 1)) = 6 / (x (n - 1) - x (n - 2)) ^ 2 ∧
    (3 ≤ n → raw2 x n (n - 1) (x (n - 1)) = 6 / ((x (n - 1) - x (n - 2)) * (x (n - 1) - x (n - 3)))) := by
  have h3 : ∀ i ≥ n + 2, pad x n i = x (n - 1) := fun i hi => by unfold pad; rw [show min (i - 3) (n - 1) = n - 1 from by omega]
  have h4 : pad x n (n + 1) = x (n - 2) := by unfold pad; rw [show min (n + 1 - 3) (n - 1) = n - 2 from by omega]
  have h01 := hx (n - 2) (n - 1) (by omega) (by omega)
  have hne : x (n - 1) - x (n - 2) ≠ 0 := by linarith
  refine ⟨fun j hj => ?_, ?_, fun h => ?_⟩
  · unfold raw2 bpoly2
    rw [span_high hn hx, hat_high hn hx, hat_high hn hx, hat_high hn hx, if_neg (by omega), if_neg (by omega), if_neg (by omega)]
    simp
  · unfold raw2 bpoly2
    rw [span_high hn hx, hat_high hn hx, hat_high hn hx, hat_high hn hx, if_pos rfl, if_neg (by omega), if_neg (by omega)]
    rw [h3 (n + 1 + 2) (by omega), h3 (n + 1 + 3) (by omega), h4]
    field_simp
    ring
  · have h5 : pad x n n = x (n - 3) := by unfold pad; rw [show min (n - 3) (n - 1) = n - 3 from by omega]
    have h02 := hx (n - 3) (n - 1) (by omega) (by omega)
    have hne2 : x (n - 1) - x (n - 3) ≠ 0 := by linarith
    unfold raw2 bpoly2
    rw [span_high hn hx, hat_high hn hx, hat_high hn hx, hat_high hn hx, if_neg (by omega), if_neg (by omega), if_pos (by omega)]
    rw [h3 (n - 1 + 4) (by omega), show n - 1 + 2 = n + 1 from by omega, show n - 1 + 1 = n from by omega, h4, h5]
    field_simp
    ring

/-- C104: the B-splines are independent. -/
theorem raw_indep (hx : Inc x n) (c : ℕ → ℝ) (h : ∀ u, x 0 ≤ u → u ≤ x (n - 1) → ∑ i ∈ Finset.range (n + 2), c i * raw x n i u = 0) (hn : 2 ≤ n) : ∀ i < n + 2, c i = 0 := by
  have ht := pad_mono hx
  have hpiece : ∀ k, k + 1 < n → ∀ i ≤ 3, c (k + i) = 0 := by
    intro k hk
    have hl := pad_lt hx (l := k + 3) (by omega) (by omega)
    refine local_indep ht 3 k hl (fun i => c (k + i)) ?_
    intro u h1 h2
    rw [pad_knot (by omega)] at h1
    have e : pad x n (k + 3 + 1) = x (k + 1) := pad_knot (by omega)
    rw [e] at h2
    have h0k : x 0 ≤ x k := by
      rcases Nat.eq_zero_or_pos k with rfl | hp
      · exact le_rfl
      · exact (hx 0 k hp (by omega)).le
    have hkn : x (k + 1) ≤ x (n - 1) := by
      rcases Nat.lt_or_ge (k + 1) (n - 1) with hp | hp
      · exact (hx _ _ hp (by omega)).le
      · rw [show k + 1 = n - 1 from by omega]
    have hu := h u (by linarith) (by linarith)
    have hs : span x (n - 2) u = k + 3 := span_at hx (n - 2) (by omega) (by omega) (Or.inr h1.le) (fun _ => h2)
    rw [← hu]
    unfold raw
    rw [hs, show n + 2 = k + (3 + 1 + (n - 2 - k)) from by omega, Finset.sum_range_add _ k, Finset.sum_range_add _ (3 + 1)]
    rw [Finset.sum_eq_zero (s := Finset.range k), Finset.sum_eq_zero (s := Finset.range (n - 2 - k)), zero_add, add_zero]
    · intro i _
      rw [support _ _ _ (Or.inl (by omega)), mul_zero]
    · intro i hi
      have := Finset.mem_range.mp hi
      rw [support _ _ _ (Or.inr (by omega)), mul_zero]
  intro i hi
  rcases Nat.lt_or_ge i (n - 1) with h1 | h1
  · have := hpiece i (by omega) 0 (by omega)
    simpa using this
  · have := hpiece (n - 2) (by omega) (i - (n - 2)) (by omega)
    rwa [show n - 2 + (i - (n - 2)) = i from by omega] at this

/-! ### NaturalBsplineBasis -/

/-- `coef_b`, interpolate.py L396-399, L404 -/
noncomputable def coefB (x : ℕ → ℝ) (n k : ℕ) : ℝ := -raw2 x n (k + 1) (x 0) / raw2 x n 0 (x 0)

/-- `coef_e`, interpolate.py L400-403, L405 (entry k belongs to function Nk + 1 - (k + 1)) -/
noncomputable def coefE (x : ℕ → ℝ) (n k : ℕ) : ℝ := -raw2 x n (n - k) (x (n - 1)) / raw2 x n (n + 1) (x (n - 1))

/-- the coefficients set in `__call__`, interpolate.py L414-419, for 0 ≤ id < Nk -/
noncomputable def callCoef (x : ℕ → ℝ) (n id i : ℕ) : ℝ :=
  (if i = id + 1 then 1 else 0) + (if id < 2 then (if i = 0 then coefB x n id else 0) else if n - 2 ≤ id then (if i = n + 1 then coefE x n (n - id - 1) else 0) else 0)

/-- a curve with coefficients c: splev, interpolate.py L420, L560 -/
noncomputable def curve (x : ℕ → ℝ) (n : ℕ) (c : ℕ → ℝ) (u : ℝ) : ℝ := ∑ i ∈ Finset.range (n + 2), c i * raw x n i u

/-- splev with der=1, interpolate.py L420, L560 -/
noncomputable def curve1 (x : ℕ → ℝ) (n : ℕ) (c : ℕ → ℝ) (u : ℝ) : ℝ := ∑ i ∈ Finset.range (n + 2), c i * raw1 x n i u

/-- splev with der=2, interpolate.py L420, L560 -/
noncomputable def curve2 (x : ℕ → ℝ) (n : ℕ) (c : ℕ → ℝ) (u : ℝ) : ℝ := ∑ i ∈ Finset.range (n + 2), c i * raw2 x n i u

/-- `__call__` of NaturalBsplineBasis, interpolate.py L411-420 -/
noncomputable def basisCall (x : ℕ → ℝ) (n : ℕ) (id : ℤ) (u : ℝ) : Except Exc ℝ :=
  if id < 0 ∨ (n : ℤ) ≤ id then .error .value else .ok (curve x n (callCoef x n id.toNat) u)

/-- basis function j: `__call__`, interpolate.py L411-420 -/
noncomputable def basis (x : ℕ → ℝ) (n j : ℕ) : ℝ → ℝ := curve x n (callCoef x n j)

/-- C104. There are as many basis functions as knots; another number is refused. -/
theorem basisCall_spec (x : ℕ → ℝ) (n : ℕ) (u : ℝ) : (∀ j : ℕ, j < n → basisCall x n j u = .ok (basis x n j u)) ∧ ∀ id : ℤ, (id < 0 ∨ (n : ℤ) ≤ id) → basisCall x n id u = .error .value := by
  constructor
  · intro j hj
    unfold basisCall basis
    rw [if_neg (by omega), Int.toNat_natCast]
  · intro id h
    unfold basisCall
    rw [if_pos h]

/-- its derivative, interpolate.py L411-420 -/
noncomputable def basis1 (x : ℕ → ℝ) (n j : ℕ) : ℝ → ℝ := curve1 x n (callCoef x n j)

/-- its second derivative, interpolate.py L411-420 -/
noncomputable def basis2 (x : ℕ → ℝ) (n j : ℕ) : ℝ → ℝ := curve2 x n (callCoef x n j)

/-- entry i of an array of length n -/
def entry (β : Fin n → ℝ) (i : ℕ) : ℝ := if h : i < n then β ⟨i, h⟩ else 0

/-- `expand_coeff`, interpolate.py L428-434 -/
noncomputable def expand (x : ℕ → ℝ) (n : ℕ) (β : Fin n → ℝ) (i : ℕ) : ℝ :=
  if i = n + 1 then entry β (n - 1) * coefE x n 0 + entry β (n - 2) * coefE x n 1
  else if i = 0 then entry β 0 * coefB x n 0 + entry β 1 * coefB x n 1
  else entry β (i - 1)

theorem call_sum (v : ℕ → ℝ) {id : ℕ} (h : id < n) :
    ∑ i ∈ Finset.range (n + 2), callCoef x n id i * v i = v (id + 1) + (if id < 2 then coefB x n id * v 0 else if n - 2 ≤ id then coefE x n (n - id - 1) * v (n + 1) else 0) := by
  unfold callCoef
  simp only [add_mul, Finset.sum_add_distrib, ite_mul, one_mul, zero_mul]
  rw [Finset.sum_ite_eq', if_pos (Finset.mem_range.mpr (by omega))]
  congr 1
  split
  · rw [Finset.sum_ite_eq', if_pos (Finset.mem_range.mpr (by omega))]
  · split
    · rw [Finset.sum_ite_eq', if_pos (Finset.mem_range.mpr (by omega))]
    · simp

theorem curve_cub (hn : 2 ≤ n) (hx : Inc x n) (c : ℕ → ℝ) : CubSpline x n (curve x n c) (curve1 x n c) (curve2 x n c) := by
  refine ⟨⟨fun u => ?_, fun u => ?_, ?_⟩, ?_⟩
  · exact HasDerivAt.fun_sum fun i _ => ((raw_cub hn hx i).d1 u).const_mul _
  · exact HasDerivAt.fun_sum fun i _ => ((raw_cub hn hx i).d2 u).const_mul _
  · exact continuous_finsetSum _ fun i _ => continuous_const.mul (raw_cub hn hx i).cont
  · intro k hk u h1 h2
    unfold curve2
    rw [← Finset.sum_sub_distrib, Finset.sum_div, Finset.mul_sum, ← Finset.sum_add_distrib]
    apply Finset.sum_congr rfl
    intro i _
    rw [(raw_cub hn hx i).lin k hk u h1 h2]
    ring

/-- C104: with four or more knots the basis functions are natural cubic splines on the knots. -/
theorem basis_natural (hn : 4 ≤ n) (hx : Inc x n) {j : ℕ} (hj : j < n) : NatSpline x n (basis x n j) (basis1 x n j) (basis2 x n j) := by
  obtain ⟨l1, l2⟩ := raw2_low (by omega) hx
  obtain ⟨h1, h2, -⟩ := raw2_high (by omega) hx
  have hl0 : raw2 x n 0 (x 0) ≠ 0 := by
    have := hx 0 1 (by omega) (by omega)
    rw [l2]
    exact div_ne_zero (by norm_num) (pow_ne_zero 2 (by linarith))
  have hh0 : raw2 x n (n + 1) (x (n - 1)) ≠ 0 := by
    have := hx (n - 2) (n - 1) (by omega) (by omega)
    rw [h2]
    exact div_ne_zero (by norm_num) (pow_ne_zero 2 (by linarith))
  refine ⟨curve_cub (by omega) hx _, ?_, ?_⟩
  · show ∑ i ∈ Finset.range (n + 2), _ = _
    rw [call_sum _ hj]
    by_cases e : j < 2
    · rw [if_pos e]
      unfold coefB
      field_simp
      ring
    · rw [if_neg e, l1 (j + 1) (by omega), l1 (n + 1) (by omega)]
      simp
  · show ∑ i ∈ Finset.range (n + 2), _ = _
    rw [call_sum _ hj]
    by_cases e : j < 2
    · rw [if_pos e, h1 (j + 1) (by omega), h1 0 (by omega)]
      ring
    · rw [if_neg e]
      by_cases e2 : n - 2 ≤ j
      · rw [if_pos e2]
        unfold coefE
        rw [show n - (n - j - 1) = j + 1 from by omega]
        field_simp
        ring
      · rw [if_neg e2, h1 (j + 1) (by omega)]
        ring

theorem expand_sum (hn : 2 ≤ n) (β : Fin n → ℝ) (v : ℕ → ℝ) :
    ∑ i ∈ Finset.range (n + 2), expand x n β i * v i = ∑ j : Fin n, β j * v (j + 1) + (entry β 0 * coefB x n 0 + entry β 1 * coefB x n 1) * v 0 +
      (entry β (n - 1) * coefE x n 0 + entry β (n - 2) * coefE x n 1) * v (n + 1) := by
  rw [Finset.sum_range_succ, Finset.sum_range_succ']
  have e1 : expand x n β (n + 1) = entry β (n - 1) * coefE x n 0 + entry β (n - 2) * coefE x n 1 := if_pos rfl
  have e0 : expand x n β 0 = entry β 0 * coefB x n 0 + entry β 1 * coefB x n 1 := by
    unfold expand
    rw [if_neg (by omega), if_pos rfl]
  rw [e1, e0]
  congr 2
  rw [Finset.sum_range]
  apply Finset.sum_congr rfl
  intro j _
  unfold expand
  rw [if_neg (by have := j.2; omega), if_neg (by omega)]
  unfold entry
  rw [dif_pos (by have := j.2; omega)]
  rfl

theorem sum_entry (β : Fin n → ℝ) {i : ℕ} (a : ℝ) : ∑ j : Fin n, β j * (if (j : ℕ) = i then a else 0) = entry β i * a := by
  unfold entry
  by_cases h : i < n
  · rw [dif_pos h, Finset.sum_eq_single ⟨i, h⟩]
    · simp
    · intro b _ hb
      rw [if_neg (fun e => hb (Fin.ext e)), mul_zero]
    · simp
  · rw [dif_neg h, zero_mul]
    refine Finset.sum_eq_zero fun j _ => ?_
    rw [if_neg (by have := j.2; omega), mul_zero]

theorem expand_v (hn : 4 ≤ n) (β : Fin n → ℝ) (v : ℕ → ℝ) :
    ∑ i ∈ Finset.range (n + 2), expand x n β i * v i = ∑ j : Fin n, β j * ∑ i ∈ Finset.range (n + 2), callCoef x n j i * v i := by
  rw [expand_sum (by omega)]
  have e : ∀ j : Fin n, β j * ∑ i ∈ Finset.range (n + 2), callCoef x n j i * v i = β j * v (j + 1) + β j * (if (j : ℕ) = 0 then coefB x n 0 * v 0 else 0) +
      β j * (if (j : ℕ) = 1 then coefB x n 1 * v 0 else 0) + β j * (if (j : ℕ) = n - 1 then coefE x n 0 * v (n + 1) else 0) +
      β j * (if (j : ℕ) = n - 2 then coefE x n 1 * v (n + 1) else 0) := by
    intro j
    have hj := j.2
    rw [call_sum _ hj]
    rcases Nat.lt_or_ge j 2 with h | h
    · rw [if_pos h, if_neg (c := (j : ℕ) = n - 1) (by omega), if_neg (c := (j : ℕ) = n - 2) (by omega)]
      rcases (show (j : ℕ) = 0 ∨ (j : ℕ) = 1 by omega) with h0 | h0
      · rw [h0]; simp; ring
      · rw [h0]; simp; ring
    · rw [if_neg (by omega), if_neg (c := (j : ℕ) = 0) (by omega), if_neg (c := (j : ℕ) = 1) (by omega)]
      rcases (show (j : ℕ) = n - 1 ∨ (j : ℕ) = n - 2 ∨ (j : ℕ) < n - 2 by omega) with h0 | h0 | h0
      · rw [if_pos (by omega), if_pos h0, if_neg (by omega), h0, show n - (n - 1) - 1 = 0 from by omega]; ring
      · rw [if_pos (by omega), if_neg (by omega), if_pos h0, h0, show n - (n - 2) - 1 = 1 from by omega]; ring
      · rw [if_neg (by omega), if_neg (by omega), if_neg (by omega)]; ring
  simp only [e, Finset.sum_add_distrib, sum_entry]
  ring

/-- C104: with four or more knots `expand_coeff` gives the coefficients of the same curve. -/
theorem expand_curve (hn : 4 ≤ n) (β : Fin n → ℝ) : curve x n (expand x n β) = combine (basis x n) β ∧ curve1 x n (expand x n β) = combine (basis1 x n) β ∧
    curve2 x n (expand x n β) = combine (basis2 x n) β :=
  ⟨funext fun u => expand_v hn β fun i => raw x n i u, funext fun u => expand_v hn β fun i => raw1 x n i u, funext fun u => expand_v hn β fun i => raw2 x n i u⟩

/-- C104: the basis functions are independent at the knots: every set of values is taken by one curve. -/
theorem basis_det (hn : 4 ≤ n) (hx : Inc x n) : IsUnit (valueMat x n (basis x n)).det := by
  rw [isUnit_iff_ne_zero]
  intro h0
  obtain ⟨v, hv0, hv⟩ := Matrix.exists_mulVec_eq_zero_iff.mpr h0
  have hB : ∀ j < n, NatSpline x n (basis x n j) (basis1 x n j) (basis2 x n j) := fun j hj => basis_natural hn hx hj
  have hC := combine_nat _ _ _ hB v
  have hk : ∀ k : ℕ, k < n → combine (basis x n) v (x k) = 0 := by
    intro k hk
    have := congrFun hv ⟨k, hk⟩
    rwa [value_mul] at this
  have hE : energy x n (combine (basis2 x n) v) = 0 := by
    have := natural_parts (by omega) hx hC hC.toC2
    unfold energy
    simp only [sq]
    rw [this, Finset.sum_eq_zero, neg_zero]
    intro k hk'
    have := Finset.mem_range.mp hk'
    rw [hk (k + 1) (by omega), hk k (by omega)]
    ring
  have hflat := flat_zero (by omega) hx hC.toC2 hE (hk 0 (by omega)) (hk (n - 1) (by omega))
  have hz := raw_indep hx (expand x n v) (fun u h1 h2 => by
    have := congrFun (expand_curve (x := x) hn v).1 u
    rw [hflat u h1 h2] at this
    exact this) (by omega)
  apply hv0
  funext j
  have := hz (j + 1) (by have := j.2; omega)
  unfold expand at this
  rw [if_neg (by have := j.2; omega), if_neg (by omega)] at this
  unfold entry at this
  rw [dif_pos (by have := j.2; omega)] at this
  exact this
end

end Mass.Calc.BSpline
