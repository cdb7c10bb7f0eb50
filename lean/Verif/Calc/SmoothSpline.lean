import Verif.Calc.BSpline
/-!
C103, C104: mass/mathstat/interpolate.py: SmoothingSpline, SmoothingSplineFunction and SmoothingSplineLog in the user's coordinates, with the B-spline basis of the code.
-/
namespace Mass.Calc.SSpline
open Mass Mass.Calc Mass.Calc.Smooth Mass.Calc.BSpline

/-! ### The code -/

/-- `xscale`, interpolate.py L475 -/
noncomputable def xscale (x : ℕ → ℝ) (n : ℕ) : ℝ := Real.sqrt ((∑ k ∈ Finset.range n, x k ^ 2) / n)

/-- `self.x`, interpolate.py L474-476 -/
noncomputable def scaled (x : ℕ → ℝ) (n k : ℕ) : ℝ := x k / xscale x n

/-- the matrix Omega of the constructor, interpolate.py L487-490 -/
noncomputable def omegaOf (xs : ℕ → ℝ) (n : ℕ) : Matrix (Fin n) (Fin n) ℝ := Omega xs n (fun k j => basis2 xs n j (xs k))

/-- `__init__` and `smooth`, interpolate.py L474-491, L515-546: the coefficients. The errors (L466-472: those of y, or with those of x by a quadratic fit) are an argument. -/
noncomputable def fit (solver : (ℝ → ℝ) → ℝ → ℝ → Except Exc ℝ) (x : ℕ → ℝ) (n : ℕ) (err y : Fin n → ℝ) (target : ℝ) : Except Exc (ℕ → ℝ) := do
  let β ← smooth solver (valueMat (scaled x n) n (basis (scaled x n) n)) (omegaOf (scaled x n) n) err y target
  pure (expand (scaled x n) n β)

/-- splev, interpolate.py L560, for der = 0, 1, 2 (der = 3 is left out) -/
noncomputable def splev (x : ℕ → ℝ) (n : ℕ) (c : ℕ → ℝ) : Fin 3 → ℝ → ℝ := ![curve x n c, curve1 x n c, curve2 x n c]

/-- np.poly1d([slope, val]).coeffs[0]: leading zeros are dropped (interpolate.py L552-553, L567, L574) -/
noncomputable def lead (slope val : ℝ) : ℝ := if slope = 0 then val else slope

/-- value of `lowline` or `highline` at distance d from the end, or its derivative, interpolate.py L563-576 -/
noncomputable def line (slope val d : ℝ) : Fin 3 → ℝ := ![slope * d + val, lead slope val, 0]

/-- `__eval`, interpolate.py L555-581 (with the lines of L548-553; the end points themselves belong to the knots) -/
noncomputable def evalS (x : ℕ → ℝ) (n : ℕ) (c : ℕ → ℝ) (der : Fin 3) (u : ℝ) : ℝ :=
  let s := xscale x n
  let xs := scaled x n
  let v := u / s
  let r := splev xs n c der v
  let r := if v < xs 0 then line (splev xs n c 1 (xs 0)) (splev xs n c 0 (xs 0)) (v - xs 0) der else r
  let r := if xs (n - 1) < v then line (splev xs n c 1 (xs (n - 1))) (splev xs n c 0 (xs (n - 1))) (v - xs (n - 1)) der else r
  r / s ^ (der : ℕ)

/-- `SmoothingSplineFunction.derivative`, interpolate.py L594-597, then called with u: a new fit to the scaled abscissas with the default chi-squared (errors as before: those of x and the slope scale oppositely).
`der` is the order asked for. -/
noncomputable def derivativeCall (solver : (ℝ → ℝ) → ℝ → ℝ → Except Exc ℝ) (x : ℕ → ℝ) (n : ℕ) (err y : Fin n → ℝ) (der : Fin 3) (u : ℝ) : Except Exc ℝ := do
  let c ← fit solver (scaled x n) n err y n
  pure (evalS (scaled x n) n c der u)

/-- `SmoothingSplineLog.__init__`, interpolate.py L613-618: the arguments of the SmoothingSpline (x, y, dy, dx) and the caller's dx afterwards -/
noncomputable def logInit (n : ℕ) (x y dy : Fin n → ℝ) (dx : Option (Fin n → ℝ)) :
    Except Exc (((Fin n → ℝ) × (Fin n → ℝ) × (Fin n → ℝ) × Option (Fin n → ℝ)) × Option (Fin n → ℝ)) :=
  open Classical in
  if (∃ k, x k ≤ 0) ∨ ∃ k, y k ≤ 0 then .error .value else
    let dx := dx.map fun d k => d k / x k
    .ok ((fun k => Real.log (x k), fun k => Real.log (y k), fun k => dy k / y k, dx), dx)

/-- `SmoothingSplineLog.__call__`, interpolate.py L620-621; `f der` is the spline -/
noncomputable def logCall (f : Fin 3 → ℝ → ℝ) (der : Fin 3) (u : ℝ) : ℝ := Real.exp (f der (Real.log u))

/-! ### Scaling -/
section
variable {x : ℕ → ℝ} {n : ℕ}

theorem scale_pos (hn : 2 ≤ n) (hx : Inc x n) : 0 < xscale x n := by
  apply Real.sqrt_pos.mpr
  have hn0 : (0 : ℝ) < n := by exact_mod_cast (show 0 < n by omega)
  refine div_pos ?_ hn0
  have h01 := hx 0 1 (by omega) (by omega)
  have h0 : x 0 ^ 2 ≤ ∑ k ∈ Finset.range n, x k ^ 2 := Finset.single_le_sum (f := fun k => x k ^ 2) (fun i _ => sq_nonneg _) (Finset.mem_range.mpr (by omega))
  have h1 : x 1 ^ 2 ≤ ∑ k ∈ Finset.range n, x k ^ 2 := Finset.single_le_sum (f := fun k => x k ^ 2) (fun i _ => sq_nonneg _) (Finset.mem_range.mpr (by omega))
  by_cases h : x 0 = 0
  · have : 0 < x 1 ^ 2 := by
      have : x 1 ≠ 0 := by linarith
      positivity
    linarith
  · have : 0 < x 0 ^ 2 := by positivity
    linarith

theorem scaled_inc (hn : 2 ≤ n) (hx : Inc x n) : Inc (scaled x n) n := fun i j h1 h2 => div_lt_div_of_pos_right (hx i j h1 h2) (scale_pos hn hx)

/-- C104: scaling scaled abscissas changes nothing: their mean square is 1. -/
theorem scaled_scale (hn : 2 ≤ n) (hx : Inc x n) : xscale (scaled x n) n = 1 := by
  have hs := scale_pos hn hx
  have hn0 : (0 : ℝ) < n := by exact_mod_cast (show 0 < n by omega)
  have h2 : xscale x n ^ 2 = (∑ k ∈ Finset.range n, x k ^ 2) / n := Real.sq_sqrt (div_nonneg (Finset.sum_nonneg fun _ _ => sq_nonneg _) hn0.le)
  have : (∑ k ∈ Finset.range n, scaled x n k ^ 2) / n = 1 := by
    unfold scaled
    simp only [div_pow]
    rw [← Finset.sum_div, div_right_comm, ← h2]
    exact div_self (by positivity)
  conv_lhs => unfold xscale
  rw [this, Real.sqrt_one]

theorem scaled_scaled (hn : 2 ≤ n) (hx : Inc x n) : scaled (scaled x n) n = scaled x n := by
  funext k
  show scaled x n k / xscale (scaled x n) n = _
  rw [scaled_scale hn hx, div_one]

theorem scaled_mul (hn : 2 ≤ n) (hx : Inc x n) (k : ℕ) : scaled x n k * xscale x n = x k := div_mul_cancel₀ _ (scale_pos hn hx).ne'

theorem energy_scale (hn : 2 ≤ n) (hx : Inc x n) (g2 : ℝ → ℝ) :
    energy (scaled x n) n (fun v => xscale x n ^ 2 * g2 (v * xscale x n)) = xscale x n ^ 3 * energy x n g2 := by
  have hs := (scale_pos hn hx).ne'
  unfold energy
  simp only [mul_pow]
  rw [intervalIntegral.integral_const_mul, intervalIntegral.integral_comp_mul_right (fun u => g2 u ^ 2) hs, scaled_mul hn hx, scaled_mul hn hx, smul_eq_mul]
  field_simp

theorem misfit_scale (hn : 2 ≤ n) (hx : Inc x n) (err y : Fin n → ℝ) (g : ℝ → ℝ) : misfit (scaled x n) err y (fun v => g (v * xscale x n)) = misfit x err y g := by
  unfold misfit
  simp only [scaled_mul hn hx]

theorem C2_scale {g g1 g2 : ℝ → ℝ} (h : C2 g g1 g2) (s : ℝ) : C2 (fun v => g (v * s)) (fun v => s * g1 (v * s)) (fun v => s ^ 2 * g2 (v * s)) := by
  have hd : ∀ v, HasDerivAt (fun v : ℝ => v * s) s v := fun v => by simpa using (hasDerivAt_id v).mul_const s
  refine ⟨fun v => ?_, fun v => ?_, continuous_const.mul (h.cont.comp (continuous_id.mul continuous_const))⟩
  · refine ((h.d1 (v * s)).comp v (hd v)).congr_deriv ?_
    ring
  · refine (((h.d2 (v * s)).comp v (hd v)).const_mul s).congr_deriv ?_
    ring

/-! ### The linear extrapolation -/

/-- a curve continued by straight lines, and its derivatives [specification] -/
noncomputable def extend (f f1 f2 : ℝ → ℝ) (a b : ℝ) : Fin 3 → ℝ → ℝ :=
  ![fun v => if v < a then f1 a * (v - a) + f a else if v < b then f v else f1 b * (v - b) + f b,
    fun v => if v < a then f1 a else if v < b then f1 v else f1 b, fun v => if v < a then 0 else if v < b then f2 v else 0]

theorem extend_C2 {f f1 f2 : ℝ → ℝ} {a b : ℝ} (hf : C2 f f1 f2) (hab : a < b) (ha : f2 a = 0) (hb : f2 b = 0) : C2 (extend f f1 f2 a b 0) (extend f f1 f2 a b 1) (extend f f1 f2 a b 2) := by
  have hline : ∀ m c d v : ℝ, HasDerivAt (fun v : ℝ => m * (v - d) + c) m v := fun m c d v => by
    simpa using (((hasDerivAt_id v).sub_const d).const_mul m).add_const c
  refine ⟨fun u => ?_, fun u => ?_, ?_⟩
  · exact ite_deriv (f := fun v => f1 a * (v - a) + f a) (f' := fun _ => f1 a) (hline _ _ _)
      (ite_deriv (f := f) (f' := f1) (g := fun v => f1 b * (v - b) + f b) (g' := fun _ => f1 b) hf.d1 (hline _ _ _) (by simp) rfl) (by simp [hab]) (by simp [hab]) u
  · exact ite_deriv (f := fun _ => f1 a) (f' := fun _ => 0) (fun u => hasDerivAt_const u _)
      (ite_deriv (f := f1) (f' := f2) (g := fun _ => f1 b) (g' := fun _ => 0) hf.d2 (fun u => hasDerivAt_const u _) rfl hb) (by simp [hab]) (by simp [hab, ha]) u
  · have e : extend f f1 f2 a b 2 = fun v => if a ≤ v then (if b ≤ v then 0 else f2 v) else 0 := by
      funext v
      show (if v < a then 0 else if v < b then f2 v else 0) = _
      by_cases h1 : v < a
      · rw [if_pos h1, if_neg (not_le.mpr h1)]
      · rw [if_neg h1, if_pos (not_lt.mp h1)]
        by_cases h2 : v < b
        · rw [if_pos h2, if_neg (not_le.mpr h2)]
        · rw [if_neg h2, if_pos (not_lt.mp h2)]
    rw [e]
    refine Continuous.if_le (Continuous.if_le continuous_const hf.cont continuous_const continuous_id ?_) continuous_const continuous_const continuous_id ?_
    · rintro v rfl; exact hb.symm
    · rintro v rfl; rw [if_neg (not_le.mpr hab), ha]

theorem extend_in {f f1 f2 : ℝ → ℝ} {a b v : ℝ} (h1 : a ≤ v) (h2 : v ≤ b) (hb : f2 b = 0) : extend f f1 f2 a b 0 v = f v ∧ extend f f1 f2 a b 1 v = f1 v ∧ extend f f1 f2 a b 2 v = f2 v := by
  rcases lt_or_eq_of_le h2 with h | rfl
  · simp [extend, not_lt.mpr h1, h]
  · simp [extend, not_lt.mpr h1, hb]

/-- the spline and its derivatives, as they should be [specification] -/
noncomputable def ideal (x : ℕ → ℝ) (n : ℕ) (c : ℕ → ℝ) (der : Fin 3) (u : ℝ) : ℝ :=
  extend (curve (scaled x n) n c) (curve1 (scaled x n) n c) (curve2 (scaled x n) n c) (scaled x n 0) (scaled x n (n - 1)) der (u / xscale x n) / xscale x n ^ (der : ℕ)

/-- C103: evaluation: the curve itself and its second derivative are right, the first derivative is unless the curve is horizontal at an end and the argument beyond it. -/
theorem eval_ideal (hn : 2 ≤ n) (hx : Inc x n) (c : ℕ → ℝ) (hb : curve2 (scaled x n) n c (scaled x n (n - 1)) = 0) (u : ℝ) :
    evalS x n c 0 u = ideal x n c 0 u ∧ evalS x n c 2 u = ideal x n c 2 u ∧
    ((x 0 ≤ u ∨ curve1 (scaled x n) n c (scaled x n 0) ≠ 0) → (u ≤ x (n - 1) ∨ curve1 (scaled x n) n c (scaled x n (n - 1)) ≠ 0) → evalS x n c 1 u = ideal x n c 1 u) := by
  have hs := scale_pos hn hx
  have hab := scaled_inc hn hx 0 (n - 1) (by omega) (by omega)
  have hlo : u / xscale x n < scaled x n 0 ↔ u < x 0 := div_lt_div_iff_of_pos_right hs
  have hhi : scaled x n (n - 1) < u / xscale x n ↔ x (n - 1) < u := div_lt_div_iff_of_pos_right hs
  unfold ideal evalS
  dsimp only
  generalize hv : u / xscale x n = v at *
  generalize scaled x n 0 = a at *
  generalize scaled x n (n - 1) = b at *
  rcases lt_trichotomy v b with h | rfl | h
  · have hnb : ¬ b < v := not_lt.mpr h.le
    by_cases ha : v < a
    · refine ⟨by simp [ha, hnb, extend, line, splev], by simp [ha, hnb, extend, line], fun h1 _ => ?_⟩
      have h1 := h1.resolve_left (not_le.mpr (hlo.mp ha))
      simp [ha, hnb, extend, line, splev, lead, h1]
    · exact ⟨by simp [ha, hnb, h, extend, splev], by simp [ha, hnb, h, extend, splev], fun _ _ => by simp [ha, hnb, h, extend, splev]⟩
  · have ha : ¬ v < a := not_lt.mpr hab.le
    exact ⟨by simp [ha, extend, splev], by simp [ha, extend, splev, hb], fun _ _ => by simp [ha, extend, splev]⟩
  · have ha : ¬ v < a := not_lt.mpr (hab.trans h).le
    have hvb : ¬ v < b := not_lt.mpr h.le
    refine ⟨by simp [ha, h, hvb, extend, line, splev], by simp [ha, h, hvb, extend, line], fun _ h2 => ?_⟩
    have h2 := h2.resolve_left (not_le.mpr (hhi.mp h))
    simp [ha, hvb, h, extend, line, splev, lead, h2]

theorem ideal_C2 (hn : 2 ≤ n) (hx : Inc x n) {c : ℕ → ℝ} (hN : NatSpline (scaled x n) n (curve (scaled x n) n c) (curve1 (scaled x n) n c) (curve2 (scaled x n) n c)) :
    C2 (ideal x n c 0) (ideal x n c 1) (ideal x n c 2) := by
  have h := C2_scale (extend_C2 hN.toC2 (scaled_inc hn hx 0 (n - 1) (by omega) (by omega)) hN.low hN.high) (xscale x n)⁻¹
  have e : ∀ d : Fin 3, ideal x n c d = fun u => (xscale x n)⁻¹ ^ (d : ℕ) * extend (curve (scaled x n) n c) (curve1 (scaled x n) n c) (curve2 (scaled x n) n c) (scaled x n 0) (scaled x n (n - 1)) d (u * (xscale x n)⁻¹) := by
    intro d
    funext u
    unfold ideal
    rw [div_eq_mul_inv, div_eq_mul_inv, inv_pow, mul_comm]
  rw [e 0, e 1, e 2]
  simpa using h

/-! ### The result -/
variable {err y : Fin n → ℝ}

/-- the coefficients at the lower end of the search, p = 1e-20 (L541): the stiffest curve that is tried [specification] -/
noncomputable def stiff (x : ℕ → ℝ) (n : ℕ) (err y : Fin n → ℝ) : ℕ → ℝ :=
  expand (scaled x n) n (params (valueMat (scaled x n) n (basis (scaled x n) n)) (omegaOf (scaled x n) n) err y (1 / 10 ^ 20))

theorem expand_nat (hn : 4 ≤ n) (hx : Inc x n) (β : Fin n → ℝ) : NatSpline x n (curve x n (expand x n β)) (curve1 x n (expand x n β)) (curve2 x n (expand x n β)) := by
  obtain ⟨e0, e1, e2⟩ := expand_curve (x := x) hn β
  rw [e0, e1, e2]
  exact combine_nat _ _ _ (fun j hj => basis_natural hn hx hj) β

theorem ideal_in (hn : 4 ≤ n) (hx : Inc x n) (β : Fin n → ℝ) {v : ℝ} (h1 : scaled x n 0 ≤ v) (h2 : v ≤ scaled x n (n - 1)) :
    ideal x n (expand (scaled x n) n β) 0 (v * xscale x n) = combine (basis (scaled x n) n) β v ∧
    xscale x n ^ 2 * ideal x n (expand (scaled x n) n β) 2 (v * xscale x n) = combine (basis2 (scaled x n) n) β v := by
  have hs := (scale_pos (by omega) hx).ne'
  have hN := expand_nat hn (scaled_inc (by omega) hx) β
  obtain ⟨e0, e1, e2⟩ := expand_curve (x := scaled x n) hn β
  have hi := extend_in (f := curve (scaled x n) n (expand (scaled x n) n β)) (f1 := curve1 (scaled x n) n (expand (scaled x n) n β)) h1 h2 hN.high
  unfold ideal
  rw [mul_div_cancel_right₀ _ hs, hi.1, hi.2.2, e0, e2]
  constructor
  · simp
  · show _ * (_ / xscale x n ^ 2) = _
    field_simp

theorem ideal_misfit (hn : 4 ≤ n) (hx : Inc x n) (β : Fin n → ℝ) :
    misfit x err y (ideal x n (expand (scaled x n) n β) 0) = misfit (scaled x n) err y (combine (basis (scaled x n) n) β) := by
  rw [← misfit_scale (by omega) hx]
  unfold misfit
  refine Finset.sum_congr rfl fun k _ => ?_
  have hk := k.2
  have hi := scaled_inc (by omega) hx
  have h1 : scaled x n 0 ≤ scaled x n k := by
    rcases Nat.eq_zero_or_pos (k : ℕ) with h | h
    · rw [h]
    · exact (hi _ _ h hk).le
  have h2 : scaled x n k ≤ scaled x n (n - 1) := by
    rcases Nat.lt_or_ge (k : ℕ) (n - 1) with h | h
    · exact (hi _ _ h (by omega)).le
    · rw [show (k : ℕ) = n - 1 from by omega]
  beta_reduce
  rw [(ideal_in hn hx β h1 h2).1]

theorem ideal_energy (hn : 4 ≤ n) (hx : Inc x n) (β : Fin n → ℝ) :
    xscale x n ^ 3 * energy x n (ideal x n (expand (scaled x n) n β) 2) = energy (scaled x n) n (combine (basis2 (scaled x n) n) β) := by
  rw [← energy_scale (by omega) hx]
  unfold energy
  refine intervalIntegral.integral_congr fun v hv => ?_
  rw [Set.uIcc_of_le (scaled_inc (by omega) hx 0 (n - 1) (by omega) (by omega)).le] at hv
  show (_ * _) ^ 2 = _ ^ 2
  rw [(ideal_in hn hx β hv.1 hv.2).2]

theorem fit_of_smooth {solver : (ℝ → ℝ) → ℝ → ℝ → Except Exc ℝ} {target : ℝ} {r : Except Exc (Fin n → ℝ)}
    (h : smooth solver (valueMat (scaled x n) n (basis (scaled x n) n)) (omegaOf (scaled x n) n) err y target = r) :
    fit solver x n err y target = r.map (expand (scaled x n) n) := by
  unfold fit
  rw [h]
  cases r <;> rfl

/-- C103: a smoothing spline through four or more points. If even the stiffest curve misses the target chi-squared, the result has exactly that chi-squared, is twice continuously differentiable,
and no other curve that fits as well has as little curvature between the first and last point. Otherwise ValueError. -/
theorem spline_result {solver : (ℝ → ℝ) → ℝ → ℝ → Except Exc ℝ} (hs : Brent solver) (hn : 4 ≤ n) (hx : Inc x n) (he : ∀ k, err k ≠ 0) {target : ℝ} (ht : 0 < target) :
    (target ≤ misfit x err y (ideal x n (stiff x n err y) 0) →
      ∃ c, fit solver x n err y target = .ok c ∧ C2 (evalS x n c 0) (ideal x n c 1) (evalS x n c 2) ∧ misfit x err y (evalS x n c 0) = target ∧
        ∀ g g1 g2, C2 g g1 g2 → misfit x err y g ≤ target → energy x n (evalS x n c 2) ≤ energy x n g2 ∧
          (energy x n g2 ≤ energy x n (evalS x n c 2) → ∀ u, x 0 ≤ u → u ≤ x (n - 1) → g u = evalS x n c 0 u)) ∧
    (misfit x err y (ideal x n (stiff x n err y) 0) < target → fit solver x n err y target = .error .value) := by
  have hxs := scaled_inc (x := x) (by omega) hx
  have hB : ∀ j < n, NatSpline (scaled x n) n (basis (scaled x n) n j) (basis1 (scaled x n) n j) (basis2 (scaled x n) n j) := fun j hj => basis_natural hn hxs hj
  have hres := smooth_result (y := y) hs (by omega) hxs hB he (basis_det hn hxs) ht rfl rfl
  rw [show Omega (scaled x n) n (fun k j => basis2 (scaled x n) n j (scaled x n k)) = omegaOf (scaled x n) n from rfl, ← ideal_misfit hn hx] at hres
  have hsc := scale_pos (by omega) hx
  refine ⟨fun hle => ?_, fun hlt => ?_⟩
  · obtain ⟨β, hok, hmis, hmin⟩ := hres.1 hle
    have hN := expand_nat hn hxs β
    have e0 : evalS x n (expand (scaled x n) n β) 0 = ideal x n (expand (scaled x n) n β) 0 := funext fun u => (eval_ideal (by omega) hx _ hN.high u).1
    have e2 : evalS x n (expand (scaled x n) n β) 2 = ideal x n (expand (scaled x n) n β) 2 := funext fun u => (eval_ideal (by omega) hx _ hN.high u).2.1
    refine ⟨expand (scaled x n) n β, fit_of_smooth hok, ?_, ?_, ?_⟩
    · rw [e0, e2]; exact ideal_C2 (by omega) hx hN
    · rw [e0, ideal_misfit hn hx, hmis]
    · intro g g1 g2 hg hle
      rw [e0, e2]
      have h3 : 0 < xscale x n ^ 3 := by positivity
      have := hmin _ _ _ (C2_scale hg (xscale x n)) (by rw [misfit_scale (by omega) hx]; exact hle)
      rw [energy_scale (by omega) hx, ← ideal_energy hn hx] at this
      refine ⟨le_of_mul_le_mul_left this.1 h3, fun hle u hu1 hu2 => ?_⟩
      have hv1 : scaled x n 0 ≤ u / xscale x n := div_le_div_of_nonneg_right hu1 hsc.le
      have hv2 : u / xscale x n ≤ scaled x n (n - 1) := div_le_div_of_nonneg_right hu2 hsc.le
      have := this.2 (mul_le_mul_of_nonneg_left hle h3.le) _ hv1 hv2
      rw [← (ideal_in hn hx β hv1 hv2).1, div_mul_cancel₀ _ hsc.ne'] at this
      exact this
  · exact fit_of_smooth (hres.2 hlt)

/-- Disagreement (C103): "When a (weighted) least squares fit of a line to the data meets the maxchisq constraint, then the actual chi-squared will be less than maxchisq": instead there is no spline at all,
the constructor raises ValueError. With the default maxchisq this happens whenever the points lie on a line within their errors. -/
theorem straight_data_fails {solver : (ℝ → ℝ) → ℝ → ℝ → Except Exc ℝ} (hs : Brent solver) (hn : 4 ≤ n) (hx : Inc x n) (he : ∀ k, err k ≠ 0) {target a b : ℝ}
    (h : misfit x err y (fun u => a + b * u) < target) : fit solver x n err y target = .error .value := by
  have hxs := scaled_inc (x := x) (by omega) hx
  have hB : ∀ j < n, NatSpline (scaled x n) n (basis (scaled x n) n j) (basis1 (scaled x n) n j) (basis2 (scaled x n) n j) := fun j hj => basis_natural hn hxs hj
  refine fit_of_smooth (r := .error .value) (line_fits hs (by omega) hxs hB he (basis_det hn hxs) (a := a) (b := b * xscale x n) ?_)
  rw [← misfit_scale (by omega) hx] at h
  refine lt_of_eq_of_lt ?_ h
  unfold misfit
  exact Finset.sum_congr rfl fun k _ => by ring_nf

/-! ### Every bent curve is the result for some data -/
section
open Matrix

theorem energy_sum (hn : 2 ≤ n) (hx : Inc x n) {B B1 B2 : ℕ → ℝ → ℝ} (hB : ∀ j < n, NatSpline x n (B j) (B1 j) (B2 j)) (v : Fin n → ℝ) :
    energy x n (combine B2 v) = ∑ i : Fin n, v i * (Omega x n (fun k j => B2 j (x k)) *ᵥ v) i := by
  have hC := combine_nat B B1 B2 hB v
  simp only [omega_mul hn hx hB]
  unfold energy
  rw [show (fun u => combine B2 v u ^ 2) = fun u => ∑ i : Fin n, v i * (B2 i u * combine B2 v u) from by
    funext u
    rw [sq]
    conv_lhs => rw [show combine B2 v u * combine B2 v u = (∑ j : Fin n, v j * B2 j u) * combine B2 v u from rfl]
    rw [Finset.sum_mul]
    exact Finset.sum_congr rfl fun j _ => by ring]
  rw [intervalIntegral.integral_finsetSum]
  · exact Finset.sum_congr rfl fun i _ => by rw [intervalIntegral.integral_const_mul]
  · intro i _
    exact (continuous_const.mul ((hB i i.2).cont.mul hC.cont)).intervalIntegrable _ _

/-- how far the data have to lie from the curve, in units of the squared errors [specification] -/
noncomputable def pull (x : ℕ → ℝ) (n : ℕ) (β : Fin n → ℝ) : Fin n → ℝ := ((valueMat x n (basis x n))ᵀ)⁻¹ *ᵥ (omegaOf x n *ᵥ β)

theorem pull_spec (hn : 4 ≤ n) (hx : Inc x n) (β : Fin n → ℝ) (i : Fin n) : ∑ k, valueMat x n (basis x n) k i * pull x n β k = (omegaOf x n *ᵥ β) i := by
  have h : (valueMat x n (basis x n))ᵀ *ᵥ pull x n β = omegaOf x n *ᵥ β := by
    unfold pull
    rw [mulVec_mulVec, mul_nonsing_inv _ (by rw [det_transpose]; exact basis_det hn hx), one_mulVec]
  exact congrFun h i

theorem best_of_data (hn : 4 ≤ n) (hx : Inc x n) (he : ∀ k, err k ≠ 0) (β : Fin n → ℝ) (hy : ∀ k, y k = combine (basis x n) β (x k) + err k ^ 2 * pull x n β k) :
    best (valueMat x n (basis x n)) (omegaOf x n) err y (1 / 2) = some β := by
  have hB : ∀ j < n, NatSpline x n (basis x n j) (basis1 x n j) (basis2 x n j) := fun j hj => basis_natural hn hx hj
  have hdet := best_some (p := 1 / 2) (by omega) hx hB he (basis_det hn hx) (by norm_num) (by norm_num)
  unfold best solve
  rw [show omegaOf x n = Omega x n (fun k j => basis2 x n j (x k)) from rfl, if_pos hdet]
  congr 1
  have hsys : ((1 / 2 : ℝ) • rhs (valueMat x n (basis x n)) err y) = ((1 / 2 : ℝ) • (lhs (valueMat x n (basis x n)) err - omegaOf x n) + omegaOf x n) *ᵥ β := by
    funext i
    rw [system_mul, lhs_mul, ← pull_spec hn hx]
    show (1 / 2 : ℝ) * rhs (valueMat x n (basis x n)) err y i = _
    unfold rhs
    rw [Finset.mul_sum, Finset.mul_sum, Finset.mul_sum, ← Finset.sum_add_distrib]
    refine Finset.sum_congr rfl fun k _ => ?_
    rw [hy k, value_mul]
    have := he k
    field_simp
    ring
  rw [hsys, mulVec_mulVec]
  rw [show omegaOf x n = Omega x n (fun k j => basis2 x n j (x k)) from rfl, nonsing_inv_mul _ hdet, one_mulVec]

theorem pull_ne (hn : 4 ≤ n) (hx : Inc x n) (he : ∀ k, err k ≠ 0) {β : Fin n → ℝ} (hE : energy x n (combine (basis2 x n) β) ≠ 0) : 0 < ∑ k, (err k * pull x n β k) ^ 2 := by
  refine lt_of_le_of_ne (Finset.sum_nonneg fun k _ => sq_nonneg _) fun h => hE ?_
  have h0 : ∀ k, pull x n β k = 0 := by
    intro k
    have := (Finset.sum_eq_zero_iff_of_nonneg fun k _ => sq_nonneg _).1 h.symm k (Finset.mem_univ k)
    exact (mul_eq_zero.mp (pow_eq_zero_iff two_ne_zero |>.1 this)).resolve_left (he k)
  rw [energy_sum (by omega) hx (B := basis x n) (B1 := basis1 x n) (fun j hj => basis_natural hn hx hj)]
  refine Finset.sum_eq_zero fun i _ => ?_
  have := pull_spec hn hx β i
  rw [show Omega x n (fun k j => basis2 x n j (x k)) = omegaOf x n from rfl, ← this, Finset.sum_eq_zero (fun k _ => by rw [h0 k, mul_zero]), mul_zero]

theorem misfit_pull (he : ∀ k, err k ≠ 0) (β : Fin n → ℝ) (hy : ∀ k, y k = combine (basis x n) β (x k) + err k ^ 2 * pull x n β k) :
    misfit x err y (combine (basis x n) β) = ∑ k, (err k * pull x n β k) ^ 2 := by
  unfold misfit
  refine Finset.sum_congr rfl fun k _ => ?_
  rw [hy k]
  have := he k
  field_simp
  ring

/-- less weight on the data: they are fitted less well -/
theorem misfit_mono (hn : 2 ≤ n) (hx : Inc x n) {B B1 B2 : ℕ → ℝ → ℝ} (hB : ∀ j < n, NatSpline x n (B j) (B1 j) (B2 j)) (he : ∀ k, err k ≠ 0) {p q : ℝ} (hp : 0 < p) (hpq : p < q) (hq : q < 1)
    {β γ : Fin n → ℝ} (hβ : best (valueMat x n B) (Omega x n (fun k j => B2 j (x k))) err y p = some β) (hγ : best (valueMat x n B) (Omega x n (fun k j => B2 j (x k))) err y q = some γ) :
    misfit x err y (combine B γ) ≤ misfit x err y (combine B β) := by
  have hb := combine_nat B B1 B2 hB β
  have hc := combine_nat B B1 B2 hB γ
  have h1 := penalty_eq hn hx hB he hβ hc.toC2
  have h2 := penalty_eq hn hx hB he hγ hb.toC2
  have hS1 : 0 ≤ ∑ k : Fin n, ((combine B γ (x k) - combine B β (x k)) / err k) ^ 2 := Finset.sum_nonneg fun i _ => sq_nonneg _
  have hS2 : 0 ≤ ∑ k : Fin n, ((combine B β (x k) - combine B γ (x k)) / err k) ^ 2 := Finset.sum_nonneg fun i _ => sq_nonneg _
  have hE1 := energy_nonneg hn hx (fun u => combine B2 γ u - combine B2 β u)
  have hE2 := energy_nonneg hn hx (fun u => combine B2 β u - combine B2 γ u)
  generalize misfit x err y (combine B γ) = Mγ at *
  generalize misfit x err y (combine B β) = Mβ at *
  generalize energy x n (combine B2 γ) = Eγ at *
  generalize energy x n (combine B2 β) = Eβ at *
  have k1 : p * Mβ + (1 - p) * Eβ ≤ p * Mγ + (1 - p) * Eγ := by
    have := mul_nonneg hp.le hS1
    have := mul_nonneg (show (0 : ℝ) ≤ 1 - p by linarith) hE1
    linarith
  have k2 : q * Mγ + (1 - q) * Eγ ≤ q * Mβ + (1 - q) * Eβ := by
    have := mul_nonneg (show (0 : ℝ) ≤ q by linarith) hS2
    have := mul_nonneg (show (0 : ℝ) ≤ 1 - q by linarith) hE2
    linarith
  have k3 := mul_le_mul_of_nonneg_left k1 (show (0 : ℝ) ≤ 1 - q by linarith)
  have k4 := mul_le_mul_of_nonneg_left k2 (show (0 : ℝ) ≤ 1 - p by linarith)
  have k5 : (q - p) * (Mγ - Mβ) ≤ 0 := by nlinarith
  by_contra hcon
  have := mul_pos (show 0 < q - p by linarith) (show 0 < Mγ - Mβ by linarith [not_le.mp hcon])
  linarith
end

theorem expand_smul (β : Fin n → ℝ) (l : ℝ) (i : ℕ) : expand x n (l • β) i = l * expand x n β i := by
  have h : ∀ i, entry (l • β) i = l * entry β i := fun i => by
    unfold entry
    split <;> simp
  unfold expand
  simp only [h]
  split
  · ring
  · split
    · ring
    · rfl

/-- C103: every natural spline with some curvature is, up to a factor, the result for some data, with any errors and any target. -/
theorem any_curve {solver : (ℝ → ℝ) → ℝ → ℝ → Except Exc ℝ} (hs : Brent solver) (hn : 4 ≤ n) (hx : Inc x n) (he : ∀ k, err k ≠ 0) {β : Fin n → ℝ}
    (hE : energy (scaled x n) n (combine (basis2 (scaled x n) n) β) ≠ 0) {target : ℝ} (ht : 0 < target) :
    ∃ (y : Fin n → ℝ) (l : ℝ) (c : ℕ → ℝ), 0 < l ∧ target ≤ misfit x err y (ideal x n (stiff x n err y) 0) ∧ fit solver x n err y target = .ok c ∧
      ∀ i < n + 2, c i = l * expand (scaled x n) n β i := by
  have hxs := scaled_inc (x := x) (by omega) hx
  have hB : ∀ j < n, NatSpline (scaled x n) n (basis (scaled x n) n j) (basis1 (scaled x n) n j) (basis2 (scaled x n) n j) := fun j hj => basis_natural hn hxs hj
  have hT := pull_ne hn hxs he hE
  set T := ∑ k, (err k * pull (scaled x n) n β k) ^ 2 with hTdef
  set l := Real.sqrt (target / T) with hl
  have hl0 : 0 < l := Real.sqrt_pos.mpr (div_pos ht hT)
  have hl2 : l ^ 2 * T = target := by
    rw [hl, Real.sq_sqrt (div_pos ht hT).le]
    exact div_mul_cancel₀ _ hT.ne'
  set γ : Fin n → ℝ := l • β with hγ
  have hpull : ∀ k, pull (scaled x n) n γ k = l * pull (scaled x n) n β k := by
    intro k
    unfold pull
    rw [hγ, Matrix.mulVec_smul, Matrix.mulVec_smul]
    rfl
  set y : Fin n → ℝ := fun k => combine (basis (scaled x n) n) γ (scaled x n k) + err k ^ 2 * pull (scaled x n) n γ k with hy
  have hmis : misfit (scaled x n) err y (combine (basis (scaled x n) n) γ) = target := by
    rw [misfit_pull he γ (fun k => rfl), ← hl2, Finset.mul_sum]
    exact Finset.sum_congr rfl fun k _ => by rw [hpull]; ring
  have hbest := best_of_data (y := y) hn hxs he γ (fun k => rfl)
  have hp0 : (0 : ℝ) < 1 / 10 ^ 20 := by positivity
  have hstiff : target ≤ misfit x err y (ideal x n (stiff x n err y) 0) := by
    unfold stiff
    rw [ideal_misfit hn hx, ← hmis]
    exact misfit_mono (by omega) hxs hB he hp0 (by norm_num) (by norm_num) (best_params (by omega) hxs hB he (basis_det hn hxs) hp0 (by norm_num)) hbest
  refine ⟨y, l, ?_⟩
  have hres := smooth_result (y := y) hs (by omega) hxs hB he (basis_det hn hxs) ht rfl rfl
  rw [show Omega (scaled x n) n (fun k j => basis2 (scaled x n) n j (scaled x n k)) = omegaOf (scaled x n) n from rfl, ← ideal_misfit hn hx] at hres
  obtain ⟨δ, hok, hδ, hmin⟩ := hres.1 hstiff
  refine ⟨expand (scaled x n) n δ, hl0, hstiff, fit_of_smooth hok, ?_⟩
  have hCγ := combine_nat _ _ _ hB γ
  have hCδ := combine_nat _ _ _ hB δ
  have h1 := hmin _ _ _ hCγ.toC2 hmis.le
  have h2 := smoothest (by omega) hxs hB he (by norm_num) (by norm_num) hbest hCδ.toC2 (by rw [hδ, hmis])
  have heq := h1.2 h2.1
  have hz := raw_indep hxs (fun i => expand (scaled x n) n δ i - expand (scaled x n) n γ i) (fun u hu1 hu2 => by
    simp only [sub_mul, Finset.sum_sub_distrib]
    have e1 := congrFun (expand_curve (x := scaled x n) hn δ).1 u
    have e2 := congrFun (expand_curve (x := scaled x n) hn γ).1 u
    unfold curve at e1 e2
    rw [e1, e2, heq u hu1 hu2, sub_self]) (by omega)
  intro i hi
  rw [sub_eq_zero.mp (hz i hi), hγ, expand_smul]

/-! ### Values at the ends -/

theorem low_val (hn : 2 ≤ n) (hx : Inc x n) (k j : ℕ) (hk : k ≤ 3) : bpoly (pad x n) 3 k j (x 0) = if j + k = 3 then 1 else 0 := by
  have h3 : ∀ i ≤ 3, pad x n i = x 0 := fun i hi => by unfold pad; rw [show min (i - 3) (n - 1) = 0 from by omega]
  have h4 : pad x n 4 = x 1 := pad_knot (k := 1) (by omega)
  have h01 := hx 0 1 (by omega) (by omega)
  have hne : x 1 - x 0 ≠ 0 := by linarith
  induction k generalizing j with
  | zero => rfl
  | succ k ih =>
    unfold bpoly
    rw [ih j (by omega), ih (j + 1) (by omega)]
    by_cases e : j + k = 3
    · rw [if_pos e, if_neg (by omega), if_neg (by omega), h3 j (by omega)]
      simp
    · by_cases e2 : j + 1 + k = 3
      · rw [if_neg e, if_pos e2, if_pos (by omega), show j + k + 2 = 4 from by omega, h4, h3 (j + 1) (by omega), div_self hne]
        ring
      · rw [if_neg e, if_neg e2, if_neg (by omega)]
        ring

theorem high_val (hn : 2 ≤ n) (hx : Inc x n) (k j : ℕ) : bpoly (pad x n) (n + 1) k j (x (n - 1)) = if j = n + 1 then 1 else 0 := by
  have h3 : ∀ i ≥ n + 2, pad x n i = x (n - 1) := fun i hi => by unfold pad; rw [show min (i - 3) (n - 1) = n - 1 from by omega]
  have h4 : pad x n (n + 1) = x (n - 2) := by unfold pad; rw [show min (n + 1 - 3) (n - 1) = n - 2 from by omega]
  have h01 := hx (n - 2) (n - 1) (by omega) (by omega)
  have hne : x (n - 1) - x (n - 2) ≠ 0 := by linarith
  induction k generalizing j with
  | zero => rfl
  | succ k ih =>
    unfold bpoly
    rw [ih j, ih (j + 1)]
    by_cases e : j = n + 1
    · subst e
      rw [if_pos rfl, if_neg (by omega), h3 (n + 1 + k + 1) (by omega), h4, div_self hne]
      ring
    · by_cases e2 : j + 1 = n + 1
      · rw [if_neg e, if_pos e2, h3 (j + k + 2) (by omega)]
        simp
      · rw [if_neg e, if_neg e2]
        ring

theorem raw_ends (hn : 2 ≤ n) (hx : Inc x n) (j : ℕ) : raw x n j (x 0) = (if j = 0 then 1 else 0) ∧ raw x n j (x (n - 1)) = if j = n + 1 then 1 else 0 := by
  unfold raw
  rw [span_low hn hx, span_high hn hx, low_val hn hx 3 j le_rfl, high_val hn hx]
  simp

theorem curve_low (hn : 2 ≤ n) (hx : Inc x n) (c : ℕ → ℝ) : curve x n c (x 0) = c 0 := by
  unfold curve
  simp only [(raw_ends hn hx _).1, mul_ite, mul_one, mul_zero]
  rw [Finset.sum_ite_eq', if_pos (Finset.mem_range.mpr (by omega))]

theorem curve_high (hn : 2 ≤ n) (hx : Inc x n) (c : ℕ → ℝ) : curve x n c (x (n - 1)) = c (n + 1) := by
  unfold curve
  simp only [(raw_ends hn hx _).2, mul_ite, mul_one, mul_zero]
  rw [Finset.sum_ite_eq', if_pos (Finset.mem_range.mpr (by omega))]

theorem curve1_low (hn : 2 ≤ n) (hx : Inc x n) (c : ℕ → ℝ) : curve1 x n c (x 0) = 3 * (c 1 - c 0) / (x 1 - x 0) := by
  have h3 : ∀ i ≤ 3, pad x n i = x 0 := fun i hi => by unfold pad; rw [show min (i - 3) (n - 1) = 0 from by omega]
  have h4 : pad x n 4 = x 1 := pad_knot (k := 1) (by omega)
  have e : ∀ j, raw1 x n j (x 0) = (if j = 1 then 3 / (x 1 - x 0) else 0) + (if j = 0 then -3 / (x 1 - x 0) else 0) := by
    intro j
    unfold raw1 bpoly1
    rw [span_low hn hx, low_val hn hx 2 j (by omega), low_val hn hx 2 (j + 1) (by omega)]
    rcases (show j = 0 ∨ j = 1 ∨ 2 ≤ j by omega) with rfl | rfl | h
    · simp [h3 1, h4]; ring
    · simp [h3 1, h4]; ring
    · rw [if_neg (by omega), if_neg (by omega), if_neg (by omega), if_neg (by omega)]; ring
  unfold curve1
  simp only [e, mul_add, Finset.sum_add_distrib, mul_ite, mul_zero]
  rw [Finset.sum_ite_eq', Finset.sum_ite_eq', if_pos (Finset.mem_range.mpr (by omega)), if_pos (Finset.mem_range.mpr (by omega))]
  ring

theorem curve1_high (hn : 2 ≤ n) (hx : Inc x n) (c : ℕ → ℝ) : curve1 x n c (x (n - 1)) = 3 * (c (n + 1) - c n) / (x (n - 1) - x (n - 2)) := by
  have h3 : ∀ i ≥ n + 2, pad x n i = x (n - 1) := fun i hi => by unfold pad; rw [show min (i - 3) (n - 1) = n - 1 from by omega]
  have h4 : pad x n (n + 1) = x (n - 2) := by unfold pad; rw [show min (n + 1 - 3) (n - 1) = n - 2 from by omega]
  have e : ∀ j, raw1 x n j (x (n - 1)) = (if j = n + 1 then 3 / (x (n - 1) - x (n - 2)) else 0) + (if j = n then -3 / (x (n - 1) - x (n - 2)) else 0) := by
    intro j
    unfold raw1 bpoly1
    rw [span_high hn hx, high_val hn hx, high_val hn hx]
    rcases (show j = n ∨ j = n + 1 ∨ (j ≠ n ∧ j ≠ n + 1) by omega) with rfl | rfl | ⟨h, h'⟩
    · rw [if_neg (by omega), if_pos rfl, if_neg (by omega), if_pos rfl, h3 (j + 4) (by omega), h4]; ring
    · rw [if_pos rfl, if_neg (by omega), if_pos rfl, if_neg (by omega), h3 (n + 1 + 3) (by omega), h4]; ring
    · rw [if_neg h', if_neg (by omega), if_neg h', if_neg h]; ring
  unfold curve1
  simp only [e, mul_add, Finset.sum_add_distrib, mul_ite, mul_zero]
  rw [Finset.sum_ite_eq', Finset.sum_ite_eq', if_pos (Finset.mem_range.mpr (by omega)), if_pos (Finset.mem_range.mpr (by omega))]
  ring

/-- the two corrections at either end add up to 1 -/
theorem coef_sum (hn : 3 ≤ n) (hx : Inc x n) : coefB x n 0 + coefB x n 1 = 1 ∧ coefE x n 0 + coefE x n 1 = 1 ∧ coefE x n 1 < 0 := by
  obtain ⟨l1, l2⟩ := raw2_low (by omega) hx
  obtain ⟨h1, h2, h3⟩ := raw2_high (by omega) hx
  have h01 := hx 0 1 (by omega) (by omega)
  have hN1 := hx (n - 2) (n - 1) (by omega) (by omega)
  have hN2 := hx (n - 3) (n - 1) (by omega) (by omega)
  have hl0 : raw2 x n 0 (x 0) ≠ 0 := by rw [l2]; exact div_ne_zero (by norm_num) (pow_ne_zero 2 (by linarith))
  have hp : 0 < raw2 x n (n + 1) (x (n - 1)) := by rw [h2]; exact div_pos (by norm_num) (pow_pos (by linarith) 2)
  have s1 : raw2 x n 0 (x 0) + raw2 x n 1 (x 0) + raw2 x n 2 (x 0) = 0 := by
    unfold raw2 bpoly2
    rw [span_low (by omega) hx]
    simp only [hat_low (by omega) hx]
    norm_num
    ring
  have s2 : raw2 x n (n + 1) (x (n - 1)) + raw2 x n n (x (n - 1)) + raw2 x n (n - 1) (x (n - 1)) = 0 := by
    unfold raw2 bpoly2
    rw [span_high (by omega) hx]
    simp only [hat_high (by omega) hx]
    rw [show n - 1 + 2 = n + 1 from by omega, show n - 1 + 1 = n from by omega, show n - 1 + 4 = n + 3 from by omega, show n - 1 + 3 = n + 2 from by omega]
    have e1 : ¬ n - 1 = n + 1 := by omega
    simp [e1]
    ring_nf
  refine ⟨?_, ?_, ?_⟩
  · unfold coefB
    rw [← add_div, div_eq_one_iff_eq hl0]
    linarith
  · unfold coefE
    rw [Nat.sub_zero, ← add_div, div_eq_one_iff_eq hp.ne']
    linarith
  · unfold coefE
    rw [h3 hn]
    refine div_neg_of_neg_of_pos (neg_lt_zero.mpr (div_pos (by norm_num) (mul_pos (by linarith) (by linarith)))) hp

theorem flat_line (hn : 2 ≤ n) (hx : Inc x n) {d d1 d2 : ℝ → ℝ} (hd : C2 d d1 d2) (hE : energy x n d2 = 0) : d (x (n - 1)) = d (x 0) + (x (n - 1) - x 0) * d1 (x 0) := by
  have hlt := ends_le hn hx
  have hD : C2 (fun u => d u - (d (x 0) + (u - x 0) * ((d (x (n - 1)) - d (x 0)) / (x (n - 1) - x 0)))) (fun u => d1 u - (d (x (n - 1)) - d (x 0)) / (x (n - 1) - x 0)) d2 := by
    refine ⟨fun u => ?_, fun u => (hd.d2 u).sub_const _, hd.cont⟩
    simpa using (hd.d1 u).fun_sub ((((hasDerivAt_id u).sub_const (x 0)).mul_const ((d (x (n - 1)) - d (x 0)) / (x (n - 1) - x 0))).const_add (d (x 0)))
  have hne : x (n - 1) - x 0 ≠ 0 := by linarith
  have hz := flat_zero hn hx hD hE (by simp) (by field_simp; ring)
  have h1 : HasDerivWithinAt (fun u => d u - (d (x 0) + (u - x 0) * ((d (x (n - 1)) - d (x 0)) / (x (n - 1) - x 0)))) (d1 (x 0) - (d (x (n - 1)) - d (x 0)) / (x (n - 1) - x 0)) (Set.Icc (x 0) (x (n - 1))) (x 0) :=
    (hD.d1 (x 0)).hasDerivWithinAt
  have h2 : HasDerivWithinAt (fun u => d u - (d (x 0) + (u - x 0) * ((d (x (n - 1)) - d (x 0)) / (x (n - 1) - x 0)))) 0 (Set.Icc (x 0) (x (n - 1))) (x 0) :=
    (hasDerivWithinAt_const (x 0) _ (0 : ℝ)).congr (fun u hu => hz u hu.1 hu.2) (hz _ le_rfl hlt.le)
  have := UniqueDiffWithinAt.eq_deriv _ (uniqueDiffOn_Icc hlt _ (Set.left_mem_Icc.mpr hlt.le)) h1 h2
  have h3 : d1 (x 0) = (d (x (n - 1)) - d (x 0)) / (x (n - 1) - x 0) := by linarith
  rw [h3]
  field_simp
  ring

/-! ### Disagreements -/

theorem curve_congr {c d : ℕ → ℝ} (h : ∀ i < n + 2, c i = d i) : curve x n c = curve x n d ∧ curve1 x n c = curve1 x n d ∧ curve2 x n c = curve2 x n d :=
  ⟨funext fun u => Finset.sum_congr rfl fun i hi => by rw [h i (Finset.mem_range.mp hi)], funext fun u => Finset.sum_congr rfl fun i hi => by rw [h i (Finset.mem_range.mp hi)],
    funext fun u => Finset.sum_congr rfl fun i hi => by rw [h i (Finset.mem_range.mp hi)]⟩

/-- Disagreement (C103): some data give a curve that is horizontal at the first point with a value other than 0. Below the first point it is continued as a constant, but `der=1` returns that constant over the scale of x
instead of 0 there. -/
theorem flat_end_fails {solver : (ℝ → ℝ) → ℝ → ℝ → Except Exc ℝ} (hs : Brent solver) (hn : 4 ≤ n) (hx : Inc x n) (he : ∀ k, err k ≠ 0) {target : ℝ} (ht : 0 < target) :
    ∃ (y : Fin n → ℝ) (c : ℕ → ℝ) (v : ℝ), v ≠ 0 ∧ fit solver x n err y target = .ok c ∧ (∀ u < x 0, evalS x n c 0 u = v) ∧ (∀ u < x 0, HasDerivAt (evalS x n c 0) 0 u) ∧
      ∀ u < x 0, evalS x n c 1 u = v / xscale x n ∧ evalS x n c 1 u ≠ 0 := by
  have hxs := scaled_inc (x := x) (by omega) hx
  have hsc := scale_pos (by omega) hx
  let β : Fin n → ℝ := fun j => if (j : ℕ) < 2 then 1 else 0
  have hent : ∀ i < n, entry β i = if i < 2 then 1 else 0 := fun i hi => by unfold entry; rw [dif_pos hi]
  have hc0 : expand (scaled x n) n β 0 = 1 := by
    unfold expand
    rw [if_neg (by omega), if_pos rfl, hent 0 (by omega), hent 1 (by omega)]
    have := (coef_sum (by omega) hxs).1
    simpa using this
  have hc1 : expand (scaled x n) n β 1 = 1 := by
    unfold expand
    rw [if_neg (by omega), if_neg (by omega), hent 0 (by omega)]
    simp
  have hcN : expand (scaled x n) n β (n + 1) = 0 := by
    unfold expand
    rw [if_pos rfl, hent (n - 1) (by omega), hent (n - 2) (by omega), if_neg (by omega), if_neg (by omega)]
    ring
  have hN := expand_nat hn hxs β
  have hE : energy (scaled x n) n (combine (basis2 (scaled x n) n) β) ≠ 0 := by
    intro h0
    rw [← (expand_curve hn β).2.2] at h0
    have := flat_line (by omega) hxs hN.toC2 h0
    rw [curve_low (by omega) hxs, curve_high (by omega) hxs, curve1_low (by omega) hxs, hc0, hc1, hcN] at this
    simp at this
  obtain ⟨y, l, c, hl, hst, hfit, hc⟩ := any_curve hs hn hx he hE ht
  have h0 : curve (scaled x n) n c (scaled x n 0) = l := by rw [curve_low (by omega) hxs, hc 0 (by omega), hc0, mul_one]
  have h1 : curve1 (scaled x n) n c (scaled x n 0) = 0 := by rw [curve1_low (by omega) hxs, hc 0 (by omega), hc 1 (by omega), hc0, hc1]; simp
  have hlo : ∀ u, u < x 0 → u / xscale x n < scaled x n 0 ∧ ¬ scaled x n (n - 1) < u / xscale x n := fun u hu => by
    have h1 : u / xscale x n < scaled x n 0 := div_lt_div_of_pos_right hu hsc
    exact ⟨h1, not_lt.mpr (h1.trans (hxs 0 (n - 1) (by omega) (by omega))).le⟩
  have hval : ∀ u < x 0, evalS x n c 0 u = l := fun u hu => by
    obtain ⟨e1, e2⟩ := hlo u hu
    simp [evalS, e1, e2, line, splev, h0, h1]
  refine ⟨y, c, l, hl.ne', hfit, hval, fun u hu => ?_, fun u hu => ?_⟩
  · refine (hasDerivAt_const u l).congr_of_eventuallyEq ?_
    filter_upwards [Iio_mem_nhds hu] with v hv
    exact hval v hv
  · obtain ⟨e1, e2⟩ := hlo u hu
    have : evalS x n c 1 u = l / xscale x n := by simp [evalS, e1, e2, line, splev, h0, h1, lead]
    exact ⟨this, by rw [this]; exact div_ne_zero hl.ne' hsc.ne'⟩

/-- What `derivative` gives: the derivative in scaled coordinates, at the wrong place and in the wrong unit (for the default maxchisq; any other is forgotten). -/
theorem derivative_scaled {solver : (ℝ → ℝ) → ℝ → ℝ → Except Exc ℝ} (hn : 2 ≤ n) (hx : Inc x n) {c : ℕ → ℝ} (h : fit solver x n err y n = .ok c) (der : Fin 3) (u : ℝ) :
    derivativeCall solver x n err y der u = .ok (xscale x n ^ (der : ℕ) * evalS x n c der (xscale x n * u)) := by
  have hs := (scale_pos hn hx).ne'
  have hf : fit solver (scaled x n) n err y n = .ok c := by
    unfold fit at h ⊢
    rw [scaled_scaled hn hx]
    exact h
  unfold derivativeCall
  rw [hf]
  show Except.ok (evalS (scaled x n) n c der u) = _
  congr 1
  unfold evalS
  rw [scaled_scaled hn hx, scaled_scale hn hx]
  dsimp only
  rw [mul_div_cancel_left₀ _ hs, div_one, one_pow, div_one, mul_div_cancel₀]
  exact pow_ne_zero _ hs

/-- Disagreement (C104): `SmoothingSplineFunction.derivative()`: it fits the already scaled abscissas again, so unless their root mean square is 1 there are data for which, above the last point, the result is the derivative times that scale. -/
theorem derivative_fails {solver : (ℝ → ℝ) → ℝ → ℝ → Except Exc ℝ} (hs : Brent solver) (hn : 4 ≤ n) (hx : Inc x n) (he : ∀ k, err k ≠ 0) (h1 : xscale x n ≠ 1) :
    ∃ (y : Fin n → ℝ) (c : ℕ → ℝ), fit solver x n err y n = .ok c ∧ ∀ u, x (n - 1) < u → scaled x n (n - 1) < u → ∃ d, derivativeCall solver x n err y 1 u = .ok d ∧
      HasDerivAt (evalS x n c 0) (evalS x n c 1 u) u ∧ d = xscale x n * evalS x n c 1 u ∧ d ≠ evalS x n c 1 u := by
  have hxs := scaled_inc (x := x) (by omega) hx
  have hsc := scale_pos (by omega) hx
  let β : Fin n → ℝ := fun j => if (j : ℕ) = n - 1 then 1 else 0
  have hent : ∀ i < n, entry β i = if i = n - 1 then 1 else 0 := fun i hi => by unfold entry; rw [dif_pos hi]
  obtain ⟨-, hE1, hE2⟩ := coef_sum (n := n) (by omega) hxs
  have hc0 : expand (scaled x n) n β 0 = 0 := by
    unfold expand
    rw [if_neg (by omega), if_pos rfl, hent 0 (by omega), hent 1 (by omega), if_neg (by omega), if_neg (by omega)]
    ring
  have hc1 : expand (scaled x n) n β 1 = 0 := by
    unfold expand
    rw [if_neg (by omega), if_neg (by omega), hent 0 (by omega), if_neg (by omega)]
  have hcn : expand (scaled x n) n β n = 1 := by
    unfold expand
    rw [if_neg (by omega), if_neg (by omega), hent (n - 1) (by omega), if_pos rfl]
  have hcN : expand (scaled x n) n β (n + 1) = coefE (scaled x n) n 0 := by
    unfold expand
    rw [if_pos rfl, hent (n - 1) (by omega), hent (n - 2) (by omega), if_pos rfl, if_neg (by omega)]
    ring
  have hN := expand_nat hn hxs β
  have hE : energy (scaled x n) n (combine (basis2 (scaled x n) n) β) ≠ 0 := by
    intro h0
    rw [← (expand_curve hn β).2.2] at h0
    have := flat_line (by omega) hxs hN.toC2 h0
    rw [curve_low (by omega) hxs, curve_high (by omega) hxs, curve1_low (by omega) hxs, hc0, hc1, hcN] at this
    simp at this
    linarith
  obtain ⟨y, l, c, hl, hst, hfit, hc⟩ := any_curve hs hn hx he hE (show (0 : ℝ) < n by exact_mod_cast (show 0 < n by omega))
  have hgap := hxs (n - 2) (n - 1) (by omega) (by omega)
  have hsl : curve1 (scaled x n) n c (scaled x n (n - 1)) ≠ 0 := by
    rw [curve1_high (by omega) hxs, hc n (by omega), hc (n + 1) (by omega), hcn, hcN]
    refine div_ne_zero (mul_ne_zero (by norm_num) ?_) (by linarith)
    rw [← mul_sub]
    exact mul_ne_zero hl.ne' (by linarith)
  have hhi : ∀ u, x (n - 1) < u → scaled x n (n - 1) < u / xscale x n := fun u hu => div_lt_div_of_pos_right hu hsc
  have hv1 : ∀ u, x (n - 1) < u → evalS x n c 1 u = curve1 (scaled x n) n c (scaled x n (n - 1)) / xscale x n := fun u hu => by
    simp [evalS, hhi u hu, line, splev, lead, hsl]
  refine ⟨y, c, hfit, fun u hu hu2 => ⟨_, derivative_scaled (by omega) hx hfit 1 u, ?_, ?_, ?_⟩⟩
  · rw [hv1 u hu]
    have hd : HasDerivAt (fun u => curve1 (scaled x n) n c (scaled x n (n - 1)) * (u / xscale x n - scaled x n (n - 1)) + curve (scaled x n) n c (scaled x n (n - 1)))
        (curve1 (scaled x n) n c (scaled x n (n - 1)) / xscale x n) u := by
      refine (((((hasDerivAt_id u).div_const (xscale x n)).sub_const (scaled x n (n - 1))).const_mul (curve1 (scaled x n) n c (scaled x n (n - 1)))).add_const _).congr_deriv ?_
      ring
    refine hd.congr_of_eventuallyEq ?_
    filter_upwards [Ioi_mem_nhds hu] with w hw
    simp [evalS, hhi w hw, line, splev]
  · have : x (n - 1) < xscale x n * u := by
      have := mul_lt_mul_of_pos_right hu2 hsc
      rwa [scaled_mul (by omega) hx, mul_comm] at this
    rw [hv1 u hu, hv1 _ this]
    simp
  · have : x (n - 1) < xscale x n * u := by
      have := mul_lt_mul_of_pos_right hu2 hsc
      rwa [scaled_mul (by omega) hx, mul_comm] at this
    rw [hv1 u hu, hv1 _ this]
    intro h
    apply h1
    have h2 : curve1 (scaled x n) n c (scaled x n (n - 1)) / xscale x n ≠ 0 := div_ne_zero hsl hsc.ne'
    have h3 : (xscale x n ^ ((1 : Fin 3) : ℕ)) = xscale x n := pow_one _
    rw [h3] at h
    exact mul_right_cancel₀ h2 (by rw [h, one_mul])

/-- Disagreement (C104): with three knots the second basis function is corrected at the first knot only, so it is not natural at the last one; and `expand_coeff` corrects it at both, so the curve with coefficients (0, b, 0) does not take
the value that `values_matrix` (hence chi-squared) says it has at the last knot. -/
theorem three_knots_fails (hx : Inc x 3) {b : ℝ} (hb : b ≠ 0) : basis2 x 3 1 (x 2) ≠ 0 ∧ curve x 3 (expand x 3 ![0, b, 0]) (x 2) ≠ combine (basis x 3) ![0, b, 0] (x 2) := by
  obtain ⟨h1, h2, h3⟩ := raw2_high (by omega) hx
  obtain ⟨-, -, hE⟩ := coef_sum (by omega) hx
  have hN1 := hx 1 2 (by omega) (by omega)
  have hN2 := hx 0 2 (by omega) (by omega)
  constructor
  · show ∑ i ∈ Finset.range (3 + 2), callCoef x 3 1 i * raw2 x 3 i (x 2) ≠ 0
    rw [call_sum _ (by omega)]
    have e1 := h3 (by omega)
    have e2 := h1 0 (by omega)
    norm_num at e1 e2 ⊢
    rw [e1, e2]
    have : 6 / ((x 2 - x 1) * (x 2 - x 0)) ≠ 0 := div_ne_zero (by norm_num) (mul_ne_zero (by linarith) (by linarith))
    simpa using this
  · have e1 : curve x 3 (expand x 3 ![0, b, 0]) (x 2) = b * coefE x 3 1 := by
      have := curve_high (by omega) hx (expand x 3 ![0, b, 0])
      rw [show x 2 = x (3 - 1) from rfl, this]
      simp [expand, entry]
    have e2 : combine (basis x 3) ![0, b, 0] (x 2) = 0 := by
      have hr := fun j => (raw_ends (by omega) hx j).2
      have : basis x 3 1 (x 2) = 0 := by
        show ∑ i ∈ Finset.range (3 + 2), callCoef x 3 1 i * raw x 3 i (x 2) = 0
        rw [call_sum _ (by omega)]
        have r1 := hr 2
        have r2 := hr 0
        norm_num at r1 r2 ⊢
        rw [r1, r2]
        simp
      simp [combine, Fin.sum_univ_three, this]
    rw [e1, e2]
    exact mul_ne_zero hb hE.ne

/-- Disagreement (C104): SmoothingSplineLog with `der=1` returns the exponential of the derivative in logarithmic coordinates, which is positive even where the curve falls. -/
theorem log_derivative_fails {g g1 g2 : ℝ → ℝ} (hg : C2 g g1 g2) {u : ℝ} (hu : 0 < u) :
    HasDerivAt (logCall ![g, g1, g2] 0) (logCall ![g, g1, g2] 0 u * g1 (Real.log u) / u) u ∧ 0 < logCall ![g, g1, g2] 1 u ∧
    (g1 (Real.log u) ≤ 0 → logCall ![g, g1, g2] 1 u ≠ logCall ![g, g1, g2] 0 u * g1 (Real.log u) / u) := by
  have hpos : 0 < logCall ![g, g1, g2] 1 u := Real.exp_pos _
  refine ⟨?_, hpos, fun hle heq => ?_⟩
  · have h := ((hg.d1 (Real.log u)).comp u (Real.hasDerivAt_log hu.ne')).exp
    refine h.congr_deriv ?_
    show Real.exp (g (Real.log u)) * _ = Real.exp (g (Real.log u)) * _ / u
    field_simp
  · rw [heq] at hpos
    have : logCall ![g, g1, g2] 0 u * g1 (Real.log u) / u ≤ 0 := div_nonpos_of_nonpos_of_nonneg (mul_nonpos_of_nonneg_of_nonpos (Real.exp_pos _).le hle) hu.le
    linarith

/-- Disagreement (C104): SmoothingSplineLog divides the caller's array of x errors by x in place. Made again from the same arrays, the spline has other errors. -/
theorem log_dx_fails {m : ℕ} {x y dy dx : Fin m → ℝ} (hx : ∀ k, 0 < x k) (hy : ∀ k, 0 < y k) :
    ∃ a b dx' dx'', logInit m x y dy (some dx) = .ok (a, some dx') ∧ a.2.2.2 = some (fun k => dx k / x k) ∧ logInit m x y dy (some dx') = .ok (b, some dx'') ∧
      b.2.2.2 = some (fun k => dx k / x k ^ 2) ∧ ((∃ k, dx k ≠ 0 ∧ x k ≠ 1) → a.2.2.2 ≠ b.2.2.2) := by
  have hc : ¬ ((∃ k, x k ≤ 0) ∨ ∃ k, y k ≤ 0) := by
    rintro (⟨k, h⟩ | ⟨k, h⟩)
    · exact absurd (hx k) (not_lt.mpr h)
    · exact absurd (hy k) (not_lt.mpr h)
  have e : (fun k => dx k / x k / x k) = fun k => dx k / x k ^ 2 := by
    funext k
    rw [div_div, sq]
  refine ⟨(fun k => Real.log (x k), fun k => Real.log (y k), fun k => dy k / y k, some fun k => dx k / x k),
    (fun k => Real.log (x k), fun k => Real.log (y k), fun k => dy k / y k, some fun k => dx k / x k / x k), fun k => dx k / x k, fun k => dx k / x k / x k, ?_, ?_, ?_, ?_, ?_⟩
  · unfold logInit; rw [if_neg hc]; rfl
  · rfl
  · unfold logInit; rw [if_neg hc]; rfl
  · exact congrArg some e
  · rintro ⟨k, h1, h2⟩ h
    have := congrFun (Option.some.inj h) k
    have hk := (hx k).ne'
    field_simp at this
    exact h2 this

/-- a root finder as assumed exists -/
theorem brent_exists : ∃ solver, Brent solver := by
  classical
  refine ⟨fun f a b => if 0 < f a * f b then .error .value else if h : ∃ r, a ≤ r ∧ r ≤ b ∧ f r = 0 then .ok h.choose else .error .value, fun f a b h => if_pos h, fun f a b hab h hc => ?_⟩
  have hex : ∃ r, a ≤ r ∧ r ≤ b ∧ f r = 0 := by
    rcases le_total (f a) 0 with h1 | h1
    · rcases le_total 0 (f b) with h2 | h2
      · obtain ⟨r, hr, h0⟩ := intermediate_value_Icc hab hc (Set.mem_Icc.mpr ⟨h1, h2⟩)
        exact ⟨r, hr.1, hr.2, h0⟩
      · have : f a * f b = 0 := le_antisymm h (mul_nonneg_of_nonpos_of_nonpos h1 h2)
        rcases mul_eq_zero.mp this with h | h
        · exact ⟨a, le_rfl, hab, h⟩
        · exact ⟨b, hab, le_rfl, h⟩
    · rcases le_total (f b) 0 with h2 | h2
      · obtain ⟨r, hr, h0⟩ := intermediate_value_Icc' hab hc (Set.mem_Icc.mpr ⟨h2, h1⟩)
        exact ⟨r, hr.1, hr.2, h0⟩
      · have : f a * f b = 0 := le_antisymm h (mul_nonneg h1 h2)
        rcases mul_eq_zero.mp this with h | h
        · exact ⟨a, le_rfl, hab, h⟩
        · exact ⟨b, hab, le_rfl, h⟩
  refine ⟨hex.choose, ?_, hex.choose_spec⟩
  rw [if_neg (not_lt.mpr h), dif_pos hex]

/-- Knots 0, 1, 2, 3 and unit errors: there are data whose spline, with chi-squared 4, is constant below 0; and straight data (0, 1, 2, 3) that give ValueError. -/
example : ∃ solver, Brent solver ∧
    (∃ (y : Fin 4 → ℝ) (c : ℕ → ℝ), fit solver (fun k => k) 4 (fun _ => 1) y 4 = .ok c ∧ misfit (fun k => k) (fun _ => 1) y (evalS (fun k => k) 4 c 0) = 4 ∧ evalS (fun k => k) 4 c 1 (-1) ≠ 0) ∧
    fit solver (fun k => k) 4 (fun _ => 1) (fun k : Fin 4 => (k : ℝ)) 4 = .error .value := by
  obtain ⟨solver, hs⟩ := brent_exists
  have hx : Inc (fun k : ℕ => (k : ℝ)) 4 := fun i j h _ => Nat.cast_lt.mpr h
  refine ⟨solver, hs, ?_, ?_⟩
  · obtain ⟨y, c, v, hv, hf, -, -, h1⟩ := flat_end_fails (err := fun _ => 1) hs le_rfl hx (fun _ => one_ne_zero) (target := 4) (by norm_num)
    refine ⟨y, c, hf, ?_, (h1 (-1) (by norm_num)).2⟩
    have hr := spline_result (y := y) (err := fun _ => 1) hs le_rfl hx (fun _ => one_ne_zero) (target := 4) (by norm_num)
    rcases lt_or_ge (misfit (fun k : ℕ => (k : ℝ)) (fun _ => 1) y (ideal (fun k : ℕ => (k : ℝ)) 4 (stiff (fun k : ℕ => (k : ℝ)) 4 (fun _ => 1) y) 0)) 4 with h | h
    · rw [hr.2 h] at hf; cases hf
    · obtain ⟨c', hf', -, hm, -⟩ := hr.1 h
      rw [hf'] at hf
      cases hf
      exact hm
  · refine straight_data_fails (a := 0) (b := 1) hs le_rfl hx (fun _ => one_ne_zero) ?_
    simp [misfit]

/-- The raw B-splines on 0, 1, 2, 3: the first one has the second derivative 6 at 0, and basis function 0 has none at either end. -/
example : raw2 (fun k : ℕ => (k : ℝ)) 4 0 0 = 6 ∧ basis2 (fun k : ℕ => (k : ℝ)) 4 0 0 = 0 ∧ basis2 (fun k : ℕ => (k : ℝ)) 4 0 3 = 0 := by
  have hx : Inc (fun k : ℕ => (k : ℝ)) 4 := fun i j h _ => Nat.cast_lt.mpr h
  have h1 := (raw2_low (by omega) hx).2
  have h2 := basis_natural (x := fun k : ℕ => (k : ℝ)) (j := 0) le_rfl hx (by omega)
  have h3 := h2.low
  have h4 := h2.high
  norm_num at h1 h3 h4
  exact ⟨h1, h3, h4⟩
end

end Mass.Calc.SSpline
