import Verif.Calc.Curve
import Mathlib.Analysis.SpecialFunctions.Log.Deriv
import Mathlib.Analysis.SpecialFunctions.ExpDeriv
import Mathlib.Analysis.Calculus.Deriv.Inv
import Mathlib.Tactic.FieldSimp
import Mathlib.Tactic.Positivity
import Mathlib.Tactic.IntervalCases
/-! C98: errors of the points and uncertainty of the calibration (approximating curves, mass/calibration/energy_calibration.py L454-531). Over the reals. -/
namespace Mass.Calc.Cal
open Mass

/-- What the approximating spline is fitted to for one point with pulse height `p`, energy `e` and errors `dp`, `de`: (abscissa, ordinate, ordinate's error,
abscissa's error if given). energy_calibration.py L476 (0, loglog), L486 (1 and 2, linear), L491-494 (3, gain), L507-511 (4, invgain), L516-520 (5, loggain).
`m` is the slope of a straight line fitted to the ordinates (np.polyfit). -/
noncomputable def fitPoint (curve : Nat) (m p e dp de : ℝ) : ℝ × ℝ × ℝ × Option ℝ :=
  if curve = 0 then (Real.log p, Real.log e, de / e, some (dp / p))
  else if curve = 1 ∨ curve = 2 then (p, e, de, some dp)
  else if curve = 3 then (p, p / e, p / e * √(((m * p / (p / e) - 1) * dp / p) ^ 2 + (de / e) ^ 2), none)
  else if curve = 4 then (p, e / p, e / p * √(((1 + m * p / (e / p)) * dp / p) ^ 2 + (de / e) ^ 2), none)
  else (p, Real.log (p / e), √(((m * p - 1) * dp / p) ^ 2 + (de / e) ^ 2), none)

/-- the curve pulse height -> energy made from the spline `S`, energy_calibration.py L477, L487, L496, L512, L521 (the clipping of the logarithm below 1e-6 left out) -/
noncomputable def approxCurve (curve : Nat) (S : ℝ → ℝ) (p : ℝ) : ℝ :=
  if curve = 0 then Real.exp (S (Real.log p))
  else if curve = 1 ∨ curve = 2 then S p
  else if curve = 3 then p / S p
  else if curve = 4 then p * S p
  else p * Real.exp (-S p)

/-- `cal_uncert` at pulse height `p` for spline `S` with variance `V` and derivative `S'`, energy_calibration.py L478, L488, L497-499, L513, L522-524 -/
noncomputable def calUncert (curve : Nat) (S S' V : ℝ → ℝ) (p : ℝ) : ℝ :=
  if curve = 0 then S p * √(V (Real.log p))
  else if curve = 1 ∨ curve = 2 then √(V p)
  else if curve = 3 then √(V p) * (p / S p) / S p
  else if curve = 4 then √(V p) * p
  else √(V p) * approxCurve curve S p * |S' p|

/-- `_uncertainty`, energy_calibration.py L526-530: a spline through `cal_uncert` on the grid of pulse heights, or zero everywhere -/
noncomputable def uncertaintyFn (gpr : Bool) (curve : Nat) (S S' V : ℝ → ℝ) (phs : List ℝ) : Except Exc (ℝ → ℝ) :=
  if gpr then splineFn ((grid phs).map (fun p => (p, calUncert curve S S' V p))) else .ok (fun _ => 0)

/-- where the spline is evaluated for pulse height `p` [specification] -/
noncomputable def abscissa (curve : Nat) (p : ℝ) : ℝ := if curve = 0 then Real.log p else p

/-- the ordinate of a point [specification] -/
noncomputable def ordinate (curve : Nat) (p e : ℝ) : ℝ :=
  if curve = 0 then Real.log e else if curve = 1 ∨ curve = 2 then e else if curve = 3 then p / e else if curve = 4 then e / p else Real.log (p / e)

theorem fst_nodup {l : List ℝ} {f : ℝ → ℝ} (h : l.Pairwise (· < ·)) : ((l.map (fun p => (p, f p))).map Prod.fst).Nodup := by
  rw [List.map_map]
  exact (List.map_id l).symm ▸ (h.imp (fun h => ne_of_lt h) : l.Nodup)

/-- C98. A point that lies on the spline lies on the calibration curve. -/
theorem on_curve (curve : Nat) (hc : curve < 6) (S : ℝ → ℝ) (m p e dp de : ℝ) (hp : 0 < p) (he : 0 < e) (hS : S (fitPoint curve m p e dp de).1 = (fitPoint curve m p e dp de).2.1) :
    approxCurve curve S p = e := by
  unfold fitPoint at hS
  unfold approxCurve
  interval_cases curve
  · norm_num at hS ⊢
    rw [hS, Real.exp_log he]
  · norm_num at hS ⊢
    exact hS
  · norm_num at hS ⊢
    exact hS
  · norm_num at hS ⊢
    rw [hS]
    field_simp
  · norm_num at hS ⊢
    rw [hS]
    field_simp
  · norm_num at hS ⊢
    rw [hS, Real.exp_neg, Real.exp_log (by positivity)]
    field_simp

/-- C98. The error given to the spline is the first-order error of the point's deviation from a curve of slope `m` through it: `a` and `b` are the derivatives of that
deviation with respect to pulse height and energy. (In the cases loglog and linear, both errors are handed over, as the first-order errors of abscissa and ordinate.) -/
theorem point_error (curve : Nat) (hc : curve < 6) (m p e dp de : ℝ) (hp : 0 < p) (he : 0 < e) (hde : 0 ≤ de) (hdp : 0 ≤ dp) :
    (curve < 3 → ∃ a b, HasDerivAt (fun t => abscissa curve (p + t)) a 0 ∧ HasDerivAt (fun t => ordinate curve p (e + t)) b 0 ∧
      (fitPoint curve m p e dp de).2.2 = (|b| * de, some (|a| * dp))) ∧
    (3 ≤ curve → ∃ a b, HasDerivAt (fun t => ordinate curve (p + t) e - (ordinate curve p e + m * t)) a 0 ∧ HasDerivAt (fun t => ordinate curve p (e + t)) b 0 ∧
      (fitPoint curve m p e dp de).2.2 = (√((a * dp) ^ 2 + (b * de) ^ 2), none)) := by
  have hpt : HasDerivAt (fun t : ℝ => p + t) 1 0 := by simpa using (hasDerivAt_id (0 : ℝ)).const_add p
  have het : HasDerivAt (fun t : ℝ => e + t) 1 0 := by simpa using (hasDerivAt_id (0 : ℝ)).const_add e
  have hmt : ∀ c : ℝ, HasDerivAt (fun t : ℝ => c + m * t) m 0 := fun c => by simpa using ((hasDerivAt_id (0 : ℝ)).const_mul m).const_add c
  constructor
  · intro h3
    unfold fitPoint abscissa ordinate
    interval_cases curve
    · refine ⟨1 / p, 1 / e, ?_, ?_, ?_⟩
      · simpa using hpt.log (by simpa using hp.ne')
      · simpa using het.log (by simpa using he.ne')
      · simp only [if_true, Prod.mk.injEq, Option.some.injEq, abs_of_pos (one_div_pos.2 hp), abs_of_pos (one_div_pos.2 he)]
        constructor <;> ring
    · exact ⟨1, 1, by simpa using hpt, by simpa using het, by simp⟩
    · exact ⟨1, 1, by simpa using hpt, by simpa using het, by simp⟩
  · intro h3
    unfold fitPoint ordinate
    interval_cases curve
    · refine ⟨1 / e - m, -p / e ^ 2, ?_, ?_, ?_⟩
      · simpa using (hpt.div_const e).fun_sub (hmt (p / e))
      · have := (hasDerivAt_const (0 : ℝ) p).fun_div het (by simpa using he.ne')
        simpa using this
      · norm_num
        rw [← Real.sqrt_sq (show 0 ≤ p / e by positivity), ← Real.sqrt_mul (sq_nonneg _), Real.sqrt_sq (show 0 ≤ p / e by positivity)]
        congr 1
        field_simp
        ring
    · refine ⟨-e / p ^ 2 - m, 1 / p, ?_, ?_, ?_⟩
      · have := ((hasDerivAt_const (0 : ℝ) e).fun_div hpt (by simpa using hp.ne')).fun_sub (hmt (e / p))
        simpa using this
      · simpa using het.div_const p
      · norm_num
        rw [← Real.sqrt_sq (show 0 ≤ e / p by positivity), ← Real.sqrt_mul (sq_nonneg _), Real.sqrt_sq (show 0 ≤ e / p by positivity)]
        congr 1
        field_simp
        ring
    · refine ⟨1 / p - m, -1 / e, ?_, ?_, ?_⟩
      · have := ((hpt.div_const e).log (by simpa using ⟨hp.ne', he.ne'⟩)).fun_sub (hmt (Real.log (p / e)))
        refine this.congr_deriv ?_
        rw [add_zero]
        field_simp
        try ring
      · have := ((hasDerivAt_const (0 : ℝ) p).fun_div het (by simpa using he.ne')).log (by simpa using ⟨hp.ne', he.ne'⟩)
        refine this.congr_deriv ?_
        rw [add_zero]
        field_simp
        try ring
      · norm_num
        congr 1
        field_simp
        ring

/-- C98. For linear, linear+0, gain and invgain curves: the uncertainty at every calibration point is the standard deviation of the spline there times the absolute
derivative of the energy with respect to the spline's value. -/
theorem uncertainty_partial (curve : Nat) (hc : 1 ≤ curve ∧ curve < 5) (S S' V : ℝ → ℝ) (phs : List ℝ) (hne : phs ≠ []) (hpos : ∀ p ∈ phs, 0 < p) (hs : phs.Pairwise (· < ·))
    (hS : ∀ p, 0 < p → 0 < S p) :
    ∃ u, uncertaintyFn true curve S S' V phs = .ok u ∧ ∀ p ∈ phs, ∃ d, HasDerivAt (fun t => approxCurve curve (fun x => S x + t) p) d 0 ∧ u p = |d| * √(V (abscissa curve p)) := by
  obtain ⟨h1, h3⟩ := grid_sorted phs hpos hs
  have hl : 2 ≤ ((grid phs).map (fun p => (p, calUncert curve S S' V p))).length := by
    match phs, hne with
    | a :: l, _ => rw [List.length_map]; exact grid_length _ _
  obtain ⟨u, hu⟩ := splineFn_ok _ hl
  refine ⟨u, by unfold uncertaintyFn; rw [if_pos rfl]; exact hu, fun p hp => ?_⟩
  have hup := spline_through hu (fst_nodup h1) (p, calUncert curve S S' V p)
    (List.mem_map.2 ⟨p, mem_grid _ _ hp, rfl⟩)
  dsimp only at hup
  rw [hup]
  have hp0 := hpos p hp
  have hSp := hS p hp0
  have hSt : HasDerivAt (fun t : ℝ => S p + t) 1 0 := by simpa using (hasDerivAt_id (0 : ℝ)).const_add (S p)
  obtain ⟨hc1, hc2⟩ := hc
  unfold approxCurve calUncert abscissa
  interval_cases curve
  · exact ⟨1, by simpa using hSt, by simp⟩
  · exact ⟨1, by simpa using hSt, by simp⟩
  · refine ⟨-p / S p ^ 2, ?_, ?_⟩
    · have := (hasDerivAt_const (0 : ℝ) p).fun_div hSt (by simpa using hSp.ne')
      simpa using this
    · have : |(-p / S p ^ 2)| = p / S p ^ 2 := by rw [neg_div, abs_neg, abs_of_pos (by positivity)]
      norm_num
      rw [this]
      field_simp
  · refine ⟨p, ?_, ?_⟩
    · simpa using hSt.const_mul p
    · norm_num
      rw [abs_of_pos hp0, mul_comm]

/-- C98, refuted for loglog curves: the spline's value is taken at the pulse height instead of its logarithm, and not exponentiated. With E = PH² and unit
variance the uncertainty at PH = 1 comes out as twice what it is. -/
theorem uncertainty_loglog_fails : ∃ u, uncertaintyFn true 0 (fun x => 2 * x) (fun _ => 2) (fun _ => 1) [1] = .ok u ∧ approxCurve 0 (fun x => 2 * x) 1 = 1 ∧
    HasDerivAt (fun t => approxCurve 0 (fun x => 2 * x + t) 1) 1 0 ∧ u 1 = 2 := by
  obtain ⟨h1, h3⟩ := grid_sorted [1] (by simp) (by simp)
  have hl : 2 ≤ ((grid [1]).map (fun p => (p, calUncert 0 (fun x => 2 * x) (fun _ => 2) (fun _ => 1) p))).length := by rw [List.length_map]; exact grid_length _ _
  obtain ⟨u, hu⟩ := splineFn_ok _ hl
  refine ⟨u, by unfold uncertaintyFn; rw [if_pos rfl]; exact hu, by simp [approxCurve], ?_, ?_⟩
  · have : HasDerivAt (fun t : ℝ => Real.exp t) 1 0 := by simpa using Real.hasDerivAt_exp 0
    simpa [approxCurve] using this
  · have hup := spline_through hu (fst_nodup h1) (1, calUncert 0 (fun x => 2 * x) (fun _ => 2) (fun _ => 1) 1)
      (List.mem_map.2 ⟨1, mem_grid _ _ (by simp), rfl⟩)
    dsimp only at hup
    rw [hup]
    simp [calUncert]

/-- C98, refuted for loggain curves: the uncertainty is multiplied with the slope of the spline. If the gain is constant, it is zero however large the variance, though
the energy does depend on the gain. -/
theorem uncertainty_loggain_fails (c v : ℝ) (phs : List ℝ) (hne : phs ≠ []) (hpos : ∀ p ∈ phs, 0 < p) (hs : phs.Pairwise (· < ·)) :
    ∃ u, uncertaintyFn true 5 (fun _ => c) (fun _ => 0) (fun _ => v) phs = .ok u ∧ ∀ p ∈ phs, u p = 0 ∧
      HasDerivAt (fun t => approxCurve 5 (fun _ => c + t) p) (-(p * Real.exp (-c))) 0 ∧ 0 < p * Real.exp (-c) := by
  obtain ⟨h1, h3⟩ := grid_sorted phs hpos hs
  have hl : 2 ≤ ((grid phs).map (fun p => (p, calUncert 5 (fun _ => c) (fun _ => 0) (fun _ => v) p))).length := by
    match phs, hne with
    | a :: l, _ => rw [List.length_map]; exact grid_length _ _
  obtain ⟨u, hu⟩ := splineFn_ok _ hl
  refine ⟨u, by unfold uncertaintyFn; rw [if_pos rfl]; exact hu, fun p hp => ⟨?_, ?_, mul_pos (hpos p hp) (Real.exp_pos _)⟩⟩
  · have hup := spline_through hu (fst_nodup h1) (p, calUncert 5 (fun _ => c) (fun _ => 0) (fun _ => v) p)
      (List.mem_map.2 ⟨p, mem_grid _ _ hp, rfl⟩)
    dsimp only at hup
    rw [hup]
    simp [calUncert]
  · have h1 : HasDerivAt (fun t : ℝ => -(c + t)) (-1) 0 := ((hasDerivAt_id (0 : ℝ)).const_add c).fun_neg
    have := (h1.exp).const_mul p
    unfold approxCurve
    norm_num at this ⊢
    exact this

-- gain: a point at pulse height 100 and energy 1000 with errors 1 and 3, the gain being flat; with the gain falling as much as the pulse height rises
example : (fitPoint 3 0 100 1000 3 40).2.2.1 = 1 / 10 * √((-(3 / 100)) ^ 2 + (4 / 100) ^ 2) ∧ (fitPoint 3 0 100 1000 3 40).2.2.1 = 1 / 200 := by
  have h : √((-(3 / 100 : ℝ)) ^ 2 + (4 / 100) ^ 2) = 5 / 100 := by
    rw [show (-(3 / 100 : ℝ)) ^ 2 + (4 / 100) ^ 2 = (5 / 100) ^ 2 by norm_num, Real.sqrt_sq (by norm_num)]
  have : (fitPoint 3 0 100 1000 3 40).2.2.1 = 1 / 10 * √((-(3 / 100)) ^ 2 + (4 / 100) ^ 2) := by unfold fitPoint; norm_num
  exact ⟨this, by rw [this, h]; norm_num⟩

end Mass.Calc.Cal
