import Verif.Calc.Spline
/-! C107: `LinterpCubicSpline`, a linear combination of two cubic splines (mass/mathstat/interpolate.py L208-230). Exact arithmetic. -/
namespace Mass.Calc
variable {K : Type} [Field K] [LinearOrder K] [IsStrictOrderedRing K]

/-- interpolate.py L219-220 `wtsum` -/
def wtsum (a b frac : K) : K := a * frac + b * (1 - frac)

/-- interpolate.py L213-230: the object: as a `Spline`, and the array `xstep`, which is not computed from the knots but combined like the values. `ystep` is never
used after construction. -/
structure Mixed (K : Type) where
  s : Spline K
  xstep : Nat → K

/-- interpolate.py L213-230 `LinterpCubicSpline.__init__` -/
def linterp (s1 s2 : Spline K) (frac : K) : Except Exc (Mixed K) :=
  if s1.n ≠ s2.n then .error .value
  else if (List.range s1.n).any (fun i => decide (1 / 1000 < |s1.x i - s2.x i|)) then .error .value
  else .ok ⟨⟨s1.n, s1.x, fun i => wtsum (s1.y i) (s2.y i) frac, fun i => wtsum (s1.y2 i) (s2.y2 i) frac,
      wtsum s1.yp1 s2.yp1 frac, wtsum s1.ypN s2.ypN frac⟩,
    fun k => wtsum (s1.x (k + 1) - s1.x k) (s2.x (k + 1) - s2.x k) frac⟩

/-- interpolate.py L135-193 `__call__`, inherited from CubicSpline, for one point: as `eval`, with the step of the interval taken from `xstep` (L171) -/
def Mixed.eval (M : Mixed K) (t : K) (der : Nat) : K :=
  let S := M.s
  let m := cnt S.x t S.n
  if m = 0 then
    if der = 0 then S.y 0 + (t - S.x 0) * S.yp1 else if der = 1 then S.yp1 else 0
  else if S.n ≤ m then
    if der = 0 then S.y (S.n - 1) + (t - S.x (S.n - 1)) * S.ypN else if der = 1 then S.ypN else 0
  else
    let k := m - 1
    let dx := M.xstep k
    let a := (S.x (k + 1) - t) / dx
    let b := (t - S.x k) / dx
    if der = 0 then a * S.y k + b * S.y (k + 1) + ((a ^ 3 - a) * S.y2 k + (b ^ 3 - b) * S.y2 (k + 1)) * dx * dx / 6
    else if der = 1 then -S.y k / dx + S.y (k + 1) / dx + ((-a ^ 2 + 1 / 3) * S.y2 k + (b ^ 2 - 1 / 3) * S.y2 (k + 1)) * dx / 2
    else if der = 2 then a * S.y2 k + b * S.y2 (k + 1)
    else if der = 3 then (-S.y2 k + S.y2 (k + 1)) * dx
    else 0

theorem cnt_congr {x x' : Nat → K} (t : K) {n : Nat} (h : ∀ i, i < n → x i = x' i) : cnt x t n = cnt x' t n := by
  induction n with
  | zero => rfl
  | succ n ih =>
    unfold cnt
    rw [ih (fun i hi => h i (by omega)), h n (by omega)]

/-- C107. The mixture of two splines with at least one and the same knots is accepted, and everywhere, also beyond the knots, its value and every derivative the class
returns are fraction times that of the first plus (1 - fraction) times that of the second. -/
theorem linterp_partial {s1 s2 : Spline K} (hn : s1.n = s2.n) (h0 : 0 < s1.n) (hx : ∀ i, i < s1.n → s1.x i = s2.x i) (frac : K) :
    ∃ M, linterp s1 s2 frac = .ok M ∧ ∀ t der, M.eval t der = frac * eval s1 t der + (1 - frac) * eval s2 t der := by
  have hany : (List.range s1.n).any (fun i => decide (1 / 1000 < |s1.x i - s2.x i|)) = false := by
    rw [List.any_eq_false]
    intro i hi
    rw [hx i (List.mem_range.1 hi)]
    simp only [sub_self, abs_zero, decide_eq_true_eq, not_lt]
    norm_num
  have hL : linterp s1 s2 frac = .ok ⟨⟨s1.n, s1.x, fun i => wtsum (s1.y i) (s2.y i) frac, fun i => wtsum (s1.y2 i) (s2.y2 i) frac,
      wtsum s1.yp1 s2.yp1 frac, wtsum s1.ypN s2.ypN frac⟩,
    fun k => wtsum (s1.x (k + 1) - s1.x k) (s2.x (k + 1) - s2.x k) frac⟩ := by
    unfold linterp
    rw [if_neg (not_not.2 hn), hany, if_neg (by simp)]
  refine ⟨_, hL, ?_⟩
  · intro t der
    have hc : cnt s2.x t s2.n = cnt s1.x t s1.n := by rw [← hn]; exact (cnt_congr t hx).symm
    unfold Mixed.eval eval piece
    rw [hc, ← hn]
    dsimp only
    generalize cnt s1.x t s1.n = m
    by_cases hm0 : m = 0
    · simp only [if_pos hm0]
      by_cases d0 : der = 0
      · simp only [if_pos d0, wtsum, ← hx 0 h0]; ring
      · simp only [if_neg d0]
        by_cases d1 : der = 1
        · simp only [if_pos d1, wtsum]; ring
        · simp only [if_neg d1]; ring
    · simp only [if_neg hm0]
      by_cases hmn : s1.n ≤ m
      · simp only [if_pos hmn]
        by_cases d0 : der = 0
        · simp only [if_pos d0, wtsum, ← hx (s1.n - 1) (by omega)]; ring
        · simp only [if_neg d0]
          by_cases d1 : der = 1
          · simp only [if_pos d1, wtsum]; ring
          · simp only [if_neg d1]; ring
      · simp only [if_neg hmn]
        have e1 := hx (m - 1) (by omega)
        have e2 := hx (m - 1 + 1) (by omega)
        rw [← e1, ← e2]
        have hstep : wtsum (s1.x (m - 1 + 1) - s1.x (m - 1)) (s1.x (m - 1 + 1) - s1.x (m - 1)) frac = s1.x (m - 1 + 1) - s1.x (m - 1) := by
          unfold wtsum; ring
        rw [hstep]
        generalize s1.x (m - 1 + 1) - s1.x (m - 1) = dx
        generalize (s1.x (m - 1 + 1) - t) / dx = a
        generalize (t - s1.x (m - 1)) / dx = b
        by_cases d0 : der = 0
        · simp only [if_pos d0, wtsum]; ring
        · simp only [if_neg d0]
          by_cases d1 : der = 1
          · simp only [if_pos d1, wtsum]; ring
          · simp only [if_neg d1]
            by_cases d2 : der = 2
            · simp only [if_pos d2, wtsum]; ring
            · simp only [if_neg d2]
              by_cases d3 : der = 3
              · simp only [if_pos d3, wtsum]; ring
              · simp only [if_neg d3]; ring

omit [IsStrictOrderedRing K] in
/-- C107. A mixture is accepted exactly when both have the same number of knots and no two corresponding knots are more than 1/1000 apart. -/
theorem linterp_accepts (s1 s2 : Spline K) (frac : K) :
    (∃ M, linterp s1 s2 frac = .ok M) ↔ s1.n = s2.n ∧ ∀ i, i < s1.n → |s1.x i - s2.x i| ≤ 1 / 1000 := by
  unfold linterp
  by_cases hn : s1.n = s2.n
  · rw [if_neg (not_not.2 hn)]
    by_cases h : (List.range s1.n).any (fun i => decide (1 / 1000 < |s1.x i - s2.x i|)) = true
    · rw [if_pos h]
      simp only [reduceCtorEq, exists_false, false_iff, not_and]
      obtain ⟨i, hi, h2⟩ := List.any_eq_true.1 h
      intro _ h3
      have := h3 i (List.mem_range.1 hi)
      exact absurd (of_decide_eq_true h2) (not_lt.2 this)
    · rw [if_neg h]
      refine ⟨fun _ => ⟨hn, ?_⟩, fun _ => ⟨_, rfl⟩⟩
      intro i hi
      by_contra hc
      exact h (List.any_eq_true.2 ⟨i, List.mem_range.2 hi, decide_eq_true (not_le.1 hc)⟩)
  · rw [if_pos hn]
    simp [hn]

/-- C107, instance: a quarter of the first and three quarters of the second spline through (0,0), (1,1), (2,0) and (0,2), (1,1), (2,2), at 1/2 and beyond the end -/
example : ((linterp (compute (fun i => (i : ℚ)) (fun i => if i = 1 then 1 else 0) 3 none none)
      (compute (fun i => (i : ℚ)) (fun i => if i = 1 then 1 else 2) 3 none none) (1 / 4)).map
      (fun M => (M.eval (1 / 2) 0, M.eval 3 0))) = .ok (37 / 32, 9 / 4) := by decide +kernel

/-- Disagreement (C107): knots up to 1/1000 apart count as the same, however small the scale of the data. With knots 0, 1/2000 and 0, 1/1000 the mixture has the knots
of the first spline, and at 1/2000 its value is neither the mixture of the values there (here 1/4) nor the mixture of the ordinates (1/2): it jumps. -/
theorem linterp_scale_fails :
    let s1 : Spline ℚ := compute (fun i => if i = 1 then 1 / 2000 else 0) (fun _ => 0) 2 none none
    let s2 : Spline ℚ := compute (fun i => if i = 1 then 1 / 1000 else 0) (fun i => if i = 1 then 1 else 0) 2 none none
    (linterp s1 s2 (1 / 2)).map (fun M => M.eval (1 / 2000) 0) = .ok (1 / 3) ∧
      1 / 2 * eval s1 (1 / 2000) 0 + (1 - 1 / 2) * eval s2 (1 / 2000) 0 = 1 / 4 := by decide +kernel

end Mass.Calc
