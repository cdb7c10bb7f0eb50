import Verif.Calc.SplineDeriv
import Verif.Calc.ExprDeriv
import Verif.Calc.TableThm
/-! Calibration curves (exact, not smoothing) of mass/calibration/energy_calibration.py: C66, and the effect of the nonlinearity (C44). Over the reals. -/
namespace Mass.Calc.Cal
open Mass Mass.Calc Mass.Calc.Expr

/-- CubicSplineFunction(x, y) as a function, mass/mathstat/interpolate.py L186-193 -/
noncomputable def splineFn (pts : List (ℝ × ℝ)) : Except Exc (ℝ → ℝ) := (mkSpline pts none none).map (fun S t => eval S t 0)

/-- LogFunction()(x): np.log(np.clip(x, 1e-6, None)), mass/mathstat/derivative.py L147 -/
noncomputable def clipLog (x : ℝ) : ℝ := ev .log x

/-- the points of the "linear+0" curve, energy_calibration.py L565-567 -/
noncomputable def withZero (pts : List (ℝ × ℝ)) : List (ℝ × ℝ) := open Classical in if (0 : ℝ) ∈ pts.map Prod.fst then pts else (0, 0) :: pts

/-- the usable range of a gain curve, mass/calibration/energy_calibration.py L578-583: fine if the gain is positive at ten times the largest pulse height, else its zero is sought by
brentq between there and 0, which raises ValueError if the gain has the same sign (not zero) at both. The range found (`_max_ph`) is not modelled. -/
def gainRange {K : Type} [Field K] [LinearOrder K] (phs : List K) (g : K → K) : Except Exc Unit :=
  let t := 10 * phs.foldl max (phs.headD 0)
  if 0 < g t then .ok () else if 0 < g 0 * g t then .error .value else .ok ()

/-- `_update_exactcurves`, mass/calibration/energy_calibration.py L532-599: the function pulse height -> energy. `cols` are the (pulse height, energy) columns.
Used if the calibration is exact (`approximate=False`) or has fewer than 3 points, L447. The composite functions are written out; their agreement with the expression classes is `Expr.simplify_partial`. -/
noncomputable def exactCurve (curve : Nat) (nonlin : ℝ) (cols : List (ℝ × ℝ)) : Except Exc (ℝ → ℝ) :=
  match cols with
  | [] => .ok (fun p => p)
  | [(p1, e1)] =>
    if curve = 0 then .ok (ev (smul (.const e1) (power (div .ident (.const p1)) nonlin)))
    else if curve = 3 ∨ curve = 4 then .ok (ev (smul (.const (e1 / p1)) .ident))
    else .error .exception
  | _ =>
    if curve = 0 then (splineFn (cols.map (fun c => (Real.log c.1, Real.log c.2)))).map (fun f p => Real.exp (f (clipLog p)))
    else if curve = 1 then splineFn cols
    else if curve = 2 then splineFn (withZero cols)
    else if curve = 3 then (splineFn (cols.map (fun c => (c.1, c.1 / c.2)))).bind (fun f => (gainRange (cols.map Prod.fst) f).map (fun _ p => p / f p))
    else if curve = 4 then (splineFn (cols.map (fun c => (c.1, c.2 / c.1)))).map (fun f p => p * f p)
    else (splineFn (cols.map (fun c => (c.1, Real.log (c.1 / c.2))))).map (fun f p => p * Real.exp (-f p))

/-- np.linspace(a, b, n)[1:] for n ≥ 2; the last element is b exactly (used for energy_calibration.py L440-445) -/
noncomputable def linTail (a b : ℝ) (n : Nat) : List ℝ := ((List.range (n - 2)).map (fun i : Nat => a + ((i : ℝ) + 1) * ((b - a) / ((n : ℝ) - 1)))) ++ [b]

/-- `ph_pts`, energy_calibration.py L440-445 and L601-606. `int` of a negative number rounds towards 0 where this gives 0; for sorted positive pulse heights the number is not negative. -/
noncomputable def grid : List ℝ → List ℝ
  | [] => []
  | p :: ps => linTail 0 p 51 ++ mid p ps
where
  /-- the pieces between calibration points, and the last one beyond -/
  mid : ℝ → List ℝ → List ℝ
  | p, [] => linTail p (2 * p) 101
  | p, q :: qs => linTail p q (2 + ⌊1 / 2 + (q / p - 1) * 100⌋₊) ++ mid q qs

/-- `_e2ph`, energy_calibration.py L452: the inverse as a spline through the curve at the grid points -/
noncomputable def inverseCurve (f : ℝ → ℝ) (phs : List ℝ) : Except Exc (ℝ → ℝ) := splineFn ((grid phs).map (fun p => (f p, p)))

theorem spline_through {pts : List (ℝ × ℝ)} {f : ℝ → ℝ} (h : splineFn pts = .ok f) (hnd : (pts.map Prod.fst).Nodup) : ∀ p ∈ pts, f p.1 = p.2 := by
  unfold splineFn at h
  cases hS : mkSpline pts none none with
  | error x => rw [hS] at h; exact absurd h (by simp [Except.map])
  | ok S =>
    rw [hS] at h
    simp only [Except.map, Except.ok.injEq] at h
    subst h
    exact spline_interpolates hS hnd

theorem splineFn_ok (pts : List (ℝ × ℝ)) (h : 2 ≤ pts.length) : ∃ f, splineFn pts = .ok f := by
  unfold splineFn mkSpline
  rw [if_neg (by omega)]
  exact ⟨_, rfl⟩

theorem nodup_map_on {α β : Type} {f : α → β} {l : List α} (hf : ∀ a ∈ l, ∀ b ∈ l, f a = f b → a = b) (h : l.Nodup) : (l.map f).Nodup := List.Nodup.map_on hf h

/-- the data a curve type can handle: positive values for logarithms (and above the clipping point 1e-6), nonzero ones for quotients,
and for "gain" an interpolated gain which is not of one sign wrongly at both ends of the range searched (`gain_monotone_fails` shows this is needed) [specification] -/
def Usable (curve : Nat) (cols : List (ℝ × ℝ)) : Prop :=
  (curve = 0 → ∀ c ∈ cols, 1 / 1000000 < c.1 ∧ 0 < c.2) ∧
  (curve = 3 → ∀ c ∈ cols, c.1 ≠ 0 ∧ c.2 ≠ 0) ∧ (curve = 4 → ∀ c ∈ cols, c.1 ≠ 0) ∧ (5 ≤ curve → ∀ c ∈ cols, c.1 ≠ 0 ∧ 0 < c.1 / c.2) ∧
  (curve = 2 → ∀ c ∈ cols, c.1 = 0 → c.2 = 0) ∧
  (curve = 3 → ∀ g, splineFn (cols.map (fun c => (c.1, c.1 / c.2))) = .ok g → gainRange (cols.map Prod.fst) g = .ok ())

/-- C66. With two or more points of distinct pulse height, every curve type exists and takes each calibration point's pulse height to its energy. -/
theorem curve_through_points (curve : Nat) (nonlin : ℝ) (cols : List (ℝ × ℝ)) (h2 : 2 ≤ cols.length) (hnd : (cols.map Prod.fst).Nodup) (hu : Usable curve cols) :
    ∃ f, exactCurve curve nonlin cols = .ok f ∧ ∀ c ∈ cols, f c.1 = c.2 := by
  obtain ⟨c1, c2, rest, rfl⟩ : ∃ c1 c2 rest, cols = c1 :: c2 :: rest := by
    match cols, h2 with
    | c1 :: c2 :: rest, _ => exact ⟨c1, c2, rest, rfl⟩
  generalize hcols : c1 :: c2 :: rest = cols at hnd hu h2
  unfold exactCurve
  rw [← hcols]
  dsimp only
  rw [hcols]
  obtain ⟨u0, u3, u4, u5, u2, ug⟩ := hu
  have through : ∀ (g : ℝ × ℝ → ℝ) (f : ℝ → ℝ), splineFn (cols.map (fun c => (c.1, g c))) = .ok f → ∀ c ∈ cols, f c.1 = g c := by
    intro g f hf c hc
    refine spline_through hf ?_ (c.1, g c) (List.mem_map.2 ⟨c, hc, rfl⟩)
    rw [List.map_map]
    exact hnd
  by_cases k0 : curve = 0
  · rw [if_pos k0]
    obtain ⟨f, hf⟩ := splineFn_ok (cols.map (fun c => (Real.log c.1, Real.log c.2))) (by simpa using h2)
    rw [hf]
    refine ⟨_, rfl, fun c hc => ?_⟩
    obtain ⟨h1, h3⟩ := u0 k0 c hc
    have := spline_through hf (by
      rw [List.map_map]
      have hc1 : (cols.map ((fun c : ℝ × ℝ => c.1) ∘ fun c : ℝ × ℝ => (Real.log c.1, Real.log c.2))) = (cols.map Prod.fst).map Real.log := by rw [List.map_map]; rfl
      rw [show (cols.map (Prod.fst ∘ fun c : ℝ × ℝ => (Real.log c.1, Real.log c.2))) = (cols.map Prod.fst).map Real.log by rw [List.map_map]; rfl]
      refine nodup_map_on (fun a ha b hb hab => ?_) hnd
      obtain ⟨ca, hca, rfl⟩ := List.mem_map.1 ha
      obtain ⟨cb, hcb, rfl⟩ := List.mem_map.1 hb
      exact Real.log_injOn_pos (by have := (u0 k0 ca hca).1; exact Set.mem_Ioi.2 (by linarith)) (by have := (u0 k0 cb hcb).1; exact Set.mem_Ioi.2 (by linarith)) hab)
      (Real.log c.1, Real.log c.2) (List.mem_map.2 ⟨c, hc, rfl⟩)
    have hcl : clipLog c.1 = Real.log c.1 := by
      show Real.log (max c.1 (1 / 1000000)) = _
      rw [max_eq_left h1.le]
    dsimp only at this ⊢
    rw [hcl, this, Real.exp_log h3]
  rw [if_neg k0]
  by_cases k1 : curve = 1
  · rw [if_pos k1]
    obtain ⟨f, hf⟩ := splineFn_ok cols h2
    exact ⟨f, hf, spline_through hf hnd⟩
  rw [if_neg k1]
  by_cases k2 : curve = 2
  · rw [if_pos k2]
    have hz : (withZero cols).length ≥ 2 := by unfold withZero; split <;> simp <;> omega
    obtain ⟨f, hf⟩ := splineFn_ok _ hz
    refine ⟨f, hf, fun c hc => ?_⟩
    unfold withZero at hf
    split at hf
    · exact spline_through hf hnd c hc
    · rename_i h0
      exact spline_through hf (by rw [List.map_cons]; exact List.nodup_cons.2 ⟨h0, hnd⟩) c (List.mem_cons_of_mem _ hc)
  rw [if_neg k2]
  by_cases k3 : curve = 3
  · rw [if_pos k3]
    obtain ⟨f, hf⟩ := splineFn_ok (cols.map (fun c => (c.1, c.1 / c.2))) (by simpa using h2)
    rw [hf]
    dsimp only [Except.bind]
    rw [ug k3 f hf]
    refine ⟨_, rfl, fun c hc => ?_⟩
    obtain ⟨h1, h3⟩ := u3 k3 c hc
    dsimp only
    rw [through (fun c => c.1 / c.2) f hf c hc]
    field_simp
  rw [if_neg k3]
  by_cases k4 : curve = 4
  · rw [if_pos k4]
    obtain ⟨f, hf⟩ := splineFn_ok (cols.map (fun c => (c.1, c.2 / c.1))) (by simpa using h2)
    rw [hf]
    refine ⟨_, rfl, fun c hc => ?_⟩
    have h1 := u4 k4 c hc
    dsimp only
    rw [through (fun c => c.2 / c.1) f hf c hc]
    field_simp
  rw [if_neg k4]
  obtain ⟨f, hf⟩ := splineFn_ok (cols.map (fun c => (c.1, Real.log (c.1 / c.2)))) (by simpa using h2)
  rw [hf]
  refine ⟨_, rfl, fun c hc => ?_⟩
  obtain ⟨h1, h3⟩ := u5 (by omega) c hc
  dsimp only
  rw [through (fun c => Real.log (c.1 / c.2)) f hf c hc, Real.exp_neg, Real.exp_log h3]
  have : c.2 ≠ 0 := by rintro h; rw [h, div_zero] at h3; exact lt_irrefl _ h3
  field_simp

/-- C66. The "linear+0" curve passes through the origin. -/
theorem linear0_origin (nonlin : ℝ) (cols : List (ℝ × ℝ)) (h2 : 2 ≤ cols.length) (hnd : (cols.map Prod.fst).Nodup) (hz : ∀ c ∈ cols, c.1 = 0 → c.2 = 0) :
    ∃ f, exactCurve 2 nonlin cols = .ok f ∧ f 0 = 0 := by
  obtain ⟨f, hf, hth⟩ := curve_through_points 2 nonlin cols h2 hnd ⟨by simp, by simp, by simp, by simp, fun _ => hz, by simp⟩
  refine ⟨f, hf, ?_⟩
  obtain ⟨c1, c2, rest, rfl⟩ : ∃ c1 c2 rest, cols = c1 :: c2 :: rest := by
    match cols, h2 with
    | c1 :: c2 :: rest, _ => exact ⟨c1, c2, rest, rfl⟩
  by_cases h0 : (0 : ℝ) ∈ (c1 :: c2 :: rest).map Prod.fst
  · obtain ⟨c, hc, hc0⟩ := List.mem_map.1 h0
    have := hth c hc
    rw [hc0, hz c hc hc0] at this
    exact this
  · unfold exactCurve withZero at hf
    rw [if_neg h0] at hf
    simp only [show ¬ (2 = 0) from by decide, show ¬ (2 = 1) from by decide, if_false, if_true] at hf
    exact spline_through hf (by rw [List.map_cons]; exact List.nodup_cons.2 ⟨h0, hnd⟩) (0, 0) (by simp)

theorem mem_linTail (a b : ℝ) (n : Nat) : b ∈ linTail a b n := by unfold linTail; simp

theorem mem_mid (p : ℝ) (ps : List ℝ) : ∀ q ∈ ps, q ∈ grid.mid p ps := by
  induction ps generalizing p with
  | nil => simp
  | cons r rs ih =>
    intro q hq
    unfold grid.mid
    rcases List.mem_cons.1 hq with rfl | hq
    · exact List.mem_append_left _ (mem_linTail _ _ _)
    · exact List.mem_append_right _ (ih r q hq)

theorem mem_grid (ps : List ℝ) : ∀ q ∈ ps, q ∈ grid ps := by
  cases ps with
  | nil => simp
  | cons p ps =>
    intro q hq
    unfold grid
    rcases List.mem_cons.1 hq with rfl | hq
    · exact List.mem_append_left _ (mem_linTail _ _ _)
    · exact List.mem_append_right _ (mem_mid p ps q hq)

theorem grid_length (p : ℝ) (ps : List ℝ) : 2 ≤ (grid (p :: ps)).length := by
  unfold grid linTail
  simp
  omega

/-- C66. energy2ph undoes the curve at every calibration point, provided the curve takes distinct values on the grid of pulse heights used for the inverse. -/
theorem inverse_at_points (curve : Nat) (nonlin : ℝ) (cols : List (ℝ × ℝ)) (h2 : 2 ≤ cols.length) (hnd : (cols.map Prod.fst).Nodup) (hu : Usable curve cols)
    (hg : ∀ f, exactCurve curve nonlin cols = .ok f → ((grid (cols.map Prod.fst)).map f).Nodup) :
    ∃ f g, exactCurve curve nonlin cols = .ok f ∧ inverseCurve f (cols.map Prod.fst) = .ok g ∧ ∀ c ∈ cols, g c.2 = c.1 ∧ g (f c.1) = c.1 := by
  obtain ⟨f, hf, hth⟩ := curve_through_points curve nonlin cols h2 hnd hu
  have hl : 2 ≤ ((grid (cols.map Prod.fst)).map (fun p => (f p, p))).length := by
    match cols, h2 with
    | c1 :: c2 :: rest, _ => rw [List.length_map]; exact grid_length _ _
  obtain ⟨g, hgk⟩ := splineFn_ok _ hl
  have h3 : ∀ c ∈ cols, g (f c.1) = c.1 := by
    intro c hc
    refine spline_through hgk ?_ (f c.1, c.1) (List.mem_map.2 ⟨c.1, mem_grid _ _ (List.mem_map.2 ⟨c, hc, rfl⟩), rfl⟩)
    rw [List.map_map]
    exact hg f hf
  refine ⟨f, g, hf, hgk, fun c hc => ⟨?_, h3 c hc⟩⟩
  have := h3 c hc
  rw [hth c hc] at this
  exact this

theorem linTail_sorted (a b : ℝ) (n : Nat) (hab : a < b) (hn : 2 ≤ n) : (linTail a b n).Pairwise (· < ·) ∧ ∀ x ∈ linTail a b n, a < x ∧ x ≤ b := by
  have hn' : (0 : ℝ) < (n : ℝ) - 1 := by have : (2 : ℝ) ≤ n := by exact_mod_cast hn
                                         linarith
  have hs : 0 < (b - a) / ((n : ℝ) - 1) := div_pos (by linarith) hn'
  have hlt : ∀ i ∈ List.range (n - 2), a + ((i : ℝ) + 1) * ((b - a) / ((n : ℝ) - 1)) < b := by
    intro i hi
    have hi : i < n - 2 := List.mem_range.1 hi
    have hi' : ((i : ℝ) + 1) < (n : ℝ) - 1 := by
      have : i + 2 < n := by omega
      have : (i : ℝ) + 2 < n := by exact_mod_cast this
      linarith
    have := mul_lt_mul_of_pos_right hi' hs
    rw [mul_div_cancel₀ _ hn'.ne'] at this
    linarith
  unfold linTail
  refine ⟨List.pairwise_append.2 ⟨?_, List.pairwise_singleton _ _, ?_⟩, ?_⟩
  · rw [List.pairwise_map]
    refine List.pairwise_lt_range.imp (fun {i j} hij => ?_)
    have : (i : ℝ) < j := by exact_mod_cast hij
    have := mul_lt_mul_of_pos_right (show (i : ℝ) + 1 < j + 1 by linarith) hs
    linarith
  · intro x hx y hy
    obtain ⟨i, hi, rfl⟩ := List.mem_map.1 hx
    rw [List.mem_singleton.1 hy]
    exact hlt i hi
  · intro x hx
    rcases List.mem_append.1 hx with hx | hx
    · obtain ⟨i, hi, rfl⟩ := List.mem_map.1 hx
      have : 0 < ((i : ℝ) + 1) * ((b - a) / ((n : ℝ) - 1)) := mul_pos (by positivity) hs
      exact ⟨by linarith, (hlt i hi).le⟩
    · rw [List.mem_singleton.1 hx]; exact ⟨hab, le_refl _⟩

theorem mid_sorted (p : ℝ) (ps : List ℝ) (hp : 0 < p) (h : (p :: ps).Pairwise (· < ·)) : (grid.mid p ps).Pairwise (· < ·) ∧ ∀ x ∈ grid.mid p ps, p < x := by
  induction ps generalizing p with
  | nil =>
    unfold grid.mid
    have := linTail_sorted p (2 * p) 101 (by linarith) (by omega)
    exact ⟨this.1, fun x hx => (this.2 x hx).1⟩
  | cons q qs ih =>
    have hpq : p < q := (List.pairwise_cons.1 h).1 q (by simp)
    have ht := linTail_sorted p q (2 + ⌊1 / 2 + (q / p - 1) * 100⌋₊) hpq (by omega)
    have hm := ih q (hp.trans hpq) (List.pairwise_cons.1 h).2
    unfold grid.mid
    refine ⟨List.pairwise_append.2 ⟨ht.1, hm.1, fun x hx y hy => lt_of_le_of_lt (ht.2 x hx).2 (hm.2 y hy)⟩, fun x hx => ?_⟩
    rcases List.mem_append.1 hx with hx | hx
    · exact (ht.2 x hx).1
    · exact hpq.trans (hm.2 x hx)

theorem grid_sorted (ps : List ℝ) (hpos : ∀ p ∈ ps, 0 < p) (h : ps.Pairwise (· < ·)) : (grid ps).Pairwise (· < ·) ∧ ∀ x ∈ grid ps, 0 < x := by
  cases ps with
  | nil => simp [grid]
  | cons p ps =>
    have hp := hpos p (by simp)
    have ht := linTail_sorted 0 p 51 hp (by omega)
    have hm := mid_sorted p ps hp h
    unfold grid
    refine ⟨List.pairwise_append.2 ⟨ht.1, hm.1, fun x hx y hy => lt_of_le_of_lt (ht.2 x hx).2 (hm.2 y hy)⟩, fun x hx => ?_⟩
    rcases List.mem_append.1 hx with hx | hx
    · exact (ht.2 x hx).1
    · exact hp.trans (hm.2 x hx)

/-- C66. If the pulse heights are positive and the curve is strictly increasing on positive pulse heights, energy2ph undoes the curve at every calibration point. -/
theorem inverse_increasing (curve : Nat) (nonlin : ℝ) (cols : List (ℝ × ℝ)) (h2 : 2 ≤ cols.length) (hs : (cols.map Prod.fst).Pairwise (· < ·)) (hpos : ∀ c ∈ cols, 0 < c.1)
    (hu : Usable curve cols) (hm : ∀ f, exactCurve curve nonlin cols = .ok f → StrictMonoOn f (Set.Ioi 0)) :
    ∃ f g, exactCurve curve nonlin cols = .ok f ∧ inverseCurve f (cols.map Prod.fst) = .ok g ∧ ∀ c ∈ cols, g c.2 = c.1 ∧ g (f c.1) = c.1 := by
  refine inverse_at_points curve nonlin cols h2 (hs.imp (fun h => ne_of_lt h)) hu (fun f hf => ?_)
  obtain ⟨h1, h3⟩ := grid_sorted (cols.map Prod.fst) (fun p hp => by obtain ⟨c, hc, rfl⟩ := List.mem_map.1 hp; exact hpos c hc) hs
  exact nodup_map_on (fun a ha b hb hab => (hm f hf).injOn (h3 a ha) (h3 b hb) hab) (h1.imp (fun h => ne_of_lt h))

/-- C66. With one point, the "gain" and "invgain" curves are the straight line through the origin and the point. -/
theorem one_point_gain (curve : Nat) (nonlin p1 e1 : ℝ) (hp : p1 ≠ 0) (hc : curve = 3 ∨ curve = 4) :
    ∃ f, exactCurve curve nonlin [(p1, e1)] = .ok f ∧ (∀ p, f p = e1 / p1 * p) ∧ f p1 = e1 := by
  have h : ∀ p, ev (smul (.const (e1 / p1)) .ident) p = e1 / p1 * p := fun p => (smul_ok (a := .const (e1 / p1)) (b := .ident) trivial trivial).2
  refine ⟨_, ?_, h, ?_⟩
  · unfold exactCurve
    dsimp only
    rw [if_neg (by omega), if_pos hc]
  · rw [h]; field_simp

/-- C44, C66. With one point and the "loglog" curve, the energy is proportional to the pulse height to the power of the stored nonlinearity. -/
theorem one_point_loglog (nonlin p1 e1 : ℝ) (hp : 0 < p1) : ∃ f, exactCurve 0 nonlin [(p1, e1)] = .ok f ∧ (∀ p, 0 < p → f p = e1 * (p / p1) ^ nonlin) ∧ f p1 = e1 := by
  have h : ∀ p, 0 < p → ev (smul (.const e1) (power (div .ident (.const p1)) nonlin)) p = e1 * (p / p1) ^ nonlin := by
    intro p hpp
    have hrc : Reg (.const p1) p := trivial
    have hri : Reg .ident p := trivial
    have hr1 : RegP (-1) (ev (.const p1) p) := .inl hp
    have hs := scomp_ok (a := .pow (-1)) hrc hr1 (.inl ⟨-1, by simp⟩)
    have hd := smul_ok hri hs.1
    have hdv : ev (div .ident (.const p1)) p = p / p1 := (simplify_partial .ident (.const p1) p hrc).2.1 hri hp.ne'
    have hdp : 0 < ev (div .ident (.const p1)) p := by rw [hdv]; positivity
    have hpw := scomp_ok (a := .pow nonlin) hd.1 (show RegP nonlin _ from .inl hdp) (.inr (.inl hpp))
    have hpv := (simplify_partial .ident (div .ident (.const p1)) p hd.1).2.2.2.1 nonlin hdp (.inl hpp)
    have hfin := smul_ok (a := .const e1) (x := p) trivial (show Reg (power (div .ident (.const p1)) nonlin) p from hpw.1)
    rw [hfin.2, hpv, hdv]
    rfl
  refine ⟨_, ?_, h, ?_⟩
  · unfold exactCurve
    dsimp only
    rw [if_pos rfl]
  · rw [h p1 hp, div_self hp.ne', Real.one_rpow, mul_one]

/-- C44 is false as stated, seen by a user: a one-point loglog calibration constructed with nonlinearity N gives the energy at twice the pulse height as 2^1.15 times the point's energy,
whatever N was. -/
theorem nonlinearity_ignored_fails (N p1 e1 : ℝ) (hp : 0 < p1) (ap g : Bool) :
    ∃ T f, init N (.str "loglog") ap g = .ok T ∧ exactCurve T.curve T.nonlin [(p1, e1)] = .ok f ∧ f (2 * p1) = e1 * 2 ^ (115 / 100 : ℝ) := by
  have hc : curveIdx (.str "loglog") = .ok 0 := by decide +kernel
  obtain ⟨f, hf, hv, _⟩ := one_point_loglog (115 / 100) p1 e1 hp
  unfold init
  rw [hc]
  refine ⟨_, f, rfl, hf, ?_⟩
  rw [hv (2 * p1) (by linarith)]
  congr 2
  field_simp

/-- `ph2energy` of one pulse height, mass/calibration/energy_calibration.py L134-147, on a calibration whose converter was never computed (`_ph2e` is the default, L126-130): if out of date,
sort the table and compute the exact curve, else use the default, which returns its argument. -/
noncomputable def firstUse (T : Tbl ℝ) (p : ℝ) : Except Exc ℝ :=
  if T.stale then
    match (sortTbl T).2 with
    | .error x => .error x
    | .ok _ => (exactCurve T.curve T.nonlin ((sortTbl T).1.ph.zip (sortTbl T).1.e)).map (fun f => f p)
  else .ok p

/-- C67 for the part that holds: a new calibration of any curve type but loglog, or of loglog with nonlinearity 1.15, converts each pulse height to itself. -/
theorem empty_identity_partial (nl p : ℝ) (ap g : Bool) (i : Nat) (hi : i < 6) (h : i ≠ 0 ∨ nl = 115 / 100) :
    ∃ T : Tbl ℝ, init nl (.str (CURVETYPE.getD i "")) ap g = .ok T ∧ firstUse T p = .ok p := by
  have hc : curveIdx (.str (CURVETYPE.getD i "")) = .ok i := by
    have : i = 0 ∨ i = 1 ∨ i = 2 ∨ i = 3 ∨ i = 4 ∨ i = 5 := by omega
    rcases this with rfl | rfl | rfl | rfl | rfl | rfl <;> decide +kernel
  unfold init
  rw [hc]
  refine ⟨_, rfl, ?_⟩
  unfold firstUse setNonlin
  rcases h with h | h <;> simp [h]

/-- C67 is false as stated: a new loglog calibration with any nonlinearity but 1.15 (the default is 1.1) raises ValueError at first use, because the largest pulse height of no points is
asked for. -/
theorem empty_fails (nl p : ℝ) (hnl : nl ≠ 115 / 100) (ap g : Bool) : ∃ T, init nl (.str "loglog") ap g = .ok T ∧ firstUse T p = .error .value := by
  have hc : curveIdx (.str "loglog") = .ok 0 := by decide +kernel
  unfold init
  rw [hc]
  refine ⟨_, rfl, ?_⟩
  unfold firstUse sortTbl setNonlin argsort
  simp [hnl.symm]

/-- C66 is false as stated for "gain" curves: the calibration points (1, 1), (2, 1.05), (3, 3) are monotone, hence accepted, but the gain through them is negative at 0 and at 30, so
using the calibration raises ValueError. -/
theorem gain_monotone_fails : (mkSpline ([(1, 1), (2, 21 / 20), (3, 3)].map (fun c : ℚ × ℚ => (c.1, c.1 / c.2))) none none).bind (fun S => gainRange [1, 2, 3] (fun t => eval S t 0)) =
    .error .value := by decide +kernel

/-- C66, instances: two points with the linear and loglog curves -/
example : ∃ f, exactCurve 1 1 [(1, 10), (2, 30)] = .ok f ∧ f 2 = 30 := by
  obtain ⟨f, hf, h⟩ := curve_through_points 1 1 [(1, 10), (2, 30)] (by simp) (by simp) ⟨by simp, by simp, by simp, by simp, by simp, by simp⟩
  exact ⟨f, hf, h (2, 30) (by simp)⟩
example : ∃ f, exactCurve 0 1 [(1, 10), (2, 30)] = .ok f ∧ f 2 = 30 := by
  obtain ⟨f, hf, h⟩ := curve_through_points 0 1 [(1, 10), (2, 30)] (by simp) (by simp) ⟨by norm_num, by simp, by simp, by simp, by simp, by simp⟩
  exact ⟨f, hf, h (2, 30) (by simp)⟩
/-- the gain range check passes on ordinary points -/
example : (mkSpline ([(1, 10), (2, 18), (3, 25)].map (fun c : ℚ × ℚ => (c.1, c.1 / c.2))) none none).bind (fun S => gainRange [1, 2, 3] (fun t => eval S t 0)) = .ok () := by
  decide +kernel
/-- `linear0_origin`, `one_point_gain`, `one_point_loglog`, instances -/
example : ∃ f, exactCurve 2 1 [(1, 10), (2, 30)] = .ok f ∧ f 0 = 0 := linear0_origin 1 _ (by simp) (by simp) (by simp)
example : ∃ f, exactCurve 4 1 [(2, 30)] = .ok f ∧ f 3 = 45 := by
  obtain ⟨f, hf, h, _⟩ := one_point_gain 4 1 2 30 (by norm_num) (.inr rfl)
  exact ⟨f, hf, by rw [h]; norm_num⟩
example : ∃ f, exactCurve 0 2 [(2, 30)] = .ok f ∧ f 4 = 120 := by
  obtain ⟨f, hf, h, _⟩ := one_point_loglog 2 2 30 (by norm_num)
  exact ⟨f, hf, by rw [h 4 (by norm_num)]; norm_num⟩
/-- `inverse_increasing`, instance: its hypotheses hold for the line through (1, 10) and (2, 20) -/
example : ∃ f g, exactCurve 1 1 [(1, 10), (2, 20)] = .ok f ∧ inverseCurve f [1, 2] = .ok g ∧ g 20 = 2 := by
  have hline : ∀ f, exactCurve 1 1 [(1, 10), (2, 20)] = .ok f → ∀ t, f t = 10 * t := by
    intro f hf t
    simp only [exactCurve, splineFn, mkSpline, one_ne_zero, if_false, if_true, Except.map, List.length_cons, List.length_nil] at hf
    rw [if_neg (by omega)] at hf
    simp only [Except.ok.injEq] at hf
    subst hf
    have hsort : ([(1, 10), (2, 20)] : List (ℝ × ℝ)).insertionSort (fun a b => a.1 ≤ b.1) = [(1, 10), (2, 20)] := by simp
    rw [hsort]
    rcases le_or_gt t 1 with h1 | h1
    · simp [eval, piece, cnt, compute, back, lastY2, fwd, not_lt.2 h1, not_lt.2 (h1.trans (by norm_num : (1 : ℝ) ≤ 2))]; ring
    · rcases le_or_gt t 2 with h2 | h2
      · simp [eval, piece, cnt, compute, back, lastY2, fwd, h1, not_lt.2 h2]; ring
      · simp [eval, piece, cnt, compute, back, lastY2, fwd, h1, h2]; ring
  obtain ⟨f, g, hf, hg, h⟩ := inverse_increasing 1 1 [(1, 10), (2, 20)] (by simp) (by simp) (by simp) ⟨by simp, by simp, by simp, by simp, by simp, by simp⟩
    (fun f hf a _ b _ hab => by rw [hline f hf, hline f hf]; linarith)
  exact ⟨f, g, hf, hg, (h (2, 20) (by simp)).1⟩

end Mass.Calc.Cal
