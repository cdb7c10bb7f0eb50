import Verif.Calc.Curve
import Mathlib.Topology.Order.IntermediateValue
import Mathlib.Topology.Instances.Real.Lemmas
import Mathlib.Algebra.Order.BigOperators.Group.List
import Mathlib.Data.List.Pairwise
/-! C135: the exact inverse of a calibration, its slope, and the test whether it is monotonic (mass/calibration/energy_calibration.py L125-129, L176-215, L415-420, L437, L504,
L578-583, L610-613). Exact arithmetic over the reals. -/
namespace Mass.Calc.Invert
open Mass Mass.Calc Mass.Calc.Cal

/-- What is relied upon of scipy's brentq(f, a, b) (used for energy_calibration.py L190, L203, L583): ValueError if f has the same sign at both ends; for a continuous function with values of
opposite signs (or 0) a zero in the interval. Its tolerance (2e-12) is not modelled. [specification] -/
structure IsBrent (brent : (ℝ → ℝ) → ℝ → ℝ → Except Exc ℝ) : Prop where
  same : ∀ f a b, 0 < f a * f b → brent f a b = .error .value
  root : ∀ f a b, a ≤ b → ContinuousOn f (Set.Icc a b) → f a * f b ≤ 0 → ∃ x, brent f a b = .ok x ∧ a ≤ x ∧ x ≤ b ∧ f x = 0

theorem exists_zero {f : ℝ → ℝ} {a b : ℝ} (hab : a ≤ b) (hf : ContinuousOn f (Set.Icc a b)) (h : f a * f b ≤ 0) : ∃ x, a ≤ x ∧ x ≤ b ∧ f x = 0 := by
  rcases le_total (f a) 0 with ha | ha
  · rcases le_or_gt 0 (f b) with hb | hb
    · obtain ⟨x, hx, h0⟩ := intermediate_value_Icc hab hf (Set.mem_Icc.2 ⟨ha, hb⟩)
      exact ⟨x, hx.1, hx.2, h0⟩
    · have : f a = 0 := by
        rcases ha.lt_or_eq with h1 | h1
        · exact absurd h (not_le.2 (mul_pos_of_neg_of_neg h1 hb))
        · exact h1
      exact ⟨a, le_refl _, hab, this⟩
  · rcases le_or_gt (f b) 0 with hb | hb
    · obtain ⟨x, hx, h0⟩ := intermediate_value_Icc' hab hf (Set.mem_Icc.2 ⟨hb, ha⟩)
      exact ⟨x, hx.1, hx.2, h0⟩
    · have : f a = 0 := by
        rcases ha.lt_or_eq with h1 | h1
        · exact absurd h (not_le.2 (mul_pos h1 hb))
        · exact h1.symm
      exact ⟨a, le_refl _, hab, this⟩

/-- C135. There are root finders with the properties relied upon. -/
theorem brent_exists : ∃ brent, IsBrent brent := by
  classical
  refine ⟨fun f a b => if 0 < f a * f b then .error .value else if h : ∃ x, a ≤ x ∧ x ≤ b ∧ f x = 0 then .ok h.choose else .error .exception, ⟨?_, ?_⟩⟩
  · intro f a b h
    rw [if_pos h]
  · intro f a b hab hf h
    have hz := exists_zero hab hf h
    refine ⟨hz.choose, ?_, hz.choose_spec⟩
    rw [if_neg (not_lt.2 h), dif_pos hz]

/-- A calibration as these methods see it: the curve and its slope, the inverse spline, and the largest pulse height searched (an attribute which only `_update_converters` creates),
energy_calibration.py L110-111, L437, L452 -/
structure Cal where
  f : ℝ → ℝ
  slope : ℝ → ℝ
  e2ph : ℝ → ℝ
  maxPh : Option ℝ

/-- a new calibration, energy_calibration.py L108-123 with `__default_ph2e` L125-129 (whose derivative is given as 0) -/
def Cal.new : Cal := ⟨fun p => p, fun _ => 0, fun e => e, none⟩

/-- `_max_ph`, energy_calibration.py L437 and, for the gain curve through two or more points, L578-583: `g` is the interpolated gain -/
noncomputable def rangeTop (brent : (ℝ → ℝ) → ℝ → ℝ → Except Exc ℝ) (curve : Nat) (phs : List ℝ) (g : ℝ → ℝ) : Except Exc ℝ :=
  let m := phs.foldl max (phs.headD 0)
  if curve = 3 ∧ 2 ≤ phs.length then
    if 0 < g (10 * m) then .ok (10 * m) else (brent g 0 (10 * m)).map (fun r => 99 / 100 * r)
  else .ok (2 * m)

/-- energy2ph_exact of one energy, energy_calibration.py L189-190. Without `_max_ph`: AttributeError. -/
noncomputable def exact1 (brent : (ℝ → ℝ) → ℝ → ℝ → Except Exc ℝ) (c : Cal) (e : ℝ) : Except Exc ℝ :=
  match c.maxPh with
  | none => .error .attribute
  | some m => brent (fun p => c.f p - e) (1 / 1000000) m

/-- one of the Newton steps of energy_calibration.py L199 for one pulse height. Dividing by a slope 0 gives NaN or an infinite value, which stays so: `none`. -/
noncomputable def newton (c : Cal) (e : ℝ) : Option ℝ → Option ℝ
  | none => none
  | some p => if c.slope p = 0 then none else some (p - (c.f p - e) / c.slope p)

/-- energy_calibration.py L196-199: five steps, starting at the energy -/
noncomputable def newton5 (c : Cal) (e : ℝ) : Option ℝ := newton c e (newton c e (newton c e (newton c e (newton c e (some e)))))

/-- energy2ph_exact of an array or list, energy_calibration.py L195-204. `ints`: of integers, where `phs -= floats` is a TypeError. The warning L191-193 is not modelled. -/
noncomputable def exactMany (brent : (ℝ → ℝ) → ℝ → ℝ → Except Exc ℝ) (c : Cal) (ints : Bool) (es : List ℝ) : Except Exc (List (Option ℝ)) :=
  if 1024 < es.length then
    if ints then .error .type else .ok (es.map (newton5 c))
  else es.mapM (fun e => (exact1 brent c e).map some)

/-- energy2dedph, energy_calibration.py L206-215 -/
def dedph (c : Cal) (e : ℝ) : ℝ := c.slope (c.e2ph e)

/-- name2ph, energy_calibration.py L610-613: `features` is STANDARD_FEATURES -/
def name2ph (c : Cal) (features : String → Option ℝ) (name : String) : Except Exc ℝ :=
  match features name with
  | none => .error .key
  | some e => .ok (c.e2ph e)

section mono
variable {K : Type} [Field K] [LinearOrder K]

/-- np.linspace(0, 1.05 * max, 1001)[i] (used for energy_calibration.py L417-418) -/
def sample (m : K) (i : Nat) : K := (i : K) * (21 / 20 * m / 1000)

/-- np.all(np.diff(e) > 0), energy_calibration.py L420 -/
def risesB : List K → Bool
  | a :: b :: t => decide (0 < b - a) && risesB (b :: t)
  | _ => true

/-- ismonotonic, energy_calibration.py L415-420; the maximum of no pulse heights is a ValueError -/
def isMonotonic (f : K → K) (phs : List K) : Except Exc Bool :=
  match phs with
  | [] => .error .value
  | p :: ps => .ok (risesB ((List.range 1001).map (fun i => f (sample (ps.foldl max p) i))))

end mono

/-! ### one energy -/

/-- C135. For a continuous strictly increasing curve, the exact inverse of the energy of any pulse height in the range is that pulse height. -/
theorem exact_inverse {brent} (hb : IsBrent brent) (c : Cal) (m : ℝ) (hm : c.maxPh = some m) (hc : ContinuousOn c.f (Set.Icc (1 / 1000000) m)) (hs : StrictMonoOn c.f (Set.Icc (1 / 1000000) m))
    (p : ℝ) (h1 : 1 / 1000000 ≤ p) (h2 : p ≤ m) : exact1 brent c (c.f p) = .ok p := by
  unfold exact1
  rw [hm]
  dsimp only
  have hlo : c.f (1 / 1000000) ≤ c.f p := hs.monotoneOn ⟨le_refl _, h1.trans h2⟩ ⟨h1, h2⟩ h1
  have hhi : c.f p ≤ c.f m := hs.monotoneOn ⟨h1, h2⟩ ⟨h1.trans h2, le_refl _⟩ h2
  obtain ⟨x, hx, hx1, hx2, hx0⟩ := hb.root (fun q => c.f q - c.f p) (1 / 1000000) m (h1.trans h2) (hc.sub continuousOn_const)
    (mul_nonpos_of_nonpos_of_nonneg (by linarith) (by linarith))
  rw [hx, hs.injOn ⟨hx1, hx2⟩ ⟨h1, h2⟩ (by linarith)]

/-- C135. Whatever the curve (if continuous): the pulse height returned is in the range and has the energy asked for; and there is a result if the energy is between the energies at the ends. -/
theorem exact_sound {brent} (hb : IsBrent brent) (c : Cal) (m : ℝ) (hm : c.maxPh = some m) (h0 : 1 / 1000000 ≤ m) (hc : ContinuousOn c.f (Set.Icc (1 / 1000000) m)) (e : ℝ) :
    (∀ r, exact1 brent c e = .ok r → 1 / 1000000 ≤ r ∧ r ≤ m ∧ c.f r = e) ∧
    ((∃ r, exact1 brent c e = .ok r) ↔ (c.f (1 / 1000000) ≤ e ∧ e ≤ c.f m) ∨ (c.f m ≤ e ∧ e ≤ c.f (1 / 1000000))) ∧
    ((¬ ∃ r, exact1 brent c e = .ok r) → exact1 brent c e = .error .value) := by
  unfold exact1
  rw [hm]
  dsimp only
  rcases le_or_gt ((c.f (1 / 1000000) - e) * (c.f m - e)) 0 with h | h
  · obtain ⟨x, hx, hx1, hx2, hx0⟩ := hb.root (fun q => c.f q - e) (1 / 1000000) m h0 (hc.sub continuousOn_const) h
    refine ⟨fun r hr => ?_, ⟨fun _ => ?_, fun _ => ⟨x, hx⟩⟩, fun hno => absurd ⟨x, hx⟩ hno⟩
    · rw [hx] at hr
      cases hr
      exact ⟨hx1, hx2, by linarith⟩
    · rcases mul_nonpos_iff.1 h with ⟨h3, h4⟩ | ⟨h3, h4⟩
      · exact Or.inr ⟨by linarith, by linarith⟩
      · exact Or.inl ⟨by linarith, by linarith⟩
  · have hv := hb.same (fun q => c.f q - e) (1 / 1000000) m h
    refine ⟨fun r hr => ?_, ⟨fun ⟨r, hr⟩ => ?_, fun ho => ?_⟩, fun _ => hv⟩
    · rw [hv] at hr; cases hr
    · rw [hv] at hr; cases hr
    · exfalso
      rcases ho with ⟨h3, h4⟩ | ⟨h3, h4⟩
      · have := mul_nonpos_of_nonpos_of_nonneg (a := c.f (1 / 1000000) - e) (b := c.f m - e) (by linarith) (by linarith)
        linarith
      · have := mul_nonpos_of_nonneg_of_nonpos (a := c.f (1 / 1000000) - e) (b := c.f m - e) (by linarith) (by linarith)
        linarith

/-! ### arrays -/

theorem newton_some (c : Cal) (e p : ℝ) : newton c e (some p) = if c.slope p = 0 then none else some (p - (c.f p - e) / c.slope p) := rfl

theorem mapM_error_of {α β : Type} (f : α → Except Exc β) : ∀ (l : List α) (x : Exc), l.mapM f = .error x → ∃ a ∈ l, f a = .error x := by
  intro l
  induction l with
  | nil => intro x h; cases h
  | cons a t ih =>
    intro x h
    rw [List.mapM_cons] at h
    cases ha : f a with
    | error y =>
      rw [ha] at h
      cases h
      exact ⟨a, by simp, ha⟩
    | ok v =>
      rw [ha] at h
      cases ht : t.mapM f with
      | error y =>
        rw [ht] at h
        cases h
        obtain ⟨b, hb, hb'⟩ := ih _ ht
        exact ⟨b, List.mem_cons_of_mem _ hb, hb'⟩
      | ok w => rw [ht] at h; cases h

theorem mapM_ok_iff {α β : Type} (f : α → Except Exc β) : ∀ (l : List α) (r : List β), l.mapM f = .ok r ↔ List.Forall₂ (fun a b => f a = .ok b) l r := by
  intro l
  induction l with
  | nil =>
    intro r
    constructor
    · intro h; cases h; exact List.Forall₂.nil
    · intro h; cases h; rfl
  | cons a t ih =>
    intro r
    rw [List.mapM_cons]
    cases ha : f a with
    | error y =>
      constructor
      · intro h; cases h
      · intro h; cases h with | cons h1 _ => rw [ha] at h1; cases h1
    | ok v =>
      cases ht : t.mapM f with
      | error y =>
        constructor
        · intro h; cases h
        · intro h
          cases h with
          | cons _ h2 => rw [(ih _).2 h2] at ht; cases ht
      | ok w =>
        constructor
        · intro h
          cases h
          exact List.Forall₂.cons ha ((ih _).1 ht)
        · intro h
          cases h with
          | cons h1 h2 =>
            rw [ha] at h1
            cases h1
            rw [(ih _).2 h2] at ht
            cases ht
            rfl

/-- C135. Up to 1024 energies (of integers too): each of them by itself; the call succeeds exactly if each does, and its error is that of one of them. -/
theorem short_spec (brent) (c : Cal) (ints : Bool) (es : List ℝ) (h : es.length ≤ 1024) :
    (∀ rs, exactMany brent c ints es = .ok rs ↔ List.Forall₂ (fun e r => ∃ p, r = some p ∧ exact1 brent c e = .ok p) es rs) ∧
    ∀ x, exactMany brent c ints es = .error x → ∃ e ∈ es, exact1 brent c e = .error x := by
  have hx : exactMany brent c ints es = es.mapM (fun e => (exact1 brent c e).map some) := by unfold exactMany; rw [if_neg (by omega)]
  rw [hx]
  constructor
  · intro rs
    rw [mapM_ok_iff]
    have : ∀ (e : ℝ) (r : Option ℝ), (exact1 brent c e).map some = .ok r ↔ ∃ p, r = some p ∧ exact1 brent c e = .ok p := by
      intro e r
      cases exact1 brent c e with
      | error y => simp [Except.map]
      | ok v =>
        simp only [Except.map, Except.ok.injEq]
        constructor
        · intro h; exact ⟨v, h.symm, rfl⟩
        · rintro ⟨p, rfl, rfl⟩; rfl
    simp only [this]
  · intro x hx
    obtain ⟨e, he, h1⟩ := mapM_error_of _ _ _ hx
    refine ⟨e, he, ?_⟩
    cases hv : exact1 brent c e with
    | error y => rw [hv] at h1; simpa [Except.map] using h1
    | ok v => rw [hv] at h1; cases h1

/-- C135. For a continuous strictly increasing curve, up to 1024 energies of pulse heights in the range are taken to these pulse heights. -/
theorem short_inverse {brent} (hb : IsBrent brent) (c : Cal) (m : ℝ) (hm : c.maxPh = some m) (hc : ContinuousOn c.f (Set.Icc (1 / 1000000) m)) (hs : StrictMonoOn c.f (Set.Icc (1 / 1000000) m))
    (ints : Bool) (ps : List ℝ) (hl : ps.length ≤ 1024) (hp : ∀ p ∈ ps, 1 / 1000000 ≤ p ∧ p ≤ m) : exactMany brent c ints (ps.map c.f) = .ok (ps.map some) := by
  refine ((short_spec brent c ints _ (by rw [List.length_map]; exact hl)).1 _).2 ?_
  rw [List.forall₂_map_left_iff, List.forall₂_map_right_iff, List.forall₂_same]
  exact fun p h => ⟨p, rfl, exact_inverse hb c m hm hc hs p (hp p h).1 (hp p h).2⟩

/-- C135. More than 1024 energies: one result for each, in order, which depends only on that energy. -/
theorem long_spec (brent) (c : Cal) (es : List ℝ) (h : 1024 < es.length) :
    ∃ rs, exactMany brent c false es = .ok rs ∧ rs.length = es.length ∧ ∀ i : Nat, rs[i]? = (es[i]?).map (newton5 c) := by
  refine ⟨es.map (newton5 c), ?_, by simp, fun i => by simp⟩
  unfold exactMany
  rw [if_pos h]
  rfl

/-- C135. The long way is exact if the curve is a straight line through the origin (any one-point gain curve), with its slope. -/
theorem long_line (brent) (c : Cal) (k : ℝ) (hk : k ≠ 0) (hf : ∀ p, c.f p = k * p) (hd : ∀ p, c.slope p = k) (ps : List ℝ) (h : 1024 < ps.length) :
    exactMany brent c false (ps.map c.f) = .ok (ps.map some) := by
  have hstep : ∀ e q : ℝ, newton c e (some q) = some (e / k) := by
    intro e q
    rw [newton_some, hd, hf, if_neg hk]
    congr 1
    field_simp
    ring
  obtain ⟨rs, h1, h2, h3⟩ := long_spec brent c (ps.map c.f) (by rw [List.length_map]; exact h)
  rw [h1]
  congr 1
  apply List.ext_getElem?
  intro i
  rw [h3 i, List.getElem?_map, List.getElem?_map]
  cases ps[i]? with
  | none => rfl
  | some p =>
    simp only [Option.map_some]
    unfold newton5
    rw [hstep, hstep, hstep, hstep, hstep, hf, mul_div_cancel_left₀ _ hk]

/-- C135. The long way never leaves a zero it has found: an energy equal to its own pulse height is returned as it is, if the slope there is not 0. -/
theorem long_fixed (c : Cal) (e : ℝ) (h : c.f e = e) (hd : c.slope e ≠ 0) : newton5 c e = some e := by
  have : newton c e (some e) = some e := by
    rw [newton_some, if_neg hd, h, sub_self, zero_div, sub_zero]
  unfold newton5
  rw [this, this, this, this, this]

/-! ### calibrations with points -/

theorem splineFn_continuous {pts : List (ℝ × ℝ)} {f : ℝ → ℝ} (h : splineFn pts = .ok f) (hnd : (pts.map Prod.fst).Nodup) : Continuous f := by
  unfold splineFn at h
  cases hS : mkSpline pts none none with
  | error x => rw [hS] at h; cases h
  | ok S =>
    rw [hS] at h
    simp only [Except.map, Except.ok.injEq] at h
    subst h
    exact continuous_iff_continuousAt.2 (fun t => (spline_smooth hS hnd t).continuousAt)

theorem clipLog_continuous : Continuous clipLog := by
  have : clipLog = fun x => Real.log (max x (1 / 1000000)) := rfl
  rw [this]
  refine Continuous.log (continuous_id.max continuous_const) (fun x => ?_)
  have : (0 : ℝ) < max x (1 / 1000000) := lt_of_lt_of_le (by norm_num) (le_max_right _ _)
  exact this.ne'

/-- C135. Every curve through two or more points except "gain" is continuous; the gain curve is where the interpolated gain is not 0. -/
theorem curve_continuous (curve : Nat) (nonlin : ℝ) (cols : List (ℝ × ℝ)) (h2 : 2 ≤ cols.length) (hnd : (cols.map Prod.fst).Nodup) (hu : Usable curve cols) (f : ℝ → ℝ)
    (hf : exactCurve curve nonlin cols = .ok f) (s : Set ℝ)
    (hg : curve = 3 → ∀ g, splineFn (cols.map (fun c => (c.1, c.1 / c.2))) = .ok g → ∀ p ∈ s, g p ≠ 0) : ContinuousOn f s := by
  obtain ⟨c1, c2, rest, rfl⟩ : ∃ c1 c2 rest, cols = c1 :: c2 :: rest := by
    match cols, h2 with
    | c1 :: c2 :: rest, _ => exact ⟨c1, c2, rest, rfl⟩
  generalize hcols : c1 :: c2 :: rest = cols at *
  have hE : exactCurve curve nonlin cols = _ := rfl
  unfold exactCurve at hf
  rw [← hcols] at hf
  dsimp only at hf
  rw [hcols] at hf
  have cont : ∀ (g : ℝ × ℝ → ℝ) (f : ℝ → ℝ), splineFn (cols.map (fun c => (c.1, g c))) = .ok f → Continuous f := by
    intro g f hf
    refine splineFn_continuous hf ?_
    rw [List.map_map]
    exact hnd
  by_cases k0 : curve = 0
  · rw [if_pos k0] at hf
    obtain ⟨g, hgk⟩ := splineFn_ok (cols.map (fun c => (Real.log c.1, Real.log c.2))) (by simpa using h2)
    rw [hgk] at hf
    simp only [Except.map, Except.ok.injEq] at hf
    subst hf
    have hc : Continuous g := by
      refine splineFn_continuous hgk ?_
      rw [show ((cols.map (fun c : ℝ × ℝ => (Real.log c.1, Real.log c.2))).map Prod.fst) = (cols.map Prod.fst).map Real.log by rw [List.map_map, List.map_map]; rfl]
      refine nodup_map_on (fun a ha b hb hab => ?_) hnd
      obtain ⟨ca, hca, rfl⟩ := List.mem_map.1 ha
      obtain ⟨cb, hcb, rfl⟩ := List.mem_map.1 hb
      have u0 := hu.1 k0
      exact Real.log_injOn_pos (by have := (u0 ca hca).1; exact Set.mem_Ioi.2 (by linarith)) (by have := (u0 cb hcb).1; exact Set.mem_Ioi.2 (by linarith)) hab
    exact (Real.continuous_exp.comp (hc.comp clipLog_continuous)).continuousOn
  rw [if_neg k0] at hf
  by_cases k1 : curve = 1
  · rw [if_pos k1] at hf
    exact (splineFn_continuous hf hnd).continuousOn
  rw [if_neg k1] at hf
  by_cases k2 : curve = 2
  · rw [if_pos k2] at hf
    refine (splineFn_continuous hf ?_).continuousOn
    unfold withZero
    split
    · exact hnd
    · rename_i h0
      rw [List.map_cons]
      exact List.nodup_cons.2 ⟨h0, hnd⟩
  rw [if_neg k2] at hf
  by_cases k3 : curve = 3
  · rw [if_pos k3] at hf
    obtain ⟨g, hgk⟩ := splineFn_ok (cols.map (fun c => (c.1, c.1 / c.2))) (by simpa using h2)
    rw [hgk] at hf
    have hf' : (gainRange (cols.map Prod.fst) g).map (fun _ p => p / g p) = .ok f := hf
    cases hr : gainRange (cols.map Prod.fst) g with
    | error x => rw [hr] at hf'; cases hf'
    | ok u =>
      rw [hr] at hf'
      simp only [Except.map, Except.ok.injEq] at hf'
      subst hf'
      exact continuousOn_id.div (cont (fun c => c.1 / c.2) g hgk).continuousOn (hg k3 g hgk)
  rw [if_neg k3] at hf
  by_cases k4 : curve = 4
  · rw [if_pos k4] at hf
    obtain ⟨g, hgk⟩ := splineFn_ok (cols.map (fun c => (c.1, c.2 / c.1))) (by simpa using h2)
    rw [hgk] at hf
    simp only [Except.map, Except.ok.injEq] at hf
    subst hf
    exact (continuous_id.mul (cont (fun c => c.2 / c.1) g hgk)).continuousOn
  rw [if_neg k4] at hf
  obtain ⟨g, hgk⟩ := splineFn_ok (cols.map (fun c => (c.1, Real.log (c.1 / c.2)))) (by simpa using h2)
  rw [hgk] at hf
  simp only [Except.map, Except.ok.injEq] at hf
  subst hf
  exact (continuous_id.mul (Real.continuous_exp.comp (cont (fun c => Real.log (c.1 / c.2)) g hgk).neg)).continuousOn

theorem le_foldl_max (l : List ℝ) : ∀ a : ℝ, a ≤ l.foldl max a ∧ ∀ x ∈ l, x ≤ l.foldl max a := by
  induction l with
  | nil => intro a; exact ⟨le_refl _, by simp⟩
  | cons b t ih =>
    intro a
    obtain ⟨h1, h2⟩ := ih (max a b)
    refine ⟨le_trans (le_max_left _ _) h1, fun x hx => ?_⟩
    rcases List.mem_cons.1 hx with rfl | hx
    · exact le_trans (le_max_right _ _) h1
    · exact h2 x hx

/-- C135. For every curve type but "gain": if the curve is strictly increasing on positive pulse heights (1e-6 and above), the exact inverse takes the energy of every calibration point of pulse height
at least 1e-6 back to its pulse height, and the energy of any pulse height up to twice the largest one back to it. -/
theorem exact_at_points {brent} (hb : IsBrent brent) (curve : Nat) (nonlin : ℝ) (cols : List (ℝ × ℝ)) (h2 : 2 ≤ cols.length) (hnd : (cols.map Prod.fst).Nodup) (hu : Usable curve cols)
    (h3 : curve ≠ 3) (hpos : ∀ c ∈ cols, 1 / 1000000 ≤ c.1) (g g1 inv : ℝ → ℝ) :
    ∃ f m, exactCurve curve nonlin cols = .ok f ∧ rangeTop brent curve (cols.map Prod.fst) g = .ok m ∧
      (StrictMonoOn f (Set.Icc (1 / 1000000) m) →
        (∀ c ∈ cols, exact1 brent ⟨f, g1, inv, some m⟩ c.2 = .ok c.1) ∧
        ∀ c ∈ cols, ∀ p, 1 / 1000000 ≤ p → p ≤ 2 * c.1 → exact1 brent ⟨f, g1, inv, some m⟩ (f p) = .ok p) := by
  obtain ⟨f, hf, hth⟩ := curve_through_points curve nonlin cols h2 hnd hu
  refine ⟨f, _, hf, by unfold rangeTop; rw [if_neg (fun h => h3 h.1)], fun hs => ?_⟩
  have hc := curve_continuous curve nonlin cols h2 hnd hu f hf (Set.Icc (1 / 1000000) (2 * (cols.map Prod.fst).foldl max ((cols.map Prod.fst).headD 0))) (fun h => absurd h h3)
  have hle : ∀ c ∈ cols, c.1 ≤ (cols.map Prod.fst).foldl max ((cols.map Prod.fst).headD 0) := fun c hc => (le_foldl_max _ _).2 _ (List.mem_map.2 ⟨c, hc, rfl⟩)
  have key : ∀ c ∈ cols, ∀ p, 1 / 1000000 ≤ p → p ≤ 2 * c.1 → exact1 brent ⟨f, g1, inv, some (2 * (cols.map Prod.fst).foldl max ((cols.map Prod.fst).headD 0))⟩ (f p) = .ok p := by
    intro c hcc p hp1 hp2
    exact exact_inverse hb ⟨f, g1, inv, some _⟩ _ rfl hc hs p hp1 (by have := hle c hcc; linarith)
  refine ⟨fun c hcc => ?_, key⟩
  have := key c hcc c.1 (hpos c hcc) (by have := hpos c hcc; linarith)
  rwa [hth c hcc] at this

/-- C135. With the gain positive at ten times the largest pulse height the range of the gain curve goes up to there; else to 99% of a zero of the gain. -/
theorem gain_top {brent} (hb : IsBrent brent) (phs : List ℝ) (g : ℝ → ℝ) (hg : Continuous g) (h2 : 2 ≤ phs.length) (hpos : ∀ p ∈ phs, 0 < p) :
    ∃ M, (∀ p ∈ phs, p ≤ M) ∧ M ∈ phs ∧
      (0 < g (10 * M) → rangeTop brent 3 phs g = .ok (10 * M)) ∧
      (g (10 * M) ≤ 0 → 0 ≤ g 0 → ∃ z, g z = 0 ∧ 0 ≤ z ∧ z ≤ 10 * M ∧ rangeTop brent 3 phs g = .ok (99 / 100 * z)) ∧
      (g (10 * M) < 0 → g 0 < 0 → rangeTop brent 3 phs g = .error .value) := by
  refine ⟨phs.foldl max (phs.headD 0), fun p hp => (le_foldl_max _ _).2 p hp, ?_, ?_⟩
  · match phs, h2 with
    | a :: t, _ =>
      have : ∀ (l : List ℝ) (a : ℝ), l.foldl max a = a ∨ l.foldl max a ∈ l := by
        intro l
        induction l with
        | nil => intro a; exact Or.inl rfl
        | cons b t ih =>
          intro a
          rw [List.foldl_cons]
          rcases ih (max a b) with h | h
          · rw [h]
            rcases max_choice a b with h | h
            · exact Or.inl h
            · exact Or.inr (by rw [h]; exact List.mem_cons_self)
          · exact Or.inr (List.mem_cons_of_mem _ h)
      rcases this (a :: t) a with h | h
      · rw [List.headD_cons, h]; exact List.mem_cons_self
      · exact h
  have hM : 0 < phs.foldl max (phs.headD 0) := by
    match phs, h2 with
    | a :: t, _ => exact lt_of_lt_of_le (hpos a List.mem_cons_self) ((le_foldl_max _ _).2 a List.mem_cons_self)
  generalize hMM : phs.foldl max (phs.headD 0) = M at *
  have hT : rangeTop brent 3 phs g = if 0 < g (10 * M) then .ok (10 * M) else (brent g 0 (10 * M)).map (fun r => 99 / 100 * r) := by
    unfold rangeTop
    rw [if_pos ⟨rfl, h2⟩, hMM]
  rw [hT]
  refine ⟨fun h => if_pos h, fun h h0 => ?_, fun h h0 => ?_⟩
  · rw [if_neg (not_lt.2 h)]
    obtain ⟨z, hz, hz1, hz2, hz0⟩ := hb.root g 0 (10 * M) (by linarith) hg.continuousOn (mul_nonpos_of_nonneg_of_nonpos h0 h)
    exact ⟨z, hz0, hz1, hz2, by rw [hz]; rfl⟩
  · rw [if_neg (by linarith), hb.same g 0 (10 * M) (mul_pos_of_neg_of_neg h0 h)]
    rfl

/-- C135. The slope by energy is the slope of the curve at the pulse height of that energy; a name stands for its energy. -/
theorem dedph_spec (c : Cal) (p e : ℝ) (h : c.e2ph e = p) (hd : HasDerivAt c.f (c.slope p) p) (features : String → Option ℝ) (name : String) :
    HasDerivAt c.f (dedph c e) p ∧ (features name = some e → name2ph c features name = .ok p) ∧ (features name = none → name2ph c features name = .error .key) := by
  refine ⟨by unfold dedph; rw [h]; exact hd, fun h1 => ?_, fun h1 => ?_⟩
  · unfold name2ph; rw [h1]; exact congrArg _ h
  · unfold name2ph; rw [h1]

/-! ### ismonotonic -/
section mono
variable {K : Type} [Field K] [LinearOrder K] [IsStrictOrderedRing K]

theorem rises_iff : ∀ l : List K, risesB l = true ↔ l.Pairwise (· < ·)
  | [] => by simp [risesB]
  | [a] => by simp [risesB]
  | a :: b :: t => by
    rw [risesB, Bool.and_eq_true, decide_eq_true_iff, rises_iff (b :: t), List.pairwise_cons (a := a) (l := b :: t), sub_pos]
    constructor
    · rintro ⟨h1, h2⟩
      refine ⟨fun x hx => ?_, h2⟩
      rcases List.mem_cons.1 hx with rfl | hx
      · exact h1
      · exact lt_trans h1 ((List.pairwise_cons.1 h2).1 x hx)
    · rintro ⟨h1, h2⟩
      exact ⟨h1 b List.mem_cons_self, h2⟩

/-- C135. ismonotonic is true exactly if the curve increases from each to each later one of the 1001 pulse heights equally spaced from 0 to 1.05 times the largest one; without points it is a ValueError. -/
theorem monotonic_spec (f : K → K) (p : K) (ps : List K) :
    isMonotonic f ([] : List K) = .error .value ∧ ∃ b M, isMonotonic f (p :: ps) = .ok b ∧ M ∈ p :: ps ∧ (∀ q ∈ p :: ps, q ≤ M) ∧
      (b = true ↔ ∀ i j : Nat, i < j → j ≤ 1000 → f ((i : K) / 1000 * (105 / 100 * M)) < f ((j : K) / 1000 * (105 / 100 * M))) := by
  refine ⟨rfl, _, ps.foldl max p, rfl, ?_, ?_, ?_⟩
  · induction ps generalizing p with
    | nil => exact List.mem_cons_self
    | cons q t ih =>
      rw [List.foldl_cons]
      rcases List.mem_cons.1 (ih (max p q)) with h | h
      · rw [h]
        rcases max_choice p q with h | h <;> rw [h] <;> simp
      · exact List.mem_cons_of_mem _ (List.mem_cons_of_mem _ h)
  · induction ps generalizing p with
    | nil => intro q hq; simp at hq; exact le_of_eq hq
    | cons a t ih =>
      intro q hq
      rw [List.foldl_cons]
      have h0 := ih (max p a)
      rcases List.mem_cons.1 hq with rfl | hq
      · exact le_trans (le_max_left _ _) (h0 _ List.mem_cons_self)
      · rcases List.mem_cons.1 hq with rfl | hq
        · exact le_trans (le_max_right _ _) (h0 _ List.mem_cons_self)
        · exact h0 q (List.mem_cons_of_mem _ hq)
  · generalize ps.foldl max p = M
    have hsam : ∀ i : Nat, sample M i = (i : K) / 1000 * (105 / 100 * M) := by
      intro i; unfold sample; ring
    rw [rises_iff, List.pairwise_map]
    simp only [hsam]
    rw [List.pairwise_iff_getElem]
    constructor
    · intro h i j hij hj
      have := h i j (by rw [List.length_range]; omega) (by rw [List.length_range]; omega) hij
      simpa using this
    · intro h i j hi hj hij
      rw [List.length_range] at hi hj
      simpa using h i j hij (by omega)

/-- C135. A curve strictly increasing from 0 on is called monotonic, if some pulse height is positive. -/
theorem monotonic_of_increasing (f : K → K) (hf : StrictMonoOn f (Set.Ici 0)) (phs : List K) (h : ∃ q ∈ phs, 0 < q) : isMonotonic f phs = .ok true := by
  obtain ⟨q, hq, hq0⟩ := h
  match phs, hq with
  | p :: ps, hq =>
    obtain ⟨_, b, M, h1, _, h3, h4⟩ := monotonic_spec f p ps
    have hM : 0 < M := lt_of_lt_of_le hq0 (h3 q hq)
    rw [h1]
    congr 1
    refine h4.2 (fun i j hij _ => ?_)
    have hij' : (i : K) < j := by exact_mod_cast hij
    have hi : (0 : K) ≤ i := Nat.cast_nonneg i
    refine hf (Set.mem_Ici.2 ?_) (Set.mem_Ici.2 ?_) ?_
    · positivity
    · positivity
    · have : 0 < 105 / 100 * M := by positivity
      exact mul_lt_mul_of_pos_right (by linarith [div_lt_div_of_pos_right hij' (show (0 : K) < 1000 by norm_num)]) this

/-- C135. With no positive pulse height a curve increasing on all of the line is not called monotonic. -/
theorem monotonic_negative (f : K → K) (hf : StrictMono f) (p : K) (ps : List K) (h : ∀ q ∈ p :: ps, q ≤ 0) : isMonotonic f (p :: ps) = .ok false := by
  obtain ⟨_, b, M, h1, h2, _, h4⟩ := monotonic_spec f p ps
  rw [h1]
  congr 1
  by_contra hb
  rw [Bool.not_eq_false] at hb
  have := hf.lt_iff_lt.1 (h4.1 hb 0 1 (by omega) (by omega))
  have hM := h M h2
  simp only [Nat.cast_zero, Nat.cast_one] at this
  have h5 : 1 / 1000 * (105 / 100 * M) ≤ 0 := mul_nonpos_of_nonneg_of_nonpos (by norm_num) (mul_nonpos_of_nonneg_of_nonpos (by norm_num) hM)
  linarith

end mono

/-! ### where the code differs -/

/-- eight calibration points close together between two others, with a step of 1.1 in energy for 0.1 in pulse height among them [specification] -/
def stepPoints : List (ℚ × ℚ) := [(1, 1), (500, 500), (5001 / 10, 5001 / 10), (5002 / 10, 5002 / 10), (5003 / 10, 5003 / 10), (5004 / 10, 5014 / 10), (5005 / 10, 5015 / 10),
  (5006 / 10, 5016 / 10), (5007 / 10, 5017 / 10), (1000, 1001)]

/-- Disagreement (C135): `ismonotonic` can be true for a curve which is not monotonic: the "linear" curve through the points above falls between pulse heights 500.2 and 500.21, between two of the
1001 samples. -/
theorem ismonotonic_fails : (mkSpline stepPoints none none).toOption.map (fun S =>
    ((isMonotonic (fun t => eval S t 0) (stepPoints.map Prod.fst)).toOption, decide (eval S (50021 / 100) 0 < eval S (5002 / 10) 0))) = some (some true, true) := by
  decide +kernel

/-- Disagreement (C135): energy2ph_exact of a new calibration is an AttributeError, although energy2ph and ph2energy are the identity; of more than 1024 energies it gives NaN for all of them. -/
theorem new_fails (brent) : (∀ e, exact1 brent .new e = .error .attribute ∧ Cal.new.e2ph e = e ∧ Cal.new.f e = e) ∧
    ∀ es : List ℝ, 1024 < es.length → exactMany brent .new false es = .ok (es.map (fun _ => none)) := by
  refine ⟨fun e => ⟨rfl, rfl, rfl⟩, fun es h => ?_⟩
  unfold exactMany
  rw [if_pos h]
  have : newton5 Cal.new = fun _ => none := by
    funext e
    unfold newton5
    have : ∀ o, newton Cal.new e o = none := by
      intro o
      cases o with
      | none => rfl
      | some p => exact (newton_some _ _ _).trans (if_pos (show (0 : ℝ) = 0 from rfl))
    rw [this]
  rw [this]
  rfl

/-- Disagreement (C135): the slope of a new calibration is given as 0 at every energy, although its curve is the identity, of slope 1. -/
theorem slope_new_fails (e : ℝ) : dedph .new e = 0 ∧ HasDerivAt Cal.new.f 1 (Cal.new.e2ph e) := ⟨rfl, hasDerivAt_id _⟩

/-- Disagreement (C135): energy2ph_exact of more than 1024 integers is a TypeError, for any calibration, although the same for up to 1024 works. -/
theorem long_int_fails (brent) (c : Cal) (es : List ℝ) (h : 1024 < es.length) : exactMany brent c true es = .error .type := by
  unfold exactMany
  rw [if_pos h]
  rfl

/-- Disagreement (C135): energy2ph_exact of more than 1024 energies starts Newton's method at the energies and stops after five steps. For the "invgain" curve through (1, 1000) and (2, 4000), which is
1000 p² and increasing, it gives more than 31 for each energy 1000, whose pulse height is 1. -/
theorem long_fails {brent} (hb : IsBrent brent) (inv : ℝ → ℝ) (n : Nat) (hn : 1024 < n) : ∃ f r, exactCurve 4 1 [(1, 1000), (2, 4000)] = .ok f ∧ (∀ p, f p = 1000 * p ^ 2 ∧ HasDerivAt f (2000 * p) p) ∧
    exactMany brent ⟨f, fun p => 2000 * p, inv, some 4⟩ false (List.replicate n 1000) = .ok (List.replicate n (some r)) ∧ 31 < r ∧
    exact1 brent ⟨f, fun p => 2000 * p, inv, some 4⟩ 1000 = .ok 1 := by
  have hline : splineFn ([((1 : ℝ), (1000 : ℝ)), (2, 4000)].map (fun c => (c.1, c.2 / c.1))) = .ok (fun t => 1000 * t + 0) := by
    unfold splineFn
    obtain ⟨S, hS⟩ : ∃ S, mkSpline ([((1 : ℝ), (1000 : ℝ)), (2, 4000)].map (fun c => (c.1, c.2 / c.1))) none none = .ok S := by
      unfold mkSpline
      rw [if_neg (by simp)]
      exact ⟨_, rfl⟩
    rw [hS]
    simp only [Except.map, Except.ok.injEq]
    funext t
    refine spline_line hS (by norm_num) 1000 0 ?_ (by simp) (by simp) t
    intro p hp
    simp only [List.map_cons, List.map_nil, List.mem_cons, List.not_mem_nil, or_false] at hp
    rcases hp with rfl | rfl <;> norm_num
  have hf : exactCurve 4 1 [((1 : ℝ), (1000 : ℝ)), (2, 4000)] = .ok (fun p => p * (1000 * p + 0)) := by
    unfold exactCurve
    simp only [if_true, show ¬ (4 : Nat) = 0 by decide, show ¬ (4 : Nat) = 1 by decide, show ¬ (4 : Nat) = 2 by decide, show ¬ (4 : Nat) = 3 by decide, if_false]
    rw [hline]
    rfl
  have hfp : ∀ p : ℝ, p * (1000 * p + 0) = 1000 * p ^ 2 := fun p => by ring
  set c : Cal := ⟨fun p => p * (1000 * p + 0), fun p => 2000 * p, inv, some 4⟩ with hc
  have hstep : ∀ q : ℝ, 0 < q → newton c 1000 (some q) = some (q / 2 + 1 / (2 * q)) := by
    intro q hq
    have hne : c.slope q ≠ 0 := by show 2000 * q ≠ 0; positivity
    rw [newton_some, if_neg hne]
    show some (q - (q * (1000 * q + 0) - 1000) / (2000 * q)) = _
    congr 1
    field_simp
    ring
  have hbig : ∀ q : ℝ, 0 < q → 0 < q / 2 + 1 / (2 * q) ∧ q / 2 < q / 2 + 1 / (2 * q) := by
    intro q hq
    have : 0 < 1 / (2 * q) := by positivity
    exact ⟨by linarith, by linarith⟩
  refine ⟨_, (newton5 c 1000).getD 0, hf, fun p => ⟨hfp p, ?_⟩, ?_, ?_, ?_⟩
  · have h1 := ((hasDerivAt_id p).pow 2).const_mul 1000
    simp only [id] at h1
    have e1 : (fun p : ℝ => p * (1000 * p + 0)) = fun y => 1000 * y ^ 2 := by funext y; ring
    rw [e1]
    have e2 : (1000 : ℝ) * (((2 : ℕ) : ℝ) * p ^ (2 - 1) * 1) = 2000 * p := by norm_num; ring
    rw [← e2]
    exact h1
  · unfold exactMany
    rw [if_pos (by rw [List.length_replicate]; exact hn), List.map_replicate]
    show Except.ok _ = Except.ok _
    congr 2
    unfold newton5
    rw [hstep _ (by norm_num), hstep _ (hbig _ (by norm_num)).1, hstep _ (hbig _ (hbig _ (by norm_num)).1).1, hstep _ (hbig _ (hbig _ (hbig _ (by norm_num)).1).1).1,
      hstep _ (hbig _ (hbig _ (hbig _ (hbig _ (by norm_num)).1).1).1).1]
    rfl
  · unfold newton5
    have a1 := hbig 1000 (by norm_num)
    have a2 := hbig _ a1.1
    have a3 := hbig _ a2.1
    have a4 := hbig _ a3.1
    have a5 := hbig _ a4.1
    rw [hstep _ (by norm_num), hstep _ a1.1, hstep _ a2.1, hstep _ a3.1, hstep _ a4.1]
    rw [Option.getD_some]
    linarith [a1.2, a2.2, a3.2, a4.2, a5.2]
  · have hs : StrictMonoOn c.f (Set.Icc (1 / 1000000) 4) := by
      intro a ha b hb' hab
      show a * (1000 * a + 0) < b * (1000 * b + 0)
      have := ha.1
      nlinarith
    have hcc : ContinuousOn c.f (Set.Icc (1 / 1000000) 4) := (continuous_id.mul ((continuous_const.mul continuous_id).add continuous_const)).continuousOn
    have := exact_inverse hb c 4 rfl hcc hs 1 (by norm_num) (by norm_num)
    rwa [show c.f 1 = 1000 by show (1 : ℝ) * (1000 * 1 + 0) = 1000; norm_num] at this

/-- Disagreement (C135): the range searched for a gain curve can end below its highest calibration point, as it is cut at 99% of the zero of the gain: for points (99, 99) and (100, 250) the exact
inverse of the energy 250 is a ValueError. -/
theorem gain_top_fails {brent} (hb : IsBrent brent) (g1 inv : ℝ → ℝ) : ∃ g f m, splineFn ([((99 : ℝ), (99 : ℝ)), (100, 250)].map (fun c => (c.1, c.1 / c.2))) = .ok g ∧
    exactCurve 3 1 [(99, 99), (100, 250)] = .ok f ∧ f 100 = 250 ∧ rangeTop brent 3 [99, 100] g = .ok m ∧ m < 100 ∧ exact1 brent ⟨f, g1, inv, some m⟩ 250 = .error .value := by
  have hline : splineFn ([((99 : ℝ), (99 : ℝ)), (100, 250)].map (fun c => (c.1, c.1 / c.2))) = .ok (fun t => -(3 / 5) * t + 302 / 5) := by
    unfold splineFn
    obtain ⟨S, hS⟩ : ∃ S, mkSpline ([((99 : ℝ), (99 : ℝ)), (100, 250)].map (fun c => (c.1, c.1 / c.2))) none none = .ok S := by
      unfold mkSpline
      rw [if_neg (by simp)]
      exact ⟨_, rfl⟩
    rw [hS]
    simp only [Except.map, Except.ok.injEq]
    funext t
    refine spline_line hS (by norm_num) _ _ ?_ (by simp) (by simp) t
    intro p hp
    simp only [List.map_cons, List.map_nil, List.mem_cons, List.not_mem_nil, or_false] at hp
    rcases hp with rfl | rfl <;> norm_num
  have hm : ([99, 100] : List ℝ).foldl max (([99, 100] : List ℝ).headD 0) = 100 := by norm_num
  have hf : exactCurve 3 1 [((99 : ℝ), (99 : ℝ)), (100, 250)] = .ok (fun p => p / (-(3 / 5) * p + 302 / 5)) := by
    unfold exactCurve
    simp only [if_true, show ¬ (3 : Nat) = 0 by decide, show ¬ (3 : Nat) = 1 by decide, show ¬ (3 : Nat) = 2 by decide, if_false]
    rw [hline]
    show (gainRange [99, 100] _).map _ = _
    unfold gainRange
    dsimp only
    rw [hm, if_neg (by norm_num), if_neg (by norm_num)]
    rfl
  obtain ⟨z, hz, hz1, hz2, hz0⟩ := hb.root (fun t => -(3 / 5) * t + 302 / 5) 0 (10 * 100) (by norm_num) (by fun_prop) (by norm_num)
  have hzv : z = 302 / 3 := by linarith
  refine ⟨_, _, 99 / 100 * z, hline, hf, by norm_num, ?_, by rw [hzv]; norm_num, ?_⟩
  · unfold rangeTop
    rw [if_pos ⟨rfl, by simp⟩, hm, if_neg (by norm_num), hz]
    rfl
  · unfold exact1
    rw [hzv]
    refine hb.same _ _ _ ?_
    norm_num

/-! ### examples -/

example {brent} (hb : IsBrent brent) : exact1 brent ⟨fun p => 3 * p, fun _ => 3, fun e => e / 3, some 20⟩ 12 = .ok 4 := by
  have := exact_inverse hb ⟨fun p => 3 * p, fun _ => 3, fun e => e / 3, some 20⟩ 20 rfl (by fun_prop) (fun a _ b _ h => by show 3 * a < 3 * b; linarith) 4 (by norm_num) (by norm_num)
  norm_num at this
  exact this

example : isMonotonic (fun p : ℚ => p * p) [1, 2] = .ok true := by decide +kernel
example : isMonotonic (fun p : ℚ => p * (3 - p)) [1, 2] = .ok false := by decide +kernel
example : isMonotonic (fun p : ℚ => p) [] = .error .value := rfl

end Mass.Calc.Invert
