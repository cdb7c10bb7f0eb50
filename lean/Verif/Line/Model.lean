import Verif.Line.Spectral
import Verif.Line.Tails
/-! C93: the model of a line in a histogram. C94: what a fit minimizes (mass/calibration/line_models.py). Values are real numbers. -/
namespace Mass.Line
open Real MeasureTheory Set

open Classical in
/-- line_models.py L76-84 `_scale_add_bg`. -/
noncomputable def scaleAddBg (spectrum : List ℝ) (integral bg slope : ℝ) : List ℝ :=
  spectrum.zipIdx.map (fun e : ℝ × ℕ =>
    let b := bg + (if slope ≠ 0 then slope * e.2 else 0)
    e.1 * integral + (if b < 0 then 0 else b))

open Classical in
/-- line_models.py L273-274 and L286-287: refuse negative values. (NaN is not a real number; it comes of `dph_de = 0` or of a line without any width.) -/
noncomputable def refuseNegative (r : List ℝ) : Except Exc (List ℝ) := if r.any (fun z => z < 0) then .error .value else .ok r

/-- line_models.py L279-290, the model function without tails; `peak` is the line's peak energy, `qe` the quantum efficiency if there is one. -/
noncomputable def modelClean (wre : ℝ → ℝ → ℝ) (l : SpectralLine) (peak : ℝ) (qe : Option (ℝ → ℝ)) (bins : List ℝ)
    (fwhm peakPh dphde integral bg slope : ℝ) : Except Exc (List ℝ) :=
  match bins with
  | b0 :: b1 :: _ => do
    let energy := bins.map (fun b => (b - peakPh) / dphde + peak)
    let spectrum ← energy.mapM (fun e => pdf wre l e fwhm)
    let r ← refuseNegative (scaleAddBg spectrum (integral * (b1 - b0) / dphde) bg slope)
    match qe with
    | none => .ok r
    | some q => .ok ((r.zip energy).map (fun e => e.1 * q e.2))
  | _ => .error .index

/-- line_models.py L258-277, the model function with tails. -/
noncomputable def modelTails (wre : ℝ → ℝ → ℝ) (l : SpectralLine) (peak : ℝ) (qe : Option (ℝ → ℝ)) (bins : List ℝ)
    (fwhm peakPh dphde integral bg slope frac tau share tauHi : ℝ) : Except Exc (List ℝ) :=
  match bins with
  | b0 :: b1 :: _ => do
    let energy := bins.map (fun b => (b - peakPh) / dphde + peak)
    let spectrum ← smear (fun e => pdf wre l e fwhm) energy fwhm frac (tau * dphde) share (tauHi * dphde)
    let r ← refuseNegative (scaleAddBg spectrum (integral * (b1 - b0) * dphde) bg slope)
    match qe with
    | none => .ok r
    | some q => .ok ((r.zip energy).map (fun e => e.1 * q e.2))
  | _ => .error .index

theorem scaleAddBg_get (s : List ℝ) (integral bg slope : ℝ) : scaleAddBg s integral bg slope = s.zipIdx.map (fun e : ℝ × ℕ => integral * e.1 + max 0 (bg + slope * (e.2 : ℝ))) := by
  unfold scaleAddBg
  refine List.map_congr_left fun e _ => ?_
  dsimp only
  have : (if slope ≠ 0 then slope * (e.2 : ℝ) else 0) = slope * e.2 := by
    split
    · rfl
    · rename_i h
      rw [not_not.1 h, zero_mul]
  rw [this, mul_comm]
  congr 1
  split
  · rename_i h
    rw [max_eq_left h.le]
  · rename_i h
    rw [max_eq_right (not_lt.1 h)]

theorem refuse_iff (r : List ℝ) : (∃ z ∈ r, z < 0) ∧ refuseNegative r = .error .value ∨ (∀ z ∈ r, 0 ≤ z) ∧ refuseNegative r = .ok r := by
  unfold refuseNegative
  by_cases h : ∃ z ∈ r, z < 0
  · left
    refine ⟨h, if_pos ?_⟩
    obtain ⟨z, hz, hz'⟩ := h
    exact List.any_eq_true.2 ⟨z, hz, by simpa using hz'⟩
  · right
    push Not at h
    refine ⟨h, if_neg ?_⟩
    intro hc
    obtain ⟨z, hz, hz'⟩ := List.any_eq_true.1 hc
    have := h z hz
    simp at hz'
    linarith

theorem IsDensity.affine {f : ℝ → ℝ} (hf : IsDensity f) {d : ℝ} (hd : 0 < d) (p c : ℝ) : IsDensity (fun x => f ((x - p) / d + c) / d) := by
  have e : (fun x => f ((x - p) / d + c) / d) = fun x => (fun v => (fun u => f (u + c) / d) (v / d)) (x - p) := rfl
  have hint : Integrable (fun u => f (u + c) / d) := (hf.2.1.comp_add_right c).div_const d
  refine ⟨fun x => div_nonneg (hf.1 _) hd.le, ?_, ?_⟩
  · rw [e]
    exact (hint.comp_div hd.ne').comp_sub_right p
  · rw [e, integral_sub_right_eq_self (fun v => (fun u => f (u + c) / d) (v / d)), Measure.integral_comp_div (fun u => f (u + c) / d), abs_of_pos hd,
      integral_div, integral_add_right_eq_self f c, hf.2.2, smul_eq_mul]
    field_simp

/-- C93. The model without tails: each bin holds integral * bin width * (a density of total 1 in pulse-height units) plus the background, which is never
below 0; negative values are refused; the efficiency multiplies at the bin's energy. -/
theorem model_clean {wre : ℝ → ℝ → ℝ} (l : SpectralLine) (peak : ℝ) (bins : List ℝ) (h2 : 2 ≤ bins.length) {fwhm : ℝ} {f : ℝ → ℝ}
    (hf : ∀ x, pdf wre l x fwhm = .ok (f x)) (hd : IsDensity f) (peakPh dphde integral bg slope : ℝ) (hdp : 0 < dphde) :
    ∃ g, IsDensity g ∧ (∀ ph, g ph = f ((ph - peakPh) / dphde + peak) / dphde) ∧
      ∀ r, r = bins.zipIdx.map (fun e : ℝ × ℕ => integral * (bins[1] - bins[0]) * g e.1 + max 0 (bg + slope * (e.2 : ℝ))) →
        (bins[0] ≤ bins[1] → 0 ≤ integral → ∀ z ∈ r, 0 ≤ z) ∧
        ∀ qe, ((∃ z ∈ r, z < 0) → modelClean wre l peak qe bins fwhm peakPh dphde integral bg slope = .error .value) ∧
          ((∀ z ∈ r, 0 ≤ z) → modelClean wre l peak qe bins fwhm peakPh dphde integral bg slope =
            .ok (match qe with | none => r | some q => (r.zip bins).map (fun e => e.1 * q ((e.2 - peakPh) / dphde + peak)))) := by
  refine ⟨_, hd.affine hdp peakPh peak, fun _ => rfl, fun r hr => ⟨fun hb hi z hz => ?_, fun qe => ?_⟩⟩
  · rw [hr] at hz
    obtain ⟨e, -, rfl⟩ := List.mem_map.1 hz
    have := (hd.affine hdp peakPh peak).1 e.1
    have h3 : (0 : ℝ) ≤ bins[1] - bins[0] := sub_nonneg.2 hb
    exact add_nonneg (mul_nonneg (mul_nonneg hi h3) this) (le_max_left _ _)
  match bins, h2 with
  | b0 :: b1 :: rest, _ =>
  simp only [List.getElem_cons_zero, List.getElem_cons_succ] at hr
  have hsc : scaleAddBg (((b0 :: b1 :: rest).map (fun b => (b - peakPh) / dphde + peak)).map f) (integral * (b1 - b0) / dphde) bg slope = r := by
    rw [scaleAddBg_get, hr, List.map_map, List.zipIdx_map, List.map_map]
    refine List.map_congr_left fun e _ => ?_
    simp only [Function.comp, Prod.map_fst, Prod.map_snd, id_eq]
    congr 1
    ring
  unfold modelClean
  simp only [bind, Except.bind]
  rw [mapM_ok hf]
  dsimp only
  rw [hsc]
  rcases refuse_iff r with ⟨h3, h4⟩ | ⟨h3, h4⟩
  · refine ⟨fun _ => by rw [h4], fun h5 => ?_⟩
    obtain ⟨z, hz, hz'⟩ := h3
    exact absurd (h5 z hz) (not_le.2 hz')
  · refine ⟨fun h5 => ?_, fun _ => ?_⟩
    · obtain ⟨z, hz, hz'⟩ := h5
      exact absurd (h3 z hz) (not_le.2 hz')
    · rw [h4]
      cases qe with
      | none => rfl
      | some q =>
        dsimp only
        rw [List.zip_map_right, List.map_map]
        rfl

/-- C93. Asking for tails changes the total: with no events in the tails the model is `dph_de ^ 2` times the one without tails (the scale factor multiplies
by `dph_de` where it should divide), so its integral is not the parameter `integral` unless `dph_de = 1`. -/
theorem model_tails_scale_fails {wre : ℝ → ℝ → ℝ} (l : SpectralLine) (peak : ℝ) (bins : List ℝ) (h2 : 2 ≤ bins.length) {fwhm : ℝ} {f : ℝ → ℝ}
    (hf : ∀ x, pdf wre l x fwhm = .ok (f x)) (hd : IsDensity f) (peakPh dphde integral tau share tauHi : ℝ) (hdp : 0 < dphde)
    (hb : bins[0] ≤ bins[1]) (hi : 0 ≤ integral) :
    ∃ r, modelClean wre l peak none bins fwhm peakPh dphde integral 0 0 = .ok r ∧
      modelTails wre l peak none bins fwhm peakPh dphde integral 0 0 0 tau share tauHi = .ok (r.map (dphde ^ 2 * ·)) := by
  obtain ⟨g, hg, hgf, h⟩ := model_clean (wre := wre) l peak bins h2 hf hd peakPh dphde integral 0 0 hdp
  obtain ⟨h3, h4⟩ := h _ rfl
  refine ⟨_, (h4 none).2 (h3 hb hi), ?_⟩
  have h5 := h3 hb hi
  match bins, h2 with
  | b0 :: b1 :: rest, _ =>
  simp only [List.getElem_cons_zero, List.getElem_cons_succ] at *
  have hsc : scaleAddBg (((b0 :: b1 :: rest).map (fun b => (b - peakPh) / dphde + peak)).map f) (integral * (b1 - b0) * dphde) 0 0
      = (((b0 :: b1 :: rest).zipIdx.map (fun e : ℝ × ℕ => integral * (b1 - b0) * g e.1 + max 0 (0 + 0 * (e.2 : ℝ))))).map (dphde ^ 2 * ·) := by
    rw [scaleAddBg_get, List.map_map, List.map_map, List.zipIdx_map, List.map_map]
    refine List.map_congr_left fun e _ => ?_
    simp only [Function.comp, Prod.map_fst, Prod.map_snd, id_eq, zero_mul, add_zero, max_self, hgf]
    field_simp
  unfold modelTails
  simp only [bind, Except.bind]
  rw [((smear_tails hf _ _ _ _ _ _).1 (by norm_num))]
  dsimp only
  rw [hsc]
  rcases refuse_iff (((b0 :: b1 :: rest).zipIdx.map (fun e : ℝ × ℕ => integral * (b1 - b0) * g e.1 + max 0 (0 + 0 * (e.2 : ℝ)))).map (dphde ^ 2 * ·)) with ⟨h6, h7⟩ | ⟨h6, h7⟩
  · exfalso
    obtain ⟨z, hz, hz'⟩ := h6
    obtain ⟨y, hy, rfl⟩ := List.mem_map.1 hz
    have := h5 y hy
    have : 0 ≤ dphde ^ 2 * y := by positivity
    linarith
  · rw [h7]

/-- C93. The model without tails does not depend on the unit of pulse heights: with bins, peak and gain in another unit the counts are the same. -/
theorem model_clean_units (wre : ℝ → ℝ → ℝ) (l : SpectralLine) (peak : ℝ) (qe : Option (ℝ → ℝ)) (bins : List ℝ) (fwhm peakPh dphde integral bg slope : ℝ) {c : ℝ} (hc : 0 < c) :
    modelClean wre l peak qe (bins.map (c * ·)) fwhm (c * peakPh) (c * dphde) integral bg slope = modelClean wre l peak qe bins fwhm peakPh dphde integral bg slope := by
  have he : ∀ bs : List ℝ, (bs.map (c * ·)).map (fun b => (b - c * peakPh) / (c * dphde) + peak) = bs.map (fun b => (b - peakPh) / dphde + peak) := by
    intro bs
    rw [List.map_map]
    refine List.map_congr_left fun b _ => ?_
    dsimp only [Function.comp]
    rw [← mul_sub, mul_div_mul_left _ _ hc.ne']
  match bins with
  | [] => rfl
  | [_] => rfl
  | b0 :: b1 :: t =>
    have hs : integral * (c * b1 - c * b0) / (c * dphde) = integral * (b1 - b0) / dphde := by
      rw [← mul_sub, mul_left_comm, mul_div_mul_left _ _ hc.ne']
    have h3 := he (b0 :: b1 :: t)
    unfold modelClean
    simp only [List.map_cons] at h3 ⊢
    rw [hs, h3]

/-- Disagreement (C93): the lengths of tails are said to be in units of energy, but are used as if they were in units of pulse height on an axis of energies: in another unit of pulse heights (`c` times as large numbers) the
model has tails `c` times as long, and `c ^ 2` times the counts. -/
theorem model_tails_units_fails (wre : ℝ → ℝ → ℝ) (l : SpectralLine) (peak : ℝ) (bins : List ℝ) (fwhm peakPh dphde integral frac tau share tauHi : ℝ) {c : ℝ} (hc : 0 < c) :
    modelTails wre l peak none (bins.map (c * ·)) fwhm (c * peakPh) (c * dphde) integral 0 0 frac tau share tauHi =
      (modelTails wre l peak none bins fwhm peakPh dphde integral 0 0 frac (c * tau) share (c * tauHi)).map (fun r => r.map (c ^ 2 * ·)) := by
  have he : ∀ bs : List ℝ, (bs.map (c * ·)).map (fun b => (b - c * peakPh) / (c * dphde) + peak) = bs.map (fun b => (b - peakPh) / dphde + peak) := by
    intro bs
    rw [List.map_map]
    refine List.map_congr_left fun b _ => ?_
    dsimp only [Function.comp]
    rw [← mul_sub, mul_div_mul_left _ _ hc.ne']
  match bins with
  | [] => rfl
  | [_] => rfl
  | b0 :: b1 :: t =>
    have h3 := he (b0 :: b1 :: t)
    have ht : ∀ x : ℝ, x * (c * dphde) = c * x * dphde := fun x => by ring
    unfold modelTails
    simp only [List.map_cons] at h3 ⊢
    rw [h3, ht, ht]
    simp only [bind, Except.bind]
    generalize smear (fun e => pdf wre l e fwhm) _ fwhm frac (c * tau * dphde) share (c * tauHi * dphde) = sp
    cases sp with
    | error e => rfl
    | ok s =>
      dsimp only
      have hr : scaleAddBg s (integral * (c * b1 - c * b0) * (c * dphde)) 0 0 = (scaleAddBg s (integral * (b1 - b0) * dphde) 0 0).map (c ^ 2 * ·) := by
        rw [scaleAddBg_get, scaleAddBg_get, List.map_map]
        refine List.map_congr_left fun e _ => ?_
        simp only [Function.comp, zero_mul, add_zero, max_self]
        ring
      rw [hr]
      have hc2 : (0 : ℝ) < c ^ 2 := by positivity
      rcases refuse_iff (scaleAddBg s (integral * (b1 - b0) * dphde) 0 0) with ⟨⟨z, hz, hz'⟩, h7⟩ | ⟨h6, h7⟩
      · rw [h7]
        rcases refuse_iff ((scaleAddBg s (integral * (b1 - b0) * dphde) 0 0).map (c ^ 2 * ·)) with ⟨_, h8⟩ | ⟨h8, _⟩
        · rw [h8]
          rfl
        · have := h8 _ (List.mem_map_of_mem hz)
          have := mul_neg_of_pos_of_neg hc2 hz'
          linarith
      · rw [h7]
        rcases refuse_iff ((scaleAddBg s (integral * (b1 - b0) * dphde) 0 0).map (c ^ 2 * ·)) with ⟨⟨z, hz, hz'⟩, _⟩ | ⟨_, h8⟩
        · obtain ⟨y, hy, rfl⟩ := List.mem_map.1 hz
          have := mul_nonneg hc2.le (h6 y hy)
          linarith
        · rw [h8]
          rfl

-- example for C93: a Lorentzian of width 2 in two bins at and beside the peak, gain 10, 1000 counts: 1000 * 1 / (10 pi) in the first bin
example (wre : ℝ → ℝ → ℝ) : modelClean wre ⟨[50], [2], 0, [1]⟩ 50 none [500, 501] 0 500 10 1000 3 (-2) = .ok [1000 / (10 * π) + 3, 1000 / (10 * π * (101 / 100)) + 1] := by
  have hp : ∀ x, pdf wre ⟨[50], [2], 0, [1]⟩ x 0 = .ok (lorentz 1 (x - 50)) := by
    intro x
    unfold pdf gaussianSigma
    rw [if_pos le_rfl]
    simp only [bind, Except.bind, zero_div]
    norm_num
    exact voigt_lorentz wre one_pos x 50
  obtain ⟨g, hg, hgf, h⟩ := model_clean (wre := wre) ⟨[50], [2], 0, [1]⟩ 50 [500, 501] (by simp) hp ((lorentz_density one_pos).shift 50) 500 10 1000 3 (-2) (by norm_num)
  obtain ⟨h3, h4⟩ := h _ rfl
  rw [(h4 none).2 (h3 (by norm_num) (by norm_num))]
  simp only [List.zipIdx_cons, List.zipIdx_nil, List.map_cons, List.map_nil, hgf]
  unfold lorentz
  have := pi_pos
  congr 2
  · norm_num
    field_simp
  · norm_num
    field_simp

/-! ### what a fit minimizes -/

open Classical in
/-- line_models.py L97-102, L223-225: half of the contribution of one bin with model `y` and count `d`. -/
noncomputable def halfTerm (y d : ℝ) : ℝ := if d > 0 then (y - d) + d * log (d / y) else y - d

open Classical in
/-- line_models.py L92-113 `MLEModel._residual` with data. -/
noncomputable def residual (y d : List ℝ) : List ℝ :=
  (y.zip d).map (fun e =>
    let r2 := halfTerm e.1 e.2
    let v := if r2 > 0 then √(2 * r2) else 0
    if e.1 < e.2 then v * -1 else v)

open Classical in
/-- line_models.py L216-228 `CompositeMLEModel._residual` with data. -/
noncomputable def residualComposite (y d : List ℝ) : List ℝ :=
  (y.zip d).map (fun e =>
    let v := (2 * halfTerm e.1 e.2) ^ (1 / 2 : ℝ)
    if e.1 < e.2 then v * -1 else v)

/-- likelihood of counts `d` under independent Poisson distributions of means `y` [specification] -/
noncomputable def likelihood (y : List ℝ) (d : List ℕ) : ℝ := ((y.zip d).map (fun e => exp (-e.1) * e.1 ^ e.2 / (e.2.factorial : ℝ))).prod

theorem halfTerm_nonneg {y d : ℝ} (hd : 0 ≤ d) (hy : 0 ≤ y) (hyd : 0 < d → 0 < y) : 0 ≤ halfTerm y d ∧ (halfTerm y d = 0 ↔ y = d) := by
  unfold halfTerm
  split
  · rename_i h
    have hy' := hyd h
    have h1 : log (y / d) ≤ y / d - 1 := log_le_sub_one_of_pos (by positivity)
    have h2 : log (d / y) = -log (y / d) := by rw [← log_inv, inv_div]
    have h3 : (y - d) + d * log (d / y) = d * (y / d - 1 - log (y / d)) := by
      rw [h2]
      field_simp
      ring
    rw [h3]
    refine ⟨mul_nonneg hd (by linarith), ?_⟩
    constructor
    · intro h4
      by_contra hne
      have h5 : log (y / d) < y / d - 1 := log_lt_sub_one_of_pos (by positivity) (by rw [Ne, div_eq_one_iff_eq h.ne']; exact hne)
      have : 0 < d * (y / d - 1 - log (y / d)) := mul_pos h (by linarith)
      linarith
    · rintro rfl
      rw [div_self h.ne']
      simp
  · rename_i h
    have : d = 0 := le_antisymm (not_lt.1 h) hd
    subst this
    simp [hy]

/-- the counts are possible under the model: no counts where it says 0 -/
def Possible (y : List ℝ) (d : List ℕ) : Prop := y.length = d.length ∧ ∀ e ∈ y.zip d, 0 ≤ e.1 ∧ (0 < e.2 → 0 < e.1)

theorem likelihood_pos {y : List ℝ} {d : List ℕ} (h : Possible y d) : 0 < likelihood y d := by
  unfold likelihood
  apply List.prod_pos
  intro z hz
  obtain ⟨e, he, rfl⟩ := List.mem_map.1 hz
  have := h.2 e he
  rcases Nat.eq_zero_or_pos e.2 with h0 | h0
  · rw [h0]
    simp [exp_pos]
  · have := this.2 h0
    positivity

theorem cast_zip (d : List ℕ) : (d.map (fun n : ℕ => (n : ℝ))).zip d = d.map (fun n : ℕ => ((n : ℝ), n)) := by
  induction d with
  | nil => rfl
  | cons a t ih => simp [ih]

theorem sum_residual {y : List ℝ} {d : List ℕ} (h : Possible y d) :
    ((residual y (d.map (fun n : ℕ => (n : ℝ)))).map (· ^ 2)).sum = 2 * (log (likelihood (d.map (fun n : ℕ => (n : ℝ))) d) - log (likelihood y d)) := by
  obtain ⟨hl, h⟩ := h
  unfold residual likelihood
  induction y generalizing d with
  | nil =>
    have : d = [] := List.length_eq_zero_iff.1 hl.symm
    subst this
    simp
  | cons a t ih =>
    match d, hl with
    | n :: d', hl =>
    have h1 := h (a, n) (by simp)
    dsimp only at h1
    have hrest : ∀ e ∈ t.zip d', 0 ≤ e.1 ∧ (0 < e.2 → 0 < e.1) := fun e he => h e (by simp [he])
    have ih' := ih (by simpa using hl) hrest
    simp only [List.map_cons, List.zip_cons_cons, List.prod_cons, List.sum_cons] at ih' ⊢
    have hp1 : 0 < ((t.zip d').map (fun e => exp (-e.1) * e.1 ^ e.2 / (e.2.factorial : ℝ))).prod := likelihood_pos ⟨by simpa using hl, hrest⟩
    have hp2 : 0 < (((d'.map (fun n : ℕ => (n : ℝ))).zip d').map (fun e => exp (-e.1) * e.1 ^ e.2 / (e.2.factorial : ℝ))).prod := by
      refine likelihood_pos (y := d'.map (fun n : ℕ => (n : ℝ))) ⟨by simp, fun e he => ?_⟩
      rw [cast_zip] at he
      obtain ⟨n, -, rfl⟩ := List.mem_map.1 he
      simp
    have hn := halfTerm_nonneg (y := a) (d := n) (Nat.cast_nonneg n) h1.1 (fun hh => h1.2 (by exact_mod_cast hh))
    have hsq : (if a < (n : ℝ) then (if halfTerm a n > 0 then √(2 * halfTerm a n) else 0) * -1 else (if halfTerm a n > 0 then √(2 * halfTerm a n) else 0)) ^ 2
        = 2 * halfTerm a n := by
      have : (if halfTerm a n > 0 then √(2 * halfTerm a n) else 0) ^ 2 = 2 * halfTerm a n := by
        split
        · exact sq_sqrt (by linarith)
        · have : halfTerm a n = 0 := le_antisymm (by linarith) hn.1
          rw [this]; norm_num
      split
      · rw [mul_neg_one, neg_sq, this]
      · exact this
    rw [hsq]
    have key : halfTerm a n = log (exp (-(n : ℝ)) * (n : ℝ) ^ n / (n.factorial : ℝ)) - log (exp (-a) * a ^ n / (n.factorial : ℝ)) := by
      unfold halfTerm
      have hfac : (0 : ℝ) < n.factorial := by exact_mod_cast n.factorial_pos
      rcases Nat.eq_zero_or_pos n with h0 | h0
      · subst h0
        simp
      · have hn0 : (0 : ℝ) < n := by exact_mod_cast h0
        have ha := h1.2 h0
        rw [if_pos hn0, log_div (by positivity) hfac.ne', log_div (by positivity) hfac.ne', log_mul (exp_pos _).ne' (by positivity),
          log_mul (exp_pos _).ne' (by positivity), log_exp, log_exp, log_pow, log_pow, log_div hn0.ne' ha.ne']
        ring
    have hpos1 : 0 < exp (-a) * a ^ n / (n.factorial : ℝ) := by
      rcases Nat.eq_zero_or_pos n with h0 | h0
      · subst h0; simp [exp_pos]
      · have := h1.2 h0
        positivity
    have hpos2 : 0 < exp (-(n : ℝ)) * (n : ℝ) ^ n / (n.factorial : ℝ) := by
      rcases Nat.eq_zero_or_pos n with h0 | h0
      · subst h0; simp
      · have : (0 : ℝ) < n := by exact_mod_cast h0
        positivity
    rw [log_mul hpos1.ne' hp1.ne', log_mul hpos2.ne' hp2.ne', key]
    linarith

/-- C94. The sum of squares of the residuals, which a fit minimizes, is twice the log of the likelihood ratio between a perfect model and this model; so of
two models the one with the smaller sum is the one under which the counts are likelier. -/
theorem residual_likelihood {y y' : List ℝ} {d : List ℕ} (h : Possible y d) (h' : Possible y' d) :
    ((residual y (d.map (fun n : ℕ => (n : ℝ)))).map (· ^ 2)).sum = 2 * log (likelihood (d.map (fun n : ℕ => (n : ℝ))) d / likelihood y d) ∧
    (((residual y (d.map (fun n : ℕ => (n : ℝ)))).map (· ^ 2)).sum ≤ ((residual y' (d.map (fun n : ℕ => (n : ℝ)))).map (· ^ 2)).sum ↔ likelihood y' d ≤ likelihood y d) := by
  have hp : 0 < likelihood (d.map (fun n : ℕ => (n : ℝ))) d := by
    refine likelihood_pos ⟨by simp, fun e he => ?_⟩
    rw [cast_zip] at he
    obtain ⟨n, -, rfl⟩ := List.mem_map.1 he
    simp
  rw [sum_residual h, sum_residual h', log_div hp.ne' (likelihood_pos h).ne']
  refine ⟨rfl, ?_⟩
  rw [← log_le_log_iff (likelihood_pos h') (likelihood_pos h)]
  constructor <;> intro <;> linarith

/-- C94. One residual per bin; it is negative exactly where the model is below the counts and 0 exactly where they agree; and a sum of models uses the same residuals. -/
theorem residual_sign {y : List ℝ} {d : List ℕ} (h : Possible y d) :
    residualComposite y (d.map (fun n : ℕ => (n : ℝ))) = residual y (d.map (fun n : ℕ => (n : ℝ))) ∧
    (residual y (d.map (fun n : ℕ => (n : ℝ)))).length = d.length ∧
    ∀ i (h1 : i < (residual y (d.map (fun n : ℕ => (n : ℝ)))).length) (h2 : i < y.length) (h3 : i < d.length),
      ((residual y (d.map (fun n : ℕ => (n : ℝ))))[i] < 0 ↔ y[i] < d[i]) ∧ ((residual y (d.map (fun n : ℕ => (n : ℝ))))[i] = 0 ↔ y[i] = d[i]) := by
  have hz : ∀ e ∈ y.zip (d.map (fun n : ℕ => (n : ℝ))), 0 ≤ halfTerm e.1 e.2 ∧ (halfTerm e.1 e.2 = 0 ↔ e.1 = e.2) := by
    intro e he
    rw [List.zip_map_right] at he
    obtain ⟨e', he', rfl⟩ := List.mem_map.1 he
    have := h.2 e' he'
    simp only [Prod.map_fst, Prod.map_snd, id_eq]
    exact halfTerm_nonneg (Nat.cast_nonneg _) this.1 (fun hh => this.2 (by exact_mod_cast hh))
  refine ⟨?_, ?_, ?_⟩
  · unfold residual residualComposite
    refine List.map_congr_left fun e he => ?_
    dsimp only
    have : (2 * halfTerm e.1 e.2) ^ (1 / 2 : ℝ) = if halfTerm e.1 e.2 > 0 then √(2 * halfTerm e.1 e.2) else 0 := by
      rw [← sqrt_eq_rpow]
      split
      · rfl
      · rename_i h0
        rw [le_antisymm (not_lt.1 h0) (hz e he).1]
        simp
    rw [this]
  · simp [residual, h.1]
  · intro i h1 h2 h3
    have hm : (y[i], (d[i] : ℝ)) ∈ y.zip (d.map (fun n : ℕ => (n : ℝ))) := by
      have : (y.zip (d.map (fun n : ℕ => (n : ℝ))))[i]'(by simp; omega) = (y[i], (d[i] : ℝ)) := by simp
      rw [← this]
      exact List.getElem_mem _
    obtain ⟨h4, h5⟩ := hz _ hm
    simp only [residual, List.getElem_map, List.getElem_zip]
    dsimp only at h4 h5
    by_cases h6 : y[i] = d[i]
    · have := h5.2 h6
      rw [this, h6]
      simp
    · have h7 : 0 < halfTerm y[i] d[i] := lt_of_le_of_ne h4 fun hc => h6 (h5.1 hc.symm)
      have h8 : 0 < √(2 * halfTerm y[i] d[i]) := sqrt_pos.2 (by linarith)
      rw [if_pos h7]
      by_cases h9 : y[i] < d[i]
      · simp only [if_true, h9, h6, iff_true, iff_false]
        exact ⟨by linarith, by intro hc; linarith⟩
      · simp only [if_false, h9, h6, iff_false]
        exact ⟨by linarith, h8.ne'⟩

-- example for C94: two bins, counts 3 and 0; the model (3, 1) gives residuals 0 and the square root of 2
example : residual [3, 1] ([3, 0].map (fun n : ℕ => (n : ℝ))) = [0, √2] := by
  unfold residual halfTerm
  norm_num

end Mass.Line
