import Verif.Py
import Mathlib.Analysis.Convolution
import Mathlib.Analysis.SpecialFunctions.Gaussian.GaussianIntegral
import Mathlib.Analysis.SpecialFunctions.ImproperIntegrals
import Mathlib.MeasureTheory.Measure.Haar.NormedSpace
import Mathlib.Tactic.LinearCombination
/-! C90: spectral lines as probability densities (mass/calibration/fluorescence_lines.py, mass/mathstat/special.py). Values are real numbers. -/
namespace Mass.Line
open Real MeasureTheory Set

/-- special.py L25-72 `voigt` for one value of `x`. `wre a b` is the real part of `scipy.special.wofz(a + i b)`. With `hwhm = sigma = 0` numpy returns NaN;
here that case means nothing. -/
noncomputable def voigt (wre : ℝ → ℝ → ℝ) (x xctr hwhm sigma : ℝ) : ℝ :=
  if hwhm = 0 then exp (-(1 / 2) * ((x - xctr) / sigma) ^ 2) / (sigma * √(2 * π))
  else if sigma = 0 then hwhm / π / ((x - xctr) ^ 2 + hwhm ^ 2)
  else wre ((x - xctr) / (sigma * √2)) (hwhm / (sigma * √2)) / (sigma * √(2 * π))

/-- fluorescence_lines.py L38-64: the fields of a `SpectralLine` that its density depends on. -/
structure SpectralLine where
  energies : List ℝ
  lorentzianFwhm : List ℝ
  intrinsicSigma : ℝ
  /-- `normalized_lorentzian_integral_intensity` -/
  intensity : List ℝ

/-- fluorescence_lines.py L176-180 `_gaussian_sigma`. -/
noncomputable def gaussianSigma (l : SpectralLine) (fwhm : ℝ) : Except Exc ℝ :=
  if 0 ≤ fwhm then .ok (√((fwhm / √(8 * log 2)) ^ 2 + l.intrinsicSigma ^ 2)) else .error .assertion

/-- fluorescence_lines.py L92-100 `components`, for one value of `x`. `zip` stops at the shortest list. -/
noncomputable def components (wre : ℝ → ℝ → ℝ) (l : SpectralLine) (x fwhm : ℝ) : Except Exc (List ℝ) := do
  let sigma ← gaussianSigma l fwhm
  .ok ((l.energies.zip (l.lorentzianFwhm.zip l.intensity)).map (fun e => e.2.2 * voigt wre x e.1 (e.2.1 * (1 / 2)) sigma))

/-- fluorescence_lines.py L81-90 `pdf`, for one value of `x`. -/
noncomputable def pdf (wre : ℝ → ℝ → ℝ) (l : SpectralLine) (x fwhm : ℝ) : Except Exc ℝ := do
  let sigma ← gaussianSigma l fwhm
  .ok ((l.energies.zip (l.lorentzianFwhm.zip l.intensity)).foldl (fun r e => r + e.2.2 * voigt wre x e.1 (e.2.1 * (1 / 2)) sigma) 0)

/-- fluorescence_lines.py L198, L371-372: how amplitudes are given. -/
inductive AmpType
  | lorentzianPeakHeight | lorentzianIntegralIntensity | voigtPeakHeight
deriving DecidableEq

/-- fluorescence_lines.py L385-397 in `addline`: intensities of the components before normalization. Of the other arguments only the reference resolution
matters (dividing None by a number is a TypeError); arrays of different lengths do not multiply. -/
noncomputable def rawIntensity (wre : ℝ → ℝ → ℝ) (ty : AmpType) (refFwhm : Option ℝ) (fwhm amp : List ℝ) : Except Exc (List ℝ) :=
  match ty with
  | .voigtPeakHeight =>
    match refFwhm with
    | none => .error .type
    | some r => .ok ((amp.zip fwhm).map (fun e => e.1 / voigt wre 0 0 (e.2 / 2) (r / √(8 * log 2))))
  | .lorentzianPeakHeight => if fwhm.length = amp.length then .ok ((fwhm.zip amp).map (fun e => 1 / 2 * π * e.1 * e.2)) else .error .value
  | .lorentzianIntegralIntensity => .ok amp

/-- fluorescence_lines.py L365-424 `addline`: the line made from the arguments. Which names and references are known, and the registration of the line under
its name, are not modelled. -/
noncomputable def addline (wre : ℝ → ℝ → ℝ) (ty : AmpType) (refFwhm : Option ℝ) (energies fwhm amp : List ℝ) (intrinsic : ℝ) : Except Exc SpectralLine := do
  let raw ← rawIntensity wre ty refFwhm fwhm amp
  .ok ⟨energies, fwhm, intrinsic, raw.map (· / raw.sum)⟩

/-- fluorescence_lines.py L204-231 `quick_monochromatic_line`. -/
noncomputable def quickLine (energy fwhm intrinsic : ℝ) : SpectralLine :=
  ⟨[energy], [fwhm], if fwhm ≤ 0 ∧ intrinsic ≤ 0 then 1 / 10000 else intrinsic, [1]⟩

/-! ### specification -/

/-- normal density of width `s` [specification; docstring of `voigt`, eq. 2] -/
noncomputable def gauss (s x : ℝ) : ℝ := 1 / (s * √(2 * π)) * exp (-(1 / 2) * (x / s) ^ 2)

/-- Lorentzian of half-width `h` [specification; docstring of `voigt`, eq. 1] -/
noncomputable def lorentz (h x : ℝ) : ℝ := h / π / (x ^ 2 + h ^ 2)

/-- what scipy documents `wofz` to be, in the upper half plane: the real part of the Faddeeva function [specification] -/
def IsWofz (wre : ℝ → ℝ → ℝ) : Prop := ∀ a b, 0 < b → wre a b = b / π * ∫ t : ℝ, exp (-t ^ 2) / ((a - t) ^ 2 + b ^ 2)

/-- an integrable, nowhere negative function of total integral 1 -/
def IsDensity (f : ℝ → ℝ) : Prop := (∀ x, 0 ≤ f x) ∧ Integrable f ∧ ∫ x, f x = 1

theorem gauss_density {s : ℝ} (hs : 0 < s) : IsDensity (gauss s) := by
  have hb : 0 < 1 / (2 * s ^ 2) := by positivity
  have e : gauss s = fun x => 1 / (s * √(2 * π)) * exp (-(1 / (2 * s ^ 2)) * x ^ 2) := by
    funext x
    unfold gauss
    congr 2
    field_simp
  have hp : 0 < √(2 * π) := sqrt_pos.2 (by positivity)
  refine ⟨fun x => by unfold gauss; positivity, ?_, ?_⟩
  · rw [e]
    exact (integrable_exp_neg_mul_sq hb).const_mul _
  · rw [e, integral_const_mul, integral_gaussian]
    have : √(π / (1 / (2 * s ^ 2))) = s * √(2 * π) := by
      rw [show π / (1 / (2 * s ^ 2)) = s ^ 2 * (2 * π) by field_simp, sqrt_mul (by positivity), sqrt_sq hs.le]
    rw [this]
    field_simp

theorem lorentz_density {h : ℝ} (hh : 0 < h) : IsDensity (lorentz h) := by
  have e : lorentz h = fun x => (fun v => 1 / (π * h) * (1 + v ^ 2)⁻¹) (x / h) := by
    funext x
    unfold lorentz
    have : 0 < x ^ 2 + h ^ 2 := by positivity
    have h2 : 0 < 1 + (x / h) ^ 2 := by positivity
    field_simp
    ring
  refine ⟨fun x => by unfold lorentz; positivity, ?_, ?_⟩
  · rw [e]
    exact (integrable_inv_one_add_sq.const_mul _).comp_div hh.ne'
  · rw [e, Measure.integral_comp_div (fun v => 1 / (π * h) * (1 + v ^ 2)⁻¹), integral_const_mul, integral_univ_inv_one_add_sq, abs_of_pos hh, smul_eq_mul]
    field_simp

theorem IsDensity.shift {f : ℝ → ℝ} (hf : IsDensity f) (c : ℝ) : IsDensity (fun x => f (x - c)) := by
  refine ⟨fun x => hf.1 _, hf.2.1.comp_sub_right c, ?_⟩
  rw [integral_sub_right_eq_self, hf.2.2]

theorem IsDensity.conv {f g : ℝ → ℝ} (hf : IsDensity f) (hg : IsDensity g) : IsDensity (fun x => ∫ t, f t * g (x - t)) := by
  refine ⟨fun x => integral_nonneg fun t => mul_nonneg (hf.1 _) (hg.1 _), hf.2.1.integrable_convolution (ContinuousLinearMap.mul ℝ ℝ) hg.2.1, ?_⟩
  have := integral_convolution (ContinuousLinearMap.mul ℝ ℝ) hf.2.1 hg.2.1
  rw [hf.2.2, hg.2.2] at this
  simpa [convolution_def] using this

/-- the Voigt function is the convolution of its Gaussian and its Lorentzian (docstring, eq. 3) -/
theorem voigt_conv {wre : ℝ → ℝ → ℝ} (hw : IsWofz wre) {h s : ℝ} (hh : 0 < h) (hs : 0 < s) (x c : ℝ) :
    voigt wre x c h s = ∫ t, gauss s t * lorentz h (x - c - t) := by
  have hk : 0 < s * √2 := by positivity
  unfold voigt
  rw [if_neg hh.ne', if_neg hs.ne', hw _ _ (by positivity)]
  have e : (fun t => gauss s t * lorentz h (x - c - t)) = fun t => (fun v => 1 / (s * √(2 * π)) * (h / π / (2 * s ^ 2)) *
      (exp (-v ^ 2) / (((x - c) / (s * √2) - v) ^ 2 + (h / (s * √2)) ^ 2))) (t / (s * √2)) := by
    funext t
    unfold gauss lorentz
    have h2 : √2 ^ 2 = 2 := sq_sqrt (by norm_num)
    have e1 : -(1 / 2) * (t / s) ^ 2 = -(t / (s * √2)) ^ 2 := by
      rw [div_pow, div_pow, mul_pow, h2]
      ring
    have e2 : ((x - c) / (s * √2) - t / (s * √2)) ^ 2 + (h / (s * √2)) ^ 2 = ((x - c - t) ^ 2 + h ^ 2) / (2 * s ^ 2) := by
      rw [← sub_div, div_pow, div_pow, mul_pow, h2]
      ring
    have h3 : 0 < (x - c - t) ^ 2 + h ^ 2 := by positivity
    dsimp only
    rw [e1, e2]
    field_simp
  rw [e, Measure.integral_comp_div (fun v => 1 / (s * √(2 * π)) * (h / π / (2 * s ^ 2)) *
      (exp (-v ^ 2) / (((x - c) / (s * √2) - v) ^ 2 + (h / (s * √2)) ^ 2))), integral_const_mul, abs_of_pos hk, smul_eq_mul]
  have h2 : √2 * √2 = 2 := mul_self_sqrt (by norm_num)
  generalize (∫ t : ℝ, exp (-t ^ 2) / (((x - c) / (s * √2) - t) ^ 2 + (h / (s * √2)) ^ 2)) = I
  have hp : 0 < √(2 * π) := sqrt_pos.2 (by positivity)
  have hp2 : 0 < √2 := sqrt_pos.2 (by norm_num)
  field_simp
  linear_combination (-I) * h2

theorem voigt_lorentz (wre : ℝ → ℝ → ℝ) {h : ℝ} (hh : 0 < h) (x c : ℝ) : voigt wre x c h 0 = lorentz h (x - c) := by
  unfold voigt lorentz
  rw [if_neg hh.ne', if_pos rfl]

theorem voigt_gauss (wre : ℝ → ℝ → ℝ) (x c s : ℝ) : voigt wre x c 0 s = gauss s (x - c) := by
  unfold voigt gauss
  rw [if_pos rfl]
  ring

/-- the profile a component ought to have: Gaussian and Lorentzian convolved, or only the one with a width [specification] -/
noncomputable def profile (h s x : ℝ) : ℝ :=
  if h = 0 then gauss s x else if s = 0 then lorentz h x else ∫ t, gauss s t * lorentz h (x - t)

theorem voigt_profile {wre : ℝ → ℝ → ℝ} (hw : IsWofz wre) {h s : ℝ} (hh : 0 ≤ h) (hs : 0 ≤ s) (x c : ℝ) : voigt wre x c h s = profile h s (x - c) := by
  unfold profile
  rcases hh.eq_or_lt with rfl | hh
  · rw [if_pos rfl, voigt_gauss]
  · rw [if_neg hh.ne']
    rcases hs.eq_or_lt with rfl | hs
    · rw [if_pos rfl, voigt_lorentz wre hh]
    · rw [if_neg hs.ne', voigt_conv hw hh hs]

theorem profile_density {h s : ℝ} (hh : 0 ≤ h) (hs : 0 ≤ s) (hsum : 0 < h + s) : IsDensity (profile h s) := by
  rcases hh.eq_or_lt with rfl | hh
  · have hs : 0 < s := by linarith
    have : profile 0 s = gauss s := by
      funext x
      unfold profile
      rw [if_pos rfl]
    rw [this]
    exact gauss_density hs
  · rcases hs.eq_or_lt with rfl | hs
    · have : profile h 0 = lorentz h := by
        funext x
        unfold profile
        rw [if_neg hh.ne', if_pos rfl]
      rw [this]
      exact lorentz_density hh
    · have : profile h s = fun x => ∫ t, gauss s t * lorentz h (x - t) := by
        funext x
        unfold profile
        rw [if_neg hh.ne', if_neg hs.ne']
      rw [this]
      exact (gauss_density hs).conv (lorentz_density hh)

/-! ### sums of components -/

theorem foldl_sum {α : Type} (g : α → ℝ) (l : List α) (r : ℝ) : l.foldl (fun r e => r + g e) r = r + (l.map g).sum := by
  induction l generalizing r with
  | nil => simp
  | cons a t ih => rw [List.foldl_cons, ih, List.map_cons, List.sum_cons, add_assoc]

theorem mixture {α : Type} (l : List α) (a : α → ℝ) (f : α → ℝ → ℝ) (ha : ∀ e ∈ l, 0 ≤ a e) (hf : ∀ e ∈ l, IsDensity (f e)) :
    (∀ x, 0 ≤ (l.map (fun e => a e * f e x)).sum) ∧ Integrable (fun x => (l.map (fun e => a e * f e x)).sum) ∧
      ∫ x, (l.map (fun e => a e * f e x)).sum = (l.map a).sum := by
  induction l with
  | nil => simp
  | cons e t ih =>
    obtain ⟨h1, h2, h3⟩ := ih (fun e he => ha e (List.mem_cons_of_mem _ he)) (fun e he => hf e (List.mem_cons_of_mem _ he))
    obtain ⟨g1, g2, g3⟩ := hf e List.mem_cons_self
    simp only [List.map_cons, List.sum_cons]
    refine ⟨fun x => add_nonneg (mul_nonneg (ha e List.mem_cons_self) (g1 x)) (h1 x), (g2.const_mul _).add h2, ?_⟩
    rw [integral_add (g2.const_mul _) h2, integral_const_mul, g3, h3, mul_one]

theorem zip_map_third {a b c : List ℝ} (h1 : a.length = c.length) (h2 : b.length = c.length) : (a.zip (b.zip c)).map (fun e => e.2.2) = c := by
  have : (fun e : ℝ × ℝ × ℝ => e.2.2) = Prod.snd ∘ Prod.snd := rfl
  rw [this, ← List.map_map, List.map_snd_zip (by rw [List.length_zip]; omega), List.map_snd_zip (by omega)]

theorem mem_zip3 {a b c : List ℝ} {e : ℝ × ℝ × ℝ} (h : e ∈ a.zip (b.zip c)) : e.1 ∈ a ∧ e.2.1 ∈ b ∧ e.2.2 ∈ c := by
  have h' : (e.1, e.2.1, e.2.2) ∈ a.zip (b.zip c) := h
  have h1 := List.of_mem_zip h'
  exact ⟨h1.1, List.of_mem_zip h1.2⟩

/-- resolution and intrinsic width added in quadrature -/
theorem sigma_ok (l : SpectralLine) {fwhm : ℝ} (h : 0 ≤ fwhm) :
    ∃ s, gaussianSigma l fwhm = .ok s ∧ 0 ≤ s ∧ s ^ 2 = (fwhm / √(8 * log 2)) ^ 2 + l.intrinsicSigma ^ 2 := by
  unfold gaussianSigma
  rw [if_pos h]
  exact ⟨_, rfl, sqrt_nonneg _, sq_sqrt (by positivity)⟩

/-- C90. For a line with normalized intensities, some width in every component: the density is nowhere negative, integrates to one, is the sum of the
components, and each component is its intensity times the convolution of a Lorentzian with a Gaussian of the combined resolution. A negative resolution
is refused. -/
theorem line_density {wre : ℝ → ℝ → ℝ} (hw : IsWofz wre) (l : SpectralLine) (hE : l.energies.length = l.intensity.length)
    (hF : l.lorentzianFwhm.length = l.intensity.length) (hpos : ∀ a ∈ l.intensity, 0 ≤ a) (hsum : l.intensity.sum = 1)
    (hwid : ∀ g ∈ l.lorentzianFwhm, 0 ≤ g) (fwhm : ℝ) (hres : (∀ g ∈ l.lorentzianFwhm, 0 < g) ∨ 0 < fwhm ∨ l.intrinsicSigma ≠ 0) :
    (fwhm < 0 → ∀ x, pdf wre l x fwhm = .error .assertion ∧ components wre l x fwhm = .error .assertion) ∧
    (0 ≤ fwhm → ∃ (s : ℝ) (f : ℝ → ℝ) (c : ℝ → List ℝ), 0 ≤ s ∧ s ^ 2 = (fwhm / √(8 * log 2)) ^ 2 + l.intrinsicSigma ^ 2 ∧ (∀ x, pdf wre l x fwhm = .ok (f x)) ∧ IsDensity f ∧
      (∀ x, components wre l x fwhm = .ok (c x)) ∧ (∀ x, f x = (c x).sum) ∧
      ∀ x, c x = (l.energies.zip (l.lorentzianFwhm.zip l.intensity)).map (fun e => e.2.2 * profile (e.2.1 / 2) s (x - e.1))) := by
  refine ⟨fun hneg x => ?_, fun h => ?_⟩
  · unfold pdf components gaussianSigma
    rw [if_neg (not_le.2 hneg)]
    exact ⟨rfl, rfl⟩
  obtain ⟨s, hs, hs0, hs2⟩ := sigma_ok l h
  have hv : ∀ x, ∀ e ∈ l.energies.zip (l.lorentzianFwhm.zip l.intensity),
      e.2.2 * voigt wre x e.1 (e.2.1 * (1 / 2)) s = e.2.2 * profile (e.2.1 / 2) s (x - e.1) := by
    intro x e he
    have hg := hwid _ (mem_zip3 he).2.1
    rw [voigt_profile hw (by positivity) hs0]
    congr 2
    ring
  have hl8 : 0 < √(8 * log 2) := sqrt_pos.2 (by have := log_pos (show (1 : ℝ) < 2 by norm_num); positivity)
  have hd : ∀ e ∈ l.energies.zip (l.lorentzianFwhm.zip l.intensity), IsDensity (fun x => profile (e.2.1 / 2) s (x - e.1)) := by
    intro e he
    have hg := hwid _ (mem_zip3 he).2.1
    refine (profile_density (by positivity) hs0 ?_).shift e.1
    rcases hres with h1 | h1 | h1
    · have := h1 _ (mem_zip3 he).2.1
      linarith
    · have : 0 < s ^ 2 := by
        rw [hs2]
        have : 0 < (fwhm / √(8 * log 2)) ^ 2 := by positivity
        positivity
      have : 0 < s := by
        rcases hs0.eq_or_lt with h0 | h0
        · rw [← h0] at this; norm_num at this
        · exact h0
      linarith
    · have : 0 < s ^ 2 := by
        rw [hs2]
        have : 0 < l.intrinsicSigma ^ 2 := by positivity
        positivity
      have : 0 < s := by
        rcases hs0.eq_or_lt with h0 | h0
        · rw [← h0] at this; norm_num at this
        · exact h0
      linarith
  refine ⟨s, fun x => ((l.energies.zip (l.lorentzianFwhm.zip l.intensity)).map (fun e => e.2.2 * profile (e.2.1 / 2) s (x - e.1))).sum,
    fun x => (l.energies.zip (l.lorentzianFwhm.zip l.intensity)).map (fun e => e.2.2 * profile (e.2.1 / 2) s (x - e.1)), hs0, hs2, ?_, ?_, ?_, fun _ => rfl, fun _ => rfl⟩
  · intro x
    unfold pdf
    rw [hs]
    simp only [bind, Except.bind]
    rw [foldl_sum (fun e : ℝ × ℝ × ℝ => e.2.2 * voigt wre x e.1 (e.2.1 * (1 / 2)) s), zero_add, List.map_congr_left (hv x)]
  · have := mixture (l.energies.zip (l.lorentzianFwhm.zip l.intensity)) (fun e => e.2.2) (fun e x => profile (e.2.1 / 2) s (x - e.1))
      (fun e he => hpos _ (mem_zip3 he).2.2) hd
    rw [zip_map_third hE hF, hsum] at this
    exact this
  · intro x
    unfold components
    rw [hs]
    simp only [bind, Except.bind]
    rw [List.map_congr_left (hv x)]

/-! ### what `addline` makes of its amplitudes -/

theorem profile_pos {h s : ℝ} (hh : 0 < h) (hs : 0 ≤ s) : 0 < profile h s 0 := by
  unfold profile
  rw [if_neg hh.ne']
  rcases hs.eq_or_lt with rfl | hs
  · rw [if_pos rfl]
    unfold lorentz
    positivity
  · rw [if_neg hs.ne']
    have hi : Integrable (fun t => gauss s t * lorentz h (0 - t)) := by
      have hb := (gauss_density hs).2.1
      refine hb.mul_bdd (c := 1 / (π * h)) ?_ ?_
      · unfold lorentz
        refine Continuous.aestronglyMeasurable ?_
        refine Continuous.div (by fun_prop) (by fun_prop) fun t => ?_
        positivity
      · refine Filter.Eventually.of_forall fun t => ?_
        rw [norm_eq_abs, abs_of_nonneg ((lorentz_density hh).1 _)]
        unfold lorentz
        rw [div_le_iff₀ (by positivity)]
        have : 1 / (π * h) * ((0 - t) ^ 2 + h ^ 2) = h / π + (0 - t) ^ 2 / (π * h) := by
          field_simp
          ring
        rw [this]
        have : 0 ≤ (0 - t) ^ 2 / (π * h) := by positivity
        linarith
    rw [integral_pos_iff_support_of_nonneg (fun t => mul_nonneg ((gauss_density hs).1 _) ((lorentz_density hh).1 _)) hi]
    have : Function.support (fun t => gauss s t * lorentz h (0 - t)) = univ := by
      ext t
      simp only [Function.mem_support, mem_univ, iff_true]
      have h1 : 0 < gauss s t := by unfold gauss; have : 0 < √(2 * π) := sqrt_pos.2 (by positivity); positivity
      have h2 : 0 < lorentz h (0 - t) := by unfold lorentz; positivity
      exact (mul_pos h1 h2).ne'
    rw [this]
    simp

/-- the quantity which the amplitudes of a line list, for a component of unit intensity [specification] -/
noncomputable def unitAmplitude (ty : AmpType) (refFwhm : Option ℝ) (g : ℝ) : ℝ :=
  match ty with
  | .lorentzianPeakHeight => lorentz (g / 2) 0
  | .lorentzianIntegralIntensity => 1
  | .voigtPeakHeight => profile (g / 2) (refFwhm.getD 0 / √(8 * log 2)) 0

theorem unitAmplitude_pos {ty : AmpType} {refFwhm : Option ℝ} (hr : ∀ r ∈ refFwhm, 0 ≤ r) {g : ℝ} (hg : 0 < g) : 0 < unitAmplitude ty refFwhm g := by
  unfold unitAmplitude
  cases ty with
  | lorentzianPeakHeight =>
    unfold lorentz
    positivity
  | lorentzianIntegralIntensity => norm_num
  | voigtPeakHeight =>
    refine profile_pos (by positivity) ?_
    cases refFwhm with
    | none => simp
    | some r =>
      have := hr r rfl
      simp only [Option.getD_some]
      positivity

theorem rawIntensity_eq {wre : ℝ → ℝ → ℝ} (hw : IsWofz wre) {ty : AmpType} {refFwhm : Option ℝ} {fwhm amp : List ℝ} (hlen : fwhm.length = amp.length)
    (hg : ∀ g ∈ fwhm, 0 < g) (href : ty = .voigtPeakHeight → ∃ r, 0 ≤ r ∧ refFwhm = some r) :
    rawIntensity wre ty refFwhm fwhm amp = .ok ((fwhm.zip amp).map (fun e => e.2 / unitAmplitude ty refFwhm e.1)) := by
  unfold rawIntensity
  cases ty with
  | lorentzianPeakHeight =>
    dsimp only
    rw [if_pos hlen]
    congr 1
    refine List.map_congr_left fun e he => ?_
    have : 0 < e.1 := hg _ (List.of_mem_zip (show (e.1, e.2) ∈ _ from he)).1
    unfold unitAmplitude lorentz
    dsimp only
    field_simp
    ring
  | lorentzianIntegralIntensity =>
    dsimp only [unitAmplitude]
    simp only [div_one]
    rw [List.map_snd_zip (by omega)]
  | voigtPeakHeight =>
    obtain ⟨r, hr, rfl⟩ := href rfl
    dsimp only
    congr 1
    rw [← List.zip_swap, List.map_map]
    refine List.map_congr_left fun e he => ?_
    have : 0 < e.1 := hg _ (List.of_mem_zip (show (e.1, e.2) ∈ _ from he)).1
    simp only [Function.comp, Prod.swap, unitAmplitude, Option.getD_some]
    rw [voigt_profile hw (by positivity) (by positivity), sub_zero]

/-- C90. A line made from positive widths and amplitudes that are not negative and not all zero has the given energies and widths, normalized intensities,
and components whose listed amplitudes (integrals, or heights at the center) are in the given proportions. -/
theorem addline_ok {wre : ℝ → ℝ → ℝ} (hw : IsWofz wre) {ty : AmpType} {refFwhm : Option ℝ} {energies fwhm amp : List ℝ} (intrinsic : ℝ)
    (hE : energies.length = amp.length) (hlen : fwhm.length = amp.length) (hg : ∀ g ∈ fwhm, 0 < g) (ha : ∀ a ∈ amp, 0 ≤ a) (hsum : amp.sum ≠ 0)
    (href : ty = .voigtPeakHeight → ∃ r, 0 ≤ r ∧ refFwhm = some r) :
    ∃ l, addline wre ty refFwhm energies fwhm amp intrinsic = .ok l ∧ l.energies = energies ∧ l.lorentzianFwhm = fwhm ∧ l.intrinsicSigma = intrinsic ∧
      l.energies.length = l.intensity.length ∧ l.lorentzianFwhm.length = l.intensity.length ∧ (∀ a ∈ l.intensity, 0 ≤ a) ∧ l.intensity.sum = 1 ∧
      ∃ k, 0 < k ∧ (fwhm.zip l.intensity).map (fun e => e.2 * unitAmplitude ty refFwhm e.1) = amp.map (k * ·) := by
  have hu : ∀ g ∈ fwhm, 0 < unitAmplitude ty refFwhm g := by
    intro g hgm
    by_cases hty : ty = .voigtPeakHeight
    · obtain ⟨r, hr, hrr⟩ := href hty
      refine unitAmplitude_pos ?_ (hg g hgm)
      intro r' hr'
      rw [hrr] at hr'
      cases hr'
      exact hr
    · have : unitAmplitude ty refFwhm g = unitAmplitude ty none g := by
        cases ty with
        | voigtPeakHeight => exact absurd rfl hty
        | _ => rfl
      rw [this]
      exact unitAmplitude_pos (by simp) (hg g hgm)
  -- intensities before normalization
  obtain ⟨raw, hraw⟩ : ∃ raw, raw = (fwhm.zip amp).map (fun e => e.2 / unitAmplitude ty refFwhm e.1) := ⟨_, rfl⟩
  have hnn : ∀ a ∈ raw, 0 ≤ a := by
    rw [hraw]
    intro a h
    obtain ⟨e, he, rfl⟩ := List.mem_map.1 h
    have hm := List.of_mem_zip (show (e.1, e.2) ∈ _ from he)
    exact div_nonneg (ha _ hm.2) (hu _ hm.1).le
  have hrl : raw.length = amp.length := by
    rw [hraw, List.length_map, List.length_zip]
    omega
  have hback : (fwhm.zip raw).map (fun e => e.2 * unitAmplitude ty refFwhm e.1) = amp := by
    rw [hraw]
    clear hraw hnn hrl hsum hE
    induction fwhm generalizing amp with
    | nil =>
      cases amp with
      | nil => rfl
      | cons b t => simp at hlen
    | cons g t ih =>
      cases amp with
      | nil => simp at hlen
      | cons b t' =>
        simp only [List.zip_cons_cons, List.map_cons]
        rw [div_mul_cancel₀ _ (hu g List.mem_cons_self).ne', ih (by simpa using hlen) (fun g' hg' => hg g' (List.mem_cons_of_mem _ hg'))
          (fun a ha' => ha a (List.mem_cons_of_mem _ ha')) (fun g' hg' => hu g' (List.mem_cons_of_mem _ hg'))]
  have hpos : 0 < raw.sum := by
    have h0 : 0 ≤ raw.sum := List.sum_nonneg hnn
    rcases h0.eq_or_lt with h0 | h0
    · exfalso
      have hz : ∀ a ∈ raw, a = 0 := by
        intro a ham
        have := List.single_le_sum hnn a ham
        exact le_antisymm (by rw [h0]; exact this) (hnn a ham)
      apply hsum
      rw [← hback]
      refine List.sum_eq_zero ?_
      intro b hb
      obtain ⟨e, he, rfl⟩ := List.mem_map.1 hb
      rw [hz _ (List.of_mem_zip (show (e.1, e.2) ∈ _ from he)).2, zero_mul]
    · exact h0
  refine ⟨⟨energies, fwhm, intrinsic, raw.map (· / raw.sum)⟩, ?_, rfl, rfl, rfl, ?_, ?_, ?_, ?_, 1 / raw.sum, by positivity, ?_⟩
  · unfold addline
    rw [rawIntensity_eq hw hlen hg href, ← hraw]
    rfl
  · simp only [List.length_map]
    omega
  · simp only [List.length_map]
    omega
  · intro a ham
    obtain ⟨b, hb, rfl⟩ := List.mem_map.1 ham
    exact div_nonneg (hnn b hb) hpos.le
  · have := List.sum_map_mul_right (f := fun a : ℝ => a) (r := (raw.sum)⁻¹) (l := raw)
    simp only [List.map_id'] at this
    simp only [div_eq_mul_inv]
    rw [this, mul_inv_cancel₀ hpos.ne']
  · conv_rhs => rw [← hback]
    rw [List.zip_map_right, List.map_map, List.map_map]
    refine List.map_congr_left fun e _ => ?_
    simp only [Function.comp, Prod.map, id]
    ring

theorem wofz_exists : ∃ wre, IsWofz wre := ⟨fun a b => b / π * ∫ t : ℝ, exp (-t ^ 2) / ((a - t) ^ 2 + b ^ 2), fun _ _ _ => rfl⟩

-- example for C90: peak heights 3:1 with widths 2 and 4 are intensities 3:2; with resolution 5 the density is a density
example (wre : ℝ → ℝ → ℝ) (hw : IsWofz wre) :
    addline wre .lorentzianPeakHeight none [10, 20] [2, 4] [3, 1] 0 = .ok ⟨[10, 20], [2, 4], 0, [3 / 5, 2 / 5]⟩ ∧
    ∃ f, (∀ x, pdf wre ⟨[10, 20], [2, 4], 0, [3 / 5, 2 / 5]⟩ x 5 = .ok (f x)) ∧ IsDensity f := by
  refine ⟨?_, ?_⟩
  · unfold addline rawIntensity
    simp only [List.length_cons, List.length_nil, if_true, bind, Except.bind, List.zip_cons_cons, List.zip_nil_right, List.map_cons, List.map_nil, List.sum_cons,
      List.sum_nil]
    have := pi_pos
    congr 3
    · field_simp
      ring
    · congr 1
      field_simp
      ring
  · obtain ⟨s, f, c, -, -, h1, h2, -⟩ := (line_density hw ⟨[10, 20], [2, 4], 0, [3 / 5, 2 / 5]⟩ rfl rfl
      (by intro a h; simp at h; rcases h with rfl | rfl <;> norm_num) (by norm_num)
      (by intro a h; simp at h; rcases h with rfl | rfl <;> norm_num) 5 (.inr (.inl (by norm_num)))).2 (by norm_num)
    exact ⟨f, h1, h2⟩

/-- a quick line always has a width, so C90 holds for it at every resolution -/
theorem quickLine_density {wre : ℝ → ℝ → ℝ} (hw : IsWofz wre) {energy g intrinsic fwhm : ℝ} (hg : 0 ≤ g) (h : 0 ≤ fwhm) :
    ∃ f, (∀ x, pdf wre (quickLine energy g intrinsic) x fwhm = .ok (f x)) ∧ IsDensity f := by
  have hres : (∀ g' ∈ (quickLine energy g intrinsic).lorentzianFwhm, 0 < g') ∨ 0 < fwhm ∨ (quickLine energy g intrinsic).intrinsicSigma ≠ 0 := by
    unfold quickLine
    dsimp only
    by_cases h1 : g ≤ 0
    · right; right
      split
      · norm_num
      · rename_i h2
        rw [not_and] at h2
        exact (not_le.1 (h2 h1)).ne'
    · left
      simpa using h1
  obtain ⟨s, f, c, -, -, h1, h2, -⟩ := (line_density hw (quickLine energy g intrinsic) rfl rfl (by simp [quickLine]) (by simp [quickLine])
    (by simpa [quickLine] using hg) fwhm hres).2 h
  exact ⟨f, h1, h2⟩

/-! ### random variates -/

/-- fluorescence_lines.py L64 `cumsum`. -/
noncomputable def cumsum (a : List ℝ) : List ℝ := (List.range a.length).map (fun i : ℕ => (a.take (i + 1)).sum)

open Classical in
/-- fluorescence_lines.py L147-148: `searchsorted` (first position whose entry is not below the value). -/
noncomputable def searchsorted (c : List ℝ) (u : ℝ) : ℕ := c.findIdx (fun z => u ≤ z)

/-- a random generator of numpy: arrays of draws and the state after them (uniform takes the upper limit) -/
structure Rng (σ : Type) where
  uniform : σ → ℝ → ℕ → List ℝ × σ
  cauchy : σ → ℕ → List ℝ × σ
  normal : σ → ℕ → List ℝ × σ

/-- fluorescence_lines.py L145-156: one array of variates from one generator. -/
noncomputable def draw {σ : Type} (G : Rng σ) (l : SpectralLine) (sigma : ℝ) (n : ℕ) (s : σ) : List ℝ × σ :=
  let (u, s1) := G.uniform s ((cumsum l.intensity).getLastD 0) n
  let iline := u.map (searchsorted (cumsum l.intensity))
  let (c, s2) := G.cauchy s1 n
  let lor := (c.zip iline).map (fun e : ℝ × ℕ => e.1 * l.lorentzianFwhm.getD e.2 0 * (1 / 2))
  let (lor, s3) := if 0 < sigma then
      let (z, s3) := G.normal s2 n
      ((lor.zip z).map (fun e : ℝ × ℝ => e.1 + e.2 * sigma), s3)
    else (lor, s2)
  ((lor.zip iline).map (fun e : ℝ × ℕ => e.1 + l.energies.getD e.2 0), s3)

open Classical in
/-- fluorescence_lines.py L159-163: put the replacements where the results are not positive. -/
noncomputable def fill : List ℝ → List ℝ → List ℝ
  | [], _ => []
  | r :: t, rep =>
    if r ≤ 0 then
      match rep with
      | [] => r :: fill t []
      | p :: rep' => p :: fill t rep'
    else r :: fill t rep

open Classical in
/-- fluorescence_lines.py L139-164 `rvs` without a generator: everything from the module's generator. `none`: the recursion is deeper than `fuel`. -/
noncomputable def rvsGlobal {σ : Type} (G : Rng σ) (l : SpectralLine) (sigma : ℝ) : ℕ → ℕ → σ → Option (List ℝ × σ)
  | 0, _, _ => none
  | fuel + 1, n, g =>
    let (res, g1) := draw G l sigma n g
    if res.any (fun r => r ≤ 0) then
      match rvsGlobal G l sigma fuel (res.countP (fun r => r ≤ 0)) g1 with
      | none => none
      | some (rep, g2) => some (fill res rep, g2)
    else some (res, g1)

open Classical in
/-- fluorescence_lines.py L139-164 `rvs` with a generator in state `s`, the module's generator in state `g`: the recursive call does not pass the generator. -/
noncomputable def rvs {σ : Type} (G : Rng σ) (l : SpectralLine) (sigma : ℝ) (fuel n : ℕ) (s g : σ) : Option (List ℝ) :=
  let (res, _) := draw G l sigma n s
  if res.any (fun r => r ≤ 0) then (rvsGlobal G l sigma fuel (res.countP (fun r => r ≤ 0)) g).map (fun p => fill res p.1) else some res

theorem take_sum_mono {a : List ℝ} (ha : ∀ z ∈ a, 0 ≤ z) {i j : ℕ} (h : i ≤ j) : (a.take i).sum ≤ (a.take j).sum := by
  have : a.take j = a.take i ++ (a.take j).drop i := by
    conv_lhs => rw [← List.take_append_drop i (a.take j)]
    rw [List.take_take, min_eq_left h]
  rw [this, List.sum_append]
  have : 0 ≤ ((a.take j).drop i).sum := List.sum_nonneg fun z hz => ha z (List.mem_of_mem_take (List.mem_of_mem_drop hz))
  linarith

/-- which component is chosen -/
theorem choose_iff {a : List ℝ} (ha : ∀ z ∈ a, 0 ≤ z) {u : ℝ} {i : ℕ} (hi : i < a.length) :
    searchsorted (cumsum a) u = i ↔ u ≤ (a.take (i + 1)).sum ∧ (i = 0 ∨ (a.take i).sum < u) := by
  have hlen : (cumsum a).length = a.length := by simp [cumsum]
  have hget : ∀ j (h : j < (cumsum a).length), (cumsum a)[j] = (a.take (j + 1)).sum := fun j h => by simp [cumsum]
  unfold searchsorted
  rw [List.findIdx_eq (by rw [hlen]; exact hi)]
  simp only [decide_eq_true_eq, decide_eq_false_iff_not, hget, not_le]
  refine and_congr_right fun _ => ?_
  constructor
  · intro h
    rcases Nat.eq_zero_or_pos i with h0 | h0
    · exact .inl h0
    · have := h (i - 1) (by omega)
      rw [Nat.sub_add_cancel h0] at this
      exact .inr this
  · rintro (h | h)
    · intro j hj
      omega
    · intro j hj
      exact lt_of_le_of_lt (take_sum_mono ha (by omega)) h

/-- C91. A component is chosen with the probability of its intensity: the uniform variates which choose it fill an interval of that length, and every
variate chooses some component. -/
theorem choose_probability {a : List ℝ} (ha : ∀ z ∈ a, 0 ≤ z) :
    (∀ i, (h : i < a.length) → volume {u | 0 < u ∧ u ≤ a.sum ∧ searchsorted (cumsum a) u = i} = ENNReal.ofReal a[i]) ∧
    (a ≠ [] → ∀ u ≤ a.sum, searchsorted (cumsum a) u < a.length) := by
  refine ⟨fun i h => ?_, fun hne u hu => ?_⟩
  · have hset : {u | 0 < u ∧ u ≤ a.sum ∧ searchsorted (cumsum a) u = i} = Ioc (a.take i).sum (a.take (i + 1)).sum := by
      ext u
      simp only [mem_ofPred_eq, mem_Ioc, choose_iff ha h]
      constructor
      · rintro ⟨h1, h2, h3, h4 | h4⟩
        · subst h4
          simpa using ⟨h1, h3⟩
        · exact ⟨h4, h3⟩
      · rintro ⟨h1, h2⟩
        refine ⟨?_, ?_, h2, .inr h1⟩
        · have := take_sum_mono ha (Nat.zero_le i)
          simp only [List.take_zero, List.sum_nil] at this
          linarith
        · have := take_sum_mono ha (show i + 1 ≤ a.length by omega)
          rw [List.take_length] at this
          linarith
    rw [hset, Real.volume_Ioc]
    congr 1
    rw [← List.take_append_getElem h, List.sum_append]
    simp
  · unfold searchsorted
    have hlen : (cumsum a).length = a.length := by simp [cumsum]
    conv_rhs => rw [← hlen]
    rw [List.findIdx_lt_length]
    have hn : 0 < a.length := List.length_pos_iff.2 hne
    refine ⟨a.sum, ?_, by simpa using hu⟩
    unfold cumsum
    refine List.mem_map.2 ⟨a.length - 1, List.mem_range.2 (by omega), ?_⟩
    rw [Nat.sub_add_cancel hn, List.take_length]

theorem fill_length (r p : List ℝ) : (fill r p).length = r.length := by
  induction r generalizing p with
  | nil => rfl
  | cons a t ih =>
    unfold fill
    split
    · cases p <;> simp [ih]
    · simp [ih]

open Classical in
theorem fill_pos (r p : List ℝ) (hl : r.countP (fun z => z ≤ 0) ≤ p.length) (hp : ∀ z ∈ p, 0 < z) : ∀ z ∈ fill r p, 0 < z := by
  induction r generalizing p with
  | nil => simp [fill]
  | cons a t ih =>
    unfold fill
    by_cases h : a ≤ 0
    · rw [if_pos h]
      rw [List.countP_cons_of_pos (by simpa using h)] at hl
      cases p with
      | nil => simp at hl
      | cons b p' =>
        intro z hz
        rcases List.mem_cons.1 hz with rfl | hz
        · exact hp _ List.mem_cons_self
        · exact ih p' (by simpa using hl) (fun z hz => hp z (List.mem_cons_of_mem _ hz)) z hz
    · rw [if_neg h]
      rw [List.countP_cons_of_neg (by simpa using h)] at hl
      intro z hz
      rcases List.mem_cons.1 hz with rfl | hz
      · exact not_le.1 h
      · exact ih p hl hp z hz

/-- the generator gives as many draws as are asked for -/
def Rng.Lengths {σ : Type} (G : Rng σ) : Prop :=
  ∀ s n, (∀ t, (G.uniform s t n).1.length = n) ∧ (G.cauchy s n).1.length = n ∧ (G.normal s n).1.length = n

theorem draw_length {σ : Type} {G : Rng σ} (hG : G.Lengths) (l : SpectralLine) (sigma : ℝ) (n : ℕ) (s : σ) : (draw G l sigma n s).1.length = n := by
  unfold draw
  simp only [List.length_map, List.length_zip]
  have e1 := fun s t n => (hG s n).1 t
  have e2 := fun s n => (hG s n).2.1
  have e3 := fun s n => (hG s n).2.2
  split <;> simp only [List.length_map, List.length_zip, e1, e2, e3, min_self]

theorem rvsGlobal_ok {σ : Type} {G : Rng σ} (hG : G.Lengths) (l : SpectralLine) (sigma : ℝ) (fuel n : ℕ) (g : σ) (r : List ℝ × σ)
    (h : rvsGlobal G l sigma fuel n g = some r) : r.1.length = n ∧ ∀ z ∈ r.1, 0 < z := by
  induction fuel generalizing n g r with
  | zero => simp [rvsGlobal] at h
  | succ fuel ih =>
    unfold rvsGlobal at h
    dsimp only at h
    have hd := draw_length hG l sigma n g
    split at h
    · split at h
      · cases h
      · rename_i rep g2 hrec
        obtain ⟨h1, h2⟩ := ih _ _ _ hrec
        cases h
        dsimp only at h1 h2
        refine ⟨by rw [fill_length, hd], fill_pos _ _ (by rw [h1]) h2⟩
    · rename_i hany
      cases h
      refine ⟨hd, fun z hz => ?_⟩
      by_contra hc
      exact hany (List.any_eq_true.2 ⟨z, hz, by simpa using hc⟩)

/-- C91. Whatever the generators give, the call returns as many variates as were asked for, all of them positive; without non-positive draws they come from
the generator that was passed only. -/
theorem rvs_ok {σ : Type} {G : Rng σ} (hG : G.Lengths) (l : SpectralLine) (sigma : ℝ) (fuel n : ℕ) (s g : σ) :
    (∀ r, rvs G l sigma fuel n s g = some r → r.length = n ∧ ∀ z ∈ r, 0 < z) ∧
    ((∀ z ∈ (draw G l sigma n s).1, 0 < z) → rvs G l sigma fuel n s g = some (draw G l sigma n s).1) := by
  have hd := draw_length hG l sigma n s
  refine ⟨fun r h => ?_, fun h => ?_⟩
  · unfold rvs at h
    dsimp only at h
    split at h
    · rw [Option.map_eq_some_iff] at h
      obtain ⟨p, hp, rfl⟩ := h
      obtain ⟨h1, h2⟩ := rvsGlobal_ok hG l sigma _ _ _ _ hp
      exact ⟨by rw [fill_length, hd], fill_pos _ _ (by rw [h1]) h2⟩
    · rename_i hany
      cases h
      refine ⟨hd, fun z hz => ?_⟩
      by_contra hc
      exact hany (List.any_eq_true.2 ⟨z, hz, by simpa using hc⟩)
  · unfold rvs
    dsimp only
    rw [if_neg]
    intro hc
    obtain ⟨z, hz, hz'⟩ := List.any_eq_true.1 hc
    have := h z hz
    simp at hz'
    linarith

/-- C91. What one variate is: the energy of the chosen component plus its half-width times a Cauchy draw plus the resolution times a normal draw. -/
theorem draw_entry {σ : Type} {G : Rng σ} (hG : G.Lengths) (l : SpectralLine) {sigma : ℝ} (hs : 0 ≤ sigma) (n : ℕ) (s : σ) (k : ℕ) (hk : k < n) :
    ∃ u c z : ℝ, (G.uniform s ((cumsum l.intensity).getLastD 0) n).1[k]? = some u ∧
      (G.cauchy (G.uniform s ((cumsum l.intensity).getLastD 0) n).2 n).1[k]? = some c ∧
      (G.normal (G.cauchy (G.uniform s ((cumsum l.intensity).getLastD 0) n).2 n).2 n).1[k]? = some z ∧
      (draw G l sigma n s).1[k]? = some (l.energies.getD (searchsorted (cumsum l.intensity) u) 0
        + l.lorentzianFwhm.getD (searchsorted (cumsum l.intensity) u) 0 / 2 * c + sigma * z) := by
  have e1 := (hG s n).1 ((cumsum l.intensity).getLastD 0)
  obtain ⟨u, hu⟩ : ∃ u, (G.uniform s ((cumsum l.intensity).getLastD 0) n).1[k]? = some u := ⟨_, List.getElem?_eq_getElem (by omega)⟩
  have e2 := (hG (G.uniform s ((cumsum l.intensity).getLastD 0) n).2 n).2.1
  obtain ⟨c, hc⟩ : ∃ c, (G.cauchy (G.uniform s ((cumsum l.intensity).getLastD 0) n).2 n).1[k]? = some c := ⟨_, List.getElem?_eq_getElem (by omega)⟩
  have e3 := (hG (G.cauchy (G.uniform s ((cumsum l.intensity).getLastD 0) n).2 n).2 n).2.2
  obtain ⟨z, hz⟩ : ∃ z, (G.normal (G.cauchy (G.uniform s ((cumsum l.intensity).getLastD 0) n).2 n).2 n).1[k]? = some z := ⟨_, List.getElem?_eq_getElem (by omega)⟩
  refine ⟨u, c, z, hu, hc, hz, ?_⟩
  unfold draw
  dsimp only
  by_cases h0 : 0 < sigma
  · rw [if_pos h0]
    simp only [List.getElem?_map, List.getElem?_zip_eq_some, List.zip, List.getElem?_zipWith, hu, hc, hz, Option.map_some]
    congr 1
    ring
  · have : sigma = 0 := le_antisymm (not_lt.1 h0) hs
    rw [if_neg h0]
    simp only [List.getElem?_map, List.zip, List.getElem?_zipWith, hu, hc, Option.map_some]
    rw [this]
    congr 1
    ring

/-- the upper limit of the uniform draws is the total intensity -/
theorem cumsum_last (a : List ℝ) : (cumsum a).getLastD 0 = a.sum := by
  unfold cumsum
  cases h : a.length with
  | zero => simp [List.length_eq_zero_iff.1 h]
  | succ n =>
    rw [List.range_succ, List.map_append, List.map_cons, List.map_nil, List.getLastD_concat, ← h, List.take_length]

/-- a generator whose state is the number it will give -/
def constRng : Rng ℝ := ⟨fun s t n => (List.replicate n t, s), fun s n => (List.replicate n s, s), fun s n => (List.replicate n s, s)⟩

theorem constRng_draw (s : ℝ) : (draw constRng ⟨[1], [2], 0, [1]⟩ 0 1 s) = ([s + 1], s) := by
  have hss : searchsorted (cumsum [1]) 1 = 0 := by
    rw [choose_iff (by simp) (by simp)]
    simp
  have hl : (cumsum [1]).getLastD (0 : ℝ) = 1 := by rw [cumsum_last]; simp
  simp only [draw, constRng, hl, List.replicate_one, List.map_cons, List.map_nil, hss, List.zip_cons_cons, List.zip_nil_right, lt_irrefl, if_false]
  norm_num
  ring

/-- C91. Variates are not reproducible from the generator that is passed: when a draw is not positive its replacement comes from the module's own generator
(the recursive call does not pass `rng`), so two calls with the same generator state give different variates. -/
theorem rvs_reproducible_fails :
    rvs constRng ⟨[1], [2], 0, [1]⟩ 0 5 1 (-5) 0 = some [1] ∧ rvs constRng ⟨[1], [2], 0, [1]⟩ 0 5 1 (-5) 1 = some [2] := by
  have h : ∀ g : ℝ, 0 < g + 1 → rvs constRng ⟨[1], [2], 0, [1]⟩ 0 5 1 (-5) g = some [g + 1] := by
    intro g hg
    have hr : ∀ f, rvsGlobal constRng ⟨[1], [2], 0, [1]⟩ 0 (f + 1) 1 g = some ([g + 1], g) := by
      intro f
      unfold rvsGlobal
      rw [constRng_draw]
      simp [hg]
    unfold rvs
    rw [constRng_draw]
    have h4 : (-5 + 1 : ℝ) ≤ 0 := by norm_num
    simp only [List.any_cons, List.any_nil, h4, decide_true, Bool.or_false, if_true, List.countP_cons, List.countP_nil, zero_add]
    rw [hr 4]
    simp [fill, h4]
  constructor
  · rw [h 0 (by norm_num)]; norm_num
  · rw [h 1 (by norm_num)]; norm_num

-- example for C91: intensities 1/4 and 3/4
example : searchsorted (cumsum [1 / 4, 3 / 4]) (1 / 5) = 0 ∧ searchsorted (cumsum [1 / 4, 3 / 4]) (1 / 2) = 1 ∧
    volume {u | 0 < u ∧ u ≤ ([1 / 4, 3 / 4] : List ℝ).sum ∧ searchsorted (cumsum [1 / 4, 3 / 4]) u = 1} = ENNReal.ofReal (3 / 4) := by
  have hp : ∀ z ∈ ([1 / 4, 3 / 4] : List ℝ), 0 ≤ z := by
    intro z hz; simp at hz; rcases hz with rfl | rfl <;> norm_num
  refine ⟨(choose_iff hp (by simp)).2 ?_, (choose_iff hp (by simp)).2 ?_, (choose_probability hp).1 1 (by simp)⟩
  · norm_num
  · norm_num

end Mass.Line
