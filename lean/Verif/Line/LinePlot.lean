import Verif.Line.Spectral
import Mathlib.Analysis.SpecialFunctions.Integrals.Basic
import Mathlib.Analysis.Real.Pi.Bounds
import Mathlib.Data.List.GetD
/-! C174: figures of spectral lines (mass/calibration/fluorescence_lines.py L102-137). Values are real numbers. -/
namespace Mass.Line.LinePlot
open Mass Mass.Line Real MeasureTheory Set

/-- np.amax, which refuses an empty array (fluorescence_lines.py L110, L112, L126) -/
noncomputable def amax : List ℝ → Except Exc ℝ
  | [] => .error .value
  | a :: t => .ok (t.foldl max a)

/-- np.amin, which refuses an empty array (fluorescence_lines.py L111) -/
noncomputable def amin : List ℝ → Except Exc ℝ
  | [] => .error .value
  | a :: t => .ok (t.foldl min a)

/-- np.linspace(lo, hi, 500), fluorescence_lines.py L113 -/
noncomputable def linspace (lo hi : ℝ) : List ℝ := (List.range 500).map (fun i : ℕ => lo + i * ((hi - lo) / 499))

/-- the energies shown if none are given, fluorescence_lines.py L109-113 -/
noncomputable def window (l : SpectralLine) (sigma : ℝ) : Except Exc (List ℝ) := do
  let g ← amax l.lorentzianFwhm
  let width := max (2 * sigma) (3 * g)
  let lo ← amin l.energies
  let hi ← amax l.energies
  .ok (linspace (lo - width) (hi + width))

/-- what is shown: dashed curves of components and the curve of the line at the energies xs, the width of a bin in the label of the axis, the limits (fluorescence_lines.py L117-127) -/
structure Fig where
  xs : List ℝ
  dashed : List (List ℝ)
  total : List ℝ
  perBin : ℝ
  xlim : ℝ × ℝ
  ylim : Option (ℝ × ℝ)

/-- `plot`, fluorescence_lines.py L102-128, without axis and texts. The label of the ordinate is "Counts per (perBin) eV bin". -/
noncomputable def plot (wre : ℝ → ℝ → ℝ) (l : SpectralLine) (x : Option (List ℝ)) (fwhm : ℝ) (comps setylim : Bool) : Except Exc Fig := do
  let sigma ← gaussianSigma l fwhm
  let xs ← match x with
    | some xs => .ok xs
    | none => window l sigma
  let dashed := if comps then (l.energies.zip (l.lorentzianFwhm.zip l.intensity)).map (fun e => xs.map (fun v => e.2.2 * voigt wre v e.1 (e.2.1 * (1 / 2)) sigma)) else []
  let total ← xs.mapM (fun v => pdf wre l v fwhm)
  match xs with
  | x0 :: x1 :: r =>
    let top ← amax total
    .ok ⟨xs, dashed, total, x1 - x0, (x0, (x1 :: r).getLastD x0), if setylim then some (0, top * 1.05) else none⟩
  | _ => .error .index

/-- `plot_like_reference`, fluorescence_lines.py L130-137 -/
noncomputable def plotLikeReference (wre : ℝ → ℝ → ℝ) (l : SpectralLine) (ref : Option ℝ) : Except Exc Fig :=
  plot wre l none (match ref with
    | none => 0.001
    | some f => f) true true

/-! ### lemmas -/

theorem le_foldl_max (l : List ℝ) : ∀ a : ℝ, a ≤ l.foldl max a ∧ ∀ v ∈ l, v ≤ l.foldl max a := by
  induction l with
  | nil => simp
  | cons b t ih =>
    intro a
    obtain ⟨h1, h2⟩ := ih (max a b)
    refine ⟨(le_max_left _ _).trans h1, fun v hv => ?_⟩
    rcases List.mem_cons.1 hv with rfl | hv
    · exact (le_max_right _ _).trans h1
    · exact h2 v hv

theorem foldl_min_le (l : List ℝ) : ∀ a : ℝ, l.foldl min a ≤ a ∧ ∀ v ∈ l, l.foldl min a ≤ v := by
  induction l with
  | nil => simp
  | cons b t ih =>
    intro a
    obtain ⟨h1, h2⟩ := ih (min a b)
    refine ⟨h1.trans (min_le_left _ _), fun v hv => ?_⟩
    rcases List.mem_cons.1 hv with rfl | hv
    · exact h1.trans (min_le_right _ _)
    · exact h2 v hv

theorem amax_ok (l : List ℝ) (h : l ≠ []) : ∃ m, amax l = .ok m ∧ ∀ v ∈ l, v ≤ m := by
  cases l with
  | nil => exact absurd rfl h
  | cons a t =>
    refine ⟨_, rfl, fun v hv => ?_⟩
    rcases List.mem_cons.1 hv with rfl | hv
    · exact (le_foldl_max t _).1
    · exact (le_foldl_max t a).2 v hv

theorem amin_ok (l : List ℝ) (h : l ≠ []) : ∃ m, amin l = .ok m ∧ ∀ v ∈ l, m ≤ v := by
  cases l with
  | nil => exact absurd rfl h
  | cons a t =>
    refine ⟨_, rfl, fun v hv => ?_⟩
    rcases List.mem_cons.1 hv with rfl | hv
    · exact (foldl_min_le t _).1
    · exact (foldl_min_le t a).2 v hv

theorem mapM_ok (f : ℝ → ℝ) (g : ℝ → Except Exc ℝ) (h : ∀ x, g x = .ok (f x)) (xs : List ℝ) : xs.mapM g = .ok (xs.map f) := by
  induction xs with
  | nil => rfl
  | cons a t ih =>
    rw [List.mapM_cons, h a, ih]
    rfl

/-- [specification] the value of component e of a line at x -/
noncomputable def compAt (wre : ℝ → ℝ → ℝ) (sigma : ℝ) (e : ℝ × ℝ × ℝ) (x : ℝ) : ℝ := e.2.2 * voigt wre x e.1 (e.2.1 * (1 / 2)) sigma

theorem pdf_sum (wre : ℝ → ℝ → ℝ) (l : SpectralLine) (fwhm sigma : ℝ) (h : gaussianSigma l fwhm = .ok sigma) (x : ℝ) :
    pdf wre l x fwhm = .ok ((l.energies.zip (l.lorentzianFwhm.zip l.intensity)).map (fun e => compAt wre sigma e x)).sum := by
  unfold pdf
  rw [h]
  simp only [bind, Except.bind]
  rw [foldl_sum (fun e : ℝ × ℝ × ℝ => e.2.2 * voigt wre x e.1 (e.2.1 * (1 / 2)) sigma), zero_add]
  rfl

theorem plot_eq (wre : ℝ → ℝ → ℝ) (l : SpectralLine) (fwhm sigma : ℝ) (h : gaussianSigma l fwhm = .ok sigma) (x0 x1 : ℝ) (r : List ℝ) (comps setylim : Bool) :
    ∃ top, (∀ v ∈ (x0 :: x1 :: r), ((l.energies.zip (l.lorentzianFwhm.zip l.intensity)).map (fun e => compAt wre sigma e v)).sum ≤ top) ∧
      plot wre l (some (x0 :: x1 :: r)) fwhm comps setylim = .ok ⟨x0 :: x1 :: r,
        if comps then (l.energies.zip (l.lorentzianFwhm.zip l.intensity)).map (fun e => (x0 :: x1 :: r).map (compAt wre sigma e)) else [],
        (x0 :: x1 :: r).map (fun v => ((l.energies.zip (l.lorentzianFwhm.zip l.intensity)).map (fun e => compAt wre sigma e v)).sum),
        x1 - x0, (x0, (x1 :: r).getLastD x0), if setylim then some (0, top * 1.05) else none⟩ := by
  obtain ⟨top, ht, hle⟩ := amax_ok ((x0 :: x1 :: r).map (fun v => ((l.energies.zip (l.lorentzianFwhm.zip l.intensity)).map (fun e => compAt wre sigma e v)).sum)) (by simp)
  refine ⟨top, fun v hv => hle _ (List.mem_map.2 ⟨v, hv, rfl⟩), ?_⟩
  unfold plot
  rw [h]
  simp only [bind, Except.bind]
  rw [mapM_ok _ _ (pdf_sum wre l fwhm sigma h)]
  simp only [ht]
  rfl

theorem plot_none (wre : ℝ → ℝ → ℝ) (l : SpectralLine) (fwhm sigma : ℝ) (h : gaussianSigma l fwhm = .ok sigma) (xs : List ℝ) (hw : window l sigma = .ok xs) (comps setylim : Bool) :
    plot wre l none fwhm comps setylim = plot wre l (some xs) fwhm comps setylim := by
  unfold plot
  rw [h]
  simp only [bind, Except.bind, hw]

/-! ### theorems -/

/-- C174: a negative resolution is refused. -/
theorem plot_negative (wre : ℝ → ℝ → ℝ) (l : SpectralLine) (x : Option (List ℝ)) (fwhm : ℝ) (comps setylim : Bool) (h : fwhm < 0) : plot wre l x fwhm comps setylim = .error .assertion := by
  unfold plot gaussianSigma
  rw [if_neg (not_le.2 h)]
  rfl

/-- C174: with at least two energies, the curve is the density of the line at each of them, the dashed curves (if asked for) are its components, which add up to it, and the axis begins and ends with the energies. -/
theorem plot_spec (wre : ℝ → ℝ → ℝ) (l : SpectralLine) (fwhm : ℝ) (hf : 0 ≤ fwhm) (xs : List ℝ) (h2 : 2 ≤ xs.length) (comps setylim : Bool) :
    ∃ fig, plot wre l (some xs) fwhm comps setylim = .ok fig ∧ fig.xs = xs ∧ fig.total.length = xs.length ∧
      (∀ i (hi : i < xs.length), pdf wre l xs[i] fwhm = .ok (fig.total.getD i 0)) ∧
      (comps = true → ∀ i (hi : i < xs.length), components wre l xs[i] fwhm = .ok (fig.dashed.map (fun c => c.getD i 0)) ∧ fig.total.getD i 0 = (fig.dashed.map (fun c => c.getD i 0)).sum) ∧
      (comps = false → fig.dashed = []) ∧ fig.perBin = xs[1] - xs[0] ∧ fig.xlim = (xs[0], xs[xs.length - 1]) ∧ (setylim = false → fig.ylim = none) := by
  obtain ⟨s, hs, -, -⟩ := sigma_ok l hf
  match xs, h2 with
  | x0 :: x1 :: r, _ =>
    obtain ⟨top, -, hp⟩ := plot_eq wre l fwhm s hs x0 x1 r comps setylim
    refine ⟨_, hp, rfl, by simp, fun i hi => ?_, fun hc i hi => ?_, fun hc => by simp [hc], rfl, ?_, fun hy => by simp [hy]⟩
    · rw [pdf_sum wre l fwhm s hs]
      congr 1
      rw [List.getD_eq_getElem _ _ (by simpa using hi), List.getElem_map]
    · have e : ((l.energies.zip (l.lorentzianFwhm.zip l.intensity)).map (fun e => (x0 :: x1 :: r).map (compAt wre s e))).map (fun c => c.getD i 0)
          = (l.energies.zip (l.lorentzianFwhm.zip l.intensity)).map (fun e => compAt wre s e (x0 :: x1 :: r)[i]) := by
        rw [List.map_map]
        refine List.map_congr_left (fun e _ => ?_)
        simp only [Function.comp]
        rw [List.getD_eq_getElem _ _ (by simpa using hi), List.getElem_map]
      simp only [hc, if_true]
      rw [e]
      refine ⟨?_, ?_⟩
      · unfold components
        rw [hs]
        rfl
      · rw [List.getD_eq_getElem _ _ (by simpa using hi), List.getElem_map]
    · simp only
      congr 1
      rw [List.getLastD_eq_getLast?, List.getLast?_eq_getElem?]
      simp

/-- C174: fewer than two energies are refused. -/
theorem plot_short (wre : ℝ → ℝ → ℝ) (l : SpectralLine) (fwhm : ℝ) (hf : 0 ≤ fwhm) (xs : List ℝ) (h2 : xs.length < 2) (comps setylim : Bool) :
    plot wre l (some xs) fwhm comps setylim = .error .index := by
  obtain ⟨s, hs, -, -⟩ := sigma_ok l hf
  unfold plot
  rw [hs]
  simp only [bind, Except.bind]
  rw [mapM_ok _ _ (pdf_sum wre l fwhm s hs)]
  match xs, h2 with
  | [], _ => rfl
  | [_], _ => rfl

/-- [specification] a line whose components have intensities that are not negative and some width at this resolution -/
def Good (l : SpectralLine) (fwhm : ℝ) : Prop :=
  (∀ a ∈ l.intensity, 0 ≤ a) ∧ (∀ g ∈ l.lorentzianFwhm, 0 ≤ g) ∧ ((∀ g ∈ l.lorentzianFwhm, 0 < g) ∨ 0 < fwhm ∨ l.intrinsicSigma ≠ 0)

theorem comp_nonneg {wre : ℝ → ℝ → ℝ} (hw : IsWofz wre) (l : SpectralLine) (fwhm s : ℝ) (hf : 0 ≤ fwhm) (hg : Good l fwhm) (hs : gaussianSigma l fwhm = .ok s) (x : ℝ) :
    ∀ e ∈ l.energies.zip (l.lorentzianFwhm.zip l.intensity), 0 ≤ compAt wre s e x := by
  intro e he
  obtain ⟨s', hs', hs0, hs2⟩ := sigma_ok l hf
  rw [hs'] at hs
  have hs := Except.ok.inj hs
  subst hs
  obtain ⟨h1, h2, h3⟩ := hg
  have m := mem_zip3 he
  unfold compAt
  refine mul_nonneg (h1 _ m.2.2) ?_
  have hh := h2 _ m.2.1
  rw [voigt_profile hw (by positivity) hs0]
  refine (profile_density (by positivity) hs0 ?_).1 _
  have hl8 : 0 < √(8 * log 2) := sqrt_pos.2 (by have := log_pos (show (1 : ℝ) < 2 by norm_num); positivity)
  have key : (0 < fwhm ∨ l.intrinsicSigma ≠ 0) → 0 < s' := by
    intro h
    have : 0 < s' ^ 2 := by
      rw [hs2]
      rcases h with h | h
      · have : 0 < (fwhm / √(8 * log 2)) ^ 2 := by positivity
        positivity
      · have : 0 < l.intrinsicSigma ^ 2 := by positivity
        positivity
    rcases hs0.eq_or_lt with h0 | h0
    · rw [← h0] at this; norm_num at this
    · exact h0
  rcases h3 with h | h
  · have := h _ m.2.1
    linarith
  · have := key h
    linarith

/-- C174: the axis shows every curve: with limits set, no value of the curve or of a component is below or above them. -/
theorem ylim_contains {wre : ℝ → ℝ → ℝ} (hw : IsWofz wre) (l : SpectralLine) (fwhm : ℝ) (hf : 0 ≤ fwhm) (hg : Good l fwhm) (xs : List ℝ) (comps : Bool) (fig : Fig)
    (h : plot wre l (some xs) fwhm comps true = .ok fig) : ∃ lo hi, fig.ylim = some (lo, hi) ∧ ∀ c ∈ fig.total :: fig.dashed, ∀ v ∈ c, lo ≤ v ∧ v ≤ hi := by
  obtain ⟨s, hs, -, -⟩ := sigma_ok l hf
  by_cases h2 : xs.length < 2
  · rw [plot_short wre l fwhm hf xs h2] at h
    exact absurd h (by simp)
  match xs, h2, h with
  | [_], h2, _ => exact absurd (by simp) h2
  | x0 :: x1 :: r, _, h =>
    obtain ⟨top, ht, hp⟩ := plot_eq wre l fwhm s hs x0 x1 r comps true
    rw [hp] at h
    have h := (Except.ok.inj h).symm
    subst h
    have hn := fun v => comp_nonneg hw l fwhm s hf hg hs v
    have hsum : ∀ v, 0 ≤ ((l.energies.zip (l.lorentzianFwhm.zip l.intensity)).map (fun e => compAt wre s e v)).sum := by
      intro v
      refine List.sum_nonneg (fun y hy => ?_)
      obtain ⟨e, he, rfl⟩ := List.mem_map.1 hy
      exact hn v e he
    have htop : top ≤ top * 1.05 := by
      have := (hsum x0).trans (ht x0 (by simp))
      nlinarith
    refine ⟨0, top * 1.05, rfl, fun c hc v hv => ?_⟩
    rcases List.mem_cons.1 hc with rfl | hc
    · obtain ⟨y, hy, rfl⟩ := List.mem_map.1 hv
      exact ⟨hsum y, (ht y hy).trans htop⟩
    · cases comps with
      | false => simp at hc
      | true =>
        simp only [if_true] at hc
        obtain ⟨e, he, rfl⟩ := List.mem_map.1 hc
        obtain ⟨y, hy, rfl⟩ := List.mem_map.1 hv
        refine ⟨hn y e he, le_trans ?_ ((ht y hy).trans htop)⟩
        refine List.single_le_sum (fun z hz => ?_) _ (List.mem_map.2 ⟨e, he, rfl⟩)
        obtain ⟨e', he', rfl⟩ := List.mem_map.1 hz
        exact hn y e' he'

/-- the energies shown by default: 500, evenly spaced -/
theorem window_spec (l : SpectralLine) (s : ℝ) (hE : l.energies ≠ []) (hF : l.lorentzianFwhm ≠ []) :
    ∃ lo hi, window l s = .ok (linspace lo hi) ∧ (∀ e ∈ l.energies, ∀ g ∈ l.lorentzianFwhm, lo ≤ e - 3 * g ∧ e + 3 * g ≤ hi ∧ lo ≤ e - 2 * s ∧ e + 2 * s ≤ hi) := by
  obtain ⟨g, hg, hgle⟩ := amax_ok _ hF
  obtain ⟨a, ha, hale⟩ := amin_ok _ hE
  obtain ⟨b, hb, hble⟩ := amax_ok _ hE
  refine ⟨_, _, by unfold window; rw [hg, ha, hb]; rfl, fun e he g' hg' => ?_⟩
  have h1 := hgle g' hg'
  have h2 := hale e he
  have h3 := hble e he
  have h4 := le_max_left (2 * s) (3 * g)
  have h5 := le_max_right (2 * s) (3 * g)
  refine ⟨?_, ?_, ?_, ?_⟩ <;> linarith

/-- C174: without energies given, 500 evenly spaced ones are shown, which reach from below to above every component by three times the width of the broadest Lorentzian and twice the width of the Gaussian. -/
theorem default_window (wre : ℝ → ℝ → ℝ) (l : SpectralLine) (fwhm : ℝ) (hf : 0 ≤ fwhm) (hE : l.energies ≠ []) (hF : l.lorentzianFwhm ≠ []) (comps setylim : Bool) :
    ∃ s fig lo hi, 0 ≤ s ∧ s ^ 2 = (fwhm / √(8 * log 2)) ^ 2 + l.intrinsicSigma ^ 2 ∧ plot wre l none fwhm comps setylim = .ok fig ∧ plot wre l (some fig.xs) fwhm comps setylim = .ok fig ∧
      fig.xs.length = 500 ∧ (∀ i (hi' : i < fig.xs.length), fig.xs[i] = lo + (i : ℝ) * ((hi - lo) / 499)) ∧ fig.xlim = (lo, hi) ∧
      ∀ e ∈ l.energies, ∀ g ∈ l.lorentzianFwhm, lo ≤ e - 3 * g ∧ e + 3 * g ≤ hi ∧ lo ≤ e - 2 * s ∧ e + 2 * s ≤ hi := by
  obtain ⟨s, hs, hs0, hs2⟩ := sigma_ok l hf
  obtain ⟨lo, hi, hw, hall⟩ := window_spec l s hE hF
  have hlen : (linspace lo hi).length = 500 := by simp [linspace]
  obtain ⟨fig, hp, hx, -, -, -, -, -, hlim, -⟩ := plot_spec wre l fwhm hf (linspace lo hi) (by rw [hlen]; norm_num) comps setylim
  have hget : ∀ i (hi' : i < (linspace lo hi).length), (linspace lo hi)[i] = lo + i * ((hi - lo) / 499) := by
    intro i hi'
    simp [linspace]
  refine ⟨s, fig, lo, hi, hs0, hs2, by rw [plot_none wre l fwhm s hs _ hw]; exact hp, by rw [hx]; exact hp, by rw [hx]; exact hlen, ?_, ?_, hall⟩
  · intro i hi'
    simp only [hx] at hi' ⊢
    exact hget i hi'
  · rw [hlim, hget 0 (by rw [hlen]; norm_num), hget _ (by rw [hlen]; norm_num)]
    simp only [hlen]
    norm_num
    ring

theorem lorentz_share {h a b : ℝ} (hh : 0 < h) (ha : a ≤ -(6 * h)) (hb : 6 * h ≤ b) : 8 / 9 ≤ ∫ x in a..b, lorentz h x := by
  have e : ∀ x, lorentz h x = (1 / (π * h)) * (1 + (x / h) ^ 2)⁻¹ := by
    intro x
    unfold lorentz
    field_simp
    ring
  have hi : ∫ x in a..b, lorentz h x = (arctan (b / h) - arctan (a / h)) / π := by
    rw [intervalIntegral.integral_congr (g := fun x => (1 / (π * h)) * (1 + (x / h) ^ 2)⁻¹) (fun x _ => e x), intervalIntegral.integral_const_mul,
      intervalIntegral.integral_comp_div (fun y => (1 + y ^ 2)⁻¹) hh.ne', integral_inv_one_add_sq, smul_eq_mul]
    field_simp
  have h6 : π / 2 - 1 / 6 ≤ arctan 6 := by
    have h := arctan_inv_of_pos (show (0 : ℝ) < 1 / 6 by norm_num)
    rw [show ((1 : ℝ) / 6)⁻¹ = 6 by norm_num] at h
    have : arctan (1 / 6) ≤ 1 / 6 := by
      have h0 : 0 ≤ arctan (1 / 6) := arctan_nonneg.2 (by norm_num)
      have := le_tan h0 (arctan_lt_pi_div_two _)
      rwa [tan_arctan] at this
    linarith
  have h1 : arctan 6 ≤ arctan (b / h) := arctan_mono (by rw [le_div_iff₀ hh]; exact hb)
  have h2 : arctan (a / h) ≤ -arctan 6 := by
    rw [← arctan_neg]
    exact arctan_mono (by rw [div_le_iff₀ hh]; linarith)
  rw [hi, le_div_iff₀ pi_pos]
  have := pi_gt_three
  linarith

/-- C174: of a line shown as it is (Lorentzians, ideal resolution), the default window has at least eight ninths of the intensity. -/
theorem window_share (wre : ℝ → ℝ → ℝ) (l : SpectralLine) (hE : l.energies.length = l.intensity.length) (hF : l.lorentzianFwhm.length = l.intensity.length) (hne : l.intensity ≠ [])
    (hpos : ∀ a ∈ l.intensity, 0 ≤ a) (hsum : l.intensity.sum = 1) (hwid : ∀ g ∈ l.lorentzianFwhm, 0 < g) (hint : l.intrinsicSigma = 0) (comps setylim : Bool) :
    ∃ (fig : Fig) (f : ℝ → ℝ), plot wre l none 0 comps setylim = .ok fig ∧ (∀ x, pdf wre l x 0 = .ok (f x)) ∧ 8 / 9 ≤ ∫ x in fig.xlim.1..fig.xlim.2, f x := by
  have hEne : l.energies ≠ [] := fun e => hne (List.length_eq_zero_iff.1 (by rw [← hE, e]; rfl))
  have hFne : l.lorentzianFwhm ≠ [] := fun e => hne (List.length_eq_zero_iff.1 (by rw [← hF, e]; rfl))
  obtain ⟨s, fig, lo, hi, hs0, hs2, hp, -, -, -, hlim, hall⟩ := default_window wre l 0 le_rfl hEne hFne comps setylim
  have hs : s = 0 := by
    rw [hint] at hs2
    simpa using hs2
  obtain ⟨s', hs', hs0', hs2'⟩ := sigma_ok l (le_refl (0 : ℝ))
  have hz : s' = 0 := by
    rw [hint] at hs2'
    simpa using hs2'
  rw [hz] at hs'
  refine ⟨fig, _, hp, pdf_sum wre l 0 0 hs', ?_⟩
  rw [hlim]
  simp only
  have key : ∀ t : List (ℝ × ℝ × ℝ), (∀ e ∈ t, e ∈ l.energies.zip (l.lorentzianFwhm.zip l.intensity)) →
      IntervalIntegrable (fun x => (t.map (fun e => compAt wre 0 e x)).sum) volume lo hi ∧ 8 / 9 * (t.map (fun e => e.2.2)).sum ≤ ∫ x in lo..hi, (t.map (fun e => compAt wre 0 e x)).sum := by
    intro t
    induction t with
    | nil => intro _; simp
    | cons e t ih =>
      intro ht
      obtain ⟨i1, i2⟩ := ih (fun e' he' => ht e' (List.mem_cons_of_mem _ he'))
      have m := mem_zip3 (ht e (by simp))
      have hg := hwid _ m.2.1
      have ha := hpos _ m.2.2
      obtain ⟨w1, w2, -, -⟩ := hall _ m.1 _ m.2.1
      have hh : 0 < e.2.1 * (1 / 2) := by positivity
      have ce : (fun x => compAt wre 0 e x) = fun x => e.2.2 * lorentz (e.2.1 * (1 / 2)) (x - e.1) := by
        funext x
        unfold compAt
        rw [voigt_lorentz wre hh]
      have ci : IntervalIntegrable (fun x => compAt wre 0 e x) volume lo hi := by
        rw [ce]
        exact (((lorentz_density hh).shift e.1).2.1.const_mul _).intervalIntegrable
      have cs : 8 / 9 * e.2.2 ≤ ∫ x in lo..hi, compAt wre 0 e x := by
        rw [ce, intervalIntegral.integral_const_mul, intervalIntegral.integral_comp_sub_right (fun x => lorentz (e.2.1 * (1 / 2)) x)]
        have := lorentz_share hh (a := lo - e.1) (b := hi - e.1) (by linarith) (by linarith)
        nlinarith
      simp only [List.map_cons, List.sum_cons]
      refine ⟨ci.add i1, ?_⟩
      rw [intervalIntegral.integral_add ci i1]
      linarith
  have := (key _ (fun e he => he)).2
  rw [zip_map_third hE hF, hsum] at this
  linarith

/-- C174: plot_like_reference shows the line with the resolution of its reference, 0.001 eV if it has none. -/
theorem like_reference (wre : ℝ → ℝ → ℝ) (l : SpectralLine) (f : ℝ) :
    plotLikeReference wre l (some f) = plot wre l none f true true ∧ plotLikeReference wre l none = plot wre l none (1 / 1000) true true := by
  refine ⟨rfl, ?_⟩
  unfold plotLikeReference
  norm_num

/-- Disagreement (C174): the label says that the ordinate is in counts per bin of the width it gives; the curve is the density per eV whatever the width of a bin: two choices of energies with bins of
different width give the same ordinate at the same energy. -/
theorem label_per_bin_fails (wre : ℝ → ℝ → ℝ) (l : SpectralLine) (fwhm : ℝ) (hf : 0 ≤ fwhm) (x0 d1 d2 : ℝ) (comps setylim : Bool) :
    ∃ f1 f2, plot wre l (some [x0, x0 + d1]) fwhm comps setylim = .ok f1 ∧ plot wre l (some [x0, x0 + d2]) fwhm comps setylim = .ok f2 ∧
      f1.perBin = d1 ∧ f2.perBin = d2 ∧ f1.total.getD 0 0 = f2.total.getD 0 0 ∧ pdf wre l x0 fwhm = .ok (f1.total.getD 0 0) := by
  obtain ⟨f1, h1, -, -, p1, -, -, b1, -, -⟩ := plot_spec wre l fwhm hf [x0, x0 + d1] (by simp) comps setylim
  obtain ⟨f2, h2, -, -, p2, -, -, b2, -, -⟩ := plot_spec wre l fwhm hf [x0, x0 + d2] (by simp) comps setylim
  have q1 := p1 0 (by simp)
  have q2 := p2 0 (by simp)
  simp only [List.getElem_cons_zero] at q1 q2
  refine ⟨f1, f2, h1, h2, by rw [b1]; simp, by rw [b2]; simp, ?_, q1⟩
  rw [q1] at q2
  exact Except.ok.inj q2

/-- one Lorentzian at 100 eV of width 2 eV: the window is 94 to 106 eV -/
example (wre : ℝ → ℝ → ℝ) : ∃ fig, plot wre ⟨[100], [2], 0, [1]⟩ none 0 true true = .ok fig ∧ fig.xs.length = 500 ∧ fig.xlim.1 ≤ 94 ∧ 106 ≤ fig.xlim.2 := by
  obtain ⟨s, fig, lo, hi, -, -, hp, -, hl, -, hx, hall⟩ := default_window wre ⟨[100], [2], 0, [1]⟩ 0 le_rfl (by simp) (by simp) true true
  obtain ⟨h1, h2, -, -⟩ := hall 100 (by simp) 2 (by simp)
  refine ⟨fig, hp, hl, ?_, ?_⟩ <;> rw [hx] <;> linarith

/-- its density at the center is 1/π -/
example (wre : ℝ → ℝ → ℝ) : ∃ fig, plot wre ⟨[100], [2], 0, [1]⟩ (some [100, 101]) 0 true true = .ok fig ∧ fig.total.getD 0 0 = 1 / π := by
  obtain ⟨fig, hp, -, -, h, -, -, -, -, -⟩ := plot_spec wre ⟨[100], [2], 0, [1]⟩ 0 le_rfl [100, 101] (by simp) true true
  refine ⟨fig, hp, ?_⟩
  have := h 0 (by simp)
  have hs : gaussianSigma (⟨[100], [2], 0, [1]⟩ : SpectralLine) 0 = .ok 0 := by
    simp [gaussianSigma]
  rw [pdf_sum wre _ 0 0 hs] at this
  have e := (Except.ok.inj this).symm
  rw [e]
  simp [compAt, voigt]

end Mass.Line.LinePlot
