import Verif.Stat.Spectrum
import Mathlib.Analysis.SpecialFunctions.Trigonometric.Basic
import Mathlib.Tactic.Linarith
/-! C138: window functions (mass/mathstat/power_spectrum.py L217-240) and the widths of Voigt profiles (mass/mathstat/special.py L75-95, mass/calibration/fluorescence_lines.py L196-201). Over the reals; numpy's windows are as in
its source [numpy, not in /repo]. -/
namespace Mass.Stat.Windows
open Mass Mass.Stat Real
noncomputable section

/-- position of sample i in a window of length n ≥ 2, from -1 to 1: numpy's arange(1-M, M, 2)/(M-1) (used for power_spectrum.py L217-240) -/
def pos (n i : ℕ) : ℝ := (1 - (n : ℝ) + 2 * i) / (n - 1)

/-- numpy's convention: no samples for n < 1, the single value 1 for n = 1 (used for power_spectrum.py L217-240) -/
def sampled (f : ℝ → ℝ) (n : ℕ) : List ℝ := if n < 1 then [] else if n = 1 then [1] else (List.range n).map (fun i => f (pos n i))

/-- bartlett, power_spectrum.py L217-219 (np.bartlett) -/
def bartlett (n : ℕ) : List ℝ := sampled (fun t => if t ≤ 0 then 1 + t else 1 - t) n

/-- welch, power_spectrum.py L222-224; n = 1 divides 0 by 0, the value is NaN (none) -/
def welch (n : ℕ) : Option (List ℝ) := if n = 1 then none else some ((List.range n).map (fun i : ℕ => 1 - (2 * (i : ℝ) / (n - 1) - 1) ^ 2))

/-- hann, power_spectrum.py L227-232 (np.hanning) -/
def hann (n : ℕ) : List ℝ := sampled (fun t => 1 / 2 + 1 / 2 * cos (π * t)) n

/-- hamming, power_spectrum.py L235-237 (np.hamming) -/
def hamming (n : ℕ) : List ℝ := sampled (fun t => 54 / 100 + 46 / 100 * cos (π * t)) n

/-- voigt_approx_fwhm, special.py L75-95 -/
def voigtFwhm (l g : ℝ) : ℝ := if l = 0 then g else if g = 0 then l else 5346 / 10000 * l + √(2166 / 10000 * l ^ 2 + g ^ 2)

/-- minimum_fwhm, fluorescence_lines.py L196-201: `r` is FWHM_OVER_SIGMA, `ls` the Lorentzian widths; none: np.amin of no values, ValueError -/
def minimumFwhm (r : ℝ) (ls : List ℝ) (g s : ℝ) : Except Exc ℝ :=
  match ls with
  | [] => .error .value
  | l :: t => .ok (√((t.foldl min l) ^ 2 + g ^ 2 + (s * r) ^ 2))

/-- _gaussian_sigma, fluorescence_lines.py L176-180 -/
def gaussianSigma (r g s : ℝ) : Except Exc ℝ := if 0 ≤ g then .ok (√((g / r) ^ 2 + s ^ 2)) else .error .assertion

end

/-! ### windows -/

/-- [specification] a window: n values from 0 to 1, the same read backwards -/
def IsWindow (n : ℕ) (w : List ℝ) : Prop := w.length = n ∧ (∀ x ∈ w, 0 ≤ x ∧ x ≤ 1) ∧ w.reverse = w

theorem pos_range {n i : ℕ} (hn : 2 ≤ n) (hi : i < n) : -1 ≤ pos n i ∧ pos n i ≤ 1 := by
  have h1 : (2 : ℝ) ≤ n := by exact_mod_cast hn
  have h2 : (i : ℝ) + 1 ≤ n := by exact_mod_cast hi
  have h3 : (0 : ℝ) ≤ i := Nat.cast_nonneg _
  unfold pos
  constructor
  · rw [le_div_iff₀ (by linarith)]; linarith
  · rw [div_le_iff₀ (by linarith)]; linarith

theorem pos_mirror {n i : ℕ} (hi : i < n) : pos n (n - 1 - i) = -pos n i := by
  have : ((n - 1 - i : ℕ) : ℝ) = n - 1 - i := by
    rw [Nat.cast_sub (by omega), Nat.cast_sub (by omega)]
    push_cast
    ring
  unfold pos
  rw [this, ← neg_div]
  congr 1
  ring

theorem map_symm {n : ℕ} (f : ℕ → ℝ) (h : ∀ i < n, f (n - 1 - i) = f i) : ((List.range n).map f).reverse = (List.range n).map f := by
  refine List.ext_getElem (by simp) (fun i h1 h2 => ?_)
  rw [List.getElem_reverse]
  simp only [List.getElem_map, List.getElem_range, List.length_map, List.length_range] at h2 ⊢
  exact h i (by omega)

theorem sampled_window {f : ℝ → ℝ} (hf : ∀ t, -1 ≤ t → t ≤ 1 → 0 ≤ f t ∧ f t ≤ 1) (he : ∀ t, f (-t) = f t) (n : ℕ) : IsWindow n (sampled f n) := by
  unfold sampled
  split
  · have : n = 0 := by omega
    subst this
    exact ⟨rfl, by simp, rfl⟩
  · split
    · rename_i h
      subst h
      exact ⟨rfl, by simp, rfl⟩
    · refine ⟨by simp, ?_, map_symm _ (fun i hi => by rw [pos_mirror hi, he])⟩
      intro x hx
      obtain ⟨i, hi, rfl⟩ := List.mem_map.1 hx
      have := pos_range (n := n) (i := i) (by omega) (List.mem_range.1 hi)
      exact hf _ this.1 this.2

theorem cos_even (t : ℝ) : cos (π * -t) = cos (π * t) := by rw [mul_neg, cos_neg]

theorem tri_eq (t : ℝ) : (if t ≤ 0 then 1 + t else 1 - t) = 1 - |t| := by
  split
  · rename_i h; rw [abs_of_nonpos h]; ring
  · rename_i h; rw [abs_of_pos (not_le.1 h)]

theorem pos_eq {n i : ℕ} (hn : 2 ≤ n) : pos n i = 2 * (i : ℝ) / (n - 1) - 1 := by
  have h1 : (2 : ℝ) ≤ n := by exact_mod_cast hn
  have : (n : ℝ) - 1 ≠ 0 := by linarith
  unfold pos
  field_simp
  ring

/-- C138. Every window of every length (Welch: not 1) has n values from 0 to 1 and is symmetric. -/
theorem windows_ok (n : ℕ) : IsWindow n (bartlett n) ∧ IsWindow n (hann n) ∧ IsWindow n (hamming n) ∧ (n ≠ 1 → ∃ w, welch n = some w ∧ IsWindow n w) := by
  refine ⟨?_, ?_, ?_, fun h => ?_⟩
  · refine sampled_window (fun t h1 h2 => ?_) (fun t => by rw [tri_eq, tri_eq, abs_neg]) n
    rw [tri_eq]
    have := abs_le.2 ⟨h1, h2⟩
    have := abs_nonneg t
    constructor <;> linarith
  · refine sampled_window (fun t _ _ => ?_) (fun t => by rw [cos_even]) n
    have h1 := neg_one_le_cos (π * t)
    have h2 := cos_le_one (π * t)
    constructor <;> linarith
  · refine sampled_window (fun t _ _ => ?_) (fun t => by rw [cos_even]) n
    have h1 := neg_one_le_cos (π * t)
    have h2 := cos_le_one (π * t)
    constructor <;> linarith
  · refine ⟨_, by unfold welch; rw [if_neg h], by simp, ?_, map_symm _ (fun i hi => ?_)⟩
    · intro x hx
      obtain ⟨i, hi, rfl⟩ := List.mem_map.1 hx
      have hi := List.mem_range.1 hi
      have hn : 2 ≤ n := by omega
      rw [← pos_eq hn]
      have := pos_range hn hi
      constructor <;> nlinarith
    · have hn : 2 ≤ n := by omega
      rw [← pos_eq hn, ← pos_eq hn, pos_mirror hi]
      ring

theorem hann_term (n i : ℕ) (hn : 2 ≤ n) : 1 / 2 + 1 / 2 * cos (π * pos n i) = sin (π * i / (n - 1)) ^ 2 := by
  have h1 : (2 : ℝ) ≤ n := by exact_mod_cast hn
  have hne : (n : ℝ) - 1 ≠ 0 := by linarith
  have e : π * pos n i = 2 * (π * i / (n - 1)) - π := by rw [pos_eq hn]; field_simp
  rw [e, cos_sub_pi, sin_sq_eq_half_sub]
  ring

/-- C138. The shapes are those named: for n ≥ 2, sample i of Bartlett is a triangle, of Hann a squared sine, of Hamming 0.08 + 0.92 times that, of Welch a parabola. -/
theorem windows_shape {n : ℕ} (hn : 2 ≤ n) :
    bartlett n = (List.range n).map (fun i : ℕ => 1 - |2 * (i : ℝ) / (n - 1) - 1|) ∧ hann n = (List.range n).map (fun i : ℕ => sin (π * i / (n - 1)) ^ 2) ∧
    hamming n = (List.range n).map (fun i : ℕ => 8 / 100 + 92 / 100 * sin (π * i / (n - 1)) ^ 2) ∧ welch n = some ((List.range n).map (fun i : ℕ => 1 - (2 * (i : ℝ) / (n - 1) - 1) ^ 2)) := by
  have e1 : ¬ n < 1 := by omega
  have e2 : ¬ n = 1 := by omega
  unfold bartlett hann hamming welch sampled
  simp only [if_neg e1, if_neg e2, tri_eq]
  refine ⟨?_, ?_, ?_, trivial⟩
  · exact List.map_congr_left (fun i _ => by rw [pos_eq hn])
  · exact List.map_congr_left (fun i _ => hann_term n i hn)
  · refine List.map_congr_left (fun i _ => ?_)
    have := hann_term n i hn
    linarith

theorem sum_sq_pos {l : List ℝ} {x : ℝ} (hx : x ∈ l) (h : x ≠ 0) : 0 < (l.map (· ^ 2)).sum := by
  induction l with
  | nil => simp at hx
  | cons a t ih =>
    rw [List.map_cons, List.sum_cons]
    have ht : 0 ≤ (t.map (· ^ 2)).sum := List.sum_nonneg (fun y hy => by obtain ⟨z, _, rfl⟩ := List.mem_map.1 hy; exact sq_nonneg z)
    rcases List.mem_cons.1 hx with rfl | hx
    · have : 0 < x ^ 2 := by positivity
      linarith
    · have := ih hx
      have := sq_nonneg a
      linarith

/-- C138. From three samples on, no window vanishes (the second sample is positive), so that spectra with any of them are normalised as in C73 for all m ≥ 2: their integral over frequency is the mean square of
the windowed data. Hamming never vanishes. -/
theorem windows_energy {m : ℕ} (hm : 2 ≤ m) {w : List ℝ} (hw : w = bartlett (2 * m) ∨ w = hann (2 * m) ∨ w = hamming (2 * m) ∨ welch (2 * m) = some w) {dt : ℝ} (hdt : dt ≠ 0) {data : List ℝ}
    (hd : 2 * m ≤ data.length) :
    ∃ S : ℕ → ℝ, (Spectrum.addLong (some w) (.new m dt) data).map Spectrum.spectrum = .ok ((List.range (m + 1)).map (fun k => some (S k))) ∧
      Spectrum.integral m dt S = ((List.range (data.length / (2 * m))).map (fun i => Spectrum.meanSquare (some w) ((data.drop (i * (2 * m))).take (2 * m)))).sum / (data.length / (2 * m) : ℕ) := by
  obtain ⟨s1, s2, s3, s4⟩ := windows_shape (n := 2 * m) (by omega)
  obtain ⟨o1, o2, o3, o4⟩ := windows_ok (2 * m)
  have hN : (4 : ℝ) ≤ ((2 * m : ℕ) : ℝ) := by exact_mod_cast (by omega : 4 ≤ 2 * m)
  generalize hn : 2 * m = n at *
  have hn1 : 1 ∈ List.range n := List.mem_range.2 (by omega)
  have hsin : 0 < sin (π * ((1 : ℕ) : ℝ) / ((n : ℝ) - 1)) := by
    refine sin_pos_of_pos_of_lt_pi (by have := pi_pos; have : 0 < (n : ℝ) - 1 := by linarith
                                       positivity) ?_
    rw [div_lt_iff₀ (by linarith)]
    have := pi_pos
    push_cast
    nlinarith
  have hlt : 0 < 2 * ((1 : ℕ) : ℝ) / ((n : ℝ) - 1) ∧ 2 * ((1 : ℕ) : ℝ) / ((n : ℝ) - 1) < 1 := by
    constructor
    · have : 0 < (n : ℝ) - 1 := by linarith
      positivity
    · rw [div_lt_one (by linarith)]; push_cast; linarith
  have hlen : w.length = n := by
    rcases hw with rfl | rfl | rfl | h
    · exact o1.1
    · exact o2.1
    · exact o3.1
    · obtain ⟨w', h1, h2⟩ := o4 (by omega)
      rw [h] at h1
      cases h1
      exact h2.1
  have hsum : Spectrum.sumWindow m (some w) ≠ 0 := by
    have : ∃ x ∈ w, x ≠ 0 := by
      rcases hw with rfl | rfl | rfl | h
      · refine ⟨_, by rw [s1]; exact List.mem_map.2 ⟨1, hn1, rfl⟩, ?_⟩
        rw [abs_of_neg (by linarith)]
        intro h
        linarith
      · refine ⟨_, by rw [s2]; exact List.mem_map.2 ⟨1, hn1, rfl⟩, ?_⟩
        exact pow_ne_zero _ hsin.ne'
      · refine ⟨_, by rw [s3]; exact List.mem_map.2 ⟨1, hn1, rfl⟩, ?_⟩
        positivity
      · rw [s4] at h
        cases h
        refine ⟨_, List.mem_map.2 ⟨1, hn1, rfl⟩, ?_⟩
        intro h
        nlinarith
    obtain ⟨x, hx, h0⟩ := this
    exact (sum_sq_pos hx h0).ne'
  have hfit : Spectrum.Fits (some w) m := ⟨by omega, fun w' h => by cases h; rw [hlen, hn]⟩
  have := Spectrum.psd_normalised (some w) m dt data hfit hdt hsum (by rw [hn]; exact hd)
  rwa [hn] at this

/-- Disagreement (C138): the shortest spectrum (m = 1, two samples) divides by zero with a Bartlett, Hann or Welch window: all samples of these windows are ends, and 0. -/
theorem two_samples_fails : bartlett 2 = [0, 0] ∧ hann 2 = [0, 0] ∧ welch 2 = some [0, 0] ∧ Spectrum.sumWindow 1 (some (hann 2)) = 0 := by
  obtain ⟨s1, s2, _, s4⟩ := windows_shape (n := 2) (le_refl 2)
  have hr : List.range 2 = [0, 1] := rfl
  have h2 : hann 2 = [0, 0] := by
    rw [s2, hr]
    norm_num
  refine ⟨?_, h2, ?_, ?_⟩
  · rw [s1, hr]; norm_num
  · rw [s4, hr]; norm_num
  · rw [h2]; simp [Spectrum.sumWindow]

/-- Disagreement (C138): a Welch window of one sample is not a number, where the other windows are 1. -/
theorem welch_one_fails : welch 1 = none ∧ bartlett 1 = [1] ∧ hann 1 = [1] ∧ hamming 1 = [1] := ⟨rfl, rfl, rfl, rfl⟩

/-! ### widths -/

theorem sqrt2166 : 4654 / 10000 ≤ √(2166 / 10000 : ℝ) ∧ √(2166 / 10000 : ℝ) ≤ 46541 / 100000 := by
  constructor
  · exact le_sqrt_of_sq_le (by norm_num)
  · exact sqrt_le_iff.2 ⟨by norm_num, by norm_num⟩

theorem voigt_bounds_aux {l g : ℝ} (hl : 0 ≤ l) (hg : 0 ≤ g) : l ≤ 5346 / 10000 * l + √(2166 / 10000 * l ^ 2 + g ^ 2) ∧ g ≤ 5346 / 10000 * l + √(2166 / 10000 * l ^ 2 + g ^ 2) ∧
    5346 / 10000 * l + √(2166 / 10000 * l ^ 2 + g ^ 2) ≤ 100001 / 100000 * l + g ∧ √(l ^ 2 + g ^ 2) ≤ 5346 / 10000 * l + √(2166 / 10000 * l ^ 2 + g ^ 2) := by
  have h1 : 4654 / 10000 * l ≤ √(2166 / 10000 * l ^ 2 + g ^ 2) := by
    refine le_sqrt_of_sq_le ?_
    nlinarith [sq_nonneg l, sq_nonneg g]
  have h2 : g ≤ √(2166 / 10000 * l ^ 2 + g ^ 2) := le_sqrt_of_sq_le (by nlinarith [sq_nonneg l])
  refine ⟨by linarith, by linarith, ?_, ?_⟩
  · have : √(2166 / 10000 * l ^ 2 + g ^ 2) ≤ 46541 / 100000 * l + g := sqrt_le_iff.2 ⟨by positivity, by nlinarith [mul_nonneg hl hg, sq_nonneg l]⟩
    linarith
  · refine sqrt_le_iff.2 ⟨by positivity, ?_⟩
    have hs := sq_sqrt (show 0 ≤ 2166 / 10000 * l ^ 2 + g ^ 2 by positivity)
    generalize √(2166 / 10000 * l ^ 2 + g ^ 2) = r at *
    have : 4654 / 10000 * l * l ≤ l * r := by nlinarith
    nlinarith

/-- C138. The approximate width of a Voigt profile is at least that of either part, at least their sum in quadrature, and at most their sum (within 1e-5); one part alone has its own width. -/
theorem voigt_bounds {l g : ℝ} (hl : 0 ≤ l) (hg : 0 ≤ g) :
    max l g ≤ voigtFwhm l g ∧ √(l ^ 2 + g ^ 2) ≤ voigtFwhm l g ∧ voigtFwhm l g ≤ 100001 / 100000 * l + g ∧ voigtFwhm l 0 = l ∧ voigtFwhm 0 g = g := by
  have h00 : voigtFwhm l 0 = l := by
    unfold voigtFwhm
    split
    · rename_i h; exact h.symm
    · rw [if_pos rfl]
  have h01 : voigtFwhm 0 g = g := by unfold voigtFwhm; rw [if_pos rfl]
  refine ⟨?_, ?_, ?_, h00, h01⟩
  all_goals
    by_cases h1 : l = 0
    · subst h1
      rw [h01]
      first
        | exact max_le hg (le_refl _)
        | (rw [zero_pow (by norm_num), zero_add, sqrt_sq hg])
        | linarith
    · by_cases h2 : g = 0
      · subst h2
        rw [h00]
        first
          | exact max_le (le_refl _) hl
          | (rw [zero_pow (by norm_num), add_zero, sqrt_sq hl])
          | linarith
      · obtain ⟨a1, a2, a3, a4⟩ := voigt_bounds_aux hl hg
        unfold voigtFwhm
        rw [if_neg h1, if_neg h2]
        first
          | exact max_le a1 a2
          | exact a4
          | exact a3

/-- C138. It grows with both widths, also from zero, and scales with the unit. -/
theorem voigt_mono {l l' g g' : ℝ} (hl : 0 ≤ l) (hg : 0 ≤ g) (h1 : l ≤ l') (h2 : g ≤ g') : voigtFwhm l g ≤ voigtFwhm l' g' := by
  have hl' := hl.trans h1
  have hg' := hg.trans h2
  have hb := (voigt_bounds hl' hg').1
  by_cases a : l = 0
  · have : voigtFwhm l g = g := by unfold voigtFwhm; rw [if_pos a]
    rw [this]
    exact h2.trans ((le_max_right _ _).trans hb)
  · by_cases b : g = 0
    · have : voigtFwhm l g = l := by unfold voigtFwhm; rw [if_neg a, if_pos b]
      rw [this]
      exact h1.trans ((le_max_left _ _).trans hb)
    · have a' : l' ≠ 0 := fun h => a (le_antisymm (by linarith) hl)
      have b' : g' ≠ 0 := fun h => b (le_antisymm (by linarith) hg)
      unfold voigtFwhm
      rw [if_neg a, if_neg b, if_neg a', if_neg b']
      refine add_le_add (by linarith) (sqrt_le_sqrt ?_)
      have : l ^ 2 ≤ l' ^ 2 := pow_le_pow_left₀ hl h1 2
      have : g ^ 2 ≤ g' ^ 2 := pow_le_pow_left₀ hg h2 2
      linarith

theorem voigt_scale {l g s : ℝ} (hs : 0 < s) : voigtFwhm (s * l) (s * g) = s * voigtFwhm l g := by
  unfold voigtFwhm
  simp only [mul_eq_zero, hs.ne', false_or]
  split
  · rfl
  · split
    · rfl
    · have : 2166 / 10000 * (s * l) ^ 2 + (s * g) ^ 2 = s ^ 2 * (2166 / 10000 * l ^ 2 + g ^ 2) := by ring
      rw [this, sqrt_mul (sq_nonneg s), sqrt_sq hs.le]
      ring

theorem foldl_min_mem (l : ℝ) (t : List ℝ) : t.foldl min l ∈ l :: t ∧ ∀ x ∈ l :: t, t.foldl min l ≤ x := by
  induction t generalizing l with
  | nil => simp
  | cons a t ih =>
    rw [List.foldl_cons]
    obtain ⟨h1, h2⟩ := ih (min l a)
    constructor
    · rcases List.mem_cons.1 h1 with h | h
      · rw [h]
        rcases min_choice l a with h | h <;> rw [h] <;> simp
      · simp [h]
    · intro x hx
      have h3 := h2 _ List.mem_cons_self
      rcases List.mem_cons.1 hx with rfl | hx
      · exact h3.trans (min_le_left _ _)
      · rcases List.mem_cons.1 hx with rfl | hx
        · exact h3.trans (min_le_right _ _)
        · exact h2 x (List.mem_cons_of_mem _ hx)

/-- C138. The minimum width of a line is never above the width (approximate Voigt formula) of any of its components, with the Gaussian of instrument and line together; and not below any of the Gaussian widths
or below the narrowest Lorentzian. -/
theorem minimum_below {r : ℝ} (hr : 0 < r) {ls : List ℝ} (hne : ls ≠ []) (hl : ∀ l ∈ ls, 0 ≤ l) {g s : ℝ} (hg : 0 ≤ g) (hs : 0 ≤ s) :
    ∃ w σ, minimumFwhm r ls g s = .ok w ∧ gaussianSigma r g s = .ok σ ∧ (∀ l ∈ ls, w ≤ voigtFwhm l (σ * r)) ∧ g ≤ w ∧ s * r ≤ w ∧ (∃ l ∈ ls, l ≤ w) := by
  match ls, hne with
  | l0 :: t, _ =>
    obtain ⟨m1, m2⟩ := foldl_min_mem l0 t
    have hm := hl _ m1
    refine ⟨_, _, rfl, by unfold gaussianSigma; rw [if_pos hg], fun l hlm => ?_, ?_, ?_, _, m1, ?_⟩
    · have hσ : (√((g / r) ^ 2 + s ^ 2) * r) ^ 2 = g ^ 2 + (s * r) ^ 2 := by
        rw [mul_pow, sq_sqrt (by positivity)]
        field_simp
      refine le_trans ?_ (voigt_bounds (hl l hlm) (show 0 ≤ √((g / r) ^ 2 + s ^ 2) * r by positivity)).2.1
      rw [hσ, ← add_assoc]
      refine sqrt_le_sqrt ?_
      have := pow_le_pow_left₀ hm (m2 l hlm) 2
      linarith
    · refine le_sqrt_of_sq_le ?_
      nlinarith [sq_nonneg (t.foldl min l0), sq_nonneg (s * r)]
    · refine le_sqrt_of_sq_le ?_
      nlinarith [sq_nonneg (t.foldl min l0), sq_nonneg g]
    · refine le_sqrt_of_sq_le ?_
      nlinarith [sq_nonneg (s * r), sq_nonneg g]

/-! ### examples -/

example : voigtFwhm 3 0 = 3 ∧ voigtFwhm 0 4 = 4 := ⟨(voigt_bounds (by norm_num) (le_refl 0)).2.2.2.1, (voigt_bounds (le_refl 0) (by norm_num)).2.2.2.2⟩
example : 5 ≤ voigtFwhm 3 4 := by
  have := (voigt_bounds (l := 3) (g := 4) (by norm_num) (by norm_num)).2.1
  rwa [show (3 : ℝ) ^ 2 + 4 ^ 2 = 5 ^ 2 by norm_num, sqrt_sq (by norm_num)] at this
example : bartlett 3 = [0, 1, 0] := by
  rw [(windows_shape (n := 3) (by norm_num)).1, show List.range 3 = [0, 1, 2] from rfl]
  norm_num

end Mass.Stat.Windows
