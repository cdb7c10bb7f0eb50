import Verif.Stat.Savgol
import Mathlib.Algebra.Order.Field.Rat
import Mathlib.Data.Rat.Defs
import Mathlib.Data.List.GetD
/-! C118, further: histograms with error bands, mass/mathstat/utilities.py L74-100. Exact arithmetic. -/
namespace Mass.Stat.PoissonHist
open Mass Mass.Stat.Savgol

variable {K : Type} [Field K] [LinearOrder K] [IsStrictOrderedRing K]

/-- the bins handed on by `plot_stepped_hist_poisson_errors`, mass/mathstat/utilities.py L87-90 -/
def centres (n : Nat) (bins : List K) : Except Exc (List K) :=
  if bins.length = n + 1 then .ok ((bins.tail.zip bins.dropLast).map (fun e => (1 / 2) * (e.1 + e.2)))
  else if bins.length ≠ n then .error .value
  else .ok bins

/-- the steps drawn by `plot_stepped_hist_poisson_errors`, mass/mathstat/utilities.py L87-90, L99 -/
def poissonSteps (counts bins : List K) (scale offset : K) : Except Exc (List (K × K)) :=
  match centres counts.length bins with
  | .error e => .error e
  | .ok b => stepped (counts.map (fun c => c * scale + offset)) b

/-- the error band of one bin, mass/mathstat/utilities.py L92-98; `root` is the square root of the counts, `smooth` the smoothed value -/
def band (smooth root scale offset : K) : K × K :=
  let lo := smooth - root * scale
  let up := smooth + root * scale
  ((if lo < 0 then 0 else lo) + offset, (if up < 0 then 0 else up) + offset)

/-- C118: the band lies above the offset, its ends in order, and is as wide as twice the error unless cut at zero. -/
theorem band_spec (smooth root scale offset : K) (hr : 0 ≤ root) (hs : 0 ≤ scale) :
    offset ≤ (band smooth root scale offset).1 ∧ (band smooth root scale offset).1 ≤ (band smooth root scale offset).2 ∧
      (root * scale ≤ smooth → (band smooth root scale offset).2 - (band smooth root scale offset).1 = 2 * (root * scale)) := by
  have h := mul_nonneg hr hs
  unfold band
  dsimp only
  refine ⟨?_, ?_, fun h2 => ?_⟩
  · split <;> linarith
  · split <;> split <;> linarith
  · rw [if_neg (by linarith), if_neg (by linarith)]; ring

example : band (4 : ℚ) 3 1 10 = (11, 17) ∧ band (2 : ℚ) 3 1 10 = (10, 15) := by decide +kernel

/-- Disagreement (C118): a histogram with error bars whose bin edges are not equally spaced is drawn with the wrong edges (all bins as wide as the distance of the first two centres); a single bin cannot be drawn. -/
theorem uneven_fails : poissonSteps [(4 : ℚ), 9] [0, 2, 10] 1 0 = .ok [(-3 / 2, 0), (-3 / 2, 4), (7 / 2, 4), (7 / 2, 9), (17 / 2, 9), (17 / 2, 0)] ∧
    stepped [(4 : ℚ), 9] [0, 2, 10] = .ok [(0, 0), (0, 4), (2, 4), (2, 9), (10, 9), (10, 0)] ∧ poissonSteps [(4 : ℚ)] [0, 2] 1 0 = .error .index := by decide +kernel

/-- C118: with equally spaced edges the steps are drawn at those edges. -/
theorem poisson_even (counts : List K) (start dx scale offset : K) (h : 2 ≤ counts.length) :
    poissonSteps counts ((List.range (counts.length + 1)).map (fun i : Nat => start + dx * i)) scale offset =
      stepped (counts.map (fun c => c * scale + offset)) ((List.range (counts.length + 1)).map (fun i : Nat => start + dx * i)) := by
  have hc : centres counts.length ((List.range (counts.length + 1)).map (fun i : Nat => start + dx * (i : K))) = .ok ((List.range counts.length).map (fun i : Nat => start + dx / 2 + dx * (i : K))) := by
    unfold centres
    rw [if_pos (by simp)]
    congr 1
    apply List.ext_getElem
    · simp
    · intro i h1 h2
      simp at h1 h2
      simp
      ring
  unfold poissonSteps
  rw [hc]
  dsimp only
  have := stepped_centers (start + dx / 2) dx (counts.map (fun c => c * scale + offset)) (by simpa using h)
  simp only [List.length_map] at this
  rw [this]
  congr 1
  apply List.map_congr_left
  intro i _
  ring

end Mass.Stat.PoissonHist
