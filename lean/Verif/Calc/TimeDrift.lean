import Verif.Py
import Mathlib.Algebra.Polynomial.Derivative
import Mathlib.Analysis.Calculus.Deriv.Polynomial
import Mathlib.MeasureTheory.Integral.IntervalIntegral.FundThmCalculus
import Mathlib.Algebra.Order.Floor.Semiring
import Mathlib.Topology.Algebra.Polynomial
import Mathlib.Tactic.Linarith
import Mathlib.Tactic.Ring
import Mathlib.Tactic.FieldSimp
import Mathlib.Tactic.Positivity
/-! C110: correcting a drift of the gain with time (mass/core/channel.py `time_drift_correct`, the function and the method). Real numbers for floats. The
entropy estimate and scipy's minimizer are arbitrary functions: every statement holds whatever they return. -/
namespace Mass.Calc.TimeDrift
open Polynomial
open scoped BigOperators

/-! ### model -/

/-- `sp.special.legendre(n)` (channel.py L2676, L2687): the Legendre polynomial, by Rodrigues' formula. -/
noncomputable def legendre (n : ℕ) : ℝ[X] := C (1 / (2 ^ n * (n.factorial : ℝ))) * derivative^[n] ((X ^ 2 - 1) ^ n)

/-- channel.py L2635, `np.min` -/
noncomputable def minL : List ℝ → ℝ
  | [] => 0
  | x :: l => l.foldl min x

/-- channel.py L2635, `np.max` -/
noncomputable def maxL : List ℝ → ℝ
  | [] => 0
  | x :: l => l.foldl max x

/-- channel.py L2637-2638 `normalize`. A quotient by zero (one pulse time only; nan in numpy) is 0. -/
noncomputable def normalize (tmin tmax t : ℝ) : ℝ := (t - tmin) / (tmax - tmin) * 2 - 1

/-- channel.py L2649-2651: the number of degrees when none is given -/
noncomputable def degrees (dtime N spd ppd : ℝ) (maxDeg : ℕ) : ℕ := max (min ⌊min (dtime / spd) (N / ppd)⌋₊ maxDeg) 1

/-- channel.py L2652-2659: take every how many pulses -/
noncomputable def downsample (N ppd : ℝ) (ndeg : ℕ) : ℕ := if 2 * ppd ≤ N / ndeg then ⌊N / ndeg / ppd⌋₊ else 1

/-- `l[::d]` (channel.py L2655-2656) -/
def stride {α : Type} (d : ℕ) (l : List α) : List α := (List.range ((l.length + d - 1) / d)).filterMap (fun i => l[i * d]?)

/-- channel.py L2666-2669 `model1`: the gain at `x` for the coefficients `p` -/
noncomputable def gain (n : ℕ) (p : ℕ → ℝ) (x : ℝ) : ℝ := 1 + ∑ j ∈ Finset.range n, (legendre (j + 1)).eval x * p j

/-- `y * gain(x)` pulse by pulse (channel.py L2672, L2697, L2079) -/
def times (ys xs : List ℝ) (g : ℝ → ℝ) : List ℝ := List.zipWith (fun y x => y * g x) ys xs

/-- channel.py L2683-2689: one degree: the minimizer is asked for the coefficient, the others as they are so far. Left out: the count of calls. -/
noncomputable def step (H : List ℝ → ℝ) (brent : (ℝ → ℝ) → ℝ) (n : ℕ) (ys xs : List ℝ) (s : (ℕ → ℝ) × ℝ[X]) (i : ℕ) : (ℕ → ℝ) × ℝ[X] :=
  let r := brent (fun q => H (times ys xs (gain n (Function.update s.1 i q))))
  (Function.update s.1 i r, s.2 + legendre (i + 1) * C r)

/-- channel.py L2674-2689: coefficients and polynomial after the loop over the degrees -/
noncomputable def fit (H : List ℝ → ℝ) (brent : (ℝ → ℝ) → ℝ) (n : ℕ) (ys xs : List ℝ) : (ℕ → ℝ) × ℝ[X] :=
  (List.range n).foldl (step H brent n ys xs) (fun _ => 0, 0)

/-- channel.py L2640-2644, L2681, L2701-2703: the returned dictionary; also the pulses the fit used (only for stating theorems). The third entropy (of a
spline that is not returned) is left out. -/
structure Info where
  tmin : ℝ
  tmax : ℝ
  coefficients : List ℝ
  model : ℝ[X]
  h1 : ℝ
  h2 : ℝ
  pulses : List (ℝ × ℝ)

/-- channel.py L2599-2703 `time_drift_correct` (the function). `pct99` is `np.percentile(uncorrected, 99)`; `H` is `laplace_entropy` with its width. -/
noncomputable def timeDrift (H : ℝ → List ℝ → ℝ) (brent : (ℝ → ℝ) → ℝ) (pct99 : List ℝ → ℝ) (time unc : List ℝ) (w spd ppd : ℝ) (maxDeg : ℕ)
    (ndeg : Option ℕ) (limit : Option (ℝ × ℝ)) : Except Exc Info :=
  let lim := limit.getD (0, 1.25 * pct99 unc)
  if time.length ≠ unc.length then .error .index
  else
    let used := (time.zip unc).filter (fun p => decide (lim.1 < p.2 ∧ p.2 < lim.2))
    if used = [] then .error .value
    else
      let tmin := minL (used.map (·.1))
      let tmax := maxL (used.map (·.1))
      let n := match ndeg with
        | none => degrees (tmax - tmin) used.length spd ppd maxDeg
        | some n => n
      if n = 0 then .error .zeroDiv
      else
        let pulses := match ndeg with
          | none => stride (downsample used.length ppd n) used
          | some _ => used
        let ys := pulses.map (·.2)
        let xs := pulses.map (fun p => normalize tmin tmax p.1)
        let r := fit (H w) brent n ys xs
        let h1 := H w ys
        let h2 := H w (times ys xs (fun x => 1 + r.2.eval x))
        .ok { tmin := tmin
              tmax := tmax
              coefficients := (List.range n).map r.1
              model := if h2 ≤ 0 ∨ 0 < h2 - h1 then 0 else r.2
              h1 := h1
              h2 := h2
              pulses := pulses }

/-- channel.py L2078-2079; mass/off/channels.py L576-579: the corrected value of a pulse -/
noncomputable def correct (info : Info) (t y : ℝ) : ℝ := y * (1 + info.model.eval (normalize info.tmin info.tmax t))

/-- channel.py L2058-2086 `MicrocalDataSet.time_drift_correct`: `good` are the pulses not cut, `ts` the times, `attr` the values to correct, `tdc` the stored
results; `median` is `np.median`. Gives the values stored afterwards. Simplified: a median of 0 or of nothing ends with no pulse used, as here. -/
noncomputable def method (H : ℝ → List ℝ → ℝ) (brent : (ℝ → ℝ) → ℝ) (pct99 median : List ℝ → ℝ) (good : List Bool) (ts attr tdc : List ℝ)
    (_spd _ppd : ℝ) (_maxDeg : ℕ) (forceNew : Bool) : Except Exc (List ℝ) :=
  haveI := Classical.dec
  if (∀ x ∈ tdc, x = 0) ∨ forceNew = true then
    let sel := (good.zip (ts.zip attr)).filter (·.1)
    let pk := median (sel.map (·.2.2))
    let near := sel.filter (fun p => decide (|p.2.2 / pk - 1| < 0.5))
    match timeDrift H brent pct99 (near.map (·.2.1)) (near.map (·.2.2)) (max (pk / 3000) 1) 2000 2000 20 none (some (0.5 * pk, 2 * pk)) with
    | .error e => .error e
    | .ok info => .ok (List.zipWith (fun t y => correct info t y) ts attr)
  else .ok tdc

/-! ### Legendre polynomials -/

theorem legendre_degree (n : ℕ) : (legendre n).natDegree ≤ n := by
  unfold legendre
  refine (natDegree_C_mul_le _ _).trans ((natDegree_iterate_derivative _ _).trans ?_)
  have h1 : ((X : ℝ[X]) ^ 2 - 1).natDegree ≤ 2 := by
    refine (natDegree_sub_le _ _).trans ?_
    simp
  have h2 : (((X : ℝ[X]) ^ 2 - 1) ^ n).natDegree ≤ n * 2 := natDegree_pow_le_of_le n h1
  omega

theorem integral_derivative (Q : ℝ[X]) (a b : ℝ) : ∫ x in a..b, (derivative Q).eval x = Q.eval b - Q.eval a := by
  apply intervalIntegral.integral_eq_sub_of_hasDerivAt
  · intro x _
    exact Q.hasDerivAt x
  · exact (Polynomial.continuous _).intervalIntegrable _ _

theorem legendre_integral (n : ℕ) : ∫ x in (-1 : ℝ)..1, (legendre (n + 1)).eval x = 0 := by
  unfold legendre
  simp only [eval_mul, eval_C, Function.iterate_succ_apply']
  rw [intervalIntegral.integral_const_mul, integral_derivative]
  have hdvd : ((X : ℝ[X]) ^ 2 - 1) ∣ derivative^[n] ((X ^ 2 - 1) ^ (n + 1)) := by
    have := pow_sub_dvd_iterate_derivative_of_pow_dvd n (dvd_refl (((X : ℝ[X]) ^ 2 - 1) ^ (n + 1)))
    simpa using this
  obtain ⟨q, hq⟩ := hdvd
  rw [hq]
  simp

/-! ### the fit -/

section fit
variable (H : List ℝ → ℝ) (brent : (ℝ → ℝ) → ℝ) (n : ℕ) (ys xs : List ℝ)

/-- the loop stopped after `k` degrees [specification] -/
noncomputable def after (k : ℕ) : (ℕ → ℝ) × ℝ[X] := (List.range k).foldl (step H brent n ys xs) (fun _ => 0, 0)

theorem after_succ (k : ℕ) : after H brent n ys xs (k + 1) = step H brent n ys xs (after H brent n ys xs k) k := by
  unfold after
  rw [List.range_succ, List.foldl_append]
  rfl

theorem after_zero_above (k j : ℕ) (h : k ≤ j) : (after H brent n ys xs k).1 j = 0 := by
  induction k with
  | zero => rfl
  | succ k ih =>
    rw [after_succ]
    unfold step
    simp only
    rw [Function.update_of_ne (by omega), ih (by omega)]

theorem after_model (k : ℕ) : (after H brent n ys xs k).2 = ∑ j ∈ Finset.range k, legendre (j + 1) * C ((after H brent n ys xs k).1 j) := by
  induction k with
  | zero => rfl
  | succ k ih =>
    rw [Finset.sum_range_succ, after_succ]
    unfold step
    simp only
    rw [Function.update_self]
    congr 1
    rw [ih]
    apply Finset.sum_congr rfl
    intro j hj
    rw [Function.update_of_ne (by have := Finset.mem_range.mp hj; omega)]

theorem gain_eval (p : ℕ → ℝ) (x : ℝ) : gain n p x = 1 + (∑ j ∈ Finset.range n, legendre (j + 1) * C (p j)).eval x := by
  unfold gain
  rw [eval_finsetSum]
  simp

/-- If every coefficient the minimizer returns is at least as good as 0, the entropy has not risen. -/
theorem after_entropy (hb : ∀ f : ℝ → ℝ, f (brent f) ≤ f 0) (k : ℕ) : H (times ys xs (gain n (after H brent n ys xs k).1)) ≤ H (times ys xs (gain n (fun _ => 0))) := by
  induction k with
  | zero => exact le_refl _
  | succ k ih =>
    refine le_trans ?_ ih
    rw [after_succ]
    unfold step
    simp only
    have h := hb (fun q => H (times ys xs (gain n (Function.update (after H brent n ys xs k).1 k q))))
    refine h.trans (le_of_eq ?_)
    have e : Function.update (after H brent n ys xs k).1 k 0 = (after H brent n ys xs k).1 := by
      conv_lhs => rw [← after_zero_above H brent n ys xs k k (le_refl _)]
      exact Function.update_eq_self _ _
    rw [e]

theorem fit_model : (fit H brent n ys xs).2 = ∑ j ∈ Finset.range n, legendre (j + 1) * C ((fit H brent n ys xs).1 j) := after_model H brent n ys xs n

theorem fit_degree : (fit H brent n ys xs).2.natDegree ≤ n := by
  rw [fit_model]
  apply natDegree_sum_le_of_forall_le
  intro j hj
  refine (natDegree_mul_C_le _ _).trans ((legendre_degree _).trans ?_)
  have := Finset.mem_range.mp hj
  omega

theorem fit_integral : ∫ x in (-1 : ℝ)..1, (fit H brent n ys xs).2.eval x = 0 := by
  rw [fit_model]
  simp only [eval_finsetSum, eval_mul, eval_C]
  rw [intervalIntegral.integral_finsetSum]
  · apply Finset.sum_eq_zero
    intro j _
    rw [intervalIntegral.integral_mul_const, legendre_integral, zero_mul]
  · intro j _
    exact ((Polynomial.continuous _).mul continuous_const).intervalIntegrable _ _

end fit

/-! ### lists -/

theorem foldl_min_le (l : List ℝ) (x : ℝ) : l.foldl min x ≤ x ∧ ∀ y ∈ l, l.foldl min x ≤ y := by
  induction l generalizing x with
  | nil => simp
  | cons a l ih =>
    obtain ⟨h1, h2⟩ := ih (min x a)
    refine ⟨h1.trans (min_le_left _ _), ?_⟩
    intro y hy
    rcases List.mem_cons.mp hy with e | e
    · rw [e]; exact h1.trans (min_le_right _ _)
    · exact h2 y e

theorem le_foldl_max (l : List ℝ) (x : ℝ) : x ≤ l.foldl max x ∧ ∀ y ∈ l, y ≤ l.foldl max x := by
  induction l generalizing x with
  | nil => simp
  | cons a l ih =>
    obtain ⟨h1, h2⟩ := ih (max x a)
    refine ⟨(le_max_left _ _).trans h1, ?_⟩
    intro y hy
    rcases List.mem_cons.mp hy with e | e
    · rw [e]; exact (le_max_right _ _).trans h1
    · exact h2 y e

theorem minL_le {l : List ℝ} {x : ℝ} (h : x ∈ l) : minL l ≤ x := by
  cases l with
  | nil => simp at h
  | cons a l =>
    rcases List.mem_cons.mp h with e | e
    · rw [e]; exact (foldl_min_le l a).1
    · exact (foldl_min_le l a).2 x e

theorem le_maxL {l : List ℝ} {x : ℝ} (h : x ∈ l) : x ≤ maxL l := by
  cases l with
  | nil => simp at h
  | cons a l =>
    rcases List.mem_cons.mp h with e | e
    · rw [e]; exact (le_foldl_max l a).1
    · exact (le_foldl_max l a).2 x e

theorem foldl_min_mem (l : List ℝ) (x : ℝ) : l.foldl min x ∈ x :: l := by
  induction l generalizing x with
  | nil => simp
  | cons a l ih =>
    have := ih (min x a)
    rw [List.foldl_cons]
    rcases List.mem_cons.mp this with e | e
    · rw [e]
      rcases min_choice x a with h | h <;> rw [h] <;> simp
    · exact List.mem_cons_of_mem _ (List.mem_cons_of_mem _ e)

theorem foldl_max_mem (l : List ℝ) (x : ℝ) : l.foldl max x ∈ x :: l := by
  induction l generalizing x with
  | nil => simp
  | cons a l ih =>
    have := ih (max x a)
    rw [List.foldl_cons]
    rcases List.mem_cons.mp this with e | e
    · rw [e]
      rcases max_choice x a with h | h <;> rw [h] <;> simp
    · exact List.mem_cons_of_mem _ (List.mem_cons_of_mem _ e)

theorem minL_mem {l : List ℝ} (h : l ≠ []) : minL l ∈ l := by
  cases l with
  | nil => exact absurd rfl h
  | cons a l => exact foldl_min_mem l a

theorem maxL_mem {l : List ℝ} (h : l ≠ []) : maxL l ∈ l := by
  cases l with
  | nil => exact absurd rfl h
  | cons a l => exact foldl_max_mem l a

theorem stride_mem {α : Type} {d : ℕ} {l : List α} {x : α} (h : x ∈ stride d l) : x ∈ l := by
  unfold stride at h
  obtain ⟨i, _, hi⟩ := List.mem_filterMap.mp h
  exact List.mem_of_getElem? hi

theorem stride_some {α : Type} {d : ℕ} (hd : 0 < d) (l : List α) :
    (stride d l).map some = (List.range ((l.length + d - 1) / d)).map (fun i => l[i * d]?) := by
  unfold stride
  have : ∀ i ∈ List.range ((l.length + d - 1) / d), ∃ x, l[i * d]? = some x := by
    intro i hi
    have h1 := List.mem_range.mp hi
    have h2 : (i + 1) * d ≤ l.length + d - 1 := (Nat.le_div_iff_mul_le hd).mp h1
    have h3 : (i + 1) * d = i * d + d := by ring
    exact ⟨_, List.getElem?_eq_getElem (by omega)⟩
  revert this
  generalize List.range ((l.length + d - 1) / d) = m
  intro hm
  induction m with
  | nil => rfl
  | cons i m ih =>
    obtain ⟨x, hx⟩ := hm i List.mem_cons_self
    rw [List.filterMap_cons, hx]
    simp only [List.map_cons, hx]
    rw [ih (fun j hj => hm j (List.mem_cons_of_mem _ hj))]

theorem stride_length {α : Type} {d : ℕ} (hd : 0 < d) (l : List α) : (stride d l).length = (l.length + d - 1) / d := by
  have := congrArg List.length (stride_some hd l)
  simpa using this

theorem stride_one {α : Type} (l : List α) : stride 1 l = l := by
  have h := stride_some Nat.one_pos l
  simp only [Nat.mul_one, Nat.div_one, Nat.add_sub_cancel] at h
  have h2 : (List.range l.length).map (fun i => l[i]?) = l.map some := by
    apply List.ext_getElem
    · simp
    · intro i h1 h2
      simp
  rw [h2] at h
  exact List.map_injective_iff.mpr (Option.some_injective α) h

/-! ### C110 -/

section
variable {H : ℝ → List ℝ → ℝ} {brent : (ℝ → ℝ) → ℝ} {pct99 : List ℝ → ℝ} {time unc : List ℝ} {w spd ppd : ℝ} {maxDeg : ℕ} {ndeg : Option ℕ}
  {limit : Option (ℝ × ℝ)} {info : Info}

/-- the pulses within the limits [specification] -/
noncomputable def within (pct99 : List ℝ → ℝ) (time unc : List ℝ) (limit : Option (ℝ × ℝ)) : List (ℝ × ℝ) :=
  (time.zip unc).filter (fun p => decide ((limit.getD (0, 1.25 * pct99 unc)).1 < p.2 ∧ p.2 < (limit.getD (0, 1.25 * pct99 unc)).2))

/-- What a successful call returns. -/
theorem timeDrift_ok (h : timeDrift H brent pct99 time unc w spd ppd maxDeg ndeg limit = .ok info) :
    within pct99 time unc limit ≠ [] ∧ info.tmin = minL ((within pct99 time unc limit).map (·.1)) ∧
    info.tmax = maxL ((within pct99 time unc limit).map (·.1)) ∧
    ∃ n, 0 < n ∧ (n = match ndeg with
        | none => degrees (info.tmax - info.tmin) (within pct99 time unc limit).length spd ppd maxDeg
        | some n => n) ∧
      (info.pulses = match ndeg with
        | none => stride (downsample (within pct99 time unc limit).length ppd n) (within pct99 time unc limit)
        | some _ => within pct99 time unc limit) ∧
      info.coefficients.length = n ∧
      ∃ r, r = fit (H w) brent n (info.pulses.map (·.2)) (info.pulses.map (fun p => normalize info.tmin info.tmax p.1)) ∧
        info.coefficients = (List.range n).map r.1 ∧ info.h1 = H w (info.pulses.map (·.2)) ∧
        info.h2 = H w (times (info.pulses.map (·.2)) (info.pulses.map (fun p => normalize info.tmin info.tmax p.1)) (fun x => 1 + r.2.eval x)) ∧
        info.model = if info.h2 ≤ 0 ∨ 0 < info.h2 - info.h1 then 0 else r.2 := by
  unfold timeDrift at h
  dsimp only at h
  change (if time.length ≠ unc.length then _ else if within pct99 time unc limit = [] then _ else _) = _ at h
  by_cases h1 : time.length ≠ unc.length
  · rw [if_pos h1] at h; cases h
  rw [if_neg h1] at h
  by_cases h2 : within pct99 time unc limit = []
  · rw [if_pos h2] at h; cases h
  rw [if_neg h2] at h
  refine ⟨h2, ?_⟩
  cases ndeg with
  | none =>
    dsimp only at h
    split at h
    · cases h
    · rename_i h3
      cases h
      exact ⟨rfl, rfl, _, Nat.pos_of_ne_zero h3, rfl, rfl, by simp [within], _, rfl, rfl, rfl, rfl, rfl⟩
  | some n =>
    dsimp only at h
    split at h
    · cases h
    · rename_i h3
      cases h
      exact ⟨rfl, rfl, _, Nat.pos_of_ne_zero h3, rfl, rfl, by simp, _, rfl, rfl, rfl, rfl, rfl⟩

theorem times_map (l : List (ℝ × ℝ)) (f : ℝ → ℝ) (g : ℝ → ℝ) : times (l.map (·.2)) (l.map (fun p => f p.1)) g = l.map (fun p => p.2 * g (f p.1)) := by
  unfold times
  rw [List.zipWith_map_left, List.zipWith_map_right, List.zipWith_self]

/-- C110. Whatever the minimizer and the entropy estimate do: on the pulses fitted, the entropy of the corrected values is at most that of the uncorrected. -/
theorem drift_entropy (h : timeDrift H brent pct99 time unc w spd ppd maxDeg ndeg limit = .ok info) :
    H w (info.pulses.map (fun p => correct info p.1 p.2)) ≤ H w (info.pulses.map (·.2)) := by
  obtain ⟨_, _, _, n, _, _, _, _, r, _, _, h1, h2, hm⟩ := timeDrift_ok h
  unfold correct
  by_cases hc : info.h2 ≤ 0 ∨ 0 < info.h2 - info.h1
  · rw [if_pos hc] at hm
    rw [hm]
    simp
  · rw [if_neg hc] at hm
    rw [hm]
    rw [times_map] at h2
    rw [← h2, ← h1]
    push Not at hc
    linarith [hc.2]

/-- C110. If the minimizer never returns a coefficient that is worse than 0, and the entropy is positive, the correction is the Legendre series with the
returned coefficients. -/
theorem drift_kept (h : timeDrift H brent pct99 time unc w spd ppd maxDeg ndeg limit = .ok info) (hb : ∀ f : ℝ → ℝ, f (brent f) ≤ f 0) (hp : 0 < info.h2) :
    info.model = ∑ j ∈ Finset.range info.coefficients.length, legendre (j + 1) * C ((info.coefficients[j]?).getD 0) := by
  obtain ⟨_, _, _, n, _, _, _, hl, r, hr, hco, h1, h2, hm⟩ := timeDrift_ok h
  have hle : info.h2 ≤ info.h1 := by
    have := after_entropy (H w) brent n (info.pulses.map (·.2)) (info.pulses.map (fun p => normalize info.tmin info.tmax p.1)) hb n
    rw [h1, h2]
    have e1 : (fun x => 1 + r.2.eval x) = gain n r.1 := by
      funext x
      rw [gain_eval, hr, fit_model]
    have e2 : times (info.pulses.map (·.2)) (info.pulses.map (fun p => normalize info.tmin info.tmax p.1)) (gain n (fun _ => 0)) = info.pulses.map (·.2) := by
      rw [times_map]
      apply List.map_congr_left
      intro p _
      simp [gain]
    rw [e2] at this
    rw [e1, hr]
    exact this
  rw [if_neg (by push Not; exact ⟨hp, by linarith⟩)] at hm
  rw [hm, hl]
  conv_lhs => rw [hr, fit_model]
  apply Finset.sum_congr rfl
  intro j hj
  rw [hco, List.getElem?_map, List.getElem?_range (Finset.mem_range.mp hj), ← hr]
  rfl

/-- C110. The number of degrees: as many as asked for, or else at least one, at most `max_degrees`, and (beyond the first) at most one for every
`sec_per_degree` seconds and for every `pulses_per_degree` pulses within the limits. The correction is a polynomial of at most that degree. -/
theorem drift_degrees (h : timeDrift H brent pct99 time unc w spd ppd maxDeg ndeg limit = .ok info) :
    info.model.natDegree ≤ info.coefficients.length ∧ 1 ≤ info.coefficients.length ∧ (∀ n, ndeg = some n → info.coefficients.length = n) ∧
    (ndeg = none → info.coefficients.length = 1 ∨ info.coefficients.length ≤ maxDeg ∧
      (0 < spd → info.coefficients.length * spd ≤ info.tmax - info.tmin) ∧
      (0 < ppd → info.coefficients.length * ppd ≤ (within pct99 time unc limit).length)) := by
  obtain ⟨_, _, _, n, hn0, hn, _, hl, r, hr, hco, h1, h2, hm⟩ := timeDrift_ok h
  rw [hl]
  refine ⟨?_, hn0, ?_, ?_⟩
  · rw [hm]
    split
    · simp
    · rw [hr]; exact fit_degree _ _ _ _ _
  · intro m e
    subst e
    exact hn
  · intro e
    subst e
    dsimp only at hn
    unfold degrees at hn
    set x := min ((info.tmax - info.tmin) / spd) ((within pct99 time unc limit).length / ppd) with hx
    by_cases h1 : n = 1
    · exact Or.inl h1
    · right
      have hk : n ≤ ⌊x⌋₊ ∧ n ≤ maxDeg := by omega
      have hx1 : (n : ℝ) ≤ x := (Nat.le_floor_iff' (by omega)).mp hk.1
      refine ⟨hk.2, ?_, ?_⟩
      · intro hs
        have := hx1.trans (min_le_left _ _)
        rwa [le_div_iff₀ hs] at this
      · intro hs
        have := hx1.trans (min_le_right _ _)
        rwa [le_div_iff₀ hs] at this

/-- C110. The pulses fitted: all those within the limits, or, when no number of degrees is given, every `d`-th of them, which leaves at least
`pulses_per_degree` pulses for each degree. -/
theorem drift_pulses (h : timeDrift H brent pct99 time unc w spd ppd maxDeg ndeg limit = .ok info) (hp : 0 < ppd) :
    info.pulses = within pct99 time unc limit ∨ (ndeg = none ∧ ∃ d, 2 ≤ d ∧
      info.pulses.map some = (List.range ((((within pct99 time unc limit)).length + d - 1) / d)).map (fun i => (within pct99 time unc limit)[i * d]?) ∧
      info.coefficients.length * ppd ≤ info.pulses.length) := by
  obtain ⟨hne, _, _, n, hn0, hn, hpu, hl, _⟩ := timeDrift_ok h
  cases ndeg with
  | some m => left; exact hpu
  | none =>
    dsimp only at hpu
    rw [hl]
    set l := within pct99 time unc limit with hlw
    have hn0' : (0 : ℝ) < n := by exact_mod_cast hn0
    by_cases hd : 2 * ppd ≤ (l.length : ℝ) / n
    · right
      refine ⟨rfl, downsample l.length ppd n, ?_, ?_, ?_⟩
      · unfold downsample
        rw [if_pos hd]
        apply Nat.le_floor
        rw [le_div_iff₀ hp]
        exact_mod_cast hd
      · have hd2 : 2 ≤ downsample l.length ppd n := by
          unfold downsample
          rw [if_pos hd]
          apply Nat.le_floor
          rw [le_div_iff₀ hp]
          exact_mod_cast hd
        rw [hpu]
        exact stride_some (by omega) l
      · have hd2 : 2 ≤ downsample l.length ppd n := by
          unfold downsample
          rw [if_pos hd]
          apply Nat.le_floor
          rw [le_div_iff₀ hp]
          exact_mod_cast hd
        rw [hpu, stride_length (by omega)]
        set d := downsample l.length ppd n with hdd
        have hdle : (d : ℝ) ≤ (l.length : ℝ) / n / ppd := by
          rw [hdd]
          unfold downsample
          rw [if_pos hd]
          exact Nat.floor_le (by positivity)
        have hd0 : (0 : ℝ) < d := by exact_mod_cast (by omega : 0 < d)
        have h1 : l.length ≤ (l.length + d - 1) / d * d := by
          have := Nat.div_add_mod (l.length + d - 1) d
          have h2 := Nat.mod_lt (l.length + d - 1) (by omega : 0 < d)
          rw [Nat.mul_comm] at this
          omega
        have h1' : (l.length : ℝ) ≤ (((l.length + d - 1) / d : ℕ) : ℝ) * d := by exact_mod_cast h1
        rw [le_div_iff₀ hp, le_div_iff₀ hn0'] at hdle
        have : (n * ppd) * d ≤ (((l.length + d - 1) / d : ℕ) : ℝ) * d := by
          calc (n * ppd) * d = d * ppd * n := by ring
            _ ≤ _ := hdle
            _ ≤ _ := h1'
        exact le_of_mul_le_mul_right this hd0
    · left
      rw [hpu]
      unfold downsample
      rw [if_neg hd]
      exact stride_one l

/-- C110. The fitted pulses lie within the limits, and their times are within the range of times, which is normalized to [-1, 1]. -/
theorem drift_range (h : timeDrift H brent pct99 time unc w spd ppd maxDeg ndeg limit = .ok info) :
    (∀ p ∈ within pct99 time unc limit, info.tmin ≤ p.1 ∧ p.1 ≤ info.tmax) ∧
    (∃ p ∈ within pct99 time unc limit, p.1 = info.tmin) ∧ (∃ p ∈ within pct99 time unc limit, p.1 = info.tmax) ∧
    (∀ p ∈ info.pulses, p ∈ within pct99 time unc limit) ∧
    (info.tmin < info.tmax → normalize info.tmin info.tmax info.tmin = -1 ∧ normalize info.tmin info.tmax info.tmax = 1) := by
  obtain ⟨hne, h1, h2, n, hn0, hn, hpu, _⟩ := timeDrift_ok h
  have hne' : (within pct99 time unc limit).map (·.1) ≠ [] := by simpa using hne
  refine ⟨?_, ?_, ?_, ?_, ?_⟩
  · intro p hp
    rw [h1, h2]
    exact ⟨minL_le (List.mem_map_of_mem hp), le_maxL (List.mem_map_of_mem hp)⟩
  · obtain ⟨p, hp, e⟩ := List.mem_map.mp (minL_mem hne')
    exact ⟨p, hp, by rw [h1]; exact e⟩
  · obtain ⟨p, hp, e⟩ := List.mem_map.mp (maxL_mem hne')
    exact ⟨p, hp, by rw [h2]; exact e⟩
  · intro p hp
    rw [hpu] at hp
    cases ndeg with
    | none => exact stride_mem hp
    | some m => exact hp
  · intro hlt
    unfold normalize
    have : info.tmax - info.tmin ≠ 0 := by linarith [sub_pos.mpr hlt] |> fun (h : 0 < info.tmax - info.tmin) => ne_of_gt h
    constructor
    · simp
    · rw [div_self this]; norm_num

/-- C110. The correction factor averages to 1 over the time of the pulses. -/
theorem drift_mean (h : timeDrift H brent pct99 time unc w spd ppd maxDeg ndeg limit = .ok info) (y : ℝ) :
    ∫ t in info.tmin..info.tmax, correct info t y = y * (info.tmax - info.tmin) := by
  obtain ⟨_, _, _, n, hn0, hn, _, hl, r, hr, hco, h1, h2, hm⟩ := timeDrift_ok h
  have hint : ∫ x in (-1 : ℝ)..1, info.model.eval x = 0 := by
    rw [hm]
    split
    · simp
    · rw [hr]; exact fit_integral _ _ _ _ _
  unfold correct
  rw [intervalIntegral.integral_const_mul]
  congr 1
  by_cases he : info.tmin = info.tmax
  · rw [he]; simp
  have hd : info.tmax - info.tmin ≠ 0 := sub_ne_zero.mpr (Ne.symm he)
  have hnorm : ∀ t, normalize info.tmin info.tmax t = 2 / (info.tmax - info.tmin) * t + (-(2 / (info.tmax - info.tmin)) * info.tmin - 1) := by
    intro t
    unfold normalize
    field_simp
    ring
  have hcont : Continuous (fun t => info.model.eval (normalize info.tmin info.tmax t)) := by
    simp only [hnorm]
    exact (Polynomial.continuous _).comp (by fun_prop)
  rw [intervalIntegral.integral_add (by simp) (hcont.intervalIntegrable _ _)]
  have e : ∫ t in info.tmin..info.tmax, info.model.eval (normalize info.tmin info.tmax t) = 0 := by
    simp only [hnorm]
    rw [intervalIntegral.integral_comp_mul_add (fun x => info.model.eval x) (by positivity)]
    have a1 : 2 / (info.tmax - info.tmin) * info.tmin + (-(2 / (info.tmax - info.tmin)) * info.tmin - 1) = -1 := by ring
    have a2 : 2 / (info.tmax - info.tmin) * info.tmax + (-(2 / (info.tmax - info.tmin)) * info.tmin - 1) = 1 := by
      field_simp
      ring
    rw [a1, a2, hint, smul_zero]
  rw [e]
  simp

/-- C110. A call succeeds exactly if times and values are equally many, some pulse lies within the limits, and a number of degrees other than 0 is asked for. -/
theorem drift_succeeds : (∃ info, timeDrift H brent pct99 time unc w spd ppd maxDeg ndeg limit = .ok info) ↔
    time.length = unc.length ∧ within pct99 time unc limit ≠ [] ∧ ndeg ≠ some 0 := by
  constructor
  · rintro ⟨info, h⟩
    have h' := timeDrift_ok h
    refine ⟨?_, h'.1, ?_⟩
    · by_contra hc
      unfold timeDrift at h
      rw [if_pos hc] at h
      cases h
    · rintro rfl
      obtain ⟨_, _, _, n, hn0, hn, _⟩ := h'
      dsimp only at hn
      omega
  · rintro ⟨h1, h2, h3⟩
    unfold timeDrift
    dsimp only
    rw [if_neg (by simpa using h1)]
    change ∃ info, (if within pct99 time unc limit = [] then _ else _) = _
    rw [if_neg h2]
    cases ndeg with
    | none =>
      dsimp only
      rw [if_neg]
      · exact ⟨_, rfl⟩
      · unfold degrees; omega
    | some n =>
      dsimp only
      rw [if_neg]
      · exact ⟨_, rfl⟩
      · rintro rfl; exact h3 rfl

theorem minL_add (l : List ℝ) (c : ℝ) (h : l ≠ []) : minL (l.map (· + c)) = minL l + c := by
  cases l with
  | nil => exact absurd rfl h
  | cons x l =>
    simp only [List.map_cons, minL]
    clear h
    induction l generalizing x with
    | nil => rfl
    | cons a l ih => rw [List.map_cons, List.foldl_cons, List.foldl_cons, min_add_add_right, ih]

theorem maxL_add (l : List ℝ) (c : ℝ) (h : l ≠ []) : maxL (l.map (· + c)) = maxL l + c := by
  cases l with
  | nil => exact absurd rfl h
  | cons x l =>
    simp only [List.map_cons, maxL]
    clear h
    induction l generalizing x with
    | nil => rfl
    | cons a l ih => rw [List.map_cons, List.foldl_cons, List.foldl_cons, max_add_add_right, ih]

theorem stride_map {α β : Type} (d : ℕ) (l : List α) (f : α → β) : stride d (l.map f) = (stride d l).map f := by
  unfold stride
  rw [List.length_map, List.map_filterMap]
  congr 1
  funext i
  rw [List.getElem?_map]

/-- C110. Where the clock starts makes no difference: with all times later by `c` the polynomial and the coefficients are the same, and so is the corrected
value of every pulse. -/
theorem time_origin (c : ℝ) (h : timeDrift H brent pct99 time unc w spd ppd maxDeg ndeg limit = .ok info) :
    ∃ info', timeDrift H brent pct99 (time.map (· + c)) unc w spd ppd maxDeg ndeg limit = .ok info' ∧ info'.model = info.model ∧
      info'.coefficients = info.coefficients ∧ ∀ t y, correct info' (t + c) y = correct info t y := by
  have hw : within pct99 (time.map (· + c)) unc limit = (within pct99 time unc limit).map (fun p => (p.1 + c, p.2)) := by
    unfold within
    rw [List.zip_map_left, List.filter_map]
    rfl
  have hs := drift_succeeds.mp ⟨_, h⟩
  obtain ⟨info', h'⟩ := (drift_succeeds (H := H) (brent := brent) (pct99 := pct99) (time := time.map (· + c)) (unc := unc) (w := w) (spd := spd) (ppd := ppd)
    (maxDeg := maxDeg) (ndeg := ndeg) (limit := limit)).mpr ⟨by simpa using hs.1, by rw [hw]; simpa using hs.2.1, hs.2.2⟩
  obtain ⟨hne, hmin, hmax, n, hn0, hn, hpu, hl, r, hr, hco, h1, h2, hm⟩ := timeDrift_ok h
  obtain ⟨hne', hmin', hmax', n', hn0', hn', hpu', hl', r', hr', hco', h1', h2', hm'⟩ := timeDrift_ok h'
  have hmm : (within pct99 (time.map (· + c)) unc limit).map (·.1) = ((within pct99 time unc limit).map (·.1)).map (· + c) := by
    rw [hw, List.map_map, List.map_map]
    rfl
  rw [hmm, minL_add _ _ (by simpa using hne), ← hmin] at hmin'
  rw [hmm, maxL_add _ _ (by simpa using hne), ← hmax] at hmax'
  have hnorm : ∀ t, normalize info'.tmin info'.tmax (t + c) = normalize info.tmin info.tmax t := by
    intro t
    unfold normalize
    rw [hmin', hmax']
    congr 2
    congr 1
    · ring
    · ring
  have hnn : n' = n := by
    rw [hn, hn']
    cases ndeg with
    | none =>
      dsimp only
      rw [hw, List.length_map, hmin', hmax']
      congr 1
      ring
    | some m => rfl
  have hpp : info'.pulses = info.pulses.map (fun p => (p.1 + c, p.2)) := by
    rw [hpu, hpu', hnn, hw]
    cases ndeg with
    | none =>
      dsimp only
      rw [stride_map, List.length_map]
    | some m => rfl
  have hys : info'.pulses.map (·.2) = info.pulses.map (·.2) := by
    rw [hpp, List.map_map]
    rfl
  have hxs : info'.pulses.map (fun p => normalize info'.tmin info'.tmax p.1) = info.pulses.map (fun p => normalize info.tmin info.tmax p.1) := by
    rw [hpp, List.map_map]
    apply List.map_congr_left
    intro p _
    exact hnorm p.1
  have hrr : r' = r := by rw [hr, hr', hys, hxs, hnn]
  have hmod : info'.model = info.model := by
    rw [hm, hm', h1, h1', h2, h2', hys, hxs, hrr]
  refine ⟨info', h', hmod, by rw [hco, hco', hrr, hnn], ?_⟩
  intro t y
  unfold correct
  rw [hnorm, hmod]

/-- C110. The method: results that are there are kept; otherwise every pulse, cut or not, gets its value times the correction factor of the fit to the good
pulses near the median. -/
theorem method_stores {median : List ℝ → ℝ} {good : List Bool} {ts attr tdc out : List ℝ} {force : Bool}
    (h : method H brent pct99 median good ts attr tdc spd ppd maxDeg force = .ok out) :
    (force = false ∧ (∃ x ∈ tdc, x ≠ 0) ∧ out = tdc) ∨
    ((force = true ∨ ∀ x ∈ tdc, x = 0) ∧ ∃ (info : Info) (pk : ℝ), pk = median (((good.zip (ts.zip attr)).filter (·.1)).map (·.2.2)) ∧
      out = List.zipWith (fun t y => y * (1 + info.model.eval (normalize info.tmin info.tmax t))) ts attr ∧
      H (max (pk / 3000) 1) (info.pulses.map (fun p => correct info p.1 p.2)) ≤ H (max (pk / 3000) 1) (info.pulses.map (·.2)) ∧
      (∀ y, ∫ t in info.tmin..info.tmax, correct info t y = y * (info.tmax - info.tmin)) ∧
      (∀ p ∈ info.pulses, 0.5 * pk < p.2 ∧ p.2 < 2 * pk ∧ |p.2 / pk - 1| < 0.5 ∧ (true, p.1, p.2) ∈ good.zip (ts.zip attr))) := by
  unfold method at h
  split at h
  · rename_i hc
    right
    refine ⟨hc.symm, ?_⟩
    dsimp only at h
    split at h
    · cases h
    · rename_i info hi
      cases h
      refine ⟨info, _, rfl, rfl, drift_entropy hi, drift_mean hi, ?_⟩
      intro p hp
      have hp' := (drift_range hi).2.2.2.1 p hp
      unfold within at hp'
      rw [List.mem_filter] at hp'
      obtain ⟨hz, hd⟩ := hp'
      simp only [Option.getD_some, decide_eq_true_eq] at hd
      refine ⟨hd.1, hd.2, ?_⟩
      rw [List.zip_map', List.mem_map] at hz
      obtain ⟨q, hq, e⟩ := hz
      obtain ⟨h1, h1'⟩ := List.mem_filter.mp hq
      obtain ⟨h2, h3⟩ := List.mem_filter.mp h1
      have : q = (true, p.1, p.2) := by
        rw [← e]
        exact Prod.ext (by simpa using h3) rfl
      rw [this] at h1' h2
      exact ⟨by simpa using h1', h2⟩
  · rename_i hc
    left
    push Not at hc
    cases h
    refine ⟨by simpa using hc.2, ?_, rfl⟩
    exact hc.1

end

/-! ### disagreements and examples -/

theorem legendre_one_eval (x : ℝ) : (legendre 1).eval x = x := by
  unfold legendre
  simp
  ring

theorem legendre_two_eval (x : ℝ) : (legendre 2).eval x = (3 * x ^ 2 - 1) / 2 := by
  unfold legendre
  simp [derivative_pow, Nat.factorial]
  ring

/-- two pulses; the estimate of entropy is the sum -/
theorem ex_coef : ∃ info, timeDrift (fun _ l => l.sum) (fun _ => 1 / 10) (fun _ => 0) [0, 1] [1, 2] 1 2000 2000 20 (some 1) (some (0, 3)) = .ok info ∧
    info.coefficients = [1 / 10] ∧ info.model = 0 := by
  obtain ⟨info, h⟩ := (drift_succeeds (H := fun _ l => l.sum) (brent := fun _ => 1 / 10) (pct99 := fun _ => 0) (time := [0, 1]) (unc := [1, 2]) (w := 1)
    (spd := 2000) (ppd := 2000) (maxDeg := 20) (ndeg := some 1) (limit := some (0, 3))).mpr (by
      refine ⟨rfl, ?_, by simp⟩
      simp [within])
  refine ⟨info, h, ?_⟩
  obtain ⟨hne, hmin, hmax, n, hn0, hn, hpu, hl, r, hr, hco, h1, h2, hm⟩ := timeDrift_ok h
  have hw : within (fun _ => 0) [0, 1] [1, 2] (some ((0 : ℝ), (3 : ℝ))) = [(0, 1), (1, 2)] := by
    unfold within
    simp only [Option.getD_some, List.zip_cons_cons, List.zip_nil_right]
    norm_num [List.filter_cons]
  dsimp only at hn hpu
  subst hn
  rw [hw] at hpu hmin hmax
  simp only [List.map_cons, List.map_nil, minL, maxL, List.foldl_cons, List.foldl_nil] at hmin hmax
  norm_num at hmin hmax
  have hrp : r.1 0 = 1 / 10 ∧ r.2 = legendre 1 * C (1 / 10) := by
    rw [hr]
    unfold fit step
    simp
  constructor
  · rw [hco]
    simp [hrp.1]
  · rw [hm, if_pos]
    right
    rw [h1, h2, hpu, hrp.2, hmin, hmax]
    simp only [List.map_cons, List.map_nil, times, List.zipWith_cons_cons, List.zipWith_nil_right, eval_mul, eval_C, legendre_one_eval, normalize,
      List.sum_cons, List.sum_nil]
    norm_num

/-- Disagreement (C110): when the correction found is rejected because it raises the entropy, the returned coefficients are still those of the rejected
correction: they are not the coefficients of the returned model. -/
theorem coefficients_fails : ∃ (H : ℝ → List ℝ → ℝ) (brent : (ℝ → ℝ) → ℝ) (time unc : List ℝ) (info : Info),
    timeDrift H brent (fun _ => 0) time unc 1 2000 2000 20 (some 1) (some (0, 3)) = .ok info ∧
    info.model ≠ ∑ j ∈ Finset.range info.coefficients.length, legendre (j + 1) * C ((info.coefficients[j]?).getD 0) := by
  obtain ⟨info, h, hc, hm⟩ := ex_coef
  refine ⟨_, _, _, _, info, h, ?_⟩
  rw [hm, hc]
  intro e
  have := congrArg (eval 1) e
  simp [legendre_one_eval] at this

/-- Disagreement (C110): the method takes `sec_per_degree`, `pulses_per_degree` and `max_degrees` but does not use them: the stored values are those for 2000,
2000 and 20. With 4001 pulses in 4000 seconds these allow two degrees although one was asked for as the maximum. -/
theorem settings_fails :
    (∀ (H : ℝ → List ℝ → ℝ) (brent : (ℝ → ℝ) → ℝ) (pct99 median : List ℝ → ℝ) (good : List Bool) (ts attr tdc : List ℝ) (spd ppd : ℝ) (maxDeg : ℕ)
      (force : Bool), method H brent pct99 median good ts attr tdc spd ppd maxDeg force = method H brent pct99 median good ts attr tdc 2000 2000 20 force) ∧
    degrees 4000 4001 2000 2000 20 = 2 ∧ degrees 4000 4001 2000 2000 1 = 1 := by
  refine ⟨fun _ _ _ _ _ _ _ _ _ _ _ _ => rfl, ?_, ?_⟩
  · unfold degrees
    have : ⌊min ((4000 : ℝ) / 2000) (4001 / 2000)⌋₊ = 2 := by
      rw [min_eq_left (by norm_num)]
      norm_num
    rw [this]
    rfl
  · unfold degrees
    have : ⌊min ((4000 : ℝ) / 2000) (4001 / 2000)⌋₊ = 2 := by
      rw [min_eq_left (by norm_num)]
      norm_num
    rw [this]
    rfl

/-- the theorems apply: two pulses, one degree, whatever the entropy and the minimizer -/
example (H : ℝ → List ℝ → ℝ) (brent : (ℝ → ℝ) → ℝ) : ∃ info, timeDrift H brent (fun _ => 2) [10, 20] [1, 2] 1 2000 2000 20 none none = .ok info ∧
    H 1 (info.pulses.map (fun p => correct info p.1 p.2)) ≤ H 1 (info.pulses.map (·.2)) ∧
    ∫ t in info.tmin..info.tmax, correct info t 1 = 1 * (info.tmax - info.tmin) := by
  obtain ⟨info, h⟩ := (drift_succeeds (H := H) (brent := brent) (pct99 := fun _ => 2) (time := [10, 20]) (unc := [1, 2]) (w := 1)
    (spd := 2000) (ppd := 2000) (maxDeg := 20) (ndeg := none) (limit := none)).mpr (by
      refine ⟨rfl, ?_, by simp⟩
      simp only [within, Option.getD_none, List.zip_cons_cons, List.zip_nil_right]
      norm_num [List.filter_cons]
      simp)
  exact ⟨info, h, drift_entropy h, drift_mean h 1⟩

end Mass.Calc.TimeDrift
