import Verif.Py
import Mathlib.LinearAlgebra.Matrix.NonsingularInverse
import Mathlib.LinearAlgebra.Matrix.ToLin
import Mathlib.LinearAlgebra.Matrix.DotProduct
import Mathlib.Algebra.Polynomial.Taylor
import Mathlib.Algebra.Polynomial.HasseDeriv
import Mathlib.Algebra.Polynomial.Roots
import Mathlib.Algebra.BigOperators.Fin
import Mathlib.Algebra.Order.Field.Basic
import Mathlib.Tactic.Linarith
import Mathlib.Tactic.LinearCombination
import Mathlib.Tactic.Ring
import Mathlib.Tactic.NormNum
import Mathlib.Tactic.FinCases
import Mathlib.Tactic.IntervalCases
import Mathlib.Algebra.Order.Field.Rat
import Mathlib.Data.Fin.VecNotation
/-! C108: `savitzky_golay` (mass/mathstat/utilities.py L103-172). Exact arithmetic in an ordered field. -/
namespace Mass.Lin.SavGol
set_option linter.unusedSectionVars false
variable {K : Type} [Field K] [LinearOrder K] [IsStrictOrderedRing K]

/-! ### model -/

/-- mass/mathstat/utilities.py L164: the matrix of powers `k**i`, k from -half_window to half_window -/
def powers (h p : Nat) : Matrix (Fin (2 * h + 1)) (Fin (p + 1)) K := fun k i => ((k : Nat) - (h : K)) ^ (i : Nat)

/-- mass/mathstat/utilities.py L165: the pseudo-inverse; of a matrix of full column rank (as `powers` is, `powers_injective`) it is (bᵀb)⁻¹bᵀ -/
noncomputable def pinv (h p : Nat) : Matrix (Fin (p + 1)) (Fin (2 * h + 1)) K := ((powers h p).transpose * powers h p)⁻¹ * (powers h p).transpose

/-- mass/mathstat/utilities.py L168-170: the data with half_window values before and after. `y[1:h + 1]` and `y[-h - 1:-1]` are shorter when there are fewer data. -/
def pad (h : Nat) (y : List K) (first last : K) : List K :=
  (((y.drop 1).take h).reverse.map (fun v => first - |v - first|)) ++ y ++
    (((y.dropLast).drop (y.length - 1 - h)).reverse.map (fun v => last + |v - last|))

/-- `np.convolve(m, y, mode='valid')` (mass/mathstat/utilities.py L171-172), m not longer than y; element i is the sum of m[k] y[i + len(m) - 1 - k] -/
def convolve {w : Nat} (m : Fin w → K) (y : List K) : List K :=
  (List.range (y.length + 1 - w)).map (fun i => ∑ k : Fin w, m k * y.getD (i + (w - 1) - k) 0)

/-- mass/mathstat/utilities.py L103-172 `savitzky_golay`, for whole numbers as window and order. Simplified: a negative `deriv` (which would count from the end) is not considered;
data shorter than the window after padding (numpy then exchanges the arguments of the convolution) are an error here. -/
noncomputable def savgol (y : List K) (window order : Int) (deriv : Nat) : Except Exc (List K) :=
  let w := window.natAbs
  let p := order.natAbs
  if w % 2 ≠ 1 ∨ w < 1 then .error .type
  else if w < p + 2 then .error .type
  else
    let h := (w - 1) / 2
    if hd : deriv < p + 1 then
      match y.head?, y.getLast? with
      | some a, some b =>
        if (pad h y a b).length < 2 * h + 1 then .error .value
        else .ok (convolve (pinv h p ⟨deriv, hd⟩) (pad h y a b))
      | _, _ => .error .index
    else .error .index

/-! ### specification -/

/-- squared distance of the values `w`, at -h, ..., h, from the polynomial with coefficients `c` [specification] -/
def misfit {h p : Nat} (w : Fin (2 * h + 1) → K) (c : Fin (p + 1) → K) : K :=
  ∑ k : Fin (2 * h + 1), (w k - ∑ i : Fin (p + 1), c i * ((k : Nat) - (h : K)) ^ (i : Nat)) ^ 2

/-- `c` are the coefficients of the least-squares polynomial of degree at most `p` for the values `w` at -h, ..., h [specification] -/
def Best {h p : Nat} (w : Fin (2 * h + 1) → K) (c : Fin (p + 1) → K) : Prop := ∀ c' : Fin (p + 1) → K, misfit w c ≤ misfit w c'

/-! ### the least-squares polynomial -/

theorem powers_mulVec (h p : Nat) (c : Fin (p + 1) → K) (k : Fin (2 * h + 1)) :
    (powers h p).mulVec c k = ∑ i : Fin (p + 1), c i * ((k : Nat) - (h : K)) ^ (i : Nat) := by
  unfold powers Matrix.mulVec dotProduct
  exact Finset.sum_congr rfl (fun i _ => mul_comm _ _)

/-- a polynomial of degree less than the number of points is determined by its values there -/
theorem powers_injective {h p : Nat} (hp : p < 2 * h + 1) {c : Fin (p + 1) → K} (h0 : (powers h p).mulVec c = 0) : c = 0 := by
  classical
  let q : Polynomial K := ∑ i : Fin (p + 1), Polynomial.monomial (i : Nat) (c i)
  have hq : q = 0 := by
    refine Polynomial.eq_zero_of_natDegree_lt_card_of_eval_eq_zero q (f := fun k : Fin (2 * h + 1) => ((k : Nat) : K) - (h : K)) ?_ ?_ ?_
    · intro a b hab
      have : ((a : Nat) : K) = ((b : Nat) : K) := by simpa using hab
      exact Fin.ext (by exact_mod_cast this)
    · intro k
      have := congrFun h0 k
      rw [powers_mulVec] at this
      simp only [q, Polynomial.eval_finsetSum, Polynomial.eval_monomial]
      simpa using this
    · have hd : q.natDegree ≤ p := by
        refine Polynomial.natDegree_sum_le_of_forall_le _ _ ?_
        intro i _
        exact le_trans (Polynomial.natDegree_monomial_le _) (by have := i.isLt; omega)
      simpa using lt_of_le_of_lt hd hp
  funext i
  have hc : q.coeff (i : Nat) = c i := by
    simp only [q, Polynomial.finset_sum_coeff, Polynomial.coeff_monomial]
    rw [Finset.sum_eq_single i]
    · simp
    · intro j _ hj
      rw [if_neg (fun e => hj (Fin.ext e))]
    · simp
  rw [← hc, hq]
  simp

theorem gram_isUnit {h p : Nat} (hp : p < 2 * h + 1) : IsUnit ((powers (K := K) h p).transpose * powers h p) := by
  rw [← Matrix.mulVec_injective_iff_isUnit]
  intro a b hab
  have h1 : ((powers (K := K) h p).transpose * powers h p).mulVec (a - b) = 0 := by
    rw [Matrix.mulVec_sub]; exact sub_eq_zero.2 hab
  have h2 : (powers (K := K) h p).mulVec (a - b) = 0 := by
    have h3 : (powers (K := K) h p).mulVec (a - b) ⬝ᵥ (powers (K := K) h p).mulVec (a - b) = 0 := by
      have : (a - b) ⬝ᵥ ((powers (K := K) h p).transpose * powers h p).mulVec (a - b) = 0 := by rw [h1]; simp
      rw [← Matrix.mulVec_mulVec, Matrix.dotProduct_mulVec, Matrix.vecMul_transpose] at this
      exact this
    exact dotProduct_self_eq_zero.1 h3
  exact sub_eq_zero.1 (powers_injective hp h2)

/-- the coefficients computed with the pseudo-inverse satisfy the normal equations -/
theorem pinv_normal {h p : Nat} (hp : p < 2 * h + 1) (w : Fin (2 * h + 1) → K) :
    (powers (K := K) h p).transpose.mulVec (w - (powers h p).mulVec ((pinv h p).mulVec w)) = 0 := by
  have hu := gram_isUnit (K := K) hp
  rw [Matrix.mulVec_sub, Matrix.mulVec_mulVec, Matrix.mulVec_mulVec]
  unfold pinv
  rw [← Matrix.mul_assoc, Matrix.mul_nonsing_inv _ ((Matrix.isUnit_iff_isUnit_det _).1 hu), Matrix.one_mul, sub_self]

theorem misfit_eq {h p : Nat} (w : Fin (2 * h + 1) → K) (c : Fin (p + 1) → K) :
    misfit w c = (w - (powers h p).mulVec c) ⬝ᵥ (w - (powers h p).mulVec c) := by
  unfold misfit dotProduct
  refine Finset.sum_congr rfl (fun k _ => ?_)
  rw [Pi.sub_apply, powers_mulVec]; ring

/-- Pythagoras: what a change of the coefficients adds to the misfit -/
theorem misfit_split {h p : Nat} (hp : p < 2 * h + 1) (w : Fin (2 * h + 1) → K) (c : Fin (p + 1) → K) :
    misfit w c = misfit w ((pinv h p).mulVec w) +
      (powers h p).mulVec ((pinv h p).mulVec w - c) ⬝ᵥ (powers h p).mulVec ((pinv h p).mulVec w - c) := by
  have hn := pinv_normal hp w
  set r := w - (powers h p).mulVec ((pinv h p).mulVec w) with hr
  set e := (powers h p).mulVec ((pinv h p).mulVec w - c) with he
  have hwc : w - (powers h p).mulVec c = r + e := by rw [hr, he, Matrix.mulVec_sub]; abel
  have hre : r ⬝ᵥ e = 0 := by
    rw [he, Matrix.dotProduct_mulVec, ← Matrix.mulVec_transpose, hn]; simp
  rw [misfit_eq, misfit_eq, hwc, ← hr, dotProduct_add, add_dotProduct, add_dotProduct, hre, dotProduct_comm e r, hre]
  ring

theorem dot_self_nonneg {n : Nat} (v : Fin n → K) : 0 ≤ v ⬝ᵥ v := Finset.sum_nonneg (fun _ _ => mul_self_nonneg _)

theorem pinv_best {h p : Nat} (hp : p < 2 * h + 1) (w : Fin (2 * h + 1) → K) : Best w ((pinv h p).mulVec w) := by
  intro c'
  rw [misfit_split hp w c']
  have := dot_self_nonneg ((powers h p).mulVec ((pinv h p).mulVec w - c'))
  linarith

theorem best_unique {h p : Nat} (hp : p < 2 * h + 1) {w : Fin (2 * h + 1) → K} {c : Fin (p + 1) → K} (hc : Best w c) : c = (pinv h p).mulVec w := by
  have h1 := hc ((pinv h p).mulVec w)
  rw [misfit_split hp w c] at h1
  have h2 := dot_self_nonneg ((powers h p).mulVec ((pinv h p).mulVec w - c))
  have h3 : (powers h p).mulVec ((pinv h p).mulVec w - c) ⬝ᵥ (powers h p).mulVec ((pinv h p).mulVec w - c) = 0 := by linarith
  exact (sub_eq_zero.1 (powers_injective hp (dotProduct_self_eq_zero.1 h3))).symm

/-- the least-squares polynomial of the values in reverse order is the mirror image -/
theorem best_reverse {h p : Nat} {w : Fin (2 * h + 1) → K} {c : Fin (p + 1) → K} (hc : Best w c) :
    Best (fun k => w (Fin.rev k)) (fun i => (-1) ^ (i : Nat) * c i) := by
  have hm : ∀ c : Fin (p + 1) → K, misfit (fun k => w (Fin.rev k)) (fun i => (-1) ^ (i : Nat) * c i) = misfit w c := by
    intro c
    unfold misfit
    rw [← Equiv.sum_comp (Fin.revPerm (n := 2 * h + 1))]
    refine Finset.sum_congr rfl (fun k _ => ?_)
    rw [Fin.revPerm_apply]
    beta_reduce
    rw [Fin.rev_rev]
    congr 2
    refine Finset.sum_congr rfl (fun i _ => ?_)
    have hk : ((Fin.rev k : Fin (2 * h + 1)) : Nat) = 2 * h - (k : Nat) := by rw [Fin.val_rev]; omega
    have : (((Fin.rev k : Fin (2 * h + 1)) : Nat) : K) - (h : K) = (-1) * (((k : Nat) : K) - (h : K)) := by
      rw [hk, Nat.cast_sub (by have := k.isLt; omega)]
      push_cast; ring
    rw [this, mul_pow]
    have h1 : ((-1 : K) ^ (i : Nat)) * ((-1) ^ (i : Nat)) = 1 := by rw [← mul_pow]; simp
    linear_combination c i * (((k : Nat) : K) - (h : K)) ^ (i : Nat) * h1
  intro c'
  have h1 := hm (fun i => (-1) ^ (i : Nat) * c' i)
  have e : (fun i : Fin (p + 1) => (-1 : K) ^ (i : Nat) * ((-1) ^ (i : Nat) * c' i)) = c' := by
    funext i
    rw [← mul_assoc, ← mul_pow]; simp
  rw [e] at h1
  rw [hm, h1]
  exact hc _

/-! ### the filter -/

/-- the window of 2h+1 values starting at i [specification] -/
def window (h : Nat) (y : List K) (i : Nat) : Fin (2 * h + 1) → K := fun k => y.getD (i + k) 0

theorem convolve_window {h p : Nat} (hp : p < 2 * h + 1) (d : Fin (p + 1)) (y : List K) (i : Nat) {c : Fin (p + 1) → K} (hc : Best (window h y i) c) :
    ∑ k : Fin (2 * h + 1), pinv h p d k * y.getD (i + (2 * h + 1 - 1) - k) 0 = (-1) ^ (d : Nat) * c d := by
  have hb := best_unique hp (best_reverse hc)
  have := congrFun hb d
  rw [this]
  unfold Matrix.mulVec dotProduct
  refine Finset.sum_congr rfl (fun k _ => ?_)
  congr 1
  unfold window
  congr 1
  rw [Fin.val_rev]
  have := k.isLt
  omega

theorem pad_length {h : Nat} {y : List K} (hy : h < y.length) (a b : K) : (pad h y a b).length = y.length + 2 * h := by
  unfold pad
  simp only [List.length_append, List.length_map, List.length_reverse, List.length_take, List.length_drop, List.length_dropLast]
  omega

theorem pad_get {h : Nat} {y : List K} (hy : h < y.length) (a b : K) (j : Nat) (hj : j < y.length) : (pad h y a b).getD (h + j) 0 = y.getD j 0 := by
  unfold pad
  have hl : (((y.drop 1).take h).reverse.map (fun v => a - |v - a|)).length = h := by
    simp only [List.length_map, List.length_reverse, List.length_take, List.length_drop]; omega
  rw [List.getD_eq_getElem?_getD, List.getD_eq_getElem?_getD, List.append_assoc, List.getElem?_append_right (by omega), hl,
    Nat.add_sub_cancel_left, List.getElem?_append_left hj]

/-- C108. For every window of odd size, order at most the size less 2, derivative order at most the order, and more data than half a window: there is one value per
datum. At a datum at least half a window from both ends it is (-1)^deriv times the coefficient of degree deriv of the polynomial (centred at the
datum) that fits the data of the window best in the sense of least squares. That polynomial exists and is the only best one. -/
theorem savgol_spec {y : List K} {h p : Nat} (hp : p + 2 ≤ 2 * h + 1) (hy : h < y.length) {d : Nat} (hd : d < p + 1) :
    ∃ out, savgol y (2 * h + 1 : Nat) p d = .ok out ∧ out.length = y.length ∧ ∀ i, h ≤ i → i + h < y.length →
      ∃ c : Fin (p + 1) → K, Best (window h y (i - h)) c ∧ (∀ c', Best (window h y (i - h)) c' → c' = c) ∧
        out.getD i 0 = (-1) ^ d * c ⟨d, hd⟩ := by
  have hne : y ≠ [] := by rintro rfl; simp at hy
  have hlt : p < 2 * h + 1 := by omega
  obtain ⟨a, ha⟩ : ∃ a, y.head? = some a := ⟨y.head hne, List.head?_eq_some_head hne⟩
  obtain ⟨b, hb⟩ : ∃ b, y.getLast? = some b := ⟨y.getLast hne, List.getLast?_eq_some_getLast hne⟩
  have hlen := pad_length hy a b
  have hsav : savgol y (2 * h + 1 : Nat) p d = .ok (convolve (pinv h p ⟨d, hd⟩) (pad h y a b)) := by
    unfold savgol
    simp only [Int.natAbs_natCast]
    rw [if_neg (by omega), if_neg (by omega), dif_pos hd]
    have e : (2 * h + 1 - 1) / 2 = h := by omega
    rw [e, ha, hb]
    simp only
    rw [if_neg (by omega)]
  refine ⟨_, hsav, ?_, ?_⟩
  · unfold convolve
    rw [List.length_map, List.length_range, hlen]; omega
  · intro i h1 h2
    have hw : window h (pad h y a b) i = window h y (i - h) := by
      funext k
      unfold window
      have hk := k.isLt
      have : i + (k : Nat) = h + (i - h + k) := by omega
      rw [this, pad_get hy a b _ (by omega)]
    refine ⟨(pinv h p).mulVec (window h y (i - h)), pinv_best hlt _, fun c' hc' => best_unique hlt hc', ?_⟩
    have hi : i < (pad h y a b).length + 1 - (2 * h + 1) := by rw [hlen]; omega
    unfold convolve
    rw [List.getD_eq_getElem?_getD, List.getElem?_map, List.getElem?_range hi]
    simp only [Option.map_some, Option.getD_some]
    rw [← hw]
    exact convolve_window hlt ⟨d, hd⟩ _ i (pinv_best hlt _)

/-- C108, errors: even windows, windows too small for the order, derivatives above the order -/
theorem savgol_errors (y : List K) (window order : Int) (d : Nat) :
    (window.natAbs % 2 = 0 → savgol y window order d = .error .type) ∧ (window.natAbs < order.natAbs + 2 → savgol y window order d = .error .type) ∧
      (window.natAbs % 2 = 1 → order.natAbs + 2 ≤ window.natAbs → order.natAbs < d → savgol y window order d = .error .index) := by
  refine ⟨?_, ?_, ?_⟩
  · intro h; unfold savgol; rw [if_pos (by omega)]
  · intro h
    unfold savgol
    by_cases h1 : window.natAbs % 2 ≠ 1 ∨ window.natAbs < 1
    · rw [if_pos h1]
    · rw [if_neg h1, if_pos h]
  · intro h1 h2 h3
    unfold savgol
    rw [if_neg (by omega), if_neg (by omega), dif_neg (by omega)]

/-- the best polynomial for values of a polynomial of low enough degree is that polynomial -/
theorem best_polynomial {h p : Nat} {q : Polynomial K} (hq : q.natDegree ≤ p) (y : List K) (i : Nat) (hi : h ≤ i) (hy : i + h < y.length)
    (hval : ∀ j, j < y.length → y.getD j 0 = q.eval (j : K)) :
    Best (p := p) (window h y (i - h)) (fun e => (Polynomial.taylor (i : K) q).coeff (e : Nat)) := by
  have h0 : misfit (p := p) (window h y (i - h)) (fun e => (Polynomial.taylor (i : K) q).coeff (e : Nat)) = 0 := by
    unfold misfit
    refine Finset.sum_eq_zero (fun k _ => ?_)
    have hk := k.isLt
    have hv : window h y (i - h) k = (Polynomial.taylor (i : K) q).eval (((k : Nat) : K) - (h : K)) := by
      unfold window
      rw [hval _ (by omega), Polynomial.taylor_eval]
      congr 1
      rw [Nat.cast_add, Nat.cast_sub hi]; ring
    have hdeg : (Polynomial.taylor (i : K) q).natDegree < p + 1 := by rw [Polynomial.natDegree_taylor]; omega
    rw [hv, Polynomial.eval_eq_sum_range' hdeg, Finset.sum_range]
    simp
  intro c'
  rw [h0]
  exact Finset.sum_nonneg (fun k _ => sq_nonneg _)

/-- C108. Data on a polynomial of at most the order of the filter are returned unchanged, half a window from the ends; a derivative of order d comes out as (-1)^d / d!
times the true one. -/
theorem savgol_polynomial {y : List K} {h p : Nat} (hp : p + 2 ≤ 2 * h + 1) (hy : h < y.length) {d : Nat} (hd : d < p + 1)
    {q : Polynomial K} (hq : q.natDegree ≤ p) (hval : ∀ j, j < y.length → y.getD j 0 = q.eval (j : K)) :
    ∃ out, savgol y (2 * h + 1 : Nat) p d = .ok out ∧ ∀ i, h ≤ i → i + h < y.length →
      (d.factorial : K) * out.getD i 0 = (-1) ^ d * (Polynomial.derivative^[d] q).eval (i : K) ∧ (d = 0 → out.getD i 0 = y.getD i 0) := by
  obtain ⟨out, h1, -, h3⟩ := savgol_spec (K := K) hp hy hd
  refine ⟨out, h1, ?_⟩
  intro i h4 h5
  obtain ⟨c, -, hu, hc⟩ := h3 i h4 h5
  have hb := hu _ (best_polynomial hq y i h4 h5 hval)
  have hcd : c ⟨d, hd⟩ = (Polynomial.taylor (i : K) q).coeff d := by rw [← hb]
  have key : (d.factorial : K) * out.getD i 0 = (-1) ^ d * (Polynomial.derivative^[d] q).eval (i : K) := by
    have hder : Polynomial.derivative^[d] q = d.factorial • Polynomial.hasseDeriv d q := by
      rw [← Polynomial.factorial_smul_hasseDeriv]; rfl
    rw [hc, hcd, Polynomial.taylor_coeff, hder, nsmul_eq_mul, Polynomial.eval_mul, Polynomial.eval_natCast]
    ring
  refine ⟨key, ?_⟩
  rintro rfl
  rw [hval i (by omega)]
  simpa using key

/-- C108, instance: the squares 0, 1, 4, 9, 16, 25 with window 5 and order 2 come back in the middle -/
example : ∃ out, savgol [0, 1, 4, 9, 16, (25 : ℚ)] 5 2 0 = .ok out ∧ out.getD 2 0 = 4 ∧ out.getD 3 0 = 9 := by
  have hv : ∀ j, j < [0, 1, 4, 9, 16, (25 : ℚ)].length → [0, 1, 4, 9, 16, (25 : ℚ)].getD j 0 = (Polynomial.X ^ 2 : Polynomial ℚ).eval (j : ℚ) := by
    intro j hj
    have : j < 6 := hj
    interval_cases j <;> norm_num
  obtain ⟨out, h1, h2⟩ := savgol_polynomial (K := ℚ) (h := 2) (p := 2) (d := 0) (by omega) (by simp) (by omega)
    (by rw [Polynomial.natDegree_X_pow]) hv
  exact ⟨out, h1, (h2 2 (by omega) (by simp)).2 rfl, (h2 3 (by omega) (by simp)).2 rfl⟩

/-- Disagreement (C108): first derivatives have the wrong sign. On the straight line 0, 1, 2 (slope 1) with window 3 and order 1 the derivative returned is -1. -/
theorem savgol_sign_fails : ∃ out, savgol [0, 1, (2 : ℚ)] 3 1 1 = .ok out ∧ out.getD 1 0 = -1 := by
  have hv : ∀ j, j < [0, 1, (2 : ℚ)].length → [0, 1, (2 : ℚ)].getD j 0 = (Polynomial.X : Polynomial ℚ).eval (j : ℚ) := by
    intro j hj
    have : j < 3 := hj
    interval_cases j <;> norm_num
  obtain ⟨out, h1, h2⟩ := savgol_polynomial (K := ℚ) (h := 1) (p := 1) (d := 1) (by omega) (by simp) (by omega)
    (by rw [Polynomial.natDegree_X]) hv
  refine ⟨out, h1, ?_⟩
  have := (h2 1 (by omega) (by simp)).1
  simpa using this

/-- Disagreement (C108): second derivatives are half of what they should be. On the squares 0, 1, 4, 9, 16 (second derivative 2) the value returned is 1. -/
theorem savgol_factorial_fails : ∃ out, savgol [0, 1, 4, 9, (16 : ℚ)] 5 2 2 = .ok out ∧ out.getD 2 0 = 1 := by
  have hv : ∀ j, j < [0, 1, 4, 9, (16 : ℚ)].length → [0, 1, 4, 9, (16 : ℚ)].getD j 0 = (Polynomial.X ^ 2 : Polynomial ℚ).eval (j : ℚ) := by
    intro j hj
    have : j < 5 := hj
    interval_cases j <;> norm_num
  obtain ⟨out, h1, h2⟩ := savgol_polynomial (K := ℚ) (h := 2) (p := 2) (d := 2) (by omega) (by simp) (by omega)
    (by rw [Polynomial.natDegree_X_pow]) hv
  refine ⟨out, h1, ?_⟩
  have h3 := (h2 2 (by omega) (by simp)).1
  have h4 : (Polynomial.derivative^[2] (Polynomial.X ^ 2 : Polynomial ℚ)).eval (2 : ℚ) = 2 := by
    simp [Function.iterate_succ]; norm_num
  have h5 : ((2 : Nat) : ℚ) = 2 := by norm_num
  rw [h5, h4] at h3
  norm_num [Nat.factorial] at h3
  simpa using h3

/-- Disagreement (C108): at the ends falling data are continued the wrong way. The straight line 0, -1, -2 is preceded by -1, and with window 3 and order 1 its first
value becomes -2/3 instead of 0. -/
theorem savgol_end_fails : ∃ out, savgol [0, -1, (-2 : ℚ)] 3 1 0 = .ok out ∧ out.getD 0 0 = -2 / 3 := by
  have hpad : pad 1 [0, -1, (-2 : ℚ)] 0 (-2) = [-1, 0, -1, -2, -1] := by decide +kernel
  have hs : savgol [0, -1, (-2 : ℚ)] 3 1 0 = .ok (convolve (pinv 1 1 ⟨0, by omega⟩) [-1, 0, -1, -2, -1]) := by
    rw [← hpad]; rfl
  refine ⟨_, hs, ?_⟩
  have hb : Best (p := 1) (window 1 [-1, 0, -1, -2, (-1 : ℚ)] 0) ![-2 / 3, 0] := by
    intro c'
    unfold misfit window
    simp [Fin.sum_univ_succ]
    nlinarith [sq_nonneg (c' 0 + 2 / 3), sq_nonneg (c' 1)]
  have := convolve_window (K := ℚ) (h := 1) (p := 1) (by omega) ⟨0, by omega⟩ [-1, 0, -1, -2, -1] 0 hb
  unfold convolve
  rw [List.getD_eq_getElem?_getD, List.getElem?_map, List.getElem?_range (by simp)]
  simp only [Option.map_some, Option.getD_some]
  rw [this]
  simp

end Mass.Lin.SavGol
