import Verif.Ljh.Props
import Mathlib.Data.Matrix.Mul
import Mathlib.Algebra.BigOperators.Intervals
import Mathlib.Algebra.Order.BigOperators.Ring.Finset
import Mathlib.Tactic.FieldSimp
import Mathlib.Tactic.Linarith
/-! C175: what a record made by the conversion to OFF says of its pulse: coefficients, deviation from the model, mean and drift of the samples before the trigger (mass/core/ljh2off.py L98-124). Rationals for floats. -/
namespace Mass.Ljh.OffRecord
open Mass.Ljh Finset

/-- the straight line np.polyfit(np.arange(n), y, deg=1) fits, as slope and value at 0 (used for ljh2off.py L110-111): the solution of the normal equations, n at least 2 -/
def polyfit1 (n : ℕ) (y : ℕ → ℚ) : ℚ × ℚ :=
  let m := (∑ i ∈ range n, (i : ℚ)) / n
  let ybar := (∑ i ∈ range n, y i) / n
  let slope := (∑ i ∈ range n, ((i : ℚ) - m) * y i) / ∑ i ∈ range n, ((i : ℚ) - m) ^ 2
  (slope, ybar - slope * m)

/-- np.polyval of a straight line (used for ljh2off.py L112-113) -/
def polyval1 (p : ℚ × ℚ) (x : ℚ) : ℚ := p.1 * x + p.2

/-- sample i of a record (used for ljh2off.py L108, L111) -/
def sample {ns : ℕ} (v : Fin ns → ℚ) (i : ℕ) : ℚ := if h : i < ns then v ⟨i, h⟩ else 0

/-- `pt_delta` of one record, ljh2off.py L110-113 -/
def ptDelta {ns : ℕ} (n : ℕ) (v : Fin ns → ℚ) : ℚ := polyval1 (polyfit1 n (sample v)) ((n : ℚ) - 1) - polyval1 (polyfit1 n (sample v)) 0

/-- one record of a segment as it is written, ljh2off.py L98-124: nPresamples less n_ignore_presamples is n -/
def record {k ns nb : ℕ} (P : Matrix (Fin nb) (Fin ns) ℚ) (B : Matrix (Fin ns) (Fin nb) ℚ) (n : ℕ) (data : Matrix (Fin k) (Fin ns) ℚ) (j : Fin k) : OffOut nb :=
  offSegment P B n (ptDelta n) data j

/-! ### the straight line -/

theorem spread_pos (n : ℕ) (h : 2 ≤ n) : 0 < ∑ i ∈ range n, ((i : ℚ) - (∑ i ∈ range n, (i : ℚ)) / n) ^ 2 := by
  have hm : 0 < (∑ i ∈ range n, (i : ℚ)) / n := by
    have h1 : (1 : ℚ) ≤ ∑ i ∈ range n, (i : ℚ) := by
      have := single_le_sum (f := fun i : ℕ => (i : ℚ)) (s := range n) (fun i _ => by positivity) (mem_range.2 (show 1 < n by omega))
      simpa using this
    have : (0 : ℚ) < n := by
      have : 0 < n := by omega
      exact_mod_cast this
    exact div_pos (by linarith) this
  refine lt_of_lt_of_le ?_ (single_le_sum (f := fun i : ℕ => ((i : ℚ) - (∑ i ∈ range n, (i : ℚ)) / n) ^ 2) (fun i _ => sq_nonneg _) (mem_range.2 (show 0 < n by omega)))
  simp only [Nat.cast_zero, zero_sub]
  rw [neg_sq]
  exact pow_pos hm 2

theorem centered_sum (n : ℕ) (h : 1 ≤ n) : ∑ i ∈ range n, ((i : ℚ) - (∑ i ∈ range n, (i : ℚ)) / n) = 0 := by
  have : (n : ℚ) ≠ 0 := by
    have : n ≠ 0 := by omega
    exact_mod_cast this
  rw [sum_sub_distrib]
  simp only [sum_const, card_range, nsmul_eq_mul]
  field_simp
  ring

/-- the residuals of the line are orthogonal to constants and to the index -/
theorem fit_normal (n : ℕ) (h : 2 ≤ n) (y : ℕ → ℚ) :
    ∑ i ∈ range n, (y i - polyval1 (polyfit1 n y) i) = 0 ∧ ∑ i ∈ range n, (i : ℚ) * (y i - polyval1 (polyfit1 n y) i) = 0 := by
  have hn : (n : ℚ) ≠ 0 := by
    have : n ≠ 0 := by omega
    exact_mod_cast this
  have hS := (spread_pos n h).ne'
  have hc := centered_sum n (by omega)
  unfold polyval1 polyfit1
  simp only
  set m := (∑ i ∈ range n, (i : ℚ)) / n with hm
  set S := ∑ i ∈ range n, ((i : ℚ) - m) ^ 2 with hSd
  set c := ∑ i ∈ range n, ((i : ℚ) - m) * y i with hcd
  set yb := (∑ i ∈ range n, y i) / n with hyb
  have hys : ∑ i ∈ range n, y i = n * yb := by
    rw [hyb]
    field_simp
  have e0 : ∑ i ∈ range n, (y i - (c / S * i + (yb - c / S * m))) = 0 := by
    have : ∀ i ∈ range n, y i - (c / S * i + (yb - c / S * m)) = y i - yb - c / S * ((i : ℚ) - m) := fun i _ => by ring
    rw [sum_congr rfl this, sum_sub_distrib, sum_sub_distrib, ← mul_sum, hc, hys]
    simp
  have e1 : ∑ i ∈ range n, ((i : ℚ) - m) * (y i - (c / S * i + (yb - c / S * m))) = 0 := by
    have : ∀ i ∈ range n, ((i : ℚ) - m) * (y i - (c / S * i + (yb - c / S * m))) = ((i : ℚ) - m) * y i - yb * ((i : ℚ) - m) - c / S * ((i : ℚ) - m) ^ 2 := fun i _ => by ring
    rw [sum_congr rfl this, sum_sub_distrib, sum_sub_distrib, ← mul_sum, ← mul_sum, hc, ← hSd, ← hcd]
    field_simp
    ring
  refine ⟨e0, ?_⟩
  have : ∀ i ∈ range n, (i : ℚ) * (y i - (c / S * i + (yb - c / S * m))) = ((i : ℚ) - m) * (y i - (c / S * i + (yb - c / S * m))) + m * (y i - (c / S * i + (yb - c / S * m))) := fun i _ => by ring
  rw [sum_congr rfl this, sum_add_distrib, ← mul_sum, e0, e1]
  ring

/-- C175: no straight line is closer to the samples than the fitted one, by the sum of squares. -/
theorem fit_best (n : ℕ) (h : 2 ≤ n) (y : ℕ → ℚ) (a b : ℚ) : ∑ i ∈ range n, (y i - polyval1 (polyfit1 n y) i) ^ 2 ≤ ∑ i ∈ range n, (y i - (a * i + b)) ^ 2 := by
  obtain ⟨h0, h1⟩ := fit_normal n h y
  set s := (polyfit1 n y).1 with hs
  set t := (polyfit1 n y).2 with ht
  have e : ∀ i : ℕ, polyval1 (polyfit1 n y) i = s * i + t := fun i => rfl
  simp only [e] at h0 h1 ⊢
  have : ∀ i ∈ range n, (y i - (a * i + b)) ^ 2 = (y i - (s * i + t)) ^ 2 + (2 * (s - a) * ((i : ℚ) * (y i - (s * i + t))) + 2 * (t - b) * (y i - (s * i + t))) + ((s - a) * i + (t - b)) ^ 2 :=
    fun i _ => by ring
  rw [sum_congr rfl this, sum_add_distrib, sum_add_distrib, sum_add_distrib, ← mul_sum, ← mul_sum, h0, h1]
  have := sum_nonneg (s := range n) (f := fun i : ℕ => ((s - a) * (i : ℚ) + (t - b)) ^ 2) (fun i _ => sq_nonneg _)
  linarith

theorem fit_line (n : ℕ) (h : 2 ≤ n) (y : ℕ → ℚ) (a b : ℚ) (hy : ∀ i < n, y i = a + b * i) : (polyfit1 n y).1 = b := by
  have hS := (spread_pos n h).ne'
  have hc := centered_sum n (by omega)
  unfold polyfit1
  simp only
  set m := (∑ i ∈ range n, (i : ℚ)) / n with hm
  rw [div_eq_iff hS]
  have : ∀ i ∈ range n, ((i : ℚ) - m) * y i = (a + b * m) * ((i : ℚ) - m) + b * ((i : ℚ) - m) ^ 2 := fun i hi => by
    rw [hy i (mem_range.1 hi)]
    ring
  rw [sum_congr rfl this, sum_add_distrib, ← mul_sum, ← mul_sum, hc]
  ring

theorem fit_congr (n : ℕ) (y y' : ℕ → ℚ) (h : ∀ i < n, y i = y' i) : polyfit1 n y = polyfit1 n y' := by
  unfold polyfit1
  simp only
  rw [sum_congr (f := y) (g := y') rfl (fun i hi => h i (mem_range.1 hi)),
    sum_congr (f := fun i : ℕ => ((i : ℚ) - (∑ i ∈ range n, (i : ℚ)) / n) * y i) (g := fun i : ℕ => ((i : ℚ) - (∑ i ∈ range n, (i : ℚ)) / n) * y' i) rfl
      (fun i hi => by rw [h i (mem_range.1 hi)])]

theorem ptDelta_eq {ns : ℕ} (n : ℕ) (v : Fin ns → ℚ) : ptDelta n v = (polyfit1 n (sample v)).1 * ((n : ℚ) - 1) := by
  unfold ptDelta polyval1
  ring

/-! ### records -/

variable {k ns nb : ℕ} (P : Matrix (Fin nb) (Fin ns) ℚ) (B : Matrix (Fin ns) (Fin nb) ℚ) (n : ℕ) (data : Matrix (Fin k) (Fin ns) ℚ) (j : Fin k)

/-- C175: the drift of samples that lie on a straight line is its rise from the first to the last of them; of equal samples it is none. -/
theorem delta_of_ramp (h : 2 ≤ n) (hn : n ≤ ns) (a b : ℚ) (hy : ∀ i : Fin ns, i.1 < n → data j i = a + b * (i.1 : ℚ)) : (record P B n data j).ptDelta = b * ((n : ℚ) - 1) := by
  show ptDelta n (fun i => data.transpose i j) = _
  rw [ptDelta_eq, fit_line n h _ a b]
  intro i hi
  unfold sample
  rw [dif_pos (by omega)]
  exact hy ⟨i, by omega⟩ hi

theorem sum_head (v : Fin ns → ℚ) (hn : n ≤ ns) : (∑ i : Fin ns, if i.1 < n then v i else 0) = ∑ i ∈ range n, sample v i := by
  have e : ∀ i : Fin ns, (if i.1 < n then v i else 0) = (fun i : ℕ => if i < n then sample v i else 0) i.1 := by
    intro i
    simp only [sample]
    rw [dif_pos i.2]
  rw [sum_congr rfl (fun i _ => e i), Fin.sum_univ_eq_sum_range (fun i : ℕ => if i < n then sample v i else 0), ← sum_range_add_sum_Ico _ hn]
  have z : ∑ i ∈ Ico n ns, (if i < n then sample v i else 0) = 0 := sum_eq_zero (fun i hi => by rw [if_neg (by have := mem_Ico.1 hi; omega)])
  rw [z, add_zero]
  exact sum_congr rfl (fun i hi => by rw [if_pos (mem_range.1 hi)])

/-- C175: the mean before the trigger is the average of the first n samples: between bounds of these samples, and equal to them if they are equal. -/
theorem mean_between (h : 1 ≤ n) (hn : n ≤ ns) (lo hi : ℚ) (hy : ∀ i : Fin ns, i.1 < n → lo ≤ data j i ∧ data j i ≤ hi) :
    (record P B n data j).ptMean = (∑ i ∈ range n, sample (data j) i) / n ∧ lo ≤ (record P B n data j).ptMean ∧ (record P B n data j).ptMean ≤ hi := by
  have e : (record P B n data j).ptMean = (∑ i ∈ range n, sample (data j) i) / n := by
    show headMean n (data j) = _
    unfold headMean
    rw [sum_head n (data j) hn]
  have hn0 : (0 : ℚ) < n := by
    have : 0 < n := by omega
    exact_mod_cast this
  have hb : ∀ i ∈ range n, lo ≤ sample (data j) i ∧ sample (data j) i ≤ hi := by
    intro i hi'
    have := mem_range.1 hi'
    unfold sample
    rw [dif_pos (by omega)]
    exact hy ⟨i, by omega⟩ this
  refine ⟨e, ?_, ?_⟩
  · rw [e, le_div_iff₀ hn0]
    have := card_nsmul_le_sum (range n) (sample (data j)) lo (fun i hi => (hb i hi).1)
    rw [card_range, nsmul_eq_mul] at this
    linarith
  · rw [e, div_le_iff₀ hn0]
    have := sum_le_card_nsmul (range n) (sample (data j)) hi (fun i hi' => (hb i hi').2)
    rw [card_range, nsmul_eq_mul] at this
    linarith

/-- C175: mean and drift before the trigger depend on the first n samples only, not on the pulse. -/
theorem pulse_irrelevant (hn : n ≤ ns) {k' : ℕ} (data' : Matrix (Fin k') (Fin ns) ℚ) (j' : Fin k') (h : ∀ i : Fin ns, i.1 < n → data j i = data' j' i) :
    (record P B n data j).ptMean = (record P B n data' j').ptMean ∧ (record P B n data j).ptDelta = (record P B n data' j').ptDelta := by
  have hs : ∀ i < n, sample (data j) i = sample (data' j') i := by
    intro i hi
    unfold sample
    rw [dif_pos (by omega), dif_pos (by omega)]
    exact h ⟨i, by omega⟩ hi
  constructor
  · show headMean n (data j) = headMean n (data' j')
    unfold headMean
    rw [sum_head n _ hn, sum_head n _ hn, sum_congr rfl (fun i hi => hs i (mem_range.1 hi))]
  · show ptDelta n (data j) = ptDelta n (data' j')
    rw [ptDelta_eq, ptDelta_eq, fit_congr n _ _ hs]

/-- the squared deviation as mean square less square of the mean -/
theorem variance_eq (v : Fin ns → ℚ) (h : 1 ≤ ns) : variance v = (∑ i, v i ^ 2) / ns - ((∑ i, v i) / ns) ^ 2 := by
  have hn : (ns : ℚ) ≠ 0 := by
    have : ns ≠ 0 := by omega
    exact_mod_cast this
  unfold variance
  set m := (∑ i, v i) / (ns : ℚ) with hm
  have hs : ∑ i, v i = ns * m := by
    rw [hm]
    field_simp
  have : ∀ i : Fin ns, (v i - m) ^ 2 = v i ^ 2 - 2 * m * v i + m ^ 2 := fun i => by ring
  rw [sum_congr rfl (fun i _ => this i), sum_add_distrib, sum_sub_distrib, ← mul_sum, hs]
  simp only [sum_const, card_univ, Fintype.card_fin, nsmul_eq_mul]
  field_simp
  ring

/-- C175: the squared residualStdDev is the mean square of the difference between the model of the pulse and the pulse, less the square of its mean; it is not negative, and zero exactly if the
difference is the same for all samples. -/
theorem resid_spec (h : 1 ≤ ns) :
    let r := fun i => (B.mulVec (P.mulVec (data j))) i - data j i
    (record P B n data j).resid2 = (∑ i, r i ^ 2) / ns - ((∑ i, r i) / ns) ^ 2 ∧ 0 ≤ (record P B n data j).resid2 ∧
      ((record P B n data j).resid2 = 0 ↔ ∀ i i', r i = r i') := by
  intro r
  have hr : (fun i => (B * (P * data.transpose) - data.transpose) i j) = r := by
    funext i
    simp only [Matrix.sub_apply, Matrix.mul_apply, Matrix.transpose_apply, r, Matrix.mulVec, dotProduct]
  have e : (record P B n data j).resid2 = variance r := by
    show variance (fun i => (B * (P * data.transpose) - data.transpose) i j) = _
    rw [hr]
  have hn : (0 : ℚ) < ns := by
    have : 0 < ns := by omega
    exact_mod_cast this
  refine ⟨by rw [e, variance_eq r h], ?_, ?_⟩
  · rw [e]
    exact div_nonneg (sum_nonneg (fun i _ => sq_nonneg _)) hn.le
  · rw [e]
    constructor
    · intro hz i i'
      unfold variance at hz
      have hz := (div_eq_zero_iff.1 hz).resolve_right hn.ne'
      rw [sum_eq_zero_iff_of_nonneg (fun i _ => sq_nonneg _)] at hz
      have a := hz i (mem_univ i)
      have b := hz i' (mem_univ i')
      have a := pow_eq_zero_iff (two_ne_zero) |>.1 a
      have b := pow_eq_zero_iff (two_ne_zero) |>.1 b
      linarith
    · intro hc
      unfold variance
      rw [sum_eq_zero, zero_div]
      intro i _
      have : ∑ i', r i' = ns * r i := by
        rw [sum_congr rfl (fun i' _ => hc i' i)]
        simp
      rw [this]
      field_simp
      ring

/-- C175: for projectors dual to the basis, a pulse that is a combination of the basis has its coefficients in the record and no deviation; adding to a pulse a combination of the basis adds to the
coefficients and leaves the deviation. -/
theorem exact_pulse (hPB : P * B = 1) (c : Fin nb → ℚ) (d : Fin ns → ℚ) (hd : data j = B.mulVec c + d) :
    (∀ i, (record P B n data j).coefs i = c i + (P.mulVec d) i) ∧ (record P B n data j).resid2 = variance (fun i => B.mulVec (P.mulVec d) i - d i) := by
  have hP : P.mulVec (data j) = c + P.mulVec d := by
    rw [hd, Matrix.mulVec_add, Matrix.mulVec_mulVec, hPB, Matrix.one_mulVec]
  constructor
  · intro i
    show (P.mulVec (data j)) i = _
    rw [hP]
    rfl
  · show variance (fun i => (B * (P * data.transpose) - data.transpose) i j) = _
    congr 1
    funext i
    have e1 : (B * (P * data.transpose) - data.transpose) i j = B.mulVec (P.mulVec (data j)) i - data j i := by
      simp only [Matrix.sub_apply, Matrix.mul_apply, Matrix.transpose_apply, Matrix.mulVec, dotProduct]
    rw [e1, hP, Matrix.mulVec_add, hd]
    simp only [Pi.add_apply]
    ring

/-- a record that differs from its model by the same amount in every sample has no deviation, as one described exactly: no basis constant in time, record of ones -/
example : let r := record (k := 1) (ns := 2) (nb := 1) (fun _ i => if i = 0 then 1 / 2 else -1 / 2) (fun i _ => if i = 0 then 1 else -1) 2 (fun _ _ => 1) 0
    r.resid2 = 0 ∧ r.coefs 0 = 0 := by decide +kernel

/-- a record of four samples, three before the trigger -/
example : let r := record (k := 1) (ns := 4) (nb := 1) (fun _ i => if i = 3 then 1 else 0) (fun i _ => if i = 3 then 1 else 0) 3 (fun _ i => if i = 3 then 50 else if i = 2 then 4 else 1) 0
    r.ptMean = 2 ∧ r.ptDelta = 3 ∧ r.coefs 0 = 50 ∧ r.resid2 = 9 / 4 := by decide +kernel

end Mass.Ljh.OffRecord
