import Verif.Py
import Mathlib.Algebra.Polynomial.Taylor
import Mathlib.Algebra.Polynomial.Roots
import Mathlib.Algebra.Order.Field.Basic
import Mathlib.LinearAlgebra.Matrix.ToLin
import Mathlib.LinearAlgebra.Matrix.ToLinearEquiv
import Mathlib.LinearAlgebra.Matrix.DotProduct
import Mathlib.LinearAlgebra.Matrix.NonsingularInverse
import Mathlib.Tactic.Ring
import Mathlib.Tactic.Linarith
import Mathlib.Tactic.NormNum
import Mathlib.Tactic.FieldSimp
/-! C118: smoothing by local polynomials and stepped histograms (mass/mathstat/utilities.py). -/
namespace Mass.Stat.Savgol
open Finset Matrix
variable {K : Type} [Field K] [LinearOrder K]

/-! ### model -/

/-- mass/mathstat/utilities.py L164: the powers of the distances from the middle of the window -/
def basis (w q : Nat) : Matrix (Fin w) (Fin q) K := fun r i => (((r : Nat) : K) - (((w - 1) / 2 : Nat) : K)) ^ (i : Nat)

/-- mass/mathstat/utilities.py L168: the values put before the signal -/
def before (h : Nat) (y0 : K) (t : List K) : List K := ((t.take h).reverse).map (fun v => y0 - |v - y0|)

/-- mass/mathstat/utilities.py L169: the values put after the signal -/
def after (h : Nat) (y : List K) (yl : K) : List K := (y.dropLast.reverse.take h).map (fun v => yl + |v - yl|)

/-- `np.convolve(a, b, mode="valid")` of two arrays that are not empty: the shorter one, reversed, runs along the longer one (used for utilities.py
L171) -/
def convolveValid (a b : List K) : List K :=
  let l := if a.length < b.length then b else a
  let s := if a.length < b.length then a else b
  (List.range (l.length - s.length + 1)).map (fun j : Nat => ∑ k ∈ Finset.range s.length, s.getD k 0 * l.getD (j + s.length - 1 - k) 0)

/-- mass/mathstat/utilities.py L157-171 `savitzky_golay`, after the signs are taken off; with a derivative counted from 0, and `y` an array. `pinv` is
`np.linalg.pinv`. -/
def filtered (pinv : (w q : Nat) → Matrix (Fin w) (Fin q) K → Matrix (Fin q) (Fin w) K) (y : List K) (w q : Nat) (deriv : Nat) :
    Except Exc (List K) :=
  if w % 2 ≠ 1 then .error .type
  else if w < q + 2 then .error .type
  else if hd : deriv < q + 1 then
    match y with
    | [] => .error .index
    | y0 :: t =>
      let h := (w - 1) / 2
      .ok (convolveValid (List.ofFn (pinv w (q + 1) (basis w (q + 1)) ⟨deriv, hd⟩))
        (before h y0 t ++ (y0 :: t) ++ after h (y0 :: t) ((y0 :: t).getLastD 0)))
  else .error .index

/-- mass/mathstat/utilities.py L152-171 `savitzky_golay` for integer arguments -/
def savgol (pinv : (w q : Nat) → Matrix (Fin w) (Fin q) K → Matrix (Fin q) (Fin w) K) (y : List K) (window order : Int) (deriv : Nat) :
    Except Exc (List K) := filtered pinv y window.natAbs order.natAbs deriv

/-- mass/mathstat/utilities.py L55-70 `plot_as_stepped_hist`: the points of the curve. Assigning to a stride of another length is a ValueError, except that one
value fits any length. -/
def stepped (data bins : List K) : Except Exc (List (K × K)) :=
  let put (n : Nat) : Except Exc (List K) :=
    if data.length = n then .ok data else match data with
      | [v] => .ok (List.replicate n v)
      | _ => .error .value
  if bins.length = data.length + 1 then do
    let d ← put (bins.length - 1)
    pure ((bins.flatMap (fun x => [x, x])).zip (0 :: d.flatMap (fun v => [v, v]) ++ [0]))
  else match bins with
    | [] => .error .index
    | [_] => .error .index
    | b0 :: b1 :: t => do
      let dx := b1 - b0
      let d ← put (b0 :: b1 :: t).length
      let last := (b0 :: b1 :: t).getLastD 0 + dx * (1 / 2)
      pure (((b0 :: b1 :: t).flatMap (fun x => [x - dx * (1 / 2), x - dx * (1 / 2)]) ++ [last, last]).zip (0 :: d.flatMap (fun v => [v, v]) ++ [0]))

/-! ### the smoothing weights -/

/-- the four conditions of Moore and Penrose for a pseudoinverse, over an ordered field [specification] -/
def IsPinv {w q : Nat} (b : Matrix (Fin w) (Fin q) K) (p : Matrix (Fin q) (Fin w) K) : Prop :=
  b * p * b = b ∧ p * b * p = p ∧ (b * p)ᵀ = b * p ∧ (p * b)ᵀ = p * b

variable [IsStrictOrderedRing K]

omit [LinearOrder K] [IsStrictOrderedRing K] in
theorem basis_injective [CharZero K] {w q : Nat} (hq : q ≤ w) (c : Fin q → K) (h : (basis w q : Matrix (Fin w) (Fin q) K) *ᵥ c = 0) : c = 0 := by
  classical
  by_cases hq0 : q = 0
  · subst hq0; exact Subsingleton.elim _ _
  let p : Polynomial K := ∑ i : Fin q, Polynomial.C (c i) * Polynomial.X ^ (i : Nat)
  have hp0 : p = 0 := by
    apply Polynomial.eq_zero_of_natDegree_lt_card_of_eval_eq_zero p (ι := Fin w)
      (f := fun r => ((r : Nat) : K) - (((w - 1) / 2 : Nat) : K))
    · intro a b hab
      simp only [sub_left_inj, Nat.cast_inj] at hab
      exact Fin.ext hab
    · intro r
      have hr := congrFun h r
      simp only [mulVec, dotProduct, basis, Pi.zero_apply] at hr
      simp only [p, Polynomial.eval_finset_sum, Polynomial.eval_mul, Polynomial.eval_C, Polynomial.eval_pow, Polynomial.eval_X]
      rw [← hr]
      exact Finset.sum_congr rfl (fun i _ => mul_comm _ _)
    · rw [Fintype.card_fin]
      refine lt_of_lt_of_le ?_ hq
      have : p.natDegree ≤ q - 1 := by
        apply Polynomial.natDegree_sum_le_of_forall_le
        intro i _
        refine (Polynomial.natDegree_C_mul_X_pow_le _ _).trans ?_
        have := i.isLt
        omega
      omega
  funext i
  have hc := congrArg (fun s => s.coeff (i : Nat)) hp0
  simp only [p, Polynomial.finset_sum_coeff, Polynomial.coeff_C_mul, Polynomial.coeff_X_pow, Polynomial.coeff_zero] at hc
  rw [Finset.sum_eq_single i] at hc
  · simpa using hc
  · intro j _ hj
    have : (i : Nat) ≠ (j : Nat) := fun e => hj (Fin.ext e.symm)
    simp [this]
  · simp

omit [LinearOrder K] [IsStrictOrderedRing K] in
theorem pinv_left [CharZero K] {w q : Nat} (hq : q ≤ w) {p : Matrix (Fin q) (Fin w) K}
    (h : (basis w q : Matrix (Fin w) (Fin q) K) * p * basis w q = basis w q) : p * (basis w q : Matrix (Fin w) (Fin q) K) = 1 := by
  obtain ⟨N, hN⟩ : ∃ N : Matrix (Fin q) (Fin q) K, N = p * (basis w q : Matrix (Fin w) (Fin q) K) - 1 := ⟨_, rfl⟩
  have hz : (basis w q : Matrix (Fin w) (Fin q) K) * N = 0 := by
    rw [hN, Matrix.mul_sub, ← Matrix.mul_assoc, h, Matrix.mul_one, sub_self]
  rw [← sub_eq_zero, ← hN]
  ext i j
  have hcol : (basis w q : Matrix (Fin w) (Fin q) K) *ᵥ (fun k => N k j) = 0 := by
    funext r
    have := congrFun (congrFun hz r) j
    rw [Matrix.mul_apply] at this
    simpa [mulVec, dotProduct] using this
  have := congrFun (basis_injective hq _ hcol) i
  simpa using this

omit [LinearOrder K] [IsStrictOrderedRing K] in
/-- the weights pick the coefficient of order `d` of every polynomial up to the order fitted -/
theorem weights_moment [CharZero K] {w q : Nat} (hq : q ≤ w) {p : Matrix (Fin q) (Fin w) K}
    (h : (basis w q : Matrix (Fin w) (Fin q) K) * p * basis w q = basis w q) (d i : Fin q) :
    ∑ r : Fin w, p d r * (((r : Nat) : K) - (((w - 1) / 2 : Nat) : K)) ^ (i : Nat) = if d = i then 1 else 0 := by
  have := congrFun (congrFun (pinv_left hq h) d) i
  rw [Matrix.mul_apply, Matrix.one_apply] at this
  exact this

omit [LinearOrder K] [IsStrictOrderedRing K] in
/-- running the reversed weights over a window in which the signal is a polynomial -/
theorem window_poly [CharZero K] {w q : Nat} (hw : w % 2 = 1) (hq : q ≤ w) {p : Matrix (Fin q) (Fin w) K}
    (h : (basis w q : Matrix (Fin w) (Fin q) K) * p * basis w q = basis w q) (d : Fin q) (P : Polynomial K) (hP : P.natDegree < q) (x : K)
    (s : Nat → K) (hs : ∀ k < w, s (w - 1 - k) = P.eval (x + ((((w - 1) / 2 : Nat) : K) - (k : K)))) :
    ∑ k : Fin w, p d k * s (w - 1 - (k : Nat)) = (-1) ^ (d : Nat) * (Polynomial.hasseDeriv (d : Nat) P).eval x := by
  have hk : ∀ k : Fin w, p d k * s (w - 1 - (k : Nat)) =
      ∑ i : Fin q, (Polynomial.taylor x P).coeff (i : Nat) * (-1) ^ (i : Nat) *
        (p d k * (((k : Nat) : K) - (((w - 1) / 2 : Nat) : K)) ^ (i : Nat)) := by
    intro k
    rw [hs k k.isLt, add_comm, ← Polynomial.taylor_eval, Polynomial.eval_eq_sum_range' (n := q) (by rw [Polynomial.natDegree_taylor]; exact hP),
      Finset.mul_sum, ← Fin.sum_univ_eq_sum_range (fun i => p d k * ((Polynomial.taylor x P).coeff i * ((((w - 1) / 2 : Nat) : K) - (k : K)) ^ i))]
    apply Finset.sum_congr rfl
    intro i _
    have : ((((w - 1) / 2 : Nat) : K) - ((k : Nat) : K)) ^ (i : Nat) = (-1) ^ (i : Nat) * (((k : Nat) : K) - (((w - 1) / 2 : Nat) : K)) ^ (i : Nat) := by
      rw [← mul_pow]
      congr 1
      ring
    rw [this]
    ring
  rw [Finset.sum_congr rfl (fun k _ => hk k), Finset.sum_comm]
  simp only [← Finset.mul_sum, weights_moment hq h d]
  rw [Finset.sum_eq_single d]
  · rw [if_pos rfl, mul_one, Polynomial.taylor_coeff]
    ring
  · intro i _ hi
    rw [if_neg (fun e => hi e.symm), mul_zero]
  · simp

/-! ### smoothing -/

/-- the pseudoinverses of the matrices of powers are pseudoinverses [specification] -/
def Pseudo (pinv : (w q : Nat) → Matrix (Fin w) (Fin q) K → Matrix (Fin q) (Fin w) K) : Prop :=
  ∀ w q, q ≤ w → IsPinv (basis w q) (pinv w q (basis w q))

/-- there are such pseudoinverses, and they are unique: what is assumed of `np.linalg.pinv` can be met -/
theorem pseudo_exists : ∃ pinv : (w q : Nat) → Matrix (Fin w) (Fin q) K → Matrix (Fin q) (Fin w) K, Pseudo pinv := by
  classical
  refine ⟨fun w q b => (bᵀ * b)⁻¹ * bᵀ, ?_⟩
  intro w q hq
  dsimp only
  have hdet : ((basis w q : Matrix (Fin w) (Fin q) K)ᵀ * basis w q).det ≠ 0 := by
    intro h0
    obtain ⟨v, hv, h⟩ := Matrix.exists_mulVec_eq_zero_iff.2 h0
    apply hv
    apply basis_injective hq
    apply dotProduct_self_eq_zero.1
    have h2 := congrArg (fun u => v ⬝ᵥ u) h
    simp only [dotProduct_zero] at h2
    rw [← Matrix.mulVec_mulVec, Matrix.dotProduct_mulVec, Matrix.vecMul_transpose] at h2
    exact h2
  have hu := isUnit_iff_ne_zero.2 hdet
  obtain ⟨b, hb⟩ : ∃ b : Matrix (Fin w) (Fin q) K, b = basis w q := ⟨_, rfl⟩
  rw [← hb] at hu ⊢
  have h1 : (bᵀ * b)⁻¹ * bᵀ * b = 1 := by rw [Matrix.mul_assoc, Matrix.nonsing_inv_mul _ hu]
  refine ⟨?_, ?_, ?_, ?_⟩
  · rw [Matrix.mul_assoc, h1, Matrix.mul_one]
  · rw [h1, Matrix.one_mul]
  · rw [Matrix.transpose_mul, Matrix.transpose_mul, Matrix.transpose_transpose, Matrix.transpose_nonsing_inv, Matrix.transpose_mul,
      Matrix.transpose_transpose, Matrix.mul_assoc]
  · rw [h1, Matrix.transpose_one]

omit [IsStrictOrderedRing K] in
theorem pinv_unique {w q : Nat} {b : Matrix (Fin w) (Fin q) K} {p p' : Matrix (Fin q) (Fin w) K} (h : IsPinv b p) (h' : IsPinv b p') : p = p' := by
  obtain ⟨a1, a2, a3, a4⟩ := h
  obtain ⟨b1, b2, b3, b4⟩ := h'
  have e1 : b * p = b * p' := by
    calc b * p = (b * p' * b) * p := by rw [b1]
      _ = (b * p') * (b * p) := by simp only [Matrix.mul_assoc]
      _ = (b * p')ᵀ * (b * p)ᵀ := by rw [a3, b3]
      _ = ((b * p * b) * p')ᵀ := by rw [← Matrix.transpose_mul]; simp only [Matrix.mul_assoc]
      _ = b * p' := by rw [a1, b3]
  have e2 : p * b = p' * b := by
    calc p * b = p * (b * p' * b) := by rw [b1]
      _ = (p * b) * (p' * b) := by simp only [Matrix.mul_assoc]
      _ = (p * b)ᵀ * (p' * b)ᵀ := by rw [a4, b4]
      _ = (p' * (b * p * b))ᵀ := by rw [← Matrix.transpose_mul]; simp only [Matrix.mul_assoc]
      _ = p' * b := by rw [a1, b4]
  calc p = p * b * p := a2.symm
    _ = p' * b * p := by rw [e2]
    _ = p' * (b * p) := Matrix.mul_assoc _ _ _
    _ = p' * (b * p') := by rw [e1]
    _ = p' := by rw [← Matrix.mul_assoc, b2]

/-- the pseudoinverse of a window of three samples and straight lines [specification] -/
def p3 : Matrix (Fin 2) (Fin 3) ℚ := !![1/3, 1/3, 1/3; -1/2, 0, 1/2]

theorem p3_pinv : IsPinv (basis 3 2) p3 := by
  unfold IsPinv
  decide +kernel

theorem pseudo_three {pinv : (w q : Nat) → Matrix (Fin w) (Fin q) ℚ → Matrix (Fin q) (Fin w) ℚ} (hp : Pseudo pinv) : pinv 3 2 (basis 3 2) = p3 :=
  pinv_unique (hp 3 2 (by omega)) p3_pinv

omit [IsStrictOrderedRing K] in
theorem conv_get (m l : List K) (hm : m ≠ []) (h : m.length ≤ l.length) {j : Nat} (hj : j + m.length ≤ l.length) :
    (convolveValid m l)[j]? = some (∑ k ∈ Finset.range m.length, m.getD k 0 * l.getD (j + (m.length - 1 - k)) 0) ∨ m.length = l.length := by
  by_cases hl : m.length < l.length
  · left
    unfold convolveValid
    simp only [if_pos hl]
    rw [List.getElem?_map, List.getElem?_range (by omega)]
    simp only [Option.map_some, Option.some.injEq]
    apply Finset.sum_congr rfl
    intro k hk
    have := Finset.mem_range.1 hk
    rw [show j + m.length - 1 - k = j + (m.length - 1 - k) by omega]
  · right; omega

omit [IsStrictOrderedRing K] in
/-- the values of the convolution; the case of equal lengths is the same by symmetry -/
theorem conv_get' (m l : List K) (hm : m ≠ []) (h : m.length ≤ l.length) {j : Nat} (hj : j + m.length ≤ l.length) :
    (convolveValid m l)[j]? = some (∑ k ∈ Finset.range m.length, m.getD k 0 * l.getD (j + (m.length - 1 - k)) 0) := by
  rcases conv_get m l hm h hj with h1 | h1
  · exact h1
  · have hj0 : j = 0 := by omega
    subst hj0
    unfold convolveValid
    simp only [h1, lt_irrefl, if_false]
    rw [List.getElem?_map, List.getElem?_range (by omega)]
    simp only [Option.map_some, Option.some.injEq, Nat.zero_add]
    rw [← Finset.sum_range_reflect]
    apply Finset.sum_congr rfl
    intro k hk
    have := Finset.mem_range.1 hk
    rw [mul_comm, show l.length - 1 - (l.length - 1 - k) = k by omega]

omit [IsStrictOrderedRing K] in
theorem conv_length (m l : List K) (h : m.length ≤ l.length) : (convolveValid m l).length = l.length - m.length + 1 := by
  unfold convolveValid
  by_cases hl : m.length < l.length
  · simp [hl]
  · simp [hl]; omega

omit [IsStrictOrderedRing K] in
/-- the padded signal is as long as the signal and two half windows -/
theorem padded_length {h : Nat} {y0 : K} {t : List K} (hh : h ≤ t.length) (yl : K) :
    (before h y0 t ++ (y0 :: t) ++ after h (y0 :: t) yl).length = t.length + 1 + 2 * h := by
  simp [before, after, hh]
  omega

theorem savgol_ok {pinv : (w q : Nat) → Matrix (Fin w) (Fin q) K → Matrix (Fin q) (Fin w) K} {y0 : K} {t : List K} {w q d : Nat}
    (hw : w % 2 = 1) (hq : q + 2 ≤ w) (hd : d < q + 1) (hlen : (w - 1) / 2 ≤ t.length) :
    ∃ out, savgol pinv (y0 :: t) w q d = .ok out ∧ out.length = t.length + 1 ∧
      ∀ j < t.length + 1, out[j]? = some (∑ k : Fin w, pinv w (q + 1) (basis w (q + 1)) ⟨d, hd⟩ k *
        (before ((w - 1) / 2) y0 t ++ (y0 :: t) ++ after ((w - 1) / 2) (y0 :: t) ((y0 :: t).getLastD 0)).getD (j + (w - 1 - (k : Nat))) 0) := by
  have hpl := padded_length (K := K) (y0 := y0) hlen ((y0 :: t).getLastD 0)
  refine ⟨convolveValid (List.ofFn (pinv w (q + 1) (basis w (q + 1)) ⟨d, hd⟩))
    (before ((w - 1) / 2) y0 t ++ (y0 :: t) ++ after ((w - 1) / 2) (y0 :: t) ((y0 :: t).getLastD 0)), ?_, ?_, ?_⟩
  · unfold savgol
    rw [Int.natAbs_natCast, Int.natAbs_natCast]
    unfold filtered
    rw [if_neg (by omega), if_neg (by omega), dif_pos hd]
  · rw [conv_length _ _ (by rw [hpl, List.length_ofFn]; omega), hpl, List.length_ofFn]
    omega
  · intro j hj
    rw [conv_get' _ _ (by simp; omega) (by rw [hpl, List.length_ofFn]; omega) (by rw [hpl, List.length_ofFn]; omega), List.length_ofFn]
    congr 1
    rw [← Fin.sum_univ_eq_sum_range (fun k => (List.ofFn (pinv w (q + 1) (basis w (q + 1)) ⟨d, hd⟩)).getD k 0 *
      (before ((w - 1) / 2) y0 t ++ (y0 :: t) ++ after ((w - 1) / 2) (y0 :: t) ((y0 :: t).getLastD 0)).getD (j + (w - 1 - k)) 0)]
    apply Finset.sum_congr rfl
    intro k _
    congr 1
    simp

/-- the signal with what is put before and after it, by the position relative to the signal [specification] -/
def padded (h : Nat) (y : List K) (i : Nat) : K :=
  (before h (y.headD 0) y.tail ++ y ++ after h y (y.getLastD 0)).getD i 0

theorem smooth_value {pinv : (w q : Nat) → Matrix (Fin w) (Fin q) K → Matrix (Fin q) (Fin w) K} (hp : Pseudo pinv) (P : Polynomial K) {y : List K}
    (hy : y ≠ []) {w q d : Nat} (hlen : (w - 1) / 2 < y.length) (hw : w % 2 = 1) (hq : q + 2 ≤ w) (hd : d ≤ q) (hP : P.natDegree ≤ q) :
    ∃ out, savgol pinv y w q d = .ok out ∧ out.length = y.length ∧
      ∀ j < y.length, (∀ i < w, padded ((w - 1) / 2) y (j + i) = P.eval ((j : K) + (i : K) - (((w - 1) / 2 : Nat) : K))) →
        out[j]? = some ((-1) ^ d * (Polynomial.hasseDeriv d P).eval (j : K)) := by
  cases y with
  | nil => exact absurd rfl hy
  | cons y0 t =>
    obtain ⟨out, h1, h2, h3⟩ := savgol_ok (pinv := pinv) (y0 := y0) (t := t) hw hq (Nat.lt_succ_of_le hd) (by simpa using Nat.lt_succ_iff.1 hlen)
    refine ⟨out, h1, by simpa using h2, ?_⟩
    intro j hj hv
    rw [h3 j (by simpa using hj)]
    congr 1
    have hb : (basis w (q + 1) : Matrix (Fin w) (Fin (q + 1)) K) * pinv w (q + 1) (basis w (q + 1)) * basis w (q + 1) = basis w (q + 1) :=
      (hp w (q + 1) (by omega)).1
    have := window_poly hw (by omega) hb ⟨d, Nat.lt_succ_of_le hd⟩ P (by omega) (j : K) (fun i => padded ((w - 1) / 2) (y0 :: t) (j + i)) ?_
    · exact this
    · intro k hk
      rw [hv _ (by omega)]
      congr 1
      have : ((w - 1 - k : Nat) : K) = (((w - 1) / 2 : Nat) : K) + (((w - 1) / 2 : Nat) : K) - (k : K) := by
        rw [eq_sub_iff_add_eq, ← Nat.cast_add, ← Nat.cast_add]
        congr 1
        omega
      rw [this]
      ring

/-- C118. Wherever the window is inside of the signal, smoothing does not change a signal that is a polynomial of at most the order given; asking for
derivative `d` gives `(-1)^d / d!` times that derivative. The output is as long as the signal. -/
theorem smooth_poly_partial {pinv : (w q : Nat) → Matrix (Fin w) (Fin q) K → Matrix (Fin q) (Fin w) K} (hp : Pseudo pinv) (P : Polynomial K)
    {n w q d : Nat} (hn : w ≤ n) (hw : w % 2 = 1) (hq : q + 2 ≤ w) (hd : d ≤ q) (hP : P.natDegree ≤ q) :
    ∃ out, savgol pinv ((List.range n).map (fun t : Nat => P.eval (t : K))) w q d = .ok out ∧ out.length = n ∧
      ∀ j, (w - 1) / 2 ≤ j → j + (w - 1) / 2 < n →
        out[j]? = some ((-1) ^ d * ((Polynomial.derivative^[d] P).eval (j : K) / (d.factorial : K))) := by
  have hne : (List.range n).map (fun t : Nat => P.eval (t : K)) ≠ [] := by simp; omega
  obtain ⟨out, h1, h2, h3⟩ := smooth_value hp P hne (w := w) (q := q) (d := d) (by simp; omega) hw hq hd hP
  refine ⟨out, h1, by simpa using h2, ?_⟩
  intro j hj1 hj2
  rw [h3 j (by simp; omega)]
  · rw [← Polynomial.factorial_smul_hasseDeriv]
    have : (d.factorial : K) ≠ 0 := Nat.cast_ne_zero.2 (Nat.factorial_ne_zero d)
    simp [Polynomial.eval_smul, this]
  · intro i hi
    unfold padded
    have hbl : (before ((w - 1) / 2) (((List.range n).map (fun t : Nat => P.eval (t : K))).headD 0)
        ((List.range n).map (fun t : Nat => P.eval (t : K))).tail).length = (w - 1) / 2 := by
      simp [before]; omega
    rw [List.getD_eq_getElem?_getD, List.append_assoc, List.getElem?_append_right (by rw [hbl]; omega), hbl,
      List.getElem?_append_left (by simp; omega), List.getElem?_map, List.getElem?_range (by omega)]
    simp only [Option.map_some, Option.getD_some]
    congr 1
    rw [eq_sub_iff_add_eq, ← Nat.cast_add, ← Nat.cast_add]
    congr 1
    omega

/-- C118. A line that rises or is level is not changed anywhere, not even at the ends, as soon as there are more samples than half a window. -/
theorem smooth_rising {pinv : (w q : Nat) → Matrix (Fin w) (Fin q) K → Matrix (Fin q) (Fin w) K} (hp : Pseudo pinv) (a s : K) (hs : 0 ≤ s)
    {n w q : Nat} (hn : (w - 1) / 2 < n) (hw : w % 2 = 1) (hq : q + 2 ≤ w) (hq1 : s = 0 ∨ 1 ≤ q) :
    savgol pinv ((List.range n).map (fun t : Nat => a + s * (t : K))) w q 0 = .ok ((List.range n).map (fun t : Nat => a + s * (t : K))) := by
  have hne : (List.range n).map (fun t : Nat => a + s * (t : K)) ≠ [] := by simp; omega
  have hdeg : (Polynomial.C a + Polynomial.C s * Polynomial.X : Polynomial K).natDegree ≤ q := by
    rcases hq1 with rfl | hq1
    · simp
    · refine (Polynomial.natDegree_add_le _ _).trans ?_
      rw [Polynomial.natDegree_C]
      have := Polynomial.natDegree_C_mul_le s (Polynomial.X : Polynomial K)
      have := Polynomial.natDegree_X_le (R := K)
      omega
  obtain ⟨out, h1, h2, h3⟩ := smooth_value hp (Polynomial.C a + Polynomial.C s * Polynomial.X) hne (w := w) (q := q) (d := 0)
    (by simpa using hn) hw hq (Nat.zero_le _) hdeg
  rw [h1]
  congr 1
  apply List.ext_getElem?
  intro j
  by_cases hj : j < n
  · rw [h3 j (by simpa using hj), List.getElem?_map, List.getElem?_range hj]
    · simp [Polynomial.hasseDeriv_zero]
    · intro i hi
      have hj' : j < n := hj
      unfold padded
      simp only [Polynomial.eval_add, Polynomial.eval_C, Polynomial.eval_mul, Polynomial.eval_X]
      obtain ⟨h, hh⟩ : ∃ h, h = (w - 1) / 2 := ⟨_, rfl⟩
      have hw2 : w = 2 * h + 1 := by omega
      rw [← hh] at hn ⊢
      obtain ⟨m, rfl⟩ : ∃ m, n = m + 1 := ⟨n - 1, by omega⟩
      have hhead : ((List.range (m + 1)).map (fun t : Nat => a + s * (t : K))).headD 0 = a := by
        rw [List.range_succ_eq_map]; simp
      have htail : ((List.range (m + 1)).map (fun t : Nat => a + s * (t : K))).tail = (List.range m).map (fun t : Nat => a + s * ((t : K) + 1)) := by
        rw [List.range_succ_eq_map]; simp [Function.comp_def]
      have hlast : ((List.range (m + 1)).map (fun t : Nat => a + s * (t : K))).getLastD 0 = a + s * (m : K) := by
        rw [List.range_succ]; simp
      have hdrop : ((List.range (m + 1)).map (fun t : Nat => a + s * (t : K))).dropLast = (List.range m).map (fun t : Nat => a + s * (t : K)) := by
        rw [List.range_succ]; simp
      have hbl : (before h a ((List.range m).map (fun t : Nat => a + s * ((t : K) + 1)))).length = h := by
        simp [before]; omega
      rw [hhead, htail, hlast, List.getD_eq_getElem?_getD, List.append_assoc]
      by_cases c1 : j + i < h
      · rw [List.getElem?_append_left (by rw [hbl]; omega)]
        unfold before
        rw [List.getElem?_map, List.getElem?_reverse (by simp; omega), List.getElem?_take]
        simp only [List.length_take, List.length_map, List.length_range]
        rw [Nat.min_eq_left (by omega), if_pos (by omega), List.getElem?_map, List.getElem?_range (by omega)]
        simp only [Option.map_some, Option.getD_some]
        have e : ((h - 1 - (j + i) : Nat) : K) + 1 = (h : K) - ((j : K) + (i : K)) := by
          have : (h - 1 - (j + i)) + 1 + (j + i) = h := by omega
          have := congrArg (fun x : Nat => (x : K)) this
          push_cast at this
          linarith
        rw [e]
        have hpos : 0 ≤ (h : K) - ((j : K) + (i : K)) := by
          rw [← e]
          positivity
        have : |a + s * ((h : K) - ((j : K) + (i : K))) - a| = s * ((h : K) - ((j : K) + (i : K))) := by
          rw [add_sub_cancel_left, abs_of_nonneg (mul_nonneg hs hpos)]
        rw [this]
        ring
      · rw [List.getElem?_append_right (by rw [hbl]; omega), hbl]
        by_cases c2 : j + i - h < m + 1
        · rw [List.getElem?_append_left (by simp; omega), List.getElem?_map, List.getElem?_range c2]
          simp only [Option.map_some, Option.getD_some]
          congr 2
          rw [eq_sub_iff_add_eq, ← Nat.cast_add, ← Nat.cast_add]
          congr 1
          omega
        · rw [List.getElem?_append_right (by simp; omega)]
          unfold after
          rw [hdrop, List.length_map, List.length_range, List.getElem?_map, List.getElem?_take, if_pos (by omega),
            List.getElem?_reverse (by simp; omega), List.length_map, List.length_range, List.getElem?_map, List.getElem?_range (by omega)]
          simp only [Option.map_some, Option.getD_some]
          have e : ((m - 1 - (j + i - h - (m + 1)) : Nat) : K) = 2 * (m : K) - ((j : K) + (i : K) - (h : K)) := by
            have : (m - 1 - (j + i - h - (m + 1))) + (j + i) = 2 * m + h := by omega
            have := congrArg (fun x : Nat => (x : K)) this
            push_cast at this
            linarith
          rw [e]
          have hpos : 0 ≤ (j : K) + (i : K) - (h : K) - (m : K) := by
            have : m + h ≤ j + i := by omega
            have : ((m + h : Nat) : K) ≤ ((j + i : Nat) : K) := Nat.cast_le.2 this
            push_cast at this
            linarith
          have : |a + s * (2 * (m : K) - ((j : K) + (i : K) - (h : K))) - (a + s * (m : K))| = s * ((j : K) + (i : K) - (h : K) - (m : K)) := by
            rw [show a + s * (2 * (m : K) - ((j : K) + (i : K) - (h : K))) - (a + s * (m : K)) = -(s * ((j : K) + (i : K) - (h : K) - (m : K))) by ring,
              abs_neg, abs_of_nonneg (mul_nonneg hs hpos)]
          rw [this]
          ring
  · rw [List.getElem?_eq_none (by rw [h2]; simpa using hj), List.getElem?_eq_none (by simpa using hj)]

/-! ### what is not preserved -/

/-- the output of a window of three samples and straight lines -/
theorem savgol_three {pinv : (w q : Nat) → Matrix (Fin w) (Fin q) ℚ → Matrix (Fin q) (Fin w) ℚ} (hp : Pseudo pinv) (y : List ℚ) (d : Fin 2) :
    savgol pinv y 3 1 d = (match y with
      | [] => .error .index
      | y0 :: t => .ok (convolveValid [p3 d 0, p3 d 1, p3 d 2]
        (before 1 y0 t ++ (y0 :: t) ++ after 1 (y0 :: t) ((y0 :: t).getLastD 0)))) := by
  show filtered pinv y 3 1 d = _
  unfold filtered
  rw [if_neg (by omega), if_neg (by omega), dif_pos (by omega)]
  cases y with
  | nil => rfl
  | cons y0 t =>
    have := pseudo_three hp
    simp only [Nat.reduceAdd, this]
    rfl

/-- Disagreement (C118): a falling line is not preserved: the ends of it are padded as if it was rising, so they are bent -/
theorem falling_fails {pinv : (w q : Nat) → Matrix (Fin w) (Fin q) ℚ → Matrix (Fin q) (Fin w) ℚ} (hp : Pseudo pinv) :
    savgol pinv [0, -1, -2] 3 1 0 = .ok [-2/3, -1, -4/3] := by
  have h := savgol_three hp [0, -1, -2] 0
  simp only [Fin.val_zero] at h
  rw [h]
  decide +kernel

/-- Disagreement (C118): asking for the derivative of a rising line gives a negative number: the weights are not reversed before they are convolved
with the signal -/
theorem derivative_sign_fails {pinv : (w q : Nat) → Matrix (Fin w) (Fin q) ℚ → Matrix (Fin q) (Fin w) ℚ} (hp : Pseudo pinv) :
    savgol pinv [0, 1, 2] 3 1 1 = .ok [-1, -1, -1] := by
  have h := savgol_three hp [0, 1, 2] 1
  simp only [Fin.val_one] at h
  rw [h]
  decide +kernel

/-- Disagreement (C118): the second derivative of `x²` is 2, but 1 is what the filter gives: the factor `d!` is missing -/
theorem second_derivative_fails {pinv : (w q : Nat) → Matrix (Fin w) (Fin q) ℚ → Matrix (Fin q) (Fin w) ℚ} (hp : Pseudo pinv) {n : Nat} (hn : 5 ≤ n) :
    ∃ out, savgol pinv ((List.range n).map (fun t : Nat => (t : ℚ) ^ 2)) 5 2 2 = .ok out ∧ out[2]? = some 1 := by
  obtain ⟨out, h1, _, h3⟩ := smooth_poly_partial hp (Polynomial.X ^ 2) (w := 5) (q := 2) (d := 2) hn (by norm_num) (by norm_num) (by norm_num) (by simp)
  refine ⟨out, ?_, ?_⟩
  · rw [← h1]
    simp
  · rw [h3 2 (by norm_num) (by omega)]
    norm_num [Polynomial.derivative_X_pow]

/-- Disagreement (C118): the output is not as long as the signal if the signal is shorter than half a window -/
theorem short_fails {pinv : (w q : Nat) → Matrix (Fin w) (Fin q) K → Matrix (Fin q) (Fin w) K} (v : K) :
    ∃ out, savgol pinv [v] 5 1 0 = .ok out ∧ out.length = 5 := by
  show ∃ out, filtered pinv [v] 5 1 0 = .ok out ∧ out.length = 5
  unfold filtered
  rw [if_neg (by omega), if_neg (by omega), dif_pos (by omega)]
  refine ⟨_, rfl, ?_⟩
  simp [convolveValid, before, after]

omit [IsStrictOrderedRing K] in
/-- C118. What is refused: even windows, windows of less than two samples more than the order, empty signals, derivatives above the order. Nothing else
is, and the signs of window and order do not matter. -/
theorem savgol_refused (pinv : (w q : Nat) → Matrix (Fin w) (Fin q) K → Matrix (Fin q) (Fin w) K) (y : List K) (window order : Int) (d : Nat) :
    (savgol pinv y window order d = .error .type ↔ (2 ∣ window ∨ |window| < |order| + 2)) ∧
    (savgol pinv y window order d = .error .index ↔ (¬ 2 ∣ window ∧ |order| + 2 ≤ |window| ∧ (y = [] ∨ |order| < d))) ∧
    ((∃ out, savgol pinv y window order d = .ok out) ↔ (¬ 2 ∣ window ∧ |order| + 2 ≤ |window| ∧ y ≠ [] ∧ (d : Int) ≤ |order|)) ∧
    savgol pinv y (-window) order d = savgol pinv y window order d ∧ savgol pinv y window (-order) d = savgol pinv y window order d := by
  refine ⟨?_, ?_, ?_, by simp only [savgol, Int.natAbs_neg], by simp only [savgol, Int.natAbs_neg]⟩ <;>
  · unfold savgol filtered
    have hW := Int.abs_eq_natAbs window
    have hO := Int.abs_eq_natAbs order
    generalize |window| = W at hW ⊢
    generalize |order| = O at hO ⊢
    split_ifs with c1 c2 c3
    · simp; omega
    · simp; omega
    · cases y <;> simp <;> omega
    · simp; omega

/-! ### stepped histograms -/

/-- the area below a curve given by points, by trapezoids [specification] -/
def area : List (K × K) → K
  | a :: b :: t => (b.1 - a.1) * (a.2 + b.2) / 2 + area (b :: t)
  | _ => 0

/-- the points of a stepped histogram written out: up from 0 at the first edge, level over every bin, down to 0 at the last edge [specification] -/
def steps : List K → List K → K → List (K × K)
  | [e], [], v => [(e, v), (e, 0)]
  | e :: es, d :: ds, v => (e, v) :: (e, d) :: steps es ds d
  | _, _, _ => []

omit [LinearOrder K] [IsStrictOrderedRing K] in
theorem steps_eq : ∀ (es ds : List K) (v : K), es.length = ds.length + 1 →
    (es.flatMap (fun x => [x, x])).zip (v :: ds.flatMap (fun v => [v, v]) ++ [0]) = steps es ds v := by
  intro es
  induction es with
  | nil => intro ds v h; simp at h
  | cons e es ih =>
    intro ds v h
    cases ds with
    | nil =>
      have : es = [] := by simpa using h
      subst this
      rfl
    | cons d ds =>
      have h' : es.length = ds.length + 1 := by simpa using h
      have := ih ds d h'
      simp only [List.flatMap_cons, List.cons_append, List.nil_append, List.zip_cons_cons, steps]
      rw [List.cons_append] at this
      rw [this]

omit [LinearOrder K] [IsStrictOrderedRing K] in
/-- C118. Given the edges, the curve goes up from 0 at the first edge, is level at its contents over every bin, and goes down to 0 at the last. -/
theorem stepped_edges (data bins : List K) (h : bins.length = data.length + 1) : stepped data bins = .ok (steps bins data 0) := by
  unfold stepped
  dsimp only
  rw [if_pos h, if_pos (by omega)]
  simp only [bind, Except.bind, pure, Except.pure]
  rw [steps_eq _ _ _ h]

omit [LinearOrder K] in
theorem area_steps [CharZero K] : ∀ (es ds : List K) (v : K), es.length = ds.length + 1 →
    area (steps es ds v) = (List.zipWith (fun (e : K × K) d => (e.2 - e.1) * d) (es.zip es.tail) ds).sum := by
  intro es
  induction es with
  | nil => intro ds v h; simp at h
  | cons e es ih =>
    intro ds v h
    cases ds with
    | nil =>
      have : es = [] := by simpa using h
      subst this
      simp [steps, area]
    | cons d ds =>
      have h' : es.length = ds.length + 1 := by simpa using h
      have hi := ih ds d h'
      cases es with
      | nil => simp at h'
      | cons e' es' =>
        simp only [steps, area] at hi ⊢
        have : ∃ r, steps (e' :: es') ds d = (e', d) :: r := by
          cases ds with
          | nil =>
            have : es' = [] := by simpa using h'
            subst this
            exact ⟨_, rfl⟩
          | cons d' ds' => exact ⟨(e', d') :: steps es' ds' d', by simp [steps]⟩
        obtain ⟨r, hr⟩ := this
        rw [hr] at hi ⊢
        simp only [area]
        rw [hi]
        simp only [List.tail_cons, List.zip_cons_cons, List.zipWith_cons_cons, List.sum_cons]
        ring

omit [LinearOrder K] in
/-- C118. The area below the curve is the sum of contents times widths. -/
theorem stepped_area [CharZero K] (data bins : List K) (h : bins.length = data.length + 1) :
    ∃ pts, stepped data bins = .ok pts ∧ area pts = (List.zipWith (fun (e : K × K) d => (e.2 - e.1) * d) (bins.zip bins.tail) data).sum :=
  ⟨_, stepped_edges data bins h, area_steps bins data 0 h⟩

omit [LinearOrder K] in
/-- C118. Given two or more centers of equal width, the curve is that of their edges, from half a bin below the first to half a bin above the last. -/
theorem stepped_centers [CharZero K] (a w : K) (data : List K) (h : 2 ≤ data.length) :
    stepped data ((List.range data.length).map (fun i : Nat => a + w * i)) =
      stepped data ((List.range (data.length + 1)).map (fun i : Nat => a + w * i - w / 2)) := by
  rw [stepped_edges data ((List.range (data.length + 1)).map (fun i : Nat => a + w * i - w / 2)) (by simp), ← steps_eq _ _ _ (by simp)]
  obtain ⟨n, hn⟩ : ∃ n, data.length = n + 2 := ⟨data.length - 2, by omega⟩
  obtain ⟨c, hc⟩ : ∃ c, c = (List.range data.length).map (fun i : Nat => a + w * i) := ⟨_, rfl⟩
  have hlen : c.length = data.length := by rw [hc]; simp
  have h0 : c = (a + w * (0 : Nat)) :: (a + w * (1 : Nat)) :: ((List.range n).map (fun i : Nat => a + w * ((i + 2 : Nat) : K))) := by
    rw [hc, hn, List.range_succ_eq_map, List.range_succ_eq_map]
    simp only [List.map_cons, List.map_map, Function.comp_def]
  have hlast : c.getLastD 0 = a + w * ((n + 1 : Nat) : K) := by
    rw [hc, hn, List.range_succ]
    simp
  have hmap : c.flatMap (fun x => [x - w * (1 / 2), x - w * (1 / 2)]) ++ [c.getLastD 0 + w * (1 / 2), c.getLastD 0 + w * (1 / 2)] =
      ((List.range (data.length + 1)).map (fun i : Nat => a + w * i - w / 2)).flatMap (fun x => [x, x]) := by
    rw [hlast, hc, List.range_succ (n := data.length), List.map_append, List.flatMap_append, List.flatMap_map, List.flatMap_map, hn]
    simp only [List.map_cons, List.map_nil, List.flatMap_cons, List.flatMap_nil, List.append_nil]
    congr 1
    · congr 1
      funext x
      simp only [List.cons.injEq, and_true]
      constructor <;> ring
    · simp only [List.cons.injEq, and_true]
      constructor <;> (push_cast; field_simp; ring)
  rw [← hmap, ← hc]
  unfold stepped
  dsimp only
  rw [if_neg (by omega)]
  rw [h0]
  simp only [List.length_cons, List.length_map, List.length_range]
  rw [if_pos (by omega)]
  simp only [bind, Except.bind, pure, Except.pure]
  have hdx : a + w * ((1 : Nat) : K) - (a + w * ((0 : Nat) : K)) = w := by push_cast; ring
  rw [hdx]

omit [LinearOrder K] [IsStrictOrderedRing K] in
/-- Disagreement (C118): a histogram of one bin given by its center can not be drawn: the width is taken from the first two centers -/
theorem one_bin_fails (v c : K) : stepped [v] [c] = .error .index := by
  unfold stepped
  simp

/-- Disagreement (C118): centers of unequal widths: the bins drawn are as wide as the first -/
theorem unequal_fails : stepped [(1 : ℚ), 1] [0, 1] = stepped [(1 : ℚ), 1] [-1/2, 1/2, 3/2] ∧
    stepped [(1 : ℚ), 1, 1] [0, 1, 3] = stepped [(1 : ℚ), 1, 1] [-1/2, 1/2, 5/2, 7/2] := by decide +kernel

/-! ### examples -/

example {pinv : (w q : Nat) → Matrix (Fin w) (Fin q) ℚ → Matrix (Fin q) (Fin w) ℚ} (hp : Pseudo pinv) :
    savgol pinv [0, 3, 0, 3, 6] 3 1 0 = .ok [0, 1, 2, 3, 6] := by
  have h := savgol_three hp [0, 3, 0, 3, 6] 0
  simp only [Fin.val_zero] at h
  rw [h]
  decide +kernel

example : stepped [(3 : ℚ), 5] [0, 1, 4] = .ok [(0, 0), (0, 3), (1, 3), (1, 5), (4, 5), (4, 0)] ∧
    area [((0 : ℚ), (0 : ℚ)), (0, 3), (1, 3), (1, 5), (4, 5), (4, 0)] = 18 := by decide +kernel

end Mass.Stat.Savgol
