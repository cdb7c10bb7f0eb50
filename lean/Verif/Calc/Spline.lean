import Verif.Py
import Mathlib.Algebra.Order.Field.Basic
import Mathlib.Algebra.Order.Field.Rat
import Mathlib.Data.List.Sort
import Mathlib.Tactic.Ring
import Mathlib.Tactic.FieldSimp
import Mathlib.Tactic.Linarith
import Mathlib.Tactic.LinearCombination
import Mathlib.Tactic.NormNum
import Mathlib.Tactic.Positivity
import Mathlib.Analysis.Calculus.Deriv.Pow
import Mathlib.Analysis.Calculus.Deriv.Mul
import Mathlib.Analysis.Calculus.Deriv.Add
import Mathlib.Analysis.Calculus.Deriv.Inv
/-! C39: cubic splines (mass/mathstat/interpolate.py, class CubicSpline). Exact arithmetic: the model is over any ordered field (examples in ℚ); the theorems about
derivatives are over ℝ. -/
namespace Mass.Calc
set_option linter.unusedSectionVars false
variable {K : Type} [Field K] [LinearOrder K] [IsStrictOrderedRing K]

/-- interpolate.py L91-113, the forward loop: the values of y2[i] and u[i] when it has passed i (0 ≤ i ≤ n-2). `x`, `y` are the sorted data, `yp1` the given
slope at the start. -/
def fwd (x y : Nat → K) (yp1 : Option K) : Nat → K × K
  | 0 => match yp1 with
    | none => (0, 0)
    | some s => (-(1 / 2), 3 / (x 1 - x 0) * ((y 1 - y 0) / (x 1 - x 0) - s))
  | i + 1 =>
    let prev := fwd x y yp1 i
    let du := (y (i + 2) - y (i + 1)) / (x (i + 2) - x (i + 1)) - (y (i + 1) - y i) / (x (i + 1) - x i)
    let sig := (x (i + 1) - x i) / (x (i + 2) - x i)
    let p := sig * prev.1 + 2
    ((sig - 1) / p, (6 * du / (x (i + 2) - x i) - sig * prev.2) / p)

/-- interpolate.py L115-121: y2[n-1] -/
def lastY2 (x y : Nat → K) (n : Nat) (yp1 ypN : Option K) : K :=
  let f := fwd x y yp1 (n - 2)
  match ypN with
  | none => (0 - 0 * f.2) / (0 * f.1 + 1)
  | some s =>
    let un := 3 / (x (n - 1) - x (n - 2)) * (s - (y (n - 1) - y (n - 2)) / (x (n - 1) - x (n - 2)))
    (un - 1 / 2 * f.2) / (1 / 2 * f.1 + 1)

/-- interpolate.py L123-125, the backward loop: `back j` is y2[n-1-j] -/
def back (x y : Nat → K) (n : Nat) (yp1 ypN : Option K) : Nat → K
  | 0 => lastY2 x y n yp1 ypN
  | j + 1 =>
    let f := fwd x y yp1 (n - 2 - j)
    f.1 * back x y n yp1 ypN j + f.2

/-- The object: sorted data, second derivatives at the knots, end slopes (used for interpolate.py L87-133) -/
structure Spline (K : Type) where
  n : Nat
  x : Nat → K
  y : Nat → K
  y2 : Nat → K
  yp1 : K
  ypN : K

/-- interpolate.py L87-133 `_compute_y2` on sorted data -/
def compute (x y : Nat → K) (n : Nat) (yp1 ypN : Option K) : Spline K :=
  let y2 : Nat → K := fun k => back x y n yp1 ypN (n - 1 - k)
  ⟨n, x, y, y2,
    match yp1 with
    | none => (y 1 - y 0) / (x 1 - x 0) - (x 1 - x 0) * (y2 0 / 3 + y2 1 / 6)
    | some s => s,
    match ypN with
    | none => (y (n - 1) - y (n - 2)) / (x (n - 1) - x (n - 2)) + (x (n - 1) - x (n - 2)) * (y2 (n - 2) / 6 + y2 (n - 1) / 3)
    | some s => s⟩

/-- interpolate.py L63-85 `__init__`: sort by x (for distinct x every sorting method gives the same), compute. Fewer than two points: IndexError at u[0]. -/
def mkSpline (pts : List (K × K)) (yp1 ypN : Option K) : Except Exc (Spline K) :=
  if pts.length < 2 then .error .index
  else
    let s := pts.insertionSort (fun a b => a.1 ≤ b.1)
    .ok (compute (fun i => (s.getD i (0, 0)).1) (fun i => (s.getD i (0, 0)).2) pts.length yp1 ypN)

/-- np.searchsorted(x[:n], t) (side left): how many of the first n knots are below t (used for interpolate.py L135-193) -/
def cnt (x : Nat → K) (t : K) : Nat → Nat
  | 0 => 0
  | k + 1 => cnt x t k + if x k < t then 1 else 0

/-- interpolate.py L144-188, one point, given its number m = position + 1: extrapolation below (m = 0), above (m = n), or interval m-1. der ≥ 0. -/
def piece (S : Spline K) (m der : Nat) (t : K) : K :=
  if m = 0 then
    if der = 0 then S.y 0 + (t - S.x 0) * S.yp1 else if der = 1 then S.yp1 else 0
  else if S.n ≤ m then
    if der = 0 then S.y (S.n - 1) + (t - S.x (S.n - 1)) * S.ypN else if der = 1 then S.ypN else 0
  else
    let k := m - 1
    let dx := S.x (k + 1) - S.x k
    let a := (S.x (k + 1) - t) / dx
    let b := (t - S.x k) / dx
    if der = 0 then a * S.y k + b * S.y (k + 1) + ((a ^ 3 - a) * S.y2 k + (b ^ 3 - b) * S.y2 (k + 1)) * dx * dx / 6
    else if der = 1 then -S.y k / dx + S.y (k + 1) / dx + ((-a ^ 2 + 1 / 3) * S.y2 k + (b ^ 2 - 1 / 3) * S.y2 (k + 1)) * dx / 2
    else if der = 2 then a * S.y2 k + b * S.y2 (k + 1)
    else if der = 3 then (-S.y2 k + S.y2 (k + 1)) * dx
    else 0

/-- interpolate.py L135-193 `__call__` for one point -/
def eval (S : Spline K) (t : K) (der : Nat) : K := piece S (cnt S.x t S.n) der t

/-! ### searchsorted -/

theorem cnt_le (x : Nat → K) (t : K) (n : Nat) : cnt x t n ≤ n := by
  induction n with
  | zero => exact le_refl _
  | succ n ih => unfold cnt; split <;> omega

theorem cnt_eq (x : Nat → K) (t : K) (n m : Nat) (hm : m ≤ n) (hlo : ∀ i, i < m → x i < t) (hhi : ∀ i, m ≤ i → i < n → t ≤ x i) : cnt x t n = m := by
  induction n generalizing m with
  | zero => unfold cnt; omega
  | succ n ih =>
    unfold cnt
    by_cases h : m = n + 1
    · subst h
      rw [ih n (le_refl _) (fun i hi => hlo i (by omega)) (fun i h1 h2 => by omega), if_pos (hlo n (by omega))]
    · rw [ih m (by omega) hlo (fun i h1 h2 => hhi i h1 (by omega)), if_neg (not_lt.2 (hhi n (by omega) (by omega)))]
      rfl

/-- increasing knots [specification] -/
def Inc (x : Nat → K) (n : Nat) : Prop := ∀ i j, i < j → j < n → x i < x j

theorem cnt_spec (x : Nat → K) (t : K) (n : Nat) (hx : Inc x n) : (∀ i, i < cnt x t n → x i < t) ∧ ∀ i, cnt x t n ≤ i → i < n → t ≤ x i := by
  induction n with
  | zero => exact ⟨fun i hi => by unfold cnt at hi; omega, fun i _ h => by omega⟩
  | succ n ih =>
    have ih := ih (fun i j h1 h2 => hx i j h1 (by omega))
    have hle := cnt_le x t n
    unfold cnt
    by_cases h : x n < t
    · rw [if_pos h]
      have hall : cnt x t n = n := by
        by_contra hc
        have := ih.2 (cnt x t n) (le_refl _) (by omega)
        have := hx (cnt x t n) n (by omega) (by omega)
        linarith
      rw [hall]
      refine ⟨fun i hi => ?_, fun i h1 h2 => by omega⟩
      by_cases hin : i = n
      · subst hin; exact h
      · exact ih.1 i (by omega)
    · rw [if_neg h, Nat.add_zero]
      refine ⟨ih.1, fun i h1 h2 => ?_⟩
      by_cases hin : i = n
      · subst hin; exact not_lt.1 h
      · exact ih.2 i h1 (by omega)

/-! ### The tridiagonal system -/

theorem fwd_range (x y : Nat → K) (n : Nat) (hx : Inc x n) (yp1 : Option K) : ∀ i, i + 1 < n → -1 < (fwd x y yp1 i).1 ∧ (fwd x y yp1 i).1 ≤ 0 := by
  intro i
  induction i with
  | zero =>
    intro _
    unfold fwd
    cases yp1 with
    | none => exact ⟨by norm_num, le_refl _⟩
    | some s => exact ⟨by norm_num, by norm_num⟩
  | succ i ih =>
    intro hi
    obtain ⟨h1, h2⟩ := ih (by omega)
    unfold fwd
    dsimp only
    have ha := hx i (i + 1) (by omega) (by omega)
    have hb := hx (i + 1) (i + 2) (by omega) (by omega)
    have hd : 0 < x (i + 2) - x i := by linarith
    have hs0 : 0 < (x (i + 1) - x i) / (x (i + 2) - x i) := div_pos (by linarith) hd
    have hs1 : (x (i + 1) - x i) / (x (i + 2) - x i) < 1 := by rw [div_lt_one hd]; linarith
    generalize (x (i + 1) - x i) / (x (i + 2) - x i) = sig at *
    generalize (fwd x y yp1 i).1 = q at *
    have hp : 1 < sig * q + 2 := by nlinarith
    constructor
    · rw [lt_div_iff₀ (by linarith)]; linarith
    · exact div_nonpos_of_nonpos_of_nonneg (by linarith) (by linarith)

section
variable {x y : Nat → K} {n : Nat} {yp1 ypN : Option K}

/-- second derivatives at the knots -/
theorem y2_rec (hn : 2 ≤ n) (k : Nat) (hk : k + 1 < n) :
    (compute x y n yp1 ypN).y2 k = (fwd x y yp1 k).1 * (compute x y n yp1 ypN).y2 (k + 1) + (fwd x y yp1 k).2 := by
  show back x y n yp1 ypN (n - 1 - k) = _ * back x y n yp1 ypN (n - 1 - (k + 1)) + _
  have e : n - 1 - k = (n - 1 - (k + 1)) + 1 := by omega
  rw [e]
  have e2 : n - 2 - (n - 1 - (k + 1)) = k := by omega
  conv_lhs => unfold back
  dsimp only
  rw [e2]

theorem tridiag (hn : 2 ≤ n) (hx : Inc x n) (i : Nat) (hi : i + 2 < n) :
    (x (i + 1) - x i) * (compute x y n yp1 ypN).y2 i + 2 * (x (i + 2) - x i) * (compute x y n yp1 ypN).y2 (i + 1)
      + (x (i + 2) - x (i + 1)) * (compute x y n yp1 ypN).y2 (i + 2)
      = 6 * ((y (i + 2) - y (i + 1)) / (x (i + 2) - x (i + 1)) - (y (i + 1) - y i) / (x (i + 1) - x i)) := by
  have e1 := y2_rec (x := x) (y := y) (yp1 := yp1) (ypN := ypN) hn i (by omega)
  have e2 := y2_rec (x := x) (y := y) (yp1 := yp1) (ypN := ypN) hn (i + 1) (by omega)
  have hr := fwd_range x y n hx yp1 i (by omega)
  have ha := hx i (i + 1) (by omega) (by omega)
  have hb := hx (i + 1) (i + 2) (by omega) (by omega)
  have hd : x (i + 2) - x i ≠ 0 := by intro h; linarith
  rw [show (i + 1 + 1) = i + 2 from rfl] at e2
  generalize (compute x y n yp1 ypN).y2 i = m0 at *
  generalize (compute x y n yp1 ypN).y2 (i + 1) = m1 at *
  generalize (compute x y n yp1 ypN).y2 (i + 2) = m2 at *
  have hf : fwd x y yp1 (i + 1) =
      ((((x (i + 1) - x i) / (x (i + 2) - x i)) - 1) / (((x (i + 1) - x i) / (x (i + 2) - x i)) * (fwd x y yp1 i).1 + 2),
       (6 * ((y (i + 2) - y (i + 1)) / (x (i + 2) - x (i + 1)) - (y (i + 1) - y i) / (x (i + 1) - x i)) / (x (i + 2) - x i)
          - ((x (i + 1) - x i) / (x (i + 2) - x i)) * (fwd x y yp1 i).2) / (((x (i + 1) - x i) / (x (i + 2) - x i)) * (fwd x y yp1 i).1 + 2)) := rfl
  rw [hf] at e2
  dsimp only at e2
  have hs0 : 0 < (x (i + 1) - x i) / (x (i + 2) - x i) := div_pos (by linarith) (by linarith)
  have hs1 : (x (i + 1) - x i) / (x (i + 2) - x i) < 1 := by rw [div_lt_one (by linarith)]; linarith
  have hsd : (x (i + 1) - x i) / (x (i + 2) - x i) * (x (i + 2) - x i) = x (i + 1) - x i := div_mul_cancel₀ _ hd
  generalize (x (i + 1) - x i) / (x (i + 2) - x i) = sig at *
  generalize (fwd x y yp1 i).1 = q at *
  generalize (fwd x y yp1 i).2 = u at *
  have hp : sig * q + 2 ≠ 0 := by have : 1 < sig * q + 2 := by nlinarith
                                  linarith
  generalize hD : (y (i + 2) - y (i + 1)) / (x (i + 2) - x (i + 1)) - (y (i + 1) - y i) / (x (i + 1) - x i) = D at *
  -- p m1 = (sig - 1) m2 + 6 D / d - sig u
  have e3 : (sig * q + 2) * m1 = (sig - 1) * m2 + (6 * D / (x (i + 2) - x i) - sig * u) := by
    rw [e2]; field_simp
  have e4 : 6 * D / (x (i + 2) - x i) * (x (i + 2) - x i) = 6 * D := div_mul_cancel₀ _ hd
  rw [e1]
  linear_combination (x (i + 2) - x i) * e3 + e4 - (q * m1 + u + -m2) * hsd

/-- C39. The start slope: what was given, or natural (second derivative 0). In both cases the first interval's slope at the first knot is the slope used below. -/
theorem start_slope (hn : 2 ≤ n) (hx : Inc x n) :
    (compute x y n yp1 ypN).yp1 = (y 1 - y 0) / (x 1 - x 0) - (x 1 - x 0) * ((compute x y n yp1 ypN).y2 0 / 3 + (compute x y n yp1 ypN).y2 1 / 6) := by
  cases yp1 with
  | none => rfl
  | some s =>
    show s = _
    have e1 := y2_rec (x := x) (y := y) (yp1 := some s) (ypN := ypN) hn 0 (by omega)
    have h0 := hx 0 1 (by omega) (by omega)
    have hd : x 1 - x 0 ≠ 0 := by intro h; linarith
    have hf : fwd x y (some s) 0 = (-(1 / 2), 3 / (x 1 - x 0) * ((y 1 - y 0) / (x 1 - x 0) - s)) := rfl
    rw [hf] at e1
    dsimp only at e1
    rw [e1]
    generalize (compute x y n (some s) ypN).y2 (0 + 1) = m
    field_simp
    ring

theorem natural_start (hn : 2 ≤ n) : (compute x y n none ypN).y2 0 = 0 := by
  rw [y2_rec hn 0 (by omega)]
  show (0 : K) * _ + 0 = 0
  ring

theorem natural_end : (compute x y n yp1 none).y2 (n - 1) = 0 := by
  show back x y n yp1 none (n - 1 - (n - 1)) = 0
  rw [Nat.sub_self]
  show (0 - 0 * _) / (0 * _ + 1) = (0 : K)
  simp

theorem end_slope (hn : 2 ≤ n) (hx : Inc x n) :
    (compute x y n yp1 ypN).ypN = (y (n - 1) - y (n - 2)) / (x (n - 1) - x (n - 2))
      + (x (n - 1) - x (n - 2)) * ((compute x y n yp1 ypN).y2 (n - 2) / 6 + (compute x y n yp1 ypN).y2 (n - 1) / 3) := by
  cases ypN with
  | none => rfl
  | some s =>
    show s = _
    have e1 := y2_rec (x := x) (y := y) (yp1 := yp1) (ypN := some s) hn (n - 2) (by omega)
    have e0 : n - 2 + 1 = n - 1 := by omega
    rw [e0] at e1
    have h0 := hx (n - 2) (n - 1) (by omega) (by omega)
    have hr := fwd_range x y n hx yp1 (n - 2) (by omega)
    have hd : x (n - 1) - x (n - 2) ≠ 0 := by intro h; linarith
    have hl : (compute x y n yp1 (some s)).y2 (n - 1)
        = (3 / (x (n - 1) - x (n - 2)) * (s - (y (n - 1) - y (n - 2)) / (x (n - 1) - x (n - 2))) - 1 / 2 * (fwd x y yp1 (n - 2)).2) / (1 / 2 * (fwd x y yp1 (n - 2)).1 + 1) := by
      show back x y n yp1 (some s) (n - 1 - (n - 1)) = _
      rw [Nat.sub_self]
      rfl
    generalize (compute x y n yp1 (some s)).y2 (n - 1) = m at *
    generalize (compute x y n yp1 (some s)).y2 (n - 2) = m' at *
    generalize (fwd x y yp1 (n - 2)).1 = q at *
    generalize (fwd x y yp1 (n - 2)).2 = u at *
    have hq : 1 / 2 * q + 1 ≠ 0 := by have := hr.1; intro h; linarith
    have e2 : m * (1 / 2 * q + 1) = 3 / (x (n - 1) - x (n - 2)) * (s - (y (n - 1) - y (n - 2)) / (x (n - 1) - x (n - 2))) - 1 / 2 * u := by
      rw [hl, div_mul_cancel₀ _ hq]
    have e3 : m + 1 / 2 * m' = 3 / (x (n - 1) - x (n - 2)) * (s - (y (n - 1) - y (n - 2)) / (x (n - 1) - x (n - 2))) := by
      rw [e1]; linear_combination e2
    have e4 : (x (n - 1) - x (n - 2)) * (m + 1 / 2 * m') = 3 * (s - (y (n - 1) - y (n - 2)) / (x (n - 1) - x (n - 2))) := by
      rw [e3]; field_simp
    linear_combination -(1 / 3) * e4

end

/-! ### Values at the knots -/

theorem piece_left (S : Spline K) (m : Nat) (h0 : 0 < m) (hm : m < S.n) (hx : Inc S.x S.n) : piece S m 0 (S.x (m - 1)) = S.y (m - 1) := by
  obtain ⟨k, rfl⟩ : ∃ k, m = k + 1 := ⟨m - 1, by omega⟩
  have h := hx k (k + 1) (by omega) hm
  have hd : S.x (k + 1) - S.x k ≠ 0 := by intro h; linarith
  unfold piece
  rw [if_neg (by omega), if_neg (by omega)]
  dsimp only
  rw [if_pos rfl, Nat.add_sub_cancel, div_self hd, sub_self, zero_div]
  ring

theorem piece_right (S : Spline K) (m : Nat) (h0 : 0 < m) (hm : m < S.n) (hx : Inc S.x S.n) : piece S m 0 (S.x m) = S.y m := by
  obtain ⟨k, rfl⟩ : ∃ k, m = k + 1 := ⟨m - 1, by omega⟩
  have h := hx k (k + 1) (by omega) hm
  have hd : S.x (k + 1) - S.x k ≠ 0 := by intro h; linarith
  unfold piece
  rw [if_neg (by omega), if_neg (by omega)]
  dsimp only
  rw [if_pos rfl, Nat.add_sub_cancel, div_self hd, sub_self, zero_div]
  ring

theorem piece_low (S : Spline K) : piece S 0 0 (S.x 0) = S.y 0 := by
  unfold piece
  rw [if_pos rfl, if_pos rfl]
  ring

theorem piece_high (S : Spline K) (hn : 0 < S.n) : piece S S.n 0 (S.x (S.n - 1)) = S.y (S.n - 1) := by
  unfold piece
  rw [if_neg (by omega), if_pos (le_refl _), if_pos rfl]
  ring

/-- both pieces that meet at knot k have the data value there -/
theorem pieces_meet (S : Spline K) (hn : 2 ≤ S.n) (hx : Inc S.x S.n) (k : Nat) (hk : k < S.n) :
    piece S k 0 (S.x k) = S.y k ∧ piece S (k + 1) 0 (S.x k) = S.y k := by
  constructor
  · by_cases h : k = 0
    · subst h; exact piece_low S
    · exact piece_right S k (by omega) hk hx
  · by_cases h : k + 1 = S.n
    · have := piece_high S (by omega)
      rw [← h, Nat.add_sub_cancel] at this
      rw [this]
    · exact piece_left S (k + 1) (by omega) (by omega) hx

theorem cnt_knot (S : Spline K) (hx : Inc S.x S.n) (k : Nat) (hk : k < S.n) : cnt S.x (S.x k) S.n = k := by
  refine cnt_eq _ _ _ _ (by omega) (fun i hi => hx i k hi hk) (fun i h1 h2 => ?_)
  rcases Nat.lt_or_ge k i with h | h
  · exact le_of_lt (hx k i h h2)
  · obtain rfl : i = k := by omega
    exact le_refl _

/-- the sorted data have increasing x -/
theorem sorted_inc (pts : List (K × K)) (hnd : (pts.map Prod.fst).Nodup) :
    Inc (fun i => ((pts.insertionSort (fun a b => a.1 ≤ b.1)).getD i (0, 0)).1) pts.length := by
  set s := pts.insertionSort (fun a b => a.1 ≤ b.1) with hs
  have hperm : s.Perm pts := List.perm_insertionSort _ _
  have hsort : s.Pairwise (fun a b => a.1 ≤ b.1) := by
    have : IsTotal (K × K) (fun a b => a.1 ≤ b.1) := ⟨fun a b => le_total a.1 b.1⟩
    have : IsTrans (K × K) (fun a b => a.1 ≤ b.1) := ⟨fun a b c h1 h2 => le_trans h1 h2⟩
    exact List.pairwise_insertionSort _ _
  have hnd' : (s.map Prod.fst).Nodup := (hperm.map Prod.fst).nodup_iff.2 hnd
  have hlen : s.length = pts.length := hperm.length_eq
  intro i j hij hj
  dsimp only
  have hi' : i < s.length := by omega
  have hj' : j < s.length := by omega
  rw [List.getD_eq_getElem?_getD, List.getD_eq_getElem?_getD, List.getElem?_eq_getElem hi', List.getElem?_eq_getElem hj']
  show s[i].1 < s[j].1
  refine lt_of_le_of_ne (List.pairwise_iff_getElem.1 hsort i j hi' hj' hij) ?_
  intro he
  have := (List.nodup_iff_injective_get.1 hnd') (a₁ := ⟨i, by simpa using hi'⟩) (a₂ := ⟨j, by simpa using hj'⟩) (by simpa using he)
  simp at this
  omega

/-- C39. The spline passes through every data point, in whatever order the points were given. -/
theorem spline_interpolates {pts : List (K × K)} {yp1 ypN : Option K} {S : Spline K} (h : mkSpline pts yp1 ypN = .ok S) (hnd : (pts.map Prod.fst).Nodup) :
    ∀ p ∈ pts, eval S p.1 0 = p.2 := by
  have hinc := sorted_inc pts hnd
  unfold mkSpline at h
  split at h
  · exact absurd h (by simp)
  · rename_i hn
    dsimp only at h
    injection h with h
    intro p hp
    set s := pts.insertionSort (fun a b => a.1 ≤ b.1) with hs
    have hperm : s.Perm pts := List.perm_insertionSort _ _
    obtain ⟨k, hk, hpk⟩ := List.getElem_of_mem (hperm.mem_iff.2 hp)
    have hlen : s.length = pts.length := hperm.length_eq
    have hSn : S.n = pts.length := by rw [← h]; rfl
    have hSx : S.x = fun i => (s.getD i (0, 0)).1 := by rw [← h]; rfl
    have hSy : S.y = fun i => (s.getD i (0, 0)).2 := by rw [← h]; rfl
    have hx : Inc S.x S.n := by rw [hSx, hSn]; exact hinc
    have hg : s.getD k (0, 0) = p := by rw [List.getD_eq_getElem?_getD, List.getElem?_eq_getElem hk]; exact hpk
    have e1 : p.1 = S.x k := by rw [hSx]; dsimp only; rw [hg]
    have e2 : p.2 = S.y k := by rw [hSy]; dsimp only; rw [hg]
    rw [e1, e2]
    unfold eval
    rw [cnt_knot S hx k (by omega)]
    exact (pieces_meet S (by omega) hx k (by omega)).1

/-! ### Straight lines -/

theorem fwd_line (x y : Nat → K) (n : Nat) (hx : Inc x n) (a b : K) (hy : ∀ i, i < n → y i = a * x i + b) (yp1 : Option K) (hs : ∀ s, yp1 = some s → s = a) :
    ∀ i, i + 1 < n → (fwd x y yp1 i).2 = 0 := by
  have hslope : ∀ i, i + 1 < n → (y (i + 1) - y i) / (x (i + 1) - x i) = a := by
    intro i hi
    have := hx i (i + 1) (by omega) hi
    have hd : x (i + 1) - x i ≠ 0 := by intro h; linarith
    rw [hy _ hi, hy i (by omega)]
    field_simp
    ring
  intro i
  induction i with
  | zero =>
    intro hi
    unfold fwd
    cases yp1 with
    | none => rfl
    | some s =>
      show 3 / (x 1 - x 0) * ((y 1 - y 0) / (x 1 - x 0) - s) = 0
      rw [hs s rfl, show (y 1 - y 0) / (x 1 - x 0) = a from hslope 0 hi, sub_self, mul_zero]
  | succ i ih =>
    intro hi
    unfold fwd
    dsimp only
    rw [ih (by omega), show (y (i + 2) - y (i + 1)) / (x (i + 2) - x (i + 1)) = a from hslope (i + 1) hi, hslope i (by omega)]
    simp

theorem y2_line (x y : Nat → K) (n : Nat) (hn : 2 ≤ n) (hx : Inc x n) (a b : K) (hy : ∀ i, i < n → y i = a * x i + b) (yp1 ypN : Option K) (hs : ∀ s, yp1 = some s → s = a)
    (hs' : ∀ s, ypN = some s → s = a) : ∀ j, j < n → back x y n yp1 ypN j = 0 := by
  intro j
  induction j with
  | zero =>
    intro _
    unfold back lastY2
    dsimp only
    have h0 := fwd_line x y n hx a b hy yp1 hs (n - 2) (by omega)
    cases ypN with
    | none => dsimp only; simp
    | some s =>
      dsimp only
      rw [h0, hs' s rfl]
      have := hx (n - 2) (n - 1) (by omega) (by omega)
      have hd : x (n - 1) - x (n - 2) ≠ 0 := by intro h; linarith
      have : (y (n - 1) - y (n - 2)) / (x (n - 1) - x (n - 2)) = a := by
        rw [hy (n - 1) (by omega), hy (n - 2) (by omega)]
        field_simp
        ring
      rw [this]
      simp
  | succ j ih =>
    intro hj
    unfold back
    dsimp only
    rw [ih (by omega), fwd_line x y n hx a b hy yp1 hs (n - 2 - j) (by omega)]
    ring

theorem eval_line (x y : Nat → K) (n : Nat) (hn : 2 ≤ n) (hx : Inc x n) (a b : K) (hy : ∀ i, i < n → y i = a * x i + b) (yp1 ypN : Option K) (hs : ∀ s, yp1 = some s → s = a)
    (hs' : ∀ s, ypN = some s → s = a) (t : K) : eval (compute x y n yp1 ypN) t 0 = a * t + b := by
  have hm : ∀ k, k < n → (compute x y n yp1 ypN).y2 k = 0 := fun k hk => y2_line x y n hn hx a b hy yp1 ypN hs hs' _ (by omega)
  have hslope : ∀ i, i + 1 < n → (y (i + 1) - y i) / (x (i + 1) - x i) = a := by
    intro i hi
    have := hx i (i + 1) (by omega) hi
    have hd : x (i + 1) - x i ≠ 0 := by intro h; linarith
    rw [hy _ hi, hy i (by omega)]
    field_simp
    ring
  have h1 := start_slope (x := x) (y := y) (yp1 := yp1) (ypN := ypN) hn hx
  have h2 := end_slope (x := x) (y := y) (yp1 := yp1) (ypN := ypN) hn hx
  rw [hm 0 (by omega), hm 1 (by omega), hslope 0 (by omega)] at h1
  have e : n - 2 + 1 = n - 1 := by omega
  have h3 := hslope (n - 2) (by omega)
  rw [e] at h3
  rw [hm (n - 1) (by omega), hm (n - 2) (by omega), h3] at h2
  unfold eval
  set c := cnt (compute x y n yp1 ypN).x t (compute x y n yp1 ypN).n with hc
  unfold piece
  have hN : (compute x y n yp1 ypN).n = n := rfl
  have hX : (compute x y n yp1 ypN).x = x := rfl
  have hY : (compute x y n yp1 ypN).y = y := rfl
  rw [hN, hX, hY]
  split
  · rw [if_pos rfl, h1, hy 0 (by omega)]; ring
  · split
    · rw [if_pos rfl, h2, hy (n - 1) (by omega)]; ring
    · rename_i c1 c2
      dsimp only
      rw [if_pos rfl]
      have e3 : c - 1 + 1 = c := by omega
      have := hx (c - 1) c (by omega) (by omega)
      rw [e3, hm (c - 1) (by omega), hm c (by omega), hy (c - 1) (by omega), hy c (by omega)]
      have hd : x c - x (c - 1) ≠ 0 := by intro h; linarith
      field_simp
      ring

/-- C39. Data on a straight line (with natural ends, or ends given the line's slope) are reproduced exactly everywhere, also outside the data. -/
theorem spline_line {pts : List (K × K)} {yp1 ypN : Option K} {S : Spline K} (h : mkSpline pts yp1 ypN = .ok S) (hnd : (pts.map Prod.fst).Nodup) (a b : K)
    (hline : ∀ p ∈ pts, p.2 = a * p.1 + b) (hs : ∀ s, yp1 = some s → s = a) (hs' : ∀ s, ypN = some s → s = a) (t : K) : eval S t 0 = a * t + b := by
  have hinc := sorted_inc pts hnd
  unfold mkSpline at h
  split at h
  · exact absurd h (by simp)
  · rename_i hn
    dsimp only at h
    injection h with h
    rw [← h]
    have hperm : (pts.insertionSort (fun a b => a.1 ≤ b.1)).Perm pts := List.perm_insertionSort _ _
    refine eval_line _ _ _ (by omega) hinc a b (fun i hi => ?_) yp1 ypN hs hs' t
    have hi' : i < (pts.insertionSort (fun a b => a.1 ≤ b.1)).length := by rw [hperm.length_eq]; exact hi
    have hmem : (pts.insertionSort (fun a b => a.1 ≤ b.1)).getD i (0, 0) ∈ pts := by
      rw [List.getD_eq_getElem?_getD, List.getElem?_eq_getElem hi']
      exact hperm.mem_iff.1 (List.getElem_mem hi')
    exact hline _ hmem

end Mass.Calc
