import Verif.Lin.PulseModel
import Mathlib.Algebra.Order.BigOperators.Ring.Finset
import Mathlib.LinearAlgebra.Matrix.Trace
import Mathlib.Tactic.Positivity
import Mathlib.Tactic.Linarith
/-! Singular values from random vectors, mass/mathstat/utilities.py find_range_randomly and find_svd_randomly: C163. Exact arithmetic. -/
namespace Mass.Lin.Rsvd
open Mass Mass.Lin.PM Matrix

variable {K : Type} [Field K] {m n l r s : ℕ}

/-- `Y` of `find_range_randomly` after `q` power iterations, mass/mathstat/utilities.py L190-194, for any random matrix Ω -/
def power (A : Matrix (Fin m) (Fin n) K) (Ω : Matrix (Fin n) (Fin l) K) : ℕ → Matrix (Fin m) (Fin l) K
  | 0 => A * Ω
  | q + 1 => A * (Aᵀ * power A Ω q)

/-- `find_range_randomly`, mass/mathstat/utilities.py L173-197: a negative `q` is refused; `qr` is `np.linalg.qr` (the first result, reduced form, `l` at most `m`) -/
def findRange (qr : Matrix (Fin m) (Fin l) K → Matrix (Fin m) (Fin l) K) (A : Matrix (Fin m) (Fin n) K) (Ω : Matrix (Fin n) (Fin l) K) (q : ℤ) : Except Exc (Matrix (Fin m) (Fin l) K) :=
  if q < 0 then .error .value else .ok (qr (power A Ω q.toNat))

/-- `find_svd_randomly`, mass/mathstat/utilities.py L200-212: `svd` is `np.linalg.svd(B, 0)` with `s = min(l, n)` singular values -/
def findSvd (qr : Matrix (Fin m) (Fin l) K → Matrix (Fin m) (Fin l) K) (svd : Matrix (Fin l) (Fin n) K → Matrix (Fin l) (Fin s) K × (Fin s → K) × Matrix (Fin s) (Fin n) K)
    (A : Matrix (Fin m) (Fin n) K) (Ω : Matrix (Fin n) (Fin l) K) (q : ℤ) : Except Exc (Matrix (Fin m) (Fin s) K × (Fin s → K) × Matrix (Fin s) (Fin n) K) :=
  match findRange qr A Ω q with
  | .error e => .error e
  | .ok Q => .ok (Q * (svd (Qᵀ * A)).1, (svd (Qᵀ * A)).2.1, (svd (Qᵀ * A)).2.2)

/-- what `np.linalg.qr` promises for Y: Y = Q R and the columns of Q are orthonormal [specification] -/
def QrOk (qr : Matrix (Fin m) (Fin l) K → Matrix (Fin m) (Fin l) K) (Y : Matrix (Fin m) (Fin l) K) : Prop := ∃ R, IsQR Y (qr Y) R

/-- what `np.linalg.svd` promises for B, as far as used here: B = u diag(w) v, and the columns of u and the rows of v are orthonormal [specification] -/
def SvdOk (svd : Matrix (Fin l) (Fin n) K → Matrix (Fin l) (Fin s) K × (Fin s → K) × Matrix (Fin s) (Fin n) K) (B : Matrix (Fin l) (Fin n) K) : Prop :=
  B = (svd B).1 * diagonal (svd B).2.1 * (svd B).2.2 ∧ (svd B).1ᵀ * (svd B).1 = 1 ∧ (svd B).2.2 * (svd B).2.2ᵀ = 1

/-- sum of the squares of the entries [specification] -/
def size2 (M : Matrix (Fin m) (Fin n) K) : K := ∑ i, ∑ j, M i j ^ 2

theorem power_range (C : Matrix (Fin m) (Fin r) K) (D : Matrix (Fin r) (Fin n) K) (Ω : Matrix (Fin n) (Fin l) K) (q : ℕ) :
    power (C * D) Ω q = C * ((D * Dᵀ * (Cᵀ * C)) ^ q * (D * Ω)) := by
  induction q with
  | zero => simp [power, Matrix.mul_assoc]
  | succ q ih =>
    rw [power, ih, pow_succ', transpose_mul]
    simp only [Matrix.mul_assoc]

theorem svd_parts (qr : Matrix (Fin m) (Fin l) K → Matrix (Fin m) (Fin l) K) (svd : Matrix (Fin l) (Fin n) K → Matrix (Fin l) (Fin s) K × (Fin s → K) × Matrix (Fin s) (Fin n) K)
    (A : Matrix (Fin m) (Fin n) K) (Ω : Matrix (Fin n) (Fin l) K) (q : ℤ) (hq : 0 ≤ q) (hsvd : SvdOk svd ((qr (power A Ω q.toNat))ᵀ * A)) (u : Matrix (Fin m) (Fin s) K) (w : Fin s → K) (v : Matrix (Fin s) (Fin n) K)
    (h : findSvd qr svd A Ω q = .ok (u, w, v)) : u * diagonal w * v = qr (power A Ω q.toNat) * ((qr (power A Ω q.toNat))ᵀ * A) := by
  unfold findSvd findRange at h
  rw [if_neg (by omega)] at h
  simp only [Except.ok.injEq, Prod.mk.injEq] at h
  obtain ⟨rfl, rfl, rfl⟩ := h
  rw [Matrix.mul_assoc, Matrix.mul_assoc, ← Matrix.mul_assoc (svd _).1, ← hsvd.1]

/-- C163. It works for every number of iterations that is not negative; the vectors of both sides are orthonormal. -/
theorem svd_orthonormal (qr : Matrix (Fin m) (Fin l) K → Matrix (Fin m) (Fin l) K) (svd : Matrix (Fin l) (Fin n) K → Matrix (Fin l) (Fin s) K × (Fin s → K) × Matrix (Fin s) (Fin n) K)
    (A : Matrix (Fin m) (Fin n) K) (Ω : Matrix (Fin n) (Fin l) K) (q : ℤ) (hqr : QrOk qr (power A Ω q.toNat)) (hsvd : SvdOk svd ((qr (power A Ω q.toNat))ᵀ * A)) :
    (q < 0 → findSvd qr svd A Ω q = .error .value) ∧ (0 ≤ q → ∃ u w v, findSvd qr svd A Ω q = .ok (u, w, v) ∧ uᵀ * u = 1 ∧ v * vᵀ = 1) := by
  refine ⟨fun hq => ?_, fun hq => ?_⟩
  · unfold findSvd findRange
    rw [if_pos hq]
  · unfold findSvd findRange
    rw [if_neg (by omega)]
    refine ⟨_, _, _, rfl, ?_, hsvd.2.2⟩
    obtain ⟨R, hR⟩ := hqr
    rw [transpose_mul, Matrix.mul_assoc, ← Matrix.mul_assoc _ (qr _), hR.2, Matrix.one_mul, hsvd.2.1]

/-- C163. A matrix whose rank r is not greater than the number of random vectors is decomposed exactly, for any number of iterations, unless the random vectors miss a part of it:
A = C D with r columns and rows, each independent, and D Ω has r independent rows. -/
theorem svd_exact (qr : Matrix (Fin m) (Fin l) K → Matrix (Fin m) (Fin l) K) (svd : Matrix (Fin l) (Fin n) K → Matrix (Fin l) (Fin s) K × (Fin s → K) × Matrix (Fin s) (Fin n) K)
    (C : Matrix (Fin m) (Fin r) K) (D : Matrix (Fin r) (Fin n) K) (Ω : Matrix (Fin n) (Fin l) K) (q : ℤ)
    (hC : IsUnit (Cᵀ * C).det) (hD : IsUnit (D * Dᵀ).det) (hΩ : ∃ Z : Matrix (Fin l) (Fin r) K, D * Ω * Z = 1) (hqr : QrOk qr (power (C * D) Ω q.toNat)) (hsvd : SvdOk svd ((qr (power (C * D) Ω q.toNat))ᵀ * (C * D))) (u : Matrix (Fin m) (Fin s) K) (w : Fin s → K) (v : Matrix (Fin s) (Fin n) K)
    (h : findSvd qr svd (C * D) Ω q = .ok (u, w, v)) : u * diagonal w * v = C * D := by
  have hq : 0 ≤ q := by
    by_contra hq
    unfold findSvd findRange at h
    rw [if_pos (by omega)] at h
    cases h
  rw [svd_parts qr svd (C * D) Ω q hq hsvd u w v h]
  obtain ⟨R, hR1, hR2⟩ := hqr
  set Q := qr (power (C * D) Ω q.toNat)
  obtain ⟨Z, hZ⟩ := hΩ
  have hM : IsUnit ((D * Dᵀ * (Cᵀ * C)) ^ q.toNat).det := by
    rw [det_pow, det_mul]
    exact (hD.mul hC).pow _
  have hCQ : C = Q * (R * (Z * ((D * Dᵀ * (Cᵀ * C)) ^ q.toNat)⁻¹)) := by
    rw [← Matrix.mul_assoc Q, hR1, power_range]
    generalize (D * Dᵀ * (Cᵀ * C)) ^ q.toNat = M at hM
    have : C * (M * (D * Ω)) * (Z * M⁻¹) = C * (M * (D * Ω * Z) * M⁻¹) := by simp only [Matrix.mul_assoc]
    rw [this, hZ, Matrix.mul_one, mul_nonsing_inv _ hM, Matrix.mul_one]
  generalize R * (Z * ((D * Dᵀ * (Cᵀ * C)) ^ q.toNat)⁻¹) = W at hCQ
  have : Qᵀ * C = W := by rw [hCQ, ← Matrix.mul_assoc, hR2, Matrix.one_mul]
  rw [← Matrix.mul_assoc Qᵀ, this, ← Matrix.mul_assoc, ← hCQ]

section ordered
variable [LinearOrder K] [IsStrictOrderedRing K]

theorem size2_trace (M : Matrix (Fin m) (Fin n) K) : size2 M = (Mᵀ * M).trace := by
  unfold size2 trace
  rw [Finset.sum_comm]
  refine Finset.sum_congr rfl fun j _ => ?_
  rw [diag_apply, mul_apply]
  exact Finset.sum_congr rfl fun i _ => by rw [transpose_apply]; ring

omit [Field K] [LinearOrder K] [IsStrictOrderedRing K] in
theorem size2_nonneg [Field K] [LinearOrder K] [IsStrictOrderedRing K] (M : Matrix (Fin m) (Fin n) K) : 0 ≤ size2 M :=
  Finset.sum_nonneg fun _ _ => Finset.sum_nonneg fun _ _ => sq_nonneg _

/-- C163. In any case the result is the best approximation by sums of the columns found to span the range: nothing made of the same columns is nearer. -/
theorem svd_best (qr : Matrix (Fin m) (Fin l) K → Matrix (Fin m) (Fin l) K) (svd : Matrix (Fin l) (Fin n) K → Matrix (Fin l) (Fin s) K × (Fin s → K) × Matrix (Fin s) (Fin n) K)
    (A : Matrix (Fin m) (Fin n) K) (Ω : Matrix (Fin n) (Fin l) K) (q : ℤ) (hqr : QrOk qr (power A Ω q.toNat)) (hsvd : SvdOk svd ((qr (power A Ω q.toNat))ᵀ * A)) (u : Matrix (Fin m) (Fin s) K) (w : Fin s → K) (v : Matrix (Fin s) (Fin n) K)
    (h : findSvd qr svd A Ω q = .ok (u, w, v)) :
    ∃ Q, findRange qr A Ω q = .ok Q ∧ ∀ X : Matrix (Fin l) (Fin n) K, size2 (A - u * diagonal w * v) ≤ size2 (A - Q * X) := by
  have hq : 0 ≤ q := by
    by_contra hq
    unfold findSvd findRange at h
    rw [if_pos (by omega)] at h
    cases h
  refine ⟨qr (power A Ω q.toNat), by unfold findRange; rw [if_neg (by omega)], fun X => ?_⟩
  rw [svd_parts qr svd A Ω q hq hsvd u w v h]
  obtain ⟨R, hR1, hR2⟩ := hqr
  set Q := qr (power A Ω q.toNat)
  have e : size2 (A - Q * X) = size2 (A - Q * (Qᵀ * A)) + size2 (Q * (Qᵀ * A - X)) := by
    rw [size2_trace, size2_trace, size2_trace, ← trace_add]
    have hs : A - Q * X = (A - Q * (Qᵀ * A)) + Q * (Qᵀ * A - X) := by rw [Matrix.mul_sub]; abel
    have h0 : Qᵀ * (A - Q * (Qᵀ * A)) = 0 := by rw [Matrix.mul_sub, ← Matrix.mul_assoc, hR2, Matrix.one_mul, sub_self]
    have h1 : (A - Q * (Qᵀ * A))ᵀ * Q = 0 := by
      have := congrArg transpose h0
      rwa [transpose_mul, transpose_transpose, transpose_zero] at this
    rw [hs, transpose_add, Matrix.add_mul, Matrix.mul_add, Matrix.mul_add, ← Matrix.mul_assoc _ Q, h1, Matrix.zero_mul, transpose_mul (M := Q), Matrix.mul_assoc _ Qᵀ, h0]
    simp
  rw [e]
  linarith [size2_nonneg (Q * (Qᵀ * A - X))]

end ordered

/-- a matrix of rank 1 and one random vector -/
example (C Ω Q : Matrix (Fin 2) (Fin 1) ℚ) (D V : Matrix (Fin 1) (Fin 2) ℚ) (hC : C = !![3; 4]) (hD : D = !![3, 4]) (hΩ : Ω = !![1; 0]) (hQ : Q = !![3 / 5; 4 / 5]) (hV : V = !![3 / 5, 4 / 5]) :
    QrOk (fun _ => Q) (power (C * D) Ω 1) ∧ SvdOk (fun _ => ((1 : Matrix (Fin 1) (Fin 1) ℚ), ![25], V)) (Qᵀ * (C * D)) ∧ IsUnit (Cᵀ * C).det ∧ IsUnit (D * Dᵀ).det ∧ D * Ω * !![1 / 3] = 1 ∧
    findSvd (fun _ => Q) (fun _ => ((1 : Matrix (Fin 1) (Fin 1) ℚ), ![25], V)) (C * D) Ω 1 = .ok (Q * (1 : Matrix (Fin 1) (Fin 1) ℚ), ![25], V) := by
  subst hC hD hΩ hQ hV
  refine ⟨⟨!![9375], ?_, ?_⟩, ⟨?_, ?_, ?_⟩, ?_, ?_, ?_, rfl⟩ <;> try rw [isUnit_iff_ne_zero]
  all_goals decide +kernel

end Mass.Lin.Rsvd
