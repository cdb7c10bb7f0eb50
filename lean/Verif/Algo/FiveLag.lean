import Verif.Py
import Mathlib.Algebra.BigOperators.Fin
import Mathlib.Algebra.Order.Field.Rat
import Mathlib.Tactic.Linarith
import Mathlib.Tactic.Ring
import Mathlib.Tactic.FieldSimp
import Mathlib.Tactic.Positivity
import Mathlib.Tactic.LinearCombination
/-! C32: five-lag filtering (mass/core/analysis_algorithms.pyx, mass/core/channel.py, mass/off/fivelag.py). Numbers are elements of a field; the code
uses float64. -/
namespace Mass.Algo
variable {K : Type}

/-! ### model -/

/-- `np.dot` of two vectors (shapes are checked by the callers) (used for channel.py L1424-1438) -/
def dot [Field K] : List K → List K → K
  | f :: fs, p :: ps => f * p + dot fs ps
  | _, _ => 0

/-- the five lagged products (used for analysis_algorithms.pyx L864-880) -/
structure Conv (K : Type) where
  c0 : K
  c1 : K
  c2 : K
  c3 : K
  c4 : K
  deriving DecidableEq

/-- analysis_algorithms.pyx L864-880: the loop over `k` (remaining filter values `fs`, remaining samples `ps`) with the running sums and the
last four filter values, and the closing part. Simplified: reading past the record (impossible when the lengths fit) gives `none`. -/
def lagLoop [Field K] (c : Conv K) (f0 f1 f2 f3 : K) : List K → List K → Option (Conv K)
  | f4 :: fs, s :: ps => lagLoop ⟨c.c0 + s * f4, c.c1 + s * f3, c.c2 + s * f2, c.c3 + s * f1, c.c4 + s * f0⟩ f1 f2 f3 f4 fs ps
  | [], [a, b, d, e] =>
    some ⟨c.c0, c.c1 + a * f3, c.c2 + (a * f2 + b * f3), c.c3 + (a * f1 + b * f2 + d * f3), c.c4 + (a * f0 + b * f1 + d * f2 + e * f3)⟩
  | _, _ => none

/-- analysis_algorithms.pyx L853-880: one record. `none`: the record has fewer than 8 samples or the filter does not have 4 fewer (the code then reads
outside its arrays: bounds checks are off). -/
def lagStream [Field K] (filter pulse : List K) : Option (Conv K) :=
  match filter, pulse with
  | f0 :: f1 :: f2 :: f3 :: fs, p0 :: p1 :: p2 :: p3 :: ps =>
    lagLoop ⟨p0 * f0 + p1 * f1 + p2 * f2 + p3 * f3, p1 * f0 + p2 * f1 + p3 * f2, p2 * f0 + p3 * f1, p3 * f0, 0⟩ f0 f1 f2 f3 fs ps
  | _, _ => none

/-- analysis_algorithms.pyx L882-884; channel.py L1419-1422, L1440; fivelag.py L14-17: the parabola coefficients (constant, linear, quadratic) -/
def parabola [Field K] (c : Conv K) : K × K × K :=
  (c.c0 * (-6 / 70) + c.c1 * (24 / 70) + c.c2 * (34 / 70) + c.c3 * (24 / 70) + c.c4 * (-6 / 70),
   c.c0 * (-14 / 70) + c.c1 * (-7 / 70) + c.c3 * (7 / 70) + c.c4 * (14 / 70),
   c.c0 * (10 / 70) + c.c1 * (-5 / 70) + c.c2 * (-10 / 70) + c.c3 * (-5 / 70) + c.c4 * (10 / 70))

/-- analysis_algorithms.pyx L886; channel.py L1441; fivelag.py L28-31 `peakX5Lag` -/
def peakX [Field K] (p : K × K × K) : K := -(1 / 2) * p.2.1 / p.2.2
/-- analysis_algorithms.pyx L887; channel.py L1442; fivelag.py L22-25 `filtValue5Lag` -/
def peakY [Field K] (p : K × K × K) : K := p.1 - 1 / 4 * p.2.1 ^ 2 / p.2.2

/-- channel.py L1424-1438 `_filter_data_segment_5lag` for one record without transform: five dot products with shifted slices; the assertion of L1424. -/
def lagDirect [Field K] (filter pulse : List K) : Except Exc (Conv K) :=
  if filter.length + 4 ≠ pulse.length then .error .assertion
  else
    let n := pulse.length - 4
    .ok ⟨dot (pulse.take n) filter, dot ((pulse.drop 1).take n) filter, dot ((pulse.drop 2).take n) filter,
      dot ((pulse.drop 3).take n) filter, dot (pulse.drop 4) filter⟩

/-- `np.matmul(v, m)` for a matrix given by its rows, each with `b` entries (used for fivelag.py L6-13) -/
def vecMat [Field K] {b : Nat} : List K → List (Fin b → K) → Fin b → K
  | f :: fs, r :: rs => fun i => f * r i + vecMat fs rs i
  | _, _ => fun _ => 0

/-- fivelag.py L6-13: row `j` of `filter_5lag_in_basis`; `basis[4:]` for `j = 4`, else `basis[j:j-4]` -/
def lagInBasis [Field K] {b : Nat} (filter : List K) (basis : List (Fin b → K)) (j : Nat) : Fin b → K :=
  if j = 4 then vecMat filter (basis.drop 4) else vecMat filter ((basis.drop j).take (basis.length - 4))

/-- off.py L178-197 `modeledPulse` / channels.py: a record modelled as `basis @ coefs` -/
def modelled [Field K] {b : Nat} (basis : List (Fin b → K)) (coefs : Fin b → K) : List K := basis.map (fun r => ∑ i, r i * coefs i)

/-- the five lagged products computed from the projection coefficients, `filter_5lag_in_basis @ coefs` (fivelag.py L6-13 applied to the coefficients) -/
def lagFromCoefs [Field K] {b : Nat} (filter : List K) (basis : List (Fin b → K)) (coefs : Fin b → K) : Conv K :=
  let r := fun j => ∑ i, lagInBasis filter basis j i * coefs i
  ⟨r 0, r 1, r 2, r 3, r 4⟩

/-! ### C32 -/

section
variable [Field K]

/-- lag `j`: the sum of `filter[k] * pulse[k + j]` over all `k` [specification] -/
def lag (filter pulse : List K) (j : Nat) : K := ∑ k : Fin filter.length, filter[k] * (pulse[(k : Nat) + j]?).getD 0

theorem dot_eq (f p : List K) : dot f p = ∑ k : Fin f.length, f[k] * (p[(k : Nat)]?).getD 0 := by
  induction f generalizing p with
  | nil => simp [dot]
  | cons a f ih =>
    cases p with
    | nil => simp [dot]
    | cons b p =>
      unfold dot
      rw [ih]
      show _ = ∑ k : Fin (f.length + 1), (a :: f)[k] * ((b :: p)[(k : Nat)]?).getD 0
      rw [Fin.sum_univ_succ]
      simp

theorem lag_eq (f p : List K) (j : Nat) : lag f p j = dot f (p.drop j) := by
  rw [dot_eq]
  unfold lag
  apply Finset.sum_congr rfl
  intro k _
  rw [List.getElem?_drop, Nat.add_comm]

theorem dot_comm (f p : List K) : dot f p = dot p f := by
  induction f generalizing p with
  | nil => cases p <;> simp [dot]
  | cons a f ih => cases p with
    | nil => simp [dot]
    | cons b p => simp only [dot]; rw [ih, mul_comm]

theorem dot_take (f p : List K) (n : Nat) (h : f.length ≤ n) : dot f (p.take n) = dot f p := by
  induction f generalizing p n with
  | nil => simp [dot]
  | cons a f ih =>
    cases p with
    | nil => simp
    | cons b p =>
      cases n with
      | zero => simp at h
      | succ n =>
        rw [List.take_succ_cons]
        simp only [dot]
        rw [ih p n (by simpa using h)]

theorem lagLoop_spec (fs ps : List K) (c : Conv K) (f0 f1 f2 f3 : K) (h : ps.length = fs.length + 4) :
    lagLoop c f0 f1 f2 f3 fs ps = some ⟨c.c0 + dot fs ps, c.c1 + dot (f3 :: fs) ps, c.c2 + dot (f2 :: f3 :: fs) ps,
      c.c3 + dot (f1 :: f2 :: f3 :: fs) ps, c.c4 + dot (f0 :: f1 :: f2 :: f3 :: fs) ps⟩ := by
  induction fs generalizing ps c f0 f1 f2 f3 with
  | nil =>
    match ps, h with
    | [a, b, d, e], _ =>
      simp only [lagLoop, dot, Option.some.injEq, Conv.mk.injEq]
      refine ⟨by ring, by ring, by ring, by ring, by ring⟩
  | cons f4 fs ih =>
    cases ps with
    | nil => simp at h
    | cons s ps =>
      rw [lagLoop, ih ps _ f1 f2 f3 f4 (by simpa using h)]
      simp only [dot, Option.some.injEq, Conv.mk.injEq]
      refine ⟨by ring, by ring, by ring, by ring, by ring⟩

/-- C32. The one-pass filter gives the five lagged sums, for every record of 8 or more samples. -/
theorem stream_eq_lags {filter pulse : List K} (h4 : 4 ≤ filter.length) (h : pulse.length = filter.length + 4) :
    lagStream filter pulse = some ⟨lag filter pulse 0, lag filter pulse 1, lag filter pulse 2, lag filter pulse 3, lag filter pulse 4⟩ := by
  match filter, pulse, h4, h with
  | f0 :: f1 :: f2 :: f3 :: fs, p0 :: p1 :: p2 :: p3 :: ps, _, h =>
    unfold lagStream
    dsimp only
    rw [lagLoop_spec fs ps _ _ _ _ _ (by simpa using h)]
    simp only [lag_eq, List.drop_succ_cons, List.drop_zero, dot, Option.some.injEq, Conv.mk.injEq]
    refine ⟨by ring, by ring, by ring, by ring, by ring⟩

/-- C32. The direct computation gives the same five sums; it refuses a filter of the wrong length. -/
theorem direct_eq_lags {filter pulse : List K} (h : pulse.length = filter.length + 4) :
    lagDirect filter pulse = .ok ⟨lag filter pulse 0, lag filter pulse 1, lag filter pulse 2, lag filter pulse 3, lag filter pulse 4⟩ := by
  unfold lagDirect
  rw [if_neg (by omega)]
  simp only [lag_eq, List.drop_zero, Except.ok.injEq, Conv.mk.injEq]
  have hn : filter.length ≤ pulse.length - 4 := by omega
  refine ⟨?_, ?_, ?_, ?_, ?_⟩
  all_goals rw [dot_comm]
  all_goals exact dot_take filter _ _ hn

theorem direct_refuses {filter pulse : List K} (h : pulse.length ≠ filter.length + 4) : lagDirect filter pulse = .error .assertion := by
  unfold lagDirect
  rw [if_pos (by omega)]

/-- C32. One pass and direct agree. -/
theorem stream_eq_direct {filter pulse : List K} (h4 : 4 ≤ filter.length) (h : pulse.length = filter.length + 4) :
    ∃ c, lagStream filter pulse = some c ∧ lagDirect filter pulse = .ok c :=
  ⟨_, stream_eq_lags h4 h, direct_eq_lags h⟩

theorem vecMat_dot {b : Nat} (f : List K) (rows : List (Fin b → K)) (coefs : Fin b → K) :
    ∑ i, vecMat f rows i * coefs i = dot f (modelled rows coefs) := by
  induction f generalizing rows with
  | nil => simp [vecMat, dot]
  | cons a f ih =>
    cases rows with
    | nil => simp [vecMat, dot, modelled]
    | cons r rows =>
      simp only [vecMat, modelled, List.map_cons, dot]
      have := ih rows
      unfold modelled at this
      rw [← this, Finset.mul_sum, ← Finset.sum_add_distrib]
      apply Finset.sum_congr rfl
      intro i _
      ring

/-- C32. The five products computed from OFF projection coefficients are the five lags of the modelled pulse. -/
theorem coefs_eq_lags {b : Nat} {filter : List K} {basis : List (Fin b → K)} (coefs : Fin b → K) (h : basis.length = filter.length + 4) :
    lagFromCoefs filter basis coefs = ⟨lag filter (modelled basis coefs) 0, lag filter (modelled basis coefs) 1, lag filter (modelled basis coefs) 2,
      lag filter (modelled basis coefs) 3, lag filter (modelled basis coefs) 4⟩ := by
  have hn : filter.length ≤ basis.length - 4 := by omega
  have key : ∀ j, ∑ i, lagInBasis filter basis j i * coefs i = lag filter (modelled basis coefs) j := by
    intro j
    rw [lag_eq]
    unfold lagInBasis
    have hd : (modelled basis coefs).drop j = modelled (basis.drop j) coefs := by simp [modelled, List.map_drop]
    split
    · rename_i hj
      subst hj
      rw [vecMat_dot, hd]
    · rw [vecMat_dot, hd]
      have : modelled ((basis.drop j).take (basis.length - 4)) coefs = (modelled (basis.drop j) coefs).take (basis.length - 4) := by
        simp [modelled, List.map_take]
      rw [this, dot_take filter _ _ hn]
  unfold lagFromCoefs
  simp only [key]

/-- the five points of the parabola `A (t - x)² + B` at t = -2 … 2 [specification] -/
def onParabola (A x B : K) : Conv K :=
  ⟨A * (-2 - x) ^ 2 + B, A * (-1 - x) ^ 2 + B, A * (0 - x) ^ 2 + B, A * (1 - x) ^ 2 + B, A * (2 - x) ^ 2 + B⟩

/-- C32. If the five products lie on a parabola with non-zero curvature, the reported phase and value are its vertex. -/
theorem vertex_exact [CharZero K] {A : K} (hA : A ≠ 0) (x B : K) :
    peakX (parabola (onParabola A x B)) = x ∧ peakY (parabola (onParabola A x B)) = B := by
  have e1 : (parabola (onParabola A x B)).1 = A * x ^ 2 + B := by unfold parabola onParabola; dsimp only; ring
  have e2 : (parabola (onParabola A x B)).2.1 = -2 * A * x := by unfold parabola onParabola; dsimp only; ring
  have e3 : (parabola (onParabola A x B)).2.2 = A := by unfold parabola onParabola; dsimp only; ring
  unfold peakX peakY
  rw [e1, e2, e3]
  constructor
  · field_simp
  · field_simp
    ring

end

section
variable [Field K] [LinearOrder K] [IsStrictOrderedRing K]

/-- sum of squared distances of the five points from the parabola c + b t + a t² [specification] -/
def misfit (d : Conv K) (c b a : K) : K :=
  (d.c0 - (c + b * (-2) + a * (-2) ^ 2)) ^ 2 + (d.c1 - (c + b * (-1) + a * (-1) ^ 2)) ^ 2 + (d.c2 - (c + b * 0 + a * 0 ^ 2)) ^ 2 +
    (d.c3 - (c + b * 1 + a * 1 ^ 2)) ^ 2 + (d.c4 - (c + b * 2 + a * 2 ^ 2)) ^ 2

/-- C32. For any five products the coefficients are the least-squares parabola, and the only one. -/
theorem parabola_least_squares (d : Conv K) (c b a : K) :
    misfit d (parabola d).1 (parabola d).2.1 (parabola d).2.2 ≤ misfit d c b a ∧
    (misfit d c b a ≤ misfit d (parabola d).1 (parabola d).2.1 (parabola d).2.2 → (c, b, a) = parabola d) := by
  have key : misfit d c b a = misfit d (parabola d).1 (parabola d).2.1 (parabola d).2.2 +
      (((parabola d).1 - c + ((parabola d).2.1 - b) * (-2) + ((parabola d).2.2 - a) * 4) ^ 2 +
       ((parabola d).1 - c + ((parabola d).2.1 - b) * (-1) + ((parabola d).2.2 - a) * 1) ^ 2 +
       ((parabola d).1 - c) ^ 2 +
       ((parabola d).1 - c + ((parabola d).2.1 - b) * 1 + ((parabola d).2.2 - a) * 1) ^ 2 +
       ((parabola d).1 - c + ((parabola d).2.1 - b) * 2 + ((parabola d).2.2 - a) * 4) ^ 2) := by
    unfold misfit parabola
    dsimp only
    ring
  constructor
  · rw [key]
    have : 0 ≤ (((parabola d).1 - c + ((parabola d).2.1 - b) * (-2) + ((parabola d).2.2 - a) * 4) ^ 2 +
       ((parabola d).1 - c + ((parabola d).2.1 - b) * (-1) + ((parabola d).2.2 - a) * 1) ^ 2 +
       ((parabola d).1 - c) ^ 2 +
       ((parabola d).1 - c + ((parabola d).2.1 - b) * 1 + ((parabola d).2.2 - a) * 1) ^ 2 +
       ((parabola d).1 - c + ((parabola d).2.1 - b) * 2 + ((parabola d).2.2 - a) * 4) ^ 2) := by positivity
    linarith
  · intro h
    rw [key] at h
    generalize hp : parabola d = p at *
    obtain ⟨p0, p1, p2⟩ := p
    dsimp only at h
    have s0 := sq_nonneg (p0 - c + (p1 - b) * (-2) + (p2 - a) * 4)
    have s1 := sq_nonneg (p0 - c + (p1 - b) * (-1) + (p2 - a) * 1)
    have s2 := sq_nonneg (p0 - c)
    have s3 := sq_nonneg (p0 - c + (p1 - b) * 1 + (p2 - a) * 1)
    have s4 := sq_nonneg (p0 - c + (p1 - b) * 2 + (p2 - a) * 4)
    have z2 : (p0 - c) ^ 2 = 0 := by linarith
    have z1 : (p0 - c + (p1 - b) * (-1) + (p2 - a) * 1) ^ 2 = 0 := by linarith
    have z3 : (p0 - c + (p1 - b) * 1 + (p2 - a) * 1) ^ 2 = 0 := by linarith
    rw [sq_eq_zero_iff] at z1 z2 z3
    have hb : b = p1 := by linarith
    have hc : c = p0 := by linarith
    have ha : a = p2 := by linarith
    rw [hb, hc, ha]

end

/-- C32, instance: 9 samples, 5 filter values -/
example : lagStream [1, -2, 3, 0, 5] [3, 1, 4, 1, 5, 9, 2, 6, (5 : ℚ)] = some ⟨38, 41, 27, 48, 18⟩ := by decide +kernel
example : lagDirect [1, -2, 3, 0, 5] [3, 1, 4, 1, 5, 9, 2, 6, (5 : ℚ)] = .ok ⟨38, 41, 27, 48, 18⟩ := by decide +kernel
/-- C32, instance: vertex at 1/2 with value 7 -/
example : onParabola (-2) (1 / 2) (7 : ℚ) = ⟨-11 / 2, 5 / 2, 13 / 2, 13 / 2, 5 / 2⟩ ∧ peakX (parabola ⟨-11 / 2, 5 / 2, 13 / 2, 13 / 2, (5 / 2 : ℚ)⟩) = 1 / 2 ∧
    peakY (parabola ⟨-11 / 2, 5 / 2, 13 / 2, 13 / 2, (5 / 2 : ℚ)⟩) = 7 := by decide +kernel

/-- Records of fewer than 8 samples: the one-pass version reads outside its arrays while the direct version works. -/
theorem stream_short_fails : lagStream [1, 2] [3, 1, 4, 1, 5, (9 : ℚ)] = none ∧
    lagDirect [1, 2] [3, 1, 4, 1, 5, (9 : ℚ)] = .ok ⟨5, 9, 6, 11, 23⟩ := by decide +kernel

end Mass.Algo
