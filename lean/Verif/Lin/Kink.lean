import Verif.Py
import Mathlib.Algebra.Order.Field.Basic
import Mathlib.Algebra.Order.Field.Rat
import Mathlib.Algebra.Order.BigOperators.Group.List
import Mathlib.Tactic.Linarith
import Mathlib.Tactic.Ring
import Mathlib.Tactic.LinearCombination
import Mathlib.Tactic.FieldSimp
import Mathlib.Tactic.Positivity
import Mathlib.Tactic.NormNum
/-! The kinked straight line, mass/mathstat/fitting.py: C50. Exact arithmetic. -/
namespace Mass.Lin.Kink
open Mass

variable {K : Type} [Field K] [LinearOrder K] [IsStrictOrderedRing K]

/-- `kink_model`, mass/mathstat/fitting.py L18-59; points (x, y). np.linalg.solve is written out for the 3x3 system (LinAlgError when it is singular). -/
def kinkModel (k : K) (pts : List (K × K)) : Except Exc (List K × (K × K × K) × K) :=
  let i := pts.filter (fun p => decide (p.1 < k))
  let j := pts.filter (fun p => decide (k ≤ p.1))
  if i = [] ∨ j = [] then .error .value
  else
    let n : K := pts.length
    let si := (i.map (fun p => p.1 - k)).sum
    let sj := (j.map (fun p => p.1 - k)).sum
    let si2 := (i.map (fun p => (p.1 - k) ^ 2)).sum
    let sj2 := (j.map (fun p => (p.1 - k) ^ 2)).sum
    let v0 := (pts.map (fun p => p.2)).sum
    let v1 := (i.map (fun p => p.2 * (p.1 - k))).sum
    let v2 := (j.map (fun p => p.2 * (p.1 - k))).sum
    let det := n * si2 * sj2 - si ^ 2 * sj2 - sj ^ 2 * si2
    if det = 0 then .error .exception
    else
      let a := (v0 * si2 * sj2 - si * v1 * sj2 - sj * v2 * si2) / det
      let b := (n * v1 * sj2 - v0 * si * sj2 + sj * (si * v2 - sj * v1)) / det
      let c := (n * si2 * v2 - si ^ 2 * v2 + si * v1 * sj - v0 * si2 * sj) / det
      let model := i.map (fun p => a + b * (p.1 - k)) ++ j.map (fun p => a + c * (p.1 - k))
      .ok (model, (a, b, c), (List.zipWith (fun m p => (m - p.2) ^ 2) model pts).sum)

/-- the documented model function, fitting.py L21-22 -/
def line (k a b c x : K) : K := if x < k then a + b * (x - k) else a + c * (x - k)

/-- the sum of squared differences between the data and the line [specification] -/
def misfit (k a b c : K) (pts : List (K × K)) : K := (pts.map (fun p => (line k a b c p.1 - p.2) ^ 2)).sum

/-- x - k left of the kink, 0 right of it [specification] -/
def dL (k x : K) : K := if x < k then x - k else 0
/-- x - k right of the kink, 0 left of it [specification] -/
def dR (k x : K) : K := if x < k then 0 else x - k

omit [IsStrictOrderedRing K] in
theorem line_eq (k a b c x : K) : line k a b c x = a + b * dL k x + c * dR k x := by
  unfold line dL dR
  split <;> ring

omit [IsStrictOrderedRing K] in
theorem dLR (k x : K) : dL k x * dR k x = 0 := by
  unfold dL dR
  split <;> simp

omit [IsStrictOrderedRing K] in
theorem filterL (k : K) (pts : List (K × K)) (g : K × K → K) (h : K → K × K → K) (hg : ∀ p, p.1 < k → g p = h (p.1 - k) p) (h0 : ∀ p, h 0 p = 0) :
    ((pts.filter (fun p => decide (p.1 < k))).map g).sum = (pts.map (fun p => h (dL k p.1) p)).sum := by
  induction pts with
  | nil => simp
  | cons p pts ih =>
    rw [List.map_cons, List.sum_cons, ← ih]
    by_cases hp : p.1 < k
    · rw [List.filter_cons_of_pos (by simpa using hp), List.map_cons, List.sum_cons, hg p hp]
      simp [dL, hp]
    · rw [List.filter_cons_of_neg (by simpa using hp)]
      simp [dL, hp, h0]

omit [IsStrictOrderedRing K] in
theorem filterR (k : K) (pts : List (K × K)) (g : K × K → K) (h : K → K × K → K) (hg : ∀ p, k ≤ p.1 → g p = h (p.1 - k) p) (h0 : ∀ p, h 0 p = 0) :
    ((pts.filter (fun p => decide (k ≤ p.1))).map g).sum = (pts.map (fun p => h (dR k p.1) p)).sum := by
  induction pts with
  | nil => simp
  | cons p pts ih =>
    rw [List.map_cons, List.sum_cons, ← ih]
    by_cases hp : k ≤ p.1
    · rw [List.filter_cons_of_pos (by simpa using hp), List.map_cons, List.sum_cons, hg p hp]
      simp [dR, not_lt.2 hp]
    · rw [List.filter_cons_of_neg (by simpa using hp)]
      simp [dR, not_le.1 hp, h0]

/-- sums over the points [specification] -/
def S (pts : List (K × K)) (g : K × K → K) : K := (pts.map g).sum

omit [IsStrictOrderedRing K] in
theorem expand (k a b c a' b' c' : K) (pts : List (K × K)) :
    misfit k a' b' c' pts = misfit k a b c pts + S pts (fun p => (line k a' b' c' p.1 - line k a b c p.1) ^ 2) +
      2 * ((a' - a) * S pts (fun p => line k a b c p.1 - p.2) + (b' - b) * S pts (fun p => (line k a b c p.1 - p.2) * dL k p.1) + (c' - c) * S pts (fun p => (line k a b c p.1 - p.2) * dR k p.1)) := by
  unfold misfit S
  induction pts with
  | nil => simp
  | cons p pts ih =>
    simp only [List.map_cons, List.sum_cons]
    rw [ih]
    simp only [line_eq]
    ring

omit [IsStrictOrderedRing K] in
theorem normal (k a b c : K) (pts : List (K × K)) :
    S pts (fun p => line k a b c p.1 - p.2) = pts.length * a + S pts (fun p => dL k p.1) * b + S pts (fun p => dR k p.1) * c - S pts (fun p => p.2) ∧
    S pts (fun p => (line k a b c p.1 - p.2) * dL k p.1) = S pts (fun p => dL k p.1) * a + S pts (fun p => dL k p.1 ^ 2) * b - S pts (fun p => p.2 * dL k p.1) ∧
    S pts (fun p => (line k a b c p.1 - p.2) * dR k p.1) = S pts (fun p => dR k p.1) * a + S pts (fun p => dR k p.1 ^ 2) * c - S pts (fun p => p.2 * dR k p.1) := by
  unfold S
  induction pts with
  | nil => simp
  | cons p pts ih =>
    obtain ⟨h1, h2, h3⟩ := ih
    simp only [List.map_cons, List.sum_cons, List.length_cons]
    rw [h1, h2, h3]
    have hz := dLR k p.1
    simp only [line_eq]
    push_cast
    refine ⟨by ring, ?_, ?_⟩
    · linear_combination c * hz
    · linear_combination b * hz

omit [LinearOrder K] [IsStrictOrderedRing K] in
theorem cramer (n si sj si2 sj2 v0 v1 v2 : K) (h : n * si2 * sj2 - si ^ 2 * sj2 - sj ^ 2 * si2 ≠ 0) :
    n * ((v0 * si2 * sj2 - si * v1 * sj2 - sj * v2 * si2) / (n * si2 * sj2 - si ^ 2 * sj2 - sj ^ 2 * si2)) +
      si * ((n * v1 * sj2 - v0 * si * sj2 + sj * (si * v2 - sj * v1)) / (n * si2 * sj2 - si ^ 2 * sj2 - sj ^ 2 * si2)) +
      sj * ((n * si2 * v2 - si ^ 2 * v2 + si * v1 * sj - v0 * si2 * sj) / (n * si2 * sj2 - si ^ 2 * sj2 - sj ^ 2 * si2)) - v0 = 0 ∧
    si * ((v0 * si2 * sj2 - si * v1 * sj2 - sj * v2 * si2) / (n * si2 * sj2 - si ^ 2 * sj2 - sj ^ 2 * si2)) +
      si2 * ((n * v1 * sj2 - v0 * si * sj2 + sj * (si * v2 - sj * v1)) / (n * si2 * sj2 - si ^ 2 * sj2 - sj ^ 2 * si2)) - v1 = 0 ∧
    sj * ((v0 * si2 * sj2 - si * v1 * sj2 - sj * v2 * si2) / (n * si2 * sj2 - si ^ 2 * sj2 - sj ^ 2 * si2)) +
      sj2 * ((n * si2 * v2 - si ^ 2 * v2 + si * v1 * sj - v0 * si2 * sj) / (n * si2 * sj2 - si ^ 2 * sj2 - sj ^ 2 * si2)) - v2 = 0 := by
  generalize hD : n * si2 * sj2 - si ^ 2 * sj2 - sj ^ 2 * si2 = D at h
  refine ⟨?_, ?_, ?_⟩
  · field_simp
    rw [← hD]
    ring
  · field_simp
    rw [← hD]
    ring
  · field_simp
    rw [← hD]
    ring

omit [IsStrictOrderedRing K] in
/-- the result in terms of sums over all points -/
theorem kink_unfold (k : K) (pts : List (K × K)) (model : List K) (a b c X2 : K) (h : kinkModel k pts = .ok (model, (a, b, c), X2)) :
    S pts (fun p => line k a b c p.1 - p.2) = 0 ∧ S pts (fun p => (line k a b c p.1 - p.2) * dL k p.1) = 0 ∧ S pts (fun p => (line k a b c p.1 - p.2) * dR k p.1) = 0 ∧
    model = (pts.filter (fun p => decide (p.1 < k)) ++ pts.filter (fun p => decide (k ≤ p.1))).map (fun p => line k a b c p.1) ∧
    X2 = (List.zipWith (fun m p => (m - p.2) ^ 2) model pts).sum := by
  unfold kinkModel at h
  dsimp only at h
  split at h
  · exact absurd h (by simp)
  split at h
  · exact absurd h (by simp)
  rename_i hdet
  simp only [Except.ok.injEq, Prod.mk.injEq] at h
  obtain ⟨hm, ⟨ha, hb, hc⟩, hX⟩ := h
  have e1 : ((pts.filter (fun p => decide (p.1 < k))).map (fun p => p.1 - k)).sum = S pts (fun p => dL k p.1) := filterL k pts _ (fun d _ => d) (fun _ _ => rfl) (fun _ => rfl)
  have e2 : ((pts.filter (fun p => decide (k ≤ p.1))).map (fun p => p.1 - k)).sum = S pts (fun p => dR k p.1) := filterR k pts _ (fun d _ => d) (fun _ _ => rfl) (fun _ => rfl)
  have e3 : ((pts.filter (fun p => decide (p.1 < k))).map (fun p => (p.1 - k) ^ 2)).sum = S pts (fun p => dL k p.1 ^ 2) := filterL k pts _ (fun d _ => d ^ 2) (fun _ _ => rfl) (fun _ => by simp)
  have e4 : ((pts.filter (fun p => decide (k ≤ p.1))).map (fun p => (p.1 - k) ^ 2)).sum = S pts (fun p => dR k p.1 ^ 2) := filterR k pts _ (fun d _ => d ^ 2) (fun _ _ => rfl) (fun _ => by simp)
  have e5 : ((pts.filter (fun p => decide (p.1 < k))).map (fun p => p.2 * (p.1 - k))).sum = S pts (fun p => p.2 * dL k p.1) :=
    filterL k pts _ (fun d p => p.2 * d) (fun _ _ => rfl) (fun _ => by simp)
  have e6 : ((pts.filter (fun p => decide (k ≤ p.1))).map (fun p => p.2 * (p.1 - k))).sum = S pts (fun p => p.2 * dR k p.1) :=
    filterR k pts _ (fun d p => p.2 * d) (fun _ _ => rfl) (fun _ => by simp)
  have e7 : (pts.map (fun p => p.2)).sum = S pts (fun p => p.2) := rfl
  obtain ⟨n1, n2, n3⟩ := normal k a b c pts
  refine ⟨?_, ?_, ?_, ?_, ?_⟩
  · rw [n1, ← ha, ← hb, ← hc]
    simp only [e1, e2, e3, e4, e5, e6, e7] at hdet ⊢
    exact (cramer _ _ _ _ _ _ _ _ hdet).1
  · rw [n2, ← ha, ← hb]
    simp only [e1, e2, e3, e4, e5, e6, e7] at hdet ⊢
    exact (cramer _ _ _ _ _ _ _ _ hdet).2.1
  · rw [n3, ← ha, ← hc]
    simp only [e1, e2, e3, e4, e5, e6, e7] at hdet ⊢
    exact (cramer _ _ _ _ _ _ _ _ hdet).2.2
  · rw [← hm, List.map_append, ha, hb, hc]
    congr 1
    · refine List.map_congr_left (fun p hp => ?_)
      have : p.1 < k := by simpa using (List.mem_filter.1 hp).2
      simp [line, this]
    · refine List.map_congr_left (fun p hp => ?_)
      have : k ≤ p.1 := by simpa using (List.mem_filter.1 hp).2
      simp [line, not_lt.2 this]
  · rw [← hX, ← hm]

/-- C50: the coefficients returned are the best of all, for data in any order. -/
theorem kink_coefficients (k : K) (pts : List (K × K)) (model : List K) (a b c X2 : K) (h : kinkModel k pts = .ok (model, (a, b, c), X2)) (a' b' c' : K) :
    misfit k a b c pts ≤ misfit k a' b' c' pts := by
  obtain ⟨h1, h2, h3, _, _⟩ := kink_unfold k pts model a b c X2 h
  rw [expand k a b c a' b' c', h1, h2, h3]
  have : 0 ≤ S pts (fun p => (line k a' b' c' p.1 - line k a b c p.1) ^ 2) := List.sum_nonneg (by
    intro x hx
    obtain ⟨p, _, rfl⟩ := List.mem_map.1 hx
    positivity)
  linarith

omit [Field K] [IsStrictOrderedRing K] in
theorem sorted_split (k : K) (pts : List (K × K)) (h : pts.Pairwise (fun p q => p.1 ≤ q.1)) : pts.filter (fun p => decide (p.1 < k)) ++ pts.filter (fun p => decide (k ≤ p.1)) = pts := by
  induction pts with
  | nil => rfl
  | cons p pts ih =>
    obtain ⟨h1, h2⟩ := List.pairwise_cons.1 h
    by_cases hp : p.1 < k
    · rw [List.filter_cons_of_pos (by simpa using hp), List.filter_cons_of_neg (by simpa using hp), List.cons_append, ih h2]
    · have hall : ∀ q ∈ pts, k ≤ q.1 := fun q hq => le_trans (not_lt.1 hp) (h1 q hq)
      rw [List.filter_cons_of_neg (by simpa using hp), List.filter_cons_of_pos (by simpa using hp)]
      rw [List.filter_eq_nil_iff.2 (by intro q hq; simpa using hall q hq), List.filter_eq_self.2 (by intro q hq; simpa using hall q hq)]
      rfl

/-- C50 for data in increasing order of x: the model values belong to the points in order, X2 is their misfit, and it is the least possible. -/
theorem kink_optimal_partial (k : K) (pts : List (K × K)) (model : List K) (a b c X2 : K) (hs : pts.Pairwise (fun p q => p.1 ≤ q.1)) (h : kinkModel k pts = .ok (model, (a, b, c), X2)) :
    model = pts.map (fun p => line k a b c p.1) ∧ X2 = misfit k a b c pts ∧ ∀ a' b' c', X2 ≤ misfit k a' b' c' pts := by
  obtain ⟨_, _, _, hm, hX⟩ := kink_unfold k pts model a b c X2 h
  rw [sorted_split k pts hs] at hm
  have e : X2 = misfit k a b c pts := by
    rw [hX, hm, misfit]
    congr 1
    rw [List.zipWith_map_left]
    clear hm hX h hs
    induction pts with
    | nil => rfl
    | cons p pts ih => simp [ih]
  refine ⟨hm, e, fun a' b' c' => ?_⟩
  rw [e]
  exact kink_coefficients k pts model a b c X2 h a' b' c'

theorem cauchy (l : List K) : l.sum ^ 2 ≤ l.length * (l.map (· ^ 2)).sum ∧ (∀ x ∈ l, ∀ y ∈ l, x ≠ y → l.sum ^ 2 < l.length * (l.map (· ^ 2)).sum) := by
  have key : ∀ (t : K) (l : List K), (l.map (fun x => (x - t) ^ 2)).sum = (l.map (· ^ 2)).sum - 2 * t * l.sum + l.length * t ^ 2 := by
    intro t l
    induction l with
    | nil => simp
    | cons a l ih =>
      simp only [List.map_cons, List.sum_cons, List.length_cons, ih]
      push_cast
      ring
  have hnn : ∀ (t : K), 0 ≤ (l.map (fun x => (x - t) ^ 2)).sum := fun t => List.sum_nonneg (by
    intro x hx
    obtain ⟨p, _, rfl⟩ := List.mem_map.1 hx
    positivity)
  rcases Nat.eq_zero_or_pos l.length with h0 | hpos
  · have : l = [] := List.length_eq_zero_iff.1 h0
    subst this
    simp
  have hn : (0 : K) < l.length := by exact_mod_cast hpos
  have hval : ∀ Q, (l.map (fun x => (x - l.sum / l.length) ^ 2)).sum = Q → l.length * (l.map (· ^ 2)).sum - l.sum ^ 2 = l.length * Q := by
    intro Q hQ
    rw [key] at hQ
    rw [← hQ]
    field_simp
    ring
  constructor
  · have h1 := hval _ rfl
    have h2 := mul_nonneg hn.le (hnn (l.sum / l.length))
    linarith
  · intro x hx y hy hxy
    have h1 := hval _ rfl
    have hpos : 0 < (l.map (fun x => (x - l.sum / l.length) ^ 2)).sum := by
      rcases (hnn (l.sum / l.length)).lt_or_eq with h | h
      · exact h
      · exfalso
        have hz : ∀ z ∈ l, (z - l.sum / l.length) ^ 2 ≤ 0 := by
          intro z hz
          rw [h]
          refine List.single_le_sum (l := l.map (fun x => (x - l.sum / l.length) ^ 2)) ?_ _ (List.mem_map.2 ⟨z, hz, rfl⟩)
          intro w hw
          obtain ⟨p, _, rfl⟩ := List.mem_map.1 hw
          positivity
        have hx0 := pow_eq_zero_iff (two_ne_zero) |>.1 (le_antisymm (hz x hx) (by positivity))
        have hy0 := pow_eq_zero_iff (two_ne_zero) |>.1 (le_antisymm (hz y hy) (by positivity))
        exact hxy (by linarith)
    have := mul_pos hn hpos
    linarith

omit [Field K] [IsStrictOrderedRing K] in
theorem split_length (k : K) (pts : List (K × K)) : (pts.filter (fun p => decide (p.1 < k))).length + (pts.filter (fun p => decide (k ≤ p.1))).length = pts.length := by
  induction pts with
  | nil => rfl
  | cons p pts ih =>
    by_cases hp : p.1 < k
    · rw [List.filter_cons_of_pos (by simpa using hp), List.filter_cons_of_neg (by simpa using hp)]
      simp only [List.length_cons]
      omega
    · rw [List.filter_cons_of_neg (by simpa using hp), List.filter_cons_of_pos (by simpa using hp)]
      simp only [List.length_cons]
      omega

/-- A result is returned whenever the kink is strictly between two points and there are two different x on one side of it. -/
theorem kink_defined (k : K) (pts : List (K × K)) (p q : K × K) (hp : p ∈ pts) (hq : q ∈ pts) (hpk : p.1 < k) (hqk : k < q.1)
    (h3 : ∃ r ∈ pts, ∃ s ∈ pts, r.1 ≠ s.1 ∧ (r.1 < k ∧ s.1 < k ∨ k ≤ r.1 ∧ k ≤ s.1)) : ∃ r, kinkModel k pts = .ok r := by
  unfold kinkModel
  dsimp only
  have hlen := split_length k pts
  have hpi : p ∈ pts.filter (fun p => decide (p.1 < k)) := List.mem_filter.2 ⟨hp, by simpa using hpk⟩
  have hqj : q ∈ pts.filter (fun p => decide (k ≤ p.1)) := List.mem_filter.2 ⟨hq, by simpa using hqk.le⟩
  have h3' : (∃ r ∈ pts.filter (fun p => decide (p.1 < k)), ∃ s ∈ pts.filter (fun p => decide (p.1 < k)), r.1 ≠ s.1) ∨
      (∃ r ∈ pts.filter (fun p => decide (k ≤ p.1)), ∃ s ∈ pts.filter (fun p => decide (k ≤ p.1)), r.1 ≠ s.1) := by
    obtain ⟨r, hr, s, hs, hne, h | h⟩ := h3
    · exact .inl ⟨r, List.mem_filter.2 ⟨hr, by simpa using h.1⟩, s, List.mem_filter.2 ⟨hs, by simpa using h.2⟩, hne⟩
    · exact .inr ⟨r, List.mem_filter.2 ⟨hr, by simpa using h.1⟩, s, List.mem_filter.2 ⟨hs, by simpa using h.2⟩, hne⟩
  rw [if_neg (by rintro (h | h); · rw [h] at hpi; simp at hpi
                 · rw [h] at hqj; simp at hqj)]
  generalize pts.filter (fun p => decide (p.1 < k)) = i at *
  generalize pts.filter (fun p => decide (k ≤ p.1)) = j at *
  have hsq : ∀ (l : List (K × K)) (z : K × K), z ∈ l → z.1 ≠ k → 0 < (l.map (fun p => (p.1 - k) ^ 2)).sum := by
    intro l z hz hne
    have h1 : (z.1 - k) ^ 2 ≤ (l.map (fun p => (p.1 - k) ^ 2)).sum := by
      refine List.single_le_sum ?_ _ (List.mem_map.2 ⟨z, hz, rfl⟩)
      intro w hw
      obtain ⟨p, _, rfl⟩ := List.mem_map.1 hw
      positivity
    have h2 : 0 < (z.1 - k) ^ 2 := by
      have : z.1 - k ≠ 0 := sub_ne_zero.2 hne
      positivity
    linarith
  have hi2 := hsq i p hpi hpk.ne
  have hj2 := hsq j q hqj hqk.ne'
  have ci := cauchy (i.map (fun p => p.1 - k))
  have cj := cauchy (j.map (fun p => p.1 - k))
  rw [List.length_map, List.map_map] at ci cj
  simp only [Function.comp_def] at ci cj
  have hn : (pts.length : K) = i.length + j.length := by rw [← hlen]; push_cast; ring
  have hdet : 0 < (pts.length : K) * (i.map (fun p => (p.1 - k) ^ 2)).sum * (j.map (fun p => (p.1 - k) ^ 2)).sum -
      (i.map (fun p => p.1 - k)).sum ^ 2 * (j.map (fun p => (p.1 - k) ^ 2)).sum - (j.map (fun p => p.1 - k)).sum ^ 2 * (i.map (fun p => (p.1 - k) ^ 2)).sum := by
    rw [hn]
    generalize (i.map (fun p => (p.1 - k) ^ 2)).sum = si2 at *
    generalize (j.map (fun p => (p.1 - k) ^ 2)).sum = sj2 at *
    have e1 := mul_le_mul_of_nonneg_right ci.1 hj2.le
    have e2 := mul_le_mul_of_nonneg_right cj.1 hi2.le
    rcases h3' with ⟨r, hr, s, hs, hne⟩ | ⟨r, hr, s, hs, hne⟩
    · have := mul_lt_mul_of_pos_right (ci.2 (r.1 - k) (List.mem_map.2 ⟨r, hr, rfl⟩) (s.1 - k) (List.mem_map.2 ⟨s, hs, rfl⟩) (by simpa using hne)) hj2
      nlinarith
    · have := mul_lt_mul_of_pos_right (cj.2 (r.1 - k) (List.mem_map.2 ⟨r, hr, rfl⟩) (s.1 - k) (List.mem_map.2 ⟨s, hs, rfl⟩) (by simpa using hne)) hi2
      nlinarith
  rw [if_neg hdet.ne']
  exact ⟨_, rfl⟩

/-- exact data: slope 1 up to 2, then slope 3 -/
example : kinkModel (2 : ℚ) [(0, 5), (1, 6), (3, 10), (4, 13)] = .ok ([5, 6, 10, 13], (7, 1, 3), 0) := by decide +kernel

/-- The same points in another order: the coefficients are right, the model values are out of order and X2 is not the misfit. -/
theorem kink_unsorted_fails : kinkModel (2 : ℚ) [(3, 10), (0, 5), (1, 6), (4, 13)] = .ok ([5, 6, 10, 13], (7, 1, 3), 42) ∧ misfit (2 : ℚ) 7 1 3 [(3, 10), (0, 5), (1, 6), (4, 13)] = 0 := by
  decide +kernel

/-- A kink outside the data is refused. -/
theorem kink_refused (k : K) (pts : List (K × K)) (h : (∀ p ∈ pts, k ≤ p.1) ∨ ∀ p ∈ pts, p.1 < k) : kinkModel k pts = .error .value := by
  unfold kinkModel
  dsimp only
  rw [if_pos]
  rcases h with h | h
  · left
    exact List.filter_eq_nil_iff.2 (by intro p hp; simpa using h p hp)
  · right
    exact List.filter_eq_nil_iff.2 (by intro p hp; simpa using h p hp)

end Mass.Lin.Kink
