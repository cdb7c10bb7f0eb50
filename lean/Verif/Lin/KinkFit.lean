import Verif.Lin.Kink
/-! Finding the kink, mass/mathstat/fitting.py fit_kink_model: C162. Exact arithmetic. -/
namespace Mass.Lin.KinkFit
open Mass Mass.Lin.Kink

variable {K : Type} [Field K] [LinearOrder K] [IsStrictOrderedRing K]

/-- the function that is minimised, mass/mathstat/fitting.py L96-98 -/
def penalty (pts : List (K × K)) (k : K) : Except Exc K := (kinkModel k pts).map fun r => r.2.2

/-- `x.min()` and `x.max()`, fitting.py L101-102; both raise ValueError without data -/
def range : List (K × K) → Except Exc (K × K)
  | [] => .error .value
  | p :: pts => .ok (pts.foldl (fun m q => min m q.1) p.1, pts.foldl (fun m q => max m q.1) p.1)

/-- the bounds of the search, fitting.py L101-104: compared with the range of the data only if given -/
def bounds (xmin xmax : K) : Option (K × K) → Except Exc (K × K)
  | none => .ok (xmin, xmax)
  | some (lo, hi) => if lo < xmin ∨ hi > xmax then .error .value else .ok (lo, hi)

/-- `fit_kink_model`, fitting.py L62-108. `search f lo hi` is `scipy.optimize.minimize_scalar(f, method="Bounded", bounds=(lo, hi)).x`; it passes on what `f` raises and raises ValueError
for bounds in the wrong order. -/
def fitKink (search : (K → Except Exc K) → K → K → Except Exc K) (pts : List (K × K)) (kbounds : Option (K × K)) : Except Exc (List K × (K × K × K × K) × K) :=
  match range pts with
  | .error e => .error e
  | .ok (xmin, xmax) =>
    match bounds xmin xmax kbounds with
    | .error e => .error e
    | .ok (lo, hi) =>
      match search (penalty pts) lo hi with
      | .error e => .error e
      | .ok k =>
        match kinkModel k pts with
        | .error e => .error e
        | .ok (model, (a, b, c), X2) => .ok (model, (k, a, b, c), X2)

/-- What is assumed of the bounded search: a result is strictly between the bounds, and no value there at which the function can be evaluated is smaller [specification] -/
def Finds (search : (K → Except Exc K) → K → K → Except Exc K) : Prop :=
  ∀ f lo hi k, search f lo hi = .ok k → lo < k ∧ k < hi ∧ ∀ k' v v', lo < k' → k' < hi → f k = .ok v → f k' = .ok v' → v ≤ v'

omit [Field K] [IsStrictOrderedRing K] in
theorem foldMin (l : List (K × K)) (a : K) : (∀ p ∈ l, l.foldl (fun m q => min m q.1) a ≤ p.1) ∧ l.foldl (fun m q => min m q.1) a ≤ a ∧
    (l.foldl (fun m q => min m q.1) a = a ∨ ∃ p ∈ l, p.1 = l.foldl (fun m q => min m q.1) a) := by
  induction l generalizing a with
  | nil => simp
  | cons p l ih =>
    obtain ⟨h1, h2, h3⟩ := ih (min a p.1)
    rw [List.foldl_cons]
    refine ⟨fun q hq => ?_, h2.trans (min_le_left _ _), ?_⟩
    · rcases List.mem_cons.1 hq with rfl | hq
      · exact h2.trans (min_le_right _ _)
      · exact h1 q hq
    · rcases h3 with h3 | ⟨q, hq, h3⟩
      · rcases min_choice a p.1 with h | h
        · exact .inl (h3.trans h)
        · exact .inr ⟨p, List.mem_cons_self, (h3.trans h).symm⟩
      · exact .inr ⟨q, List.mem_cons_of_mem _ hq, h3⟩

omit [Field K] [IsStrictOrderedRing K] in
theorem foldMax (l : List (K × K)) (a : K) : (∀ p ∈ l, p.1 ≤ l.foldl (fun m q => max m q.1) a) ∧ a ≤ l.foldl (fun m q => max m q.1) a ∧
    (l.foldl (fun m q => max m q.1) a = a ∨ ∃ p ∈ l, p.1 = l.foldl (fun m q => max m q.1) a) := by
  induction l generalizing a with
  | nil => simp
  | cons p l ih =>
    obtain ⟨h1, h2, h3⟩ := ih (max a p.1)
    rw [List.foldl_cons]
    refine ⟨fun q hq => ?_, (le_max_left _ _).trans h2, ?_⟩
    · rcases List.mem_cons.1 hq with rfl | hq
      · exact (le_max_right _ _).trans h2
      · exact h1 q hq
    · rcases h3 with h3 | ⟨q, hq, h3⟩
      · rcases max_choice a p.1 with h | h
        · exact .inl (h3.trans h)
        · exact .inr ⟨p, List.mem_cons_self, (h3.trans h).symm⟩
      · exact .inr ⟨q, List.mem_cons_of_mem _ hq, h3⟩

omit [Field K] [IsStrictOrderedRing K] in
/-- the range is the smallest and the greatest abscissa -/
theorem range_spec (pts : List (K × K)) (lo hi : K) : range pts = .ok (lo, hi) ↔
    ((∃ p ∈ pts, p.1 = lo) ∧ (∃ p ∈ pts, p.1 = hi) ∧ ∀ p ∈ pts, lo ≤ p.1 ∧ p.1 ≤ hi) := by
  cases pts with
  | nil => simp [range]
  | cons p pts =>
    obtain ⟨a1, a2, a3⟩ := foldMin pts p.1
    obtain ⟨b1, b2, b3⟩ := foldMax pts p.1
    have hmin : ∃ q ∈ p :: pts, q.1 = pts.foldl (fun m q => min m q.1) p.1 := by
      rcases a3 with h | ⟨q, hq, h⟩
      · exact ⟨p, List.mem_cons_self, h.symm⟩
      · exact ⟨q, List.mem_cons_of_mem _ hq, h⟩
    have hmax : ∃ q ∈ p :: pts, q.1 = pts.foldl (fun m q => max m q.1) p.1 := by
      rcases b3 with h | ⟨q, hq, h⟩
      · exact ⟨p, List.mem_cons_self, h.symm⟩
      · exact ⟨q, List.mem_cons_of_mem _ hq, h⟩
    have hall : ∀ q ∈ p :: pts, pts.foldl (fun m q => min m q.1) p.1 ≤ q.1 ∧ q.1 ≤ pts.foldl (fun m q => max m q.1) p.1 := by
      intro q hq
      rcases List.mem_cons.1 hq with rfl | hq
      · exact ⟨a2, b2⟩
      · exact ⟨a1 q hq, b1 q hq⟩
    unfold range
    constructor
    · intro h
      injection h with h
      injection h with h1 h2
      rw [← h1, ← h2]
      exact ⟨hmin, hmax, hall⟩
    · rintro ⟨⟨q, hq, rfl⟩, ⟨r, hr, rfl⟩, h⟩
      obtain ⟨q', hq', e1⟩ := hmin
      obtain ⟨r', hr', e2⟩ := hmax
      have h1 := le_antisymm (hall q hq).1 (e1 ▸ (h q' hq').1)
      have h2 := le_antisymm (e2 ▸ (h r' hr').2) (hall r hr).2
      dsimp only
      rw [h1, h2]

theorem fit_ok (search : (K → Except Exc K) → K → K → Except Exc K) (pts : List (K × K)) (kb : Option (K × K)) (model : List K) (k a b c X2 : K)
    (h : fitKink search pts kb = .ok (model, (k, a, b, c), X2)) :
    ∃ xmin xmax, range pts = .ok (xmin, xmax) ∧ (∀ lo hi, kb = some (lo, hi) → xmin ≤ lo ∧ hi ≤ xmax) ∧
      search (penalty pts) (kb.getD (xmin, xmax)).1 (kb.getD (xmin, xmax)).2 = .ok k ∧ kinkModel k pts = .ok (model, (a, b, c), X2) := by
  unfold fitKink at h
  split at h
  · cases h
  rename_i xmin xmax hr
  split at h
  · cases h
  rename_i lo hi hb
  split at h
  · cases h
  rename_i k' hk
  split at h
  · cases h
  rename_i m' a' b' c' X' hm
  simp only [Except.ok.injEq, Prod.mk.injEq] at h
  obtain ⟨rfl, ⟨rfl, rfl, rfl, rfl⟩, rfl⟩ := h
  refine ⟨xmin, xmax, hr, ?_⟩
  cases kb with
  | none =>
    injection hb with hb
    injection hb with e1 e2
    subst e1 e2
    exact ⟨by simp, hk, hm⟩
  | some l =>
    obtain ⟨l1, l2⟩ := l
    unfold bounds at hb
    dsimp only at hb
    split at hb
    · cases hb
    · rename_i hn
      injection hb with hb
      injection hb with e1 e2
      subst e1 e2
      refine ⟨fun lo hi e => ?_, hk, hm⟩
      injection e with e
      injection e with e1 e2
      subst e1 e2
      push Not at hn
      exact hn

/-- C162 for data in increasing order of x: the kink is between the bounds, the model values and X2 belong to the parameters returned, and no kinked line with a kink between the bounds
(at which the normal equations can be solved) fits better. -/
theorem fit_best_partial (search : (K → Except Exc K) → K → K → Except Exc K) (hs : Finds search) (pts : List (K × K)) (hp : pts.Pairwise (fun p q => p.1 ≤ q.1)) (kb : Option (K × K))
    (model : List K) (k a b c X2 : K) (h : fitKink search pts kb = .ok (model, (k, a, b, c), X2)) (lo hi : K) (hl : kb = some (lo, hi) ∨ kb = none ∧ range pts = .ok (lo, hi)) :
    lo < k ∧ k < hi ∧ model = pts.map (fun p => line k a b c p.1) ∧ X2 = misfit k a b c pts ∧
      ∀ k' a' b' c', lo < k' → k' < hi → (∃ r, kinkModel k' pts = .ok r) → misfit k a b c pts ≤ misfit k' a' b' c' pts := by
  obtain ⟨xmin, xmax, hr, hb, h1, h2⟩ := fit_ok search pts kb model k a b c X2 h
  have hlo : (kb.getD (xmin, xmax)).1 = lo ∧ (kb.getD (xmin, xmax)).2 = hi := by
    rcases hl with rfl | ⟨rfl, hl⟩
    · exact ⟨rfl, rfl⟩
    · rw [hr] at hl
      injection hl with hl
      injection hl with e1 e2
      exact ⟨e1, e2⟩
  rw [hlo.1, hlo.2] at h1
  obtain ⟨k1, k2, k3⟩ := hs _ _ _ _ h1
  obtain ⟨m1, m2, m3⟩ := kink_optimal_partial k pts model a b c X2 hp h2
  refine ⟨k1, k2, m1, m2, fun k' a' b' c' hk1 hk2 hr => ?_⟩
  obtain ⟨⟨model', ⟨a1, b1, c1⟩, X'⟩, hr⟩ := hr
  have hv : penalty pts k = .ok X2 := by unfold penalty; rw [h2]; rfl
  have hv' : penalty pts k' = .ok X' := by unfold penalty; rw [hr]; rfl
  have := k3 k' X2 X' hk1 hk2 hv hv'
  rw [← m2]
  exact this.trans ((kink_optimal_partial k' pts model' a1 b1 c1 X' hp hr).2.2 a' b' c')

/-- C162. Data that lie on a kinked line, with two different abscissas on one side of the kink, are reproduced. -/
theorem fit_exact (search : (K → Except Exc K) → K → K → Except Exc K) (hs : Finds search) (pts : List (K × K)) (hp : pts.Pairwise (fun p q => p.1 ≤ q.1)) (kb : Option (K × K))
    (model : List K) (k a b c X2 : K) (h : fitKink search pts kb = .ok (model, (k, a, b, c), X2)) (lo hi : K) (hl : kb = some (lo, hi) ∨ kb = none ∧ range pts = .ok (lo, hi))
    (k0 a0 b0 c0 : K) (h0 : lo < k0 ∧ k0 < hi) (hd : ∀ p ∈ pts, p.2 = line k0 a0 b0 c0 p.1)
    (h3 : ∃ r ∈ pts, ∃ s ∈ pts, r.1 ≠ s.1 ∧ (r.1 < k0 ∧ s.1 < k0 ∨ k0 ≤ r.1 ∧ k0 ≤ s.1)) : X2 = 0 ∧ model = pts.map (·.2) := by
  obtain ⟨xmin, xmax, hr, hb, h1, h2⟩ := fit_ok search pts kb model k a b c X2 h
  obtain ⟨_, _, hm, hX, hall⟩ := fit_best_partial search hs pts hp kb model k a b c X2 h lo hi hl
  obtain ⟨⟨p, hpm, e1⟩, ⟨q, hqm, e2⟩, _⟩ := (range_spec pts xmin xmax).1 hr
  have hin : xmin ≤ lo ∧ hi ≤ xmax := by
    rcases hl with hl | ⟨_, hl⟩
    · exact hb lo hi hl
    · rw [hr] at hl
      injection hl with hl
      injection hl with e1 e2
      exact ⟨e1.le, e2.ge⟩
  have hdef := kink_defined k0 pts p q hpm hqm (by rw [e1]; exact hin.1.trans_lt h0.1) (by rw [e2]; exact h0.2.trans_le hin.2) h3
  have hle := hall k0 a0 b0 c0 h0.1 h0.2 hdef
  have hz : misfit k0 a0 b0 c0 pts = 0 := by
    unfold misfit
    refine List.sum_eq_zero fun v hv => ?_
    obtain ⟨p, hp, rfl⟩ := List.mem_map.1 hv
    rw [hd p hp, sub_self]
    ring
  have hnn : ∀ v ∈ pts.map (fun p => (line k a b c p.1 - p.2) ^ 2), 0 ≤ v := by
    intro v hv
    obtain ⟨p, _, rfl⟩ := List.mem_map.1 hv
    positivity
  have h00 : misfit k a b c pts = 0 := le_antisymm (hle.trans_eq hz) (List.sum_nonneg hnn)
  refine ⟨hX.trans h00, ?_⟩
  rw [hm]
  refine List.map_congr_left fun p hp => ?_
  have h5 : (line k a b c p.1 - p.2) ^ 2 ≤ misfit k a b c pts := List.single_le_sum hnn _ (List.mem_map.2 ⟨p, hp, rfl⟩)
  rw [h00] at h5
  exact sub_eq_zero.1 (pow_eq_zero_iff (two_ne_zero)|>.1 (le_antisymm h5 (sq_nonneg _)))

/-- C162. Bounds that are not within the data are refused; without bounds all of the range is searched; without data ValueError is raised. -/
theorem fit_bounds (search : (K → Except Exc K) → K → K → Except Exc K) (pts : List (K × K)) (xmin xmax : K) (hr : range pts = .ok (xmin, xmax)) :
    (∀ lo hi, lo < xmin ∨ xmax < hi → fitKink search pts (some (lo, hi)) = .error .value) ∧ fitKink search pts none = fitKink search pts (some (xmin, xmax)) ∧
      ∀ kb, fitKink search [] kb = .error .value := by
  refine ⟨fun lo hi h => ?_, ?_, fun kb => rfl⟩
  · unfold fitKink
    rw [hr]
    have : bounds xmin xmax (some (lo, hi)) = .error .value := by
      unfold bounds
      exact if_pos h
    dsimp only
    rw [this]
  · unfold fitKink
    rw [hr]
    have : bounds xmin xmax (some (xmin, xmax)) = bounds xmin xmax none := by
      unfold bounds
      exact if_neg (by simp)
    dsimp only
    rw [this]

/-- Disagreement (C162): with the points in another order the value that is minimised is not the misfit. Here all points lie on a kinked line with the kink at 2, but the value there is greater
than at 7/2, where the line misses the points. -/
theorem fit_unsorted_fails : misfit (2 : ℚ) 7 1 3 [(3, 10), (0, 5), (1, 6), (4, 13)] = 0 ∧ penalty [((3 : ℚ), (10 : ℚ)), (0, 5), (1, 6), (4, 13)] 2 = .ok 42 ∧
    penalty [((3 : ℚ), (10 : ℚ)), (0, 5), (1, 6), (4, 13)] (7 / 2) = .ok (2 / 7) := by
  decide +kernel

/-- a search that knows the answer -/
example : fitKink (fun _ _ _ => .ok (2 : ℚ)) [(0, 5), (1, 6), (3, 10), (4, 13)] (some (1, 3)) = .ok ([5, 6, 10, 13], (2, 7, 1, 3), 0) := by decide +kernel

/-- there is a search as assumed that succeeds for these points -/
example : ∃ search : (ℚ → Except Exc ℚ) → ℚ → ℚ → Except Exc ℚ, Finds search ∧ ∃ r, fitKink search [(0, 5), (1, 6), (3, 10), (4, 13)] (some (1, 3)) = .ok r := by
  classical
  refine ⟨fun f lo hi => if h : ∃ k, (lo < k ∧ k < hi ∧ ∀ k' v v', lo < k' → k' < hi → f k = .ok v → f k' = .ok v' → v ≤ v') ∧ ∃ v, f k = .ok v then .ok h.choose else .error .value, ?_, ?_⟩
  · intro f lo hi k h
    dsimp only at h
    split at h
    · rename_i he
      obtain rfl : he.choose = k := by injection h
      exact he.choose_spec.1
    · cases h
  · have he : ∃ k : ℚ, (1 < k ∧ k < 3 ∧ ∀ k' v v', 1 < k' → k' < 3 → penalty [(0, 5), (1, 6), (3, 10), (4, 13)] k = .ok v → penalty [(0, 5), (1, 6), (3, 10), (4, 13)] k' = .ok v' → v ≤ v') ∧
        ∃ v, penalty [(0, 5), (1, 6), (3, 10), (4, 13)] k = .ok v := by
      have h2 : penalty [((0 : ℚ), (5 : ℚ)), (1, 6), (3, 10), (4, 13)] 2 = .ok 0 := by decide +kernel
      refine ⟨2, ⟨by norm_num, by norm_num, fun k' v v' _ _ hv hv' => ?_⟩, 0, h2⟩
      rw [h2] at hv
      obtain rfl : 0 = v := by injection hv
      unfold penalty at hv'
      cases hk : kinkModel k' [((0 : ℚ), (5 : ℚ)), (1, 6), (3, 10), (4, 13)] with
      | error e => rw [hk] at hv'; cases hv'
      | ok r =>
        obtain ⟨model, ⟨a, b, c⟩, X2⟩ := r
        rw [hk] at hv'
        obtain rfl : X2 = v' := by injection hv'
        rw [(kink_optimal_partial k' _ model a b c X2 (by decide +kernel) hk).2.1]
        refine List.sum_nonneg fun v hv => ?_
        obtain ⟨p, _, rfl⟩ := List.mem_map.1 hv
        positivity
    have hv := he.choose_spec.2
    have hr : range [((0 : ℚ), (5 : ℚ)), (1, 6), (3, 10), (4, 13)] = .ok (0, 4) := by decide +kernel
    have hb : bounds (0 : ℚ) 4 (some (1, 3)) = .ok (1, 3) := by decide +kernel
    unfold fitKink
    rw [hr]
    dsimp only
    rw [hb]
    dsimp only
    rw [dif_pos he]
    generalize he.choose = k0 at hv ⊢
    obtain ⟨v, hv⟩ := hv
    dsimp only
    unfold penalty at hv
    generalize kinkModel k0 _ = r at hv ⊢
    cases r with
    | error e => cases hv
    | ok r => exact ⟨_, rfl⟩

end Mass.Lin.KinkFit
