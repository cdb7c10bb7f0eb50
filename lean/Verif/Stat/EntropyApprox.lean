import Verif.Stat.CrossEntropy
import Mathlib.Algebra.Order.Floor.Ring
import Mathlib.Tactic.IntervalCases
import Mathlib.Analysis.Complex.ExponentialBounds
/-! C136: entropies of large data sets, by histograms (mass/mathstat/entropy.pyx, L41-74 and L107-138, L211-258, L333-370). Real numbers; the convolution by FFT is exact. -/
namespace Mass.Stat.Approx
open Mass Mass.Stat Real MeasureTheory
noncomputable section

/-- the weights of scipy.integrate.simpson for n samples at distance 1 (used for entropy.pyx L135-137): Simpson's rule for an odd number; for an even number the last interval by the parabola through
the last three samples [scipy, not in /repo] -/
def simpsonW (n i : ℕ) : ℝ :=
  if n % 2 = 1 then (if i = 0 ∨ i = n - 1 then 1 / 3 else if i % 2 = 1 then 4 / 3 else 2 / 3)
  else if i = n - 1 then 5 / 12 else if i = n - 2 then 1 / 3 + 2 / 3 else if i = n - 3 then 4 / 3 - 1 / 12 else if i = 0 then 1 / 3 else if i % 2 = 1 then 4 / 3 else 2 / 3

/-- scipy.integrate.simpson(f, dx=dx) of n samples (used for entropy.pyx L135-137) -/
def simpson (n : ℕ) (f : ℕ → ℝ) (dx : ℝ) : ℝ := dx * ∑ i ∈ Finset.range n, simpsonW n i * f i

/-- x.min(), entropy.pyx L114 -/
def minOf (x : List ℝ) : ℝ := x.foldl min (x.headD 0)
/-- x.max(), entropy.pyx L115 -/
def maxOf (x : List ℝ) : ℝ := x.foldl max (x.headD 0)

/-- number of bins, entropy.pyx L116 and L344: twenty for each width -/
def nbins (lo hi w : ℝ) : ℕ := ⌊1 / 2 + (hi - lo) * 20 / w⌋₊

/-- the bin of one value in np.histogram(x, nbins, [lo, hi]): the last bin includes its end (used for entropy.pyx L117, L345-346) -/
def binOf (lo hi : ℝ) (n : ℕ) (v : ℝ) : ℕ := min ⌊(v - lo) / (hi - lo) * n⌋₊ (n - 1)

open Classical in
/-- np.histogram(x, nbins, [lo, hi])[0][i], entropy.pyx L117 -/
def counts (lo hi : ℝ) (n : ℕ) (x : List ℝ) (i : ℕ) : ℕ := x.countP (fun v => lo ≤ v ∧ v ≤ hi ∧ binOf lo hi n v = i)

/-- half the number of samples of the kernel, entropy.pyx L119 and L348 -/
def halfKernel (w db : ℝ) : ℕ := ⌊1 / 2 + 15 * w / db⌋₊

/-- the kernel, entropy.pyx L121-125 and L350-354 -/
def kernel (w db : ℝ) (nx t : ℕ) : ℝ := exp (-|((t : ℝ) - nx) * db / w|)

/-- the convolution of n counts with the kernel of 2 nx + 1 samples, output number i of `mode="full"`, entropy.pyx L128 -/
def fullConv (w db : ℝ) (nx n : ℕ) (c : ℕ → ℕ) (i : ℕ) : ℝ := ∑ j ∈ Finset.range n, if j ≤ i ∧ i - j ≤ 2 * nx then c j * kernel w db nx (i - j) else 0

/-- kde, entropy.pyx L128-129: the outputs from nx on; values below the least of the kernel (its ends) are replaced by that -/
def smoothed (w db : ℝ) (nx n : ℕ) (c : ℕ → ℕ) (i : ℕ) : ℝ := max (fullConv w db nx n c (i + nx)) (kernel w db nx 0)

/-- number of samples after `[nx:-nx]` of n + 2 nx outputs, entropy.pyx L128: none if nx = 0 -/
def kept (nx n : ℕ) : ℕ := if nx = 0 then 0 else n

/-- p, entropy.pyx L114-136 and L342-359: normalised density of the data x on the grid from lo to hi, sample i -/
def density (lo hi w : ℝ) (x : List ℝ) (i : ℕ) : ℝ :=
  let n := nbins lo hi w
  let db := (hi - lo) / n
  let nx := halfKernel w db
  let k := smoothed w db nx n (counts lo hi n x)
  k i * (1 / simpson (kept nx n) k db)

/-- entropy.pyx L137 and L369: -simpson(p*np.log(q), dx=db) on the grid from lo to hi. More bins than a C int holds: OverflowError (`.exception`), L116. -/
def onGrid (lo hi w : ℝ) (x y : List ℝ) : Except Exc ℝ :=
  let n := nbins lo hi w
  let db := (hi - lo) / n
  if 2 ^ 31 ≤ n then .error .exception
  else .ok (-simpson (kept (halfKernel w db) n) (fun i => density lo hi w x i * log (density lo hi w y i)) db)

/-- laplace_entropy_approx, entropy.pyx L107-137 -/
def entropyApprox (x : List ℝ) (w : ℝ) : Except Exc ℝ := onGrid (minOf x - 5 * w) (maxOf x + 5 * w) w x x

/-- laplace_cross_entropy_approx, entropy.pyx L333-369 -/
def crossApprox (x y : List ℝ) (w : ℝ) : Except Exc ℝ := onGrid (min (minOf x) (minOf y) - 5 * w) (max (maxOf x) (maxOf y) + 5 * w) w x y

/-- laplace_entropy, entropy.pyx L41-74, with its `approx_mode` -/
def entropyMode (mode : String) (x : List ℝ) (w : ℝ) : Except Exc ℝ :=
  if x.length = 0 then .error .value
  else if w ≤ 0 then .error .value
  else
    let m := if mode = "size" then (if x.length ≤ 200000 then "exact" else "approx") else mode
    if m.startsWith "exact" then laplaceEntropy exp x w else entropyApprox x w

/-- laplace_cross_entropy, entropy.pyx L211-258, with its `approx_mode` -/
def crossMode (mode : String) (x y : List ℝ) (w : ℝ) : Except Exc ℝ :=
  if w ≤ 0 then .error .value
  else if x.length = 0 ∨ y.length = 0 then .error .value
  else
    let m := if mode = "size" then (if x.length + y.length ≤ 200000 then "exact" else "approx") else mode
    if m.startsWith "exact" then crossEntropy x y w else crossApprox x y w

/-- laplace_KL_divergence, entropy.pyx L193-208, with its `approx_mode` -/
def klMode (mode : String) (x y : List ℝ) (w : ℝ) : Except Exc ℝ := do
  let a ← crossMode mode x y w
  let b ← entropyMode mode x w
  .ok (a - b)

end

/-! ### Simpson's rule -/

theorem simpsonW_pos (n i : ℕ) : 0 < simpsonW n i := by
  unfold simpsonW
  split_ifs <;> norm_num

theorem sum_parity (m : ℕ) : ∑ i ∈ Finset.range m, (if i = 0 then (1 : ℝ) / 3 else if i % 2 = 1 then 4 / 3 else 2 / 3) =
    if m = 0 then 0 else if m % 2 = 1 then (m : ℝ) - 2 / 3 else m - 1 / 3 := by
  induction m with
  | zero => simp
  | succ m ih =>
    rw [Finset.sum_range_succ, ih]
    rcases Nat.eq_zero_or_pos m with rfl | hm
    · norm_num
    · have h0 : m ≠ 0 := by omega
      have h1 : m + 1 ≠ 0 := by omega
      rw [if_neg h0, if_neg h0, if_neg h1]
      rcases Nat.mod_two_eq_zero_or_one m with h | h
      · have h2 : (m + 1) % 2 = 1 := by omega
        rw [if_neg (by omega), if_neg (by omega), if_pos h2]
        push_cast
        ring
      · have h2 : ¬ (m + 1) % 2 = 1 := by omega
        rw [if_pos h, if_pos h, if_neg h2]
        push_cast
        ring

/-- the rule is exact for constants: the weights of n ≥ 4 samples add up to n - 1 -/
theorem simpsonW_sum (n : ℕ) (hn : 4 ≤ n) : ∑ i ∈ Finset.range n, simpsonW n i = n - 1 := by
  rcases Nat.mod_two_eq_zero_or_one n with h | h
  · obtain ⟨m, rfl⟩ : ∃ m, n = m + 3 := ⟨n - 3, by omega⟩
    have hn2 : ¬ (m + 3) % 2 = 1 := by omega
    rw [Finset.sum_range_succ, Finset.sum_range_succ, Finset.sum_range_succ]
    have e1 : ∑ i ∈ Finset.range m, simpsonW (m + 3) i = ∑ i ∈ Finset.range m, (if i = 0 then (1 : ℝ) / 3 else if i % 2 = 1 then 4 / 3 else 2 / 3) := by
      refine Finset.sum_congr rfl (fun i hi => ?_)
      rw [Finset.mem_range] at hi
      unfold simpsonW
      rw [if_neg hn2, if_neg (by omega), if_neg (by omega), if_neg (by omega)]
    rw [e1, sum_parity, if_neg (by omega), if_pos (by omega)]
    unfold simpsonW
    simp only [if_neg hn2]
    rw [if_neg (by omega), if_neg (by omega), if_pos (by omega), if_neg (by omega), if_pos (by omega), if_pos (by omega)]
    push_cast
    ring
  · obtain ⟨m, rfl⟩ : ∃ m, n = m + 1 := ⟨n - 1, by omega⟩
    rw [Finset.sum_range_succ]
    have e1 : ∑ i ∈ Finset.range m, simpsonW (m + 1) i = ∑ i ∈ Finset.range m, (if i = 0 then (1 : ℝ) / 3 else if i % 2 = 1 then 4 / 3 else 2 / 3) := by
      refine Finset.sum_congr rfl (fun i hi => ?_)
      rw [Finset.mem_range] at hi
      unfold simpsonW
      rw [if_pos h]
      by_cases h0 : i = 0
      · rw [if_pos (Or.inl h0), if_pos h0]
      · rw [if_neg (by omega), if_neg h0]
    rw [e1, sum_parity, if_neg (by omega), if_neg (by omega)]
    unfold simpsonW
    rw [if_pos h, if_pos (Or.inr (by omega))]
    push_cast
    ring

/-! ### the grid -/

theorem foldl_min_spec (x : List ℝ) : ∀ a : ℝ, (x.foldl min a = a ∨ x.foldl min a ∈ x) ∧ x.foldl min a ≤ a ∧ ∀ v ∈ x, x.foldl min a ≤ v := by
  induction x with
  | nil => intro a; exact ⟨Or.inl rfl, le_refl _, by simp⟩
  | cons b t ih =>
    intro a
    obtain ⟨h1, h2, h3⟩ := ih (min a b)
    rw [List.foldl_cons]
    refine ⟨?_, h2.trans (min_le_left _ _), fun v hv => ?_⟩
    · rcases h1 with h | h
      · rw [h]
        rcases min_choice a b with h | h
        · exact Or.inl h
        · exact Or.inr (by rw [h]; exact List.mem_cons_self)
      · exact Or.inr (List.mem_cons_of_mem _ h)
    · rcases List.mem_cons.1 hv with rfl | hv
      · exact h2.trans (min_le_right _ _)
      · exact h3 v hv

theorem foldl_max_spec (x : List ℝ) : ∀ a : ℝ, (x.foldl max a = a ∨ x.foldl max a ∈ x) ∧ a ≤ x.foldl max a ∧ ∀ v ∈ x, v ≤ x.foldl max a := by
  induction x with
  | nil => intro a; exact ⟨Or.inl rfl, le_refl _, by simp⟩
  | cons b t ih =>
    intro a
    obtain ⟨h1, h2, h3⟩ := ih (max a b)
    rw [List.foldl_cons]
    refine ⟨?_, (le_max_left _ _).trans h2, fun v hv => ?_⟩
    · rcases h1 with h | h
      · rw [h]
        rcases max_choice a b with h | h
        · exact Or.inl h
        · exact Or.inr (by rw [h]; exact List.mem_cons_self)
      · exact Or.inr (List.mem_cons_of_mem _ h)
    · rcases List.mem_cons.1 hv with rfl | hv
      · exact (le_max_right _ _).trans h2
      · exact h3 v hv

theorem minOf_spec {x : List ℝ} (hx : x ≠ []) : minOf x ∈ x ∧ ∀ v ∈ x, minOf x ≤ v := by
  match x, hx with
  | a :: t, _ =>
    obtain ⟨h1, _, h3⟩ := foldl_min_spec (a :: t) a
    refine ⟨?_, h3⟩
    rcases h1 with h | h
    · show List.foldl min a (a :: t) ∈ _
      rw [h]; exact List.mem_cons_self
    · exact h

theorem maxOf_spec {x : List ℝ} (hx : x ≠ []) : maxOf x ∈ x ∧ ∀ v ∈ x, v ≤ maxOf x := by
  match x, hx with
  | a :: t, _ =>
    obtain ⟨h1, _, h3⟩ := foldl_max_spec (a :: t) a
    refine ⟨?_, h3⟩
    rcases h1 with h | h
    · show List.foldl max a (a :: t) ∈ _
      rw [h]; exact List.mem_cons_self
    · exact h

theorem minOf_eq {x : List ℝ} {m : ℝ} (h1 : m ∈ x) (h2 : ∀ v ∈ x, m ≤ v) : minOf x = m := by
  have := minOf_spec (List.ne_nil_of_mem h1)
  exact le_antisymm (this.2 m h1) (h2 _ this.1)

theorem maxOf_eq {x : List ℝ} {m : ℝ} (h1 : m ∈ x) (h2 : ∀ v ∈ x, v ≤ m) : maxOf x = m := by
  have := maxOf_spec (List.ne_nil_of_mem h1)
  exact le_antisymm (h2 _ this.1) (this.2 m h1)

/-- a grid at least ten widths long has at least 200 bins, of 0.0499 to 0.0502 widths each, and the kernel has from 299 to 301 samples each side -/
theorem grid_facts {lo hi w : ℝ} (hw : 0 < w) (h : 10 * w ≤ hi - lo) :
    200 ≤ nbins lo hi w ∧ 0 < (hi - lo) / nbins lo hi w ∧ w / ((hi - lo) / nbins lo hi w) ≤ 2005 / 100 ∧ 1995 / 100 ≤ w / ((hi - lo) / nbins lo hi w) ∧
      299 ≤ halfKernel w ((hi - lo) / nbins lo hi w) ∧ halfKernel w ((hi - lo) / nbins lo hi w) ≤ 301 := by
  have hr : 200 ≤ (hi - lo) * 20 / w := by rw [le_div_iff₀ hw]; linarith
  have hn : 200 ≤ nbins lo hi w := by
    unfold nbins
    refine Nat.le_floor ?_
    push_cast
    linarith
  have hn' : (200 : ℝ) ≤ nbins lo hi w := by exact_mod_cast hn
  have hL : 0 < hi - lo := by linarith
  have h1 : (nbins lo hi w : ℝ) ≤ 1 / 2 + (hi - lo) * 20 / w := Nat.floor_le (by positivity)
  have h2 : 1 / 2 + (hi - lo) * 20 / w < nbins lo hi w + 1 := Nat.lt_floor_add_one _
  have hdb : 0 < (hi - lo) / nbins lo hi w := by positivity
  have e : w / ((hi - lo) / nbins lo hi w) = nbins lo hi w / ((hi - lo) / w) := by field_simp
  have hs : 10 ≤ (hi - lo) / w := by rw [le_div_iff₀ hw]; linarith
  have e2 : (hi - lo) * 20 / w = 20 * ((hi - lo) / w) := by ring
  rw [e2] at h1 h2
  have h3 : nbins lo hi w / ((hi - lo) / w) ≤ 2005 / 100 := by
    rw [div_le_iff₀ (by linarith)]
    linarith
  have h4 : 1995 / 100 ≤ nbins lo hi w / ((hi - lo) / w) := by
    rw [le_div_iff₀ (by linarith)]
    linarith
  have e3 : 15 * w / ((hi - lo) / nbins lo hi w) = 15 * (nbins lo hi w / ((hi - lo) / w)) := by rw [← e]; ring
  refine ⟨hn, hdb, by rw [e]; exact h3, by rw [e]; exact h4, ?_, ?_⟩
  · unfold halfKernel
    rw [e3]
    refine Nat.le_floor ?_
    push_cast
    linarith
  · unfold halfKernel
    rw [e3]
    refine Nat.lt_succ_iff.1 ((Nat.floor_lt (by positivity)).2 ?_)
    push_cast
    linarith

theorem entropy_grid {x : List ℝ} (hx : x ≠ []) {w : ℝ} (hw : 0 < w) : 10 * w ≤ (maxOf x + 5 * w) - (minOf x - 5 * w) := by
  have := (maxOf_spec hx).2 _ (minOf_spec hx).1
  linarith

theorem cross_grid {x y : List ℝ} (hx : x ≠ []) {w : ℝ} (hw : 0 < w) : 10 * w ≤ (max (maxOf x) (maxOf y) + 5 * w) - (min (minOf x) (minOf y) - 5 * w) := by
  have h1 := (maxOf_spec hx).2 _ (minOf_spec hx).1
  have h2 := le_max_left (maxOf x) (maxOf y)
  have h3 := min_le_left (minOf x) (minOf y)
  linarith

/-! ### every value is counted -/

theorem binOf_lt (lo hi : ℝ) {n : ℕ} (hn : 0 < n) (v : ℝ) : binOf lo hi n v < n := by
  unfold binOf
  omega

/-- C136. The histogram counts each value of the data once, if the grid covers them. -/
theorem counts_total {lo hi : ℝ} {n : ℕ} (hn : 0 < n) (x : List ℝ) (h : ∀ v ∈ x, lo ≤ v ∧ v ≤ hi) : ∑ i ∈ Finset.range n, counts lo hi n x i = x.length := by
  classical
  induction x with
  | nil => simp [counts]
  | cons v t ih =>
    have e : ∀ i, counts lo hi n (v :: t) i = counts lo hi n t i + if binOf lo hi n v = i then 1 else 0 := by
      intro i
      unfold counts
      rw [List.countP_cons]
      congr 1
      have := h v List.mem_cons_self
      simp [this.1, this.2]
    simp only [e]
    rw [Finset.sum_add_distrib, ih (fun u hu => h u (List.mem_cons_of_mem _ hu)), Finset.sum_ite_eq, if_pos (Finset.mem_range.2 (binOf_lt _ _ hn _)), List.length_cons]

/-! ### the density -/

theorem smoothed_pos (w db : ℝ) (nx n : ℕ) (c : ℕ → ℕ) (i : ℕ) : 0 < smoothed w db nx n c i := lt_of_lt_of_le (exp_pos _) (le_max_right _ _)

theorem simpson_pos {n : ℕ} (hn : 0 < n) {f : ℕ → ℝ} (hf : ∀ i, 0 < f i) {dx : ℝ} (hd : 0 < dx) : 0 < simpson n f dx := by
  unfold simpson
  exact mul_pos hd (Finset.sum_pos (fun i _ => mul_pos (simpsonW_pos n i) (hf i)) ⟨0, Finset.mem_range.2 hn⟩)

theorem simpson_mul (n : ℕ) (f : ℕ → ℝ) (dx c : ℝ) : simpson n (fun i => f i * c) dx = simpson n f dx * c := by
  unfold simpson
  rw [mul_assoc, Finset.sum_mul]
  congr 1
  exact Finset.sum_congr rfl (fun i _ => by ring)

theorem density_pos {lo hi w : ℝ} (hw : 0 < w) (h : 10 * w ≤ hi - lo) (x : List ℝ) (i : ℕ) : 0 < density lo hi w x i := by
  obtain ⟨h1, h2, _, _, h5, _⟩ := grid_facts hw h
  unfold density
  dsimp only
  refine mul_pos (smoothed_pos _ _ _ _ _ _) (one_div_pos.2 (simpson_pos ?_ (fun _ => smoothed_pos _ _ _ _ _ _) h2))
  unfold kept
  rw [if_neg (by omega)]
  omega

theorem density_one {lo hi w : ℝ} (hw : 0 < w) (h : 10 * w ≤ hi - lo) (x : List ℝ) : simpson (nbins lo hi w) (density lo hi w x) ((hi - lo) / nbins lo hi w) = 1 := by
  obtain ⟨h1, h2, _, _, h5, _⟩ := grid_facts hw h
  have hk : kept (halfKernel w ((hi - lo) / nbins lo hi w)) (nbins lo hi w) = nbins lo hi w := by unfold kept; rw [if_neg (by omega)]
  have : density lo hi w x = fun i => smoothed w ((hi - lo) / nbins lo hi w) (halfKernel w ((hi - lo) / nbins lo hi w)) (nbins lo hi w) (counts lo hi (nbins lo hi w) x) i *
      (1 / simpson (nbins lo hi w) (smoothed w ((hi - lo) / nbins lo hi w) (halfKernel w ((hi - lo) / nbins lo hi w)) (nbins lo hi w) (counts lo hi (nbins lo hi w) x))
        ((hi - lo) / nbins lo hi w)) := by
    funext i
    unfold density
    dsimp only
    rw [hk]
  rw [this, simpson_mul]
  exact mul_one_div_cancel (simpson_pos (by omega) (fun _ => smoothed_pos _ _ _ _ _ _) h2).ne'

theorem onGrid_val {lo hi w : ℝ} (hw : 0 < w) (h : 10 * w ≤ hi - lo) (hb : nbins lo hi w < 2 ^ 31) (x y : List ℝ) :
    onGrid lo hi w x y = .ok (-simpson (nbins lo hi w) (fun i => density lo hi w x i * log (density lo hi w y i)) ((hi - lo) / nbins lo hi w)) := by
  obtain ⟨h1, h2, _, _, h5, _⟩ := grid_facts hw h
  unfold onGrid
  dsimp only
  rw [if_neg (by omega)]
  unfold kept
  rw [if_neg (by omega)]

/-- C136. Each value lies in its bin: between `b` and `b + 1` steps from the lower limit. -/
theorem bin_spec {lo hi : ℝ} (h : lo < hi) {n : ℕ} (hn : 0 < n) {v : ℝ} (h1 : lo ≤ v) (h2 : v ≤ hi) :
    lo + binOf lo hi n v * ((hi - lo) / n) ≤ v ∧ v ≤ lo + (binOf lo hi n v + 1) * ((hi - lo) / n) := by
  have hL : 0 < hi - lo := by linarith
  have hn0 : (0 : ℝ) < n := by exact_mod_cast hn
  have hd : 0 < (hi - lo) / n := by positivity
  have e : v = lo + (v - lo) / (hi - lo) * n * ((hi - lo) / n) := by field_simp; ring
  have hr : 0 ≤ (v - lo) / (hi - lo) * n := mul_nonneg (div_nonneg (by linarith) hL.le) hn0.le
  have hr2 : (v - lo) / (hi - lo) * n ≤ n := by
    have : (v - lo) / (hi - lo) ≤ 1 := by rw [div_le_one hL]; linarith
    nlinarith
  have hf := Nat.floor_le hr
  have hf2 := Nat.lt_floor_add_one ((v - lo) / (hi - lo) * n)
  have hb1 : (binOf lo hi n v : ℝ) ≤ (v - lo) / (hi - lo) * n := by
    refine le_trans ?_ hf
    unfold binOf
    exact_mod_cast min_le_left _ _
  have hb2 : (v - lo) / (hi - lo) * n ≤ (binOf lo hi n v : ℝ) + 1 := by
    unfold binOf
    rcases le_total ⌊(v - lo) / (hi - lo) * n⌋₊ (n - 1) with h | h
    · rw [min_eq_left h]; exact hf2.le
    · rw [min_eq_right h]
      have : ((n - 1 : ℕ) : ℝ) + 1 = n := by
        have : n - 1 + 1 = n := by omega
        exact_mod_cast this
      rw [this]; exact hr2
  generalize binOf lo hi n v = b at *
  have m1 := mul_le_mul_of_nonneg_right hb1 hd.le
  have m2 := mul_le_mul_of_nonneg_right hb2 hd.le
  constructor <;> linarith

theorem counts_sum {lo hi : ℝ} {n : ℕ} (hn : 0 < n) (f : ℕ → ℝ) (x : List ℝ) (h : ∀ v ∈ x, lo ≤ v ∧ v ≤ hi) :
    ∑ j ∈ Finset.range n, (counts lo hi n x j : ℝ) * f j = (x.map (fun v => f (binOf lo hi n v))).sum := by
  classical
  induction x with
  | nil => simp [counts]
  | cons v t ih =>
    have e : ∀ j, (counts lo hi n (v :: t) j : ℝ) * f j = counts lo hi n t j * f j + if binOf lo hi n v = j then f j else 0 := by
      intro j
      have : counts lo hi n (v :: t) j = counts lo hi n t j + if binOf lo hi n v = j then 1 else 0 := by
        unfold counts
        rw [List.countP_cons]
        congr 1
        have := h v List.mem_cons_self
        simp [this.1, this.2]
      rw [this]
      push_cast
      split <;> ring
    simp only [e]
    rw [Finset.sum_add_distrib, ih (fun u hu => h u (List.mem_cons_of_mem _ hu)), Finset.sum_ite_eq, if_pos (Finset.mem_range.2 (binOf_lt _ _ hn _)), List.map_cons, List.sum_cons]
    ring

theorem smoothed_eq {lo hi w db : ℝ} {nx n : ℕ} (hn : 0 < n) (x : List ℝ) (h : ∀ v ∈ x, lo ≤ v ∧ v ≤ hi) (i : ℕ) :
    smoothed w db nx n (counts lo hi n x) i =
      max (x.map (fun v => if |(i : ℤ) - binOf lo hi n v| ≤ nx then exp (-|((i : ℝ) - binOf lo hi n v) * db / w|) else 0)).sum (exp (-|(nx : ℝ) * db / w|)) := by
  unfold smoothed fullConv
  congr 1
  · rw [← counts_sum hn (fun j => if |(i : ℤ) - j| ≤ nx then exp (-|((i : ℝ) - j) * db / w|) else 0) x h]
    refine Finset.sum_congr rfl (fun j _ => ?_)
    by_cases hc : |(i : ℤ) - j| ≤ nx
    · have hc' := abs_le.1 hc
      rw [if_pos (by omega), if_pos hc]
      unfold kernel
      have e : ((i + nx - j : ℕ) : ℝ) = (i : ℝ) + nx - j := by
        rw [Nat.cast_sub (by omega)]
        push_cast
        ring
      rw [e]
      congr 5
      ring
    · rw [if_neg (fun hh => hc (abs_le.2 (by omega))), if_neg hc, mul_zero]
  · unfold kernel
    rw [show (((0 : ℕ) : ℝ) - nx) * db / w = -(nx * db / w) by push_cast; ring, abs_neg]

/-- C136. The approximate entropy is the entropy -Σ p log p, in the sense of Simpson's rule, of a positive density of integral 1 on a grid of equal steps (between 1/20.05 and 1/19.95 of the width)
which covers the data and five widths more at each end. Each value goes to the bin b it lies in; the density at bin i is proportional to the sum over the data of the kernel exp(-|i - b| step / width)
cut off at 299 to 301 bins, but not below the kernel at the cut. -/
theorem approx_density {x : List ℝ} (hx : x ≠ []) {w : ℝ} (hw : 0 < w) (hb : nbins (minOf x - 5 * w) (maxOf x + 5 * w) w < 2 ^ 31) :
    ∃ (n nx : ℕ) (db c : ℝ) (p : ℕ → ℝ) (b : ℝ → ℕ), n * db = (maxOf x + 5 * w) - (minOf x - 5 * w) ∧ 1995 / 100 * db ≤ w ∧ w ≤ 2005 / 100 * db ∧ 299 ≤ nx ∧ nx ≤ 301 ∧ 0 < c ∧
      (∀ v ∈ x, b v < n ∧ minOf x - 5 * w + b v * db ≤ v ∧ v ≤ minOf x - 5 * w + (b v + 1) * db) ∧
      (∀ i, p i = c * max (x.map (fun v => if |(i : ℤ) - b v| ≤ nx then exp (-|((i : ℝ) - b v) * db / w|) else 0)).sum (exp (-|(nx : ℝ) * db / w|))) ∧
      (∀ i, 0 < p i) ∧ simpson n p db = 1 ∧ entropyApprox x w = .ok (-simpson n (fun i => p i * log (p i)) db) := by
  have hg := entropy_grid hx hw
  obtain ⟨h1, h2, h3, h4, h5, h6⟩ := grid_facts hw hg
  have hin : ∀ v ∈ x, minOf x - 5 * w ≤ v ∧ v ≤ maxOf x + 5 * w := fun v hv => ⟨by linarith [(minOf_spec hx).2 v hv], by linarith [(maxOf_spec hx).2 v hv]⟩
  have hk : kept (halfKernel w ((maxOf x + 5 * w - (minOf x - 5 * w)) / nbins (minOf x - 5 * w) (maxOf x + 5 * w) w)) (nbins (minOf x - 5 * w) (maxOf x + 5 * w) w) =
      nbins (minOf x - 5 * w) (maxOf x + 5 * w) w := by unfold kept; rw [if_neg (by omega)]
  refine ⟨_, _, _, _, density (minOf x - 5 * w) (maxOf x + 5 * w) w x, binOf (minOf x - 5 * w) (maxOf x + 5 * w) (nbins (minOf x - 5 * w) (maxOf x + 5 * w) w), ?_, ?_, ?_, h5, h6,
    one_div_pos.2 (simpson_pos (n := nbins (minOf x - 5 * w) (maxOf x + 5 * w) w) (by omega) (smoothed_pos w ((maxOf x + 5 * w - (minOf x - 5 * w)) / nbins (minOf x - 5 * w) (maxOf x + 5 * w) w) (halfKernel w ((maxOf x + 5 * w - (minOf x - 5 * w)) / nbins (minOf x - 5 * w) (maxOf x + 5 * w) w)) (nbins (minOf x - 5 * w) (maxOf x + 5 * w) w) (counts (minOf x - 5 * w) (maxOf x + 5 * w) (nbins (minOf x - 5 * w) (maxOf x + 5 * w) w) x)) h2),
    fun v hv => ⟨binOf_lt _ _ (by omega) v, bin_spec (by linarith) (by omega) (hin v hv).1 (hin v hv).2⟩, fun i => ?_, density_pos hw hg x, density_one hw hg x, onGrid_val hw hg hb x x⟩
  · have : (nbins (minOf x - 5 * w) (maxOf x + 5 * w) w : ℝ) ≠ 0 := by
      have : (200 : ℝ) ≤ nbins (minOf x - 5 * w) (maxOf x + 5 * w) w := by exact_mod_cast h1
      linarith
    field_simp
  · rwa [le_div_iff₀ h2] at h4
  · rwa [div_le_iff₀ h2] at h3
  · rw [← smoothed_eq (by omega) x hin i]
    unfold density
    dsimp only
    rw [hk]
    exact mul_comm _ _

/-! ### Gibbs' inequality -/

theorem gibbs {n : ℕ} {dx : ℝ} (hd : 0 < dx) {p q : ℕ → ℝ} (hp : ∀ i, 0 < p i) (hq : ∀ i, 0 < q i) (h1 : simpson n p dx = 1) :
    -simpson n (fun i => p i * log (p i)) dx ≤ -simpson n (fun i => p i * log (q i)) dx + (simpson n q dx - 1) := by
  have key : ∀ i, p i * log (q i) - p i * log (p i) ≤ q i - p i := by
    intro i
    have := log_le_sub_one_of_pos (div_pos (hq i) (hp i))
    rw [log_div (hq i).ne' (hp i).ne'] at this
    have h2 := mul_le_mul_of_nonneg_left this (hp i).le
    have e : p i * (q i / p i - 1) = q i - p i := by have := (hp i).ne'; field_simp
    rw [e] at h2
    linarith
  have hs : simpson n (fun i => p i * log (q i)) dx - simpson n (fun i => p i * log (p i)) dx ≤ simpson n q dx - simpson n p dx := by
    unfold simpson
    rw [← mul_sub, ← mul_sub, ← Finset.sum_sub_distrib, ← Finset.sum_sub_distrib]
    refine mul_le_mul_of_nonneg_left (Finset.sum_le_sum (fun i _ => ?_)) hd.le
    have := mul_le_mul_of_nonneg_left (key i) (simpsonW_pos n i).le
    rw [mul_sub, mul_sub] at this
    exact this
  rw [h1] at hs
  linarith

/-- C136. The approximate entropy is at most the logarithm of the length of the grid. -/
theorem approx_upper {x : List ℝ} (hx : x ≠ []) {w : ℝ} (hw : 0 < w) {H : ℝ} (hH : entropyApprox x w = .ok H) : H ≤ log ((maxOf x + 5 * w) - (minOf x - 5 * w)) := by
  have hg := entropy_grid hx hw
  obtain ⟨h1, h2, _⟩ := grid_facts hw hg
  have hb : nbins (minOf x - 5 * w) (maxOf x + 5 * w) w < 2 ^ 31 := by
    by_contra hb
    unfold entropyApprox onGrid at hH
    dsimp only at hH
    rw [if_pos (not_lt.1 hb)] at hH
    cases hH
  have hv : entropyApprox x w = _ := onGrid_val hw hg hb x x
  rw [hv] at hH
  generalize hlo : minOf x - 5 * w = lo at *
  generalize hhi : maxOf x + 5 * w = hi at *
  generalize hn : nbins lo hi w = n at *
  cases hH
  have hL : 0 < hi - lo := by linarith
  have hn0 : (0 : ℝ) < n := by
    have : 0 < n := by omega
    exact_mod_cast this
  have hq := gibbs (n := n) h2 (density_pos hw hg x) (q := fun _ => 1 / (hi - lo)) (fun _ => by positivity) (by have := density_one hw hg x; rwa [hn] at this)
  have e1 : simpson n (fun _ => 1 / (hi - lo)) ((hi - lo) / n) ≤ 1 := by
    unfold simpson
    rw [← Finset.sum_mul, simpsonW_sum n (by omega)]
    have : (hi - lo) / n * (((n : ℝ) - 1) * (1 / (hi - lo))) = (n - 1) / n := by field_simp
    rw [this, div_le_one hn0]
    linarith
  have e2 : simpson n (fun i => density lo hi w x i * log (1 / (hi - lo))) ((hi - lo) / n) = log (1 / (hi - lo)) := by
    rw [simpson_mul]
    have := density_one hw hg x
    rw [hn] at this
    rw [this, one_mul]
  rw [e2, one_div, log_inv] at hq
  simp only [one_div] at e1
  linarith

theorem overflow_iff (lo hi w : ℝ) (x y : List ℝ) : (∃ H, onGrid lo hi w x y = .ok H) ↔ nbins lo hi w < 2 ^ 31 := by
  unfold onGrid
  dsimp only
  split
  · rename_i h
    constructor
    · rintro ⟨H, hH⟩
      cases hH
    · intro h'
      exact absurd h (not_le.2 h')
  · rename_i h
    exact ⟨fun _ => not_le.1 h, fun _ => ⟨_, rfl⟩⟩

/-- C136. On one grid, the cross-entropy is at least the entropy: if the values of y lie between the least and the greatest of x, the approximate divergence is not negative. It is 0 for y = x. -/
theorem kl_nonneg {x y : List ℝ} (hx : x ≠ []) (hy : y ≠ []) {w : ℝ} (hw : 0 < w) (hlo : minOf x ≤ minOf y) (hhi : maxOf y ≤ maxOf x) {D : ℝ} (hD : klMode "approx" x y w = .ok D) :
    0 ≤ D ∧ (y = x → D = 0) := by
  have hcx : crossApprox x y w = onGrid (minOf x - 5 * w) (maxOf x + 5 * w) w x y := by
    unfold crossApprox
    rw [min_eq_left hlo, max_eq_left hhi]
  have hm : klMode "approx" x y w = (do let a ← crossApprox x y w; let b ← entropyApprox x w; .ok (a - b)) := by
    have hs : ("approx".startsWith "exact") = false := by decide +kernel
    unfold klMode crossMode entropyMode
    have l1 : ¬ x.length = 0 := by simp [hx]
    have l2 : ¬ (x.length = 0 ∨ y.length = 0) := by simp [hx, hy]
    simp only [if_neg l1, if_neg l2, if_neg (not_le.2 hw), show ¬ ("approx" = "size") by decide, if_false, hs, Bool.false_eq_true]
  rw [hm, hcx] at hD
  have hg := entropy_grid hx hw
  by_cases hb : nbins (minOf x - 5 * w) (maxOf x + 5 * w) w < 2 ^ 31
  · have hv1 := onGrid_val hw hg hb x y
    have hv2 : entropyApprox x w = _ := onGrid_val hw hg hb x x
    rw [hv1, hv2] at hD
    have hD' : _ - _ = D := Except.ok.inj hD
    have hgi := gibbs (n := nbins (minOf x - 5 * w) (maxOf x + 5 * w) w) (grid_facts hw hg).2.1 (density_pos hw hg x) (density_pos hw hg y) (density_one hw hg x)
    rw [density_one hw hg y] at hgi
    refine ⟨by linarith, ?_⟩
    rintro rfl
    linarith
  · have : onGrid (minOf x - 5 * w) (maxOf x + 5 * w) w x y = .error .exception := by
      unfold onGrid
      dsimp only
      rw [if_pos (not_lt.1 hb)]
    rw [this] at hD
    cases hD

/-! ### symmetries -/

theorem onGrid_congr {lo hi w lo' hi' w' : ℝ} {x y x' y' : List ℝ} (hl : lo = lo') (hh : hi = hi') (hw : w = w') (h1 : ∀ n i, counts lo hi n x i = counts lo hi n x' i)
    (h2 : ∀ n i, counts lo hi n y i = counts lo hi n y' i) : onGrid lo hi w x y = onGrid lo' hi' w' x' y' := by
  subst hl hh hw
  have e1 : density lo hi w x = density lo hi w x' := by
    funext i
    unfold density
    dsimp only
    rw [show counts lo hi (nbins lo hi w) x = counts lo hi (nbins lo hi w) x' from funext (h1 _)]
  have e2 : density lo hi w y = density lo hi w y' := by
    funext i
    unfold density
    dsimp only
    rw [show counts lo hi (nbins lo hi w) y = counts lo hi (nbins lo hi w) y' from funext (h2 _)]
  unfold onGrid
  rw [e1, e2]

theorem minOf_perm {x x' : List ℝ} (h : x.Perm x') : minOf x = minOf x' := by
  by_cases hx : x' = []
  · subst hx; rw [h.eq_nil]
  · have := minOf_spec hx
    exact minOf_eq (h.symm.subset this.1) (fun v hv => this.2 v (h.subset hv))

theorem maxOf_perm {x x' : List ℝ} (h : x.Perm x') : maxOf x = maxOf x' := by
  by_cases hx : x' = []
  · subst hx; rw [h.eq_nil]
  · have := maxOf_spec hx
    exact maxOf_eq (h.symm.subset this.1) (fun v hv => this.2 v (h.subset hv))

/-- C136. The order of the data does not matter, for entropies and cross-entropies. -/
theorem approx_perm {x x' y y' : List ℝ} (h : x.Perm x') (h' : y.Perm y') (w : ℝ) : entropyApprox x w = entropyApprox x' w ∧ crossApprox x y w = crossApprox x' y' w := by
  constructor
  · unfold entropyApprox
    exact onGrid_congr (by rw [minOf_perm h]) (by rw [maxOf_perm h]) rfl (fun n i => h.countP_eq _) (fun n i => h.countP_eq _)
  · unfold crossApprox
    exact onGrid_congr (by rw [minOf_perm h, minOf_perm h']) (by rw [maxOf_perm h, maxOf_perm h']) rfl (fun n i => h.countP_eq _) (fun n i => h'.countP_eq _)

theorem minOf_map {x : List ℝ} (hx : x ≠ []) {f : ℝ → ℝ} (hf : StrictMono f) : minOf (x.map f) = f (minOf x) := by
  have := minOf_spec hx
  refine minOf_eq (List.mem_map.2 ⟨_, this.1, rfl⟩) (fun v hv => ?_)
  obtain ⟨u, hu, rfl⟩ := List.mem_map.1 hv
  exact hf.monotone (this.2 u hu)

theorem maxOf_map {x : List ℝ} (hx : x ≠ []) {f : ℝ → ℝ} (hf : StrictMono f) : maxOf (x.map f) = f (maxOf x) := by
  have := maxOf_spec hx
  refine maxOf_eq (List.mem_map.2 ⟨_, this.1, rfl⟩) (fun v hv => ?_)
  obtain ⟨u, hu, rfl⟩ := List.mem_map.1 hv
  exact hf.monotone (this.2 u hu)

theorem affine_mono {s : ℝ} (hs : 0 < s) (t : ℝ) : StrictMono (fun v => s * v + t) := fun a b h => by
  have := mul_lt_mul_of_pos_left h hs
  dsimp only
  linarith

theorem onGrid_affine {s : ℝ} (hs : 0 < s) (t lo hi w : ℝ) (hw : 0 < w) (h : 10 * w ≤ hi - lo) (x y : List ℝ) :
    onGrid (s * lo + t) (s * hi + t) (s * w) (x.map (fun v => s * v + t)) (y.map (fun v => s * v + t)) = (onGrid lo hi w x y).map (fun H => H + log s) := by
  have hn : nbins (s * lo + t) (s * hi + t) (s * w) = nbins lo hi w := by
    unfold nbins
    congr 2
    have : s * hi + t - (s * lo + t) = s * (hi - lo) := by ring
    rw [this]
    field_simp
  have hg' : 10 * (s * w) ≤ s * hi + t - (s * lo + t) := by nlinarith
  by_cases hb : nbins lo hi w < 2 ^ 31
  · rw [onGrid_val hw h hb, onGrid_val (mul_pos hs hw) hg' (by rw [hn]; exact hb), hn]
    have hdb : (s * hi + t - (s * lo + t)) / nbins lo hi w = s * ((hi - lo) / nbins lo hi w) := by ring
    have hc : ∀ l : List ℝ, counts (s * lo + t) (s * hi + t) (nbins lo hi w) (l.map (fun v => s * v + t)) = counts lo hi (nbins lo hi w) l := by
      intro l
      funext i
      unfold counts
      rw [List.countP_map]
      refine List.countP_congr (fun v _ => ?_)
      have e1 : (s * lo + t ≤ s * v + t) ↔ lo ≤ v := by
        constructor
        · intro h; by_contra h'; nlinarith [mul_lt_mul_of_pos_left (not_le.1 h') hs]
        · intro h; have := mul_le_mul_of_nonneg_left h hs.le; linarith
      have e2 : (s * v + t ≤ s * hi + t) ↔ v ≤ hi := by
        constructor
        · intro h; by_contra h'; nlinarith [mul_lt_mul_of_pos_left (not_le.1 h') hs]
        · intro h; have := mul_le_mul_of_nonneg_left h hs.le; linarith
      have e3 : binOf (s * lo + t) (s * hi + t) (nbins lo hi w) (s * v + t) = binOf lo hi (nbins lo hi w) v := by
        unfold binOf
        congr 2
        have a1 : s * v + t - (s * lo + t) = s * (v - lo) := by ring
        have a2 : s * hi + t - (s * lo + t) = s * (hi - lo) := by ring
        rw [a1, a2, mul_div_mul_left _ _ hs.ne']
      simp only [Function.comp, decide_eq_true_eq]
      rw [e1, e2, e3]
    have hk : ∀ db : ℝ, halfKernel (s * w) (s * db) = halfKernel w db := by
      intro db
      unfold halfKernel
      congr 2
      rw [show 15 * (s * w) = s * (15 * w) by ring, mul_div_mul_left _ _ hs.ne']
    have hke : ∀ (db : ℝ) (nx : ℕ), kernel (s * w) (s * db) nx = kernel w db nx := by
      intro db nx
      funext u
      unfold kernel
      congr 3
      rw [show ((u : ℝ) - nx) * (s * db) = s * (((u : ℝ) - nx) * db) by ring, mul_div_mul_left _ _ hs.ne']
    have hsm : ∀ (db : ℝ) (nx n : ℕ) (c : ℕ → ℕ), smoothed (s * w) (s * db) nx n c = smoothed w db nx n c := by
      intro db nx n c
      funext i
      unfold smoothed fullConv
      rw [hke]
    have hd : ∀ (l : List ℝ) (i : ℕ), density (s * lo + t) (s * hi + t) (s * w) (l.map (fun v => s * v + t)) i = density lo hi w l i / s := by
      intro l i
      unfold density
      dsimp only
      rw [hn, hdb, hc, hk, hsm]
      have : ∀ (n : ℕ) (f : ℕ → ℝ) (dx : ℝ), simpson n f (s * dx) = s * simpson n f dx := by
        intro n f dx; unfold simpson; ring
      rw [this, one_div, one_div, mul_inv]
      rw [div_eq_mul_inv]
      ring
    rw [hdb]
    simp only [hd]
    show Except.ok _ = Except.ok _
    congr 1
    have hone := density_one hw h x
    unfold simpson at hone ⊢
    have e4 : ∀ i, simpsonW (nbins lo hi w) i * (density lo hi w x i / s * log (density lo hi w y i / s)) =
        (simpsonW (nbins lo hi w) i * (density lo hi w x i * log (density lo hi w y i)) - simpsonW (nbins lo hi w) i * density lo hi w x i * log s) / s := by
      intro i
      rw [log_div (density_pos hw h y i).ne' hs.ne']
      ring
    rw [Finset.sum_congr rfl (fun i _ => e4 i)]
    have e5 : ∀ (n : ℕ) (f : ℕ → ℝ), ∑ i ∈ Finset.range n, f i / s = (∑ i ∈ Finset.range n, f i) / s := by
      intro n f
      rw [div_eq_mul_inv, Finset.sum_mul]
      rfl
    rw [e5, Finset.sum_sub_distrib, ← Finset.sum_mul]
    have hs' := hs.ne'
    generalize hA : ∑ i ∈ Finset.range (nbins lo hi w), simpsonW (nbins lo hi w) i * (density lo hi w x i * log (density lo hi w y i)) = A
    generalize hB : ∑ i ∈ Finset.range (nbins lo hi w), simpsonW (nbins lo hi w) i * density lo hi w x i = B at hone
    generalize (hi - lo) / (nbins lo hi w : ℝ) = db at hone ⊢
    have : s * db * ((A - B * log s) / s) = db * A - (db * B) * log s := by field_simp
    rw [this, hone]
    ring
  · have e1 : ∀ lo hi w (x y : List ℝ), 2 ^ 31 ≤ nbins lo hi w → onGrid lo hi w x y = .error .exception := by
      intro lo hi w x y h
      unfold onGrid
      dsimp only
      rw [if_pos h]
    rw [e1 _ _ _ _ _ (not_lt.1 hb), e1 _ _ _ _ _ (by rw [hn]; exact not_lt.1 hb)]
    rfl

/-- C136. Moving the data does not change the approximate entropy; data and width in units s times smaller raise it by log s. -/
theorem approx_affine {s : ℝ} (hs : 0 < s) (t : ℝ) {x y : List ℝ} (hx : x ≠ []) (hy : y ≠ []) {w : ℝ} (hw : 0 < w) :
    entropyApprox (x.map (fun v => s * v + t)) (s * w) = (entropyApprox x w).map (fun H => H + log s) ∧
    crossApprox (x.map (fun v => s * v + t)) (y.map (fun v => s * v + t)) (s * w) = (crossApprox x y w).map (fun H => H + log s) := by
  constructor
  · unfold entropyApprox
    rw [minOf_map hx (affine_mono hs t), maxOf_map hx (affine_mono hs t), ← onGrid_affine hs t _ _ w hw (entropy_grid hx hw) x x]
    congr 1 <;> ring
  · unfold crossApprox
    rw [minOf_map hx (affine_mono hs t), maxOf_map hx (affine_mono hs t), minOf_map hy (affine_mono hs t), maxOf_map hy (affine_mono hs t),
      ← (affine_mono hs t).monotone.map_min, ← (affine_mono hs t).monotone.map_max, ← onGrid_affine hs t _ _ w hw (cross_grid hx hw) x y]
    congr 1 <;> ring

/-! ### which way is taken -/

/-- C136. The mode: "exact" (or a longer word) means exact, any other word but "size" the approximation, and "size" exact for up to 200000 values, in the cross-entropy of both sets together. -/
theorem mode_spec {x y : List ℝ} (hx : x ≠ []) (hy : y ≠ []) {w : ℝ} (hw : 0 < w) (mode : String) :
    (mode ≠ "size" → mode.startsWith "exact" = true → entropyMode mode x w = laplaceEntropy exp x w ∧ crossMode mode x y w = crossEntropy x y w) ∧
    (mode ≠ "size" → mode.startsWith "exact" = false → entropyMode mode x w = entropyApprox x w ∧ crossMode mode x y w = crossApprox x y w) ∧
    (x.length ≤ 200000 → entropyMode "size" x w = laplaceEntropy exp x w) ∧ (200000 < x.length → entropyMode "size" x w = entropyApprox x w) ∧
    (x.length + y.length ≤ 200000 → crossMode "size" x y w = crossEntropy x y w) ∧ (200000 < x.length + y.length → crossMode "size" x y w = crossApprox x y w) := by
  have h1 : ¬ x.length = 0 := by simp [hx]
  have h2 : ¬ (x.length = 0 ∨ y.length = 0) := by simp [hx, hy]
  have h3 : ¬ w ≤ 0 := not_le.2 hw
  have s1 : ("exact".startsWith "exact") = true := by decide +kernel
  have s2 : ("approx".startsWith "exact") = false := by decide +kernel
  unfold entropyMode crossMode
  simp only [if_neg h1, if_neg h2, if_neg h3]
  refine ⟨fun h h' => ?_, fun h h' => ?_, fun h => ?_, fun h => ?_, fun h => ?_, fun h => ?_⟩
  · simp only [if_neg h, h', if_true, and_self]
  · simp only [if_neg h, h']
    exact ⟨rfl, rfl⟩
  · simp only [if_true, if_pos h, s1]
  · simp only [if_true, if_neg (not_le.2 h), s2]; rfl
  · simp only [if_true, if_pos h, s1]
  · simp only [if_true, if_neg (not_le.2 h), s2]; rfl

/-- C136. No data, or a width that is not positive: ValueError in every mode. -/
theorem mode_refused (mode : String) (x y : List ℝ) (w : ℝ) :
    ((x = [] ∨ w ≤ 0) → entropyMode mode x w = .error .value) ∧ ((x = [] ∨ y = [] ∨ w ≤ 0) → crossMode mode x y w = .error .value ∧ klMode mode x y w = .error .value) := by
  have hc : (x = [] ∨ y = [] ∨ w ≤ 0) → crossMode mode x y w = .error .value := by
    intro h
    unfold crossMode
    by_cases h0 : w ≤ 0
    · rw [if_pos h0]
    · rw [if_neg h0, if_pos]
      rcases h with h | h | h
      · exact Or.inl (by simp [h])
      · exact Or.inr (by simp [h])
      · exact absurd h h0
  refine ⟨fun h => ?_, fun h => ⟨hc h, ?_⟩⟩
  · unfold entropyMode
    rcases h with rfl | h
    · rfl
    · by_cases h0 : x.length = 0
      · rw [if_pos h0]
      · rw [if_neg h0, if_pos h]
  · unfold klMode
    rw [hc h]
    rfl

/-! ### where the code differs -/

/-- Disagreement (C136): the limit on the size is applied to each step of the divergence separately, so with at most 200000 values in the first set and more in both together it is the difference of an
approximate cross-entropy (Laplace kernel for both, on a grid) and an exact entropy, two quantities of different definition. -/
theorem kl_mixed_fails {x y : List ℝ} (hx : x ≠ []) (hy : y ≠ []) {w : ℝ} (hw : 0 < w) (h1 : x.length ≤ 200000) (h2 : 200000 < x.length + y.length) :
    klMode "size" x y w = (do let a ← crossApprox x y w; let b ← laplaceEntropy exp x w; .ok (a - b)) := by
  have h := mode_spec hx hy hw "size"
  unfold klMode
  rw [h.2.2.1 h1, h.2.2.2.2.2 h2]

/-- Disagreement (C136): one value far from the others, more than about 1e8 widths away, makes the approximation fail with an OverflowError, for any number of data, although the exact entropy exists
(the limits of the histogram are the extreme values). -/
theorem outlier_fails (x : List ℝ) (w : ℝ) (hw : 0 < w) (hx : x ≠ []) (h : 2 ^ 31 / 20 * w ≤ maxOf x - minOf x) :
    entropyApprox x w = .error .exception ∧ ∃ H, laplaceEntropy exp x w = .ok H := by
  refine ⟨?_, _, ((laplace_entropy_partial x w).2 hx hw).2⟩
  unfold entropyApprox onGrid
  dsimp only
  rw [if_pos]
  unfold nbins
  refine Nat.le_floor ?_
  have : (2 : ℝ) ^ 31 ≤ (maxOf x + 5 * w - (minOf x - 5 * w)) * 20 / w := by
    rw [le_div_iff₀ hw]
    norm_num at h ⊢
    nlinarith
  push_cast
  linarith

/-- Disagreement (C136): the approximation takes the Laplace kernel for the second data set too, instead of the top-hat with a floor that is documented and used by the exact mode. So the divergence of
a set from itself is 0 in approximate mode, and not in exact mode. -/
theorem kernel_fails : klMode "approx" [0] [0] 1 = .ok 0 ∧ ∃ D, klMode "exact" [0] [0] 1 = .ok D ∧ 0 < D := by
  constructor
  · have hne : ([0] : List ℝ) ≠ [] := by simp
    have hb : nbins (minOf [(0 : ℝ)] - 5 * 1) (maxOf [(0 : ℝ)] + 5 * 1) 1 < 2 ^ 31 := by
      have h1 : minOf [(0 : ℝ)] = 0 := minOf_eq (by simp) (by simp)
      have h2 : maxOf [(0 : ℝ)] = 0 := maxOf_eq (by simp) (by simp)
      rw [h1, h2]
      unfold nbins
      refine (Nat.floor_lt (by norm_num)).2 ?_
      norm_num
    have hg := entropy_grid hne one_pos
    have hv := onGrid_val one_pos hg hb [(0 : ℝ)] [0]
    obtain ⟨D, hD⟩ : ∃ D, klMode "approx" [0] [0] 1 = .ok D := by
      have hs : ("approx".startsWith "exact") = false := by decide +kernel
      unfold klMode crossMode entropyMode
      have l0 : ¬ (1 : ℝ) ≤ 0 := by norm_num
      have l1 : ¬ ([0] : List ℝ).length = 0 := by simp
      have l2 : ¬ (([0] : List ℝ).length = 0 ∨ ([0] : List ℝ).length = 0) := by simp
      simp only [if_neg l0, if_neg l1, if_neg l2, show ¬ ("approx" = "size") by decide, if_false, hs]
      have hc : crossApprox [0] [0] 1 = entropyApprox [0] 1 := by unfold crossApprox entropyApprox; rw [min_self, max_self]
      have he : entropyApprox [0] 1 = _ := hv
      simp only [Bool.false_eq_true, if_false, hc, he]
      exact ⟨_, rfl⟩
    rw [hD, (kl_nonneg hne hne one_pos (le_refl _) (le_refl _) hD).2 rfl]
  · have hs : ("exact".startsWith "exact") = true := by decide +kernel
    obtain ⟨lo, hi, hlo, hhi, hint, hval⟩ := (cross_entropy_exact [0] [0] 1).2 (by simp) (by simp) one_pos
    refine ⟨(-∫ u, kde [0] 1 u * log (topHat [0] 1 lo hi u)) - (1 + log (2 * 1)), ?_, ?_⟩
    · unfold klMode crossMode entropyMode
      simp only [show ¬ ("exact" = "size") by decide, if_false, hs, if_true]
      rw [if_neg (by norm_num), if_neg (by simp), if_neg (by simp), if_neg (by norm_num), hval, laplace_entropy_single 0 one_pos]
      rfl
    · have hk := kde_density (x := [0]) (by simp) one_pos
      have h6 : (12 / 5 : ℝ) ≤ √6 := by
        rw [show (12 / 5 : ℝ) = √((12 / 5) ^ 2) by rw [sqrt_sq (by norm_num)]]
        exact sqrt_le_sqrt (by norm_num)
      have h13 : √(((List.length [(0 : ℝ)] : ℕ) : ℝ) + 3) = 2 := by
        rw [show (((List.length [(0 : ℝ)] : ℕ) : ℝ) + 3) = 2 ^ 2 by norm_num]
        exact sqrt_sq (by norm_num)
      have hle : lo ≤ hi := le_trans (hlo.2 (.inl (by simp : (0 : ℝ) ∈ [0]))) (hhi.2 (.inl (by simp : (0 : ℝ) ∈ [0])))
      have hq : ∀ u, topHat [0] 1 lo hi u ≤ 1 / 7 := by
        intro u
        unfold topHat
        rw [h13]
        have hn : ((near [0] (√6 * 1) u : ℕ) : ℝ) / (List.length [(0 : ℝ)] : ℕ) ≤ 1 := by
          have : near [0] (√6 * 1) u ≤ 1 := by unfold near; exact List.countP_le_length
          have : ((near [0] (√6 * 1) u : ℕ) : ℝ) ≤ 1 := by exact_mod_cast this
          simpa using this
        have a1 : (1 / 2 : ℝ) / (hi + 10 * 1 - (lo - 10 * 1)) ≤ 1 / 40 := by
          rw [div_le_div_iff₀ (by linarith) (by norm_num)]
          linarith
        have a2 : (1 - 1 / 2 : ℝ) * (((near [0] (√6 * 1) u : ℕ) : ℝ) / (List.length [(0 : ℝ)] : ℕ)) / (2 * (√6 * 1)) ≤ 5 / 48 := by
          rw [div_le_div_iff₀ (by linarith) (by norm_num)]
          nlinarith
        linarith
      have hlog : ∀ u, kde [0] 1 u * log (topHat [0] 1 lo hi u) ≤ kde [0] 1 u * log (1 / 7) := by
        intro u
        refine mul_le_mul_of_nonneg_left (log_le_log (topHat_pos [0] one_pos hle u) (hq u)) ?_
        unfold kde
        refine div_nonneg (List.sum_nonneg ?_) (Nat.cast_nonneg _)
        intro a ha
        obtain ⟨b, _, rfl⟩ := List.mem_map.1 ha
        positivity
      have hi2 := integral_mono hint (hk.1.mul_const _) hlog
      rw [integral_mul_const, hk.2, one_mul, one_div, log_inv] at hi2
      have h7 : 1 + log (2 * 1) < log 7 := by
        have e1 : log 7 = log (7 / 2) + log 2 := by rw [← log_mul (by norm_num) (by norm_num)]; norm_num
        have e2 : 1 < log (7 / 2) := by
          rw [lt_log_iff_exp_lt (by norm_num)]
          have := exp_one_lt_d9
          linarith
        rw [e1, mul_one]
        linarith
      linarith

/-! ### examples -/

-- one value: 200 bins, 300 samples of the kernel each side
example : nbins (-5) 5 1 = 200 ∧ binOf (-5) 5 200 0 = 100 ∧ binOf (-5) 5 200 5 = 199 := by
  refine ⟨?_, ?_, ?_⟩
  · unfold nbins; norm_num [Nat.floor_eq_iff]
  · unfold binOf; norm_num
  · unfold binOf; norm_num

example : entropyApprox [0, 2 ^ 31] 1 = .error .exception := by
  refine (outlier_fails _ 1 one_pos (by simp) ?_).1
  rw [minOf_eq (m := 0) (by simp) (by simp), maxOf_eq (m := 2 ^ 31) (by simp) (by simp)]
  norm_num

end Mass.Stat.Approx
