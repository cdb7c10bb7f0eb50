import Verif.Stat.Median
/-! C86, C87: robust estimates of location (mass/mathstat/robust.pyx: `bisquare_weighted_mean`, `huber_weighted_mean`, `trimean`,
`median_abs_dev`). Numbers are elements of an ordered field (the code uses float64); NaN and infinity are `none`. -/
namespace Mass.Stat
open Mass
variable {K : Type} [Field K] [LinearOrder K] [IsStrictOrderedRing K]

set_option linter.unusedSectionVars false

/-! ### model -/

/-- robust.pyx L130-144 `median_abs_dev`, not normalised, of a non-empty array -/
def mad (x : List K) : K := FirstN.median (x.map (fun y => |y - FirstN.median x|))

/-- robust.pyx L70, L109: `(weights*x).sum()/weights.sum()`; a zero sum of weights makes NaN or infinity -/
def wmean (w : K → K) (x : List K) : Option K :=
  if (x.map w).sum = 0 then none else some ((x.map (fun y => w y * y)).sum / (x.map w).sum)

/-- robust.pyx L68-69: bisquare weight of the value `y`, `k ≠ 0` -/
def bisquareW (k c y : K) : K := if |y - c| > k then 0 else (1 - ((y - c) / k) ^ 2) ^ 2

/-- robust.pyx L107-108: Huber weight of the value `y`, `k > 0`; at the center the quotient is infinite and cut to 1 -/
def huberW (k c y : K) : K := if y = c then 1 else if k / |y - c| > 1 then 1 else k / |y - c|

/-- robust.pyx L67-75, L106-114: at most 100 passes (`n` of them are left), ended when the center changes by less than `tol`; a center NaN or infinite
stays so and is never accepted. -/
def passes (step : K → Option K) (tol : K) : Nat → Option K → Except Exc K
  | 0, _ => .error .exception
  | n + 1, none => passes step tol n none
  | n + 1, some c =>
    match step c with
    | none => passes step tol n none
    | some c' => if |c' - c| < tol then .ok c' else passes step tol n (some c')

/-- robust.pyx L61-65, L100-104: the defaults of center (the median, NaN without data) and tolerance -/
def defaults (x : List K) (center tol : Option K) : Option K × K :=
  (match center with
   | some c => some c
   | none => if x = [] then none else some (FirstN.median x),
   match tol with
   | some t => t
   | none => 1 / 100000 * (mad x / (674480 / 1000000)))

/-- robust.pyx L39-75 `bisquare_weighted_mean` of an array. With `k = 0` every weight is 0 or NaN. -/
def bisquareMean (x : List K) (k : K) (center tol : Option K) : Except Exc K :=
  let (c, t) := defaults x center tol
  passes (fun c => if k = 0 then none else wmean (bisquareW k c) x) t 100 c

/-- robust.pyx L78-114 `huber_weighted_mean` of an array, `k > 0` -/
def huberMean (x : List K) (k : K) (center tol : Option K) : Except Exc K :=
  let (c, t) := defaults x center tol
  passes (fun c => wmean (huberW k c) x) t 100 c

/-- `np.percentile(x, 25*j)` for j = 1, 2, 3 of a non-empty array: linear interpolation between the sorted data (used for robust.pyx L126) -/
def quartile (x : List K) (j : Nat) : K :=
  let s := sort x
  let p := (x.length - 1) * j
  s.getD (p / 4) 0 + ((p % 4 : Nat) : K) / 4 * (s.getD (p / 4 + 1) 0 - s.getD (p / 4) 0)

/-- robust.pyx L118-128 `trimean` of a non-empty array -/
def trimean (x : List K) : K := 1 / 4 * (quartile x 1 + quartile x 3) + 1 / 2 * quartile x 2

/-! ### sorting and maps -/

theorem sort_eq {x s : List K} (hp : s.Perm x) (hs : s.Pairwise (· ≤ ·)) : sort x = s :=
  ((sort_perm x).trans hp.symm).eq_of_pairwise' (sort_sorted x) hs

theorem sort_congr {x y : List K} (h : x.Perm y) : sort x = sort y := sort_eq ((sort_perm y).trans h.symm) (sort_sorted y)

theorem sort_map_pos {s : K} (hs : 0 < s) (a : K) (x : List K) : sort (x.map (fun y => s * y + a)) = (sort x).map (fun y => s * y + a) := by
  apply sort_eq ((sort_perm x).map _)
  rw [List.pairwise_map]
  exact (sort_sorted x).imp (fun h => by nlinarith)

theorem sort_map_neg {s : K} (hs : s < 0) (a : K) (x : List K) : sort (x.map (fun y => s * y + a)) = ((sort x).map (fun y => s * y + a)).reverse := by
  apply sort_eq ((List.reverse_perm _).trans ((sort_perm x).map _))
  rw [List.pairwise_reverse, List.pairwise_map]
  exact (sort_sorted x).imp (fun h => by nlinarith)

theorem getD_map_lt (f : K → K) (l : List K) {i : Nat} (hi : i < l.length) : (l.map f).getD i 0 = f (l.getD i 0) := by
  simp [List.getD_eq_getElem?_getD, hi]

theorem getD_reverse_lt (l : List K) {i : Nat} (hi : i < l.length) : l.reverse.getD i 0 = l.getD (l.length - 1 - i) 0 := by
  rw [List.getD_eq_getElem?_getD, List.getD_eq_getElem?_getD, List.getElem?_reverse hi]

theorem sorted_neg_at {s : K} (hs : s < 0) (a : K) (x : List K) {i : Nat} (hi : i < x.length) :
    (sort (x.map (fun y => s * y + a))).getD i 0 = s * (sort x).getD (x.length - 1 - i) 0 + a := by
  rw [sort_map_neg hs, getD_reverse_lt _ (by simpa [sort_length] using hi), List.length_map, sort_length, getD_map_lt _ _ (by rw [sort_length]; omega)]

theorem sorted_pos_at {s : K} (hs : 0 < s) (a : K) (x : List K) {i : Nat} (hi : i < x.length) :
    (sort (x.map (fun y => s * y + a))).getD i 0 = s * (sort x).getD i 0 + a := by
  rw [sort_map_pos hs, getD_map_lt _ _ (by rw [sort_length]; exact hi)]

/-- quartiles move with the data; a reflection exchanges lower and upper -/
theorem quartile_pos {s : K} (hs : 0 < s) (a : K) {x : List K} (hx : x ≠ []) {j : Nat} (hj : j < 4) :
    quartile (x.map (fun y => s * y + a)) j = s * quartile x j + a := by
  have hpos : 0 < x.length := List.length_pos_of_ne_nil hx
  unfold quartile
  dsimp only
  rw [List.length_map]
  have h1 : (x.length - 1) * j / 4 < x.length := by
    have : (x.length - 1) * j ≤ (x.length - 1) * 3 := Nat.mul_le_mul_left _ (by omega)
    omega
  rw [sorted_pos_at hs a x h1]
  by_cases hr : (x.length - 1) * j % 4 = 0
  · rw [hr]; simp
  · have h2 : (x.length - 1) * j / 4 + 1 < x.length := by
      have : (x.length - 1) * j ≤ (x.length - 1) * 3 := Nat.mul_le_mul_left _ (by omega)
      omega
    rw [sorted_pos_at hs a x h2]
    ring

theorem quartile_neg {s : K} (hs : s < 0) (a : K) {x : List K} (hx : x ≠ []) {j : Nat} (hj : j < 4) (hj0 : 1 ≤ j) :
    quartile (x.map (fun y => s * y + a)) j = s * quartile x (4 - j) + a := by
  have hpos : 0 < x.length := List.length_pos_of_ne_nil hx
  unfold quartile
  dsimp only
  rw [List.length_map]
  have hm : (x.length - 1) * (4 - j) + (x.length - 1) * j = 4 * (x.length - 1) := by
    rw [← Nat.mul_add]
    have : 4 - j + j = 4 := by omega
    rw [this]; ring
  have hle : (x.length - 1) * j ≤ (x.length - 1) * 3 := Nat.mul_le_mul_left _ (by omega)
  generalize hp : (x.length - 1) * j = p at *
  generalize hq : (x.length - 1) * (4 - j) = q at *
  have h1 : p / 4 < x.length := by omega
  rw [sorted_neg_at hs a x h1]
  by_cases hr : p % 4 = 0
  · have hr' : q % 4 = 0 := by omega
    rw [hr, hr']
    have : x.length - 1 - p / 4 = q / 4 := by omega
    rw [this]; simp
  · have h2 : p / 4 + 1 < x.length := by omega
    rw [sorted_neg_at hs a x h2]
    have e1 : x.length - 1 - p / 4 = q / 4 + 1 := by omega
    have e2 : x.length - 1 - (p / 4 + 1) = q / 4 := by omega
    rw [e1, e2]
    have e3 : ((p % 4 : Nat) : K) = 4 - ((q % 4 : Nat) : K) := by
      have h3 : p % 4 + q % 4 = 4 := by omega
      have : ((p % 4 : Nat) : K) + ((q % 4 : Nat) : K) = 4 := by exact_mod_cast h3
      linarith
    rw [e3]
    ring

theorem quartile_median {x : List K} (hx : x ≠ []) : quartile x 2 = FirstN.median x := by
  have hpos : 0 < x.length := List.length_pos_of_ne_nil hx
  unfold quartile FirstN.median
  dsimp only
  change _ = if x.length % 2 = 1 then (sort x).getD (x.length / 2) 0 else ((sort x).getD (x.length / 2 - 1) 0 + (sort x).getD (x.length / 2) 0) / 2
  by_cases h : x.length % 2 = 1
  · rw [if_pos h]
    have h1 : (x.length - 1) * 2 / 4 = x.length / 2 := by omega
    have h2 : (x.length - 1) * 2 % 4 = 0 := by omega
    rw [h1, h2]; simp
  · rw [if_neg h]
    have h1 : (x.length - 1) * 2 / 4 = x.length / 2 - 1 := by omega
    have h2 : (x.length - 1) * 2 % 4 = 2 := by omega
    have h3 : x.length / 2 - 1 + 1 = x.length / 2 := by omega
    rw [h1, h2, h3]
    push_cast
    ring

theorem map_ne_nil {f : K → K} {x : List K} (hx : x ≠ []) : x.map f ≠ [] := by simpa using hx

theorem median_affine {s : K} (hs : s ≠ 0) (a : K) {x : List K} (hx : x ≠ []) :
    FirstN.median (x.map (fun y => s * y + a)) = s * FirstN.median x + a := by
  rw [← quartile_median (map_ne_nil hx), ← quartile_median hx]
  rcases lt_or_gt_of_ne hs with h | h
  · exact quartile_neg h a hx (by omega) (by omega)
  · exact quartile_pos h a hx (by omega)

theorem median_perm {x y : List K} (h : x.Perm y) : FirstN.median x = FirstN.median y := by
  unfold FirstN.median
  dsimp only
  change (if x.length % 2 = 1 then (sort x).getD (x.length / 2) 0 else ((sort x).getD (x.length / 2 - 1) 0 + (sort x).getD (x.length / 2) 0) / 2) =
    if y.length % 2 = 1 then (sort y).getD (y.length / 2) 0 else ((sort y).getD (y.length / 2 - 1) 0 + (sort y).getD (y.length / 2) 0) / 2
  rw [sort_congr h, h.length_eq]

theorem mad_affine {s : K} (hs : s ≠ 0) (a : K) {x : List K} (hx : x ≠ []) : mad (x.map (fun y => s * y + a)) = |s| * mad x := by
  unfold mad
  rw [median_affine hs a hx]
  have : (x.map (fun y => s * y + a)).map (fun y => |y - (s * FirstN.median x + a)|) =
      (x.map (fun y => |y - FirstN.median x|)).map (fun y => |s| * y + 0) := by
    rw [List.map_map, List.map_map]
    refine List.map_congr_left (fun y _ => ?_)
    simp only [Function.comp, add_zero]
    rw [← abs_mul]
    congr 1
    ring
  rw [this, median_affine (abs_ne_zero.2 hs) 0 (by simpa using hx), add_zero]

theorem mad_perm {x y : List K} (h : x.Perm y) : mad x = mad y := by
  unfold mad
  rw [median_perm h]
  exact median_perm (h.map _)

/-! ### C87: trimean and median absolute deviation -/

/-- C87: the trimean moves with the data under any change of units, reflections included -/
theorem trimean_affine {s : K} (hs : s ≠ 0) (a : K) {x : List K} (hx : x ≠ []) : trimean (x.map (fun y => s * y + a)) = s * trimean x + a := by
  unfold trimean
  rcases lt_or_gt_of_ne hs with h | h
  · rw [quartile_neg h a hx (j := 1) (by omega) (by omega), quartile_neg h a hx (j := 2) (by omega) (by omega), quartile_neg h a hx (j := 3) (by omega) (by omega)]
    ring
  · rw [quartile_pos h a hx (j := 1) (by omega), quartile_pos h a hx (j := 2) (by omega), quartile_pos h a hx (j := 3) (by omega)]
    ring

/-- C87: the order of the data does not matter -/
theorem trimean_perm {x y : List K} (h : x.Perm y) : trimean x = trimean y := by
  unfold trimean quartile
  dsimp only
  rw [sort_congr h, h.length_eq]

theorem sorted_ge {x : List K} {lo : K} {m i : Nat} (h : x.countP (fun y => decide (y < lo)) ≤ m) (hm : m ≤ i) (hi : i < x.length) : lo ≤ (sort x).getD i 0 := by
  by_contra hlt
  rw [not_le] at hlt
  have := le_countP_of (p := fun y => decide (y < lo)) (l := sort x) (k := i + 1) (by rw [sort_length]; omega)
    (fun j hj => by
      simp only [decide_eq_true_eq]
      exact lt_of_le_of_lt (sorted_mono (sort_sorted x) (by omega) (by rw [sort_length]; omega)) hlt)
  rw [(sort_perm x).countP_eq] at this
  omega

theorem quartile_ge {x : List K} {lo : K} (hx : x ≠ []) (h : x.countP (fun y => decide (y < lo)) ≤ (x.length - 1) / 4) {j : Nat} (h1 : 1 ≤ j) (h3 : j ≤ 3) :
    lo ≤ quartile x j := by
  have hpos : 0 < x.length := List.length_pos_of_ne_nil hx
  unfold quartile
  dsimp only
  have hle : (x.length - 1) * j ≤ (x.length - 1) * 3 := Nat.mul_le_mul_left _ (by omega)
  have hge : (x.length - 1) * 1 ≤ (x.length - 1) * j := Nat.mul_le_mul_left _ (by omega)
  generalize (x.length - 1) * j = p at *
  have a1 : lo ≤ (sort x).getD (p / 4) 0 := sorted_ge h (by omega) (by omega)
  by_cases hr : p % 4 = 0
  · rw [hr]; simpa using a1
  · have a2 : (sort x).getD (p / 4) 0 ≤ (sort x).getD (p / 4 + 1) 0 := sorted_mono (sort_sorted x) (by omega) (by rw [sort_length]; omega)
    have a3 : (0 : K) ≤ ((p % 4 : Nat) : K) / 4 := by positivity
    nlinarith

/-- C87: if no more than a quarter of the data (rounded down, not counting one value) are below `lo`, so is not the trimean; likewise above.
So the trimean cannot be carried away by a quarter of bad data. -/
theorem trimean_breakdown {x : List K} (hx : x ≠ []) {lo hi : K} (hlo : x.countP (fun y => decide (y < lo)) ≤ (x.length - 1) / 4)
    (hhi : x.countP (fun y => decide (hi < y)) ≤ (x.length - 1) / 4) : lo ≤ trimean x ∧ trimean x ≤ hi := by
  have key : ∀ {x : List K}, x ≠ [] → ∀ {lo : K}, x.countP (fun y => decide (y < lo)) ≤ (x.length - 1) / 4 → lo ≤ trimean x := by
    intro x hx lo h
    unfold trimean
    have h1 := quartile_ge hx h (j := 1) (by omega) (by omega)
    have h2 := quartile_ge hx h (j := 2) (by omega) (by omega)
    have h3 := quartile_ge hx h (j := 3) (by omega) (by omega)
    linarith
  refine ⟨key hx hlo, ?_⟩
  have := key (x := x.map (fun y => (-1) * y + 0)) (by simpa using hx) (lo := -hi) (by
    rw [List.countP_map, List.length_map]
    refine le_trans (le_of_eq (List.countP_congr (fun y _ => ?_))) hhi
    simp)
  rw [trimean_affine (by norm_num) 0 hx] at this
  linarith

/-- C87: the trimean combines the quartiles as documented, the middle one being the median -/
theorem trimean_median {x : List K} (hx : x ≠ []) : trimean x = (quartile x 1 + quartile x 3) / 4 + FirstN.median x / 2 := by
  unfold trimean
  rw [quartile_median hx]
  ring

/-- half of the data are at most the median, half at least -/
theorem median_half {x : List K} (hx : x ≠ []) :
    x.length ≤ 2 * x.countP (fun y => decide (y ≤ FirstN.median x)) ∧ x.length ≤ 2 * x.countP (fun y => decide (FirstN.median x ≤ y)) := by
  obtain ⟨a, b, ha, hb, hm⟩ := FirstN.median_middle hx
  have hpos : 0 < x.length := List.length_pos_of_ne_nil hx
  have hab : a ≤ b := by
    by_contra h
    rw [not_le] at h
    have := List.countP_mono_left (p := fun y => decide (y ≤ b)) (q := fun y => decide (y < a)) (l := x)
      (fun v _ hv => by simpa using lt_of_le_of_lt (by simpa using hv) h)
    have h1 := ha.1
    have h2 := hb.2
    omega
  constructor
  · have h1 := ha.2
    have h2 := List.countP_mono_left (p := fun y => decide (y ≤ a)) (q := fun y => decide (y ≤ FirstN.median x)) (l := x)
      (fun v _ hv => by
        have hv : v ≤ a := by simpa using hv
        have : v ≤ FirstN.median x := by rw [hm]; linarith
        simpa using this)
    omega
  · have h1 := hb.1
    have h2 := List.length_eq_countP_add_countP (fun y => decide (y < b)) (l := x)
    have h3 := List.countP_mono_left (p := fun y => decide ¬(decide (y < b)) = true) (q := fun y => decide (FirstN.median x ≤ y)) (l := x)
      (fun v _ hv => by
        have hv : b ≤ v := by simpa using hv
        have : FirstN.median x ≤ v := by rw [hm]; linarith
        simpa using this)
    omega

/-- C87: at least half of the data lie within the median absolute deviation of the median, at least half not closer; and it is not negative -/
theorem mad_half {x : List K} (hx : x ≠ []) :
    x.length ≤ 2 * x.countP (fun y => decide (|y - FirstN.median x| ≤ mad x)) ∧
    x.length ≤ 2 * x.countP (fun y => decide (mad x ≤ |y - FirstN.median x|)) ∧ 0 ≤ mad x := by
  obtain ⟨h1, h2⟩ := median_half (x := x.map (fun y => |y - FirstN.median x|)) (by simpa using hx)
  rw [List.length_map, List.countP_map] at h1 h2
  refine ⟨h1, h2, ?_⟩
  have hpos : 0 < x.length := List.length_pos_of_ne_nil hx
  have h1 : x.length ≤ 2 * x.countP (fun y => decide (|y - FirstN.median x| ≤ mad x)) := h1
  have : 0 < x.countP (fun y => decide (|y - FirstN.median x| ≤ mad x)) := by omega
  obtain ⟨y, -, hy⟩ := List.countP_pos_iff.1 this
  exact le_trans (abs_nonneg _) (by simpa using hy)

/-- C87: the median absolute deviation scales with the data and does not depend on the origin or on the order -/
theorem mad_scale {s : K} (hs : s ≠ 0) (a : K) {x y : List K} (hx : x ≠ []) (hp : y.Perm (x.map (fun y => s * y + a))) : mad y = |s| * mad x := by
  rw [mad_perm hp, mad_affine hs a hx]

example : trimean [1, 2, 3, 4, (100 : ℚ)] = 3 ∧ trimean [1, 2, 4, (100 : ℚ)] = (7 / 4 + 28) / 4 + 3 / 2 ∧ mad [1, 2, 4, (100 : ℚ)] = 3 / 2 := by decide +kernel

/-! ### C86: weighted means -/

theorem passes_none (step : K → Option K) (tol : K) (n : Nat) : passes step tol n none = .error .exception := by
  induction n with
  | zero => rfl
  | succ n ih => rw [passes]; exact ih

theorem passes_ok {step : K → Option K} {tol : K} (P : K → Prop) (hP : ∀ c v, P c → step c = some v → P v) :
    ∀ {n : Nat} {c v : K}, P c → passes step tol n (some c) = .ok v → P v ∧ ∃ c', P c' ∧ |v - c'| < tol ∧ step c' = some v := by
  intro n
  induction n with
  | zero => intro c v _ h; cases h
  | succ n ih =>
    intro c v hc h
    rw [passes] at h
    split at h
    · rw [passes_none] at h; cases h
    · rename_i c' hs
      split at h
      · rename_i ht
        injection h with h; subst h
        exact ⟨hP _ _ hc hs, c, hc, ht, hs⟩
      · exact ih (hP _ _ hc hs) h

theorem passes_congr {s1 s2 : K → Option K} {tol : K} (P : K → Prop) (hP : ∀ c v, P c → s2 c = some v → P v) (he : ∀ c, P c → s1 c = s2 c) :
    ∀ {n : Nat} {c : K}, P c → passes s1 tol n (some c) = passes s2 tol n (some c) := by
  intro n
  induction n with
  | zero => intro c _; rfl
  | succ n ih =>
    intro c hc
    rw [passes, passes, he c hc]
    split
    · rw [passes_none, passes_none]
    · rename_i c' hs
      rw [ih (hP _ _ hc hs)]

theorem passes_tol {step : K → Option K} {tol : K} (ht : tol ≤ 0) (n : Nat) (c : Option K) : passes step tol n c = .error .exception := by
  induction n generalizing c with
  | zero => cases c <;> rfl
  | succ n ih =>
    cases c with
    | none => exact passes_none _ _ _
    | some c =>
      rw [passes]
      split
      · exact ih _
      · rw [if_neg (not_lt.2 (le_trans ht (abs_nonneg _)))]
        exact ih _

theorem passes_affine {s1 s2 : K → Option K} {s a tol : K} (hs : s ≠ 0) (h : ∀ c, s1 (s * c + a) = (s2 c).map (fun v => s * v + a)) (n : Nat) (c : Option K) :
    passes s1 (|s| * tol) n (c.map (fun v => s * v + a)) = (passes s2 tol n c).map (fun v => s * v + a) := by
  induction n generalizing c with
  | zero => cases c <;> rfl
  | succ n ih =>
    cases c with
    | none => rw [Option.map_none, passes_none, passes_none]; rfl
    | some c =>
      rw [Option.map_some, passes, passes, h c]
      cases s2 c with
      | none => dsimp only [Option.map_none]; rw [passes_none, passes_none]; rfl
      | some c' =>
        dsimp only [Option.map_some]
        have e : |s * c' + a - (s * c + a)| = |s| * |c' - c| := by rw [← abs_mul]; congr 1; ring
        have e' : |s| * |c' - c| < |s| * tol ↔ |c' - c| < tol := mul_lt_mul_iff_right₀ (abs_pos.2 hs)
        rw [e]
        by_cases ht : |c' - c| < tol
        · rw [if_pos ht, if_pos (e'.2 ht)]; rfl
        · rw [if_neg ht, if_neg (mt e'.1 ht)]
          exact ih (some c')

theorem wmean_some {w : K → K} {x : List K} {v : K} (h : wmean w x = some v) :
    (x.map w).sum ≠ 0 ∧ (x.map (fun y => w y * (y - v))).sum = 0 := by
  unfold wmean at h
  split at h
  · cases h
  rename_i h0
  injection h with h
  refine ⟨h0, ?_⟩
  have e : (x.map (fun y => w y * (y - v))).sum = (x.map (fun y => w y * y)).sum - (x.map w).sum * v := by
    clear h h0
    induction x with
    | nil => simp
    | cons y t ih => simp only [List.map_cons, List.sum_cons, ih]; ring
  rw [e, ← h]
  field_simp
  ring

theorem sum_nonneg' {x : List K} {f : K → K} (h : ∀ y ∈ x, 0 ≤ f y) : 0 ≤ (x.map f).sum := by
  induction x with
  | nil => simp
  | cons y t ih =>
    simp only [List.map_cons, List.sum_cons]
    have := h y (by simp)
    have := ih (fun z hz => h z (by simp [hz]))
    linarith

/-- a mean with weights not negative lies between the bounds of the data that have weight -/
theorem wmean_range {w : K → K} {x : List K} {v lo hi : K} (hw : ∀ y ∈ x, 0 ≤ w y) (hx : ∀ y ∈ x, w y ≠ 0 → lo ≤ y ∧ y ≤ hi) (h : wmean w x = some v) :
    lo ≤ v ∧ v ≤ hi := by
  obtain ⟨h0, he⟩ := wmean_some h
  have hpos : 0 < (x.map w).sum := lt_of_le_of_ne (sum_nonneg' hw) (Ne.symm h0)
  have e : ∀ b : K, (x.map (fun y => w y * (y - b))).sum = (x.map w).sum * (v - b) := by
    intro b
    have : (x.map (fun y => w y * (y - b))).sum = (x.map (fun y => w y * (y - v))).sum + (x.map w).sum * (v - b) := by
      clear h h0 he hpos hx hw
      induction x with
      | nil => simp
      | cons y t ih => simp only [List.map_cons, List.sum_cons, ih]; ring
    rw [this, he, zero_add]
  constructor
  · have h1 : 0 ≤ (x.map (fun y => w y * (y - lo))).sum := sum_nonneg' (fun y hy => by
      by_cases hz : w y = 0
      · rw [hz, zero_mul]
      · exact mul_nonneg (hw y hy) (by linarith [(hx y hy hz).1]))
    rw [e] at h1
    by_contra hlt
    have := mul_neg_of_pos_of_neg hpos (show v - lo < 0 by linarith)
    linarith
  · have h1 : 0 ≤ (x.map (fun y => w y * (hi - y))).sum := sum_nonneg' (fun y hy => by
      by_cases hz : w y = 0
      · rw [hz, zero_mul]
      · exact mul_nonneg (hw y hy) (by linarith [(hx y hy hz).2]))
    have e2 : (x.map (fun y => w y * (hi - y))).sum = -(x.map (fun y => w y * (y - hi))).sum := by
      clear h h0 he hpos hx hw e h1
      induction x with
      | nil => simp
      | cons y t ih => simp only [List.map_cons, List.sum_cons, ih]; ring
    rw [e2, e] at h1
    by_contra hlt
    have := mul_pos hpos (show 0 < v - hi by linarith)
    linarith

theorem bisquareW_nonneg (k c y : K) : 0 ≤ bisquareW k c y := by
  unfold bisquareW
  split
  · exact le_refl _
  · positivity

theorem huberW_nonneg {k : K} (hk : 0 < k) (c y : K) : 0 ≤ huberW k c y := by
  unfold huberW
  split
  · exact zero_le_one
  · split
    · exact zero_le_one
    · positivity

theorem median_range {x : List K} (hx : x ≠ []) {lo hi : K} (h : ∀ y ∈ x, lo ≤ y ∧ y ≤ hi) : lo ≤ FirstN.median x ∧ FirstN.median x ≤ hi := by
  have hpos : 0 < x.length := List.length_pos_of_ne_nil hx
  obtain ⟨h1, h2⟩ := median_half hx
  constructor
  · obtain ⟨y, hy, hy'⟩ := List.countP_pos_iff.1 (show 0 < x.countP (fun y => decide (y ≤ FirstN.median x)) by omega)
    exact le_trans (h y hy).1 (by simpa using hy')
  · obtain ⟨y, hy, hy'⟩ := List.countP_pos_iff.1 (show 0 < x.countP (fun y => decide (FirstN.median x ≤ y)) by omega)
    exact le_trans (by simpa using hy') (h y hy).2

/-- the tolerance in use: what is given, or 1e-5 of the normalised median absolute deviation [specification] -/
def tolerance (x : List K) : Option K → K
  | some t => t
  | none => mad x / 67448

theorem defaults_tol (x : List K) (center tol : Option K) : (defaults x center tol).2 = tolerance x tol := by
  unfold defaults tolerance
  cases tol with
  | none => dsimp only; ring
  | some t => rfl

theorem bisquare_filter (x : List K) (k c v : K) :
    ((x.filter (fun y => decide (|y - c| ≤ k))).map (fun y => (1 - ((y - c) / k) ^ 2) ^ 2 * (y - v))).sum = (x.map (fun y => bisquareW k c y * (y - v))).sum := by
  induction x with
  | nil => rfl
  | cons y t ih =>
    rw [List.filter_cons, List.map_cons, List.sum_cons, ← ih]
    by_cases hy : |y - c| ≤ k
    · rw [if_pos (by simpa using hy), List.map_cons, List.sum_cons]
      unfold bisquareW
      rw [if_neg (not_lt.2 hy)]
    · rw [if_neg (by simpa using hy)]
      unfold bisquareW
      rw [if_pos (not_le.1 hy)]
      simp

/-- C86: a bisquare mean that is returned solves the weighting equation up to the tolerance: it is the mean of the data with weights
`(1-((y-c)/k)²)²` for the data within `k` of `c`, no others, and `c` is closer to it than the tolerance. So it lies among the data
within `k` of `c`. -/
theorem bisquare_equation {x : List K} {k v : K} {center tol : Option K} (h : bisquareMean x k center tol = .ok v) :
    ∃ c, |v - c| < tolerance x tol ∧
      ((x.filter (fun y => decide (|y - c| ≤ k))).map (fun y => (1 - ((y - c) / k) ^ 2) ^ 2 * (y - v))).sum = 0 ∧
      (∀ lo hi, (∀ y ∈ x, |y - c| ≤ k → lo ≤ y ∧ y ≤ hi) → lo ≤ v ∧ v ≤ hi) := by
  unfold bisquareMean at h
  dsimp only at h
  rw [defaults_tol] at h
  cases hc : (defaults x center tol).1 with
  | none => rw [hc, passes_none] at h; cases h
  | some c0 =>
    rw [hc] at h
    obtain ⟨-, c, -, h1, h2⟩ := passes_ok (fun _ => True) (fun _ _ _ _ => trivial) trivial h
    split at h2
    · cases h2
    refine ⟨c, h1, ?_, ?_⟩
    · have := (wmean_some h2).2
      rw [← this]
      exact bisquare_filter x k c v
    · intro lo hi hr
      refine wmean_range (fun y _ => bisquareW_nonneg k c y) (fun y hy hw => hr y hy ?_) h2
      by_contra hlt
      exact hw (by unfold bisquareW; rw [if_pos (not_le.1 hlt)])

/-- C86: data beyond `k` of all possible centers have no influence at all on the bisquare mean, given center and tolerance -/
theorem bisquare_outliers {x : List K} {k c t lo hi : K} (hc : lo ≤ c ∧ c ≤ hi) (hx : ∀ y ∈ x, (lo ≤ y ∧ y ≤ hi) ∨ y < lo - k ∨ hi + k < y) :
    bisquareMean x k (some c) (some t) = bisquareMean (x.filter (fun y => decide (lo ≤ y ∧ y ≤ hi))) k (some c) (some t) := by
  unfold bisquareMean defaults
  dsimp only
  have hsum : ∀ (f : K → K) (g : K → K), (∀ y ∈ x, ¬ (lo ≤ y ∧ y ≤ hi) → f y = 0) → (∀ y, f y = g y) →
      (x.map f).sum = ((x.filter (fun y => decide (lo ≤ y ∧ y ≤ hi))).map g).sum := by
    intro f g hf hg
    clear hx
    induction x with
    | nil => rfl
    | cons y l ih =>
      have ih := ih (fun z hz => hf z (by simp [hz]))
      rw [List.map_cons, List.sum_cons, ih, List.filter_cons]
      by_cases hy : lo ≤ y ∧ y ≤ hi
      · rw [if_pos (by simpa using hy), List.map_cons, List.sum_cons, hg]
      · rw [if_neg (by simpa using hy), hf y (by simp) hy, zero_add]
  have hz : ∀ c', lo ≤ c' → c' ≤ hi → ∀ y ∈ x, ¬ (lo ≤ y ∧ y ≤ hi) → bisquareW k c' y = 0 := by
    intro c' h1 h2 y hy hn
    unfold bisquareW
    rw [if_pos]
    rcases hx y hy with h | h | h
    · exact absurd h hn
    · have := neg_abs_le (y - c'); linarith
    · have := le_abs_self (y - c'); linarith
  refine passes_congr (fun c => lo ≤ c ∧ c ≤ hi) ?_ ?_ hc
  · intro c' v _ h
    split at h
    · cases h
    exact wmean_range (fun y _ => bisquareW_nonneg k c' y) (fun y hy _ => by simpa using (List.mem_filter.1 hy).2) h
  · intro c' hc'
    by_cases hk : k = 0
    · rw [if_pos hk, if_pos hk]
    · rw [if_neg hk, if_neg hk]
      unfold wmean
      rw [hsum (bisquareW k c') (bisquareW k c') (hz c' hc'.1 hc'.2) (fun _ => rfl),
        hsum (fun y => bisquareW k c' y * y) (fun y => bisquareW k c' y * y) (fun y hy hn => by rw [hz c' hc'.1 hc'.2 y hy hn, zero_mul]) (fun _ => rfl)]

theorem wmean_perm {w : K → K} {x y : List K} (h : x.Perm y) : wmean w x = wmean w y := by
  unfold wmean
  rw [(h.map w).sum_eq, (h.map (fun y => w y * y)).sum_eq]

theorem wmean_affine {w w' : K → K} {s a : K} (hs : s ≠ 0) (x : List K) (hw : ∀ y ∈ x, w' (s * y + a) = w y) :
    wmean w' (x.map (fun y => s * y + a)) = (wmean w x).map (fun v => s * v + a) := by
  unfold wmean
  have e1 : ((x.map (fun y => s * y + a)).map w').sum = (x.map w).sum := by
    rw [List.map_map]
    exact congrArg List.sum (List.map_congr_left (fun y hy => hw y hy))
  have e2 : ((x.map (fun y => s * y + a)).map (fun y => w' y * y)).sum = s * (x.map (fun y => w y * y)).sum + a * (x.map w).sum := by
    clear e1
    induction x with
    | nil => simp
    | cons y t ih =>
      have ih := ih (fun z hz => hw z (by simp [hz]))
      simp only [List.map_cons, List.sum_cons, ih, hw y (by simp)]
      ring
  rw [e1, e2]
  by_cases h0 : (x.map w).sum = 0
  · rw [if_pos h0, if_pos h0]; rfl
  · rw [if_neg h0, if_neg h0, Option.map_some]
    congr 1
    field_simp

theorem defaults_perm {x y : List K} (h : x.Perm y) (center tol : Option K) : defaults x center tol = defaults y center tol := by
  unfold defaults
  rw [mad_perm h, median_perm h]
  have : x = [] ↔ y = [] := by rw [← List.length_eq_zero_iff, ← List.length_eq_zero_iff, h.length_eq]
  simp only [this]

theorem defaults_affine {s : K} (hs : s ≠ 0) (a : K) {x : List K} (hx : x ≠ []) (center tol : Option K) :
    defaults (x.map (fun y => s * y + a)) (center.map (fun v => s * v + a)) (tol.map (fun t => |s| * t)) =
      ((defaults x center tol).1.map (fun v => s * v + a), |s| * (defaults x center tol).2) := by
  unfold defaults
  rw [mad_affine hs a hx, median_affine hs a hx]
  have hx' : x.map (fun y => s * y + a) ≠ [] := by simpa using hx
  rw [if_neg hx', if_neg hx]
  cases center <;> cases tol <;> simp <;> ring

/-- C86: bisquare and Huber mean do not depend on the order of the data -/
theorem means_perm {x y : List K} (h : x.Perm y) (k : K) (center tol : Option K) :
    bisquareMean x k center tol = bisquareMean y k center tol ∧ huberMean x k center tol = huberMean y k center tol := by
  unfold bisquareMean huberMean
  rw [defaults_perm h]
  simp only [wmean_perm h]
  exact ⟨trivial, trivial⟩

/-- C86: both means move with the data under any change of units (`k`, center and tolerance, if given, changed alike), also when there is no result -/
theorem means_affine {s : K} (hs : s ≠ 0) (a : K) {x : List K} (hx : x ≠ []) (k : K) (center tol : Option K) :
    bisquareMean (x.map (fun y => s * y + a)) (|s| * k) (center.map (fun v => s * v + a)) (tol.map (fun t => |s| * t)) =
      (bisquareMean x k center tol).map (fun v => s * v + a) ∧
    huberMean (x.map (fun y => s * y + a)) (|s| * k) (center.map (fun v => s * v + a)) (tol.map (fun t => |s| * t)) =
      (huberMean x k center tol).map (fun v => s * v + a) := by
  have hs' : |s| ≠ 0 := abs_ne_zero.2 hs
  have hd : ∀ y c, |s * y + a - (s * c + a)| = |s| * |y - c| := by
    intro y c; rw [← abs_mul]; congr 1; ring
  constructor
  · unfold bisquareMean
    rw [defaults_affine hs a hx]
    dsimp only
    refine passes_affine hs (fun c => ?_) 100 _
    by_cases hk : k = 0
    · rw [hk, mul_zero, if_pos rfl, if_pos rfl]; rfl
    · rw [if_neg (mul_ne_zero hs' hk), if_neg hk]
      refine wmean_affine hs x (fun y _ => ?_)
      unfold bisquareW
      have e' : |s| * |y - c| > |s| * k ↔ |y - c| > k := mul_lt_mul_iff_right₀ (abs_pos.2 hs)
      rw [hd]
      have e : ((s * y + a - (s * c + a)) / (|s| * k)) ^ 2 = ((y - c) / k) ^ 2 := by
        rw [div_pow, div_pow, mul_pow, sq_abs]
        have : s * y + a - (s * c + a) = s * (y - c) := by ring
        rw [this, mul_pow]
        field_simp
      rw [e]
      simp only [e']
  · unfold huberMean
    rw [defaults_affine hs a hx]
    dsimp only
    refine passes_affine hs (fun c => ?_) 100 _
    refine wmean_affine hs x (fun y _ => ?_)
    unfold huberW
    rw [hd]
    have e1 : |s| * k / (|s| * |y - c|) = k / |y - c| := mul_div_mul_left _ _ hs'
    rw [e1]
    have e2 : (s * y + a = s * c + a) ↔ y = c := by
      constructor
      · intro h; exact mul_left_cancel₀ hs (by linarith)
      · rintro rfl; rfl
    simp only [e2]

/-- C86: a Huber mean that is returned solves its equation up to the tolerance: data within `k` of a center `c` pull with their distance to it, data beyond
with the constant force of distance `k`. And it lies between the least and the greatest datum. -/
theorem huber_equation {x : List K} {k v : K} (hk : 0 < k) {center tol : Option K} (h : huberMean x k center tol = .ok v) :
    ∃ c, |v - c| < tolerance x tol ∧
      (x.map (fun y => (if |y - c| ≤ k then y - v else k / |y - c| * (y - v)))).sum = 0 ∧
      (∀ lo hi, (∀ y ∈ x, lo ≤ y ∧ y ≤ hi) → lo ≤ v ∧ v ≤ hi) := by
  unfold huberMean at h
  dsimp only at h
  rw [defaults_tol] at h
  cases hc : (defaults x center tol).1 with
  | none => rw [hc, passes_none] at h; cases h
  | some c0 =>
    rw [hc] at h
    obtain ⟨-, c, -, h1, h2⟩ := passes_ok (fun _ => True) (fun _ _ _ _ => trivial) trivial h
    refine ⟨c, h1, ?_, ?_⟩
    · have := (wmean_some h2).2
      rw [← this]
      congr 1
      refine List.map_congr_left (fun y _ => ?_)
      unfold huberW
      by_cases hy : y = c
      · rw [if_pos hy, if_pos (by rw [hy, sub_self, abs_zero]; exact hk.le), one_mul]
      · rw [if_neg hy]
        have hpos : 0 < |y - c| := abs_pos.2 (sub_ne_zero.2 hy)
        by_cases hle : |y - c| ≤ k
        · rw [if_pos hle]
          by_cases hgt : k / |y - c| > 1
          · rw [if_pos hgt, one_mul]
          · rw [if_neg hgt]
            have : k / |y - c| = 1 := le_antisymm (not_lt.1 hgt) (by rw [le_div_iff₀ hpos]; linarith)
            rw [this, one_mul]
        · rw [if_neg hle, if_neg]
          rw [gt_iff_lt, not_lt, div_le_one hpos]
          exact (not_le.1 hle).le
    · intro lo hi hr
      exact wmean_range (fun y _ => huberW_nonneg hk c y) (fun y hy _ => hr y hy) h2

/-- more than half of the data equal: that is the median -/
theorem median_majority {x : List K} {v : K} (h : x.length < 2 * x.countP (fun y => decide (y = v))) : FirstN.median x = v := by
  have hx : x ≠ [] := by rintro rfl; simp at h
  obtain ⟨a, b, ha, hb, hm⟩ := FirstN.median_middle hx
  have h1 : x.countP (fun y => decide (y = v)) ≤ x.countP (fun y => decide (y ≤ v)) :=
    List.countP_mono_left (fun y _ hy => by
      have : y = v := by simpa using hy
      simp [this])
  have h2 : x.countP (fun y => decide (y < v)) + x.countP (fun y => decide (y = v)) ≤ x.length := by
    rw [List.length_eq_countP_add_countP (fun y => decide (y < v)) (l := x)]
    apply Nat.add_le_add_left
    exact List.countP_mono_left (fun y _ hy => by
      have : y = v := by simpa using hy
      simp [this])
  have o : ∀ k, x.length ≤ 2 * k + 2 → 2 * k ≤ x.length → FirstN.IsOrderStat x k v := by
    intro k hk1 hk2
    exact ⟨by omega, by omega⟩
  have ea := FirstN.order_stat_unique ha (o _ (by omega) (by omega))
  have eb := FirstN.order_stat_unique hb (o _ (by omega) (by omega))
  rw [hm, ea, eb]
  ring

/-- C86: with the default tolerance there is never a result (RuntimeError: too many iterations) if more than half of the data are equal, constant data
among them: the tolerance is zero and no change is less than that -/
theorem means_ties_fails {x : List K} {v : K} (h : x.length < 2 * x.countP (fun y => decide (y = v))) (k : K) (center : Option K) :
    bisquareMean x k center none = .error .exception ∧ huberMean x k center none = .error .exception := by
  have hm : mad x = 0 := by
    unfold mad
    rw [median_majority h]
    apply median_majority
    rw [List.length_map, List.countP_map]
    refine lt_of_lt_of_le h (Nat.mul_le_mul_left 2 (List.countP_mono_left (fun y _ hy => ?_)))
    have : y = v := by simpa using hy
    simp [this]
  have ht : (defaults x center none).2 ≤ 0 := by rw [defaults_tol]; simp [tolerance, hm]
  exact ⟨passes_tol ht _ _, passes_tol ht _ _⟩

/-- C86: a center further than `k` from all data never leads to a bisquare mean -/
theorem bisquare_far {x : List K} {k c : K} (h : ∀ y ∈ x, k < |y - c|) (tol : Option K) : bisquareMean x k (some c) tol = .error .exception := by
  unfold bisquareMean defaults
  dsimp only
  rw [passes]
  have : (if k = 0 then none else wmean (bisquareW k c) x) = none := by
    split
    · rfl
    · unfold wmean
      rw [if_pos]
      have : x.map (bisquareW k c) = x.map (fun _ => 0) := List.map_congr_left (fun y hy => by unfold bisquareW; rw [if_pos (h y hy)])
      rw [this]
      simp
  rw [this]
  exact passes_none _ _ _

/-- C86: the description says that the Huber mean gives no weight to data further than `k` from it; the value 1000 here shows otherwise -/
theorem huber_weight_fails :
    huberMean [0, 1, 2, (1000 : ℚ)] 1 (some 1) (some 1) = .ok (3997 / 2998) ∧ huberMean [0, 1, (2 : ℚ)] 1 (some 1) (some 1) = .ok 1 := by decide +kernel

/-- C86, instances -/
example : bisquareMean [0, 1, 5, (100 : ℚ)] 10 (some 1) (some 1) = .ok (45280 / 26857) ∧
    bisquareMean [0, 1, (5 : ℚ)] 10 (some 1) (some 1) = .ok (45280 / 26857) ∧
    bisquareMean [1, 2, (3 : ℚ)] 10 none none = .ok 2 := by decide +kernel
example : bisquareMean [5, 5, (7 : ℚ)] 10 none none = .error .exception := (means_ties_fails (v := 5) (by decide +kernel) 10 none).1

end Mass.Stat
