import Verif.Stat.Autocorr
import Mathlib.Algebra.Order.BigOperators.Ring.Finset
import Mathlib.Algebra.BigOperators.Intervals
import Mathlib.Tactic.Linarith
import Mathlib.Tactic.Ring
import Mathlib.Tactic.FieldSimp
import Mathlib.Algebra.BigOperators.Field
/-! C173: the autocorrelation of an array of noise records, one record per column (mass/mathstat/power_spectrum.py L241-262). Over the reals. -/
namespace Mass.Stat.AutocorrPulses
open Mass Mass.Stat.Autocorr Finset

/-- the array noise_pulses of power_spectrum.py L241-251: its number of rows (samples), its columns (records), and whether its type is floating point -/
structure Arr where
  ns : ℕ
  cols : List (List ℝ)
  float : Bool

/-- the loop over columns, power_spectrum.py L254-257. `pulse -= pulse.mean()` writes into the caller's array; numpy refuses to write floats into an array of integers. np.correlate refuses empty arrays. -/
noncomputable def loop (ns : ℕ) (float : Bool) : List (List ℝ) → List (List ℝ) → List ℝ → Except Exc (List ℝ) × List (List ℝ)
  | past, [], ac => (.ok ac, past)
  | past, c :: rest, ac =>
    if float = false then (.error .type, past ++ c :: rest)
    else if ns = 0 then (.error .value, past ++ center c :: rest)
    else loop ns float (past ++ [center c]) rest (List.zipWith (· + ·) ac ((correlateFull (center c)).drop (ns - 1)))

/-- `autocorrelation_broken_from_pulses`, power_spectrum.py L241-262: the result and the caller's array afterwards. An entry `none` is NaN (0/0 without records). -/
noncomputable def autocorr (a : Arr) : Except Exc (List (Option ℝ)) × Arr :=
  let r := loop a.ns a.float [] a.cols (List.replicate a.ns 0)
  (match r.1 with
    | .error e => .error e
    | .ok ac => .ok ((List.range a.ns).map (fun k => if a.cols = [] then none else some (ac.getD k 0 / a.cols.length / ((a.ns : ℝ) - k)))),
   { a with cols := r.2 })

/-- [specification] the products of deviations from the mean of a record at a distance of k samples, added -/
noncomputable def prods (c : List ℝ) (k : ℕ) : ℝ := ∑ j ∈ range (c.length - k), (c.getD j 0 - c.sum / c.length) * (c.getD (j + k) 0 - c.sum / c.length)

/-- [specification] an array of floats with at least one sample and one record, all columns of the same length -/
def Proper (a : Arr) : Prop := a.float = true ∧ 1 ≤ a.ns ∧ a.cols ≠ [] ∧ ∀ c ∈ a.cols, c.length = a.ns

theorem zipWith_getD (u v : List ℝ) (h : u.length = v.length) (k : ℕ) : (List.zipWith (· + ·) u v).getD k 0 = u.getD k 0 + v.getD k 0 := by
  by_cases hk : k < u.length
  · rw [List.getD_eq_getElem _ _ (by simp; omega), List.getD_eq_getElem _ _ hk, List.getD_eq_getElem _ _ (by omega)]
    simp
  · rw [List.getD_eq_default _ _ (by simp; omega), List.getD_eq_default _ _ (by omega), List.getD_eq_default _ _ (by omega)]
    simp

theorem tail_length (c : List ℝ) (h : 1 ≤ c.length) : ((correlateFull c).drop (c.length - 1)).length = c.length := by
  simp [correlateFull]
  omega

theorem prods_eq (c : List ℝ) (k : ℕ) (hk : k < c.length) : ((correlateFull (center c)).drop (c.length - 1)).getD k 0 = prods c k := by
  have := correlate_lag (center c) k (by rw [center_length]; exact hk)
  rw [center_length] at this
  rw [this]
  unfold prods
  refine sum_congr rfl (fun j hj => ?_)
  have := mem_range.1 hj
  rw [center_getD _ _ (by omega), center_getD _ _ (by omega)]
  rfl

theorem loop_spec (ns : ℕ) (hns : 1 ≤ ns) : ∀ (todo past : List (List ℝ)) (ac : List ℝ), (∀ c ∈ todo, c.length = ns) → ac.length = ns →
    ∃ out, loop ns true past todo ac = (.ok out, past ++ todo.map center) ∧ out.length = ns ∧ ∀ k < ns, out.getD k 0 = ac.getD k 0 + (todo.map (fun c => prods c k)).sum
  | [], past, ac, _, ha => ⟨ac, by simp [loop], ha, by simp⟩
  | c :: rest, past, ac, hl, ha => by
    have hc : c.length = ns := hl c (by simp)
    have ht : ((correlateFull (center c)).drop (ns - 1)).length = ns := by
      have := tail_length (center c) (by rw [center_length]; omega)
      rw [center_length, hc] at this
      exact this
    obtain ⟨out, h1, h2, h3⟩ := loop_spec ns hns rest (past ++ [center c]) (List.zipWith (· + ·) ac ((correlateFull (center c)).drop (ns - 1)))
      (fun d hd => hl d (List.mem_cons_of_mem _ hd)) (by rw [List.length_zipWith, ht, ha]; simp)
    refine ⟨out, ?_, h2, fun k hk => ?_⟩
    · rw [loop, if_neg (by simp), if_neg (by omega), h1]
      simp
    · rw [h3 k hk, zipWith_getD _ _ (by rw [ha, ht])]
      have := prods_eq c k (by omega)
      rw [hc] at this
      rw [this]
      simp [add_assoc]

/-- C173: for every array of floats with records, the result has one entry per sample: the products of deviations at that lag, averaged over records and divided by their number. -/
theorem autocorr_spec (a : Arr) (h : Proper a) :
    (autocorr a).1 = .ok ((List.range a.ns).map (fun k => some ((a.cols.map (fun c => prods c k)).sum / a.cols.length / ((a.ns - k : ℕ) : ℝ)))) := by
  obtain ⟨hf, hns, hne, hl⟩ := h
  obtain ⟨out, h1, h2, h3⟩ := loop_spec a.ns hns a.cols [] (List.replicate a.ns 0) hl (by simp)
  unfold autocorr
  rw [hf, h1]
  simp only
  congr 1
  refine List.map_congr_left (fun k hk => ?_)
  have hk := List.mem_range.1 hk
  rw [if_neg hne, h3 k hk, Nat.cast_sub hk.le]
  rw [List.getD_eq_getElem _ _ (by simpa using hk)]
  simp

/-- C173: afterwards the caller's array has the mean of each of its records removed. -/
theorem array_after (a : Arr) (h : Proper a) : (autocorr a).2.cols = a.cols.map (fun c => c.map (· - c.sum / c.length)) := by
  obtain ⟨hf, hns, hne, hl⟩ := h
  obtain ⟨out, h1, -, -⟩ := loop_spec a.ns hns a.cols [] (List.replicate a.ns 0) hl (by simp)
  unfold autocorr
  rw [hf, h1]
  simp only [List.nil_append]
  rfl

theorem prods_shift (c : List ℝ) (b : ℝ) (k : ℕ) : prods (c.map (· + b)) k = prods c k := by
  unfold prods
  rw [List.length_map]
  refine sum_congr rfl (fun j hj => ?_)
  have hj := mem_range.1 hj
  have hs : (c.map (· + b)).sum = c.sum + c.length * b := by
    rw [List.sum_map_add]
    simp
  have hn : (c.length : ℝ) ≠ 0 := by
    have : c.length ≠ 0 := by omega
    exact_mod_cast this
  rw [hs, List.getD_eq_getElem _ _ (by simp; omega), List.getD_eq_getElem _ _ (by simp; omega), List.getD_eq_getElem _ _ (by omega), List.getD_eq_getElem _ _ (by omega)]
  simp only [List.getElem_map]
  rw [add_div, mul_div_cancel_left₀ _ hn]
  ring

theorem prods_scale (c : List ℝ) (s : ℝ) (k : ℕ) : prods (c.map (s * ·)) k = s ^ 2 * prods c k := by
  unfold prods
  rw [List.length_map, mul_sum]
  refine sum_congr rfl (fun j hj => ?_)
  have hj := mem_range.1 hj
  have hs : (c.map (s * ·)).sum = s * c.sum := by
    rw [List.sum_map_mul_left]
    simp
  rw [hs, List.getD_eq_getElem _ _ (by simp; omega), List.getD_eq_getElem _ _ (by simp; omega), List.getD_eq_getElem _ _ (by omega), List.getD_eq_getElem _ _ (by omega)]
  simp only [List.getElem_map]
  ring

/-- [specification] entry k of the result, 0 for NaN or an exception -/
noncomputable def entry (a : Arr) (k : ℕ) : ℝ :=
  match (autocorr a).1 with
  | .ok l => (l.getD k none).getD 0
  | .error _ => 0

theorem entry_eq (a : Arr) (h : Proper a) (k : ℕ) (hk : k < a.ns) : entry a k = (a.cols.map (fun c => prods c k)).sum / a.cols.length / ((a.ns - k : ℕ) : ℝ) := by
  unfold entry
  rw [autocorr_spec a h]
  simp only
  rw [List.getD_eq_getElem _ _ (by simpa using hk)]
  simp

/-- C173: adding a constant to each record (another one for each) changes no entry; so a second call with the array changed by the first gives the same. -/
theorem baseline_irrelevant (a : Arr) (h : Proper a) (b : List ℝ → ℝ) : (autocorr { a with cols := a.cols.map (fun c => c.map (· + b c)) }).1 = (autocorr a).1 := by
  have hp : Proper { a with cols := a.cols.map (fun c => c.map (· + b c)) } := by
    obtain ⟨hf, hns, hne, hl⟩ := h
    refine ⟨hf, hns, by simpa using hne, ?_⟩
    intro c hc
    simp only [List.mem_map] at hc
    obtain ⟨d, hd, rfl⟩ := hc
    simpa using hl d hd
  rw [autocorr_spec _ hp, autocorr_spec a h]
  simp only [List.map_map, List.length_map]
  congr 1
  refine List.map_congr_left (fun k _ => ?_)
  congr 4
  refine List.map_congr_left (fun c _ => ?_)
  exact prods_shift c (b c) k

/-- C173: calling twice with the same array gives the same twice, though the first call has changed the array. -/
theorem again_same (a : Arr) (h : Proper a) : (autocorr (autocorr a).2).1 = (autocorr a).1 := by
  have h2 : (autocorr a).2 = { a with cols := a.cols.map (fun c => c.map (· + -(c.sum / c.length))) } := by
    have := array_after a h
    have e : (autocorr a).2 = { a with cols := (autocorr a).2.cols } := rfl
    rw [e, this]
    simp only [sub_eq_add_neg]
  rw [h2]
  exact baseline_irrelevant a h (fun c => -(c.sum / c.length))

/-- C173: data in other units: a factor s on all samples is a factor of its square on the result. -/
theorem scale_sq (a : Arr) (h : Proper a) (s : ℝ) (k : ℕ) (hk : k < a.ns) : entry { a with cols := a.cols.map (fun c => c.map (s * ·)) } k = s ^ 2 * entry a k := by
  have hp : Proper { a with cols := a.cols.map (fun c => c.map (s * ·)) } := by
    obtain ⟨hf, hns, hne, hl⟩ := h
    refine ⟨hf, hns, by simpa using hne, ?_⟩
    intro c hc
    simp only [List.mem_map] at hc
    obtain ⟨d, hd, rfl⟩ := hc
    simpa using hl d hd
  rw [entry_eq _ hp k hk, entry_eq a h k hk]
  simp only [List.map_map, List.length_map]
  have : (a.cols.map ((fun c => prods c k) ∘ fun c => c.map (s * ·))) = a.cols.map (fun c => s ^ 2 * prods c k) :=
    List.map_congr_left (fun c _ => prods_scale c s k)
  rw [this, List.sum_map_mul_left]
  ring

/-- C173: the order of the records does not matter. -/
theorem order_irrelevant (a : Arr) (h : Proper a) (cols : List (List ℝ)) (hp : cols.Perm a.cols) : (autocorr { a with cols := cols }).1 = (autocorr a).1 := by
  have hp' : Proper { a with cols := cols } := by
    obtain ⟨hf, hns, hne, hl⟩ := h
    refine ⟨hf, hns, fun e => hne ?_, fun c hc => hl c (hp.mem_iff.1 hc)⟩
    simp only at e
    subst e
    exact hp.nil_eq.symm
  rw [autocorr_spec _ hp', autocorr_spec a h]
  simp only
  congr 1
  refine List.map_congr_left (fun k _ => ?_)
  rw [hp.length_eq, (hp.map (fun c => prods c k)).sum_eq]

/-- C173: records measured in two parts: the result of all is the average of the results of the parts, weighted with their numbers of records. -/
theorem parts_weighted (a : Arr) (c1 c2 : List (List ℝ)) (h1 : Proper { a with cols := c1 }) (h2 : Proper { a with cols := c2 }) (k : ℕ) (hk : k < a.ns) :
    entry { a with cols := c1 ++ c2 } k * (c1.length + c2.length) = entry { a with cols := c1 } k * c1.length + entry { a with cols := c2 } k * c2.length := by
  have hp : Proper { a with cols := c1 ++ c2 } := by
    obtain ⟨hf, hns, hne, hl⟩ := h1
    obtain ⟨-, -, hne2, hl2⟩ := h2
    refine ⟨hf, hns, by simp only at hne ⊢; simp [hne], ?_⟩
    intro c hc
    rcases List.mem_append.1 hc with hc | hc
    · exact hl c hc
    · exact hl2 c hc
  rw [entry_eq _ hp k hk, entry_eq _ h1 k hk, entry_eq _ h2 k hk]
  have n1 : (c1.length : ℝ) ≠ 0 := by
    have : c1.length ≠ 0 := fun e => h1.2.2.1 (List.length_eq_zero_iff.1 e)
    exact_mod_cast this
  have n2 : (c2.length : ℝ) ≠ 0 := by
    have : c2.length ≠ 0 := fun e => h2.2.2.1 (List.length_eq_zero_iff.1 e)
    exact_mod_cast this
  have n12 : (c1.length : ℝ) + c2.length ≠ 0 := by positivity
  have nk : ((a.ns - k : ℕ) : ℝ) ≠ 0 := by
    have : a.ns - k ≠ 0 := by omega
    exact_mod_cast this
  simp only [List.map_append, List.sum_append, List.length_append, Nat.cast_add]
  field_simp

theorem prods_bound (c : List ℝ) (k : ℕ) : |prods c k| ≤ prods c 0 := by
  unfold prods
  set d : ℕ → ℝ := fun j => c.getD j 0 - c.sum / c.length with hd
  have key : ∀ s : ℝ, s ^ 2 = 1 → 0 ≤ ∑ j ∈ range c.length, d j * d j + s * ∑ j ∈ range (c.length - k), d j * d (j + k) := by
    intro s hs
    have e1 : ∑ j ∈ range (c.length - k), d j * d j ≤ ∑ j ∈ range c.length, d j * d j :=
      sum_le_sum_of_subset_of_nonneg (range_subset_range.2 (by omega)) (fun j _ _ => mul_self_nonneg _)
    have e2 : ∑ j ∈ range (c.length - k), d (j + k) * d (j + k) ≤ ∑ j ∈ range c.length, d j * d j := by
      by_cases hk : k ≤ c.length
      · have : ∑ j ∈ range (c.length - k), d (j + k) * d (j + k) = ∑ j ∈ Ico k c.length, d j * d j := by
          rw [sum_Ico_eq_sum_range]
          exact sum_congr rfl (fun j _ => by rw [add_comm])
        rw [this]
        refine sum_le_sum_of_subset_of_nonneg (fun j hj => ?_) (fun j _ _ => mul_self_nonneg _)
        have := mem_Ico.1 hj
        exact mem_range.2 (by omega)
      · rw [show c.length - k = 0 by omega]
        simp only [range_zero, sum_empty]
        exact sum_nonneg (fun j _ => mul_self_nonneg _)
    have e3 : 0 ≤ ∑ j ∈ range (c.length - k), (d j + s * d (j + k)) ^ 2 := sum_nonneg (fun j _ => sq_nonneg _)
    have e4 : ∑ j ∈ range (c.length - k), (d j + s * d (j + k)) ^ 2
        = ∑ j ∈ range (c.length - k), d j * d j + ∑ j ∈ range (c.length - k), d (j + k) * d (j + k) + 2 * (s * ∑ j ∈ range (c.length - k), d j * d (j + k)) := by
      rw [mul_sum, mul_sum, ← sum_add_distrib, ← sum_add_distrib]
      refine sum_congr rfl (fun j _ => ?_)
      have : (d j + s * d (j + k)) ^ 2 = d j * d j + s ^ 2 * (d (j + k) * d (j + k)) + 2 * (s * (d j * d (j + k))) := by ring
      rw [this, hs]
      ring
    linarith
  rw [abs_le]
  simp only [Nat.sub_zero, Nat.add_zero]
  have p := key 1 (by norm_num)
  have m := key (-1) (by norm_num)
  constructor <;> linarith

/-- C173: the entry at lag 0 is the average of the variances of the records, not negative, and no lag has more: the entry at lag k times the share of pairs at that lag is at most the entry at lag 0. -/
theorem lag_zero_largest (a : Arr) (h : Proper a) (k : ℕ) (hk : k < a.ns) : 0 ≤ entry a 0 ∧ |entry a k| * ((a.ns - k : ℕ) : ℝ) ≤ entry a 0 * a.ns := by
  have hns : (0 : ℝ) < a.ns := by
    have := h.2.1
    exact_mod_cast this
  have hp : (0 : ℝ) < a.cols.length := by
    have : 0 < a.cols.length := List.length_pos_iff.2 h.2.2.1
    exact_mod_cast this
  have hk' : (0 : ℝ) < ((a.ns - k : ℕ) : ℝ) := by
    have : 0 < a.ns - k := by omega
    exact_mod_cast this
  have habs : |(a.cols.map (fun c => prods c k)).sum| ≤ (a.cols.map (fun c => prods c 0)).sum := by
    have : ∀ l : List (List ℝ), |(l.map (fun c => prods c k)).sum| ≤ (l.map (fun c => prods c 0)).sum := by
      intro l
      induction l with
      | nil => simp
      | cons c l ih =>
        simp only [List.map_cons, List.sum_cons]
        exact (abs_add_le _ _).trans (add_le_add (prods_bound c k) ih)
    exact this _
  rw [entry_eq a h 0 (by have := h.2.1; omega), entry_eq a h k hk]
  constructor
  · exact div_nonneg (div_nonneg ((abs_nonneg _).trans habs) hp.le) (by positivity)
  · rw [abs_div, abs_div, abs_of_pos hp, abs_of_pos hk', div_mul_cancel₀ _ hk'.ne', Nat.sub_zero, div_mul_cancel₀ _ hns.ne']
    exact div_le_div_of_nonneg_right habs hp.le

theorem square_of_sum (d : ℕ → ℝ) : ∀ n : ℕ, (∑ j ∈ range n, d j) ^ 2 = ∑ j ∈ range n, d j * d j + 2 * ∑ k ∈ Ico 1 n, ∑ j ∈ range (n - k), d j * d (j + k)
  | 0 => by simp
  | n + 1 => by
    have ih := square_of_sum d n
    have e : ∑ k ∈ Ico 1 (n + 1), ∑ j ∈ range (n + 1 - k), d j * d (j + k) = ∑ k ∈ Ico 1 n, ∑ j ∈ range (n - k), d j * d (j + k) + (∑ j ∈ range n, d j) * d n := by
      have e1 : ∀ k ∈ Ico 1 (n + 1), ∑ j ∈ range (n + 1 - k), d j * d (j + k) = ∑ j ∈ range (n - k), d j * d (j + k) + d (n - k) * d n := by
        intro k hk
        have := mem_Ico.1 hk
        rw [show n + 1 - k = (n - k) + 1 by omega, sum_range_succ, show n - k + k = n by omega]
      rw [sum_congr rfl e1, sum_add_distrib, ← sum_mul]
      congr 1
      · rcases Nat.eq_zero_or_pos n with h0 | h0
        · subst h0
          simp
        · rw [sum_Ico_succ_top (by omega)]
          simp
      · congr 1
        rw [sum_Ico_eq_sum_range, show n + 1 - 1 = n by omega, ← sum_range_reflect]
        refine sum_congr rfl (fun j hj => ?_)
        have := mem_range.1 hj
        congr 1
        omega
    rw [e, sum_range_succ, sum_range_succ]
    have : (∑ j ∈ range n, d j + d n) ^ 2 = (∑ j ∈ range n, d j) ^ 2 + 2 * ((∑ j ∈ range n, d j) * d n) + d n * d n := by ring
    rw [this, ih]
    ring

theorem prods_sum_zero (c : List ℝ) : prods c 0 + 2 * ∑ k ∈ Ico 1 c.length, prods c k = 0 := by
  have h := square_of_sum (fun j => c.getD j 0 - c.sum / c.length) c.length
  have z : ∑ j ∈ range c.length, (c.getD j 0 - c.sum / c.length) = 0 := by
    rw [sum_sub_distrib, sum_getD]
    rcases Nat.eq_zero_or_pos c.length with h0 | h0
    · rw [List.length_eq_zero_iff.1 h0]
      simp
    · have : (c.length : ℝ) ≠ 0 := by positivity
      simp only [sum_const, card_range, nsmul_eq_mul]
      field_simp
      ring
  rw [z] at h
  unfold prods
  simp only [Nat.sub_zero, Nat.add_zero]
  rw [← h]
  ring

/-- C173: the entries weighted with the numbers of pairs of samples at their lags (both signs of the lag) add up to nothing, whatever the noise: the mean of each record is removed. -/
theorem weighted_sum_zero (a : Arr) (h : Proper a) : entry a 0 * a.ns + 2 * ∑ k ∈ Ico 1 a.ns, entry a k * ((a.ns - k : ℕ) : ℝ) = 0 := by
  have hw : ∀ k < a.ns, entry a k * ((a.ns - k : ℕ) : ℝ) = (a.cols.map (fun c => prods c k)).sum / a.cols.length := by
    intro k hk
    have hk' : ((a.ns - k : ℕ) : ℝ) ≠ 0 := by
      have : a.ns - k ≠ 0 := by omega
      exact_mod_cast this
    rw [entry_eq a h k hk, div_mul_cancel₀ _ hk']
  have h0 := hw 0 (by have := h.2.1; omega)
  rw [Nat.sub_zero] at h0
  rw [h0, sum_congr rfl (fun k hk => hw k (mem_Ico.1 hk).2), ← sum_div, mul_div_assoc', ← add_div]
  have : ∀ l : List (List ℝ), (∀ c ∈ l, c.length = a.ns) → (l.map (fun c => prods c 0)).sum + 2 * ∑ k ∈ Ico 1 a.ns, (l.map (fun c => prods c k)).sum = 0 := by
    intro l
    induction l with
    | nil => simp
    | cons c l ih =>
      intro hl
      have i := ih (fun d hd => hl d (List.mem_cons_of_mem _ hd))
      have z := prods_sum_zero c
      rw [hl c (by simp)] at z
      simp only [List.map_cons, List.sum_cons, sum_add_distrib]
      linarith
  rw [this a.cols h.2.2.2, zero_div]

/-- C173: an array of whole numbers (as read from a file of records) is refused and stays as it is. -/
theorem integers_refused (a : Arr) (hf : a.float = false) (hne : a.cols ≠ []) : autocorr a = (.error .type, a) := by
  obtain ⟨ns, cols, fl⟩ := a
  cases cols with
  | nil => exact absurd rfl hne
  | cons c l =>
    simp only at hf
    subst hf
    simp [autocorr, loop]

/-- C173: without records every entry is NaN, and without samples there is no result. -/
theorem nothing (a : Arr) : (a.cols = [] → (autocorr a).1 = .ok (List.replicate a.ns none)) ∧ (a.ns = 0 → a.float = true → a.cols ≠ [] → (autocorr a).1 = .error .value) := by
  obtain ⟨ns, cols, fl⟩ := a
  constructor
  · intro h
    simp only at h
    subst h
    simp only [autocorr, loop, if_true]
    rw [List.map_const', List.length_range]
  · intro h hf hne
    cases cols with
    | nil => exact absurd rfl hne
    | cons c l =>
      simp only at h hf
      subst h hf
      simp [autocorr, loop]

/-- Disagreement (C173): the data given to the function are not left as they were: every record with a mean other than zero is changed in the caller's array. -/
theorem array_changed_fails (a : Arr) (h : Proper a) (c : List ℝ) (i : ℕ) (hi : a.cols[i]? = some c) (hm : c.sum ≠ 0) : (autocorr a).2.cols[i]? ≠ some c ∧ (autocorr a).2 ≠ a := by
  have hne : (autocorr a).2.cols[i]? ≠ some c := by
    rw [array_after a h, List.getElem?_map, hi]
    simp only [Option.map_some]
    intro e
    have e := Option.some.inj e
    cases c with
    | nil => simp at hm
    | cons x xs =>
      have e := (List.cons.inj e).1
      have : (x :: xs).sum / ((x :: xs).length : ℝ) = 0 := by linarith
      have hl : ((x :: xs).length : ℝ) ≠ 0 := by
        rw [List.length_cons]
        positivity
      rcases div_eq_zero_iff.1 this with e | e
      · exact hm e
      · exact hl e
  refine ⟨hne, fun e => hne ?_⟩
  rw [e]
  exact hi

/-- two records of two samples: the deviations are -1, 1 and -2, 2; the array is changed -/
example : (autocorr ⟨2, [[0, 2], [5, 9]], true⟩).1 = .ok [some (5 / 2), some (-5 / 2)] ∧ (autocorr ⟨2, [[0, 2], [5, 9]], true⟩).2.cols = [[-1, 1], [-2, 2]] := by
  have h : Proper ⟨2, [[0, 2], [5, 9]], true⟩ := ⟨rfl, by norm_num, by simp, by simp⟩
  rw [autocorr_spec _ h, array_after _ h]
  constructor
  · have : List.range 2 = [0, 1] := by decide
    simp only [this, List.map_cons, List.map_nil, prods]
    norm_num [sum_range_succ]
  · norm_num

end Mass.Stat.AutocorrPulses
