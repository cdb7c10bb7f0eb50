import Verif.Py
import Mathlib.Algebra.Order.Field.Basic
import Mathlib.Algebra.Order.Field.Rat
import Mathlib.Algebra.BigOperators.Group.List.Basic
import Mathlib.Data.List.Sort
import Mathlib.Tactic.Linarith
import Mathlib.Tactic.FieldSimp
import Mathlib.Tactic.Ring
/-! Choice of the first good pulses and the average pulse, mass/core/channel.py: C56, C71 -/
namespace Mass.Stat.FirstN
open Mass

/-- np.nonzero(g)[0] (used for mass/core/channel.py L1828-1847) -/
def nonzero (g : List Bool) : List Nat := (List.range g.length).filter (fun i => g.getD i false)

/-- g[idx] = False (used for mass/core/channel.py L1828-1847) -/
def clear (g : List Bool) (idx : List Nat) : List Bool := (List.range g.length).map (fun i => g.getD i false && !idx.contains i)

/-- data[g]: the rows where g holds (used for mass/core/channel.py L1828-1847) -/
def pick {α : Type} (g : List Bool) (data : List α) : List α := (g.zip data).filterMap (fun p => if p.1 then some p.2 else none)

/-- `first_n_good_pulses`, mass/core/channel.py L1828-1847, n ≥ 0: the records and their numbers, `g` being the result of the cuts -/
def firstN {α : Type} (g : List Bool) (data : List α) (n : Nat) : List α × List Nat :=
  let g' := if g.countP id > n then clear g ((nonzero g).drop n) else g
  (pick g' data, nonzero g')

/-- np.cumsum of a mask (used for mass/core/channel.py L1115-1118) -/
def cumsum (g : List Bool) : List Nat := (List.range g.length).map (fun i => (g.take (i + 1)).countP id)

/-- (l == m).argmax(): where l first equals m, or 0 (used for mass/core/channel.py L1115-1118) -/
def firstEq (l : List Nat) (m : Nat) : Nat := if l.any (fun x => x == m) then l.findIdx (fun x => x == m) else 0

/-- the limit of the number of pulses, mass/core/channel.py L1115-1118; mask[stop_at+1:] = False -/
def limitMask (mask : List Bool) (n : Nat) : List Bool :=
  if mask.countP id > n then
    let stop := firstEq (cumsum mask) n
    (List.range mask.length).map (fun i => mask.getD i false && decide (i ≤ stop))
  else mask

variable {K : Type} [Field K] [LinearOrder K] [IsStrictOrderedRing K]

/-- np.median of a non-empty list (used for mass/core/channel.py L1105-1118) -/
def median (x : List K) : K :=
  let s := x.insertionSort (· ≤ ·)
  if x.length % 2 = 1 then s.getD (x.length / 2) 0 else (s.getD (x.length / 2 - 1) 0 + s.getD (x.length / 2) 0) / 2

/-- the mask of `avg_pulses_auto_masks`, mass/core/channel.py L1105-1118: good pulses within 5% of the median pulse average, at most n. A zero median makes NaN or infinity, not within 5%; here the
quotient by zero is 0, not within 5% either. -/
def autoMask (good : List Bool) (avg : List K) (n : Nat) : Except Exc (List Bool) :=
  if good.countP id = 0 then .error .value
  else
    let med := median (pick good avg)
    let mask := (avg.zip good).map (fun p => decide (|p.1 / med - 1| < 5 / 100) && p.2)
    if mask.countP id = 0 then .error .value else .ok (limitMask mask n)

/-- mean (used for mass/core/channel.py L1071-1093) -/
def mean (l : List K) : K := l.sum / (l.length : K)

/-- column k of rows (used for mass/core/channel.py L1071-1093) -/
def column (rows : List (List K)) (k : Nat) : List K := rows.map (fun r => r.getD k 0)

/-- `compute_average_pulse`, mass/core/channel.py L1071-1093: the stored average pulse afterwards. `nsamp` is nPresamples - pretrigger_ignore_samples, here at least 1; at least one record is chosen
(otherwise the result is NaN); records have `ns` samples. -/
def averagePulse (stored : List K) (mask : List Bool) (data : List (List K)) (ns nsamp : Nat) (subtractMean forceNew : Bool) : List K :=
  if stored.any (fun v => decide (v ≠ 0)) && !forceNew then stored
  else
    let avg := (List.range ns).map (fun k => mean (column (pick mask data) k))
    if subtractMean then avg.map (fun v => v - mean (avg.take nsamp)) else avg

/-! ### C56 -/

theorem nonzero_cons (b : Bool) (g : List Bool) : nonzero (b :: g) = (if b then [0] else []) ++ (nonzero g).map (· + 1) := by
  unfold nonzero
  rw [List.length_cons, List.range_succ_eq_map, List.filter_cons, List.filter_map]
  cases b <;> simp [Function.comp_def] <;> rfl

theorem nonzero_length (g : List Bool) : (nonzero g).length = g.countP id := by
  induction g with
  | nil => rfl
  | cons b g ih => rw [nonzero_cons]; cases b <;> simp [ih, Nat.add_comm]

/-- membership and order, the specification of nonzero -/
theorem nonzero_spec (g : List Bool) : (nonzero g).Pairwise (· < ·) ∧ ∀ i, i ∈ nonzero g ↔ g[i]? = some true := by
  unfold nonzero
  refine ⟨List.pairwise_lt_range.filter _, fun i => ?_⟩
  rw [List.mem_filter, List.mem_range, List.getD_eq_getElem?_getD]
  constructor
  · rintro ⟨h1, h2⟩
    rw [List.getElem?_eq_getElem h1] at h2 ⊢
    simpa using h2
  · intro h
    exact ⟨(List.getElem?_eq_some_iff.1 h).1, by rw [h]; rfl⟩

theorem pick_nonzero {α : Type} (g : List Bool) (data : List α) (h : g.length = data.length) : pick g data = (nonzero g).filterMap (fun i => data[i]?) := by
  induction g generalizing data with
  | nil => simp [pick, nonzero]
  | cons b g ih =>
    cases data with
    | nil => simp at h
    | cons d data =>
      have := ih data (by simpa using h)
      rw [nonzero_cons]
      unfold pick at this ⊢
      rw [List.zip_cons_cons, List.filterMap_cons, List.filterMap_append, List.filterMap_map]
      cases b <;> simp [this, Function.comp_def]

theorem nonzero_map (g : List Bool) (f : Nat → Bool) : nonzero ((List.range g.length).map (fun i => g.getD i false && f i)) = (nonzero g).filter f := by
  unfold nonzero
  rw [List.length_map, List.length_range, List.filter_filter]
  refine List.filter_congr (fun i hi => ?_)
  have hi := List.mem_range.1 hi
  simp only [List.getD_eq_getElem?_getD, List.getElem?_map, List.getElem?_range hi, Option.map_some, Option.getD_some]
  rw [Bool.and_comm]

theorem filter_not_drop (l : List Nat) (h : l.Nodup) (n : Nat) : l.filter (fun i => !(l.drop n).contains i) = l.take n := by
  have hsplit := List.take_append_drop n l
  have hnd : (l.take n ++ l.drop n).Nodup := by rw [hsplit]; exact h
  obtain ⟨_, _, hdis⟩ := List.nodup_append.1 hnd
  conv_lhs => rw [← hsplit]
  rw [List.filter_append]
  have h1 : (l.take n).filter (fun i => !(l.drop n).contains i) = l.take n := by
    refine List.filter_eq_self.2 (fun a ha => ?_)
    simp only [Bool.not_eq_true', List.contains_eq_mem, decide_eq_false_iff_not]
    exact fun hm => hdis a ha a hm rfl
  have h2 : (l.drop n).filter (fun i => !(l.drop n).contains i) = [] := by
    refine List.filter_eq_nil_iff.2 (fun a ha => ?_)
    simp [ha]
  rw [hsplit, h1, h2, List.append_nil]

/-- C56. first_n_good_pulses(n) gives exactly the first n good pulses (all if there are fewer), in order: their numbers, and their records. -/
theorem first_n_good {α : Type} (g : List Bool) (data : List α) (n : Nat) (h : g.length = data.length) :
    (firstN g data n).2 = (nonzero g).take n ∧ (firstN g data n).1 = ((nonzero g).take n).filterMap (fun i => data[i]?) := by
  have key : ∀ g' : List Bool, g' = (if g.countP id > n then clear g ((nonzero g).drop n) else g) → nonzero g' = (nonzero g).take n ∧ g'.length = data.length := by
    intro g' hg'
    subst hg'
    split
    · unfold clear
      refine ⟨?_, by simp [h]⟩
      rw [nonzero_map g (fun i => !((nonzero g).drop n).contains i)]
      exact filter_not_drop _ ((nonzero_spec g).1.imp (fun h => ne_of_lt h)) n
    · rename_i hc
      refine ⟨?_, h⟩
      rw [List.take_of_length_le]
      rw [nonzero_length]
      omega
  obtain ⟨k1, k2⟩ := key _ rfl
  unfold firstN
  dsimp only
  exact ⟨k1, by rw [pick_nonzero _ _ k2, k1]⟩

theorem count_take (g : List Bool) (i : Nat) : (g.take i).countP id = ((nonzero g).filter (fun j => decide (j < i))).length := by
  induction g generalizing i with
  | nil => simp [nonzero]
  | cons b g ih =>
    cases i with
    | zero => simp
    | succ i =>
      rw [nonzero_cons, List.take_succ_cons, List.countP_cons, ih, List.filter_append, List.filter_map]
      cases b <;> simp [Function.comp_def, Nat.add_comm]

theorem filter_le_sorted (l : List Nat) (hs : l.Pairwise (· < ·)) (n : Nat) (hn : n < l.length) : l.filter (fun i => decide (i ≤ l[n])) = l.take (n + 1) := by
  induction l generalizing n with
  | nil => simp at hn
  | cons a l ih =>
    obtain ⟨h1, h2⟩ := List.pairwise_cons.1 hs
    cases n with
    | zero =>
      simp only [List.getElem_cons_zero, List.filter_cons, le_refl, decide_true, if_true, List.take_succ_cons, List.take_zero]
      rw [List.filter_eq_nil_iff.2 (fun b hb => by have := h1 b hb; simp; omega)]
    | succ n =>
      have hn' : n < l.length := by simpa using hn
      have := h1 _ (List.getElem_mem hn')
      simp only [List.getElem_cons_succ, List.filter_cons, List.take_succ_cons]
      rw [if_pos (by simp; omega), ih h2 n hn']

/-- C56, for n at least 1: the limited mask of avg_pulses_auto_masks chooses exactly the first n of the pulses that pass (all if there are fewer). -/
theorem limit_mask_partial (mask : List Bool) (n : Nat) (hn : 1 ≤ n) : nonzero (limitMask mask n) = (nonzero mask).take n ∧ (limitMask mask n).length = mask.length := by
  unfold limitMask
  split
  · rename_i hc
    refine ⟨?_, by simp⟩
    obtain ⟨m, rfl⟩ : ∃ m, n = m + 1 := ⟨n - 1, by omega⟩
    have hlen : m + 1 < (nonzero mask).length := by rw [nonzero_length]; exact hc
    obtain ⟨hs, hmem⟩ := nonzero_spec mask
    have hp : (nonzero mask)[m] < mask.length := by
      have := (hmem _).1 (List.getElem_mem (show m < (nonzero mask).length by omega))
      exact (List.getElem?_eq_some_iff.1 this).1
    -- the running count at a position
    have hcum : ∀ i, i < mask.length → (cumsum mask)[i]? = some ((nonzero mask).filter (fun j => decide (j < i + 1))).length := by
      intro i hi
      unfold cumsum
      rw [List.getElem?_map, List.getElem?_range hi, Option.map_some, count_take]
    have hat : ((nonzero mask).filter (fun j => decide (j < (nonzero mask)[m] + 1))).length = m + 1 := by
      have := filter_le_sorted (nonzero mask) hs m (by omega)
      rw [show (fun j => decide (j < (nonzero mask)[m] + 1)) = (fun i => decide (i ≤ (nonzero mask)[m])) from funext fun j => by congr 1; exact propext Nat.lt_succ_iff, this]
      rw [List.length_take]
      omega
    have hbefore : ∀ i, i < (nonzero mask)[m] → ((nonzero mask).filter (fun j => decide (j < i + 1))).length ≠ m + 1 := by
      intro i hi heq
      have hsub : ((nonzero mask).filter (fun j => decide (j < i + 1))).Sublist ((nonzero mask).take m) := by
        have h1 : (nonzero mask).filter (fun j => decide (j < i + 1)) = ((nonzero mask).take m).filter (fun j => decide (j < i + 1)) := by
          conv_lhs => rw [← List.take_append_drop m (nonzero mask)]
          rw [List.filter_append]
          have hz : ((nonzero mask).drop m).filter (fun j => decide (j < i + 1)) = [] := by
            refine List.filter_eq_nil_iff.2 (fun a ha => ?_)
            obtain ⟨k, hk, rfl⟩ := List.getElem_of_mem ha
            rw [List.getElem_drop]
            have hk' : m + k < (nonzero mask).length := by simp at hk; omega
            have : (nonzero mask)[m] ≤ (nonzero mask)[m + k] := by
              rcases Nat.eq_zero_or_pos k with rfl | hpos
              · simp
              · exact (List.pairwise_iff_getElem.1 hs m (m + k) (by omega) hk' (by omega)).le
            simp
            omega
          rw [hz, List.append_nil]
        rw [h1]
        exact List.filter_sublist
      have := hsub.length_le
      rw [heq, List.length_take] at this
      omega
    have hstop : firstEq (cumsum mask) (m + 1) = (nonzero mask)[m] := by
      have hlenc : (cumsum mask).length = mask.length := by simp [cumsum]
      have hval : (cumsum mask)[(nonzero mask)[m]]'(by omega) = m + 1 := by
        have h1 := hcum _ hp
        rw [hat] at h1
        exact (List.getElem?_eq_some_iff.1 h1).2
      unfold firstEq
      rw [if_pos]
      · rw [List.findIdx_eq (by omega)]
        refine ⟨by simpa using hval, fun j hj => ?_⟩
        have h1 := hcum j (by omega)
        have h2 := (List.getElem?_eq_some_iff.1 h1).2
        rw [h2]
        simpa using hbefore j hj
      · rw [List.any_eq_true]
        exact ⟨_, List.getElem_mem (show (nonzero mask)[m] < (cumsum mask).length by omega), by simpa using hval⟩
    dsimp only
    rw [hstop, nonzero_map mask (fun i => decide (i ≤ (nonzero mask)[m]))]
    exact filter_le_sorted _ hs m (by omega)
  · rename_i hc
    refine ⟨?_, rfl⟩
    rw [List.take_of_length_le]
    rw [nonzero_length]
    omega

/-- C56, for n at least 1: avg_pulses_auto_masks uses exactly the first n of the pulses that are good and have a pulse average within 5% of the median of good pulses; it raises ValueError exactly
when there are none. -/
theorem auto_mask_partial (good : List Bool) (avg : List K) (n : Nat) (hn : 1 ≤ n) (hl : good.length = avg.length) :
    let ok := (List.range avg.length).filter (fun i => decide (|avg.getD i 0 / median (pick good avg) - 1| < 5 / 100) && good.getD i false)
    (ok = [] → autoMask good avg n = .error .value) ∧ (ok ≠ [] → ∃ m, autoMask good avg n = .ok m ∧ m.length = avg.length ∧ nonzero m = ok.take n) := by
  intro ok
  have hmask : ∀ med : K, nonzero ((avg.zip good).map (fun p => decide (|p.1 / med - 1| < 5 / 100) && p.2)) =
      (List.range avg.length).filter (fun i => decide (|avg.getD i 0 / med - 1| < 5 / 100) && good.getD i false) := by
    intro med
    unfold nonzero
    rw [List.length_map, List.length_zip, hl, Nat.min_self]
    refine List.filter_congr (fun i hi => ?_)
    have hi := List.mem_range.1 hi
    have hz : (avg.zip good)[i]? = some (avg[i], good[i]) := by
      rw [List.getElem?_eq_getElem (by simp; omega)]
      simp
    rw [List.getD_eq_getElem?_getD, List.getElem?_map, hz]
    simp [hi, hl ▸ hi]
  have hm := hmask (median (pick good avg))
  unfold autoMask
  dsimp only
  constructor
  · intro h0
    split
    · rfl
    · rw [if_pos]
      rw [← nonzero_length, hm]
      exact congrArg List.length h0
  · intro h0
    have hg : ¬ good.countP id = 0 := by
      intro hz
      apply h0
      refine List.filter_eq_nil_iff.2 (fun i hi => ?_)
      have hi := List.mem_range.1 hi
      have := List.countP_eq_zero.1 hz good[i] (List.getElem_mem (by omega))
      simp only [id] at this
      simp [hl ▸ hi, this]
    rw [if_neg hg, if_neg]
    · obtain ⟨k1, k2⟩ := limit_mask_partial ((avg.zip good).map (fun p => decide (|p.1 / median (pick good avg) - 1| < 5 / 100) && p.2)) n hn
      refine ⟨_, rfl, by rw [k2]; simp [hl], ?_⟩
      rw [k1, hm]
    · rw [← nonzero_length, hm]
      intro hz
      exact h0 (List.length_eq_zero_iff.1 hz)

/-- C56 is false as stated for n = 0: if the first pulse passes, it is used although none should be. -/
theorem auto_mask_fails : (autoMask [true, true] [(10 : ℚ), 10] 0).map nonzero = .ok [0] := by decide +kernel

/-! ### C71 -/

theorem mean_sub_const (l : List K) (c : K) (hl : l ≠ []) : mean (l.map (fun v => v - c)) = mean l - c := by
  have hpos : (l.length : K) ≠ 0 := by simpa using hl
  have hs : (l.map (fun v => v - c)).sum = l.sum - l.length * c := by
    clear hl hpos
    induction l with
    | nil => simp
    | cons a l ih => simp only [List.map_cons, List.sum_cons, ih, List.length_cons]; push_cast; ring
  unfold mean
  rw [hs, List.length_map]
  field_simp

/-- C71. When it is computed, the average pulse has, at each sample, the mean of the chosen records (less the same constant at all samples, if subtract_mean), and then the mean over the pretrigger
samples used is zero. -/
theorem average_pulse (stored : List K) (mask : List Bool) (data : List (List K)) (ns nsamp : Nat) (sub force : Bool) (h : (∀ v ∈ stored, v = 0) ∨ force = true) :
    (averagePulse stored mask data ns nsamp sub force).length = ns ∧
    (∃ c, ∀ k < ns, (averagePulse stored mask data ns nsamp sub force).getD k 0 = mean (column (pick mask data) k) - c ∧ (sub = false → c = 0)) ∧
    (sub = true → 1 ≤ nsamp → 1 ≤ ns → mean ((averagePulse stored mask data ns nsamp sub force).take nsamp) = 0) := by
  have hgo : (stored.any (fun v => decide (v ≠ 0)) && !force) = false := by
    rcases h with h | h
    · rw [show stored.any (fun v => decide (v ≠ 0)) = false from by rw [List.any_eq_false]; intro v hv; simp [h v hv]]; rfl
    · rw [h]; simp
  unfold averagePulse
  rw [hgo]
  simp only [Bool.false_eq_true, if_false]
  cases sub with
  | false =>
    refine ⟨by simp, ⟨0, fun k hk => ⟨?_, fun _ => rfl⟩⟩, fun hh => absurd hh (by simp)⟩
    simp [hk]
  | true =>
    refine ⟨by simp, ⟨mean (((List.range ns).map (fun k => mean (column (pick mask data) k))).take nsamp), fun k hk => ⟨?_, fun hh => absurd hh (by simp)⟩⟩, fun _ h1 h2 => ?_⟩
    · simp [hk]
    · simp only [if_true]
      rw [← List.map_take, mean_sub_const, sub_self]
      intro hnil
      have := congrArg List.length hnil
      simp at this
      omega

/-- C71. If it exists already and forceNew is not set, it is kept. -/
theorem average_pulse_kept (stored : List K) (mask : List Bool) (data : List (List K)) (ns nsamp : Nat) (sub : Bool) (h : ∃ v ∈ stored, v ≠ 0) :
    averagePulse stored mask data ns nsamp sub false = stored := by
  obtain ⟨v, hv, hne⟩ := h
  unfold averagePulse
  rw [if_pos]
  rw [Bool.and_eq_true]
  exact ⟨List.any_eq_true.2 ⟨v, hv, by simpa using hne⟩, rfl⟩

/-- C71 is false as stated (documented "set the pretrigger period to strictly zero"): only the mean of the pretrigger samples is zero. -/
theorem average_pretrigger_zero_fails : averagePulse [0, 0, 0] [true] [[1, 3, (12 : ℚ)]] 3 2 true false = [-1, 1, 10] := by decide +kernel

/-- instances -/
example : firstN [true, false, true, true] ["a", "b", "c", "d"] 2 = (["a", "c"], [0, 2]) := by decide +kernel
example : (autoMask [true, true, false, true, true] [(10 : ℚ), 20, 10, 10, 10] 2).map nonzero = .ok [0, 3] := by decide +kernel
example : (autoMask [false] [(10 : ℚ)] 2).map nonzero = .error .value := by decide +kernel
example : averagePulse [0, 0, 0] [true, false, true] [[2, 2, 10], [5, 5, 5], [4, 4, (20 : ℚ)]] 3 2 true false = [0, 0, 12] := by decide +kernel

end Mass.Stat.FirstN
