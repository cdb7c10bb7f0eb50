import Verif.Stat.Qscale
import Verif.Stat.FirstN
/-! What the median is: used in C56 -/
namespace Mass.Stat.FirstN
open Mass
variable {K : Type} [Field K] [LinearOrder K] [IsStrictOrderedRing K]

/-- `v` is value number `k`, counting from 0, of the data in increasing order [specification] -/
def IsOrderStat (x : List K) (k : Nat) (v : K) : Prop := x.countP (fun y => decide (y < v)) ≤ k ∧ k < x.countP (fun y => decide (y ≤ v))

theorem order_stat {x : List K} {k : Nat} (hk : k < x.length) : IsOrderStat x k ((x.insertionSort (· ≤ ·)).getD k 0) := by
  have hp := List.perm_insertionSort (· ≤ ·) x
  have hl := hp.length_eq
  have hs : (x.insertionSort (· ≤ ·)).Pairwise (· ≤ ·) := List.pairwise_insertionSort (· ≤ ·) x
  constructor
  · rw [← hp.countP_eq]
    apply countP_le_of
    intro j hj hj'
    simp only [decide_eq_false_iff_not, not_lt]
    exact sorted_mono hs hj hj'
  · rw [← hp.countP_eq, Nat.lt_iff_add_one_le]
    apply le_countP_of (by omega)
    intro j hj
    simp only [decide_eq_true_eq]
    exact sorted_mono hs (by omega) (by omega)

/-- C56: the median of the pulse averages is the mean of the two middle values in increasing order, which are the same value for an odd number of pulses -/
theorem median_middle {x : List K} (hx : x ≠ []) :
    ∃ a b, IsOrderStat x ((x.length - 1) / 2) a ∧ IsOrderStat x (x.length / 2) b ∧ median x = (a + b) / 2 := by
  have hpos : 0 < x.length := List.length_pos_of_ne_nil hx
  refine ⟨_, _, order_stat (k := (x.length - 1) / 2) (by omega), order_stat (k := x.length / 2) (by omega), ?_⟩
  unfold median
  dsimp only
  by_cases h : x.length % 2 = 1
  · rw [if_pos h]
    have : (x.length - 1) / 2 = x.length / 2 := by omega
    rw [this]
    ring
  · rw [if_neg h]
    have : (x.length - 1) / 2 = x.length / 2 - 1 := by omega
    rw [this]

/-- at most one value has a given number -/
theorem order_stat_unique {x : List K} {k : Nat} {a b : K} (ha : IsOrderStat x k a) (hb : IsOrderStat x k b) : a = b := by
  have key : ∀ {a b : K}, IsOrderStat x k a → IsOrderStat x k b → ¬ a < b := by
    intro a b ha hb h
    have := List.countP_mono_left (p := fun y => decide (y ≤ a)) (q := fun y => decide (y < b)) (l := x)
      (fun v _ hv => by simpa using lt_of_le_of_lt (by simpa using hv) h)
    have h1 := ha.2
    have h2 := hb.1
    omega
  exact le_antisymm (not_lt.1 (key hb ha)) (not_lt.1 (key ha hb))

example : median [3, 1, 10, (4 : ℚ)] = 7 / 2 ∧ median [3, 1, (10 : ℚ)] = 3 := by decide +kernel

end Mass.Stat.FirstN
