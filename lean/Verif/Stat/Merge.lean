import Verif.Py
import Mathlib.Order.Defs.LinearOrder
import Mathlib.Order.Basic
import Mathlib.Algebra.Order.Ring.Int
/-! C35: merging two sorted lists (mass/mathstat/entropy.pyx). Values are elements of a linear order (no NaN). -/
namespace Mass.Stat
set_option linter.unusedSectionVars false
variable {α : Type} [LinearOrder α]

/-- entropy.pyx L166-192 `_merge_orderedlists_arrays`: the loop; `true` marks a value of the first list. Both lists are non-empty when the loop starts; it
ends as soon as one is used up. -/
def mergeLoop : List α → List α → List (α × Bool)
  | [], ys => ys.map (fun y => (y, false))
  | xs, [] => xs.map (fun x => (x, true))
  | x :: xs, y :: ys =>
    if x < y then (x, true) :: mergeLoop xs (y :: ys) else (y, false) :: mergeLoop (x :: xs) ys
termination_by xs ys => xs.length + ys.length

/-- entropy.pyx L138-163 `_merge_orderedlists`: values and flags. With an empty first list the flags are all True. -/
def mergeOrdered (xs ys : List α) : Except Exc (List (α × Bool)) :=
  if ys = [] then if xs = [] then .error .value else .ok (xs.map (fun x => (x, true)))
  else if xs = [] then .ok (ys.map (fun y => (y, true)))
  else .ok (mergeLoop xs ys)

/-- values flagged as coming from the first (second) list [specification] -/
def flagged (b : Bool) (l : List (α × Bool)) : List α := (l.filter (fun e => e.2 == b)).map Prod.fst

theorem map_fst_flag (b : Bool) (l : List α) : (l.map (fun x => (x, b))).map Prod.fst = l := by
  rw [List.map_map]
  exact List.map_id l

theorem flagged_map_same (b : Bool) (l : List α) : flagged b (l.map (fun x => (x, b))) = l := by
  induction l with
  | nil => rfl
  | cons a t ih => simp only [flagged, List.map_cons, List.filter_cons, beq_self_eq_true, if_true]; congr 1

theorem flagged_map_other {b c : Bool} (h : c ≠ b) (l : List α) : flagged b (l.map (fun x => (x, c))) = [] := by
  induction l with
  | nil => rfl
  | cons a t ih =>
    simp only [flagged, List.map_cons, List.filter_cons] at ih ⊢
    rw [if_neg (by simpa using h)]
    exact ih

theorem mergeLoop_spec (xs ys : List α) (hx : xs.Pairwise (· ≤ ·)) (hy : ys.Pairwise (· ≤ ·)) :
    ((mergeLoop xs ys).map Prod.fst).Pairwise (· ≤ ·) ∧ flagged true (mergeLoop xs ys) = xs ∧ flagged false (mergeLoop xs ys) = ys ∧
      ∀ e ∈ mergeLoop xs ys, e.1 ∈ xs ∨ e.1 ∈ ys := by
  fun_induction mergeLoop xs ys with
  | case1 ys => refine ⟨by rw [map_fst_flag]; exact hy, flagged_map_other (by decide) ys, flagged_map_same false ys, by simp⟩
  | case2 xs h => refine ⟨by rw [map_fst_flag]; exact hx, flagged_map_same true xs, flagged_map_other (by decide) xs, by simp⟩
  | case3 x xs y ys hlt ih =>
    rw [List.pairwise_cons] at hx
    obtain ⟨h1, h2, h3, h4⟩ := ih hx.2 hy
    rw [List.pairwise_cons] at hy
    refine ⟨?_, ?_, ?_, ?_⟩
    · rw [List.map_cons, List.pairwise_cons]
      refine ⟨?_, h1⟩
      intro z hz
      obtain ⟨e, he, rfl⟩ := List.mem_map.1 hz
      rcases h4 e he with h | h
      · exact hx.1 _ h
      · rcases List.mem_cons.1 h with h | h
        · rw [h]; exact le_of_lt hlt
        · exact le_trans (le_of_lt hlt) (hy.1 _ h)
    · unfold flagged at h2 ⊢
      rw [List.filter_cons, if_pos (by rfl), List.map_cons, h2]
    · unfold flagged at h3 ⊢
      rw [List.filter_cons, if_neg (by simp), h3]
    · intro e he
      rcases List.mem_cons.1 he with rfl | he
      · simp
      · rcases h4 e he with h | h
        · exact .inl (by simp [h])
        · exact .inr h
  | case4 x xs y ys hlt ih =>
    rw [List.pairwise_cons] at hy
    obtain ⟨h1, h2, h3, h4⟩ := ih hx hy.2
    rw [List.pairwise_cons] at hx
    rw [not_lt] at hlt
    refine ⟨?_, ?_, ?_, ?_⟩
    · rw [List.map_cons, List.pairwise_cons]
      refine ⟨?_, h1⟩
      intro z hz
      obtain ⟨e, he, rfl⟩ := List.mem_map.1 hz
      rcases h4 e he with h | h
      · rcases List.mem_cons.1 h with h | h
        · rw [h]; exact hlt
        · exact le_trans hlt (hx.1 _ h)
      · exact hy.1 _ h
    · unfold flagged at h2 ⊢
      rw [List.filter_cons, if_neg (by simp), h2]
    · unfold flagged at h3 ⊢
      rw [List.filter_cons, if_pos (by rfl), List.map_cons, h3]
    · intro e he
      rcases List.mem_cons.1 he with rfl | he
      · simp
      · rcases h4 e he with h | h
        · exact .inl h
        · exact .inr (by simp [h])

theorem flagged_perm (l : List (α × Bool)) : (l.map Prod.fst).Perm (flagged true l ++ flagged false l) := by
  induction l with
  | nil => exact .refl _
  | cons e t ih =>
    obtain ⟨a, b⟩ := e
    cases b with
    | true =>
      have h1 : flagged true ((a, true) :: t) = a :: flagged true t := by simp [flagged]
      have h2 : flagged false ((a, true) :: t) = flagged false t := by simp [flagged]
      rw [h1, h2, List.map_cons, List.cons_append]
      exact ih.cons a
    | false =>
      have h1 : flagged true ((a, false) :: t) = flagged true t := by simp [flagged]
      have h2 : flagged false ((a, false) :: t) = a :: flagged false t := by simp [flagged]
      rw [h1, h2, List.map_cons]
      exact (ih.cons a).trans List.perm_middle.symm

/-- C35. For sorted lists, the first not empty: the result is sorted, is a permutation of both lists, and the values flagged (not flagged) are exactly the
first (second) list in order. -/
theorem merge_partial {xs ys : List α} (hx : xs.Pairwise (· ≤ ·)) (hy : ys.Pairwise (· ≤ ·)) (hne : xs ≠ []) :
    ∃ l, mergeOrdered xs ys = .ok l ∧ (l.map Prod.fst).Pairwise (· ≤ ·) ∧ (l.map Prod.fst).Perm (xs ++ ys) ∧
      flagged true l = xs ∧ flagged false l = ys := by
  by_cases h : ys = []
  · subst h
    refine ⟨xs.map (fun x => (x, true)), ?_, by rw [map_fst_flag]; exact hx, by rw [map_fst_flag, List.append_nil], flagged_map_same true xs, flagged_map_other (by decide) xs⟩
    unfold mergeOrdered
    rw [if_pos rfl, if_neg hne]
  · obtain ⟨h1, h2, h3, -⟩ := mergeLoop_spec xs ys hx hy
    refine ⟨mergeLoop xs ys, ?_, h1, ?_, h2, h3⟩
    · unfold mergeOrdered
      rw [if_neg h, if_neg hne]
    · have := flagged_perm (mergeLoop xs ys)
      rwa [h2, h3] at this

/-- With an empty first list the values are still right. -/
theorem merge_empty_first_values {ys : List α} (hne : ys ≠ []) : (mergeOrdered [] ys).map (fun l => l.map Prod.fst) = .ok ys := by
  unfold mergeOrdered
  rw [if_neg hne, if_pos rfl]
  exact congrArg _ (map_fst_flag true ys)

/-- C35, instance (of equal values the second list's comes first) -/
example : mergeOrdered [1, 3, 3, 8] [2, 3, (9 : Int)] =
    .ok [(1, true), (2, false), (3, false), (3, true), (3, true), (8, true), (9, false)] := by decide +kernel

/-- C35 is false for an empty first list: everything is flagged as coming from it. -/
theorem merge_empty_first_fails : mergeOrdered [] [1, (2 : Int)] = .ok [(1, true), (2, true)] := by decide +kernel

end Mass.Stat
