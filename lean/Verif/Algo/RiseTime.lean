import Verif.Py
import Mathlib.Algebra.Order.Field.Basic
import Mathlib.Algebra.BigOperators.Group.List.Basic
import Mathlib.Data.List.GetD
import Mathlib.Data.Rat.Floor
import Mathlib.Tactic.FieldSimp
import Mathlib.Tactic.Linarith
import Mathlib.Tactic.NormNum
import Mathlib.Tactic.Positivity
import Mathlib.Tactic.Push
/-! C128: the rise time of pulses, `estimateRiseTime` (mass/core/analysis_algorithms.pyx L29-93), for a batch of records, in exact arithmetic over an ordered field. NaN is `none`.
Not modelled: that a one-dimensional array given by the caller is reshaped in place. -/
namespace Mass.Algo.RiseTime
set_option linter.unusedSectionVars false
open Mass
variable {K : Type} [Field K] [LinearOrder K] [IsStrictOrderedRing K]

/-- the largest value of a record, analysis_algorithms.pyx L70 -/
def maxOf : List K → K
  | [] => 0
  | a :: t => t.foldl max a

/-- the smallest value of a record, analysis_algorithms.pyx L68 -/
def minOf : List K → K
  | [] => 0
  | a :: t => t.foldl min a

/-- argmax of one record: the first place of the largest value, analysis_algorithms.pyx L71 -/
def argmax (r : List K) : Nat := r.findIdx (fun v => decide (v = maxOf r))

/-- nPretrig as used, analysis_algorithms.pyx L65-69 -/
def skip (nPre : Int) : Nat := if 4 ≤ nPre then nPre.toNat else 0

/-- baseline_value of one record, analysis_algorithms.pyx L65-69 -/
def baseline (nPre : Int) (r : List K) : K :=
  if 4 ≤ nPre then (r.take nPre.toNat).sum / ((r.take nPre.toNat).length : K) else minOf r

/-- entry j of a row of rising_data, analysis_algorithms.pyx L75-76 -/
def rel (nPre : Int) (r : List K) (j : Nat) : K := (r.getD (skip nPre + j) 0 - baseline nPre r) / (maxOf r - baseline nPre r)

/-- (rising_data > threshold).argmax for one row of W entries: the first such place, or 0 if there is none; analysis_algorithms.pyx L79-80 -/
def above (nPre : Int) (r : List K) (W : Nat) (t : K) : Nat := ((List.range W).find? (fun j => decide (t < rel nPre r j))).getD 0

/-- last_idx of one row, analysis_algorithms.pyx L79-82 -/
def lastIdx (nPre : Int) (r : List K) (W : Nat) : Nat :=
  let first := above nPre r W (1 / 10)
  let last0 : Int := (above nPre r W (9 / 10) : Int) - 1
  let last1 : Int := if last0 < first then first + 1 else last0
  let last2 : Int := if last1 = W then (W : Int) - 1 else last1
  last2.toNat

/-- the rise time of one record, analysis_algorithms.pyx L75-91, W being the number of columns of rising_data. A record whose largest value is its baseline is divided by zero: all its
quotients are NaN or minus infinity, and so is the result NaN. -/
def riseOne (timebase : K) (nPre : Int) (W : Nat) (r : List K) : Option K :=
  if maxOf r = baseline nPre r then none
  else
    let first := above nPre r W (1 / 10)
    let last := lastIdx nPre r W
    let y0 := rel nPre r last - rel nPre r first
    let y := if y0 < timebase then timebase else y0
    some (if y ≤ 0 then -99 / 10000000 else timebase * (last - first : K) / y)

/-- `estimateRiseTime`, analysis_algorithms.pyx L29-93. Without records or samples the reductions of L66-71 raise ValueError. Without columns of rising_data argmax raises ValueError, which is caught (L93). -/
def riseTimes (timebase : K) (nPre : Int) (rows : List (List K)) : Except Exc (List (Option K)) :=
  if rows = [] ∨ [] ∈ rows then .error .value
  else
    let pk := (rows.map argmax).foldl max 0
    let W := pk + 1 - skip nPre
    if W = 0 then .ok (rows.map (fun _ => some (-99 / 10000000)))
    else .ok (rows.map (riseOne timebase nPre W))

/-! ### Lemmas -/

theorem foldl_max_spec (t : List K) : ∀ a : K, (t.foldl max a ∈ a :: t) ∧ ∀ x ∈ a :: t, x ≤ t.foldl max a := by
  induction t with
  | nil => intro a; simp
  | cons b t ih =>
    intro a
    rw [List.foldl_cons]
    obtain ⟨h1, h2⟩ := ih (max a b)
    constructor
    · rcases List.mem_cons.1 h1 with h | h
      · rcases le_total a b with hab | hab
        · rw [max_eq_right hab] at h ⊢; rw [h]; simp
        · rw [max_eq_left hab] at h ⊢; rw [h]; simp
      · simp [h]
    · intro x hx
      have hm := h2 (max a b) (by simp)
      simp only [List.mem_cons] at hx
      rcases hx with rfl | rfl | hx
      · exact le_trans (le_max_left _ _) hm
      · exact le_trans (le_max_right _ _) hm
      · exact h2 x (by simp [hx])

theorem maxOf_mem {r : List K} (h : r ≠ []) : maxOf r ∈ r := by
  cases r with
  | nil => exact absurd rfl h
  | cons a t => exact (foldl_max_spec t a).1

theorem le_maxOf {r : List K} {x : K} (h : x ∈ r) : x ≤ maxOf r := by
  cases r with
  | nil => simp at h
  | cons a t => exact (foldl_max_spec t a).2 x h

theorem maxOf_affine {a : K} (ha : 0 < a) (b : K) {r : List K} (h : r ≠ []) : maxOf (r.map (fun x => a * x + b)) = a * maxOf r + b := by
  cases r with
  | nil => exact absurd rfl h
  | cons c t =>
    show (t.map _).foldl max (a * c + b) = a * t.foldl max c + b
    clear h
    induction t generalizing c with
    | nil => rfl
    | cons d t ih =>
      rw [List.map_cons, List.foldl_cons, List.foldl_cons]
      have : max (a * c + b) (a * d + b) = a * max c d + b := by
        rcases le_total c d with h | h
        · rw [max_eq_right h, max_eq_right (by nlinarith)]
        · rw [max_eq_left h, max_eq_left (by nlinarith)]
      rw [this]
      exact ih _

theorem minOf_affine {a : K} (ha : 0 < a) (b : K) {r : List K} (h : r ≠ []) : minOf (r.map (fun x => a * x + b)) = a * minOf r + b := by
  cases r with
  | nil => exact absurd rfl h
  | cons c t =>
    show (t.map _).foldl min (a * c + b) = a * t.foldl min c + b
    clear h
    induction t generalizing c with
    | nil => rfl
    | cons d t ih =>
      rw [List.map_cons, List.foldl_cons, List.foldl_cons]
      have : min (a * c + b) (a * d + b) = a * min c d + b := by
        rcases le_total c d with h | h
        · rw [min_eq_left h, min_eq_left (by nlinarith)]
        · rw [min_eq_right h, min_eq_right (by nlinarith)]
      rw [this]
      exact ih _

theorem sum_affine (a b : K) (l : List K) : (l.map (fun x => a * x + b)).sum = a * l.sum + l.length * b := by
  induction l with
  | nil => simp
  | cons c t ih => simp only [List.map_cons, List.sum_cons, ih, List.length_cons]; push_cast; ring

theorem baseline_affine {a : K} (ha : 0 < a) (b : K) (nPre : Int) {r : List K} (h : r ≠ []) : baseline nPre (r.map (fun x => a * x + b)) = a * baseline nPre r + b := by
  unfold baseline
  split
  · rename_i h4
    rw [← List.map_take, sum_affine, List.length_map]
    have : ((r.take nPre.toNat).length : K) ≠ 0 := by
      have hl : r.length ≠ 0 := by rw [Ne, List.length_eq_zero_iff]; exact h
      have : (r.take nPre.toNat).length ≠ 0 := by rw [List.length_take]; omega
      exact_mod_cast this
    field_simp
  · exact minOf_affine ha b h

theorem argmax_lt {r : List K} (h : r ≠ []) : argmax r < r.length := by
  unfold argmax
  exact List.findIdx_lt_length_of_exists ⟨maxOf r, maxOf_mem h, by simp⟩

theorem argmax_value {r : List K} (h : r ≠ []) : r.getD (argmax r) 0 = maxOf r := by
  have hl := argmax_lt h
  rw [List.getD_eq_getElem _ _ hl]
  exact of_decide_eq_true (List.findIdx_getElem (xs := r) (p := fun v => decide (v = maxOf r)) (w := hl))

theorem argmax_affine {a : K} (ha : 0 < a) (b : K) {r : List K} (h : r ≠ []) : argmax (r.map (fun x => a * x + b)) = argmax r := by
  unfold argmax
  rw [maxOf_affine ha b h, List.findIdx_map]
  congr 1
  funext v
  simp [ha.ne']

theorem rel_affine {a : K} (ha : 0 < a) (b : K) (nPre : Int) {r : List K} (h : r ≠ []) {j : Nat} (hj : skip nPre + j < r.length) :
    rel nPre (r.map (fun x => a * x + b)) j = rel nPre r j := by
  unfold rel
  rw [baseline_affine ha b nPre h, maxOf_affine ha b h, List.getD_eq_getElem _ _ (by simpa using hj), List.getD_eq_getElem _ _ hj, List.getElem_map]
  have e1 : ∀ x : K, a * x + b - (a * baseline nPre r + b) = a * (x - baseline nPre r) := fun x => by ring
  rw [e1, e1, mul_div_mul_left _ _ ha.ne']

theorem find_congr {l : List Nat} {p q : Nat → Bool} (h : ∀ x ∈ l, p x = q x) : l.find? p = l.find? q := by
  induction l with
  | nil => rfl
  | cons a t ih =>
    rw [List.find?_cons, List.find?_cons, h a (by simp), ih (fun x hx => h x (by simp [hx]))]

theorem above_congr (nPre : Int) (r r' : List K) (W : Nat) (t : K) (h : ∀ j, j < W → rel nPre r j = rel nPre r' j) : above nPre r W t = above nPre r' W t := by
  unfold above
  rw [find_congr (q := fun j => decide (t < rel nPre r' j))]
  intro x hx
  rw [h x (List.mem_range.1 hx)]

theorem find_range {p : Nat → Bool} {W c : Nat} (hc : c < W) (hp : p c = true) (hb : ∀ j, j < c → p j = false) : (List.range W).find? p = some c := by
  rw [List.find?_range_eq_some]
  exact ⟨hp, List.mem_range.2 hc, fun j hj => by simp [hb j hj]⟩

theorem above_eq (nPre : Int) (r : List K) {W c : Nat} {t : K} (hc : c < W) (h1 : t < rel nPre r c) (h2 : ∀ j, j < c → rel nPre r j ≤ t) : above nPre r W t = c := by
  unfold above
  rw [find_range hc (by simpa using h1) (fun j hj => by simpa using h2 j hj)]
  rfl

theorem above_lt (nPre : Int) (r : List K) {W : Nat} (t : K) (hW : 0 < W) : above nPre r W t < W := by
  unfold above
  cases h : (List.range W).find? (fun j => decide (t < rel nPre r j)) with
  | none => exact hW
  | some c => exact List.mem_range.1 (List.mem_of_find?_eq_some h)

theorem lastIdx_lt (nPre : Int) (r : List K) {W : Nat} (hW : 0 < W) : lastIdx nPre r W < W := by
  have h1 := above_lt nPre r (1 / 10) hW
  have h2 := above_lt nPre r (9 / 10) hW
  unfold lastIdx
  dsimp only
  split <;> split <;> omega

theorem one_congr (tb : K) (nPre : Int) {r r' : List K} {W : Nat} (hW : 0 < W) (h : ∀ j, j < W → rel nPre r j = rel nPre r' j)
    (hm : maxOf r = baseline nPre r ↔ maxOf r' = baseline nPre r') : riseOne tb nPre W r = riseOne tb nPre W r' := by
  have e1 := fun t => above_congr nPre r r' W t h
  have e2 : lastIdx nPre r W = lastIdx nPre r' W := by unfold lastIdx; rw [e1, e1]
  unfold riseOne
  by_cases hc : maxOf r = baseline nPre r
  · rw [if_pos hc, if_pos (hm.1 hc)]
  · rw [if_neg hc, if_neg (fun hx => hc (hm.2 hx))]
    dsimp only
    rw [e2, e1, h _ (lastIdx_lt nPre r' hW), h _ (above_lt nPre r' _ hW)]

theorem pk_lt (rows : List (List K)) (L : Nat) (hL : 1 ≤ L) (hl : ∀ r ∈ rows, r.length = L) : (rows.map argmax).foldl max 0 < L := by
  have : ∀ (l : List Nat) (a : Nat), a < L → (∀ x ∈ l, x < L) → l.foldl max a < L := by
    intro l
    induction l with
    | nil => intro a ha _; exact ha
    | cons b t ih =>
      intro a ha hx
      rw [List.foldl_cons]
      refine ih _ ?_ (fun x hx' => hx x (by simp [hx']))
      have := hx b (by simp)
      omega
  refine this _ 0 (by omega) ?_
  intro x hx
  obtain ⟨r, hr, rfl⟩ := List.mem_map.1 hx
  rw [← hl r hr]
  refine argmax_lt ?_
  rintro rfl
  have := hl [] hr
  simp at this
  omega

theorem le_pk (rows : List (List K)) {r : List K} (hr : r ∈ rows) : argmax r ≤ (rows.map argmax).foldl max 0 := by
  have : ∀ (l : List Nat) (a : Nat), a ≤ l.foldl max a ∧ ∀ x ∈ l, x ≤ l.foldl max a := by
    intro l
    induction l with
    | nil => intro a; simp
    | cons b t ih =>
      intro a
      rw [List.foldl_cons]
      obtain ⟨h1, h2⟩ := ih (max a b)
      refine ⟨by omega, ?_⟩
      intro x hx
      rcases List.mem_cons.1 hx with rfl | hx
      · omega
      · exact h2 x hx
  exact (this _ 0).2 _ (List.mem_map_of_mem hr)

/-! ### What the rise time is -/

/-- C128. Scaling a pulse and adding a constant (each pulse its own, with positive factors) does not change any rise time of the batch. -/
theorem rise_affine (tb : K) (nPre : Int) (L : Nat) (l : List (K × K × List K)) (ha : ∀ p ∈ l, 0 < p.1) (hl : ∀ p ∈ l, p.2.2.length = L) :
    riseTimes tb nPre (l.map (fun p => p.2.2.map (fun x => p.1 * x + p.2.1))) = riseTimes tb nPre (l.map (fun p => p.2.2)) := by
  unfold riseTimes
  by_cases h0 : l = []
  · subst h0; rfl
  by_cases hL : L = 0
  · have hmem : ∃ p, p ∈ l := List.exists_mem_of_ne_nil l h0
    obtain ⟨p, hp⟩ := hmem
    have hp0 : p.2.2 = [] := List.length_eq_zero_iff.1 (by rw [hl p hp, hL])
    rw [if_pos (Or.inr (List.mem_map.2 ⟨p, hp, by rw [hp0]; rfl⟩)), if_pos (Or.inr (List.mem_map.2 ⟨p, hp, hp0⟩))]
  have hne : ∀ p ∈ l, p.2.2 ≠ [] := fun p hp hc => by have := hl p hp; rw [hc] at this; simp at this; omega
  have hno1 : ¬ (l.map (fun p => p.2.2.map (fun x => p.1 * x + p.2.1)) = [] ∨ [] ∈ l.map (fun p => p.2.2.map (fun x => p.1 * x + p.2.1))) := by
    rintro (hc | hc)
    · exact h0 (List.map_eq_nil_iff.1 hc)
    · obtain ⟨p, hp, hpe⟩ := List.mem_map.1 hc
      exact hne p hp (List.map_eq_nil_iff.1 hpe)
  have hno2 : ¬ (l.map (fun p => p.2.2) = [] ∨ [] ∈ l.map (fun p => p.2.2)) := by
    rintro (hc | hc)
    · exact h0 (List.map_eq_nil_iff.1 hc)
    · obtain ⟨p, hp, hpe⟩ := List.mem_map.1 hc
      exact hne p hp hpe
  rw [if_neg hno1, if_neg hno2]
  · have epk : (l.map (fun p => p.2.2.map (fun x => p.1 * x + p.2.1))).map argmax = (l.map (fun p => p.2.2)).map argmax := by
      rw [List.map_map, List.map_map]
      refine List.map_congr_left fun p hp => ?_
      exact argmax_affine (ha p hp) _ (hne p hp)
    dsimp only
    rw [epk]
    have hpk := pk_lt (l.map (fun p => p.2.2)) L (by omega) (by
      intro r hr
      obtain ⟨p, hp, rfl⟩ := List.mem_map.1 hr
      exact hl p hp)
    split
    · simp only [List.map_map]
      rfl
    · rename_i hW
      congr 1
      set V := ((l.map (fun p => p.2.2)).map argmax).foldl max 0 + 1 - skip nPre with hV
      clear_value V
      rw [List.map_map, List.map_map]
      refine List.map_congr_left fun p hp => ?_
      simp only [Function.comp_apply]
      refine one_congr tb nPre (by omega) (fun j hj => rel_affine (ha p hp) _ nPre (hne p hp) (by rw [hl p hp]; omega)) ?_
      rw [maxOf_affine (ha p hp) _ (hne p hp), baseline_affine (ha p hp) _ nPre (hne p hp)]
      constructor
      · intro h
        exact mul_left_cancel₀ (ha p hp).ne' (add_right_cancel h)
      · intro h
        rw [h]

/-- at the peak the relative height is one -/
theorem rel_peak (nPre : Int) {r : List K} (h : r ≠ []) (hb : baseline nPre r < maxOf r) (hs : skip nPre ≤ argmax r) : rel nPre r (argmax r - skip nPre) = 1 := by
  unfold rel
  rw [show skip nPre + (argmax r - skip nPre) = argmax r by omega, argmax_value h]
  exact div_self (sub_ne_zero.2 hb.ne')

theorem foldl_min_spec (t : List K) : ∀ a : K, (t.foldl min a ∈ a :: t) ∧ ∀ x ∈ a :: t, t.foldl min a ≤ x := by
  induction t with
  | nil => intro a; simp
  | cons b t ih =>
    intro a
    rw [List.foldl_cons]
    obtain ⟨h1, h2⟩ := ih (min a b)
    constructor
    · rcases List.mem_cons.1 h1 with h | h
      · rcases le_total a b with hab | hab
        · rw [min_eq_left hab] at h ⊢; rw [h]; simp
        · rw [min_eq_right hab] at h ⊢; rw [h]; simp
      · simp [h]
    · intro x hx
      have hm := h2 (min a b) (by simp)
      simp only [List.mem_cons] at hx
      rcases hx with rfl | rfl | hx
      · exact le_trans hm (min_le_left _ _)
      · exact le_trans hm (min_le_right _ _)
      · exact h2 x (by simp [hx])

/-- C128. With fewer than four pretrigger samples the whole record is used, with its smallest value as baseline: the relative heights of all samples are between 0 and 1, and both values occur. -/
theorem rel_bounds (nPre : Int) (hn : nPre < 4) (r : List K) (hr : r ≠ []) (hb : baseline nPre r < maxOf r) :
    (∀ j, j < r.length → 0 ≤ rel nPre r j ∧ rel nPre r j ≤ 1) ∧ (∃ j, j < r.length ∧ rel nPre r j = 0) ∧ ∃ j, j < r.length ∧ rel nPre r j = 1 := by
  have hs : skip nPre = 0 := by unfold skip; rw [if_neg (by omega)]
  have hbm : baseline nPre r = minOf r := by unfold baseline; rw [if_neg (by omega)]
  have hmin : minOf r ∈ r ∧ ∀ x ∈ r, minOf r ≤ x := by
    cases r with
    | nil => exact absurd rfl hr
    | cons a t => exact foldl_min_spec t a
  have hd := sub_pos.2 hb
  refine ⟨?_, ?_, argmax r, argmax_lt hr, ?_⟩
  · intro j hj
    unfold rel
    rw [hs, Nat.zero_add, List.getD_eq_getElem _ _ hj]
    refine ⟨div_nonneg (sub_nonneg.2 ?_) hd.le, (div_le_one hd).2 (by have := le_maxOf (List.getElem_mem hj); linarith)⟩
    rw [hbm]
    exact hmin.2 _ (List.getElem_mem hj)
  · obtain ⟨j, hj, he⟩ := List.mem_iff_getElem.1 hmin.1
    refine ⟨j, hj, ?_⟩
    unfold rel
    rw [hs, Nat.zero_add, List.getD_eq_getElem _ _ hj, he, hbm, sub_self, zero_div]
  · have := rel_peak nPre hr hb (by omega)
    rw [hs, Nat.sub_zero] at this
    exact this

/-- C128. The rise time: for a pulse whose first sample above 10% of the peak (f) and last sample before the first one above 90% (l) are different, it is the time between them divided by the difference of their relative heights
(when that difference is at least as large as the number of seconds of a sample), whatever other records are in the batch. -/
theorem rise_spec (tb : K) (htb : 0 < tb) (nPre : Int) (W : Nat) (r : List K) (hb : baseline nPre r < maxOf r) (f l : Nat) (hfl : f < l) (hl : l + 1 < W)
    (hf1 : 1 / 10 < rel nPre r f) (hf2 : ∀ j, j < f → rel nPre r j ≤ 1 / 10) (hl1 : 9 / 10 < rel nPre r (l + 1)) (hl2 : ∀ j, j ≤ l → rel nPre r j ≤ 9 / 10) :
    riseOne tb nPre W r = some (if rel nPre r l - rel nPre r f < tb then ((l - f : Nat) : K) else tb * ((l - f : Nat) : K) / (rel nPre r l - rel nPre r f)) := by
  have e1 : above nPre r W (1 / 10) = f := above_eq nPre r (by omega) hf1 hf2
  have e9 : above nPre r W (9 / 10) = l + 1 := above_eq nPre r (by omega) hl1 (fun j hj => hl2 j (by omega))
  have el : lastIdx nPre r W = l := by
    unfold lastIdx
    rw [e1, e9]
    dsimp only
    rw [if_neg (by push_cast; omega), if_neg (by push_cast; omega)]
    push_cast
    omega
  unfold riseOne
  rw [if_neg hb.ne']
  dsimp only
  rw [e1, el, Nat.cast_sub hfl.le]
  split
  · rename_i h
    rw [if_neg (not_le.2 htb)]
    congr 1
    field_simp
  · rename_i h
    push Not at h
    rw [if_neg (not_le.2 (lt_of_lt_of_le htb h))]

/-- C128. It is at least 1.25 times the time between the two samples. -/
theorem rise_lower (tb : K) (htb : 0 < tb) (a b : K) (ha : 1 / 10 < a) (hb : b ≤ 9 / 10) (k : Nat) (h : tb ≤ b - a) : 5 / 4 * (tb * k) ≤ tb * k / (b - a) := by
  have h1 : 0 < b - a := lt_of_lt_of_le htb h
  rw [le_div_iff₀ h1]
  have h2 : b - a ≤ 4 / 5 := by linarith
  have h3 : 0 ≤ tb * (k : K) := by positivity
  nlinarith

/-- C128. As long as some sample lies above 10% and before the first one above 90%, the rise time does not depend on the batch: any two batches reaching at least to the peak of this pulse give the same. -/
theorem batch_independent (tb : K) (nPre : Int) (W W' : Nat) (r : List K) (hr : r ≠ []) (hs : skip nPre ≤ argmax r) (hW : argmax r - skip nPre < W) (hW' : argmax r - skip nPre < W')
    (hb : baseline nPre r < maxOf r) (hne : above nPre r W (1 / 10) < above nPre r W (9 / 10)) : riseOne tb nPre W r = riseOne tb nPre W' r := by
  have hpk := rel_peak nPre hr hb hs
  have hfirst : ∀ t : K, t < 1 → ∃ c, c ≤ argmax r - skip nPre ∧ t < rel nPre r c ∧ ∀ j, j < c → rel nPre r j ≤ t := by
    intro t ht
    have hex : ∃ c, t < rel nPre r c := ⟨_, by rw [hpk]; exact ht⟩
    classical
    refine ⟨Nat.find hex, Nat.find_min' hex (by rw [hpk]; exact ht), Nat.find_spec hex, ?_⟩
    intro j hj
    exact not_lt.1 (Nat.find_min hex hj)
  obtain ⟨f, hf, hf1, hf2⟩ := hfirst (1 / 10) (by norm_num)
  obtain ⟨c, hc, hc1, hc2⟩ := hfirst (9 / 10) (by norm_num)
  have e1 : ∀ V, argmax r - skip nPre < V → above nPre r V (1 / 10) = f := fun V hV => above_eq nPre r (by omega) hf1 hf2
  have e9 : ∀ V, argmax r - skip nPre < V → above nPre r V (9 / 10) = c := fun V hV => above_eq nPre r (by omega) hc1 hc2
  rw [e1 W hW, e9 W hW] at hne
  have el : ∀ V, argmax r - skip nPre < V → lastIdx nPre r V = c - 1 := by
    intro V hV
    unfold lastIdx
    rw [e1 V hV, e9 V hV]
    dsimp only
    rw [if_neg (by omega), if_neg (by omega)]
    omega
  unfold riseOne
  rw [e1 W hW, e1 W' hW', el W hW, el W' hW']

/-- C128. The rise times come in the order of the records: each depends only on its record and on the latest peak of the batch, so reordering the batch reorders the results. -/
theorem rise_perm (tb : K) (nPre : Int) (rows rows' : List (List K)) (h : rows.Perm rows') (res : List (Option K)) (hr : riseTimes tb nPre rows = .ok res) :
    ∃ res', riseTimes tb nPre rows' = .ok res' ∧ (rows.zip res).Perm (rows'.zip res') := by
  have hpk : (rows.map argmax).foldl max 0 = (rows'.map argmax).foldl max 0 := by
    refine List.Perm.foldl_eq' (h.map _) ?_ 0
    intro x _ y _ z
    omega
  have hz : ∀ (l : List (List K)) (g : List K → Option K), l.zip (l.map g) = l.map (fun r => (r, g r)) := by
    intro l g
    induction l with
    | nil => rfl
    | cons a t ih => simp [ih]
  unfold riseTimes at hr ⊢
  have hcond : (rows = [] ∨ [] ∈ rows) ↔ (rows' = [] ∨ [] ∈ rows') := by
    rw [h.mem_iff]
    constructor
    · rintro (rfl | h')
      · exact Or.inl h.nil_eq.symm
      · exact Or.inr h'
    · rintro (rfl | h')
      · exact Or.inl h.eq_nil
      · exact Or.inr h'
  by_cases hc : rows = [] ∨ [] ∈ rows
  · rw [if_pos hc] at hr; exact absurd hr (by simp)
  · rw [if_neg hc] at hr
    rw [if_neg (fun hx => hc (hcond.2 hx))]
    dsimp only at hr ⊢
    rw [← hpk]
    split at hr
    · rename_i hW
      rw [if_pos hW]
      injection hr with hr
      refine ⟨_, rfl, ?_⟩
      rw [← hr, hz, hz]
      exact h.map _
    · rename_i hW
      rw [if_neg hW]
      injection hr with hr
      refine ⟨_, rfl, ?_⟩
      rw [← hr, hz, hz]
      exact h.map _

/-- C128. A pulse that rises in a straight line over R ≥ 3 samples (in less than a second) has the rise time R samples, whatever else is in the batch. -/
theorem ramp_exact (tb : K) (htb : 0 < tb) (nPre : Int) (W R : Nat) (hR : 3 ≤ R) (htR : tb * R ≤ 1) (hW : R < W) (r : List K) (s : K) (hs : 0 < s)
    (hm : maxOf r = baseline nPre r + s * R) (hr : ∀ j, j ≤ R → r.getD (skip nPre + j) 0 = baseline nPre r + s * j) : riseOne tb nPre W r = some (tb * R) := by
  have hR0 : (0 : K) < R := by exact_mod_cast (show 0 < R by omega)
  have hrel : ∀ j, j ≤ R → rel nPre r j = j / R := by
    intro j hj
    unfold rel
    rw [hr j hj, hm]
    have : s ≠ 0 := hs.ne'
    field_simp
    ring
  have hlt : ∀ (p j : Nat), j ≤ R → ((p : K) / 10 < rel nPre r j ↔ p * R < 10 * j) := by
    intro p j hj
    rw [hrel j hj, div_lt_div_iff₀ (by norm_num) hR0]
    constructor
    · intro h
      have : ((p * R : Nat) : K) < ((10 * j : Nat) : K) := by push_cast; linarith
      exact_mod_cast this
    · intro h
      have : ((p * R : Nat) : K) < ((10 * j : Nat) : K) := by exact_mod_cast h
      push_cast at this
      linarith
  have h1 : ∀ j, j ≤ R → ((1 : K) / 10 < rel nPre r j ↔ R < 10 * j) := by
    intro j hj
    have := hlt 1 j hj
    rw [Nat.cast_one, one_mul] at this
    exact this
  have h9 : ∀ j, j ≤ R → ((9 : K) / 10 < rel nPre r j ↔ 9 * R < 10 * j) := by
    intro j hj
    have := hlt 9 j hj
    push_cast at this
    exact this
  have hb : baseline nPre r < maxOf r := by rw [hm]; have := mul_pos hs hR0; linarith
  have hfl : R / 10 + 1 < 9 * R / 10 := by omega
  rw [rise_spec tb htb nPre W r hb (R / 10 + 1) (9 * R / 10) hfl (by omega)
    ((h1 _ (by omega)).2 (by omega)) (fun j hj => not_lt.1 (fun hc => absurd ((h1 j (by omega)).1 hc) (by omega)))
    ((h9 _ (by omega)).2 (by omega)) (fun j hj => not_lt.1 (fun hc => absurd ((h9 j (by omega)).1 hc) (by omega)))]
  rw [hrel _ (by omega), hrel _ (by omega)]
  have hd : ((9 * R / 10 : Nat) : K) / R - ((R / 10 + 1 : Nat) : K) / R = ((9 * R / 10 - (R / 10 + 1) : Nat) : K) / R := by
    rw [Nat.cast_sub hfl.le]
    ring
  rw [hd]
  set k := 9 * R / 10 - (R / 10 + 1) with hk
  have hk1 : (1 : K) ≤ k := by exact_mod_cast (show 1 ≤ k by omega)
  rw [if_neg]
  · congr 1
    field_simp
  · rw [not_lt, le_div_iff₀ hR0]
    linarith

/-- C128, instance: 5 pretrigger samples, a ramp over 4 samples, then decay; next to a later pulse -/
example : riseTimes (K := ℚ) (1 / 100) 5 [[7, 7, 7, 7, 7, 7, 9, 11, 13, 15, 12, 10], [0, 0, 0, 0, 0, 0, 0, 0, 1, 2, 3, 4]] = .ok [some (4 / 100), some (4 / 100)] := by decide +kernel

/-! ### Disagreements -/

/-- Disagreement (C128): the code means the second of the two samples to be at least one after the first, but a pulse with exactly one sample between 10% and 90% (two samples to rise, say) gets the rise time zero. -/
theorem two_samples_fails (tb : K) (htb : 0 < tb) (nPre : Int) (W : Nat) (r : List K) (hb : baseline nPre r < maxOf r) (f : Nat) (hW : f + 1 < W)
    (hf1 : 1 / 10 < rel nPre r f) (hf2 : ∀ j, j < f → rel nPre r j ≤ 1 / 10) (hf3 : rel nPre r f ≤ 9 / 10) (hl1 : 9 / 10 < rel nPre r (f + 1)) : riseOne tb nPre W r = some 0 := by
  have e1 : above nPre r W (1 / 10) = f := above_eq nPre r (by omega) hf1 hf2
  have e9 : above nPre r W (9 / 10) = f + 1 := above_eq nPre r (by omega) hl1 (fun j hj => by
    rcases Nat.lt_succ_iff_lt_or_eq.1 hj with h | rfl
    · exact le_trans (hf2 j h) (by norm_num)
    · exact hf3)
  have el : lastIdx nPre r W = f := by
    unfold lastIdx
    rw [e1, e9]
    dsimp only
    rw [if_neg (by push_cast; omega), if_neg (by push_cast; omega)]
    push_cast
    omega
  unfold riseOne
  rw [if_neg hb.ne']
  dsimp only
  rw [e1, el, sub_self, if_pos htb, if_neg (not_le.2 htb), sub_self]
  simp

/-- such pulses exist: the height of a sample doubles, then stays [specification] -/
example : riseTimes (K := ℚ) (1 / 100) 4 [[0, 0, 0, 0, 0, 5, 10, 8]] = .ok [some 0] := by decide +kernel

/-- Disagreement (C128): for a pulse rising within one sample, the rise time is zero if no other pulse of the batch peaks later, and otherwise 1 (one second, whatever the sampling time): the batches into which a file is
divided change the result. (The difference of two relative heights is compared to the sampling time in seconds.) -/
theorem one_sample_fails (tb : K) (htb : 0 < tb) (nPre : Int) (r : List K) (hr : r ≠ []) (hs : skip nPre ≤ argmax r) (hb : baseline nPre r < maxOf r) (hlen : argmax r + 1 < r.length)
    (hf2 : ∀ j, j < argmax r - skip nPre → rel nPre r j ≤ 1 / 10) (W : Nat) (hW : argmax r - skip nPre + 1 < W) :
    riseOne tb nPre (argmax r - skip nPre + 1) r = some 0 ∧ riseOne tb nPre W r = some 1 := by
  have hpk := rel_peak nPre hr hb hs
  set f := argmax r - skip nPre with hf
  have e1 : ∀ V, f < V → above nPre r V (1 / 10) = f := fun V hV => above_eq nPre r hV (by rw [hpk]; norm_num) hf2
  have e9 : ∀ V, f < V → above nPre r V (9 / 10) = f := fun V hV => above_eq nPre r hV (by rw [hpk]; norm_num) (fun j hj => le_trans (hf2 j hj) (by norm_num))
  have hle : rel nPre r (f + 1) ≤ 1 := by
    unfold rel
    rw [div_le_one (sub_pos.2 hb)]
    have : r.getD (skip nPre + (f + 1)) 0 ≤ maxOf r := by
      rw [List.getD_eq_getElem _ _ (by omega)]
      exact le_maxOf (List.getElem_mem _)
    linarith
  constructor
  · have el : lastIdx nPre r (f + 1) = f := by
      unfold lastIdx
      rw [e1 _ (by omega), e9 _ (by omega)]
      dsimp only
      rw [if_pos (show ((f : Int) - 1 < f) by omega), if_pos (by push_cast; ring)]
      push_cast
      omega
    unfold riseOne
    rw [if_neg hb.ne']
    dsimp only
    rw [e1 _ (by omega), el, sub_self, if_pos htb, if_neg (not_le.2 htb), sub_self]
    simp
  · have el : lastIdx nPre r W = f + 1 := by
      unfold lastIdx
      rw [e1 _ (by omega), e9 _ (by omega)]
      dsimp only
      rw [if_pos (show ((f : Int) - 1 < f) by omega), if_neg (by omega)]
      omega
    unfold riseOne
    rw [if_neg hb.ne']
    dsimp only
    rw [e1 _ (by omega), el, hpk, if_pos (lt_of_le_of_lt (sub_nonpos.2 hle) htb), if_neg (not_le.2 htb)]
    congr 1
    push_cast
    field_simp
    ring

/-- Disagreement (C128), the same on whole batches: a step pulse alone, and next to a pulse that peaks later. -/
theorem batch_fails : riseTimes (K := ℚ) (1 / 100) 4 [[0, 0, 0, 0, 0, 9, 9, 9]] = .ok [some 0] ∧
    riseTimes (K := ℚ) (1 / 100) 4 [[0, 0, 0, 0, 0, 9, 9, 9], [0, 0, 0, 0, 1, 4, 8, 9]] = .ok [some 1, some (9 / 350)] := by
  decide +kernel

/-- Disagreement (C128): the value that marks a failure (-9.9 microseconds) is only given when all pulses of the batch peak before the trigger; next to a good pulse, a record that peaks before the trigger gets a positive
rise time; and a record with constant values gets NaN. -/
theorem marker_fails : riseTimes (K := ℚ) (1 / 100) 4 [[0, 9, 0, 0, 0, 0, 0, 0]] = .ok [some (-99 / 10000000)] ∧
    riseTimes (K := ℚ) (1 / 100) 4 [[0, 9, 0, 0, 0, 0, 0, 0], [0, 0, 0, 0, 1, 4, 8, 9]] = .ok [some 1, some (9 / 350)] ∧
    riseTimes (K := ℚ) (1 / 100) 4 [[3, 3, 3, 3, 3, 3, 3, 3]] = .ok [some (-99 / 10000000)] ∧
    riseTimes (K := ℚ) (1 / 100) 4 [[3, 3, 3, 3, 3, 3, 3, 3], [0, 0, 0, 0, 1, 4, 8, 9]] = .ok [none, some (9 / 350)] := by
  decide +kernel

end Mass.Algo.RiseTime
