import Verif.Py
import Mathlib.Algebra.Order.Floor.Ring
import Mathlib.Algebra.Order.Field.Basic
import Mathlib.Algebra.Order.BigOperators.Group.List
import Mathlib.Data.List.GetD
import Mathlib.Data.List.Pairwise
import Mathlib.Data.Rat.Floor
import Mathlib.Tactic.FieldSimp
import Mathlib.Tactic.Linarith
import Mathlib.Tactic.NormNum
import Mathlib.Tactic.Positivity
import Mathlib.Tactic.Push
/-! C132: count rates (mass/core/channel.py `count_rate`; mass/core/channel_group.py `plot_count_rate`). Exact arithmetic over an ordered field. -/
namespace Mass.Algo.CountRate
set_option linter.unusedSectionVars false
open Mass
variable {K : Type} [Field K] [LinearOrder K] [IsStrictOrderedRing K] [FloorRing K]

/-- np.histogram with given edges (channel.py L2113): each bin contains its lower edge, the last one also its upper edge -/
def hist (xs : List K) : List K → List Nat
  | [] => []
  | [_] => []
  | [a, b] => [xs.countP (fun t => decide (a ≤ t ∧ t ≤ b))]
  | a :: b :: c :: r => xs.countP (fun t => decide (a ≤ t ∧ t < b)) :: hist xs (b :: c :: r)

/-- np.arange(a, z, b), channel.py L2110. A step of zero is refused; a negative one gives no values here (the last pulse is not before the first). -/
def arange (a z b : K) : Except Exc (List K) :=
  if b = 0 then .error .value
  else .ok ((List.range (⌈(z - a) / b⌉).toNat).map (fun i : Nat => a + (i : K) * b))

/-- the argument bin_s, channel.py L2109-2112: a number (int or float) or edges -/
inductive Bins (K : Type)
  | width (b : K)
  | edges (e : List K)

/-- the result from edges, channel.py L2113-2118: IndexError with fewer than two edges, ValueError if they decrease -/
def rates (xs e : List K) : Except Exc (List K × List K) :=
  if ¬ e.Pairwise (· ≤ ·) then .error .value
  else
    match e with
    | e0 :: e1 :: _ => .ok (e.dropLast.map (fun x => x + 1 / 2 * (e1 - e0)), (hist xs e).map (fun n : Nat => (n : K) / (e1 - e0)))
    | _ => .error .index

/-- `count_rate`, channel.py L2105-2118 -/
def countRate (ts : List K) (good : List Bool) (goodonly : Bool) (b : Bins K) : Except Exc (List K × List K) :=
  let g := if goodonly then good else good.map (fun _ => true)
  let xs := ((ts.zip g).filter (·.2)).map Prod.fst
  match b with
  | .edges e => rates xs e
  | .width w =>
    match xs with
    | [] => .error .index
    | x0 :: t =>
      match arange x0 ((x0 :: t).getLast (by simp)) w with
      | .error x => .error x
      | .ok e => rates xs e

/-! ### Lemmas -/

theorem countP_split (xs : List K) (a b z : K) (hab : a ≤ b) (hbz : b ≤ z) :
    xs.countP (fun t => decide (a ≤ t ∧ t < b)) + xs.countP (fun t => decide (b ≤ t ∧ t ≤ z)) = xs.countP (fun t => decide (a ≤ t ∧ t ≤ z)) := by
  induction xs with
  | nil => rfl
  | cons x xs ih =>
    rw [List.countP_cons, List.countP_cons, List.countP_cons, ← ih]
    have : (if decide (a ≤ x ∧ x < b) = true then 1 else 0) + (if decide (b ≤ x ∧ x ≤ z) = true then 1 else 0) = if decide (a ≤ x ∧ x ≤ z) = true then 1 else 0 := by
      simp only [decide_eq_true_eq]
      by_cases h1 : x < b
      · have h2 : ¬ b ≤ x := not_le.2 h1
        have h3 : x ≤ z := h1.le.trans hbz
        by_cases h4 : a ≤ x <;> simp [h1, h2, h3, h4]
      · have h2 : b ≤ x := not_lt.1 h1
        have h4 : a ≤ x := hab.trans h2
        by_cases h3 : x ≤ z <;> simp [h1, h2, h3, h4]
    omega

/-- C132. All bins of a histogram together count the values between the first and the last edge, each once. -/
theorem hist_total (xs : List K) (a b : K) (r : List K) (h : (a :: b :: r).Pairwise (· ≤ ·)) :
    (hist xs (a :: b :: r)).sum = xs.countP (fun t => decide (a ≤ t ∧ t ≤ (a :: b :: r).getLast (by simp))) := by
  induction r generalizing a b with
  | nil => simp [hist]
  | cons c r ih =>
    rw [hist, List.sum_cons, ih b c (List.Pairwise.of_cons h), List.getLast_cons (by simp : b :: c :: r ≠ [])]
    rw [List.pairwise_cons] at h
    refine countP_split xs a b _ (h.1 b (by simp)) ?_
    have hbc := (List.pairwise_cons.1 h.2).1
    rw [List.getLast_cons (by simp : c :: r ≠ [])]
    exact hbc _ (List.getLast_mem _)

theorem hist_length (xs : List K) (e : List K) : (hist xs e).length = e.length - 1 := by
  induction e using hist.induct with
  | case1 => rfl
  | case2 => rfl
  | case3 => rfl
  | case4 a b c r ih => rw [hist, List.length_cons, ih]; simp

theorem hist_get (xs : List K) (e : List K) (k : Nat) (hk : k + 1 < e.length) :
    (hist xs e).getD k 0 = xs.countP (fun t => decide (e.getD k 0 ≤ t ∧ (t < e.getD (k + 1) 0 ∨ (k + 2 = e.length ∧ t ≤ e.getD (k + 1) 0)))) := by
  induction e using hist.induct generalizing k with
  | case1 => simp at hk
  | case2 => simp at hk
  | case3 a b =>
    have : k = 0 := by simp at hk; omega
    subst this
    simp only [hist, List.getD_cons_zero, List.getD_cons_succ, List.length_cons, List.length_nil]
    congr 1
    funext t
    rw [decide_eq_decide]
    refine and_congr_right fun _ => ⟨fun h => Or.inr ⟨by simp, h⟩, fun h => h.elim le_of_lt And.right⟩
  | case4 a b c r ih =>
    cases k with
    | zero =>
      simp only [hist, List.getD_cons_zero, List.getD_cons_succ, List.length_cons]
      congr 1
      funext t
      rw [decide_eq_decide]
      refine and_congr_right fun _ => ⟨Or.inl, fun h => h.elim id (fun h => absurd h.1 (by omega))⟩
    | succ k =>
      rw [hist, List.getD_cons_succ, ih k (by simpa using hk)]
      simp only [List.getD_cons_succ, List.length_cons]
      congr 1
      funext t
      rw [decide_eq_decide]
      refine and_congr_right fun _ => or_congr_right (and_congr_left fun _ => by omega)

/-- the pulses that are used [specification] -/
def used (ts : List K) (good : List Bool) (goodonly : Bool) : List K :=
  if goodonly then ((ts.zip good).filter (·.2)).map Prod.fst else ts

theorem used_eq (ts : List K) (good : List Bool) (hl : good.length = ts.length) (goodonly : Bool) :
    ((ts.zip (if goodonly then good else good.map (fun _ => true))).filter (·.2)).map Prod.fst = used ts good goodonly := by
  unfold used
  cases goodonly with
  | true => rfl
  | false =>
    simp only [Bool.false_eq_true, if_false]
    induction ts generalizing good with
    | nil => simp
    | cons t ts ih =>
      cases good with
      | nil => simp at hl
      | cons g gs =>
        simp only [List.map_cons, List.zip_cons_cons]
        rw [List.filter_cons_of_pos (by simp), List.map_cons, ih gs (by simpa using hl)]

theorem arange_edges (a z b : K) (hb : 0 < b) (e : List K) (h : arange a z b = .ok e) :
    e.length = (⌈(z - a) / b⌉).toNat ∧ e.Pairwise (· ≤ ·) ∧ (∀ k, k < e.length → e.getD k 0 = a + (k : K) * b) ∧ ∀ x ∈ e, x < z := by
  unfold arange at h
  rw [if_neg hb.ne'] at h
  injection h with h
  subst h
  refine ⟨by simp, ?_, ?_, ?_⟩
  · rw [List.pairwise_map]
    refine List.Pairwise.imp ?_ List.pairwise_lt_range
    intro i j hij
    have : (i : K) ≤ (j : K) := by exact_mod_cast hij.le
    have := mul_le_mul_of_nonneg_right this hb.le
    linarith
  · intro k hk
    rw [List.getD_eq_getElem _ _ hk, List.getElem_map, List.getElem_range]
  · intro x hx
    obtain ⟨i, hi, rfl⟩ := List.mem_map.1 hx
    rw [List.mem_range] at hi
    have h1 : ((i : Int)) < ⌈(z - a) / b⌉ := by omega
    rw [Int.lt_ceil] at h1
    have h2 : (i : K) < (z - a) / b := by exact_mod_cast h1
    rw [lt_div_iff₀ hb] at h2
    linarith

/-- C132. The count rate with bins of a given width: bin k runs from k to k + 1 widths after the first pulse, its rate times the width is the number of pulses in it, and the bins together have all pulses up to the end of the last bin. -/
theorem rate_spec (ts : List K) (good : List Bool) (hl : good.length = ts.length) (goodonly : Bool) (w : K) (hw : 0 < w) (c r : List K) (h : countRate ts good goodonly (.width w) = .ok (c, r)) :
    ∃ x0 xl n, (used ts good goodonly).head? = some x0 ∧ (used ts good goodonly).getLast? = some xl ∧ 0 < n ∧ c.length = n ∧ r.length = n ∧ x0 + (n : K) * w < xl ∧ xl ≤ x0 + ((n : K) + 1) * w ∧
      (∀ k, k < n → c.getD k 0 = x0 + ((k : K) + 1 / 2) * w ∧
        r.getD k 0 * w = ((used ts good goodonly).countP (fun t => decide (x0 + (k : K) * w ≤ t ∧ (t < x0 + ((k : K) + 1) * w ∨ (k + 1 = n ∧ t = x0 + ((k : K) + 1) * w)))) : Nat)) ∧
      r.sum * w = ((used ts good goodonly).countP (fun t => decide (x0 ≤ t ∧ t ≤ x0 + (n : K) * w)) : Nat) := by
  unfold countRate at h
  dsimp only at h
  rw [used_eq ts good hl] at h
  set xs := used ts good goodonly
  cases hxs : xs with
  | nil => rw [hxs] at h; exact absurd h (by simp)
  | cons x0 t =>
    rw [hxs] at h
    dsimp only at h
    set xl := (x0 :: t).getLast (by simp) with hxl
    cases he : arange x0 xl w with
    | error x => rw [he] at h; exact absurd h (by simp)
    | ok e =>
      rw [he] at h
      dsimp only at h
      obtain ⟨hlen, hmono, hget, -⟩ := arange_edges x0 xl w hw e he
      unfold rates at h
      rw [if_neg (by simpa using hmono)] at h
      match e, hlen, hmono, hget, h with
      | [], _, _, _, h => exact absurd h (by simp)
      | [_], _, _, _, h => exact absurd h (by simp)
      | e0 :: e1 :: q, hlen, hmono, hget, h =>
        dsimp only at h
        injection h with h
        injection h with hc hr
        have he0 : e0 = x0 := by simpa using hget 0 (by simp)
        have he1 : e1 = x0 + w := by simpa using hget 1 (by simp)
        have hd : e1 - e0 = w := by rw [he0, he1]; ring
        rw [hd] at hc hr
        set n := q.length + 1 with hn
        have hlen' : (e0 :: e1 :: q).length = n + 1 := by simp [hn]
        rw [hlen'] at hlen hget
        have hceil : ⌈(xl - x0) / w⌉ = (n : Int) + 1 := by omega
        have hc1 := (Int.ceil_eq_iff.1 hceil)
        obtain ⟨hc1, hc2⟩ := hc1
        push_cast at hc1 hc2
        rw [lt_div_iff₀ hw] at hc1
        rw [div_le_iff₀ hw] at hc2
        have hcl : c.length = n := by rw [← hc, List.length_map, List.length_dropLast, hlen']; omega
        have hrl : r.length = n := by rw [← hr, List.length_map, hist_length, hlen']; omega
        refine ⟨x0, xl, n, rfl, List.getLast?_eq_some_getLast _, by omega, hcl, hrl, by linarith, by linarith, ?_, ?_⟩
        · intro k hk
          have hg1 := hget k (by omega)
          have hg2 := hget (k + 1) (by omega)
          constructor
          · rw [← hc, List.getD_eq_getElem _ _ (by rw [hc, hcl]; exact hk), List.getElem_map, List.getElem_dropLast]
            rw [List.getD_eq_getElem _ _ (by rw [hlen']; omega)] at hg1
            rw [hg1]
            ring
          · have hh := hist_get (x0 :: t) (e0 :: e1 :: q) k (by rw [hlen']; omega)
            rw [hg1, hg2, hlen'] at hh
            have hkl : k < (hist (x0 :: t) (e0 :: e1 :: q)).length := by rw [hist_length, hlen']; omega
            rw [← hr, List.getD_eq_getElem _ _ (by rw [List.length_map]; exact hkl), List.getElem_map, div_mul_cancel₀ _ hw.ne']
            rw [List.getD_eq_getElem _ _ hkl] at hh
            rw [hh]
            congr 2
            funext s
            rw [decide_eq_decide]
            push_cast
            refine and_congr_right fun _ => ?_
            constructor
            · rintro (h1 | ⟨h1, h2⟩)
              · exact Or.inl h1
              · rcases lt_or_eq_of_le h2 with h3 | h3
                · exact Or.inl h3
                · exact Or.inr ⟨by omega, h3⟩
            · rintro (h1 | ⟨h1, h2⟩)
              · exact Or.inl h1
              · exact Or.inr ⟨by omega, h2.le⟩
        · have ht := hist_total (x0 :: t) e0 e1 q hmono
          have hlast : (e0 :: e1 :: q).getLast (by simp) = x0 + (n : K) * w := by
            rw [List.getLast_eq_getElem]
            have := hget n (by omega)
            rw [List.getD_eq_getElem _ _ (by rw [hlen']; omega)] at this
            rw [← this]
            congr 1
          rw [hlast, he0] at ht
          rw [← ht, ← hr, he0]
          clear hr hrl ht
          generalize hist (x0 :: t) (x0 :: e1 :: q) = l
          induction l with
          | nil => simp
          | cons a l ih => rw [List.map_cons, List.sum_cons, add_mul, ih, div_mul_cancel₀ _ hw.ne', List.sum_cons]; push_cast; rfl

theorem hist_le (xs ys : List K) (h : xs.Sublist ys) (e : List K) (k : Nat) : (hist xs e).getD k 0 ≤ (hist ys e).getD k 0 := by
  by_cases hk : k + 1 < e.length
  · rw [hist_get xs e k hk, hist_get ys e k hk]
    exact h.countP_le
  · rw [List.getD_eq_default _ _ (by rw [hist_length]; omega)]
    exact Nat.zero_le _

/-- C132. With the same edges, the rate of good pulses is never more than that of all pulses, in any bin, and none is negative. -/
theorem good_le (ts : List K) (good : List Bool) (hl : good.length = ts.length) (e c c' r r' : List K) (he : ∀ a b q, e = a :: b :: q → a < b)
    (h : countRate ts good true (.edges e) = .ok (c, r)) (h' : countRate ts good false (.edges e) = .ok (c', r')) :
    c = c' ∧ ∀ k, 0 ≤ r.getD k 0 ∧ r.getD k 0 ≤ r'.getD k 0 := by
  unfold countRate at h h'
  dsimp only at h h'
  rw [used_eq ts good hl] at h'
  have h0 := used_eq ts good hl true
  simp only [if_true] at h h0
  rw [h0] at h
  unfold rates at h h'
  split at h
  · exact absurd h (by simp)
  · rename_i hm
    rw [if_neg hm] at h'
    match e, he, h, h' with
    | [], _, h, _ => exact absurd h (by simp)
    | [_], _, h, _ => exact absurd h (by simp)
    | a :: b :: q, he, h, h' =>
      dsimp only at h h'
      injection h with h
      injection h' with h'
      injection h with h1 h2
      injection h' with h1' h2'
      refine ⟨h1.symm.trans h1', ?_⟩
      have hd : 0 < b - a := sub_pos.2 (he a b q rfl)
      have hmap : ∀ (l : List Nat) (k : Nat), (l.map (fun n : Nat => (n : K) / (b - a))).getD k 0 = (l.getD k 0 : Nat) / (b - a) := by
        intro l k
        by_cases hk : k < l.length
        · rw [List.getD_eq_getElem _ _ (by simpa using hk), List.getElem_map, List.getD_eq_getElem _ _ hk]
        · rw [List.getD_eq_default _ _ (by simpa using hk), List.getD_eq_default _ _ (by simpa using hk)]
          simp
      intro k
      rw [← h2, ← h2', hmap, hmap]
      refine ⟨div_nonneg (Nat.cast_nonneg _) hd.le, div_le_div_of_nonneg_right ?_ hd.le⟩
      have hs : (used ts good true).Sublist (used ts good false) := by
        unfold used
        simp only [if_true, Bool.false_eq_true, if_false]
        have h1 : (((ts.zip good).filter (·.2)).map Prod.fst).Sublist ((ts.zip good).map Prod.fst) := List.Sublist.map _ List.filter_sublist
        rw [List.map_fst_zip (by omega)] at h1
        exact h1
      exact_mod_cast hist_le _ _ hs _ k

theorem hist_shift (xs : List K) (d : K) (e : List K) : hist (xs.map (· + d)) (e.map (· + d)) = hist xs e := by
  induction e using hist.induct with
  | case1 => rfl
  | case2 => rfl
  | case3 a b =>
    simp only [List.map_cons, List.map_nil, hist, List.countP_map]
    congr 2
    funext t
    simp
  | case4 a b c r ih =>
    simp only [List.map_cons] at ih ⊢
    rw [hist, hist, ih, List.countP_map]
    congr 2
    funext t
    simp

/-- C132. The clock may start at any time: adding a constant to all times of pulses moves the bins and leaves the rates. -/
theorem rate_shift (ts : List K) (good : List Bool) (goodonly : Bool) (w d : K) (c r : List K) (h : countRate ts good goodonly (.width w) = .ok (c, r)) :
    countRate (ts.map (· + d)) good goodonly (.width w) = .ok (c.map (· + d), r) := by
  unfold countRate at h ⊢
  dsimp only at h ⊢
  set g := if goodonly then good else good.map (fun _ => true)
  have hz : (((ts.map (· + d)).zip g).filter (·.2)).map Prod.fst = ((((ts.zip g).filter (·.2)).map Prod.fst)).map (· + d) := by
    rw [List.zip_map_left, List.filter_map, List.map_map, List.map_map]
    rfl
  rw [hz]
  set xs := ((ts.zip g).filter (·.2)).map Prod.fst
  clear_value xs
  cases xs with
  | nil => exact absurd h (by simp)
  | cons x0 t =>
    dsimp only at h
    simp only [List.map_cons]
    have hlast : ((x0 + d) :: t.map (· + d)).getLast (by simp) = (x0 :: t).getLast (by simp) + d := by
      have := List.getLast_map (f := (· + d)) (l := x0 :: t) (by simp)
      simpa using this
    rw [hlast]
    set xl := (x0 :: t).getLast (by simp)
    have har : arange (x0 + d) (xl + d) w = (arange x0 xl w).map (fun e => e.map (· + d)) := by
      unfold arange
      split
      · rfl
      · rw [show xl + d - (x0 + d) = xl - x0 by ring]
        simp only [Except.map, List.map_map]
        congr 2
        funext i
        simp only [Function.comp]
        ring
    rw [har]
    cases he : arange x0 xl w with
    | error x => rw [he] at h; exact absurd h (by simp)
    | ok e =>
      rw [he] at h
      dsimp only [Except.map] at h ⊢
      unfold rates at h ⊢
      have hpw : (e.map (· + d)).Pairwise (· ≤ ·) ↔ e.Pairwise (· ≤ ·) := by
        rw [List.pairwise_map]
        simp
      split at h
      · exact absurd h (by simp)
      · rename_i hm
        rw [if_neg (fun hc => hm (fun hp => hc (hpw.2 hp)))]
        match e, h with
        | [], h => exact absurd h (by simp)
        | [_], h => exact absurd h (by simp)
        | e0 :: e1 :: q, h =>
          dsimp only at h
          injection h with h
          injection h with h1 h2
          simp only [List.map_cons]
          have hs := hist_shift (x0 :: t) d (e0 :: e1 :: q)
          simp only [List.map_cons] at hs
          rw [hs, show e1 + d - (e0 + d) = e1 - e0 by ring, h2, ← h1]
          congr 2
          rw [← List.map_cons (f := (· + d)), ← List.map_cons (f := (· + d)), ← List.map_dropLast, List.map_map, List.map_map]
          apply List.map_congr_left
          intro x _
          simp only [Function.comp]
          ring

example : countRate (K := ℚ) [10, 11, 25, 31, 45, 50, 51] [true, true, false, true, true, true, true] false (.width 10) = .ok ([15, 25, 35, 45], [1 / 5, 1 / 10, 1 / 10, 1 / 5]) := by decide +kernel
example : countRate (K := ℚ) [10, 11, 25, 31, 45, 50, 51] [true, true, false, true, true, true, true] true (.edges [10, 30, 50]) = .ok ([20, 40], [1 / 10, 3 / 20]) := by decide +kernel

/-! ### Disagreements -/

/-- Disagreement (C132): the last pulse is never counted (nor any other after the last edge): the rates add up to fewer than all pulses, and up to one whole bin of the run is left out. -/
theorem last_pulse_fails (ts : List K) (good : List Bool) (hl : good.length = ts.length) (goodonly : Bool) (w : K) (hw : 0 < w) (c r : List K) (h : countRate ts good goodonly (.width w) = .ok (c, r)) :
    r.sum * w < ((used ts good goodonly).length : K) := by
  obtain ⟨x0, xl, n, hh, hxl, -, -, -, hlt, -, -, hs⟩ := rate_spec ts good hl goodonly w hw c r h
  rw [hs]
  have : (used ts good goodonly).countP (fun t => decide (x0 ≤ t ∧ t ≤ x0 + (n : K) * w)) < (used ts good goodonly).length := by
    rw [List.countP_lt_length_iff]
    refine ⟨xl, List.mem_of_getLast? hxl, ?_⟩
    exact decide_eq_false (fun hc => absurd hc.2 (not_le.2 hlt))
  exact_mod_cast this

/-- Disagreement (C132): a run that is not longer than one bin raises an IndexError. -/
theorem short_run_fails (ts : List K) (good : List Bool) (hl : good.length = ts.length) (goodonly : Bool) (w : K) (hw : 0 < w)
    (hspan : ∀ x ∈ ts, ∀ y ∈ ts, y - x ≤ w) : countRate ts good goodonly (.width w) = .error .index := by
  unfold countRate
  dsimp only
  rw [used_eq ts good hl]
  have hsub : ∀ x ∈ used ts good goodonly, x ∈ ts := by
    intro x hx
    unfold used at hx
    split at hx
    · obtain ⟨p, hp, rfl⟩ := List.mem_map.1 hx
      exact (List.of_mem_zip (List.mem_of_mem_filter hp)).1
    · exact hx
  set xs := used ts good goodonly
  cases hxs : xs with
  | nil => rfl
  | cons x0 t =>
    dsimp only
    set xl := (x0 :: t).getLast (by simp) with hxl
    have h1 : xl - x0 ≤ w := hspan x0 (hsub x0 (by rw [hxs]; simp)) xl (hsub xl (by rw [hxs]; exact List.getLast_mem _))
    cases he : arange x0 xl w with
    | error x =>
      unfold arange at he
      rw [if_neg hw.ne'] at he
      exact absurd he (by simp)
    | ok e =>
      dsimp only
      obtain ⟨hlen, hmono, -, -⟩ := arange_edges x0 xl w hw e he
      have hce : ⌈(xl - x0) / w⌉ ≤ 1 := by
        rw [Int.ceil_le]
        push_cast
        rw [div_le_iff₀ hw]
        linarith
      unfold rates
      rw [if_neg (by simpa using hmono)]
      match e, hlen with
      | [], _ => rfl
      | [_], _ => rfl
      | _ :: _ :: _, hlen => simp at hlen; omega

/-- Disagreement (C132): with edges of different distances all rates and centres are made with the width of the first bin. -/
theorem uneven_fails : countRate (K := ℚ) [1, 11, 12, 13] [true, true, true, true] false (.edges [0, 10, 110]) = .ok ([5, 15], [1 / 10, 3 / 10]) := by decide +kernel

/-- Disagreement (C132): pulses not in order of time: those before the first one in the file are not counted, and if the last one is the earliest there are no bins. -/
theorem order_fails : countRate (K := ℚ) [20, 5, 31, 42, 55] [true, true, true, true, true] false (.width 10) = .ok ([25, 35, 45], [1 / 10, 1 / 10, 1 / 10]) ∧
    countRate (K := ℚ) [20, 31, 42, 55, 5] [true, true, true, true, true] false (.width 10) = .error .index := by decide +kernel

end Mass.Algo.CountRate
