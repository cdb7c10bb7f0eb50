import Verif.Py
import Mathlib.Data.Rat.Floor
import Mathlib.Data.List.Induction
import Mathlib.Algebra.Order.Field.Rat
import Mathlib.Algebra.BigOperators.Group.List.Basic
import Mathlib.Tactic.Linarith
import Mathlib.Tactic.NormNum
import Mathlib.Tactic.Ring
import Mathlib.Tactic.FieldSimp
import Mathlib.Algebra.Order.BigOperators.Group.List
/-! Pulse summaries, mass/core/cython_channel.pyx `summarize_data_cython` (C55, C77-C79). Samples are natural numbers below 65536, records shorter than 65536 samples; float and double arithmetic is exact. -/
namespace Mass.Algo.Summary
open Mass

/-- the variables of the loop over samples, cython_channel.pyx L97-108 -/
structure Acc where
  peak : ℕ
  idx : ℕ
  mn : ℕ
  ptSum : ℕ
  ptSq : ℕ
  prSum : ℕ
  plSum : ℕ
  plSq : ℕ
  sP : ℕ
  eP : ℕ
  /-- ptm, ptrms squared and shift1; none until they are computed -/
  pt : Option (ℚ × ℚ × Bool)

/-- cython_channel.pyx L97-108 -/
def init (nPre : ℕ) : Acc := ⟨0, 0, 65535, 0, 0, 0, 0, 0, nPre + 2, nPre + 8, none⟩

/-- `signal - ptm > 4.3 * ptrms`, cython_channel.pyx L131, with ptrms = sqrt(var) -/
def above (x var : ℚ) : Bool := decide (0 < x ∧ (43 / 10) ^ 2 * var < x ^ 2)

/-- cython_channel.pyx L115-119 -/
def st1 (s k : ℕ) (a : Acc) : Acc := { a with peak := if a.peak < s then s else a.peak, idx := if a.peak < s then k else a.idx, mn := if s < a.mn then s else a.mn }

/-- cython_channel.pyx L121-123 -/
def st2 (e s k : ℕ) (a : Acc) : Acc := if k < e then { a with ptSum := a.ptSum + s, ptSq := a.ptSq + s ^ 2 } else a

/-- cython_channel.pyx L125-126 -/
def st3 (s k : ℕ) (a : Acc) : Acc := if a.sP ≤ k ∧ k < a.eP then { a with prSum := a.prSum + s } else a

/-- cython_channel.pyx L128-136 -/
def st4 (nPre e s k : ℕ) (a : Acc) : Acc :=
  if k + 1 = nPre then
    let ptm : ℚ := a.ptSum / e
    let var : ℚ := a.ptSq / e - ptm ^ 2
    if above (s - ptm) var then { a with eP := a.eP - 1, sP := a.sP - 1, pt := some (ptm, var, true) } else { a with pt := some (ptm, var, false) }
  else a

/-- cython_channel.pyx L138-140 -/
def st5 (nPre s k : ℕ) (a : Acc) : Acc := if nPre ≤ k + 1 then { a with plSum := a.plSum + s, plSq := a.plSq + s ^ 2 } else a

/-- one pass of the loop cython_channel.pyx L112-140 -/
def step (nPre e : ℕ) (a : Acc) (x : ℕ × ℕ) : Acc := st5 nPre x.1 x.2 (st4 nPre e x.1 x.2 (st3 x.1 x.2 (st2 e x.1 x.2 (st1 x.1 x.2 a))))

/-- the loop cython_channel.pyx L112-140 -/
def acc (nPre e : ℕ) (r : List ℕ) : Acc := r.zipIdx.foldl (step nPre e) (init nPre)

/-- the first index from k on with a sample above th: the loops cython_channel.pyx L168-174 and L179-185 -/
def scan (r : List ℕ) (th k : ℕ) : Option ℕ := if h : k < r.length then (if th < r[k] then some k else scan r th (k + 1)) else none
termination_by r.length - k

/-- the rise time, cython_channel.pyx L161-191. If no sample is above the lower threshold the index is left over from an earlier record, but not used. -/
def rise (tb : ℚ) (r : List ℕ) (nPre pk lo hi : ℕ) : ℚ :=
  match scan r lo nPre with
  | none => tb
  | some l =>
    match scan r hi l with
    | none => tb
    | some k => if r.getD l 0 < r.getD (k - 1) 0 then tb * ((k - 1 : ℤ) - l) * pk / (r.getD (k - 1) 0 - r.getD l 0) else tb

/-- f4*s0 + f3*s1 + f1*s3 + f0*s4 (used for cython_channel.pyx L206-215) -/
def kern (s0 s1 s3 s4 : ℤ) : ℤ := -2 * s0 + -1 * s1 + 1 * s3 + 2 * s4

/-- s0 .. s4, t0, t1 and t_max_deriv (used for cython_channel.pyx L206-215) -/
structure DAcc where
  s0 : ℤ
  s1 : ℤ
  s2 : ℤ
  s3 : ℤ
  s4 : ℤ
  t0 : ℤ
  t1 : ℤ
  mx : ℤ

/-- one pass of cython_channel.pyx L206-215 -/
def dstep (g : ℕ → ℤ) (d : DAcc) (k : ℕ) : DAcc :=
  let d := { d with s0 := d.s1, s1 := d.s2, s2 := d.s3, s3 := d.s4 }
  let d := { d with s4 := g k }
  let t2 := kern d.s0 d.s1 d.s3 d.s4
  let t3 := if t2 < d.t0 then t2 else d.t0
  let d := if d.mx < t3 then { d with mx := t3 } else d
  { d with t0 := d.t1, t1 := t2 }

/-- the post-peak derivative times ten, cython_channel.pyx L193-215; LONG_MIN if the loop is empty -/
def deriv10 (g : ℕ → ℤ) (p n : ℕ) : ℤ :=
  let t0 := kern (g p) (g (p + 1)) (g (p + 3)) (g (p + 4))
  let t1 := kern (g (p + 1)) (g (p + 2)) (g (p + 4)) (g (p + 5))
  ((List.range' (p + 6) (n - (p + 6))).foldl (dstep g) ⟨g (p + 1), g (p + 2), g (p + 3), g (p + 4), g (p + 5), t0, t1, -9223372036854775808⟩).mx

/-- what is stored for one record; rms values as their squares, the derivative times ten (used for cython_channel.pyx L95-217) -/
structure Summary where
  ptm : ℚ
  var : ℚ
  shift1 : Bool
  peakValue : ℕ
  peakIndex : ℕ
  minValue : ℕ
  prompt : ℚ
  avg : ℚ
  ms : ℚ
  riseTime : ℚ
  deriv : ℤ
deriving DecidableEq

/-- one record of `summarize_data_cython`, cython_channel.pyx L95-217. Division by zero raises (no cdivision directive); reading behind the record is `index`, using a value that was never set is `unbound` (in the code
    both yield arbitrary numbers). Rounding of the stored values to float32 is not modelled; the two thresholds wrap at 65536. -/
def summary (tb : ℚ) (p ignore nPre : ℕ) (r : List ℕ) : Except Exc Summary :=
  let e := (((nPre : ℤ) - ignore) % 65536).toNat
  let a := acc nPre e r
  match a.pt with
  | none => .error .unbound
  | some (ptm, var, sh) =>
    if e = 0 then .error .zeroDiv
    else
      let pv : ℕ := if ptm < a.peak then a.peak - ⌊ptm + 1 / 2⌋.toNat else a.peak
      if ptm < a.peak ∧ pv = 0 then .error .zeroDiv
      else
        let avg := a.plSum / ((r.length : ℚ) - nPre + 1) - ptm
        if r.length ≤ nPre ∨ r.length < p + 6 then .error .index
        else .ok {
          ptm := ptm, var := var, shift1 := sh
          peakValue := if ptm < a.peak then pv else 0
          peakIndex := if ptm < a.peak then a.idx else 0
          minValue := a.mn
          prompt := if ptm < a.peak then (a.prSum / 6 - ptm) / pv else 0
          avg := avg
          ms := a.plSq / ((r.length : ℚ) - nPre + 1) - ptm * avg * 2 - ptm ^ 2
          riseTime := rise tb r nPre pv (⌊(1 / 10 : ℚ) * pv + ptm⌋.toNat % 65536) (⌊(9 / 10 : ℚ) * pv + ptm⌋.toNat % 65536)
          deriv := deriv10 (fun i => (r.getD i 0 : ℤ)) p r.length }

/-! ### The loop over the samples -/

theorem acc_snoc (nPre e : ℕ) (r : List ℕ) (s : ℕ) : acc nPre e (r ++ [s]) = step nPre e (acc nPre e r) (s, r.length) := by
  unfold acc
  rw [List.zipIdx_append, List.foldl_append]
  simp

theorem st1_same (s k : ℕ) (a : Acc) : (st1 s k a).ptSum = a.ptSum ∧ (st1 s k a).ptSq = a.ptSq ∧ (st1 s k a).prSum = a.prSum ∧ (st1 s k a).plSum = a.plSum ∧ (st1 s k a).plSq = a.plSq ∧
    (st1 s k a).sP = a.sP ∧ (st1 s k a).eP = a.eP ∧ (st1 s k a).pt = a.pt := ⟨rfl, rfl, rfl, rfl, rfl, rfl, rfl, rfl⟩

theorem st2_same (e s k : ℕ) (a : Acc) : (st2 e s k a).peak = a.peak ∧ (st2 e s k a).idx = a.idx ∧ (st2 e s k a).mn = a.mn ∧ (st2 e s k a).prSum = a.prSum ∧ (st2 e s k a).plSum = a.plSum ∧
    (st2 e s k a).plSq = a.plSq ∧ (st2 e s k a).sP = a.sP ∧ (st2 e s k a).eP = a.eP ∧ (st2 e s k a).pt = a.pt ∧ (st2 e s k a).ptSum = (if k < e then a.ptSum + s else a.ptSum) ∧
    (st2 e s k a).ptSq = (if k < e then a.ptSq + s ^ 2 else a.ptSq) := by
  unfold st2
  by_cases h : k < e <;> simp [h]

theorem st3_same (s k : ℕ) (a : Acc) : (st3 s k a).peak = a.peak ∧ (st3 s k a).idx = a.idx ∧ (st3 s k a).mn = a.mn ∧ (st3 s k a).ptSum = a.ptSum ∧ (st3 s k a).ptSq = a.ptSq ∧ (st3 s k a).plSum = a.plSum ∧
    (st3 s k a).plSq = a.plSq ∧ (st3 s k a).sP = a.sP ∧ (st3 s k a).eP = a.eP ∧ (st3 s k a).pt = a.pt ∧ (st3 s k a).prSum = (if a.sP ≤ k ∧ k < a.eP then a.prSum + s else a.prSum) := by
  unfold st3
  by_cases h : a.sP ≤ k ∧ k < a.eP <;> simp [h]

/-- the pretrigger statistics computed from the sums [specification] -/
def stats (e s : ℕ) (sum sq : ℕ) : ℚ × ℚ × Bool := ((sum : ℚ) / e, (sq : ℚ) / e - ((sum : ℚ) / e) ^ 2, above (s - (sum : ℚ) / e) ((sq : ℚ) / e - ((sum : ℚ) / e) ^ 2))

theorem st4_same (nPre e s k : ℕ) (a : Acc) : (st4 nPre e s k a).peak = a.peak ∧ (st4 nPre e s k a).idx = a.idx ∧ (st4 nPre e s k a).mn = a.mn ∧ (st4 nPre e s k a).ptSum = a.ptSum ∧
    (st4 nPre e s k a).ptSq = a.ptSq ∧ (st4 nPre e s k a).plSum = a.plSum ∧ (st4 nPre e s k a).plSq = a.plSq ∧ (st4 nPre e s k a).prSum = a.prSum ∧
    (st4 nPre e s k a).pt = (if k + 1 = nPre then some (stats e s a.ptSum a.ptSq) else a.pt) ∧
    ((st4 nPre e s k a).sP, (st4 nPre e s k a).eP) = (if k + 1 = nPre ∧ (stats e s a.ptSum a.ptSq).2.2 = true then (a.sP - 1, a.eP - 1) else (a.sP, a.eP)) := by
  unfold st4 stats
  by_cases h : k + 1 = nPre
  · rw [if_pos h]
    dsimp only
    cases above ((s : ℚ) - (a.ptSum : ℚ) / e) ((a.ptSq : ℚ) / e - ((a.ptSum : ℚ) / e) ^ 2) <;> simp [h]
  · simp [h]

theorem st5_same (nPre s k : ℕ) (a : Acc) : (st5 nPre s k a).peak = a.peak ∧ (st5 nPre s k a).idx = a.idx ∧ (st5 nPre s k a).mn = a.mn ∧ (st5 nPre s k a).ptSum = a.ptSum ∧ (st5 nPre s k a).ptSq = a.ptSq ∧
    (st5 nPre s k a).prSum = a.prSum ∧ (st5 nPre s k a).sP = a.sP ∧ (st5 nPre s k a).eP = a.eP ∧ (st5 nPre s k a).pt = a.pt ∧ (st5 nPre s k a).plSum = (if nPre ≤ k + 1 then a.plSum + s else a.plSum) ∧
    (st5 nPre s k a).plSq = (if nPre ≤ k + 1 then a.plSq + s ^ 2 else a.plSq) := by
  unfold st5
  by_cases h : nPre ≤ k + 1 <;> simp [h]

theorem step_peak (nPre e s k : ℕ) (a : Acc) : (step nPre e a (s, k)).peak = (if a.peak < s then s else a.peak) ∧ (step nPre e a (s, k)).idx = (if a.peak < s then k else a.idx) ∧
    (step nPre e a (s, k)).mn = (if s < a.mn then s else a.mn) := by
  unfold step
  dsimp only
  simp only [st5_same, st4_same, st3_same, st2_same]
  exact ⟨rfl, rfl, rfl⟩

theorem step_pt_sum (nPre e s k : ℕ) (a : Acc) : (step nPre e a (s, k)).ptSum = (if k < e then a.ptSum + s else a.ptSum) ∧ (step nPre e a (s, k)).ptSq = (if k < e then a.ptSq + s ^ 2 else a.ptSq) := by
  unfold step
  simp only [st5_same, st4_same, st3_same, st2_same, st1_same, and_self]

theorem step_pl_sum (nPre e s k : ℕ) (a : Acc) : (step nPre e a (s, k)).plSum = (if nPre ≤ k + 1 then a.plSum + s else a.plSum) ∧
    (step nPre e a (s, k)).plSq = (if nPre ≤ k + 1 then a.plSq + s ^ 2 else a.plSq) := by
  unfold step
  simp only [st5_same, st4_same, st3_same, st2_same, st1_same, and_self]

theorem step_pt (nPre e s k : ℕ) (a : Acc) : (step nPre e a (s, k)).pt = if k + 1 = nPre then some (stats e s (step nPre e a (s, k)).ptSum (step nPre e a (s, k)).ptSq) else a.pt := by
  unfold step
  simp only [st5_same, st4_same, st3_same, st2_same, st1_same]

theorem step_window (nPre e s k : ℕ) (a : Acc) :
    ((step nPre e a (s, k)).sP, (step nPre e a (s, k)).eP) = (if k + 1 = nPre ∧ (stats e s (step nPre e a (s, k)).ptSum (step nPre e a (s, k)).ptSq).2.2 = true then (a.sP - 1, a.eP - 1) else (a.sP, a.eP)) ∧
      (step nPre e a (s, k)).prSum = (if a.sP ≤ k ∧ k < a.eP then a.prSum + s else a.prSum) := by
  unfold step
  constructor
  · have h := (st4_same nPre e s k (st3 s k (st2 e s k (st1 s k a)))).2.2.2.2.2.2.2.2.2
    simp only [st5_same]
    rw [h]
    simp only [st4_same, st3_same, st2_same, st1_same]
  · simp only [st5_same, st4_same, st3_same, st2_same, st1_same]

/-- the peak is the first of the greatest samples -/
theorem acc_peak (nPre e : ℕ) (r : List ℕ) (hr : r ≠ []) : (∀ s ∈ r, s ≤ (acc nPre e r).peak) ∧ r[(acc nPre e r).idx]? = some (acc nPre e r).peak ∧ ∀ j, j < (acc nPre e r).idx → ∀ x, r[j]? = some x → x < (acc nPre e r).peak := by
  have key : (∀ s ∈ r, s ≤ (acc nPre e r).peak) ∧ (r ≠ [] → r[(acc nPre e r).idx]? = some (acc nPre e r).peak) ∧ (∀ j, j < (acc nPre e r).idx → ∀ x, r[j]? = some x → x < (acc nPre e r).peak) ∧
      (r = [] → (acc nPre e r).idx = 0 ∧ (acc nPre e r).peak = 0) := by
    clear hr
    induction r using List.reverseRecOn with
    | nil => simp [acc, init]
    | append_singleton r s ih =>
      obtain ⟨h1, h2, h3, h4⟩ := ih
      obtain ⟨e1, e2, _⟩ := step_peak nPre e s r.length (acc nPre e r)
      rw [acc_snoc, e1, e2]
      by_cases h : (acc nPre e r).peak < s
      · rw [if_pos h, if_pos h]
        refine ⟨?_, ?_, ?_, by simp⟩
        · intro x hx
          rcases List.mem_append.1 hx with hx | hx
          · exact (h1 x hx).trans h.le
          · simp at hx; omega
        · simp
        · intro j hj x hx
          rw [List.getElem?_append_left hj] at hx
          exact (h1 x (List.mem_of_getElem? hx)).trans_lt h
      · rw [if_neg h, if_neg h]
        refine ⟨?_, ?_, ?_, by simp⟩
        · intro x hx
          rcases List.mem_append.1 hx with hx | hx
          · exact h1 x hx
          · simp at hx; omega
        · intro _
          by_cases hr : r = []
          · obtain ⟨h5, h6⟩ := h4 hr
            subst hr
            rw [h5, h6]
            simp
            omega
          · have := h2 hr
            rw [List.getElem?_append_left (List.getElem?_eq_some_iff.1 this).1]
            exact this
        · intro j hj x hx
          by_cases hr : r = []
          · have := (h4 hr).1
            omega
          · have hl := (List.getElem?_eq_some_iff.1 (h2 hr)).1
            rw [List.getElem?_append_left (by omega)] at hx
            exact h3 j hj x hx
  exact ⟨key.1, key.2.1 hr, key.2.2.1⟩

theorem acc_min (nPre e : ℕ) (r : List ℕ) (hr : r ≠ []) (h16 : ∀ s ∈ r, s < 65536) : (∀ s ∈ r, (acc nPre e r).mn ≤ s) ∧ (acc nPre e r).mn ∈ r := by
  have key : (∀ s ∈ r, (acc nPre e r).mn ≤ s) ∧ ((acc nPre e r).mn = 65535 ∨ (acc nPre e r).mn ∈ r) := by
    clear hr
    induction r using List.reverseRecOn with
    | nil => simp [acc, init]
    | append_singleton r s ih =>
      obtain ⟨h1, h2⟩ := ih (fun x hx => h16 x (by simp [hx]))
      rw [acc_snoc, (step_peak nPre e s r.length (acc nPre e r)).2.2]
      by_cases h : s < (acc nPre e r).mn
      · rw [if_pos h]
        refine ⟨?_, .inr (by simp)⟩
        intro x hx
        rcases List.mem_append.1 hx with hx | hx
        · exact h.le.trans (h1 x hx)
        · simp at hx; omega
      · rw [if_neg h]
        refine ⟨?_, h2.imp id (fun h => by simp [h])⟩
        intro x hx
        rcases List.mem_append.1 hx with hx | hx
        · exact h1 x hx
        · simp at hx; omega
  refine ⟨key.1, key.2.elim (fun h => ?_) id⟩
  obtain ⟨x, hx⟩ := List.exists_mem_of_ne_nil r hr
  have h1 := key.1 x hx
  have h2 := h16 x hx
  rw [h] at h1 ⊢
  obtain rfl : x = 65535 := by omega
  exact hx

theorem take_snoc (r : List ℕ) (s e : ℕ) : (r ++ [s]).take e = if r.length < e then r.take e ++ [s] else r.take e := by
  by_cases h : r.length < e
  · rw [if_pos h, List.take_of_length_le (by simp; omega), List.take_of_length_le (by omega)]
  · rw [if_neg h, List.take_append_of_le_length (by omega)]

theorem drop_snoc (r : List ℕ) (s d : ℕ) : (r ++ [s]).drop d = if d ≤ r.length then r.drop d ++ [s] else [] := by
  by_cases h : d ≤ r.length
  · rw [if_pos h, List.drop_append_of_le_length h]
  · rw [if_neg h, List.drop_eq_nil_of_le (by simp; omega)]

theorem acc_pt_sum (nPre e : ℕ) (r : List ℕ) : (acc nPre e r).ptSum = (r.take e).sum ∧ (acc nPre e r).ptSq = ((r.take e).map (· ^ 2)).sum := by
  induction r using List.reverseRecOn with
  | nil => simp [acc, init]
  | append_singleton r s ih =>
    rw [acc_snoc, (step_pt_sum nPre e s r.length _).1, (step_pt_sum nPre e s r.length _).2, ih.1, ih.2, take_snoc]
    by_cases h : r.length < e <;> simp [h]

theorem acc_pl_sum (nPre e : ℕ) (r : List ℕ) : (acc nPre e r).plSum = (r.drop (nPre - 1)).sum ∧ (acc nPre e r).plSq = ((r.drop (nPre - 1)).map (· ^ 2)).sum := by
  induction r using List.reverseRecOn with
  | nil => simp [acc, init]
  | append_singleton r s ih =>
    rw [acc_snoc, (step_pl_sum nPre e s r.length _).1, (step_pl_sum nPre e s r.length _).2, ih.1, ih.2, drop_snoc]
    by_cases h : nPre ≤ r.length + 1
    · rw [if_pos h, if_pos h, if_pos (by omega)]
      simp
    · rw [if_neg h, if_neg h, if_neg (by omega), List.drop_eq_nil_of_le (by omega)]
      simp

/-- the pretrigger statistics of a record [specification] -/
def preStats (nPre e : ℕ) (r : List ℕ) : ℚ × ℚ × Bool := stats e (r.getD (nPre - 1) 0) (r.take e).sum ((r.take e).map (· ^ 2)).sum

theorem acc_pt (nPre e : ℕ) (r : List ℕ) (h1 : 1 ≤ nPre) (he : e ≤ nPre) : (acc nPre e r).pt = (if nPre ≤ r.length then some (preStats nPre e r) else none) ∧
    ((acc nPre e r).sP, (acc nPre e r).eP) = (if nPre ≤ r.length ∧ (preStats nPre e r).2.2 = true then (nPre + 1, nPre + 7) else (nPre + 2, nPre + 8)) := by
  induction r using List.reverseRecOn with
  | nil =>
    constructor
    · simp [acc, init]; omega
    · rw [if_neg (by simp; omega)]
      simp [acc, init]
  | append_singleton r s ih =>
    have e1 := step_pt nPre e s r.length (acc nPre e r)
    have e2 := (step_window nPre e s r.length (acc nPre e r)).1
    rw [← acc_snoc, (acc_pt_sum nPre e (r ++ [s])).1, (acc_pt_sum nPre e (r ++ [s])).2] at e1 e2
    rw [e1, e2]
    have hl : (r ++ [s]).length = r.length + 1 := by simp
    rcases Nat.lt_trichotomy (r.length + 1) nPre with h | h | h
    · have a1 : ¬ r.length + 1 = nPre := by omega
      have a2 : ¬ nPre ≤ (r ++ [s]).length := by omega
      have a3 : ¬ nPre ≤ r.length := by omega
      simp only [a1, a2, a3, false_and, if_false] at ih ⊢
      exact ih
    · have hg : (r ++ [s]).getD (nPre - 1) 0 = s := by
        rw [show nPre - 1 = r.length by omega]
        simp
      have hp : preStats nPre e (r ++ [s]) = stats e s ((r ++ [s]).take e).sum (((r ++ [s]).take e).map (· ^ 2)).sum := by
        unfold preStats
        rw [hg]
      rw [← hp, if_pos h, if_pos (by simp; omega)]
      refine ⟨rfl, ?_⟩
      have h0 := ih.2
      rw [if_neg (by omega)] at h0
      simp only [Prod.mk.injEq] at h0
      rw [h0.1, h0.2]
      have hlen : nPre ≤ (r ++ [s]).length := by simp; omega
      simp only [h, hlen, true_and]
      rfl
    · have hp : preStats nPre e (r ++ [s]) = preStats nPre e r := by
        unfold preStats
        rw [take_snoc, if_neg (by omega)]
        congr 1
        simp only [List.getD_eq_getElem?_getD]
        rw [List.getElem?_append_left (by omega)]
      have a1 : ¬ r.length + 1 = nPre := by omega
      have a2 : nPre ≤ (r ++ [s]).length := by omega
      have a3 : nPre ≤ r.length := by omega
      rw [hp]
      simp only [a1, a2, a3, false_and, if_false, true_and, if_true] at ih ⊢
      exact ih

theorem acc_prompt (nPre e : ℕ) (r : List ℕ) (h1 : 1 ≤ nPre) (he : e ≤ nPre) : (acc nPre e r).prSum = ((r.take (acc nPre e r).eP).drop (acc nPre e r).sP).sum := by
  induction r using List.reverseRecOn with
  | nil => simp [acc, init]
  | append_singleton r s ih =>
    have e2 := (acc_pt nPre e (r ++ [s]) h1 he).2
    have e3 := (acc_pt nPre e r h1 he).2
    have e4 := (step_window nPre e s r.length (acc nPre e r)).2
    rw [← acc_snoc] at e4
    by_cases h : nPre ≤ r.length
    · -- the window is the same as before
      have hp : preStats nPre e (r ++ [s]) = preStats nPre e r := by
        unfold preStats
        rw [take_snoc, if_neg (by omega)]
        congr 1
        simp only [List.getD_eq_getElem?_getD]
        rw [List.getElem?_append_left (by omega)]
      have hlen : nPre ≤ (r ++ [s]).length := by simp; omega
      rw [hp] at e2
      simp only [hlen, h, true_and] at e2 e3
      rw [← e3] at e2
      simp only [Prod.mk.injEq] at e2
      rw [e2.1, e2.2, e4, ih]
      have hle : (acc nPre e r).sP ≤ (acc nPre e r).eP := by
        simp only [Prod.ext_iff] at e3
        rw [e3.1, e3.2]
        split <;> simp
      generalize (acc nPre e r).sP = sP at *
      generalize (acc nPre e r).eP = eP at *
      rw [take_snoc]
      by_cases h2 : r.length < eP
      · rw [if_pos h2, drop_snoc, List.length_take]
        by_cases h3 : sP ≤ r.length
        · rw [if_pos ⟨h3, h2⟩, if_pos (by omega)]
          simp
        · rw [if_neg (by omega), if_neg (by omega), List.drop_eq_nil_of_le (by rw [List.length_take]; omega)]
      · rw [if_neg h2, if_neg (by omega)]
    · rw [if_neg (by omega)] at e3
      simp only [Prod.mk.injEq] at e3
      have hge : nPre + 1 ≤ (acc nPre e (r ++ [s])).sP := by
        simp only [Prod.ext_iff] at e2
        rw [e2.1]
        split <;> simp
      rw [e4, if_neg (by rw [e3.1]; omega), ih, e3.1, List.drop_eq_nil_of_le (by rw [List.length_take]; omega), List.drop_eq_nil_of_le (by rw [List.length_take]; simp; omega)]

/-! ### What the summary is -/

/-- the mean of samples (used for channel.py L986-1044) -/
def mean (l : List ℕ) : ℚ := (l.sum : ℚ) / l.length

/-- the mean square of the samples relative to c (used for channel.py L986-1044) -/
def meanSq (l : List ℕ) (c : ℚ) : ℚ := (l.map (fun s : ℕ => ((s : ℚ) - c) ^ 2)).sum / l.length

theorem meanSq_eq (l : List ℕ) (c : ℚ) (h : l ≠ []) : meanSq l c = ((l.map (· ^ 2)).sum : ℕ) / (l.length : ℚ) - 2 * c * mean l + c ^ 2 := by
  have hl : (l.length : ℚ) ≠ 0 := by simpa using h
  have : (l.map (fun s : ℕ => ((s : ℚ) - c) ^ 2)).sum = ((l.map (· ^ 2)).sum : ℕ) - 2 * c * (l.sum : ℕ) + c ^ 2 * l.length := by
    clear hl h
    induction l with
    | nil => simp
    | cons a l ih =>
      simp only [List.map_cons, List.sum_cons, List.length_cons, ih]
      push_cast
      ring
  unfold meanSq mean
  rw [this]
  field_simp

/-- a record is usable if the pretrigger region, less the ignored samples, is not empty and the record goes on behind the trigger and six samples behind the peak [specification] -/
structure Usable (p ignore nPre : ℕ) (r : List ℕ) : Prop where
  ign : ignore < nPre
  pre : nPre < r.length
  post : p + 6 ≤ r.length
  short : r.length < 65536
  data : ∀ s ∈ r, s < 65536

theorem exps (ignore nPre : ℕ) (h : ignore < nPre) (h2 : nPre < 65536) : (((nPre : ℤ) - ignore) % 65536).toNat = nPre - ignore := by omega

/-- the summary of a usable record, from the sums of the loop -/
theorem summary_eq (tb : ℚ) (p ignore nPre : ℕ) (r : List ℕ) (h : Usable p ignore nPre r) :
    ∃ ptm var : ℚ, ∃ sh : Bool, ∃ a : Acc, a = acc nPre (nPre - ignore) r ∧ (ptm, var, sh) = preStats nPre (nPre - ignore) r ∧ summary tb p ignore nPre r =
      let pv : ℕ := if ptm < a.peak then a.peak - ⌊ptm + 1 / 2⌋.toNat else a.peak
      if ptm < a.peak ∧ pv = 0 then .error .zeroDiv
      else .ok {
          ptm := ptm, var := var, shift1 := sh
          peakValue := if ptm < a.peak then pv else 0
          peakIndex := if ptm < a.peak then a.idx else 0
          minValue := a.mn
          prompt := if ptm < a.peak then (a.prSum / 6 - ptm) / pv else 0
          avg := a.plSum / ((r.length : ℚ) - nPre + 1) - ptm
          ms := a.plSq / ((r.length : ℚ) - nPre + 1) - ptm * (a.plSum / ((r.length : ℚ) - nPre + 1) - ptm) * 2 - ptm ^ 2
          riseTime := rise tb r nPre pv (⌊(1 / 10 : ℚ) * pv + ptm⌋.toNat % 65536) (⌊(9 / 10 : ℚ) * pv + ptm⌋.toNat % 65536)
          deriv := deriv10 (fun i => (r.getD i 0 : ℤ)) p r.length } := by
  obtain ⟨hi, hn, hp, hsh, hd⟩ := h
  refine ⟨(preStats nPre (nPre - ignore) r).1, (preStats nPre (nPre - ignore) r).2.1, (preStats nPre (nPre - ignore) r).2.2, _, rfl, rfl, ?_⟩
  unfold summary
  rw [exps ignore nPre hi (by omega)]
  dsimp only
  rw [(acc_pt nPre (nPre - ignore) r (by omega) (by omega)).1, if_pos (by omega)]
  dsimp only
  rw [if_neg (show ¬ nPre - ignore = 0 by omega), if_neg (show ¬ (r.length ≤ nPre ∨ r.length < p + 6) by omega)]

/-- C77: pretrigger mean and rms, pulse average and rms, minimum and the shift flag are what they are called, for every record that has a summary. -/
theorem statistics (tb : ℚ) (p ignore nPre : ℕ) (r : List ℕ) (h : Usable p ignore nPre r) (s : Summary) (hs : summary tb p ignore nPre r = .ok s) :
    s.ptm = mean (r.take (nPre - ignore)) ∧ s.var = meanSq (r.take (nPre - ignore)) s.ptm ∧ 0 ≤ s.var ∧
      s.avg = mean (r.drop (nPre - 1)) - s.ptm ∧ s.ms = meanSq (r.drop (nPre - 1)) s.ptm ∧ 0 ≤ s.ms ∧
      (∀ x ∈ r, s.minValue ≤ x) ∧ s.minValue ∈ r ∧
      (s.shift1 = true ↔ 0 < (r.getD (nPre - 1) 0 : ℚ) - s.ptm ∧ (43 / 10) ^ 2 * s.var < ((r.getD (nPre - 1) 0 : ℚ) - s.ptm) ^ 2) := by
  obtain ⟨ptm, var, sh, a, ha, hpt, heq⟩ := summary_eq tb p ignore nPre r h
  obtain ⟨hi, hn, hp, hsh, hd⟩ := h
  have hne : r ≠ [] := by rintro rfl; simp at hn
  rw [heq] at hs
  dsimp only at hs
  generalize (if ptm < (a.peak : ℚ) then a.peak - ⌊ptm + 1 / 2⌋.toNat else a.peak) = pv at hs
  by_cases hz : ptm < (a.peak : ℚ) ∧ pv = 0
  · rw [if_pos hz] at hs
    exact absurd hs (by simp)
  rw [if_neg hz] at hs
  simp only [Except.ok.injEq] at hs
  subst hs
  dsimp only
  unfold preStats stats at hpt
  simp only [Prod.mk.injEq] at hpt
  obtain ⟨h1, h2, h3⟩ := hpt
  rw [← h1] at h2 h3
  rw [← h2] at h3
  have htl : (r.take (nPre - ignore)).length = nPre - ignore := by rw [List.length_take]; omega
  have hdl : ((r.drop (nPre - 1)).length : ℚ) = (r.length : ℚ) - nPre + 1 := by
    rw [List.length_drop, Nat.cast_sub (by omega), Nat.cast_sub (by omega)]
    push_cast
    ring
  have htne : r.take (nPre - ignore) ≠ [] := by rw [← List.length_pos_iff]; omega
  have hdne : r.drop (nPre - 1) ≠ [] := by rw [← List.length_pos_iff, List.length_drop]; omega
  have hm : ptm = mean (r.take (nPre - ignore)) := by rw [h1]; unfold mean; rw [htl]
  have hv : var = meanSq (r.take (nPre - ignore)) ptm := by
    rw [meanSq_eq _ _ htne, htl, ← hm, h2]
    ring
  have hms : ∀ (l : List ℕ) (c : ℚ), 0 ≤ meanSq l c := by
    intro l c
    unfold meanSq
    refine div_nonneg (List.sum_nonneg ?_) (Nat.cast_nonneg _)
    intro x hx
    obtain ⟨y, _, rfl⟩ := List.mem_map.1 hx
    exact sq_nonneg _
  obtain ⟨e1, e2⟩ := acc_pl_sum nPre (nPre - ignore) r
  rw [← ha] at e1 e2
  have havg : (a.plSum : ℚ) / ((r.length : ℚ) - nPre + 1) - ptm = mean (r.drop (nPre - 1)) - ptm := by rw [e1, ← hdl]; rfl
  have hpms : (a.plSq : ℚ) / ((r.length : ℚ) - nPre + 1) - ptm * ((a.plSum : ℚ) / ((r.length : ℚ) - nPre + 1) - ptm) * 2 - ptm ^ 2 = meanSq (r.drop (nPre - 1)) ptm := by
    rw [havg, meanSq_eq _ _ hdne, e2, ← hdl]
    ring
  have hmin := acc_min nPre (nPre - ignore) r hne hd
  rw [← ha] at hmin
  refine ⟨hm, hv, by rw [hv]; exact hms _ _, havg, hpms, by rw [hpms]; exact hms _ _, hmin.1, hmin.2, ?_⟩
  rw [h3]
  unfold above
  rw [decide_eq_true_eq]

/-- C78: the peak value is the greatest sample less the rounded pretrigger mean, and the promptness compares the mean of six samples after the trigger (one sample earlier if the record is shifted) with
    it; where no sample is above the pretrigger mean both are 0. The peak index is the first position of the greatest sample. -/
theorem peak_partial (tb : ℚ) (p ignore nPre : ℕ) (r : List ℕ) (h : Usable p ignore nPre r) (s : Summary) (hs : summary tb p ignore nPre r = .ok s) :
    ((∀ x ∈ r, (x : ℚ) ≤ s.ptm) → s.peakValue = 0 ∧ s.peakIndex = 0 ∧ s.prompt = 0) ∧
    ((∃ x ∈ r, s.ptm < (x : ℚ)) → ∃ m : ℕ, r[s.peakIndex]? = some m ∧ (∀ x ∈ r, x ≤ m) ∧ (∀ j, j < s.peakIndex → ∀ x, r[j]? = some x → x < m) ∧
      (s.peakValue : ℤ) = m - ⌊s.ptm + 1 / 2⌋ ∧ 0 < s.peakValue ∧
      (nPre + 8 ≤ r.length → s.prompt = (mean ((r.drop (if s.shift1 then nPre + 1 else nPre + 2)).take 6) - s.ptm) / s.peakValue)) := by
  obtain ⟨ptm, var, sh, a, ha, hpt, heq⟩ := summary_eq tb p ignore nPre r h
  obtain ⟨hi, hn, hp, hsh, hd⟩ := h
  have hne : r ≠ [] := by rintro rfl; simp at hn
  rw [heq] at hs
  dsimp only at hs
  obtain ⟨g1, g2, g3⟩ := acc_peak nPre (nPre - ignore) r hne
  rw [← ha] at g1 g2 g3
  obtain ⟨pv, hpv⟩ : ∃ pv, pv = (if ptm < (a.peak : ℚ) then a.peak - ⌊ptm + 1 / 2⌋.toNat else a.peak) := ⟨_, rfl⟩
  rw [← hpv] at hs
  by_cases hz : ptm < (a.peak : ℚ) ∧ pv = 0
  · rw [if_pos hz] at hs
    exact absurd hs (by simp)
  rw [if_neg hz] at hs
  simp only [Except.ok.injEq] at hs
  subst hs
  dsimp only
  constructor
  · intro hall
    have : ¬ ptm < (a.peak : ℚ) := not_lt.2 (hall _ (List.mem_of_getElem? g2))
    simp [this]
  · rintro ⟨x, hx, hlt⟩
    have hpk : ptm < (a.peak : ℚ) := hlt.trans_le (by exact_mod_cast g1 x hx)
    rw [if_pos hpk] at hpv
    simp only [hpk, if_true]
    have h0 : 0 ≤ ptm := by
      unfold preStats stats at hpt
      simp only [Prod.mk.injEq] at hpt
      rw [hpt.1]
      exact div_nonneg (Nat.cast_nonneg _) (Nat.cast_nonneg _)
    have hf0 : 0 ≤ ⌊ptm + 1 / 2⌋ := Int.floor_nonneg.2 (by linarith)
    have hf1 : ⌊ptm + 1 / 2⌋ ≤ a.peak := by
      have : ⌊ptm + 1 / 2⌋ < (a.peak : ℤ) + 1 := by
        rw [Int.floor_lt]
        push_cast
        linarith
      omega
    refine ⟨a.peak, g2, g1, g3, ?_, ?_, ?_⟩
    · rw [hpv]
      omega
    · have : pv ≠ 0 := fun hc => hz ⟨hpk, hc⟩
      omega
    · intro hlen
      congr 2
      have hw := (acc_pt nPre (nPre - ignore) r (by omega) (by omega)).2
      have hpr := acc_prompt nPre (nPre - ignore) r (by omega) (by omega)
      rw [← ha] at hw hpr
      rw [← hpt] at hw
      have hle : nPre ≤ r.length := by omega
      simp only [hle, true_and] at hw
      have hw' : a.sP = (if sh = true then nPre + 1 else nPre + 2) ∧ a.eP = a.sP + 6 := by
        simp only [Prod.ext_iff] at hw
        rw [hw.1, hw.2]
        cases sh <;> simp
      rw [hpr, hw'.2, ← List.take_drop, hw'.1]
      unfold mean
      have : ((r.drop (if sh = true then nPre + 1 else nPre + 2)).take 6).length = 6 := by
        rw [List.length_take, List.length_drop]
        split <;> omega
      rw [this]
      rfl

/-- The only way a usable record gets no summary: its greatest sample is above the pretrigger mean but not above its rounded value. -/
theorem summary_fails_only (tb : ℚ) (p ignore nPre : ℕ) (r : List ℕ) (h : Usable p ignore nPre r) :
    (∃ s, summary tb p ignore nPre r = .ok s) ∨ summary tb p ignore nPre r = .error .zeroDiv ∧ (∃ x ∈ r, mean (r.take (nPre - ignore)) < x) ∧ ∀ x ∈ r, (x : ℤ) ≤ ⌊mean (r.take (nPre - ignore)) + 1 / 2⌋ := by
  obtain ⟨ptm, var, sh, a, ha, hpt, heq⟩ := summary_eq tb p ignore nPre r h
  obtain ⟨hi, hn, hp, hsh, hd⟩ := h
  have hne : r ≠ [] := by rintro rfl; simp at hn
  rw [heq]
  dsimp only
  obtain ⟨g1, g2, g3⟩ := acc_peak nPre (nPre - ignore) r hne
  rw [← ha] at g1 g2
  have hm : mean (r.take (nPre - ignore)) = ptm := by
    unfold preStats stats at hpt
    simp only [Prod.mk.injEq] at hpt
    rw [hpt.1]
    unfold mean
    rw [List.length_take, min_eq_left (by omega)]
  rw [hm]
  obtain ⟨pv, hpv⟩ : ∃ pv, pv = (if ptm < (a.peak : ℚ) then a.peak - ⌊ptm + 1 / 2⌋.toNat else a.peak) := ⟨_, rfl⟩
  rw [← hpv]
  by_cases hz : ptm < (a.peak : ℚ) ∧ pv = 0
  · rw [if_pos hz]
    obtain ⟨hz1, hz2⟩ := hz
    rw [if_pos hz1] at hpv
    refine .inr ⟨rfl, ⟨_, List.mem_of_getElem? g2, hz1⟩, ?_⟩
    intro x hx
    have h1 := g1 x hx
    have h3 : 0 ≤ ptm := by
      rw [← hm]
      exact div_nonneg (Nat.cast_nonneg _) (Nat.cast_nonneg _)
    have h2 : 0 ≤ ⌊ptm + 1 / 2⌋ := Int.floor_nonneg.2 (by linarith)
    omega
  · rw [if_neg hz]
    exact .inl ⟨_, rfl⟩

end Mass.Algo.Summary
