import Verif.Stat.Entropy
/-! C89: cross-entropy and Kullback-Leibler divergence of two data sets, exact mode (mass/mathstat/entropy.pyx). Values are real numbers. -/
namespace Mass.Stat
open Real MeasureTheory Set intervalIntegral

/-- entropy.pyx L275-280, L298-301, L308-318: the loop-carried state `(j, net_up_qsteps)` after node `i`: how many nodes of `y` were passed and the number
of top-hats open there. -/
def stepState (isx up : ℕ → Bool) : ℕ → ℕ × ℤ
  | 0 => if isx 0 then (0, 0) else (1, 1)
  | i + 1 =>
    let st := stepState isx up i
    if isx (i + 1) then st else (st.1 + 1, if up st.1 then st.2 + 1 else st.2 - 1)

/-- entropy.pyx L248-321 `laplace_cross_entropy_arrays`, on sorted arrays in units of the scale. The terms which the last loop subtracts from `H` one by
one are summed here in one expression. -/
noncomputable def crossArrays (x y : List ℝ) : Except Exc ℝ := do
  let width := 2 * √6
  let ynodes ← mergeOrdered (y.map (fun b : ℝ => b - 1 / 2 * width)) (y.map (fun b : ℝ => b + 1 / 2 * width))
  let nodes ← mergeOrdered x (ynodes.map Prod.fst)
  let N := x.length + y.length * 2
  let nd : ℕ → ℝ := fun i => (nodes.getD i (0, false)).1
  let isx : ℕ → Bool := fun i => (nodes.getD i (0, false)).2
  let up : ℕ → Bool := fun j => (ynodes.getD j (0, false)).2
  let qminSum := 1 / √((y.length : ℝ) + 3)
  let qmin := qminSum / (nd (N - 1) + 10 - (nd 0 - 10))
  let qstep := (1 - qminSum) / (y.length * width)
  let e : ℕ → ℝ := fun i => exp (nd i - nd (i + 1))
  let S : ℕ → ℝ := fun i => if isx i then 1 / (2 * (x.length : ℝ)) else 0
  let c := cPass e S
  let d := dPass e S N
  .ok (-d 0 * log qmin
    - ((List.range (N - 1)).map (fun i : ℕ => (c i + d (i + 1)) * (1 - e i) * log (qmin + qstep * ((stepState isx up i).2 : ℝ)))).sum
    - c (N - 1) * log qmin)

/-- entropy.pyx L211-245 `laplace_cross_entropy`, exact mode. -/
noncomputable def crossEntropy (x y : List ℝ) (w : ℝ) : Except Exc ℝ :=
  if w ≤ 0 then .error .value
  else if x.length = 0 ∨ y.length = 0 then .error .value
  else do
    let h ← crossArrays ((x.insertionSort (· ≤ ·)).map (· / w)) ((y.insertionSort (· ≤ ·)).map (· / w))
    .ok (h + log w)

/-- entropy.pyx L193-208 `laplace_KL_divergence`, exact mode. -/
noncomputable def klDivergence (x y : List ℝ) (w : ℝ) : Except Exc ℝ := do
  let a ← crossEntropy x y w
  let b ← laplaceEntropy exp x w
  .ok (a - b)

open Classical in
/-- number of values of `y` closer than `r` to `u` [specification] -/
noncomputable def near (y : List ℝ) (r u : ℝ) : ℕ := y.countP (fun b => |u - b| < r)

/-- estimate of the density of `y` by top-hats of half-width `√6 w` carrying the weight `1 - a`, over a floor carrying the weight `a = 1/√(len(y)+3)` on
the interval from `lo - 10 w` to `hi + 10 w` (and extended as a constant outside of it) [specification] -/
noncomputable def topHat (y : List ℝ) (w lo hi u : ℝ) : ℝ :=
  (1 / √((y.length : ℝ) + 3)) / ((hi + 10 * w) - (lo - 10 * w))
    + (1 - 1 / √((y.length : ℝ) + 3)) * (near y (√6 * w) u / y.length) / (2 * (√6 * w))

/-! ### lists sorted by value -/

theorem tail_ge {a : ℝ × Bool} {t : List (ℝ × Bool)} (h : ((a :: t).map Prod.fst).Pairwise (· ≤ ·)) : ∀ e ∈ t, a.1 ≤ e.1 := by
  intro e he
  rw [List.map_cons, List.pairwise_cons] at h
  exact h.1 _ (List.mem_map_of_mem he)

theorem take_filter (v : ℝ) (l : List (ℝ × Bool)) (h : (l.map Prod.fst).Pairwise (· ≤ ·)) :
    l.take (l.countP (fun e => e.1 < v)) = l.filter (fun e => e.1 < v) := by
  induction l with
  | nil => rfl
  | cons a t ih =>
    have hp : (t.map Prod.fst).Pairwise (· ≤ ·) := by
      rw [List.map_cons, List.pairwise_cons] at h
      exact h.2
    by_cases ha : a.1 < v
    · rw [List.countP_cons_of_pos (by simpa using ha), List.take_succ_cons, ih hp, List.filter_cons_of_pos (by simpa using ha)]
    · have ht : ∀ e ∈ t, ¬ e.1 < v := fun e he => not_lt.2 (le_trans (not_lt.1 ha) (tail_ge h e he))
      rw [List.countP_cons_of_neg (by simpa using ha), List.filter_cons_of_neg (by simpa using ha), List.countP_eq_zero.2 (by simpa using ht), List.filter_eq_nil_iff.2 (by simpa using ht)]
      rfl

theorem getD_mono {l : List (ℝ × Bool)} (h : (l.map Prod.fst).Pairwise (· ≤ ·)) (i j : ℕ) (hij : i ≤ j) (hj : j < l.length) :
    (l.getD i (0, false)).1 ≤ (l.getD j (0, false)).1 := by
  rw [List.getD_eq_getElem?_getD, List.getD_eq_getElem?_getD, List.getElem?_eq_getElem hj, List.getElem?_eq_getElem (show i < l.length by omega)]
  simp only [Option.getD_some]
  rcases Nat.eq_or_lt_of_le hij with h' | h'
  · subst h'; exact le_refl _
  · have := List.pairwise_iff_getElem.1 h i j (by rw [List.length_map]; omega) (by rw [List.length_map]; omega) h'
    simpa using this

theorem getD_lt {l : List (ℝ × Bool)} {i : ℕ} (hi : i < l.length) : l.getD i (0, false) = l[i] := by
  rw [List.getD_eq_getElem?_getD, List.getElem?_eq_getElem hi]
  rfl

/-- strictly between two neighbours exactly the entries up to the first are below -/
theorem countP_between {l : List (ℝ × Bool)} (h : (l.map Prod.fst).Pairwise (· ≤ ·)) {i : ℕ} (hi : i + 1 < l.length) {v : ℝ}
    (h1 : (l.getD i (0, false)).1 < v) (h2 : v < (l.getD (i + 1) (0, false)).1) :
    l.countP (fun e => e.1 < v) = i + 1 ∧ ∀ e ∈ l, e.1 ≠ v := by
  have ha : ∀ e ∈ l.take (i + 1), e.1 < v := by
    intro e he
    obtain ⟨k, hk, rfl⟩ := List.mem_iff_getElem.1 he
    rw [List.length_take] at hk
    rw [List.getElem_take]
    have := getD_mono h k i (by omega) (by omega)
    rw [getD_lt (i := k) (by omega)] at this
    exact lt_of_le_of_lt this h1
  have hb : ∀ e ∈ l.drop (i + 1), v < e.1 := by
    intro e he
    obtain ⟨k, hk, rfl⟩ := List.mem_iff_getElem.1 he
    rw [List.length_drop] at hk
    rw [List.getElem_drop]
    have := getD_mono h (i + 1) (i + 1 + k) (by omega) (by omega)
    rw [getD_lt (i := i + 1 + k) (by omega)] at this
    exact lt_of_lt_of_le h2 this
  refine ⟨?_, ?_⟩
  · conv_lhs => rw [← List.take_append_drop (i + 1) l, List.countP_append]
    rw [List.countP_eq_length.2 (by simpa using ha), List.countP_eq_zero.2 (by simpa using fun a b hab => (le_of_lt (hb (a, b) hab))), List.length_take]
    omega
  · intro e he
    rw [← List.take_append_drop (i + 1) l, List.mem_append] at he
    rcases he with he | he
    · exact (ha e he).ne
    · exact (hb e he).ne'

/-! ### the loop state -/

theorem stepState_eq {L M : List (ℝ × Bool)} (hM : flagged false L = M.map Prod.fst) (h0 : (M.getD 0 (0, false)).2 = true) (i : ℕ) (hi : i < L.length) :
    (stepState (fun i => (L.getD i (0, false)).2) (fun j => (M.getD j (0, false)).2) i).1 = (L.take (i + 1)).countP (fun e => !e.2) ∧
    (stepState (fun i => (L.getD i (0, false)).2) (fun j => (M.getD j (0, false)).2) i).2
      = ((M.take ((L.take (i + 1)).countP (fun e => !e.2))).countP (fun e => e.2) : ℤ) - ((M.take ((L.take (i + 1)).countP (fun e => !e.2))).countP (fun e => !e.2) : ℤ) := by
  have hlen : ∀ k, (L.take k).countP (fun e => !e.2) ≤ M.length := by
    intro k
    have h1 : (L.take k).countP (fun e => !e.2) ≤ L.countP (fun e => !e.2) := (List.take_sublist k L).countP_le
    have h2 := congrArg List.length hM
    rw [flagged, List.length_map, List.length_map, ← List.countP_eq_length_filter] at h2
    have h3 : (fun e : ℝ × Bool => e.2 == false) = fun e => !e.2 := by
      funext e
      cases e.2 <;> rfl
    rw [h3] at h2
    omega
  induction i with
  | zero =>
    have e1 : L.take (0 + 1) = [L.getD 0 (0, false)] := by
      cases L with
      | nil => simp at hi
      | cons a t => simp
    have hl := hlen (0 + 1)
    rw [e1] at hl ⊢
    unfold stepState
    cases hb : (L.getD 0 (0, false)).2 with
    | true =>
      simp only [List.countP_cons, List.countP_nil, hb, Bool.not_true, if_true]
      simp
    | false =>
      simp only [List.countP_cons, List.countP_nil, hb, Bool.not_false, if_true, Nat.zero_add] at hl ⊢
      have e2 : M.take 1 = [M.getD 0 (0, false)] := by
        cases M with
        | nil => simp at hl
        | cons a t => simp
      rw [e2]
      simp only [List.countP_cons, List.countP_nil, h0]
      decide
  | succ i ih =>
    obtain ⟨ih1, ih2⟩ := ih (by omega)
    have e1 : L.take (i + 1 + 1) = L.take (i + 1) ++ [L.getD (i + 1) (0, false)] := by
      rw [getD_lt hi, List.take_append_getElem hi]
    have hl := hlen (i + 1 + 1)
    rw [e1, List.countP_append] at hl ⊢
    unfold stepState
    dsimp only
    cases hb : (L.getD (i + 1) (0, false)).2 with
    | true =>
      simp only [List.countP_cons, List.countP_nil, hb]
      exact ⟨ih1, ih2⟩
    | false =>
      simp only [List.countP_cons, List.countP_nil, hb, Bool.not_false, if_true, Nat.zero_add] at hl ⊢
      rw [ih1, ih2]
      refine ⟨rfl, ?_⟩
      generalize (L.take (i + 1)).countP (fun e => !e.2) = j at *
      have e2 : M.take (j + 1) = M.take j ++ [M.getD j (0, false)] := by
        rw [getD_lt (show j < M.length by omega), List.take_append_getElem (show j < M.length by omega)]
      rw [e2, List.countP_append, List.countP_append]
      simp only [List.countP_cons, List.countP_nil]
      cases (M.getD j (0, false)).2 <;> simp <;> omega

theorem flagged_countP (b : Bool) (p : ℝ → Bool) (l : List (ℝ × Bool)) :
    (l.filter (fun e => p e.1)).countP (fun e => e.2 == b) = (flagged b l).countP p := by
  rw [flagged, List.countP_map, List.countP_filter, List.countP_filter]
  refine List.countP_congr fun e _ => ?_
  simp [and_comm]

theorem near_eq (y : List ℝ) {r v : ℝ} (hr : 0 < r) (hv : ∀ b ∈ y, b + r ≠ v) :
    (near y r v : ℤ) = ((y.map (fun b => b - r)).countP (fun z => z < v) : ℤ) - ((y.map (fun b => b + r)).countP (fun z => z < v) : ℤ) := by
  unfold near
  induction y with
  | nil => simp
  | cons b t ih =>
    have ih := ih (fun c hc => hv c (List.mem_cons_of_mem _ hc))
    have hb := hv b (List.mem_cons_self)
    simp only [List.map_cons, List.countP_cons, Nat.cast_add, ih]
    by_cases h1 : b - r < v
    · by_cases h2 : b + r < v
      · have h3 : ¬ |v - b| < r := by rw [abs_of_pos (by linarith)]; linarith
        simp [h1, h2, h3]
      · have h3 : |v - b| < r := abs_lt.2 ⟨by linarith, by
          have := lt_of_le_of_ne (not_lt.1 h2) (Ne.symm hb); linarith⟩
        simp [h1, h2, h3]
        omega
    · have h2 : ¬ b + r < v := by linarith
      have h3 : ¬ |v - b| < r := by
        intro h
        have := (abs_lt.1 h).1
        linarith
      simp [h1, h2, h3]

/-- strictly between neighbouring nodes the state counts the values of `y` within `r` -/
theorem step_near {L M : List (ℝ × Bool)} {y : List ℝ} {r : ℝ} (hr : 0 < r) (hL : (L.map Prod.fst).Pairwise (· ≤ ·)) (hLM : flagged false L = M.map Prod.fst)
    (hM : (M.map Prod.fst).Pairwise (· ≤ ·)) (hup : flagged true M = y.map (fun b => b - r)) (hdn : flagged false M = y.map (fun b => b + r)) (hne : y ≠ [])
    {i : ℕ} (hi : i + 1 < L.length) {v : ℝ} (h1 : (L.getD i (0, false)).1 < v) (h2 : v < (L.getD (i + 1) (0, false)).1) :
    (stepState (fun i => (L.getD i (0, false)).2) (fun j => (M.getD j (0, false)).2) i).2 = near y r v := by
  have h0 : (M.getD 0 (0, false)).2 = true := by
    cases M with
    | nil =>
      cases y with
      | nil => exact absurd rfl hne
      | cons b t => simp [flagged] at hup
    | cons a t =>
      by_contra hc
      have ha : a.2 = false := by simpa using hc
      have hmem : a.1 ∈ flagged false (a :: t) := List.mem_map.2 ⟨a, by simp [ha], rfl⟩
      rw [hdn] at hmem
      obtain ⟨b, hb, hba⟩ := List.mem_map.1 hmem
      have hmem2 : b - r ∈ flagged true (a :: t) := by rw [hup]; exact List.mem_map_of_mem hb
      obtain ⟨e, he, heb⟩ := List.mem_map.1 hmem2
      have he' := (List.mem_filter.1 he).1
      rcases List.mem_cons.1 he' with rfl | he'
      · linarith
      · have := tail_ge hM e he'
        linarith
  obtain ⟨hcount, hneq⟩ := countP_between hL hi h1 h2
  have hneg : ∀ l : List (ℝ × Bool), l.countP (fun e => !e.2) = l.countP (fun e => e.2 == false) := fun l =>
    List.countP_congr fun e _ => by cases e.2 <;> simp
  have hpos : ∀ l : List (ℝ × Bool), l.countP (fun e => e.2) = l.countP (fun e => e.2 == true) := fun l =>
    List.countP_congr fun e _ => by cases e.2 <;> simp
  have hj : (L.take (i + 1)).countP (fun e => !e.2) = M.countP (fun e => e.1 < v) := by
    rw [← hcount, take_filter v L hL, hneg, flagged_countP false (fun z => decide (z < v)), hLM, List.countP_map]
    rfl
  rw [(stepState_eq hLM h0 i (by omega)).2, hj, take_filter v M hM, hneg, hpos, flagged_countP false (fun z => decide (z < v)),
    flagged_countP true (fun z => decide (z < v)), hup, hdn, near_eq y hr]
  intro b hb hbv
  have hmem : b + r ∈ flagged false M := by rw [hdn]; exact List.mem_map_of_mem hb
  have hmem2 : b + r ∈ flagged false L := by
    rw [hLM]
    obtain ⟨e, he, h⟩ := List.mem_map.1 hmem
    exact List.mem_map.2 ⟨e, (List.mem_filter.1 he).1, h⟩
  obtain ⟨e, he, h⟩ := List.mem_map.1 hmem2
  exact hneq e (List.mem_filter.1 he).1 (h.trans hbv)

/-! ### integrals -/

theorem gap_exp (C D a b : ℝ) : ∫ v in a..b, (C * exp (a - v) + D * exp (v - b)) = (C + D) * (1 - exp (a - b)) := by
  have hc : Continuous (fun v => C * exp (a - v) + D * exp (v - b)) := by fun_prop
  have hd : ∀ v ∈ uIcc a b, HasDerivAt (fun v => D * exp (v - b) - C * exp (a - v)) (C * exp (a - v) + D * exp (v - b)) v := by
    intro v _
    have h1 : HasDerivAt (fun v : ℝ => exp (a - v)) (exp (a - v) * (-1)) v := ((hasDerivAt_id v).const_sub a).exp
    have h2 : HasDerivAt (fun v : ℝ => exp (v - b)) (exp (v - b) * 1) v := ((hasDerivAt_id v).sub_const b).exp
    refine ((h2.const_mul D).sub (h1.const_mul C)).congr_deriv ?_
    ring
  rw [integral_eq_sub_of_hasDerivAt hd (hc.intervalIntegrable _ _), sub_self, sub_self, exp_zero]
  ring

/-- integral of a sum of Laplace kernels times a function which is constant on the tails and between neighbouring nodes -/
theorem lap_step {Y S : ℕ → ℝ} {n : ℕ} (hY : ∀ i j, i ≤ j → j < n → Y i ≤ Y j) (h0 : 0 < n) {g : ℝ → ℝ} {q0 q1 : ℝ} {q : ℕ → ℝ}
    (hg0 : ∀ v ≤ Y 0, g v = q0) (hg1 : ∀ v, Y (n - 1) ≤ v → g v = q1) (hg : ∀ i, i + 1 < n → ∀ v, Y i < v → v < Y (i + 1) → g v = q i) :
    Integrable (fun v => lap Y S n v * g v) ∧
    ∫ v, lap Y S n v * g v = dPass (dec Y) S n 0 * q0
      + (∑ i ∈ Finset.range (n - 1), (cPass (dec Y) S i + dPass (dec Y) S n (i + 1)) * (1 - dec Y i) * q i)
      + cPass (dec Y) S (n - 1) * q1 := by
  have hl := tail_left_exp (dPass (dec Y) S n 0) (Y 0)
  have hr := tail_right_exp (cPass (dec Y) S (n - 1)) (Y (n - 1))
  have el : EqOn (fun v => (dPass (dec Y) S n 0 * exp (v - Y 0)) * q0) (fun v => lap Y S n v * g v) (Iic (Y 0)) := by
    intro v hv
    dsimp only
    rw [lap_left hY h0 hv, hg0 v hv]
  have er : EqOn (fun v => (cPass (dec Y) S (n - 1) * exp (Y (n - 1) - v)) * q1) (fun v => lap Y S n v * g v) (Ioi (Y (n - 1))) := by
    intro v hv
    dsimp only
    rw [lap_right hY h0 (le_of_lt hv), hg1 v (le_of_lt hv)]
  have em : ∀ i, i + 1 < n → EqOn (fun v => (cPass (dec Y) S i * exp (Y i - v) + dPass (dec Y) S n (i + 1) * exp (v - Y (i + 1))) * q i)
      (fun v => lap Y S n v * g v) (Ioo (Y i) (Y (i + 1))) := by
    intro i hi v hv
    dsimp only
    rw [lap_mid hY hi (le_of_lt hv.1) (le_of_lt hv.2), hg i hi v hv.1 hv.2]
  have hm : ∀ i < n - 1, IntervalIntegrable (fun v => lap Y S n v * g v) volume (Y i) (Y (i + 1)) := by
    intro i hi
    have hle := hY i (i + 1) (by omega) (by omega)
    refine IntervalIntegrable.congr_uIoo (f := fun v => (cPass (dec Y) S i * exp (Y i - v) + dPass (dec Y) S n (i + 1) * exp (v - Y (i + 1))) * q i) ?_ ?_
    · exact Continuous.intervalIntegrable (by fun_prop) _ _
    · rw [uIoo_of_le hle]
      exact em i (by omega)
  obtain ⟨hi, hs⟩ := integral_split hY h0 (IntegrableOn.congr_fun (hl.1.mul_const q0) el measurableSet_Iic) (IntegrableOn.congr_fun (hr.1.mul_const q1) er measurableSet_Ioi) hm
  refine ⟨hi, ?_⟩
  rw [hs, ← setIntegral_congr_fun measurableSet_Iic el, ← setIntegral_congr_fun measurableSet_Ioi er, MeasureTheory.integral_mul_const, MeasureTheory.integral_mul_const, hl.2, hr.2]
  congr 2
  refine Finset.sum_congr rfl fun i hi => ?_
  have hi' : i + 1 < n := by have := Finset.mem_range.1 hi; omega
  have hle := hY i (i + 1) (by omega) hi'
  rw [← integral_congr_Ioo_of_le hle (em i hi'), intervalIntegral.integral_mul_const, gap_exp]
  rfl

theorem near_eq_zero {y : List ℝ} {r v : ℝ} (h : ∀ b ∈ y, r ≤ |v - b|) : near y r v = 0 := by
  unfold near
  rw [List.countP_eq_zero]
  intro b hb
  simpa using h b hb

/-- a sum of kernels over marked nodes is the sum over the marked values -/
theorem lap_flagged (s : ℝ) (L : List (ℝ × Bool)) (v : ℝ) :
    lap (fun i => (L.getD i (0, false)).1) (fun i => if (L.getD i (0, false)).2 then s else 0) L.length v
      = ((flagged true L).map (fun a => s * exp (-|v - a|))).sum := by
  unfold lap
  induction L with
  | nil => simp [flagged]
  | cons e t ih =>
    rw [List.length_cons, Finset.sum_range_succ']
    simp only [List.getD_cons_succ, List.getD_cons_zero]
    rw [ih]
    unfold flagged
    rw [List.filter_cons]
    cases he : e.2 with
    | true => simp [add_comm]
    | false => simp

theorem lap_kernel (a : ℝ) : Integrable (fun v => exp (-|v - a|)) ∧ ∫ v, exp (-|v - a|) = 2 := by
  have h := lap_step (Y := fun _ => a) (S := fun _ => 1) (n := 1) (g := fun _ => 1) (q0 := 1) (q1 := 1) (q := fun _ => 1) (fun _ _ _ _ => le_refl _) (by omega)
    (fun _ _ => rfl) (fun _ _ => rfl) (fun _ _ _ _ _ => rfl)
  have e : (fun v => lap (fun _ => a) (fun _ => 1) 1 v * 1) = fun v => exp (-|v - a|) := by
    funext v
    simp [lap]
  simp only [e] at h
  refine ⟨h.1, ?_⟩
  rw [h.2, dPass, if_neg (by omega)]
  simp [cPass]
  norm_num

/-- values where the two estimates change, below and above [specification] -/
def lowEnds (x y : List ℝ) (r : ℝ) : Set ℝ := {z | z ∈ x ∨ ∃ b ∈ y, z = b - r}

/-- see `lowEnds` [specification] -/
def highEnds (x y : List ℝ) (r : ℝ) : Set ℝ := {z | z ∈ x ∨ ∃ b ∈ y, z = b + r}

theorem half_width : (1 / 2 : ℝ) * (2 * √6) = √6 := by ring

theorem sorted_shift {y : List ℝ} (hy : y.Pairwise (· ≤ ·)) (r : ℝ) : (y.map (fun b => b + r)).Pairwise (· ≤ ·) := by
  rw [List.pairwise_map]
  exact hy.imp fun h => by linarith

/-- the loop over the nodes computes the integral, in units of the scale -/
theorem crossArrays_spec {x y : List ℝ} (hx : x.Pairwise (· ≤ ·)) (hy : y.Pairwise (· ≤ ·)) (hxn : x ≠ []) (hyn : y ≠ []) :
    ∃ lo hi, IsLeast (lowEnds x y √6) lo ∧ IsGreatest (highEnds x y √6) hi ∧
      Integrable (fun v => (x.map (fun a => 1 / (2 * (x.length : ℝ)) * exp (-|v - a|))).sum * log (1 / √((y.length : ℝ) + 3) / (hi + 10 - (lo - 10))
        + (1 - 1 / √((y.length : ℝ) + 3)) / (y.length * (2 * √6)) * near y √6 v)) ∧
      crossArrays x y = .ok (-∫ v, (x.map (fun a => 1 / (2 * (x.length : ℝ)) * exp (-|v - a|))).sum * log (1 / √((y.length : ℝ) + 3) / (hi + 10 - (lo - 10))
        + (1 - 1 / √((y.length : ℝ) + 3)) / (y.length * (2 * √6)) * near y √6 v)) := by
  have hr : (0 : ℝ) < √6 := sqrt_pos.2 (by norm_num)
  obtain ⟨M, hM, hMs, hMp, hup, hdn⟩ := merge_partial (xs := y.map (fun b => b - 1 / 2 * (2 * √6))) (ys := y.map (fun b => b + 1 / 2 * (2 * √6)))
    (by simpa [sub_eq_add_neg] using sorted_shift hy (-(1 / 2 * (2 * √6)))) (sorted_shift hy _) (by simpa using hyn)
  obtain ⟨L, hL, hLs, hLp, hLx, hLM⟩ := merge_partial (xs := x) (ys := M.map Prod.fst) hx hMs hxn
  have hlen : L.length = x.length + y.length * 2 := by
    have h1 := hLp.length_eq
    have h2 := hMp.length_eq
    simp only [List.length_map, List.length_append] at h1 h2
    omega
  have hn : 0 < L.length := by
    have := List.length_pos_iff.2 hxn
    omega
  have hmono := fun i j (hij : i ≤ j) (hj : j < L.length) => getD_mono hLs i j hij hj
  have hmem : ∀ z, z ∈ L.map Prod.fst ↔ z ∈ x ∨ (∃ b ∈ y, z = b - √6) ∨ ∃ b ∈ y, z = b + √6 := by
    intro z
    rw [hLp.mem_iff, List.mem_append, hMp.mem_iff, List.mem_append, List.mem_map, List.mem_map]
    simp only [half_width, eq_comm (a := z)]
  have hrange : ∀ z ∈ L.map Prod.fst, (L.getD 0 (0, false)).1 ≤ z ∧ z ≤ (L.getD (L.length - 1) (0, false)).1 := by
    intro z hz
    obtain ⟨e, he, rfl⟩ := List.mem_map.1 hz
    obtain ⟨k, hk, rfl⟩ := List.mem_iff_getElem.1 he
    have h1 := hmono 0 k (Nat.zero_le _) hk
    have h2 := hmono k (L.length - 1) (by omega) (by omega)
    rw [getD_lt hk] at h1 h2
    exact ⟨h1, h2⟩
  have hnode : ∀ i, i < L.length → (L.getD i (0, false)).1 ∈ L.map Prod.fst := by
    intro i hi
    rw [getD_lt hi]
    exact List.mem_map_of_mem (List.getElem_mem hi)
  rw [half_width] at hup hdn
  refine ⟨(L.getD 0 (0, false)).1, (L.getD (L.length - 1) (0, false)).1, ⟨?_, ?_⟩, ⟨?_, ?_⟩, ?_⟩
  · rcases (hmem _).1 (hnode 0 hn) with h | h | ⟨b, hb, h⟩
    · exact .inl h
    · exact .inr h
    · have := (hrange (b - √6) ((hmem _).2 (.inr (.inl ⟨b, hb, rfl⟩)))).1
      linarith
  · intro z hz
    refine (hrange z ((hmem z).2 ?_)).1
    rcases hz with h | h
    · exact .inl h
    · exact .inr (.inl h)
  · rcases (hmem _).1 (hnode (L.length - 1) (by omega)) with h | ⟨b, hb, h⟩ | h
    · exact .inl h
    · have := (hrange (b + √6) ((hmem _).2 (.inr (.inr ⟨b, hb, rfl⟩)))).2
      linarith
    · exact .inr h
  · intro z hz
    refine (hrange z ((hmem z).2 ?_)).2
    rcases hz with h | h
    · exact .inl h
    · exact .inr (.inr h)
  have hstep := lap_step (Y := fun i => (L.getD i (0, false)).1) (S := fun i => if (L.getD i (0, false)).2 then 1 / (2 * (x.length : ℝ)) else 0) (n := L.length)
    (g := fun v => log (1 / √((y.length : ℝ) + 3) / ((L.getD (L.length - 1) (0, false)).1 + 10 - ((L.getD 0 (0, false)).1 - 10))
        + (1 - 1 / √((y.length : ℝ) + 3)) / (y.length * (2 * √6)) * near y √6 v))
    (q0 := log (1 / √((y.length : ℝ) + 3) / ((L.getD (L.length - 1) (0, false)).1 + 10 - ((L.getD 0 (0, false)).1 - 10))))
    (q1 := log (1 / √((y.length : ℝ) + 3) / ((L.getD (L.length - 1) (0, false)).1 + 10 - ((L.getD 0 (0, false)).1 - 10))))
    (q := fun i => log (1 / √((y.length : ℝ) + 3) / ((L.getD (L.length - 1) (0, false)).1 + 10 - ((L.getD 0 (0, false)).1 - 10))
        + (1 - 1 / √((y.length : ℝ) + 3)) / (y.length * (2 * √6)) *
          ((stepState (fun i => (L.getD i (0, false)).2) (fun j => (M.getD j (0, false)).2) i).2 : ℝ)))
    hmono hn ?_ ?_ ?_
  · simp only [lap_flagged, hLx] at hstep
    refine ⟨hstep.1, ?_⟩
    rw [hstep.2]
    unfold crossArrays
    dsimp only
    rw [hM]
    simp only [bind, Except.bind]
    rw [hL]
    simp only [← hlen, range_sum]
    unfold dec
    congr 1
    ring
  · intro v hv
    rw [near_eq_zero, Nat.cast_zero, mul_zero, add_zero]
    intro b hb
    have := (hrange (b - √6) ((hmem _).2 (.inr (.inl ⟨b, hb, rfl⟩)))).1
    rw [abs_of_neg (by linarith)]
    linarith
  · intro v hv
    rw [near_eq_zero, Nat.cast_zero, mul_zero, add_zero]
    intro b hb
    have := (hrange (b + √6) ((hmem _).2 (.inr (.inr ⟨b, hb, rfl⟩)))).2
    rw [abs_of_pos (by linarith)]
    linarith
  · intro i hi v h1 h2
    rw [step_near hr hLs hLM hMs hup hdn hyn hi h1 h2]
    rfl

theorem near_scaled (y : List ℝ) {w : ℝ} (hw : 0 < w) (r u : ℝ) : near (scaled y w) r (u / w) = near y (r * w) u := by
  unfold near scaled
  rw [List.countP_map, (List.perm_insertionSort (· ≤ ·) y).countP_eq]
  refine List.countP_congr fun b _ => ?_
  simp only [Function.comp, decide_eq_true_eq]
  rw [← sub_div, abs_div, abs_of_pos hw, div_lt_iff₀ hw]

theorem mem_scaled (x : List ℝ) {w : ℝ} (hw : 0 < w) (z : ℝ) : z / w ∈ scaled x w ↔ z ∈ x := by
  unfold scaled
  rw [List.mem_map]
  constructor
  · rintro ⟨a, ha, h⟩
    have : a = z := by field_simp at h; exact h
    rw [← this]
    exact (List.mem_insertionSort (· ≤ ·)).1 ha
  · intro h
    exact ⟨z, (List.mem_insertionSort (· ≤ ·)).2 h, rfl⟩

/-- the kernel-density estimate is a probability density -/
theorem kde_density {x : List ℝ} (hx : x ≠ []) {w : ℝ} (hw : 0 < w) : Integrable (kde x w) ∧ ∫ u, kde x w u = 1 := by
  have hn : (x.length : ℝ) ≠ 0 := by simpa using hx
  have hk : ∀ a, Integrable (fun u => exp (-|u - a| / w) / (2 * w)) ∧ ∫ u, exp (-|u - a| / w) / (2 * w) = 1 := by
    intro a
    have e : (fun u => exp (-|u - a| / w) / (2 * w)) = fun u => (fun v => exp (-|v - a / w|) / (2 * w)) (u / w) := by
      funext u
      dsimp only
      rw [← sub_div, abs_div, abs_of_pos hw, neg_div]
    rw [e]
    refine ⟨((lap_kernel (a / w)).1.div_const _).comp_div hw.ne', ?_⟩
    rw [Measure.integral_comp_div (fun v => exp (-|v - a / w|) / (2 * w)) w, MeasureTheory.integral_div, (lap_kernel _).2, abs_of_pos hw, smul_eq_mul]
    field_simp
  have hs : ∀ l : List ℝ, Integrable (fun u => (l.map (fun a => exp (-|u - a| / w) / (2 * w))).sum) ∧
      ∫ u, (l.map (fun a => exp (-|u - a| / w) / (2 * w))).sum = l.length := by
    intro l
    induction l with
    | nil => simp
    | cons a t ih =>
      simp only [List.map_cons, List.sum_cons]
      refine ⟨(hk a).1.add ih.1, ?_⟩
      rw [integral_add (hk a).1 ih.1, (hk a).2, ih.2]
      simp [add_comm]
  refine ⟨(hs x).1.div_const _, ?_⟩
  show ∫ u, (x.map (fun a => exp (-|u - a| / w) / (2 * w))).sum / x.length = 1
  rw [MeasureTheory.integral_div, (hs x).2, div_self hn]

theorem ends_scaled (x y : List ℝ) {w : ℝ} (hw : 0 < w) (r z : ℝ) :
    (z / w ∈ lowEnds (scaled x w) (scaled y w) r ↔ z ∈ lowEnds x y (r * w)) ∧ (z / w ∈ highEnds (scaled x w) (scaled y w) r ↔ z ∈ highEnds x y (r * w)) := by
  have key : ∀ s : ℝ, (∃ b ∈ scaled y w, z / w = b + s) ↔ ∃ b ∈ y, z = b + s * w := by
    intro s
    constructor
    · rintro ⟨b, hb, h⟩
      refine ⟨b * w, ?_, ?_⟩
      · rw [← mem_scaled y hw, mul_div_assoc, div_self hw.ne', mul_one]
        exact hb
      · field_simp at h
        linarith
    · rintro ⟨b, hb, h⟩
      refine ⟨b / w, (mem_scaled y hw b).2 hb, ?_⟩
      rw [h, add_div, mul_div_assoc, div_self hw.ne', mul_one]
  have k1 := key r
  have k2 := key (-r)
  simp only [neg_mul, ← sub_eq_add_neg] at k2
  exact ⟨or_congr (mem_scaled x hw z) k2, or_congr (mem_scaled x hw z) k1⟩

theorem topHat_pos (y : List ℝ) {w lo hi : ℝ} (hw : 0 < w) (h : lo ≤ hi) (u : ℝ) : 0 < topHat y w lo hi u := by
  unfold topHat
  have h6 : (0 : ℝ) < √6 := sqrt_pos.2 (by norm_num)
  have hs : 1 ≤ √((y.length : ℝ) + 3) := by
    rw [one_le_sqrt]
    have : (0 : ℝ) ≤ y.length := by positivity
    linarith
  have h1 : 1 / √((y.length : ℝ) + 3) ≤ 1 := by
    rw [div_le_one (by linarith)]
    exact hs
  have h2 : 0 < hi + 10 * w - (lo - 10 * w) := by linarith
  have h3 : 0 < 1 / √((y.length : ℝ) + 3) := by positivity
  have h4 : 0 ≤ 1 - 1 / √((y.length : ℝ) + 3) := by linarith
  positivity

/-- C89. In exact mode, for any two data sets and any scale: with no data in one of the sets or with a scale that is not positive a ValueError; otherwise,
with `p` the kernel-density estimate of the first and `q` the top-hat estimate of the second set, the value is `-∫ p log q`, and that integral exists. -/
theorem cross_entropy_exact (x y : List ℝ) (w : ℝ) :
    ((w ≤ 0 ∨ x = [] ∨ y = []) → crossEntropy x y w = .error .value) ∧
    (x ≠ [] → y ≠ [] → 0 < w → ∃ lo hi, IsLeast (lowEnds x y (√6 * w)) lo ∧ IsGreatest (highEnds x y (√6 * w)) hi ∧
      Integrable (fun u => kde x w u * log (topHat y w lo hi u)) ∧
      crossEntropy x y w = .ok (-∫ u, kde x w u * log (topHat y w lo hi u))) := by
  refine ⟨?_, fun hx hy hw => ?_⟩
  · intro h
    unfold crossEntropy
    rcases h with h | h | h
    · rw [if_pos h]
    · rw [if_pos (c := x.length = 0 ∨ _) (.inl (by rw [h]; rfl)), ite_self]
    · rw [if_pos (c := _ ∨ y.length = 0) (.inr (by rw [h]; rfl)), ite_self]
  have hne : ∀ l : List ℝ, l ≠ [] → scaled l w ≠ [] := fun l hl h => hl (List.length_eq_zero_iff.1 (by rw [← scaled_length l w, h]; rfl))
  obtain ⟨lo, hi, hlo, hhi, hint, hval⟩ := crossArrays_spec (scaled_sorted x hw) (scaled_sorted y hw) (hne x hx) (hne y hy)
  have ew : ∀ z : ℝ, z * w / w = z := fun z => by field_simp
  have hle : lo * w ≤ hi * w := by
    have h1 : lo ≤ hi := by
      obtain ⟨a, ha⟩ := List.exists_mem_of_ne_nil _ (hne x hx)
      exact le_trans (hlo.2 (.inl ha)) (hhi.2 (.inl ha))
    exact mul_le_mul_of_nonneg_right h1 hw.le
  refine ⟨lo * w, hi * w, ⟨?_, ?_⟩, ⟨?_, ?_⟩, ?_⟩
  · have := (ends_scaled x y hw √6 (lo * w)).1.1
    rw [ew] at this
    exact this hlo.1
  · intro z hz
    have := hlo.2 ((ends_scaled x y hw √6 z).1.2 hz)
    rwa [le_div_iff₀ hw] at this
  · have := (ends_scaled x y hw √6 (hi * w)).2.1
    rw [ew] at this
    exact this hhi.1
  · intro z hz
    have := hhi.2 ((ends_scaled x y hw √6 z).2.2 hz)
    rwa [div_le_iff₀ hw] at this
  simp only [scaled_length] at hint hval
  have hn : (x.length : ℝ) ≠ 0 := by simpa using hx
  have hm : (y.length : ℝ) ≠ 0 := by simpa using hy
  -- the two estimates in units of the scale
  have ek : ∀ u, kde x w u = ((scaled x w).map (fun a => 1 / (2 * (x.length : ℝ)) * exp (-|u / w - a|))).sum / w := by
    intro u
    rw [kde, div_eq_mul_inv, div_eq_mul_inv, ← List.sum_map_mul_right, ← List.sum_map_mul_right, scaled, List.map_map,
      ((List.perm_insertionSort (· ≤ ·) x).map _).sum_eq]
    congr 1
    refine List.map_congr_left fun a _ => ?_
    simp only [Function.comp]
    rw [← sub_div, abs_div, abs_of_pos hw, neg_div]
    field_simp
  have eq : ∀ u, 1 / √((y.length : ℝ) + 3) / (hi + 10 - (lo - 10)) + (1 - 1 / √((y.length : ℝ) + 3)) / (y.length * (2 * √6)) * near (scaled y w) √6 (u / w)
      = topHat y w (lo * w) (hi * w) u * w := by
    intro u
    rw [near_scaled y hw, topHat, add_mul]
    congr 1
    · have : hi * w + 10 * w - (lo * w - 10 * w) = (hi + 10 - (lo - 10)) * w := by ring
      rw [this]
      field_simp
    · field_simp
  obtain ⟨F, hF⟩ : ∃ F : ℝ → ℝ, F = fun v => ((scaled x w).map (fun a => 1 / (2 * (x.length : ℝ)) * exp (-|v - a|))).sum * log (1 / √((y.length : ℝ) + 3) / (hi + 10 - (lo - 10))
        + (1 - 1 / √((y.length : ℝ) + 3)) / (y.length * (2 * √6)) * near (scaled y w) √6 v) := ⟨_, rfl⟩
  rw [← hF] at hint
  have hval2 : (∫ v, ((scaled x w).map (fun a => 1 / (2 * (x.length : ℝ)) * exp (-|v - a|))).sum * log (1 / √((y.length : ℝ) + 3) / (hi + 10 - (lo - 10))
        + (1 - 1 / √((y.length : ℝ) + 3)) / (y.length * (2 * √6)) * near (scaled y w) √6 v)) = ∫ v, F v := by rw [hF]
  rw [hval2] at hval
  have hsplit : (fun u => kde x w u * log (topHat y w (lo * w) (hi * w) u)) = fun u =>
      (fun v => F v / w) (u / w) - kde x w u * log w := by
    funext u
    dsimp only
    rw [hF]
    dsimp only
    rw [eq u, ek u, log_mul (topHat_pos y hw hle u).ne' hw.ne']
    ring
  have hint' := (hint.div_const w).comp_div hw.ne'
  have hk := kde_density hx hw
  rw [hsplit]
  refine ⟨hint'.sub (hk.1.mul_const _), ?_⟩
  rw [integral_sub hint' (hk.1.mul_const _), Measure.integral_comp_div (fun v => F v / w) w, MeasureTheory.integral_div, MeasureTheory.integral_mul_const, hk.2, abs_of_pos hw, smul_eq_mul,
    one_mul]
  unfold crossEntropy
  rw [if_neg (not_le.2 hw), if_neg (by simp [hx, hy])]
  have hval' := hval
  unfold scaled at hval'
  rw [hval']
  simp only [bind, Except.bind]
  congr 1
  field_simp
  ring

/-- C89. The divergence is the integral of `p log (p / q)`, and it is refused exactly when the cross-entropy is. -/
theorem kl_divergence_exact (x y : List ℝ) (w : ℝ) :
    ((w ≤ 0 ∨ x = [] ∨ y = []) → klDivergence x y w = .error .value) ∧
    (x ≠ [] → y ≠ [] → 0 < w → ∃ lo hi, IsLeast (lowEnds x y (√6 * w)) lo ∧ IsGreatest (highEnds x y (√6 * w)) hi ∧
      Integrable (fun u => kde x w u * log (kde x w u / topHat y w lo hi u)) ∧
      klDivergence x y w = .ok (∫ u, kde x w u * log (kde x w u / topHat y w lo hi u))) := by
  refine ⟨?_, fun hx hy hw => ?_⟩
  · intro h
    unfold klDivergence
    rw [(cross_entropy_exact x y w).1 h]
    rfl
  obtain ⟨lo, hi, hlo, hhi, hint, hval⟩ := (cross_entropy_exact x y w).2 hx hy hw
  obtain ⟨hint2, hval2⟩ := (laplace_entropy_partial x w).2 hx hw
  have hle : lo ≤ hi := by
    obtain ⟨a, ha⟩ := List.exists_mem_of_ne_nil _ hx
    exact le_trans (hlo.2 (.inl ha)) (hhi.2 (.inl ha))
  have hpos : ∀ u, kde x w u ≠ 0 := by
    intro u
    rw [kde_lap x hw _ rfl u]
    have hn : 0 < x.length := List.length_pos_iff.2 hx
    have hn' : (0 : ℝ) < x.length := by exact_mod_cast hn
    exact (lap_pos hn (fun _ => by positivity) _).ne'
  have e : (fun u => kde x w u * log (kde x w u / topHat y w lo hi u)) = fun u => kde x w u * log (kde x w u) - kde x w u * log (topHat y w lo hi u) := by
    funext u
    rw [log_div (hpos u) (topHat_pos y hw hle u).ne']
    ring
  refine ⟨lo, hi, hlo, hhi, ?_, ?_⟩
  · rw [e]
    exact hint2.sub hint
  · rw [e, integral_sub hint2 hint]
    unfold klDivergence
    rw [hval, hval2]
    simp only [bind, Except.bind]
    congr 1
    ring

-- example for C89: one value against itself; the first set is refused when it is empty
example : crossEntropy [0] [0] 1 = .ok (-(exp (-√6) * log (1 / 2 / (√6 + 10 - (-√6 - 10)))
      + (1 - exp (-√6)) * log (1 / 2 / (√6 + 10 - (-√6 - 10)) + (1 - 1 / 2) / (2 * √6)))) ∧
    crossEntropy [] [0] 1 = .error .value ∧ klDivergence [0] [] 1 = .error .value := by
  refine ⟨?_, (cross_entropy_exact _ _ _).1 (.inr (.inl rfl)), (kl_divergence_exact _ _ _).1 (.inr (.inr rfl))⟩
  have h6 : (0 : ℝ) < √6 := sqrt_pos.2 (by norm_num)
  have h4 : √(4 : ℝ) = 2 := by
    rw [show (4 : ℝ) = 2 * 2 by norm_num]
    exact sqrt_mul_self (by norm_num)
  have h13 : √((1 : ℝ) + 3) = 2 := by rw [show (1 : ℝ) + 3 = 4 by norm_num, h4]
  have hm1 : mergeOrdered [(0 : ℝ) - √6] [0 + √6] = .ok [(-√6, true), (√6, false)] := by
    unfold mergeOrdered
    rw [if_neg (by simp), if_neg (by simp), mergeLoop, if_pos (by linarith), mergeLoop]
    simp
  have hm2 : mergeOrdered [(0 : ℝ)] [-√6, √6] = .ok [(-√6, false), (0, true), (√6, false)] := by
    unfold mergeOrdered
    rw [if_neg (by simp), if_neg (by simp), mergeLoop, if_neg (by linarith), mergeLoop, if_pos h6, mergeLoop]
    simp
  unfold crossEntropy
  rw [if_neg (by norm_num), if_neg (by simp)]
  simp only [List.insertionSort_cons, List.insertionSort_nil, List.orderedInsert_nil, List.map_cons, List.map_nil, zero_div]
  unfold crossArrays
  simp only [List.map_cons, List.map_nil, half_width, hm1, bind, Except.bind, hm2]
  congr 1
  have hd : ∀ e S : ℕ → ℝ, dPass e S 3 0 = e 0 * (e 1 * S 2 + S 1) + S 0 ∧ dPass e S 3 1 = e 1 * S 2 + S 1 ∧ dPass e S 3 2 = S 2 := by
    intro e S
    have h2 : dPass e S 3 2 = S 2 := by rw [dPass, if_neg (by omega)]
    have h1 : dPass e S 3 1 = e 1 * S 2 + S 1 := by rw [dPass, if_pos (by omega), h2]
    exact ⟨by rw [dPass, if_pos (by omega), h1], h1, h2⟩
  simp [List.range_succ, hd, cPass, stepState, h13]
  ring
