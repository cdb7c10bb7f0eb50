import Verif.Group.Sums
/-! C170: progress reports (mass/core/utilities.py `InlineUpdater`, `show_progress`). Numbers and times are exact, before rounding to what is printed. The clock is any sequence of readings. -/
namespace Mass.Group.Progress
open Mass

variable {K : Type} [Field K] [LinearOrder K] [IsStrictOrderedRing K]

/-! ### model -/

/-- what is printed: a fraction with an estimate of the time left ("?" is none), or that it is finished and the time it took (used for utilities.py L70-73) -/
inductive Ev (K : Type)
  | report (frac : K) (left : Option K)
  | finished (took : K)
deriving DecidableEq

/-- `timeRemaining`, utilities.py L75-85, of a fraction: `a` and `b` are the elapsed times at its two readings of the clock -/
def remaining (f a b : K) : Except Exc K :=
  if 1 < a ∧ 0 < f then
    if b = 0 then .error .zeroDiv
    else if f / b = 0 then .ok (-1) else .ok ((1 - f) / (f / b))
  else .ok (-1)

/-- `timeRemainingStr`, utilities.py L87-93 -/
def leftOf (t : K) : Option K := if t = -1 then none else some t

/-- `update`, utilities.py L66-73: what is printed and the number of readings of the clock so far. `quiet` is a log level of WARNING or above. The second reading is made only if the first is above 1 s. -/
def update (quiet : Bool) (start : K) (clock : Nat → K) (k : Nat) (f : K) : Except Exc (List (Ev K) × Nat) :=
  if quiet then .ok ([], k)
  else
    match remaining f (clock k - start) (clock (k + 1) - start) with
    | .error e => .error e
    | .ok t =>
      let k' := if 1 < clock k - start ∧ 0 < f then k + 2 else k + 1
      if 1 ≤ f then .ok ([.report f (leftOf t), .finished (clock k' - start)], k' + 1) else .ok ([.report f (leftOf t)], k')

/-- what reports: nothing (`NullUpdater`), or an `InlineUpdater` with its time of start (used for utilities.py L58-64, L104-106) -/
inductive Up (K : Type)
  | null
  | inline (quiet : Bool) (start : K)

/-- the loop of utilities.py L121-122: the work yields fractions and then ends, with an exception or without -/
def loop (up : Up K) (clock : Nat → K) : Nat → List K → Option Exc → List (Ev K) × Option Exc
  | _, [], e => ([], e)
  | k, f :: t, e =>
    match up with
    | .null => loop up clock k t e
    | .inline quiet start =>
      match update quiet start clock k f with
      | .error x => ([], some x)
      | .ok (evs, k') => let r := loop up clock k' t e; (evs ++ r.1, r.2)

/-- the work done by a method with `show_progress`, utilities.py L112-122: `made` is what calling `self.updater` gives (an updater that is quiet or not, or an exception). Returned are what is printed, how much of the work was
done (fractions yielded, if it was started), and the exception if there is one. -/
def showProgress (sphinx : Bool) (made : Except Exc Bool) (clock : Nat → K) (work : List K × Option Exc) : List (Ev K) × Option Nat × Option Exc :=
  if sphinx then let r := loop .null clock 0 work.1 work.2; (r.1, some work.1.length, r.2)
  else
    match made with
    | .error .type => let r := loop .null clock 0 work.1 work.2; (r.1, some work.1.length, r.2)
    | .error e => ([], none, some e)
    | .ok quiet => let r := loop (.inline quiet (clock 0)) clock 1 work.1 work.2; (r.1, some work.1.length, r.2)

/-- the fractions yielded by `summarize_data` of a channel, channel.py L954-981 -/
def sumFractions (nSeg : Nat) : List K := (List.range nSeg).map (fun s : Nat => ((s : K) + 1) / nSeg)

/-- the fractions yielded by `_filter_data_nocython`, channel.py L1347-1353 -/
def filterFractions (nPulses pps nSeg : Nat) : List K := (List.range nSeg).map (fun s : Nat => ((min nPulses (s * pps + pps) : Nat) + 1 : K) / nPulses)

/-- `updater` of a channel, channel.py L860-861: its group's `updater`. `grp` is none for a channel without group, `some none` for a group without such an attribute (channel_group_hdf5_only.py L58-90 sets none), else what calling it gives. -/
def chanUpdater (grp : Option (Option (Except Exc Bool))) : Except Exc Bool :=
  match grp with
  | some (some r) => r
  | _ => .error .attribute

/-! ### specification -/

/-- the fractions printed [specification] -/
def fracs (evs : List (Ev K)) : List K := evs.filterMap (fun | .report f _ => some f | .finished _ => none)

/-- the number of times it is said to be finished [specification] -/
def finishes (evs : List (Ev K)) : Nat := evs.countP (fun | .report _ _ => false | .finished _ => true)

/-- readings of a clock that never goes back [specification] -/
def Forward (clock : Nat → K) : Prop := ∀ i j, i ≤ j → clock i ≤ clock j

omit [IsStrictOrderedRing K] in
theorem remaining_ok {clock : Nat → K} (hc : Forward clock) (start : K) (k : Nat) (f : K) [IsStrictOrderedRing K] :
    ∃ t, remaining f (clock k - start) (clock (k + 1) - start) = .ok t ∧ (1 < clock k - start → 0 < f → t = (1 - f) * (clock (k + 1) - start) / f) ∧ (¬ (1 < clock k - start ∧ 0 < f) → t = -1) := by
  unfold remaining
  by_cases h : 1 < clock k - start ∧ 0 < f
  · have hk := hc k (k + 1) (Nat.le_succ k)
    have hb : 0 < clock (k + 1) - start := by linarith [h.1]
    have hr : 0 < f / (clock (k + 1) - start) := div_pos h.2 hb
    rw [if_pos h, if_neg hb.ne', if_neg hr.ne']
    refine ⟨_, rfl, fun _ _ => ?_, fun hn => absurd h hn⟩
    rw [div_div_eq_mul_div]
  · rw [if_neg h]
    exact ⟨_, rfl, fun h1 h2 => absurd ⟨h1, h2⟩ h, fun _ => rfl⟩

/-- what one report says [specification] -/
def Estimate (start : K) (clock : Nat → K) (e : Ev K) : Prop :=
  match e with
  | .report f (some t) => ∃ k, 1 < clock k - start ∧ 0 < f ∧ t = (1 - f) * (clock (k + 1) - start) / f
  | .report f none => f ≤ 0 ∨ (∃ k, clock k - start ≤ 1) ∨ ∃ k, (1 - f) * (clock (k + 1) - start) / f = -1
  | .finished took => ∃ k, took = clock k - start

theorem loop_inline {clock : Nat → K} (hc : Forward clock) (start : K) (fs : List K) (e : Option Exc) (k : Nat) :
    ∃ evs, loop (.inline false start) clock k fs e = (evs, e) ∧ fracs evs = fs ∧ finishes evs = fs.countP (fun f => decide (1 ≤ f)) ∧ (∀ x ∈ evs, Estimate start clock x) ∧
      ∀ f, fs.getLast? = some f → 1 ≤ f → ∃ t, evs.getLast? = some (.finished t) := by
  induction fs generalizing k with
  | nil => exact ⟨[], rfl, rfl, rfl, by simp, by simp⟩
  | cons f fs ih =>
    obtain ⟨t, ht, h1, h2⟩ := remaining_ok hc start k f
    have hest : Estimate start clock (.report f (leftOf t)) := by
      unfold leftOf
      by_cases h : 1 < clock k - start ∧ 0 < f
      · have := h1 h.1 h.2
        by_cases hm : t = -1
        · rw [if_pos hm]
          exact .inr (.inr ⟨k, by rw [← this]; exact hm⟩)
        · rw [if_neg hm]
          exact ⟨k, h.1, h.2, this⟩
      · rw [if_pos (h2 h)]
        by_cases hf : 0 < f
        · exact .inr (.inl ⟨k, not_lt.1 (fun hk => h ⟨hk, hf⟩)⟩)
        · exact .inl (not_lt.1 hf)
    unfold loop update
    simp only [Bool.false_eq_true, if_false, ht]
    generalize (if 1 < clock k - start ∧ 0 < f then k + 2 else k + 1) = k'
    by_cases hf : 1 ≤ f
    · obtain ⟨evs, e1, e2, e3, e4, e5⟩ := ih (k' + 1)
      rw [if_pos hf]
      dsimp only
      rw [e1]
      refine ⟨_, rfl, ?_, ?_, ?_, ?_⟩
      · simpa [fracs] using e2
      · unfold finishes at e3 ⊢
        simp [List.countP_cons, e3, hf]
      · intro x hx
        simp only [List.cons_append, List.nil_append, List.mem_cons] at hx
        rcases hx with rfl | rfl | hx
        · exact hest
        · exact ⟨k', rfl⟩
        · exact e4 x hx
      · intro g hg hg1
        cases fs with
        | nil =>
          have : evs = [] := by
            have := congrArg Prod.fst e1
            simpa [loop] using this.symm
          rw [this]
          exact ⟨_, rfl⟩
        | cons g' fs' =>
          rw [List.getLast?_cons_cons] at hg
          obtain ⟨t', ht'⟩ := e5 g hg hg1
          refine ⟨t', ?_⟩
          rw [List.getLast?_append, ht']
          rfl
    · obtain ⟨evs, e1, e2, e3, e4, e5⟩ := ih k'
      rw [if_neg hf]
      dsimp only
      rw [e1]
      refine ⟨_, rfl, ?_, ?_, ?_, ?_⟩
      · simpa [fracs] using e2
      · unfold finishes at e3 ⊢
        simp [List.countP_cons, e3, hf]
      · intro x hx
        simp only [List.cons_append, List.nil_append, List.mem_cons] at hx
        rcases hx with rfl | hx
        · exact hest
        · exact e4 x hx
      · intro g hg hg1
        cases fs with
        | nil =>
          simp only [List.getLast?_singleton, Option.some.injEq] at hg
          exact absurd (hg ▸ hg1) hf
        | cons g' fs' =>
          rw [List.getLast?_cons_cons] at hg
          obtain ⟨t', ht'⟩ := e5 g hg hg1
          refine ⟨t', ?_⟩
          rw [List.getLast?_append, ht']
          rfl

theorem loop_silent (clock : Nat → K) (up : Up K) (hu : up = .null ∨ ∃ s, up = .inline true s) (fs : List K) (e : Option Exc) (k : Nat) : loop up clock k fs e = ([], e) := by
  induction fs generalizing k with
  | nil => rfl
  | cons f fs ih =>
    rcases hu with rfl | ⟨s, rfl⟩
    · rw [loop]
      exact ih k
    · simp only [loop, update, if_true, ih]
      rfl

/-! ### C170 -/

/-- C170. With a clock that does not go back, reporting changes nothing about the work: all of it is done, and it ends as it would by itself. Nothing is printed at a log level of WARNING or above, while documentation is built, or
if what is to report cannot be called. -/
theorem work_undisturbed (sphinx : Bool) (made : Except Exc Bool) (hm : sphinx = true ∨ made = .error .type ∨ ∃ q, made = .ok q) {clock : Nat → K} (hc : Forward clock) (work : List K × Option Exc) :
    (showProgress sphinx made clock work).2 = (some work.1.length, work.2) ∧ ((sphinx = true ∨ made = .error .type ∨ made = .ok true) → (showProgress sphinx made clock work).1 = []) := by
  unfold showProgress
  cases sphinx with
  | true => simp only [if_true, loop_silent clock .null (.inl rfl), implies_true, and_self]
  | false =>
    simp only [Bool.false_eq_true, if_false, false_or] at hm ⊢
    rcases hm with rfl | ⟨q, rfl⟩
    · simp only [loop_silent clock .null (.inl rfl), implies_true, and_self]
    · cases q with
      | true => simp only [loop_silent clock _ (.inr ⟨_, rfl⟩), implies_true, and_self]
      | false =>
        obtain ⟨evs, e1, _⟩ := loop_inline hc (clock 0) work.1 work.2 1
        simp [e1]

/-- C170. Otherwise every step is reported, with its fraction, in order. Once it has taken more than a second the time left is estimated as it would be if the rest went as fast as the part done so far: elapsed time times what is left
over what is done. That it is finished is said once for each fraction of 1 or more, with the time it took. -/
theorem reports {clock : Nat → K} (hc : Forward clock) (work : List K × Option Exc) :
    fracs (showProgress false (.ok false) clock work).1 = work.1 ∧ finishes (showProgress false (.ok false) clock work).1 = work.1.countP (fun f => decide (1 ≤ f)) ∧
      (∀ f t, .report f (some t) ∈ (showProgress false (.ok false) clock work).1 → ∃ k, 1 < clock k - clock 0 ∧ 0 < f ∧ t = (1 - f) * (clock (k + 1) - clock 0) / f) ∧
      (∀ f, .report f none ∈ (showProgress false (.ok false) clock work).1 → 0 < f → f ≤ 1 → ∃ k, clock k - clock 0 ≤ 1) ∧
      (∀ t, .finished t ∈ (showProgress false (.ok false) clock work).1 → ∃ k, t = clock k - clock 0) := by
  obtain ⟨evs, e1, e2, e3, e4, e5⟩ := loop_inline hc (clock 0) work.1 work.2 1
  have he : (showProgress false (.ok false) clock work).1 = evs := by
    unfold showProgress
    simp [e1]
  rw [he]
  refine ⟨e2, e3, fun f t h => e4 _ h, fun f h hf hf1 => ?_, fun t h => e4 _ h⟩
  rcases e4 _ h with h1 | h1 | ⟨k, h1⟩
  · exact absurd hf (not_lt.2 h1)
  · exact h1
  · exfalso
    have h2 : 0 ≤ clock (k + 1) - clock 0 := sub_nonneg.2 (hc 0 (k + 1) (Nat.zero_le _))
    have : 0 ≤ (1 - f) * (clock (k + 1) - clock 0) / f := div_nonneg (mul_nonneg (sub_nonneg.2 hf1) h2) hf.le
    rw [h1] at this
    linarith

/-- C170. The estimate is right if the work goes at a steady pace: the time left is the total time less the time elapsed. -/
theorem estimate_steady {f total b : K} (hf : 0 < f) (hb : b = f * total) : (1 - f) * b / f = total - b := by
  subst hb
  field_simp

/-- C170. Summaries of a channel: fractions increase from segment to segment, are above 0, and end at 1; that it is finished is said once, as the last thing. -/
theorem summary_reports {clock : Nat → K} (hc : Forward clock) {n : Nat} (hn : 0 < n) (e : Option Exc) :
    let evs := (showProgress false (.ok false) clock (sumFractions n, e)).1
    fracs evs = (List.range n).map (fun s : Nat => ((s : K) + 1) / n) ∧ (fracs evs).Pairwise (· < ·) ∧ (∀ f ∈ fracs evs, 0 < f ∧ f ≤ 1) ∧ (fracs evs).getLast? = some 1 ∧ finishes evs = 1 ∧
      ∃ t, evs.getLast? = some (.finished t) := by
  intro evs
  have hq : (0 : K) < n := by exact_mod_cast hn
  obtain ⟨x, e1, e2, e3, _, e5⟩ := loop_inline hc (clock 0) (sumFractions (K := K) n) e 1
  have he : evs = x := by
    show (showProgress false (.ok false) clock (sumFractions n, e)).1 = x
    unfold showProgress
    simp [e1]
  rw [he, e2, e3]
  have hlast : (sumFractions (K := K) n).getLast? = some 1 := by
    obtain ⟨m, rfl⟩ : ∃ m, n = m + 1 := ⟨n - 1, by omega⟩
    unfold sumFractions
    rw [List.range_succ, List.map_append, List.map_singleton, List.getLast?_append]
    simp only [List.getLast?_singleton, Option.some_or, Option.some.injEq]
    push_cast at hq ⊢
    exact div_self hq.ne'
  refine ⟨rfl, ?_, ?_, hlast, ?_, e5 1 hlast le_rfl⟩
  · unfold sumFractions
    rw [List.pairwise_map]
    refine List.Pairwise.imp ?_ List.pairwise_lt_range
    intro a b hab
    rw [div_lt_div_iff_of_pos_right hq]
    have : (a : K) < b := by exact_mod_cast hab
    linarith
  · intro f hf
    obtain ⟨s, hs, rfl⟩ := List.mem_map.1 hf
    have h1 : (s : K) + 1 ≤ n := by exact_mod_cast List.mem_range.1 hs
    have h2 : (0 : K) ≤ s := Nat.cast_nonneg s
    exact ⟨div_pos (by linarith) hq, (div_le_one hq).2 h1⟩
  · obtain ⟨m, rfl⟩ : ∃ m, n = m + 1 := ⟨n - 1, by omega⟩
    unfold sumFractions
    rw [List.range_succ, List.map_append, List.countP_append, List.map_singleton, List.countP_singleton, List.countP_eq_zero.2]
    · push_cast at hq ⊢
      rw [div_self hq.ne']
      simp
    · intro f hf
      obtain ⟨s, hs, rfl⟩ := List.mem_map.1 hf
      have h1 : (s : K) < m := by exact_mod_cast List.mem_range.1 hs
      simp only [decide_eq_true_eq, not_le]
      push_cast at hq ⊢
      rw [div_lt_one hq]
      linarith

/-- Disagreement (C170): filtering ends with a report of more than 100%: the number of pulses done is taken one too large. -/
theorem filter_over_fails {clock : Nat → K} (hc : Forward clock) {nPulses pps nSeg : Nat} (hn : 0 < nPulses) (h1 : nPulses ≤ nSeg * pps) (e : Option Exc) :
    ∃ f, (fracs (showProgress false (.ok false) clock (filterFractions nPulses pps nSeg, e)).1).getLast? = some f ∧ f = 1 + 1 / (nPulses : K) ∧ 1 < f := by
  rw [(reports hc _).1]
  have hq : (0 : K) < nPulses := by exact_mod_cast hn
  obtain ⟨m, rfl⟩ : ∃ m, nSeg = m + 1 := by
    cases nSeg with
    | zero => rw [Nat.zero_mul] at h1; omega
    | succ m => exact ⟨m, rfl⟩
  have hmin : min nPulses (m * pps + pps) = nPulses := by
    rw [Nat.succ_mul] at h1
    exact Nat.min_eq_left h1
  refine ⟨((nPulses : K) + 1) / nPulses, ?_, ?_, ?_⟩
  · unfold filterFractions
    rw [List.range_succ, List.map_append, List.map_singleton, List.getLast?_append, hmin]
    rfl
  · rw [add_div, div_self hq.ne']
  · rw [one_lt_div hq]
    linarith

/-- Disagreement (C170): if the last segment has one pulse, filtering is said to be finished before it is filtered, and then once more. -/
theorem filter_early_fails {clock : Nat → K} (hc : Forward clock) {pps m : Nat} (hp : 0 < pps) (e : Option Exc) :
    (filterFractions (K := K) ((m + 1) * pps + 1) pps (m + 2))[m]? = some 1 ∧ 2 ≤ finishes (showProgress false (.ok false) clock (filterFractions ((m + 1) * pps + 1) pps (m + 2), e)).1 := by
  have hq : (0 : K) < (((m + 1) * pps + 1 : Nat) : K) := by exact_mod_cast Nat.succ_pos _
  have hmin : min ((m + 1) * pps + 1) (m * pps + pps) = (m + 1) * pps := by
    rw [Nat.succ_mul]
    exact Nat.min_eq_right (Nat.le_succ _)
  have hmin2 : min ((m + 1) * pps + 1) ((m + 1) * pps + pps) = (m + 1) * pps + 1 := Nat.min_eq_left (by omega)
  have hone : (((m + 1) * pps : Nat) + 1 : K) / (((m + 1) * pps + 1 : Nat) : K) = 1 := by
    rw [div_eq_one_iff_eq hq.ne']
    push_cast
    ring
  constructor
  · unfold filterFractions
    rw [List.getElem?_map, List.getElem?_range (by omega), Option.map_some, hmin, hone]
  · rw [(reports hc _).2.1]
    show 2 ≤ (filterFractions (K := K) ((m + 1) * pps + 1) pps (m + 2)).countP (fun f => decide (1 ≤ f))
    unfold filterFractions
    rw [List.range_succ, List.range_succ, List.map_append, List.map_append, List.countP_append, List.countP_append, List.map_singleton, List.map_singleton, List.countP_singleton, List.countP_singleton, hmin, hmin2, hone]
    have : (1 : K) ≤ ((((m + 1) * pps + 1 : Nat) : K) + 1) / (((m + 1) * pps + 1 : Nat) : K) := by
      rw [one_le_div hq]
      linarith
    simp only [le_refl, decide_true, if_true, this]
    omega

/-- Disagreement (C170): a group whose last channel cannot be summarized never reports 100% or that it is finished. -/
theorem last_channel_fails {S : Type} (m : Nat → S → S × Except Err Unit) {clock : Nat → ℚ} (hc : Forward clock) (ds : List (Nat × S)) (x : Nat × S) (hx : Sums.succeeds m x = false) (e : Option Exc) :
    finishes (showProgress false (.ok false) clock (Sums.shown m ((ds ++ [x]).length : Nat) 0 (ds ++ [x]), e)).1 = 0 := by
  rw [(reports hc _).2.1, List.countP_eq_zero]
  intro q hq
  obtain ⟨_, h2, _, h4⟩ := Sums.shown_bounds m (n := (ds ++ [x]).length) (by simp) (ds ++ [x]) 0 (by simp)
  have h5 := (h2 q hq).2
  rw [decide_eq_true_iff, not_le]
  refine lt_of_le_of_ne h5 (fun h => ?_)
  rw [h] at hq
  obtain ⟨y, hy, hs⟩ := h4.1 hq
  rw [List.getLast?_append] at hy
  simp only [List.getLast?_singleton, Option.some_or, Option.some.injEq] at hy
  rw [← hy, hx] at hs
  cases hs

/-- Disagreement (C170): a channel without a group, or in a group made from HDF5 files only, has nothing to report to, and for this reason alone cannot be summarized or filtered: the work is not begun. -/
theorem no_updater_fails (grp : Option (Option (Except Exc Bool))) (hg : grp = none ∨ grp = some none) (clock : Nat → K) (work : List K × Option Exc) :
    showProgress false (chanUpdater grp) clock work = ([], none, some .attribute) := by
  rcases hg with rfl | rfl <;> rfl

/-! ### instance -/

example : showProgress (K := ℚ) false (.ok false) (fun k => k) (sumFractions 2, none) = ([.report (1 / 2) none, .report 1 (some 0), .finished 4], some 2, none) := by decide +kernel

example : Forward (K := ℚ) (fun k => k) := fun _ _ h => Nat.cast_le.2 h

example : (showProgress (K := ℚ) false (.ok false) (fun k => 10 * k) (filterFractions 5 2 3, some .value)) =
    ([.report (3 / 5) (some (40 / 3)), .report 1 (some 0), .finished 50, .report (6 / 5) (some (-35 / 3)), .finished 80], some 3, some .value) := by decide +kernel

end Mass.Group.Progress
