import Verif.Algo.SummaryFile
import Mathlib.Data.List.Count
/-! C160: the usual position of the peak (mass/core/channel.py L886-895) and the promptness of the numpy summary (channel.py L1030-1036), exact arithmetic. -/
namespace Mass.Algo.Prompt
open Mass Mass.Algo.Summary

/-- `data[:, cut_pre:nSamples - cut_post]` of one record, channel.py L887-888. Simplified: cut_post is not greater than the length of the record. -/
def window (cutPre cutPost : ℕ) (r : List ℕ) : List ℕ := (r.take (r.length - cutPost)).drop cutPre

/-- the position of the peak of one record, channel.py L887-888 -/
def peakIdx (cutPre cutPost : ℕ) (r : List ℕ) : ℕ := argmax (window cutPre cutPost r) + cutPre

/-- scipy.stats.mode of integers: the most common one, the smallest of several (used for channel.py L890, L893) -/
def mode : List ℕ → ℕ
  | [] => 0
  | a :: t => t.foldl (fun b x => if (a :: t).count b < (a :: t).count x ∨ ((a :: t).count x = (a :: t).count b ∧ x < b) then x else b) a

/-- `_compute_peak_samplenumber`, channel.py L886-895. Without records the mode is NaN, and int(NaN) is a ValueError; with an empty window argmax raises ValueError. -/
def usualPeak (cutPre cutPost : ℕ) (rs : List (List ℕ)) : Except Exc ℕ :=
  if rs = [] ∨ ∃ r ∈ rs, window cutPre cutPost r = [] then .error .value
  else .ok (mode (rs.map (peakIdx cutPre cutPost)))

/-- the samples the promptness is made of, channel.py L1030-1035; `p` is the usual position of the peak -/
def promptWindow (nPre p : ℕ) (shifted : Bool) (r : List ℕ) : List ℕ :=
  let half := (nPre + 2 + p) / 2
  if shifted then (r.take (half - 1)).drop (nPre + 1) else (r.take half).drop (nPre + 2)

/-- the promptness of one record by the numpy summary, channel.py L1030-1036, from the pretrigger mean, shift flag and peak value of `npSummary`; `none` is NaN or infinite -/
def npPrompt (ignore nPre p : ℕ) (r : List ℕ) : Option ℚ :=
  let s := npSummary ignore nPre r
  let w := promptWindow nPre p s.2.2.1 r
  if w = [] ∨ s.2.2.2.2.2.1 = 0 then none
  else some ((mean w - s.1) / s.2.2.2.2.2.1)

/-! ### positions of peaks -/

theorem argmax_spec (l : List ℕ) (h : l ≠ []) : ∃ m, l[argmax l]? = some m ∧ (∀ x ∈ l, x ≤ m) ∧ ∀ j, j < argmax l → ∀ x, l[j]? = some x → x < m := by
  have key : ∀ (l : List ℕ), l ≠ [] → let a := l.zipIdx.foldl (fun (a : ℕ × ℕ) x => if a.1 < x.1 then (x.1, x.2) else a) (l.getD 0 0, 0)
      l[a.2]? = some a.1 ∧ (∀ x ∈ l, x ≤ a.1) ∧ ∀ j, j < a.2 → ∀ x, l[j]? = some x → x < a.1 := by
    intro l
    induction l using List.reverseRecOn with
    | nil => intro h; exact absurd rfl h
    | append_singleton l s ih =>
      intro _
      by_cases hl : l = []
      · subst hl
        simp
      · have e0 : (l ++ [s]).getD 0 0 = l.getD 0 0 := by
          obtain ⟨a, t, rfl⟩ := List.exists_cons_of_ne_nil hl
          rfl
        dsimp only
        rw [List.zipIdx_append, List.foldl_append, e0]
        have := ih hl
        dsimp only at this
        generalize hA : l.zipIdx.foldl (fun (a : ℕ × ℕ) x => if a.1 < x.1 then (x.1, x.2) else a) (l.getD 0 0, 0) = A at this
        obtain ⟨h1, h2, h3⟩ := this
        have hlt : A.2 < l.length := (List.getElem?_eq_some_iff.mp h1).1
        simp only [List.zipIdx_cons, List.zipIdx_nil, List.foldl_cons, List.foldl_nil, Nat.zero_add]
        by_cases hc : A.1 < s
        · rw [if_pos hc]
          refine ⟨by simp, ?_, ?_⟩
          · intro x hx
            rcases List.mem_append.mp hx with hx | hx
            · exact (h2 x hx).trans hc.le
            · simp at hx; exact hx.le
          · intro j hj x hx
            rw [List.getElem?_append_left hj] at hx
            exact lt_of_le_of_lt (h2 x (List.mem_of_getElem? hx)) hc
        · rw [if_neg hc]
          refine ⟨by rw [List.getElem?_append_left hlt]; exact h1, ?_, ?_⟩
          · intro x hx
            rcases List.mem_append.mp hx with hx | hx
            · exact h2 x hx
            · simp at hx; subst hx; exact not_lt.mp hc
          · intro j hj x hx
            rw [List.getElem?_append_left (by omega)] at hx
            exact h3 j hj x hx
  exact ⟨_, key l h⟩

theorem argmax_unique (l : List ℕ) {i m : ℕ} (h1 : l[i]? = some m) (h2 : ∀ x ∈ l, x ≤ m) (h3 : ∀ j, j < i → ∀ x, l[j]? = some x → x < m) : argmax l = i := by
  have hne : l ≠ [] := by rintro rfl; simp at h1
  obtain ⟨m', g1, g2, g3⟩ := argmax_spec l hne
  have hm : m = m' := le_antisymm (g2 m (List.mem_of_getElem? h1)) (h2 m' (List.mem_of_getElem? g1))
  subst hm
  rcases Nat.lt_trichotomy (argmax l) i with h | h | h
  · exact absurd (h3 _ h _ g1) (lt_irrefl _)
  · exact h
  · exact absurd (g3 _ h _ h1) (lt_irrefl _)

/-- the position of the peak does not depend on gain and offset: any strictly increasing change of the samples keeps it -/
theorem peakIdx_map (f : ℕ → ℕ) (hf : StrictMono f) (cutPre cutPost : ℕ) (r : List ℕ) (hw : window cutPre cutPost r ≠ []) :
    peakIdx cutPre cutPost (r.map f) = peakIdx cutPre cutPost r := by
  have e : window cutPre cutPost (r.map f) = (window cutPre cutPost r).map f := by
    unfold window
    rw [List.length_map, ← List.map_take, ← List.map_drop]
  unfold peakIdx
  rw [e]
  congr 1
  obtain ⟨m, g1, g2, g3⟩ := argmax_spec _ hw
  refine argmax_unique _ (m := f m) (by rw [List.getElem?_map, g1]; rfl) ?_ ?_
  · intro x hx
    obtain ⟨y, hy, rfl⟩ := List.mem_map.mp hx
    exact hf.monotone (g2 y hy)
  · intro j hj x hx
    rw [List.getElem?_map] at hx
    obtain ⟨y, hy, rfl⟩ := Option.map_eq_some_iff.mp hx
    exact hf (g3 j hj y hy)

theorem mode_spec (l : List ℕ) (h : l ≠ []) : mode l ∈ l ∧ ∀ q ∈ l, l.count q ≤ l.count (mode l) ∧ (l.count q = l.count (mode l) → mode l ≤ q) := by
  obtain ⟨a, t, rfl⟩ := List.exists_cons_of_ne_nil h
  have key : ∀ (c : ℕ → ℕ) (l : List ℕ) (b : ℕ), let r := l.foldl (fun b x => if c b < c x ∨ (c x = c b ∧ x < b) then x else b) b
      (r = b ∨ r ∈ l) ∧ ∀ q, q = b ∨ q ∈ l → c q ≤ c r ∧ (c q = c r → r ≤ q) := by
    intro c l
    induction l with
    | nil => intro b; simp
    | cons x l ih =>
      intro b
      rw [List.foldl_cons]
      obtain ⟨i1, i2⟩ := ih (if c b < c x ∨ (c x = c b ∧ x < b) then x else b)
      dsimp only
      generalize hr : l.foldl (fun b x => if c b < c x ∨ (c x = c b ∧ x < b) then x else b) (if c b < c x ∨ (c x = c b ∧ x < b) then x else b) = r at *
      by_cases hx : c b < c x ∨ (c x = c b ∧ x < b)
      · rw [if_pos hx] at i1 i2
        obtain ⟨j1, j2⟩ := i2 x (Or.inl rfl)
        refine ⟨?_, ?_⟩
        · rcases i1 with i1 | i1
          · right; simp [i1]
          · right; simp [i1]
        · rintro q (rfl | hq)
          · refine ⟨by rcases hx with hx | hx <;> omega, fun hq => ?_⟩
            rcases hx with hx | hx
            · omega
            · have := j2 (by omega); omega
          · rcases List.mem_cons.mp hq with rfl | hq
            · exact ⟨j1, j2⟩
            · exact i2 q (Or.inr hq)
      · rw [if_neg hx] at i1 i2
        obtain ⟨j1, j2⟩ := i2 b (Or.inl rfl)
        refine ⟨?_, ?_⟩
        · rcases i1 with i1 | i1
          · left; exact i1
          · right; simp [i1]
        · rintro q (rfl | hq)
          · exact ⟨j1, j2⟩
          · rcases List.mem_cons.mp hq with rfl | hq
            · push_neg at hx
              refine ⟨by omega, fun hq => ?_⟩
              have h1 := hx.2 (by omega)
              have h2 := j2 (by omega)
              omega
            · exact i2 q (Or.inr hq)
  obtain ⟨k1, k2⟩ := key (fun x => (a :: t).count x) t a
  change mode (a :: t) = a ∨ mode (a :: t) ∈ t at k1
  refine ⟨?_, fun q hq => k2 q (List.mem_cons.mp hq)⟩
  rcases k1 with k1 | k1
  · rw [k1]; simp
  · exact List.mem_cons_of_mem _ k1

/-- C160: the usual position of the peak is the most common position of a record's first greatest sample within the window, the earliest of several equally common ones;
it exists exactly if there are records and the window is not empty. -/
theorem usual_peak_spec (cutPre cutPost : ℕ) (rs : List (List ℕ)) (p : ℕ) :
    usualPeak cutPre cutPost rs = .ok p ↔ rs ≠ [] ∧ (∀ r ∈ rs, window cutPre cutPost r ≠ []) ∧ p ∈ rs.map (peakIdx cutPre cutPost) ∧
      ∀ q ∈ rs.map (peakIdx cutPre cutPost), (rs.map (peakIdx cutPre cutPost)).count q ≤ (rs.map (peakIdx cutPre cutPost)).count p ∧
        ((rs.map (peakIdx cutPre cutPost)).count q = (rs.map (peakIdx cutPre cutPost)).count p → p ≤ q) := by
  unfold usualPeak
  constructor
  · intro h
    split at h
    · cases h
    · rename_i hn
      push_neg at hn
      injection h with h
      subst h
      have hm := mode_spec (rs.map (peakIdx cutPre cutPost)) (by simpa using hn.1)
      exact ⟨hn.1, hn.2, hm.1, hm.2⟩
  · rintro ⟨h1, h2, h3, h4⟩
    rw [if_neg (by push_neg; exact ⟨h1, h2⟩)]
    have hm := mode_spec (rs.map (peakIdx cutPre cutPost)) (by simpa using h1)
    have a1 := h4 _ hm.1
    have a2 := hm.2 _ h3
    have e : (rs.map (peakIdx cutPre cutPost)).count (mode (rs.map (peakIdx cutPre cutPost))) = (rs.map (peakIdx cutPre cutPost)).count p := le_antisymm a1.1 a2.1
    rw [le_antisymm (a2.2 e.symm) (a1.2 e)]

/-- what the position of a record's peak is -/
theorem peak_position (cutPre cutPost : ℕ) (r : List ℕ) (h : window cutPre cutPost r ≠ []) :
    cutPre ≤ peakIdx cutPre cutPost r ∧ peakIdx cutPre cutPost r < r.length - cutPost ∧
    ∀ j, cutPre ≤ j → j < r.length - cutPost → r.getD j 0 ≤ r.getD (peakIdx cutPre cutPost r) 0 ∧ (j < peakIdx cutPre cutPost r → r.getD j 0 < r.getD (peakIdx cutPre cutPost r) 0) := by
  obtain ⟨m, g1, g2, g3⟩ := argmax_spec _ h
  have hget : ∀ j, j < r.length - cutPost - cutPre → (window cutPre cutPost r)[j]? = some (r.getD (cutPre + j) 0) := by
    intro j hj
    unfold window
    rw [List.getElem?_drop, List.getElem?_take_of_lt (by omega), List.getD_eq_getElem?_getD, List.getElem?_eq_getElem (by omega)]
    rfl
  have hlen : (window cutPre cutPost r).length = r.length - cutPost - cutPre := by
    unfold window
    rw [List.length_drop, List.length_take]; omega
  have hi := (List.getElem?_eq_some_iff.mp g1).1
  rw [hlen] at hi
  have hm : m = r.getD (peakIdx cutPre cutPost r) 0 := by
    have := hget _ hi
    rw [g1] at this
    injection this with this
    rw [this]
    unfold peakIdx
    rw [Nat.add_comm]
  refine ⟨by unfold peakIdx; omega, by unfold peakIdx; omega, ?_⟩
  intro j h1 h2
  have hj := hget (j - cutPre) (by omega)
  rw [show cutPre + (j - cutPre) = j by omega] at hj
  rw [← hm]
  refine ⟨g2 _ (List.mem_of_getElem? hj), fun hlt => g3 (j - cutPre) (by unfold peakIdx at hlt; omega) _ hj⟩

/-- C160: the order of the records does not matter. -/
theorem usual_peak_perm (cutPre cutPost : ℕ) {rs rs' : List (List ℕ)} (h : rs.Perm rs') : usualPeak cutPre cutPost rs = usualPeak cutPre cutPost rs' := by
  have h1 : ∀ p, usualPeak cutPre cutPost rs = .ok p → usualPeak cutPre cutPost rs' = .ok p := by
    intro p hp
    rw [usual_peak_spec] at hp ⊢
    obtain ⟨a, b, c, d⟩ := hp
    have hp := h.map (peakIdx cutPre cutPost)
    refine ⟨fun e => a (by subst e; exact h.eq_nil), fun r hr => b r (h.mem_iff.mpr hr), hp.mem_iff.mp c, ?_⟩
    intro q hq
    have := d q (hp.mem_iff.mpr hq)
    rw [hp.count_eq, hp.count_eq] at this
    exact this
  by_cases hn : rs = [] ∨ ∃ r ∈ rs, window cutPre cutPost r = []
  · have hn' : rs' = [] ∨ ∃ r ∈ rs', window cutPre cutPost r = [] := by
      rcases hn with hn | ⟨r, hr, hw⟩
      · subst hn; exact Or.inl h.symm.eq_nil
      · exact Or.inr ⟨r, h.mem_iff.mp hr, hw⟩
    unfold usualPeak
    rw [if_pos hn, if_pos hn']
  · have := h1 _ (show usualPeak cutPre cutPost rs = .ok (mode (rs.map (peakIdx cutPre cutPost))) by unfold usualPeak; rw [if_neg hn])
    rw [this]
    unfold usualPeak
    rw [if_neg hn]

/-- C160: if more than half of the records are one pulse shape, each with any gain and offset, the usual position of the peak is that of the shape. -/
theorem usual_peak_shape (cutPre cutPost : ℕ) (rs : List (List ℕ)) (shape : List ℕ) (hw : ∀ r ∈ rs, window cutPre cutPost r ≠ []) (hs : window cutPre cutPost shape ≠ [])
    (hmost : rs.length < 2 * rs.countP (fun r => decide (peakIdx cutPre cutPost r = peakIdx cutPre cutPost shape))) :
    usualPeak cutPre cutPost rs = .ok (peakIdx cutPre cutPost shape) ∧ ∀ f : ℕ → ℕ, StrictMono f → peakIdx cutPre cutPost (shape.map f) = peakIdx cutPre cutPost shape := by
  refine ⟨?_, fun f hf => peakIdx_map f hf cutPre cutPost shape hs⟩
  rw [usual_peak_spec]
  obtain ⟨P, hP⟩ : ∃ P, peakIdx cutPre cutPost shape = P := ⟨_, rfl⟩
  rw [hP] at hmost ⊢
  obtain ⟨l, hl⟩ : ∃ l, rs.map (peakIdx cutPre cutPost) = l := ⟨_, rfl⟩
  have hc : l.count P = rs.countP (fun r => decide (peakIdx cutPre cutPost r = P)) := by
    rw [← hl, List.count, List.countP_map]
    rfl
  have hlen : l.length = rs.length := by rw [← hl, List.length_map]
  rw [hl]
  have hpos : 0 < l.count P := by omega
  refine ⟨by rintro rfl; simp at hmost, hw, List.count_pos_iff.mp hpos, ?_⟩
  intro q hq
  by_cases hqp : q = P
  · subst hqp; simp
  · have h2 : l.count q + l.count P ≤ l.length := by
      clear hc hmost hlen hpos hl hq
      induction l with
      | nil => simp
      | cons x l ih =>
        rw [List.count_cons, List.count_cons, List.length_cons]
        by_cases h1 : x = q
        · have h3 : ¬ x = P := by rw [h1]; exact hqp
          simp [h1, hqp]; omega
        · simp [h1]; split <;> omega
    exact ⟨by omega, fun h => by omega⟩

example : usualPeak 0 0 [[1, 2, 9, 3], [10, 20, 90, 30], [9, 1, 1, 1]] = .ok 2 ∧ usualPeak 0 0 [] = .error .value ∧ usualPeak 3 1 [[1, 2, 3, 4]] = .error .value ∧
    usualPeak 0 0 [[1, 5, 5, 1], [1, 1, 1, 9]] = .ok 1 := by decide +kernel

/-! ### promptness -/

theorem promptWindow_length (nPre p : ℕ) (sh : Bool) (r : List ℕ) : (promptWindow nPre p sh r).length = if sh then min ((nPre + 2 + p) / 2 - 1) r.length - (nPre + 1) else min ((nPre + 2 + p) / 2) r.length - (nPre + 2) := by
  unfold promptWindow
  cases sh <;> simp

/-- C160: the promptness is the mean of the samples from two after the trigger to half way to the usual position of the peak, above the pretrigger mean, over the peak value. For a record flagged
as starting one sample early they are the samples one earlier: the same pulse one sample early has the same promptness, if it has the same pretrigger mean and peak value. -/
theorem prompt_shift (nPre p : ℕ) (x : ℕ) (r : List ℕ) (hr : nPre + 2 ≤ r.length) (hp : (nPre + 2 + p) / 2 ≤ r.length) : promptWindow nPre p true (r.tail ++ [x]) = promptWindow nPre p false r := by
  obtain ⟨a, t, rfl⟩ := List.exists_cons_of_ne_nil (show r ≠ [] by rintro rfl; simp at hr)
  unfold promptWindow
  dsimp only
  rw [if_pos rfl, if_neg (by simp), List.tail_cons]
  simp only [List.length_cons] at hp
  generalize (nPre + 2 + p) / 2 = h at *
  cases h with
  | zero => simp
  | succ h =>
    rw [List.take_succ_cons, List.drop_succ_cons, Nat.add_sub_cancel, List.take_append_of_le_length (by omega)]

theorem sum_le (l : List ℕ) (m : ℚ) (h : ∀ x ∈ l, (x : ℚ) ≤ m) : ((l.sum : ℕ) : ℚ) ≤ l.length * m := by
  induction l with
  | nil => simp
  | cons a t ih =>
    rw [List.sum_cons, List.length_cons]
    push_cast
    have := ih (fun x hx => h x (by simp [hx]))
    have := h a (by simp)
    linarith

theorem le_sum (l : List ℕ) (m : ℚ) (h : ∀ x ∈ l, m ≤ (x : ℚ)) : l.length * m ≤ ((l.sum : ℕ) : ℚ) := by
  induction l with
  | nil => simp
  | cons a t ih =>
    rw [List.sum_cons, List.length_cons]
    push_cast
    have := ih (fun x hx => h x (by simp [hx]))
    have := h a (by simp)
    linarith

theorem mean_nonneg (l : List ℕ) : 0 ≤ mean l := by unfold mean; positivity

theorem foldl_max_mem (l : List ℕ) (a : ℕ) : (∀ x ∈ l, x ≤ l.foldl max a) ∧ a ≤ l.foldl max a ∧ (l.foldl max a = a ∨ l.foldl max a ∈ l) := by
  induction l generalizing a with
  | nil => simp
  | cons b t ih =>
    obtain ⟨i1, i2, i3⟩ := ih (max a b)
    rw [List.foldl_cons]
    refine ⟨?_, (le_max_left _ _).trans i2, ?_⟩
    · intro x hx
      rcases List.mem_cons.mp hx with rfl | hx
      · exact (le_max_right _ _).trans i2
      · exact i1 x hx
    · rcases i3 with i3 | i3
      · rcases max_choice a b with hc | hc
        · left; rw [i3, hc]
        · right; rw [i3, hc]; simp
      · right; simp [i3]

/-- the peak value of the numpy summary, if a sample after the trigger is above the pretrigger mean: the greatest of them less the mean without its fraction -/
theorem np_peak (ignore nPre : ℕ) (r : List ℕ) (h16 : ∀ s ∈ r, s < 65536) (m : ℕ) (hm : m ∈ r.drop nPre) (hmax : ∀ x ∈ r.drop nPre, x ≤ m) (hpt : (npSummary ignore nPre r).1 < m) :
    (((npSummary ignore nPre r).2.2.2.2.2.1 : ℕ) : ℤ) = m - ⌊(npSummary ignore nPre r).1⌋ ∧ 0 < (npSummary ignore nPre r).2.2.2.2.2.1 := by
  have e : (r.drop nPre).foldl max 0 = m := by
    obtain ⟨i1, -, i3⟩ := foldl_max_mem (r.drop nPre) 0
    refine le_antisymm ?_ (i1 m hm)
    rcases i3 with i3 | i3
    · rw [i3]; exact Nat.zero_le _
    · exact hmax _ i3
  have hmr : m < 65536 := h16 m (List.mem_of_mem_drop hm)
  have h0 : (0 : ℤ) ≤ ⌊(npSummary ignore nPre r).1⌋ := Int.floor_nonneg.mpr (mean_nonneg _)
  have h1 : ⌊(npSummary ignore nPre r).1⌋ < (m : ℤ) := Int.floor_lt.mpr (by exact_mod_cast hpt)
  have e2 : (npSummary ignore nPre r).2.2.2.2.2.1 = (((m : ℕ) - ⌊(npSummary ignore nPre r).1⌋ : ℤ) % 65536).toNat := by
    rw [← e]; rfl
  rw [e2, Int.emod_eq_of_lt (by omega) (by omega)]
  omega

/-- C160: if the samples of the window lie between the pretrigger mean and the peak, the promptness lies between 0 and 1. -/
theorem prompt_bounds (ignore nPre p : ℕ) (r : List ℕ) (h16 : ∀ s ∈ r, s < 65536) (m : ℕ) (hm : m ∈ r.drop nPre) (hmax : ∀ x ∈ r.drop nPre, x ≤ m) (hpt : (npSummary ignore nPre r).1 < m)
    (hw : ∀ x ∈ promptWindow nPre p (npSummary ignore nPre r).2.2.1 r, (npSummary ignore nPre r).1 ≤ x ∧ x ≤ m) (y : ℚ) (hy : npPrompt ignore nPre p r = some y) : 0 ≤ y ∧ y ≤ 1 := by
  obtain ⟨h1, h2⟩ := np_peak ignore nPre r h16 m hm hmax hpt
  unfold npPrompt at hy
  dsimp only at hy
  split at hy
  · cases hy
  · rename_i hn
    push_neg at hn
    injection hy with hy
    subst hy
    obtain ⟨w, hw'⟩ : ∃ w, promptWindow nPre p (npSummary ignore nPre r).2.2.1 r = w := ⟨_, rfl⟩
    obtain ⟨t, ht⟩ : ∃ t, (npSummary ignore nPre r).1 = t := ⟨_, rfl⟩
    obtain ⟨k, hk⟩ : ∃ k, (npSummary ignore nPre r).2.2.2.2.2.1 = k := ⟨_, rfl⟩
    rw [hw'] at hn hw ⊢
    rw [ht] at h1 hw ⊢
    rw [hk] at h1 h2 ⊢
    have hl : (0 : ℚ) < w.length := by exact_mod_cast List.length_pos_iff.mpr hn.1
    have hk0 : (0 : ℚ) < k := by exact_mod_cast h2
    have hkm : (m : ℚ) - t ≤ k := by
      have : ((k : ℤ) : ℚ) = (m : ℚ) - (⌊t⌋ : ℤ) := by rw [h1]; push_cast; ring
      have h3 := Int.floor_le t
      have h4 : ((k : ℤ) : ℚ) = k := by push_cast; rfl
      linarith
    have a1 : t ≤ mean w := by
      unfold mean
      rw [le_div_iff₀ hl, mul_comm]
      exact le_sum w t (fun x hx => (hw x hx).1)
    have a2 : mean w ≤ m := by
      unfold mean
      rw [div_le_iff₀ hl, mul_comm]
      exact sum_le w m (fun x hx => by exact_mod_cast (hw x hx).2)
    refine ⟨div_nonneg (by linarith) hk0.le, (div_le_one hk0).mpr (by linarith)⟩

/-- C160, partial: the two ways to summarise give promptnesses that are equal up to the peak value each divides by (which differ by at most one unit), if the usual position of the peak is 14 or 15
samples after the trigger and the greatest sample is after the trigger. Missing: other positions of the peak (see `prompt_fails`). -/
theorem prompt_partial (tb : ℚ) (p ignore nPre : ℕ) (r : List ℕ) (h : Usable p ignore nPre r) (s : Summary) (hs : summary tb p ignore nPre r = .ok s) (hp : p = nPre + 14 ∨ p = nPre + 15)
    (m : ℕ) (hm : m ∈ r.drop nPre) (hmax : ∀ x ∈ r, x ≤ m) (hpt : s.ptm < m) :
    ∃ y, npPrompt ignore nPre p r = some y ∧ y * ((npSummary ignore nPre r).2.2.2.2.2.1 : ℕ) = s.prompt * s.peakValue ∧
      s.peakValue ≤ (npSummary ignore nPre r).2.2.2.2.2.1 ∧ (npSummary ignore nPre r).2.2.2.2.2.1 ≤ s.peakValue + 1 := by
  obtain ⟨n1, n2, n3, n4⟩ := numpy_partial tb p ignore nPre r h s hs
  obtain ⟨m', g1, g2, g3, g4, g5, g6⟩ := (peak_partial tb p ignore nPre r h s hs).2 ⟨m, List.mem_of_mem_drop hm, hpt⟩
  have hmm : m' = m := le_antisymm (hmax m' (List.mem_of_getElem? g1)) (g2 m (List.mem_of_mem_drop hm))
  subst hmm
  obtain ⟨k1, k2⟩ := np_peak ignore nPre r h.data m' hm (fun x hx => hmax x (List.mem_of_mem_drop hx)) (by rw [n1]; exact hpt)
  have hlen := h.post
  have hhalf : (nPre + 2 + p) / 2 = nPre + 8 := by omega
  have g6 := g6 (by omega)
  have hw : promptWindow nPre p (npSummary ignore nPre r).2.2.1 r = (r.drop (if s.shift1 then nPre + 1 else nPre + 2)).take 6 := by
    rw [n3]
    unfold promptWindow
    dsimp only
    rw [hhalf]
    cases s.shift1
    · simp only [Bool.false_eq_true, if_false]
      rw [List.take_drop]
    · simp only [if_true]
      rw [List.take_drop]
      congr 2
  have hw6 : (promptWindow nPre p (npSummary ignore nPre r).2.2.1 r).length = 6 := by
    rw [hw, List.length_take, List.length_drop]
    split <;> omega
  rw [n1] at k1
  have f1 : ⌊s.ptm⌋ ≤ ⌊s.ptm + 1 / 2⌋ := Int.floor_le_floor (by linarith)
  have f2 : ⌊s.ptm + 1 / 2⌋ ≤ ⌊s.ptm⌋ + 1 := by
    rw [← Int.floor_add_one]
    exact Int.floor_le_floor (by linarith)
  refine ⟨(mean (promptWindow nPre p (npSummary ignore nPre r).2.2.1 r) - (npSummary ignore nPre r).1) / ((npSummary ignore nPre r).2.2.2.2.2.1 : ℕ), ?_, ?_, by omega, by omega⟩
  · unfold npPrompt
    dsimp only
    rw [if_neg]
    rintro (hh | hh)
    · rw [hh] at hw6; simp at hw6
    · omega
  · have hk0 : (((npSummary ignore nPre r).2.2.2.2.2.1 : ℕ) : ℚ) ≠ 0 := by exact_mod_cast k2.ne'
    have hs0 : ((s.peakValue : ℕ) : ℚ) ≠ 0 := by exact_mod_cast g5.ne'
    rw [div_mul_cancel₀ _ hk0, g6, div_mul_cancel₀ _ hs0, hw, n1]

/-- a pulse that peaks 14 samples after the trigger [specification] -/
def later : List ℕ := [10, 11, 10, 10, 10, 20, 30, 40, 50, 60, 70, 80, 90, 100, 110, 120, 130, 140, 150, 140, 130, 120, 110, 100, 90]

example : (summary 1 18 1 4 later).map (fun s => (s.peakIndex, s.peakValue, s.prompt)) = .ok (18, 140, 67 / 210) ∧ npPrompt 1 4 18 later = some (67 / 210) := by decide +kernel

/-- Disagreement (C160): pulses that usually peak less than four samples after the trigger have no promptness at all by the numpy summary (NaN), whatever the record. -/
theorem fast_fails (ignore nPre p : ℕ) (hp : p ≤ nPre + 3) (r : List ℕ) : npPrompt ignore nPre p r = none := by
  unfold npPrompt
  dsimp only
  rw [if_pos]
  left
  rw [← List.length_eq_zero_iff, promptWindow_length]
  split <;> omega

/-- a pulse that peaks eight samples after the trigger (used for `prompt_fails`) [specification] -/
def slow : List ℕ := [10, 10, 10, 10, 10, 20, 30, 40, 50, 60, 70, 80, 90, 80, 70, 60, 50, 40, 30, 20]

/-- Disagreement (C160): the two ways give different promptnesses for the same record if the usual position of the peak is not 14 or 15 samples after the trigger. -/
theorem prompt_fails : (summary 1 12 1 4 slow).map (fun s => (s.peakIndex, s.prompt)) = .ok (12, 9 / 16) ∧ npPrompt 1 4 12 slow = some (3 / 8) := by decide +kernel

/-- Disagreement (C160): by the numpy summary a record that stays below its pretrigger mean has a small negative promptness, as if it had a peak of about 65,000; by the other way it is 0. -/
theorem below_fails : npPrompt 1 4 9 [20, 20, 20, 20, 10, 10, 10, 10, 10, 10, 10, 10, 10, 10, 10] = some (-5 / 32763) ∧
    (summary 1 9 1 4 [20, 20, 20, 20, 10, 10, 10, 10, 10, 10, 10, 10, 10, 10, 10]).map (·.prompt) = .ok 0 := by decide +kernel

end Mass.Algo.Prompt
