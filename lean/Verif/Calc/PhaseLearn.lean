import Verif.Calc.Fresh
import Verif.Calc.Plan
import Verif.Calc.Correct
import Verif.Stat.FirstN
import Mathlib.Data.List.Sort
import Mathlib.Tactic.Linarith
import Mathlib.Tactic.FieldSimp
import Mathlib.Tactic.Ring
/-! C124: learning a phase correction: which peaks are used, how pulses are grouped, and what it does to the calibration the peaks are taken from
(mass/core/phase_correct.py L83-190, L288-328, mass/off/channels.py L539-561). -/
namespace Mass.Calc.PhaseLearn
open Mass Mass.Calc.Cal
set_option linter.unusedSectionVars false

variable {K : Type} [Field K] [LinearOrder K] [IsStrictOrderedRing K]

/-! ### Finding peaks -/

/-- the counts a peak must exceed, phase_correct.py L312-315 -/
def minCounts (n : Nat) : Nat := min (max 500 (n / 200)) (n / 20)

/-- distance of two bins (used for phase_correct.py L324) -/
def gap (a b : Nat) : Nat := (a - b) + (b - a)

/-- one turn of the loop of phase_correct.py L323-325 -/
def keepStep (peaks : List Nat) (pk : Nat) : List Nat := if peaks.all (fun p => decide (10 < gap p pk)) then peaks ++ [pk] else peaks

/-- phase_correct.py L321-327 with the candidates already in order; `pk2[0]` of an empty array raises IndexError -/
def keepPeaks : List Nat → Except Exc (List Nat)
  | [] => .error .index
  | p :: ps => .ok ((ps.foldl keepStep [p]).insertionSort (· ≤ ·))

/-- `_find_peaks_heuristic`, phase_correct.py L288-328. `hist` is the histogram of 1000 bins from 0 to twice the median, `ctr` the bin centers, `cand` the answer of
`find_peaks_cwt` (if empty, indexing with the float array `np.array([])` raises IndexError too), `order` is `pk2[hist[pk2].argsort()]`: numpy's sort is not stable, so it is any
function that sorts. `n` is the number of pulse heights. -/
def findPeaks (hist : Nat → Nat) (ctr : Nat → K) (cand : List Nat) (order : List Nat → List Nat) (n : Nat) : Except Exc (List K) :=
  (keepPeaks (order (cand.filter (fun c => decide (minCounts n < hist c))))).map (fun l => l.map ctr)

/-- what `argsort` promises [specification] -/
def Sorts (hist : Nat → Nat) (order : List Nat → List Nat) : Prop := ∀ l, (order l).Perm l ∧ (order l).Pairwise (fun a b => hist a ≤ hist b)

theorem gap_comm (a b : Nat) : gap a b = gap b a := by unfold gap; omega

theorem keep_spec : ∀ (ps acc : List Nat),
    (∀ x ∈ acc, x ∈ ps.foldl keepStep acc) ∧ (∀ x ∈ ps.foldl keepStep acc, x ∈ acc ∨ x ∈ ps) ∧
    (acc.Pairwise (fun a b => 10 < gap a b) → (ps.foldl keepStep acc).Pairwise (fun a b => 10 < gap a b)) ∧
    (∀ h : Nat → Nat, (acc ++ ps).Pairwise (fun a b => h a ≤ h b) → ∀ x ∈ ps, x ∈ ps.foldl keepStep acc ∨ ∃ y ∈ ps.foldl keepStep acc, gap y x ≤ 10 ∧ h y ≤ h x) := by
  intro ps
  induction ps with
  | nil => intro acc; exact ⟨fun _ h => h, fun _ h => .inl h, id, by simp⟩
  | cons p ps ih =>
    intro acc
    rw [List.foldl_cons]
    obtain ⟨i1, i2, i3, i4⟩ := ih (keepStep acc p)
    by_cases hall : acc.all (fun q => decide (10 < gap q p)) = true
    · have hk : keepStep acc p = acc ++ [p] := by unfold keepStep; rw [if_pos hall]
      rw [hk] at i1 i2 i3 i4 ⊢
      refine ⟨fun x hx => i1 x (by simp [hx]), fun x hx => ?_, fun hp => i3 ?_, fun h hp x hx => ?_⟩
      · rcases i2 x hx with h | h
        · rcases List.mem_append.1 h with h | h
          · exact .inl h
          · exact .inr (by simp only [List.mem_singleton] at h; simp [h])
        · exact .inr (by simp [h])
      · rw [List.pairwise_append]
        refine ⟨hp, by simp, fun a ha b hb => ?_⟩
        simp only [List.mem_singleton] at hb
        subst hb
        simpa using (List.all_eq_true.1 hall) a ha
      · rcases List.mem_cons.1 hx with rfl | hx
        · exact .inl (i1 x (by simp))
        · exact i4 h (by simpa using hp) x hx
    · have hk : keepStep acc p = acc := by unfold keepStep; rw [if_neg hall]
      rw [hk] at i1 i2 i3 i4 ⊢
      refine ⟨i1, fun x hx => ?_, i3, fun h hp x hx => ?_⟩
      · rcases i2 x hx with h | h
        · exact .inl h
        · exact .inr (by simp [h])
      · rcases List.mem_cons.1 hx with rfl | hx
        · right
          simp only [List.all_eq_true, decide_eq_true_eq, not_forall] at hall
          obtain ⟨y, hy, hg⟩ := hall
          refine ⟨y, i1 y hy, by omega, ?_⟩
          exact (List.pairwise_append.1 hp).2.2 y hy x (by simp)
        · refine i4 h ?_ x hx
          refine hp.sublist ?_
          exact List.Sublist.append (List.Sublist.refl _) (List.sublist_cons_self _ _)

/-- C124. The peaks found are in increasing order; each is the center of a candidate bin with enough counts; any two are more than ten bins apart; and a candidate with enough counts
that is not among them has one of them within ten bins. There is at least one as soon as one candidate has enough counts. -/
theorem peaks_found {hist : Nat → Nat} {ctr : Nat → K} (hc : ∀ a b, a < b → ctr a < ctr b) {order : List Nat → List Nat} (ho : Sorts hist order) (cand : List Nat) (n : Nat)
    {c : Nat} (hm : c ∈ cand) (he : minCounts n < hist c) :
    ∃ bins : List Nat, findPeaks hist ctr cand order n = .ok (bins.map ctr) ∧ bins ≠ [] ∧ (bins.map ctr).Pairwise (· < ·) ∧ (∀ b ∈ bins, b ∈ cand ∧ minCounts n < hist b) ∧
      bins.Pairwise (fun a b => a + 10 < b) ∧ (∀ d ∈ cand, minCounts n < hist d → ∃ b ∈ bins, gap b d ≤ 10 ∧ hist b ≤ hist d) := by
  obtain ⟨hperm, hsort⟩ := ho (cand.filter (fun c => decide (minCounts n < hist c)))
  have hmem : ∀ d, d ∈ order (cand.filter (fun c => decide (minCounts n < hist c))) ↔ d ∈ cand ∧ minCounts n < hist d := by
    intro d; rw [hperm.mem_iff]; simp
  have hne : c ∈ order (cand.filter (fun c => decide (minCounts n < hist c))) := (hmem c).2 ⟨hm, he⟩
  rcases heq : order (cand.filter (fun c => decide (minCounts n < hist c))) with _ | ⟨p, ps⟩
  · rw [heq] at hne; simp at hne
  · rw [heq] at hmem hsort
    obtain ⟨k1, k2, k3, k4⟩ := keep_spec ps [p]
    have hp : ((ps.foldl keepStep [p]).insertionSort (· ≤ ·)).Perm (ps.foldl keepStep [p]) := List.perm_insertionSort _ _
    have hbins : ((ps.foldl keepStep [p]).insertionSort (· ≤ ·)).Pairwise (fun a b => a + 10 < b) := by
      have h1 : ((ps.foldl keepStep [p]).insertionSort (· ≤ ·)).Pairwise (fun a b => 10 < gap a b) :=
        (hp.pairwise_iff (fun {a b} h => by rw [gap_comm]; exact h)).2 (k3 (by simp))
      have h2 : ((ps.foldl keepStep [p]).insertionSort (· ≤ ·)).Pairwise (· ≤ ·) := List.pairwise_insertionSort _ _
      refine (h1.and h2).imp (fun {a b} h => ?_)
      unfold gap at h
      omega
    refine ⟨(ps.foldl keepStep [p]).insertionSort (· ≤ ·), ?_, ?_, ?_, ?_, hbins, ?_⟩
    · unfold findPeaks
      rw [heq]
      rfl
    · intro h0
      have := k1 p (by simp)
      rw [← hp.mem_iff, h0] at this
      simp at this
    · rw [List.pairwise_map]
      exact hbins.imp (fun {a b} h => hc a b (by omega))
    · intro b hb
      rw [hp.mem_iff] at hb
      refine (hmem b).1 ?_
      rcases k2 b hb with h | h
      · simp only [List.mem_singleton] at h; simp [h]
      · simp [h]
    · intro d hd hd'
      have := (hmem d).2 ⟨hd, hd'⟩
      rcases List.mem_cons.1 this with rfl | hd2
      · exact ⟨d, hp.mem_iff.2 (k1 d (by simp)), by unfold gap; omega, le_refl _⟩
      · rcases k4 hist (by simpa using hsort) d hd2 with h | ⟨y, hy, hg, hh⟩
        · exact ⟨d, hp.mem_iff.2 h, by unfold gap; omega, le_refl _⟩
        · exact ⟨y, hp.mem_iff.2 hy, hg, hh⟩

/-- a sort for the examples -/
def exOrder (hist : Nat → Nat) (l : List Nat) : List Nat := l.insertionSort (fun a b => hist a ≤ hist b)

/-- it sorts -/
theorem exOrder_sorts (hist : Nat → Nat) : Sorts hist (exOrder hist) := by
  intro l
  haveI : Std.Total (fun a b => hist a ≤ hist b) := ⟨fun a b => Nat.le_total _ _⟩
  haveI : IsTrans Nat (fun a b => hist a ≤ hist b) := ⟨fun a b c => Nat.le_trans⟩
  exact ⟨List.perm_insertionSort _ _, List.pairwise_insertionSort _ _⟩

/-- a spectrum with a high peak at bin 300, its shoulder at 308, and further peaks at bins 400, 420 and 800 (too low) -/
def exHist (i : Nat) : Nat := if i = 300 then 4000 else if i = 308 then 600 else if i = 400 then 1500 else if i = 420 then 900 else if i = 800 then 480 else 20

example : findPeaks exHist (fun i => (i : ℚ) * 2 + 1) [300, 308, 400, 420, 800] (exOrder exHist) 20000 = .ok [617, 801, 841] := by decide +kernel

/-- C124. Disagreement (C124): a peak near a lower candidate is never found: the code is to take peaks from highest to lowest, but it takes the lowest first, so that the shoulder of
the highest peak is taken for the peak. (The lowest candidate with enough counts is always taken.) -/
theorem highest_dropped_fails : findPeaks exHist (fun i => (i : ℚ)) [300, 308, 400] (exOrder exHist) 20000 = .ok [308, 400] ∧
    (∀ (hist : Nat → Nat) (order : List Nat → List Nat) (_ : Sorts hist order) (cand : List Nat) (n c : Nat), c ∈ cand → minCounts n < hist c → (∀ d ∈ cand, d ≠ c → minCounts n < hist d → hist c < hist d) →
      ∃ l, findPeaks hist (fun i => (i : ℚ)) cand order n = .ok l ∧ (c : ℚ) ∈ l) := by
  refine ⟨by decide +kernel, fun hist order ho cand n c hm he hlow => ?_⟩
  obtain ⟨bins, h1, -, -, h4, -, h6⟩ := peaks_found (ctr := fun i => (i : ℚ)) (fun a b h => by exact_mod_cast h) ho cand n hm he
  refine ⟨_, h1, ?_⟩
  obtain ⟨b, hb, -, hle⟩ := h6 c hm he
  obtain ⟨hb1, hb2⟩ := h4 b hb
  have : b = c := by
    by_contra hne
    have := hlow b hb1 hne hb2
    omega
  subst this
  exact List.mem_map_of_mem hb

/-- C124. Disagreement (C124): peaks 20 bins apart are both kept, though peaks are to be at least 40 bins apart. -/
theorem forty_bins_fails : findPeaks exHist (fun i => (i : ℚ)) [400, 420] (exOrder exHist) 20000 = .ok [400, 420] := by decide +kernel

/-- C124. Disagreement (C124): if no candidate has enough counts, the ValueError "no peaks found" is never raised; looking for peaks fails with IndexError. -/
theorem no_peaks_fails (hist : Nat → Nat) (ctr : Nat → K) (cand : List Nat) (order : List Nat → List Nat) (ho : Sorts hist order) (n : Nat) (h : ∀ c ∈ cand, hist c ≤ minCounts n) :
    findPeaks hist ctr cand order n = .error .index := by
  have : order (cand.filter (fun c => decide (minCounts n < hist c))) = [] := by
    have h0 : cand.filter (fun c => decide (minCounts n < hist c)) = [] := by
      rw [List.filter_eq_nil_iff]
      intro c hc
      have := h c hc
      simp only [decide_eq_true_eq]
      omega
    have hp := (ho (cand.filter (fun c => decide (minCounts n < hist c)))).1
    rw [h0] at hp ⊢
    exact hp.eq_nil
  unfold findPeaks
  rw [this]
  rfl

/-! ### One correction per peak -/

/-- `_phasecorr_find_alignment` as called by phase_correct.py L100-104: peak, half width of the window and kernel width; the answer is a curve and the median phase -/
abbrev Align (K C : Type) := K → K → K → Except Exc (C × K)

/-- the loop of phase_correct.py L99-106 -/
def alignAll {C : Type} (align : Align K C) (delta kw : K) : List K → Except Exc (List (C × K))
  | [] => .ok []
  | p :: ps => match align p delta kw with
    | .error e => .error e
    | .ok r => match alignAll align delta kw ps with
      | .error e => .error e
      | .ok rs => .ok (r :: rs)

/-- a learned correction: the points of the uniformifier and the curves (phase_correct.py L20-30, L141-142) -/
structure Learned (K C : Type) where
  x : List K
  y : List K
  curves : List C

/-- `phase_correct`, phase_correct.py L83-142, with peaks given (or already found). `few` is the uniformifier from binned medians for three peaks or fewer (L112-139). `kernel_width` is
not given. `np.max` of the sorted array is its last element. -/
def learn {C : Type} (align : Align K C) (few : Except Exc (List K × List K)) (peaks : List K) : Except Exc (Learned K C) :=
  if peaks.length ≤ 0 then .error .value
  else
    let s := peaks.insertionSort (· ≤ ·)
    match alignAll align (12 / 1000 * (s.sum / (s.length : K))) (s.getLastD 0 / 1000) s with
    | .error e => .error e
    | .ok rs =>
      if 3 < rs.length then .ok ⟨s, rs.map Prod.snd, rs.map Prod.fst⟩
      else match few with
        | .error e => .error e
        | .ok (x, y) => .ok ⟨x, y, rs.map Prod.fst⟩

theorem alignAll_spec {C : Type} (align : Align K C) (d kw : K) : ∀ (l : List K) (rs : List (C × K)), alignAll align d kw l = .ok rs → List.Forall₂ (fun p r => align p d kw = .ok r) l rs
  | [], rs, h => by cases h; exact .nil
  | p :: ps, rs, h => by
    unfold alignAll at h
    cases ha : align p d kw with
    | error e => rw [ha] at h; cases h
    | ok r =>
      rw [ha] at h
      dsimp only at h
      cases hb : alignAll align d kw ps with
      | error e => rw [hb] at h; cases h
      | ok rs' =>
        rw [hb] at h
        cases h
        exact .cons ha (alignAll_spec align d kw ps rs' hb)

theorem sort_perm {a b : List K} (h : a.Perm b) : a.insertionSort (· ≤ ·) = b.insertionSort (· ≤ ·) :=
  List.Perm.eq_of_pairwise (le := (· ≤ ·)) (fun _ _ _ _ h1 h2 => le_antisymm h1 h2) (List.pairwise_insertionSort _ _) (List.pairwise_insertionSort _ _)
    ((List.perm_insertionSort _ _).trans (h.trans (List.perm_insertionSort _ _).symm))

/-- C124. What is learned does not depend on the order in which the peaks are given. -/
theorem learn_perm {C : Type} (align : Align K C) (few : Except Exc (List K × List K)) {a b : List K} (h : a.Perm b) : learn align few a = learn align few b := by
  unfold learn
  rw [sort_perm h, h.length_eq]

/-- C124. There is one curve per peak, in increasing order of the peaks, and each was found in the window of its own peak, all windows being equally wide; with four peaks or more the
typical phase goes through the median phase at each peak. -/
theorem learn_curves {C : Type} (align : Align K C) (few : Except Exc (List K × List K)) (peaks : List K) {L : Learned K C} (h : learn align few peaks = .ok L) :
    ∃ (s : List K) (rs : List (C × K)) (d w : K), s.Perm peaks ∧ s.Pairwise (· ≤ ·) ∧ d = 12 / 1000 * (peaks.sum / (peaks.length : K)) ∧ (∃ m ∈ peaks, w = m / 1000 ∧ ∀ p ∈ peaks, p ≤ m) ∧
      List.Forall₂ (fun p r => align p d w = .ok r) s rs ∧ L.curves = rs.map Prod.fst ∧ (3 < peaks.length → L.x = s ∧ L.y = rs.map Prod.snd) := by
  have hp : (peaks.insertionSort (· ≤ ·)).Perm peaks := List.perm_insertionSort _ _
  have hsrt : (peaks.insertionSort (· ≤ ·)).Pairwise (· ≤ ·) := List.pairwise_insertionSort _ _
  unfold learn at h
  by_cases h0 : peaks.length ≤ 0
  · rw [if_pos h0] at h; cases h
  rw [if_neg h0] at h
  dsimp only at h
  have hsum : (peaks.insertionSort (· ≤ ·)).sum = peaks.sum := hp.sum_eq
  have hlen : (peaks.insertionSort (· ≤ ·)).length = peaks.length := hp.length_eq
  have hne : peaks.insertionSort (· ≤ ·) ≠ [] := by
    intro hn
    rw [hn] at hlen
    simp at hlen
    omega
  have hlast : (peaks.insertionSort (· ≤ ·)).getLastD 0 = (peaks.insertionSort (· ≤ ·)).getLast hne := by
    rw [List.getLastD_eq_getLast?, List.getLast?_eq_some_getLast hne]
    rfl
  cases ha : alignAll align (12 / 1000 * ((peaks.insertionSort (· ≤ ·)).sum / ((peaks.insertionSort (· ≤ ·)).length : K))) ((peaks.insertionSort (· ≤ ·)).getLastD 0 / 1000) (peaks.insertionSort (· ≤ ·)) with
  | error e => rw [ha] at h; cases h
  | ok rs =>
    rw [ha] at h
    dsimp only at h
    have hf := alignAll_spec _ _ _ _ _ ha
    have hrl : rs.length = peaks.length := by rw [← hf.length_eq, hlen]
    rw [hsum, hlen] at hf
    refine ⟨_, rs, _, _, hp, hsrt, rfl, ⟨_, hp.mem_iff.1 (List.getLast_mem hne), by rw [hlast], fun p hpm => ?_⟩, hf, ?_⟩
    · have hpm' := hp.mem_iff.2 hpm
      rw [← List.dropLast_append_getLast hne] at hpm' hsrt
      rcases List.mem_append.1 hpm' with h1 | h1
      · exact (List.pairwise_append.1 hsrt).2.2 p h1 _ (by simp)
      · simp only [List.mem_singleton] at h1
        exact le_of_eq h1
    · by_cases h3 : 3 < rs.length
      · rw [if_pos h3] at h
        cases h
        exact ⟨rfl, fun _ => ⟨rfl, rfl⟩⟩
      · rw [if_neg h3] at h
        cases few with
        | error e => cases h
        | ok xy =>
          cases h
          exact ⟨rfl, fun hc => absurd (hrl ▸ hc) h3⟩

/-- C124. Without peaks the error is ValueError. -/
theorem learn_none {C : Type} (align : Align K C) (few : Except Exc (List K × List K)) : learn align few ([] : List K) = .error .value := rfl

example : (learn (fun p d w => .ok ((p, d, w), p + 1)) (.ok ([0], [0])) [(3000 : ℚ), 1000, 2000, 4000]).map (fun L => (L.x, L.y, L.curves)) =
    .ok ([1000, 2000, 3000, 4000], [1001, 2001, 3001, 4001], [(1000, 30, 4), (2000, 30, 4), (3000, 30, 4), (4000, 30, 4)]) := by decide +kernel

/-! ### The pulses of a peak, in groups by phase -/

/-- the pulses in the window of a peak, phase_correct.py L158-159: (phase, height) -/
def window (peak delta : K) (pulses : List (K × K)) : List (K × K) := pulses.filter (fun p => decide (|p.2 - peak| < delta) && decide (|p.1| < 2))

/-- the number of groups, phase_correct.py L166-168 -/
def nGroups (n : Nat) : Nat := min 12 (max 3 (n / 300))

/-- the edges of the groups, phase_correct.py L170-173 -/
def edges (low high : K) (n : Nat) : List K :=
  (List.range (n + 1)).map (fun i : Nat => low + (i : K) * ((high - low) / (n : K)) - (if i = 0 then high - low else 0) + (if i = n then high - low else 0))

/-- the group of a phase, phase_correct.py L174 (-1 and `n` are no groups) -/
def groupOf (low high : K) (n : Nat) (x : K) : Int := (Corr.digitize (edges low high n) x : Int) - 1

/-- the groups and their median phases, phase_correct.py L163-181; `pct` is `np.percentile` of the phases in the window; the median of an empty array is NaN (`none`) -/
def knots (pct : List K → Nat → K) (peak delta : K) (pulses : List (K × K)) : List (Option K) :=
  let x := (window peak delta pulses).map Prod.fst
  let n := nGroups x.length
  (List.range n).map (fun i : Nat =>
    let xi := x.filter (fun v => decide (groupOf (pct x 3) (pct x 97) n v = (i : Int)))
    if xi.isEmpty then none else some (Stat.FirstN.median xi))

/-- C124. A peak's pulses are in three to twelve groups, if possible of 300 pulses or more on average, and more groups are not possible. -/
theorem nGroups_bounds (n : Nat) : 3 ≤ nGroups n ∧ nGroups n ≤ 12 ∧ (900 ≤ n → nGroups n * 300 ≤ n) ∧ (nGroups n < 12 → n < (nGroups n + 1) * 300) := by unfold nGroups; omega

/-- C124. The window has exactly the pulses closer to the peak than its half width with a phase of less than two samples. -/
theorem window_mem (peak delta : K) (pulses : List (K × K)) (x : K × K) : x ∈ window peak delta pulses ↔ x ∈ pulses ∧ peak - delta < x.2 ∧ x.2 < peak + delta ∧ -2 < x.1 ∧ x.1 < 2 := by
  unfold window
  simp only [List.mem_filter, Bool.and_eq_true, decide_eq_true_eq, abs_lt]
  constructor
  · rintro ⟨h, ⟨h1, h2⟩, h3, h4⟩
    exact ⟨h, by linarith, by linarith, h3, h4⟩
  · rintro ⟨h, h1, h2, h3, h4⟩
    exact ⟨h, ⟨by linarith, by linarith⟩, h3, h4⟩

/-- C124. Windows of peaks that are at least twice the half width apart have no pulse in common. -/
theorem window_disjoint {p q d : K} (h : p + 2 * d ≤ q) (pulses : List (K × K)) (x : K × K) (h1 : x ∈ window p d pulses) (h2 : x ∈ window q d pulses) : False := by
  unfold window at h1 h2
  simp only [List.mem_filter, Bool.and_eq_true, decide_eq_true_eq, abs_lt] at h1 h2
  obtain ⟨-, ⟨-, h1⟩, -⟩ := h1
  obtain ⟨-, ⟨h2, -⟩, -⟩ := h2
  linarith

/-- the edge below group `i` [specification] -/
def edge (low high : K) (n i : Nat) : K := low + (i : K) * ((high - low) / (n : K)) - (if i = 0 then high - low else 0) + (if i = n then high - low else 0)

theorem edge_mono {low high : K} (h : low ≤ high) {n i j : Nat} (hn : 0 < n) (hij : i ≤ j) (hj : j ≤ n) : edge low high n i ≤ edge low high n j := by
  rcases Nat.eq_or_lt_of_le hij with rfl | hlt
  · exact le_refl _
  have hn' : (0 : K) < n := by exact_mod_cast hn
  have hs : 0 ≤ (high - low) / (n : K) := div_nonneg (by linarith) hn'.le
  have h1 : (i : K) * ((high - low) / (n : K)) ≤ (j : K) * ((high - low) / (n : K)) := mul_le_mul_of_nonneg_right (by exact_mod_cast hij) hs
  unfold edge
  rw [if_neg (show ¬ j = 0 by omega), if_neg (show ¬ i = n by omega)]
  split <;> split <;> linarith

theorem countP_range_le {f : Nat → K} : ∀ (n : Nat) (_ : ∀ i j, i ≤ j → j ≤ n → f i ≤ f j) (x : K) (i : Nat), i < n → f i ≤ x → x < f (i + 1) →
    ((List.range (n + 1)).map f).countP (fun p => decide (p ≤ x)) = i + 1 := by
  intro n hm x i hi h1 h2
  have hsplit : List.range (n + 1) = List.range (i + 1) ++ (List.range (n - i)).map (fun k => (i + 1) + k) := by
    rw [← List.range_add]; congr 1; omega
  rw [hsplit, List.map_append, List.countP_append]
  have a1 : ((List.range (i + 1)).map f).countP (fun p => decide (p ≤ x)) = i + 1 := by
    rw [List.countP_eq_length.2]
    · simp
    · intro a ha
      simp only [List.mem_map, List.mem_range] at ha
      obtain ⟨k, hk, rfl⟩ := ha
      simp only [decide_eq_true_eq]
      exact le_trans (hm k i (by omega) (by omega)) h1
  have a2 : (((List.range (n - i)).map (fun k => (i + 1) + k)).map f).countP (fun p => decide (p ≤ x)) = 0 := by
    rw [List.countP_eq_zero]
    intro a ha
    simp only [List.map_map, List.mem_map, List.mem_range, Function.comp] at ha
    obtain ⟨k, hk, rfl⟩ := ha
    simp only [decide_eq_true_eq, not_le]
    exact lt_of_lt_of_le h2 (hm (i + 1) (i + 1 + k) (by omega) (by omega))
  rw [a1, a2]

/-- C124. A phase is in group `i` exactly if it is at least the edge below it and below the edge above it (edges not decreasing, the outermost moved out by the whole range of the
central 94 % of the phases). -/
theorem groupOf_eq {low high : K} (h : low ≤ high) {n : Nat} (hn : 0 < n) (x : K) (i : Nat) (hi : i < n) :
    groupOf low high n x = (i : Int) ↔ edge low high n i ≤ x ∧ x < edge low high n (i + 1) := by
  have hm : ∀ a b, a ≤ b → b ≤ n → edge low high n a ≤ edge low high n b := fun a b hab hb => edge_mono h hn hab hb
  have hed : edges low high n = (List.range (n + 1)).map (edge low high n) := rfl
  constructor
  · intro hg
    unfold groupOf Corr.digitize at hg
    rw [hed] at hg
    by_cases hlo : x < edge low high n 0
    · rw [List.countP_eq_zero.2] at hg
      · omega
      · intro a ha
        simp only [List.mem_map, List.mem_range] at ha
        obtain ⟨k, hk, rfl⟩ := ha
        simp only [decide_eq_true_eq, not_le]
        exact lt_of_lt_of_le hlo (hm 0 k (by omega) (by omega))
    by_cases hhi : edge low high n n ≤ x
    · rw [List.countP_eq_length.2] at hg
      · simp at hg; omega
      · intro a ha
        simp only [List.mem_map, List.mem_range] at ha
        obtain ⟨k, hk, rfl⟩ := ha
        simp only [decide_eq_true_eq]
        exact le_trans (hm k n (by omega) (by omega)) hhi
    have hex : ∃ k, k < n ∧ edge low high n k ≤ x ∧ x < edge low high n (k + 1) := by
      have : ∀ m, m ≤ n → x < edge low high n m → ∃ k, k < n ∧ edge low high n k ≤ x ∧ x < edge low high n (k + 1) := by
        intro m
        induction m with
        | zero => intro _ hx; exact absurd hx hlo
        | succ m ih =>
          intro hm' hx
          by_cases hc : edge low high n m ≤ x
          · exact ⟨m, by omega, hc, hx⟩
          · exact ih (by omega) (not_le.1 hc)
      exact this n (le_refl _) (not_le.1 hhi)
    obtain ⟨k, hk, h1, h2⟩ := hex
    rw [countP_range_le n hm x k hk h1 h2] at hg
    have : k = i := by omega
    subst this
    exact ⟨h1, h2⟩
  · rintro ⟨h1, h2⟩
    unfold groupOf Corr.digitize
    rw [hed, countP_range_le n hm x i hi h1 h2]
    simp

/-- C124. Every pulse in the window is in exactly one group, unless its phase lies outside the central 94 % of the phases by more than their range: such pulses are in none and are
never moved. -/
theorem one_group {low high : K} (h : low < high) {n : Nat} (hn : 0 < n) (x : K) :
    (∃ i, i < n ∧ groupOf low high n x = (i : Int)) ↔ low - (high - low) ≤ x ∧ x < high + (high - low) := by
  have hn' : (n : K) ≠ 0 := by exact_mod_cast (show n ≠ 0 by omega)
  have e0 : edge low high n 0 = low - (high - low) := by
    unfold edge
    rw [if_pos rfl, if_neg (by omega)]
    simp
  have en : edge low high n n = high + (high - low) := by
    unfold edge
    rw [if_neg (by omega), if_pos rfl]
    field_simp
    ring
  rw [← e0, ← en]
  constructor
  · rintro ⟨i, hi, hg⟩
    obtain ⟨h1, h2⟩ := (groupOf_eq h.le hn x i hi).1 hg
    exact ⟨le_trans (edge_mono h.le hn (by omega) (by omega)) h1, lt_of_lt_of_le h2 (edge_mono h.le hn (by omega) (le_refl _))⟩
  · rintro ⟨h1, h2⟩
    have : ∀ m, m ≤ n → x < edge low high n m → ∃ k, k < n ∧ edge low high n k ≤ x ∧ x < edge low high n (k + 1) := by
      intro m
      induction m with
      | zero => intro _ hx; exact absurd h1 (not_le.2 hx)
      | succ m ih =>
        intro hm' hx
        by_cases hc : edge low high n m ≤ x
        · exact ⟨m, by omega, hc, hx⟩
        · exact ih (by omega) (not_le.1 hc)
    obtain ⟨k, hk, hk1, hk2⟩ := this n (le_refl _) h2
    exact ⟨k, hk, (groupOf_eq h.le hn x k hk).2 ⟨hk1, hk2⟩⟩

/-- C124. The knot of a group is NaN exactly if no pulse in the window has its phase between the edges of the group, which come from the 3 % and the 97 % point of the phases in the window. -/
theorem knots_none (pct : List K → Nat → K) (peak delta : K) (pulses : List (K × K)) :
    let x := (window peak delta pulses).map Prod.fst
    pct x 3 ≤ pct x 97 → (knots pct peak delta pulses).length = nGroups x.length ∧ ∀ i, i < nGroups x.length →
      ((knots pct peak delta pulses)[i]? = some none ↔ ∀ v ∈ x, ¬ (edge (pct x 3) (pct x 97) (nGroups x.length) i ≤ v ∧ v < edge (pct x 3) (pct x 97) (nGroups x.length) (i + 1))) := by
  dsimp only
  intro hle
  unfold knots
  dsimp only
  refine ⟨by simp, fun i hi => ?_⟩
  have hn := (nGroups_bounds ((window peak delta pulses).map Prod.fst).length).1
  rw [List.getElem?_map, List.getElem?_range hi]
  simp only [Option.map_some, Option.some.injEq]
  constructor
  · intro h v hv hc
    split at h
    · rename_i he
      rw [List.isEmpty_iff, List.filter_eq_nil_iff] at he
      have := he v hv
      rw [decide_eq_true_eq, groupOf_eq hle (by omega) v i hi] at this
      exact this hc
    · cases h
  · intro h
    rw [if_pos]
    rw [List.isEmpty_iff, List.filter_eq_nil_iff]
    intro v hv
    rw [decide_eq_true_eq, groupOf_eq hle (by omega) v i hi]
    exact h v hv

/-- pulses with the phases of ten values and a peak at 1000 -/
def exPulses : List (K × K) := (List.range 10).map (fun i : Nat => ((i : K) / 10, 1000 + (i : K)))

example : knots (fun _ q => if q = 3 then 0 else 9 / 10) (1000 : ℚ) 12 exPulses = [some (1 / 10), some (4 / 10), some (75 / 100)] := by decide +kernel

/-- C124. Disagreement (C124): if the pulses of a peak all have the same phase, no pulse is in a group, and every knot of the correction is NaN. -/
theorem same_phase_fails (pct : List K → Nat → K) (c : K) (hp : ∀ l q, (∀ v ∈ l, v = c) → pct l q = c) (peak delta : K) (pulses : List (K × K)) (h : ∀ p ∈ window peak delta pulses, p.1 = c) :
    ∀ k ∈ knots pct peak delta pulses, k = none := by
  intro k hk
  unfold knots at hk
  dsimp only at hk
  have hx : ∀ v ∈ (window peak delta pulses).map Prod.fst, v = c := by
    intro v hv
    obtain ⟨p, hp', rfl⟩ := List.mem_map.1 hv
    exact h p hp'
  rw [hp _ 3 hx, hp _ 97 hx] at hk
  generalize hn : nGroups _ = n at hk
  have hn3 : 3 ≤ n := hn ▸ (nGroups_bounds _).1
  simp only [List.mem_map, List.mem_range] at hk
  obtain ⟨i, hi, rfl⟩ := hk
  rw [if_pos]
  rw [List.isEmpty_iff, List.filter_eq_nil_iff]
  intro v hv
  simp only [decide_eq_true_eq]
  intro hg
  rw [hx v (by simpa using hv)] at hg
  obtain ⟨-, h2⟩ := (groupOf_eq (le_refl c) (by omega) c i hi).1 hg
  unfold edge at h2
  simp at h2

/-- C124. Disagreement (C124): if the phases of a peak lie at two values only (as arrival times in whole samples do), a group between them is empty and its knot is NaN. -/
theorem two_phases_fails : knots (fun _ q => if q = 3 then 0 else 1) (1000 : ℚ) 12 [(0, 1000), (1, 1001), (0, 999), (1, 1002)] = [some 0, none, some 1] := by decide +kernel

/-! ### OFF channels: the peaks come from the calibration -/

/-- channels.py L552-561 with `linePositionsFunc` None, and phase_correct.py L87-90: `np.asarray` of the calibration's own array is that array, and it is sorted in place. `attrs` is what
reading the values gives (it comes before), `after` all that follows the sorting. -/
def learnOff (attrs after : Except Exc Unit) (o : Obj K) : Obj K × Except Exc Unit :=
  match attrs with
  | .error e => (o, .error e)
  | .ok () =>
    if o.T.ph.length ≤ 0 then (o, .error .value)
    else ({ o with T := { o.T with ph := o.T.ph.insertionSort (· ≤ ·) } }, after)

/-- the calibration, if its pulse heights are in order already -/
theorem learnOff_sorted (attrs after : Except Exc Unit) (o : Obj K) (h : o.T.ph.Pairwise (· ≤ ·)) : (learnOff attrs after o).1 = o := by
  unfold learnOff
  cases attrs with
  | error e => rfl
  | ok u =>
    by_cases h0 : o.T.ph.length ≤ 0
    · dsimp only; rw [if_pos h0]
    · dsimp only; rw [if_neg h0, h.insertionSort_eq]

/-- C124. Learning a phase correction does not change the calibration its peaks come from, if that was used for a conversion since it was last changed, or its points are in order of pulse
height. What is missing: the other histories, for which it is false (`calibration_changed_fails`). -/
theorem learn_keeps_calibration_partial {bad : Fit K → Bool} {parse feat : String → Option K} {o : Obj K} (h : Reachable bad parse feat o) (attrs after : Except Exc Unit)
    (hs : o.T.stale = false ∨ o.T.ph.Pairwise (· ≤ ·)) : (learnOff attrs after o).1 = o := by
  refine learnOff_sorted attrs after o ?_
  rcases hs with hs | hs
  · obtain ⟨pts, hA, hinv⟩ := inv_reachable h
    rw [hA.ph]
    rcases hinv hs with hc | ⟨-, h2, -⟩
    · rw [hc.1]; exact List.Pairwise.nil
    · exact h2
  · exact hs

/-- the rough calibration of a channel as a recipe has it -/
def roughObj (c : Plan.Chan ℚ Nat) : Option (Obj ℚ) := c.energyRough.map (fun T => ⟨T, .identity, none⟩)

/-- C124. Disagreement (C124): learning a phase correction directly after planning the points of the rough calibration, the higher line first, gives its pulse heights to the wrong
energies: the calibration of (1100, 6403 eV) and (1000, 5898 eV) becomes that of (1000, 6403 eV) and (1100, 5898 eV). -/
theorem calibration_changed_fails : (roughObj (Plan.exPlan [⟨1100, "FeKAlpha", 0, none⟩, ⟨1000, "MnKAlpha", 0, none⟩])).map
    (fun o => ((convert (fun _ => false) o).2, (convert (fun _ => false) (learnOff (.ok ()) (.ok ()) o).1).2)) =
    some (.ok (.fit ⟨3, none, [1000, 1100], [5898, 6403], [], [], none⟩), .ok (.fit ⟨3, none, [1000, 1100], [6403, 5898], [], [], none⟩)) := by decide +kernel

end Mass.Calc.PhaseLearn
