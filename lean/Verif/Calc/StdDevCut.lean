import Verif.Stat.Location
import Mathlib.Algebra.Order.Floor.Semiring
import Mathlib.Data.Rat.Floor
/-! C112: the learned cut on the residual standard deviation (mass/off/channels.py L253-309). -/
namespace Mass.Calc.StdDevCut
open Mass Mass.Stat
variable {K : Type} [Field K] [LinearOrder K] [IsStrictOrderedRing K] [FloorRing K]

/-! ### model -/

/-- mass/off/util.py L347: the ratio of standard deviation and median absolute deviation -/
def sigmaOverMad : K := 1 / (67449 / 100000)

/-- mass/off/util.py L350-358 `median_absolute_deviation`: mad, sigma equivalent, median; `none` (nan) for no data -/
def medianAbsoluteDeviation (x : List K) : Option (K × K × K) :=
  if x = [] then none else some (Stat.mad x, Stat.mad x * sigmaOverMad, FirstN.median x)

/-- channels.py L268: the residuals of the pulses strictly between the edges; a pulse is (filtValue, residualStdDev) -/
def inBin (ps : List (K × K)) (lo hi : K) : List K := (ps.filter (fun p => decide (lo < p.1) && decide (p.1 < hi))).map Prod.snd

/-- channels.py L271-273, L281: median plus n times sigma of one bin; `none` is nan -/
def binThreshold (n : K) (ps : List (K × K)) (lo hi : K) : Option K :=
  (medianAbsoluteDeviation (inBin ps lo hi)).map (fun m => m.2.2 + n * m.2.1)

/-- channels.py L264-265: the number of whole bins; np.arange(0, amax, w) has ceil(amax / w) entries -/
def nBins (w amax : K) : Nat := ⌈amax / w⌉₊ - 1

/-- channels.py L266-281: the nodes (filtValue, threshold). `len(inds)` (L269) is the number of pulses altogether. The first node is 0 + n * 0. -/
def nodes (n minFv w : K) (ps : List (K × K)) (amax : K) : List (K × Option K) :=
  (minFv, some (0 + n * 0)) ::
    (if ps.length ≤ 4 then [] else
      (List.range (nBins w amax)).map (fun i : Nat => (((i : K) * w + ((i : K) + 1) * w) / 2, binThreshold n ps ((i : K) * w) (((i : K) + 1) * w))))

/-- channels.py L282-283: scipy's interp1d of kind "next": below the least node -1, above the greatest the last given threshold, else the threshold of the first
node, in increasing order, that is not below -/
def thresholdFunc (nd : List (K × Option K)) (x : K) : Option K :=
  let s := nd.insertionSort (fun a b => a.1 ≤ b.1)
  if s.all (fun a => decide (x < a.1)) then some (-1)
  else match s.find? (fun a => decide (x ≤ a.1)) with
    | some a => a.2
    | none => (nd.getLast?.getD (0, none)).2

/-- np.amax (channels.py L264) -/
def amax : List K → Except Exc K
  | [] => .error .value
  | x :: t => .ok (t.foldl max x)

/-- channels.py L288-290: the cut recipe: nan compares false -/
def passes (n minFv w : K) (ps : List (K × K)) (m fv r : K) : Bool :=
  match thresholdFunc (nodes n minFv w ps m) fv with
  | none => false
  | some t => decide (r < t)

/-- channels.py L253-290 `learnResidualStdDevCut`: the learned cut, as a function of filtValue and residualStdDev. The bin size is positive. -/
def learn (n minFv w : K) (ps : List (K × K)) : Except Exc (K → K → Bool) :=
  match amax (ps.map Prod.fst) with
  | .error e => .error e
  | .ok m => .ok (passes n minFv w ps m)

/-! ### lemmas -/

/-- the nodes of the bins [specification] -/
def bins (n w : K) (ps : List (K × K)) (N : Nat) : List (K × Option K) :=
  (List.range N).map (fun i : Nat => (((i : K) * w + ((i : K) + 1) * w) / 2, binThreshold n ps ((i : K) * w) (((i : K) + 1) * w)))

theorem bins_sorted {n w : K} (hw : 0 < w) (ps : List (K × K)) (N : Nat) : (bins n w ps N).Pairwise (fun a b => a.1 ≤ b.1) := by
  unfold bins
  rw [List.pairwise_map]
  refine List.pairwise_lt_range.imp ?_
  intro i j hij
  have : (i : K) ≤ (j : K) := by exact_mod_cast hij.le
  have := mul_le_mul_of_nonneg_right this hw.le
  dsimp only
  linarith

theorem sort_nodes {n w : K} (hw : 0 < w) (ps : List (K × K)) (N : Nat) (a : K × Option K) :
    (a :: bins n w ps N).insertionSort (fun a b => a.1 ≤ b.1) = (bins n w ps N).orderedInsert (fun a b => a.1 ≤ b.1) a := by
  rw [List.insertionSort_cons, (bins_sorted hw ps N).insertionSort_eq]

theorem nodes_eq {n minFv w : K} {ps : List (K × K)} {m : K} (h : 4 < ps.length) :
    nodes n minFv w ps m = (minFv, some 0) :: bins n w ps (nBins w m) := by
  unfold nodes
  rw [if_neg (by omega), mul_zero, zero_add]
  rfl

theorem find_insert {l : List (K × Option K)} {a : K × Option K} {x : K} (h : a.1 < x) :
    (l.orderedInsert (fun a b => a.1 ≤ b.1) a).find? (fun a => decide (x ≤ a.1)) = l.find? (fun a => decide (x ≤ a.1)) := by
  induction l with
  | nil => simp [h]
  | cons b l ih =>
    rw [List.orderedInsert_cons]
    split
    · rw [List.find?_cons]
      simp only [not_le.mpr h, decide_false]
    · rw [List.find?_cons, ih, List.find?_cons (a := b)]

/-- above minFv the first node does not matter -/
theorem threshold_above {n minFv w x : K} (hw : 0 < w) {ps : List (K × K)} {N : Nat} (hx : minFv < x) :
    thresholdFunc ((minFv, some 0) :: bins n w ps N) x = match (bins n w ps N).find? (fun a => decide (x ≤ a.1)) with
      | some a => a.2
      | none => (((minFv, some 0) :: bins n w ps N).getLast?.getD (0, none)).2 := by
  unfold thresholdFunc
  dsimp only
  rw [sort_nodes hw, find_insert hx, if_neg]
  rw [List.all_eq_true]
  intro h
  have := h (minFv, some 0) (by simp)
  simp at this
  exact absurd hx (not_lt.mpr this.le)

theorem find_bins {n w x : K} (hw : 0 < w) {ps : List (K × K)} {N i : Nat} (hi : i < N) (h1 : ((i : K) - 1 / 2) * w < x)
    (h2 : x ≤ ((i : K) + 1 / 2) * w) :
    (bins n w ps N).find? (fun a => decide (x ≤ a.1)) = some (((i : K) * w + ((i : K) + 1) * w) / 2, binThreshold n ps ((i : K) * w) (((i : K) + 1) * w)) := by
  rw [List.find?_eq_some_iff_getElem]
  refine ⟨by simp; linarith, i, by simpa [bins] using hi, by simp [bins], ?_⟩
  intro j hj
  have : (j : K) + 1 ≤ (i : K) := by exact_mod_cast hj
  have := mul_le_mul_of_nonneg_right this hw.le
  simp [bins]
  linarith

theorem find_bins_none {n w x : K} (hw : 0 < w) {ps : List (K × K)} {N : Nat} (h1 : ((N : K) - 1 / 2) * w < x) :
    (bins n w ps N).find? (fun a => decide (x ≤ a.1)) = none := by
  rw [List.find?_eq_none]
  intro a ha
  obtain ⟨j, hj, rfl⟩ := List.mem_map.mp ha
  have : (j : K) + 1 ≤ (N : K) := by exact_mod_cast List.mem_range.mp hj
  have := mul_le_mul_of_nonneg_right this hw.le
  simp
  linarith

/-! ### C112 -/

/-- C112. Above the lower limit, a pulse is judged by the bin whose middle is the first at or above it: it passes exactly if the residual is less than median plus
n standard deviations of the pulses of that bin. For the lower half of a bin that is the bin itself. Missing: the upper half (`upper_half_fails`). -/
theorem judged_by_bin_partial {n minFv w m : K} (hw : 0 < w) {ps : List (K × K)} (hlen : 4 < ps.length) {i : Nat} (hi : i < nBins w m) {fv : K} (hmin : minFv < fv)
    (h1 : ((i : K) - 1 / 2) * w < fv) (h2 : fv ≤ ((i : K) + 1 / 2) * w) (r : K) :
    passes n minFv w ps m fv r = true ↔ ∃ t, binThreshold n ps ((i : K) * w) (((i : K) + 1) * w) = some t ∧ r < t := by
  unfold passes
  rw [nodes_eq hlen, threshold_above hw hmin, find_bins hw hi h1 h2]
  dsimp only
  cases binThreshold n ps ((i : K) * w) (((i : K) + 1) * w) <;> simp

/-- C112. Pulses above the middle of the last whole bin are judged by that bin. -/
theorem judged_by_last {n minFv w m : K} (hw : 0 < w) {ps : List (K × K)} (hlen : 4 < ps.length) {N : Nat} (hN : nBins w m = N + 1) {fv : K} (hmin : minFv < fv)
    (h1 : ((N : K) + 1 / 2) * w < fv) (r : K) :
    passes n minFv w ps m fv r = true ↔ ∃ t, binThreshold n ps ((N : K) * w) (((N : K) + 1) * w) = some t ∧ r < t := by
  unfold passes
  rw [nodes_eq hlen, threshold_above hw hmin, find_bins_none hw (by rw [hN]; push_cast; linarith), hN]
  have : (((minFv, some 0) :: bins n w ps (N + 1)).getLast?.getD (0, none)).2 = binThreshold n ps ((N : K) * w) (((N : K) + 1) * w) := by
    unfold bins
    rw [List.range_succ, List.map_append, List.map_singleton, ← List.cons_append, List.getLast?_append]
    rfl
  dsimp only
  rw [this]
  cases binThreshold n ps ((N : K) * w) (((N : K) + 1) * w) <;> simp

/-- C112. Pulses at or below the lower limit do not pass. Missing: limits above half a bin (`limit_fails`). -/
theorem low_rejected_partial {n minFv w m : K} (hw : 0 < w) (hmin : minFv ≤ w / 2) (ps : List (K × K)) {fv r : K} (hfv : fv ≤ minFv) (hr : 0 ≤ r) :
    passes n minFv w ps m fv r = false := by
  have key : ∀ l : List (K × Option K), (∀ a ∈ l, minFv ≤ a.1) → l.Pairwise (fun a b => a.1 ≤ b.1) →
      (match thresholdFunc ((minFv, some 0) :: l) fv with
        | none => false
        | some t => decide (r < t)) = false := by
    intro l hl hs
    have e : ((minFv, some 0) :: l).insertionSort (fun a b => a.1 ≤ b.1) = (minFv, some 0) :: l := by
      apply List.Pairwise.insertionSort_eq
      exact List.pairwise_cons.mpr ⟨fun a ha => hl a ha, hs⟩
    unfold thresholdFunc
    dsimp only
    rw [e, List.find?_cons]
    simp only [hfv, decide_true]
    split <;> rename_i hh
    · split at hh
      · rfl
      · cases hh
    · split at hh <;> cases hh
      · rw [decide_eq_false_iff_not]; linarith
      · rw [decide_eq_false_iff_not]; linarith
  unfold passes nodes
  rw [mul_zero, zero_add]
  by_cases h : ps.length ≤ 4
  · rw [if_pos h]
    exact key [] (by simp) List.Pairwise.nil
  · rw [if_neg h]
    refine key _ ?_ (bins_sorted hw ps _)
    intro a ha
    obtain ⟨j, _, rfl⟩ := List.mem_map.mp ha
    have : (0 : K) ≤ (j : K) := by positivity
    have := mul_nonneg this hw.le
    dsimp only
    linarith

theorem binThreshold_eq {n : K} {ps : List (K × K)} {lo hi : K} (h : inBin ps lo hi ≠ []) :
    binThreshold n ps lo hi = some (FirstN.median (inBin ps lo hi) + n * (Stat.mad (inBin ps lo hi) * sigmaOverMad)) := by
  unfold binThreshold medianAbsoluteDeviation
  rw [if_neg h]
  rfl

theorem majority_range {x : List K} {a b : K} (h : x.length < 2 * x.countP (fun y => decide (a ≤ y ∧ y ≤ b))) :
    a ≤ FirstN.median x ∧ FirstN.median x ≤ b := by
  have hx : x ≠ [] := by rintro rfl; simp at h
  obtain ⟨h1, h2⟩ := Stat.median_half hx
  have meet : ∀ p q : K → Bool, x.length < x.countP p + x.countP q → ∃ y ∈ x, p y = true ∧ q y = true := by
    intro p q hpq
    by_contra hne
    push Not at hne
    have : x.countP q ≤ x.countP (fun y => decide ¬ p y = true) :=
      List.countP_mono_left (fun y hy hq => by simpa using fun hp => hne y hy hp hq)
    have := List.length_eq_countP_add_countP p (l := x)
    omega
  constructor
  · obtain ⟨y, _, hy1, hy2⟩ := meet (fun y => decide (a ≤ y ∧ y ≤ b)) (fun y => decide (y ≤ FirstN.median x)) (by omega)
    simp only [decide_eq_true_eq] at hy1 hy2
    exact hy1.1.trans hy2
  · obtain ⟨y, _, hy1, hy2⟩ := meet (fun y => decide (a ≤ y ∧ y ≤ b)) (fun y => decide (FirstN.median x ≤ y)) (by omega)
    simp only [decide_eq_true_eq] at hy1 hy2
    exact hy2.trans hy1.2

/-- C112. Robust: if more than half of the residuals of a bin lie between a and b, then so does the median, and the threshold is at most b plus n(b-a)/0.67449,
wherever the other residuals are. -/
theorem threshold_robust {n : K} (hn : 0 ≤ n) {ps : List (K × K)} {lo hi a b : K}
    (h : (inBin ps lo hi).length < 2 * (inBin ps lo hi).countP (fun y => decide (a ≤ y ∧ y ≤ b))) :
    ∃ t, binThreshold n ps lo hi = some t ∧ a ≤ t ∧ t ≤ b + n * ((b - a) * (100000 / 67449)) := by
  have hx : inBin ps lo hi ≠ [] := by intro e; rw [e] at h; simp at h
  refine ⟨_, binThreshold_eq hx, ?_⟩
  obtain ⟨h1, h2⟩ := majority_range h
  generalize inBin ps lo hi = x at *
  have hm : 0 ≤ Stat.mad x ∧ Stat.mad x ≤ b - a := by
    refine ⟨(Stat.mad_half hx).2.2, ?_⟩
    unfold Stat.mad
    refine (majority_range (a := 0) ?_).2
    rw [List.length_map, List.countP_map]
    refine lt_of_lt_of_le h (Nat.mul_le_mul_left 2 (List.countP_mono_left ?_))
    intro y _ hy
    simp only [decide_eq_true_eq, Function.comp] at hy ⊢
    refine ⟨abs_nonneg _, abs_le.mpr ⟨by linarith [hy.1], by linarith [hy.2]⟩⟩
  have hs : (sigmaOverMad : K) = 100000 / 67449 := by
    unfold sigmaOverMad
    norm_num
  rw [hs]
  have hc : (0 : K) < 100000 / 67449 := by norm_num
  constructor
  · have := mul_nonneg hn (mul_nonneg hm.1 hc.le)
    linarith
  · have := mul_le_mul_of_nonneg_left (mul_le_mul_of_nonneg_right hm.2 hc.le) hn
    linarith

/-- C112. With at least one sigma and a spread that is not zero, at least half of the residuals of a bin are below its threshold. Missing: equal residuals
(`equal_fails`). -/
theorem half_below_partial {n : K} (hn : 1 ≤ n) {ps : List (K × K)} {lo hi : K} (hx : inBin ps lo hi ≠ []) (hm : Stat.mad (inBin ps lo hi) ≠ 0) :
    ∃ t, binThreshold n ps lo hi = some t ∧ (inBin ps lo hi).length ≤ 2 * (inBin ps lo hi).countP (fun y => decide (y < t)) := by
  refine ⟨_, binThreshold_eq hx, ?_⟩
  obtain ⟨h1, -, h3⟩ := Stat.mad_half hx
  generalize inBin ps lo hi = x at *
  refine h1.trans (Nat.mul_le_mul_left 2 (List.countP_mono_left ?_))
  intro y _ hy
  simp only [decide_eq_true_eq] at hy ⊢
  have hpos : 0 < Stat.mad x := lt_of_le_of_ne h3 (Ne.symm hm)
  have hs : (1 : K) < sigmaOverMad := by
    unfold sigmaOverMad
    norm_num
  have h4 := mul_lt_mul_of_pos_left hs hpos
  have h5 := mul_le_mul_of_nonneg_right hn (mul_pos hpos (lt_trans one_pos hs)).le
  have := (abs_le.mp hy).2
  linarith

theorem find_mono {l l' : List (K × Option K)} {P : Option K → Option K → Prop} (h : List.Forall₂ (fun a b => a.1 = b.1 ∧ P a.2 b.2) l l') (x : K) :
    (l.find? (fun a => decide (x ≤ a.1)) = none ∧ l'.find? (fun a => decide (x ≤ a.1)) = none) ∨
    ∃ a b, l.find? (fun a => decide (x ≤ a.1)) = some a ∧ l'.find? (fun a => decide (x ≤ a.1)) = some b ∧ P a.2 b.2 := by
  induction h with
  | nil => exact Or.inl ⟨rfl, rfl⟩
  | @cons a b l l' hab _ ih =>
    by_cases hx : x ≤ a.1
    · exact Or.inr ⟨a, b, by rw [List.find?_cons]; simp [hx], by rw [List.find?_cons]; simp [← hab.1, hx], hab.2⟩
    · have h1 : (a :: l).find? (fun a => decide (x ≤ a.1)) = l.find? (fun a => decide (x ≤ a.1)) := by rw [List.find?_cons]; simp [hx]
      have h2 : (b :: l').find? (fun a => decide (x ≤ a.1)) = l'.find? (fun a => decide (x ≤ a.1)) := by rw [List.find?_cons]; simp [← hab.1, hx]
      rw [h1, h2]
      exact ih

theorem insert_forall₂ {l l' : List (K × Option K)} {P : Option K → Option K → Prop} {a b : K × Option K} (hab : a.1 = b.1 ∧ P a.2 b.2)
    (h : List.Forall₂ (fun a b => a.1 = b.1 ∧ P a.2 b.2) l l') :
    List.Forall₂ (fun a b => a.1 = b.1 ∧ P a.2 b.2) (l.orderedInsert (fun a b => a.1 ≤ b.1) a) (l'.orderedInsert (fun a b => a.1 ≤ b.1) b) := by
  induction h with
  | nil => exact .cons hab .nil
  | @cons c d l l' hcd hl ih =>
    rw [List.orderedInsert_cons, List.orderedInsert_cons]
    by_cases hx : a.1 ≤ c.1
    · rw [if_pos hx, if_pos (by rw [← hab.1, ← hcd.1]; exact hx)]
      exact .cons hab (.cons hcd hl)
    · rw [if_neg hx, if_neg (by rw [← hab.1, ← hcd.1]; exact hx)]
      exact .cons hcd ih

theorem sort_forall₂ {l l' : List (K × Option K)} {P : Option K → Option K → Prop} (h : List.Forall₂ (fun a b => a.1 = b.1 ∧ P a.2 b.2) l l') :
    List.Forall₂ (fun a b => a.1 = b.1 ∧ P a.2 b.2) (l.insertionSort (fun a b => a.1 ≤ b.1)) (l'.insertionSort (fun a b => a.1 ≤ b.1)) := by
  induction h with
  | nil => exact .nil
  | cons hab _ ih => exact insert_forall₂ hab ih

theorem all_forall₂ {l l' : List (K × Option K)} {P : Option K → Option K → Prop} (h : List.Forall₂ (fun a b => a.1 = b.1 ∧ P a.2 b.2) l l') (x : K) :
    l.all (fun a => decide (x < a.1)) = l'.all (fun a => decide (x < a.1)) := by
  induction h with
  | nil => rfl
  | cons hab _ ih => rw [List.all_cons, List.all_cons, ih, hab.1]

theorem last_forall₂ {l l' : List (K × Option K)} {P : Option K → Option K → Prop} (h : List.Forall₂ (fun a b => a.1 = b.1 ∧ P a.2 b.2) l l') (h0 : P none none) :
    P (l.getLast?.getD (0, none)).2 (l'.getLast?.getD (0, none)).2 := by
  induction h with
  | nil => exact h0
  | @cons a b l l' hab hl ih =>
    cases hl with
    | nil => exact hab.2
    | cons _ _ => simpa [List.getLast?_cons_cons] using ih

theorem threshold_rel {l l' : List (K × Option K)} {P : Option K → Option K → Prop} (h : List.Forall₂ (fun a b => a.1 = b.1 ∧ P a.2 b.2) l l') (h0 : P none none)
    (h1 : P (some (-1)) (some (-1))) (x : K) : P (thresholdFunc l x) (thresholdFunc l' x) := by
  unfold thresholdFunc
  dsimp only
  have hs := sort_forall₂ h
  rw [all_forall₂ hs x]
  split
  · exact h1
  · rcases find_mono hs x with ⟨e1, e2⟩ | ⟨a, b, e1, e2, hp⟩
    · rw [e1, e2]
      exact last_forall₂ h h0
    · rw [e1, e2]
      exact hp

/-- C112. More sigmas keep more pulses. -/
theorem passes_mono {n n' : K} (hn : n ≤ n') (minFv w : K) (ps : List (K × K)) (m fv r : K) (h : passes n minFv w ps m fv r = true) :
    passes n' minFv w ps m fv r = true := by
  have hb : ∀ lo hi, ∀ t, binThreshold n ps lo hi = some t → ∃ t', binThreshold n' ps lo hi = some t' ∧ t ≤ t' := by
    intro lo hi t ht
    by_cases hx : inBin ps lo hi = []
    · simp [binThreshold, medianAbsoluteDeviation, hx] at ht
    · rw [binThreshold_eq hx] at ht
      refine ⟨_, binThreshold_eq hx, ?_⟩
      cases ht
      have h3 := (Stat.mad_half hx).2.2
      have hs : (0 : K) ≤ sigmaOverMad := by unfold sigmaOverMad; norm_num
      have := mul_le_mul_of_nonneg_right hn (mul_nonneg h3 hs)
      linarith
  have key : ∀ t, thresholdFunc (nodes n minFv w ps m) fv = some t → ∃ t', thresholdFunc (nodes n' minFv w ps m) fv = some t' ∧ t ≤ t' := by
    refine threshold_rel (P := fun a b => ∀ t, a = some t → ∃ t', b = some t' ∧ t ≤ t') ?_ ?_ ?_ fv
    · unfold nodes
      refine .cons ⟨rfl, ?_⟩ ?_
      · intro t ht
        refine ⟨_, rfl, ?_⟩
        cases ht
        simp
      · split
        · exact .nil
        · rw [List.forall₂_map_left_iff, List.forall₂_map_right_iff]
          exact List.forall₂_same.mpr (fun i _ => ⟨rfl, hb _ _⟩)
    · intro t ht
      cases ht
    · intro t ht
      exact ⟨t, ht, le_refl t⟩
  unfold passes at h ⊢
  cases ht : thresholdFunc (nodes n minFv w ps m) fv with
  | none => rw [ht] at h; simp at h
  | some t =>
    obtain ⟨t', ht', hle⟩ := key t ht
    rw [ht] at h
    rw [ht']
    simp only [decide_eq_true_eq] at h ⊢
    exact lt_of_lt_of_le h hle

/-- all residuals multiplied by s [specification] -/
def scaled (s : K) (ps : List (K × K)) : List (K × K) := ps.map (fun p => (p.1, s * p.2))

theorem inBin_scaled (s : K) (ps : List (K × K)) (lo hi : K) : inBin (scaled s ps) lo hi = (inBin ps lo hi).map (fun y => s * y) := by
  unfold inBin scaled
  rw [List.filter_map, List.map_map, List.map_map]
  rfl

/-- C112. The unit of the residuals does not matter (they are not negative). -/
theorem passes_scale {s : K} (hs : 0 < s) (n minFv w : K) (ps : List (K × K)) (m fv r : K) (hr : 0 ≤ r) :
    passes n minFv w (scaled s ps) m fv (s * r) = passes n minFv w ps m fv r := by
  have hb : ∀ lo hi, binThreshold n (scaled s ps) lo hi = (binThreshold n ps lo hi).map (fun t => s * t) := by
    intro lo hi
    by_cases hx : inBin ps lo hi = []
    · simp [binThreshold, medianAbsoluteDeviation, inBin_scaled, hx]
    · have e : (inBin ps lo hi).map (fun y => s * y) = (inBin ps lo hi).map (fun y => s * y + 0) := by simp
      rw [binThreshold_eq (by rw [inBin_scaled]; simpa using hx), binThreshold_eq hx, inBin_scaled, e, Stat.median_affine hs.ne' 0 hx,
        Stat.mad_affine hs.ne' 0 hx, abs_of_pos hs]
      simp only [Option.map_some, Option.some.injEq]
      ring
  have key : thresholdFunc (nodes n minFv w (scaled s ps) m) fv = (thresholdFunc (nodes n minFv w ps m) fv).map (fun t => s * t) ∨
      (thresholdFunc (nodes n minFv w (scaled s ps) m) fv = some (-1) ∧ thresholdFunc (nodes n minFv w ps m) fv = some (-1)) := by
    refine threshold_rel (P := fun a b => a = b.map (fun t => s * t) ∨ (a = some (-1) ∧ b = some (-1))) ?_ ?_ ?_ fv
    · unfold nodes
      refine .cons ⟨rfl, Or.inl (by simp)⟩ ?_
      have hl : (scaled s ps).length = ps.length := by simp [scaled]
      rw [hl]
      split
      · exact .nil
      · rw [List.forall₂_map_left_iff, List.forall₂_map_right_iff]
        exact List.forall₂_same.mpr (fun i _ => ⟨rfl, Or.inl (hb _ _)⟩)
    · exact Or.inl rfl
    · exact Or.inr ⟨rfl, rfl⟩
  unfold passes
  rcases key with h | ⟨h1, h2⟩
  · rw [h]
    cases thresholdFunc (nodes n minFv w ps m) fv with
    | none => rfl
    | some t => simp [mul_lt_mul_iff_right₀ hs]
  · rw [h1, h2]
    have := mul_nonneg hs.le hr
    have e1 : ¬ s * r < -1 := by linarith
    have e2 : ¬ r < -1 := by linarith
    simp [e1, e2]

/-- C112. The cut is learned from any pulses at all, and from no pulses there is an exception. -/
theorem learn_ok (n minFv w : K) (ps : List (K × K)) :
    (ps = [] → learn n minFv w ps = .error .value) ∧
    (ps ≠ [] → ∃ m, learn n minFv w ps = .ok (passes n minFv w ps m) ∧ (∀ p ∈ ps, p.1 ≤ m) ∧ ∃ p ∈ ps, p.1 = m) := by
  constructor
  · rintro rfl
    rfl
  · intro h
    cases ps with
    | nil => exact absurd rfl h
    | cons p t =>
      refine ⟨(t.map Prod.fst).foldl max p.1, rfl, ?_, ?_⟩
      · have gen : ∀ (l : List K) (a : K), a ≤ l.foldl max a ∧ ∀ x ∈ l, x ≤ l.foldl max a := by
          intro l
          induction l with
          | nil => intro a; simp
          | cons b l ih =>
            intro a
            obtain ⟨h1, h2⟩ := ih (max a b)
            refine ⟨(le_max_left a b).trans h1, ?_⟩
            intro x hx
            rcases List.mem_cons.mp hx with rfl | hx
            · exact (le_max_right a x).trans h1
            · exact h2 x hx
        intro q hq
        rcases List.mem_cons.mp hq with rfl | hq
        · exact (gen _ _).1
        · exact (gen _ _).2 _ (List.mem_map_of_mem hq)
      · have gen : ∀ (l : List K) (a : K), l.foldl max a = a ∨ l.foldl max a ∈ l := by
          intro l
          induction l with
          | nil => intro a; exact Or.inl rfl
          | cons b l ih =>
            intro a
            rw [List.foldl_cons]
            rcases ih (max a b) with h | h
            · rw [h]
              rcases max_choice a b with h | h <;> rw [h]
              · exact Or.inl rfl
              · exact Or.inr List.mem_cons_self
            · exact Or.inr (List.mem_cons_of_mem _ h)
        rcases gen (t.map Prod.fst) p.1 with h | h
        · exact ⟨p, List.mem_cons_self, h.symm⟩
        · obtain ⟨q, hq, e⟩ := List.mem_map.mp h
          exact ⟨q, List.mem_cons_of_mem _ hq, e⟩

/-! ### disagreements -/

/-- Disagreement (C112): if there are fewer than five pulses, or none has a filtValue above the bin size, then the learned cut rejects every pulse there can be. -/
theorem all_rejected_fails {n minFv w m : K} (hw : 0 < w) {ps : List (K × K)} (h : ps.length ≤ 4 ∨ m ≤ w) (fv : K) {r : K} (hr : 0 ≤ r) :
    passes n minFv w ps m fv r = false := by
  have hn : nodes n minFv w ps m = [(minFv, some 0)] := by
    unfold nodes
    rw [mul_zero, zero_add]
    split
    · rfl
    · rename_i h4
      have hm := h.resolve_left h4
      have : nBins w m = 0 := by
        unfold nBins
        have : ⌈m / w⌉₊ ≤ 1 := by
          rw [Nat.ceil_le, Nat.cast_one]
          exact (div_le_one hw).mpr hm
        omega
      rw [this]
      rfl
  unfold passes
  rw [hn]
  unfold thresholdFunc
  dsimp only
  rw [List.insertionSort_cons, List.insertionSort_nil, List.orderedInsert_nil]
  by_cases h1 : fv < minFv
  · have : ¬ r < -1 := by linarith
    simp [h1, this]
  · by_cases h2 : fv ≤ minFv
    · simp [h1, h2, hr]
    · simp [h1, h2, hr]

/-- pulses with residuals about 10, one of a large filtValue -/
def exPulses : List (ℚ × ℚ) := [(500, 10), (600, 11), (700, 9), (800, 10), (1500, 11), (1600, 9), (1700, 12), (4100, 10)]

/-- Disagreement (C112): a pulse in the upper half of a bin is judged by the next bin, not its own: here the next bin is empty, and pulses with quite ordinary
residuals are rejected, while the same residuals pass in the lower half. -/
theorem upper_half_fails : ∃ c, learn 15 150 2000 exPulses = .ok c ∧ c 600 11 = true ∧ c 800 10 = true ∧ c 1500 11 = false ∧ c 1600 9 = false ∧ c 1700 12 = false :=
  ⟨_, rfl, by decide +kernel, by decide +kernel, by decide +kernel, by decide +kernel, by decide +kernel⟩

/-- Disagreement (C112): a bin with a single pulse is not left out: the pulse is compared with itself and rejected. -/
theorem single_fails : ∃ c, learn 15 150 2000 ((2500, 10) :: exPulses) = .ok c ∧ c 2500 10 = false ∧ c 2500 9 = true :=
  ⟨_, rfl, by decide +kernel, by decide +kernel⟩

/-- Disagreement (C112): if all residuals of a bin are equal, all its pulses are rejected. -/
theorem equal_fails : ∃ c, learn 15 150 2000 ([(500, 10), (600, 10), (700, 10), (800, 10), (3900, 10), (4100, (10 : ℚ))]) = .ok c ∧ c 500 10 = false ∧ c 600 10 = false :=
  ⟨_, rfl, by decide +kernel, by decide +kernel⟩

/-! ### examples -/

/-- pulses in three bins of 1000 -/
def exBins : List (ℚ × ℚ) := [(200, 10), (400, 11), (450, 9), (480, 500), (1100, 20), (1200, 22), (1300, 19), (1400, 21), (2200, 30), (2300, 33), (2400, 29), (3100, 30)]

example : ∃ c, learn 15 150 1000 exBins = .ok c ∧ c 200 10 = true ∧ c 400 11 = true ∧ c 480 500 = false ∧ c 100 10 = false ∧ c 1200 22 = true ∧ c 2900 31 = true :=
  ⟨_, rfl, by decide +kernel, by decide +kernel, by decide +kernel, by decide +kernel, by decide +kernel, by decide +kernel⟩

example : passes 15 150 1000 exBins 3100 450 9 = true ↔ ∃ t, binThreshold 15 exBins 0 1000 = some t ∧ (9 : ℚ) < t := by
  have := judged_by_bin_partial (n := 15) (minFv := 150) (w := 1000) (m := 3100) (ps := exBins) (i := 0) (fv := 450) (by norm_num) (by decide) (by decide +kernel)
    (by norm_num) (by norm_num) (by norm_num) 9
  norm_num at this
  exact this

example : ∃ t, binThreshold 15 exBins 0 1000 = some t ∧ (9 : ℚ) ≤ t ∧ t ≤ 11 + 15 * ((11 - 9) * (100000 / 67449)) :=
  threshold_robust (by norm_num) (by decide +kernel)

/-- Disagreement (C112): a lower limit above the middle of the second bin is not respected. -/
theorem limit_fails : ∃ c, learn 15 1600 1000 exBins = .ok c ∧ c 800 10 = true := ⟨_, rfl, by decide +kernel⟩

end Mass.Calc.StdDevCut
