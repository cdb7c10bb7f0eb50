import Verif.Calc.Plan
import Verif.Stat.Location
import Mathlib.Algebra.Order.Floor.Ring
import Mathlib.Data.Rat.Floor
/-! C115: aligning a channel to a reference channel (mass/off/channels.py L702-728, L897-918, L940-965, L1016-1033). -/
namespace Mass.Calc.Align
open Mass Mass.Stat Mass.Calc.Cal Mass.Calc.Plan
set_option linter.unusedSectionVars false

variable {K : Type} [Field K] [LinearOrder K] [IsStrictOrderedRing K] [FloorRing K] {S C : Type}

/-! ### model -/

/-- `bin_edges` (channels.py L948, L955): taken to be evenly spaced, `n` bins of size `step` from `lo` -/
structure Bins (K : Type) where
  lo : K
  step : K
  n : Nat

/-- the edges, used in channels.py L914 -/
def edge (b : Bins K) (i : Nat) : K := b.lo + (i : K) * b.step

/-- channels.py L948: the centers -/
def center (b : Bins K) (i : Nat) : K := 1 / 2 * (edge b (i + 1) + edge b i)

/-- channels.py L955: `np.searchsorted(bin_edges, x) - 1`, from the left -/
def peakInd (b : Bins K) (x : K) : Int := ((List.range (b.n + 1)).countP (fun i => decide (edge b i < x)) : Nat) - 1

/-- conversion to int truncates toward zero (channels.py L918) -/
def trunc (x : K) : Int := if 0 ≤ x then ⌊x⌋ else ⌈x⌉

/-- channels.py L898-901: ratio of the medians -/
def ratio (scale : Bool) (phA phB : List K) : K := if scale then FirstN.median phA / FirstN.median phB else 1

/-- channels.py L910-913: the first entry of the path with this bin of a; `i_a.index` raises ValueError if there is none -/
def matching (path : List (Nat × Nat)) (k : Int) : Except Exc Nat :=
  match path.find? (fun p => (p.1 : Int) == k) with
  | some p => .ok p.2
  | none => .error .value

/-- channels.py L912-918 for one peak: the bin of b, scaled back -/
def peakB (b : Bins K) (r : K) (path : List (Nat × Nat)) (k : Int) : Except Exc Int :=
  match matching path k with
  | .error e => .error e
  | .ok j => .ok (trunc ((edge b j / r - b.lo) / b.step))

/-- channels.py L897-918 `dtw_same_peaks`, with the histogram and the path (fastdtw, after normalizing) as arbitrary functions -/
def samePeaks (b : Bins K) (hist : List K → C) (dtw : C → C → List (Nat × Nat)) (scale : Bool) (phA phB : List K) (inds : List Int) : Except Exc (List Int) :=
  let r := ratio scale phA phB
  let path := dtw (hist phA) (hist (phB.map (fun x => x * r)))
  inds.mapM (peakB b r path)

/-- `self.bin_centers[i]` (channels.py L1019): a negative index counts from the end -/
def centerAt (b : Bins K) (i : Int) : Except Exc K :=
  if 0 ≤ i ∧ i < b.n then .ok (center b i.toNat) else if i < 0 ∧ -(b.n : Int) ≤ i then .ok (center b (b.n + i).toNat) else .error .index

/-- channels.py L1018-1019: adding the points -/
def calLoop (b : Bins K) : List (Int × Int) → Tbl K → Except Exc (Tbl K)
  | [], T => .ok T
  | (a, i) :: t, T =>
    match centerAt b i with
    | .error e => .error e
    | .ok pb =>
      match centerAt b a with
      | .error e => .error e
      | .ok pa =>
        match addTo T pb pa "" none with
        | (_, .error e) => .error e
        | (T', .ok _) => calLoop b t T'

/-- channels.py L955-956, L1016-1022: alignment and the calibration of b in units of a -/
def calBtoA (b : Bins K) (hist : List K → C) (dtw : C → C → List (Nat × Nat)) (scale : Bool) (phA phB peaks : List K) : Except Exc (Tbl K) :=
  let inds := peaks.map (peakInd b)
  match samePeaks b hist dtw scale phA phB inds with
  | .error e => .error e
  | .ok indsB => calLoop b (inds.zip indsB) (newCal 3 false)

/-- channels.py L713-721: the plan of the channel after alignment to a reference channel with plan `ref`; `e2ph` converts with the calibration above -/
def alignedPlan (e2ph : K → K) (isRef peaksGiven : Bool) (own ref : Plan K S) : Plan K S :=
  if !peaksGiven && !isRef then (ref.vals.zip (ref.states.zip ref.lines)).foldl (fun p q => addCalPoint p (e2ph q.1) q.2.1 q.2.2) emptyPlan else own

/-- channels.py L1024-1033 `testForGoodnessBasedOnCalCurvature` for the derivatives at the points; `np.amax` of nothing raises. The median is taken to be positive
where it divides. -/
def goodCurvature (frac : K) (ders : List K) : Except Exc Bool :=
  if frac ≤ 0 then .error .assertion
  else
    match ders with
    | [] => .error .value
    | d :: t =>
      let hi := (t.foldl max d) / FirstN.median ders
      let lo := (t.foldl min d) / FirstN.median ders
      .ok (decide (hi < 1 + frac) && decide (1 / (1 + frac) < lo))

/-! ### lemmas -/

/-- a warping path between two histograms of `n` bins: from the first to the last bins, each step advances one or both by one [specification] -/
def IsWarp (n : Nat) (path : List (Nat × Nat)) : Prop :=
  path.head? = some (0, 0) ∧ path.getLast? = some (n - 1, n - 1) ∧
    path.IsChain (fun p q => (q.1 = p.1 + 1 ∧ q.2 = p.2) ∨ (q.1 = p.1 ∧ q.2 = p.2 + 1) ∨ (q.1 = p.1 + 1 ∧ q.2 = p.2 + 1))

theorem visits (path : List (Nat × Nat)) : ∀ (p last : Nat × Nat) (k : Nat), path.head? = some p → path.getLast? = some last →
    path.IsChain (fun p q => (q.1 = p.1 + 1 ∧ q.2 = p.2) ∨ (q.1 = p.1 ∧ q.2 = p.2 + 1) ∨ (q.1 = p.1 + 1 ∧ q.2 = p.2 + 1)) → p.1 ≤ k → k ≤ last.1 → ∃ q ∈ path, q.1 = k := by
  induction path with
  | nil => intro p last k h; simp at h
  | cons x t ih =>
    intro p last k h1 h2 h3 h4 h5
    simp only [List.head?_cons, Option.some.injEq] at h1
    subst h1
    by_cases hk : x.1 = k
    · exact ⟨x, List.mem_cons_self, hk⟩
    · cases t with
      | nil =>
        simp only [List.getLast?_singleton, Option.some.injEq] at h2
        subst h2
        omega
      | cons y t =>
        rw [List.isChain_cons_cons] at h3
        rw [List.getLast?_cons_cons] at h2
        obtain ⟨q, hq, hq'⟩ := ih y last k rfl h2 h3.2 (by have := h3.1; omega) h5
        exact ⟨q, List.mem_cons_of_mem _ hq, hq'⟩

theorem pairwise_mem {α : Type} {R : α → α → Prop} (hs : ∀ x y, R x y → R y x) (hr : ∀ x, R x x) : ∀ {l : List α}, l.Pairwise R → ∀ {x y}, x ∈ l → y ∈ l → R x y := by
  intro l
  induction l with
  | nil => intro _ x y hx; simp at hx
  | cons a l ih =>
    intro h x y hx hy
    rw [List.pairwise_cons] at h
    rcases List.mem_cons.mp hx with rfl | hx'
    · rcases List.mem_cons.mp hy with rfl | hy
      · exact hr _
      · exact h.1 y hy
    · rcases List.mem_cons.mp hy with rfl | hy
      · exact hs _ _ (h.1 x hx')
      · exact ih h.2 hx' hy

theorem path_ordered {n : Nat} {path : List (Nat × Nat)} (h : IsWarp n path) {p q : Nat × Nat} (hp : p ∈ path) (hq : q ∈ path) (hlt : p.1 < q.1) : p.2 ≤ q.2 := by
  have h1 : path.Pairwise (fun p q => p.1 ≤ q.1 ∧ p.2 ≤ q.2) := by
    have : path.IsChain (fun p q => p.1 ≤ q.1 ∧ p.2 ≤ q.2) := h.2.2.imp (fun p q h => by omega)
    haveI htr : IsTrans (Nat × Nat) (fun p q => p.1 ≤ q.1 ∧ p.2 ≤ q.2) := ⟨fun a b c h1 h2 => ⟨h1.1.trans h2.1, h1.2.trans h2.2⟩⟩
    exact List.isChain_iff_pairwise.mp this
  have h2 : path.Pairwise (fun p q => (p.1 ≤ q.1 ∧ p.2 ≤ q.2) ∨ (q.1 ≤ p.1 ∧ q.2 ≤ p.2)) := h1.imp (fun h => Or.inl h)
  have h3 := pairwise_mem (R := fun p q : Nat × Nat => (p.1 ≤ q.1 ∧ p.2 ≤ q.2) ∨ (q.1 ≤ p.1 ∧ q.2 ≤ p.2)) (fun _ _ h => h.symm) (fun _ => Or.inl ⟨le_refl _, le_refl _⟩) h2 hp hq
  rcases h3 with h3 | h3
  · exact h3.2
  · omega

theorem trunc_mono {x y : K} (h : x ≤ y) : trunc x ≤ trunc y := by
  unfold trunc
  by_cases hx : 0 ≤ x
  · rw [if_pos hx, if_pos (hx.trans h)]
    exact Int.floor_mono h
  · rw [if_neg hx]
    by_cases hy : 0 ≤ y
    · rw [if_pos hy]
      exact (Int.ceil_le.2 (by simpa using (not_le.1 hx).le)).trans (Int.floor_nonneg.2 hy)
    · rw [if_neg hy]
      exact Int.ceil_mono h

theorem edge_mono {b : Bins K} (h0 : 0 < b.step) {i j : Nat} (h : i ≤ j) : edge b i ≤ edge b j := by
  unfold edge
  have : (i : K) ≤ j := by exact_mod_cast h
  nlinarith

theorem edge_strict {b : Bins K} (h0 : 0 < b.step) {i j : Nat} (h : i < j) : edge b i < edge b j := by
  unfold edge
  have : (i : K) < j := by exact_mod_cast h
  nlinarith

theorem countP_range {n k : Nat} (hk : k ≤ n) {p : Nat → Bool} (h1 : ∀ i, i < k → p i = true) (h2 : ∀ i, k ≤ i → i < n → p i = false) : (List.range n).countP p = k := by
  induction n with
  | zero => simp; omega
  | succ n ih =>
    rw [List.range_succ, List.countP_append]
    by_cases hkn : k ≤ n
    · rw [ih hkn (fun i hi hi' => h2 i hi (by omega))]
      simp [h2 n hkn (by omega)]
    · have : k = n + 1 := by omega
      have h3 : (List.range n).countP p = n := by
        rw [List.countP_eq_length.2 (fun i hi => h1 i (by have := List.mem_range.1 hi; omega))]
        simp
      rw [h3]
      simp [h1 n (by omega), this]

/-! ### C115 -/

/-- C115. A peak of the reference channel above the first edge and not above the last is in the bin with lower edge below and upper edge not below it; other peaks are in no bin. -/
theorem peak_bin {b : Bins K} (h0 : 0 < b.step) (x : K) :
    (∀ k, k < b.n → edge b k < x → x ≤ edge b (k + 1) → peakInd b x = k) ∧ (x ≤ b.lo → peakInd b x = -1) ∧ (edge b b.n < x → peakInd b x = b.n) := by
  unfold peakInd
  refine ⟨?_, ?_, ?_⟩
  · intro k hk h1 h2
    rw [countP_range (k := k + 1) (by omega) (fun i hi => by simpa using lt_of_le_of_lt (edge_mono h0 (by omega)) h1)
      (fun i hi _ => by simpa using h2.trans (edge_mono h0 hi))]
    push_cast
    ring
  · intro h
    rw [countP_range (k := 0) (by omega) (fun i hi => by omega) (fun i _ _ => by
      have : edge b 0 ≤ edge b i := edge_mono h0 (by omega)
      have e0 : edge b 0 = b.lo := by simp [edge]
      simpa using h.trans (e0 ▸ this))]
    rfl
  · intro h
    rw [countP_range (k := b.n + 1) (le_refl _) (fun i hi => by simpa using lt_of_le_of_lt (edge_mono h0 (by omega)) h) (fun i hi hi' => by omega)]
    push_cast
    ring

/-- C115. Whatever warping path is found, every peak in a bin has a partner, ordered like the peaks. -/
theorem partner_exists {b : Bins K} (r : K) {path : List (Nat × Nat)} (h : IsWarp b.n path) {k : Nat} (hk : k < b.n) : ∃ i, peakB b r path k = .ok i := by
  obtain ⟨q, hq, hq'⟩ := visits path (0, 0) (b.n - 1, b.n - 1) k h.1 h.2.1 h.2.2 (by omega) (by dsimp only; omega)
  unfold peakB matching
  cases hf : path.find? (fun p => (p.1 : Int) == (k : Int)) with
  | none =>
    have := List.find?_eq_none.mp hf q hq
    simp [hq'] at this
  | some p => exact ⟨_, rfl⟩

/-- C115. The partners of peaks in increasing order are in order, for every warping path and positive ratio of medians. -/
theorem partner_mono {b : Bins K} (h0 : 0 < b.step) {r : K} (hr : 0 < r) {path : List (Nat × Nat)} (h : IsWarp b.n path) {k l : Int} (hkl : k ≤ l) {i j : Int}
    (hi : peakB b r path k = .ok i) (hj : peakB b r path l = .ok j) : i ≤ j := by
  unfold peakB matching at hi hj
  cases hp : path.find? (fun p => (p.1 : Int) == k) with
  | none => rw [hp] at hi; cases hi
  | some p =>
    cases hq : path.find? (fun p => (p.1 : Int) == l) with
    | none => rw [hq] at hj; cases hj
    | some q =>
      rw [hp] at hi
      rw [hq] at hj
      cases hi
      cases hj
      have h1 : (p.1 : Int) = k := by simpa using List.find?_some hp
      have h2 : (q.1 : Int) = l := by simpa using List.find?_some hq
      rcases eq_or_lt_of_le hkl with rfl | hlt
      · rw [hp] at hq
        cases hq
        exact le_refl _
      · have h3 : p.2 ≤ q.2 := path_ordered h (List.mem_of_find?_eq_some hp) (List.mem_of_find?_eq_some hq) (by omega)
        apply trunc_mono
        have := edge_mono h0 h3
        have : edge b p.2 / r ≤ edge b q.2 / r := div_le_div_of_nonneg_right this hr.le
        exact div_le_div_of_nonneg_right (by linarith) h0.le

/-- C115. Peaks outside of the bins, or on the first edge, are refused. -/
theorem outside_refused {b : Bins K} (h0 : 0 < b.step) (r : K) {path : List (Nat × Nat)} (hpath : ∀ p ∈ path, p.1 < b.n) {x : K} (hx : x ≤ b.lo ∨ edge b b.n < x) :
    peakB b r path (peakInd b x) = .error .value := by
  have hind : peakInd b x = -1 ∨ peakInd b x = b.n := hx.imp (peak_bin h0 x).2.1 (peak_bin h0 x).2.2
  unfold peakB matching
  have : path.find? (fun p => (p.1 : Int) == peakInd b x) = none := by
    rw [List.find?_eq_none]
    intro p hp
    have := hpath p hp
    rcases hind with h | h <;> rw [h] <;> simp <;> omega
  rw [this]

/-- C115. If b has the pulses of a with another gain, and the path between equal histograms is the diagonal, a peak of a is found in b at its place, to within half a bin and the width of the
bin it was in. Missing: that the path is the diagonal, which the arbitrary path finder does not ensure; peaks that leave the bins (`below_fails`). -/
theorem gain_recovered_partial {b : Bins K} (h0 : 0 < b.step) {hist : List K → C} {dtw : C → C → List (Nat × Nat)} (hd : ∀ c, dtw c c = (List.range b.n).map (fun i => (i, i)))
    {phA : List K} (hne : phA ≠ []) {g : K} (hg : 0 < g) (hm : FirstN.median phA ≠ 0) {x : K} {k : Nat} (hk : k < b.n) (hx1 : edge b k < x) (hx2 : x ≤ edge b (k + 1))
    (hin : b.lo ≤ edge b k * g ∧ edge b k * g < edge b b.n) :
    ∃ i : Nat, i < b.n ∧ samePeaks b hist dtw true phA (phA.map (fun y => y * g)) [peakInd b x] = .ok [(i : Int)] ∧ |center b i - x * g| < b.step / 2 + b.step * g := by
  have hgne : g ≠ 0 := hg.ne'
  have hmed : FirstN.median (phA.map (fun y => y * g)) = FirstN.median phA * g := by
    have := median_affine (x := phA) hgne 0 hne
    have e : (phA.map (fun y => y * g)) = phA.map (fun y => g * y + 0) := by
      apply List.map_congr_left
      intro y _
      ring
    rw [e, this]
    ring
  have hr : ratio true phA (phA.map (fun y => y * g)) = 1 / g := by
    unfold ratio
    rw [if_pos rfl, hmed]
    field_simp
  have hb : (phA.map (fun y => y * g)).map (fun y => y * (1 / g)) = phA := by
    rw [List.map_map]
    conv_rhs => rw [← List.map_id phA]
    apply List.map_congr_left
    intro y _
    simp [hgne]
  have hpk : peakInd b x = (k : Int) := (peak_bin h0 x).1 k hk hx1 hx2
  have hfind : ((List.range b.n).map (fun i => (i, i))).find? (fun p => (p.1 : Int) == (k : Int)) = some (k, k) := by
    rw [List.find?_map]
    have : (List.range b.n).find? ((fun p : Nat × Nat => (p.1 : Int) == (k : Int)) ∘ fun i => (i, i)) = some k := by
      have e : ((fun p : Nat × Nat => (p.1 : Int) == (k : Int)) ∘ fun i => (i, i)) = fun i : Nat => decide (i = k) := by
        funext i
        simp [Bool.beq_eq_decide_eq]
      rw [e]
      cases hf : (List.range b.n).find? (fun i : Nat => decide (i = k)) with
      | none =>
        have := List.find?_eq_none.mp hf k (List.mem_range.2 hk)
        simp at this
      | some i =>
        have := List.find?_some hf
        simp at this
        rw [this]
    rw [this]
    rfl
  have hval : (edge b k / (1 / g) - b.lo) / b.step = (edge b k * g - b.lo) / b.step := by
    rw [div_div_eq_mul_div, div_one]
  have hnn : 0 ≤ (edge b k * g - b.lo) / b.step := div_nonneg (by linarith [hin.1]) h0.le
  have hfl : ⌊(edge b k * g - b.lo) / b.step⌋ = ((⌊(edge b k * g - b.lo) / b.step⌋₊ : Nat) : Int) := (Int.natCast_floor_eq_floor hnn).symm
  set i := ⌊(edge b k * g - b.lo) / b.step⌋₊ with hidef
  have hi1 : (i : K) ≤ (edge b k * g - b.lo) / b.step := Nat.floor_le hnn
  have hi2 : (edge b k * g - b.lo) / b.step < (i : K) + 1 := Nat.lt_floor_add_one _
  rw [le_div_iff₀ h0] at hi1
  rw [div_lt_iff₀ h0] at hi2
  refine ⟨i, ?_, ?_, ?_⟩
  · have h1 : (i : K) * b.step < (b.n : K) * b.step := by
      have := hin.2
      unfold edge at this hi1
      linarith
    have := lt_of_mul_lt_mul_right h1 h0.le
    exact_mod_cast this
  · unfold samePeaks
    dsimp only
    rw [hr, hb, hd, hpk]
    have : peakB b (1 / g) ((List.range b.n).map (fun i => (i, i))) (k : Int) = .ok (i : Int) := by
      unfold peakB matching
      rw [hfind]
      dsimp only
      rw [hval]
      unfold trunc
      rw [if_pos hnn, hfl]
    rw [List.mapM_cons, this]
    rfl
  · have hc : center b i = b.lo + (i : K) * b.step + b.step / 2 := by
      unfold center edge
      push_cast
      ring
    have hx2' : x ≤ edge b k + b.step := by
      have : edge b (k + 1) = edge b k + b.step := by
        unfold edge
        push_cast
        ring
      rw [← this]
      exact hx2
    have l1 : edge b k * g < x * g := mul_lt_mul_of_pos_right hx1 hg
    have l2 : x * g ≤ edge b k * g + b.step * g := by
      have := mul_le_mul_of_nonneg_right hx2' hg.le
      linarith
    rw [hc, abs_lt]
    constructor
    · nlinarith
    · nlinarith [mul_pos h0 hg]

/-- C115. If partners are in the bins and increase with the peaks, the calibration has exactly the pairs of centers as points. -/
theorem cal_points_partial {b : Bins K} (h0 : 1 / 100 < b.step) {l : List (Nat × Nat)} (hin : ∀ p ∈ l, p.1 < b.n ∧ p.2 < b.n) (hinc : l.Pairwise (fun p q => p.1 < q.1 ∧ p.2 < q.2)) :
    ∃ T, calLoop b (l.map (fun p => ((p.1 : Int), (p.2 : Int)))) (newCal 3 false) = .ok T ∧
      Aligned T (l.map (fun p => ⟨center b p.2, center b p.1, center b p.2 * (1 / 1000), 1 / 100, ""⟩)) := by
  have hs : 0 < b.step := lt_trans (by norm_num) h0
  have hc : ∀ i, center b i = b.lo + (i : K) * b.step + b.step / 2 := by
    intro i
    unfold center edge
    push_cast
    ring
  have hcm : ∀ i j, center b i < center b j ↔ i < j := by
    intro i j
    rw [hc, hc]
    constructor
    · intro h
      have : (i : K) * b.step < (j : K) * b.step := by linarith
      exact_mod_cast lt_of_mul_lt_mul_right this hs.le
    · intro h
      have : (i : K) < j := by exact_mod_cast h
      nlinarith
  have hloop : ∀ (l : List (Nat × Nat)) (T : Tbl K), (∀ p ∈ l, p.1 < b.n ∧ p.2 < b.n) →
      calLoop b (l.map (fun p => ((p.1 : Int), (p.2 : Int)))) T = roughLoop (l.map (fun p => (center b p.2, (⟨"", center b p.1⟩ : Line K)))) T := by
    intro l
    induction l with
    | nil => intro T _; rfl
    | cons p l ih =>
      intro T h
      have h1 := h p List.mem_cons_self
      have c1 : centerAt b (p.2 : Int) = .ok (center b p.2) := by unfold centerAt; rw [if_pos (by omega)]; simp
      have c2 : centerAt b (p.1 : Int) = .ok (center b p.1) := by unfold centerAt; rw [if_pos (by omega)]; simp
      rw [List.map_cons, List.map_cons]
      unfold calLoop roughLoop
      rw [c1, c2]
      dsimp only
      rcases ha : addTo T (center b p.2) (center b p.1) "" none with ⟨T', x⟩
      cases x with
      | error e => rfl
      | ok u => exact ih T' (fun p hp => h p (List.mem_cons_of_mem _ hp))
  have hcompat : Compatible (l.map (fun p => (center b p.2, (⟨"", center b p.1⟩ : Line K)))) := by
    constructor
    · rw [List.pairwise_map]
      refine hinc.imp ?_
      intro p q h
      refine ⟨?_, by simp⟩
      dsimp only
      have h1 : (p.1 : K) + 1 ≤ q.1 := by exact_mod_cast h.1
      rw [hc, hc]
      refine lt_of_lt_of_le ?_ (le_abs_self _)
      nlinarith
    · intro p hp q hq
      obtain ⟨p', hp', rfl⟩ := List.mem_map.mp hp
      obtain ⟨q', hq', rfl⟩ := List.mem_map.mp hq
      dsimp only
      rw [hcm, hcm]
      have h2 : l.Pairwise (fun p q => (p.2 < q.2 ↔ p.1 < q.1) ∧ (q.2 < p.2 ↔ q.1 < p.1)) := hinc.imp (fun h => by omega)
      exact (pairwise_mem (fun _ _ h => ⟨h.2, h.1⟩) (fun _ => by simp) h2 hp' hq').1
  obtain ⟨T, g1, g2⟩ := roughLoop_ok _ [] (newCal 3 false) (newCal_aligned 3 false) (by simpa using hcompat)
  refine ⟨T, by rw [hloop l _ hin]; exact g1, ?_⟩
  simpa [pts, pt, Function.comp_def] using g2

/-- C115. After alignment a channel other than the reference has its plan: same lines and states in the same order, positions converted; the reference channel, and a channel aligned with
peaks given, keep theirs. -/
theorem aligned_plan (e2ph : K → K) (isRef peaksGiven : Bool) (own ref : Plan K S) (h1 : ref.vals.length = ref.lines.length) (h2 : ref.states.length = ref.lines.length) :
    alignedPlan e2ph isRef peaksGiven own ref = if peaksGiven = true ∨ isRef = true then own else ⟨ref.vals.map e2ph, ref.states, ref.lines⟩ := by
  unfold alignedPlan
  by_cases hc : peaksGiven = true ∨ isRef = true
  · rw [if_pos hc, if_neg (by cases peaksGiven <;> cases isRef <;> simp_all)]
  · rw [if_neg hc, if_pos (by cases peaksGiven <;> cases isRef <;> simp_all)]
    have gen : ∀ (vs : List K) (ss : List S) (ls : List (Line K)) (p : Plan K S), vs.length = ls.length → ss.length = ls.length →
        (vs.zip (ss.zip ls)).foldl (fun p q => addCalPoint p (e2ph q.1) q.2.1 q.2.2) p = ⟨p.vals ++ vs.map e2ph, p.states ++ ss, p.lines ++ ls⟩ := by
      intro vs
      induction vs with
      | nil =>
        intro ss ls p h1 h2
        have : ls = [] := List.length_eq_zero_iff.mp (by simpa using h1.symm)
        subst this
        have : ss = [] := List.length_eq_zero_iff.mp (by simpa using h2)
        subst this
        simp
      | cons v vs ih =>
        intro ss ls p h1 h2
        cases ls with
        | nil => simp at h1
        | cons l ls =>
          cases ss with
          | nil => simp at h2
          | cons s ss =>
            simp only [List.zip_cons_cons, List.foldl_cons]
            rw [ih ss ls _ (by simpa using h1) (by simpa using h2)]
            simp [addCalPoint]
    rw [gen _ _ _ _ h1 h2]
    simp [emptyPlan]

theorem foldl_max_lt (t : List K) : ∀ (x a : K), t.foldl max x < a ↔ ∀ y ∈ x :: t, y < a := by
  induction t with
  | nil => intro x a; simp
  | cons y t ih =>
    intro x a
    rw [List.foldl_cons, ih]
    simp [and_assoc]

theorem foldl_min_gt (t : List K) : ∀ (x a : K), a < t.foldl min x ↔ ∀ y ∈ x :: t, a < y := by
  induction t with
  | nil => intro x a; simp
  | cons y t ih =>
    intro x a
    rw [List.foldl_cons, ih]
    simp [and_assoc]

/-- C115. The test of the calibration is passed exactly if every slope is within the fraction of the median slope, on both sides. -/
theorem curvature_spec {frac : K} (hf : 0 < frac) {ders : List K} (hne : ders ≠ []) (hm : 0 < FirstN.median ders) :
    goodCurvature frac ders = .ok true ↔ ∀ d ∈ ders, d < FirstN.median ders * (1 + frac) ∧ FirstN.median ders < d * (1 + frac) := by
  unfold goodCurvature
  rw [if_neg (not_le.2 hf)]
  cases ders with
  | nil => exact absurd rfl hne
  | cons d t =>
    dsimp only
    generalize hM : FirstN.median (d :: t) = M at hm ⊢
    have h1 : (0 : K) < 1 + frac := by linarith
    have e : ∀ a b : Bool, (Except.ok (a && b) : Except Exc Bool) = .ok true ↔ a = true ∧ b = true := by
      intro a b
      cases a <;> cases b <;> simp
    rw [e, decide_eq_true_eq, decide_eq_true_eq, div_lt_iff₀ hm, lt_div_iff₀ hm, foldl_max_lt, foldl_min_gt]
    constructor
    · rintro ⟨g1, g2⟩ y hy
      refine ⟨by have := g1 y hy; linarith [mul_comm M (1 + frac)], ?_⟩
      have := g2 y hy
      rw [one_div, inv_mul_lt_iff₀ h1] at this
      linarith [mul_comm y (1 + frac)]
    · intro g
      refine ⟨fun y hy => by have := (g y hy).1; linarith [mul_comm M (1 + frac)], fun y hy => ?_⟩
      have := (g y hy).2
      rw [one_div, inv_mul_lt_iff₀ h1]
      linarith [mul_comm y (1 + frac)]

/-- C115. A partner above the last bin is refused. -/
theorem above_refused {b : Bins K} {a i : Int} (h : (b.n : Int) ≤ i) (t : List (Int × Int)) (T : Tbl K) : calLoop b ((a, i) :: t) T = .error .index := by
  unfold calLoop centerAt
  rw [if_neg (by omega), if_neg (by omega)]

/-! ### disagreements -/

/-- four bins from 1000, of size 100 -/
def exBins : Bins ℚ := ⟨1000, 100, 4⟩
/-- diagonal path -/
def diag : Unit → Unit → List (Nat × Nat) := fun _ _ => [(0, 0), (1, 1), (2, 2), (3, 3)]

/-- Disagreement (C115): a peak of b below the first bin is not refused: its index is negative and counts from the end, so that the peak is put into the last bin. Here b has
0.8 of the gain of a: the peak at 1150 in a is at 920 in b, but the calibration has it at 1350. -/
theorem below_fails : IsWarp 4 (diag () ()) ∧ (calBtoA exBins (fun _ => ()) diag true [2000] [1600] [1150]).map (fun T => (T.ph, T.e)) = .ok ([1350], [1150]) := by
  constructor
  · unfold IsWarp
    decide
  · decide +kernel

/-- Disagreement (C115): two peaks of the reference can have the same partner; the calibration then has two points at one position. -/
theorem same_partner_fails : IsWarp 4 [(0, 0), (1, 0), (2, 0), (3, 1), (3, 2), (3, 3)] ∧
    (calBtoA exBins (fun _ => ()) (fun _ _ => [(0, 0), (1, 0), (2, 0), (3, 1), (3, 2), (3, 3)]) false [] [] [1150, 1250]).map (fun T => (T.ph, T.e)) = .ok ([1050, 1050], [1150, 1250]) := by
  constructor
  · unfold IsWarp
    decide
  · decide +kernel

/-! ### examples -/

/-- b has half the gain of a: peaks at 250 and 390 are found near 125 and 195 -/
example : (calBtoA ⟨(100 : ℚ), 10, 40⟩ (fun _ => ()) (fun _ _ => (List.range 40).map (fun i => (i, i))) true [300] [150] [255, 395]).map (fun T => (T.ph, T.e)) = .ok ([125, 195], [255, 395]) := by
  decide +kernel

example : goodCurvature (1 / 10 : ℚ) [100, 105, 95] = .ok true ∧ goodCurvature (1 / 10 : ℚ) [100, 120, 95] = .ok false := by
  constructor <;> decide +kernel

example : (alignedPlan (fun x => x / 2) false false (emptyPlan : Plan ℚ Nat) ⟨[10, 20], [1, 2], [⟨"a", 5⟩, ⟨"b", 6⟩]⟩).vals = [5, 10] := by decide +kernel

end Mass.Calc.Align
