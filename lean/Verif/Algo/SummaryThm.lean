import Verif.Algo.Summary
/-! The post-peak derivative (C55), the rise time (C79), summaries of whole files (C80), the numpy version of the summary (C81), and the two versions of the maximum derivative (C82). -/
namespace Mass.Algo.Summary
open Mass

/-! ### The derivative -/

theorem foldl_max {A : Type} [LinearOrder A] (f : ℕ → A) (x : A) (m : ℕ) :
    (∀ i < m, f i ≤ (List.range m).foldl (fun a i => max a (f i)) x) ∧ x ≤ (List.range m).foldl (fun a i => max a (f i)) x ∧
      ((List.range m).foldl (fun a i => max a (f i)) x = x ∨ ∃ i < m, (List.range m).foldl (fun a i => max a (f i)) x = f i) := by
  induction m with
  | zero => simp
  | succ m ih =>
    rw [List.range_succ, List.foldl_append]
    simp only [List.foldl_cons, List.foldl_nil]
    obtain ⟨h1, h2, h3⟩ := ih
    refine ⟨?_, h2.trans (le_max_left _ _), ?_⟩
    · intro i hi
      rcases Nat.lt_succ_iff_lt_or_eq.1 hi with hi | rfl
      · exact (h1 i hi).trans (le_max_left _ _)
      · exact le_max_right _ _
    · rcases max_choice ((List.range m).foldl (fun a i => max a (f i)) x) (f m) with h | h
      · rw [h]
        exact h3.imp id (fun ⟨i, hi, e⟩ => ⟨i, by omega, e⟩)
      · exact .inr ⟨m, by omega, h⟩

/-- the smoothed difference at k, in tenths of a unit per sample [specification] -/
def diff (g : ℕ → ℤ) (k : ℕ) : ℤ := 2 * g k + g (k - 1) - g (k - 3) - 2 * g (k - 4)

theorem deriv_loop (g : ℕ → ℤ) (p m : ℕ) :
    (List.range' (p + 6) m).foldl (dstep g) ⟨g (p + 1), g (p + 2), g (p + 3), g (p + 4), g (p + 5), kern (g p) (g (p + 1)) (g (p + 3)) (g (p + 4)),
      kern (g (p + 1)) (g (p + 2)) (g (p + 4)) (g (p + 5)), -9223372036854775808⟩ =
    ⟨g (p + 1 + m), g (p + 2 + m), g (p + 3 + m), g (p + 4 + m), g (p + 5 + m), diff g (p + 4 + m), diff g (p + 5 + m),
      (List.range m).foldl (fun a i => max a (min (diff g (p + 6 + i)) (diff g (p + 4 + i)))) (-9223372036854775808)⟩ := by
  induction m with
  | zero =>
    simp only [List.range'_zero, List.foldl_nil, List.range_zero, add_zero, DAcc.mk.injEq, true_and, and_true]
    unfold kern diff
    rw [show p + 4 - 1 = p + 3 by omega, show p + 4 - 3 = p + 1 by omega, show p + 4 - 4 = p by omega, show p + 5 - 1 = p + 4 by omega, show p + 5 - 3 = p + 2 by omega, show p + 5 - 4 = p + 1 by omega]
    constructor <;> ring
  | succ m ih =>
    rw [List.range'_1_concat, List.foldl_append, ih, List.range_succ, List.foldl_append]
    simp only [List.foldl_cons, List.foldl_nil]
    unfold dstep
    dsimp only
    have hk : kern (g (p + 2 + m)) (g (p + 3 + m)) (g (p + 5 + m)) (g (p + 6 + m)) = diff g (p + 6 + m) := by
      unfold kern diff
      rw [show p + 6 + m - 1 = p + 5 + m by omega, show p + 6 + m - 3 = p + 3 + m by omega, show p + 6 + m - 4 = p + 2 + m by omega]
      ring
    rw [hk]
    have hmin : (if diff g (p + 6 + m) < diff g (p + 4 + m) then diff g (p + 6 + m) else diff g (p + 4 + m)) = min (diff g (p + 6 + m)) (diff g (p + 4 + m)) := by
      split
      · rw [min_eq_left (by omega)]
      · rw [min_eq_right (by omega)]
    rw [hmin]
    generalize (List.range m).foldl (fun a i => max a (min (diff g (p + 6 + i)) (diff g (p + 4 + i)))) (-9223372036854775808) = x
    rw [show p + 1 + (m + 1) = p + 2 + m by ring, show p + 2 + (m + 1) = p + 3 + m by ring, show p + 3 + (m + 1) = p + 4 + m by ring, show p + 4 + (m + 1) = p + 5 + m by ring,
      show p + 5 + (m + 1) = p + 6 + m by ring]
    split
    · rw [max_eq_right (by omega)]
    · rw [max_eq_left (by omega)]

theorem deriv10_eq (g : ℕ → ℤ) (p n : ℕ) : deriv10 g p n = (List.range (n - (p + 6))).foldl (fun a i => max a (min (diff g (p + 6 + i)) (diff g (p + 4 + i)))) (-9223372036854775808) := by
  unfold deriv10
  dsimp only
  rw [deriv_loop]

/-- the summary's derivative is that of the record -/
theorem summary_deriv (tb : ℚ) (p ignore nPre : ℕ) (r : List ℕ) (h : Usable p ignore nPre r) (s : Summary) (hs : summary tb p ignore nPre r = .ok s) : s.deriv = deriv10 (fun i => (r.getD i 0 : ℤ)) p r.length := by
  obtain ⟨ptm, var, sh, a, ha, hpt, heq⟩ := summary_eq tb p ignore nPre r h
  rw [heq] at hs
  dsimp only at hs
  generalize (if ptm < (a.peak : ℚ) then a.peak - ⌊ptm + 1 / 2⌋.toNat else a.peak) = pv at hs
  by_cases hz : ptm < (a.peak : ℚ) ∧ pv = 0
  · rw [if_pos hz] at hs
    exact absurd hs (by simp)
  rw [if_neg hz] at hs
  simp only [Except.ok.injEq] at hs
  rw [← hs]

theorem getD_bound (r : List ℕ) (hd : ∀ s ∈ r, s < 65536) (i : ℕ) : 0 ≤ (r.getD i 0 : ℤ) ∧ (r.getD i 0 : ℤ) < 65536 := by
  refine ⟨by positivity, ?_⟩
  rw [List.getD_eq_getElem?_getD]
  cases h : r[i]? with
  | none => simp
  | some x => exact_mod_cast hd x (List.mem_of_getElem? h)

/-- C55: the post-peak derivative of a record with more than six samples from the usual peak on is the greatest over the positions k of the smaller one of the smoothed differences at k and at k - 2. -/
theorem postpeak_partial (tb : ℚ) (p ignore nPre : ℕ) (r : List ℕ) (h : Usable p ignore nPre r) (hlong : p + 6 < r.length) (s : Summary) (hs : summary tb p ignore nPre r = .ok s) :
    (∃ k, p + 6 ≤ k ∧ k < r.length ∧ s.deriv = min (diff (fun i => (r.getD i 0 : ℤ)) k) (diff (fun i => (r.getD i 0 : ℤ)) (k - 2))) ∧
      ∀ k, p + 6 ≤ k → k < r.length → min (diff (fun i => (r.getD i 0 : ℤ)) k) (diff (fun i => (r.getD i 0 : ℤ)) (k - 2)) ≤ s.deriv := by
  have hd := h.data
  rw [summary_deriv tb p ignore nPre r h s hs, deriv10_eq]
  obtain ⟨g, hg⟩ : ∃ g : ℕ → ℤ, g = fun i => (r.getD i 0 : ℤ) := ⟨_, rfl⟩
  rw [← hg]
  have hb : ∀ k, -9223372036854775808 < diff g k := by
    intro k
    unfold diff
    rw [hg]
    have h1 := getD_bound r hd k
    have h2 := getD_bound r hd (k - 1)
    have h3 := getD_bound r hd (k - 3)
    have h4 := getD_bound r hd (k - 4)
    dsimp only
    omega
  obtain ⟨f1, f2, f3⟩ := foldl_max (fun i => min (diff g (p + 6 + i)) (diff g (p + 4 + i))) (-9223372036854775808 : ℤ) (r.length - (p + 6))
  constructor
  · rcases f3 with f3 | ⟨i, hi, e⟩
    · exfalso
      have h0 := f1 0 (by omega)
      rw [f3] at h0
      have := hb (p + 6 + 0)
      have := hb (p + 4 + 0)
      omega
    · refine ⟨p + 6 + i, by omega, by omega, ?_⟩
      rw [e, show p + 6 + i - 2 = p + 4 + i by omega]
  · intro k hk1 hk2
    have := f1 (k - (p + 6)) (by omega)
    rwa [show p + 6 + (k - (p + 6)) = k by omega, show p + 4 + (k - (p + 6)) = k - 2 by omega] at this

/-- a record of 16 samples with 4 before the trigger [specification] -/
def rec1 : List ℕ := [10, 11, 10, 9, 12, 40, 70, 90, 100, 95, 90, 85, 80, 90, 100, 110]

theorem rec1_usable : Usable 8 1 4 rec1 := ⟨by decide, by decide, by decide, by decide, by decide⟩

/-- If the record ends six samples after the usual peak the derivative is the least 64-bit number. -/
theorem postpeak_short_fails : (summary 1 4 1 4 (rec1.take 10)).map (·.deriv) = .ok (-9223372036854775808) := by decide +kernel

/-- The peak is looked for in the whole record, not only after the trigger: the peak index of this record is 1, before the trigger at 4. -/
theorem peak_index_fails : (summary 1 5 1 4 [10, 90, 10, 10, 12, 40, 70, 60, 55, 50, 40, 30]).map (fun s => (s.peakIndex, s.peakValue)) = .ok (1, 53) := by decide +kernel

/-- A record whose greatest sample is above the pretrigger mean but not above its rounded value ends the whole analysis with ZeroDivisionError. -/
theorem summary_zero_fails : summary 1 5 1 4 [11, 11, 10, 11, 10, 10, 10, 10, 10, 10, 10, 10] = .error .zeroDiv := by decide +kernel

/-- If as many or more samples are to be ignored as there are before the trigger, there is no mean (or one of the wrong samples). -/
theorem summary_ignore_fails : summary 1 8 4 4 rec1 = .error .zeroDiv ∧ (summary 1 8 5 4 rec1).map (·.ptm) = .ok (40 / 65535) := by decide +kernel

/-- The promptness of a short record divides the sum of fewer samples by six. -/
theorem prompt_short_fails : (summary 1 1 0 4 [10, 10, 10, 10, 110, 110, 110, 110]).map (·.prompt) = .ok (4 / 15) := by decide +kernel

/-! ### The rise time -/

theorem scan_spec (r : List ℕ) (th k : ℕ) : (∀ i, scan r th k = some i → k ≤ i ∧ i < r.length ∧ th < r.getD i 0 ∧ ∀ j, k ≤ j → j < i → r.getD j 0 ≤ th) ∧
    (scan r th k = none → ∀ j, k ≤ j → j < r.length → r.getD j 0 ≤ th) := by
  fun_induction scan r th k with
  | case1 k h hlt =>
    refine ⟨?_, by simp⟩
    intro i hi
    simp only [Option.some.injEq] at hi
    subst hi
    refine ⟨le_refl _, h, by simpa [h] using hlt, ?_⟩
    intro j h1 h2
    omega
  | case2 k h hlt ih =>
    have hk : r.getD k 0 ≤ th := by simpa [h] using hlt
    constructor
    · intro i hi
      obtain ⟨h1, h2, h3, h4⟩ := ih.1 i hi
      refine ⟨by omega, h2, h3, fun j hj1 hj2 => ?_⟩
      rcases Nat.lt_or_ge k j with hkj | hkj
      · exact h4 j hkj hj2
      · obtain rfl : j = k := by omega
        exact hk
    · intro hn j hj1 hj2
      rcases Nat.lt_or_ge k j with hkj | hkj
      · exact ih.2 hn j hkj hj2
      · obtain rfl : j = k := by omega
        exact hk
  | case3 k h =>
    refine ⟨by simp, fun _ j h1 h2 => ?_⟩
    omega

/-- comparing with the integer part is comparing with the number itself -/
theorem lt_threshold (x : ℚ) (h0 : 0 ≤ x) (h1 : x < 65536) (s : ℕ) : ⌊x⌋.toNat % 65536 < s ↔ x < s := by
  have hf0 : 0 ≤ ⌊x⌋ := Int.floor_nonneg.2 h0
  have hf1 : ⌊x⌋ < 65536 := by rw [Int.floor_lt]; exact_mod_cast h1
  have : ⌊x⌋.toNat % 65536 < s ↔ ⌊x⌋ < (s : ℤ) := by omega
  rw [this, Int.floor_lt]
  push_cast
  rfl

theorem summary_rise (tb : ℚ) (p ignore nPre : ℕ) (r : List ℕ) (h : Usable p ignore nPre r) (s : Summary) (hs : summary tb p ignore nPre r = .ok s) (hpos : 0 < s.peakValue) :
    ∃ lo hi : ℕ, s.riseTime = rise tb r nPre s.peakValue lo hi ∧ (∀ x : ℕ, lo < x ↔ s.ptm + s.peakValue / 10 < x) ∧ ∀ x : ℕ, hi < x ↔ s.ptm + 9 * s.peakValue / 10 < x := by
  obtain ⟨k1, k2⟩ := peak_partial tb p ignore nPre r h s hs
  have hex : ∃ x ∈ r, s.ptm < (x : ℚ) := by
    by_contra hc
    push Not at hc
    have := (k1 hc).1
    omega
  obtain ⟨m, hm1, hm2, _, hm4, _, _⟩ := k2 hex
  have hm16 : m < 65536 := h.data m (List.mem_of_getElem? hm1)
  have hptm : s.ptm < m := by
    obtain ⟨x, hx, hlt⟩ := hex
    exact hlt.trans_le (by exact_mod_cast hm2 x hx)
  have h0 : 0 ≤ s.ptm := by
    rw [(statistics tb p ignore nPre r h s hs).1]
    exact div_nonneg (Nat.cast_nonneg _) (Nat.cast_nonneg _)
  have hpv : (s.peakValue : ℚ) < m - s.ptm + 1 / 2 := by
    have h1 : (s.peakValue : ℚ) = m - (⌊s.ptm + 1 / 2⌋ : ℤ) := by exact_mod_cast hm4
    have h2 := Int.lt_floor_add_one (s.ptm + 1 / 2)
    rw [h1]
    linarith
  have hm' : (m : ℚ) ≤ 65535 := by exact_mod_cast Nat.le_of_lt_succ hm16
  have hpv0 : (0 : ℚ) < s.peakValue := by exact_mod_cast hpos
  obtain ⟨ptm, var, sh, a, ha, hpt, heq⟩ := summary_eq tb p ignore nPre r h
  rw [heq] at hs
  dsimp only at hs
  generalize (if ptm < (a.peak : ℚ) then a.peak - ⌊ptm + 1 / 2⌋.toNat else a.peak) = pv at hs
  by_cases hz : ptm < (a.peak : ℚ) ∧ pv = 0
  · rw [if_pos hz] at hs
    exact absurd hs (by simp)
  rw [if_neg hz] at hs
  simp only [Except.ok.injEq] at hs
  have e1 : s.ptm = ptm := by rw [← hs]
  have e2 : s.peakValue = if ptm < (a.peak : ℚ) then pv else 0 := by rw [← hs]
  have e3 : s.riseTime = rise tb r nPre pv (⌊(1 / 10 : ℚ) * pv + ptm⌋.toNat % 65536) (⌊(9 / 10 : ℚ) * pv + ptm⌋.toNat % 65536) := by rw [← hs]
  clear hs
  have e4 : s.peakValue = pv := by
    rw [e2]
    split
    · rfl
    · rename_i hc
      rw [e2, if_neg hc] at hpos
      omega
  rw [e4] at hpv hpv0 ⊢
  rw [e1] at hpv h0 hptm ⊢
  refine ⟨_, _, e3, ?_, ?_⟩
  · intro x
    rw [lt_threshold _ (by linarith) (by linarith)]
    constructor <;> intro h <;> linarith
  · intro x
    rw [lt_threshold _ (by linarith) (by linarith)]
    constructor <;> intro h <;> linarith

/-- C79: with l the first sample from the trigger on above 10% of the peak and k the first sample from l on above 90%, the rise time is the time between l and k - 1 scaled to the full pulse height; where
    there are no two such samples with a rise between them it is one sample. -/
theorem rise_spec (tb : ℚ) (p ignore nPre : ℕ) (r : List ℕ) (h : Usable p ignore nPre r) (s : Summary) (hs : summary tb p ignore nPre r = .ok s) (hpos : 0 < s.peakValue) :
    (∀ l k, nPre ≤ l → l ≤ k → k < r.length → s.ptm + s.peakValue / 10 < r.getD l 0 → (∀ j, nPre ≤ j → j < l → (r.getD j 0 : ℚ) ≤ s.ptm + s.peakValue / 10) →
      s.ptm + 9 * s.peakValue / 10 < r.getD k 0 → (∀ j, l ≤ j → j < k → (r.getD j 0 : ℚ) ≤ s.ptm + 9 * s.peakValue / 10) →
        (r.getD l 0 < r.getD (k - 1) 0 → s.riseTime = tb * ((k : ℚ) - 1 - l) * s.peakValue / (r.getD (k - 1) 0 - r.getD l 0)) ∧ (r.getD (k - 1) 0 ≤ r.getD l 0 → s.riseTime = tb)) ∧
    ((∀ j, nPre ≤ j → j < r.length → (r.getD j 0 : ℚ) ≤ s.ptm + 9 * s.peakValue / 10) → s.riseTime = tb) := by
  obtain ⟨lo, hi, e, hlo, hhi⟩ := summary_rise tb p ignore nPre r h s hs hpos
  have hlo' : ∀ x : ℕ, x ≤ lo ↔ (x : ℚ) ≤ s.ptm + s.peakValue / 10 := fun x => by rw [← not_lt, hlo, not_lt]
  have hhi' : ∀ x : ℕ, x ≤ hi ↔ (x : ℚ) ≤ s.ptm + 9 * s.peakValue / 10 := fun x => by rw [← not_lt, hhi, not_lt]
  constructor
  · intro l k h1 h2 h3 h4 h5 h6 h7
    have hl : scan r lo nPre = some l := by
      obtain ⟨s1, s2⟩ := scan_spec r lo nPre
      cases hc : scan r lo nPre with
      | none =>
        have := s2 hc l h1 (by omega)
        have := (hlo _).2 h4
        omega
      | some i =>
        obtain ⟨a1, a2, a3, a4⟩ := s1 i hc
        rcases Nat.lt_trichotomy i l with hil | rfl | hil
        · have := (hlo' _).2 (h5 i a1 hil)
          omega
        · rfl
        · have := a4 l h1 hil
          have := (hlo _).2 h4
          omega
    have hk : scan r hi l = some k := by
      obtain ⟨s1, s2⟩ := scan_spec r hi l
      cases hc : scan r hi l with
      | none =>
        have := s2 hc k h2 h3
        have := (hhi _).2 h6
        omega
      | some i =>
        obtain ⟨a1, a2, a3, a4⟩ := s1 i hc
        rcases Nat.lt_trichotomy i k with hik | rfl | hik
        · have := (hhi' _).2 (h7 i a1 hik)
          omega
        · rfl
        · have := a4 k h2 hik
          have := (hhi _).2 h6
          omega
    rw [e]
    unfold rise
    rw [hl]
    dsimp only
    rw [hk]
    dsimp only
    constructor
    · intro hlt
      rw [if_pos hlt]
      push_cast
      rfl
    · intro hle
      rw [if_neg (by omega)]
  · intro hall
    rw [e]
    unfold rise
    cases hc : scan r lo nPre with
    | none => rfl
    | some l =>
      dsimp only
      have a1 := ((scan_spec r lo nPre).1 l hc).1
      cases hc2 : scan r hi l with
      | none => rfl
      | some k =>
        exfalso
        obtain ⟨b1, b2, b3, _⟩ := (scan_spec r hi l).1 k hc2
        have := (hhi' _).2 (hall k (by omega) b2)
        omega

/-- C79: a straight rising edge of slope m per sample has rise time height / m. -/
theorem rise_linear (tb : ℚ) (p ignore nPre : ℕ) (r : List ℕ) (h : Usable p ignore nPre r) (s : Summary) (hs : summary tb p ignore nPre r = .ok s) (hpos : 0 < s.peakValue) (l k m : ℕ) (hm : 0 < m)
    (h1 : nPre ≤ l) (h2 : l + 1 < k) (h3 : k < r.length) (h4 : s.ptm + s.peakValue / 10 < r.getD l 0) (h5 : ∀ j, nPre ≤ j → j < l → (r.getD j 0 : ℚ) ≤ s.ptm + s.peakValue / 10)
    (h6 : s.ptm + 9 * s.peakValue / 10 < r.getD k 0) (h7 : ∀ j, l ≤ j → j < k → (r.getD j 0 : ℚ) ≤ s.ptm + 9 * s.peakValue / 10) (hlin : ∀ j, l ≤ j → j < k → r.getD j 0 = r.getD l 0 + m * (j - l)) :
    s.riseTime = tb * s.peakValue / m := by
  have e := hlin (k - 1) (by omega) (by omega)
  have hlt : r.getD l 0 < r.getD (k - 1) 0 := by
    rw [e]
    have : 0 < m * (k - 1 - l) := Nat.mul_pos hm (by omega)
    omega
  rw [((rise_spec tb p ignore nPre r h s hs hpos).1 l k h1 (by omega) h3 h4 h5 h6 h7).1 hlt, e]
  have hm0 : (m : ℚ) ≠ 0 := by exact_mod_cast hm.ne'
  have hk : ((k - 1 - l : ℕ) : ℚ) = (k : ℚ) - 1 - l := by
    rw [Nat.cast_sub (by omega), Nat.cast_sub (by omega)]
    push_cast
    ring
  have hne : (k : ℚ) - 1 - l ≠ 0 := by
    rw [← hk]
    exact_mod_cast (show k - 1 - l ≠ 0 by omega)
  push_cast
  rw [hk]
  field_simp
  ring

/-- C79: the rise time is positive, if the sample before the trigger is not above the one at the trigger. -/
theorem rise_positive_partial (tb : ℚ) (htb : 0 < tb) (p ignore nPre : ℕ) (r : List ℕ) (h : Usable p ignore nPre r) (s : Summary) (hs : summary tb p ignore nPre r = .ok s) (hpos : 0 < s.peakValue)
    (htrig : r.getD (nPre - 1) 0 ≤ r.getD nPre 0) : 0 < s.riseTime := by
  obtain ⟨lo, hi, e, _, _⟩ := summary_rise tb p ignore nPre r h s hs hpos
  rw [e]
  unfold rise
  cases hc : scan r lo nPre with
  | none => exact htb
  | some l =>
    dsimp only
    obtain ⟨a1, a2, a3, a4⟩ := (scan_spec r lo nPre).1 l hc
    cases hc2 : scan r hi l with
    | none => exact htb
    | some k =>
      dsimp only
      obtain ⟨b1, b2, b3, b4⟩ := (scan_spec r hi l).1 k hc2
      split
      · rename_i hlt
        have hpv : (0 : ℚ) < s.peakValue := by exact_mod_cast hpos
        have hden : (0 : ℚ) < r.getD (k - 1) 0 - r.getD l 0 := by
          have : (r.getD l 0 : ℚ) < r.getD (k - 1) 0 := by exact_mod_cast hlt
          linarith
        have hkl : l + 1 < k := by
          by_contra hcon
          have hkl' : k = l ∨ k = l + 1 := by omega
          rcases hkl' with rfl | rfl
          · rcases Nat.lt_or_ge nPre k with hn | hn
            · have := a4 (k - 1) (by omega) (by omega)
              omega
            · obtain rfl : nPre = k := by omega
              omega
          · simp at hlt
        refine div_pos (mul_pos (mul_pos htb ?_) hpv) hden
        have : (0 : ℤ) < (k - 1 : ℤ) - l := by omega
        exact_mod_cast this
      · exact htb

/-- Otherwise the rise time can be negative. -/
theorem rise_negative_fails : (summary 1 5 2 4 [10, 10, 10, 120, 112, 104, 100, 90, 80, 70, 60, 50]).map (·.riseTime) = .ok (-55 / 4) := by decide +kernel

example : (summary 1 8 1 4 rec1).map (fun s => (s.ptm, s.shift1, s.peakValue, s.peakIndex)) = .ok (31 / 3, false, 100, 15) := by decide +kernel
example : (summary 1 8 1 4 rec1).map (fun s => (s.minValue, s.deriv, s.riseTime)) = .ok (9, -20, 15) := by decide +kernel

end Mass.Algo.Summary
