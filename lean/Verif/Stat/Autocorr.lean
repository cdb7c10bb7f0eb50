import Verif.Py
import Verif.Lin.Dft
import Mathlib.Data.Nat.Log
import Mathlib.Data.List.GetD
import Mathlib.Tactic.NormNum
/-! Noise autocorrelation, mass/core/channel.py class NoiseRecords: C54 (padded length) and C69 (lagged products). Over the reals. -/
namespace Mass.Stat.Autocorr
open Mass Mass.Lin.Dft Finset

/-- `padded_length`, mass/core/channel.py L281-296. The power of two is exact here; the code finds it with a floating-point logarithm. n = 0 gives 0 (2 ** -inf). The quarters and eighths are
    compared and taken in whole numbers: 0.75*pow2 and 0.625*pow2 are whole whenever they are used. -/
def padded (n : ℕ) : ℕ :=
  if n = 0 then 0
  else
    let p := 2 ^ Nat.clog 2 n
    if n = p then n
    else if 3 * p < 4 * n then p
    else if 5 * p < 8 * n then 3 * p / 4
    else 5 * p / 8

/-- the mean of a list, np.mean (used for channel.py L326, L393) -/
noncomputable def mean (l : List ℝ) : ℝ := l.sum / l.length

/-- data - data.mean(), channel.py L326, L393 -/
noncomputable def center (l : List ℝ) : List ℝ := l.map (· - mean l)

/-- one piece of data: padded with zeros, transformed, zero frequency removed, squared, transformed back, channel.py L326-335; the first L lags -/
noncomputable def pieceAc (L : ℕ) (c : List ℝ) : List ℝ :=
  let N := padded (L + c.length)
  (List.range L).map (irfft (N / 2) (fun k => if k = 0 then 0 else power N (fun j => (center c).getD j 0) k))

/-- the number of lags used, channel.py L271-307 -/
def lagsOf (ns rps nData : ℕ) (nlags : Option ℕ) : Except Exc ℕ :=
  let L := min (nlags.getD (rps * ns)) (rps * ns)
  if nData < 15 * L then (if nData / 15 < ns then .error .value else .ok (nData / 15)) else .ok L

/-- the pieces of the data, channel.py L321-324 -/
def pieces (n : ℕ) (data : List ℝ) : List (List ℝ) := (List.range (data.length / n)).map (fun i => (data.drop (i * n)).take n)

/-- `self.autocorrelation[:] = ac`, channel.py L344, L403: the dataset has one entry per sample of a record (L94-95), a single value is spread over all entries, other lengths are refused by h5py -/
def store {A : Type} (ns : ℕ) (ac : List A) : Except Exc (List A) :=
  if ac.length = ns then .ok ac
  else match ac with
    | [a] => .ok (List.replicate ns a)
    | _ => .error .type

open Classical in
/-- `_compute_continuous_autocorrelation`, channel.py L270-344. `rows` are the records of the file (alldata), `nP` is nPulses (the constructor's use_records makes it less than the number of rows), `range` is
    data_samples (start at most end). -/
noncomputable def contAc (ns rps nP : ℕ) (rows : List (List ℝ)) (nlags : Option ℕ) (range : Option (ℕ × ℕ)) (maxExc : ℝ) : Except Exc (List ℝ) :=
  let r := range.getD (0, ns * nP)
  match lagsOf ns rps (r.2 - r.1) nlags with
  | .error e => .error e
  | .ok L =>
    let data := ((rows.drop r.1).take (r.2 - r.1)).flatten
    let used := (pieces (15 * L) data).filter (fun c => decide (∀ v ∈ center c, |v| ≤ maxExc))
    if used = [] then .error .exception
    else store ns ((List.range L).map (fun l => (used.map (fun c => (pieceAc L c).getD l 0)).sum / used.length / (15 * L - l : ℕ)))

/-- np.correlate(d, d, 'full'): entry k is the sum over n of d[n + k - (len - 1)] d[n] where both exist (used for channel.py L370-403) -/
noncomputable def correlateFull (d : List ℝ) : List ℝ :=
  (List.range (2 * d.length - 1)).map (fun k : ℕ => ∑ n ∈ range d.length, if d.length - 1 ≤ n + k ∧ n + k - (d.length - 1) < d.length then d.getD (n + k - (d.length - 1)) 0 * d.getD n 0 else 0)

open Classical in
/-- `_compute_broken_autocorrelation`, channel.py L370-403; an entry `none` is NaN (0/0 when no record is used). Records have at least one sample. -/
noncomputable def brokenAc (ns nP : ℕ) (rows : List (List ℝ)) (nlags : Option ℕ) (range : Option (ℕ × ℕ)) (maxExc : ℝ) : Except Exc (List (Option ℝ)) :=
  let L := nlags.getD ns
  if ns < L then .error .value
  else
    let r := range.getD (0, ns * nP)
    let i0 := r.1 / ns + (if 0 < r.1 % ns then 1 else 0)
    let i1 := r.2 / ns
    if i0 < i1 ∧ rows.length < i1 then .error .index
    else
      let used := ((rows.drop i0).take (i1 - i0)).filter (fun d => decide (∀ u ∈ d, ∀ v ∈ d, u - v ≤ maxExc))
      store ns (((List.range ns).map (fun l => if used = [] then none
        else some ((used.map (fun d => ((correlateFull (center d)).drop (ns - 1)).getD l 0)).sum / used.length / (ns - l : ℕ)))).take L)

/-! ### Padded length -/

theorem clog_bounds (n : ℕ) (h : 2 ≤ n) : 2 ^ (Nat.clog 2 n - 1) < n ∧ n ≤ 2 ^ Nat.clog 2 n ∧ 1 ≤ Nat.clog 2 n :=
  ⟨Nat.pow_pred_clog_lt_self (by norm_num) (by omega), Nat.le_pow_clog (by norm_num) n, Nat.clog_pos (by norm_num) h⟩

/-- C54: at least n, less than twice n, one, three or five times a power of two, and the smallest such number. -/
theorem padded_length (n : ℕ) (h : 1 ≤ n) :
    n ≤ padded n ∧ padded n < 2 * n ∧ (∃ k, padded n = 2 ^ k ∨ padded n = 3 * 2 ^ k ∨ padded n = 5 * 2 ^ k) ∧
    ∀ k q, (q = 2 ^ k ∨ q = 3 * 2 ^ k ∨ q = 5 * 2 ^ k) → n ≤ q → padded n ≤ q := by
  rcases Nat.lt_or_ge n 2 with h1 | h1
  · have : n = 1 := by omega
    subst this
    have hp : padded 1 = 1 := by decide +kernel
    rw [hp]
    exact ⟨le_refl _, by norm_num, ⟨0, .inl (by norm_num)⟩, fun k q _ hq => hq⟩
  obtain ⟨a, b, hc⟩ := clog_bounds n h1
  have hn : n ≠ 0 := by omega
  have hpk : ∀ i j : ℕ, i ≤ j → 2 ^ i ≤ 2 ^ j := fun i j hij => Nat.pow_le_pow_right (by norm_num) hij
  unfold padded
  rw [if_neg hn]
  dsimp only
  generalize hK : Nat.clog 2 n = K at a b hc ⊢
  obtain ⟨K, rfl⟩ : ∃ M, K = M + 1 := ⟨K - 1, by omega⟩
  simp only [Nat.add_sub_cancel] at a
  have e1 : 2 ^ (K + 1) = 2 * 2 ^ K := by ring
  by_cases g1 : n = 2 ^ (K + 1)
  · rw [if_pos g1]
    exact ⟨le_refl _, by omega, ⟨K + 1, .inl g1⟩, fun k q _ hq => hq⟩
  rw [if_neg g1]
  -- what any number of the form at least n is at least
  have hmin : ∀ k q, (q = 2 ^ k ∨ q = 3 * 2 ^ k ∨ q = 5 * 2 ^ k) → n ≤ q → 2 ^ (K + 1) ≤ q ∨ (3 * 2 ^ (K + 1) ≤ 4 * q ∧ q = 3 * 2 ^ k) ∨ (5 * 2 ^ (K + 1) ≤ 8 * q ∧ q = 5 * 2 ^ k) := by
    intro k q hq hnq
    rcases hq with rfl | rfl | rfl
    · left
      refine hpk _ _ ?_
      by_contra hlt
      have := hpk k K (by omega)
      omega
    · right; left
      refine ⟨?_, rfl⟩
      by_contra hlt
      have h4 : 4 * 2 ^ k = 2 ^ (k + 2) := by ring
      have : k + 2 < K + 1 := by
        by_contra hge
        have := hpk (K + 1) (k + 2) (by omega)
        omega
      have := hpk (k + 2) K (by omega)
      omega
    · right; right
      refine ⟨?_, rfl⟩
      by_contra hlt
      have h4 : 8 * 2 ^ k = 2 ^ (k + 3) := by ring
      have : k + 3 < K + 1 := by
        by_contra hge
        have := hpk (K + 1) (k + 3) (by omega)
        omega
      have := hpk (k + 3) K (by omega)
      omega
  by_cases g2 : 3 * 2 ^ (K + 1) < 4 * n
  · rw [if_pos g2]
    refine ⟨b, by omega, ⟨K + 1, .inl rfl⟩, fun k q hq hnq => ?_⟩
    rcases hmin k q hq hnq with h' | ⟨h', hq'⟩ | ⟨h', hq'⟩
    · exact h'
    · -- 3 * 2^k ≥ n > 3/4 p forces 3 * 2^k ≥ 3/2 p
      have : K + 1 ≤ k + 1 := by
        by_contra hlt
        have := hpk (k + 1) K (by omega)
        have e : 2 ^ (k + 1) = 2 * 2 ^ k := by ring
        omega
      have := hpk K k (by omega)
      omega
    · have : K + 1 ≤ k + 2 := by
        by_contra hlt
        have := hpk (k + 2) K (by omega)
        have e : 2 ^ (k + 2) = 4 * 2 ^ k := by ring
        omega
      have := hpk (K + 1) (k + 2) this
      have e : 2 ^ (k + 2) = 4 * 2 ^ k := by ring
      omega
  rw [if_neg g2]
  by_cases g3 : 5 * 2 ^ (K + 1) < 8 * n
  · rw [if_pos g3]
    -- p is at least 4
    have hK1 : 1 ≤ K := by
      by_contra h0
      have : K = 0 := by omega
      subst this
      norm_num at *
      omega
    obtain ⟨M, rfl⟩ : ∃ M, K = M + 1 := ⟨K - 1, by omega⟩
    have e2 : 2 ^ (M + 1 + 1) = 4 * 2 ^ M := by ring
    have e3 : 3 * 2 ^ (M + 1 + 1) / 4 = 3 * 2 ^ M := by rw [e2]; omega
    rw [e3]
    refine ⟨by omega, by omega, ⟨M, .inr (.inl rfl)⟩, fun k q hq hnq => ?_⟩
    rcases hmin k q hq hnq with h' | ⟨h', hq'⟩ | ⟨h', hq'⟩
    · omega
    · omega
    · have : M + 2 ≤ k + 2 := by
        by_contra hlt
        have := hpk (k + 2) (M + 1) (by omega)
        have e : 2 ^ (k + 2) = 4 * 2 ^ k := by ring
        omega
      have := hpk M k (by omega)
      omega
  · rw [if_neg g3]
    have hK1 : 2 ≤ K := by
      by_contra h0
      have : K = 0 ∨ K = 1 := by omega
      rcases this with rfl | rfl
      · norm_num at *
        omega
      · norm_num at *
        omega
    obtain ⟨M, rfl⟩ : ∃ M, K = M + 2 := ⟨K - 2, by omega⟩
    have e2 : 2 ^ (M + 2 + 1) = 8 * 2 ^ M := by ring
    have e3 : 5 * 2 ^ (M + 2 + 1) / 8 = 5 * 2 ^ M := by rw [e2]; omega
    rw [e3]
    refine ⟨by omega, by omega, ⟨M, .inr (.inr rfl)⟩, fun k q hq hnq => ?_⟩
    rcases hmin k q hq hnq with h' | ⟨h', hq'⟩ | ⟨h', hq'⟩ <;> omega

example : padded 1000 = 1024 ∧ padded 700 = 768 ∧ padded 600 = 640 ∧ padded 16 = 16 ∧ padded 17 = 20 := by decide +kernel

/-- from 16 on the padded length is even, so the transform back has the padded length -/
theorem padded_even (n : ℕ) (h : 16 ≤ n) : 2 * (padded n / 2) = padded n := by
  obtain ⟨h1, _, ⟨k, hk⟩, _⟩ := padded_length n (by omega)
  have : 1 ≤ k := by
    by_contra h0
    have : k = 0 := by omega
    subst this
    norm_num at hk
    omega
  obtain ⟨j, rfl⟩ : ∃ j, k = j + 1 := ⟨k - 1, by omega⟩
  have e : 2 ^ (j + 1) = 2 * 2 ^ j := by ring
  omega

/-! ### Lagged products -/

theorem sum_getD (l : List ℝ) : ∑ j ∈ range l.length, l.getD j 0 = l.sum := by
  induction l with
  | nil => simp
  | cons a l ih =>
    rw [List.length_cons, sum_range_succ', List.sum_cons, ← ih]
    simp [add_comm]

theorem center_length (l : List ℝ) : (center l).length = l.length := by simp [center]

theorem center_sum (l : List ℝ) : (center l).sum = 0 := by
  have h : ∀ (m : ℝ) (l : List ℝ), (l.map (· - m)).sum = l.sum - l.length * m := by
    intro m l
    induction l with
    | nil => simp
    | cons a l ih =>
      simp only [List.map_cons, List.sum_cons, ih, List.length_cons]
      push_cast
      ring
  unfold center
  rw [h]
  unfold mean
  rcases l with _ | ⟨a, l⟩
  · simp
  · have : (((a :: l).length : ℕ) : ℝ) ≠ 0 := by simp; positivity
    field_simp
    ring

theorem center_getD (l : List ℝ) (j : ℕ) (h : j < l.length) : (center l).getD j 0 = l.getD j 0 - mean l := by
  simp [center, h]

/-- The sum of products of deviations from the mean, l samples apart [specification] -/
noncomputable def lagged (c : List ℝ) (l : ℕ) : ℝ := ∑ j ∈ range (c.length - l), (c.getD j 0 - mean c) * (c.getD (j + l) 0 - mean c)

/-- One piece: the transforms give the plain sum of lagged products, no wrap-around. -/
theorem piece_lagged (L : ℕ) (c : List ℝ) (hL : 1 ≤ L) (hc : c.length = 15 * L) (l : ℕ) (hl : l < L) : (pieceAc L c).getD l 0 = lagged c l := by
  unfold pieceAc
  dsimp only
  have h16 : 16 ≤ L + c.length := by omega
  have he := padded_even _ h16
  have hge := (padded_length (L + c.length) (by omega)).1
  have hlen : l < ((List.range L).map (irfft (padded (L + c.length) / 2) (fun k => if k = 0 then 0 else power (padded (L + c.length)) (fun j => (center c).getD j 0) k))).length := by
    simpa using hl
  rw [List.getD_eq_getElem _ _ hlen, List.getElem_map, List.getElem_range]
  generalize padded (L + c.length) = N at he hge
  obtain ⟨m, hm⟩ : ∃ m, m = N / 2 := ⟨_, rfl⟩
  rw [← hm] at he ⊢
  subst he
  rw [autocorr_padded m c.length l (by omega) (fun j => (center c).getD j 0) (fun j hj => by simp [center, hj]) (by omega)
    (by rw [← center_length, sum_getD, center_sum])]
  unfold lagged
  refine sum_congr rfl (fun j hj => ?_)
  have := mem_range.1 hj
  rw [center_getD _ _ (by omega), center_getD _ _ (by omega)]

theorem pieces_length (n : ℕ) (data : List ℝ) : ∀ c ∈ pieces n data, c.length = n := by
  intro c hc
  obtain ⟨i, hi, rfl⟩ := List.mem_map.1 hc
  have hi := List.mem_range.1 hi
  rw [List.length_take, List.length_drop]
  have h1 : (i + 1) * n ≤ data.length := le_trans (Nat.mul_le_mul_right n hi) (Nat.div_mul_le_self _ _)
  have : (i + 1) * n = i * n + n := by ring
  omega

theorem excursion_iff (c : List ℝ) (e : ℝ) : (∀ v ∈ center c, |v| ≤ e) ↔ ∀ v ∈ c, |v - mean c| ≤ e := by
  simp [center]

open Classical in
/-- C69 for continuous noise, as compute_noise asks for it (as many lags as samples in a record): the file of nP records of ns samples is cut into pieces of 15 ns samples; the pieces all of
    whose samples are within the limit of the piece's mean are used; the result is the average over them of the lagged products, each divided by its number of products. Too few data
    (fewer than 15 records) and no usable piece are refused. -/
theorem cont_autocorr (ns rps nP : ℕ) (rows : List (List ℝ)) (e : ℝ) (hns : 1 ≤ ns) (hr : 1 ≤ rps) (hP : rows.length ≤ ns * nP) :
    contAc ns rps nP rows (some ns) none e =
      if nP < 15 then .error .value
      else
        let used := (pieces (15 * ns) rows.flatten).filter (fun c => decide (∀ v ∈ c, |v - mean c| ≤ e))
        if used = [] then .error .exception
        else .ok ((List.range ns).map (fun l => (used.map (fun c => lagged c l)).sum / used.length / (15 * ns - l : ℕ))) := by
  unfold contAc lagsOf
  simp only [Option.getD_some, Option.getD_none, Nat.sub_zero]
  have hmin : min ns (rps * ns) = ns := Nat.min_eq_left (Nat.le_mul_of_pos_left _ hr)
  rw [hmin]
  by_cases h15 : nP < 15
  · have h1 : ns * nP < 15 * ns := by rw [mul_comm]; exact Nat.mul_lt_mul_of_pos_right h15 hns
    have h2 : ns * nP / 15 < ns := Nat.div_lt_of_lt_mul (by omega)
    simp [h15, h1, h2]
  · have h1 : ¬ ns * nP < 15 * ns := by rw [mul_comm ns]; exact not_lt.2 (Nat.mul_le_mul_right _ (by omega))
    rw [if_neg h15, if_neg h1]
    dsimp only
    rw [List.drop_zero, List.take_of_length_le hP]
    simp only [excursion_iff]
    generalize hu : (pieces (15 * ns) rows.flatten).filter (fun c => decide (∀ v ∈ c, |v - mean c| ≤ e)) = used
    by_cases hz : used = []
    · rw [if_pos hz, if_pos hz]
    · rw [if_neg hz, if_neg hz]
      unfold store
      rw [if_pos (by simp)]
      congr 1
      refine List.map_congr_left (fun l hl => ?_)
      have hl := List.mem_range.1 hl
      congr 3
      refine List.map_congr_left (fun c hc => ?_)
      rw [← hu] at hc
      exact piece_lagged ns c hns (pieces_length _ _ c (List.mem_filter.1 hc).1) l hl

/-- fifteen one-sample records: 15 once, then zeros; the mean is 1, the variance 14 -/
example : contAc 1 1 15 ([15] :: List.replicate 14 [0]) (some 1) none 100 = .ok [14] := by
  classical
  rw [cont_autocorr 1 1 15 _ 100 (by norm_num) (by norm_num) (by simp)]
  have hp : pieces (15 * 1) ([15] :: List.replicate 14 [(0 : ℝ)]).flatten = [15 :: List.replicate 14 0] := by simp [pieces, List.replicate]
  have hm : mean (15 :: List.replicate 14 0) = 1 := by norm_num [mean, List.replicate]
  have hf : [(15 : ℝ) :: List.replicate 14 0].filter (fun c => decide (∀ v ∈ c, |v - mean c| ≤ 100)) = [15 :: List.replicate 14 0] := by
    rw [List.filter_eq_self]
    intro c hc
    rw [List.mem_singleton.1 hc, hm]
    norm_num [List.replicate]
  have hl : lagged (15 :: List.replicate 14 0) 0 = 210 := by
    rw [lagged, hm]
    norm_num [List.replicate, sum_range_succ]
  dsimp only
  rw [hp, hf, if_neg (by norm_num), if_neg (List.cons_ne_nil _ _)]
  norm_num [hl]

/-- Asking for one lag of longer records fills every lag with the value of lag 0. -/
theorem cont_one_lag_fails (ns rps nP : ℕ) (rows : List (List ℝ)) (e : ℝ) (ac : List ℝ) (h : contAc ns rps nP rows (some 1) none e = .ok ac) (hr : 1 ≤ rps) (hns : 2 ≤ ns) (hP : 15 ≤ nP) :
    ∃ v, ac = List.replicate ns v := by
  unfold contAc lagsOf at h
  simp only [Option.getD_some, Option.getD_none, Nat.sub_zero] at h
  have hmin : min 1 (rps * ns) = 1 := Nat.min_eq_left (Nat.mul_pos (by omega) (by omega))
  have h1 : ¬ ns * nP < 15 * 1 := by
    have := Nat.mul_le_mul hns hP
    omega
  rw [hmin, if_neg h1] at h
  dsimp only at h
  split at h
  · exact absurd h (by simp)
  · unfold store at h
    rw [if_neg (by simp; omega)] at h
    simp only [List.range_succ, List.range_zero, List.nil_append, List.map_cons, List.map_nil, Except.ok.injEq] at h
    exact ⟨_, h.symm⟩

/-- fifteen quiet two-sample records, then fifteen noisy ones [specification] -/
def quietNoisy : List (List ℝ) := List.replicate 15 [0, 0] ++ List.replicate 15 [1, -1]

open Classical in
/-- A file limited to its first fifteen records (use_records) still uses the later ones: the variance at lag 0 is not that of the first fifteen. -/
theorem cont_use_records_fails :
    (contAc 2 1 15 quietNoisy (some 2) none 100).map (fun ac => ac.getD 0 0) = .ok (1 / 2) ∧
    (contAc 2 1 15 (quietNoisy.take 15) (some 2) none 100).map (fun ac => ac.getD 0 0) = .ok 0 := by
  have hm0 : mean (List.replicate 30 0) = 0 := by norm_num [mean, List.replicate]
  have hm1 : mean (List.replicate 15 [1, -1]).flatten = 0 := by norm_num [mean, List.replicate]
  have hl0 : lagged (List.replicate 30 0) 0 = 0 := by
    rw [lagged, hm0]
    norm_num [List.replicate, sum_range_succ]
  have hl1 : lagged (List.replicate 15 [1, -1]).flatten 0 = 30 := by
    rw [lagged, hm1]
    norm_num [List.replicate, sum_range_succ]
  constructor
  · rw [cont_autocorr 2 1 15 _ 100 (by norm_num) (by norm_num) (by simp [quietNoisy])]
    have hp : pieces (15 * 2) quietNoisy.flatten = [List.replicate 30 0, (List.replicate 15 [1, -1]).flatten] := by
      simp [pieces, quietNoisy, List.replicate, List.range_succ]
    have hf : ([List.replicate 30 0, (List.replicate 15 [1, -1]).flatten] : List (List ℝ)).filter (fun c => decide (∀ v ∈ c, |v - mean c| ≤ 100)) =
        [List.replicate 30 0, (List.replicate 15 [1, -1]).flatten] := by
      rw [List.filter_eq_self]
      intro c hc
      simp only [List.mem_cons, List.not_mem_nil, or_false] at hc
      rcases hc with rfl | rfl
      · rw [hm0]; norm_num [List.replicate]
      · rw [hm1]; norm_num [List.replicate]
    dsimp only
    rw [hp, hf, if_neg (by norm_num), if_neg (List.cons_ne_nil _ _)]
    norm_num [List.range_succ, hl0, hl1, Except.map]
  · rw [cont_autocorr 2 1 15 _ 100 (by norm_num) (by norm_num) (by simp [quietNoisy])]
    have hp : pieces (15 * 2) (quietNoisy.take 15).flatten = [List.replicate 30 0] := by
      simp [pieces, quietNoisy, List.replicate, List.range_succ]
    have hf : ([List.replicate 30 0] : List (List ℝ)).filter (fun c => decide (∀ v ∈ c, |v - mean c| ≤ 100)) = [List.replicate 30 0] := by
      rw [List.filter_eq_self]
      intro c hc
      rw [List.mem_singleton.1 hc, hm0]
      norm_num [List.replicate]
    dsimp only
    rw [hp, hf, if_neg (by norm_num), if_neg (List.cons_ne_nil _ _)]
    norm_num [List.range_succ, hl0, Except.map]

/-- A number of lags that does not end up equal to the record length (or 1) is refused with a TypeError, although documented as a choice. -/
theorem cont_lags_refused (ns rps nP L : ℕ) (rows : List (List ℝ)) (nlags : Option ℕ) (range : Option (ℕ × ℕ)) (e : ℝ)
    (hL : lagsOf ns rps ((range.getD (0, ns * nP)).2 - (range.getD (0, ns * nP)).1) nlags = .ok L) (h1 : L ≠ ns) (h2 : L ≠ 1) :
    ∃ x, contAc ns rps nP rows nlags range e = .error x := by
  unfold contAc
  dsimp only
  rw [hL]
  dsimp only
  split
  · exact ⟨_, rfl⟩
  · unfold store
    rw [if_neg (by simpa using h1)]
    split
    · rename_i a heq
      have := congrArg List.length heq
      simp at this
      exact absurd this h2
    · exact ⟨_, rfl⟩

/-- The sample range is used to select records: a range of samples that begins at or after sample nP (of ns * nP) selects nothing, whatever the data. -/
theorem cont_range_fails (ns rps nP : ℕ) (rows : List (List ℝ)) (nlags : Option ℕ) (a b : ℕ) (e : ℝ) (hrows : rows.length ≤ nP) (ha : nP ≤ a) :
    ∃ x, contAc ns rps nP rows nlags (some (a, b)) e = .error x := by
  unfold contAc
  simp only [Option.getD_some]
  split
  · exact ⟨_, rfl⟩
  · have hd : rows.drop a = [] := List.drop_eq_nil_of_le (by omega)
    rw [hd]
    simp [pieces]

/-! ### Separate records -/

theorem correlate_lag (d : List ℝ) (l : ℕ) (hl : l < d.length) : ((correlateFull d).drop (d.length - 1)).getD l 0 = ∑ j ∈ range (d.length - l), d.getD j 0 * d.getD (j + l) 0 := by
  have hlen : l < ((correlateFull d).drop (d.length - 1)).length := by
    rw [List.length_drop]
    simp [correlateFull]
    omega
  rw [List.getD_eq_getElem _ _ hlen, List.getElem_drop]
  unfold correlateFull
  rw [List.getElem_map, List.getElem_range]
  rw [← sum_range_add_sum_Ico _ (show d.length - l ≤ d.length by omega)]
  have h2 : ∑ n ∈ Ico (d.length - l) d.length, (if d.length - 1 ≤ n + (d.length - 1 + l) ∧ n + (d.length - 1 + l) - (d.length - 1) < d.length then
      d.getD (n + (d.length - 1 + l) - (d.length - 1)) 0 * d.getD n 0 else 0) = 0 := by
    refine sum_eq_zero (fun n hn => ?_)
    have := mem_Ico.1 hn
    rw [if_neg (by omega)]
  rw [h2, add_zero]
  refine sum_congr rfl (fun j hj => ?_)
  have := mem_range.1 hj
  rw [if_pos (by omega), show j + (d.length - 1 + l) - (d.length - 1) = j + l by omega, mul_comm]

open Classical in
/-- C69 for separate noise records: at least one record whose samples span at most the limit, all lags: the average over those records of the lagged products divided by their number. -/
theorem broken_autocorr_partial (ns nP : ℕ) (rows : List (List ℝ)) (e : ℝ) (hns : 1 ≤ ns) (hlen : ∀ d ∈ rows, d.length = ns) (hP : nP ≤ rows.length)
    (hex : ∃ d ∈ rows.take nP, ∀ u ∈ d, ∀ v ∈ d, u - v ≤ e) :
    let used := (rows.take nP).filter (fun d => decide (∀ u ∈ d, ∀ v ∈ d, u - v ≤ e))
    brokenAc ns nP rows (some ns) none e = .ok ((List.range ns).map (fun l => some ((used.map (fun d => lagged d l)).sum / used.length / (ns - l : ℕ)))) := by
  intro used
  unfold brokenAc
  simp only [Option.getD_some, Option.getD_none, Nat.zero_div, Nat.zero_mod, lt_irrefl, if_false, Nat.add_zero, Nat.mul_div_cancel_left nP (show 0 < ns from hns), Nat.sub_zero, List.drop_zero]
  rw [if_neg (by omega)]
  have hne : used ≠ [] := by
    obtain ⟨d, hd, hs⟩ := hex
    have : d ∈ used := List.mem_filter.2 ⟨hd, by simpa using hs⟩
    exact List.ne_nil_of_mem this
  have hf : (rows.take nP).filter (fun d => decide (∀ u ∈ d, ∀ v ∈ d, u - v ≤ e)) = used := rfl
  rw [hf]
  unfold store
  rw [if_pos (by simp), List.take_of_length_le (by simp)]
  congr 1
  refine List.map_congr_left (fun l hl => ?_)
  rw [if_neg hne]
  have hl := List.mem_range.1 hl
  congr 4
  refine List.map_congr_left (fun d hd => ?_)
  have hdl : d.length = ns := hlen d (List.mem_of_mem_take (List.mem_filter.1 hd).1)
  have := correlate_lag (center d) l (by rw [center_length]; omega)
  rw [center_length, hdl] at this
  rw [this]
  unfold lagged
  rw [hdl]
  refine sum_congr rfl (fun j hj => ?_)
  have := mem_range.1 hj
  rw [center_getD _ _ (by omega), center_getD _ _ (by omega)]

/-- With separate records and no usable one, NaN is stored in every entry; the continuous version raises an exception. -/
theorem broken_none_fails : brokenAc 2 1 [[0, 10]] (some 2) none 5 = .ok [none, none] := by
  unfold brokenAc
  have : (([[0, 10]] : List (List ℝ)).filter (fun d => decide (∀ u ∈ d, ∀ v ∈ d, u - v ≤ 5))) = [] := by
    rw [List.filter_eq_nil_iff]
    intro d hd
    simp only [List.mem_singleton] at hd
    subst hd
    simp
    norm_num
  simp only [Option.getD_some, Option.getD_none]
  norm_num
  simp [store]

/-- two records of two samples, one of them usable -/
example : brokenAc 2 2 [[0, 10], [1, 3]] (some 2) none 5 = .ok [some 1, some (-1)] := by
  classical
  rw [broken_autocorr_partial 2 2 _ 5 (by norm_num) (by simp) (by simp) ⟨[1, 3], by simp, by norm_num⟩]
  have hf : (([[0, 10], [1, 3]] : List (List ℝ)).take 2).filter (fun d => decide (∀ u ∈ d, ∀ v ∈ d, u - v ≤ 5)) = [[1, 3]] := by
    norm_num
  rw [hf]
  norm_num [List.range_succ, lagged, mean, sum_range_succ]

end Mass.Stat.Autocorr
