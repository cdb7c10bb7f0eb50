import Verif.Algo.SummaryThm
/-! Summaries of whole files (C80), the numpy version of the summary (C81) and the two versions of the maximum derivative (C82). -/
namespace Mass.Algo.Summary
open Mass

/-! ### Whole files -/

section Files
variable {R A : Type}

/-- arr[first:stop] = res for an HDF5 data set: equal lengths, or one number for all (used for mass/core/channel.py L954-971) -/
def assign (arr : List A) (first stop : ℕ) (res : List A) : Except Exc (List A) :=
  if res.length = stop - first then .ok (arr.take first ++ res ++ arr.drop stop)
  else match res with
    | [x] => .ok (arr.take first ++ List.replicate (stop - first) x ++ arr.drop stop)
    | _ => .error .type

/-- one segment, mass/core/channel.py L954-971, with `summarize_data_cython` on its records, of which it sees the number modulo 65536 (cython_channel.pyx L49, L61-66, L95). All stored quantities are
    treated as one value per record. -/
def segment (f : R → Except Exc A) (rs : List R) (pps : ℕ) (arr : List A) (seg : ℕ) : Except Exc (List A) := do
  let first := seg * pps
  let stop := min (first + pps) rs.length
  let res ← ((rs.drop first).take ((stop - first) % 65536)).mapM f
  assign arr first stop res

/-- `set_segment_size`, mass/core/files.py L298-305, for a file of n records of ps bytes and `extra` bytes of an incomplete one -/
def nSegments (n ps extra pps : ℕ) : ℕ := if n * ps + extra = 0 then 0 else 1 + (n * ps + extra - 1) / (pps * ps)

/-- `summarize_data` with use_cython, channel.py L954-973 -/
def summarizeAll (f : R → Except Exc A) (rs : List R) (ps extra pps : ℕ) (arr : List A) : Except Exc (List A) := (List.range (nSegments rs.length ps extra pps)).foldlM (segment f rs pps) arr

theorem mapM_length (f : R → Except Exc A) (l : List R) (xs : List A) (h : l.mapM f = .ok xs) : xs.length = l.length := by
  induction l generalizing xs with
  | nil => simp [pure, Except.pure] at h; simp [← h]
  | cons a l ih =>
    rw [List.mapM_cons] at h
    simp only [bind, Except.bind, pure, Except.pure] at h
    cases ha : f a with
    | error e => rw [ha] at h; exact absurd h (by simp)
    | ok b =>
      rw [ha] at h
      dsimp only at h
      cases hl : l.mapM f with
      | error e => rw [hl] at h; exact absurd h (by simp)
      | ok ys =>
        rw [hl] at h
        simp only [Except.ok.injEq] at h
        rw [← h, List.length_cons, List.length_cons, ih ys hl]

theorem segments_prefix (f : R → Except Exc A) (rs : List R) (pps : ℕ) (hp : pps < 65536) (arr : List A) (harr : arr.length = rs.length) (m : ℕ) :
    (List.range m).foldlM (segment f rs pps) arr = ((rs.take (m * pps)).mapM f).map (fun xs => xs ++ arr.drop (m * pps)) := by
  induction m with
  | zero => simp [pure, Except.pure, Except.map]
  | succ m ih =>
    rw [List.range_succ, List.foldlM_append, ih]
    have hsplit : rs.take ((m + 1) * pps) = rs.take (m * pps) ++ (rs.drop (m * pps)).take pps := by
      rw [Nat.succ_mul, List.take_add]
    rw [hsplit, List.mapM_append]
    cases hx : (rs.take (m * pps)).mapM f with
    | error e => rfl
    | ok xs =>
      have hxl : xs.length = min (m * pps) rs.length := by
        have := mapM_length f _ xs hx
        rw [this, List.length_take]
      simp only [Except.map, bind, Except.bind, List.foldlM_cons, List.foldlM_nil]
      unfold segment
      dsimp only
      have hst : min (m * pps + pps) rs.length - m * pps = min pps (rs.length - m * pps) := by omega
      have htake : (rs.drop (m * pps)).take ((min (m * pps + pps) rs.length - m * pps) % 65536) = (rs.drop (m * pps)).take pps := by
        rw [hst, Nat.mod_eq_of_lt (by omega)]
        rcases Nat.le_total pps (rs.length - m * pps) with h | h
        · rw [min_eq_left h]
        · rw [min_eq_right h, List.take_of_length_le (by rw [List.length_drop]), List.take_of_length_le (by rw [List.length_drop]; exact h)]
      rw [htake]
      cases hy : ((rs.drop (m * pps)).take pps).mapM f with
      | error e => rfl
      | ok ys =>
        have hyl : ys.length = min pps (rs.length - m * pps) := by
          have := mapM_length f _ ys hy
          rw [this, List.length_take, List.length_drop]
        simp only [bind, Except.bind, pure, Except.pure]
        unfold assign
        rw [if_pos (by rw [hyl, hst])]
        simp only [Except.ok.injEq]
        have h1 : (xs ++ arr.drop (m * pps)).take (m * pps) = xs := by
          rcases Nat.le_total (m * pps) rs.length with h | h
          · rw [List.take_append_of_le_length (by omega), List.take_of_length_le (by omega)]
          · rw [List.drop_eq_nil_of_le (by omega), List.append_nil, List.take_of_length_le (by omega)]
        have h2 : (xs ++ arr.drop (m * pps)).drop (min (m * pps + pps) rs.length) = arr.drop ((m + 1) * pps) := by
          rcases Nat.le_total (m * pps) rs.length with h | h
          · rw [List.drop_append, List.drop_eq_nil_of_le (by omega), List.nil_append, List.drop_drop]
            rcases Nat.le_total ((m + 1) * pps) rs.length with h' | h'
            · congr 1
              rw [hxl]
              rw [Nat.succ_mul] at h' ⊢
              omega
            · rw [show arr.drop ((m + 1) * pps) = [] from List.drop_eq_nil_of_le (by omega), List.drop_eq_nil_of_le]
              rw [hxl]
              rw [Nat.succ_mul] at h'
              omega
          · rw [show arr.drop (m * pps) = [] from List.drop_eq_nil_of_le (by omega), List.append_nil, List.drop_eq_nil_of_le (by omega), List.drop_eq_nil_of_le (by rw [Nat.succ_mul]; omega)]
        rw [h1, h2]

/-- C80: if a segment has fewer than 65536 records, every record gets its own summary, whatever the segment size; the first record without one ends the loop with its error. -/
theorem summarize_all_partial (f : R → Except Exc A) (rs : List R) (ps extra pps : ℕ) (h1 : 1 ≤ pps) (hp : pps < 65536) (hps : 1 ≤ ps) (arr : List A) (harr : arr.length = rs.length) :
    summarizeAll f rs ps extra pps arr = rs.mapM f := by
  unfold summarizeAll
  rw [segments_prefix f rs pps hp arr harr]
  have hn : rs.length ≤ nSegments rs.length ps extra pps * pps := by
    unfold nSegments
    split
    · rename_i h
      have : rs.length * ps = 0 := by omega
      rcases Nat.mul_eq_zero.1 this with h | h <;> omega
    · have h2 : 0 < pps * ps := Nat.mul_pos h1 hps
      have h3 := Nat.lt_div_mul_add h2 (a := rs.length * ps + extra - 1)
      have h4 : rs.length * ps ≤ (1 + (rs.length * ps + extra - 1) / (pps * ps)) * pps * ps := by
        have : (1 + (rs.length * ps + extra - 1) / (pps * ps)) * pps * ps = (rs.length * ps + extra - 1) / (pps * ps) * (pps * ps) + pps * ps := by ring
        rw [this]
        omega
      exact Nat.le_of_mul_le_mul_right h4 hps
  rw [List.take_of_length_le hn, List.drop_eq_nil_of_le (by omega)]
  cases rs.mapM f <;> simp [Except.map]

/-- Segments of 65536 or more records (possible with the default segment size for records of at most 120 samples) do not work. With 70000 records: error. -/
theorem summarize_many_fails (f : R → A) (rs : List R) (arr : List A) (hn : rs.length = 70000) : summarizeAll (fun r => .ok (f r)) rs 216 0 77672 arr = .error .type := by
  unfold summarizeAll nSegments
  rw [hn]
  norm_num
  unfold segment
  rw [hn]
  norm_num
  have hm : ((rs.take 4464).mapM (fun r => (.ok (f r) : Except Exc A))) = .ok ((rs.take 4464).map f) := by
    generalize rs.take 4464 = l
    induction l with
    | nil => rfl
    | cons a l ih => simp [List.mapM_cons, ih, bind, Except.bind, pure, Except.pure]
  rw [hm]
  simp only [bind, Except.bind]
  unfold assign
  have hl : ((rs.take 4464).map f).length = 4464 := by rw [List.length_map, List.length_take, hn]; rfl
  rw [if_neg (by rw [hl]; decide)]
  generalize (rs.take 4464).map f = l at hl
  match l, hl with
  | a :: b :: l, _ => rfl

/-- With 65537 records: all get the summary of the first. -/
theorem summarize_same_fails (f : R → A) (r : R) (rs : List R) (arr : List A) (hn : rs.length = 65536) (harr : arr.length = 65537) :
    summarizeAll (fun r => .ok (f r)) (r :: rs) 216 0 77672 arr = .ok (List.replicate 65537 (f r)) := by
  unfold summarizeAll nSegments
  simp only [List.length_cons, hn]
  norm_num
  unfold segment
  simp only [List.length_cons, hn]
  norm_num
  simp only [bind, Except.bind, pure, Except.pure]
  unfold assign
  rw [if_neg (by simp)]
  simp only [List.take_zero, List.nil_append]
  rw [List.drop_eq_nil_of_le (by omega), List.append_nil]

end Files

/-! ### The maximum derivative, mass/core/analysis_algorithms.pyx -/

/-- one output of the filter with the five coefficients f0 .. f4, analysis_algorithms.pyx L186-188 -/
def tap (f : Fin 5 → ℚ) (g : ℕ → ℚ) (j : ℕ) : ℚ := f 4 * g (j - 4) + f 3 * g (j - 3) + f 2 * g (j - 2) + f 1 * g (j - 1) + f 0 * g j

/-- one pass of the loop analysis_algorithms.pyx L194-201 -/
def fastStep (f : Fin 5 → ℚ) (g : ℕ → ℚ) (a : ℚ × ℚ × ℚ × ℚ) (j : ℕ) : ℚ × ℚ × ℚ × ℚ :=
  let (_, t1, t2, mx) := a
  let t3 := tap f g j
  let t4 := if t3 < t1 then t3 else t1
  (t1, t2, t3, if mx < t4 then t4 else mx)

/-- the coefficients of a kernel; `f0, f1, f2, f3, f4 = filter_coef` raises for other lengths, analysis_algorithms.pyx L180 -/
def five (kernel : List ℚ) : Except Exc (Fin 5 → ℚ) := if kernel.length = 5 then .ok (fun i => kernel.getD i 0) else .error .value

/-- `compute_max_deriv` for one record, analysis_algorithms.pyx L130-216, after removing the leading samples. Records that are too short are read behind their end (`index`). -/
def fastMaxDeriv (kernel : List ℚ) (spike : Bool) (d : List ℚ) : Except Exc ℚ := do
  let f ← five kernel
  let g := fun i => d.getD i 0
  if spike then
    if d.length < 7 then .error .index
    else
      let t0 := tap f g 4
      let t1 := tap f g 5
      let t2 := tap f g 6
      .ok ((List.range' 7 (d.length - 7)).foldl (fastStep f g) (t0, t1, t2, if t2 < t0 then t2 else t0)).2.2.2
  else
    if d.length < 5 then .error .index
    else .ok ((List.range' 5 (d.length - 5)).foldl (fun mx j => if mx < tap f g j then tap f g j else mx) (tap f g 4))

/-- np.convolve(a, v, mode="valid") for len(v) ≤ len(a) (used for analysis_algorithms.pyx L97-133) -/
def convCore (a v : List ℚ) : List ℚ := (List.range (a.length + 1 - v.length)).map (fun i => ((List.range v.length).map (fun m => v.getD m 0 * a.getD (i + (v.length - 1) - m) 0)).sum)

/-- np.convolve(a, v, mode="valid") (used for analysis_algorithms.pyx L97-133) -/
def convolve (a v : List ℚ) : Except Exc (List ℚ) := if a = [] ∨ v = [] then .error .value else .ok (if a.length < v.length then convCore v a else convCore a v)

/-- np.max (used for analysis_algorithms.pyx L97-133) -/
def npMax : List ℚ → Except Exc ℚ
  | [] => .error .value
  | x :: l => .ok (l.foldl max x)

/-- `python_compute_max_deriv` for one record, analysis_algorithms.pyx L97-133 -/
def pyMaxDeriv (kernel : List ℚ) (spike : Bool) (d : List ℚ) : Except Exc ℚ := do
  let conv ← convolve d kernel
  if spike then npMax (List.zipWith min (conv.drop 2) (conv.take (conv.length - 2))) else npMax conv

/-- the default kernel, analysis_algorithms.pyx L106 and L166 -/
def defaultKernel : List ℚ := [1 / 5, 1 / 10, 0, -1 / 10, -1 / 5]

theorem conv_five (kernel d : List ℚ) (hk : kernel.length = 5) (hd : 5 ≤ d.length) : convolve d kernel = .ok ((List.range (d.length - 4)).map (fun i => tap (fun i => kernel.getD i 0) (fun i => d.getD i 0) (i + 4))) := by
  unfold convolve
  rw [if_neg (by rintro (rfl | rfl) <;> simp at hd hk), if_neg (by omega)]
  congr 1
  unfold convCore
  rw [hk, show d.length + 1 - 5 = d.length - 4 by omega]
  refine List.map_congr_left (fun i _ => ?_)
  unfold tap
  simp only [List.range_succ, List.range_zero, List.nil_append, List.map_append, List.map_cons, List.map_nil, List.sum_append, List.sum_cons, List.sum_nil]
  rw [show i + (5 - 1) - 0 = i + 4 by omega, show i + (5 - 1) - 1 = i + 4 - 1 by omega, show i + (5 - 1) - 2 = i + 4 - 2 by omega, show i + (5 - 1) - 3 = i + 4 - 3 by omega, show i + (5 - 1) - 4 = i + 4 - 4 by omega]
  simp only [Fin.isValue, Fin.val_zero, Fin.val_one, Fin.val_two]
  have h3 : ((3 : Fin 5) : ℕ) = 3 := rfl
  have h4 : ((4 : Fin 5) : ℕ) = 4 := rfl
  rw [h3, h4]
  ring

theorem npMax_range (h : ℕ → ℚ) (m : ℕ) : npMax ((List.range (m + 1)).map h) = .ok ((List.range m).foldl (fun a i => max a (h (i + 1))) (h 0)) := by
  rw [List.range_succ_eq_map]
  simp only [List.map_cons, List.map_map, npMax, List.foldl_map, Function.comp]

theorem fast_loop (f : Fin 5 → ℚ) (g : ℕ → ℚ) (m : ℕ) :
    (List.range' 7 m).foldl (fastStep f g) (tap f g 4, tap f g 5, tap f g 6, min (tap f g 6) (tap f g 4)) =
      (tap f g (4 + m), tap f g (5 + m), tap f g (6 + m), (List.range m).foldl (fun a i => max a (min (tap f g (7 + i)) (tap f g (5 + i)))) (min (tap f g 6) (tap f g 4))) := by
  induction m with
  | zero => rfl
  | succ m ih =>
    rw [List.range'_1_concat, List.foldl_append, ih, List.range_succ, List.foldl_append]
    simp only [List.foldl_cons, List.foldl_nil]
    unfold fastStep
    dsimp only
    have hmin : (if tap f g (7 + m) < tap f g (5 + m) then tap f g (7 + m) else tap f g (5 + m)) = min (tap f g (7 + m)) (tap f g (5 + m)) := by
      split
      · rename_i h
        rw [min_eq_left h.le]
      · rename_i h
        rw [min_eq_right (not_lt.1 h)]
    rw [hmin, show 4 + (m + 1) = 5 + m by ring, show 5 + (m + 1) = 6 + m by ring, show 6 + (m + 1) = 7 + m by ring]
    generalize (List.range m).foldl (fun a i => max a (min (tap f g (7 + i)) (tap f g (5 + i)))) (min (tap f g 6) (tap f g 4)) = x
    have hmax : (if x < min (tap f g (7 + m)) (tap f g (5 + m)) then min (tap f g (7 + m)) (tap f g (5 + m)) else x) = max x (min (tap f g (7 + m)) (tap f g (5 + m))) := by
      split
      · rename_i h
        rw [max_eq_right h.le]
      · rename_i h
        rw [max_eq_left (not_lt.1 h)]
    rw [hmax]

/-- the fast version computes the maximum of minima -/
theorem fast_eq (kernel d : List ℚ) (hk : kernel.length = 5) (hd : 7 ≤ d.length) : fastMaxDeriv kernel true d =
    .ok ((List.range (d.length - 7)).foldl (fun a i => max a (min (tap (fun i => kernel.getD i 0) (fun i => d.getD i 0) (7 + i)) (tap (fun i => kernel.getD i 0) (fun i => d.getD i 0) (5 + i))))
      (min (tap (fun i => kernel.getD i 0) (fun i => d.getD i 0) 6) (tap (fun i => kernel.getD i 0) (fun i => d.getD i 0) 4))) := by
  unfold fastMaxDeriv five
  rw [if_pos hk]
  simp only [bind, Except.bind, if_true]
  rw [if_neg (by omega)]
  generalize (fun i : Fin 5 => kernel.getD (i : ℕ) 0) = f
  generalize (fun i => d.getD i 0) = g
  have hmin : (if tap f g 6 < tap f g 4 then tap f g 6 else tap f g 4) = min (tap f g 6) (tap f g 4) := by
    split
    · rename_i h
      rw [min_eq_left h.le]
    · rename_i h
      rw [min_eq_right (not_lt.1 h)]
  rw [hmin, fast_loop]

/-- C82: for kernels of five coefficients and records long enough, the fast and the plain version agree, with and without spike rejection. -/
theorem versions_agree_partial (kernel d : List ℚ) (spike : Bool) (hk : kernel.length = 5) (hd : (if spike then 7 else 5) ≤ d.length) : fastMaxDeriv kernel spike d = pyMaxDeriv kernel spike d := by
  unfold pyMaxDeriv
  rw [conv_five kernel d hk (by split at hd <;> omega)]
  simp only [bind, Except.bind]
  cases spike with
  | true =>
    simp only [if_true] at hd ⊢
    rw [fast_eq kernel d hk hd]
    generalize (fun i : Fin 5 => kernel.getD (i : ℕ) 0) = f
    generalize (fun i => d.getD i 0) = g
    have hz : List.zipWith min (((List.range (d.length - 4)).map (fun i => tap f g (i + 4))).drop 2) (((List.range (d.length - 4)).map (fun i => tap f g (i + 4))).take (((List.range (d.length - 4)).map (fun i => tap f g (i + 4))).length - 2)) =
        (List.range (d.length - 7 + 1)).map (fun i => min (tap f g (i + 6)) (tap f g (i + 4))) := by
      refine List.ext_getElem ?_ ?_
      · simp
        omega
      · intro i h1 h2
        simp only [List.getElem_zipWith, List.getElem_drop, List.getElem_take, List.getElem_map, List.getElem_range]
        rw [show 2 + i + 4 = i + 6 by ring]
    rw [hz, npMax_range]
    congr 2
    funext a i
    rw [show i + 1 + 6 = 7 + i by ring, show i + 1 + 4 = 5 + i by ring]
  | false =>
    simp only [Bool.false_eq_true, if_false] at hd ⊢
    unfold fastMaxDeriv five
    rw [if_pos hk]
    simp only [bind, Except.bind, Bool.false_eq_true, if_false]
    rw [if_neg (by omega), show d.length - 4 = d.length - 5 + 1 by omega, npMax_range]
    generalize (fun i : Fin 5 => kernel.getD (i : ℕ) 0) = f
    generalize (fun i => d.getD i 0) = g
    rw [List.range'_eq_map_range, List.foldl_map]
    congr 2
    funext a i
    rw [show i + 1 + 4 = 5 + i by ring]
    split
    · rename_i h
      rw [max_eq_right h.le]
    · rename_i h
      rw [max_eq_left (not_lt.1 h)]

/-- Kernels of another length are accepted by the plain version only. -/
theorem kernel_length_fails : fastMaxDeriv [1, 0, -1] true [1, 2, 4, 8, 16, 32, 64] = .error .value ∧ pyMaxDeriv [1, 0, -1] true [1, 2, 4, 8, 16, 32, 64] = .ok 12 := by decide +kernel

/-- Records shorter than seven samples: the plain version raises, the fast one reads behind the record. -/
theorem short_record_fails : fastMaxDeriv defaultKernel true [1, 2, 4, 8, 16, 32] = .error .index ∧ pyMaxDeriv defaultKernel true [1, 2, 4, 8, 16, 32] = .error .value := by decide +kernel

example : fastMaxDeriv defaultKernel true [0, 0, 0, 0, 10, 20, 30, 40, 40, 40] = .ok 8 ∧ pyMaxDeriv defaultKernel true [0, 0, 0, 0, 10, 20, 30, 40, 40, 40] = .ok 8 := by decide +kernel

/-- C82, C55: the derivative of the summary is that of `compute_max_deriv` with the default kernel, from the usual peak on, in tenths. -/
theorem summary_max_deriv (tb : ℚ) (p ignore nPre : ℕ) (r : List ℕ) (h : Usable p ignore nPre r) (hlong : p + 6 < r.length) (s : Summary) (hs : summary tb p ignore nPre r = .ok s) :
    fastMaxDeriv defaultKernel true ((r.map (fun x : ℕ => (x : ℚ))).drop p) = .ok ((s.deriv : ℚ) / 10) := by
  have hlen : ((r.map (fun x : ℕ => (x : ℚ))).drop p).length = r.length - p := by simp
  rw [fast_eq defaultKernel _ rfl (by omega), hlen]
  congr 1
  have htap : ∀ k, 4 ≤ k → tap (fun i => defaultKernel.getD i 0) (fun i => ((r.map (fun x : ℕ => (x : ℚ))).drop p).getD i 0) k = (diff (fun i => (r.getD i 0 : ℤ)) (p + k) : ℚ) / 10 := by
    intro k hk
    unfold tap diff
    have hg : ∀ i, ((r.map (fun x : ℕ => (x : ℚ))).drop p).getD i 0 = (r.getD (p + i) 0 : ℚ) := by
      intro i
      simp only [List.getD_eq_getElem?_getD, List.getElem?_drop, List.getElem?_map]
      cases r[p + i]? <;> simp
    simp only [hg]
    rw [show p + (k - 4) = p + k - 4 by omega, show p + (k - 3) = p + k - 3 by omega, show p + (k - 1) = p + k - 1 by omega]
    have c0 : defaultKernel.getD ((0 : Fin 5) : ℕ) 0 = 1 / 5 := rfl
    have c1 : defaultKernel.getD ((1 : Fin 5) : ℕ) 0 = 1 / 10 := rfl
    have c2 : defaultKernel.getD ((2 : Fin 5) : ℕ) 0 = 0 := rfl
    have c3 : defaultKernel.getD ((3 : Fin 5) : ℕ) 0 = -1 / 10 := rfl
    have c4 : defaultKernel.getD ((4 : Fin 5) : ℕ) 0 = -1 / 5 := rfl
    rw [c0, c1, c2, c3, c4]
    push_cast
    ring
  obtain ⟨⟨k, k1, k2, k3⟩, kall⟩ := postpeak_partial tb p ignore nPre r h hlong s hs
  obtain ⟨g, hg⟩ : ∃ g : ℕ → ℤ, g = fun i => (r.getD i 0 : ℤ) := ⟨_, rfl⟩
  rw [← hg] at k3 kall htap
  have hmincast : ∀ a b : ℤ, (min a b : ℤ) / (10 : ℚ) = min ((a : ℚ) / 10) ((b : ℚ) / 10) := by
    intro a b
    rw [min_div_div_right (by norm_num)]
    push_cast
    rfl
  obtain ⟨f1, f2, f3⟩ := foldl_max (fun i => min (tap (fun i => defaultKernel.getD i 0) (fun i => ((r.map (fun x : ℕ => (x : ℚ))).drop p).getD i 0) (7 + i))
    (tap (fun i => defaultKernel.getD i 0) (fun i => ((r.map (fun x : ℕ => (x : ℚ))).drop p).getD i 0) (5 + i)))
    (min (tap (fun i => defaultKernel.getD i 0) (fun i => ((r.map (fun x : ℕ => (x : ℚ))).drop p).getD i 0) 6) (tap (fun i => defaultKernel.getD i 0) (fun i => ((r.map (fun x : ℕ => (x : ℚ))).drop p).getD i 0) 4)) (r.length - p - 7)
  refine le_antisymm ?_ ?_
  · rcases f3 with f3 | ⟨i, hi, f3⟩
    · rw [f3, htap 6 (by omega), htap 4 (by omega), ← hmincast]
      have := kall (p + 6) (le_refl _) hlong
      rw [show p + 6 - 2 = p + 4 by omega] at this
      have : (min (diff g (p + 6)) (diff g (p + 4)) : ℤ) / (10 : ℚ) ≤ (s.deriv : ℚ) / 10 := by
        refine div_le_div_of_nonneg_right ?_ (by norm_num)
        exact_mod_cast this
      exact this
    · rw [f3, htap (7 + i) (by omega), htap (5 + i) (by omega), ← hmincast]
      have := kall (p + (7 + i)) (by omega) (by omega)
      rw [show p + (7 + i) - 2 = p + (5 + i) by omega] at this
      refine div_le_div_of_nonneg_right ?_ (by norm_num)
      exact_mod_cast this
  · rw [k3, hmincast]
    rcases Nat.eq_or_lt_of_le k1 with hk | hk
    · subst hk
      rw [show p + 6 - 2 = p + 4 by omega, ← htap 6 (by omega), ← htap 4 (by omega)]
      exact f2
    · have := f1 (k - (p + 7)) (by omega)
      rw [htap _ (by omega), htap _ (by omega), show p + (7 + (k - (p + 7))) = k by omega, show p + (5 + (k - (p + 7))) = k - 2 by omega] at this
      exact this

/-! ### The numpy version, mass/core/channel.py -/

/-- the first position of the maximum, np.argmax (used for channel.py L986-1044) -/
def argmax (l : List ℕ) : ℕ := (l.zipIdx.foldl (fun (a : ℕ × ℕ) x => if a.1 < x.1 then (x.1, x.2) else a) (l.getD 0 0, 0)).2

/-- `_summarize_data_segment` for one record, channel.py L986-1044, with cut_pre = cut_post = 0: pretrigger mean and variance, shift flag, minimum, peak index, peak value (uint16), pulse average and its
    mean square. Promptness and rise time are left out. -/
def npSummary (ignore nPre : ℕ) (r : List ℕ) : ℚ × ℚ × Bool × ℕ × ℕ × ℕ × ℚ × ℚ :=
  let pre := r.take (nPre - ignore)
  let post := r.drop nPre
  let ptm := mean pre
  let var := meanSq pre ptm
  let avg := mean post - ptm
  (ptm, var, above (r.getD (nPre - 1) 0 - ptm) var, r.foldl min 65535, argmax post + nPre, (((post.foldl max 0 : ℕ) - ⌊ptm⌋ : ℤ) % 65536).toNat, avg,
    ((post.map (· ^ 2)).sum : ℕ) / (post.length : ℚ) - ptm * (ptm + 2 * avg))

/-- C81: the two versions of the summary agree on pretrigger mean and rms, the shift flag and the minimum. -/
theorem numpy_partial (tb : ℚ) (p ignore nPre : ℕ) (r : List ℕ) (h : Usable p ignore nPre r) (s : Summary) (hs : summary tb p ignore nPre r = .ok s) :
    (npSummary ignore nPre r).1 = s.ptm ∧ (npSummary ignore nPre r).2.1 = s.var ∧ (npSummary ignore nPre r).2.2.1 = s.shift1 ∧ (npSummary ignore nPre r).2.2.2.1 = s.minValue := by
  obtain ⟨h1, h2, _, _, _, _, h7, h8, h9⟩ := statistics tb p ignore nPre r h s hs
  unfold npSummary
  dsimp only
  refine ⟨h1.symm, by rw [← h1, ← h2], ?_, ?_⟩
  · rw [← h1, ← h2]
    unfold above
    rw [Bool.eq_iff_iff, decide_eq_true_eq, h9]
  · have key : ∀ (l : List ℕ) (x : ℕ), (∀ y ∈ l, l.foldl min x ≤ y) ∧ l.foldl min x ≤ x ∧ (l.foldl min x = x ∨ l.foldl min x ∈ l) := by
      intro l
      induction l with
      | nil => simp
      | cons a l ih =>
        intro x
        obtain ⟨i1, i2, i3⟩ := ih (min x a)
        rw [List.foldl_cons]
        refine ⟨?_, i2.trans (min_le_left _ _), ?_⟩
        · intro y hy
          rcases List.mem_cons.1 hy with rfl | hy
          · exact i2.trans (min_le_right _ _)
          · exact i1 y hy
        · rcases i3 with i3 | i3
          · rcases min_choice x a with hc | hc
            · left; rw [i3, hc]
            · right; rw [i3, hc]; simp
          · right; simp [i3]
    obtain ⟨i1, i2, i3⟩ := key r 65535
    refine le_antisymm (i1 _ h8) ?_
    rcases i3 with i3 | i3
    · rw [i3]
      have := h.data _ h8
      omega
    · exact h7 _ i3

/-- They do not agree on the peak index if the greatest sample is before the trigger, on the peak value (rounded or cut off pretrigger mean; modulo 65536 if no sample after the trigger is above the
    mean), or on pulse average and rms (with or without the sample before the trigger). -/
theorem numpy_fails :
    (summary 1 5 1 4 [10, 90, 10, 10, 12, 40, 70, 60, 55, 50, 40, 30]).map (fun s => (s.peakIndex, s.peakValue, s.avg, s.ms)) = .ok (1, 53, 37 / 9, 10667 / 27) ∧
    (npSummary 1 4 [10, 90, 10, 10, 12, 40, 70, 60, 55, 50, 40, 30]).2.2.2.2 = (6, 34, 191 / 24, 25601 / 72) ∧
    (summary 1 5 1 4 [20, 20, 20, 20, 10, 10, 10, 10, 10, 10, 10, 10]).map (fun s => s.peakValue) = .ok 0 ∧ (npSummary 1 4 [20, 20, 20, 20, 10, 10, 10, 10, 10, 10, 10, 10]).2.2.2.2.2.1 = 65526 := by
  decide +kernel

end Mass.Algo.Summary
