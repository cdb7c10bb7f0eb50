import Verif.Py
import Verif.Stat.Hist
import Mathlib.Data.List.Sort
import Mathlib.Data.Rat.Floor
import Mathlib.Algebra.Order.Field.Rat
import Mathlib.Tactic.Linarith
import Mathlib.Tactic.NormNum
import Mathlib.Tactic.Ring
import Mathlib.Tactic.Conv
/-! Crosstalk: flags from neighbouring channels, mass/core/channel.py (C51), and the veto of mass/core/channel_group.py (C52). Exact arithmetic. -/
namespace Mass.Stat.Crosstalk
open Mass Mass.Stat.Hist

section Flags
variable {K : Type} [Field K] [LinearOrder K] [IsStrictOrderedRing K]

/-- hist[::2] (used for mass/core/channel.py L2331-2344) -/
def evens {A : Type} : List A → List A
  | [] => []
  | [a] => [a]
  | a :: _ :: l => a :: evens l

/-- The flags of one channel with pulses at times `ts` from the pulse times `nbrs` of its neighbours: the edges of `flag_crosstalking_pulses`, mass/core/channel.py L2331-2344, and
    `crosstalk_flagging_loop`, L2281-2305. The choice of neighbours (L2338-2368) is not modelled. -/
def flags (prior post : K) (ts nbrs : List K) : Except Exc (List Bool) :=
  (histogram nbrs ((ts.map (· - prior) ++ ts.map (· + post)).insertionSort (· ≤ ·))).map (fun h => (evens h).map (fun c => decide (0 < c)))

/-- the edges if no two windows overlap [specification] -/
def interleave (prior post : K) (ts : List K) : List K := ts.flatMap (fun t => [t - prior, t + post])

/-- the windows do not overlap and are in order of time [specification] -/
def Apart (prior post : K) (ts : List K) : Prop := ts.Pairwise (fun s t => s + post ≤ t - prior)

omit [LinearOrder K] [IsStrictOrderedRing K] in
theorem interleave_perm (prior post : K) (ts : List K) : (interleave prior post ts).Perm (ts.map (· - prior) ++ ts.map (· + post)) := by
  unfold interleave
  induction ts with
  | nil => simp
  | cons t ts ih =>
    simp only [List.flatMap_cons, List.map_cons, List.cons_append, List.nil_append]
    refine List.Perm.cons _ ?_
    exact (List.Perm.cons _ ih).trans List.perm_middle.symm

theorem interleave_sorted (prior post : K) (ts : List K) (hw : -prior ≤ post) (ha : Apart prior post ts) : (interleave prior post ts).Pairwise (· ≤ ·) := by
  unfold interleave
  induction ts with
  | nil => simp
  | cons t ts ih =>
    obtain ⟨h1, h2⟩ := List.pairwise_cons.1 ha
    simp only [List.flatMap_cons, List.cons_append, List.nil_append]
    have hlater : ∀ u ∈ ts.flatMap (fun t => [t - prior, t + post]), t + post ≤ u := by
      intro u hu
      obtain ⟨s, hs, hu⟩ := List.mem_flatMap.1 hu
      have := h1 s hs
      simp only [List.mem_cons, List.not_mem_nil, or_false] at hu
      rcases hu with rfl | rfl
      · exact this
      · linarith
    refine List.pairwise_cons.2 ⟨?_, List.pairwise_cons.2 ⟨hlater, ih h2⟩⟩
    intro u hu
    rcases List.mem_cons.1 hu with rfl | hu
    · linarith
    · have := hlater u hu
      linarith

theorem edges_eq (prior post : K) (ts : List K) (hw : -prior ≤ post) (ha : Apart prior post ts) : (ts.map (· - prior) ++ ts.map (· + post)).insertionSort (· ≤ ·) = interleave prior post ts := by
  refine List.Perm.eq_of_pairwise' (List.pairwise_insertionSort _ _) (interleave_sorted prior post ts hw ha) ?_
  exact (List.perm_insertionSort _ _).trans (interleave_perm prior post ts).symm

omit [LinearOrder K] [IsStrictOrderedRing K] in
theorem interleave_get (prior post : K) (ts : List K) (i : ℕ) (hi : i < ts.length) :
    (interleave prior post ts)[2 * i]? = some (ts[i] - prior) ∧ (interleave prior post ts)[2 * i + 1]? = some (ts[i] + post) := by
  unfold interleave
  induction ts generalizing i with
  | nil => simp at hi
  | cons t ts ih =>
    cases i with
    | zero => simp
    | succ i =>
      have := ih i (by simpa using hi)
      simp only [List.flatMap_cons, List.cons_append, List.nil_append, List.getElem_cons_succ]
      rw [show 2 * (i + 1) = 2 * i + 1 + 1 by ring, show 2 * i + 1 + 1 + 1 = (2 * i + 1) + 1 + 1 by ring]
      simpa using this

omit [LinearOrder K] [IsStrictOrderedRing K] in
theorem interleave_length (prior post : K) (ts : List K) : (interleave prior post ts).length = 2 * ts.length := by
  unfold interleave
  induction ts with
  | nil => rfl
  | cons t ts ih =>
    simp only [List.flatMap_cons, List.length_append, List.length_cons, List.length_nil, ih]
    ring

theorem evens_get {A : Type} (l : List A) (i : ℕ) : (evens l)[i]? = l[2 * i]? := by
  fun_induction evens l generalizing i with
  | case1 => simp
  | case2 a =>
    cases i with
    | zero => simp
    | succ i =>
      rw [show 2 * (i + 1) = 2 * i + 1 + 1 by ring]
      simp
  | case3 a b l ih =>
    cases i with
    | zero => simp
    | succ i =>
      rw [show 2 * (i + 1) = 2 * i + 1 + 1 by ring]
      simp [ih]

/-- C51 for windows that do not overlap: exactly the pulses with a neighbour's pulse in the window [t - prior, t + post) are flagged; for the last pulse the end of the window is included. -/
theorem flags_partial (prior post : K) (ts nbrs : List K) (hw : -prior ≤ post) (ha : Apart prior post ts) (hne : ts ≠ []) :
    ∃ f, flags prior post ts nbrs = .ok f ∧ f.length = ts.length ∧
      ∀ i (hi : i < ts.length), f[i]? = some (decide (∃ u ∈ nbrs, ts[i] - prior ≤ u ∧ (u < ts[i] + post ∨ i + 1 = ts.length ∧ u = ts[i] + post))) := by
  unfold flags
  rw [edges_eq prior post ts hw ha]
  have hsorted := interleave_sorted prior post ts hw ha
  have hlen := interleave_length prior post ts
  have hpos : 0 < ts.length := List.length_pos_iff.2 hne
  obtain ⟨cs, hcs⟩ := (histogram_refused nbrs (interleave prior post ts)).2.2 (fun i h => List.pairwise_iff_getElem.1 hsorted i (i + 1) (by omega) h (by omega))
  obtain ⟨hl, hb⟩ := histogram_bins _ _ hcs
  rw [hcs]
  have hval : ∀ i (hi : i < ts.length), ((evens cs).map (fun c => decide (0 < c)))[i]? = some (decide (∃ u ∈ nbrs, ts[i] - prior ≤ u ∧ (u < ts[i] + post ∨ i + 1 = ts.length ∧ u = ts[i] + post))) := by
    intro i hi
    have h2i : 2 * i < cs.length := by omega
    rw [List.getElem?_map, evens_get, List.getElem?_eq_getElem h2i, Option.map_some, hb (2 * i) h2i]
    congr 1
    rw [decide_eq_decide, List.countP_pos_iff]
    obtain ⟨g1, g2⟩ := interleave_get prior post ts i hi
    have hbin : ∀ u, InBin (interleave prior post ts) (2 * i) u ↔ ts[i] - prior ≤ u ∧ (u < ts[i] + post ∨ i + 1 = ts.length ∧ u = ts[i] + post) := by
      intro u
      unfold InBin
      rw [g1, g2, hlen]
      constructor
      · rintro ⟨a, b, e1, e2, h1, h2⟩
        simp only [Option.some.injEq] at e1 e2
        subst e1; subst e2
        exact ⟨h1, h2.imp id (fun h => ⟨by omega, h.2⟩)⟩
      · rintro ⟨h1, h2⟩
        exact ⟨_, _, rfl, rfl, h1, h2.imp id (fun h => ⟨by omega, h.2⟩)⟩
    simp only [decide_eq_true_eq, hbin]
  refine ⟨_, rfl, ?_, hval⟩
  · have h1 : ∀ i, i < ts.length → i < ((evens cs).map (fun c => decide (0 < c))).length := by
      intro i hi
      have := hval i hi
      exact (List.getElem?_eq_some_iff.1 this).1
    have h2 : ¬ ts.length < ((evens cs).map (fun c => decide (0 < c))).length := by
      intro hc
      rw [List.length_map] at hc
      have h3 := evens_get cs ts.length
      rw [List.getElem?_eq_getElem hc, List.getElem?_eq_none (by omega)] at h3
      exact absurd h3 (by simp)
    have h4 := h1 (ts.length - 1) (by omega)
    show ((evens cs).map (fun c => decide (0 < c))).length = ts.length
    omega

/-- C51 as stated, with closed windows, when no neighbour's pulse is exactly at the end of a window. -/
theorem flags_closed_partial (prior post : K) (ts nbrs : List K) (hw : -prior ≤ post) (ha : Apart prior post ts) (hne : ts ≠ []) (hno : ∀ t ∈ ts, t + post ∉ nbrs) :
    ∃ f, flags prior post ts nbrs = .ok f ∧ f.length = ts.length ∧ ∀ i (hi : i < ts.length), f[i]? = some (decide (∃ u ∈ nbrs, ts[i] - prior ≤ u ∧ u ≤ ts[i] + post)) := by
  obtain ⟨f, h1, h2, h3⟩ := flags_partial prior post ts nbrs hw ha hne
  refine ⟨f, h1, h2, fun i hi => ?_⟩
  rw [h3 i hi]
  congr 1
  rw [decide_eq_decide]
  have hni := hno ts[i] (List.getElem_mem hi)
  constructor
  · rintro ⟨u, hu, h, h'⟩
    exact ⟨u, hu, h, by rcases h' with h' | h'; exact h'.le; exact h'.2.le⟩
  · rintro ⟨u, hu, h, h'⟩
    refine ⟨u, hu, h, .inl (lt_of_le_of_ne h' ?_)⟩
    rintro rfl
    exact hni hu

/-! Without assuming that the windows are apart, no pulse is flagged in vain. -/

theorem count_of_le (l : List K) (hs : l.Pairwise (· ≤ ·)) (u : K) (k : ℕ) (hk : k < l.length) (h : l[k] ≤ u) : k + 1 ≤ l.countP (fun x => decide (x ≤ u)) := by
  have h1 : (l.take (k + 1)).countP (fun x => decide (x ≤ u)) = (l.take (k + 1)).length := by
    rw [List.countP_eq_length]
    intro x hx
    obtain ⟨j, hj, rfl⟩ := List.getElem_of_mem hx
    rw [List.length_take] at hj
    rw [List.getElem_take, decide_eq_true_eq]
    rcases Nat.lt_or_ge j k with hjk | hjk
    · exact (List.pairwise_iff_getElem.1 hs j k (by omega) hk hjk).trans h
    · obtain rfl : j = k := by omega
      exact h
  have h2 := (List.take_sublist (k + 1) l).countP_le (p := fun x => decide (x ≤ u))
  rw [h1, List.length_take] at h2
  omega

theorem count_of_lt (l : List K) (hs : l.Pairwise (· ≤ ·)) (u : K) (k : ℕ) (hk : k < l.length) (h : u < l[k]) : l.countP (fun x => decide (x ≤ u)) ≤ k := by
  conv_lhs => rw [← List.take_append_drop k l]
  rw [List.countP_append]
  have h1 : (l.drop k).countP (fun x => decide (x ≤ u)) = 0 := by
    rw [List.countP_eq_zero]
    intro x hx
    obtain ⟨j, hj, rfl⟩ := List.getElem_of_mem hx
    rw [List.length_drop] at hj
    rw [List.getElem_drop, decide_eq_true_eq, not_le]
    rcases Nat.eq_zero_or_pos j with rfl | hj0
    · exact h
    · exact h.trans_le (List.pairwise_iff_getElem.1 hs k (k + j) hk (by omega) (by omega))
  have h2 := (l.take k).countP_le_length (p := fun x => decide (x ≤ u))
  rw [List.length_take] at h2
  omega

/-- C51, one direction, for all pulses in order of time, overlapping or not: a flagged pulse has a neighbour's pulse in its window. -/
theorem flags_sound (prior post : K) (ts nbrs : List K) (hw : -prior ≤ post) (hts : ts.Pairwise (· ≤ ·)) (f : List Bool) (hf : flags prior post ts nbrs = .ok f) (i : ℕ) (hi : i < ts.length)
    (hfi : f[i]? = some true) : ∃ u ∈ nbrs, ts[i] - prior ≤ u ∧ u ≤ ts[i] + post := by
  unfold flags at hf
  obtain ⟨E, hE⟩ : ∃ E, E = (ts.map (· - prior) ++ ts.map (· + post)).insertionSort (· ≤ ·) := ⟨_, rfl⟩
  rw [← hE] at hf
  have hEs : E.Pairwise (· ≤ ·) := by rw [hE]; exact List.pairwise_insertionSort _ _
  have hEp : E.Perm (ts.map (· - prior) ++ ts.map (· + post)) := by rw [hE]; exact List.perm_insertionSort _ _
  have hEl : E.length = 2 * ts.length := by
    rw [hEp.length_eq]
    simp
    ring
  cases hcs : histogram nbrs E with
  | error e => rw [hcs] at hf; exact absurd hf (by simp [Except.map])
  | ok cs =>
    rw [hcs] at hf
    simp only [Except.map, Except.ok.injEq] at hf
    subst hf
    obtain ⟨hl, hb⟩ := histogram_bins _ _ hcs
    have h2i : 2 * i < cs.length := by omega
    rw [List.getElem?_map, evens_get, List.getElem?_eq_getElem h2i, Option.map_some, hb (2 * i) h2i, Option.some.injEq, decide_eq_true_eq, List.countP_pos_iff] at hfi
    obtain ⟨u, hu, hbin⟩ := hfi
    rw [decide_eq_true_eq] at hbin
    obtain ⟨a, b, ea, eb, h1, h2⟩ := hbin
    obtain ⟨la, ea⟩ := List.getElem?_eq_some_iff.1 ea
    obtain ⟨lb, eb⟩ := List.getElem?_eq_some_iff.1 eb
    have hcount : E.countP (fun x => decide (x ≤ u)) = ts.countP (fun t => decide (t - prior ≤ u)) + ts.countP (fun t => decide (t + post ≤ u)) := by
      rw [hEp.countP_eq, List.countP_append, List.countP_map, List.countP_map]
      rfl
    have hstarts : ∀ c, ts.countP (fun t => decide (t + c ≤ u)) = (ts.map (· + c)).countP (fun x => decide (x ≤ u)) := by
      intro c
      rw [List.countP_map]
      rfl
    have hsort : ∀ c, (ts.map (· + c)).Pairwise (· ≤ ·) := by
      intro c
      rw [List.pairwise_map]
      exact hts.imp (fun h => by linarith)
    have hle : ts.countP (fun t => decide (t + post ≤ u)) ≤ ts.countP (fun t => decide (t + -prior ≤ u)) := by
      refine List.countP_mono_left (fun t _ h => ?_)
      rw [decide_eq_true_eq] at h ⊢
      linarith
    simp only [sub_eq_add_neg] at hcount
    have hge := count_of_le E hEs u (2 * i) la (by rw [ea]; exact h1)
    have hstart : ts[i] - prior ≤ u := by
      by_contra hc
      rw [not_le] at hc
      have := count_of_lt (ts.map (· + -prior)) (hsort _) u i (by simpa using hi) (by simpa [sub_eq_add_neg] using hc)
      rw [← hstarts] at this
      omega
    refine ⟨u, hu, hstart, ?_⟩
    rcases h2 with h2 | ⟨h2, h3⟩
    · by_contra hc
      rw [not_le] at hc
      have h4 := count_of_le (ts.map (· + post)) (hsort _) u i (by simpa using hi) (by simpa using hc.le)
      rw [← hstarts] at h4
      have h5 := count_of_lt E hEs u (2 * i + 1) lb (by rw [eb]; exact h2)
      omega
    · rw [h3, ← eb]
      have hmem := hEp.mem_iff.1 (List.getElem_mem lb)
      have hmax : ∀ t ∈ ts, t ≤ ts[i] := by
        intro t ht
        obtain ⟨j, hj, rfl⟩ := List.getElem_of_mem ht
        rcases Nat.lt_or_ge j i with hji | hji
        · exact List.pairwise_iff_getElem.1 hts j i hj hi hji
        · obtain rfl : j = i := by omega
          exact le_refl _
      rcases List.mem_append.1 hmem with hm | hm
      · obtain ⟨t, ht, e⟩ := List.mem_map.1 hm
        have := hmax t ht
        rw [← e]
        linarith
      · obtain ⟨t, ht, e⟩ := List.mem_map.1 hm
        have := hmax t ht
        rw [← e]
        linarith

end Flags

example : flags (1 : ℚ) 2 [10, 20, 30] [5, 21, 25, 31, 40] = .ok [false, true, true] := by decide +kernel

/-- With overlapping windows pulses are missed: the neighbour's pulse at 0 lies in both windows, neither pulse is flagged. -/
theorem flags_overlap_fails : flags (2 : ℚ) 2 [0, 1] [0] = .ok [false, false] := by decide +kernel

/-- ... of three pulses with a neighbour's pulse at 0 in all their windows one is flagged. -/
example : flags (5 : ℚ) 5 [0, 1, 2, 20] [0] = .ok [false, true, false, false] := by decide +kernel

/-- A neighbour's pulse exactly at the end of the window counts only for the last pulse. -/
theorem flags_edge_fails : flags (1 : ℚ) 1 [0, 10] [1] = .ok [false, false] ∧ flags (1 : ℚ) 1 [0, 10] [11] = .ok [false, true] := by decide +kernel

/-! ### The veto -/

/-- one pulse as the veto sees it: time in ms, whether it is good, whether its post-peak derivative is above the pile-up limit (used for channel_group.py L1448-1460) -/
structure Pulse where
  ms : ℚ
  good : Bool
  pileup : Bool

/-- adding in int8 (used for mass/core/channel_group.py L1454, L1460) -/
def wrap8 (x : ℤ) : ℤ := (x + 128) % 256 - 128

/-- Python's reading of a slice bound (used for mass/core/channel_group.py L1454, L1460) -/
def bound (len : ℕ) (x : ℤ) : ℕ := if x < 0 then (x + len).toNat else x.toNat

/-- nhits[lo:hi] += 1, mass/core/channel_group.py L1454, L1460 -/
def addSlice (h : List ℤ) (s : ℤ × ℤ) : List ℤ := h.mapIdx (fun i x => if bound h.length s.1 ≤ i ∧ i < bound h.length s.2 then wrap8 (x + 1) else x)

/-- the time of a pulse in the table, channel_group.py L1449-1450 -/
def vetoTime (ms0 t : ℚ) : ℤ := max 0 ⌊t - ms0⌋

/-- the slices of one channel in the order of the loops, channel_group.py L1448-1460 -/
def slices (a b : ℤ) (ms0 : ℚ) (ch : List Pulse) : List (ℤ × ℤ) :=
  (ch.filter (·.good)).map (fun p => (vetoTime ms0 p.ms + a, vetoTime ms0 p.ms + (b + 1))) ++
  ((ch.filter (·.good)).filter (·.pileup)).map (fun p => (vetoTime ms0 p.ms + (b + 1), vetoTime ms0 p.ms + (b + 1) + 8))

/-- ms0, channel_group.py L1442; every channel has a pulse -/
def start (a : ℤ) (chs : List (List Pulse)) : ℚ := ((chs.filterMap (fun c => c.head?.map (·.ms))).min?.getD 0) + a

/-- ms9, channel_group.py L1443 -/
def stop (b : ℤ) (chs : List (List Pulse)) : ℚ := ((chs.filterMap (fun c => c.getLast?.map (·.ms))).max?.getD 0) + b

/-- `CrosstalkVeto.__init__`, channel_group.py L1433-1460: the table of hits. The window is in whole ms. -/
def nhits (a b : ℤ) (chs : List (List Pulse)) : List ℤ :=
  (chs.flatMap (slices a b (start a chs))).foldl addSlice (List.replicate ⌊stop b chs - start a chs + 1⌋.toNat 0)

/-- `veto`, channel_group.py L1468-1472, for one time in ms. int() of a negative number rounds up to zero. -/
def veto (a b : ℤ) (chs : List (List Pulse)) (q : ℚ) : Except Exc Bool :=
  let x := q - start a chs + 1 / 2
  let i : ℤ := if x < 0 then -⌊-x⌋ else ⌊x⌋
  let t := nhits a b chs
  if i < -t.length ∨ (t.length : ℤ) ≤ i then .error .index
  else .ok (decide (1 < t.getD (if i < 0 then i + t.length else i).toNat 0))

theorem wrap8_add (x : ℤ) : wrap8 (wrap8 x + 1) = wrap8 (x + 1) := by
  unfold wrap8
  omega

theorem addSlice_length (h : List ℤ) (s : ℤ × ℤ) : (addSlice h s).length = h.length := by simp [addSlice]

theorem foldl_length (ss : List (ℤ × ℤ)) (h : List ℤ) : (ss.foldl addSlice h).length = h.length := by
  induction ss generalizing h with
  | nil => rfl
  | cons s ss ih => rw [List.foldl_cons, ih, addSlice_length]

/-- entries count, modulo 256, the slices that contain them -/
theorem foldl_count (n : ℕ) (ss : List (ℤ × ℤ)) (i : ℕ) (hi : i < n) (hss : ∀ s ∈ ss, 0 ≤ s.1 ∧ 0 ≤ s.2) :
    (ss.foldl addSlice (List.replicate n 0)).getD i 0 = wrap8 (ss.countP (fun s => decide (s.1 ≤ (i : ℤ) ∧ (i : ℤ) < s.2)) : ℕ) := by
  have key : ∀ (ss : List (ℤ × ℤ)) (h : List ℤ) (c : ℤ), (∀ s ∈ ss, 0 ≤ s.1 ∧ 0 ≤ s.2) → i < h.length → h.getD i 0 = wrap8 c →
      (ss.foldl addSlice h).getD i 0 = wrap8 (c + (ss.countP (fun s => decide (s.1 ≤ (i : ℤ) ∧ (i : ℤ) < s.2)) : ℕ)) := by
    intro ss
    induction ss with
    | nil => intro h c _ _ hc; simpa using hc
    | cons s ss ih =>
      intro h c hss hl hc
      have hs := hss s (by simp)
      rw [List.foldl_cons, List.countP_cons]
      have hb1 : bound h.length s.1 = s.1.toNat := by unfold bound; rw [if_neg (by omega)]
      have hb2 : bound h.length s.2 = s.2.toNat := by unfold bound; rw [if_neg (by omega)]
      by_cases hin : s.1 ≤ i ∧ (i : ℤ) < s.2
      · rw [ih (addSlice h s) (c + 1) (fun s' hs' => hss s' (by simp [hs'])) (by rw [addSlice_length]; exact hl) ?_]
        · simp only [hin, and_self, decide_true, if_true]
          push_cast
          congr 1
          ring
        · have hg : h.getD i 0 = h[i] := by simp [hl]
          rw [hg] at hc
          have : (addSlice h s).getD i 0 = wrap8 (h[i] + 1) := by
            unfold addSlice
            rw [hb1, hb2]
            have : s.1.toNat ≤ i ∧ i < s.2.toNat := by omega
            simp only [List.getD_eq_getElem?_getD, List.getElem?_mapIdx, List.getElem?_eq_getElem hl, Option.map_some, Option.getD_some, if_pos this]
          rw [this, hc, wrap8_add]
      · rw [ih (addSlice h s) c (fun s' hs' => hss s' (by simp [hs'])) (by rw [addSlice_length]; exact hl) ?_]
        · rw [decide_eq_false hin]
          simp
        · rw [← hc]
          unfold addSlice
          rw [hb1, hb2]
          have : ¬ (s.1.toNat ≤ i ∧ i < s.2.toNat) := by omega
          simp only [List.getD_eq_getElem?_getD, List.getElem?_mapIdx, List.getElem?_eq_getElem hl, Option.map_some, Option.getD_some, if_neg this]
  have := key ss (List.replicate n 0) 0 hss (by simpa using hi) (by simp [hi, wrap8])
  simpa using this

/-- one pulse covers the time q (both in whole ms): in its window, or, for a pile-up, in the 8 ms after it [specification] -/
def Covers (a b q : ℤ) (p : Pulse) : Prop := p.good = true ∧ (p.ms + a ≤ q ∧ q ≤ p.ms + b ∨ p.pileup = true ∧ p.ms + b < q ∧ q ≤ p.ms + b + 8)

theorem slice_one (a b v j : ℤ) (g u : Bool) :
    (if (decide (v + a ≤ j ∧ j < v + (b + 1)) && g) = true then 1 else 0) + (if (decide (v + (b + 1) ≤ j ∧ j < v + (b + 1) + 8) && u && g) = true then 1 else 0) =
      (if decide (g = true ∧ (v + a ≤ j ∧ j ≤ v + b ∨ u = true ∧ v + b < j ∧ j ≤ v + b + 8)) = true then 1 else 0 : ℕ) := by
  cases g <;> cases u <;> simp only [Bool.and_true, Bool.and_false, decide_eq_true_eq, Bool.false_eq_true, true_and, false_and, or_false, if_false, add_zero, decide_false] <;> split_ifs <;> omega

theorem slices_count (a b : ℤ) (ms0 : ℚ) (j : ℤ) (ch : List Pulse) :
    (slices a b ms0 ch).countP (fun s => decide (s.1 ≤ j ∧ j < s.2)) =
      ch.countP (fun p => decide (p.good = true ∧ (vetoTime ms0 p.ms + a ≤ j ∧ j ≤ vetoTime ms0 p.ms + b ∨ p.pileup = true ∧ vetoTime ms0 p.ms + b < j ∧ j ≤ vetoTime ms0 p.ms + b + 8))) := by
  unfold slices
  rw [List.countP_append, List.countP_map, List.countP_map, List.countP_filter, List.countP_filter, List.countP_filter]
  induction ch with
  | nil => rfl
  | cons p ch ih =>
    simp only [List.countP_cons]
    rw [← ih]
    have := slice_one a b (vetoTime ms0 p.ms) j p.good p.pileup
    simp only [Function.comp]
    omega

theorem filterMap_min (f : List Pulse → Option ℚ) (chs : List (List Pulse)) (c : List Pulse) (x : ℚ) (hc : c ∈ chs) (hx : f c = some x) : (chs.filterMap f).min?.getD 0 ≤ x := by
  have hmem : x ∈ chs.filterMap f := List.mem_filterMap.2 ⟨c, hc, hx⟩
  cases hm : (chs.filterMap f).min? with
  | none => rw [List.min?_eq_none_iff] at hm; rw [hm] at hmem; simp at hmem
  | some m => exact (List.le_min?_iff (xs := chs.filterMap f) hm).1 (le_refl m) x hmem

open Classical in
/-- C52 for times in whole ms, a window that starts at or before the pulse, channels in order of time, and fewer than 128 coincident hits: a time within the table is vetoed exactly when at least two
    good pulses cover it. -/
theorem veto_partial (a b : ℤ) (chs : List (List Pulse)) (q : ℤ) (hab : a ≤ b) (ha : a ≤ 0) (hb : 0 ≤ b + 1) (hint : ∀ c ∈ chs, ∀ p ∈ c, ∃ z : ℤ, p.ms = z)
    (hord : ∀ c ∈ chs, ∀ p ∈ c, ∀ f ∈ c.head?, f.ms ≤ p.ms) (hq : ∃ i : ℕ, (q : ℚ) - start a chs = i ∧ i < (nhits a b chs).length)
    (hfew : chs.flatten.countP (fun p => decide (Covers a b q p)) < 128) :
    veto a b chs q = .ok (decide (2 ≤ chs.flatten.countP (fun p => decide (Covers a b q p)))) := by
  obtain ⟨i, hi, hlt⟩ := hq
  have hqs : (q : ℚ) = start a chs + i := by linarith
  unfold veto
  dsimp only
  have hx : ¬ (q : ℚ) - start a chs + 1 / 2 < 0 := by
    rw [hi]
    have : (0 : ℚ) ≤ i := Nat.cast_nonneg i
    linarith
  have hfl : ⌊(q : ℚ) - start a chs + 1 / 2⌋ = (i : ℤ) := by
    rw [hi, Int.floor_eq_iff]
    constructor <;> push_cast <;> linarith
  rw [if_neg hx, hfl, if_neg (by omega), if_neg (by omega)]
  simp only [Int.toNat_natCast]
  have hstart : ∀ c ∈ chs, ∀ p ∈ c, start a chs ≤ p.ms + a := by
    intro c hc p hp
    obtain ⟨f, hf⟩ : ∃ f, c.head? = some f := by
      cases c with
      | nil => simp at hp
      | cons f c => exact ⟨f, rfl⟩
    have h1 := filterMap_min (fun c => c.head?.map (·.ms)) chs c f.ms hc (by rw [hf]; rfl)
    have h2 := hord c hc p hp f (by rw [hf]; rfl)
    unfold start
    linarith
  -- the table time of a pulse is its distance from the start
  have hv : ∀ c ∈ chs, ∀ p ∈ c, (vetoTime (start a chs) p.ms : ℚ) = p.ms - start a chs ∧ -a ≤ vetoTime (start a chs) p.ms := by
    intro c hc p hp
    obtain ⟨z, hz⟩ := hint c hc p hp
    have h1 := hstart c hc p hp
    have e : p.ms - start a chs = ((z - q + i : ℤ) : ℚ) := by
      push_cast
      rw [hz, hqs]
      ring
    have h2 : -a ≤ z - q + i := by
      have : ((-a : ℤ) : ℚ) ≤ ((z - q + i : ℤ) : ℚ) := by
        rw [← e]
        push_cast
        linarith
      exact_mod_cast this
    unfold vetoTime
    rw [e, Int.floor_intCast, max_eq_right (by omega)]
    exact ⟨rfl, h2⟩
  have hcover : ∀ c ∈ chs, ∀ p ∈ c, (decide (Covers a b q p) = decide (p.good = true ∧ (vetoTime (start a chs) p.ms + a ≤ i ∧ (i : ℤ) ≤ vetoTime (start a chs) p.ms + b ∨
      p.pileup = true ∧ vetoTime (start a chs) p.ms + b < i ∧ (i : ℤ) ≤ vetoTime (start a chs) p.ms + b + 8))) := by
    intro c hc p hp
    obtain ⟨e, _⟩ := hv c hc p hp
    rw [decide_eq_decide]
    unfold Covers
    have hp' : p.ms = vetoTime (start a chs) p.ms + start a chs := by linarith
    generalize vetoTime (start a chs) p.ms = v at *
    have c1 : p.ms + a ≤ q ↔ v + a ≤ (i : ℤ) := by
      rw [hp', hqs, ← @Int.cast_le ℚ]
      push_cast
      constructor <;> intro h <;> linarith
    have c2 : (q : ℚ) ≤ p.ms + b ↔ (i : ℤ) ≤ v + b := by
      rw [hp', hqs, ← @Int.cast_le ℚ]
      push_cast
      constructor <;> intro h <;> linarith
    have c3 : p.ms + b < q ↔ v + b < (i : ℤ) := by
      rw [hp', hqs, ← @Int.cast_lt ℚ]
      push_cast
      constructor <;> intro h <;> linarith
    have c4 : (q : ℚ) ≤ p.ms + b + 8 ↔ (i : ℤ) ≤ v + b + 8 := by
      rw [hp', hqs, ← @Int.cast_le ℚ]
      push_cast
      constructor <;> intro h <;> linarith
    rw [c1, c2, c3, c4]
  have hcount : (chs.flatMap (slices a b (start a chs))).countP (fun s => decide (s.1 ≤ (i : ℤ) ∧ (i : ℤ) < s.2)) = chs.flatten.countP (fun p => decide (Covers a b q p)) := by
    clear hfew hlt
    generalize start a chs = ms0 at *
    clear hqs hi hx hfl hstart hv hint hord
    induction chs with
    | nil => rfl
    | cons c chs ih =>
      rw [List.flatMap_cons, List.countP_append, List.flatten_cons, List.countP_append, ih (fun c' hc' => hcover c' (by simp [hc'])), slices_count]
      congr 1
      refine List.countP_congr (fun p hp => ?_)
      have := hcover c (by simp) p hp
      rw [this]
  have hnn : ∀ s ∈ chs.flatMap (slices a b (start a chs)), 0 ≤ s.1 ∧ 0 ≤ s.2 := by
    intro s hs
    obtain ⟨c, hc, hs⟩ := List.mem_flatMap.1 hs
    unfold slices at hs
    rcases List.mem_append.1 hs with hs | hs
    · obtain ⟨p, hp, rfl⟩ := List.mem_map.1 hs
      have := (hv c hc p (List.mem_filter.1 hp).1).2
      dsimp only
      omega
    · obtain ⟨p, hp, rfl⟩ := List.mem_map.1 hs
      have := (hv c hc p (List.mem_filter.1 (List.mem_filter.1 hp).1).1).2
      dsimp only
      omega
  have hlen : i < ⌊stop b chs - start a chs + 1⌋.toNat := by
    unfold nhits at hlt
    rwa [foldl_length, List.length_replicate] at hlt
  congr 1
  rw [decide_eq_decide]
  unfold nhits
  rw [foldl_count _ _ i hlen hnn, hcount]
  unfold wrap8
  omega

/-- two channels, window from 10 ms before to 3 ms after: 98 ms is covered by the pulses at 100 and 105 [specification] -/
def twoChannels : List (List Pulse) := [[⟨0, true, false⟩, ⟨100, true, false⟩], [⟨50, true, false⟩, ⟨105, true, true⟩, ⟨200, true, false⟩]]

example : veto (-10) 3 twoChannels 98 = .ok true ∧ veto (-10) 3 twoChannels 92 = .ok false ∧ veto (-10) 3 twoChannels 110 = .ok false := by decide +kernel

/-- 128 hits at the same time overflow the 8-bit counter: no veto. -/
theorem veto_overflow_fails : veto (-10) 3 (List.replicate 128 [⟨0, true, false⟩]) 0 = .ok false ∧ veto (-10) 3 (List.replicate 127 [⟨0, true, false⟩]) 0 = .ok true := by decide +kernel

/-- Times that are not whole ms are cut off in the table but rounded in the question: two simultaneous pulses do not veto their own time, and asking for the time of the last pulse is an IndexError. -/
theorem veto_rounding_fails :
    veto 0 0 [[⟨0, true, false⟩, ⟨53 / 5, true, false⟩, ⟨20, true, false⟩], [⟨0, true, false⟩, ⟨53 / 5, true, false⟩, ⟨20, true, false⟩]] (53 / 5) = .ok false ∧
    veto 0 0 [[⟨0, true, false⟩, ⟨53 / 5, true, false⟩], [⟨0, true, false⟩, ⟨53 / 5, true, false⟩]] (53 / 5) = .error .index := by decide +kernel

/-- A time before the start of the data reads the table from its end. -/
theorem veto_before_start_fails : veto 0 0 [[⟨0, true, false⟩, ⟨100, true, false⟩], [⟨0, true, false⟩, ⟨100, true, false⟩]] (-2) = .ok true := by decide +kernel

end Mass.Stat.Crosstalk
