import Verif.States.Props
import Mathlib.Tactic.Conv
/-! C29 and C61: selecting records by slices and by state (mass/off/channels.py). -/
namespace Mass.States
open Mass.Ljh (Bytes asc)
variable {R : Type}

/-! ### model -/

/-- `offFile[a:b]` for a numpy array, non-negative limits (used for channels.py L388-391) -/
def sliceOf (xs : List R) (s : Slice) : List R := (xs.take s.stop).drop s.start

/-- `r[g]` with a boolean array: IndexError if the lengths differ (used for channels.py L388-391) -/
def maskBy (xs : List R) (g : List Bool) : Except Exc (List R) :=
  if g.length = xs.length then .ok ((xs.zip g).filterMap (fun e => if e.2 then some e.1 else none)) else .error .index

/-- channels.py L388-391 (L1495-1502 for ChannelFromNpArray): one slice. `cut` is the cut recipe, applied to the records of the slice. -/
def indexOne (xs : List R) (cut : List R → Except Exc (List Bool)) (s : Slice) : Except Exc (List R) := do
  let r := sliceOf xs s
  let g ← cut r
  maskBy r g

/-- `buf[lo:hi] = tmp` for a numpy array: the target is clipped to the buffer; a single value is spread over any target; otherwise the lengths
must agree (used for channels.py L401-406) -/
def putAt (buf : List R) (lo : Nat) (tmp : List R) : Except Exc (List R) :=
  let target := min (lo + tmp.length) buf.length - min lo buf.length
  if tmp.length = target then .ok (buf.take lo ++ tmp ++ buf.drop (lo + tmp.length))
  else match tmp with
    | [v] => .ok (buf.take lo ++ List.replicate target v ++ buf.drop (lo + target))
    | _ => .error .value

/-- channels.py L401-406: the loop filling the preallocated array -/
def fill (xs : List R) (cut : List R → Except Exc (List Bool)) : List Slice → List R → Nat → Except Exc (List R × Nat)
  | [], buf, hi => .ok (buf, hi)
  | s :: t, buf, hi => do
    let tmp ← indexOne xs cut s
    let buf' ← putAt buf hi tmp
    fill xs cut t buf' (hi + tmp.length)

/-- channels.py L392-407 (L1503-1518): preallocate and truncate. `np.sum([])` is the float 0.0, which `np.zeros` refuses; a negative total is refused
too. -/
def indexPrealloc (zero : R) (xs : List R) (cut : List R → Except Exc (List Bool)) (inds : List Slice) : Except Exc (List R) :=
  if inds = [] then .error .type
  else
    let total : Int := (inds.map (fun s => (s.stop : Int) - (s.start : Int))).sum
    if total < 0 then .error .value
    else (fill xs cut inds (List.replicate total.toNat zero) 0).map (fun r => r.1.take r.2)

/-- channels.py L408-415: repeated concatenation, after the first -/
def hstackLoop (xs : List R) (cut : List R → Except Exc (List Bool)) : List Slice → List R → Except Exc (List R)
  | [], out => .ok out
  | s :: t, out => do
    let tmp ← indexOne xs cut s
    hstackLoop xs cut t (out ++ tmp)

/-- channels.py L408-415 (L1519-1526) -/
def indexHstack (xs : List R) (cut : List R → Except Exc (List Bool)) : List Slice → Except Exc (List R)
  | [] => .error .index
  | s :: t => do
    let out ← indexOne xs cut s
    hstackLoop xs cut t out

/-- channels.py L309-327 `getStatesIndicies` for a list of states -/
def stateSlices (d : SD) : List Bytes → Except Exc (List Slice)
  | [] => .ok []
  | k :: t => do
    let v ← match get d k with
      | none => .error .key
      | some v => .ok v.slices
    let rest ← stateSlices d t
    pure (v ++ rest)

/-! ### C29 -/

/-- the cut gives one flag per record [specification] -/
def Fits (cut : List R → Except Exc (List Bool)) : Prop := ∀ r, ∃ g, cut r = .ok g ∧ g.length = r.length

/-- the records of a slice that pass the cut [specification] -/
def passing (xs : List R) (cut : List R → Except Exc (List Bool)) (s : Slice) : List R :=
  match indexOne xs cut s with
  | .ok l => l
  | .error _ => []

theorem indexOne_ok {cut : List R → Except Exc (List Bool)} (h : Fits cut) (xs : List R) (s : Slice) :
    indexOne xs cut s = .ok (passing xs cut s) := by
  unfold passing
  have : ∃ l, indexOne xs cut s = .ok l := by
    obtain ⟨g, h1, h2⟩ := h (sliceOf xs s)
    unfold indexOne maskBy
    dsimp only
    rw [h1]
    simp only [bind, Except.bind]
    rw [if_pos h2]
    exact ⟨_, rfl⟩
  obtain ⟨l, hl⟩ := this
  rw [hl]

theorem passing_length {cut : List R → Except Exc (List Bool)} (xs : List R) (s : Slice) : (passing xs cut s).length ≤ s.stop - s.start := by
  unfold passing
  cases h : indexOne xs cut s with
  | error e => simp
  | ok l =>
    unfold indexOne maskBy at h
    dsimp only at h ⊢
    cases hc : cut (sliceOf xs s) with
    | error e => rw [hc] at h; exact absurd h (by simp [bind, Except.bind])
    | ok g =>
      rw [hc] at h
      simp only [bind, Except.bind] at h
      split at h
      · injection h with h
        subst h
        refine Nat.le_trans (List.length_filterMap_le _ _) ?_
        rw [List.length_zip]
        unfold sliceOf
        rw [List.length_drop, List.length_take]
        omega
      · exact absurd h (by simp)

theorem hstackLoop_ok {cut : List R → Except Exc (List Bool)} (h : Fits cut) (xs : List R) (inds : List Slice) (out : List R) :
    hstackLoop xs cut inds out = .ok (out ++ inds.flatMap (passing xs cut)) := by
  induction inds generalizing out with
  | nil => simp [hstackLoop]
  | cons s t ih =>
    unfold hstackLoop
    rw [indexOne_ok h]
    simp only [bind, Except.bind]
    rw [ih, List.flatMap_cons, List.append_assoc]

theorem fill_ok {cut : List R → Except Exc (List Bool)} (h : Fits cut) (xs : List R) (inds : List Slice) (done : List R) (buf : List R)
    (hb : (inds.flatMap (passing xs cut)).length ≤ buf.length) :
    fill xs cut inds (done ++ buf) done.length =
      .ok (done ++ inds.flatMap (passing xs cut) ++ buf.drop (inds.flatMap (passing xs cut)).length,
        done.length + (inds.flatMap (passing xs cut)).length) := by
  induction inds generalizing done buf with
  | nil => simp [fill]
  | cons s t ih =>
    rw [List.flatMap_cons, List.length_append] at hb
    unfold fill
    rw [indexOne_ok h]
    simp only [bind, Except.bind]
    have hp : putAt (done ++ buf) done.length (passing xs cut s) =
        .ok ((done ++ passing xs cut s) ++ buf.drop (passing xs cut s).length) := by
      unfold putAt
      dsimp only
      rw [if_pos]
      · rw [List.take_left, List.drop_append, List.drop_of_length_le (by omega), List.nil_append,
          show done.length + (passing xs cut s).length - done.length = (passing xs cut s).length by omega]
      · rw [List.length_append]; omega
    rw [hp]
    dsimp only
    have := ih (done ++ passing xs cut s) (buf.drop (passing xs cut s).length) (by rw [List.length_drop]; omega)
    rw [List.length_append] at this
    rw [this, List.flatMap_cons, List.length_append, List.drop_drop]
    simp only [List.append_assoc, Except.ok.injEq, Prod.mk.injEq]
    exact ⟨trivial, by omega⟩

theorem flatMap_length_le {cut : List R → Except Exc (List Bool)} (xs : List R) (inds : List Slice) :
    ((inds.flatMap (passing xs cut)).length : Int) ≤ (inds.map (fun s => ((s.stop - s.start : Nat) : Int))).sum := by
  induction inds with
  | nil => simp
  | cons s t ih =>
    rw [List.flatMap_cons, List.length_append, List.map_cons, List.sum_cons]
    have := passing_length (cut := cut) xs s
    omega

/-- C29. For any non-empty list of slices with start ≤ stop (in range or beyond the end), both ways of selecting give, slice by slice in order, the
records that pass the cut. -/
theorem index_methods_agree {cut : List R → Except Exc (List Bool)} (h : Fits cut) (zero : R) (xs : List R) {inds : List Slice}
    (hne : inds ≠ []) (hs : ∀ s ∈ inds, s.start ≤ s.stop) :
    indexPrealloc zero xs cut inds = .ok (inds.flatMap (passing xs cut)) ∧ indexHstack xs cut inds = .ok (inds.flatMap (passing xs cut)) := by
  constructor
  · unfold indexPrealloc
    rw [if_neg hne]
    have hmap : inds.map (fun s => (s.stop : Int) - (s.start : Int)) = inds.map (fun s => ((s.stop - s.start : Nat) : Int)) := by
      apply List.map_congr_left
      intro s hss
      have := hs s hss
      omega
    dsimp only
    rw [hmap]
    have hle := flatMap_length_le (cut := cut) xs inds
    rw [if_neg (by omega)]
    have := fill_ok h xs inds [] (List.replicate ((inds.map (fun s => ((s.stop - s.start : Nat) : Int))).sum.toNat) zero)
      (by rw [List.length_replicate]; omega)
    simp only [List.nil_append, List.length_nil, Nat.zero_add] at this
    rw [this]
    simp [Except.map]
  · cases inds with
    | nil => exact absurd rfl hne
    | cons s t =>
      show (indexOne xs cut s >>= hstackLoop xs cut t) = _
      rw [indexOne_ok h]
      simp only [bind, Except.bind]
      rw [hstackLoop_ok h, List.flatMap_cons]

theorem zip_filterMap (p : R → Bool) (l : List R) :
    (l.zip (l.map p)).filterMap (fun e => if e.2 then some e.1 else none) = l.filter p := by
  induction l with
  | nil => rfl
  | cons a t ih =>
    rw [List.map_cons, List.zip_cons_cons, List.filterMap_cons, List.filter_cons, ih]
    cases p a <;> rfl

/-- a cut that looks at each record by itself [specification] -/
def pointwise (p : R → Bool) : List R → Except Exc (List Bool) := fun r => .ok (r.map p)

/-- C29, cuts that look at each record by itself -/
theorem passing_pointwise (p : R → Bool) (xs : List R) (s : Slice) : passing xs (pointwise p) s = (sliceOf xs s).filter p := by
  unfold passing indexOne maskBy pointwise
  simp only [bind, Except.bind, List.length_map, if_true]
  exact zip_filterMap p _

/-- C29, instance -/
example : indexPrealloc 0 [10, 11, 12, 13, 14, 15] (pointwise (fun x => x % 2 == 0)) [⟨0, 3⟩, ⟨2, 2⟩, ⟨4, 9⟩] = .ok [10, 12, 14] ∧
    indexHstack [10, 11, 12, 13, 14, 15] (pointwise (fun x => x % 2 == 0)) [⟨0, 3⟩, ⟨2, 2⟩, ⟨4, 9⟩] = .ok [10, 12, 14] := by decide +kernel

/-- An empty list of slices is refused by both, in different ways. -/
theorem index_empty_fails (zero : R) (xs : List R) (cut : List R → Except Exc (List Bool)) :
    indexPrealloc zero xs cut [] = .error .type ∧ indexHstack xs cut [] = .error .index := ⟨rfl, rfl⟩

/-- With a reversed slice (as an incremental refresh can produce, `refresh_unused_fails`) the two ways differ: one raises, the other ignores it. -/
theorem index_reversed_fails :
    indexPrealloc 0 [10, 11, 12, 13, 14] (pointwise (fun _ => true)) [⟨0, 3⟩, ⟨4, 2⟩] = .error .value ∧
    indexHstack [10, 11, 12, 13, 14] (pointwise (fun _ => true)) [⟨0, 3⟩, ⟨4, 2⟩] = .ok [10, 11, 12] := by decide +kernel

/-! ### C61: selecting by state -/

/-- the slices stored under a name [specification] -/
def slicesOf (d : SD) (k : Bytes) : List Slice :=
  match get d k with
  | none => []
  | some v => v.slices

theorem get_append (d : SD) (a k : Bytes) (v : Val) (h : get d a = none) : get (d ++ [(a, v)]) k = if k = a then some v else get d k := by
  unfold get at *
  rw [List.find?_append]
  by_cases hk : k = a
  · subst hk
    rw [if_pos rfl]
    have : d.find? (fun e => e.1 == k) = none := by
      cases hf : d.find? (fun e => e.1 == k) with
      | none => rfl
      | some e => rw [hf] at h; simp at h
    rw [this]
    simp
  · rw [if_neg hk]
    have : [(a, v)].find? (fun e => e.1 == k) = none := by simp [Ne.symm hk]
    rw [this]
    simp

theorem get_setv (d : SD) (a k : Bytes) (v : Val) (h : get d a ≠ none) : get (setv d a v) k = if k = a then some v else get d k := by
  induction d with
  | nil => exact absurd rfl h
  | cons e t ih =>
    obtain ⟨b, w⟩ := e
    by_cases hb : b = a
    · subst hb
      by_cases hk : k = b
      · subst hk
        simp [get, setv]
      · rw [if_neg hk]
        have hcons : ∀ (w' : Val) (u : SD), get ((b, w') :: u) k = get u k := by
          intro w' u
          unfold get
          rw [List.find?_cons_of_neg (by simpa using Ne.symm hk)]
        have : setv ((b, w) :: t) b v = (b, v) :: setv t b v := by simp [setv]
        rw [this, hcons, hcons]
        by_cases ht : get t b = none
        · rw [setv_of_notMem (get_none ht)]
        · rw [ih ht, if_neg hk]
    · have hset : setv ((b, w) :: t) a v = (b, w) :: setv t a v := by simp [setv, hb]
      have ht : get t a ≠ none := by
        have : get ((b, w) :: t) a = get t a := by
          unfold get
          rw [List.find?_cons_of_neg (by simpa using hb)]
        rwa [this] at h
      rw [hset]
      by_cases hk : k = b
      · subst hk
        rw [if_neg hb]
        simp [get]
      · have hcons : ∀ (u : SD), get ((b, w) :: u) k = get u k := by
          intro u
          unfold get
          rw [List.find?_cons_of_neg (by simpa using Ne.symm hk)]
        rw [hcons, hcons, ih ht]

theorem slicesOf_addPiece (d : SD) (a k : Bytes) (s : Slice) :
    slicesOf (addPiece d a s) k = slicesOf d k ++ (if a = k then [s] else []) := by
  unfold addPiece
  cases hg : get d a with
  | none =>
    dsimp only
    unfold slicesOf
    rw [get_append d a k _ hg]
    by_cases hk : k = a
    · subst hk; rw [if_pos rfl, if_pos rfl, hg]; rfl
    · rw [if_neg hk, if_neg (Ne.symm hk), List.append_nil]
  | some v =>
    cases v with
    | one v =>
      dsimp only
      unfold slicesOf
      rw [get_setv d a k _ (by rw [hg]; simp)]
      by_cases hk : k = a
      · subst hk; rw [if_pos rfl, if_pos rfl, hg]; rfl
      · rw [if_neg hk, if_neg (Ne.symm hk), List.append_nil]
    | many l =>
      dsimp only
      unfold slicesOf
      rw [get_setv d a k _ (by rw [hg]; simp)]
      by_cases hk : k = a
      · subst hk; rw [if_pos rfl, if_pos rfl, hg]; rfl
      · rw [if_neg hk, if_neg (Ne.symm hk), List.append_nil]

theorem slicesOf_loop {keep : Bytes → Bool} {alias : Bytes → Bytes} {n : Nat} (xs : List (Bytes × Nat)) (d : SD) (k : Bytes) :
    slicesOf (stateLoop keep alias n xs d) k =
      slicesOf d k ++ ((raw keep alias n xs).filter (fun x => x.1 == k)).map Prod.snd := by
  induction xs generalizing d with
  | nil => simp [stateLoop, raw]
  | cons x t ih =>
    obtain ⟨l, i⟩ := x
    rw [stateLoop_cons]
    conv_rhs => unfold raw
    cases hk : keep l with
    | false => simp only [Bool.false_eq_true, if_false, List.nil_append]; exact ih d
    | true =>
      simp only [if_true]
      rw [ih, slicesOf_addPiece, List.append_assoc, List.filter_append, List.map_append]
      congr 1
      congr 1
      by_cases ha : alias l = k
      · simp [ha]
      · simp [ha]

theorem raw_start {keep : Bytes → Bool} {alias : Bytes → Bytes} {n b : Nat} (xs : List (Bytes × Nat)) (h : ∀ x ∈ xs, b ≤ x.2) :
    ∀ y ∈ raw keep alias n xs, b ≤ y.2.start := by
  induction xs with
  | nil => intro y hy; simp [raw] at hy
  | cons x t ih =>
    obtain ⟨l, i⟩ := x
    intro y hy
    unfold raw at hy
    rcases List.mem_append.1 hy with hy | hy
    · split at hy
      · rw [List.mem_singleton] at hy
        subst hy
        exact h (l, i) (by simp)
      · simp at hy
    · exact ih (fun x hx => h x (by simp [hx])) y hy

theorem raw_ordered {keep : Bytes → Bool} {alias : Bytes → Bytes} {n : Nat} (xs : List (Bytes × Nat))
    (hs : (xs.map Prod.snd).Pairwise (· ≤ ·)) :
    (raw keep alias n xs).Pairwise (fun x y => x.2.stop ≤ y.2.start) := by
  induction xs with
  | nil => simp [raw]
  | cons x t ih =>
    obtain ⟨l, i⟩ := x
    rw [List.map_cons, List.pairwise_cons] at hs
    unfold raw
    rw [List.pairwise_append]
    refine ⟨by split <;> simp, ih hs.2, ?_⟩
    intro a ha b hb
    split at ha
    · rw [List.mem_singleton] at ha
      subst ha
      cases t with
      | nil => simp [raw] at hb
      | cons z t =>
        obtain ⟨m, j⟩ := z
        refine raw_start ((m, j) :: t) ?_ b hb
        intro x hx
        rcases List.mem_cons.1 hx with rfl | hx
        · exact Nat.le_refl _
        · have h2 := hs.2
          rw [List.map_cons, List.pairwise_cons] at h2
          exact h2.1 _ (List.mem_map_of_mem hx)
    · simp at ha

theorem zipIdx_split (xs : List R) (lo m : Nat) : xs.zipIdx lo = (xs.take m).zipIdx lo ++ (xs.drop m).zipIdx (lo + m) := by
  by_cases h : m ≤ xs.length
  · conv_lhs => rw [← List.take_append_drop m xs, List.zipIdx_append]
    rw [List.length_take, Nat.min_eq_left h]
  · rw [List.take_of_length_le (by omega), List.drop_of_length_le (by omega)]
    simp

/-- ordered slices, concatenated, are the records whose number lies in one of them -/
theorem flatMap_slices (xs : List R) (ss : List Slice) (lo : Nat) (h1 : ∀ s ∈ ss, lo ≤ s.start) (h2 : ∀ s ∈ ss, s.start ≤ s.stop)
    (h3 : ss.Pairwise (fun s t => s.stop ≤ t.start)) :
    ss.flatMap (sliceOf xs) = (((xs.drop lo).zipIdx lo).filter (fun e => ss.any (fun s => s.has e.2))).map Prod.fst := by
  induction ss generalizing lo with
  | nil =>
    rw [List.flatMap_nil]
    symm
    rw [List.map_eq_nil_iff, List.filter_eq_nil_iff]
    intro e _
    simp
  | cons s t ih =>
    have hlo := h1 s (by simp)
    have hss := h2 s (by simp)
    rw [List.pairwise_cons] at h3
    have hlo' : ∀ u ∈ t, s.stop ≤ u.start := h3.1
    have htail := ih s.stop hlo' (fun u hu => h2 u (by simp [hu])) h3.2
    rw [List.flatMap_cons, htail]
    rw [zipIdx_split (xs.drop lo) lo (s.start - lo), List.drop_drop, show lo + (s.start - lo) = s.start by omega,
      zipIdx_split (xs.drop s.start) s.start (s.stop - s.start), List.drop_drop, show s.start + (s.stop - s.start) = s.stop by omega]
    rw [List.filter_append, List.filter_append, List.map_append, List.map_append]
    have e1 : (((xs.drop lo).take (s.start - lo)).zipIdx lo).filter (fun e => (s :: t).any (fun s => s.has e.2)) = [] := by
      rw [List.filter_eq_nil_iff]
      intro e he
      have hlt : e.2 < s.start := by
        have := List.snd_lt_add_of_mem_zipIdx he
        rw [List.length_take] at this
        omega
      simp only [List.any_eq_true, not_exists, not_and]
      intro u hu
      have hst : s.start ≤ u.start := by
        rcases List.mem_cons.1 hu with rfl | hu
        · exact Nat.le_refl _
        · have := hlo' u hu; omega
      unfold Slice.has
      simp only [Bool.and_eq_true, decide_eq_true_eq]
      omega
    have e2 : (((xs.drop s.start).take (s.stop - s.start)).zipIdx s.start).filter (fun e => (s :: t).any (fun s => s.has e.2)) =
        ((xs.drop s.start).take (s.stop - s.start)).zipIdx s.start := by
      rw [List.filter_eq_self]
      intro e he
      have h5 := List.snd_lt_add_of_mem_zipIdx he
      have h6 := List.le_snd_of_mem_zipIdx he
      rw [List.length_take] at h5
      rw [List.any_eq_true]
      refine ⟨s, by simp, ?_⟩
      unfold Slice.has
      simp only [Bool.and_eq_true, decide_eq_true_eq]
      omega
    have e3 : ((xs.drop s.stop).zipIdx s.stop).filter (fun e => (s :: t).any (fun s => s.has e.2)) =
        ((xs.drop s.stop).zipIdx s.stop).filter (fun e => t.any (fun s => s.has e.2)) := by
      apply List.filter_congr
      intro e he
      have h6 := List.le_snd_of_mem_zipIdx he
      rw [List.any_cons]
      have : s.has e.2 = false := by
        unfold Slice.has
        rw [Bool.and_eq_false_iff]
        right
        simp only [decide_eq_false_iff_not]
        omega
      rw [this, Bool.false_or]
    rw [e1, e2, e3, List.map_nil, List.nil_append, List.zipIdx_map_fst]
    congr 1
    unfold sliceOf
    rw [List.drop_take]

theorem setv_mem {d : SD} {k : Bytes} {v : Val} {e : Bytes × Val} (h : e ∈ setv d k v) : e ∈ d ∨ e.2 = v := by
  obtain ⟨x, hx, rfl⟩ := List.mem_map.1 h
  split
  · exact .inr rfl
  · exact .inl hx

/-- no name has an empty list of slices -/
theorem stateLoop_vals {keep : Bytes → Bool} {alias : Bytes → Bytes} {n : Nat} (xs : List (Bytes × Nat)) (d : SD)
    (h : ∀ e ∈ d, e.2.slices ≠ []) : ∀ e ∈ stateLoop keep alias n xs d, e.2.slices ≠ [] := by
  induction xs generalizing d with
  | nil => exact h
  | cons x t ih =>
    obtain ⟨l, i⟩ := x
    rw [stateLoop_cons]
    split
    · apply ih
      intro e he
      unfold addPiece at he
      split at he
      · rcases List.mem_append.1 he with he | he
        · exact h e he
        · rw [List.mem_singleton] at he
          subst he
          simp [Val.slices]
      · rcases setv_mem he with he | he
        · exact h e he
        · rw [he]; simp [Val.slices]
      · rcases setv_mem he with he | he
        · exact h e he
        · rw [he]; simp [Val.slices]
    · exact ih d h

/-- the state in force at time `t`: the (aliased) label of the last entry of the state file at or before `t`, unless it is excluded [specification] -/
def inForce (rd : Int → Int) (ef : EF) (excl : List Bytes) (alias : Bytes → Bytes) (t : Int) : Option Bytes :=
  match ((ef.allLabels.zip ef.times).filter (fun e => decide (rd e.2 ≤ rd t))).getLast? with
  | none => none
  | some e => if e.1 ∈ excl then none else some (alias e.1)

theorem mem_statesAt {d : SD} (hnd : (d.map Prod.fst).Nodup) (k : Bytes) (i : Nat) :
    k ∈ statesAt d i ↔ (slicesOf d k).any (fun s => s.has i) = true := by
  unfold statesAt pieces
  simp only [List.mem_map, List.mem_filter, List.mem_flatMap, List.any_eq_true]
  constructor
  · rintro ⟨x, ⟨⟨e, he, s, hs, rfl⟩, hx⟩, rfl⟩
    refine ⟨s, ?_, hx⟩
    have : get d e.1 = some e.2 := by
      clear hs hx
      induction d with
      | nil => simp at he
      | cons y t ih =>
        rw [List.map_cons, List.nodup_cons] at hnd
        rcases List.mem_cons.1 he with rfl | he
        · simp [get]
        · have hne : y.1 ≠ e.1 := fun h => hnd.1 (h ▸ List.mem_map_of_mem he)
          have := ih hnd.2 he
          unfold get at this ⊢
          rwa [List.find?_cons_of_neg (by simpa using hne)]
    unfold slicesOf
    rw [this]
    exact hs
  · rintro ⟨s, hs, hx⟩
    unfold slicesOf at hs
    cases hg : get d k with
    | none => rw [hg] at hs; simp at hs
    | some v =>
      rw [hg] at hs
      exact ⟨(k, s), ⟨⟨(k, v), get_some hg, s, hs, rfl⟩, hx⟩, rfl⟩

/-- C61. Selecting the records of one state (present in the state dictionary) with a cut that looks at each record by itself gives, in
recording order and once each, exactly the records that pass the cut and whose state in force is that state. `recs` are the records and `pulses` their
times. -/
theorem select_state {rd : Int → Int} (hrd : Mono rd) {ef : EF} {excl : List Bytes} (hef : ef.Good excl) {alias : Bytes → Bytes}
    {pulses : List Int} (ht : Sorted ef.times) (hp : Sorted pulses) {d : SD} (h : batch rd ef alias pulses = .ok d)
    (zero : R) (recs : List R) (hlen : recs.length = pulses.length) (p : R → Bool) {k : Bytes} (hk : k ∈ d.map Prod.fst) :
    ∃ sl, stateSlices d [k] = .ok sl ∧
      indexPrealloc zero recs (pointwise p) sl =
        .ok ((recs.zipIdx.filter (fun e => decide (inForce rd ef excl alias (pulses.getD e.2 0) = some k) && p e.1)).map Prod.fst) := by
  have hb := batch_bounds hrd hef ht h
  have hsl : stateSlices d [k] = .ok (slicesOf d k) := by
    unfold stateSlices slicesOf
    cases hg : get d k with
    | none => exact absurd hk (get_none hg)
    | some v => simp [stateSlices, bind, Except.bind, pure, Except.pure]
  refine ⟨_, hsl, ?_⟩
  have hin : ∀ s ∈ slicesOf d k, (k, s) ∈ pieces d := by
    intro s hs
    unfold slicesOf at hs
    cases hg : get d k with
    | none => rw [hg] at hs; simp at hs
    | some v =>
      rw [hg] at hs
      exact List.mem_flatMap.2 ⟨(k, v), get_some hg, List.mem_map.2 ⟨s, hs, rfl⟩⟩
  obtain ⟨d', hd', hat⟩ := batch_assigns_partial hrd hef (alias := alias) ht hp
  rw [h] at hd'
  injection hd' with hd'
  subst hd'
  have hord : (slicesOf d k).Pairwise (fun s t => s.stop ≤ t.start) ∧ (d ≠ [] → slicesOf d k ≠ []) := by
    have h' := h
    rw [batch_eq] at h'
    injection h' with h'
    constructor
    · rw [← h', slicesOf_loop]
      have : slicesOf [] k = [] := rfl
      rw [this, List.nil_append, List.pairwise_map]
      apply List.Pairwise.filter
      apply raw_ordered
      rw [List.map_snd_zip (by rw [List.length_map, hef.1]; exact Nat.le_refl _), List.pairwise_map]
      exact ht.imp (fun h => searchsorted_mono _ (hrd _ _ h))
    · intro _ hnil
      rw [← h'] at hk hnil
      have hne := stateLoop_vals (keep := fun l => ef.unaliased.contains l) (alias := alias) (n := pulses.length)
        (ef.allLabels.zip (ef.times.map (fun t => searchsorted (pulses.map rd) (rd t)))) [] (by simp)
      unfold slicesOf at hnil
      cases hg : get (stateLoop (fun l => ef.unaliased.contains l) alias pulses.length
          (ef.allLabels.zip (ef.times.map (fun t => searchsorted (pulses.map rd) (rd t)))) []) k with
      | none => exact get_none hg hk
      | some v =>
        rw [hg] at hnil
        exact hne _ (get_some hg) hnil
  have hne : slicesOf d k ≠ [] := hord.2 (by rintro rfl; simp at hk)
  have hfits : Fits (pointwise p) := fun r => ⟨_, rfl, by simp⟩
  rw [(index_methods_agree hfits zero recs hne (fun s hs => (hb.2 _ (hin s hs)).1)).1]
  congr 1
  have e1 : (slicesOf d k).flatMap (passing recs (pointwise p)) = ((slicesOf d k).flatMap (sliceOf recs)).filter p := by
    rw [List.filter_flatMap]
    have : passing recs (pointwise p) = fun s => (sliceOf recs s).filter p := funext (passing_pointwise p recs)
    rw [this]
  rw [e1, flatMap_slices recs _ 0 (by simp) (fun s hs => (hb.2 _ (hin s hs)).1) hord.1, List.drop_zero, List.filter_map, List.filter_filter]
  congr 1
  apply List.filter_congr
  intro e he
  have hi : e.2 < pulses.length := by
    have := List.snd_lt_of_mem_zipIdx he
    omega
  dsimp only [Function.comp]
  rw [Bool.and_comm]
  congr 1
  have hget : pulses.getD e.2 0 = pulses[e.2] := by simp [List.getD, hi]
  rw [Bool.eq_iff_iff, ← mem_statesAt hb.1, hat e.2 hi, decide_eq_true_iff, hget]
  unfold inForce
  cases ((ef.allLabels.zip ef.times).filter (fun x => decide (rd x.2 ≤ rd pulses[e.2]))).getLast? with
  | none => simp
  | some x =>
    dsimp only
    by_cases hx : x.1 ∈ excl
    · rw [if_pos hx, if_pos hx]; simp
    · rw [if_neg hx, if_neg hx, List.mem_singleton, Option.some.injEq]; exact eq_comm

/-- C61, instance: state A, which occurs twice, with odd records cut -/
example : (batch id (mkEF [asc "START"] [(asc "START", 0), (asc "A", 10), (asc "B", 20), (asc "A", 30)]) id [5, 10, 15, 20, 29, 30, 40]).bind
    (fun d => (stateSlices d [asc "A"]).bind (indexPrealloc 0 [0, 1, 2, 3, 4, 5, 6] (pointwise (fun x => x % 2 == 0)))) = .ok [2, 6] := by
  decide +kernel

theorem stateSlices_eq {d : SD} (ks : List Bytes) (hk : ∀ k ∈ ks, k ∈ d.map Prod.fst) : stateSlices d ks = .ok (ks.flatMap (slicesOf d)) := by
  induction ks with
  | nil => rfl
  | cons k t ih =>
    unfold stateSlices
    cases hg : get d k with
    | none => exact absurd (hk k (by simp)) (get_none hg)
    | some v =>
      rw [ih (fun a ha => hk a (by simp [ha]))]
      simp [bind, Except.bind, pure, Except.pure, slicesOf, hg]

/-- C61, several states: the records of the first state asked for, then those of the second, and so on. -/
theorem select_states {rd : Int → Int} (hrd : Mono rd) {ef : EF} {excl : List Bytes} (hef : ef.Good excl) {alias : Bytes → Bytes}
    {pulses : List Int} (ht : Sorted ef.times) (hp : Sorted pulses) {d : SD} (h : batch rd ef alias pulses = .ok d)
    (zero : R) (recs : List R) (hlen : recs.length = pulses.length) (p : R → Bool) {ks : List Bytes} (hne : ks ≠ [])
    (hk : ∀ k ∈ ks, k ∈ d.map Prod.fst) :
    (stateSlices d ks).bind (indexPrealloc zero recs (pointwise p)) =
      .ok (ks.flatMap (fun k =>
        (recs.zipIdx.filter (fun e => decide (inForce rd ef excl alias (pulses.getD e.2 0) = some k) && p e.1)).map Prod.fst)) := by
  have hfits : Fits (pointwise p) := fun r => ⟨_, rfl, by simp⟩
  have hb := batch_bounds hrd hef ht h
  have hone : ∀ k ∈ ks, slicesOf d k ≠ [] ∧ (slicesOf d k).flatMap (passing recs (pointwise p)) =
      (recs.zipIdx.filter (fun e => decide (inForce rd ef excl alias (pulses.getD e.2 0) = some k) && p e.1)).map Prod.fst := by
    intro k hkk
    obtain ⟨sl, h1, h2⟩ := select_state hrd hef ht hp h zero recs hlen p (hk k hkk)
    rw [stateSlices_eq [k] (by simpa using hk k hkk)] at h1
    simp only [List.flatMap_cons, List.flatMap_nil, List.append_nil] at h1
    injection h1 with h1
    subst h1
    have hn : slicesOf d k ≠ [] := by
      intro hn
      rw [hn] at h2
      simp [indexPrealloc] at h2
    refine ⟨hn, ?_⟩
    rw [(index_methods_agree hfits zero recs hn (fun s hs => ?_)).1] at h2
    · exact Except.ok.inj h2
    · refine (hb.2 (k, s) ?_).1
      unfold slicesOf at hs
      cases hg : get d k with
      | none => rw [hg] at hs; simp at hs
      | some v =>
        rw [hg] at hs
        exact List.mem_flatMap.2 ⟨(k, v), get_some hg, List.mem_map.2 ⟨s, hs, rfl⟩⟩
  have hall : ks.flatMap (slicesOf d) ≠ [] := by
    cases ks with
    | nil => exact absurd rfl hne
    | cons k t => simp [(hone k (by simp)).1]
  rw [stateSlices_eq ks hk]
  dsimp only [Except.bind]
  rw [(index_methods_agree hfits zero recs hall (fun s hs => ?_)).1, List.flatMap_assoc]
  · congr 1
    rw [List.flatMap_def, List.flatMap_def, List.map_congr_left (fun k hkk => (hone k hkk).2)]
  · obtain ⟨k, hkk, hs⟩ := List.mem_flatMap.1 hs
    refine (hb.2 (k, s) ?_).1
    unfold slicesOf at hs
    cases hg : get d k with
    | none => rw [hg] at hs; simp at hs
    | some v =>
      rw [hg] at hs
      exact List.mem_flatMap.2 ⟨(k, v), get_some hg, List.mem_map.2 ⟨s, hs, rfl⟩⟩

/-- C61: a state that is not in the dictionary is a KeyError, whatever else is asked for. -/
theorem select_unknown {d : SD} (ks : List Bytes) (h : ∃ k ∈ ks, k ∉ d.map Prod.fst) : stateSlices d ks = .error .key := by
  induction ks with
  | nil => simp at h
  | cons k t ih =>
    unfold stateSlices
    cases hg : get d k with
    | none => rfl
    | some v =>
      have hk : k ∈ d.map Prod.fst := List.mem_map.2 ⟨_, get_some hg, rfl⟩
      obtain ⟨a, ha, hn⟩ := h
      rw [ih ⟨a, (List.mem_cons.1 ha).resolve_left (fun e => hn (e ▸ hk)), hn⟩]
      rfl

/-- C61, instance: states B then A -/
example : (batch id (mkEF [asc "START"] [(asc "START", 0), (asc "A", 10), (asc "B", 20), (asc "A", 30)]) id [5, 10, 15, 20, 29, 30, 40]).bind
    (fun d => (stateSlices d [asc "B", asc "A"]).bind (indexPrealloc 0 [0, 1, 2, 3, 4, 5, 6] (pointwise (fun x => x % 2 == 0)))) =
    .ok [4, 2, 6] := by
  decide +kernel

end Mass.States
