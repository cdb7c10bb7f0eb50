import Verif.Algo.FiveLag
import Mathlib.Tactic.Conv
/-! C109: filtering a whole file (mass/core/channel.py `filter_data`). Numbers are elements of a field: the rounding of the stored results to
float32 is left out, and a quotient by zero (nan in numpy) is 0. -/
namespace Mass.Algo.FilterData
open Mass.Algo
variable {K : Type}

/-! ### model -/

/-- channel.py L700-740, L643, L1294: what `filter_data` uses of a channel: the records, the pretrigger means, the late-trigger flags, the segments of the
file, the filter (its values and arrival-time values) or the values in the HDF5 file, and the results. -/
structure Chan (K : Type) where
  nSamples : Nat
  data : List (List K)
  ptmean : List K
  shift : List Bool
  nSeg : Nat
  pps : Nat
  ftype : String
  filter : Option (List K × List K)
  stored : Option (List K)
  filtValue : List K
  filtPhase : List K
  deriving DecidableEq

/-- A transform: any function of a matrix of records (channel.py L1303) -/
abbrev Transform (K : Type) := List (List K) → List (List K)

/-- `x[first:end]` (channel.py L1426, L1447, L1465) -/
def slice {α : Type} (first last : Nat) (l : List α) : List α := (l.take last).drop first

/-- `np.dot(rows, v)` of a matrix and a vector: shapes must fit (channel.py L1451-1452, L1469-1470). Simplified: the shape of a matrix without rows is
not checked. -/
def dotRows [Field K] (rows : List (List K)) (v : List K) : Except Exc (List K) :=
  if rows.all (fun r => r.length == v.length) then .ok (rows.map (dot v)) else .error .value

/-- `rows - pt.reshape((n, 1))` with numpy's broadcasting (channel.py L1430-1431, L1449-1450, L1467-1468) -/
def subMean [Field K] (rows : List (List K)) (pt : List K) : Except Exc (List (List K)) :=
  if rows.length = pt.length then .ok (List.zipWith (fun r p => r.map (· - p)) rows pt)
  else match rows, pt with
    | rows, [p] => .ok (rows.map (fun r => r.map (· - p)))
    | [r], pt => .ok (pt.map (fun p => r.map (· - p)))
    | _, _ => .error .value

/-- channel.py L1428-1431, L1448-1450, L1466-1468: the records to filter: `rows` themselves, or the transform of `minuend` less the pretrigger means -/
def prep [Field K] (tr : Option (Transform K)) (rows minuend : List (List K)) (pt : List K) : Except Exc (List (List K)) :=
  match tr with
  | none => .ok rows
  | some t => (subMean minuend pt).map t

/-- channel.py L1439-1459 `_filter_data_segment_ats`. Note L1450: all the data of the channel, less the pretrigger means of the segment. The early return of
L1441-1442 concerns segments beyond the last pulse. -/
def segAts [Field K] (c : Chan K) (v at' : List K) (tr : Option (Transform K)) (first last : Nat) : Except Exc (List K × List K) :=
  if v.length + 1 ≠ c.nSamples then .error .assertion
  else do
    let data ← prep tr (slice first last c.data) c.data (slice first last c.ptmean)
    let conv0 ← dotRows (data.map List.tail) v
    let conv1 ← dotRows (data.map List.tail) at'
    let want := slice first last c.shift
    if want.length ≠ data.length then .error .index
    else do
      let sh0 ← dotRows (data.map List.dropLast) v
      let sh1 ← dotRows (data.map List.dropLast) at'
      let c0 := List.zipWith (fun w (p : K × K) => if w then p.1 else p.2) want (sh0.zip conv0)
      let c1 := List.zipWith (fun w (p : K × K) => if w then p.1 else p.2) want (sh1.zip conv1)
      .ok (List.zipWith (· / ·) c1 c0, c0)

/-- channel.py L1461-1473 `_filter_data_segment_ats_dont_shift1`. The assertion of L1463 is about the length of an array of comparisons and holds for every
filter that has values at all. -/
def segNoShift [Field K] (c : Chan K) (v at' : List K) (tr : Option (Transform K)) (first last : Nat) : Except Exc (List K × List K) :=
  if v.length = 0 then .error .assertion
  else do
    let data ← prep tr (slice first last c.data) (slice first last c.data) (slice first last c.ptmean)
    let conv0 ← dotRows data v
    let conv1 ← dotRows data at'
    .ok (List.zipWith (· / ·) conv1 conv0, conv0)

/-- channel.py L1411-1437 `_filter_data_segment_5lag` -/
def seg5lag [Field K] (c : Chan K) (v : List K) (tr : Option (Transform K)) (first last : Nat) : Except Exc (List K × List K) :=
  if v.length + 4 ≠ c.nSamples then .error .assertion
  else do
    let data ← prep tr (slice first last c.data) (slice first last c.data) (slice first last c.ptmean)
    let convs ← data.mapM (lagDirect v)
    .ok (convs.map (fun k => peakX (parabola k)), convs.map (fun k => peakY (parabola k)))

/-- `x[first:end] = new`: the lengths must agree (channel.py L1350-1351). Simplified: h5py would repeat a single new value. -/
def assign {α : Type} (first last : Nat) (new old : List α) : Option (List α) :=
  if new.length = (slice first last old).length then some (old.take first ++ new ++ old.drop last) else none

/-- channel.py L1348-1353: the loop over the segments; results are stored segment by segment, so those of the segments before an exception stay. -/
def segLoop [Field K] (c0 : Chan K) (f : Nat → Nat → Except Exc (List K × List K)) : Nat → Nat → Chan K → Chan K × Option Exc
  | 0, _, c => (c, none)
  | k + 1, s, c =>
    let first := s * c0.pps
    let last := min c0.data.length (first + c0.pps)
    match f first last with
    | .error e => (c, some e)
    | .ok (ph, va) =>
      match assign first last ph c.filtPhase, assign first last va c.filtValue with
      | some ph', some va' => segLoop c0 f k (s + 1) { c with filtPhase := ph', filtValue := va' }
      | _, _ => (c, some .type)

/-- channel.py L1332-1346: which segment function is used. A filter of another length leaves the function undefined. -/
def segFun [Field K] (c : Chan K) (v : List K) (tr : Option (Transform K)) : Except Exc (Nat → Nat → Except Exc (List K × List K)) :=
  if c.ftype = "ats" then
    if v.length + 1 = c.nSamples then
      match c.filter with
      | none => .error .attribute
      | some (_, at') => .ok (segAts c v at' tr)
    else if v.length = c.nSamples then
      match c.filter with
      | none => .error .attribute
      | some (_, at') => .ok (segNoShift c v at' tr)
    else match c.filter with
      | none => .error .attribute
      | some _ => if c.nSeg = 0 then .ok (fun _ _ => .error .unbound) else .error .unbound
  else if c.ftype = "5lag" then .ok (seg5lag c v tr)
  else .error .value

/-- analysis_algorithms.pyx L854-887: every record in turn. Simplified: records too short for the filter (read outside the array) raise. -/
def cython5lag [Field K] (rows : List (List K)) (v : List K) : Except Exc (List (K × K)) :=
  rows.mapM (fun r => match lagStream v r with
    | some k => .ok (peakY (parabola k), peakX (parabola k))
    | none => .error .index)

/-- channel.py L1299-1329 `filter_data` for one channel: the channel afterwards, and the exception if one is raised. -/
def filterData [Field K] [DecidableEq K] (c : Chan K) (tr : Option (Transform K)) (forceNew : Bool) (useCython : Option Bool) : Chan K × Option Exc :=
  if !(forceNew || c.filtValue.all (· == 0)) then (c, none)
  else
    let cy := useCython.getD (c.ftype == "5lag")
    match (match c.filter with
      | some (v, _) => some v
      | none => c.stored) with
    | none => (c, some .key)
    | some v =>
      if cy then
        if c.ftype = "ats" then (c, some .value)
        else match cython5lag c.data v with
          | .error e => (c, some e)
          | .ok l => ({ c with filtValue := l.map (·.1), filtPhase := l.map (·.2) }, none)
      else match segFun c v tr with
        | .error e => (c, some e)
        | .ok f => segLoop c f c.nSeg 0 c

/-! ### C109 -/

section
variable [Field K]

/-- A channel whose arrays fit: records of `nSamples`, one result, mean and flag per record, segments that cover the records exactly. [specification] -/
structure Fits (c : Chan K) : Prop where
  rows : ∀ r ∈ c.data, r.length = c.nSamples
  pt : c.ptmean.length = c.data.length
  sh : c.shift.length = c.data.length
  va : c.filtValue.length = c.data.length
  ph : c.filtPhase.length = c.data.length
  pps : 0 < c.pps
  lo : c.nSeg * c.pps < c.data.length + c.pps
  hi : c.data.length ≤ c.nSeg * c.pps

theorem slice_length {α : Type} (a b : Nat) (l : List α) (h : b ≤ l.length) : (slice a b l).length = b - a := by
  unfold slice
  rw [List.length_drop, List.length_take]
  omega

theorem take_slice {α : Type} (a b : Nat) (l : List α) (h : a ≤ b) : l.take a ++ slice a b l = l.take b := by
  unfold slice
  conv_rhs => rw [← List.take_append_drop a (l.take b)]
  rw [List.take_take, Nat.min_eq_left h]

/-- If every segment gives its part of `P` and `V`, the loop stores `P` and `V`. -/
theorem segLoop_parts (c0 : Chan K) (f : Nat → Nat → Except Exc (List K × List K)) (P V : List K) (hpps : 0 < c0.pps)
    (hP : P.length = c0.data.length) (hV : V.length = c0.data.length)
    (hf : ∀ a b, a < b → b ≤ c0.data.length → b ≤ a + c0.pps → (b = a + c0.pps ∨ b = c0.data.length) → c0.pps ∣ a →
      f a b = .ok (slice a b P, slice a b V))
    (k s : Nat) (hlo : (s + k) * c0.pps < c0.data.length + c0.pps) (hhi : c0.data.length ≤ (s + k) * c0.pps)
    (c : Chan K) (hp : c.filtPhase.length = c0.data.length) (hv : c.filtValue.length = c0.data.length)
    (hp' : c.filtPhase.take (s * c0.pps) = P.take (s * c0.pps)) (hv' : c.filtValue.take (s * c0.pps) = V.take (s * c0.pps)) :
    segLoop c0 f k s c = ({ c with filtPhase := P, filtValue := V }, none) := by
  induction k generalizing s c with
  | zero =>
    rw [List.take_of_length_le (by simpa [hp] using hhi), List.take_of_length_le (by simpa [hP] using hhi)] at hp'
    rw [List.take_of_length_le (by simpa [hv] using hhi), List.take_of_length_le (by simpa [hV] using hhi)] at hv'
    unfold segLoop
    rw [← hp', ← hv']
  | succ k ih =>
    have hs1 : (s + (k + 1)) * c0.pps = s * c0.pps + k * c0.pps + c0.pps := by ring
    have hs2 : (s + 1 + k) * c0.pps = s * c0.pps + k * c0.pps + c0.pps := by ring
    have hs3 : (s + 1) * c0.pps = s * c0.pps + c0.pps := by ring
    rw [hs1] at hlo hhi
    have hk : 0 ≤ k * c0.pps := Nat.zero_le _
    have hfirst : s * c0.pps < c0.data.length := by omega
    unfold segLoop
    dsimp only
    rw [hf (s * c0.pps) (min c0.data.length (s * c0.pps + c0.pps)) (by omega) (by omega) (by omega) (by omega)
      (Nat.dvd_mul_left _ _)]
    dsimp only
    set a := s * c0.pps with ha
    set b := min c0.data.length (a + c0.pps) with hb
    have hbl : b ≤ c0.data.length := by omega
    have e1 : assign a b (slice a b P) c.filtPhase = some (P.take b ++ c.filtPhase.drop b) := by
      unfold assign
      rw [if_pos (by rw [slice_length _ _ _ (by omega), slice_length _ _ _ (by omega)]), hp', take_slice _ _ _ (by omega)]
    have e2 : assign a b (slice a b V) c.filtValue = some (V.take b ++ c.filtValue.drop b) := by
      unfold assign
      rw [if_pos (by rw [slice_length _ _ _ (by omega), slice_length _ _ _ (by omega)]), hv', take_slice _ _ _ (by omega)]
    rw [e1, e2]
    dsimp only
    have tk : ∀ (X Y : List K), X.length = c0.data.length → Y.length = c0.data.length →
        (X.take b ++ Y.drop b).take ((s + 1) * c0.pps) = X.take ((s + 1) * c0.pps) := by
      intro X Y hX hY
      rw [hs3]
      by_cases hc : c0.data.length ≤ a + c0.pps
      · have : b = c0.data.length := by omega
        rw [this, List.drop_of_length_le (by omega), List.append_nil, List.take_take, List.take_of_length_le (by omega),
          List.take_of_length_le (by omega)]
      · have : b = a + c0.pps := by omega
        rw [this, List.take_append_of_le_length (by rw [List.length_take]; omega), List.take_take, Nat.min_self]
    rw [ih (s + 1) (by rw [hs2]; omega) (by rw [hs2]; omega) { c with filtPhase := P.take b ++ c.filtPhase.drop b, filtValue := V.take b ++ c.filtValue.drop b }
      (by dsimp only; rw [List.length_append, List.length_take, List.length_drop]; omega)
      (by dsimp only; rw [List.length_append, List.length_take, List.length_drop]; omega)
      (tk P c.filtPhase hP hp) (tk V c.filtValue hV hv)]

theorem slice_map {α β : Type} (a b : Nat) (l : List α) (f : α → β) : slice a b (l.map f) = (slice a b l).map f := by
  unfold slice
  rw [List.map_drop, List.map_take]

theorem slice_zipWith {α β γ : Type} (a b : Nat) (l : List α) (m : List β) (f : α → β → γ) :
    slice a b (List.zipWith f l m) = List.zipWith f (slice a b l) (slice a b m) := by
  unfold slice
  rw [List.take_zipWith, List.drop_zipWith]

theorem mem_slice {α : Type} {a b : Nat} {l : List α} {x : α} (h : x ∈ slice a b l) : x ∈ l :=
  List.mem_of_mem_take (List.mem_of_mem_drop h)

theorem dotRows_ok {rows : List (List K)} {v : List K} (h : ∀ r ∈ rows, r.length = v.length) : dotRows rows v = .ok (rows.map (dot v)) := by
  unfold dotRows
  rw [if_pos]
  rw [List.all_eq_true]
  intro r hr
  simpa using h r hr

theorem dot_tail (v r : List K) (_h : r.length = v.length + 1) : dot v r.tail = lag v r 1 := by
  rw [lag_eq, List.drop_one]

theorem dot_dropLast (v r : List K) (h : r.length = v.length + 1) : dot v r.dropLast = lag v r 0 := by
  rw [lag_eq, List.drop_zero, List.dropLast_eq_take, dot_take _ _ _ (by omega)]

theorem dot_zero (v r : List K) : dot v r = lag v r 0 := by
  rw [lag_eq, List.drop_zero]

/-- the pulse height of a record under an arrival-time-safe filter: `Σ v[k] r[k+1]`, or `Σ v[k] r[k]` if it triggered late [specification] -/
def height (v r : List K) (late : Bool) : K := ∑ k : Fin v.length, v[k] * (r[(k : Nat) + (if late then 0 else 1)]?).getD 0

theorem height_eq (v r : List K) (late : Bool) : height v r late = lag v r (if late then 0 else 1) := rfl

theorem atsCore (v : List K) (rows : List (List K)) (want : List Bool) (hl : want.length = rows.length) (hr : ∀ r ∈ rows, r.length = v.length + 1) :
    List.zipWith (fun w (p : K × K) => if w then p.1 else p.2) want (((rows.map List.dropLast).map (dot v)).zip ((rows.map List.tail).map (dot v))) =
      List.zipWith (height v) rows want := by
  induction rows generalizing want with
  | nil => cases want <;> simp
  | cons r rows ih =>
    cases want with
    | nil => simp
    | cons w want =>
      simp only [List.map_cons, List.zip_cons_cons, List.zipWith_cons_cons]
      rw [ih want (by simpa using hl) (fun x hx => hr x (List.mem_cons_of_mem _ hx))]
      have h := hr r List.mem_cons_self
      cases w
      · simp [dot_tail v r h, height_eq]
      · simp [dot_dropLast v r h, height_eq]

theorem zipWith_div {α β : Type} (f g : α → β → K) (l : List α) (m : List β) :
    List.zipWith (· / ·) (List.zipWith f l m) (List.zipWith g l m) = List.zipWith (fun a b => f a b / g a b) l m := by
  induction l generalizing m with
  | nil => simp
  | cons a l ih => cases m with
    | nil => simp
    | cons b m => simp [ih]

/-- the records after the transform `g` of each record less its pretrigger mean, or the records themselves [specification] -/
def prepared (c : Chan K) (g : Option (List K → List K)) : List (List K) :=
  match g with
  | none => c.data
  | some g => List.zipWith (fun r p => g (r.map (· - p))) c.data c.ptmean

/-- a transform of every record by `g` [specification] -/
def rowwise (g : List K → List K) : Transform K := fun rows => rows.map g

theorem prepared_length {c : Chan K} (hc : Fits c) (g : Option (List K → List K)) : (prepared c g).length = c.data.length := by
  cases g with
  | none => rfl
  | some g => simp [prepared, hc.pt]

theorem mem_zipWith_exists {α β γ : Type} (f : α → β → γ) (l : List α) (m : List β) (x : γ) (h : x ∈ List.zipWith f l m) :
    ∃ a ∈ l, ∃ b ∈ m, x = f a b := by
  induction l generalizing m with
  | nil => simp at h
  | cons a l ih => cases m with
    | nil => simp at h
    | cons b m =>
      rw [List.zipWith_cons_cons, List.mem_cons] at h
      rcases h with h | h
      · exact ⟨a, List.mem_cons_self, b, List.mem_cons_self, h⟩
      · obtain ⟨a', ha, b', hb, e⟩ := ih m h
        exact ⟨a', List.mem_cons_of_mem _ ha, b', List.mem_cons_of_mem _ hb, e⟩

theorem prepared_rows {c : Chan K} (hc : Fits c) (g : Option (List K → List K)) (hg : ∀ h ∈ g, ∀ r, (h r).length = r.length) :
    ∀ r ∈ prepared c g, r.length = c.nSamples := by
  cases g with
  | none => exact hc.rows
  | some g =>
    intro r hr
    obtain ⟨a, ha, b, _, e⟩ := mem_zipWith_exists _ _ _ _ hr
    rw [e, hg g rfl, List.length_map, hc.rows a ha]

theorem subMean_slice {c : Chan K} (hc : Fits c) (a b : Nat) (hb : b ≤ c.data.length) :
    subMean (slice a b c.data) (slice a b c.ptmean) = .ok (slice a b (List.zipWith (fun r p => r.map (· - p)) c.data c.ptmean)) := by
  unfold subMean
  rw [if_pos (by rw [slice_length _ _ _ hb, slice_length _ _ _ (by rw [hc.pt]; exact hb)]), slice_zipWith]

theorem map_zipWith' {α β γ δ : Type} (g : γ → δ) (f : α → β → γ) (l : List α) (m : List β) :
    (List.zipWith f l m).map g = List.zipWith (fun a b => g (f a b)) l m := by
  rw [List.map_zipWith]

theorem prep_slice {c : Chan K} (hc : Fits c) (g : Option (List K → List K)) (a b : Nat) (hb : b ≤ c.data.length) :
    prep (g.map rowwise) (slice a b c.data) (slice a b c.data) (slice a b c.ptmean) = .ok (slice a b (prepared c g)) := by
  unfold prep
  cases g with
  | none => rfl
  | some g =>
    simp only [Option.map_some]
    rw [subMean_slice hc a b hb]
    simp only [Except.map, rowwise, prepared]
    rw [← slice_map, List.map_zipWith]

theorem segAts_ok {c : Chan K} (hc : Fits c) {v at' : List K} (hv : v.length + 1 = c.nSamples) (ha : at'.length = v.length)
    {tr : Option (Transform K)} {rows : List (List K)} (hrl : rows.length = c.data.length) (hrr : ∀ r ∈ rows, r.length = c.nSamples)
    (a b : Nat) (hb : b ≤ c.data.length)
    (ht : prep tr (slice a b c.data) c.data (slice a b c.ptmean) = .ok (slice a b rows)) :
    segAts c v at' tr a b = .ok (slice a b (List.zipWith (fun r s => height at' r s / height v r s) rows c.shift),
      slice a b (List.zipWith (height v) rows c.shift)) := by
  unfold segAts
  rw [if_neg (by omega), ht]
  have hlen : (slice a b c.shift).length = (slice a b rows).length := by
    rw [slice_length _ _ _ (by rw [hc.sh]; exact hb), slice_length _ _ _ (by rw [hrl]; exact hb)]
  have hm : ∀ r ∈ slice a b rows, r.length = v.length + 1 := fun r hr => by rw [hrr r (mem_slice hr), hv]
  have hm' : ∀ r ∈ slice a b rows, r.length = at'.length + 1 := fun r hr => by rw [hm r hr, ha]
  have t1 : ∀ w : List K, w.length = v.length → dotRows ((slice a b rows).map List.tail) w = .ok (((slice a b rows).map List.tail).map (dot w)) := by
    intro w hw
    apply dotRows_ok
    intro r hr
    obtain ⟨x, hx, e⟩ := List.mem_map.mp hr
    rw [← e, List.length_tail, hm x hx, hw]
    omega
  have t2 : ∀ w : List K, w.length = v.length → dotRows ((slice a b rows).map List.dropLast) w = .ok (((slice a b rows).map List.dropLast).map (dot w)) := by
    intro w hw
    apply dotRows_ok
    intro r hr
    obtain ⟨x, hx, e⟩ := List.mem_map.mp hr
    rw [← e, List.length_dropLast, hm x hx, hw]
    omega
  simp only [bind, Except.bind]
  rw [t1 v rfl, t1 at' ha]
  dsimp only
  rw [if_neg (by omega), t2 v rfl, t2 at' ha]
  dsimp only
  rw [atsCore v _ _ hlen hm, atsCore at' _ _ hlen hm', zipWith_div, slice_zipWith, slice_zipWith]

theorem segNoShift_ok {c : Chan K} (hc : Fits c) {v at' : List K} (hv0 : v ≠ []) (hv : v.length = c.nSamples) (ha : at'.length = v.length)
    (g : Option (List K → List K)) (hg : ∀ h ∈ g, ∀ r, (h r).length = r.length) (a b : Nat) (hb : b ≤ c.data.length) :
    segNoShift c v at' (g.map rowwise) a b =
      .ok (slice a b ((prepared c g).map (fun r => lag at' r 0 / lag v r 0)), slice a b ((prepared c g).map (fun r => lag v r 0))) := by
  unfold segNoShift
  rw [if_neg (by simpa using hv0), prep_slice hc g a b hb]
  simp only [bind, Except.bind]
  have t : ∀ w : List K, w.length = v.length → dotRows (slice a b (prepared c g)) w = .ok ((slice a b (prepared c g)).map (dot w)) := by
    intro w hw
    apply dotRows_ok
    intro r hr
    rw [prepared_rows hc g hg r (mem_slice hr), hw, hv]
  rw [t v rfl, t at' ha]
  dsimp only
  rw [slice_map, slice_map, List.zipWith_map_left, List.zipWith_map_right, List.zipWith_self]
  have hd : ∀ w : List K, dot w = fun r => lag w r 0 := fun w => funext (dot_zero w)
  simp only [hd]

/-- the five lagged sums of a record [specification] -/
def lags (v r : List K) : Conv K := ⟨lag v r 0, lag v r 1, lag v r 2, lag v r 3, lag v r 4⟩

theorem mapM_ok {α β : Type} (f : α → Except Exc β) (g : α → β) (l : List α) (h : ∀ x ∈ l, f x = .ok (g x)) : l.mapM f = .ok (l.map g) := by
  induction l with
  | nil => rfl
  | cons a l ih =>
    rw [List.mapM_cons, h a List.mem_cons_self, ih (fun x hx => h x (List.mem_cons_of_mem _ hx))]
    rfl

theorem seg5lag_ok {c : Chan K} (hc : Fits c) {v : List K} (hv : v.length + 4 = c.nSamples) (g : Option (List K → List K))
    (hg : ∀ h ∈ g, ∀ r, (h r).length = r.length) (a b : Nat) (hb : b ≤ c.data.length) :
    seg5lag c v (g.map rowwise) a b =
      .ok (slice a b ((prepared c g).map (fun r => peakX (parabola (lags v r)))), slice a b ((prepared c g).map (fun r => peakY (parabola (lags v r))))) := by
  unfold seg5lag
  rw [if_neg (by omega), prep_slice hc g a b hb]
  simp only [bind, Except.bind]
  rw [mapM_ok _ (lags v) _ (fun r hr => direct_eq_lags (by rw [prepared_rows hc g hg r (mem_slice hr), hv]))]
  simp only [List.map_map, slice_map]
  rfl

variable [DecidableEq K]

/-- What the calls that do the work reduce to. -/
theorem filterData_go {c : Chan K} {v at' : List K} (hf : c.filter = some (v, at')) {force : Bool} (hn : force = true ∨ ∀ x ∈ c.filtValue, x = 0)
    {cy : Option Bool} (hcy : cy.getD (c.ftype == "5lag") = false) (tr : Option (Transform K)) :
    filterData c tr force cy = match segFun c v tr with
        | .error e => (c, some e)
        | .ok f => segLoop c f c.nSeg 0 c := by
  have hgo : (!(force || c.filtValue.all (· == 0))) = false := by
    rcases hn with h | h
    · simp [h]
    · have : c.filtValue.all (· == 0) = true := List.all_eq_true.mpr (fun x hx => by simpa using h x hx)
      simp [this]
  unfold filterData
  simp only [hgo, hf, Bool.false_eq_true, if_false, hcy]

omit [Field K] [DecidableEq K] in
theorem ats_nocython {c : Chan K} (ht : c.ftype = "ats") {cy : Option Bool} (hcy : cy ≠ some true) : cy.getD (c.ftype == "5lag") = false := by
  rw [ht]
  match cy, hcy with
  | none, _ => rfl
  | some false, _ => rfl
  | some true, h => exact absurd rfl h

/-- C109. An arrival-time-safe filter one sample shorter than the records: whatever the segments, each record gets as value the sum of filter times record
(delayed one sample unless the record triggered late), and as phase the same sum with the arrival-time filter over it; nothing else changes. -/
theorem filter_ats {c : Chan K} (hc : Fits c) {v at' : List K} (hf : c.filter = some (v, at')) (ht : c.ftype = "ats")
    (hv : v.length + 1 = c.nSamples) (ha : at'.length = v.length) {force : Bool} (hn : force = true ∨ ∀ x ∈ c.filtValue, x = 0)
    {cy : Option Bool} (hcy : cy ≠ some true) :
    filterData c none force cy = ({ c with
      filtPhase := List.zipWith (fun r late => height at' r late / height v r late) c.data c.shift
      filtValue := List.zipWith (fun r late => height v r late) c.data c.shift }, none) := by
  rw [filterData_go hf hn (ats_nocython ht hcy)]
  have e : segFun c v none = .ok (segAts c v at' none) := by
    unfold segFun
    simp only [ht, hv, hf, if_true]
  rw [e]
  dsimp only
  exact segLoop_parts c _ _ _ hc.pps (by simp [hc.sh]) (by simp [hc.sh])
    (fun a b _ hb _ _ _ => segAts_ok hc hv ha rfl hc.rows a b hb rfl)
    c.nSeg 0 (by simpa using hc.lo) (by simpa using hc.hi) c hc.ph hc.va (by simp) (by simp)

/-- C109. The same with a transform `g` of each record less its pretrigger mean, for a file of one segment. Missing: files of several segments, where the
transform raises (`ats_transform_fails`). -/
theorem filter_ats_transform_partial {c : Chan K} (hc : Fits c) {v at' : List K} (hf : c.filter = some (v, at')) (ht : c.ftype = "ats")
    (hv : v.length + 1 = c.nSamples) (ha : at'.length = v.length) {force : Bool} (hn : force = true ∨ ∀ x ∈ c.filtValue, x = 0)
    {cy : Option Bool} (hcy : cy ≠ some true) (g : List K → List K) (hg : ∀ r, (g r).length = r.length) (h1 : c.data.length ≤ c.pps) :
    filterData c (some (fun rows => rows.map g)) force cy = ({ c with
      filtPhase := List.zipWith (fun r late => height at' r late / height v r late) (List.zipWith (fun r p => g (r.map (· - p))) c.data c.ptmean) c.shift
      filtValue := List.zipWith (fun r late => height v r late) (List.zipWith (fun r p => g (r.map (· - p))) c.data c.ptmean) c.shift }, none) := by
  rw [filterData_go hf hn (ats_nocython ht hcy)]
  have e : segFun c v (some (fun rows => rows.map g)) = .ok (segAts c v at' (some (fun rows => rows.map g))) := by
    unfold segFun
    simp only [ht, hv, hf, if_true]
  rw [e]
  dsimp only
  have hpl := prepared_length hc (some g)
  have hpr := prepared_rows hc (some g) (by intro h e r; cases e; exact hg r)
  refine segLoop_parts c _ _ _ hc.pps (by simp [hc.sh, hc.pt]) (by simp [hc.sh, hc.pt]) ?_
    c.nSeg 0 (by simpa using hc.lo) (by simpa using hc.hi) c hc.ph hc.va (by simp) (by simp)
  intro a b hab hb hw hcase hdvd
  have ha0 : a = 0 := Nat.eq_zero_of_dvd_of_lt hdvd (by omega)
  have hbn : b = c.data.length := by omega
  refine segAts_ok hc hv ha hpl hpr a b hb ?_
  unfold prep
  dsimp only
  have e1 : slice a b c.ptmean = c.ptmean := by
    unfold slice
    rw [ha0, List.drop_zero, List.take_of_length_le (by rw [hc.pt]; omega)]
  have e2 : slice a b (prepared c (some g)) = prepared c (some g) := by
    unfold slice
    rw [ha0, List.drop_zero, List.take_of_length_le (by omega)]
  rw [e1, e2]
  unfold subMean
  rw [if_pos hc.pt.symm]
  simp only [Except.map, prepared]
  rw [List.map_zipWith]

/-- C109. An arrival-time-safe filter as long as the records, with or without a transform of the records: whatever the segments, each record gets the sum of
filter times record. -/
theorem filter_noshift {c : Chan K} (hc : Fits c) {v at' : List K} (hf : c.filter = some (v, at')) (ht : c.ftype = "ats")
    (hv0 : v ≠ []) (hv : v.length = c.nSamples) (ha : at'.length = v.length) {force : Bool} (hn : force = true ∨ ∀ x ∈ c.filtValue, x = 0)
    {cy : Option Bool} (hcy : cy ≠ some true) (g : Option (List K → List K)) (hg : ∀ h ∈ g, ∀ r, (h r).length = r.length) :
    filterData c (g.map (fun h rows => rows.map h)) force cy = ({ c with
      filtPhase := (prepared c g).map (fun r => lag at' r 0 / lag v r 0)
      filtValue := (prepared c g).map (fun r => lag v r 0) }, none) := by
  rw [filterData_go hf hn (ats_nocython ht hcy)]
  have e : segFun c v (g.map (fun h rows => rows.map h)) = .ok (segNoShift c v at' (g.map rowwise)) := by
    unfold segFun
    simp only [ht, hv, hf, if_true]
    rw [if_neg (by omega)]
    rfl
  rw [e]
  dsimp only
  have hpl := prepared_length hc g
  exact segLoop_parts c _ _ _ hc.pps (by simp [hpl]) (by simp [hpl])
    (fun a b _ hb _ _ _ => segNoShift_ok hc hv0 hv ha g hg a b hb)
    c.nSeg 0 (by simpa using hc.lo) (by simpa using hc.hi) c hc.ph hc.va (by simp) (by simp)

/-- C109. A five-lag filter in Python, with or without a transform of the records: whatever the segments, each record gets the vertex of the parabola through
its five lagged sums (C32). -/
theorem filter_5lag_python {c : Chan K} (hc : Fits c) {v at' : List K} (hf : c.filter = some (v, at')) (ht : c.ftype = "5lag")
    (hv : v.length + 4 = c.nSamples) {force : Bool} (hn : force = true ∨ ∀ x ∈ c.filtValue, x = 0)
    (g : Option (List K → List K)) (hg : ∀ h ∈ g, ∀ r, (h r).length = r.length) :
    filterData c (g.map (fun h rows => rows.map h)) force (some false) = ({ c with
      filtPhase := (prepared c g).map (fun r => peakX (parabola (lags v r)))
      filtValue := (prepared c g).map (fun r => peakY (parabola (lags v r))) }, none) := by
  rw [filterData_go hf hn rfl]
  have e : segFun c v (g.map (fun h rows => rows.map h)) = .ok (seg5lag c v (g.map rowwise)) := by
    unfold segFun
    rw [if_neg (by rw [ht]; decide), if_pos ht]
    rfl
  rw [e]
  dsimp only
  have hpl := prepared_length hc g
  exact segLoop_parts c _ _ _ hc.pps (by simp [hpl]) (by simp [hpl])
    (fun a b _ hb _ _ _ => seg5lag_ok hc hv g hg a b hb)
    c.nSeg 0 (by simpa using hc.lo) (by simpa using hc.hi) c hc.ph hc.va (by simp) (by simp)

/-- C109. A five-lag filter by default (in Cython) without transform stores the same as in Python. Missing: transforms (`cython_transform_fails`). -/
theorem filter_5lag_partial {c : Chan K} (hc : Fits c) {v at' : List K} (hf : c.filter = some (v, at')) (ht : c.ftype = "5lag")
    (hv4 : 4 ≤ v.length) (hv : v.length + 4 = c.nSamples) {force : Bool} (hn : force = true ∨ ∀ x ∈ c.filtValue, x = 0) :
    filterData c none force none = filterData c none force (some false) := by
  have hpy := filter_5lag_python hc hf ht hv hn none (by simp)
  rw [Option.map_none] at hpy
  rw [hpy]
  have hgo : (!(force || c.filtValue.all (· == 0))) = false := by
    rcases hn with h | h
    · simp [h]
    · have : c.filtValue.all (· == 0) = true := List.all_eq_true.mpr (fun x hx => by simpa using h x hx)
      simp [this]
  unfold filterData
  simp only [hgo, hf, Bool.false_eq_true, if_false]
  have h1 : (none : Option Bool).getD (c.ftype == "5lag") = true := by simp [ht]
  rw [h1, if_pos rfl, if_neg (by rw [ht]; decide)]
  have h2 : cython5lag c.data v = .ok (c.data.map (fun r => (peakY (parabola (lags v r)), peakX (parabola (lags v r))))) := by
    unfold cython5lag
    apply mapM_ok
    intro r hr
    rw [stream_eq_lags hv4 (by rw [hc.rows r hr, hv])]
    rfl
  rw [h2]
  simp only [prepared, List.map_map]
  rfl

/-- C109. Results that are there already (a value other than 0) are kept unless `forceNew`. -/
theorem filter_kept {c : Chan K} {x : K} (hx : x ∈ c.filtValue) (h0 : x ≠ 0) (tr : Option (Transform K)) (cy : Option Bool) :
    filterData c tr false cy = (c, none) := by
  unfold filterData
  rw [if_pos]
  have : c.filtValue.all (· == 0) = false := by
    rw [Bool.eq_false_iff]
    intro h
    exact h0 (by simpa using List.all_eq_true.mp h x hx)
  simp [this]

/-- C109. What is refused, with nothing stored: Cython for an arrival-time-safe filter; such a filter of a length that does not fit; a filter type other than
the two; an arrival-time-safe filter known only from the HDF5 file; no filter at all. -/
theorem filter_refuses (c : Chan K) (tr : Option (Transform K)) :
    (c.ftype = "ats" → ∀ v at', c.filter = some (v, at') → filterData c tr true (some true) = (c, some .value)) ∧
    (c.ftype = "ats" → c.nSeg ≠ 0 → ∀ v at', c.filter = some (v, at') → v.length + 1 ≠ c.nSamples → v.length ≠ c.nSamples →
      filterData c tr true none = (c, some .unbound)) ∧
    (c.ftype ≠ "ats" → c.ftype ≠ "5lag" → ∀ v at', c.filter = some (v, at') → filterData c tr true none = (c, some .value)) ∧
    (c.ftype = "ats" → c.filter = none → c.stored ≠ none → filterData c tr true none = (c, some .attribute)) ∧
    (c.filter = none → c.stored = none → filterData c tr true none = (c, some .key)) := by
  refine ⟨?_, ?_, ?_, ?_, ?_⟩
  · intro ht v at' hf
    simp [filterData, hf, ht]
  · intro ht hs v at' hf h1 h2
    simp [filterData, hf, ht, segFun, h1, h2, hs]
  · intro h1 h2 v at' hf
    simp [filterData, hf, h1, h2, segFun]
  · intro ht hf hs
    obtain ⟨v, hv⟩ := Option.ne_none_iff_exists'.mp hs
    simp only [filterData, hf, hv, ht, segFun]
    by_cases a : v.length + 1 = c.nSamples <;> by_cases b : v.length = c.nSamples <;> simp [a, b]
  · intro hf hs
    simp [filterData, hf, hs]

/-- C109. An arrival-time-safe filter whose two parts have different lengths is refused, with nothing stored. -/
theorem filter_parts {c : Chan K} (hc : Fits c) (h0 : c.data ≠ []) {v at' : List K} (hf : c.filter = some (v, at')) (ht : c.ftype = "ats") (hv : v.length + 1 = c.nSamples ∨ v ≠ [] ∧ v.length = c.nSamples)
    (ha : at'.length ≠ v.length) {force : Bool} (hn : force = true ∨ ∀ x ∈ c.filtValue, x = 0) {cy : Option Bool} (hcy : cy ≠ some true) : filterData c none force cy = (c, some .value) := by
  rw [filterData_go hf hn (ats_nocython ht hcy)]
  have hp := hc.pps
  have hl : 0 < c.data.length := List.length_pos_iff.2 h0
  obtain ⟨n, hs⟩ : ∃ n, c.nSeg = n + 1 := by
    have := hc.hi
    cases h : c.nSeg with
    | zero => rw [h, Nat.zero_mul] at this; omega
    | succ n => exact ⟨n, rfl⟩
  have hne : ∃ r t, slice 0 (min c.data.length (0 + c.pps)) c.data = r :: t := by
    cases hd : slice 0 (min c.data.length (0 + c.pps)) c.data with
    | nil =>
      have := slice_length 0 (min c.data.length (0 + c.pps)) c.data (Nat.min_le_left _ _)
      rw [hd] at this
      simp only [List.length_nil] at this
      omega
    | cons r t => exact ⟨r, t, rfl⟩
  obtain ⟨r, t, hrt⟩ := hne
  have hrows : ∀ x ∈ r :: t, x.length = c.nSamples := fun x hx => hc.rows x (mem_slice (hrt ▸ hx))
  rcases hv with hv | ⟨hv0, hv⟩
  · have e : segFun c v none = .ok (segAts c v at' none) := by
      unfold segFun
      simp only [ht, hv, hf, if_true]
    rw [e]
    dsimp only
    rw [hs, segLoop]
    simp only [Nat.zero_mul]
    have e2 : segAts c v at' none 0 (min c.data.length (0 + c.pps)) = .error .value := by
      unfold segAts
      rw [if_neg (by omega)]
      simp only [prep, bind, Except.bind]
      rw [hrt, dotRows_ok (rows := (r :: t).map List.tail) (v := v) (by
        intro x hx
        obtain ⟨y, hy, rfl⟩ := List.mem_map.1 hx
        rw [List.length_tail, hrows y hy]; omega)]
      dsimp only
      have : dotRows ((r :: t).map List.tail) at' = .error .value := by
        unfold dotRows
        rw [if_neg]
        simp only [List.map_cons, List.all_cons, Bool.and_eq_true, beq_iff_eq, List.length_tail, hrows r (by simp)]
        omega
      rw [this]
    rw [e2]
  · have e : segFun c v none = .ok (segNoShift c v at' none) := by
      unfold segFun
      simp only [ht, hv, hf, if_true]
      rw [if_neg (by omega)]
    rw [e]
    dsimp only
    rw [hs, segLoop]
    simp only [Nat.zero_mul]
    have e2 : segNoShift c v at' none 0 (min c.data.length (0 + c.pps)) = .error .value := by
      unfold segNoShift
      rw [if_neg (by simpa using hv0)]
      simp only [prep, bind, Except.bind]
      rw [hrt, dotRows_ok (rows := r :: t) (v := v) (fun x hx => by rw [hrows x hx, hv])]
      dsimp only
      have : dotRows (r :: t) at' = .error .value := by
        unfold dotRows
        rw [if_neg]
        simp only [List.all_cons, Bool.and_eq_true, beq_iff_eq, hrows r (by simp)]
        omega
      rw [this]
    rw [e2]

omit [DecidableEq K] in
/-- C109. A pulse whose record starts one sample later in the data stream, and that is flagged for it, gets the same value and phase. -/
theorem late_trigger (s : Nat → K) (t n : Nat) (v : List K) (hv : v.length + 1 = n) :
    height v ((List.range n).map (fun i => s (t + 1 + i))) true = height v ((List.range n).map (fun i => s (t + i))) false := by
  unfold height
  apply Finset.sum_congr rfl
  intro k _
  have hk := k.isLt
  simp only [if_true, Bool.false_eq_true, if_false, Nat.add_zero]
  rw [List.getElem?_map, List.getElem?_map, List.getElem?_range (by omega), List.getElem?_range (by omega)]
  simp only [Option.map_some, Option.getD_some]
  congr 2
  omega

omit [DecidableEq K] in
theorem lag_smul (v r : List K) (a : K) (j : Nat) : lag v (r.map (a * ·)) j = a * lag v r j := by
  unfold lag
  rw [Finset.mul_sum]
  apply Finset.sum_congr rfl
  intro k _
  rw [List.getElem?_map]
  cases r[(k : Nat) + j]? with
  | none => simp
  | some x => simp; ring

omit [DecidableEq K] in
/-- C109. A record `a` times as large has `a` times the value and the same phase. -/
theorem value_scales (v at' r : List K) (late : Bool) (a : K) (ha : a ≠ 0) :
    height v (r.map (a * ·)) late = a * height v r late ∧
    height at' (r.map (a * ·)) late / height v (r.map (a * ·)) late = height at' r late / height v r late := by
  have h : ∀ w : List K, height w (r.map (a * ·)) late = a * height w r late := fun w => by rw [height_eq, height_eq, lag_smul]
  exact ⟨h v, by rw [h, h, mul_div_mul_left _ _ ha]⟩

omit [DecidableEq K] in
theorem subMean_wrong (rows : List (List K)) (pt : List K) (h1 : pt.length < rows.length) (h2 : pt ≠ []) :
    subMean rows pt = .error .value ∨ ∃ out, subMean rows pt = .ok out ∧ out.length = rows.length := by
  match rows, pt, h1, h2 with
  | a :: b :: rows, [p], _, _ => right; exact ⟨_, rfl, by simp⟩
  | a :: b :: rows, p :: q :: pt, h1, _ =>
    left
    unfold subMean
    rw [if_neg (by omega)]
  | [a], p :: pt, h1, _ => simp at h1

/-- Disagreement (C109): a transform with an arrival-time-safe filter that needs shifting (one sample shorter than the records) raises on every file of more
than one segment: the pretrigger means of one segment are subtracted from the records of the whole file. -/
theorem ats_transform_fails {c : Chan K} (hc : Fits c) {v at' : List K} (hf : c.filter = some (v, at')) (ht : c.ftype = "ats")
    (hv : v.length + 1 = c.nSamples) (t : Transform K) (hrows : ∀ m, (t m).length = m.length) (h2 : c.pps < c.data.length) :
    ∃ e, filterData c (some t) true none = (c, some e) := by
  rw [filterData_go hf (Or.inl rfl) (by simp [ht])]
  have e : segFun c v (some t) = .ok (segAts c v at' (some t)) := by
    unfold segFun
    simp only [ht, hv, hf, if_true]
  rw [e]
  dsimp only
  obtain ⟨k, hk⟩ : ∃ k, c.nSeg = k + 1 := ⟨c.nSeg - 1, by
    have := hc.hi
    rcases Nat.eq_zero_or_pos c.nSeg with h | h
    · rw [h] at this; omega
    · omega⟩
  rw [hk]
  unfold segLoop
  dsimp only
  have hfirst : ∃ e, segAts c v at' (some t) (0 * c.pps) (min c.data.length (0 * c.pps + c.pps)) = .error e := by
    have hp := hc.pps
    have hmin : min c.data.length (0 * c.pps + c.pps) = c.pps := by omega
    rw [hmin, Nat.zero_mul]
    have hl : (slice 0 c.pps c.ptmean).length = c.pps := by rw [slice_length _ _ _ (by rw [hc.pt]; omega)]; omega
    unfold segAts
    rw [if_neg (by omega)]
    simp only [bind, Except.bind, prep]
    rcases subMean_wrong c.data (slice 0 c.pps c.ptmean) (by omega) (by intro h; rw [h] at hl; simp at hl; omega) with h | ⟨out, h, ho⟩
    · rw [h]
      exact ⟨_, rfl⟩
    · rw [h]
      simp only [Except.map]
      cases dotRows ((t out).map List.tail) v with
      | error e => exact ⟨e, rfl⟩
      | ok c0 =>
        cases dotRows ((t out).map List.tail) at' with
        | error e => exact ⟨e, rfl⟩
        | ok c1 =>
          dsimp only
          rw [if_pos]
          · exact ⟨_, rfl⟩
          · rw [hrows, ho, slice_length _ _ _ (by rw [hc.sh]; omega)]
            omega
  obtain ⟨e, he⟩ := hfirst
  rw [he]
  exact ⟨e, rfl⟩

/-- Disagreement (C109): with a five-lag filter the transform is ignored, unless Python is asked for. -/
theorem cython_transform_fails :
    (∀ (c : Chan K) (tr : Option (Transform K)) (force : Bool), c.ftype = "5lag" → filterData c tr force none = filterData c none force none) ∧
    ∃ (c : Chan ℚ) (tr : Transform ℚ), c.ftype = "5lag" ∧ (filterData c (some tr) true none).2 = none ∧
      (filterData c (some tr) true none).1.filtValue ≠ (filterData c (some tr) true (some false)).1.filtValue ∧
      (filterData c (some tr) true (some false)).2 = none := by
  constructor
  · intro c tr force ht
    unfold filterData
    have : (none : Option Bool).getD (c.ftype == "5lag") = true := by simp [ht]
    simp only [this, if_true]
  · refine ⟨⟨8, [[0, 1, 3, 4, 3, 1, 0, 0]], [0], [false], 1, 1, "5lag", some ([1, 0, 0, 0], []), none, [0], [0]⟩,
      fun m => m.map (fun r => r.map (· * 2)), by decide +kernel⟩

/-- what is stored when the program is stopped after `k` segments [specification] -/
def stopped (c : Chan K) (f : Nat → Nat → Except Exc (List K × List K)) (k : Nat) : Chan K := (segLoop c f k 0 c).1

/-- Disagreement (C109): after filtering was stopped midway (an interrupt, a crash), a further call takes the results of the first segments for complete ones
and leaves the values of the other records 0. -/
theorem interrupted_fails :
    ∃ (c : Chan ℚ) (v at' : List ℚ), Fits c ∧ c.filter = some (v, at') ∧ c.ftype = "ats" ∧
      (filterData c none false none).1.filtValue = [3, 4] ∧
      (filterData (stopped c (segAts c v at' none) 1) none false none).1.filtValue = [3, 0] := by
  refine ⟨⟨2, [[1, 3], [4, 2]], [0, 0], [false, true], 2, 1, "ats", some ([1], [1]), none, [0, 0], [0, 0]⟩, [1], [1], ?_, by decide +kernel⟩
  constructor <;> decide +kernel

end

/-! ### examples -/

/-- three records in segments of two, the second flagged as late -/
def ex : Chan ℚ := ⟨3, [[1, 2, 3], [4, 5, 6], [7, 8, 10]], [1, 1, 2], [false, true, false], 2, 2, "ats", some ([1, 2], [1, -1]), none, [0, 0, 0], [0, 0, 0]⟩

theorem ex_fits : Fits ex := by constructor <;> decide +kernel

example : (filterData ex none false none).1.filtValue = [8, 14, 28] ∧ (filterData ex none false none).1.filtPhase = [-1 / 8, -1 / 14, -2 / 28] ∧
    (filterData ex none false none).2 = none := by decide +kernel

example : filterData ex none false none = ({ ex with
      filtPhase := List.zipWith (fun r late => height [1, -1] r late / height [1, 2] r late) ex.data ex.shift
      filtValue := List.zipWith (fun r late => height [1, 2] r late) ex.data ex.shift }, none) :=
  filter_ats ex_fits rfl rfl rfl rfl (Or.inr (by decide +kernel)) (by simp)

example : ∃ e, filterData ex (some id) true none = (ex, some e) :=
  ats_transform_fails ex_fits rfl rfl rfl id (fun _ => rfl) (by decide)

end Mass.Algo.FilterData
