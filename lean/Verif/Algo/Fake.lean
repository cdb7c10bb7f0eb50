import Verif.Py
import Mathlib.Algebra.Order.Floor.Ring
import Mathlib.Data.Rat.Floor
import Mathlib.Data.List.GetD
import Mathlib.Data.List.Rotate
import Mathlib.Algebra.BigOperators.Group.List.Basic
import Mathlib.Analysis.SpecialFunctions.Exp
import Mathlib.Tactic.Linarith
import Mathlib.Tactic.Ring
import Mathlib.Tactic.FieldSimp
import Mathlib.Tactic.Positivity
/-! C146: data held in memory and fake data: mass/core/files.py L83-127 (VirtualFile), mass/core/fake_data.py. -/
namespace Mass.Algo.Fake

/-! ### numbers -/

/-- conversion to 16-bit unsigned integers of an array, mass/core/fake_data.py L66, L100 (wraps, as numpy does for arrays of integers and, on common machines, of floats) -/
def toU16 (z : Int) : Int := z % 65536
/-- `np.asarray(data, dtype=np.int16)`, mass/core/files.py L97 -/
def toI16 (z : Int) : Int := (z + 32768) % 65536 - 32768

variable {K : Type} [Field K] [LinearOrder K] [IsStrictOrderedRing K] [FloorRing K]

/-- conversion of a float to an integer: towards zero (used for mass/core/fake_data.py L71, L82-84, L105) -/
def trunc (x : K) : Int := if 0 ≤ x then ⌊x⌋ else ⌈x⌉

/-- a sample of a fake record as it is read from the VirtualFile: `y` is model times scale, level and noise (fake_data.py L82-85, L105-107; files.py L97) -/
def sample (y : K) : Int := toI16 (toU16 (trunc (y + 1 / 2)))

theorem toI16_toU16 (z : Int) : toI16 (toU16 z) = toI16 z := by unfold toI16 toU16; omega

theorem toI16_range (z : Int) : -32768 ≤ toI16 z ∧ toI16 z ≤ 32767 ∧ (toI16 z - z) % 65536 = 0 := by unfold toI16; omega

theorem toI16_id {z : Int} (h1 : -32768 ≤ z) (h2 : z ≤ 32767) : toI16 z = z := by unfold toI16; omega

/-- C146. A sample between zero and the largest 16-bit signed number is stored as the nearest integer. -/
theorem sample_nearest {y : K} (h0 : -(1 / 2) ≤ y) (h1 : y < 32767 + 1 / 2) : |(sample y : K) - y| ≤ 1 / 2 := by
  have hn : (0 : K) ≤ y + 1 / 2 := by linarith
  have ht : trunc (y + 1 / 2) = ⌊y + 1 / 2⌋ := by unfold trunc; rw [if_pos hn]
  have hf0 : (0 : Int) ≤ ⌊y + 1 / 2⌋ := Int.floor_nonneg.2 hn
  have hf1 : ⌊y + 1 / 2⌋ < 32768 := by
    rw [Int.floor_lt]
    push_cast
    linarith
  have e : sample y = ⌊y + 1 / 2⌋ := by
    unfold sample
    rw [toI16_toU16, ht, toI16_id (by omega) (by omega)]
  rw [e, abs_le]
  have := Int.floor_le (y + 1 / 2)
  have := Int.lt_floor_add_one (y + 1 / 2)
  constructor <;> linarith

/-- C146. What a sample in the range of 16-bit signed numbers is, positive or negative: the number plus one half, cut off towards zero. -/
theorem sample_trunc {y : K} (h0 : -32769 < y + 1 / 2) (h1 : y + 1 / 2 < 32768) : sample y = trunc (y + 1 / 2) := by
  unfold sample
  rw [toI16_toU16]
  unfold trunc
  split
  · rename_i h
    have : (0 : Int) ≤ ⌊y + 1 / 2⌋ := Int.floor_nonneg.2 h
    have : ⌊y + 1 / 2⌋ < 32768 := by rw [Int.floor_lt]; push_cast; exact h1
    exact toI16_id (by omega) (by omega)
  · rename_i h
    have : ⌈y + 1 / 2⌉ ≤ 0 := by rw [Int.ceil_le]; push_cast; linarith
    have : -32769 < ⌈y + 1 / 2⌉ := by rw [Int.lt_ceil]; push_cast; exact h0
    exact toI16_id (by omega) (by omega)

/-- Disagreement (C146): every level from 32768 to 65535, which a 16-bit unsigned record holds, is read as a negative number, 65536 too small. -/
theorem high_fails (z : Int) (h : 32768 ≤ z ∧ z ≤ 65535) : toI16 (toU16 z) = z - 65536 ∧ toI16 (toU16 z) < 0 := by unfold toI16 toU16; omega

/-- Disagreement (C146): fake noise is rounded to the nearest integer only above zero. Every value above -3/2 and up to 1/2 becomes 0, and every value
below -3/2 is rounded up, by one half to three halves: the mean of the noise is too large. -/
theorem noise_fails (y : K) (h0 : -32769 < y + 1 / 2) : (-(3 / 2) < y → y < 1 / 2 → sample y = 0) ∧
    (y ≤ -(3 / 2) → 1 / 2 ≤ (sample y : K) - y ∧ (sample y : K) - y < 3 / 2) := by
  constructor
  · intro h1 h2
    rw [sample_trunc h0 (by linarith)]
    unfold trunc
    split
    · rename_i h
      rw [Int.floor_eq_iff]
      push_cast
      exact ⟨h, by linarith⟩
    · rename_i h
      rw [Int.ceil_eq_iff]
      push_cast
      exact ⟨by linarith, by linarith⟩
  · intro h1
    rw [sample_trunc h0 (by linarith)]
    unfold trunc
    rw [if_neg (by linarith)]
    have := Int.le_ceil (y + 1 / 2)
    have := Int.ceil_lt_add_one (y + 1 / 2)
    constructor <;> linarith

/-! ### VirtualFile -/

/-- a VirtualFile, mass/core/files.py L83-111: the rows as 16-bit signed numbers -/
structure VFile where
  data : List (List Int)
  nPulses : Nat
  nSamples : Nat
  nPresamples : ℚ
  times : List ℚ
  filename : String
  timebase : ℚ
  deriving DecidableEq

/-- `VirtualFile(data, times, presamples)`, mass/core/files.py L88-111; `cols` is data.shape[1] -/
def VFile.make (rows : List (List Int)) (cols : Nat) (times : Option (List ℚ)) (pre : ℚ) : VFile :=
  ⟨rows.map (fun r => r.map toI16), rows.length, cols, pre, times.getD (List.replicate rows.length 0), "virtual_file_chan1.vtf", 0⟩

/-- `read_trace`, mass/core/files.py L119-123: a number counted from the end is IndexError beyond the first -/
def VFile.readTrace (f : VFile) (i : Int) : Except Exc (List Int) :=
  if (f.nPulses : Int) ≤ i then .error .value
  else
    let j := if i < 0 then i + f.data.length else i
    if 0 ≤ j ∧ j < f.data.length then .ok (f.data.getD j.toNat []) else .error .index

/-- `copy`, mass/core/files.py L113-117: a new object, every attribute overwritten by the old one's. Simplified: the shared array is not modelled. -/
def VFile.copy (f : VFile) : VFile :=
  let c := VFile.make f.data f.nSamples none 0
  { c with data := f.data, nPulses := f.nPulses, nSamples := f.nSamples, nPresamples := f.nPresamples, times := f.times, filename := f.filename, timebase := f.timebase }

/-- C146. Reading record `i` gives the row `i` of the array given, if its numbers are in the range of 16-bit signed numbers; numbers not below the number of
records raise ValueError; numbers below zero count from the end. -/
theorem read_row (rows : List (List Int)) (cols : Nat) (times : Option (List ℚ)) (pre : ℚ) (hr : ∀ r ∈ rows, ∀ z ∈ r, -32768 ≤ z ∧ z ≤ 32767) (i : Int) :
    (∀ k : Nat, k < rows.length → i = k → (VFile.make rows cols times pre).readTrace i = .ok (rows.getD k [])) ∧
    ((rows.length : Int) ≤ i → (VFile.make rows cols times pre).readTrace i = .error .value) ∧
    (∀ k : Nat, k < rows.length → i = (k : Int) - rows.length → (VFile.make rows cols times pre).readTrace i = .ok (rows.getD k [])) ∧
    (i < -(rows.length : Int) → (VFile.make rows cols times pre).readTrace i = .error .index) := by
  have hd : rows.map (fun r => r.map toI16) = rows := by
    conv_rhs => rw [← List.map_id rows]
    refine List.map_congr_left fun r hrm => ?_
    conv_rhs => rw [id, ← List.map_id r]
    exact List.map_congr_left fun z hz => toI16_id (hr r hrm z hz).1 (hr r hrm z hz).2
  unfold VFile.readTrace VFile.make
  dsimp only
  rw [hd]
  refine ⟨?_, ?_, ?_, ?_⟩
  · rintro k hk rfl
    have hj : (if (k : Int) < 0 then (k : Int) + rows.length else (k : Int)) = k := if_neg (by omega)
    rw [if_neg (by omega), hj, if_pos (by omega)]
    simp
  · intro h
    rw [if_pos h]
  · rintro k hk rfl
    have hj : (if (k : Int) - rows.length < 0 then (k : Int) - rows.length + rows.length else (k : Int) - rows.length) = k := by rw [if_pos (by omega)]; omega
    rw [if_neg (by omega), hj, if_pos (by omega)]
    simp
  · intro h
    have hj : (if i < 0 then i + rows.length else i) = i + rows.length := if_pos (by omega)
    rw [if_neg (by omega), hj, if_neg (by omega)]

/-- C146. A copy has all attributes of the original and every record reads the same. -/
theorem copy_same (f : VFile) : f.copy = f ∧ ∀ i, f.copy.readTrace i = f.readTrace i := by
  have : f.copy = f := rfl
  exact ⟨this, fun i => by rw [this]⟩

/-- Disagreement (C146): the number of times is not checked against the number of records. -/
theorem times_fails (rows : List (List Int)) (cols : Nat) (t : List ℚ) (pre : ℚ) : (VFile.make rows cols (some t) pre).times = t ∧ (VFile.make rows cols (some t) pre).nPulses = rows.length :=
  ⟨rfl, rfl⟩

/-- what may be given as file: a name or a VirtualFile -/
inductive Source where
  | name (s : List Char)
  | virt (f : VFile)

/-- os.path.isdir, called first by `ljh_basename_channum` (mass/core/ljh_util.py L47): TypeError for what is not a path -/
def isdir (dirs : List Char → Bool) : Source → Except Exc Bool
  | .name s => .ok (dirs s)
  | .virt _ => .error .type

/-- `PulseRecords(file)` and `NoiseRecords(file)`: the channel number is made first (mass/core/channel.py L72, L446); `chan` is the rest of ljh_channum and `opn` the rest of
the constructor -/
def records {R : Type} (dirs : List Char → Bool) (chan : List Char → Option Nat) (opn : Source → Option Nat → Except Exc R) (s : Source) : Except Exc R :=
  match isdir dirs s with
  | .error e => .error e
  | .ok _ =>
    match s with
    | .name n => opn s (chan n)
    | .virt _ => opn s none

/-- `TESGroup(files, noise files)` as far as the channel numbers of the files, mass/core/channel_group.py L150, ljh_util.py L130 -/
def group {R : Type} (dirs : List Char → Bool) (mk : List Source → Except Exc R) (files : List Source) : Except Exc R :=
  match files.mapM (isdir dirs) with
  | .error e => .error e
  | .ok _ => mk files

/-- Disagreement (C146): the classes that take a file name or a VirtualFile raise TypeError for every VirtualFile, and so does a group with one: the channel number is
looked for in the name first. generate_microcal_dataset and generate_tesgroup therefore always raise (with one channel or more). -/
theorem virtual_fails {R : Type} (dirs : List Char → Bool) (chan : List Char → Option Nat) (opn : Source → Option Nat → Except Exc R) (mk : List Source → Except Exc R) (f : VFile)
    (rest : List Source) : records dirs chan opn (.virt f) = .error .type ∧ group dirs mk (.virt f :: rest) = .error .type := by
  refine ⟨rfl, ?_⟩
  unfold group
  rw [List.mapM_cons]
  rfl

/-! ### how many pulses of each kind -/

/-- index of the first largest element, ndarray.argmax (used for mass/core/fake_data.py L74) -/
def argmax : List Int → Nat
  | [] => 0
  | [_] => 0
  | a :: b :: t => if (b :: t).all (fun x => decide (x ≤ a)) then 0 else argmax (b :: t) + 1

/-- whole-number weights, mass/core/fake_data.py L71-73 -/
def shares (n : Nat) (ws : List K) : List Int := ws.map (fun w => trunc ((n : K) * w / ws.sum))

/-- the number of pulses of each distribution, mass/core/fake_data.py L71-74: the largest takes what is left. No weights: argmax raises ValueError. -/
def counts (n : Nat) (ws : List K) : Except Exc (List Int) :=
  if ws = [] then .error .value
  else
    let s := shares n ws
    .ok (s.set (argmax s) (s.getD (argmax s) 0 + ((n : Int) - s.sum)))

/-- the scale factors, mass/core/fake_data.py L68-79: `draw k n` are n numbers of distribution k (a negative n is a ValueError), `shuffle` any rearrangement.
`distributions` given but no weights: the 0-dimensional array cannot be indexed. -/
def scales (draw : Nat → Nat → List K) (shuffle : List K → List K) (n : Nat) (dists : Option Nat) (weights : Option (List K)) : Except Exc (List K) :=
  match dists with
  | none => .ok (List.replicate n 1)
  | some m =>
    match weights with
    | none => .error .index
    | some ws =>
      match counts n ws with
      | .error e => .error e
      | .ok c =>
        let used := c.take m
        if used.any (fun x => decide (x < 0)) then .error .value
        else if used = [] then .error .value
        else .ok (shuffle ((used.zipIdx.map (fun p => draw p.2 p.1.toNat)).flatten))

/-- the pulses take scale[i] for i below n: IndexError if there are too few, mass/core/fake_data.py L81-82 -/
def scaleOf (sc : List K) (n : Nat) : Except Exc (List K) := if sc.length < n then .error .index else .ok (sc.take n)

theorem argmax_lt {l : List Int} (h : l ≠ []) : argmax l < l.length := by
  induction l with
  | nil => exact absurd rfl h
  | cons a t ih =>
    cases t with
    | nil => simp [argmax]
    | cons b t =>
      unfold argmax
      split
      · simp
      · have := ih (by simp)
        simp only [List.length_cons] at this ⊢
        omega

theorem argmax_max {l : List Int} (h : l ≠ []) : ∀ x ∈ l, x ≤ l.getD (argmax l) 0 := by
  induction l with
  | nil => exact absurd rfl h
  | cons a t ih =>
    cases t with
    | nil => intro x hx; simp at hx; simp [argmax, hx]
    | cons b t =>
      unfold argmax
      split
      · rename_i hall
        rw [List.all_eq_true] at hall
        intro x hx
        simp only [List.getD_cons_zero]
        rcases List.mem_cons.1 hx with rfl | hx
        · exact le_refl _
        · simpa using hall x hx
      · rename_i hall
        intro x hx
        rw [List.getD_cons_succ]
        have ih := ih (by simp)
        rcases List.mem_cons.1 hx with rfl | hx
        · simp only [List.all_eq_true, decide_eq_true_eq, not_forall] at hall
          obtain ⟨y, hy, hlt⟩ := hall
          have := ih y hy
          omega
        · exact ih x hx

theorem sum_set (l : List Int) (i : Nat) (d : Int) (h : i < l.length) : (l.set i (l.getD i 0 + d)).sum = l.sum + d := by
  induction l generalizing i with
  | nil => simp at h
  | cons a t ih =>
    cases i with
    | zero => simp; ring
    | succ i =>
      simp only [List.set_cons_succ, List.getD_cons_succ, List.sum_cons]
      rw [ih i (by simpa using h)]
      ring

theorem trunc_nonneg {x : K} (h : 0 ≤ x) : 0 ≤ trunc x ∧ (trunc x : K) ≤ x ∧ x < trunc x + 1 := by
  unfold trunc
  rw [if_pos h]
  exact ⟨Int.floor_nonneg.2 h, Int.floor_le x, Int.lt_floor_add_one x⟩

theorem sum_floor (l : List K) (h : ∀ x ∈ l, 0 ≤ x) : ((l.map trunc).sum : K) ≤ l.sum ∧ l.sum ≤ ((l.map trunc).sum : K) + l.length ∧ (l ≠ [] → l.sum < ((l.map trunc).sum : K) + l.length) := by
  induction l with
  | nil => simp
  | cons a t ih =>
    have ha := trunc_nonneg (h a (by simp))
    have ih := ih (fun x hx => h x (by simp [hx]))
    simp only [List.map_cons, List.sum_cons, List.length_cons]
    rw [Int.cast_add, Nat.cast_add, Nat.cast_one]
    refine ⟨by linarith [ih.1], by linarith [ih.2.1], fun _ => by linarith [ih.2.1]⟩

theorem list_sum_pos (l : List K) (h : ∀ x ∈ l, 0 ≤ x) : 0 ≤ l.sum := List.sum_nonneg h

/-- C146. With weights not negative and not all zero, the numbers of pulses of the distributions sum to the number asked for; none is negative; each but the largest
is the exact share rounded down, and the largest is between its share rounded down and its share plus the number of weights. -/
theorem counts_spec (n : Nat) (ws : List K) (h0 : ∀ w ∈ ws, 0 ≤ w) (hs : 0 < ws.sum) :
    ∃ c k, counts n ws = .ok c ∧ c.length = ws.length ∧ c.sum = n ∧ (∀ x ∈ c, 0 ≤ x) ∧ k < ws.length ∧
      (∀ i, i < ws.length → i ≠ k → c.getD i 0 = ⌊(n : K) * ws.getD i 0 / ws.sum⌋) ∧
      (∀ i, i < ws.length → ⌊(n : K) * ws.getD i 0 / ws.sum⌋ ≤ ⌊(n : K) * ws.getD k 0 / ws.sum⌋) ∧
      ⌊(n : K) * ws.getD k 0 / ws.sum⌋ ≤ c.getD k 0 ∧ (c.getD k 0 : K) < (n : K) * ws.getD k 0 / ws.sum + ws.length := by
  have hne : ws ≠ [] := by rintro rfl; simp at hs
  have hsh : ∀ w ∈ ws, 0 ≤ (n : K) * w / ws.sum := fun w hw => div_nonneg (mul_nonneg (Nat.cast_nonneg n) (h0 w hw)) hs.le
  have hl : (shares n ws).length = ws.length := by simp [shares]
  have hget : ∀ i, i < ws.length → (shares n ws).getD i 0 = ⌊(n : K) * ws.getD i 0 / ws.sum⌋ := by
    intro i hi
    unfold shares
    rw [List.getD_eq_getElem _ _ (by simpa using hi), List.getElem_map, List.getD_eq_getElem _ _ hi]
    unfold trunc
    rw [if_pos (hsh _ (List.getElem_mem hi))]
  have hsne : shares n ws ≠ [] := by intro h; rw [h] at hl; simp at hl; exact hne (List.length_eq_zero_iff.1 hl.symm)
  have hk := argmax_lt hsne
  rw [hl] at hk
  have hsum : (ws.map (fun w => (n : K) * w / ws.sum)).sum = n := by
    have : ws.map (fun w => (n : K) * w / ws.sum) = ws.map (fun w => w * ((n : K) / ws.sum)) := List.map_congr_left fun w _ => by ring
    rw [this, List.sum_map_mul_right, List.map_id' ws]
    field_simp
  have hfl := sum_floor (ws.map (fun w => (n : K) * w / ws.sum)) (by
    intro x hx
    obtain ⟨w, hw, rfl⟩ := List.mem_map.1 hx
    exact hsh w hw)
  rw [hsum, List.map_map, List.length_map] at hfl
  have he : ws.map (trunc ∘ fun w => (n : K) * w / ws.sum) = shares n ws := rfl
  rw [he] at hfl
  have hle : (shares n ws).sum ≤ n := by exact_mod_cast hfl.1
  have hlt : (n : K) < (shares n ws).sum + ws.length := hfl.2.2 (by simpa using hne)
  have hnn : ∀ x ∈ shares n ws, 0 ≤ x := by
    intro x hx
    unfold shares at hx
    obtain ⟨w, hw, rfl⟩ := List.mem_map.1 hx
    exact (trunc_nonneg (hsh w hw)).1
  refine ⟨_, argmax (shares n ws), by unfold counts; rw [if_neg hne], by rw [List.length_set, hl], ?_, ?_, hk, ?_, ?_, ?_, ?_⟩
  · rw [sum_set _ _ _ (by rw [hl]; exact hk)]
    ring
  · intro x hx
    rcases List.mem_or_eq_of_mem_set hx with hx | rfl
    · exact hnn x hx
    · have := hnn ((shares n ws).getD (argmax (shares n ws)) 0) (by
        rw [List.getD_eq_getElem _ _ (by rw [hl]; exact hk)]
        exact List.getElem_mem _)
      omega
  · intro i hi hik
    rw [← hget i hi, List.getD_eq_getElem?_getD, List.getElem?_set_ne (by omega), List.getD_eq_getElem?_getD]
  · intro i hi
    rw [← hget i hi, ← hget _ hk]
    refine argmax_max hsne _ ?_
    rw [List.getD_eq_getElem _ _ (by rw [hl]; exact hi)]
    exact List.getElem_mem _
  · rw [← hget _ hk]
    have e : ((shares n ws).set (argmax (shares n ws)) ((shares n ws).getD (argmax (shares n ws)) 0 + ((n : Int) - (shares n ws).sum))).getD (argmax (shares n ws)) 0 =
        (shares n ws).getD (argmax (shares n ws)) 0 + ((n : Int) - (shares n ws).sum) := by
      rw [List.getD_eq_getElem?_getD, List.getElem?_set_self (by rw [hl]; exact hk), Option.getD_some]
    rw [e]
    omega
  · have e : ((shares n ws).set (argmax (shares n ws)) ((shares n ws).getD (argmax (shares n ws)) 0 + ((n : Int) - (shares n ws).sum))).getD (argmax (shares n ws)) 0 =
        (shares n ws).getD (argmax (shares n ws)) 0 + ((n : Int) - (shares n ws).sum) := by
      rw [List.getD_eq_getElem?_getD, List.getElem?_set_self (by rw [hl]; exact hk), Option.getD_some]
    rw [e, hget _ hk, Int.cast_add, Int.cast_sub, Int.cast_natCast]
    have := Int.floor_le ((n : K) * ws.getD (argmax (shares n ws)) 0 / ws.sum)
    linarith

theorem sum_draws (draw : Nat → Nat → List K) (hd : ∀ k m, (draw k m).length = m) (c : List Int) (h0 : ∀ x ∈ c, 0 ≤ x) (j : Nat) :
    (((c.zipIdx j).map (fun p => draw p.2 p.1.toNat)).flatten.length : Int) = c.sum := by
  induction c generalizing j with
  | nil => simp
  | cons a t ih =>
    simp only [List.zipIdx_cons, List.map_cons, List.flatten_cons, List.length_append, List.sum_cons, hd]
    push_cast
    rw [ih (fun x hx => h0 x (by simp [hx]))]
    have := h0 a (by simp)
    omega

/-- C146. With as many distributions as weights, every pulse gets a scale factor, drawn from its distribution as often as counted; without distributions all factors are 1. -/
theorem scales_spec (draw : Nat → Nat → List K) (hd : ∀ k m, (draw k m).length = m) (shuffle : List K → List K) (hp : ∀ l, (shuffle l).Perm l) (n : Nat) (ws : List K)
    (h0 : ∀ w ∈ ws, 0 ≤ w) (hs : 0 < ws.sum) :
    (∃ c sc, counts n ws = .ok c ∧ scales draw shuffle n (some ws.length) (some ws) = .ok sc ∧ sc.length = n ∧ scaleOf sc n = .ok sc ∧
      sc.Perm ((c.zipIdx.map (fun p => draw p.2 p.1.toNat)).flatten)) ∧
    scales draw shuffle n none (some ws) = .ok (List.replicate n 1) := by
  obtain ⟨c, k, hc, hcl, hcs, hc0, hk, -⟩ := counts_spec n ws h0 hs
  refine ⟨⟨c, shuffle ((c.zipIdx.map (fun p => draw p.2 p.1.toNat)).flatten), hc, ?_, ?_, ?_, hp _⟩, rfl⟩
  · unfold scales
    dsimp only
    rw [hc]
    dsimp only
    rw [List.take_of_length_le (by omega), if_neg, if_neg]
    · intro h
      rw [h] at hcl
      simp at hcl
      omega
    · intro h
      rw [List.any_eq_true] at h
      obtain ⟨x, hx, hlt⟩ := h
      have := hc0 x hx
      simp at hlt
      omega
  · have h1 := (hp ((c.zipIdx.map (fun p => draw p.2 p.1.toNat)).flatten)).length_eq
    have h2 := sum_draws draw hd c hc0 0
    omega
  · have h1 := (hp ((c.zipIdx.map (fun p => draw p.2 p.1.toNat)).flatten)).length_eq
    have h2 := sum_draws draw hd c hc0 0
    unfold scaleOf
    rw [if_neg (by omega), List.take_of_length_le (by omega)]

/-- C146, instance: 10 pulses, weights 1:1:1 -/
example : counts 10 ([1, 1, 1] : List ℚ) = .ok [4, 3, 3] ∧ counts 7 ([1, 2, 4] : List ℚ) = .ok [1, 2, 4] ∧ counts 5 ([1, 2, 4] : List ℚ) = .ok [0, 1, 4] := by decide +kernel

/-- Disagreement (C146): without weights the distributions are said to be weighted equally; it raises instead (and generate_microcal_dataset never gives weights). -/
theorem equal_fails (draw : Nat → Nat → List K) (shuffle : List K → List K) (n m : Nat) : scales draw shuffle n (some m) none = .error .index := rfl

/-- Disagreement (C146): with fewer distributions than weights the pulses of the missing ones get no scale factor, and making the records raises IndexError. -/
theorem few_fails : ∃ sc, scales (fun _ m => List.replicate m (2 : ℚ)) id 10 (some 1) (some [1, 1]) = .ok sc ∧ scaleOf sc 10 = .error .index := ⟨List.replicate 5 2, by decide +kernel⟩

/-! ### noise and times -/

/-- `np.roll` of the flattened array, mass/core/fake_data.py L103 -/
def roll (l : List K) (s : Nat) : List K := l.rotate (l.length - s % l.length)

/-- the smoothing of the noise, mass/core/fake_data.py L102-103 -/
def kludge (l : List K) : Nat → List K
  | 0 => l
  | i + 1 =>
    let p := kludge l i
    List.zipWith (fun a b => 1 / 2 * (a + b)) p (roll p (2 ^ i))

theorem sum_zipWith_half (a b : List K) (h : a.length = b.length) : (List.zipWith (fun a b => 1 / 2 * (a + b)) a b).sum = 1 / 2 * (a.sum + b.sum) := by
  induction a generalizing b with
  | nil => cases b with
    | nil => simp
    | cons y t => simp at h
  | cons x t ih => cases b with
    | nil => simp at h
    | cons y u =>
      simp only [List.zipWith_cons_cons, List.sum_cons]
      rw [ih u (by simpa using h)]
      ring

/-- C146. The smoothing keeps the number of samples and their sum. -/
theorem kludge_sum (l : List K) (i : Nat) : (kludge l i).length = l.length ∧ (kludge l i).sum = l.sum := by
  induction i with
  | zero => exact ⟨rfl, rfl⟩
  | succ i ih =>
    have hl : (roll (kludge l i) (2 ^ i)).length = (kludge l i).length := by unfold roll; exact List.length_rotate _ _
    have hs : (roll (kludge l i) (2 ^ i)).sum = (kludge l i).sum := by unfold roll; exact (List.rotate_perm _ _).sum_eq
    constructor
    · show (List.zipWith _ _ _).length = _
      rw [List.length_zipWith, hl, Nat.min_self, ih.1]
    · show (List.zipWith _ _ _).sum = _
      rw [sum_zipWith_half _ _ hl.symm, hs, ih.2]
      ring

/-- each sample of one smoothing step is the mean of two samples of the sequence, the step apart (wrapping at the end of all records) -/
theorem kludge_one (l : List K) (i j : Nat) (hj : j < l.length) :
    (kludge l (i + 1)).getD j 0 = 1 / 2 * ((kludge l i).getD j 0 + (kludge l i).getD ((j + (l.length - 2 ^ i % l.length)) % l.length) 0) := by
  have hl := (kludge_sum l i).1
  have hr : (roll (kludge l i) (2 ^ i)).length = l.length := by unfold roll; rw [List.length_rotate, hl]
  show (List.zipWith _ _ _).getD j 0 = _
  rw [List.getD_eq_getElem _ _ (by rw [List.length_zipWith, hr, hl]; omega), List.getElem_zipWith, List.getD_eq_getElem _ _ (by omega),
    List.getD_eq_getElem _ _ (by rw [hl]; exact Nat.mod_lt _ (by omega))]
  congr 2
  unfold roll
  rw [List.getElem_rotate]
  simp only [hl]

/-- C146, instance -/
example : kludge ([8, 0, 0, 4] : List ℚ) 1 = [6, 4, 0, 2] ∧ kludge ([8, 0, 0, 4, 2, 2] : List ℚ) 2 = [4, 3, 5 / 2, 3, 3 / 2, 2] := by decide +kernel

/-- times of fake pulses: sums of the waiting times, mass/core/fake_data.py L67 -/
def pulseTimes : K → List K → List K
  | _, [] => []
  | t, d :: ds => (t + d) :: pulseTimes (t + d) ds

/-- C146. As many times as pulses, in order. -/
theorem times_sorted (t : K) (ds : List K) (h : ∀ d ∈ ds, 0 ≤ d) : (pulseTimes t ds).length = ds.length ∧ (∀ x ∈ pulseTimes t ds, t ≤ x) ∧ (pulseTimes t ds).Pairwise (· ≤ ·) := by
  induction ds generalizing t with
  | nil => simp [pulseTimes]
  | cons d ds ih =>
    have ih := ih (t + d) (fun x hx => h x (by simp [hx]))
    have hd := h d (by simp)
    unfold pulseTimes
    refine ⟨by simp [ih.1], ?_, ?_⟩
    · intro x hx
      rcases List.mem_cons.1 hx with rfl | hx
      · linarith
      · have := ih.2.1 x hx
        linarith
    · rw [List.pairwise_cons]
      exact ⟨ih.2.1, ih.2.2⟩

/-- `n_presamples` if none is given, mass/core/fake_data.py L39-42 -/
def presamples (n : Nat) (pre : Option Nat) : ℚ :=
  match pre with
  | none => (n : ℚ) / 4
  | some p => p

/-- Disagreement (C146): the default number of presamples is a whole number only if the number of samples is a multiple of four. -/
theorem presamples_fails (n : Nat) : (∃ k : Nat, presamples n none = k) ↔ n % 4 = 0 := by
  unfold presamples
  dsimp only
  constructor
  · rintro ⟨k, hk⟩
    rw [div_eq_iff (by norm_num)] at hk
    have : n = k * 4 := by exact_mod_cast hk
    omega
  · intro h
    refine ⟨n / 4, ?_⟩
    obtain ⟨k, rfl⟩ : ∃ k, n = 4 * k := ⟨n / 4, by omega⟩
    rw [Nat.mul_div_cancel_left _ (by norm_num)]
    push_cast
    ring

/-! ### the model pulse -/
section Real
open Real

/-- time of sample i in µs, mass/core/fake_data.py L48 -/
noncomputable def dtUs (pre : ℝ) (dt : ℝ) (i : Nat) : ℝ := ((i : ℝ) - pre - 1 / 2) * dt

/-- the model before scaling, mass/core/fake_data.py L48-50 -/
noncomputable def shape (rise fall pre dt : ℝ) (i : Nat) : ℝ := if dtUs pre dt i ≤ 0 then 0 else exp (-(dtUs pre dt i) / fall) - exp (-(dtUs pre dt i) / rise)

/-- the largest sample -/
noncomputable def peak (f : Nat → ℝ) : Nat → ℝ
  | 0 => f 0
  | n + 1 => max (peak f n) (f (n + 1))

/-- the model, mass/core/fake_data.py L46-52, for n + 1 samples; `none`: division by zero (nan) -/
noncomputable def model (rise fall pre dt : ℝ) (n : Nat) (pk : Option ℝ) : Option (Nat → ℝ) :=
  match pk with
  | none => some (shape rise fall pre dt)
  | some p => if peak (shape rise fall pre dt) n = 0 then none else some (fun i => p * shape rise fall pre dt i / peak (shape rise fall pre dt) n)

theorem shape_spec {rise fall pre dt : ℝ} (hr : 0 < rise) (hf : rise < fall) (hdt : 0 < dt) (i : Nat) :
    ((i : ℝ) ≤ pre + 1 / 2 → shape rise fall pre dt i = 0) ∧ (pre + 1 / 2 < i → 0 < shape rise fall pre dt i) ∧ shape rise fall pre dt i < 1 := by
  unfold shape
  have hsub : ∀ t : ℝ, 0 < t → exp (-t / rise) < exp (-t / fall) := by
    intro t ht
    rw [exp_lt_exp, neg_div, neg_div, neg_lt_neg_iff]
    exact div_lt_div_of_pos_left ht hr hf
  refine ⟨?_, ?_, ?_⟩
  · intro h
    rw [if_pos]
    unfold dtUs
    exact mul_nonpos_of_nonpos_of_nonneg (by linarith) hdt.le
  · intro h
    have : 0 < dtUs pre dt i := by unfold dtUs; exact mul_pos (by linarith) hdt
    rw [if_neg (by linarith)]
    have := hsub _ this
    linarith
  · split
    · norm_num
    · rename_i h
      have ht : 0 < dtUs pre dt i := by linarith
      have h1 : exp (-(dtUs pre dt i) / fall) ≤ 1 := by
        rw [exp_le_one_iff]
        exact div_nonpos_of_nonpos_of_nonneg (by linarith) (by linarith)
      have := exp_pos (-(dtUs pre dt i) / rise)
      linarith

theorem peak_spec (f : Nat → ℝ) (n : Nat) : (∀ i ≤ n, f i ≤ peak f n) ∧ ∃ i ≤ n, f i = peak f n := by
  induction n with
  | zero =>
    refine ⟨fun i hi => ?_, 0, le_refl _, rfl⟩
    have : i = 0 := by omega
    subst this
    exact le_refl _
  | succ n ih =>
    unfold peak
    constructor
    · intro i hi
      by_cases h : i ≤ n
      · exact (ih.1 i h).trans (le_max_left _ _)
      · have : i = n + 1 := by omega
        subst this
        exact le_max_right _ _
    · rcases le_total (peak f n) (f (n + 1)) with h | h
      · exact ⟨n + 1, le_refl _, (max_eq_right h).symm⟩
      · obtain ⟨i, hi, he⟩ := ih.2
        exact ⟨i, by omega, by rw [he, max_eq_left h]⟩

/-- C146. With rise time below fall time, a sample time above zero and a last sample after the trigger, the scaled model pulse is zero up to half a sample after the
presamples, positive after that, and its largest sample is the peak asked for. -/
theorem model_spec {rise fall pre dt p : ℝ} (hr : 0 < rise) (hf : rise < fall) (hdt : 0 < dt) {n : Nat} (hn : pre + 1 / 2 < n) (hp : 0 < p) :
    ∃ m, model rise fall pre dt n (some p) = some m ∧ (∀ i : Nat, (i : ℝ) ≤ pre + 1 / 2 → m i = 0) ∧ (∀ i : Nat, pre + 1 / 2 < i → 0 < m i) ∧
      (∀ i ≤ n, m i ≤ p) ∧ ∃ i ≤ n, m i = p := by
  have hpk := peak_spec (shape rise fall pre dt) n
  have hpos : 0 < peak (shape rise fall pre dt) n := lt_of_lt_of_le ((shape_spec hr hf hdt n).2.1 hn) (hpk.1 n (le_refl _))
  refine ⟨_, by unfold model; dsimp only; rw [if_neg hpos.ne'], ?_, ?_, ?_, ?_⟩
  · intro i hi
    rw [(shape_spec hr hf hdt i).1 hi]
    simp
  · intro i hi
    have := (shape_spec hr hf hdt i).2.1 hi
    positivity
  · intro i hi
    rw [div_le_iff₀ hpos]
    exact mul_le_mul_of_nonneg_left (hpk.1 i hi) hp.le
  · obtain ⟨i, hi, he⟩ := hpk.2
    refine ⟨i, hi, ?_⟩
    rw [he]
    field_simp

/-- C146, instance: the default times 200 and 1200, 1024 samples of 10 µs, 256 presamples -/
example : ∃ m, model 200 1200 256 10 1023 (some 5000) = some m ∧ m 256 = 0 ∧ 0 < m 257 := by
  obtain ⟨m, h, h0, h1, -⟩ := model_spec (rise := 200) (fall := 1200) (pre := 256) (dt := 10) (p := 5000) (n := 1023) (by norm_num) (by norm_num) (by norm_num) (by norm_num) (by norm_num)
  exact ⟨m, h, h0 256 (by norm_num), h1 257 (by norm_num)⟩

/-- Disagreement (C146): with rise and fall times equal, or with no sample after the trigger, scaling to a peak divides by zero. -/
theorem peak_fails (t pre dt p : ℝ) (n : Nat) : model t t pre dt n (some p) = none ∧
    ∀ rise fall, 0 < rise → rise < fall → 0 < dt → (n : ℝ) ≤ pre + 1 / 2 → model rise fall pre dt n (some p) = none := by
  constructor
  · have h0 : ∀ i, shape t t pre dt i = 0 := by intro i; unfold shape; split <;> simp
    unfold model
    dsimp only
    obtain ⟨i, -, he⟩ := (peak_spec (shape t t pre dt) n).2
    rw [if_pos (by rw [← he, h0])]
  · intro rise fall hr hf hdt hn
    unfold model
    dsimp only
    obtain ⟨i, hi, he⟩ := (peak_spec (shape rise fall pre dt) n).2
    have : (i : ℝ) ≤ n := by exact_mod_cast hi
    rw [if_pos (by rw [← he, (shape_spec hr hf hdt i).1 (by linarith)])]

end Real
end Mass.Algo.Fake
