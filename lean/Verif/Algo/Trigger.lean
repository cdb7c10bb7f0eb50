import Verif.Algo.Arrivals
import Verif.Group.Model
import Verif.Ljh.Copy
import Mathlib.Algebra.Order.Field.Basic
import Mathlib.Algebra.Order.Field.Rat
import Mathlib.Tactic.FieldSimp
import Mathlib.Tactic.Ring
import Mathlib.Tactic.NormNum
/-! C105: reading external triggers and timing pulses against them (mass/core/channel_group.py L593-647, mass/off/channels.py L850-893 and
L1429-1444). Floats are elements of an ordered field. -/
namespace Mass.Algo.Trig
open Mass.Ljh (Bytes asc le leNat pyIntB)

/-! ### model: the trigger file -/

/-- `f.readline()`: the bytes up to and including the first newline, and the rest (channel_group.py L604, off/channels.py L1438) -/
def readLine : Bytes → Bytes × Bytes
  | [] => ([], [])
  | c :: t => if c = 10 then ([c], t) else (c :: (readLine t).1, (readLine t).2)

/-- what follows the last `(nrow=` in a text (used for channel_group.py L605: the leading `.*` is greedy) -/
def lastNrow : Bytes → Option Bytes
  | [] => none
  | c :: t => match lastNrow t with
    | some g => some g
    | none => if (asc "(nrow=").isPrefixOf (c :: t) then some ((c :: t).drop 6) else none

/-- channel_group.py L605 `re.match(r".*\(nrow=(.*)\)\n", header_text)`: the group matched. The line has its only newline at its end, so the
`)\n` of the pattern is the end of the line. Simplified: the line is taken to be ASCII (L604 decodes UTF-8). -/
def nrowText (line : Bytes) : Option Bytes :=
  if line.drop (line.length - 2) = [41, 10] then lastNrow (line.take (line.length - 2)) else none

/-- `np.fromfile(f, dtype="int64")`: 8 bytes per number, least significant first; an incomplete number at the end is dropped
(channel_group.py L610, off/channels.py L1439) -/
def int64s (b : Bytes) : List Int :=
  (List.range (b.length / 8)).map (fun i => (BitVec.ofNat 64 (leNat ((b.drop (8 * i)).take 8))).toInt)

/-! ### model: groups of LJH files -/

/-- a data set, as far as external triggers go: subframe_divisions and subframe_timebase (channel.py L611-613, L921-924), and the attribute
`external_trigger_subframe_count` if it has one -/
structure Ds (K : Type) where
  div : Int
  subTb : Option K
  ext : Option (List Int)
  deriving DecidableEq

/-- the external trigger files that exist: in the HDF5 file the sets `trig_times_w_offsets` and `trig_times`, if there; the bytes of the binary
file (ljh_util.py L77-81, channel_group.py L597-603) -/
structure Files where
  hdf5 : Option (Option (List Int) × Option (List Int))
  binary : Option Bytes

/-- a `TESGroup`: timebase, datasets, the position of the first good one (none: all bad), the triggers once read, subframe_divisions and
subframe_timebase once set (channel_group.py L225-232, L485-489, L593-616) -/
structure Tes (K : Type) where
  timebase : K
  ds : List (Ds K)
  good : Option Nat
  cache : Option (List Int)
  div : Option Int
  subTb : Option K
  deriving DecidableEq

variable {K : Type} [Field K]

/-- channel_group.py L613-616: the end of the property: the time base of a subframe, for the group and all its data sets. ZeroDivisionError when
there are 0 subframes. -/
def finish (g : Tes K) (ts : List Int) : Tes K × Except Exc (List Int) :=
  match g.div with
  | none => (g, .error .type)
  | some d =>
    if d = 0 then (g, .error .zeroDiv)
    else ({ g with subTb := some (g.timebase / (d : K)), ds := g.ds.map (fun x => { x with subTb := some (g.timebase / (d : K)) }) }, .ok ts)

/-- channel_group.py L593-616 `external_trigger_subframe_count` -/
def triggers (g : Tes K) (f : Files) : Tes K × Except Exc (List Int) :=
  match g.cache with
  | some ts => (g, .ok ts)
  | none =>
    match g.good.bind (fun i => g.ds[i]?) with
    | none => (g, .error .index)
    | some d0 =>
      let g := { g with div := some d0.div }
      match f.hdf5, f.binary with
      | some (some w, _), _ => finish { g with cache := some w } w
      | some (none, some t), _ => finish { g with cache := some t } t
      | some (none, none), _ => (g, .error .key)
      | none, some b =>
        let line := (readLine b).1
        let ts := int64s (readLine b).2
        match nrowText line with
        | none => finish { g with cache := some ts } ts
        | some x =>
          match pyIntB x with
          | .error e => (g, .error e)
          | .ok n => finish { g with div := some n, ds := g.ds.map (fun y => { y with div := n }), cache := some ts } ts
      | none, none => (g, .error .os)

/-- channel_group.py L618-623 `external_trigger_subframe_as_seconds` -/
def seconds (g : Tes K) (f : Files) : Tes K × Except Exc (List K) :=
  match triggers g f with
  | (g', .error e) => (g', .error e)
  | (g', .ok ts) =>
    match g'.div with
    | none => (g', .error .attribute)
    | some d => if d = 0 then (g', .error .zeroDiv) else (g', .ok (ts.map (fun t : Int => (t : K) / (d : K) * g'.timebase)))

/-- channel.py L595-640 `MicrocalDataSet.__init__`: no line of the class (or of any other) gives a data set an
`external_trigger_subframe_count` -/
def newDs (div : Int) : Ds K := ⟨div, none, none⟩

/-- channel_group.py L625-647 `calc_external_trigger_timing`, up to the loop over channels (`loop`, L629-647): L626-627 ask the first good data
set, not the group, for the triggers. -/
def calcTiming {R : Type} (g : Tes K) (loop : List Int → R) : Except Exc R :=
  match g.good.bind (fun i => g.ds[i]?) with
  | none => .error .index
  | some d0 => match d0.ext with
    | none => .error .attribute
    | some ts => .ok (loop ts)

/-! ### model: OFF files -/

/-- an OFF channel: the ReadoutInfo of its header, its frame period, the frame counts of its records, and the attributes that
`_calcExternalTriggerTiming` sets (off/channels.py L876-893) -/
structure Chan (K : Type) where
  info : List (String × Int)
  period : K
  frames : List Int
  subAfter : Option (List Int) := none
  secAfter : Option (List K) := none
  subUntil : Option (List Int) := none
  secUntil : Option (List K) := none
  subNear : Option (List Int) := none
  secNear : Option (List K) := none
  deriving DecidableEq

/-- off/channels.py L862-865 `subframeDivisions`; the key is spelt like this in the code -/
def divisions (c : Chan K) : Except Exc Int :=
  match c.info.lookup "NumberOfRows" with
  | none => .error .key
  | some n => .ok ((c.info.lookup "SubframeDivsions").getD n)

/-- off/channels.py L852-855 `rowPeriodSeconds` -/
def rowPeriod (c : Chan K) : Except Exc K :=
  match c.info.lookup "NumberOfRows" with
  | none => .error .key
  | some n => if n = 0 then .error .zeroDiv else .ok (c.period / (n : K))

/-- off/channels.py L872-874 `subframecount` -/
def subframes (c : Chan K) : Except Exc (List Int) := (divisions c).map (fun d => c.frames.map (· * d))

/-- the two arrays of `nearest_arrivals`; one array (no pulses) cannot be unpacked into two names: ValueError
(off/channels.py L878-879) -/
def unpack : Arrivals → Except Exc (List (Int × Int))
  | .oneArray => .error .value
  | .pair l => .ok l

/-- off/channels.py L877-893 `_calcExternalTriggerTiming` of one channel -/
def calcOff (ts : List Int) (after til near : Bool) (c : Chan K) : Except Exc (Chan K) := do
  let ps ← subframes c
  let ds ← unpack (nearestArrivals ps ts)
  let r ← rowPeriod c
  let a := ds.map Prod.fst
  let u := ds.map Prod.snd
  let m := ds.map (fun d => min d.1 d.2)
  let secs : List Int → Option (List K) := fun l => some (l.map (fun d : Int => (d : K) * r))
  let c := if after then { c with subAfter := some a, secAfter := secs a } else c
  let c := if til then { c with subUntil := some u, secUntil := secs u } else c
  let c := if near then { c with subNear := some m, secNear := secs m } else c
  return c

/-- off/util.py L243-259 and off/channels.py L1442-1444: the same for every channel of the group in turn; with `_rethrow=True` the first error
ends the loop. Only the channels reached are changed. -/
def calcGroup (ts : List Int) (after til near : Bool) (cs : List (Group.Chan (Chan K))) :
    List (Group.Chan (Chan K)) × Except Group.Err (List (Nat × Unit)) :=
  Group.offLoop false true "_calcExternalTriggerTiming" (fun _ s => match calcOff ts after til near s with
    | .ok s' => (s', .ok ())
    | .error _ => (s, .error (.exc "error"))) cs

/-- off/channels.py L1434-1440 `_externalTriggerSubframes`: the comment line is discarded -/
def offTriggers (b : Bytes) : List Int := int64s (readLine b).2

/-- core/ljh2off.py L45-50: the ReadoutInfo that `ljh2off` writes for an LJH file with these rows and columns. The number of subframe divisions of
the LJH file is not written. -/
def ljh2offInfo (col row ncol nrow : Int) : List (String × Int) :=
  [("ColumnsNum", col), ("RowNum", row), ("NumberOfColumns", ncol), ("NumberOfRows", nrow)]

/-! ### specification -/

/-- a trigger file: a comment line, 8 bytes for every trigger, and `tail` bytes of one that is not complete [specification] -/
def fileOf (comment : Bytes) (vs : List (BitVec 64)) (tail : Bytes) : Bytes :=
  comment ++ 10 :: (vs.flatMap (fun v => le 8 v.toNat) ++ tail)

/-- `s` is the time in seconds from the last trigger at or before frame `p`, for triggers `ts` counted in `d` subframes per frame of `T` seconds
[specification] -/
def SecondsSince (T : K) (d : Int) (ts : List Int) (p : Int) (s : K) : Prop :=
  (∃ t ∈ ts, t ≤ p * d ∧ (∀ u ∈ ts, u ≤ p * d → u ≤ t) ∧ s = (p : K) * T - (t : K) * (T / (d : K))) ∨
    ((∀ t ∈ ts, p * d < t) ∧ s = (maxValue : K) * (T / (d : K)))

/-- the same for the first trigger after frame `p` [specification] -/
def SecondsUntil (T : K) (d : Int) (ts : List Int) (p : Int) (s : K) : Prop :=
  (∃ t ∈ ts, p * d < t ∧ (∀ u ∈ ts, p * d < u → t ≤ u) ∧ s = (t : K) * (T / (d : K)) - (p : K) * T) ∨
    ((∀ t ∈ ts, t ≤ p * d) ∧ s = (maxValue : K) * (T / (d : K)))

/-! ### proofs -/

theorem readLine_line (c : Bytes) (hc : (10 : UInt8) ∉ c) (r : Bytes) : readLine (c ++ 10 :: r) = (c ++ [10], r) := by
  induction c with
  | nil => simp [readLine]
  | cons a t ih =>
    have h1 : a ≠ 10 := fun h => hc (by simp [h])
    have h2 : (10 : UInt8) ∉ t := fun h => hc (List.mem_cons_of_mem _ h)
    simp [readLine, h1, ih h2]

theorem flat8_length (vs : List (BitVec 64)) : (vs.flatMap (fun v => le 8 v.toNat)).length = 8 * vs.length := by
  induction vs with
  | nil => rfl
  | cons v t ih => simp [List.flatMap_cons, Ljh.le_length, ih]; omega

theorem flat8_drop (vs : List (BitVec 64)) (tl : Bytes) (i : Nat) (hi : i < vs.length) :
    ((vs.flatMap (fun v => le 8 v.toNat) ++ tl).drop (8 * i)).take 8 = le 8 (vs[i]).toNat := by
  induction vs generalizing i with
  | nil => simp at hi
  | cons v t ih =>
    cases i with
    | zero => simp [List.flatMap_cons, List.append_assoc, Ljh.le_length]
    | succ i =>
      have h8 : 8 * (i + 1) = (le 8 v.toNat).length + 8 * i := by rw [Ljh.le_length]; omega
      rw [List.flatMap_cons, List.append_assoc, h8, List.drop_append, List.drop_eq_nil_of_le (by omega), List.nil_append,
        Nat.add_sub_cancel_left, ih i (by simpa using hi)]
      simp

theorem int64s_flat (vs : List (BitVec 64)) (tl : Bytes) (ht : tl.length < 8) :
    int64s (vs.flatMap (fun v => le 8 v.toNat) ++ tl) = vs.map BitVec.toInt := by
  have hl : (vs.flatMap (fun v => le 8 v.toNat) ++ tl).length / 8 = vs.length := by
    rw [List.length_append, flat8_length]; omega
  unfold int64s
  rw [hl]
  refine List.ext_getElem (by simp) ?_
  intro i h1 h2
  have hi : i < vs.length := by simpa using h2
  simp only [List.getElem_map, List.getElem_range]
  rw [flat8_drop vs tl i hi, Ljh.leNat_le]
  congr 1
  apply BitVec.eq_of_toNat_eq
  rw [BitVec.toNat_ofNat]
  have := (vs[i]).isLt
  omega

/-- C105. Reading a trigger file returns exactly the triggers written to it, whatever the comment line; a trigger that is not completely written is
left out. -/
theorem triggers_roundtrip (comment : Bytes) (hc : (10 : UInt8) ∉ comment) (vs : List (BitVec 64)) (tl : Bytes) (ht : tl.length < 8) :
    offTriggers (fileOf comment vs tl) = vs.map BitVec.toInt := by
  unfold offTriggers fileOf
  rw [readLine_line _ hc]
  exact int64s_flat vs tl ht

/-- C105, instance: two triggers (one of them negative) and three bytes of a third -/
example : offTriggers (fileOf (asc "# external trigger first rowcounts") [1000#64, -1#64] [1, 2, 3]) = [1000, -1] := by decide +kernel

theorem lastNrow_none {g : Bytes} (h : (40 : UInt8) ∉ g) : lastNrow g = none := by
  induction g with
  | nil => rfl
  | cons a t ih =>
    have h1 : a ≠ 40 := fun e => h (by simp [e])
    have h2 : (40 : UInt8) ∉ t := fun e => h (List.mem_cons_of_mem _ e)
    have hp : (asc "(nrow=").isPrefixOf (a :: t) = false := by
      have : asc "(nrow=" = 40 :: asc "nrow=" := by decide +kernel
      rw [this]
      simp [List.isPrefixOf, Ne.symm h1]
    simp only [lastNrow, ih h2, hp]
    simp

theorem lastNrow_append (x : Bytes) {y g : Bytes} (h : lastNrow y = some g) : lastNrow (x ++ y) = some g := by
  induction x with
  | nil => exact h
  | cons a t ih => simp only [List.cons_append, lastNrow, ih]

theorem lastNrow_here {g : Bytes} (h : (40 : UInt8) ∉ g) : lastNrow (asc "(nrow=" ++ g) = some g := by
  have h6 : asc "(nrow=" = [40, 110, 114, 111, 119, 61] := by decide +kernel
  have hg := lastNrow_none h
  rw [h6]
  have e1 : lastNrow (61 :: g) = none := lastNrow_none (by simp [h])
  have e5 : lastNrow ([110, 114, 111, 119, 61] ++ g) = none := lastNrow_none (by simp [h])
  show lastNrow (40 :: ([110, 114, 111, 119, 61] ++ g)) = some g
  simp only [lastNrow, e5, h6]
  simp [List.isPrefixOf]

theorem nrowText_line (x : Bytes) {g : Bytes} (h : (40 : UInt8) ∉ g) :
    nrowText (x ++ asc "(nrow=" ++ g ++ [41] ++ [10]) = some g := by
  have hl : (x ++ asc "(nrow=" ++ g ++ [41] ++ [10]).length - 2 = (x ++ asc "(nrow=" ++ g).length := by
    simp only [List.length_append, List.length_cons, List.length_nil]; omega
  unfold nrowText
  rw [hl]
  have e : x ++ asc "(nrow=" ++ g ++ [41] ++ [10] = (x ++ asc "(nrow=" ++ g) ++ [41, 10] := by simp
  rw [e, List.drop_left, List.take_left, if_pos rfl, List.append_assoc]
  exact lastNrow_append x (lastNrow_here h)

theorem decInt_chars (n : Nat) : (40 : UInt8) ∉ Ljh.decInt (n : Int) ∧ (10 : UInt8) ∉ Ljh.decInt (n : Int) := by
  constructor <;> intro h <;> have := Ljh.decInt_digit (Int.natCast_nonneg n) _ h <;> revert this <;> decide

theorem finish_ok {g : Tes K} {d : Int} (hd : g.div = some d) (h0 : d ≠ 0) (ts : List Int) :
    finish g ts = ({ g with
      subTb := some (g.timebase / (d : K))
      ds := g.ds.map (fun x => { x with subTb := some (g.timebase / (d : K)) }) }, .ok ts) := by
  unfold finish; rw [hd]; simp only [if_neg h0]

/-- C105. With a binary trigger file whose comment ends in `(nrow=n)`, n > 0, a group not asked before returns the triggers written to the file;
group and data sets then use `n` subframes per frame, each of `timebase / n` seconds, and the times in seconds are the counts times that. -/
theorem binary_triggers (g : Tes K) (hg : g.cache = none) {i : Nat} (hi : g.good = some i) (hlt : i < g.ds.length)
    (x : Bytes) (hx : (10 : UInt8) ∉ x) {n : Nat} (hn : 0 < n) (vs : List (BitVec 64)) (tl : Bytes) (ht : tl.length < 8) :
    let f : Files := ⟨none, some (fileOf (x ++ asc "(nrow=" ++ Ljh.decInt n ++ [41]) vs tl)⟩
    (triggers g f).2 = .ok (vs.map BitVec.toInt) ∧ (triggers g f).1.div = some (n : Int) ∧
      (∀ d ∈ (triggers g f).1.ds, d.div = n ∧ d.subTb = some (g.timebase / (n : K))) ∧
      (triggers g f).1.subTb = some (g.timebase / (n : K)) ∧
      (seconds g f).2 = .ok (vs.map (fun v => (v.toInt : K) / (n : K) * g.timebase)) := by
  intro f
  have hc : (10 : UInt8) ∉ x ++ asc "(nrow=" ++ Ljh.decInt n ++ [41] := by
    have h6 : asc "(nrow=" = [40, 110, 114, 111, 119, 61] := by decide +kernel
    have := (decInt_chars n).2
    rw [h6]
    simp [hx, this]
  have hl : readLine (fileOf (x ++ asc "(nrow=" ++ Ljh.decInt n ++ [41]) vs tl) =
      (x ++ asc "(nrow=" ++ Ljh.decInt n ++ [41] ++ [10], vs.flatMap (fun v => le 8 v.toNat) ++ tl) := readLine_line _ hc _
  have hn0 : (n : Int) ≠ 0 := by omega
  have hds : g.good.bind (fun i => g.ds[i]?) = some (g.ds[i]) := by
    rw [hi]; simp [List.getElem?_eq_getElem hlt]
  have key : triggers g f = finish { g with
      div := some (n : Int)
      ds := g.ds.map (fun y => { y with div := (n : Int) })
      cache := some (vs.map BitVec.toInt) } (vs.map BitVec.toInt) := by
    unfold triggers
    rw [hg]
    simp only [hds]
    simp only [f, hl, nrowText_line x (decInt_chars n).1, Ljh.pyIntB_decInt (Int.natCast_nonneg n), int64s_flat vs tl ht]
  rw [finish_ok (d := (n : Int)) rfl hn0] at key
  refine ⟨by rw [key], by rw [key], ?_, by rw [key]; simp, ?_⟩
  · rw [key]
    intro d hd
    obtain ⟨y, hy, rfl⟩ := List.mem_map.1 hd
    obtain ⟨z, hz, rfl⟩ := List.mem_map.1 hy
    simp
  · unfold seconds
    rw [key]
    simp only [if_neg hn0]
    simp

/-- C105. Otherwise, and with an HDF5 file, the subframes per frame are those of the first good data set. The HDF5 file has precedence, and in it
the triggers with offsets. -/
theorem hdf5_triggers (g : Tes K) (hg : g.cache = none) {i : Nat} (hi : g.good = some i) (hlt : i < g.ds.length) (hd : g.ds[i].div ≠ 0)
    (w t : Option (List Int)) (b : Option Bytes) {ts : List Int} (hw : (w.or t) = some ts) :
    (triggers g ⟨some (w, t), b⟩).2 = .ok ts ∧ (triggers g ⟨some (w, t), b⟩).1.div = some g.ds[i].div ∧
      (seconds g ⟨some (w, t), b⟩).2 = .ok (ts.map (fun v : Int => (v : K) / (g.ds[i].div : K) * g.timebase)) := by
  have hds : g.good.bind (fun i => g.ds[i]?) = some (g.ds[i]) := by
    rw [hi]; simp [List.getElem?_eq_getElem hlt]
  have key : triggers g ⟨some (w, t), b⟩ = finish { g with div := some g.ds[i].div, cache := some ts } ts := by
    unfold triggers
    rw [hg]
    simp only [hds]
    cases w with
    | some l => simp only [Option.some_or, Option.some.injEq] at hw; subst hw; rfl
    | none => simp only [Option.none_or] at hw; subst hw; rfl
  rw [finish_ok (d := g.ds[i].div) rfl hd] at key
  refine ⟨by rw [key], by rw [key], ?_⟩
  unfold seconds
  rw [key]
  simp only [if_neg hd]

/-- C105. Once read the triggers stay the same, whatever becomes of the files. -/
theorem triggers_again (g : Tes K) (f f' : Files) {ts : List Int} (h : (triggers g f).2 = .ok ts) :
    triggers (triggers g f).1 f' = ((triggers g f).1, .ok ts) := by
  have fin : ∀ (g0 : Tes K) (ts' : List Int), g0.cache = some ts' → (finish g0 ts').2 = .ok ts →
      (finish g0 ts').1.cache = some ts := by
    intro g0 ts' hc hf
    unfold finish at hf ⊢
    cases hd : g0.div with
    | none => rw [hd] at hf; simp at hf
    | some d =>
      rw [hd] at hf
      by_cases h0 : d = 0
      · simp [h0] at hf
      · simp only [if_neg h0] at hf ⊢
        simp only [Except.ok.injEq] at hf
        simp [hc, hf]
  have hcache : (triggers g f).1.cache = some ts := by
    unfold triggers at h ⊢
    cases hc : g.cache with
    | some l => rw [hc] at h; simp only [Except.ok.injEq] at h; simp [hc, h]
    | none =>
      rw [hc] at h
      cases hds : g.good.bind (fun i => g.ds[i]?) with
      | none => simp [hds] at h
      | some d0 =>
        simp only [hds] at h ⊢
        obtain ⟨hdf, bin⟩ := f
        match hdf, bin with
        | some (some w, _), _ => exact fin _ _ rfl h
        | some (none, some t), _ => exact fin _ _ rfl h
        | some (none, none), _ => simp at h
        | none, none => simp at h
        | none, some b =>
          simp only at h ⊢
          cases hx : nrowText (readLine b).1 with
          | none => rw [hx] at h; exact fin _ _ rfl h
          | some x =>
            rw [hx] at h
            cases hn : pyIntB x with
            | error e => simp [hn] at h
            | ok n => simp only [hn] at h ⊢; exact fin _ _ rfl h
  rw [triggers.eq_def (triggers g f).1, hcache]

/-- C105, instance: 64 subframes per frame of 1/1000 s, although the data files said 1 -/
example : seconds (K := ℚ) ⟨1 / 1000, [newDs 1, newDs 1], some 0, none, none, none⟩
      ⟨none, some (fileOf (asc "# external trigger first rowcounts (nrow=64)") [64#64, 32#64] [])⟩ =
    (⟨1 / 1000, [⟨64, some (1 / 64000), none⟩, ⟨64, some (1 / 64000), none⟩], some 0, some [64, 32], some 64, some (1 / 64000)⟩,
      .ok [1 / 1000, 1 / 2000]) := by decide +kernel

/-- Disagreement (C105): `calc_external_trigger_timing` asks a data set for the triggers, and only the group has them. Whatever the data sets, the
files and earlier calls, it raises AttributeError and no delays are computed. -/
theorem calc_timing_fails {R : Type} (g : Tes K) (hnew : ∀ d ∈ g.ds, ∃ n, d = newDs n) (f : Files) (loop : List Int → R) {i : Nat}
    (hi : g.good = some i) (hlt : i < g.ds.length) :
    calcTiming g loop = .error .attribute ∧ calcTiming (triggers g f).1 loop = .error .attribute := by
  have gen : ∀ g' : Tes K, g'.good = some i → (∀ d ∈ g'.ds, d.ext = none) → i < g'.ds.length → calcTiming g' loop = .error .attribute := by
    intro g' hi' hn' hl'
    have hds : g'.good.bind (fun i => g'.ds[i]?) = some (g'.ds[i]) := by
      rw [hi']; simp [List.getElem?_eq_getElem hl']
    unfold calcTiming
    simp only [hds]
    rw [hn' _ (List.getElem_mem hl')]
  have fin : ∀ (g' : Tes K) (ts : List Int), g'.good = some i → (∀ d ∈ g'.ds, d.ext = none) → i < g'.ds.length →
      calcTiming (finish g' ts).1 loop = .error .attribute := by
    intro g' ts h1 h2 h3
    unfold finish
    cases hd : g'.div with
    | none => exact gen _ h1 h2 h3
    | some d =>
      by_cases h0 : d = 0
      · simp only [if_pos h0]; exact gen _ h1 h2 h3
      · simp only [if_neg h0]
        refine gen _ h1 ?_ (by simpa using h3)
        intro x hx
        obtain ⟨y, hy, rfl⟩ := List.mem_map.1 hx
        exact h2 y hy
  have hext : ∀ d ∈ g.ds, d.ext = none := fun d hd => by obtain ⟨n, rfl⟩ := hnew d hd; rfl
  refine ⟨gen g hi hext hlt, ?_⟩
  unfold triggers
  cases hc : g.cache with
  | some l => exact gen g hi hext hlt
  | none =>
    cases hds : g.good.bind (fun i => g.ds[i]?) with
    | none => exact gen g hi hext hlt
    | some d0 =>
      simp only
      obtain ⟨hdf, bin⟩ := f
      match hdf, bin with
      | some (some w, _), _ => exact fin _ _ hi hext hlt
      | some (none, some t), _ => exact fin _ _ hi hext hlt
      | some (none, none), _ => exact gen _ hi hext hlt
      | none, none => exact gen _ hi hext hlt
      | none, some b =>
        simp only
        cases hx : nrowText (readLine b).1 with
        | none => exact fin _ _ hi hext hlt
        | some x =>
          simp only
          cases hn : pyIntB x with
          | error e => exact gen _ hi hext hlt
          | ok n =>
            simp only
            refine fin _ _ hi ?_ (by simpa using hlt)
            intro y hy
            obtain ⟨z, hz, rfl⟩ := List.mem_map.1 hy
            exact hext z hz

/-! ### OFF files -/

theorem calcOff_eq {c : Chan K} {n : Int} (hn : c.info.lookup "NumberOfRows" = some n) (hs : c.info.lookup "SubframeDivsions" = none)
    (h0 : n ≠ 0) (ts : List Int) (after til near : Bool) {ds : List (Int × Int)}
    (hds : nearestArrivals (c.frames.map (· * n)) ts = .pair ds) :
    ∃ c', calcOff ts after til near c = .ok c' ∧ c'.info = c.info ∧ c'.period = c.period ∧ c'.frames = c.frames ∧
      c'.subAfter = (if after then some (ds.map Prod.fst) else c.subAfter) ∧
      c'.secAfter = (if after then some (ds.map (fun d => (d.1 : K) * (c.period / (n : K)))) else c.secAfter) ∧
      c'.subUntil = (if til then some (ds.map Prod.snd) else c.subUntil) ∧
      c'.secUntil = (if til then some (ds.map (fun d => (d.2 : K) * (c.period / (n : K)))) else c.secUntil) ∧
      c'.subNear = (if near then some (ds.map (fun d => min d.1 d.2)) else c.subNear) ∧
      c'.secNear = (if near then some (ds.map (fun d => ((min d.1 d.2 : Int) : K) * (c.period / (n : K)))) else c.secNear) := by
  have h1 : subframes c = .ok (c.frames.map (· * n)) := by
    unfold subframes divisions; rw [hn, hs]; rfl
  have h2 : rowPeriod c = .ok (c.period / (n : K)) := by
    unfold rowPeriod; rw [hn]; simp only [if_neg h0]
  have h3 : unpack (nearestArrivals (c.frames.map (· * n)) ts) = .ok ds := by rw [hds]; rfl
  unfold calcOff
  rw [h1, h2]
  simp only [bind, Except.bind, h3, pure, Except.pure]
  refine ⟨_, rfl, ?_⟩
  cases after <;> cases til <;> cases near <;> simp [Function.comp_def]

section ordered
variable {K : Type} [Field K] [LinearOrder K] [IsStrictOrderedRing K]

theorem scaled_increasing {l : List Int} (h : Increasing l) {n : Int} (hn : 0 < n) : Increasing (l.map (· * n)) := by
  unfold Increasing at h ⊢
  rw [List.pairwise_map]
  exact h.imp (fun hab => Int.mul_le_mul_of_nonneg_right hab (le_of_lt hn))

/-- C105. An OFF channel that has records, in a file whose triggers are counted in as many subframes per frame as the header has rows, and with any
number of triggers except one: for every record, in order, the seconds since the last trigger at or before its frame and until the first
trigger after it are the true differences of time, and the nearest is the lesser of the two; delays not asked for stay as they were.
`_partial`: other numbers of subframes, and single triggers, see the disagreements. -/
theorem off_delays_partial {c : Chan K} {n : Int} (hn : c.info.lookup "NumberOfRows" = some n)
    (hs : c.info.lookup "SubframeDivsions" = none) (h0 : 0 < n) {ts : List Int} (h1 : ts.length ≠ 1) (hts : Increasing ts)
    (hne : c.frames ≠ []) (hp : Increasing c.frames) (after til near : Bool) :
    ∃ c', calcOff ts after til near c = .ok c' ∧
      (after = false → c'.secAfter = c.secAfter ∧ c'.subAfter = c.subAfter) ∧
      (til = false → c'.secUntil = c.secUntil ∧ c'.subUntil = c.subUntil) ∧
      (near = false → c'.secNear = c.secNear ∧ c'.subNear = c.subNear) ∧
      (after = true → ∃ l, c'.secAfter = some l ∧ List.Forall₂ (SecondsSince c.period n ts) c.frames l) ∧
      (til = true → ∃ l, c'.secUntil = some l ∧ List.Forall₂ (SecondsUntil c.period n ts) c.frames l) ∧
      (near = true → ∃ l, c'.subNear = some l ∧
        List.Forall₂ (fun p d => ∃ a u, Since ts (p * n) a ∧ Until ts (p * n) u ∧ d = min a u) c.frames l ∧
        c'.secNear = some (l.map (fun d : Int => (d : K) * (c.period / (n : K))))) := by
  obtain ⟨ds, hds, hr⟩ := nearest_arrivals_partial (ps := c.frames.map (· * n)) (by simpa using hne) h1 hts (scaled_increasing hp h0)
  obtain ⟨c', hc', -, -, -, a1, a2, u1, u2, m1, m2⟩ := calcOff_eq hn hs (by omega) ts after til near hds
  have hK : (n : K) ≠ 0 := by exact_mod_cast (show n ≠ 0 by omega)
  unfold Right at hr
  rw [List.forall₂_map_left_iff] at hr
  refine ⟨c', hc', ?_, ?_, ?_, ?_, ?_, ?_⟩
  · rintro rfl; exact ⟨a2, a1⟩
  · rintro rfl; exact ⟨u2, u1⟩
  · rintro rfl; exact ⟨m2, m1⟩
  · rintro rfl
    refine ⟨_, a2, ?_⟩
    rw [List.forall₂_map_right_iff]
    refine hr.imp ?_
    rintro p d ⟨hS, -⟩
    rcases hS with ⟨hall, hd⟩ | ⟨t, ht, hle, hmax, hd⟩
    · exact .inr ⟨hall, by rw [hd]⟩
    · refine .inl ⟨t, ht, hle, hmax, ?_⟩
      rw [hd]; push_cast; field_simp
  · rintro rfl
    refine ⟨_, u2, ?_⟩
    rw [List.forall₂_map_right_iff]
    refine hr.imp ?_
    rintro p d ⟨-, hU⟩
    rcases hU with ⟨hall, hd⟩ | ⟨t, ht, hlt, hmin, hd⟩
    · exact .inr ⟨hall, by rw [hd]⟩
    · refine .inl ⟨t, ht, hlt, hmin, ?_⟩
      rw [hd]; push_cast; field_simp
  · rintro rfl
    refine ⟨_, m1, ?_, ?_⟩
    · rw [List.forall₂_map_right_iff]
      exact hr.imp (fun p d h => ⟨d.1, d.2, h.1, h.2, rfl⟩)
    · rw [m2]; simp [Function.comp_def]

/-- C105, instance: 8 rows, frames of 1/1000 s; triggers 4 subframes before frame 10 and 2 after frame 12 -/
example : (calcOff (K := ℚ) [76, 98] true true true ⟨ljh2offInfo 0 3 1 8, 1 / 1000, [5, 10, 12], none, none, none, none, none, none⟩).map
      (fun c => (c.secUntil, c.subAfter, c.secNear)) =
    .ok (some [36 / 8000, 18 / 8000, 2 / 8000], some [maxValue, 4, 20], some [36 / 8000, 4 / 8000, 2 / 8000]) := by decide +kernel

/-- C105. In a group whose good channels all can be timed, every good channel gets its own delays, and bad channels are left alone. -/
theorem off_group (ts : List Int) (after til near : Bool) (cs : List (Group.Chan (Chan K)))
    (h : ∀ c ∈ cs, c.bad = none → ∃ s, calcOff ts after til near c.st = .ok s) :
    List.Forall₂ (fun c c' => c'.num = c.num ∧ c'.bad = c.bad ∧ (c.bad.isSome → c'.st = c.st) ∧
        (c.bad = none → calcOff ts after til near c.st = .ok c'.st)) cs (calcGroup ts after til near cs).1 ∧
      (calcGroup ts after til near cs).2 = .ok ((cs.filter (fun c => c.bad.isNone)).map (fun c => (c.num, ()))) := by
  induction cs with
  | nil => exact ⟨.nil, rfl⟩
  | cons c t ih =>
    obtain ⟨ih1, ih2⟩ := ih (fun x hx => h x (List.mem_cons_of_mem _ hx))
    unfold calcGroup at ih1 ih2 ⊢
    cases hb : c.bad with
    | some m =>
      simp only [Group.offLoop, hb]
      refine ⟨.cons ⟨rfl, rfl, fun _ => rfl, fun e => absurd (hb.symm.trans e) (by simp)⟩ ih1, ?_⟩
      rw [List.filter_cons_of_neg (by simp [hb])]
      exact ih2
    | none =>
      obtain ⟨s, hs⟩ := h c List.mem_cons_self hb
      simp only [Group.offLoop, hb, hs]
      refine ⟨.cons ⟨rfl, hb.symm ▸ rfl, fun e => by simp [hb] at e, fun _ => hs⟩ ih1, ?_⟩
      rw [List.filter_cons_of_pos (by simp [hb])]
      simp only [Option.isSome_none, Bool.false_eq_true, and_false, if_false]
      rw [ih2]
      rfl

end ordered

/-- Disagreement (C105): an LJH file of an Abaco source counts 64 subframes per frame; the OFF file made from it by `ljh2off` records only the number
of rows (here 1), which is then taken for the number of subframes. A trigger half a frame before the record in frame 10 is not found: the
record counts as before all triggers. -/
theorem off_divisions_fails :
    (calcOff (K := ℚ) [608, 1280] true false false ⟨ljh2offInfo 0 0 1 1, 1 / 1000, [10], none, none, none, none, none, none⟩).map
        (fun c => (c.subAfter, c.secAfter)) = .ok (some [maxValue], some [(maxValue : ℚ) / 1000]) ∧
      SecondsSince (1 / 1000 : ℚ) 64 [608, 1280] 10 (1 / 2000) := by
  refine ⟨by decide +kernel, .inl ⟨608, by decide, by decide, by decide, by norm_num⟩⟩

/-- Disagreement (C105): a number of subframes in the header of an OFF file is looked up under a misspelt name: `SubframeDivisions` is ignored. Under
the misspelt name it is used for the counts, but the seconds still follow the number of rows: here 32 subframes of half a frame are
called 32 frames. -/
theorem off_key_fails :
    divisions (K := ℚ) ⟨[("NumberOfRows", 1), ("SubframeDivisions", 64)], 1 / 1000, [10], none, none, none, none, none, none⟩ = .ok 1 ∧
      (calcOff (K := ℚ) [608, 1280] true false false
          ⟨[("NumberOfRows", 1), ("SubframeDivsions", 64)], 1 / 1000, [10], none, none, none, none, none, none⟩).map
        (fun c => (c.subAfter, c.secAfter)) = .ok (some [32], some [32 / 1000]) ∧
      SecondsSince (1 / 1000 : ℚ) 64 [608, 1280] 10 (1 / 2000) := by
  refine ⟨by decide +kernel, by decide +kernel, .inl ⟨608, by decide, by decide, by decide, by norm_num⟩⟩

/-- Disagreement (C105): a channel without records stops the timing of the whole group: the call raises, and the channels after it get no
delays. -/
theorem off_empty_channel_fails :
    let e : Chan ℚ := ⟨ljh2offInfo 0 0 1 8, 1 / 1000, [], none, none, none, none, none, none⟩
    let c : Chan ℚ := ⟨ljh2offInfo 0 1 1 8, 1 / 1000, [10], none, none, none, none, none, none⟩
    calcGroup [76, 98] true false false [⟨1, e, none⟩, ⟨3, c, none⟩] =
        ([⟨1, e, some "error during _calcExternalTriggerTiming"⟩, ⟨3, c, none⟩], .error (.exc "error")) ∧
      (calcOff [76, 98] true false false c).map (fun c => c.subAfter) = .ok (some [4]) := by
  refine ⟨by decide +kernel, by decide +kernel⟩

end Mass.Algo.Trig
