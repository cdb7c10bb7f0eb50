import Verif.States.Select
import Mathlib.Data.Rat.Floor
import Mathlib.Tactic.Linarith
import Mathlib.Tactic.NormNum
import Mathlib.Tactic.Positivity
/-! C139: channels made from arrays instead of OFF files (mass/off/channels.py ChannelFromNpArray L1447-1476 and ChannelGroupFromNpArrays L1539-1549; mass/off/recipe_classes.py). Times are exact. -/
namespace Mass.States.Arr
open Mass Mass.States
open Mass.Ljh (Bytes asc)

/-- an array as far as the default recipes use it: number of records, names of its fields, and the columns p_timestamp (seconds) and unixnano if it has those (channels.py L1447-1476) -/
structure Tbl where
  n : Nat
  names : List String
  times : List ℚ
  nano : List Int
  deriving DecidableEq

/-- TruesOfSameSize, recipe_classes.py L5-8 -/
def trues (len : Nat) : List Bool := List.replicate len true
/-- Subtract, recipe_classes.py L11-16 -/
def subtract (r : ℚ) (x : List ℚ) : List ℚ := x.map (fun v => v - r)
/-- np.array(x, dtype=np.int64): towards zero (used for recipe_classes.py L63) -/
def toInt (v : ℚ) : Int := if 0 ≤ v then ⌊v⌋ else ⌈v⌉
/-- ScalarMultAndTurnToInt64(1e9), recipe_classes.py L58-63: whole numbers first, then multiplied. The products are float64 but exact for times below 2^53 * 512 ns (292 years). -/
def multInt (x : List ℚ) : List Int := x.map (fun v => toInt v * 1000000000)

/-- the default recipes relTimeSec, cutNone and unixnano, channels.py L1462-1476: values for the whole array; none: there is no such recipe. An array with no records or no fields: IndexError. -/
def defaults (t : Tbl) : Except Exc (Option (List ℚ) × List Bool × Option (List Int)) :=
  if "p_timestamp" ∈ t.names then
    match t.times with
    | [] => .error .index
    | t0 :: _ => .ok (some (subtract t0 t.times), trues t.times.length, if "unixnano" ∈ t.names then none else some (multInt t.times))
  else if t.names = [] then .error .index
  else .ok (none, trues t.n, none)

/-- the values of `unixnano` which the states use (channels.py L335, L446-456): the recipe, or else the field, or an exception -/
def unixnano (t : Tbl) : Except Exc (List Int) := do
  let d ← defaults t
  match d.2.2 with
  | some l => .ok l
  | none => if "unixnano" ∈ t.names then .ok t.nano else .error .exception

/-- ChannelGroupFromNpArrays, channels.py L1539-1549: a dictionary by channel number; `first` fails without channels -/
def group {C : Type} (num : C → Nat) : List C → List (Nat × C) → List (Nat × C)
  | [], d => d
  | c :: cs, d => group num cs (if (d.find? (fun e => e.1 == num c)).isSome then d.map (fun e => if e.1 = num c then (num c, c) else e) else d ++ [(num c, c)])

/-! ### relative times and cuts -/

/-- C139. An array with times has relative times which start at 0, keep all differences and the order, and a default cut which keeps every record. -/
theorem rel_time {t : Tbl} (h1 : "p_timestamp" ∈ t.names) (h2 : t.times ≠ []) :
    ∃ r c u, defaults t = .ok (some r, c, u) ∧ r.head? = some 0 ∧ r.length = t.times.length ∧ c.length = t.times.length ∧ (∀ b ∈ c, b = true) ∧
      (∀ i j (hi : i < r.length) (hj : j < r.length) (hi' : i < t.times.length) (hj' : j < t.times.length), r[j] - r[i] = t.times[j] - t.times[i]) ∧
      (t.times.Pairwise (· ≤ ·) → ∀ x ∈ r, 0 ≤ x) := by
  match ht : t.times, h2 with
  | t0 :: l, _ =>
    refine ⟨subtract t0 (t0 :: l), trues (t0 :: l).length, if "unixnano" ∈ t.names then none else some (multInt (t0 :: l)), ?_, ?_, ?_, ?_, ?_, ?_, ?_⟩
    · unfold defaults
      rw [if_pos h1, ht]
    · simp [subtract]
    · simp [subtract]
    · simp [trues]
    · intro b hb
      exact List.eq_of_mem_replicate hb
    · intro i j hi hj hi' hj'
      simp only [subtract, List.getElem_map]
      ring
    · intro hs x hx
      obtain ⟨v, hv, rfl⟩ := List.mem_map.1 hx
      rw [List.pairwise_cons] at hs
      rcases List.mem_cons.1 hv with rfl | hv
      · simp
      · have := hs.1 v hv
        linarith

/-! ### states -/

/-- the time in nanoseconds, whole part [specification] -/
def trueNano (v : ℚ) : Int := ⌊v * 1000000000⌋

theorem toInt_mono {a b : ℚ} (h : a ≤ b) : toInt a ≤ toInt b := by
  unfold toInt
  split
  · rename_i h1
    rw [if_pos (h1.trans h)]
    exact Int.floor_mono h
  · rename_i h1
    split
    · rename_i h2
      have h3 : ⌈a⌉ ≤ 0 := Int.ceil_le.2 (by push_cast; linarith)
      have h4 : 0 ≤ ⌊b⌋ := Int.floor_nonneg.2 h2
      omega
    · exact Int.ceil_mono h

theorem multInt_sorted {x : List ℚ} (h : x.Pairwise (· ≤ ·)) : Sorted (multInt x) := by
  unfold Sorted multInt
  rw [List.pairwise_map]
  refine h.imp (fun hab => ?_)
  have := toInt_mono hab
  omega

theorem unixnano_made {t : Tbl} (h1 : "p_timestamp" ∈ t.names) (h2 : "unixnano" ∉ t.names) (h3 : t.times ≠ []) : unixnano t = .ok (multInt t.times) := by
  unfold unixnano defaults
  rw [if_pos h1]
  match ht : t.times, h3 with
  | t0 :: l, _ => rw [if_neg h2]; rfl

theorem inForce_congr {ef : EF} {excl : List Bytes} {al : Bytes → Bytes} {a b : Int} (h : ∀ x ∈ ef.times, x ≤ a ↔ x ≤ b) : inForce id ef excl al a = inForce id ef excl al b := by
  unfold inForce
  have : (ef.allLabels.zip ef.times).filter (fun e => decide (id e.2 ≤ id a)) = (ef.allLabels.zip ef.times).filter (fun e => decide (id e.2 ≤ id b)) := by
    refine List.filter_congr (fun e he => ?_)
    have := h e.2 (List.of_mem_zip he).2
    simp only [id]
    exact decide_eq_decide.2 this
  rw [this]

theorem whole_le {k : Int} {v : ℚ} (hv : 0 ≤ v) : k * 1000000000 ≤ toInt v * 1000000000 ↔ k * 1000000000 ≤ trueNano v := by
  unfold toInt trueNano
  rw [if_pos hv, Int.le_floor]
  constructor
  · intro h
    have h1 : k ≤ ⌊v⌋ := by omega
    have h2 := Int.le_floor.1 h1
    push_cast
    linarith
  · intro h
    push_cast at h
    have h1 : (k : ℚ) ≤ v := by linarith
    have := Int.le_floor.2 h1
    omega

/-- C139, partial: if every entry of the state file is at a whole second, selecting a state of a channel made from an array with times (from 1970 on, ascending) gives exactly the records whose state in force at their time is
that state and which pass the cut, in order. Missing: entries at other times, where this is false (see `states_fails`). -/
theorem array_states_partial {t : Tbl} (h1 : "p_timestamp" ∈ t.names) (h2 : "unixnano" ∉ t.names) (h3 : t.times ≠ []) (hs : t.times.Pairwise (· ≤ ·)) (h0 : ∀ v ∈ t.times, 0 ≤ v)
    {ef : EF} {excl : List Bytes} (hef : ef.Good excl) (ht : Sorted ef.times) (hw : ∀ x ∈ ef.times, ∃ k : Int, x = k * 1000000000) {al : Bytes → Bytes} {R : Type} (zero : R) (recs : List R)
    (hlen : recs.length = t.times.length) (p : R → Bool) :
    ∃ u, unixnano t = .ok u ∧ ∀ d, batch id ef al u = .ok d → ∀ k ∈ d.map Prod.fst, ∃ sl, stateSlices d [k] = .ok sl ∧
      indexPrealloc zero recs (pointwise p) sl =
        .ok ((recs.zipIdx.filter (fun e => decide (inForce id ef excl al (trueNano (t.times.getD e.2 0)) = some k) && p e.1)).map Prod.fst) := by
  refine ⟨_, unixnano_made h1 h2 h3, fun d hd k hk => ?_⟩
  obtain ⟨sl, hsl, hsel⟩ := select_state (R := R) (rd := id) (fun a b h => h) hef ht (multInt_sorted hs) hd zero recs (by simp [multInt, hlen]) p hk
  refine ⟨sl, hsl, ?_⟩
  rw [hsel]
  congr 2
  refine List.filter_congr (fun e he => ?_)
  have hi : e.2 < t.times.length := by
    have := List.snd_lt_of_mem_zipIdx he
    omega
  have e1 : (multInt t.times).getD e.2 0 = toInt (t.times[e.2]) * 1000000000 := by
    simp [multInt, List.getD_eq_getElem?_getD, List.getElem?_eq_getElem hi]
  have e2 : t.times.getD e.2 0 = t.times[e.2] := by
    simp [List.getD_eq_getElem?_getD, List.getElem?_eq_getElem hi]
  rw [e1, e2]
  have hv := h0 _ (List.getElem_mem hi)
  have hc : inForce id ef excl al (toInt t.times[e.2] * 1000000000) = inForce id ef excl al (trueNano t.times[e.2]) := by
    refine inForce_congr (fun x hx => ?_)
    obtain ⟨j, rfl⟩ := hw x hx
    exact whole_le hv
  rw [hc]

/-- Disagreement (C139): unixnano of a channel made from an array is the time cut to whole seconds, times 1e9: of two records less than a second apart it is often the same, and it is below the true time for every time
that is not a whole second. -/
theorem nano_fails {v : ℚ} (hv : 0 ≤ v) (hf : (⌊v⌋ : ℚ) ≠ v) : ((toInt v * 1000000000 : Int) : ℚ) < v * 1000000000 ∧ ∃ u : ℚ, u ≠ v ∧ toInt u = toInt v := by
  have h1 := Int.floor_le v
  have h2 : (⌊v⌋ : ℚ) < v := lt_of_le_of_ne h1 hf
  have h0 : 0 ≤ ⌊v⌋ := Int.floor_nonneg.2 hv
  constructor
  · unfold toInt
    rw [if_pos hv]
    push_cast
    linarith
  · refine ⟨⌊v⌋, hf, ?_⟩
    unfold toInt
    rw [if_pos (by exact_mod_cast h0), if_pos hv, Int.floor_intCast]

/-- Disagreement (C139): so records get the wrong state: with state B from 10.5 s on, the record at 10.9 s counts as A, and nothing is in B. -/
theorem states_fails : ∃ u, unixnano ⟨2, ["p_timestamp"], [102 / 10, 109 / 10], []⟩ = .ok u ∧
    (batch id ⟨none, 0, [asc "A", asc "B"], [0, 10500000000], [asc "A", asc "B"]⟩ id u).bind (fun d => (stateSlices d [asc "A"]).bind (indexPrealloc (0 : Nat) [1, 2] (pointwise (fun _ => true)))) = .ok [1, 2] ∧
    inForce id ⟨none, 0, [asc "A", asc "B"], [0, 10500000000], [asc "A", asc "B"]⟩ [] id (trueNano (109 / 10)) = some (asc "B") :=
  ⟨[10000000000, 10000000000], by decide +kernel⟩

/-- Disagreement (C139): an array with neither p_timestamp nor unixnano makes a channel whose default cut keeps all records, but one without times: everything which uses states fails. -/
theorem no_time_fails {t : Tbl} (h1 : "p_timestamp" ∉ t.names) (h2 : "unixnano" ∉ t.names) (h3 : t.names ≠ []) : (∃ c, defaults t = .ok (none, c, none) ∧ c = List.replicate t.n true) ∧ unixnano t = .error .exception := by
  have e : defaults t = .ok (none, trues t.n, none) := by unfold defaults; rw [if_neg h1, if_neg h3]
  refine ⟨⟨_, e, rfl⟩, ?_⟩
  unfold unixnano
  rw [e]
  show (if "unixnano" ∈ t.names then _ else _) = _
  rw [if_neg h2]

/-- C139. A field unixnano is used as it is; no records at all (with times): IndexError. -/
theorem nano_field {t : Tbl} (h2 : "unixnano" ∈ t.names) : (t.times ≠ [] ∨ "p_timestamp" ∉ t.names → unixnano t = .ok t.nano) ∧ (t.times = [] → "p_timestamp" ∈ t.names → unixnano t = .error .index) := by
  have hne : t.names ≠ [] := List.ne_nil_of_mem h2
  constructor
  · intro h
    unfold unixnano defaults
    by_cases h1 : "p_timestamp" ∈ t.names
    · have h3 : t.times ≠ [] := by
        rcases h with h | h
        · exact h
        · exact absurd h1 h
      rw [if_pos h1]
      match ht : t.times, h3 with
      | t0 :: l, _ =>
        rw [if_pos h2]
        show (if "unixnano" ∈ t.names then _ else _) = _
        rw [if_pos h2]
    · rw [if_neg h1, if_neg hne]
      show (if "unixnano" ∈ t.names then _ else _) = _
      rw [if_pos h2]
  · intro h0 h1
    unfold unixnano defaults
    rw [if_pos h1, h0]
    rfl

/-! ### the group -/

theorem group_spec {C : Type} (num : C → Nat) : ∀ (cs : List C) (d : List (Nat × C)), (cs.map num).Nodup → (∀ c ∈ cs, ∀ e ∈ d, e.1 ≠ num c) → group num cs d = d ++ cs.map (fun c => (num c, c)) := by
  intro cs
  induction cs with
  | nil => intro d _ _; simp [group]
  | cons c t ih =>
    intro d hn hd
    rw [List.map_cons, List.nodup_cons] at hn
    unfold group
    have hf : d.find? (fun e => e.1 == num c) = none := by
      rw [List.find?_eq_none]
      intro e he
      simpa using hd c List.mem_cons_self e he
    rw [hf]
    simp only [Option.isSome_none, Bool.false_eq_true, if_false]
    rw [ih _ hn.2]
    · simp
    · intro x hx e he
      rcases List.mem_append.1 he with he | he
      · exact hd x (List.mem_cons_of_mem _ hx) e he
      · rw [List.mem_singleton] at he
        subst he
        intro h
        exact hn.1 (List.mem_map.2 ⟨x, hx, h.symm⟩)

/-- C139. A group of arrays has the channels given, in that order, each under its number, if the numbers differ. -/
theorem array_group {C : Type} (num : C → Nat) (cs : List C) (h : (cs.map num).Nodup) : group num cs [] = cs.map (fun c => (num c, c)) := by
  rw [group_spec num cs [] h (by simp)]
  simp

/-- Disagreement (C139): of two channels with the same number only the later is kept, at the place of the earlier, without a message. -/
theorem same_number_fails {C : Type} (num : C → Nat) (a b : C) (h : num a = num b) : group num [a, b] [] = [(num b, b)] := by
  unfold group group group
  simp [h]

/-! ### examples -/

example : defaults ⟨3, ["p_timestamp", "energy"], [5 / 2, 3, 9 / 2], []⟩ = .ok (some [0, 1 / 2, 2], [true, true, true], some [2000000000, 3000000000, 4000000000]) := by decide +kernel
example : group id [3, 1, 2] [] = [(3, 3), (1, 1), (2, 2)] := by decide
example : unixnano ⟨0, ["p_timestamp"], [], []⟩ = .error .index := by decide +kernel

end Mass.States.Arr
