import Verif.Py
import Mathlib.Data.Rat.Defs
import Mathlib.Data.Rat.Floor
import Mathlib.Data.List.GetD
import Mathlib.Tactic.Linarith
import Mathlib.Tactic.Ring
import Mathlib.Tactic.FieldSimp
import Mathlib.Tactic.Positivity
import Mathlib.Tactic.NormNum
import Mathlib.Algebra.Order.Field.Rat
import Mathlib.Algebra.Order.Floor.Ring
import Mathlib.Algebra.BigOperators.Group.List.Basic
/-! What the plots of channels and groups show: mass/core/channel.py L1953-2040, L1474-1562, mass/core/channel_group.py L697-850, L1091-1156, L1212-1357,
mass/core/utilities.py L129-198: C148. Exact arithmetic; the drawing itself (matplotlib) is not modelled, only what is handed to it. -/
namespace Mass.Group.Plots
open Mass

variable {K : Type} [Field K] [LinearOrder K] [IsStrictOrderedRing K]

/-! #### `plot_traces` -/

/-- one drawn curve: record number, values, whether marked as cut, number among the drawn ones (its colour and place of its text) [specification] -/
structure Curve (K : Type) where
  pn : Nat
  data : List K
  marked : Bool
  slot : Nat
deriving DecidableEq

/-- The loop of `plot_traces`, mass/core/channel.py L2002-2035 over the wanted records with their `cuts.good()`; `slot` is `pulses_plotted + 1`; `shape` what is
done to a record before drawing (L2009-2027). The text beside the curves is left out. -/
def traceLoop (status : Option String) (records : List (List K)) (shape : Nat → List K → List K) : Nat → List (Nat × Bool) → Except Exc (List (Curve K))
  | _, [] => .ok []
  | slot, (pn, good) :: t =>
    if status = some "cut" ∧ good = true then traceLoop status records shape slot t
    else if status = some "valid" ∧ good = false then traceLoop status records shape slot t
    else
      match records[pn]? with
      | none => .error .index
      | some r =>
        match traceLoop status records shape (slot + 1) t with
        | .error e => .error e
        | .ok cs => .ok (⟨pn, shape pn r, decide (status = none ∧ good = false), slot⟩ :: cs)

/-- `plot_traces`, mass/core/channel.py L1971-2035 (a single number is a list of one; record numbers not negative) -/
def plotTraces (status : Option String) (residual difference : Bool) (good : List Bool) (records : List (List K)) (shape : Nat → List K → List K)
    (pns : List Nat) : Except Exc (List (Curve K)) :=
  if status ≠ none ∧ status ≠ some "valid" ∧ status ≠ some "cut" then .error .value
  else if residual = true ∧ difference = true then .error .value
  else if pns.any (fun pn => decide (good.length ≤ pn)) then .error .index
  else traceLoop status records shape 0 (pns.map (fun pn => (pn, good.getD pn false)))

/-- whether a record is wanted [specification] -/
def wanted (status : Option String) (good : Bool) : Bool := match status with
  | none => true
  | some s => if s = "valid" then good else !good

theorem traceLoop_spec (status : Option String) (hs : status = none ∨ status = some "valid" ∨ status = some "cut") (records : List (List K))
    (shape : Nat → List K → List K) (l : List (Nat × Bool)) (hl : ∀ x ∈ l, x.1 < records.length) (slot : Nat) :
    traceLoop status records shape slot l =
      .ok (((l.filter (fun x => wanted status x.2)).zipIdx slot).map (fun x => ⟨x.1.1, shape x.1.1 (records.getD x.1.1 []), decide (status = none ∧ x.1.2 = false), x.2⟩)) := by
  induction l generalizing slot with
  | nil => simp [traceLoop]
  | cons a t ih =>
    obtain ⟨pn, g⟩ := a
    have hp : pn < records.length := hl (pn, g) (by simp)
    have ih' := fun s => ih (fun x hx => hl x (by simp [hx])) s
    have hr : records[pn]? = some (records.getD pn []) := by simp [List.getD, hp]
    rcases hs with rfl | rfl | rfl <;> cases g <;> simp [traceLoop, ih', wanted, hp]

/-- C148: exactly the wanted records are drawn, in the order asked for, each with its own values; the texts beside them are at different places. With no status
all are drawn and exactly the cut ones are marked. -/
theorem traces_spec (status : Option String) (hs : status = none ∨ status = some "valid" ∨ status = some "cut") (good : List Bool) (records : List (List K))
    (h : records.length = good.length) (shape : Nat → List K → List K) (pns : List Nat) (hp : ∀ pn ∈ pns, pn < good.length) :
    ∃ cs, plotTraces status false false good records shape pns = .ok cs ∧
      cs.map Curve.pn = pns.filter (fun pn => status = none ∨ (status = some "valid" ∧ good.getD pn false = true) ∨ (status = some "cut" ∧ good.getD pn false = false)) ∧
      cs.map Curve.slot = List.range cs.length ∧ (∀ c ∈ cs, c.data = shape c.pn (records.getD c.pn [])) ∧
      ∀ c ∈ cs, c.marked = true ↔ status = none ∧ good.getD c.pn false = false := by
  have hl : ∀ x ∈ pns.map (fun pn => (pn, good.getD pn false)), x.1 < records.length := by
    intro x hx
    obtain ⟨pn, hpn, rfl⟩ := List.mem_map.mp hx
    rw [h]; exact hp pn hpn
  have e : plotTraces status false false good records shape pns = traceLoop status records shape 0 (pns.map (fun pn => (pn, good.getD pn false))) := by
    unfold plotTraces
    rw [if_neg (by rcases hs with rfl | rfl | rfl <;> simp), if_neg (by simp), if_neg]
    simp only [List.any_eq_true, decide_eq_true_eq, not_exists, not_and, not_le]
    exact hp
  rw [e, traceLoop_spec status hs records shape _ hl 0]
  refine ⟨_, rfl, ?_, ?_, ?_, ?_⟩
  · rw [List.map_map]
    have : (Curve.pn ∘ fun x : (Nat × Bool) × Nat => (⟨x.1.1, shape x.1.1 (records.getD x.1.1 []), decide (status = none ∧ x.1.2 = false), x.2⟩ : Curve K)) = Prod.fst ∘ Prod.fst := by
      funext x; rfl
    rw [this, ← List.map_map, List.zipIdx_map_fst, List.filter_map, List.map_map]
    have h2 : (Prod.fst ∘ fun pn : Nat => (pn, good.getD pn false)) = id := by funext x; rfl
    rw [h2, List.map_id]
    apply List.filter_congr
    intro pn _
    rcases hs with rfl | rfl | rfl <;> simp [wanted]
  · rw [List.map_map]
    have : (Curve.slot ∘ fun x : (Nat × Bool) × Nat => (⟨x.1.1, shape x.1.1 (records.getD x.1.1 []), decide (status = none ∧ x.1.2 = false), x.2⟩ : Curve K)) = Prod.snd := by
      funext x; rfl
    rw [this, List.zipIdx_map_snd]
    simp [List.range_eq_range']
  · intro c hc
    obtain ⟨x, _, rfl⟩ := List.mem_map.mp hc
    rfl
  · intro c hc
    obtain ⟨x, hx, rfl⟩ := List.mem_map.mp hc
    have hm := List.mem_of_mem_filter (List.fst_mem_of_mem_zipIdx hx)
    obtain ⟨pn, _, e⟩ := List.mem_map.mp hm
    have e1 : x.1.1 = pn := by rw [← e]
    have e2 : x.1.2 = good.getD pn false := by rw [← e]
    simp only [e1, e2, decide_eq_true_eq]

example : plotTraces (some "valid") false false [true, false, true] [[(1 : ℚ)], [2], [3]] (fun _ r => r) [2, 1, 0] = .ok [⟨2, [3], false, 0⟩, ⟨0, [1], false, 1⟩] ∧
    plotTraces none false false [true, false, true] [[(1 : ℚ)], [2], [3]] (fun _ r => r) [1, 0] = .ok [⟨1, [2], true, 0⟩, ⟨0, [1], false, 1⟩] := by decide +kernel

/-- a record with `difference=True`, mass/core/channel.py L2010-2014 (`np.roll` moves in a circle; records not empty) -/
def differenced (x : List K) : List K :=
  let n := x.length
  let d := (List.range n).map (fun i => if i = 0 then 0 else x.getD i 0 - x.getD ((i + n - 1) % n) 0)
  (List.range n).map (fun i => if i = 0 then 0 else d.getD i 0 + (d.getD ((i + n - 1) % n) 0 + d.getD ((i + 1) % n) 0))

theorem getD_map_range (f : Nat → K) {n i : Nat} (h : i < n) : ((List.range n).map f).getD i 0 = f i := by
  simp [List.getD, h]

/-- C148: with `difference`, what is drawn at a sample is the change over three samples (over two next to the ends), whatever the offset of the record. -/
theorem difference_spec (x : List K) (h3 : 3 ≤ x.length) :
    (∀ i, 2 ≤ i → i + 1 < x.length → (differenced x).getD i 0 = x.getD (i + 1) 0 - x.getD (i - 2) 0) ∧
      (differenced x).getD 1 0 = x.getD 2 0 - x.getD 0 0 ∧ (differenced x).getD 0 0 = 0 ∧
      (differenced x).getD (x.length - 1) 0 = x.getD (x.length - 1) 0 - x.getD (x.length - 3) 0 := by
  obtain ⟨n, hn⟩ : ∃ n, x.length = n := ⟨_, rfl⟩
  have mid : ∀ i, 1 ≤ i → i < n → (i + n - 1) % n = i - 1 := by
    intro i h1 h2
    rw [show i + n - 1 = i - 1 + n by omega, Nat.add_mod_right, Nat.mod_eq_of_lt (by omega)]
  have nxt : ∀ i, i + 1 < n → (i + 1) % n = i + 1 := fun i h => Nat.mod_eq_of_lt h
  unfold differenced
  simp only [hn] at *
  refine ⟨?_, ?_, ?_, ?_⟩
  · intro i h1 h2
    rw [getD_map_range _ (by omega), if_neg (by omega), mid i (by omega) (by omega), nxt i h2, getD_map_range _ (by omega), getD_map_range _ (by omega),
      getD_map_range _ (by omega), if_neg (by omega), if_neg (by omega), if_neg (by omega), mid i (by omega) (by omega), mid (i - 1) (by omega) (by omega),
      mid (i + 1) (by omega) (by omega), show i + 1 - 1 = i by omega, show i - 1 - 1 = i - 2 by omega]
    ring
  · rw [getD_map_range _ (by omega), if_neg (by omega), mid 1 (by omega) (by omega), nxt 1 (by omega), getD_map_range _ (by omega), getD_map_range _ (by omega),
      getD_map_range _ (by omega), if_neg (by omega), if_pos (by omega), if_neg (by omega), mid 1 (by omega) (by omega), mid (1 + 1) (by omega) (by omega)]
    simp
  · rw [getD_map_range _ (by omega), if_pos rfl]
  · rw [getD_map_range _ (by omega), if_neg (by omega), mid (n - 1) (by omega) (by omega), show n - 1 + 1 = n by omega, Nat.mod_self, getD_map_range _ (by omega),
      getD_map_range _ (by omega), getD_map_range _ (by omega), if_neg (by omega), if_neg (by omega), if_pos rfl, mid (n - 1) (by omega) (by omega),
      mid (n - 1 - 1) (by omega) (by omega), show n - 1 - 1 - 1 = n - 3 by omega]
    ring

/-- Disagreement (C148): "successive differences" of a record rising by 1 per sample are drawn as 3, and as 2 next to the ends. -/
theorem difference_fails : differenced [(10 : ℚ), 11, 12, 13, 14] = [0, 2, 3, 3, 2] := by decide +kernel

/-- `subtract_baseline`, mass/core/channel.py L2022-2027, with `p` pretrigger samples not ignored -/
def rebase (p : Nat) (x : List K) : List K := x.map (fun v => v - (x.take p).sum / p)

/-- C148: with `subtract_baseline` the samples before the trigger average to zero, and the size of the baseline does not matter. -/
theorem rebase_spec (p : Nat) (x : List K) (h0 : 0 < p) (h : p ≤ x.length) (c : K) :
    ((rebase p x).take p).sum = 0 ∧ rebase p (x.map (· + c)) = rebase p x := by
  have hp : (p : K) ≠ 0 := by exact_mod_cast h0.ne'
  have sum_add : ∀ (l : List K) (d : K), (l.map (· + d)).sum = l.sum + l.length * d := by
    intro l d
    induction l with
    | nil => simp
    | cons a t ih => simp [ih]; ring
  constructor
  · unfold rebase
    rw [← List.map_take]
    have := sum_add (x.take p) (-((x.take p).sum / p))
    simp only [← sub_eq_add_neg] at this
    rw [this, List.length_take, Nat.min_eq_left h]
    field_simp
    ring
  · unfold rebase
    rw [← List.map_take, sum_add, List.length_take, Nat.min_eq_left h, List.map_map]
    apply List.map_congr_left
    intro v _
    simp only [Function.comp]
    field_simp
    ring

example : rebase 2 [(4 : ℚ), 6, 9, 12] = [-1, 1, 4, 7] := by decide +kernel

/-! #### `plot_summaries` -/

/-- the labels of the quantities, mass/core/channel_group.py L733-743 -/
def labels : List String :=
  ["Pulse RMS", "Pulse Avg", "Peak value", "Pretrig RMS", "Pretrig Mean", "Max PostPk deriv", "Rise time (ms)", "Peak time (ms)", "Peak index"]

/-- `lower().replace(" ", "")`, mass/core/channel_group.py L745 -/
def squash (s : String) : List Char := (s.toList.map Char.toLower).filter (· ≠ ' ')

/-- finding the quantity by its name, mass/core/channel_group.py L745-750 -/
def quantity (s : String) : Except Exc Nat :=
  match (labels.map squash).idxOf? (squash s) with
  | some i => .ok i
  | none => .error .value

/-- C148: a name selects a quantity exactly if it is its label up to case and spaces; other names are refused. -/
theorem quantity_spec (s : String) : (∀ i, quantity s = .ok i ↔ ∃ h : i < labels.length, squash s = squash (labels[i])) ∧
    (quantity s = .error .value ↔ ∀ l ∈ labels, squash s ≠ squash l) := by
  have hnd : (labels.map squash).Nodup := by decide +kernel
  unfold quantity
  constructor
  · intro i
    constructor
    · intro h
      split at h
      · rename_i j hj
        cases h
        rw [List.idxOf?_eq_some_iff] at hj
        obtain ⟨hlt, he, _⟩ := hj
        refine ⟨by simpa using hlt, ?_⟩
        simpa using he.symm
      · cases h
    · rintro ⟨h, he⟩
      have : (labels.map squash).idxOf? (squash s) = some i := by
        rw [List.idxOf?_eq_some_iff]
        refine ⟨by simpa using h, by simp [he], ?_⟩
        intro j hj e
        have := (List.Nodup.getElem_inj_iff hnd (i := j) (j := i) (hi := by simpa using hj.trans h) (hj := by simpa using h)).mp (by
          rw [e]; simp [he])
        omega
      rw [this]
  · constructor
    · intro h
      split at h
      · cases h
      · rename_i hn
        rw [List.idxOf?_eq_none_iff] at hn
        intro l hl e
        exact hn (by rw [e]; exact List.mem_map_of_mem hl)
    · intro h
      have : (labels.map squash).idxOf? (squash s) = none := by
        rw [List.idxOf?_eq_none_iff]
        intro hm
        obtain ⟨l, hl, e⟩ := List.mem_map.mp hm
        exact h l hl e.symm
      rw [this]

example : quantity "pulse rms" = .ok 0 ∧ quantity "PEAKVALUE" = .ok 2 ∧ quantity "energy" = .error .value := by decide +kernel

/-- Disagreement (C148): three of the documented names of quantities are refused. -/
theorem names_fails : quantity "Max PT Deriv" = .error .value ∧ quantity "Rise Time" = .error .value ∧ quantity "Peak Time" = .error .value := by decide +kernel

/-- every `d`-th element, the slice `[::d]` (mass/core/channel.py L1515, L1549; mass/core/channel_group.py L794, L818) -/
def every {α : Type} (d : Nat) (l : List α) : List α := (l.zipIdx.filter (fun x => decide (x.2 % d = 0))).map Prod.fst

/-- indexing by a vector of booleans (mass/core/channel.py L1515, L1548; mass/core/channel_group.py L794, L808) -/
def pick {α : Type} (m : List Bool) (l : List α) : List α := ((l.zip m).filter Prod.snd).map Prod.fst

/-- the thinning if none is asked for, mass/core/channel.py L1512-1514, L1518-1520; mass/core/channel_group.py L792-793, L797-798 -/
def autoDown (n : Nat) : Nat := max (n / 10000) 1

theorem every_zip {α β : Type} (d : Nat) (a : List α) (b : List β) (h : a.length = b.length) : (every d a).zip (every d b) = every d (a.zip b) := by
  have gen : ∀ (a : List α) (b : List β) (k : Nat), a.length = b.length →
      (((a.zipIdx k).filter (fun x => decide (x.2 % d = 0))).map Prod.fst).zip (((b.zipIdx k).filter (fun x => decide (x.2 % d = 0))).map Prod.fst) =
        (((a.zip b).zipIdx k).filter (fun x => decide (x.2 % d = 0))).map Prod.fst := by
    intro a
    induction a with
    | nil => intro b k _; simp
    | cons x t ih =>
      intro b k hb
      cases b with
      | nil => simp at hb
      | cons y u =>
        have := ih u (k + 1) (by simpa using hb)
        by_cases hk : k % d = 0 <;> simp [hk, this]
  exact gen a b 0 h

theorem pick_zip {α β : Type} (m : List Bool) (a : List α) (b : List β) (h : a.length = b.length) : (pick m a).zip (pick m b) = pick m (a.zip b) := by
  induction a generalizing b m with
  | nil => simp [pick]
  | cons x t ih =>
    cases b with
    | nil => simp at h
    | cons y u =>
      cases m with
      | nil => simp [pick]
      | cons c m =>
        have := ih m u (by simpa using h)
        unfold pick at this
        cases c <;> simp [pick, this]

theorem pick_length {α β : Type} (m : List Bool) (a : List α) (b : List β) (h : a.length = b.length) : (pick m a).length = (pick m b).length := by
  induction a generalizing b m with
  | nil =>
    have : b = [] := List.eq_nil_of_length_eq_zero (by simpa using h.symm)
    subst this; simp [pick]
  | cons x t ih =>
    cases b with
    | nil => simp at h
    | cons y u =>
      cases m with
      | nil => simp [pick]
      | cons c m =>
        have := ih m u (by simpa using h)
        unfold pick at this
        cases c <;> simpa [pick] using this

/-- C148: in the scatter plots the time and the value of a point belong to the same pulse, whatever is selected and however it is thinned. -/
theorem scatter_spec {α β : Type} (m : List Bool) (d : Nat) (t : List α) (v : List β) (h : t.length = v.length) :
    (every d (pick m t)).zip (every d (pick m v)) = every d (pick m (t.zip v)) := by
  rw [every_zip d _ _ (pick_length m t v h), pick_zip m t v h]

theorem every_length {α : Type} (d : Nat) (hd : 0 < d) (l : List α) : (every d l).length = (l.length + d - 1) / d := by
  have gen : ∀ (l : List α) (k : Nat), ((l.zipIdx k).filter (fun x => decide (x.2 % d = 0))).length + (k + d - 1) / d = (k + l.length + d - 1) / d := by
    intro l
    induction l with
    | nil => intro k; simp
    | cons a t ih =>
      intro k
      have := ih (k + 1)
      have hstep : (k + 1 + d - 1) / d = (k + d - 1) / d + (if k % d = 0 then 1 else 0) := by
        rw [show k + 1 + d - 1 = k + d by omega, Nat.add_div_right _ hd]
        by_cases hk : k % d = 0
        · rw [if_pos hk]
          obtain ⟨q, rfl⟩ := Nat.dvd_of_mod_eq_zero hk
          rw [Nat.mul_div_cancel_left _ hd, show d * q + d - 1 = d - 1 + d * q by omega, Nat.add_mul_div_left _ _ hd, Nat.div_eq_of_lt (by omega)]
          omega
        · rw [if_neg hk]
          have h1 := Nat.div_add_mod k d
          have h2 := Nat.mod_lt k hd
          have h3 : k + d - 1 = (k % d - 1) + d * (k / d + 1) := by rw [Nat.mul_add, Nat.mul_one]; omega
          have h4 : (k % d - 1) / d = 0 := Nat.div_eq_of_lt (by omega)
          rw [h3, Nat.add_mul_div_left _ _ hd, h4]
          omega
      rw [hstep] at this
      rw [show k + (a :: t).length + d - 1 = k + 1 + t.length + d - 1 by simp; omega, ← this]
      by_cases hk : k % d = 0 <;> simp [hk]
      omega
  have := gen l 0
  rw [show (0 + d - 1) / d = 0 from Nat.div_eq_of_lt (by omega)] at this
  simpa [every] using this

/-- C148: thinned automatically, fewer than 20000 points of a channel are drawn, at least 10000 if there are so many, and all if fewer than 20000. -/
theorem points_bound {α : Type} (l : List α) : (every (autoDown l.length) l).length < 20000 ∧ (10000 ≤ l.length → 10000 ≤ (every (autoDown l.length) l).length) ∧
    (l.length < 20000 → (every (autoDown l.length) l).length = l.length) := by
  have hd : 0 < autoDown l.length := by unfold autoDown; omega
  rw [every_length _ hd]
  obtain ⟨n, hn⟩ : ∃ n, l.length = n := ⟨_, rfl⟩
  rw [hn] at hd ⊢
  by_cases h2 : n < 20000
  · have : autoDown n = 1 := by unfold autoDown; omega
    rw [this]
    simp
    omega
  · have h1 : autoDown n = n / 10000 := by unfold autoDown; omega
    rw [h1] at hd ⊢
    have a := Nat.div_add_mod n 10000
    have b := Nat.mod_lt n (y := 10000) (by omega)
    refine ⟨?_, fun _ => ?_, fun h => absurd h h2⟩
    · rw [Nat.div_lt_iff_lt_mul hd]; omega
    · rw [Nat.le_div_iff_mul_le hd]; omega

example : (every (autoDown 5) [1, 2, 3, 4, 5]).length = 5 ∧ every 2 [1, 2, 3, 4, 5] = [1, 3, 5] := by decide +kernel

/-- Disagreement (C148): the plot is not "downsampled to 10,000 total points": of any number of pulses from 10001 to 19999 all are drawn. -/
theorem ten_thousand_fails {α : Type} (l : List α) (h1 : 10000 < l.length) (h2 : l.length < 20000) : 10000 < (every (autoDown l.length) l).length := by
  rw [(points_bound l).2.2 h2]; exact h1

/-- the thinning of each channel in the loop over the channels of a group, mass/core/channel_group.py L770, L790-799: the variable is set once -/
def groupDowns : Option Nat → List Nat → List Nat
  | _, [] => []
  | some d, _ :: t => d :: groupDowns (some d) t
  | none, n :: t => autoDown n :: groupDowns (some (autoDown n)) t

/-- C148: all channels of a plot are thinned alike, by the factor asked for or else by that of the first channel. -/
theorem group_downs_spec (ns : List Nat) (d : Nat) : groupDowns (some d) ns = List.replicate ns.length d ∧
    groupDowns none ns = List.replicate ns.length (autoDown (ns.headD 0)) := by
  have h : ∀ (ns : List Nat) (d : Nat), groupDowns (some d) ns = List.replicate ns.length d := by
    intro ns
    induction ns with
    | nil => intro d; rfl
    | cons a t ih => intro d; simp [groupDowns, ih, List.replicate_succ]
  refine ⟨h ns d, ?_⟩
  cases ns with
  | nil => rfl
  | cons a t => simp [groupDowns, h, List.replicate_succ]

example : groupDowns none [30000, 5] = [3, 3] := by decide +kernel

/-- Disagreement (C148): a busy channel after a quiet one is not thinned at all: any number of points is drawn. -/
theorem group_downs_fails (n : Nat) : groupDowns none [100, n] = [1, 1] ∧ ∀ {α : Type} (l : List α), (every 1 l).length = l.length := by
  refine ⟨by simp [groupDowns, autoDown], fun l => ?_⟩
  rw [every_length 1 (by omega)]; simp

/-- the argument `valid`: a string, nothing, or an array of booleans [specification] -/
inductive Valid
  | text (s : String)
  | nothing
  | array (m : List Bool)

/-- whether a word is part of the lower-case text (mass/core/channel.py L1498-1504; mass/core/channel_group.py L776-783) -/
def within (w s : String) : Bool := (s.toList.map Char.toLower).tails.any (fun t => w.toList.isPrefixOf t)

/-- the choice by words; `none` stands for all pulses: mass/core/channel.py L1497-1508; mass/core/channel_group.py L776-787 -/
def byWords (good : List Bool) (s : String) : Except Exc (Option (List Bool)) :=
  if within "uncut" s then .ok (some good)
  else if within "cut" s then .ok (some (good.map (!·)))
  else if within "all" s then .ok none
  else .error .value

/-- the selected pulses of `MicrocalDataSet.plot_summaries`, mass/core/channel.py L1494-1522 -/
def chosen {α : Type} (good : List Bool) (v : Valid) (l : List α) : Except Exc (List α) :=
  match v with
  | .nothing => .ok l
  | .array m => .ok (pick m l)
  | .text s => match byWords good s with
    | .error e => .error e
    | .ok none => .ok l
    | .ok (some m) => .ok (pick m l)

theorem pick_perm {α : Type} (m : List Bool) (l : List α) (h : m.length = l.length) : (pick m l ++ pick (m.map (!·)) l).Perm l := by
  induction l generalizing m with
  | nil => simp [pick]
  | cons a t ih =>
    cases m with
    | nil => simp at h
    | cons c m =>
      have := ih m (by simpa using h)
      unfold pick at this
      cases c
      · simp only [pick, List.zip_cons_cons, List.filter_cons, List.map_cons, Bool.false_eq_true, if_false, Bool.not_false, if_true]
        exact (List.perm_middle).trans (this.cons a)
      · simp only [pick, List.zip_cons_cons, List.filter_cons, List.map_cons, Bool.false_eq_true, if_false, Bool.not_true, if_true]
        exact this.cons a

theorem within_iff (w s : String) : within w s = true ↔ w.toList <:+: s.toList.map Char.toLower := by
  unfold within
  rw [List.any_eq_true]
  constructor
  · rintro ⟨t, ht, hp⟩
    exact (List.isPrefixOf_iff_prefix.1 hp).isInfix.trans ((List.mem_tails _ _).1 ht).isInfix
  · rintro ⟨a, b, h⟩
    exact ⟨w.toList ++ b, (List.mem_tails _ _).2 ⟨a, by rw [← List.append_assoc]; exact h⟩, List.isPrefixOf_iff_prefix.2 ⟨b, rfl⟩⟩

/-- C148: which pulses a text selects depends on the words anywhere in it, in any case: 'uncut' the good ones, else 'cut' the others, else 'all' all; any other text is refused. -/
theorem chosen_words {α : Type} (good : List Bool) (l : List α) (s : String) :
    ("uncut".toList <:+: s.toList.map Char.toLower → chosen good (.text s) l = .ok (pick good l)) ∧
    (¬ "uncut".toList <:+: s.toList.map Char.toLower → "cut".toList <:+: s.toList.map Char.toLower → chosen good (.text s) l = .ok (pick (good.map (!·)) l)) ∧
    (¬ "cut".toList <:+: s.toList.map Char.toLower → "all".toList <:+: s.toList.map Char.toLower → chosen good (.text s) l = .ok l) ∧
    (¬ "cut".toList <:+: s.toList.map Char.toLower → ¬ "all".toList <:+: s.toList.map Char.toLower → chosen good (.text s) l = .error .value) := by
  have hu : "cut".toList <:+: "uncut".toList := by decide +kernel
  simp only [← within_iff]
  have hu' : within "uncut" s = true → within "cut" s = true := by
    rw [within_iff, within_iff]
    exact hu.trans
  refine ⟨fun h => ?_, fun h1 h2 => ?_, fun h1 h2 => ?_, fun h1 h2 => ?_⟩
  · simp [chosen, byWords, h]
  · simp [chosen, byWords, h1, h2]
  · simp [chosen, byWords, h1, h2, mt hu' h1]
  · simp [chosen, byWords, h1, h2, mt hu' h1]

/-- C148: 'uncut' and 'cut' (in any case) share out the pulses: together they show each pulse once; 'all' and None show every pulse. -/
theorem chosen_spec {α : Type} (good : List Bool) (l : List α) (h : good.length = l.length) :
    chosen good (.text "all") l = .ok l ∧ chosen good .nothing l = .ok l ∧
      ∃ a b, chosen good (.text "uncut") l = .ok a ∧ chosen good (.text "Cut") l = .ok b ∧ a = pick good l ∧ (a ++ b).Perm l := by
  have h1 : within "uncut" "all" = false ∧ within "cut" "all" = false ∧ within "all" "all" = true := by decide +kernel
  have h2 : within "uncut" "uncut" = true ∧ within "uncut" "Cut" = false ∧ within "cut" "Cut" = true := by decide +kernel
  refine ⟨by simp [chosen, byWords, h1], rfl, pick good l, pick (good.map (!·)) l, by simp [chosen, byWords, h2], by simp [chosen, byWords, h2], rfl, pick_perm good l h⟩

example : chosen [true, false, true] (.text "uncut pulses") [1, 2, 3] = .ok [1, 3] ∧ chosen [true, false, true] (.text "CUT") [1, 2, 3] = .ok [2] ∧
    chosen [true, false] (.text "good") [1, 2] = .error .value := by decide +kernel

/-- the points drawn for one channel by `TESGroup.plot_summaries`, mass/core/channel_group.py L774-818: `valid_mask` is only set for a string; with 'all' the
values are indexed by None, which makes a table of one row, and plotting it against two or more times is a ValueError -/
def groupPoints (good : List Bool) (v : Valid) (d : Nat) (t x : List K) : Except Exc (List (K × K)) :=
  match v with
  | .nothing => .error .unbound
  | .array _ => .error .unbound
  | .text s => match byWords good s with
    | .error e => .error e
    | .ok (some m) => .ok ((every d (pick m t)).zip (every d (pick m x)))
    | .ok none => if (every d t).length = 1 then .ok ((every d t).flatMap (fun a => x.map (fun b => (a, b)))) else .error .value

/-- C148 (partial: 'uncut' and 'cut' only): the points are the times and values of the selected pulses, thinned. -/
theorem group_points_partial (good : List Bool) (d : Nat) (t x : List K) (h : t.length = x.length) :
    groupPoints good (.text "uncut") d t x = .ok (every d (pick good (t.zip x))) ∧
      groupPoints good (.text "cut") d t x = .ok (every d (pick (good.map (!·)) (t.zip x))) := by
  have h2 : within "uncut" "uncut" = true ∧ within "uncut" "cut" = false ∧ within "cut" "cut" = true := by decide +kernel
  constructor
  · simp only [groupPoints, byWords, h2.1, if_true]
    rw [scatter_spec good d t x h]
  · simp only [groupPoints, byWords, h2.2.1, h2.2.2, if_true, Bool.false_eq_true, if_false]
    rw [scatter_spec _ d t x h]

/-- Disagreement (C148): `plot_summaries` of a group cannot show all pulses: the documented `valid=None` is an UnboundLocalError, and 'all' is a ValueError for
every channel with two or more points. -/
theorem group_all_fails (good : List Bool) (d : Nat) (t x : List K) (h : 2 ≤ (every d t).length) :
    groupPoints good .nothing d t x = .error .unbound ∧ groupPoints good (.text "all") d t x = .error .value := by
  have h1 : within "uncut" "all" = false ∧ within "cut" "all" = false ∧ within "all" "all" = true := by decide +kernel
  refine ⟨rfl, ?_⟩
  simp only [groupPoints, byWords, h1.1, h1.2.1, h1.2.2, if_true, Bool.false_eq_true, if_false]
  rw [if_neg (by omega)]

/-- the last midnight, mass/core/channel.py L1536-1537; mass/core/channel_group.py L766-767 (Python's `%` of a positive divisor) -/
def midnight [FloorRing K] (last : K) : K := last - (last - 86400 * (⌊last / 86400⌋ : ℤ))

/-- C148: time zero of the plots is a whole number of days, and the last record lies in the 24 hours after it. -/
theorem midnight_spec [FloorRing K] (last : K) : (∃ n : ℤ, midnight last = 86400 * n) ∧ 0 ≤ (last - midnight last) / 3600 ∧ (last - midnight last) / 3600 < 24 := by
  have h1 := Int.floor_le (last / 86400)
  have h2 := Int.lt_floor_add_one (last / 86400)
  rw [le_div_iff₀ (by norm_num)] at h1
  rw [div_lt_iff₀ (by norm_num)] at h2
  refine ⟨⟨⌊last / 86400⌋, by unfold midnight; ring⟩, ?_, ?_⟩
  · apply div_nonneg _ (by norm_num)
    unfold midnight; linarith
  · rw [div_lt_iff₀ (by norm_num)]
    unfold midnight; linarith

example : midnight (200000 : ℚ) = 172800 := by decide +kernel

/-! #### `plot_multipage` -/

/-- one saved page: its number and the channels on it with their places [specification] -/
abbrev Page (α : Type) := Nat × List (Nat × α)

/-- The loop of `plot_multipage`, mass/core/utilities.py L139-149: `k` channels are done, `cur` is on the present page, `mn` plots fit on a page. -/
def pageLoop {α : Type} (mn : Nat) : Nat → List (Nat × α) → List α → List (Page α) × List (Nat × α) × Nat
  | k, cur, [] => ([], cur, k)
  | k, cur, a :: t =>
    let cur' := cur ++ [(k % mn + 1, a)]
    if (k + 1) % mn = 0 then
      let r := pageLoop mn (k + 1) [] t
      (((k + 1) / mn, cur') :: r.1, r.2)
    else pageLoop mn (k + 1) cur' t

/-- `plot_multipage`, mass/core/utilities.py L137-157: the pages saved, in order. With no channel the loop variable is unbound (L152). -/
def multipage {α : Type} (mn : Nat) (l : List α) : Except Exc (List (Page α)) :=
  match l with
  | [] => .error .unbound
  | _ =>
    if mn = 0 then .error .zeroDiv
    else
      let r := pageLoop mn 0 [] l
      if r.2.2 % mn ≠ 0 then .ok (r.1 ++ [(r.2.2 / mn + 1, r.2.1)]) else .ok r.1

/-- the places 1, 2, ... of the channels of a page [specification] -/
def placed {α : Type} (l : List α) : List (Nat × α) := (l.zipIdx 1).map Prod.swap

theorem placed_append {α : Type} (l : List α) (a : α) : placed (l ++ [a]) = placed l ++ [(l.length + 1, a)] := by
  simp [placed, List.zipIdx_append, Nat.add_comm]

theorem pageLoop_spec {α : Type} (mn : Nat) (hm : 0 < mn) (l : List α) (q : Nat) (c : List α) (hc : c.length < mn) :
    pageLoop mn (q * mn + c.length) (placed c) l =
      ((List.range ((c.length + l.length) / mn)).map (fun p => (q + p + 1, placed (((c ++ l).drop (p * mn)).take mn))),
        placed ((c ++ l).drop ((c.length + l.length) / mn * mn)), q * mn + c.length + l.length) := by
  induction l generalizing q c with
  | nil => simp [pageLoop, Nat.div_eq_of_lt hc]
  | cons a t ih =>
    unfold pageLoop
    have e1 : (q * mn + c.length) % mn = c.length := by
      rw [Nat.add_comm, Nat.add_mul_mod_self_right, Nat.mod_eq_of_lt hc]
    dsimp only
    rw [e1, ← placed_append]
    by_cases hf : c.length + 1 = mn
    · have e2 : q * mn + c.length + 1 = (q + 1) * mn := by rw [Nat.add_mul]; omega
      rw [e2, if_pos (Nat.mul_mod_left _ _), Nat.mul_div_cancel _ hm]
      have := ih (q + 1) [] (by simpa using hm)
      simp only [List.length_nil, Nat.add_zero, Nat.zero_add, List.nil_append] at this
      rw [show placed ([] : List α) = [] from rfl] at this
      rw [this]
      have e3 : (c.length + (a :: t).length) / mn = t.length / mn + 1 := by
        rw [show c.length + (a :: t).length = t.length + mn by simp; omega, Nat.add_div_right _ hm]
      have e4 : ∀ p, ((c ++ a :: t).drop ((p + 1) * mn)) = t.drop (p * mn) := by
        intro p
        rw [show c ++ a :: t = (c ++ [a]) ++ t by simp, List.drop_append, List.drop_eq_nil_of_le (by simp; rw [Nat.add_mul]; omega), List.nil_append]
        congr 1
        simp; rw [Nat.add_mul]; omega
      rw [e3, List.range_succ_eq_map, List.map_cons, List.map_map, e4]
      refine Prod.ext ?_ (Prod.ext rfl ?_)
      · dsimp only
        congr 1
        · rw [Nat.zero_mul, List.drop_zero, show c ++ a :: t = (c ++ [a]) ++ t by simp, List.take_append, List.take_of_length_le (by simp; omega),
            show mn - (c ++ [a]).length = 0 by simp; omega]
          simp
        · apply List.map_congr_left
          intro p _
          simp only [Function.comp, Nat.succ_eq_add_one, e4]
          rw [show q + 1 + p + 1 = q + (p + 1) + 1 by omega]
      · simp only [List.length_cons]; omega
    · have e2 : ¬ (q * mn + c.length + 1) % mn = 0 := by
        rw [Nat.add_assoc, Nat.add_comm, Nat.add_mul_mod_self_right, Nat.mod_eq_of_lt (by omega)]; omega
      rw [if_neg e2]
      have := ih q (c ++ [a]) (by simp; omega)
      simp only [List.length_append, List.length_singleton, ← Nat.add_assoc] at this
      rw [this]
      simp only [List.append_assoc, List.singleton_append, List.length_cons]
      rw [show c.length + 1 + t.length = c.length + (t.length + 1) by omega, show q * mn + c.length + 1 + t.length = q * mn + c.length + (t.length + 1) by omega]

/-- C148: every channel is drawn once: page p shows the channels from (p-1)mn on, in order at the places 1, 2, ..., and as many pages are saved, numbered from 1,
as are needed. -/
theorem multipage_spec {α : Type} (mn : Nat) (hm : 0 < mn) (l : List α) (hl : l ≠ []) :
    multipage mn l = .ok ((List.range ((l.length + mn - 1) / mn)).map (fun p => (p + 1, ((((l.drop (p * mn)).take mn).zipIdx 1).map Prod.swap)))) := by
  obtain ⟨a, t, rfl⟩ := List.exists_cons_of_ne_nil hl
  unfold multipage
  dsimp only
  rw [if_neg (by omega)]
  have := pageLoop_spec mn hm (a :: t) 0 [] (by simpa using hm)
  simp only [List.length_nil, Nat.zero_mul, Nat.zero_add, List.nil_append] at this
  rw [show placed ([] : List α) = [] from rfl] at this
  rw [this]
  dsimp only
  obtain ⟨n, hn⟩ : ∃ n, (a :: t).length = n := ⟨_, rfl⟩
  rw [hn]
  have d := Nat.div_add_mod n mn
  have m := Nat.mod_lt n hm
  by_cases h0 : n % mn = 0
  · rw [if_neg (by simpa using h0)]
    have : (n + mn - 1) / mn = n / mn := by
      rw [show n + mn - 1 = (mn - 1) + mn * (n / mn) by omega, Nat.add_mul_div_left _ _ hm, Nat.div_eq_of_lt (by omega)]
      omega
    rw [this]
    rfl
  · rw [if_pos (by simpa using h0)]
    have h4 : (n % mn - 1) / mn = 0 := Nat.div_eq_of_lt (by omega)
    have : (n + mn - 1) / mn = n / mn + 1 := by
      have h3 : n + mn - 1 = (n % mn - 1) + mn * (n / mn + 1) := by rw [Nat.mul_add, Nat.mul_one]; omega
      rw [h3, Nat.add_mul_div_left _ _ hm, h4]; omega
    rw [this, List.range_succ, List.map_append]
    congr 2
    simp only [List.map_cons, List.map_nil]
    rw [List.take_of_length_le (by rw [List.length_drop, hn, Nat.mul_comm]; omega)]
    rfl

example : multipage 2 ["a", "b", "c"] = .ok [(1, [(1, "a"), (2, "b")]), (2, [(1, "c")])] ∧ multipage 2 ["a", "b"] = .ok [(1, [(1, "a"), (2, "b")])] := by decide +kernel

/-- Disagreement (C148): with no good channel left, `plot_multipage` is an UnboundLocalError. -/
theorem multipage_fails {α : Type} (mn : Nat) : multipage mn ([] : List α) = .error .unbound := rfl

/-- how many values Python's `%` of a string wants (`%%` is a percent sign; what follows another `%` is taken to be a valid conversion of one value);
used at mass/core/channel_group.py L1251 and mass/core/utilities.py L148, L157 -/
def conversions : List Char → Nat
  | [] => 0
  | '%' :: '%' :: t => conversions t
  | '%' :: t => conversions t + 1
  | _ :: t => conversions t

/-- `template % values`: a TypeError unless the numbers agree (mass/core/channel_group.py L1251; mass/core/utilities.py L148, L157) -/
def percent (template : List Char) (values : Nat) : Except Exc Unit := if conversions template = values then .ok () else .error .type

/-- the names made by `plot_summary_pages`, mass/core/channel_group.py L1246-1251, up to the call of `plot_multipage`; the suffix is known -/
def summaryPages (x y suffix : List Char) : Except Exc Unit := percent (y ++ ".vs.".toList ++ x ++ "-".toList ++ suffix ++ ".pdf".toList) 3

/-- the template of the file names, mass/core/channel_group.py L1328 (an f-string leaves `%%` alone) and its use for a page, mass/core/utilities.py L148, L157 -/
def pageName (attr suffix fmt : List Char) : Except Exc Unit := percent (attr ++ "-hist-".toList ++ suffix ++ "-%%03d.".toList ++ fmt) 1

theorem conversions_append (a b : List Char) (h : '%' ∉ a) : conversions (a ++ b) = conversions b := by
  induction a with
  | nil => rfl
  | cons c t ih =>
    have hc : c ≠ '%' := fun e => h (by simp [e])
    have ht : '%' ∉ t := fun e => h (by simp [e])
    rw [List.cons_append]
    have : conversions (c :: (t ++ b)) = conversions (t ++ b) := by
      rw [conversions]
      · intro _ e _; exact hc e
      · intro e; exact hc e
    rw [this, ih ht]

/-- Disagreement (C148): `plot_summary_pages` always fails: the name of the common file is formatted twice, whatever the attributes and the suffix (without a
percent sign). -/
theorem summary_pages_fails (x y suffix : List Char) (hx : '%' ∉ x) (hy : '%' ∉ y) (hs : '%' ∉ suffix) : summaryPages x y suffix = .error .type := by
  unfold summaryPages percent
  have h1 : '%' ∉ ".vs.".toList := by decide +kernel
  have h2 : '%' ∉ "-".toList := by decide +kernel
  have h3 : conversions ".pdf".toList = 0 := by decide +kernel
  rw [if_neg]
  simp only [List.append_assoc]
  rw [conversions_append y _ hy, conversions_append _ _ h1, conversions_append x _ hx, conversions_append _ _ h2, conversions_append _ _ hs, h3]
  decide

/-- Disagreement (C148): no page of `plot_histogram_pages` could be saved either: the doubled percent sign leaves no place for the page number. -/
theorem page_name_fails (attr suffix fmt : List Char) (ha : '%' ∉ attr) (hs : '%' ∉ suffix) (hf : '%' ∉ fmt) : pageName attr suffix fmt = .error .type := by
  unfold pageName percent
  have h1 : '%' ∉ "-hist-".toList := by decide +kernel
  have h2 : ∀ t, conversions ("-%%03d.".toList ++ t) = conversions t := by
    intro t
    rw [show "-%%03d.".toList = ['-', '%', '%', '0', '3', 'd', '.'] by decide +kernel]
    rfl
  rw [if_neg]
  simp only [List.append_assoc]
  rw [conversions_append attr _ ha, conversions_append _ _ h1, conversions_append suffix _ hs, h2]
  have := conversions_append fmt [] hf
  rw [List.append_nil] at this
  rw [this]
  decide

example : percent "a-%03d.png".toList 1 = .ok () ∧ percent "a-%%03d.png".toList 1 = .error .type := by decide +kernel

/-! #### `plot_noise` -/

/-- One channel for the noise plot: its frequency step and the number of its values, or `none` if it cannot be plotted [specification] -/
abbrev Noise (K : Type) := Option (K × Nat)

/-- the frequencies drawn for a channel, mass/core/channel_group.py L1133-1144 -/
def noiseFreqs (dc : Bool) (df : K) (n : Nat) : List K :=
  let f := (List.range n).map (fun i : Nat => (i : K) * df)
  if dc then f.set 0 (f.getD 1 0 * (1 / 10)) else f.drop 1

/-- the limits of the frequency axis, mass/core/channel_group.py L1125-1153: `fmin` and `fmax` are set anew for each channel (a channel with fewer than two
values raises inside the try block) -/
def noiseLimits (dc : Bool) : List (Noise K) → Option (K × K) → Except Exc (K × K)
  | [], none => .error .unbound
  | [], some (lo, hi) => if hi = 0 then .error .value else .ok (lo, hi)
  | c :: t, _ =>
    let start : K × K := (10 ^ 20, 0)
    match c with
    | none => noiseLimits dc t (some start)
    | some (df, n) =>
      if n < 2 then noiseLimits dc t (some start)
      else noiseLimits dc t (some (min (10 ^ 20) ((if dc then (1 : Nat) * df * (1 / 10) else (1 : Nat) * df) * (8 / 10)), max 0 (((n - 1 : Nat) : K) * df * (12 / 10))))

theorem noiseLimits_last (dc : Bool) (l : List (Noise K)) (s : Option (K × K)) (df : K) (n : Nat) (hn : 2 ≤ n) (hd : 0 < df) :
    noiseLimits dc (l ++ [some (df, n)]) s =
      .ok (min (10 ^ 20) ((if dc then (1 : Nat) * df * (1 / 10) else (1 : Nat) * df) * (8 / 10)), max 0 (((n - 1 : Nat) : K) * df * (12 / 10))) := by
  have hp : (0 : K) < ((n - 1 : Nat) : K) * df * (12 / 10) := by
    have : (0 : K) < ((n - 1 : Nat) : K) := by exact_mod_cast (by omega : 0 < n - 1)
    positivity
  induction l generalizing s with
  | nil =>
    simp only [List.nil_append, noiseLimits]
    rw [if_neg (by omega), if_neg]
    rw [max_eq_right hp.le]; exact hp.ne'
  | cons c t ih =>
    rw [List.cons_append]
    cases c with
    | none => simp only [noiseLimits]; exact ih _
    | some x =>
      obtain ⟨d', n'⟩ := x
      simp only [noiseLimits]
      split <;> exact ih _

/-- C148 (partial: channels with spectra alike): all frequencies drawn lie within the limits of the axis. -/
theorem noise_limits_partial (dc : Bool) (df : K) (n k : Nat) (hn : 2 ≤ n) (hd : 0 < df) :
    ∃ lo hi, noiseLimits dc (List.replicate (k + 1) (some (df, n))) none = .ok (lo, hi) ∧ ∀ f ∈ noiseFreqs dc df n, lo < f ∧ f < hi := by
  rw [List.replicate_succ', noiseLimits_last dc _ none df n hn hd]
  refine ⟨_, _, rfl, ?_⟩
  have key : ∀ i : Nat, 1 ≤ i → i < n → df ≤ (i : K) * df ∧ (i : K) * df ≤ ((n - 1 : Nat) : K) * df := by
    intro i h1 h2
    have a : (1 : K) ≤ (i : K) := by exact_mod_cast h1
    have b : (i : K) ≤ ((n - 1 : Nat) : K) := by exact_mod_cast (by omega : i ≤ n - 1)
    exact ⟨by nlinarith, by nlinarith⟩
  have kn := key 1 le_rfl (by omega)
  have hl : min (10 ^ 20 : K) ((if dc then (1 : Nat) * df * (1 / 10) else (1 : Nat) * df) * (8 / 10)) ≤ (if dc then df * (1 / 10) else df) * (8 / 10) := by
    refine (min_le_right _ _).trans ?_
    cases dc <;> simp
  have hh : ((n - 1 : Nat) : K) * df * (12 / 10) ≤ max 0 (((n - 1 : Nat) : K) * df * (12 / 10)) := le_max_right _ _
  intro f hf
  unfold noiseFreqs at hf
  cases dc with
  | false =>
    simp only [Bool.false_eq_true, if_false] at hf hl ⊢
    obtain ⟨i, hi, rfl⟩ := List.mem_iff_getElem.mp hf
    simp only [List.length_drop, List.length_map, List.length_range] at hi
    simp only [List.getElem_drop, List.getElem_map, List.getElem_range]
    have := key (1 + i) (by omega) (by omega)
    constructor
    · linarith
    · linarith [kn.1, kn.2]
  | true =>
    simp only [if_true] at hf hl ⊢
    obtain ⟨i, hi, rfl⟩ := List.mem_iff_getElem.mp hf
    simp only [List.length_set, List.length_map, List.length_range] at hi
    rw [List.getElem_set]
    split
    · rw [getD_map_range _ (by omega)]
      simp only [Nat.cast_one, one_mul] at kn hl ⊢
      constructor <;> linarith
    · simp only [List.getElem_map, List.getElem_range]
      have := key i (by omega) (by omega)
      constructor
      · linarith
      · linarith [kn.1, kn.2]

example : noiseLimits false [some ((10 : ℚ), 4), some (10, 4)] none = .ok (8, 36) ∧ noiseFreqs true (10 : ℚ) 4 = [1, 10, 20, 30] := by decide +kernel

/-- Disagreement (C148): the limits are those of the last channel only: the spectrum of another one can lie wholly outside; and if the last channel cannot be
plotted, "No datasets plotted successfully" is raised though others were. -/
theorem noise_limits_fails : noiseLimits false [some ((10 : ℚ), 4), some (1000, 4)] none = .ok (800, 3600) ∧
    noiseLimits false [some ((10 : ℚ), 4), none] none = .error .value ∧ noiseLimits false ([] : List (Noise ℚ)) none = .error .unbound := by decide +kernel

/-- the labels given to the vertical axis, in turn, mass/core/channel_group.py L1127-1129, L1153 (`{1 / 2}` in an f-string is 0.5) -/
def yLabels (sqrtPsd : Bool) (units : String) (channels : Nat) : List String :=
  (if sqrtPsd then List.replicate channels ("PSD$^0.5$ (" ++ units ++ "/Hz$^0.5$)") else []) ++ ["Power Spectral Density (" ++ units ++ "^2/Hz)"]

/-- Disagreement (C148): a plot of the square root of the spectrum is labelled as the power spectral density. -/
theorem y_label_fails (units : String) (n : Nat) : (yLabels true units n).getLast? = (yLabels false units n).getLast? := by simp [yLabels]

/-! #### `annotate_lines` -/

/-- the heights of the labels on a linear scale, mass/core/utilities.py L181-186, L190-194; mass/off/util.py L306-311, L315-319: `i` is left over from the first loop -/
def labelHeights (n1 n2 : Nat) (top : K) : Except Exc (List K × List K) :=
  let n : K := ((n1 + n2 : Nat) : K)
  let a := (List.range n1).map (fun i : Nat => (1 + i) * top / (15 / 10 * n))
  match n1, n2 with
  | 0, 0 => .ok ([], [])
  | 0, _ + 1 => .error .unbound
  | m + 1, _ => .ok (a, (List.range n2).map (fun j : Nat => (2 + m + j) * top / (15 / 10 * n)))

/-- C148: if the first list is not empty, the labels of both lists together stand at equal steps, the first one step above zero and the last at two thirds of the
height of the plot. -/
theorem label_heights_spec (n1 n2 : Nat) (h : 0 < n1) (top : K) :
    ∃ a b, labelHeights n1 n2 top = .ok (a, b) ∧ a.length = n1 ∧ b.length = n2 ∧
      a ++ b = (List.range (n1 + n2)).map (fun i : Nat => (i + 1) * (top * (2 / 3) / ((n1 + n2 : Nat) : K))) ∧
      (a ++ b).getLast? = some (top * (2 / 3)) := by
  obtain ⟨m, rfl⟩ : ∃ m, n1 = m + 1 := ⟨n1 - 1, by omega⟩
  have hn : ((m + 1 + n2 : Nat) : K) ≠ 0 := by exact_mod_cast (by omega : m + 1 + n2 ≠ 0)
  have e : ((List.range (m + 1)).map (fun i : Nat => (1 + (i : K)) * top / (15 / 10 * ((m + 1 + n2 : Nat) : K)))) ++
      ((List.range n2).map (fun j : Nat => (2 + (m : K) + j) * top / (15 / 10 * ((m + 1 + n2 : Nat) : K)))) =
      (List.range (m + 1 + n2)).map (fun i : Nat => ((i : K) + 1) * (top * (2 / 3) / ((m + 1 + n2 : Nat) : K))) := by
    rw [List.range_add (n := m + 1) (m := n2), List.map_append, List.map_map]
    congr 1
    · apply List.map_congr_left
      intro i _
      field_simp
      ring
    · apply List.map_congr_left
      intro i _
      simp only [Function.comp]
      push_cast at hn ⊢
      field_simp
      ring
  refine ⟨_, _, rfl, by simp, by simp, e, ?_⟩
  rw [e, show m + 1 + n2 = (m + n2) + 1 by omega, List.range_succ, List.map_append]
  simp only [List.map_cons, List.map_nil, List.getLast?_append, List.getLast?_singleton, Option.some_or]
  congr 1
  have hn' : ((m + n2 + 1 : Nat) : K) ≠ 0 := by exact_mod_cast (by omega : m + n2 + 1 ≠ 0)
  push_cast at hn' ⊢
  field_simp

example : labelHeights 2 1 (9 : ℚ) = .ok ([2, 4], [6]) := by decide +kernel

/-- Disagreement (C148): labels in the second colour only are an UnboundLocalError. -/
theorem label_heights_fails (n2 : Nat) (h : 0 < n2) (top : K) : labelHeights 0 n2 top = .error .unbound := by
  obtain ⟨m, rfl⟩ : ∃ m, n2 = m + 1 := ⟨n2 - 1, by omega⟩
  rfl

end Mass.Group.Plots
