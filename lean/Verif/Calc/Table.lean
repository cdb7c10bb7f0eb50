import Verif.Py
import Mathlib.Algebra.Order.Field.Basic
import Mathlib.Data.List.Sort
import Mathlib.Data.Rat.Defs
import Mathlib.Algebra.Order.Ring.Rat
import Mathlib.Algebra.Field.Rat
import Mathlib.Tactic.Ring
import Mathlib.Tactic.Linarith
/-! Model of mass/calibration/energy_calibration.py: the table of calibration points, settings, save and load (C41-C44, C65). -/
namespace Mass.Calc.Cal
open Mass
set_option linter.unusedSectionVars false

variable {K : Type} [Field K] [LinearOrder K] [IsStrictOrderedRing K]

/-- One calibration point as a user thinks of it. (used for energy_calibration.py L381-393) -/
structure Pt (K : Type) where
  ph : K
  e : K
  dph : K
  de : K
  name : String
deriving DecidableEq

/-- `EnergyCalibration` state, mass/calibration/energy_calibration.py L108-123: five parallel arrays, the count and the settings. Float arrays are lists over an
ordered field; NaN is not modelled. -/
structure Tbl (K : Type) where
  ph : List K
  e : List K
  dph : List K
  de : List K
  names : List String
  npts : Nat
  curve : Nat
  nonlin : K
  approx : Bool
  gpr : Bool
  stale : Bool
deriving DecidableEq

/-- `CURVETYPE`, energy_calibration.py L85-92 -/
def CURVETYPE : List String := ["loglog", "linear", "linear+0", "gain", "invgain", "loggain"]

/-- a curve type given as a string or as a number (used for energy_calibration.py L262-275) -/
inductive CArg where
  | str (s : String)
  | int (i : Int)

/-- `set_curvetype`, energy_calibration.py L262-275 (the stale flag is handled by the callers). `curvetype.lower()` is `String.toLower`. -/
def curveIdx : CArg → Except Exc Nat
  | .str s => match CURVETYPE.idxOf? s.toLower with
    | some i => .ok i
    | none => .error .value
  | .int i => if 0 ≤ i ∧ i < 6 then .ok i.toNat else .error .assertion

/-- `set_nonlinearity`, energy_calibration.py L241-245; the default argument is 1.15 -/
def setNonlin (T : Tbl K) (p : K := 115 / 100) : Tbl K :=
  { T with stale := T.stale || (decide (T.curve = 0) && decide (p ≠ T.nonlin)), nonlin := p }

/-- `__init__`, energy_calibration.py L94-123 -/
def init (nonlinearity : K) (curvetype : CArg) (approximate useGPR : Bool) : Except Exc (Tbl K) := do
  let c ← curveIdx curvetype
  .ok (setNonlin { ph := [], e := [], dph := [], de := [], names := [], npts := 0, curve := c, nonlin := nonlinearity, approx := approximate, gpr := useGPR, stale := false })

/-- `np.argsort` for the sort keys in `l`. Ties keep their order (numpy's default sort does so for up to 16 elements; beyond that ties may come in another order). (used for energy_calibration.py L323-400) -/
def argsort (l : List K) : List Nat := (List.range l.length).insertionSort (fun i j => l.getD i 0 ≤ l.getD j 0)

/-- `np.min` together with `np.argmin` (first minimum) (used for energy_calibration.py L366-379) -/
def argmin : List K → Option (Nat × K)
  | [] => none
  | x :: xs => match argmin xs with
    | none => some (0, x)
    | some (i, m) => if x ≤ m then some (0, x) else some (i + 1, m)

/-- the second argument of `add_cal_point`: a number, or a string (used for energy_calibration.py L347-359) -/
inductive EArg (K : Type) where
  | num (e : K)
  | str (s : String)

/-- energy_calibration.py L347-359: `float(energy)`, else the energy of the feature with that name, which then is the point's name.
`parse` is Python's float() on strings, `feat` the dictionary STANDARD_FEATURES. -/
def resolve (parse feat : String → Option K) (en : EArg K) (name : String) : Option (K × String) :=
  match en with
  | .num e => some (e, name)
  | .str s => match parse s with
    | some e => some (e, name)
    | none => match feat s with
      | some e => some (e, s)
      | none => none

/-- C41: the energy and name meant by a call. A number, or a string that reads as a number, keeps the name given; the name of a known feature gives its energy and
names the point; anything else is refused. -/
theorem resolve_spec (parse feat : String → Option K) (name s : String) (e : K) :
    resolve parse feat (.num e) name = some (e, name) ∧
    (parse s = some e → resolve parse feat (.str s) name = some (e, name)) ∧
    (parse s = none → feat s = some e → resolve parse feat (.str s) name = some (e, s)) ∧
    (parse s = none → feat s = none → resolve parse feat (.str s) name = none) := by
  refine ⟨rfl, ?_, ?_, ?_⟩ <;> intros <;> simp_all [resolve]

/-- energy_calibration.py L366-379: which existing entry, if any, the new point replaces -/
def target (T : Tbl K) (name : String) (energy ee : K) (overwrite : Bool) : Except Exc (Option Nat) :=
  if name ≠ "" ∧ name ∈ T.names then
    if overwrite then .ok (some (T.names.idxOf name)) else .error .value
  else match (if 0 < T.npts then argmin (T.e.map (fun x => |energy - x|)) else none) with
    | some (i, m) => if m ≤ ee then (if overwrite then .ok (some i) else .error .value) else .ok none
    | none => .ok none

/-- energy_calibration.py L381-393: store the point -/
def store (T : Tbl K) (p : Pt K) : Option Nat → Tbl K
  | none => { T with ph := T.ph ++ [p.ph], e := T.e ++ [p.e], dph := T.dph ++ [p.dph], de := T.de ++ [p.de], names := T.names ++ [p.name], npts := (T.ph ++ [p.ph]).length }
  | some i => { T with ph := T.ph.set i p.ph, e := T.e.set i p.e, dph := T.dph.set i p.dph, de := T.de.set i p.de, npts := (T.ph.set i p.ph).length }

/-- `add_cal_point`, energy_calibration.py L323-400. The state after the call is returned also when it raises. -/
def addPoint (parse feat : String → Option K) (T : Tbl K) (pht : K) (en : EArg K) (name : String) (pe ee : Option K) (overwrite : Bool) : Tbl K × Except Exc Unit :=
  let T := { T with stale := true }
  match resolve parse feat en name with
  | none => (T, .error .value)
  | some (energy, name) =>
    let p : Pt K := ⟨pht, energy, pe.getD (pht * (1 / 1000)), ee.getD (1 / 100), name⟩
    match target T name energy p.de overwrite with
    | .error x => (T, .error x)
    | .ok idx =>
      let T' := store T p idx
      if argsort T'.ph = argsort T'.e then (T', .ok ()) else (T', .error .exception)

/-- `_remove_cal_point_idx`, energy_calibration.py L295-303: `names.pop(idx)` raises IndexError when out of range, before anything else changes -/
def removeIdx (T : Tbl K) (i : Nat) : Tbl K × Except Exc Unit :=
  if i < T.names.length then
    ({ T with names := T.names.eraseIdx i, ph := T.ph.take i ++ T.ph.drop (i + 1), e := T.e.take i ++ T.e.drop (i + 1),
              dph := T.dph.take i ++ T.dph.drop (i + 1), de := T.de.take i ++ T.de.drop (i + 1), npts := T.npts - 1, stale := true }, .ok ())
  else (T, .error .index)

/-- `remove_cal_point_name`, energy_calibration.py L305-308 -/
def removeName (T : Tbl K) (name : String) : Tbl K × Except Exc Unit :=
  match T.names.idxOf? name with
  | some i => removeIdx T i
  | none => (T, .error .value)

/-- `name.startswith(prefix)` (used for energy_calibration.py L312-314) -/
def startsWith (pre name : String) : Bool := pre.toList.isPrefixOf name.toList

/-- the loop of `remove_cal_point_prefix`, energy_calibration.py L312-314, over the snapshot of the names -/
def prefixLoop (pre : String) : List String → Tbl K → Tbl K × Except Exc Unit
  | [], T => (T, .ok ())
  | n :: ns, T => if startsWith pre n then
      match removeName T n with
      | (T', .ok ()) => prefixLoop pre ns T'
      | (T', .error x) => (T', .error x)
    else prefixLoop pre ns T

/-- `remove_cal_point_prefix`, energy_calibration.py L310-314 -/
def removePrefix (T : Tbl K) (pre : String) : Tbl K × Except Exc Unit := prefixLoop pre T.names T

/-- the loop of `remove_cal_point_energy`, energy_calibration.py L320-321 -/
def idxLoop : List Nat → Tbl K → Tbl K × Except Exc Unit
  | [], T => (T, .ok ())
  | i :: is, T => match removeIdx T i with
    | (T', .ok ()) => idxLoop is T'
    | (T', .error x) => (T', .error x)

/-- `remove_cal_point_energy`, energy_calibration.py L316-321: all indices first, then one removal after the other -/
def removeEnergy (T : Tbl K) (energy de : K) : Tbl K × Except Exc Unit :=
  idxLoop ((List.range T.e.length).filter (fun i => |T.e.getD i 0 - energy| < de)) T

/-- `_update_converters`, energy_calibration.py L422-436: the arrays are put in order of pulse height; `np.max` of an empty array raises ValueError. The curves are modelled in Curve.lean. -/
def sortTbl (T : Tbl K) : Tbl K × Except Exc Unit :=
  let s := argsort T.ph
  let T' := { T with ph := s.map (T.ph.getD · 0), e := s.map (T.e.getD · 0), dph := s.map (T.dph.getD · 0), de := s.map (T.de.getD · 0), names := s.map (T.names.getD · "") }
  if T'.npts = T'.ph.length ∧ T'.npts = T'.dph.length ∧ T'.npts = T'.e.length ∧ T'.npts = T'.de.length then
    if T'.npts = 0 then (T', .error .value) else ({ T' with stale := false }, .ok ())
  else (T', .error .assertion)

/-! ### The table as a list of points -/

/-- the five arrays are the columns of `pts` and the count is right [specification] -/
structure Aligned (T : Tbl K) (pts : List (Pt K)) : Prop where
  ph : T.ph = pts.map Pt.ph
  e : T.e = pts.map Pt.e
  dph : T.dph = pts.map Pt.dph
  de : T.de = pts.map Pt.de
  names : T.names = pts.map Pt.name
  npts : T.npts = pts.length

theorem aligned_inj {T : Tbl K} {p q : List (Pt K)} (h : Aligned T p) (h' : Aligned T q) : p = q := by
  have hl : p.length = q.length := by rw [← h.npts, h'.npts]
  refine List.ext_getElem hl (fun i h1 h2 => ?_)
  have a1 := congrArg (·[i]?) (h.ph.symm.trans h'.ph)
  have a2 := congrArg (·[i]?) (h.e.symm.trans h'.e)
  have a3 := congrArg (·[i]?) (h.dph.symm.trans h'.dph)
  have a4 := congrArg (·[i]?) (h.de.symm.trans h'.de)
  have a5 := congrArg (·[i]?) (h.names.symm.trans h'.names)
  simp only [List.getElem?_map, List.getElem?_eq_getElem h1, List.getElem?_eq_getElem h2, Option.map_some, Option.some.injEq] at a1 a2 a3 a4 a5
  rcases hp : p[i] with ⟨b1, b2, b3, b4, b5⟩
  rcases hq : q[i] with ⟨c1, c2, c3, c4, c5⟩
  rw [hp, hq] at a1 a2 a3 a4 a5
  simp only at a1 a2 a3 a4 a5
  rw [a1, a2, a3, a4, a5]

/-- what storing the point does to the list of points; a replaced entry keeps its old name [specification] -/
def put (pts : List (Pt K)) (p : Pt K) : Option Nat → List (Pt K)
  | none => pts ++ [p]
  | some i => pts.set i { p with name := (pts.map Pt.name).getD i "" }

theorem map_set_self {α β : Type} (f : α → β) (l : List α) (i : Nat) (a : α) (h : ∀ x, l[i]? = some x → f a = f x) : (l.set i a).map f = l.map f := by
  refine List.ext_getElem? (fun j => ?_)
  rw [List.getElem?_map, List.getElem?_map, List.getElem?_set]
  split
  · rename_i hj; subst hj
    split
    · rename_i hl
      rw [List.getElem?_eq_getElem hl]
      simp [h _ (List.getElem?_eq_getElem hl)]
    · rename_i hl; simp [List.getElem?_eq_none (by omega : l.length ≤ i)]
  · rfl

theorem store_aligned {T : Tbl K} {pts : List (Pt K)} (h : Aligned T pts) (p : Pt K) (i : Option Nat) : Aligned (store T p i) (put pts p i) := by
  cases i with
  | none =>
    constructor <;> simp [store, put, h.ph, h.e, h.dph, h.de, h.names]
  | some i =>
    refine ⟨?_, ?_, ?_, ?_, ?_, ?_⟩
    · simp [store, put, h.ph, List.map_set]
    · simp [store, put, h.e, List.map_set]
    · simp [store, put, h.dph, List.map_set]
    · simp [store, put, h.de, List.map_set]
    · show T.names = _
      rw [h.names]
      refine (map_set_self Pt.name pts i _ (fun x hx => ?_)).symm
      show (pts.map Pt.name).getD i "" = x.name
      rw [List.getD_eq_getElem?_getD, List.getElem?_map, hx]; rfl
    · simp [store, put, h.ph]

theorem aligned_stale {T : Tbl K} {pts : List (Pt K)} (h : Aligned T pts) (b : Bool) : Aligned { T with stale := b } pts := ⟨h.1, h.2, h.3, h.4, h.5, h.6⟩

theorem removeIdx_aligned {T : Tbl K} {pts : List (Pt K)} (h : Aligned T pts) (i : Nat) :
    (i < pts.length ∧ Aligned (removeIdx T i).1 (pts.eraseIdx i) ∧ (removeIdx T i).2 = .ok ()) ∨ (pts.length ≤ i ∧ removeIdx T i = (T, .error .index)) := by
  have hn : T.names.length = pts.length := by rw [h.names, List.length_map]
  unfold removeIdx
  by_cases hi : i < pts.length
  · rw [if_pos (by omega)]
    refine .inl ⟨hi, ⟨?_, ?_, ?_, ?_, ?_, ?_⟩, rfl⟩
    · simp only [h.ph, ← List.map_take, ← List.map_drop, ← List.map_append, List.eraseIdx_eq_take_drop_succ]
    · simp only [h.e, ← List.map_take, ← List.map_drop, ← List.map_append, List.eraseIdx_eq_take_drop_succ]
    · simp only [h.dph, ← List.map_take, ← List.map_drop, ← List.map_append, List.eraseIdx_eq_take_drop_succ]
    · simp only [h.de, ← List.map_take, ← List.map_drop, ← List.map_append, List.eraseIdx_eq_take_drop_succ]
    · simp only [h.names, ← List.map_take, ← List.map_drop, ← List.map_append, List.eraseIdx_eq_take_drop_succ]
    · show T.npts - 1 = _
      rw [h.npts, List.length_eraseIdx_of_lt hi]
  · rw [if_neg (by omega)]
    exact .inr ⟨by omega, rfl⟩

/-! ### Sorting -/

theorem argsort_perm (l : List K) : (argsort l).Perm (List.range l.length) := List.perm_insertionSort _ _

theorem getD_map' {α β : Type} (f : α → β) (l : List α) (i : Nat) (d : β) (a : α) (hi : i < l.length) : (l.map f).getD i d = f (l.getD i a) := by
  rw [List.getD_eq_getElem?_getD, List.getD_eq_getElem?_getD, List.getElem?_map, List.getElem?_eq_getElem hi]; rfl

/-- the points in the order of the index list [specification] -/
def reorder (pts : List (Pt K)) (s : List Nat) : List (Pt K) := s.map (fun i => pts.getD i ⟨0, 0, 0, 0, ""⟩)

theorem map_range_getD {α : Type} (l : List α) (d : α) : (List.range l.length).map (l.getD · d) = l := by
  refine List.ext_getElem (by simp) (fun i h1 h2 => ?_)
  rw [List.getElem_map, List.getElem_range, List.getD_eq_getElem?_getD, List.getElem?_eq_getElem h2]; rfl

theorem reorder_perm {T : Tbl K} {pts : List (Pt K)} (h : Aligned T pts) : (reorder pts (argsort T.ph)).Perm pts := by
  have := (argsort_perm T.ph).map (fun i => pts.getD i ⟨0, 0, 0, 0, ""⟩)
  rw [h.ph, List.length_map, map_range_getD] at this
  rw [h.ph]
  exact this

theorem sort_aligned {T : Tbl K} {pts : List (Pt K)} (h : Aligned T pts) :
    Aligned (sortTbl T).1 (reorder pts (argsort T.ph)) ∧ ((sortTbl T).2 = .ok () ↔ pts ≠ []) := by
  have hp := reorder_perm h
  have hs : ∀ i ∈ argsort T.ph, i < pts.length := by
    intro i hi
    have := (argsort_perm T.ph).mem_iff.1 hi
    rw [h.ph] at this
    simpa using this
  have col : ∀ {β : Type} (f : Pt K → β) (d : β), (argsort T.ph).map ((pts.map f).getD · d) = (reorder pts (argsort T.ph)).map f := by
    intro β f d
    unfold reorder
    rw [List.map_map]
    refine List.map_congr_left (fun i hi => ?_)
    exact getD_map' f pts i d _ (hs i hi)
  have hA : Aligned { T with ph := (argsort T.ph).map (T.ph.getD · 0), e := (argsort T.ph).map (T.e.getD · 0), dph := (argsort T.ph).map (T.dph.getD · 0), de := (argsort T.ph).map (T.de.getD · 0), names := (argsort T.ph).map (T.names.getD · "") }
      (reorder pts (argsort T.ph)) := by
    refine ⟨?_, ?_, ?_, ?_, ?_, ?_⟩
    · rw [← col Pt.ph 0, ← h.ph]
    · rw [← col Pt.e 0, ← h.e]
    · rw [← col Pt.dph 0, ← h.dph]
    · rw [← col Pt.de 0, ← h.de]
    · rw [← col Pt.name "", ← h.names]
    · show T.npts = _; rw [h.npts, hp.length_eq]
  have hl := hp.length_eq
  unfold sortTbl
  dsimp only
  have hq : T.npts = (argsort T.ph).length := by
    rw [(argsort_perm T.ph).length_eq, List.length_range, h.ph, List.length_map]; exact h.npts
  rw [if_pos ⟨by rw [List.length_map]; exact hq, by rw [List.length_map]; exact hq, by rw [List.length_map]; exact hq, by rw [List.length_map]; exact hq⟩]
  split
  · rename_i h0
    have h0 : T.npts = 0 := h0
    rw [h.npts, List.length_eq_zero_iff] at h0
    exact ⟨hA, by simp [h0]⟩
  · rename_i h0
    have h0 : ¬ T.npts = 0 := h0
    rw [h.npts, List.length_eq_zero_iff] at h0
    exact ⟨aligned_stale hA false, by simp [h0]⟩


theorem argmin_spec (l : List K) : (∀ i m, argmin l = some (i, m) → i < l.length ∧ l[i]? = some m ∧ ∀ x ∈ l, m ≤ x) ∧ (argmin l = none → l = []) := by
  induction l with
  | nil => simp [argmin]
  | cons x xs ih =>
    unfold argmin
    cases h : argmin xs with
    | none =>
      have := ih.2 h
      subst this
      refine ⟨fun i m hm => ?_, by simp⟩
      simp only [Option.some.injEq, Prod.mk.injEq] at hm
      obtain ⟨rfl, rfl⟩ := hm
      simp
    | some r =>
      obtain ⟨i, m⟩ := r
      obtain ⟨h1, h2, h3⟩ := ih.1 i m h
      dsimp only
      split
      · rename_i hx
        refine ⟨fun i' m' hm => ?_, by simp⟩
        simp only [Option.some.injEq, Prod.mk.injEq] at hm
        obtain ⟨rfl, rfl⟩ := hm
        refine ⟨by simp, rfl, fun y hy => ?_⟩
        rcases List.mem_cons.1 hy with rfl | hy
        · exact le_refl _
        · exact le_trans hx (h3 y hy)
      · rename_i hx
        refine ⟨fun i' m' hm => ?_, by simp⟩
        simp only [Option.some.injEq, Prod.mk.injEq] at hm
        obtain ⟨rfl, rfl⟩ := hm
        refine ⟨by simp [h1], by simpa using h2, fun y hy => ?_⟩
        rcases List.mem_cons.1 hy with rfl | hy
        · exact (not_le.1 hx).le
        · exact h3 y hy

theorem set_split {α : Type} (l : List α) (i : Nat) (x : α) (h : i < l.length) : ∃ old, l = l.take i ++ old :: l.drop (i + 1) ∧ l[i]? = some old ∧ l.set i x = l.take i ++ x :: l.drop (i + 1) := by
  refine ⟨l[i], ?_, List.getElem?_eq_getElem h, ?_⟩
  · rw [← List.drop_eq_getElem_cons h, List.take_append_drop]
  · exact List.set_eq_take_append_cons_drop.trans (if_pos h)

theorem not_mem_take_idxOf (l : List String) (a : String) : a ∉ l.take (l.idxOf a) := by
  induction l with
  | nil => simp
  | cons x xs ih =>
    rw [List.idxOf_cons]
    by_cases h : x = a
    · simp [h]
    · have : (x == a) = false := by simpa using h
      rw [this]
      simp only [cond_false, List.take_succ_cons, List.mem_cons, not_or]
      exact ⟨fun e => h e.symm, ih⟩

/-- where a new point goes, in terms of the points: onto the first point of its name; else onto the nearest point in energy if that is within the error; else at the end [specification] -/
inductive Goes (pts : List (Pt K)) (p : Pt K) : List (Pt K) → Prop
  | name (pre old post) : pts = pre ++ old :: post → p.name ≠ "" → old.name = p.name → (∀ q ∈ pre, q.name ≠ p.name) → Goes pts p (pre ++ p :: post)
  | near (pre old post) : pts = pre ++ old :: post → (p.name ≠ "" → ∀ q ∈ pts, q.name ≠ p.name) → |p.e - old.e| ≤ p.de → (∀ q ∈ pts, |p.e - old.e| ≤ |p.e - q.e|) →
      Goes pts p (pre ++ { p with name := old.name } :: post)
  | new : (p.name ≠ "" → ∀ q ∈ pts, q.name ≠ p.name) → (∀ q ∈ pts, p.de < |p.e - q.e|) → Goes pts p (pts ++ [p])

/-- the same for a refused overwrite [specification] -/
def Taken (pts : List (Pt K)) (p : Pt K) : Prop := (p.name ≠ "" ∧ ∃ q ∈ pts, q.name = p.name) ∨ ∃ q ∈ pts, |p.e - q.e| ≤ p.de

theorem target_spec {T : Tbl K} {pts : List (Pt K)} (h : Aligned T pts) (p : Pt K) (ow : Bool) :
    (∀ i, target T p.name p.e p.de ow = .ok i → Goes pts p (put pts p i)) ∧
    (∀ x, target T p.name p.e p.de ow = .error x → x = .value ∧ ow = false ∧ Taken pts p) ∧
    (ow = true → ∃ i, target T p.name p.e p.de ow = .ok i) := by
  unfold target
  by_cases hn : p.name ≠ "" ∧ p.name ∈ T.names
  · rw [if_pos hn]
    obtain ⟨hne, hmem⟩ := hn
    cases ow with
    | false =>
      refine ⟨by simp, fun x hx => ?_, by simp⟩
      simp only [Bool.false_eq_true, if_false, Except.error.injEq] at hx
      refine ⟨hx.symm, rfl, .inl ⟨hne, ?_⟩⟩
      rw [h.names] at hmem
      obtain ⟨q, hq, he⟩ := List.mem_map.1 hmem
      exact ⟨q, hq, he⟩
    | true =>
      refine ⟨fun i hi => ?_, by simp, fun _ => ⟨_, rfl⟩⟩
      simp only [if_true, Except.ok.injEq] at hi
      subst hi
      set i := T.names.idxOf p.name with hidx
      have hi : i < T.names.length := List.idxOf_lt_length_of_mem hmem
      have hil : i < pts.length := by rwa [h.names, List.length_map] at hi
      obtain ⟨old, h1, h2, h3⟩ := set_split pts i { p with name := (pts.map Pt.name).getD i "" } hil
      have hnm : (pts.map Pt.name).getD i "" = p.name := by
        rw [← h.names, List.getD_eq_getElem?_getD, List.getElem?_eq_getElem hi]
        exact List.getElem_idxOf hi
      have hon : old.name = p.name := by
        rw [← hnm, List.getD_eq_getElem?_getD, List.getElem?_map, h2]; rfl
      show Goes pts p (pts.set i _)
      rw [h3, hnm]
      refine .name _ old _ h1 hne hon (fun q hq hqn => ?_)
      have hm : p.name ∈ T.names.take i := by
        rw [h.names, ← List.map_take]
        exact List.mem_map.2 ⟨q, hq, hqn⟩
      exact not_mem_take_idxOf _ _ hm
  · rw [if_neg hn]
    have hno : p.name ≠ "" → ∀ q ∈ pts, q.name ≠ p.name := by
      intro hne q hq he
      exact hn ⟨hne, by rw [h.names]; exact List.mem_map.2 ⟨q, hq, he⟩⟩
    cases ha : (if 0 < T.npts then argmin (T.e.map (fun x => |p.e - x|)) else none) with
    | none =>
      have hemp : pts = [] := by
        by_cases h0 : 0 < T.npts
        · rw [if_pos h0] at ha
          have := (argmin_spec _).2 ha
          rw [h.e] at this
          simpa using this
        · rw [h.npts] at h0
          exact List.length_eq_zero_iff.1 (by omega)
      refine ⟨fun i hi => ?_, by simp, fun _ => ⟨_, rfl⟩⟩
      simp only [Except.ok.injEq] at hi
      subst hi
      exact .new hno (by simp [hemp])
    | some r =>
      obtain ⟨i, m⟩ := r
      have h0 : 0 < T.npts := by
        by_contra h0
        rw [if_neg h0] at ha
        exact absurd ha (by simp)
      rw [if_pos h0] at ha
      obtain ⟨h1, h2, h3⟩ := (argmin_spec _).1 i m ha
      rw [h.e, List.map_map, List.length_map] at h1
      rw [h.e, List.map_map, List.getElem?_map, List.getElem?_eq_getElem h1] at h2
      simp only [Option.map_some, Option.some.injEq, Function.comp] at h2
      have h4 : ∀ q ∈ pts, m ≤ |p.e - q.e| := fun q hq => h3 _ (by
        rw [h.e, List.map_map]; exact List.mem_map.2 ⟨q, hq, rfl⟩)
      dsimp only
      split
      · rename_i hm
        cases ow with
        | false =>
          refine ⟨by simp, fun x hx => ?_, by simp⟩
          simp only [Bool.false_eq_true, if_false, Except.error.injEq] at hx
          exact ⟨hx.symm, rfl, .inr ⟨pts[i], List.getElem_mem h1, by rw [h2]; exact hm⟩⟩
        | true =>
          refine ⟨fun j hj => ?_, by simp, fun _ => ⟨_, rfl⟩⟩
          simp only [if_true, Except.ok.injEq] at hj
          subst hj
          obtain ⟨old, g1, g2, g3⟩ := set_split pts i { p with name := (pts.map Pt.name).getD i "" } h1
          have hold : pts[i] = old := by
            rw [List.getElem?_eq_getElem h1] at g2; injection g2
          have hnm : (pts.map Pt.name).getD i "" = old.name := by
            rw [List.getD_eq_getElem?_getD, List.getElem?_map, g2]; rfl
          show Goes pts p (pts.set i _)
          rw [g3, hnm]
          rw [hold] at h2
          exact .near _ old _ g1 hno (by rw [h2]; exact hm) (fun q hq => by rw [h2]; exact h4 q hq)
      · rename_i hm
        refine ⟨fun j hj => ?_, by simp, fun _ => ⟨_, rfl⟩⟩
        simp only [Except.ok.injEq] at hj
        subst hj
        exact .new hno (fun q hq => lt_of_lt_of_le (not_le.1 hm) (h4 q hq))


/-! ### Adding points -/

/-- the point that a call of `add_cal_point` describes [specification] -/
def thePoint (pht energy : K) (name : String) (pe ee : Option K) : Pt K := ⟨pht, energy, pe.getD (pht * (1 / 1000)), ee.getD (1 / 100), name⟩

theorem addPoint_spec {T : Tbl K} {pts : List (Pt K)} (h : Aligned T pts) (parse feat : String → Option K) (pht : K) (en : EArg K) (name : String) (pe ee : Option K) (ow : Bool) :
    let R := addPoint parse feat T pht en name pe ee ow
    (R.2 = .error .value ∧ Aligned R.1 pts ∧ ((resolve parse feat en name = none) ∨ (ow = false ∧ ∃ e n, resolve parse feat en name = some (e, n) ∧ Taken pts (thePoint pht e n pe ee)))) ∨
    (∃ e n pts', resolve parse feat en name = some (e, n) ∧ Goes pts (thePoint pht e n pe ee) pts' ∧ Aligned R.1 pts' ∧
      ((R.2 = .ok () ∧ argsort (pts'.map Pt.ph) = argsort (pts'.map Pt.e)) ∨ (R.2 = .error .exception ∧ argsort (pts'.map Pt.ph) ≠ argsort (pts'.map Pt.e)))) := by
  dsimp only
  have hs := aligned_stale h true
  unfold addPoint
  dsimp only
  cases hr : resolve parse feat en name with
  | none => exact .inl ⟨rfl, hs, .inl rfl⟩
  | some r =>
    obtain ⟨e, n⟩ := r
    dsimp only
    obtain ⟨h1, h2, h3⟩ := target_spec hs (thePoint pht e n pe ee) ow
    cases ht : target { T with stale := true } n e (ee.getD (1 / 100)) ow with
    | error x =>
      obtain ⟨rfl, hf, hT⟩ := h2 x ht
      exact .inl ⟨rfl, hs, .inr ⟨hf, e, n, rfl, hT⟩⟩
    | ok i =>
      have hg := h1 i ht
      have hA := store_aligned hs (thePoint pht e n pe ee) i
      refine .inr ⟨e, n, _, rfl, hg, ?_⟩
      dsimp only
      show Aligned (if argsort (store _ (thePoint pht e n pe ee) i).ph = argsort (store _ (thePoint pht e n pe ee) i).e then _ else _ : Tbl K × Except Exc Unit).1 _ ∧ _
      rw [hA.ph, hA.e]
      split
      · rename_i hc
        refine ⟨hA, .inl ⟨?_, hc⟩⟩
        rw [← hA.ph, ← hA.e] at hc
        exact congrArg Prod.snd (if_pos hc)
      · rename_i hc
        refine ⟨hA, .inr ⟨?_, hc⟩⟩
        rw [← hA.ph, ← hA.e] at hc
        exact congrArg Prod.snd (if_neg hc)

theorem sorted_by (l : List K) : (argsort l).Pairwise (fun i j => l.getD i 0 ≤ l.getD j 0) := by
  haveI : Std.Total (fun i j : Nat => l.getD i 0 ≤ l.getD j 0) := ⟨fun a b => le_total _ _⟩
  haveI : IsTrans Nat (fun i j : Nat => l.getD i 0 ≤ l.getD j 0) := ⟨fun a b c => le_trans⟩
  exact List.pairwise_insertionSort _ _

/-- equal sort orders make a monotone table -/
theorem mono_of_argsort {pts : List (Pt K)} (h : argsort (pts.map Pt.ph) = argsort (pts.map Pt.e)) : ∀ p ∈ pts, ∀ q ∈ pts, p.ph < q.ph → p.e ≤ q.e := by
  intro p hp q hq hlt
  obtain ⟨i, hi, rfl⟩ := List.getElem_of_mem hp
  obtain ⟨j, hj, rfl⟩ := List.getElem_of_mem hq
  have s1 := sorted_by (pts.map Pt.ph)
  have s2 := sorted_by (pts.map Pt.e)
  rw [← h] at s2
  have mem : ∀ k, k < pts.length → k ∈ argsort (pts.map Pt.ph) := fun k hk => (argsort_perm _).mem_iff.2 (by simpa using hk)
  obtain ⟨a, ha, hia⟩ := List.getElem_of_mem (mem i hi)
  obtain ⟨b, hb, hjb⟩ := List.getElem_of_mem (mem j hj)
  have key : ∀ (f : Pt K → K) k (hk : k < pts.length), (pts.map f).getD k 0 = f pts[k] := by
    intro f k hk
    rw [List.getD_eq_getElem?_getD, List.getElem?_map, List.getElem?_eq_getElem hk]; rfl
  rcases Nat.lt_trichotomy a b with hab | hab | hab
  · have := List.pairwise_iff_getElem.1 s2 a b ha hb hab
    rw [hia, hjb, key Pt.e i hi, key Pt.e j hj] at this
    exact this
  · subst hab
    have hij : i = j := by rw [← hia, ← hjb]
    subst hij
    exact absurd hlt (lt_irrefl _)
  · have := List.pairwise_iff_getElem.1 s1 b a hb ha hab
    rw [hia, hjb, key Pt.ph i hi, key Pt.ph j hj] at this
    exact absurd hlt (not_lt.2 this)

theorem orderedInsert_congr {α : Type} {r s : α → α → Prop} [DecidableRel r] [DecidableRel s] (a : α) (l : List α) (h : ∀ b ∈ l, r a b ↔ s a b) :
    l.orderedInsert r a = l.orderedInsert s a := by
  induction l with
  | nil => rfl
  | cons b l ih =>
    have hb := h b List.mem_cons_self
    simp only [List.orderedInsert_cons]
    by_cases hr : r a b
    · rw [if_pos hr, if_pos (hb.1 hr)]
    · rw [if_neg hr, if_neg (fun hs => hr (hb.2 hs)), ih (fun c hc => h c (List.mem_cons_of_mem _ hc))]

theorem insertionSort_congr {α : Type} {r s : α → α → Prop} [DecidableRel r] [DecidableRel s] (l : List α) (h : ∀ a ∈ l, ∀ b ∈ l, r a b ↔ s a b) :
    l.insertionSort r = l.insertionSort s := by
  induction l with
  | nil => rfl
  | cons a l ih =>
    simp only [List.insertionSort_cons]
    rw [ih (fun x hx y hy => h x (List.mem_cons_of_mem _ hx) y (List.mem_cons_of_mem _ hy))]
    refine orderedInsert_congr a _ (fun b hb => h a List.mem_cons_self b (List.mem_cons_of_mem _ ?_))
    exact (List.perm_insertionSort s l).mem_iff.1 hb

/-- a table whose energies are ordered like its pulse heights passes the test -/
theorem argsort_of_consistent {pts : List (Pt K)} (h : ∀ p ∈ pts, ∀ q ∈ pts, p.ph < q.ph ↔ p.e < q.e) : argsort (pts.map Pt.ph) = argsort (pts.map Pt.e) := by
  unfold argsort
  rw [List.length_map, List.length_map]
  refine insertionSort_congr _ (fun i hi j hj => ?_)
  have hi : i < pts.length := by simpa using hi
  have hj : j < pts.length := by simpa using hj
  have key : ∀ (f : Pt K → K) k (hk : k < pts.length), (pts.map f).getD k 0 = f pts[k] := by
    intro f k hk
    rw [List.getD_eq_getElem?_getD, List.getElem?_map, List.getElem?_eq_getElem hk]; rfl
  rw [key _ _ hi, key _ _ hj, key _ _ hi, key _ _ hj, ← not_lt, ← not_lt]
  exact not_congr (h _ (List.getElem_mem hj) _ (List.getElem_mem hi))

/-! ### Removing points -/

theorem removeName_spec {T : Tbl K} {pts : List (Pt K)} (h : Aligned T pts) (name : String) :
    (∃ pre old post, pts = pre ++ old :: post ∧ old.name = name ∧ (∀ q ∈ pre, q.name ≠ name) ∧ Aligned (removeName T name).1 (pre ++ post) ∧ (removeName T name).2 = .ok ()) ∨
    ((∀ q ∈ pts, q.name ≠ name) ∧ removeName T name = (T, .error .value)) := by
  unfold removeName
  cases hi : T.names.idxOf? name with
  | none =>
    refine .inr ⟨fun q hq he => ?_, rfl⟩
    have : name ∈ T.names := by rw [h.names]; exact List.mem_map.2 ⟨q, hq, he⟩
    exact absurd this (List.idxOf?_eq_none_iff.1 hi)
  | some i =>
    have hmem : name ∈ T.names := by
      by_contra hc
      rw [List.idxOf?_eq_none_iff.2 hc] at hi
      exact absurd hi (by simp)
    have hidx : i = T.names.idxOf name := by
      rw [List.idxOf_eq_getD_idxOf?, hi]; rfl
    have hlt : i < pts.length := by
      have := List.idxOf_lt_length_of_mem hmem
      rw [← hidx, h.names, List.length_map] at this
      exact this
    obtain ⟨old, h1, h2, _⟩ := set_split pts i pts[i] hlt
    rcases removeIdx_aligned h i with ⟨_, hA, hok⟩ | ⟨hge, _⟩
    · refine .inl ⟨_, old, _, h1, ?_, ?_, ?_, hok⟩
      · have h3 : T.names[i]? = some name := by
          rw [hidx]
          rw [List.getElem?_eq_getElem (List.idxOf_lt_length_of_mem hmem), List.getElem_idxOf]
        rw [h.names, List.getElem?_map, h2] at h3
        injection h3
      · intro q hq he
        have : name ∈ T.names.take (T.names.idxOf name) := by
          rw [← hidx, h.names, ← List.map_take]
          exact List.mem_map.2 ⟨q, hq, he⟩
        exact not_mem_take_idxOf _ _ this
      · rw [← List.eraseIdx_eq_take_drop_succ]; exact hA
    · omega

theorem prefixLoop_spec (pre : String) (rest : List (Pt K)) : ∀ (kept : List (Pt K)) (T : Tbl K), Aligned T (kept ++ rest) → (∀ p ∈ kept, startsWith pre p.name = false) →
    Aligned (prefixLoop pre (rest.map Pt.name) T).1 (kept ++ rest.filter (fun p => !startsWith pre p.name)) ∧ (prefixLoop pre (rest.map Pt.name) T).2 = .ok () := by
  induction rest with
  | nil => intro kept T hA _; exact ⟨by simpa [prefixLoop] using hA, rfl⟩
  | cons p rest ih =>
    intro kept T hA hk
    rw [List.map_cons]
    unfold prefixLoop
    by_cases hp : startsWith pre p.name = true
    · rw [if_pos hp]
      rcases removeName_spec hA p.name with ⟨pr, old, post, h1, h2, h3, h4, h5⟩ | ⟨hno, _⟩
      · -- the first point of that name is p itself
        have hpr : pr = kept ∧ old = p ∧ post = rest := by
          have hlen : pr.length = kept.length := by
            rcases Nat.lt_trichotomy pr.length kept.length with hl | hl | hl
            · have : kept[pr.length]? = some old := by
                have := congrArg (·[pr.length]?) h1
                simp only [List.getElem?_append_left hl] at this
                rw [this, List.getElem?_append_right (le_refl _)]; simp
              have hm := List.mem_of_getElem? this
              have := hk old hm
              rw [h2, hp] at this
              exact absurd this (by simp)
            · exact hl
            · have : pr[kept.length]? = some p := by
                have := congrArg (·[kept.length]?) h1
                simp only [List.getElem?_append_left hl] at this
                rw [← this, List.getElem?_append_right (le_refl _)]; simp
              exact absurd rfl (h3 p (List.mem_of_getElem? this))
          have := List.append_inj h1.symm hlen
          have h6 := List.cons.inj this.2
          exact ⟨this.1, h6.1, h6.2⟩
        obtain ⟨rfl, rfl, rfl⟩ := hpr
        cases hR : removeName T old.name with
        | mk T' r =>
          rw [hR] at h4 h5
          cases r with
          | error x => exact absurd h5 (by simp)
          | ok u =>
            dsimp only at h4 ⊢
            have := ih pr T' h4 hk
            rw [List.filter_cons, if_neg (by simp [hp])]
            exact this
      · exact absurd rfl (hno p (by simp))
    · rw [if_neg hp]
      have hf : startsWith pre p.name = false := by simpa using hp
      have := ih (kept ++ [p]) T (by simpa using hA) (fun q hq => by
        rcases List.mem_append.1 hq with hq | hq
        · exact hk q hq
        · rw [List.mem_singleton.1 hq]; exact hf)
      rw [List.filter_cons, if_pos (by simp [hf])]
      simpa using this

end Mass.Calc.Cal
