import Verif.Py
/-! C176: pulse heights given one by one, in lists and in arrays (mass/calibration/energy_calibration.py L125-174). What a calibration with points computes is any function of a pulse height, also to NaN and infinite values. -/
namespace Mass.Calc.Shapes
open Mass

/-- a floating-point number (used for energy_calibration.py L150-155) -/
inductive Num
  | fin (q : Rat)
  | nan
  | inf (neg : Bool)
  deriving DecidableEq

/-- what can be given: a scalar, a list, an array of no, one or two dimensions (rows) (energy_calibration.py L134-174) -/
inductive Arg
  | scalar (v : Num)
  | list (l : List Num)
  | arr0 (v : Num)
  | arr (l : List Num)
  | arr2 (rows : List (List Num))
  deriving DecidableEq

/-- the converter `_ph2e`: the default of L125-130, which returns its argument (the same object), or a curve with its derivatives, which makes a new array (energy_calibration.py L109, L446-450) -/
inductive Conv
  | default
  | curve (g : Nat → Num → Num)

/-- NaN and infinite values changed to 0 (energy_calibration.py L150-154) -/
def clean : Num → Num
  | .fin q => .fin q
  | .nan => .fin 0
  | .inf _ => .fin 0

/-- is not a finite number (energy_calibration.py L151, L153) -/
def odd (v : Num) : Bool := decide (v = .nan ∨ v = .inf true ∨ v = .inf false)

/-- `any(np.isnan(result))` of rows: `any` asks the truth of the first row, which is ambiguous for two or more columns (energy_calibration.py L151) -/
def ambiguous (rows : List (List Num)) : Bool :=
  match rows with
  | [] => false
  | r :: _ => decide (2 ≤ r.length)

/-- energy_calibration.py L146-156 for a result: the object computed, whether it is the caller's own; the value returned and the caller's argument afterwards. An array of no dimension cannot be iterated over;
a list cannot be indexed with an array. Rows of two-dimensional arrays have at least one column. -/
def finish (arg res : Arg) (own : Bool) : Except Exc Arg × Arg :=
  match res with
  | .scalar v => (.ok (.scalar v), arg)
  | .arr0 _ => (.error .type, arg)
  | .list l => if l.any odd then (.error .type, arg) else (.ok (.arr l), arg)
  | .arr l => (.ok (.arr (l.map clean)), if own then .arr (l.map clean) else arg)
  | .arr2 rows => if ambiguous rows then (.error .value, arg) else (.ok (.arr2 (rows.map (·.map clean))), if own then .arr2 (rows.map (·.map clean)) else arg)

/-- a curve applied to an argument, always a new object; of a scalar or an array of no dimension a scalar (numpy returns one) (energy_calibration.py L144) -/
def apply (g : Num → Num) : Arg → Arg
  | .scalar v => .scalar (g v)
  | .list l => .arr (l.map g)
  | .arr0 v => .arr0 (g v)
  | .arr l => .arr (l.map g)
  | .arr2 rows => .arr2 (rows.map (·.map g))

/-- `np.zeros_like`, energy_calibration.py L128-129 -/
def zerosLike : Arg → Arg := apply (fun _ => .fin 0)

/-- `ph2energy`, energy_calibration.py L134-156: the result and the caller's argument afterwards -/
def ph2energy (c : Conv) (arg : Arg) (der : Nat) : Except Exc Arg × Arg :=
  match c with
  | .default => if 0 < der then finish arg (zerosLike arg) false else finish arg arg true
  | .curve g => finish arg (apply (g der) arg) false

/-- `energy2ph`, energy_calibration.py L158-174, with the converter of energies -/
def energy2ph (c : Conv) (arg : Arg) : Except Exc Arg × Arg :=
  match c, arg with
  | .default, .list l => (.ok (.arr l), arg)
  | .default, a => (.ok a, arg)
  | .curve g, a => (.ok (apply (g 0) a), arg)

/-! ### theorems -/

/-- [specification] a finite number -/
def Finite (v : Num) : Prop := ∃ q, v = .fin q

theorem clean_finite (v : Num) : Finite (clean v) := by
  cases v with
  | fin q => exact ⟨q, rfl⟩
  | nan => exact ⟨0, rfl⟩
  | inf b => exact ⟨0, rfl⟩

theorem clean_id (v : Num) (h : Finite v) : clean v = v := by
  obtain ⟨q, rfl⟩ := h
  rfl

theorem odd_iff (v : Num) : odd v = false ↔ Finite v := by
  cases v with
  | fin q => simp [odd, Finite]
  | nan => simp [odd, Finite]
  | inf b => cases b <;> simp [odd, Finite]

/-- C176: of a calibration with points, an array or a list of pulse heights gives an array of the same length, whose entries are the energies of the single pulse heights, those that are no finite
numbers replaced by 0; so all are finite. The argument is not changed. -/
theorem array_spec (g : Nat → Num → Num) (l : List Num) (der : Nat) :
    ph2energy (.curve g) (.arr l) der = (.ok (.arr (l.map (fun v => clean (g der v)))), .arr l) ∧
    ph2energy (.curve g) (.list l) der = (.ok (.arr (l.map (fun v => clean (g der v)))), .list l) ∧
    ∀ e ∈ l.map (fun v => clean (g der v)), Finite e := by
  refine ⟨by simp [ph2energy, apply, finish, Function.comp_def], by simp [ph2energy, apply, finish, Function.comp_def], fun e he => ?_⟩
  obtain ⟨v, -, rfl⟩ := List.mem_map.1 he
  exact clean_finite _

/-- C176: a scalar gives a scalar; with a finite energy it is the one an array gives for it. -/
theorem scalar_spec (g : Nat → Num → Num) (v : Num) (der : Nat) :
    ph2energy (.curve g) (.scalar v) der = (.ok (.scalar (g der v)), .scalar v) ∧
    (Finite (g der v) → ∃ e, (ph2energy (.curve g) (.scalar v) der).1 = .ok (.scalar e) ∧ ∀ a b : List Num, (ph2energy (.curve g) (.arr (a ++ v :: b)) der).1 =
      .ok (.arr (a.map (fun v => clean (g der v)) ++ e :: b.map (fun v => clean (g der v))))) := by
  refine ⟨rfl, fun h => ⟨g der v, rfl, fun a b => ?_⟩⟩
  rw [(array_spec g _ der).1, List.map_append, List.map_cons, clean_id _ h]

/-- C176: arrays converted piece by piece and put together are the same as converted at once. -/
theorem pieces (g : Nat → Num → Num) (a b ea eb : List Num) (der : Nat) (ha : (ph2energy (.curve g) (.arr a) der).1 = .ok (.arr ea)) (hb : (ph2energy (.curve g) (.arr b) der).1 = .ok (.arr eb)) :
    (ph2energy (.curve g) (.arr (a ++ b)) der).1 = .ok (.arr (ea ++ eb)) := by
  rw [(array_spec g _ der).1] at ha hb ⊢
  simp only [Except.ok.injEq, Arg.arr.injEq] at ha hb
  rw [List.map_append, ha, hb]

/-- C176: a calibration without points returns finite pulse heights as they are, of a list an array, and changes nothing; its derivatives are 0. -/
theorem default_spec (l : List Num) (h : ∀ v ∈ l, Finite v) (d : Nat) :
    ph2energy .default (.arr l) 0 = (.ok (.arr l), .arr l) ∧ ph2energy .default (.list l) 0 = (.ok (.arr l), .list l) ∧
    ph2energy .default (.arr l) (d + 1) = (.ok (.arr (l.map (fun _ => .fin 0))), .arr l) := by
  have hc : l.map clean = l := by
    rw [List.map_congr_left (g := id) (fun v hv => clean_id v (h v hv)), List.map_id]
  have ho : l.any odd = false := by
    rw [List.any_eq_false]
    intro v hv
    rw [(odd_iff v).2 (h v hv)]
    simp
  refine ⟨?_, ?_, ?_⟩
  · simp [ph2energy, finish, hc]
  · simp [ph2energy, finish, ho]
  · simp [ph2energy, zerosLike, apply, finish, clean]

/-- C176: energy2ph gives an array of the shape given, entry by entry, of any number of dimensions. -/
theorem energy2ph_spec (g : Nat → Num → Num) (l : List Num) (rows : List (List Num)) (v : Num) :
    energy2ph (.curve g) (.arr l) = (.ok (.arr (l.map (g 0))), .arr l) ∧ energy2ph (.curve g) (.list l) = (.ok (.arr (l.map (g 0))), .list l) ∧
    energy2ph (.curve g) (.arr2 rows) = (.ok (.arr2 (rows.map (·.map (g 0)))), .arr2 rows) ∧ energy2ph (.curve g) (.scalar v) = (.ok (.scalar (g 0 v)), .scalar v) := ⟨rfl, rfl, rfl, rfl⟩

/-- Disagreement (C176): a pulse height whose energy is not a finite number gives that value alone and 0 in an array. -/
theorem scalar_differs_fails (g : Nat → Num → Num) (v : Num) (h : ¬ Finite (g 0 v)) :
    (ph2energy (.curve g) (.scalar v) 0).1 = .ok (.scalar (g 0 v)) ∧ (ph2energy (.curve g) (.arr [v]) 0).1 = .ok (.arr [.fin 0]) ∧ g 0 v ≠ .fin 0 := by
  refine ⟨rfl, ?_, fun e => h ⟨0, e⟩⟩
  rw [(array_spec g _ 0).1]
  cases hg : g 0 v with
  | fin q => exact absurd ⟨q, hg⟩ h
  | nan => simp [hg, clean]
  | inf b => simp [hg, clean]

/-- Disagreement (C176): a calibration without points changes the caller's array: every entry that is no finite number becomes 0; a list with such an entry is refused with a TypeError. -/
theorem default_changes_fails (l : List Num) (v : Num) (hv : v ∈ l) (h : ¬ Finite v) :
    (ph2energy .default (.arr l) 0).2 = .arr (l.map clean) ∧ (ph2energy .default (.arr l) 0).2 ≠ .arr l ∧ (ph2energy .default (.list l) 0).1 = .error .type := by
  have e : (ph2energy .default (.arr l) 0).2 = .arr (l.map clean) := by simp [ph2energy, finish]
  refine ⟨e, ?_, ?_⟩
  · rw [e]
    intro hc
    have hc := Arg.arr.inj hc
    obtain ⟨i, hi, rfl⟩ := List.getElem_of_mem hv
    have : (l.map clean)[i]'(by simpa using hi) = l[i] := by simp only [hc]
    rw [List.getElem_map] at this
    exact h (this ▸ clean_finite _)
  · have ho : l.any odd = true := by
      rw [List.any_eq_true]
      refine ⟨v, hv, ?_⟩
      cases ho : odd v with
      | true => rfl
      | false => exact absurd ((odd_iff v).1 ho) h
    simp [ph2energy, finish, ho]

/-- Disagreement (C176): arrays of two dimensions with two or more columns, and arrays of none, are refused by ph2energy whatever they hold; energy2ph takes them. -/
theorem dimensions_fails (c : Conv) (r : List Num) (rows : List (List Num)) (hr : 2 ≤ r.length) (v : Num) :
    (ph2energy c (.arr2 (r :: rows)) 0).1 = .error .value ∧ (ph2energy c (.arr0 v) 0).1 = .error .type ∧ ∃ a, (energy2ph c (.arr2 (r :: rows))).1 = .ok (.arr2 a) := by
  cases c with
  | default => exact ⟨by simp [ph2energy, finish, ambiguous, hr], rfl, _, rfl⟩
  | curve g => exact ⟨by simp [ph2energy, apply, finish, ambiguous, hr], rfl, _, rfl⟩

/-- a curve that has no energy below 0: the logarithm of negative pulse heights -/
example : let g : Nat → Num → Num := fun _ v => match v with
      | .fin q => if q < 0 then .nan else .fin (2 * q)
      | w => w
    ph2energy (.curve g) (.arr [.fin 3, .fin (-1), .inf false]) 0 = (.ok (.arr [.fin 6, .fin 0, .fin 0]), .arr [.fin 3, .fin (-1), .inf false]) ∧
    (ph2energy (.curve g) (.scalar (.fin (-1))) 0).1 = .ok (.scalar .nan) ∧ ph2energy .default (.arr [.fin 3, .nan]) 0 = (.ok (.arr [.fin 3, .fin 0]), .arr [.fin 3, .fin 0]) := by
  decide +kernel

end Mass.Calc.Shapes
