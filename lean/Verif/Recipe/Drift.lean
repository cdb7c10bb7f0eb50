import Verif.Recipe.Props
import Verif.Stat.FirstN
import Verif.Calc.Correct
import Mathlib.Tactic.Ring
/-! C145: learning corrections for OFF channels, and `DriftCorrection` objects. mass/off/channels.py L32-76, L522-581. -/
namespace Mass.Recipe.Drift
variable {K : Type} [Field K] [LinearOrder K] [IsStrictOrderedRing K]

/-- `correctedName` if none is given, mass/off/channels.py L526-527, L548-549, L569-570; the ending is "DC", "PC" or "TC" -/
def target (ending unc : Name) (corrected : Option Name) : Name := corrected.getD (unc ++ ending)

/-- a correction as python function of (indicator, uncorrected): a DriftCorrection (L41-46), PhaseCorrector.correct, or the inner time_drift_correct (L576-579).
A call with another number of arguments is a TypeError. -/
def corrFn (f : K → K → K) : Fn K := ⟨["indicator".toList, "uncorrected".toList], fun l => match l with
  | [x, y] => .ok (f x y)
  | _ => .error .type⟩

/-- learnDriftCorrection, learnPhaseCorrection, learnTimeDriftCorrection, mass/off/channels.py L522-581: `data` are the values of indicator and uncorrected
(getAttr, or its exception), `fit` makes the correction (or raises). -/
def learn (ending : Name) (fit : List (K × K) → Except Exc (K → K → K)) (b : Book K) (ind unc : Name) (corrected : Option Name)
    (data : Except Exc (List (K × K))) (overwrite : Bool) : Except Exc Unit × Book K :=
  match data with
  | .error e => (.error e, b)
  | .ok d =>
    match fit d with
    | .error e => (.error e, b)
    | .ok f =>
      match add b (target ending unc corrected) (corrFn f) (some [ind, unc]) overwrite with
      | (.error e, b') => (.error e, b')
      | (.ok _, b') => (.ok (), b')

/-- the fit of a drift correction: median and slope; `brent` is the minimiser of the entropy, mass/core/analysis_algorithms.pyx L317-337.
np.percentile of no data is an IndexError. -/
def driftFit (brent : List (K × K) → K) (d : List (K × K)) : Except Exc (K → K → K) :=
  if d = [] then .error .index else .ok (Calc.Corr.driftOff (Stat.FirstN.median (d.map Prod.fst)) (brent d))

theorem learn_cases (ending : Name) (fit : List (K × K) → Except Exc (K → K → K)) (b : Book K) (ind unc : Name) (corrected : Option Name)
    (data : Except Exc (List (K × K))) (ow : Bool) :
    (∃ e, learn ending fit b ind unc corrected data ow = (.error e, b)) ∨
      ∃ d f, data = .ok d ∧ fit d = .ok f ∧ learn ending fit b ind unc corrected data ow =
        ((add b (corrected.getD (unc ++ ending)) (corrFn f) (some [ind, unc]) ow).1.map (fun _ => ()), (add b (corrected.getD (unc ++ ending)) (corrFn f) (some [ind, unc]) ow).2) := by
  unfold learn target
  cases data with
  | error e => exact .inl ⟨e, rfl⟩
  | ok d =>
    dsimp only
    cases hf : fit d with
    | error e => exact .inl ⟨e, rfl⟩
    | ok f =>
      refine .inr ⟨d, f, rfl, hf, ?_⟩
      dsimp only
      generalize add b (corrected.getD (unc ++ ending)) (corrFn f) (some [ind, unc]) ow = r
      obtain ⟨r1, r2⟩ := r
      cases r1 <;> rfl

/-- C145. Learning a correction from two different quantities, in any book: either it raises and the book is as before; or afterwards the new name (by default the
old one and an ending) crafts the fitted function of what the two quantities meant before, and every other name crafts what it did. -/
theorem learn_partial {b : Book K} {env : Env K} (h : Inv b env) (ending : Name) (fit : List (K × K) → Except Exc (K → K → K)) {ind unc : Name} (hne : ind ≠ unc)
    (corrected : Option Name) (ht : corrected.getD (unc ++ ending) ≠ tempName) (data : Except Exc (List (K × K))) (ow : Bool) (lnot : K → K) :
    (∃ e, learn ending fit b ind unc corrected data ow = (.error e, b)) ∨
    ∃ d f b', data = .ok d ∧ fit d = .ok f ∧ learn ending fit b ind unc corrected data ow = (.ok (), b') ∧
      (∀ src x y, env.ing ind src = .ok x → env.ing unc src = .ok y → ∃ n, ∀ fuel, n ≤ fuel → craft b' lnot (corrected.getD (unc ++ ending)) src fuel = some (.ok (f x y))) ∧
      (∀ name src fuel, name.dropWhile (· == '!') ≠ corrected.getD (unc ++ ending) → craft b' lnot name src fuel = craft b lnot name src fuel) := by
  rcases learn_cases ending fit b ind unc corrected data ow with he | ⟨d, f, hd, hf, hl⟩
  · exact .inl he
  · rcases add_cases b (corrected.getD (unc ++ ending)) (corrFn f) (some [ind, unc]) ow with ⟨e, h1⟩ | ⟨l, -, h1, -⟩ | ⟨l, hil, -, hb, -, h1⟩
    · rw [h1] at hl
      exact .inl ⟨e, hl⟩
    · exact absurd h1 ht
    · rw [h1] at hl
      refine .inr ⟨d, f, _, hd, hf, hl, ?_, ?_⟩
      · intro src x y hx hy
        have hll : l = [ind, unc] := by
          unfold ingredientList at hil
          dsimp only at hil
          split at hil
          · exact absurd hil (by simp)
          · split at hil
            · injection hil with hil
              exact hil.symm
            · exact absurd hil (by simp)
        subst hll
        have hden := newObj_den h (corrFn f) (l := [ind, unc]) (by simp [hne])
        have hval : env.compose (corrFn f) [ind, unc] src = .ok (f x y) := by
          unfold Env.compose
          simp only [List.map_cons, List.map_nil, evalAll, hx, hy]
          rfl
        have hstrip : (corrected.getD (unc ++ ending)).dropWhile (· == '!') = corrected.getD (unc ++ ending) := by
          cases hn : corrected.getD (unc ++ ending) with
          | nil => rfl
          | cons c t =>
            rw [hn] at hb
            have : c ≠ '!' := by simpa using hb
            rw [List.dropWhile_cons, if_neg (by simpa using this)]
        refine ⟨b.heap.length + 1, fun fuel hfu => ?_⟩
        unfold craft craftCut
        rw [hstrip]
        dsimp only
        rw [Nat.sub_self, lookup_store_self]
        dsimp only
        rw [hden.2 src fuel (by omega), hval]
        split
        · rw [if_pos rfl]
        · rfl
      · intro name src fuel hn
        have hlk : ∀ k : Name, k ≠ corrected.getD (unc ++ ending) → lookup (store b.crafted (corrected.getD (unc ++ ending)) b.heap.length) k = lookup b.crafted k :=
          fun k hk => lookup_store_ne _ _ hk
        refine craft_mono ⟨h.wf, h.bound⟩ ⟨_, rfl⟩ lnot (hlk _ ?_) (hlk _ hn) src fuel
        rintro rfl
        refine hn ?_
        cases hn' : corrected.getD (unc ++ ending) with
        | nil => rfl
        | cons c t =>
          rw [hn'] at hb
          have : c ≠ '!' := by simpa using hb
          rw [List.dropWhile_cons, if_neg (by simpa using this)]

/-- C145. Learning under a name in use, without overwriteRecipe, raises and leaves the book as it was; with two known quantities, a fit that works, and a free name
(or overwriteRecipe) it succeeds. -/
theorem learn_name {b : Book K} (ending : Name) {fit : List (K × K) → Except Exc (K → K → K)} {ind unc : Name} (corrected : Option Name) {d : List (K × K)}
    {f : K → K → K} (hf : fit d = .ok f) (ht : corrected.getD (unc ++ ending) ≠ tempName) (hb : (corrected.getD (unc ++ ending)).head? ≠ some '!')
    (hi : ind ∈ b.base ∨ (lookup b.crafted ind).isSome) (hu : unc ∈ b.base ∨ (lookup b.crafted unc).isSome) (ow : Bool) :
    ((lookup b.crafted (corrected.getD (unc ++ ending))).isSome ∧ ow = false → learn ending fit b ind unc corrected (.ok d) ow = (.error .assertion, b)) ∧
    (¬ ((lookup b.crafted (corrected.getD (unc ++ ending))).isSome ∧ ow = false) → (learn ending fit b ind unc corrected (.ok d) ow).1 = .ok ()) := by
  have hil : ingredientList b (corrFn f) (some [ind, unc]) = .ok [ind, unc] := by
    unfold ingredientList corrFn
    dsimp only
    rw [if_neg (by simp), if_pos]
    simp only [List.all_cons, List.all_nil, Bool.and_true, Bool.and_eq_true, Bool.or_eq_true, List.contains_iff_mem]
    exact ⟨hi, hu⟩
  unfold learn target
  dsimp only
  rw [hf]
  dsimp only
  unfold add
  rw [hil]
  dsimp only
  rw [if_neg ht]
  constructor
  · intro h
    rw [if_pos h]
  · intro h
    rw [if_neg h, if_neg hb]

/-- C145. A drift correction learned from data leaves a pulse whose indicator is the median of the data alone, whatever slope was found; two pulses of equal
uncorrected height differ by slope times the difference of the indicators; and without data it raises. -/
theorem drift_fit (brent : List (K × K) → K) (d : List (K × K)) :
    (driftFit brent [] = .error .index) ∧ (d ≠ [] → ∃ f, driftFit brent d = .ok f ∧ (∀ y, f (Stat.FirstN.median (d.map Prod.fst)) y = y) ∧
      ∀ x x' y, f x y - f x' y = (x - x') * brent d * y) := by
  refine ⟨by simp [driftFit], fun h => ⟨_, by unfold driftFit; rw [if_neg h], ?_, ?_⟩⟩
  · intro y; unfold Calc.Corr.driftOff; ring
  · intro x x' y; unfold Calc.Corr.driftOff; ring

/-- a source with two quantities [specification] -/
def demoSrc : Src ℚ := ⟨fun k => if k = "pretriggerMean".toList then .ok 12 else if k = "filtValue".toList then .ok 100 else .error .key, .error .key⟩
/-- [specification] -/
def demoBook : Book ℚ := newBook ℚ ["pretriggerMean".toList, "filtValue".toList]
/-- [specification] -/
def demoFit : List (ℚ × ℚ) → Except Exc (ℚ → ℚ → ℚ) := driftFit (fun d => d.length / 100)

/-- C145, instance: learn a drift correction, then one of the corrected heights -/
example : (learn "DC".toList demoFit demoBook "pretriggerMean".toList "filtValue".toList none (.ok [(10, 90), (11, 95)]) false).1 = .ok () ∧
    craft (learn "DC".toList demoFit demoBook "pretriggerMean".toList "filtValue".toList none (.ok [(10, 90), (11, 95)]) false).2 id "filtValueDC".toList demoSrc 9 =
      some (.ok 103) ∧
    craft (learn "DC".toList demoFit (learn "DC".toList demoFit demoBook "pretriggerMean".toList "filtValue".toList none (.ok [(10, 90), (11, 95)]) false).2
      "pretriggerMean".toList "filtValueDC".toList none (.ok [(10, 90)]) false).2 id "filtValueDCDC".toList demoSrc 9 = some (.ok (103 * (51 / 50))) := by decide +kernel

/-- Disagreement (C145): a correction learned with the same quantity as indicator and as uncorrected value is accepted, but crafting it raises TypeError: the
function is called with one argument. -/
theorem same_fails : ∀ (b : Book ℚ), Inv b (fun _ => none) → "filtValue".toList ∈ b.base → ∀ d : List (ℚ × ℚ), d ≠ [] → ∀ src : Src ℚ, ∀ y, src.get "filtValue".toList = .ok y →
    ∃ b' , learn "DC".toList demoFit b "filtValue".toList "filtValue".toList none (.ok d) true = (.ok (), b') ∧
      ∃ n, ∀ fuel, n ≤ fuel → craft b' id "filtValueDC".toList src fuel = some (.error .type) := by
  intro b hinv hb d hd src y hy
  obtain ⟨f, hf, -⟩ := (drift_fit (K := ℚ) (fun d => d.length / 100) d).2 hd
  have hil : ingredientList b (corrFn f) (some ["filtValue".toList, "filtValue".toList]) = .ok ["filtValue".toList, "filtValue".toList] := by
    unfold ingredientList corrFn
    dsimp only
    rw [if_neg (by simp), if_pos]
    simp only [List.all_cons, List.all_nil, Bool.and_true, Bool.and_eq_true, Bool.or_eq_true, List.contains_iff_mem]
    exact ⟨.inl hb, .inl hb⟩
  have hlk : lookup b.crafted "filtValue".toList = none := by
    cases hk : lookup b.crafted "filtValue".toList with
    | none => rfl
    | some a => obtain ⟨g, hg, -⟩ := hinv.some _ a hk; exact absurd hg (by simp)
  have hfit : demoFit d = .ok f := hf
  refine ⟨{ b with heap := b.heap ++ [newObj b (corrFn f) ["filtValue".toList, "filtValue".toList]], crafted := store b.crafted "filtValueDC".toList b.heap.length }, ?_, 2, ?_⟩
  · unfold learn target
    dsimp only
    rw [hfit]
    dsimp only
    unfold add
    rw [hil]
    dsimp only
    rw [if_neg (by decide), if_neg (by simp), if_neg (by decide)]
    rfl
  · intro fuel hfu
    obtain ⟨k, rfl⟩ : ∃ k, fuel = k + 2 := ⟨fuel - 2, by omega⟩
    unfold craft
    rw [if_neg (by decide)]
    dsimp only
    rw [lookup_store_self]
    dsimp only
    unfold call
    rw [List.getElem?_append_right (Nat.le_refl _)]
    simp only [Nat.sub_self, List.getElem?_cons_zero]
    have hi : (newObj b (corrFn f) ["filtValue".toList, "filtValue".toList]).i2a = [("filtValue".toList, none)] := by
      unfold newObj
      have : dictKeys [] ["filtValue".toList, "filtValue".toList] = ["filtValue".toList] := by decide
      dsimp only
      rw [this]
      simp only [List.map_cons, List.map_nil, hlk]
    rw [hi]
    simp only [collect, ingVal]
    rw [if_neg (by decide), hy]
    rfl

/-! ### saving drift corrections -/

/-- a number that may be NaN (`none`) [specification] -/
abbrev Num (K : Type) := Option K

/-- a DriftCorrection object, mass/off/channels.py L32-39 -/
structure DC (K : Type) where
  ind : Name
  unc : Name
  median : Num K
  slope : Num K

/-- a dataset -/
inductive Val (K : Type) where
  | str (s : Name)
  | num (x : Num K)
  | int (n : Int)
  deriving DecidableEq

/-- datasets of an HDF5 group, by path. Simplified: intermediate groups are not modelled. -/
abbrev H5 (K : Type) := List (Name × Val K)

/-- `hdf5_group[path][()]`: KeyError without the dataset (used for channels.py L57-61) -/
def H5.read (g : H5 K) (p : Name) : Except Exc (Val K) :=
  match g.find? (fun e => e.1 == p) with
  | some e => .ok e.2
  | none => .error .key

/-- `hdf5_group[path] = value`: an existing dataset is an error (used for channels.py L49-53) -/
def H5.write (g : H5 K) (p : Name) (v : Val K) : Except Exc Unit × H5 K :=
  if (g.map Prod.fst).contains p then (.error .os, g) else (.ok (), g ++ [(p, v)])

/-- f"{name}/{key}" (used for channels.py L49-61) -/
def path (name key : Name) : Name := name ++ '/' :: key

/-- the assignments of `toHDF5` in order; the first that raises ends it (used for channels.py L48-53) -/
def writes (g : H5 K) : List (Name × Val K) → Except Exc Unit × H5 K
  | [] => (.ok (), g)
  | (p, v) :: t =>
    match g.write p v with
    | (.error e, g') => (.error e, g')
    | (.ok _, g') => writes g' t

/-- `toHDF5`, mass/off/channels.py L48-53 -/
def toH5 (g : H5 K) (name : Name) (c : DC K) : Except Exc Unit × H5 K :=
  writes g [(path name "indicatorName".toList, .str c.ind), (path name "uncorrectedName".toList, .str c.unc), (path name "medianIndicator".toList, .num c.median),
    (path name "slope".toList, .num c.slope), (path name "version".toList, .int 1)]

/-- the text of a dataset (tostr), a number of a dataset: other kinds are not looked at (used for channels.py L57-60) -/
def Val.asStr : Val K → Name
  | .str s => s
  | _ => []
/-- see `Val.asStr` (used for channels.py L59-60) -/
def Val.asNum : Val K → Num K
  | .num x => x
  | _ => none

/-- `fromHDF5`, mass/off/channels.py L55-64 -/
def fromH5 (g : H5 K) (name : Name) : Except Exc (DC K) := do
  let i ← g.read (path name "indicatorName".toList)
  let u ← g.read (path name "uncorrectedName".toList)
  let m ← g.read (path name "medianIndicator".toList)
  let s ← g.read (path name "slope".toList)
  let v ← g.read (path name "version".toList)
  if v = .int 1 then .ok ⟨i.asStr, u.asStr, m.asNum, s.asNum⟩ else .error .assertion

/-- python `==` of numbers: NaN equals nothing (used for channels.py L66-71) -/
def numEq (a b : Num K) : Bool :=
  match a, b with
  | some x, some y => decide (x = y)
  | _, _ => false

/-- `__eq__` of two objects that share no number object, mass/off/channels.py L66-71 -/
def DC.eq (c d : DC K) : Bool := decide (c.ind = d.ind) && decide (c.unc = d.unc) && numEq c.median d.median && numEq c.slope d.slope

theorem path_inj {a b k l : Name} (hk : '/' ∉ k) (hl : '/' ∉ l) (h : path a k = path b l) : a = b ∧ k = l := by
  unfold path at h
  have hr := congrArg List.reverse h
  simp only [List.reverse_append, List.reverse_cons, List.append_assoc, List.singleton_append] at hr
  have hk' : '/' ∉ k.reverse := by simpa using hk
  have hl' : '/' ∉ l.reverse := by simpa using hl
  have key : ∀ (x y u v : List Char), '/' ∉ x → '/' ∉ y → x ++ '/' :: u = y ++ '/' :: v → x = y ∧ u = v := by
    intro x
    induction x with
    | nil =>
      intro y u v hx hy h
      cases y with
      | nil => simpa using h
      | cons c t => simp only [List.nil_append, List.cons_append, List.cons.injEq] at h; simp [← h.1] at hy
    | cons c t ih =>
      intro y u v hx hy h
      cases y with
      | nil => simp only [List.nil_append, List.cons_append, List.cons.injEq] at h; simp [h.1] at hx
      | cons c' t' =>
        simp only [List.cons_append, List.cons.injEq] at h
        have := ih t' u v (by simp_all) (by simp_all) h.2
        exact ⟨by rw [h.1, this.1], this.2⟩
  have := key _ _ _ _ hk' hl' hr
  exact ⟨List.reverse_injective this.2, List.reverse_injective this.1⟩

theorem read_append (g h : H5 K) (p : Name) (hp : p ∉ h.map Prod.fst) : H5.read (g ++ h) p = H5.read g p := by
  unfold H5.read
  have : h.find? (fun e => e.1 == p) = none := by
    rw [List.find?_eq_none]
    intro e he
    simp only [beq_iff_eq]
    rintro rfl
    exact hp (List.mem_map_of_mem he)
  rw [List.find?_append, this, Option.or_none]

theorem writes_ok (g : H5 K) (l : List (Name × Val K)) (hnd : (l.map Prod.fst).Nodup) (hd : ∀ p ∈ l.map Prod.fst, p ∉ g.map Prod.fst) : writes g l = (.ok (), g ++ l) := by
  induction l generalizing g with
  | nil => simp [writes]
  | cons e t ih =>
    obtain ⟨p, v⟩ := e
    unfold writes H5.write
    rw [List.map_cons, List.nodup_cons] at hnd
    have hp : (g.map Prod.fst).contains p = false := by
      rw [Bool.eq_false_iff]
      intro hc
      rw [List.contains_iff_mem] at hc
      exact hd p (by simp) hc
    rw [hp]
    simp only [Bool.false_eq_true, if_false]
    rw [ih _ hnd.2 ?_, List.append_assoc]
    · rfl
    · intro q hq hm
      rw [List.map_append, List.mem_append] at hm
      rcases hm with hm | hm
      · exact hd q (by simp [hq]) hm
      · simp only [List.map_cons, List.map_nil, List.mem_singleton] at hm
        rw [hm] at hq
        exact hnd.1 hq

/-- no dataset of the group lies under this name [specification] -/
def Free (g : H5 K) (name : Name) : Prop := ∀ k, path name k ∉ g.map Prod.fst

/-- what `toH5` adds [specification] -/
def sets (name : Name) (c : DC K) : List (Name × Val K) :=
  [(path name "indicatorName".toList, .str c.ind), (path name "uncorrectedName".toList, .str c.unc), (path name "medianIndicator".toList, .num c.median),
    (path name "slope".toList, .num c.slope), (path name "version".toList, .int 1)]

theorem sets_nodup (name : Name) (c : DC K) : ((sets name c).map Prod.fst).Nodup := by
  have : (sets name c).map Prod.fst = (["indicatorName".toList, "uncorrectedName".toList, "medianIndicator".toList, "slope".toList, "version".toList] : List Name).map (path name) := rfl
  rw [this]
  refine List.Nodup.map_on ?_ (by decide)
  intro x _ y _ h
  unfold path at h
  simpa using h

theorem toH5_free {g : H5 K} {name : Name} (h : Free g name) (c : DC K) : toH5 g name c = (.ok (), g ++ sets name c) := by
  refine writes_ok g (sets name c) (sets_nodup name c) ?_
  intro p hp
  simp only [sets, List.map_cons, List.map_nil, List.mem_cons, List.not_mem_nil, or_false] at hp
  rcases hp with rfl | rfl | rfl | rfl | rfl <;> exact h _

theorem read_set {g : H5 K} {name : Name} (h : Free g name) (k : Name) (v : Val K) (l : List (Name × Val K)) (hnd : (l.map Prod.fst).Nodup) (hm : (path name k, v) ∈ l) :
    H5.read (g ++ l) (path name k) = .ok v := by
  unfold H5.read
  have h0 : g.find? (fun e => e.1 == path name k) = none := by
    rw [List.find?_eq_none]
    intro e he
    simp only [beq_iff_eq]
    intro h1
    exact h k (h1 ▸ List.mem_map_of_mem he)
  have h1 : l.find? (fun e => e.1 == path name k) = some (path name k, v) := by
    clear h h0
    induction l with
    | nil => simp at hm
    | cons e t ih =>
      rw [List.map_cons, List.nodup_cons] at hnd
      rw [List.find?_cons]
      rcases List.mem_cons.1 hm with rfl | hm'
      · simp
      · have : (e.1 == path name k) = false := by
          rw [beq_eq_false_iff_ne]
          intro h2
          exact hnd.1 (h2 ▸ List.mem_map_of_mem (f := Prod.fst) hm')
        rw [this]
        exact ih hnd.2 hm'
  rw [List.find?_append, h0, h1]
  rfl

theorem fromH5_sets {g : H5 K} {name : Name} (h : Free g name) (c : DC K) : fromH5 (g ++ sets name c) name = .ok c := by
  unfold fromH5
  have r := fun k v hm => read_set h k v (sets name c) (sets_nodup name c) hm
  rw [r "indicatorName".toList (.str c.ind) (by simp [sets]), r "uncorrectedName".toList (.str c.unc) (by simp [sets]), r "medianIndicator".toList (.num c.median) (by simp [sets]),
    r "slope".toList (.num c.slope) (by simp [sets]), r "version".toList (.int 1) (by simp [sets])]
  rfl

/-- C145. A drift correction saved under a free name is read back as it was; it is equal (`==`) to the saved one exactly when neither number is NaN. -/
theorem saved {g : H5 K} {name : Name} (h : Free g name) (c : DC K) :
    ∃ g', toH5 g name c = (.ok (), g') ∧ fromH5 g' name = .ok c ∧ (∀ p ∈ g.map Prod.fst, H5.read g' p = H5.read g p) ∧
      (c.eq c = true ↔ c.median.isSome ∧ c.slope.isSome) := by
  refine ⟨_, toH5_free h c, fromH5_sets h c, ?_, ?_⟩
  · intro p hp
    refine read_append g _ p ?_
    intro hm
    simp only [sets, List.map_cons, List.map_nil, List.mem_cons, List.not_mem_nil, or_false] at hm
    rcases hm with rfl | rfl | rfl | rfl | rfl <;> exact h _ hp
  · unfold DC.eq numEq
    cases c.median <;> cases c.slope <;> simp

/-- C145. Corrections under two names with different text before the last '/' do not disturb each other. -/
theorem saved_two {g : H5 K} {a b : Name} (ha : Free g a) (hb : Free g b) (hab : a ≠ b) (c d : DC K)
    : fromH5 (toH5 (toH5 g a c).2 b d).2 a = .ok c ∧ fromH5 (toH5 (toH5 g a c).2 b d).2 b = .ok d := by
  have keys : ∀ (n : Name) (c : DC K) p, p ∈ (sets n c).map Prod.fst → ∃ k : Name, '/' ∉ k ∧ p = path n k := by
    intro n c p hp
    simp only [sets, List.map_cons, List.map_nil, List.mem_cons, List.not_mem_nil, or_false] at hp
    rcases hp with rfl | rfl | rfl | rfl | rfl
    · exact ⟨_, by decide, rfl⟩
    · exact ⟨_, by decide, rfl⟩
    · exact ⟨_, by decide, rfl⟩
    · exact ⟨_, by decide, rfl⟩
    · exact ⟨_, by decide, rfl⟩
  have hw : toH5 (g ++ sets a c) b d = (.ok (), g ++ sets a c ++ sets b d) := by
    refine writes_ok _ (sets b d) (sets_nodup b d) ?_
    intro p hp
    obtain ⟨k, hk, rfl⟩ := keys b d p hp
    rw [List.map_append, List.mem_append]
    rintro (h1 | h1)
    · exact hb k h1
    · obtain ⟨l, hl, he⟩ := keys a c _ h1
      exact hab (path_inj hk hl he).1.symm
  rw [toH5_free ha c]
  dsimp only
  rw [hw]
  dsimp only
  constructor
  · have hr : ∀ k : Name, '/' ∉ k → H5.read (g ++ sets a c ++ sets b d) (path a k) = H5.read (g ++ sets a c) (path a k) := by
      intro k hk
      refine read_append _ _ _ ?_
      intro h1
      obtain ⟨l, hl, he⟩ := keys b d _ h1
      exact hab (path_inj hk hl he).1
    have h0 := fromH5_sets ha c
    unfold fromH5 at h0 ⊢
    rw [hr _ (by decide), hr _ (by decide), hr _ (by decide), hr _ (by decide), hr _ (by decide)]
    exact h0
  · have r := fun (k : Name) v hm (hk : '/' ∉ k) => by
      have h1 : H5.read (g ++ sets a c ++ sets b d) (path b k) = .ok v := by
        have h0 : (g ++ sets a c).find? (fun e => e.1 == path b k) = none := by
          rw [List.find?_eq_none]
          intro e he
          simp only [beq_iff_eq]
          intro h1
          rcases List.mem_append.1 he with he | he
          · exact hb k (h1 ▸ List.mem_map_of_mem he)
          · obtain ⟨l, hl, he'⟩ := keys a c e.1 (List.mem_map_of_mem he)
            rw [h1] at he'
            exact hab (path_inj hk hl he').1.symm
        have h2 := read_set (g := []) (name := b) (by intro k; simp) k v (sets b d) (sets_nodup b d) hm
        unfold H5.read at h2 ⊢
        rw [List.find?_append, h0]
        rw [List.nil_append] at h2
        exact h2
      exact h1
    unfold fromH5
    rw [r "indicatorName".toList (.str d.ind) (by simp [sets]) (by decide), r "uncorrectedName".toList (.str d.unc) (by simp [sets]) (by decide),
      r "medianIndicator".toList (.num d.median) (by simp [sets]) (by decide), r "slope".toList (.num d.slope) (by simp [sets]) (by decide),
      r "version".toList (.int 1) (by simp [sets]) (by decide)]
    rfl

/-- C145. Saving again under the same name raises and what was saved first is still there. -/
theorem saved_twice {g : H5 K} {name : Name} (h : Free g name) (c d : DC K) :
    (toH5 (toH5 g name c).2 name d).1 = .error .os ∧ fromH5 (toH5 (toH5 g name c).2 name d).2 name = .ok c := by
  rw [toH5_free h c]
  dsimp only
  have hw : toH5 (g ++ sets name c) name d = (.error .os, g ++ sets name c) := by
    unfold toH5 writes H5.write
    rw [if_pos]
    rw [List.contains_iff_mem]
    simp [sets]
  rw [hw]
  exact ⟨rfl, fromH5_sets h c⟩

/-- C145. Reading from a group in which one of the datasets is missing raises KeyError. -/
theorem read_missing {g : H5 K} {name key : Name} (hk : key ∈ ["indicatorName", "uncorrectedName", "medianIndicator", "slope", "version"].map String.toList)
    (h : path name key ∉ g.map Prod.fst) : fromH5 g name = .error .key := by
  have hall : ∀ q, H5.read g q = .error .key ∨ ∃ v, H5.read g q = .ok v := by
    intro q
    unfold H5.read
    split <;> simp
  have hm : H5.read g (path name key) = .error .key := by
    unfold H5.read
    rw [List.find?_eq_none.2]
    intro e he hq
    exact h (List.mem_map.2 ⟨e, he, by simpa using hq⟩)
  unfold fromH5
  simp only [List.map_cons, List.map_nil, List.mem_cons, List.not_mem_nil, or_false] at hk
  rcases hall (path name "indicatorName".toList) with h1 | ⟨v1, h1⟩
  · rw [h1]; rfl
  rcases hall (path name "uncorrectedName".toList) with h2 | ⟨v2, h2⟩
  · rw [h1, h2]; rfl
  rcases hall (path name "medianIndicator".toList) with h3 | ⟨v3, h3⟩
  · rw [h1, h2, h3]; rfl
  rcases hall (path name "slope".toList) with h4 | ⟨v4, h4⟩
  · rw [h1, h2, h3, h4]; rfl
  rcases hall (path name "version".toList) with h5 | ⟨v5, h5⟩
  · rw [h1, h2, h3, h4, h5]; rfl
  rcases hk with rfl | rfl | rfl | rfl | rfl
  · rw [hm] at h1; cases h1
  · rw [hm] at h2; cases h2
  · rw [hm] at h3; cases h3
  · rw [hm] at h4; cases h4
  · rw [hm] at h5; cases h5

/-- C145. Whatever is read was written by this version: another version number is an AssertionError and a missing dataset a KeyError. -/
theorem read_version {g : H5 K} {name : Name} {c : DC K} (h : fromH5 g name = .ok c) : H5.read g (path name "version".toList) = .ok (.int 1) := by
  unfold fromH5 at h
  cases h1 : H5.read g (path name "indicatorName".toList) with
  | error e => rw [h1] at h; exact absurd h (by simp [Bind.bind, Except.bind])
  | ok v1 =>
    cases h2 : H5.read g (path name "uncorrectedName".toList) with
    | error e => rw [h1, h2] at h; exact absurd h (by simp [Bind.bind, Except.bind])
    | ok v2 =>
      cases h3 : H5.read g (path name "medianIndicator".toList) with
      | error e => rw [h1, h2, h3] at h; exact absurd h (by simp [Bind.bind, Except.bind])
      | ok v3 =>
        cases h4 : H5.read g (path name "slope".toList) with
        | error e => rw [h1, h2, h3, h4] at h; exact absurd h (by simp [Bind.bind, Except.bind])
        | ok v4 =>
          cases h5 : H5.read g (path name "version".toList) with
          | error e => rw [h1, h2, h3, h4, h5] at h; exact absurd h (by simp [Bind.bind, Except.bind])
          | ok v5 =>
            rw [h1, h2, h3, h4, h5] at h
            simp only [Bind.bind, Except.bind] at h
            split at h
            · rename_i hv; rw [hv]
            · exact absurd h (by simp)

/-- C145. Equality is symmetric and transitive, and equal corrections have equal hashes (any function of the two names and the two numbers) and correct alike. -/
theorem eq_laws (c d e : DC K) : (c.eq d = d.eq c) ∧ (c.eq d = true → d.eq e = true → c.eq e = true) ∧ (c.eq d = true → c = d) := by
  obtain ⟨ci, cu, cm, cs⟩ := c
  obtain ⟨di, du, dm, ds⟩ := d
  obtain ⟨ei, eu, em, es⟩ := e
  unfold DC.eq numEq
  refine ⟨?_, ?_, ?_⟩
  · cases cm <;> cases cs <;> cases dm <;> cases ds <;> simp [eq_comm]
  · cases cm <;> cases cs <;> cases dm <;> cases ds <;> cases em <;> cases es <;> simp <;> intros <;> simp_all
  · cases cm <;> cases cs <;> cases dm <;> cases ds <;> simp <;> intros <;> simp_all

/-- C145, instance -/
example : (fromH5 (toH5 (toH5 ([] : H5 ℚ) "dc".toList ⟨"pretriggerMean".toList, "filtValue".toList, some 10, some (1 / 2)⟩).2 "dc2".toList
      ⟨"relTimeSec".toList, "filtValueDC".toList, some 3, none⟩).2 "dc".toList).map (fun c => (c.ind, c.median, c.slope, c.eq c)) =
    .ok ("pretriggerMean".toList, some 10, some (1 / 2), true) := by decide +kernel

/-- Disagreement (C145): a correction whose slope is NaN, saved and read back, does not equal the one saved. -/
theorem nan_fails (g : H5 K) (name i u : Name) (h : Free g name) (m : Num K) : ∃ c, fromH5 (toH5 g name ⟨i, u, m, none⟩).2 name = .ok c ∧ c.eq ⟨i, u, m, none⟩ = false := by
  refine ⟨⟨i, u, m, none⟩, ?_, ?_⟩
  · rw [toH5_free h]; exact fromH5_sets h _
  · unfold DC.eq numEq
    simp

/-- Disagreement (C145): saving is not all or nothing. With a dataset "dc/slope" already there, saving under "dc" raises after three datasets were written; reading
"dc" then raises, and so does every later attempt to save. -/
theorem broken_fails (c d : DC ℚ) : (toH5 ([("dc/slope".toList, .num (some 1))] : H5 ℚ) "dc".toList c).1 = .error .os ∧
    (∃ e, fromH5 (toH5 ([("dc/slope".toList, .num (some 1))] : H5 ℚ) "dc".toList c).2 "dc".toList = .error e) ∧
    (toH5 (toH5 ([("dc/slope".toList, .num (some 1))] : H5 ℚ) "dc".toList c).2 "dc".toList d).1 = .error .os := by
  refine ⟨rfl, ⟨_, rfl⟩, rfl⟩

end Mass.Recipe.Drift
