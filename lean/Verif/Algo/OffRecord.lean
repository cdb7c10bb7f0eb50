import Verif.Algo.FiveLag
import Mathlib.Algebra.Order.Field.Rat
import Mathlib.Data.Rat.Cast.Order
import Mathlib.Tactic.Linarith
/-! Records of OFF files as curves, mass/off/off.py: C205 -/
namespace Mass.Algo.OffRecord
open Mass Mass.Algo

variable {K : Type} [Field K]

/-- the parts of a record that its curve is made of, mass/off/off.py L28-44: numbers of samples, of those before the trigger, and the coefficients; `b` is the number of bases of the file -/
structure Rec (K : Type) (b : Nat) where
  samples : Int
  pre : Int
  coefs : Fin b → K

/-- what an OFF file has of use here once opened, mass/off/off.py L69-90: the frame period, the rows of the basis and of the projectors, the records -/
structure File (K : Type) (b : Nat) where
  period : K
  basis : List (Fin b → K)
  projectors : Fin b → List K
  recs : List (Rec K b)

/-- self[i], mass/off/off.py L119-120: negative indices count from the end, IndexError beyond -/
def get {b : Nat} (f : File K b) (i : Int) : Except Exc (Rec K b) :=
  let j := if i < 0 then i + f.recs.length else i
  if j < 0 then .error .index else
  match f.recs[j.toNat]? with
  | some r => .ok r
  | none => .error .index

/-- `OffFile.sampleTimes`, mass/off/off.py L178-182: np.arange(-pre, samples - pre) * framePeriodSeconds. Simplified: the numbers do not exceed those of int32. -/
def sampleTimes {b : Nat} (f : File K b) (i : Int) : Except Exc (List K) :=
  match get f i with
  | .error x => .error x
  | .ok r => .ok ((List.range ((r.samples - r.pre) - (-r.pre)).toNat).map (fun k : Nat => ((-r.pre + k : Int) : K) * f.period))

/-- `OffFile.modeledPulse`, mass/off/off.py L184-197: basis @ coefs -/
def modeledPulse {b : Nat} (f : File K b) (i : Int) : Except Exc (List K) :=
  match get f i with
  | .error x => .error x
  | .ok r => .ok (f.basis.map (fun row => ∑ k, row k * r.coefs k))

/-- `OffFile.recordXY`, mass/off/off.py L199-200 -/
def recordXY {b : Nat} (f : File K b) (i : Int) : Except Exc (List K × List K) :=
  match sampleTimes f i with
  | .error x => .error x
  | .ok x => match modeledPulse f i with
    | .error e => .error e
    | .ok y => .ok (x, y)

/-- C205. A curve can be had exactly for the indices of the file's records, from the start or from the end; all others are refused with IndexError. -/
theorem index_iff {b : Nat} (f : File K b) (i : Int) :
    ((∃ p, recordXY f i = .ok p) ↔ -(f.recs.length : Int) ≤ i ∧ i < f.recs.length) ∧ ((∀ p, recordXY f i ≠ .ok p) → recordXY f i = .error .index) := by
  have h : (∃ r, get f i = .ok r) ∧ (-(f.recs.length : Int) ≤ i ∧ i < f.recs.length) ∨ get f i = .error .index ∧ ¬ (-(f.recs.length : Int) ≤ i ∧ i < f.recs.length) := by
    unfold get
    by_cases hi : i < 0
    · simp only [hi, if_true]
      by_cases hj : i + f.recs.length < 0
      · right
        simp only [hj, if_true, true_and]
        omega
      · left
        simp only [hj, if_false]
        have : (i + f.recs.length).toNat < f.recs.length := by omega
        rw [List.getElem?_eq_getElem this]
        exact ⟨⟨_, rfl⟩, by omega, by omega⟩
    · simp only [hi, if_false]
      by_cases hl : i < f.recs.length
      · left
        have : i.toNat < f.recs.length := by omega
        rw [List.getElem?_eq_getElem this]
        exact ⟨⟨_, rfl⟩, by omega, hl⟩
      · right
        have : f.recs.length ≤ i.toNat := by omega
        rw [List.getElem?_eq_none this]
        exact ⟨rfl, by omega⟩
  unfold recordXY sampleTimes modeledPulse
  rcases h with ⟨⟨r, hr⟩, h2⟩ | ⟨hr, h2⟩
  · rw [hr]
    exact ⟨⟨fun _ => h2, fun _ => ⟨_, rfl⟩⟩, fun h => absurd rfl (h _)⟩
  · rw [hr]
    exact ⟨⟨fun ⟨p, hp⟩ => by simp at hp, fun h => absurd h h2⟩, fun _ => rfl⟩

/-- C205. Which record an index means: the k-th from the start, or for -k the k-th from the end. -/
theorem which {b : Nat} (f : File K b) (k : Nat) (hk : k < f.recs.length) : get f k = .ok f.recs[k] ∧ get f (-(k : Int) - 1) = .ok (f.recs.reverse[k]'(by simpa using hk)) := by
  constructor
  · unfold get
    have h1 : ¬ (k : Int) < 0 := by omega
    simp only [h1, if_false, Int.toNat_natCast, List.getElem?_eq_getElem hk]
  · unfold get
    have h1 : (-(k : Int) - 1) < 0 := by omega
    have h2 : ¬ (-(k : Int) - 1 + f.recs.length) < 0 := by omega
    have h3 : (-(k : Int) - 1 + f.recs.length).toNat = f.recs.length - 1 - k := by omega
    simp only [h1, if_true, h2, if_false, h3]
    rw [List.getElem?_eq_getElem (by omega), List.getElem_reverse]

/-- C205. The times: one for each sample of the record, the k-th being k less the number of samples before the trigger, in frame periods. -/
theorem times {b : Nat} (f : File K b) (i : Int) (r : Rec K b) (x : List K) (hr : get f i = .ok r) (h : sampleTimes f i = .ok x) :
    x.length = r.samples.toNat ∧ (∀ k, k < r.samples.toNat → x[k]? = some (((k : K) - (r.pre : K)) * f.period)) ∧
    (0 ≤ r.pre → r.pre < r.samples → x[r.pre.toNat]? = some 0) := by
  unfold sampleTimes at h
  rw [hr] at h
  simp only [Except.ok.injEq] at h
  have e : (r.samples - r.pre - -r.pre) = r.samples := by ring
  rw [e] at h
  subst h
  have key : ∀ k, k < r.samples.toNat → ((List.range r.samples.toNat).map (fun k : Nat => ((-r.pre + k : Int) : K) * f.period))[k]? = some (((k : K) - (r.pre : K)) * f.period) := by
    intro k hk
    simp only [List.getElem?_map, List.getElem?_range hk, Option.map_some, Option.some.injEq]
    push_cast
    ring
  refine ⟨by simp, key, fun h0 h1 => ?_⟩
  rw [key r.pre.toNat (by omega)]
  have : ((r.pre.toNat : Nat) : K) = (r.pre : K) := by
    have : ((r.pre.toNat : Nat) : Int) = r.pre := Int.toNat_of_nonneg h0
    rw [← Int.cast_natCast, this]
  rw [this]
  simp

/-- C205. The times increase. -/
theorem times_increase {F : Type} [Field F] [LinearOrder F] [IsStrictOrderedRing F] {b : Nat} (f : File F b) (hp : 0 < f.period) (i : Int) (x : List F) (h : sampleTimes f i = .ok x) (j k : Nat) (hjk : j < k) (hk : k < x.length) :
    x[j] < x[k] := by
  cases hr : get f i with
  | error e => unfold sampleTimes at h; rw [hr] at h; simp at h
  | ok r =>
    obtain ⟨h1, h2, _⟩ := times f i r x hr h
    have a := h2 j (by omega)
    have c := h2 k (by omega)
    rw [List.getElem?_eq_getElem (by omega), Option.some.injEq] at a c
    rw [a, c]
    have : (j : F) < k := by exact_mod_cast hjk
    exact mul_lt_mul_of_pos_right (by linarith) hp

/-- C205. The pulse: as many values as the basis has rows, each the sum of the coefficients times the basis there. -/
theorem pulse {b : Nat} (f : File K b) (i : Int) (r : Rec K b) (y : List K) (hr : get f i = .ok r) (h : modeledPulse f i = .ok y) :
    y.length = f.basis.length ∧ ∀ k (hk : k < f.basis.length), y[k]? = some (∑ c, f.basis[k] c * r.coefs c) := by
  unfold modeledPulse at h
  rw [hr] at h
  simp only [Except.ok.injEq] at h
  subst h
  exact ⟨by simp, fun k hk => by simp [hk]⟩

/-- C205. Projecting the pulse gives the record's coefficients again, if the projectors invert the basis. -/
theorem projected {b : Nat} (f : File K b) (hinv : ∀ a c : Fin b, ∑ k : Fin f.basis.length, (f.projectors a)[(k : Nat)]?.getD 0 * f.basis[k] c = if a = c then 1 else 0)
    (i : Int) (r : Rec K b) (y : List K) (hr : get f i = .ok r) (h : modeledPulse f i = .ok y) (a : Fin b) :
    ∑ k : Fin f.basis.length, (f.projectors a)[(k : Nat)]?.getD 0 * y[(k : Nat)]?.getD 0 = r.coefs a := by
  obtain ⟨_, h2⟩ := pulse f i r y hr h
  have : ∀ k : Fin f.basis.length, (f.projectors a)[(k : Nat)]?.getD 0 * y[(k : Nat)]?.getD 0 = ∑ c, ((f.projectors a)[(k : Nat)]?.getD 0 * f.basis[k] c) * r.coefs c := by
    intro k
    rw [h2 k k.2, Option.getD_some, Finset.mul_sum]
    exact Finset.sum_congr rfl (fun c _ => by rw [mul_assoc]; rfl)
  rw [Finset.sum_congr rfl (fun k _ => this k), Finset.sum_comm]
  have : ∀ c, ∑ k : Fin f.basis.length, ((f.projectors a)[(k : Nat)]?.getD 0 * f.basis[k] c) * r.coefs c = (if a = c then 1 else 0) * r.coefs c := by
    intro c
    rw [← Finset.sum_mul, hinv a c]
  rw [Finset.sum_congr rfl (fun c _ => this c)]
  simp

/-- C205. The curve has a time for each value of the pulse exactly if the record is as long as the basis. -/
theorem curve_partial {b : Nat} (f : File K b) (i : Int) (r : Rec K b) (x y : List K) (hr : get f i = .ok r) (h : recordXY f i = .ok (x, y)) :
    sampleTimes f i = .ok x ∧ modeledPulse f i = .ok y ∧ (x.length = y.length ↔ r.samples.toNat = f.basis.length) := by
  unfold recordXY at h
  cases hx : sampleTimes f i with
  | error e => rw [hx] at h; simp at h
  | ok x' =>
    cases hy : modeledPulse f i with
    | error e => rw [hx, hy] at h; simp at h
    | ok y' =>
      rw [hx, hy] at h
      simp only [Except.ok.injEq, Prod.mk.injEq] at h
      obtain ⟨rfl, rfl⟩ := h
      exact ⟨rfl, rfl, by rw [(times f i r _ hr hx).1, (pulse f i r _ hr hy).1]⟩

/-- Disagreement (C205): a record whose number of samples is not that of the basis has a curve with more or fewer times than values, which cannot be drawn; the file opens without complaint, since only the header's matrices are
compared with each other (mass/off/off.py L136-200). -/
theorem curve_fails : ∃ (f : File ℚ 1) (x y : List ℚ), recordXY f 0 = .ok (x, y) ∧ x.length ≠ y.length :=
  ⟨⟨1, [fun _ => 1, fun _ => 2], fun _ => [1, 0], [⟨3, 1, fun _ => 5⟩]⟩, [-1, 0, 1], [5, 10], by decide +kernel, by decide⟩

-- the last record of a file, with one sample before the trigger
example : recordXY (⟨1 / 2, [fun _ => 1, fun _ => 2, fun _ => 3], fun _ => [1, 0, 0], [⟨3, 1, fun _ => 4⟩, ⟨3, 1, fun _ => 5⟩]⟩ : File ℚ 1) (-1) = .ok ([-1 / 2, 0, 1 / 2], [5, 10, 15]) := by decide +kernel

-- projectors that invert the basis, as `projected` asks
example : ∀ a c : Fin 1, ∑ k : Fin 3, ([1, 0, 0] : List ℚ)[(k : Nat)]?.getD 0 * ([fun _ => 1, fun _ => 2, fun _ => 3] : List (Fin 1 → ℚ))[k] c = if a = c then 1 else 0 := by decide +kernel

end Mass.Algo.OffRecord
