import Verif.Py
import Mathlib.Algebra.Order.Field.Basic
import Mathlib.Algebra.Order.Field.Rat
import Mathlib.Topology.ContinuousOn
import Mathlib.Topology.Instances.Real.Lemmas
import Mathlib.Topology.Algebra.Field
import Mathlib.Tactic.Linarith
import Mathlib.Tactic.Ring
import Mathlib.Tactic.FieldSimp
import Mathlib.Tactic.NormNum
/-! Drift and phase corrections: mass/off/channels.py, mass/core/channel.py, mass/core/phase_correct.py (C46), and saving of phase corrections (C70). Exact arithmetic. -/
namespace Mass.Calc.Corr
open Mass

variable {K : Type} [Field K] [LinearOrder K] [IsStrictOrderedRing K]

/-- `DriftCorrection.apply`, mass/off/channels.py L47-49 -/
def driftOff (median slope indicator x : K) : K := (1 + (indicator - median) * slope) * x

/-- `_apply_drift_correction`, mass/core/channel.py L1733-1740, for one pulse -/
def driftLjh (median slope ptm x : K) : K := x * (1 + (ptm - median) * slope)

/-- np.clip(x, -0.6, 0.6), mass/core/phase_correct.py L49 -/
def clip6 (x : K) : K := min (max x (-(6 / 10))) (6 / 10)

/-- the peak positions `ph`, phase_correct.py L267: 0, then every correction at phase 0 -/
def knots (cs : List (K → K)) : List K := 0 :: cs.map (fun c => c 0)

/-- `corr[i]` for one pulse, phase_correct.py L269-271 -/
def corr (cs : List (K → K)) (phase : K) (i : Nat) : K :=
  match i with
  | 0 => 0
  | i + 1 => match cs[i]? with
    | some c => c 0 - c phase
    | none => 0

/-- np.digitize(x, ph) for increasing ph, phase_correct.py L275: how many knots are at or below x -/
def digitize (ph : List K) (x : K) : Nat := ph.countP (fun p => decide (p ≤ x))

/-- one turn of the loop phase_correct.py L276-284 for one pulse -/
def turn (cs : List (K → K)) (phase x : K) (acc : K) (b : Nat) : K :=
  let ph := knots cs
  if (if b + 1 = cs.length then 1 + b ≤ digitize ph x else digitize ph x = 1 + b) then
    let frac := (x - ph.getD b 0) / (ph.getD (b + 1) 0 - ph.getD b 0)
    acc + (frac * corr cs phase (b + 1) + (1 - frac) * corr cs phase b)
  else acc

/-- `_phase_corrected_filtvals` for one pulse, phase_correct.py L274-285 -/
def correct1 (cs : List (K → K)) (phase x : K) : K := (List.range cs.length).foldl (turn cs phase x) x

/-- strictly increasing, the second assertion phase_correct.py L268 -/
def increasing : List K → Bool
  | a :: b :: l => decide (a < b) && increasing (b :: l)
  | _ => true

/-- `_phase_corrected_filtvals`, phase_correct.py L255-285 -/
def correctAll (cs : List (K → K)) (phases xs : List K) : Except Exc (List K) :=
  if phases.length ≠ xs.length then .error .assertion
  else if increasing (knots cs) = false then .error .assertion
  else .ok (List.zipWith (correct1 cs) phases xs)

/-- `PhaseCorrector.correct`, phase_correct.py L44-51: `unif` is the phase uniformifier spline -/
def phaseCorrect (unif : K → K) (cs : List (K → K)) (phases xs : List K) : Except Exc (List K) :=
  if phases.length ≠ xs.length then .error .value
  else correctAll cs (List.zipWith (fun p x => clip6 (p - unif x)) phases xs) xs

/-! ### Drift correction -/

/-- C46. The two implementations agree; a pulse at the median indicator is unchanged; the correction is linear in the pulse height; with a positive gain it keeps the order and sign of pulse
heights at the same indicator. -/
theorem drift (median slope ind : K) :
    (∀ x, driftLjh median slope ind x = driftOff median slope ind x) ∧ (∀ x, driftOff median slope median x = x) ∧
    (∀ a b x y, driftOff median slope ind (a * x + b * y) = a * driftOff median slope ind x + b * driftOff median slope ind y) ∧
    (0 < 1 + (ind - median) * slope → StrictMono (driftOff median slope ind)) ∧
    (∀ ind' x, driftOff median slope ind x - driftOff median slope ind' x = (ind - ind') * slope * x) := by
  unfold driftLjh driftOff
  refine ⟨fun x => mul_comm _ _, fun x => by ring, fun a b x y => by ring, fun h x y hxy => mul_lt_mul_of_pos_left hxy h, fun i x => by ring⟩

/-- C46. If pulses of true height h are recorded as h over a gain which is linear in the indicator, with that slope the correction gives back h, whatever the indicator. -/
theorem drift_removes (median slope ind h : K) (hg : 1 + (ind - median) * slope ≠ 0) : driftOff median slope ind (h / (1 + (ind - median) * slope)) = h := by
  unfold driftOff
  field_simp

/-! ### Phase correction -/

omit [IsStrictOrderedRing K] in
theorem increasing_iff (l : List K) : increasing l = true ↔ ∀ i, i + 1 < l.length → l.getD i 0 < l.getD (i + 1) 0 := by
  fun_induction increasing l with
  | case1 a b l ih =>
    rw [Bool.and_eq_true, decide_eq_true_iff, ih]
    constructor
    · rintro ⟨h1, h2⟩ i hi
      cases i with
      | zero => simpa using h1
      | succ i => have := h2 i (by simpa using hi); simpa using this
    · intro h
      exact ⟨by simpa using h 0 (by simp), fun i hi => by have := h (i + 1) (by simpa using hi); simpa using this⟩
  | case2 l hl =>
    refine ⟨fun _ i hi => ?_, fun _ => rfl⟩
    match l, hl with
    | [], _ => simp at hi
    | [_], _ => simp at hi
    | a :: b :: l, hl => exact absurd rfl (hl a b l)

omit [IsStrictOrderedRing K] in
theorem knots_mono {l : List K} (h : increasing l = true) {i j : Nat} (hij : i ≤ j) (hj : j < l.length) : l.getD i 0 ≤ l.getD j 0 := by
  induction j with
  | zero => rw [Nat.le_zero.1 hij]
  | succ j ih =>
    rcases Nat.lt_or_ge i (j + 1) with h1 | h1
    · exact (ih (by omega) (by omega)).trans ((increasing_iff l).1 h j hj).le
    · rw [Nat.le_antisymm hij h1]

omit [IsStrictOrderedRing K] in
/-- digitize on increasing knots: the knots at or below x are the first ones -/
theorem digitize_spec {l : List K} (h : increasing l = true) (x : K) (i : Nat) (hi : i < l.length) : i < digitize l x ↔ l.getD i 0 ≤ x := by
  unfold digitize
  induction l generalizing i with
  | nil => simp at hi
  | cons a l ih =>
    have htail : increasing l = true := by
      cases l with
      | nil => rfl
      | cons b l => unfold increasing at h; exact (Bool.and_eq_true _ _ ▸ h).2
    rw [List.countP_cons]
    by_cases ha : a ≤ x
    · simp only [ha, decide_true, if_true]
      cases i with
      | zero => simp [ha]
      | succ i =>
        have := ih htail i (by simpa using hi)
        simp only [List.getD_cons_succ]
        rw [← this]
        omega
    · have hall : ∀ b ∈ l, ¬ b ≤ x := by
        intro b hb hbx
        obtain ⟨k, hk, rfl⟩ := List.getElem_of_mem hb
        have := knots_mono h (i := 0) (j := k + 1) (by omega) (by simpa using hk)
        have e : (a :: l).getD (k + 1) 0 = l[k] := by simp [hk]
        rw [e] at this
        exact ha (this.trans hbx)
      have h0 : l.countP (fun p => decide (p ≤ x)) = 0 := List.countP_eq_zero.2 (fun b hb => by simpa using hall b hb)
      simp only [ha, decide_false, h0]
      refine ⟨fun hlt => absurd hlt (by simp), fun hle => ?_⟩
      exfalso
      cases i with
      | zero => exact ha (by simpa using hle)
      | succ i =>
        have hk : i < l.length := by simpa using hi
        have e : (a :: l).getD (i + 1) 0 = l[i] := by simp [hk]
        rw [e] at hle
        exact hall _ (List.getElem_mem hk) hle

omit [IsStrictOrderedRing K] in
theorem foldl_one {n b : Nat} (f : K → Nat → K) (x : K) (hb : b < n) (hother : ∀ acc i, i < n → i ≠ b → f acc i = acc) : (List.range n).foldl f x = f x b := by
  induction n with
  | zero => omega
  | succ n ih =>
    rw [List.range_succ, List.foldl_append, List.foldl_cons, List.foldl_nil]
    by_cases h : b = n
    · subst h
      have : ∀ m ≤ b, (List.range m).foldl f x = x := by
        intro m hm
        induction m with
        | zero => rfl
        | succ m ihm => rw [List.range_succ, List.foldl_append, ihm (by omega)]; exact hother x m (by omega) (by omega)
      rw [this b (le_refl _)]
    · rw [ih (by omega) (fun acc i hi hne => hother acc i (by omega) hne), hother _ n (by omega) (fun e => h e.symm)]

omit [IsStrictOrderedRing K] in
theorem foldl_none {n : Nat} (f : K → Nat → K) (x : K) (hother : ∀ acc i, i < n → f acc i = acc) : (List.range n).foldl f x = x := by
  induction n with
  | zero => rfl
  | succ n ih => rw [List.range_succ, List.foldl_append, ih (fun acc i hi => hother acc i (by omega))]; exact hother x n (by omega)

/-- the straight line between the corrections at knots b and b+1 [specification] -/
def line (cs : List (K → K)) (phase : K) (b : Nat) (x : K) : K :=
  x + (x - (knots cs).getD b 0) / ((knots cs).getD (b + 1) 0 - (knots cs).getD b 0) * (corr cs phase (b + 1) - corr cs phase b) + corr cs phase b

theorem correct1_bin (cs : List (K → K)) (hinc : increasing (knots cs) = true) (phase x : K) (b : Nat) (hb : b < cs.length) (h1 : (knots cs).getD b 0 ≤ x)
    (h2 : b + 1 = cs.length ∨ x < (knots cs).getD (b + 1) 0) : correct1 cs phase x = line cs phase b x := by
  have hlen : (knots cs).length = cs.length + 1 := by simp [knots]
  have d1 : b < digitize (knots cs) x := (digitize_spec hinc x b (by omega)).2 h1
  have d2 : b + 1 ≠ cs.length → ¬ b + 1 < digitize (knots cs) x := by
    intro hne hlt
    rcases h2 with h2 | h2
    · exact hne h2
    · exact absurd ((digitize_spec hinc x (b + 1) (by omega)).1 hlt) (not_le.2 h2)
  unfold correct1
  rw [foldl_one (turn cs phase x) x hb]
  · unfold turn line
    dsimp only
    have : (if b + 1 = cs.length then 1 + b ≤ digitize (knots cs) x else digitize (knots cs) x = 1 + b) := by
      split
      · omega
      · rename_i hne; have := d2 hne; omega
    rw [if_pos this]
    ring
  · intro acc i hi hne
    unfold turn
    dsimp only
    rw [if_neg]
    split
    · by_cases hbl : b + 1 = cs.length
      · omega
      · have := d2 hbl; omega
    · by_cases hbl : b + 1 = cs.length
      · omega
      · have := d2 hbl; omega

theorem line_meet (cs : List (K → K)) (hinc : increasing (knots cs) = true) (phase : K) (b : Nat) (hb : b + 1 < cs.length) :
    line cs phase b ((knots cs).getD (b + 1) 0) = line cs phase (b + 1) ((knots cs).getD (b + 1) 0) := by
  have hlen : (knots cs).length = cs.length + 1 := by simp [knots]
  have h1 := (increasing_iff _).1 hinc b (by omega)
  have : (knots cs).getD (b + 1) 0 - (knots cs).getD b 0 ≠ 0 := sub_ne_zero.2 h1.ne'
  unfold line
  rw [div_self this, sub_self, zero_div]
  ring

/-- C46. Between neighbouring peaks (both ends included), and from the last peak but one on, the corrected height is the straight line through the values at the peaks. So it is continuous and
piecewise linear. At a peak the correction is the peak's own correction curve. -/
theorem phase_piecewise (cs : List (K → K)) (hinc : increasing (knots cs) = true) (phase x : K) (b : Nat) (hb : b < cs.length) (h1 : (knots cs).getD b 0 ≤ x)
    (h2 : b + 1 = cs.length ∨ x ≤ (knots cs).getD (b + 1) 0) : correct1 cs phase x = line cs phase b x := by
  by_cases h : b + 1 = cs.length ∨ x < (knots cs).getD (b + 1) 0
  · exact correct1_bin cs hinc phase x b hb h1 h
  · push Not at h
    have hx : x = (knots cs).getD (b + 1) 0 := by
      rcases h2 with h2 | h2
      · exact absurd h2 h.1
      · exact le_antisymm h2 h.2
    have hlen : (knots cs).length = cs.length + 1 := by simp [knots]
    rw [hx, line_meet cs hinc phase b (by omega)]
    refine correct1_bin cs hinc phase _ (b + 1) (by omega) (le_refl _) ?_
    by_cases hb2 : b + 2 = cs.length
    · exact .inl hb2
    · exact .inr ((increasing_iff _).1 hinc (b + 1) (by omega))

/-- C46. Non-positive pulse heights are left alone, whatever the phase. -/
theorem phase_nonpositive (cs : List (K → K)) (hinc : increasing (knots cs) = true) (phase x : K) (hx : x ≤ 0) : correct1 cs phase x = x := by
  have h0 : (knots cs).getD 0 0 = 0 := rfl
  rcases eq_or_lt_of_le hx with rfl | hx
  · by_cases hc : cs = []
    · subst hc; rfl
    · have hpos : 0 < cs.length := List.length_pos_iff.2 hc
      have hlen : (knots cs).length = cs.length + 1 := by simp [knots]
      rw [phase_piecewise cs hinc phase 0 0 hpos (by rw [h0]) (.inr (by have := (increasing_iff _).1 hinc 0 (by omega); rw [h0] at this; exact this.le))]
      unfold line
      rw [h0]
      simp [corr]
  · have hd : digitize (knots cs) x = 0 := by
      by_contra hne
      have := (digitize_spec hinc x 0 (by simp [knots])).1 (Nat.pos_of_ne_zero hne)
      rw [h0] at this
      linarith
    refine foldl_none _ _ (fun acc i hi => ?_)
    unfold turn
    dsimp only
    rw [hd, if_neg]
    split <;> omega

/-- C46. A pulse for whose phase no correction curve differs from its value at phase 0 (in particular at phase 0) is unchanged. -/
theorem phase_zero (cs : List (K → K)) (phase x : K) (h : ∀ c ∈ cs, c phase = c 0) : correct1 cs phase x = x := by
  have hc : ∀ i, corr cs phase i = 0 := by
    intro i
    unfold corr
    cases i with
    | zero => rfl
    | succ i =>
      dsimp only
      cases hi : cs[i]? with
      | none => rfl
      | some c => dsimp only; rw [h c (List.mem_of_getElem? hi), sub_self]
  refine foldl_none _ _ (fun acc i hi => ?_)
  unfold turn
  dsimp only
  rw [hc, hc]
  simp

/-- C46. At the i-th peak itself the height changes by exactly the i-th correction curve's change from phase 0. -/
theorem phase_at_peak (cs : List (K → K)) (hinc : increasing (knots cs) = true) (phase : K) (i : Nat) (hi : i < cs.length) :
    correct1 cs phase (cs[i] 0) = cs[i] 0 + (cs[i] 0 - cs[i] phase) := by
  have hlen : (knots cs).length = cs.length + 1 := by simp [knots]
  have hk : (knots cs).getD (i + 1) 0 = cs[i] 0 := by simp [knots, hi]
  have h1 := (increasing_iff _).1 hinc i (by omega)
  rw [hk] at h1
  rw [phase_piecewise cs hinc phase _ i hi h1.le (.inr (by rw [hk]))]
  unfold line
  rw [hk, div_self (sub_ne_zero.2 h1.ne'), show corr cs phase (i + 1) = cs[i] 0 - cs[i] phase by simp [corr, hi]]
  ring

/-- C46, over the reals: at fixed phase the corrected height is a continuous function of the height. -/
theorem phase_continuous (cs : List (ℝ → ℝ)) (hinc : increasing (knots cs) = true) (phase : ℝ) : Continuous (fun x => correct1 cs phase x) := by
  have hlen : (knots cs).length = cs.length + 1 := by simp [knots]
  have hline : ∀ b, Continuous (line cs phase b) := by
    intro b
    unfold line
    fun_prop
  have h0 : (knots cs).getD 0 0 = 0 := rfl
  have hup : ∀ b, b < cs.length → ContinuousOn (fun x => correct1 cs phase x) (Set.Iic ((knots cs).getD b 0)) := by
    intro b hb
    induction b with
    | zero => exact continuousOn_id.congr (fun x hx => phase_nonpositive cs hinc phase x hx)
    | succ b ih =>
      have hlt := (increasing_iff _).1 hinc b (by omega)
      have hI : ContinuousOn (fun x => correct1 cs phase x) (Set.Icc ((knots cs).getD b 0) ((knots cs).getD (b + 1) 0)) :=
        (hline b).continuousOn.congr (fun x hx => phase_piecewise cs hinc phase x b (by omega) hx.1 (.inr hx.2))
      have := (ih (by omega)).union_of_isClosed hI isClosed_Iic isClosed_Icc
      rwa [Set.Iic_union_Icc_eq_Iic hlt.le] at this
  by_cases hc : cs = []
  · subst hc; exact continuous_id
  · have hpos : 0 < cs.length := List.length_pos_iff.2 hc
    have hlast : ContinuousOn (fun x => correct1 cs phase x) (Set.Ici ((knots cs).getD (cs.length - 1) 0)) :=
      (hline (cs.length - 1)).continuousOn.congr (fun x hx => phase_piecewise cs hinc phase x _ (by omega) hx (.inl (by omega)))
    have := (hup (cs.length - 1) (by omega)).union_of_isClosed hlast isClosed_Iic isClosed_Ici
    rw [Set.Iic_union_Ici] at this
    exact continuousOn_univ.1 this

/-- C46. The whole correction of a list of pulses is done pulse by pulse; a pulse whose phase is what the uniformifier expects is unchanged, one with non-positive height too, and a phase further
than 0.6 from the expected one is treated as if 0.6 away. -/
theorem phase_list (unif : K → K) (cs : List (K → K)) (phases xs out : List K) (h : phaseCorrect unif cs phases xs = .ok out) :
    out.length = xs.length ∧ ∀ i (hp : i < phases.length) (hx : i < xs.length) (ho : i < out.length),
      (phases[i] = unif xs[i] → out[i] = xs[i]) ∧ (xs[i] ≤ 0 → out[i] = xs[i]) ∧
      (6 / 10 ≤ phases[i] - unif xs[i] → out[i] = correct1 cs (6 / 10) xs[i]) ∧ (phases[i] - unif xs[i] ≤ -(6 / 10) → out[i] = correct1 cs (-(6 / 10)) xs[i]) ∧
      (|phases[i] - unif xs[i]| ≤ 6 / 10 → out[i] = correct1 cs (phases[i] - unif xs[i]) xs[i]) := by
  unfold phaseCorrect at h
  split at h
  · exact absurd h (by simp)
  rename_i hl
  push Not at hl
  unfold correctAll at h
  split at h
  · exact absurd h (by simp)
  split at h
  · exact absurd h (by simp)
  rename_i hinc
  have hinc : increasing (knots cs) = true := by simpa using hinc
  simp only [Except.ok.injEq] at h
  subst h
  refine ⟨by simp [hl], fun i hp hx ho => ?_⟩
  simp only [List.getElem_zipWith]
  have h6 : (0 : K) < 6 / 10 := by norm_num
  refine ⟨fun e => phase_zero cs _ _ (fun c _ => ?_), fun e => phase_nonpositive cs hinc _ _ e, fun e => ?_, fun e => ?_, fun e => ?_⟩
  · rw [e, sub_self]
    unfold clip6
    rw [max_eq_left (by linarith), min_eq_left h6.le]
  · unfold clip6; rw [max_eq_left (by linarith), min_eq_right e]
  · unfold clip6; rw [max_eq_right e, min_eq_left (by linarith)]
  · obtain ⟨e1, e2⟩ := abs_le.1 e
    unfold clip6; rw [max_eq_left e1, min_eq_left e2]

/-- instances: two correction curves 10+p and 20+2p; heights 5, 10, 15, 25 at phase 1/2 -/
example : correctAll [fun p => 10 + p, fun p => 20 + 2 * p] [1 / 2, 1 / 2, 1 / 2, 1 / 2, 1 / 2] [5, 10, 15, 25, (-3 : ℚ)] = .ok [19 / 4, 19 / 2, 57 / 4, 95 / 4, -3] := by decide +kernel
example : correctAll [fun p => 20 + p, fun p => 10 + 2 * p] [(1 / 2 : ℚ)] [5] = .error .assertion := by decide +kernel
example : phaseCorrect (fun _ => 1 / 2) [fun p => 10 + p] [1 / 2, (5 : ℚ)] [7, 10] = .ok [7, 47 / 5] := by decide +kernel

/-! ### C70: saving phase corrections -/

/-- the corrections part of an HDF5 group: correction number -> data (x and y arrays). The other entries are single values, written and read the same way; they are collected in `rest`. (used for mass/core/phase_correct.py L24-42) -/
structure Saved (D R : Type) where
  rest : Option R
  corr : Nat → Option D

/-- `toHDF5`, mass/core/phase_correct.py L24-42. Without overwrite anything present already raises AttributeError; the first entry written is one of `rest`, so nothing is changed then.
Simplified: a group with corrections but without the other entries does not come about. -/
def save {D R : Type} (g : Saved D R) (r : R) (cs : List D) (overwrite : Bool) : Saved D R × Except Exc Unit :=
  if g.rest.isSome && !overwrite then (g, .error .attribute)
  else (⟨some r, fun i => match cs[i]? with
    | some c => some c
    | none => g.corr i⟩, .ok ())

/-- the loop of `fromHDF5` from number i on, phase_correct.py L64-70, at most `fuel` numbers -/
def loadFrom {D : Type} (f : Nat → Option D) (i : Nat) : Nat → List D
  | 0 => []
  | fuel + 1 => match f i with
    | some d => d :: loadFrom f (i + 1) fuel
    | none => []

/-- `fromHDF5`, phase_correct.py L56-72; `fuel` any number above the number of entries; a missing entry is a KeyError -/
def load {D R : Type} (g : Saved D R) (fuel : Nat) : Except Exc (R × List D) :=
  match g.rest with
  | none => .error .key
  | some r => .ok (r, loadFrom g.corr 0 fuel)

theorem loadFrom_spec {D : Type} (f : Nat → Option D) (cs : List D) (i fuel : Nat) (h : ∀ j, j < cs.length → f (i + j) = cs[j]?) (hend : f (i + cs.length) = none)
    (hf : cs.length < fuel) : loadFrom f i fuel = cs := by
  induction cs generalizing i fuel with
  | nil =>
    cases fuel with
    | zero => simp at hf
    | succ fuel => unfold loadFrom; rw [show f i = none from hend]
  | cons c cs ih =>
    cases fuel with
    | zero => simp at hf
    | succ fuel =>
      have h0 := h 0 (by simp)
      simp only [Nat.add_zero, List.getElem?_cons_zero] at h0
      unfold loadFrom
      rw [h0]
      dsimp only
      rw [ih (i + 1) fuel ?_ ?_ (by simpa using hf)]
      · intro j hj
        have := h (j + 1) (by simpa using hj)
        rw [List.getElem?_cons_succ] at this
        rw [← this]
        congr 1
        omega
      · rw [← hend]
        congr 1
        simp
        omega

/-- C70, the part that holds: if the place has no correction numbered above those saved (a new place, or one that held at most as many), loading gives back what was saved. -/
theorem save_load_partial {D R : Type} (g : Saved D R) (r : R) (cs : List D) (ow : Bool) (fuel : Nat) (hf : cs.length < fuel) (h : g.corr cs.length = none)
    (hok : (save g r cs ow).2 = .ok ()) : load (save g r cs ow).1 fuel = .ok (r, cs) := by
  unfold save at hok ⊢
  split at hok
  · exact absurd hok (by simp)
  rename_i hc
  rw [if_neg hc]
  unfold load
  dsimp only
  rw [loadFrom_spec _ cs 0 fuel]
  · intro j hj
    rw [Nat.zero_add]
    rw [List.getElem?_eq_getElem hj]
  · simp [h]
  · exact hf

/-- C70. Without overwrite an existing saved correction is refused and left as it was; otherwise saving succeeds. -/
theorem save_refused {D R : Type} (g : Saved D R) (r : R) (cs : List D) (ow : Bool) :
    (g.rest.isSome = true ∧ ow = false → save g r cs ow = (g, .error .attribute)) ∧ (¬ (g.rest.isSome = true ∧ ow = false) → (save g r cs ow).2 = .ok ()) := by
  unfold save
  constructor
  · rintro ⟨h1, h2⟩; rw [h1, h2]; rfl
  · intro h
    rw [if_neg]
    intro hc
    rw [Bool.and_eq_true] at hc
    exact h ⟨hc.1, by simpa using hc.2⟩

/-- C70 is false as stated: overwriting a saved correction of two levels by one of one level and loading gives two levels, the second one being the old one. -/
theorem save_load_fails : let g := (save ⟨none, fun _ => none⟩ "old" [1, 2] false).1
    (save g "new" [7] true).2 = .ok () ∧ load (save g "new" [7] true).1 10 = .ok ("new", [7, 2]) := by decide +kernel

end Mass.Calc.Corr
