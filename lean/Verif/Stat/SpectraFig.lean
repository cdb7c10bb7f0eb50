import Mathlib.Algebra.Order.Field.Basic
import Mathlib.Tactic.FieldSimp
import Mathlib.Tactic.Linarith
import Mathlib.Tactic.NormNum
import Mathlib.Tactic.Ring
import Mathlib.Data.Rat.Defs
import Mathlib.Algebra.Order.Ring.Rat
import Verif.Py

/-!
# What the figures of noise spectra show

`NoiseRecords.compute_fancy_power_spectra` draws one curve for each length of segments: long
segments for low frequencies, short ones for high frequencies.  `PowerSpectrum.plot` draws one
spectrum.  Exact arithmetic; how spectra are computed is C74, which lengths are chosen C147.
-/

namespace Mass.Stat.SpectraFig

variable {K : Type} [Field K] [LinearOrder K] [IsStrictOrderedRing K]

/-- A power spectrum: half the length of segments, the sample time, and the values for the
frequencies 0 to m (mass/mathstat/power_spectrum.py L73-82, L132-143: `m`, `dt`, `spectrum()`). -/
structure Sp (K : Type) where
  m : Nat
  dt : K
  val : Nat → K

/-- `1. / (s.dt * s.m2)` with `m2 = 2 * m` (mass/core/channel.py L231). -/
def Sp.low (s : Sp K) : K := 1 / (s.dt * (2 * s.m))

/-- The frequencies and the values (mass/core/channel.py L235, power_spectrum.py L149-155:
`np.arange(m + 1) / (2 * dt * m)`). -/
def Sp.points (s : Sp K) : List (K × K) :=
  (List.range (s.m + 1)).map fun k : Nat => ((k : K) / (2 * s.dt * s.m), s.val k)

/-- The curves of `compute_fancy_power_spectra`, with `start_freq` (mass/core/channel.py
L233-242). -/
def curves (start : K) : List (Sp K) → List (List (K × K))
  | [] => []
  | [s] => [s.points.filter fun p => decide (start ≤ p.1)]
  | s :: q :: r =>
    (s.points.filter fun p => decide (start ≤ p.1) && decide (p.1 < 10 * q.low)) ::
      curves (s.low * 10) (q :: r)

/-- What a curve is labelled as. -/
inductive Label where
  | power
  | amplitude
  deriving DecidableEq

/-- `PowerSpectrum.plot`: the points and the name on the axis (mass/mathstat/power_spectrum.py
L157-172). `root` is the square root. -/
def plot (root : K → K) (scale : K) (sqrtPsd : Bool) (s : Sp K) : List (K × K) × Label :=
  let psd := (s.points.drop 1).map fun p => (p.1, p.2 * scale ^ 2)
  if sqrtPsd then (psd.map fun p => (p.1, root p.2), .power) else (psd, .amplitude)

/-- [specification] The frequency `f` is to be shown by the curve number `i`. -/
def InRange (l : List (Sp K)) (i : Nat) (f : K) : Prop :=
  (∀ (j : Nat) (p : Sp K), i = j + 1 → l[j]? = some p → 10 * p.low ≤ f) ∧
    ∀ q, l[i + 1]? = some q → f < 10 * q.low

/-- [specification] Each spectrum begins at a higher frequency than the one before. -/
def Rising (l : List (Sp K)) : Prop :=
  ∀ (i j : Nat) (p q : Sp K), i < j → l[i]? = some p → l[j]? = some q → p.low < q.low

theorem points_mem (s : Sp K) (x y : K) :
    (x, y) ∈ s.points ↔ ∃ k ≤ s.m, x = k * s.low ∧ y = s.val k := by
  unfold Sp.points Sp.low
  simp only [List.mem_map, List.mem_range, Prod.mk.injEq]
  constructor
  · rintro ⟨k, hk, rfl, rfl⟩
    refine ⟨k, by omega, ?_, rfl⟩
    rw [mul_one_div]; congr 1; ring
  · rintro ⟨k, hk, rfl, rfl⟩
    refine ⟨k, by omega, ?_, rfl⟩
    rw [mul_one_div]; congr 1; ring

theorem curves_from (l : List (Sp K)) : ∀ (st : K) (i : Nat) (s : Sp K), l[i]? = some s →
    ∃ c, (curves st l)[i]? = some c ∧ ∀ x y, (x, y) ∈ c ↔
      (x, y) ∈ s.points ∧ (i = 0 → st ≤ x) ∧ InRange l i x := by
  induction l with
  | nil => intro st i s h; simp at h
  | cons a t ih =>
    intro st i s h
    cases i with
    | zero =>
      simp only [List.getElem?_cons_zero, Option.some.injEq] at h
      subst h
      cases t with
      | nil =>
        refine ⟨_, rfl, fun x y => ?_⟩
        simp [InRange]
      | cons q r =>
        refine ⟨_, rfl, fun x y => ?_⟩
        simp [InRange]
    | succ i =>
      cases t with
      | nil => simp at h
      | cons q r =>
        obtain ⟨c, hc, hm⟩ := ih (a.low * 10) i s (by simpa using h)
        refine ⟨c, by simpa [curves] using hc, fun x y => ?_⟩
        rw [hm]
        refine and_congr_right fun _ => ?_
        simp only [InRange, Nat.add_eq_zero_iff, one_ne_zero, and_false, false_implies, true_and]
        constructor
        · rintro ⟨h0, h1, h2⟩
          refine ⟨fun j p hj hp => ?_, fun q' hq' => h2 q' (by simpa using hq')⟩
          have hj' : i = j := by omega
          subst hj'
          cases i with
          | zero =>
            simp only [List.getElem?_cons_zero, Option.some.injEq] at hp
            rw [← hp, mul_comm]; exact h0 rfl
          | succ i => exact h1 i p rfl (by simpa using hp)
        · rintro ⟨h1, h2⟩
          refine ⟨fun h0 => ?_, fun j p hj hp => ?_, fun q' hq' => h2 q' (by simpa using hq')⟩
          · rw [mul_comm]; exact h1 i a rfl (by simp [h0])
          · exact h1 (j + 1) p (by omega) (by simpa using hp)

/-- There is one curve for each spectrum, in order, and it has exactly the points of that spectrum
in its range: from ten times the step of the spectrum before to below ten times the step of the
next. -/
theorem curve_spec (l : List (Sp K)) (hdt : ∀ s ∈ l, 0 < s.dt) :
    (curves 0 l).length = l.length ∧
      ∀ (i : Nat) (s : Sp K), l[i]? = some s → ∃ c, (curves 0 l)[i]? = some c ∧
        ∀ x y, (x, y) ∈ c ↔ (∃ k ≤ s.m, x = k * s.low ∧ y = s.val k) ∧ InRange l i x := by
  constructor
  · have : ∀ (l : List (Sp K)) (st : K), (curves st l).length = l.length := by
      intro l
      induction l with
      | nil => intro st; rfl
      | cons a t ih =>
        intro st
        cases t with
        | nil => rfl
        | cons q r => simp [curves, ih]
    exact this l 0
  · intro i s h
    obtain ⟨c, hc, hm⟩ := curves_from l 0 i s h
    refine ⟨c, hc, fun x y => ?_⟩
    rw [hm, points_mem]
    refine and_congr_right ?_
    rintro ⟨k, _, rfl, _⟩
    have hs := hdt s (List.mem_of_getElem? h)
    have : (0 : K) ≤ k * s.low := by
      unfold Sp.low
      positivity
    simp [this]

/-- Together the curves cover all frequencies: each is in the range of some curve. -/
theorem covers (l : List (Sp K)) (hne : l ≠ []) (hr : Rising l) (f : K) :
    ∃ (i : Nat) (s : Sp K), l[i]? = some s ∧ InRange l i f := by
  classical
  have hex : ∃ i : Nat, ∀ q : Sp K, l[i + 1]? = some q → f < 10 * q.low :=
    ⟨l.length, fun q hq => by have := (List.getElem?_eq_some_iff.1 hq).1; omega⟩
  have hi := Nat.find_spec hex
  have hmin : ∀ j < Nat.find hex, ∃ q : Sp K, l[j + 1]? = some q ∧ 10 * q.low ≤ f := by
    intro j hj
    have := Nat.find_min hex hj
    push Not at this
    exact this
  generalize Nat.find hex = i at hi hmin
  cases i with
  | zero =>
    have hl : 0 < l.length := List.length_pos_iff.2 hne
    exact ⟨0, l[0], List.getElem?_eq_getElem hl, fun j p hj _ => by omega, hi⟩
  | succ i =>
    obtain ⟨q, hq, hf⟩ := hmin i (by omega)
    refine ⟨i + 1, q, hq, fun j p hj hp => ?_, hi⟩
    have hj' : i = j := by omega
    subst hj'
    have := hr i (i + 1) p q (by omega) hp hq
    linarith

/-- No frequency is in the ranges of more than two curves, and the two are neighbours. -/
theorem at_most_two (l : List (Sp K)) (hr : Rising l) (i j : Nat) (f : K) (hij : i < j)
    (hj : j < l.length) (h1 : InRange l i f) (h2 : InRange l j f) : j = i + 1 := by
  by_contra hne
  obtain ⟨j, rfl⟩ : ∃ j', j = j' + 1 := ⟨j - 1, by omega⟩
  have ha : l[i + 1]? = some (l[i + 1]'(by omega)) := List.getElem?_eq_getElem (by omega)
  have hb : l[j]? = some (l[j]'(by omega)) := List.getElem?_eq_getElem (by omega)
  have e1 := h1.2 _ ha
  have e2 := h2.1 j _ rfl hb
  rcases Nat.lt_or_ge (i + 1) j with h | h
  · have := hr _ _ _ _ h ha hb
    linarith
  · have : i + 1 = j := by omega
    subst this
    linarith

/-- Disagreement (C197): the ranges overlap: all frequencies from ten times the step of one
spectrum to below ten times that of the next are shown by two curves. -/
theorem overlap_fails (l : List (Sp K)) (hr : Rising l) (i : Nat) (p q : Sp K)
    (hp : l[i]? = some p) (hq : l[i + 1]? = some q) (f : K) (h1 : 10 * p.low ≤ f)
    (h2 : f < 10 * q.low) : InRange l i f ∧ InRange l (i + 1) f := by
  refine ⟨⟨fun j p' hj hp' => ?_, fun q' hq' => ?_⟩, ⟨fun j p' hj hp' => ?_, fun q' hq' => ?_⟩⟩
  · have := hr j i p' p (by omega) hp' hp
    linarith
  · rw [hq] at hq'; cases hq'; exact h2
  · have : i = j := by omega
    subst this
    rw [hp] at hp'; cases hp'; exact h1
  · have := hr (i + 1) (i + 2) q q' (by omega) hq hq'
    linarith

/-- Disagreement (C197): with segments a quarter as long for the next spectrum, as they are chosen
(C147), both curves have a point at the same frequency, each with its own value. -/
theorem twice_fails (l : List (Sp K)) (hdt : ∀ s ∈ l, 0 < s.dt) (hr : Rising l) (i : Nat)
    (p q : Sp K) (hp : l[i]? = some p) (hq : l[i + 1]? = some q) (hd : p.dt = q.dt)
    (hm : p.m = 4 * q.m) (h12 : 12 ≤ p.m) :
    ∃ c d, (curves 0 l)[i]? = some c ∧ (curves 0 l)[i + 1]? = some d ∧
      (12 * p.low, p.val 12) ∈ c ∧ (12 * p.low, q.val 3) ∈ d := by
  have hpd := hdt p (List.mem_of_getElem? hp)
  have hqm : (0 : K) < q.m := by
    have : 0 < q.m := by omega
    exact_mod_cast this
  have hpm : (p.m : K) = 4 * q.m := by rw [hm]; push_cast; ring
  have hl : q.low = 4 * p.low := by
    unfold Sp.low
    rw [hpm, ← hd]
    field_simp
  have hpos : 0 < p.low := by
    unfold Sp.low
    rw [hpm]
    positivity
  have hin := overlap_fails l hr i p q hp hq (12 * p.low) (by linarith) (by linarith)
  obtain ⟨c, hc, hcm⟩ := (curve_spec l hdt).2 i p hp
  obtain ⟨d, hd', hdm⟩ := (curve_spec l hdt).2 (i + 1) q hq
  refine ⟨c, d, hc, hd', (hcm _ _).2 ⟨⟨12, h12, by norm_num, rfl⟩, hin.1⟩,
    (hdm _ _).2 ⟨⟨3, by omega, ?_, rfl⟩, hin.2⟩⟩
  rw [hl]; push_cast; ring

/-- Disagreement (C197): a curve is shown from ten steps of the spectrum before it, which are only
two and a half steps of its own: its third point is shown, where ten were meant. -/
theorem coarse_fails (l : List (Sp K)) (hdt : ∀ s ∈ l, 0 < s.dt) (hr : Rising l) (i : Nat)
    (p q : Sp K) (hp : l[i]? = some p) (hq : l[i + 1]? = some q) (hd : p.dt = q.dt)
    (hm : p.m = 4 * q.m) (h12 : 12 ≤ p.m) :
    ∃ d, (curves 0 l)[i + 1]? = some d ∧ (3 * q.low, q.val 3) ∈ d ∧ 3 * q.low < 10 * q.low := by
  have hpd := hdt p (List.mem_of_getElem? hp)
  have hqm : (0 : K) < q.m := by
    have : 0 < q.m := by omega
    exact_mod_cast this
  have hpm : (p.m : K) = 4 * q.m := by rw [hm]; push_cast; ring
  have hl : q.low = 4 * p.low := by
    unfold Sp.low
    rw [hpm, ← hd]
    field_simp
  have hpos : 0 < p.low := by
    unfold Sp.low
    rw [hpm]
    positivity
  obtain ⟨c, d, _, h2, _, h4⟩ := twice_fails l hdt hr i p q hp hq hd hm h12
  refine ⟨d, h2, ?_, by linarith⟩
  have : 3 * q.low = 12 * p.low := by rw [hl]; ring
  rw [this]; exact h4

/-- `PowerSpectrum.plot` shows the values for all frequencies but zero, scaled, or their square
roots; the values are those of the spectrum. -/
theorem plot_spec (root : K → K) (scale : K) (b : Bool) (s : Sp K) :
    (plot root scale b s).1 = (List.range s.m).map fun k : Nat =>
      (((k + 1 : Nat) : K) * s.low,
        if b then root (s.val (k + 1) * scale ^ 2) else s.val (k + 1) * scale ^ 2) := by
  have e : s.points.drop 1 = (List.range s.m).map fun k : Nat =>
      (((k + 1 : Nat) : K) * s.low, s.val (k + 1)) := by
    unfold Sp.points Sp.low
    rw [List.range_succ_eq_map]
    simp only [List.map_cons, List.drop_succ_cons, List.drop_zero, List.map_map]
    refine List.map_congr_left fun k _ => ?_
    simp only [Function.comp, Prod.mk.injEq, and_true, Nat.succ_eq_add_one]
    rw [mul_one_div]; congr 1; ring
  unfold plot
  cases b <;> simp [e, Function.comp_def]

/-- Scaling the square roots is scaling the data: the curve of square roots is that of the data
times the scale, if the scale is not negative. -/
theorem plot_scaled (root : K → K) (hroot : ∀ a b, 0 ≤ b → root (a * b ^ 2) = root a * b)
    (scale : K) (h : 0 ≤ scale) (s : Sp K) :
    (plot root scale true s).1 =
      (plot root 1 true s).1.map fun p => (p.1, p.2 * scale) := by
  rw [plot_spec, plot_spec]
  simp [hroot _ _ h, Function.comp_def]

/-- Disagreement (C197): `PowerSpectrum.plot` exchanges the names: square roots, which are
amplitudes, are called power spectral density, and powers are called amplitude spectral density. -/
theorem label_fails (root : K → K) (scale : K) (s : Sp K) :
    (plot root scale true s).2 = .power ∧ (plot root scale false s).2 = .amplitude := by
  simp [plot]

/-- Two spectra, with segments of 96 and 24 samples: both curves are at 1/8, 5/32 is shown by the
first curve only because the second has no point there. -/
def exList : List (Sp ℚ) := [⟨48, 1, fun k => k⟩, ⟨12, 1, fun k => 100 + k⟩]

example : ∃ c d, curves 0 exList = [c, d] ∧ ((1 : ℚ) / 8, (12 : ℚ)) ∈ c ∧
    ((1 : ℚ) / 8, (103 : ℚ)) ∈ d ∧ c.length = 40 ∧ d.length = 10 :=
  ⟨_, _, rfl, by decide +kernel, by decide +kernel, by decide +kernel, by decide +kernel⟩

example : Rising exList := by
  intro i j p q hij hp hq
  have hj : j < 2 := (List.getElem?_eq_some_iff.1 hq).1
  obtain rfl : i = 0 := by omega
  obtain rfl : j = 1 := by omega
  simp only [exList, List.getElem?_cons_zero, List.getElem?_cons_succ, Option.some.injEq] at hp hq
  subst hp hq
  norm_num [Sp.low]

example : (plot (fun x : ℚ => x) 2 false ⟨2, 1, fun k => k⟩).1 = [(1/4, 4), (1/2, 8)] := by
  decide +kernel

end Mass.Stat.SpectraFig
