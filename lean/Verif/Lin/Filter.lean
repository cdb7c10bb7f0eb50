import Verif.Lin.Whiten
import Verif.Algo.FiveLag
import Mathlib.LinearAlgebra.Matrix.Adjugate
import Mathlib.Tactic.Linarith
import Mathlib.Tactic.NormNum
/-! C63 and C64: optimal filters (mass/core/optimal_filtering.py, class FilterMaker), in exact arithmetic over an ordered field.
The low-pass options fmax and f_3db are None here; for those and the Fourier-domain filter see C120. Not modelled: the predicted resolution (a square root and a logarithm). -/
namespace Mass.Lin
set_option linter.unusedSectionVars false
open Mass.Algo
variable {K : Type} [Field K] [LinearOrder K] [IsStrictOrderedRing K]

/-- optimal_filtering.py FilterMaker fields used here. `whitener`: theta and phi. (used for optimal_filtering.py L612-668) -/
structure Maker (K : Type) where
  signal : List K
  nPre : Nat
  autocorr : Option (List K)
  dtModel : Option (List K)
  whitener : Option (List K × List K)
  peak : K

/-- Python `l[a:b]` with a ≥ 0 and any integer b (used for optimal_filtering.py L612-668) -/
def pySlice {α : Type} (l : List α) (a : Nat) (b : Int) : List α :=
  let stop : Nat := if b < 0 then (b + l.length).toNat else b.toNat
  (l.take stop).drop a

/-- np.max of a non-empty list (used for optimal_filtering.py L612-668) -/
def lmax : List K → K
  | [] => 0
  | a :: t => t.foldl max a

/-- np.min of a non-empty list (used for optimal_filtering.py L612-668) -/
def lmin : List K → K
  | [] => 0
  | a :: t => t.foldl min a

/-- optimal_filtering.py L612-668 `_normalize_signal`: signal, peak, dt_model. The mean of an empty pretrigger part is NaN in numpy (and so is everything
computed from it); here that is the error `.zeroDiv`. -/
def normalizeSignal (m : Maker K) (cutPre cutPost : Int) : Except Exc (List K × K × List K) :=
  let ns := m.signal.length
  if cutPre < 0 ∨ cutPost < 0 then .error .value
  else if (ns : Int) ≤ cutPre + cutPost then .error .value
  else
    let pre := pySlice m.signal cutPre.toNat ((m.nPre : Int) - 1)
    if pre = [] then .error .zeroDiv
    else
      let preAvg := pre.sum / (pre.length : K)
      let win := fun l : List K => pySlice l cutPre.toNat ((ns : Int) - cutPost)
      let a := lmin (win m.signal)
      let b := lmax (win m.signal)
      let peak := if 0 < m.peak then m.peak else if b - preAvg < preAvg - a then a - preAvg else b - preAvg
      let s1 := m.signal.map (· - preAvg)
      let rescale := 1 / lmax s1
      let s2 := s1.map (· * rescale)
      let s3 := List.replicate (min m.nPre ns) 0 ++ s2.drop m.nPre
      let dt := match m.dtModel with
        | none => []
        | some d => pySlice (d.map (· * rescale)) cutPre.toNat ((ns : Int) - cutPost)
      .ok (win s3, peak, dt)

/-- optimal_filtering.py L591-610 `_compute_autocorr` -/
def computeAutocorr (m : Maker K) (cutPre cutPost : Int) : List K :=
  match m.autocorr with
  | none => []
  | some l => pySlice l 0 ((m.signal.length : Int) - (cutPre + cutPost))

/-- A computed filter: values, peak, variance, and the signal and dt models stored with it (used for optimal_filtering.py L362-424) -/
structure Filt (K : Type) where
  values : List K
  peak : K
  variance : K
  dtValues : List K
  constValues : List K
  signal : List K
  dtModel : List K
  deriving DecidableEq

/-- np.hstack([np.zeros(a), f, np.zeros(b)]) (used for optimal_filtering.py L362-424) -/
def padded (a : Nat) (f : List K) (b : Nat) : List K := List.replicate a 0 ++ f ++ List.replicate b 0

/-- optimal_filtering.py L670-689 `_normalize_5lag_filter`: scale by one over the peak of the least-squares parabola through the five lagged products -/
def normalize5 (f sig : List K) : Except Exc (List K) :=
  if sig.length < f.length + 4 then .error .assertion
  else
    let p := peakY (parabola ⟨lag f sig 0, lag f sig 1, lag f sig 2, lag f sig 3, lag f sig 4⟩)
    .ok (f.map (· * (1 / p)))

/-- optimal_filtering.py L402-409: the filter before normalisation -/
def rawFilter (x u : List K) : List K := List.zipWith (fun a b => u.sum * a - x.sum * b) x u

/-- optimal_filtering.py L362-424 `compute_5lag` with fmax = f_3db = None -/
def compute5lag (m : Maker K) (cutPre cutPost : Int) : Except Exc (Filt K) :=
  if m.autocorr.isNone ∧ m.whitener.isNone then .error .value
  else
    let noise := computeAutocorr m cutPre cutPost
    match normalizeSignal m cutPre cutPost with
    | .error e => .error e
    | .ok (sig, peak, _) =>
      let tr := pySlice sig 2 (-2)
      let n := tr.length
      if noise.length < n then .error .assertion
      else
        let noiseCorr := noise.take n
        match mkSym noiseCorr with
        | .error e => .error e
        | .ok S =>
          match solveSym S tr with
          | .error e => .error e
          | .ok x =>
            match solveSym S (List.replicate n 1) with
            | .error e => .error e
            | .ok u =>
              match normalize5 (rawFilter x u) sig with
              | .error e => .error e
              | .ok f =>
                match bracketR f noiseCorr with
                | .error e => .error e
                | .ok v => .ok ⟨padded cutPre.toNat f cutPost.toNat, peak, v, [], [], sig, []⟩

/-! ### Lemmas on lists -/

theorem length_pySlice_nonneg {α : Type} (l : List α) (a : Nat) (b : Nat) (hb : b ≤ l.length) : (pySlice l a (b : Int)).length = b - a := by
  unfold pySlice
  dsimp only
  rw [if_neg (by omega), List.length_drop, List.length_take]
  omega

theorem pySlice_mid {α : Type} (l : List α) (h : 4 ≤ l.length) : pySlice l 2 (-2) = (l.take (l.length - 2)).drop 2 := by
  unfold pySlice
  dsimp only
  rw [if_pos (by omega)]
  congr 2
  omega

theorem getD_pySlice_mid (l : List K) (i : Nat) (hi : i + 4 < l.length) : (pySlice l 2 (-2)).getD i 0 = l.getD (i + 2) 0 := by
  rw [pySlice_mid l (by omega), List.getD_eq_getElem?_getD, List.getD_eq_getElem?_getD, List.getElem?_drop, List.getElem?_take, if_pos (by omega), Nat.add_comm]

theorem length_mid {α : Type} (l : List α) : (pySlice l 2 (-2)).length = l.length - 4 := by
  unfold pySlice
  dsimp only
  rw [if_pos (by omega), List.length_drop, List.length_take]
  omega

theorem sum_getD (l : List K) : l.sum = ∑ i ∈ Finset.range l.length, l.getD i 0 := by
  induction l with
  | nil => simp
  | cons a t ih => rw [List.sum_cons, List.length_cons, Finset.sum_range_succ', ih]; simp [add_comm]

theorem length_raw (x u : List K) (h : x.length = u.length) : (rawFilter x u).length = x.length := by
  unfold rawFilter; rw [List.length_zipWith]; omega

theorem getD_raw (x u : List K) (h : x.length = u.length) (i : Nat) (hi : i < x.length) :
    (rawFilter x u).getD i 0 = u.sum * x.getD i 0 - x.sum * u.getD i 0 := by
  unfold rawFilter
  simp only [List.getD_eq_getElem?_getD]
  rw [List.getElem?_eq_getElem (by rw [List.length_zipWith]; omega), List.getElem?_eq_getElem hi, List.getElem?_eq_getElem (by omega)]
  simp

theorem getD_map_mul (l : List K) (c : K) (i : Nat) : (l.map (· * c)).getD i 0 = l.getD i 0 * c := by
  simp only [List.getD_eq_getElem?_getD, List.getElem?_map]
  cases l[i]? <;> simp

theorem raw_sum_zero (x u : List K) (h : x.length = u.length) : (rawFilter x u).sum = 0 := by
  rw [sum_getD, length_raw x u h]
  have : ∑ i ∈ Finset.range x.length, (rawFilter x u).getD i 0 = ∑ i ∈ Finset.range x.length, (u.sum * x.getD i 0 - x.sum * u.getD i 0) :=
    Finset.sum_congr rfl fun i hi => getD_raw x u h i (Finset.mem_range.1 hi)
  rw [this, Finset.sum_sub_distrib, ← Finset.mul_sum, ← Finset.mul_sum, ← sum_getD]
  have e : ∑ i ∈ Finset.range x.length, u.getD i 0 = u.sum := by rw [h, ← sum_getD]
  rw [e]
  ring

theorem lag_range (f p : List K) (j : Nat) : lag f p j = ∑ k ∈ Finset.range f.length, f.getD k 0 * p.getD (k + j) 0 := by
  unfold lag
  rw [Finset.sum_range]
  refine Finset.sum_congr rfl fun k _ => ?_
  simp [List.getD_eq_getElem?_getD]

theorem getD_padded (a b : Nat) (f : List K) (k : Nat) : (padded a f b).getD k 0 = if a ≤ k then f.getD (k - a) 0 else 0 := by
  unfold padded
  simp only [List.getD_eq_getElem?_getD]
  by_cases h : a ≤ k
  · rw [if_pos h]
    by_cases h2 : k < a + f.length
    · rw [List.getElem?_append_left (by simp; omega), List.getElem?_append_right (by simp; omega)]
      simp
    · rw [List.getElem?_append_right (by simp; omega), List.getElem?_eq_none (l := f) (by omega)]
      simp only [List.getElem?_replicate]
      split <;> rfl
  · rw [if_neg h, List.append_assoc, List.getElem?_append_left (by simp; omega)]
    simp only [List.getElem?_replicate]
    split <;> rfl

theorem length_padded (a b : Nat) (f : List K) : (padded a f b).length = a + f.length + b := by
  unfold padded; simp; omega

theorem sum_padded_mul (a b : Nat) (f : List K) (g : Nat → K) :
    ∑ k ∈ Finset.range (padded a f b).length, (padded a f b).getD k 0 * g k = ∑ k ∈ Finset.range f.length, f.getD k 0 * g (a + k) := by
  rw [length_padded, Finset.sum_range_add, Finset.sum_range_add]
  have e1 : ∑ k ∈ Finset.range a, (padded a f b).getD k 0 * g k = 0 := by
    refine Finset.sum_eq_zero fun k hk => ?_
    rw [getD_padded, if_neg (by have := Finset.mem_range.1 hk; omega), zero_mul]
  have e2 : ∑ k ∈ Finset.range b, (padded a f b).getD (a + f.length + k) 0 * g (a + f.length + k) = 0 := by
    refine Finset.sum_eq_zero fun k hk => ?_
    rw [getD_padded, if_pos (by omega), getD_ge f (by omega), zero_mul]
  rw [e1, e2, zero_add, add_zero]
  refine Finset.sum_congr rfl fun k _ => ?_
  rw [getD_padded, if_pos (by omega)]
  congr 2
  omega

/-- lags of the padded filter are lags of the filter on the window -/
theorem lag_padded (a b : Nat) (f rec win : List K) (j : Nat) (hj : j ≤ 4) (hwl : win.length = f.length + 4)
    (hw : ∀ i, i < win.length → rec.getD (a + i) 0 = win.getD i 0) : lag (padded a f b) rec j = lag f win j := by
  rw [lag_range, lag_range, sum_padded_mul a b f (fun k => rec.getD (k + j) 0)]
  refine Finset.sum_congr rfl fun k hk => ?_
  have := Finset.mem_range.1 hk
  rw [← hw (k + j) (by omega)]
  congr 2
  omega

/-- lags against a scaled and shifted signal, for a filter whose weights sum to zero -/
theorem lag_affine (f sig : List K) (b c : K) (j : Nat) (hj : j ≤ 4) (hl : sig.length = f.length + 4) (hs : f.sum = 0) :
    lag f (sig.map (fun a => b + c * a)) j = c * lag f sig j := by
  rw [lag_range, lag_range, Finset.mul_sum]
  have e : ∀ k ∈ Finset.range f.length, f.getD k 0 * (sig.map (fun a => b + c * a)).getD (k + j) 0 = b * f.getD k 0 + c * (f.getD k 0 * sig.getD (k + j) 0) := by
    intro k hk
    have hk' := Finset.mem_range.1 hk
    have : (sig.map (fun a => b + c * a)).getD (k + j) 0 = b + c * sig.getD (k + j) 0 := by
      simp only [List.getD_eq_getElem?_getD, List.getElem?_map]
      rw [List.getElem?_eq_getElem (by omega)]
      rfl
    rw [this]
    ring
  rw [Finset.sum_congr rfl e, Finset.sum_add_distrib, ← Finset.mul_sum, ← sum_getD, hs, mul_zero, zero_add]

theorem peakY_scale (c : K) (hc : c ≠ 0) (v : Conv K) :
    peakY (parabola ⟨c * v.c0, c * v.c1, c * v.c2, c * v.c3, c * v.c4⟩) = c * peakY (parabola v) := by
  have e : parabola (K := K) ⟨c * v.c0, c * v.c1, c * v.c2, c * v.c3, c * v.c4⟩ = (c * (parabola v).1, c * (parabola v).2.1, c * (parabola v).2.2) := by
    unfold parabola
    dsimp only
    refine Prod.ext ?_ (Prod.ext ?_ ?_) <;> (dsimp only; ring)
  rw [e]
  unfold peakY
  dsimp only
  generalize (parabola v).1 = p
  generalize (parabola v).2.1 = q
  generalize (parabola v).2.2 = r
  by_cases hr : r = 0
  · subst hr; simp
  · field_simp

theorem lag_scale (f sig : List K) (c : K) (j : Nat) : lag (f.map (· * c)) sig j = c * lag f sig j := by
  rw [lag_range, lag_range, Finset.mul_sum, List.length_map]
  refine Finset.sum_congr rfl fun k _ => ?_
  rw [getD_map_mul]
  ring

theorem sum_scale (f : List K) (c : K) : (f.map (· * c)).sum = f.sum * c := by
  induction f with
  | nil => simp
  | cons a t ih => simp [ih, add_mul]

/-- What a successful `compute_5lag` has done -/
theorem compute5_inv {m : Maker K} {cutPre cutPost : Int} {F : Filt K} (h : compute5lag m cutPre cutPost = .ok F) :
    ∃ (sig : List K) (peak : K) (dt : List K) (S : Sym K) (x u f : List K),
      0 ≤ cutPre ∧ 0 ≤ cutPost ∧ normalizeSignal m cutPre cutPost = .ok (sig, peak, dt) ∧
      (pySlice sig 2 (-2)).length ≤ (computeAutocorr m cutPre cutPost).length ∧
      mkSym ((computeAutocorr m cutPre cutPost).take (pySlice sig 2 (-2)).length) = .ok S ∧
      solveSym S (pySlice sig 2 (-2)) = .ok x ∧ solveSym S (List.replicate (pySlice sig 2 (-2)).length 1) = .ok u ∧
      normalize5 (rawFilter x u) sig = .ok f ∧
      bracketR f ((computeAutocorr m cutPre cutPost).take (pySlice sig 2 (-2)).length) = .ok F.variance ∧
      F.values = padded cutPre.toNat f cutPost.toNat ∧ F.peak = peak ∧ F.signal = sig := by
  unfold compute5lag at h
  split at h
  · exact absurd h (by simp)
  · dsimp only at h
    cases hn : normalizeSignal m cutPre cutPost with
    | error e => rw [hn] at h; exact absurd h (by simp)
    | ok r =>
      obtain ⟨sig, peak, dt⟩ := r
      rw [hn] at h
      dsimp only at h
      split at h
      · exact absurd h (by simp)
      · rename_i hlen
        cases hS : mkSym ((computeAutocorr m cutPre cutPost).take (pySlice sig 2 (-2)).length) with
        | error e => rw [hS] at h; exact absurd h (by simp)
        | ok S =>
          rw [hS] at h
          dsimp only at h
          cases hx : solveSym S (pySlice sig 2 (-2)) with
          | error e => rw [hx] at h; exact absurd h (by simp)
          | ok x =>
            rw [hx] at h
            dsimp only at h
            cases hu : solveSym S (List.replicate (pySlice sig 2 (-2)).length 1) with
            | error e => rw [hu] at h; exact absurd h (by simp)
            | ok u =>
              rw [hu] at h
              dsimp only at h
              cases hf : normalize5 (rawFilter x u) sig with
              | error e => rw [hf] at h; exact absurd h (by simp)
              | ok f =>
                rw [hf] at h
                dsimp only at h
                cases hv : bracketR f ((computeAutocorr m cutPre cutPost).take (pySlice sig 2 (-2)).length) with
                | error e => rw [hv] at h; exact absurd h (by simp)
                | ok v =>
                  rw [hv] at h
                  dsimp only at h
                  injection h with h
                  have hneg : 0 ≤ cutPre ∧ 0 ≤ cutPost := by
                    unfold normalizeSignal at hn
                    dsimp only at hn
                    split at hn
                    · exact absurd hn (by simp)
                    · rename_i hc; omega
                  refine ⟨sig, peak, dt, S, x, u, f, hneg.1, hneg.2, rfl, by omega, hS, hx, hu, hf, ?_, ?_, ?_, ?_⟩
                  · rw [← h]; exact hv
                  all_goals rw [← h]

theorem solveSym_length {S : Sym K} {y x : List K} (h : solveSym S y = .ok x) : x.length = S.T.length ∧ y.length = S.T.length := by
  unfold solveSym at h
  dsimp only at h
  split at h
  · exact absurd h (by simp)
  · rename_i hl
    injection h with h
    refine ⟨?_, by omega⟩
    rw [← h]
    simp

theorem mkSym_T {T : List K} {S : Sym K} (h : mkSym T = .ok S) : S.T = T ∧ 2 ≤ T.length := by
  unfold mkSym at h
  dsimp only at h
  split at h
  · exact absurd h (by simp)
  · rename_i hl
    injection h with h
    exact ⟨by rw [← h], by omega⟩

theorem normalize_length {m : Maker K} {cutPre cutPost : Int} {sig : List K} {peak : K} {dt : List K}
    (h : normalizeSignal m cutPre cutPost = .ok (sig, peak, dt)) :
    0 ≤ cutPre ∧ 0 ≤ cutPost ∧ sig.length + cutPre.toNat + cutPost.toNat = m.signal.length := by
  unfold normalizeSignal at h
  dsimp only at h
  split at h
  · exact absurd h (by simp)
  · split at h
    · exact absurd h (by simp)
    · split at h
      · exact absurd h (by simp)
      · rename_i h1 h2 h3
        injection h with h
        have hs := (Prod.mk.inj h).1
        have hc1 : 0 ≤ cutPre := by omega
        have hc2 : 0 ≤ cutPost := by omega
        refine ⟨hc1, hc2, ?_⟩
        rw [← hs]
        have e : (m.signal.length : Int) - cutPost = ((m.signal.length - cutPost.toNat : Nat) : Int) := by omega
        rw [e, length_pySlice_nonneg]
        · omega
        · simp
          omega

/-- C63: cut windows are refused exactly if one is negative or they leave nothing of the signal -/
theorem normalize_refused (m : Maker K) (cutPre cutPost : Int) :
    normalizeSignal m cutPre cutPost = .error .value ↔ cutPre < 0 ∨ cutPost < 0 ∨ (m.signal.length : Int) ≤ cutPre + cutPost := by
  unfold normalizeSignal
  dsimp only
  by_cases h1 : cutPre < 0 ∨ cutPost < 0
  · rw [if_pos h1]
    exact ⟨fun _ => by omega, fun _ => rfl⟩
  · rw [if_neg h1]
    by_cases h2 : (m.signal.length : Int) ≤ cutPre + cutPost
    · rw [if_pos h2]
      exact ⟨fun _ => .inr (.inr h2), fun _ => rfl⟩
    · rw [if_neg h2]
      constructor
      · intro h
        split at h
        · injection h with h; cases h
        · cases h
      · intro h; omega

theorem getD_pySlice_win (l : List K) (a : Nat) (b : Nat) (i : Nat) (hi : a + i < b) (hb : b ≤ l.length) : (pySlice l a (b : Int)).getD i 0 = l.getD (a + i) 0 := by
  unfold pySlice
  dsimp only
  rw [if_neg (by omega), Int.toNat_natCast, List.getD_eq_getElem?_getD, List.getD_eq_getElem?_getD, List.getElem?_drop, List.getElem?_take_of_lt hi]

/-- C64: signal and arrival-time model are scaled by the same factor, so that times keep their meaning: outside the cut windows the normalised signal is that
factor times the signal above its pretrigger mean, from the trigger on, and zero before it; the normalised arrival-time model is the same factor times the model. -/
theorem normalize_factor {m : Maker K} {d : List K} (hd : m.dtModel = some d) (hl : d.length = m.signal.length) {cutPre cutPost : Int} {sig dt : List K} {peak : K}
    (h : normalizeSignal m cutPre cutPost = .ok (sig, peak, dt)) :
    ∃ c p : K, ∀ i, i + cutPre.toNat + cutPost.toNat < m.signal.length →
      dt.getD i 0 = d.getD (cutPre.toNat + i) 0 * c ∧
      sig.getD i 0 = if m.nPre ≤ cutPre.toNat + i then (m.signal.getD (cutPre.toNat + i) 0 - p) * c else 0 := by
  obtain ⟨hc1, hc2, -⟩ := normalize_length h
  unfold normalizeSignal at h
  dsimp only at h
  split at h
  · cases h
  split at h
  · cases h
  split at h
  · cases h
  injection h with h
  rw [Prod.mk.injEq, Prod.mk.injEq] at h
  obtain ⟨hs, -, hdt⟩ := h
  generalize hp : (pySlice m.signal cutPre.toNat ((m.nPre : Int) - 1)).sum / ((pySlice m.signal cutPre.toNat ((m.nPre : Int) - 1)).length : K) = p at *
  generalize hc : 1 / lmax (m.signal.map (· - p)) = c at *
  refine ⟨c, p, fun i hi => ?_⟩
  have e : (m.signal.length : Int) - cutPost = ((m.signal.length - cutPost.toNat : Nat) : Int) := by omega
  rw [e] at hs hdt
  rw [hd] at hdt
  dsimp only at hdt
  constructor
  · rw [← hdt, getD_pySlice_win _ _ _ _ (by omega) (by rw [List.length_map]; omega)]
    simp [List.getD_eq_getElem?_getD, show cutPre.toNat + i < d.length by omega]
  · rw [← hs, getD_pySlice_win _ _ _ _ (by omega) (by simp; omega)]
    by_cases hn : m.nPre ≤ cutPre.toNat + i
    · rw [if_pos hn, List.getD_eq_getElem?_getD, List.getElem?_append_right (by rw [List.length_replicate]; omega), List.length_replicate, List.getElem?_drop,
        show m.nPre + (cutPre.toNat + i - min m.nPre m.signal.length) = cutPre.toNat + i by omega]
      simp [List.getD_eq_getElem?_getD, show cutPre.toNat + i < m.signal.length by omega]
    · rw [if_neg hn, List.getD_eq_getElem?_getD, List.getElem?_append_left (by rw [List.length_replicate]; omega), List.getElem?_replicate]
      split <;> rfl

/-- C63. A filter computed by `compute_5lag` covers the record less 4 samples, has zero weight in the cut windows, and its weights sum to zero: a constant
baseline has no effect. -/
theorem fivelag_shape {m : Maker K} {cutPre cutPost : Int} {F : Filt K} (h : compute5lag m cutPre cutPost = .ok F) :
    F.values.length + 4 = m.signal.length ∧ F.values.sum = 0 ∧
      (∀ i : Nat, (i : Int) < cutPre → F.values.getD i 0 = 0) ∧ (∀ i : Nat, (F.values.length : Int) - cutPost ≤ i → F.values.getD i 0 = 0) ∧
      F.signal.length + cutPre.toNat + cutPost.toNat = m.signal.length := by
  obtain ⟨sig, peak, dt, S, x, u, f, h1, h2, hn, hl, hS, hx, hu, hf, hv, hval, hpk, hsig⟩ := compute5_inv h
  have hxl := solveSym_length hx
  have hul := solveSym_length hu
  have hfl : f.length = sig.length - 4 ∧ 4 ≤ sig.length ∧ f.sum = 0 := by
    unfold normalize5 at hf
    split at hf
    · exact absurd hf (by simp)
    · rename_i hc
      dsimp only at hf
      injection hf with hf
      have hr := length_raw x u (by omega)
      have hsl := length_mid sig
      refine ⟨?_, ?_, ?_⟩
      · rw [← hf, List.length_map, hr]; omega
      · omega
      · rw [← hf, sum_scale, raw_sum_zero x u (by omega), zero_mul]
  have hnl := normalize_length hn
  refine ⟨?_, ?_, ?_, ?_, ?_⟩
  · rw [hval, length_padded]; omega
  · rw [hval]
    unfold padded
    simp [hfl.2.2]
  · intro i hi
    rw [hval, getD_padded, if_neg (by omega)]
  · intro i hi
    rw [hval, getD_padded]
    split
    · rw [hval, length_padded] at hi
      rw [getD_ge f (by omega)]
    · rfl
  · rw [hsig]; exact hnl.2.2

/-- C63. End to end: a record that is, outside the cut windows, a constant plus c times the model signal, filtered with the five-lag method, gives the
value c. (The hypothesis that the filter has a non-zero weight rules out a signal to which no filter responds.) -/
theorem fivelag_response {m : Maker K} {cutPre cutPost : Int} {F : Filt K} (h : compute5lag m cutPre cutPost = .ok F) (hne : ∃ w ∈ F.values, w ≠ 0)
    (rec : List K) (hr : rec.length = m.signal.length) (b c : K) (hc : c ≠ 0)
    (hrec : ∀ i : Nat, i < F.signal.length → rec.getD (cutPre.toNat + i) 0 = b + c * F.signal.getD i 0) :
    ∃ v, lagDirect F.values rec = .ok v ∧ peakY (parabola v) = c := by
  have hshape := fivelag_shape h
  obtain ⟨sig, peak, dt, S, x, u, f, h1, h2, hn, hl, hS, hx, hu, hf, hv, hval, hpk, hsig⟩ := compute5_inv h
  rw [hsig] at hrec
  refine ⟨_, direct_eq_lags (by omega), ?_⟩
  have hxl := solveSym_length hx
  have hul := solveSym_length hu
  unfold normalize5 at hf
  split at hf
  · exact absurd hf (by simp)
  rename_i hlen
  dsimp only at hf
  injection hf with hf
  set raw := rawFilter x u with hraw
  set p := peakY (parabola ⟨lag raw sig 0, lag raw sig 1, lag raw sig 2, lag raw sig 3, lag raw sig 4⟩) with hp
  have hrl : raw.length + 4 = sig.length := by
    have h3 : raw.length = x.length := length_raw x u (by omega)
    have := length_mid sig
    omega
  have hfl : f.length + 4 = sig.length := by rw [← hf, List.length_map]; exact hrl
  have hfs : f.sum = 0 := by rw [← hf, sum_scale, raw_sum_zero x u (by omega), zero_mul]
  have hp0 : p ≠ 0 := by
    intro h0
    obtain ⟨w, hw, hw0⟩ := hne
    rw [hval, ← hf, h0] at hw
    unfold padded at hw
    simp only [div_zero, mul_zero, List.mem_append, List.mem_replicate, List.mem_map] at hw
    rcases hw with (⟨-, hw⟩ | ⟨-, -, hw⟩) | ⟨-, hw⟩
    · exact hw0 hw
    · exact hw0 hw.symm
    · exact hw0 hw
  have hlag : ∀ j, j ≤ 4 → lag F.values rec j = c * lag f sig j := by
    intro j hj
    rw [hval, lag_padded _ _ f rec (sig.map (fun a => b + c * a)) j hj (by simp; omega), lag_affine f sig b c j hj (by omega) hfs]
    intro i hi
    rw [List.length_map] at hi
    rw [hrec i hi]
    simp only [List.getD_eq_getElem?_getD, List.getElem?_map]
    rw [List.getElem?_eq_getElem hi]
    rfl
  rw [hlag 0 (by omega), hlag 1 (by omega), hlag 2 (by omega), hlag 3 (by omega), hlag 4 (by omega),
    peakY_scale c hc ⟨lag f sig 0, lag f sig 1, lag f sig 2, lag f sig 3, lag f sig 4⟩]
  have hf1 : ∀ j, lag f sig j = 1 / p * lag raw sig j := by
    intro j
    rw [← hf, lag_scale]
  rw [hf1 0, hf1 1, hf1 2, hf1 3, hf1 4, peakY_scale (1 / p) (one_div_ne_zero hp0) ⟨lag raw sig 0, lag raw sig 1, lag raw sig 2, lag raw sig 3, lag raw sig 4⟩, ← hp,
    one_div, inv_mul_cancel₀ hp0, mul_one]

/-- the quadratic form and the bilinear form of the noise matrix [specification] -/
def bil (T : List K) (n : Nat) (a b : Nat → K) : K :=
  ∑ i ∈ Finset.range n, ∑ j ∈ Finset.range n, a i * T.getD ((i : Int) - j).natAbs 0 * b j

theorem bil_comm (T : List K) (n : Nat) (a b : Nat → K) : bil T n a b = bil T n b a := by
  unfold bil
  rw [Finset.sum_comm]
  refine Finset.sum_congr rfl fun i _ => Finset.sum_congr rfl fun j _ => ?_
  have : ((j : Int) - i).natAbs = ((i : Int) - j).natAbs := by omega
  rw [this]
  ring

theorem bil_add (T : List K) (n : Nat) (a d : Nat → K) :
    bil T n (fun i => a i + d i) (fun i => a i + d i) = bil T n a a + 2 * bil T n d a + bil T n d d := by
  have : bil T n (fun i => a i + d i) (fun i => a i + d i) = bil T n a a + bil T n a d + bil T n d a + bil T n d d := by
    unfold bil
    rw [← Finset.sum_add_distrib, ← Finset.sum_add_distrib, ← Finset.sum_add_distrib]
    refine Finset.sum_congr rfl fun i _ => ?_
    rw [← Finset.sum_add_distrib, ← Finset.sum_add_distrib, ← Finset.sum_add_distrib]
    exact Finset.sum_congr rfl fun j _ => by ring
  rw [this, bil_comm T n a d]
  ring

theorem bil_solve (T : List K) (n : Nat) (d x s : Nat → K)
    (hx : ∀ i : Nat, i < n → ∑ j ∈ Finset.range n, T.getD ((i : Int) - j).natAbs 0 * x j = s i) :
    bil T n d x = ∑ i ∈ Finset.range n, d i * s i := by
  unfold bil
  refine Finset.sum_congr rfl fun i hi => ?_
  rw [← hx i (Finset.mem_range.1 hi), Finset.mul_sum]
  exact Finset.sum_congr rfl fun j _ => by ring

theorem bil_congr (T : List K) (n : Nat) {a a' b b' : Nat → K} (ha : ∀ i, i < n → a i = a' i) (hb : ∀ i, i < n → b i = b' i) : bil T n a b = bil T n a' b' := by
  unfold bil
  refine Finset.sum_congr rfl fun i hi => Finset.sum_congr rfl fun j hj => ?_
  rw [ha i (Finset.mem_range.1 hi), hb j (Finset.mem_range.1 hj)]

theorem bil_lin (T : List K) (n : Nat) (d x u : Nat → K) (p q : K) :
    bil T n d (fun i => p * x i + q * u i) = p * bil T n d x + q * bil T n d u := by
  unfold bil
  rw [Finset.mul_sum, Finset.mul_sum, ← Finset.sum_add_distrib]
  refine Finset.sum_congr rfl fun i _ => ?_
  rw [Finset.mul_sum, Finset.mul_sum, ← Finset.sum_add_distrib]
  exact Finset.sum_congr rfl fun j _ => by ring

theorem posdef_nonneg {T : List K} (h : PosDef T) (v : Nat → K) : 0 ≤ bil T T.length v v := by
  by_cases hv : ∃ i, i < T.length ∧ v i ≠ 0
  · exact le_of_lt (h v hv)
  · push Not at hv
    unfold bil
    refine le_of_eq (Finset.sum_eq_zero fun i hi => Finset.sum_eq_zero fun j _ => ?_).symm
    rw [hv i (Finset.mem_range.1 hi)]
    ring

theorem posdef_head {T : List K} (hn : 1 ≤ T.length) (hpd : PosDef T) : T.getD 0 0 ≠ 0 := by
  have hpos := hpd (fun i => if i = 0 then 1 else 0) ⟨0, by omega, by simp⟩
  have := quad_extend (fun d => T.getD d.natAbs 0) T.length 0 (by omega) (fun i => if i = 0 then 1 else 0) (fun i hi => if_neg (by omega))
  rw [this] at hpos
  simp at hpos
  intro hc
  rw [List.getD_eq_getElem?_getD] at hc
  rw [hc] at hpos
  exact lt_irrefl _ hpos

theorem posdef_solve {T y x : List K} {S : Sym K} (hS : mkSym T = .ok S) (hpd : PosDef T) (hx : solveSym S y = .ok x) :
    ∀ i : Nat, i < T.length → ∑ j ∈ Finset.range T.length, T.getD ((i : Int) - j).natAbs 0 * x.getD j 0 = y.getD i 0 := by
  have hT := mkSym_T hS
  obtain ⟨S', hS', -, hden, -⟩ := mkSym_ok hT.2
  rw [hS] at hS'
  injection hS' with hS'
  subst hS'
  have h0 := posdef_head (by omega) hpd
  have hl := solveSym_length hx
  obtain ⟨x', hx', -, he⟩ := solve_matrix hS h0 (fun k h1 h2 => by
    rw [hden k h1 h2]
    exact posdef_divisor hpd h0 T.length k h1 h2 (le_refl _)) (y := y) (by rw [hl.2, hT.1])
  rw [hx] at hx'
  injection hx' with hx'
  rw [hx']
  exact he

/-- C63. The filter is optimal: among all weight vectors that ignore a constant and respond to the (shortened) model signal as this filter does, none has a
smaller output variance, when the noise matrix is positive definite. -/
theorem fivelag_optimal {m : Maker K} {cutPre cutPost : Int} {F : Filt K} (h : compute5lag m cutPre cutPost = .ok F) (n : Nat) (hn : n = F.signal.length - 4)
    (hpd : PosDef ((computeAutocorr m cutPre cutPost).take n)) (g : List K) (hg : g.length = n) (hg0 : g.sum = 0)
    (hgs : ∑ i ∈ Finset.range n, g.getD i 0 * F.signal.getD (i + 2) 0 = ∑ i ∈ Finset.range n, F.values.getD (cutPre.toNat + i) 0 * F.signal.getD (i + 2) 0) :
    ∃ v, bracketR g ((computeAutocorr m cutPre cutPost).take n) = .ok v ∧ F.variance ≤ v := by
  have hshape := fivelag_shape h
  obtain ⟨sig, peak, dt, S, x, u, f, h1, h2, hnm, hl, hS, hx, hu, hf, hv, hval, hpk, hsig⟩ := compute5_inv h
  have hml := length_mid sig
  rw [hsig] at hn hgs
  have hnl : (pySlice sig 2 (-2)).length = n := by omega
  rw [hnl] at hl hS hu hv
  set T := (computeAutocorr m cutPre cutPost).take n with hT
  have hTn : T.length = n := by rw [hT, List.length_take]; omega
  have hTS := mkSym_T hS
  have hxl := solveSym_length hx
  have hul := solveSym_length hu
  have hsx := posdef_solve hS hpd hx
  have hsu := posdef_solve hS hpd hu
  rw [hTn] at hsx hsu
  rw [hTS.1] at hxl hul
  unfold normalize5 at hf
  split at hf
  · exact absurd hf (by simp)
  dsimp only at hf
  injection hf with hf
  set p := peakY (parabola ⟨lag (rawFilter x u) sig 0, lag (rawFilter x u) sig 1, lag (rawFilter x u) sig 2, lag (rawFilter x u) sig 3, lag (rawFilter x u) sig 4⟩) with hp
  have hrl := length_raw x u (by omega)
  have hfl : f.length = n := by rw [← hf, List.length_map, hrl]; omega
  have hfi : ∀ i, i < n → f.getD i 0 = 1 / p * u.sum * x.getD i 0 + -(1 / p * x.sum) * u.getD i 0 := by
    intro i hi
    rw [← hf, getD_map_mul, getD_raw x u (by omega) i (by omega)]
    ring
  have hgne : g ≠ [] := by rintro rfl; simp at hg; omega
  have hfne : f ≠ [] := by rintro rfl; simp at hfl; omega
  refine ⟨_, bracketR_spec (by omega) hgne, ?_⟩
  rw [bracketR_spec (by omega) hfne] at hv
  injection hv with hv
  rw [← hv, hfl, hg]
  change bil T n (fun i => f.getD i 0) (fun i => f.getD i 0) ≤ bil T n (fun i => g.getD i 0) (fun i => g.getD i 0)
  -- write g = f + d
  let d : Nat → K := fun i => g.getD i 0 - f.getD i 0
  have hgd : bil T n (fun i => g.getD i 0) (fun i => g.getD i 0) = bil T n (fun i => f.getD i 0 + d i) (fun i => f.getD i 0 + d i) :=
    bil_congr T n (fun i _ => by show _ = _ + (_ - _); ring) (fun i _ => by show _ = _ + (_ - _); ring)
  rw [hgd, bil_add]
  have hd1 : ∑ i ∈ Finset.range n, d i * (List.replicate n (1 : K)).getD i 0 = 0 := by
    have e : ∀ i ∈ Finset.range n, d i * (List.replicate n (1 : K)).getD i 0 = g.getD i 0 - f.getD i 0 := by
      intro i hi
      have := Finset.mem_range.1 hi
      rw [List.getD_eq_getElem?_getD, List.getElem?_replicate, if_pos this]
      show d i * 1 = _
      rw [mul_one]
    rw [Finset.sum_congr rfl e, Finset.sum_sub_distrib]
    have e1 : ∑ i ∈ Finset.range n, g.getD i 0 = 0 := by rw [← hg, ← sum_getD, hg0]
    have e2 : ∑ i ∈ Finset.range n, f.getD i 0 = 0 := by
      rw [← hfl, ← sum_getD, ← hf, sum_scale, raw_sum_zero x u (by omega), zero_mul]
    rw [e1, e2, sub_zero]
  have hds : ∑ i ∈ Finset.range n, d i * (pySlice sig 2 (-2)).getD i 0 = 0 := by
    have e : ∀ i ∈ Finset.range n, d i * (pySlice sig 2 (-2)).getD i 0 = g.getD i 0 * sig.getD (i + 2) 0 - f.getD i 0 * sig.getD (i + 2) 0 := by
      intro i hi
      have := Finset.mem_range.1 hi
      rw [getD_pySlice_mid sig i (by omega)]
      show (_ - _) * _ = _
      ring
    rw [Finset.sum_congr rfl e, Finset.sum_sub_distrib, hgs, sub_eq_zero]
    refine Finset.sum_congr rfl fun i _ => ?_
    rw [hval, getD_padded, if_pos (by omega)]
    congr 2
    omega
  have hcross : bil T n d (fun i => f.getD i 0) = 0 := by
    rw [bil_congr T n (fun i _ => rfl) hfi, bil_lin, bil_solve T n d _ _ hsx, bil_solve T n d _ _ hsu, hd1, hds]
    ring
  rw [hcross]
  have := posdef_nonneg hpd d
  rw [hTn] at this
  linarith

/-- C63, instance: a record of 9 samples, white noise [specification] -/
def demo : Maker ℚ := ⟨[0, 0, 0, 4, 2, 1, 0, 0, 0], 3, some [1, 0, 0, 0, 0, 0, 0, 0, 0], none, none, 0⟩
example : ∃ F, compute5lag demo 0 0 = .ok F ∧ F.values.length = 5 ∧ F.values.sum = 0 ∧ F.peak = 4 ∧ 0 < F.variance ∧
    (lagDirect F.values ([0, 0, 0, 4, 2, 1, 0, 0, 0].map (fun a => 7 + 3 * a / 4))).map (fun v => peakY (parabola v)) = .ok 3 := by
  refine ⟨_, rfl, ?_⟩
  decide +kernel

/-- With a whitener but no autocorrelation (allowed by the class description) no five-lag filter can be made. -/
theorem fivelag_whitener_only_fails : compute5lag { demo with autocorr := none, whitener := some ([1], [1]) } 0 0 = .error .assertion := by decide +kernel

/-- For a negative-going pulse the model signal is not scaled to unit amplitude: it is divided by its largest positive excursion. -/
theorem normalize_negative_fails : (normalizeSignal (K := ℚ) ⟨[1, 0, 1, -40, -20, 2], 3, none, none, none, 0⟩ 0 0).map (fun r => (r.1, r.2.1)) =
    .ok ([0, 0, 0, -81 / 3, -41 / 3, 1], -81 / 2) := by decide +kernel

end Mass.Lin
