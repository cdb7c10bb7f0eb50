import Verif.Lin.Filter
import Mathlib.Data.List.GetD
import Mathlib.Tactic.FieldSimp
import Mathlib.Tactic.LinearCombination
/-! C127: the noise of a channel (mass/core/channel.py, class MicrocalDataSet): assume_white_noise, compute_noise, compute_noise_spectra, and the check of compute_5lag_filter.
How spectra and autocorrelations are computed from noise records: C69, C74. Here they are what the noise file gives: any lists of the lengths of the datasets of the noise file. Exact arithmetic. -/
namespace Mass.Lin.ChanNoise
set_option linter.unusedSectionVars false
open Mass Mass.Algo Mass.Lin
variable {K : Type} [Field K] [LinearOrder K] [IsStrictOrderedRing K]

/-- The noise datasets of a channel, channel.py L736-740, and the attribute delta_f of noise_psd (absent in a new file) -/
structure Noise (K : Type) where
  autocorr : List K
  psd : List K
  deltaF : Option K
  deriving DecidableEq

/-- New datasets are filled with zeros; channel.py L736-740 -/
def fresh (n : Nat) : Noise K := ⟨List.replicate n 0, List.replicate (1 + n / 2) 0, none⟩

/-- all(self.noise_autocorr[:] == 0), channel.py L1577, L1617, L1158 -/
def unset (s : Noise K) : Bool := s.autocorr.all (fun a => decide (a = 0))

/-- `assume_white_noise`, channel.py L1565-1581. An empty noise_autocorr has no entry 0 to set: h5py refuses. -/
def assumeWhite (timebase var : K) (force : Bool) (s : Noise K) : Except Exc (Noise K) :=
  if force || unset s then
    match s.autocorr with
    | [] => .error .value
    | _ :: t => .ok { s with
        autocorr := var :: t.map (fun _ => 0)
        psd := s.psd.map (fun _ => 2 * var * timebase) }
  else .ok s

/-- `a[:] = src` for an h5py dataset a of n entries: a single value is spread over all of them, other lengths are refused (used for channel.py L1623-1625) -/
def store (n : Nat) (src : List K) : Except Exc (List K) :=
  if src.length = n then .ok src
  else match src with
    | [a] => .ok (List.replicate n a)
    | _ => .error .type

/-- What the noise file holds after compute_power_spectrum_reshape and compute_autocorrelation (channel.py L1618-1621): autocorrelation, noise_psd, delta_f -/
structure Measured (K : Type) where
  autocorr : List K
  psd : List K
  deltaF : K

/-- `compute_noise`, channel.py L1602-1628. `file`: computing from the noise file, which may fail. -/
def computeNoise (file : Except Exc (Measured K)) (force : Bool) (s : Noise K) : Except Exc (Noise K) :=
  if force || unset s then
    match file with
    | .error e => .error e
    | .ok m =>
      match store s.autocorr.length (m.autocorr.take s.autocorr.length) with
      | .error e => .error e
      | .ok a =>
        match store s.psd.length (m.psd.take s.psd.length) with
        | .error e => .error e
        | .ok p => .ok ⟨a, p, some m.deltaF⟩
  else .ok s

/-- `compute_noise_spectra`, channel.py L1632-1637: passes the argument n_lags, which compute_noise does not have -/
def computeNoiseSpectra (_file : Except Exc (Measured K)) (_force : Bool) (_s : Noise K) : Except Exc (Noise K) := .error .type

/-- The first checks of `compute_5lag_filter` (channel.py L1155-1159): with filters present and no forceNew nothing is done (none); without noise it raises. -/
def filterCheck (filters force : Bool) (s : Noise K) : Except Exc (Option Unit) :=
  if filters && !force then .ok none
  else if unset s then .error .exception
  else .ok (some ())

/-- Calls of a user on one channel (channel.py L1565-1628); `file` is the noise file at that time -/
inductive Call (K : Type)
  | white (var : K) (force : Bool)
  | compute (file : Except Exc (Measured K)) (force : Bool)

/-- One call; if it raises, the channel keeps what was stored before the failing step (channel.py L1565-1628): nothing, since the first store is the one that can fail (see compute_atomic) -/
def step (timebase : K) (s : Noise K) : Call K → Noise K
  | .white v f => match assumeWhite timebase v f s with | .ok s' => s' | .error _ => s
  | .compute m f => match computeNoise m f s with | .ok s' => s' | .error _ => s

/-- channel.py L1565-1628: several calls -/
def run (timebase : K) (s : Noise K) (l : List (Call K)) : Noise K := l.foldl (step timebase) s

/-- was forceNew given? [specification] -/
def forced : Call K → Bool
  | .white _ f => f
  | .compute _ f => f

/-- the sizes of the datasets of a channel with records of n samples [specification] -/
def Sized (n : Nat) (s : Noise K) : Prop := s.autocorr.length = n ∧ s.psd.length = 1 + n / 2

/-- what a noise file with records of N samples gives [specification] -/
def FileSized (N : Nat) (m : Measured K) : Prop := m.autocorr.length = N ∧ m.psd.length = 1 + N / 2

/-- the integral over frequency, from zero to the highest frequency 1 / (2 dt), of a spectrum given at m + 1 equidistant frequencies (trapezoids) [specification] -/
def integral (m : Nat) (dt : K) (S : List K) : K := 1 / (2 * dt * m) * (S.getD 0 0 / 2 + ∑ k ∈ Finset.Ico 1 m, S.getD k 0 + S.getD m 0 / 2)

/-! ### White noise -/

theorem unset_iff (s : Noise K) : unset s = true ↔ ∀ a ∈ s.autocorr, a = 0 := by
  simp [unset]

theorem fresh_unset (n : Nat) : unset (fresh n : Noise K) = true := by
  rw [unset_iff]
  intro a ha
  exact (List.mem_replicate.1 ha).2

/-- C127. White noise: the variance is at lag zero, all other lags are zero, and the spectrum is flat and integrates to the variance. -/
theorem white_spec (n : Nat) (hn : 2 ≤ n) (dt v : K) (hdt : 0 < dt) (force : Bool) (s : Noise K) (hs : Sized n s) (hc : force = true ∨ unset s = true) :
    ∃ s', assumeWhite dt v force s = .ok s' ∧ Sized n s' ∧ s'.deltaF = s.deltaF ∧ s'.autocorr.getD 0 0 = v ∧ (∀ k, 1 ≤ k → s'.autocorr.getD k 0 = 0) ∧
      (∀ j k, j ≤ n / 2 → k ≤ n / 2 → s'.psd.getD j 0 = s'.psd.getD k 0) ∧ integral (n / 2) dt s'.psd = v := by
  obtain ⟨h1, h2⟩ := hs
  unfold assumeWhite
  rw [if_pos (by simpa using hc)]
  cases ha : s.autocorr with
  | nil => rw [ha] at h1; simp at h1; omega
  | cons a t =>
    dsimp only
    have hg : ∀ k, k ≤ n / 2 → (s.psd.map (fun _ => 2 * v * dt)).getD k 0 = 2 * v * dt := by
      intro k hk
      rw [List.getD_eq_getElem _ _ (by rw [List.length_map]; omega)]
      simp
    refine ⟨_, rfl, ⟨?_, ?_⟩, rfl, rfl, ?_, ?_, ?_⟩
    · rw [ha] at h1; simpa using h1
    · simpa using h2
    · intro k hk
      obtain ⟨k, rfl⟩ : ∃ k', k = k' + 1 := ⟨k - 1, by omega⟩
      dsimp only
      rw [List.getD_cons_succ]
      by_cases hl : k < (t.map (fun _ => (0 : K))).length
      · rw [List.getD_eq_getElem _ _ hl]; simp
      · exact List.getD_eq_default _ _ (by omega)
    · intro j k hj hk
      dsimp only
      rw [hg j hj, hg k hk]
    · have hm : (0 : K) < ((n / 2 : Nat) : K) := by exact_mod_cast (show 0 < n / 2 by omega)
      unfold integral
      dsimp only
      rw [hg 0 (by omega), hg (n / 2) (le_refl _), Finset.sum_congr rfl (fun k hk => hg k (by have := Finset.mem_Ico.1 hk; omega)), Finset.sum_const, Nat.card_Ico, nsmul_eq_mul,
        Nat.cast_sub (by omega)]
      field_simp
      push_cast
      ring

example : (assumeWhite (K := ℚ) (1 / 10) 3 false (fresh 4)).map (fun s => (s.autocorr, s.psd)) = .ok ([3, 0, 0, 0], [3 / 5, 3 / 5, 3 / 5]) := by decide +kernel

/-! ### Which noise is kept -/

/-- C127. Noise once set is not changed by any later calls without forceNew. -/
theorem noise_kept (dt : K) (s : Noise K) (hs : unset s = false) (l : List (Call K)) (hl : ∀ c ∈ l, forced c = false) : run dt s l = s := by
  induction l with
  | nil => rfl
  | cons c l ih =>
    have hc := hl c (by simp)
    have : step dt s c = s := by
      cases c with
      | white v f =>
        simp only [forced] at hc
        subst hc
        simp [step, assumeWhite, hs]
      | compute m f =>
        simp only [forced] at hc
        subst hc
        simp [step, computeNoise, hs]
    unfold run at ih ⊢
    rw [List.foldl_cons, this]
    exact ih (fun c hc => hl c (by simp [hc]))

theorem store_take (n : Nat) (src : List K) (h : n ≤ src.length) : store n (src.take n) = .ok (src.take n) := by
  unfold store
  rw [if_pos (by simp; omega)]

/-- C127. With noise records as long as the pulse records (or longer), computing the noise with forceNew, or when it is not set, stores the first lags and frequencies of the noise file and its frequency step, whatever was there before. -/
theorem compute_spec (n N : Nat) (hN : n ≤ N) (m : Measured K) (hm : FileSized N m) (force : Bool) (s : Noise K) (hs : Sized n s) (hc : force = true ∨ unset s = true) :
    computeNoise (.ok m) force s = .ok ⟨m.autocorr.take n, m.psd.take (1 + n / 2), some m.deltaF⟩ := by
  obtain ⟨h1, h2⟩ := hs
  obtain ⟨h3, h4⟩ := hm
  unfold computeNoise
  rw [if_pos (by simpa using hc)]
  dsimp only
  rw [h1, h2, store_take n _ (by omega)]
  dsimp only
  rw [store_take _ _ (by omega)]

/-- C127. Records of the same length: exactly the autocorrelation and spectrum of the noise file; calling again (with or without forceNew) changes nothing. -/
theorem compute_same (n : Nat) (m : Measured K) (hm : FileSized n m) (s : Noise K) (hs : Sized n s) (hc : unset s = true) (force : Bool) :
    computeNoise (.ok m) false s = .ok ⟨m.autocorr, m.psd, some m.deltaF⟩ ∧
    computeNoise (.ok m) force ⟨m.autocorr, m.psd, some m.deltaF⟩ = .ok ⟨m.autocorr, m.psd, some m.deltaF⟩ := by
  have e1 : m.autocorr.take n = m.autocorr := by rw [List.take_of_length_le (by rw [hm.1])]
  have e2 : m.psd.take (1 + n / 2) = m.psd := by rw [List.take_of_length_le (by rw [hm.2])]
  constructor
  · rw [compute_spec n n (le_refl _) m hm false s hs (Or.inr hc), e1, e2]
  · by_cases hf : force = true ∨ unset (⟨m.autocorr, m.psd, some m.deltaF⟩ : Noise K) = true
    · rw [compute_spec n n (le_refl _) m hm force ⟨m.autocorr, m.psd, some m.deltaF⟩ ⟨hm.1, hm.2⟩ hf, e1, e2]
    · unfold computeNoise
      rw [if_neg (by simpa using hf)]

/-- C127. Only the autocorrelation can be refused: if it is stored, so is the spectrum. So a failing call leaves the channel as it was. -/
theorem compute_atomic (n N : Nat) (m : Measured K) (hm : FileSized N m) (s : Noise K) (hs : Sized n s) (a : List K)
    (ha : store s.autocorr.length (m.autocorr.take s.autocorr.length) = .ok a) (hn : 2 ≤ n) : ∃ p, store s.psd.length (m.psd.take s.psd.length) = .ok p ∧ p.length = 1 + n / 2 ∧ a.length = n := by
  obtain ⟨h1, h2⟩ := hs
  obtain ⟨h3, h4⟩ := hm
  by_cases hN : n ≤ N
  · rw [h1, store_take n _ (by omega)] at ha
    injection ha with ha
    exact ⟨_, by rw [h2]; exact store_take _ _ (by omega), by simp; omega, by rw [← ha]; simp; omega⟩
  · have e1 : m.autocorr.take n = m.autocorr := List.take_of_length_le (by omega)
    rw [h1, e1] at ha
    unfold store at ha
    rw [if_neg (by omega)] at ha
    split at ha
    · rename_i x hx
      rw [hx] at h3
      simp at h3
      injection ha with ha
      subst h3
      rw [h2]
      obtain ⟨y, hy⟩ : ∃ y, m.psd = [y] := List.length_eq_one_iff.1 (by omega)
      rw [hy]
      refine ⟨List.replicate (1 + n / 2) y, ?_, by simp, by rw [← ha]; simp⟩
      have : List.take (1 + n / 2) [y] = [y] := List.take_of_length_le (by simp)
      rw [this]
      unfold store
      rw [if_neg (by simp; omega)]
    · exact absurd ha (by simp)

/-- C127. All datasets keep their sizes through any calls. -/
theorem run_sized (n : Nat) (hn : 2 ≤ n) (dt : K) (s : Noise K) (hs : Sized n s) (l : List (Call K)) (hl : ∀ m f, Call.compute (.ok m) f ∈ l → ∃ N, FileSized N m) : Sized n (run dt s l) := by
  induction l generalizing s with
  | nil => exact hs
  | cons c l ih =>
    unfold run
    rw [List.foldl_cons]
    refine ih _ ?_ (fun m f h => hl m f (by simp [h]))
    cases c with
    | white v f =>
      unfold step assumeWhite
      dsimp only
      split
      · rename_i s' h
        split at h
        · obtain ⟨h1, h2⟩ := hs
          cases ha : s.autocorr with
          | nil => rw [ha] at h1; simp at h1; omega
          | cons a t =>
            rw [ha] at h h1
            injection h with h
            subst h
            exact ⟨by simpa using h1, by simpa using h2⟩
        · injection h with h
          subst h
          exact hs
      · exact hs
    | compute file f =>
      cases file with
      | error e =>
        unfold step computeNoise
        dsimp only
        split
        · rename_i s' h
          split at h
          · exact absurd h (by simp)
          · injection h with h
            subst h
            exact hs
        · exact hs
      | ok m =>
        obtain ⟨N, hm⟩ := hl m f (by simp)
        unfold step computeNoise
        dsimp only
        split
        · rename_i s' h
          split at h
          · cases ha : store s.autocorr.length (m.autocorr.take s.autocorr.length) with
            | error e => rw [ha] at h; exact absurd h (by simp)
            | ok a =>
              obtain ⟨p, hp, hp', ha'⟩ := compute_atomic n N m hm s hs a ha hn
              rw [ha] at h
              dsimp only at h
              rw [hp] at h
              injection h with h
              subst h
              exact ⟨ha', hp'⟩
          · injection h with h
            subst h
            exact hs
        · exact hs

/-- C127. Filters are refused exactly as long as all autocorrelations are zero: after white noise of non-zero variance they are not. -/
theorem check_spec (n : Nat) (hn : 2 ≤ n) (dt v : K) (hv : v ≠ 0) (s : Noise K) (hs : Sized n s) :
    filterCheck false true (fresh n : Noise K) = .error .exception ∧ ∃ s', assumeWhite dt v true s = .ok s' ∧ unset s' = false ∧ filterCheck false true s' = .ok (some ()) := by
  constructor
  · unfold filterCheck
    rw [fresh_unset]
    rfl
  · obtain ⟨h1, h2⟩ := hs
    cases ha : s.autocorr with
    | nil => rw [ha] at h1; simp at h1; omega
    | cons a t =>
      have hu : unset (⟨v :: t.map (fun _ => 0), s.psd.map (fun _ => 2 * v * dt), s.deltaF⟩ : Noise K) = false := by
        simp [unset, hv]
      refine ⟨⟨v :: t.map (fun _ => 0), s.psd.map (fun _ => 2 * v * dt), s.deltaF⟩, ?_, hu, ?_⟩
      · unfold assumeWhite
        rw [ha]
        rfl
      · unfold filterCheck
        rw [hu]
        rfl

/-! ### The variance does not matter for the filters -/

/-- the autocorrelation multiplied by c [specification] -/
def scaled (c : K) (m : Maker K) : Maker K := { m with autocorr := m.autocorr.map (fun l => l.map (· * c)) }

theorem posdef_scale {T : List K} (h : PosDef T) {c : K} (hc : 0 < c) : PosDef (T.map (· * c)) := by
  intro v hv
  rw [List.length_map] at hv ⊢
  have := h v hv
  have e : ∑ i ∈ Finset.range T.length, ∑ j ∈ Finset.range T.length, v i * (T.map (· * c)).getD ((i : Int) - j).natAbs 0 * v j
      = c * ∑ i ∈ Finset.range T.length, ∑ j ∈ Finset.range T.length, v i * T.getD ((i : Int) - j).natAbs 0 * v j := by
    rw [Finset.mul_sum]
    refine Finset.sum_congr rfl fun i _ => ?_
    rw [Finset.mul_sum]
    refine Finset.sum_congr rfl fun j _ => ?_
    rw [getD_map_mul]
    ring
  rw [e]
  exact mul_pos hc this

/-- the solution of a positive definite system is unique -/
theorem posdef_unique {T : List K} (h : PosDef T) {x x' : Nat → K}
    (hx : ∀ i : Nat, i < T.length → ∑ j ∈ Finset.range T.length, T.getD ((i : Int) - j).natAbs 0 * x j = ∑ j ∈ Finset.range T.length, T.getD ((i : Int) - j).natAbs 0 * x' j) :
    ∀ i, i < T.length → x i = x' i := by
  by_contra hne
  push Not at hne
  obtain ⟨i, hi, hxi⟩ := hne
  have := h (fun i => x i - x' i) ⟨i, hi, sub_ne_zero.2 hxi⟩
  refine absurd this (not_lt.2 (le_of_eq ?_))
  refine Finset.sum_eq_zero fun i hi => ?_
  have e : ∀ j ∈ Finset.range T.length, (x i - x' i) * T.getD ((i : Int) - j).natAbs 0 * (x j - x' j)
      = (x i - x' i) * (T.getD ((i : Int) - j).natAbs 0 * x j) - (x i - x' i) * (T.getD ((i : Int) - j).natAbs 0 * x' j) := fun j _ => by ring
  rw [Finset.sum_congr rfl e, Finset.sum_sub_distrib, ← Finset.mul_sum, ← Finset.mul_sum, hx i (Finset.mem_range.1 hi), sub_self]

theorem list_ext {a b : List K} (hl : a.length = b.length) (h : ∀ i, i < b.length → a.getD i 0 = b.getD i 0) : a = b := list_eq_of_getD hl h

theorem solve_scale {T y x x' : List K} {S S' : Sym K} {c : K} (hc : 0 < c) (hpd : PosDef T) (hS : mkSym T = .ok S) (hS' : mkSym (T.map (· * c)) = .ok S')
    (hx : solveSym S y = .ok x) (hx' : solveSym S' y = .ok x') : x' = x.map (· * c⁻¹) := by
  have h1 := posdef_solve hS hpd hx
  have h2 := posdef_solve hS' (posdef_scale hpd hc) hx'
  have l1 := solveSym_length hx
  have l2 := solveSym_length hx'
  rw [(mkSym_T hS).1] at l1
  rw [(mkSym_T hS').1, List.length_map] at l2
  refine list_ext (by rw [List.length_map]; omega) fun i hi => ?_
  rw [List.length_map] at hi
  rw [getD_map_mul]
  refine posdef_unique hpd (x := fun i => x'.getD i 0) (x' := fun i => x.getD i 0 * c⁻¹) (fun k hk => ?_) i (by omega)
  have a1 := h1 k hk
  have a2 := h2 k (by rw [List.length_map]; exact hk)
  rw [List.length_map] at a2
  have e2 : ∑ j ∈ Finset.range T.length, (T.map (· * c)).getD ((k : Int) - j).natAbs 0 * x'.getD j 0 = c * ∑ j ∈ Finset.range T.length, T.getD ((k : Int) - j).natAbs 0 * x'.getD j 0 := by
    rw [Finset.mul_sum]
    refine Finset.sum_congr rfl fun j _ => ?_
    rw [getD_map_mul]
    ring
  have e1 : ∑ j ∈ Finset.range T.length, T.getD ((k : Int) - j).natAbs 0 * (x.getD j 0 * c⁻¹) = (∑ j ∈ Finset.range T.length, T.getD ((k : Int) - j).natAbs 0 * x.getD j 0) * c⁻¹ := by
    rw [Finset.sum_mul]
    exact Finset.sum_congr rfl fun j _ => by ring
  rw [e1, a1, ← a2, e2]
  field_simp

theorem raw_scale (x u : List K) (b : K) : rawFilter (x.map (· * b)) (u.map (· * b)) = (rawFilter x u).map (· * (b * b)) := by
  unfold rawFilter
  rw [sum_scale, sum_scale, List.zipWith_map, List.map_zipWith]
  congr 1
  funext a a'
  ring

theorem normalize_scale {f sig f' : List K} {b : K} (hb : b ≠ 0) (h : normalize5 f sig = .ok f') : normalize5 (f.map (· * b)) sig = .ok f' := by
  unfold normalize5 at h ⊢
  rw [List.length_map]
  split at h
  · exact absurd h (by simp)
  · rename_i hl
    rw [if_neg hl]
    dsimp only at h ⊢
    injection h with h
    rw [lag_scale, lag_scale, lag_scale, lag_scale, lag_scale, peakY_scale b hb ⟨lag f sig 0, lag f sig 1, lag f sig 2, lag f sig 3, lag f sig 4⟩, ← h, List.map_map]
    congr 1
    refine List.map_congr_left fun a _ => ?_
    simp only [Function.comp_apply]
    generalize peakY (parabola ⟨lag f sig 0, lag f sig 1, lag f sig 2, lag f sig 3, lag f sig 4⟩) = p
    by_cases hp : p = 0
    · subst hp; simp
    · field_simp

theorem pySlice_map (l : List K) (c : K) (a : Nat) (b : Int) : pySlice (l.map (· * c)) a b = (pySlice l a b).map (· * c) := by
  unfold pySlice
  dsimp only
  rw [List.length_map, List.map_drop, List.map_take]

theorem autocorr_scale (m : Maker K) (c : K) (a b : Int) : computeAutocorr (scaled c m) a b = (computeAutocorr m a b).map (· * c) := by
  unfold computeAutocorr scaled
  cases m.autocorr with
  | none => rfl
  | some l => exact pySlice_map l c 0 _

/-- C127. Multiplying all noise autocorrelations by a positive number does not change the five-lag filter: the same weights, peak and model; only the variance is multiplied. -/
theorem filter_scale {m : Maker K} {cutPre cutPost : Int} {F : Filt K} (h : compute5lag m cutPre cutPost = .ok F) {c : K} (hc : 0 < c)
    (hpd : PosDef ((computeAutocorr m cutPre cutPost).take (F.signal.length - 4))) :
    ∃ F', compute5lag (scaled c m) cutPre cutPost = .ok F' ∧ F'.values = F.values ∧ F'.peak = F.peak ∧ F'.signal = F.signal ∧ F'.variance = c * F.variance := by
  have hav : ¬ (m.autocorr.isNone ∧ m.whitener.isNone) := by
    intro hn
    unfold compute5lag at h
    rw [if_pos hn] at h
    exact absurd h (by simp)
  obtain ⟨sig, peak, dt, S, x, u, f, h1, h2, hnm, hl, hS, hx, hu, hf, hv, hval, hpk, hsig⟩ := compute5_inv h
  rw [hsig, ← length_mid sig] at hpd
  set n := (pySlice sig 2 (-2)).length with hn
  set T := (computeAutocorr m cutPre cutPost).take n with hT
  have hTS := mkSym_T hS
  have hpd' := posdef_scale hpd hc
  obtain ⟨S', hS', hsol⟩ := solve_posdef (T := T.map (· * c)) (by rw [List.length_map]; exact hTS.2) hpd'
  have hTn : T.length = n := by rw [hT, List.length_take]; omega
  obtain ⟨x', hx', -⟩ := hsol (pySlice sig 2 (-2)) (by rw [List.length_map, hTn])
  obtain ⟨u', hu', -⟩ := hsol (List.replicate n 1) (by rw [List.length_map, hTn, List.length_replicate])
  have ex := solve_scale hc hpd hS hS' hx hx'
  have eu := solve_scale hc hpd hS hS' hu hu'
  have hc0 : c⁻¹ ≠ 0 := inv_ne_zero hc.ne'
  have hf' : normalize5 (rawFilter x' u') sig = .ok f := by
    rw [ex, eu, raw_scale]
    exact normalize_scale (mul_ne_zero hc0 hc0) hf
  have hfl : f.length = n := by
    unfold normalize5 at hf
    split at hf
    · exact absurd hf (by simp)
    · injection hf with hf
      have := solveSym_length hx
      have := solveSym_length hu
      rw [← hf, List.length_map, length_raw x u (by omega)]
      rw [hTS.1] at this
      omega
  have hfne : f ≠ [] := by rintro rfl; have := hTS.2; simp at hfl; omega
  have hv' : bracketR f (T.map (· * c)) = .ok (c * F.variance) := by
    rw [bracketR_spec (by omega) hfne] at hv
    injection hv with hv
    rw [bracketR_spec (by rw [List.length_map]; omega) hfne, ← hv, Finset.mul_sum]
    congr 1
    refine Finset.sum_congr rfl fun i _ => ?_
    rw [Finset.mul_sum]
    refine Finset.sum_congr rfl fun j _ => ?_
    rw [getD_map_mul]
    ring
  have hnm' : normalizeSignal (scaled c m) cutPre cutPost = .ok (sig, peak, dt) := hnm
  refine ⟨⟨padded cutPre.toNat f cutPost.toNat, peak, c * F.variance, [], [], sig, []⟩, ?_, hval.symm, hpk.symm, hsig.symm, rfl⟩
  unfold compute5lag
  rw [if_neg (by
    intro hcon
    apply hav
    refine ⟨?_, hcon.2⟩
    have := hcon.1
    unfold scaled at this
    simpa using this)]
  dsimp only
  rw [hnm']
  dsimp only
  rw [autocorr_scale, List.length_map, if_neg (by omega), ← hn, ← List.map_take, ← hT, hS']
  dsimp only
  rw [hx']
  dsimp only
  rw [hu']
  dsimp only
  rw [hf']
  dsimp only
  rw [hv']

theorem white_posdef (n : Nat) (v : K) (hv : 0 < v) : PosDef (v :: List.replicate n 0) := by
  intro w ⟨i, hi, hw⟩
  have e : ∀ i ∈ Finset.range (v :: List.replicate n (0 : K)).length,
      ∑ j ∈ Finset.range (v :: List.replicate n (0 : K)).length, w i * (v :: List.replicate n 0).getD ((i : Int) - j).natAbs 0 * w j = v * (w i * w i) := by
    intro i hi
    rw [Finset.sum_eq_single i]
    · have : ((i : Int) - i).natAbs = 0 := by omega
      rw [this, List.getD_cons_zero]
      ring
    · intro j _ hj
      obtain ⟨k, hk⟩ : ∃ k, ((i : Int) - j).natAbs = k + 1 := ⟨((i : Int) - j).natAbs - 1, by omega⟩
      rw [hk, List.getD_cons_succ]
      have : (List.replicate n (0 : K)).getD k 0 = 0 := by
        by_cases hkn : k < n
        · rw [List.getD_eq_getElem _ _ (by simpa using hkn)]; simp
        · exact List.getD_eq_default _ _ (by simpa using hkn)
      rw [this]
      ring
    · intro hni; exact absurd hi hni
  rw [Finset.sum_congr rfl e, ← Finset.mul_sum]
  refine mul_pos hv ?_
  exact Finset.sum_pos' (fun i _ => mul_self_nonneg (w i)) ⟨i, Finset.mem_range.2 hi, mul_self_pos.2 hw⟩

/-- C127. The filter for white noise is the (shortened) model signal with its mean subtracted, up to a factor. -/
theorem white_filter {m : Maker K} {n : Nat} {v : K} (hm : m.autocorr = some (v :: List.replicate n 0)) (hv : 0 < v) {F : Filt K} (h : compute5lag m 0 0 = .ok F) :
    ∃ b : K, F.values = (pySlice F.signal 2 (-2)).map (fun a => b * (a - (pySlice F.signal 2 (-2)).sum / (pySlice F.signal 2 (-2)).length)) := by
  obtain ⟨sig, peak, dt, S, x, u, f, h1, h2, hnm, hl, hS, hx, hu, hf, -, hval, hpk, hsig⟩ := compute5_inv h
  rw [hsig]
  set tr := pySlice sig 2 (-2) with htr
  have hTS := mkSym_T hS
  have hT : ∃ k, (computeAutocorr m 0 0).take tr.length = v :: List.replicate k 0 ∧ k + 1 = tr.length := by
    have hlen := hTS.2
    rw [List.length_take] at hlen
    unfold computeAutocorr at hl hlen ⊢
    rw [hm] at hl hlen ⊢
    dsimp only at hl hlen ⊢
    unfold pySlice at hl hlen ⊢
    dsimp only at hl hlen ⊢
    simp only [List.drop_zero] at hl hlen ⊢
    rw [List.take_take]
    rw [List.length_take] at hl hlen
    refine ⟨tr.length - 1, ?_, by omega⟩
    obtain ⟨q, hq⟩ : ∃ q, tr.length = q + 1 := ⟨tr.length - 1, by omega⟩
    rw [Nat.min_eq_left (by omega), hq, List.take_succ_cons, List.take_replicate]
    congr 2
    simp only [List.length_cons, List.length_replicate] at hl
    omega
  obtain ⟨k, hTk, hk⟩ := hT
  rw [hTk] at hS
  have hpd := white_posdef k v hv
  have hsolve : ∀ (y z : List K), solveSym S y = .ok z → z = y.map (· * v⁻¹) := by
    intro y z hz
    have h1 := posdef_solve hS hpd hz
    have l1 := solveSym_length hz
    rw [(mkSym_T hS).1] at l1
    refine list_ext (by rw [List.length_map]; omega) fun i hi => ?_
    rw [List.length_map] at hi
    have a := h1 i (by omega)
    rw [Finset.sum_eq_single i] at a
    · have e0 : ((i : Int) - i).natAbs = 0 := by omega
      rw [e0, List.getD_cons_zero] at a
      rw [getD_map_mul, ← a]
      field_simp
    · intro j _ hj
      obtain ⟨q, hq⟩ : ∃ q, ((i : Int) - j).natAbs = q + 1 := ⟨((i : Int) - j).natAbs - 1, by omega⟩
      rw [hq, List.getD_cons_succ]
      have : (List.replicate k (0 : K)).getD q 0 = 0 := by
        by_cases hkn : q < k
        · rw [List.getD_eq_getElem _ _ (by simpa using hkn)]; simp
        · exact List.getD_eq_default _ _ (by simpa using hkn)
      rw [this, zero_mul]
    · intro hni
      exact absurd (Finset.mem_range.2 (by omega)) hni
  have hxv := hsolve _ _ hx
  have huv := hsolve _ _ hu
  unfold normalize5 at hf
  split at hf
  · exact absurd hf (by simp)
  · dsimp only at hf
    injection hf with hf
    rw [hval]
    generalize 1 / peakY (parabola ⟨lag (rawFilter x u) sig 0, lag (rawFilter x u) sig 1, lag (rawFilter x u) sig 2, lag (rawFilter x u) sig 3, lag (rawFilter x u) sig 4⟩) = p at hf
    have hk0 : ((tr.length : Nat) : K) ≠ 0 := by
      have : tr.length ≠ 0 := by omega
      exact_mod_cast this
    refine ⟨v⁻¹ * v⁻¹ * tr.length * p, ?_⟩
    rw [← hf, hxv, huv, raw_scale]
    unfold padded
    simp only [Int.toNat_zero, List.replicate_zero, List.nil_append, List.append_nil, List.map_map]
    unfold rawFilter
    have hz : ∀ (l : List K) (g : K → K → K), List.zipWith g l (List.replicate l.length 1) = l.map (fun a => g a 1) := by
      intro l g
      induction l with
      | nil => rfl
      | cons a t ih => simp [List.replicate_succ, ih]
    rw [hz, List.map_map]
    refine List.map_congr_left fun a _ => ?_
    simp only [Function.comp_apply, List.sum_replicate, nsmul_eq_mul, mul_one]
    field_simp

/-- C127, instance -/
example : (compute5lag (scaled 7 demo) 0 0).map (·.values) = (compute5lag demo 0 0).map (·.values) ∧ (compute5lag demo 0 0).map (·.values.length) = .ok 5 := by decide +kernel

/-! ### Disagreements -/

/-- Disagreement (C127): noise of variance zero is not remembered: it is replaced by the next call without forceNew. -/
theorem zero_variance_fails : run (K := ℚ) (1 / 2) (fresh 4) [.white 0 false, .white 5 false] = ⟨[5, 0, 0, 0], [5, 5, 5], none⟩ ∧
    run (K := ℚ) (1 / 2) (fresh 4) [.white 3 false, .white 5 false] = ⟨[3, 0, 0, 0], [3, 3, 3], none⟩ := by decide +kernel

/-- Disagreement (C127): after assume_white_noise, compute_noise returns without an error but the measured noise is not used (unless forceNew is given): the channel keeps the assumed noise. -/
theorem measured_ignored_fails (n : Nat) (hn : 2 ≤ n) (dt v : K) (hv : v ≠ 0) (file : Except Exc (Measured K)) :
    ∃ s', assumeWhite dt v false (fresh n) = .ok s' ∧ computeNoise file false s' = .ok s' := by
  obtain ⟨-, s', h1, h2, -⟩ := check_spec n hn dt v hv (fresh n) ⟨by simp [fresh], by simp [fresh]⟩
  refine ⟨s', ?_, ?_⟩
  · rw [← h1]
    unfold assumeWhite
    rw [fresh_unset]
    rfl
  · unfold computeNoise
    rw [if_neg (by simp [h2])]

/-- Disagreement (C127): the replaced name compute_noise_spectra, described as equivalent to compute_noise, always raises a TypeError. -/
theorem old_name_fails (file : Except Exc (Measured K)) (force : Bool) (s : Noise K) : computeNoiseSpectra file force s = .error .type := rfl

/-- Disagreement (C127): assume_white_noise does not set the frequency step of the spectrum, so on a channel with only assumed noise the things that read it (plots of the spectrum, the pulse model) fail. -/
theorem no_step_fails (n : Nat) (dt : K) (l : List (K × Bool)) : (run dt (fresh n) (l.map (fun p => Call.white p.1 p.2))).deltaF = none := by
  have : ∀ s : Noise K, s.deltaF = none → (run dt s (l.map (fun p => Call.white p.1 p.2))).deltaF = none := by
    induction l with
    | nil => exact fun s h => h
    | cons p l ih =>
      intro s hs
      refine ih _ ?_
      unfold step assumeWhite
      dsimp only
      split
      · rename_i s' h
        split at h
        · split at h
          · exact absurd h (by simp)
          · injection h with h
            rw [← h]
            exact hs
        · injection h with h
          rw [← h]
          exact hs
      · exact hs
  exact this _ rfl

/-- Disagreement (C127): with noise records longer than the pulse records, the stored spectrum is the beginning of that of the noise file: its highest frequency is only n / N of the highest frequency there is (1 / (2 dt)), while filters take its values as reaching up to that. -/
theorem long_noise_fails (h H : Nat) (hh : 1 ≤ h) (hH : h < H) (dt : K) (hdt : 0 < dt) (m : Measured K) (hm : FileSized (2 * H) m) (hf : m.deltaF = 1 / (2 * dt * H)) (s : Noise K) (hs : Sized (2 * h) s) :
    ∃ s', computeNoise (.ok m) true s = .ok s' ∧ s'.deltaF = some m.deltaF ∧ s'.psd.length = h + 1 ∧ (h : K) * m.deltaF = h / H * (1 / (2 * dt)) ∧ (h : K) * m.deltaF < 1 / (2 * dt) := by
  refine ⟨_, compute_spec (2 * h) (2 * H) (by omega) m hm true s hs (Or.inl rfl), rfl, ?_, ?_, ?_⟩
  · have := hm.2
    simp only [List.length_take]
    omega
  · rw [hf]
    field_simp
  · rw [hf]
    have h1 : (0 : K) < H := by exact_mod_cast (show 0 < H by omega)
    have h2 : (h : K) < H := by exact_mod_cast hH
    rw [mul_one_div, div_lt_div_iff₀ (by positivity) (by positivity)]
    nlinarith [mul_pos hdt (sub_pos.2 h2)]

/-- Disagreement (C127): with noise records shorter than the pulse records (more than one sample) the noise cannot be computed: a TypeError about shapes. -/
theorem short_noise_fails (n N : Nat) (hN : N < n) (h2 : 2 ≤ N) (m : Measured K) (hm : FileSized N m) (s : Noise K) (hs : Sized n s) : computeNoise (.ok m) true s = .error .type := by
  unfold computeNoise
  rw [if_pos (by simp)]
  dsimp only
  obtain ⟨h3, -⟩ := hm
  rw [hs.1, List.take_of_length_le (by omega)]
  have : store n m.autocorr = .error .type := by
    unfold store
    rw [if_neg (by omega)]
    split
    · rename_i a ha
      rw [ha] at h3
      simp at h3
      omega
    · rfl
  rw [this]

end Mass.Lin.ChanNoise
