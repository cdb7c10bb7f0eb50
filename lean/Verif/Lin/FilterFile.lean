import Verif.Lin.LowPass
/-! C121: optimal filters stored in and reloaded from the HDF5 file (mass/core/channel.py `_filter_to_hdf5`, `__load_filters_from_hdf5`, `compute_5lag_filter`,
`compute_ats_filter`, `get_pulse_model`). The three filter calculations and the pulse model behind an arrival-time-safe filter are arbitrary functions. Stored numbers
are what was written (no rounding: all are 64-bit in memory and in the file, except the average pulse, which is read from the file before use). -/
namespace Mass.Lin.File

/-- optimal_filtering.py L229-263: a filter object -/
structure Fil (K : Type) where
  values : List K
  peak : K
  variance : K
  vdv : K
  dtValues : Option (List K)
  constValues : Option (List K)
  signal : Option (List K)
  dtModel : Option (List K)
  lags : Nat
  fmax : Option K
  f3db : Option K
  cutPre : Int
  cutPost : Int
  ftype : String
  deriving DecidableEq

/-- the arguments of FilterMaker (optimal_filtering.py L352-360, used at channel.py L773-775, L788-790, L1179-1180, L1285-1286) -/
structure Spec (K : Type) where
  signal : List K
  nPre : Int
  noise : List K
  psd : Option (List K)
  dt : Option (List K)
  peak : K

/-- the three calculations: fmax, f_3db, cut_pre, cut_post (called at channel.py L776, L792, L794, L1181, L1287) -/
structure Calc (K : Type) where
  ats : Spec K → Option K → Option K → Int → Int → Except Exc (Fil K)
  five : Spec K → Option K → Option K → Int → Int → Except Exc (Fil K)
  fourier : Spec K → Option K → Option K → Int → Int → Except Exc (Fil K)

/-- the HDF5 group `filters` (written at channel.py L1126-1142): attributes, the data set `values` with its own three attributes, `dt_values`, and for version 1 the model
(`avg_signal`, `filt_aterms`) -/
structure Grp (K : Type) where
  fmax : Option K := none
  f3db : Option K := none
  ftype : Option String := none
  version : Option Nat := none
  values : Option (List K) := none
  peak : Option K := none
  variance : Option K := none
  vdv : Option K := none
  dtValues : Option (List K) := none
  avgSignal : Option (List K) := none
  aterms : Option (List K) := none
  deriving DecidableEq

/-- what a channel keeps in the file (channel.py L733-746) -/
structure H5 (K : Type) where
  filters : Option (Grp K)
  avgPulse : List K
  noise : List K
  psd : List K
  deriving DecidableEq

/-- what is fixed for a data file (channel.py L604-616) -/
structure Rec where
  nPre : Int
  deriving DecidableEq

/-- a channel in memory (channel.py L604-645) -/
structure Chan (K : Type) where
  geo : Rec
  file : H5 K
  filter : Option (Fil K) := none
  ftype : String := "ats"
  ignore : Int := 0
  deriving DecidableEq

variable {K : Type} [Zero K] [DecidableEq K]

/-- channel.py L1122-1142 `_filter_to_hdf5`, statement by statement, each as its effect on the group `filters`. A group with no values has none of the three attributes of `values`. -/
def saveSteps (f : Fil K) : List (Option (Grp K) → Option (Grp K)) :=
  [fun _ => none,
   fun g => some (g.getD {}),
   fun g => g.map fun g => match f.f3db with | some x => { g with f3db := some x } | none => g,
   fun g => g.map fun g => match f.fmax with | some x => { g with fmax := some x } | none => g,
   fun g => g.map fun g => { g with ftype := some f.ftype },
   fun g => g.map fun g => { g with version := some 2 },
   fun g => g.map fun g => { g with values := none, dtValues := none, peak := none, variance := none, vdv := none },
   fun g => g.map fun g => { g with values := some f.values },
   fun g => g.map fun g => { g with peak := some f.peak },
   fun g => g.map fun g => { g with variance := some f.variance },
   fun g => g.map fun g => { g with vdv := some f.vdv },
   fun g => g.map fun g => if f.ftype = "ats" then { g with dtValues := f.dtValues } else g]

/-- channel.py L1122-1142: the group after the first `k` statements -/
def savePrefix (f : Fil K) (k : Nat) (g : Option (Grp K)) : Option (Grp K) := ((saveSteps f).take k).foldl (fun g s => s g) g

/-- channel.py L1122-1142 `_filter_to_hdf5`. create_dataset with no data raises TypeError. -/
def save (f : Fil K) (h : H5 K) : Except Exc (H5 K) :=
  if f.ftype = "ats" ∧ f.dtValues = none then .error .type
  else .ok { h with filters := savePrefix f (saveSteps f).length h.filters }

/-- np.max (channel.py L772, L787): ValueError for an empty array -/
def npMax (mx : List K → K) (l : List K) : Except Exc K := if l = [] then .error .value else .ok (mx l)

/-- channel.py L745-798 `__load_filters_from_hdf5`; `mx` is np.max -/
def load (C : Calc K) (mx : List K → K) (c : Chan K) : Except Exc (Chan K) :=
  match c.file.filters with
  | none => .ok c
  | some g =>
    let version := g.version.getD 0
    let ftype := g.ftype.getD "ats"
    if version = 1 then
      if ftype = "ats" then
        match g.avgSignal, g.aterms with
        | some s, some a =>
          match npMax mx s with
          | .error e => .error e
          | .ok pk =>
            match C.ats ⟨s, c.geo.nPre - c.ignore, c.file.noise, some c.file.psd, some a, pk⟩ g.fmax g.f3db 0 0 with
            | .error e => .error e
            | .ok f => .ok { c with filter := some f, ftype := ftype }
        | _, _ => .error .key
      else .ok { c with ftype := ftype }
    else if version = 2 then
      if ftype = "ats" then
        match g.values, g.dtValues with
        | some v, some d =>
          .ok { c with
            filter := some ⟨v, g.peak.getD 0, g.variance.getD 0, g.vdv.getD 0, some d, none, none, none, 1, g.fmax, g.f3db, 0, 0, "ats"⟩
            ftype := ftype }
        | _, _ => .error .key
      else
        match npMax mx c.file.avgPulse with
        | .error e => .error e
        | .ok pk =>
          let S : Spec K := ⟨c.file.avgPulse, c.geo.nPre - c.ignore, c.file.noise, some c.file.psd, none, pk⟩
          if ftype = "5lag" then
            match C.five S g.fmax g.f3db 0 0 with
            | .error e => .error e
            | .ok f => .ok { c with filter := some f, ftype := ftype }
          else if ftype = "fourier" then
            match C.fourier S g.fmax g.f3db 0 0 with
            | .error e => .error e
            | .ok f => .ok { c with filter := some f, ftype := ftype }
          else .error .exception
    else .ok c

/-- channel.py L591-664 `__init__`, the part about filters: a new channel object on an existing file -/
def openChan (C : Calc K) (mx : List K → K) (r : Rec) (h : H5 K) : Except Exc (Chan K) := load C mx { geo := r, file := h }

/-- channel.py L1152-1181 `compute_5lag_filter` and `_compute_5lag_filter_no_mutation`; `spec` is the noise spectrum found (L1170-1173). The result is the returned filter (None if skipped). -/
def compute5lagFilter (C : Calc K) (c : Chan K) (spec : List K) (fmax f3db : Option K) (cutPre cutPost : Int) (category forceNew : Bool) : Chan K × Except Exc (Option (Fil K)) :=
  if c.file.filters.isSome ∧ forceNew = false then (c, .ok none)
  else if c.file.noise.all (· = 0) then (c, .error .exception)
  else if category then (c, .error .exception)
  else if c.file.avgPulse.all (· = 0) then (c, .error .exception)
  else
    match C.five ⟨c.file.avgPulse, c.geo.nPre - c.ignore, c.file.noise, some spec, none, 0⟩ fmax f3db cutPre cutPost with
    | .error e => (c, .error e)
    | .ok f =>
      let c := { c with filter := some f, ftype := "5lag" }
      match save f c.file with
      | .error e => (c, .error e)
      | .ok h => ({ c with file := h }, .ok (some f))

/-- channel.py L1183-1295 `compute_ats_filter`; `model` is the pulse model found in the good pulses (signal, its derivative, peak), which may raise; `nan` is np.isnan -/
def computeAtsFilter (C : Calc K) (nan : K → Bool) (model : Except Exc (List K × List K × K)) (c : Chan K) (fmax f3db : Option K) (cutPre cutPost : Int) (forceNew : Bool) :
    Chan K × Except Exc (Option (Fil K)) :=
  if c.file.filters.isSome ∧ forceNew = false then (c, .ok none)
  else if c.file.noise.all (· = 0) then (c, .error .exception)
  else
    match model with
    | .error e => (c, .error e)
    | .ok (s, d, pk) =>
      match C.ats ⟨s, c.geo.nPre, c.file.noise, none, some d, pk⟩ fmax f3db cutPre cutPost with
      | .error e => (c, .error e)
      | .ok f =>
        let c := { c with filter := some f }
        if f.values.any nan ∨ (f.dtValues.getD []).any nan then (c, .error .exception)
        else
          let c := { c with ftype := f.ftype }
          match save f c.file with
          | .error e => (c, .error e)
          | .ok h => ({ c with file := h }, .ok (some f))

/-- channel.py L1357-1370, the beginning of `get_pulse_model`: the checks of the filter, up to the comparison of its length with the records -/
def pulseModelStart (f : Option (Fil K)) (nBasis nSamples : Nat) : Except Exc (List K × List K) :=
  if nBasis < 3 then .error .assertion
  else match f with
    | none => .error .attribute
    | some f =>
      if ¬ (f.lags = 1 ∧ f.dtValues.isSome) then .error .assertion
      else match f.signal, f.dtModel with
        | none, _ => .error .type
        | some s, d => if s.length ≠ nSamples then .error .exception else .ok (s, d.getD [])

/-! ### What is stored -/

/-- the group that belongs to a filter [specification] -/
def stored (f : Fil K) : Grp K :=
  { fmax := f.fmax, f3db := f.f3db, ftype := some f.ftype, version := some 2, values := some f.values, peak := some f.peak, variance := some f.variance, vdv := some f.vdv,
    dtValues := if f.ftype = "ats" then f.dtValues else none }

omit [Zero K] [DecidableEq K] in
theorem savePrefix_all (f : Fil K) (g : Option (Grp K)) : savePrefix f (saveSteps f).length g = some (stored f) := by
  unfold savePrefix
  rw [List.take_length]
  unfold saveSteps stored
  simp only [List.foldl_cons, List.foldl_nil, Option.map_some, Option.getD_none]
  congr 1
  cases f.f3db <;> cases f.fmax <;> (split <;> simp_all)

/-- C121. Saving a filter replaces everything that was stored about the previous one. -/
theorem save_spec {f : Fil K} {h h' : H5 K} (hs : save f h = .ok h') : h' = { h with filters := some (stored f) } := by
  unfold save at hs
  split at hs
  · exact absurd hs (by simp)
  · injection hs with hs
    rw [← hs, savePrefix_all]

/-- C121. After `compute_ats_filter` has computed a filter, opening the file again gives a filter with the same weights for the pulse height and for the arrival time, the same peak, variance, resolution
and low-pass settings, used in the same way; the constant weights and the models are not kept. -/
theorem ats_reopen_partial {C : Calc K} {mx : List K → K} {nan : K → Bool} {model : Except Exc (List K × List K × K)} {c c' : Chan K} {fmax f3db : Option K} {cutPre cutPost : Int} {forceNew : Bool} {f : Fil K}
    (hC : ∀ S a b p q f, C.ats S a b p q = .ok f → f.ftype = "ats" ∧ f.lags = 1)
    (h : computeAtsFilter C nan model c fmax f3db cutPre cutPost forceNew = (c', .ok (some f))) :
    c'.filter = some f ∧ c'.ftype = "ats" ∧ ∃ c2 g, openChan C mx c'.geo c'.file = .ok c2 ∧ c2.filter = some g ∧ c2.ftype = c'.ftype ∧ c2.file = c'.file ∧
      g = { f with constValues := none, signal := none, dtModel := none, cutPre := 0, cutPost := 0 } := by
  unfold computeAtsFilter at h
  split at h
  · simp at h
  split at h
  · simp at h
  cases model with
  | error e => simp at h
  | ok m =>
    obtain ⟨s, d, pk⟩ := m
    dsimp only at h
    cases hf : C.ats ⟨s, c.geo.nPre, c.file.noise, none, some d, pk⟩ fmax f3db cutPre cutPost with
    | error e => rw [hf] at h; simp at h
    | ok f' =>
      rw [hf] at h
      dsimp only at h
      split at h
      · simp at h
      cases hs : save f' c.file with
      | error e => rw [hs] at h; simp at h
      | ok h5 =>
        rw [hs] at h
        dsimp only at h
        injection h with h1 h2
        injection h2 with h2
        injection h2 with h2
        subst h2
        obtain ⟨ht, hl⟩ := hC _ _ _ _ _ _ hf
        have hst := save_spec hs
        have hdt : ∃ dv, f'.dtValues = some dv := by
          unfold save at hs
          split at hs
          · exact absurd hs (by simp)
          · rename_i hn
            cases hdv : f'.dtValues with
            | none => exact absurd ⟨ht, hdv⟩ hn
            | some dv => exact ⟨dv, rfl⟩
        obtain ⟨dv, hdv⟩ := hdt
        subst h1
        refine ⟨rfl, ht, ?_⟩
        unfold openChan load
        rw [hst]
        simp only [stored, Option.getD_some, ht, hdv, if_true]
        rw [if_neg (by decide)]
        refine ⟨_, _, rfl, rfl, rfl, rfl, ?_⟩
        cases f'
        simp_all

/-- a five-lag filter that does not depend on the peak except in the two fields about it (peak and resolution), has no cut windows of its own, and is named so [specification] -/
def PeakFree (five : Spec K → Option K → Option K → Int → Int → Except Exc (Fil K)) : Prop :=
  (∀ S a b p q f, five S a b p q = .ok f → f.ftype = "5lag" ∧ f.fmax = a ∧ f.f3db = b) ∧
  ∀ S a b p q f psd pk, five S a b p q = .ok f → ∃ g, five { S with psd := psd, peak := pk } a b p q = .ok g ∧ g.values = f.values ∧ g.variance = f.variance

/-- C121. After `compute_5lag_filter` without cut windows, in a channel with no ignored pretrigger samples, opening the file again gives a filter with the same weights and variance (it is computed again from the
average pulse). -/
theorem five_reopen_partial {C : Calc K} {mx : List K → K} {c c' : Chan K} {spec : List K} {fmax f3db : Option K} {category forceNew : Bool} {f : Fil K} (hC : PeakFree C.five) (hi : c.ignore = 0)
    (h : compute5lagFilter C c spec fmax f3db 0 0 category forceNew = (c', .ok (some f))) :
    c'.filter = some f ∧ c'.ftype = "5lag" ∧ ∃ c2 g, openChan C mx c'.geo c'.file = .ok c2 ∧ c2.filter = some g ∧ c2.ftype = c'.ftype ∧ c2.file = c'.file ∧
      g.values = f.values ∧ g.variance = f.variance ∧ g.fmax = f.fmax ∧ g.f3db = f.f3db := by
  unfold compute5lagFilter at h
  split at h
  · simp at h
  split at h
  · simp at h
  split at h
  · simp at h
  split at h
  · simp at h
  rename_i hav
  cases hf : C.five ⟨c.file.avgPulse, c.geo.nPre - c.ignore, c.file.noise, some spec, none, 0⟩ fmax f3db 0 0 with
  | error e => rw [hf] at h; simp at h
  | ok f' =>
    rw [hf] at h
    dsimp only at h
    cases hs : save f' c.file with
    | error e => rw [hs] at h; simp at h
    | ok h5 =>
      rw [hs] at h
      dsimp only at h
      injection h with h1 h2
      injection h2 with h2
      injection h2 with h2
      subst h2
      obtain ⟨ht, ha, hb⟩ := hC.1 _ _ _ _ _ _ hf
      have hst := save_spec hs
      subst h1
      refine ⟨rfl, rfl, ?_⟩
      have hne : c.file.avgPulse ≠ [] := by
        intro e
        rw [e] at hav
        simp at hav
      obtain ⟨g, hg, hv, hvar⟩ := hC.2 _ _ _ _ _ _ (some c.file.psd) (mx c.file.avgPulse) hf
      obtain ⟨-, ga, gb⟩ := hC.1 _ _ _ _ _ _ hg
      dsimp only at hg
      unfold openChan load
      rw [hst]
      simp only [stored, Option.getD_some, ht, npMax, if_neg hne]
      rw [if_neg (by decide), if_pos trivial, if_neg (by decide), if_pos trivial, ha, hb, show c.geo.nPre - (0 : Int) = c.geo.nPre - c.ignore by rw [hi], hg]
      exact ⟨_, g, rfl, rfl, rfl, rfl, hv, hvar, ga, gb⟩

/-- C121. A filter that exists in the file is never replaced unless asked for, whatever the options of the call. -/
theorem existing_kept (C : Calc K) (nan : K → Bool) (model : Except Exc (List K × List K × K)) (c : Chan K) (hf : c.file.filters.isSome = true) (spec : List K) (fmax f3db : Option K) (cutPre cutPost : Int)
    (category : Bool) : compute5lagFilter C c spec fmax f3db cutPre cutPost category false = (c, .ok none) ∧
      computeAtsFilter C nan model c fmax f3db cutPre cutPost false = (c, .ok none) := by
  unfold compute5lagFilter computeAtsFilter
  rw [if_pos ⟨hf, rfl⟩, if_pos ⟨hf, rfl⟩]
  exact ⟨rfl, rfl⟩

/-- C121. If `compute_5lag_filter` raises, nothing has changed, in memory or in the file. -/
theorem five_failed {C : Calc K} {c c' : Chan K} {spec : List K} {fmax f3db : Option K} {cutPre cutPost : Int} {category forceNew : Bool} {e : Exc} (hC : PeakFree C.five)
    (h : compute5lagFilter C c spec fmax f3db cutPre cutPost category forceNew = (c', .error e)) : c' = c := by
  unfold compute5lagFilter at h
  split at h
  · simp at h
  split at h
  · simp at h; exact h.1.symm
  split at h
  · simp at h; exact h.1.symm
  split at h
  · simp at h; exact h.1.symm
  cases hf : C.five ⟨c.file.avgPulse, c.geo.nPre - c.ignore, c.file.noise, some spec, none, 0⟩ fmax f3db cutPre cutPost with
  | error e => rw [hf] at h; simp at h; exact h.1.symm
  | ok f' =>
    rw [hf] at h
    dsimp only at h
    obtain ⟨ht, -⟩ := hC.1 _ _ _ _ _ _ hf
    unfold save at h
    rw [if_neg (by rw [ht]; simp)] at h
    simp at h

/-- C121. If `compute_ats_filter` raises, the file has not changed. -/
theorem ats_failed_partial {C : Calc K} {nan : K → Bool} {model : Except Exc (List K × List K × K)} {c c' : Chan K} {fmax f3db : Option K} {cutPre cutPost : Int} {forceNew : Bool} {e : Exc}
    (h : computeAtsFilter C nan model c fmax f3db cutPre cutPost forceNew = (c', .error e)) : c'.file = c.file := by
  unfold computeAtsFilter at h
  split at h
  · simp at h
  split at h
  · simp at h; rw [h.1]
  cases model with
  | error e => simp at h; rw [h.1]
  | ok m =>
    obtain ⟨s, d, pk⟩ := m
    dsimp only at h
    cases hf : C.ats ⟨s, c.geo.nPre, c.file.noise, none, some d, pk⟩ fmax f3db cutPre cutPost with
    | error e => rw [hf] at h; simp at h; rw [h.1]
    | ok f' =>
      rw [hf] at h
      dsimp only at h
      split at h
      · simp at h; rw [← h.1]
      cases hs : save f' c.file with
      | error e => rw [hs] at h; simp at h; rw [← h.1]
      | ok h5 => rw [hs] at h; simp at h

/-- C121. A file of version 1 or 2 that does not say which type its filter has is read as an arrival-time-safe one: with the stored weights (version 2), or computed from the stored models with the stored low-pass settings (version 1). -/
theorem untyped_ats {C : Calc K} {mx : List K → K} {r : Rec} {h : H5 K} {g : Grp K} (hg : h.filters = some g) (hu : g.ftype = none) :
    (∀ v d, g.version = some 2 → g.values = some v → g.dtValues = some d → ∃ c f, openChan C mx r h = .ok c ∧ c.ftype = "ats" ∧ c.filter = some f ∧ f.values = v ∧ f.dtValues = some d ∧ f.ftype = "ats") ∧
    (∀ s a f, g.version = some 1 → g.avgSignal = some s → g.aterms = some a → s ≠ [] → (∀ n, C.ats ⟨s, n, h.noise, some h.psd, some a, mx s⟩ g.fmax g.f3db 0 0 = .ok f) →
      ∃ c, openChan C mx r h = .ok c ∧ c.ftype = "ats" ∧ c.filter = some f) ∧
    (∀ a, g.version = some 1 → g.avgSignal = some [] → g.aterms = some a → openChan C mx r h = .error .value) := by
  unfold openChan load npMax
  refine ⟨?_, ?_, ?_⟩
  · intro v d h1 h2 h3
    simp [hg, hu, h1, h2, h3]
  · intro s a f h1 h2 h3 h4 h5
    simp [hg, hu, h1, h2, h3, h4, h5]
  · intro a h1 h2 h3
    simp [hg, hu, h1, h2, h3]

/-- C121. Whenever the saving of an arrival-time-safe filter is interrupted between two statements, the file never yields a wrong filter: opening it either gives no filter, or raises KeyError, or gives the complete
new filter (only after the last statement). -/
theorem interrupted {C : Calc K} {mx : List K → K} {r : Rec} {h : H5 K} {f : Fil K} (ht : f.ftype = "ats") (hd : f.dtValues.isSome = true) (k : Nat) (hk : 0 < k)
    {c : Chan K} (ho : openChan C mx r { h with filters := savePrefix f k h.filters } = .ok c) :
    c.filter = none ∨ 12 ≤ k ∧ c.filter = some { f with constValues := none, signal := none, dtModel := none, lags := 1, cutPre := 0, cutPost := 0 } := by
  by_cases hk2 : 12 ≤ k
  · have e : savePrefix f k h.filters = some (stored f) := by
      rw [← savePrefix_all f h.filters]
      unfold savePrefix
      rw [List.take_of_length_le (by show 12 ≤ k; exact hk2), List.take_length]
    rw [e] at ho
    obtain ⟨dv, hdv⟩ := Option.isSome_iff_exists.1 hd
    unfold openChan load at ho
    simp only [stored, Option.getD_some, ht, hdv, if_true] at ho
    rw [if_neg (by decide)] at ho
    injection ho with ho
    right
    refine ⟨hk2, ?_⟩
    rw [← ho]
    cases f
    simp_all
  · left
    have hk3 : k < 12 := by omega
    unfold openChan load savePrefix saveSteps at ho
    cases h5 : f.f3db <;> cases h6 : f.fmax <;> interval_cases k <;> simp [h5, h6, ht] at ho <;> rw [← ho]

/-! ### Disagreements -/

/-- the five-lag calculation of C63 as a calculation of this file (no low-pass options, no resolution) [specification] -/
def five63 (S : Spec ℚ) (a b : Option ℚ) (p q : Int) : Except Exc (Fil ℚ) :=
  (compute5lag (⟨S.signal, S.nPre.toNat, some S.noise, none, none, S.peak⟩ : Maker ℚ) p q).map fun F =>
    ⟨F.values, F.peak, F.variance, 0, none, none, some F.signal, none, 5, a, b, p, q, "5lag"⟩

/-- an arrival-time-safe calculation, from C64 [specification] -/
def ats64 (S : Spec ℚ) (a b : Option ℚ) (p q : Int) : Except Exc (Fil ℚ) :=
  (computeAts (⟨S.signal, S.nPre.toNat, some S.noise, S.dt, none, S.peak⟩ : Maker ℚ) p q).map fun F =>
    ⟨F.values, F.peak, F.variance, 0, some F.dtValues, some F.constValues, some F.signal, some F.dtModel, 1, a, b, p, q, "ats"⟩

/-- the calculations of C63 and C64 [specification] -/
def demoCalc : Calc ℚ := ⟨ats64, five63, fun _ _ _ _ _ => .error .assertion⟩

/-- a channel with an average pulse of eight samples on a constant level, and the noise of C63's instance [specification] -/
def demoChan : Chan ℚ := { geo := ⟨3⟩, file := ⟨none, [1, 1, 2, 9, 6, 3, 2, 1], [2, 1, 0, 0, 0, 0, 0, 0], [1, 1, 1, 1, 1]⟩ }

/-- C121, instance: the calculation of C63 meets the hypothesis of `five_reopen_partial` -/
theorem five63_peakFree : PeakFree five63 := by
  refine ⟨?_, ?_⟩
  · intro S a b p q f h
    unfold five63 at h
    cases hc : compute5lag (⟨S.signal, S.nPre.toNat, some S.noise, none, none, S.peak⟩ : Maker ℚ) p q with
    | error e => rw [hc] at h; simp [Except.map] at h
    | ok F =>
      rw [hc] at h
      simp only [Except.map] at h
      injection h with h
      rw [← h]
      exact ⟨rfl, rfl, rfl⟩
  · intro S a b p q f psd pk h
    unfold five63 at h ⊢
    have key : ∀ F : Filt ℚ, compute5lag (⟨S.signal, S.nPre.toNat, some S.noise, none, none, S.peak⟩ : Maker ℚ) p q = .ok F →
        ∃ G : Filt ℚ, compute5lag (⟨S.signal, S.nPre.toNat, some S.noise, none, none, pk⟩ : Maker ℚ) p q = .ok G ∧ G.values = F.values ∧ G.variance = F.variance := by
      intro F hF
      obtain ⟨sig, peak, dt, T, x, u, f, h1, h2, hn, hl, hS, hx, hu, hf, hv, hval, hpk, hsig⟩ := Mass.Lin.compute5_inv hF
      have hn2 : ∃ pk', normalizeSignal (⟨S.signal, S.nPre.toNat, some S.noise, none, none, pk⟩ : Maker ℚ) p q = .ok (sig, pk', dt) := by
        unfold normalizeSignal at hn ⊢
        dsimp only at hn ⊢
        split at hn
        · exact absurd hn (by simp)
        rename_i e1
        rw [if_neg e1]
        split at hn
        · exact absurd hn (by simp)
        rename_i e2
        rw [if_neg e2]
        split at hn
        · exact absurd hn (by simp)
        rename_i e3
        rw [if_neg e3]
        injection hn with hn
        injection hn with hn1 hn2
        injection hn2 with hn2 hn3
        rw [hn1, hn3]
        exact ⟨_, rfl⟩
      obtain ⟨pk', hn2⟩ := hn2
      have hac : computeAutocorr (⟨S.signal, S.nPre.toNat, some S.noise, none, none, pk⟩ : Maker ℚ) p q =
        computeAutocorr (⟨S.signal, S.nPre.toNat, some S.noise, none, none, S.peak⟩ : Maker ℚ) p q := rfl
      refine ⟨⟨padded p.toNat f q.toNat, pk', F.variance, [], [], sig, []⟩, ?_, hval.symm, rfl⟩
      unfold compute5lag
      rw [if_neg (by simp)]
      dsimp only
      rw [hn2]
      dsimp only
      rw [hac, if_neg (by omega), hS]
      dsimp only
      rw [hx]
      dsimp only
      rw [hu]
      dsimp only
      rw [hf]
      dsimp only
      rw [hv]
    cases hc : compute5lag (⟨S.signal, S.nPre.toNat, some S.noise, none, none, S.peak⟩ : Maker ℚ) p q with
    | error e => rw [hc] at h; simp [Except.map] at h
    | ok F =>
      obtain ⟨G, hG, e1, e2⟩ := key F hc
      rw [hc] at h
      simp only [Except.map] at h
      injection h with h
      dsimp only
      rw [hG]
      refine ⟨_, rfl, ?_, ?_⟩
      · rw [← h]; exact e1
      · rw [← h]; exact e2

/-- weights and peak after computing and after opening the file again [specification] -/
def roundTrip (r : Chan ℚ × Except Exc (Option (Fil ℚ))) : Except Exc (Option (List ℚ × ℚ)) × Except Exc (Option (List ℚ × ℚ)) :=
  (r.2.map (Option.map fun f => (f.values, f.peak)), (openChan demoCalc lmax r.1.geo r.1.file).map fun c => c.filter.map fun f => (f.values, f.peak))

/-- C121, instance: without cut windows the weights are the same after reopening -/
example : let r := roundTrip (compute5lagFilter demoCalc demoChan [] none none 0 0 false false)
    r.1.map (Option.map Prod.fst) = r.2.map (Option.map Prod.fst) ∧ (r.1.map (Option.map fun p => p.1.length)) = .ok (some 4) := by decide +kernel

/-- C121. Disagreement (C121): the cut windows of a five-lag filter are not stored: after opening the file again, the filter is computed again without them, so the samples that were to be given no weight have weight again. -/
theorem five_cuts_fails : let r := compute5lagFilter demoCalc demoChan [] none none 1 0 false false
    (r.2.map (Option.map fun f => (f.values.length, f.values.getD 0 0))) = .ok (some (4, 0)) ∧
    ((openChan demoCalc lmax r.1.geo r.1.file).map (fun c => c.filter.map fun f => decide (f.values.getD 0 0 = 0))) = .ok (some false) := by decide +kernel

/-- C121. Disagreement (C121): the nominal peak of a five-lag filter changes when the file is opened again: above the pretrigger level when computed (8), the highest value itself afterwards (9). -/
theorem five_peak_fails : let r := roundTrip (compute5lagFilter demoCalc demoChan [] none none 0 0 false false)
    r.1.map (Option.map Prod.snd) = .ok (some 8) ∧ r.2.map (Option.map Prod.snd) = .ok (some 9) := by decide +kernel

/-- C121. Disagreement (C121): so do the weights, if some pretrigger samples are ignored (`pretrigger_ignore_samples` is not stored and is 0 in a new object). -/
theorem five_ignore_fails : let r := roundTrip (compute5lagFilter demoCalc { demoChan with ignore := 1 } [] none none 0 0 false false)
    r.1.map (Option.map fun p => p.1.length) = .ok (some 4) ∧ r.2.map (Option.map fun p => p.1.length) = .ok (some 4) ∧ r.1.map (Option.map Prod.fst) ≠ r.2.map (Option.map Prod.fst) := by decide +kernel

/-- C121. Disagreement (C121): if the saving of an arrival-time-safe filter is interrupted late (after the version was written, before `dt_values`), the channel cannot be opened any more: KeyError, for every filter and file. -/
theorem interrupted_open_fails (C : Calc K) (mx : List K → K) (r : Rec) (h : H5 K) (f : Fil K) (ht : f.ftype = "ats") (k : Nat) (h1 : 6 ≤ k) (h2 : k < 12) :
    openChan C mx r { h with filters := savePrefix f k h.filters } = .error .key := by
  unfold openChan load savePrefix saveSteps
  cases h5 : f.f3db <;> cases h6 : f.fmax <;> interval_cases k <;> simp [h5, h6, ht]

/-- C121. Disagreement (C121): if it is interrupted earlier, after the group was created, the file opens without a filter, and the computation of a new one is then skipped as "already done": no filter, no error. The same holds for a
file with filters of a version that is not supported. -/
theorem skipped_fails (C : Calc K) (mx : List K → K) (nan : K → Bool) (model : Except Exc (List K × List K × K)) (r : Rec) (h : H5 K) (g : Grp K) (hg : h.filters = some g) (hv : g.version = none ∨ ∃ v, g.version = some v ∧ 2 < v)
    (fmax f3db : Option K) : ∃ c, openChan C mx r h = .ok c ∧ c.filter = none ∧ computeAtsFilter C nan model c fmax f3db 0 0 false = (c, .ok none) := by
  refine ⟨{ geo := r, file := h }, ?_, rfl, ?_⟩
  · unfold openChan load
    dsimp only
    rw [hg]
    dsimp only
    rcases hv with hv | ⟨v, hv, h2⟩
    · rw [hv, if_neg (by decide), if_neg (by decide)]
    · rw [hv]
      simp only [Option.getD_some]
      rw [if_neg (by omega), if_neg (by omega)]
  · unfold computeAtsFilter
    rw [if_pos ⟨by rw [hg]; rfl, rfl⟩]

/-- C121, instance: the group after two statements -/
example (f : Fil ℚ) (g : Option (Grp ℚ)) : savePrefix f 2 g = some {} := rfl

/-- C121. Disagreement (C121): a pulse model (for the projectors) cannot be made with an arrival-time-safe filter read from the file: its pulse shape is not stored, and the attempt raises TypeError; with the filter just computed it works. -/
theorem reopened_model_fails : let c0 : Chan ℚ := { demoChan with file := { demoChan.file with noise := [2, 1, 0, 0, 0, 0, 0, 0] } }
    let r := computeAtsFilter demoCalc (fun _ => false) (.ok ([0, 0, 0, 4, 2, 1, 0, 0], [0, 0, 4, -2, -1, 0, 0, 0], 4)) c0 none none 0 0 false
    (pulseModelStart r.1.filter 3 8).isOk = true ∧ (openChan demoCalc lmax r.1.geo r.1.file).map (fun c => c.filter.isSome) = .ok true ∧
    (openChan demoCalc lmax r.1.geo r.1.file).bind (fun c => pulseModelStart c.filter 3 8) = .error .type := by decide +kernel

/-- C121. Disagreement (C121): if an arrival-time-safe filter comes out with NaN values, `compute_ats_filter` raises, but the channel keeps the bad filter in place of the previous one, which stays in the file. -/
theorem nan_filter_fails {C : Calc K} {nan : K → Bool} {s d : List K} {pk : K} {c : Chan K} {f : Fil K} {fmax f3db : Option K} (hn : c.file.noise.all (· = 0) = false)
    (hf : C.ats ⟨s, c.geo.nPre, c.file.noise, none, some d, pk⟩ fmax f3db 0 0 = .ok f) (hbad : f.values.any nan = true) :
    computeAtsFilter C nan (.ok (s, d, pk)) c fmax f3db 0 0 true = ({ c with filter := some f }, .error .exception) := by
  unfold computeAtsFilter
  rw [if_neg (by simp), if_neg (by rw [hn]; simp)]
  dsimp only
  rw [hf]
  dsimp only
  rw [if_pos (.inl hbad)]

end Mass.Lin.File
