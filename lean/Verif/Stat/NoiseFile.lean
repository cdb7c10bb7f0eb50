import Verif.Stat.Autocorr
import Verif.Stat.Spectrum
/-! C187: what a noise file keeps of its autocorrelation and spectrum, and what its figures show (mass/core/channel.py, class NoiseRecords L88-103, L150-209, L245-268, L346-368, L405-417, and `compute_noise_nlags` L1584-1602).
The values themselves are those of C69 and C74. Over the reals; NaN is `none`. -/
namespace Mass.Stat.NoiseFile
open Mass Mass.Stat Mass.Stat.Autocorr Mass.Stat.Spectrum

/-! ### model -/

/-- a noise file, channel.py L52-86: `rows` are the records (alldata), `rps` the records per segment, `nP` nPulses -/
structure File where
  continuous : Bool
  ns : ℕ
  rps : ℕ
  nP : ℕ
  dt : ℝ
  rows : List (List ℝ)

/-- what is in the HDF5 group, channel.py L88-103, L207, L363-365: `copies n` is the dataset autocorrelation in the group reclen`n` -/
structure H5 where
  ac : List (Option ℝ)
  psd : List (Option ℝ)
  df : Option ℝ
  copies : ℕ → Option (List (Option ℝ))

/-- `set_hdf5_group` with a group not used before, channel.py L88-103: datasets of zeros -/
def fresh (f : File) : H5 := ⟨List.replicate f.ns (some 0), List.replicate (1 + f.ns / 2) (some 0), none, fun _ => none⟩

/-- what the two methods compute, channel.py L354-360 -/
noncomputable def acOf (f : File) (nlags : Option ℕ) (range : Option (ℕ × ℕ)) (maxExc : ℝ) : Except Exc (List (Option ℝ)) :=
  if f.continuous then (contAc f.ns f.rps f.nP f.rows nlags range maxExc).map (fun l => l.map some) else brokenAc f.ns f.nP f.rows nlags range maxExc

/-- `compute_autocorrelation` without the plot, channel.py L346-365. `s = none`: `set_hdf5_group` has not been called, then the attribute `autocorrelation` does not exist (an error .type of `acOf` is that of the assignment,
which is not reached). Without n_lags a dataset of shape (None,) is asked for, which h5py refuses (TypeError). A copy that is there already is kept if it cannot be replaced; a new one is zero before it is filled. -/
noncomputable def computeAc (f : File) (s : Option H5) (nlags : Option ℕ) (range : Option (ℕ × ℕ)) (maxExc : ℝ) : Except Exc Unit × Option H5 :=
  match s with
  | none =>
    match acOf f nlags range maxExc with
    | .ok _ => (.error .attribute, none)
    | .error .type => (.error .attribute, none)
    | .error e => (.error e, none)
  | some h =>
    match acOf f nlags range maxExc with
    | .error e => (.error e, some h)
    | .ok ac =>
      match nlags with
      | none => (.error .type, some { h with ac := ac })
      | some n =>
        match store n ac with
        | .error e => (.error e, some { h with ac := ac, copies := fun k => if k = n then some ((h.copies n).getD (List.replicate n (some 0))) else h.copies k })
        | .ok c => (.ok (), some { h with ac := ac, copies := fun k => if k = n then some c else h.copies k })

/-- `compute_power_spectrum_reshape`, channel.py L159-209: the spectrum of C74, then the stores. Without a group the attribute hdf5_group does not exist (L204). A single frequency has no step (L206). -/
noncomputable def computePsd (f : File) (s : Option H5) (window : Option (ℕ → List ℝ)) (seg : Option ℕ) (maxExc : ℝ) : Except Exc Unit × Option H5 :=
  match noiseSpectrum f.continuous f.ns f.dt f.rows window seg maxExc with
  | .error e => (.error e, s)
  | .ok sp =>
    match s with
    | none => (.error .attribute, none)
    | some h =>
      match store (1 + f.ns / 2) (spectrum sp) with
      | .error e => (.error e, some h)
      | .ok p => if sp.m = 0 then (.error .index, some { h with psd := p }) else (.ok (), some { h with psd := p, df := some (frequency sp.m sp.dt 1 - frequency sp.m sp.dt 0) })

/-- `plot_autocorrelation`, channel.py L405-417: the points of the curve, times in ms; the marker at lag 0 is left out (with no samples it raises) -/
noncomputable def plotAc (f : File) (s : Option H5) : Except Exc (List (ℝ × Option ℝ)) × Option H5 :=
  let draw := fun h : H5 => (List.range h.ac.length).map (fun k : ℕ => (f.dt * 1000 * (k : ℝ), h.ac.getD k none))
  match s with
  | none => (.error .attribute, none)
  | some h =>
    open Classical in
    if ∀ v ∈ h.ac, v = some 0 then
      match computeAc f s none none 1000 with
      | (.error e, s') => (.error e, s')
      | (.ok _, some h') => (.ok (draw h'), some h')
      | (.ok _, none) => (.error .attribute, none)
    else (.ok (draw h), some h)

/-- `plot_power_spectrum`, channel.py L245-268: the points of the curve. The step is an attribute of the dataset, KeyError if there is none. The square root of a negative number is not reached. `hann` is the default window (C138). -/
noncomputable def plotPsd (f : File) (hann : ℕ → List ℝ) (s : Option H5) (scale : ℝ) (sqrtPsd : Bool) : Except Exc (List (ℝ × Option ℝ)) × Option H5 :=
  let draw := fun h : H5 => match h.df with
    | none => Except.error Exc.key
    | some df => .ok ((List.range (h.psd.length - 1)).map (fun k : ℕ => (((k : ℝ) + 1) * df, (h.psd.getD (k + 1) none).map (fun v => if sqrtPsd then Real.sqrt (v * scale ^ 2) else v * scale ^ 2))))
  match s with
  | none => (.error .type, none)
  | some h =>
    open Classical in
    if ∀ v ∈ h.psd, v = some 0 then
      match computePsd f s (some hann) none 1000 with
      | (.error e, s') => (.error e, s')
      | (.ok _, some h') => (draw h', some h')
      | (.ok _, none) => (.error .attribute, none)
    else (draw h, some h)

/-- `compute_noise_nlags`, channel.py L1584-1602: a new object for the same file, records not continuous, no group; `hann` as the default window. Whether both are computed. -/
noncomputable def computeNlags (f : File) (hann : ℕ → List ℝ) (n : ℕ) (maxExc : ℝ) : Except Exc Unit :=
  match computePsd { f with continuous := false } none (some hann) (some n) maxExc with
  | (.error e, _) => .error e
  | (.ok _, s) => (computeAc { f with continuous := false } s (some n) none maxExc).1

/-! ### theorems -/

theorem store_length {A : Type} {n : ℕ} {l r : List A} (h : store n l = .ok r) : r.length = n := by
  unfold store at h
  split at h
  · injection h with h; subst h; assumption
  · split at h
    · injection h with h; subst h; simp
    · cases h

theorem acOf_length {f : File} {nlags : Option ℕ} {range : Option (ℕ × ℕ)} {e : ℝ} {ac : List (Option ℝ)} (h : acOf f nlags range e = .ok ac) : ac.length = f.ns := by
  unfold acOf at h
  split at h
  · cases hc : contAc f.ns f.rps f.nP f.rows nlags range e with
    | error x => rw [hc] at h; cases h
    | ok l =>
      rw [hc] at h
      injection h with h
      subst h
      rw [List.length_map]
      unfold contAc at hc
      dsimp only at hc
      split at hc
      · cases hc
      · split at hc
        · cases hc
        · exact store_length hc
  · unfold brokenAc at h
    dsimp only at h
    split at h
    · cases h
    · split at h
      · split at h
        · exact absurd h (by simp)
        · exact store_length h
      · split at h
        · exact absurd h (by simp)
        · exact store_length h

/-- C187. With as many lags as samples in a record, the computed autocorrelation (C69) is kept as the autocorrelation of the file, and a copy under the number of lags; spectrum and other copies stay. If it cannot be
computed, the error is passed on and nothing changes. -/
theorem ac_stored (f : File) (h : H5) (range : Option (ℕ × ℕ)) (e : ℝ) :
    (∀ ac, acOf f (some f.ns) range e = .ok ac → ∃ h', computeAc f (some h) (some f.ns) range e = (.ok (), some h') ∧ h'.ac = ac ∧ h'.copies f.ns = some ac ∧ h'.psd = h.psd ∧ h'.df = h.df ∧
      ∀ k, k ≠ f.ns → h'.copies k = h.copies k) ∧
    ∀ x, acOf f (some f.ns) range e = .error x → computeAc f (some h) (some f.ns) range e = (.error x, some h) := by
  constructor
  · intro ac ha
    have hs : store f.ns ac = .ok ac := by unfold store; rw [if_pos (acOf_length ha)]
    refine ⟨{ h with ac := ac, copies := fun k => if k = f.ns then some ac else h.copies k }, by unfold computeAc; dsimp only; rw [ha]; dsimp only; rw [hs], rfl, by simp, rfl, rfl, ?_⟩
    intro k hk
    simp [hk]
  · intro x hx
    unfold computeAc
    dsimp only
    rw [hx]

open Classical in
/-- C187. For separate records, the autocorrelation kept is at each lag the average over the quiet records of the products of samples that far apart, divided by their number. -/
theorem separate_stored (f : File) (h : H5) (e : ℝ) (hc : f.continuous = false) (hns : 1 ≤ f.ns) (hlen : ∀ d ∈ f.rows, d.length = f.ns) (hP : f.nP ≤ f.rows.length)
    (hex : ∃ d ∈ f.rows.take f.nP, ∀ u ∈ d, ∀ v ∈ d, u - v ≤ e) :
    let used := (f.rows.take f.nP).filter (fun d => decide (∀ u ∈ d, ∀ v ∈ d, u - v ≤ e))
    ∃ h', computeAc f (some h) (some f.ns) none e = (.ok (), some h') ∧
      h'.ac = (List.range f.ns).map (fun l => some ((used.map (fun d => lagged d l)).sum / used.length / (f.ns - l : ℕ))) ∧ h'.copies f.ns = some h'.ac := by
  intro used
  have hb := broken_autocorr_partial f.ns f.nP f.rows e hns hlen hP hex
  obtain ⟨h', h1, h2, h3, _⟩ := (ac_stored f h none e).1 _ (by unfold acOf; rw [hc]; simp only [Bool.false_eq_true, if_false]; exact hb)
  exact ⟨h', h1, h2, by rw [h3, h2]⟩

/-- C187. Computing again with the same arguments changes nothing. -/
theorem again_same (f : File) (s : Option H5) (nlags : Option ℕ) (range : Option (ℕ × ℕ)) (e : ℝ) :
    computeAc f (computeAc f s nlags range e).2 nlags range e = computeAc f s nlags range e := by
  cases s with
  | none =>
    unfold computeAc
    dsimp only
    cases acOf f nlags range e with
    | ok _ => rfl
    | error x => cases x <;> rfl
  | some h =>
    unfold computeAc
    dsimp only
    cases ha : acOf f nlags range e with
    | error x => rfl
    | ok ac =>
      dsimp only
      cases nlags with
      | none => rfl
      | some n =>
        dsimp only
        cases hs : store n ac with
        | error x =>
          simp only [if_true, Option.getD_some, Prod.mk.injEq, Option.some.injEq, true_and]
          congr 1
          funext k
          by_cases hk : k = n <;> simp [hk]
        | ok c =>
          simp only [Prod.mk.injEq, Option.some.injEq, true_and]
          congr 1
          funext k
          by_cases hk : k = n <;> simp [hk]

/-- C187. The sizes of what is kept never change, whatever is computed in whatever order. -/
theorem sizes_kept (f : File) (h : H5) (h1 : h.ac.length = f.ns) (h2 : h.psd.length = 1 + f.ns / 2) :
    (∀ nlags range e, ∃ h', (computeAc f (some h) nlags range e).2 = some h' ∧ h'.ac.length = f.ns ∧ h'.psd = h.psd) ∧
    ∀ w seg e, ∃ h', (computePsd f (some h) w seg e).2 = some h' ∧ h'.ac = h.ac ∧ h'.psd.length = 1 + f.ns / 2 := by
  constructor
  · intro nlags range e
    unfold computeAc
    dsimp only
    cases ha : acOf f nlags range e with
    | error x => exact ⟨h, rfl, h1, rfl⟩
    | ok ac =>
      have hl := acOf_length ha
      dsimp only
      cases nlags with
      | none => exact ⟨_, rfl, hl, rfl⟩
      | some n =>
        dsimp only
        cases store n ac with
        | error x => exact ⟨_, rfl, hl, rfl⟩
        | ok c => exact ⟨_, rfl, hl, rfl⟩
  · intro w seg e
    unfold computePsd
    cases noiseSpectrum f.continuous f.ns f.dt f.rows w seg e with
    | error x => exact ⟨h, rfl, rfl, h2⟩
    | ok sp =>
      dsimp only
      cases hs : store (1 + f.ns / 2) (spectrum sp) with
      | error x => exact ⟨h, rfl, rfl, h2⟩
      | ok p =>
        dsimp only
        split
        · exact ⟨_, rfl, rfl, store_length hs⟩
        · exact ⟨_, rfl, rfl, store_length hs⟩

open Classical in
/-- C187. For separate records of even length the spectrum kept is the average over the quiet records (C74), and the frequency step is one over the duration of a record. -/
theorem psd_stored (f : File) (h : H5) (window : Option (ℕ → List ℝ)) (seg : Option ℕ) (e : ℝ) (hc : f.continuous = false) (hseg : seg = none ∨ seg = some f.ns) (hns : f.ns ≠ 0) (hev : 2 ∣ f.ns)
    (hrows : ∀ d ∈ f.rows, d.length = f.ns) (hw : ∀ g, window = some g → (g f.ns).length = f.ns) :
    let used := f.rows.filter (fun d => decide (quiet e d))
    ∃ h', computePsd f (some h) window seg e = (.ok (), some h') ∧ h'.ac = h.ac ∧ h'.copies = h.copies ∧ h'.df = some (1 / (f.dt * f.ns)) ∧
      h'.psd = (List.range (f.ns / 2 + 1)).map (fun k => if used = [] then none else some ((used.map (fun d => segPower (f.ns / 2) f.dt (window.map (fun g => g f.ns)) (center d) k)).sum / used.length)) := by
  intro used
  have hn := noise_spectrum_partial f.ns f.dt f.rows window seg e hseg hns hev hrows hw
  obtain ⟨m, hm⟩ := hev
  have hm2 : f.ns / 2 = m := by omega
  have hm0 : m ≠ 0 := by omega
  refine ⟨⟨h.ac, (List.range (f.ns / 2 + 1)).map (fun k => if used = [] then none else some ((used.map (fun d => segPower (f.ns / 2) f.dt (window.map (fun g => g f.ns)) (center d) k)).sum / used.length)),
    some (1 / (f.dt * f.ns)), h.copies⟩, ?_, rfl, rfl, rfl, rfl⟩
  unfold computePsd
  rw [hc, hn]
  dsimp only
  unfold store Spectrum.spectrum
  rw [if_pos (by simp; omega)]
  dsimp only
  rw [if_neg (by omega)]
  congr 3
  · refine List.map_congr_left fun k _ => ?_
    by_cases hu : used = []
    · rw [if_pos (by change used.length = 0; rw [hu]; rfl), if_pos hu]
    · rw [if_neg (by change ¬ used.length = 0; simpa using hu), if_neg hu]
  · unfold frequency
    rw [hm2]
    have e2 : (f.ns : ℝ) = 2 * m := by rw [hm]; push_cast; ring
    rw [e2]
    congr 1
    simp
    ring

/-- C187. The figure of the autocorrelation shows, once any of it is not zero, the values kept against their lags in ms, and computes nothing. -/
theorem plot_spec (f : File) (h : H5) (hv : ∃ v ∈ h.ac, v ≠ some 0) : ∃ l, plotAc f (some h) = (.ok l, some h) ∧ l.length = h.ac.length ∧
    ∀ (k : ℕ) (v : Option ℝ), h.ac[k]? = some v → l[k]? = some (f.dt * 1000 * (k : ℝ), v) := by
  classical
  refine ⟨(List.range h.ac.length).map (fun k : ℕ => (f.dt * 1000 * (k : ℝ), h.ac.getD k none)), ?_, by simp, ?_⟩
  · unfold plotAc
    dsimp only
    rw [if_neg]
    intro hall
    obtain ⟨v, hm, hne⟩ := hv
    exact hne (hall v hm)
  · intro k v hk
    have hlt : k < h.ac.length := by
      by_contra hc
      rw [List.getElem?_eq_none (by omega)] at hk
      cases hk
    rw [List.getElem?_map, List.getElem?_range hlt]
    simp [hk]

/-- C187. The figure of the spectrum shows, once it has been computed, every frequency but zero, at its multiple of the step, with the value kept in units of the scale squared (or the root of that); nothing is computed. -/
theorem psd_plot_spec (f : File) (hann : ℕ → List ℝ) (h : H5) (scale : ℝ) (root : Bool) (df : ℝ) (hd : h.df = some df) (hv : ∃ v ∈ h.psd, v ≠ some 0) :
    ∃ l, plotPsd f hann (some h) scale root = (.ok l, some h) ∧ l.length = h.psd.length - 1 ∧
      ∀ (k : ℕ) (v : ℝ), h.psd[k + 1]? = some (some v) → l[k]? = some (((k : ℝ) + 1) * df, some (if root then Real.sqrt (v * scale ^ 2) else v * scale ^ 2)) := by
  classical
  refine ⟨(List.range (h.psd.length - 1)).map (fun k : ℕ => (((k : ℝ) + 1) * df, (h.psd.getD (k + 1) none).map (fun v => if root then Real.sqrt (v * scale ^ 2) else v * scale ^ 2))), ?_, by simp, ?_⟩
  · unfold plotPsd
    dsimp only
    rw [if_neg, hd]
    intro hall
    obtain ⟨v, hm, hne⟩ := hv
    exact hne (hall v hm)
  · intro k v hk
    have hlt : k + 1 < h.psd.length := by
      by_contra hc
      rw [List.getElem?_eq_none (by omega)] at hk
      cases hk
    rw [List.getElem?_map, List.getElem?_range (by omega)]
    simp [hk]

/-- Disagreement (C187): without n_lags, as documented and by default, compute_autocorrelation always raises, for every file, state and limit; if the values could be computed they are kept nevertheless. -/
theorem default_fails (f : File) (s : Option H5) (range : Option (ℕ × ℕ)) (e : ℝ) :
    (∃ x, (computeAc f s none range e).1 = .error x) ∧ ∀ h ac, s = some h → acOf f none range e = .ok ac → computeAc f s none range e = (.error .type, some { h with ac := ac }) := by
  constructor
  · unfold computeAc
    cases s with
    | none =>
      dsimp only
      cases acOf f none range e with
      | ok _ => exact ⟨_, rfl⟩
      | error x => cases x <;> exact ⟨_, rfl⟩
    | some h =>
      dsimp only
      cases acOf f none range e with
      | ok _ => exact ⟨_, rfl⟩
      | error x => exact ⟨_, rfl⟩
  · intro h ac hs ha
    subst hs
    unfold computeAc
    dsimp only
    rw [ha]

/-- Disagreement (C187): a number of lags other than the number of samples in a record is never possible (records of two or more samples), though fewer lags are an option of the method. -/
theorem lags_fails (f : File) (s : Option H5) (n : ℕ) (range : Option (ℕ × ℕ)) (e : ℝ) (hns : 2 ≤ f.ns) (hn : n ≠ f.ns) : ∃ x, (computeAc f s (some n) range e).1 = .error x := by
  unfold computeAc
  cases s with
  | none =>
    dsimp only
    cases acOf f (some n) range e with
    | ok _ => exact ⟨_, rfl⟩
    | error x => cases x <;> exact ⟨_, rfl⟩
  | some h =>
    dsimp only
    cases ha : acOf f (some n) range e with
    | error x => exact ⟨_, rfl⟩
    | ok ac =>
      have hl := acOf_length ha
      have hs : store n ac = .error .type := by
        unfold store
        rw [if_neg (by omega)]
        match ac, hl with
        | [], _ => rfl
        | [a], hl => simp at hl; omega
        | a :: b :: t, _ => rfl
      dsimp only
      rw [hs]
      exact ⟨_, rfl⟩

/-- Disagreement (C187): the figure of a file whose autocorrelation was not computed yet is never drawn: the computing it starts raises. If it was possible and gave anything but zeros, the next call draws. -/
theorem first_plot_fails (f : File) : (∃ x, (plotAc f (some (fresh f))).1 = .error x) ∧
    ∀ ac, acOf f none none 1000 = .ok ac → (∃ v ∈ ac, v ≠ some 0) → ∃ l, (plotAc f (plotAc f (some (fresh f))).2).1 = .ok l := by
  classical
  have h0 : ∀ v ∈ (fresh f).ac, v = some 0 := by
    intro v hv
    exact (List.mem_replicate.1 hv).2
  have hp : ∀ x s', computeAc f (some (fresh f)) none none 1000 = (.error x, s') → plotAc f (some (fresh f)) = (.error x, s') := by
    intro x s' h
    unfold plotAc
    dsimp only
    rw [if_pos h0, h]
  constructor
  · obtain ⟨x, hx⟩ := (default_fails f (some (fresh f)) none 1000).1
    exact ⟨x, by rw [hp x (computeAc f (some (fresh f)) none none 1000).2 (by rw [← hx])]⟩
  · intro ac ha hv
    have hd := (default_fails f (some (fresh f)) none 1000).2 _ ac rfl ha
    rw [hp _ _ hd]
    obtain ⟨l, hl, _⟩ := plot_spec f { fresh f with ac := ac } hv
    exact ⟨l, by rw [hl]⟩

/-- Disagreement (C187): before a group of an HDF5 file is set nothing can be computed, though the source has a branch for it; this includes compute_noise_nlags, which never works. -/
theorem no_group_fails (f : File) : (∀ nlags range e, ∃ x, (computeAc f none nlags range e).1 = .error x) ∧ (∀ w seg e, ∃ x, (computePsd f none w seg e).1 = .error x) ∧
    ∀ hann n e, ∃ x, computeNlags f hann n e = .error x := by
  have hq : ∀ (f : File) w seg e, ∃ x, (computePsd f none w seg e).1 = .error x := by
    intro f w seg e
    unfold computePsd
    cases noiseSpectrum f.continuous f.ns f.dt f.rows w seg e with
    | error x => exact ⟨_, rfl⟩
    | ok sp => exact ⟨_, rfl⟩
  refine ⟨?_, hq f, ?_⟩
  · intro nlags range e
    unfold computeAc
    dsimp only
    cases acOf f nlags range e with
    | ok _ => exact ⟨_, rfl⟩
    | error x => cases x <;> exact ⟨_, rfl⟩
  · intro hann n e
    obtain ⟨x, hx⟩ := hq { f with continuous := false } (some hann) (some n) e
    unfold computeNlags
    split
    · exact ⟨_, rfl⟩
    · rename_i h
      rw [h] at hx
      cases hx

theorem addQuiet_m (w : Option (List ℝ)) (e : ℝ) (ds : List (List ℝ)) : ∀ s sp, addQuiet w e s ds = .ok sp → sp.m = s.m := by
  classical
  induction ds with
  | nil => intro s sp h; injection h with h; rw [h]
  | cons d ds ih =>
    intro s sp h
    unfold addQuiet at h
    split at h
    · cases ha : addSeg w s (center d) with
      | error x => rw [ha] at h; cases h
      | ok s' =>
        rw [ha] at h
        rw [ih s' sp h]
        unfold addSeg at ha
        split at ha
        · cases ha
        · split at ha <;> split at ha <;> first | (injection ha with ha; rw [← ha]) | cases ha
    · exact ih s sp h

/-- Disagreement (C187): continuous noise cannot be cut into segments with another number of frequencies, which is the purpose of the option: the result does not fit the place for the spectrum. -/
theorem resegment_fails (f : File) (s : Option H5) (w : Option (ℕ → List ℝ)) (L : ℕ) (e : ℝ) (hL : L / 2 ≠ f.ns / 2) : ∃ x, (computePsd f s w (some L) e).1 = .error x := by
  unfold computePsd
  cases hn : noiseSpectrum f.continuous f.ns f.dt f.rows w (some L) e with
  | error x => exact ⟨_, rfl⟩
  | ok sp =>
    cases s with
    | none => exact ⟨_, rfl⟩
    | some h =>
      have hm : sp.m = L / 2 := by
        unfold noiseSpectrum at hn
        split at hn
        · cases hn
        · dsimp only [Option.getD_some] at hn
          split at hn
          · split at hn
            · cases hn
            · split at hn
              · cases hn
              · exact addQuiet_m _ _ _ _ _ hn
          · exact addQuiet_m _ _ _ _ _ hn
      dsimp only
      cases hs : store (1 + f.ns / 2) (spectrum sp) with
      | error x => exact ⟨_, rfl⟩
      | ok p =>
        dsimp only
        by_cases h0 : sp.m = 0
        · rw [if_pos h0]; exact ⟨_, rfl⟩
        · exfalso
          have hl : (spectrum sp).length = L / 2 + 1 := by simp [Spectrum.spectrum, hm]
          unfold store at hs
          rw [if_neg (by omega)] at hs
          match hsp : spectrum sp with
          | [] => rw [hsp] at hs; cases hs
          | [a] => rw [hsp] at hl; simp at hl; omega
          | a :: b :: t => rw [hsp] at hs; cases hs

/-! ### examples -/

/-- two records of two samples, one of them quiet -/
def small : File := ⟨false, 2, 1, 2, 1, [[0, 10], [1, 3]]⟩

theorem small_ac : acOf small (some 2) none 5 = .ok [some 1, some (-1)] := by
  classical
  have h := broken_autocorr_partial 2 2 [[0, 10], [1, 3]] 5 (by norm_num) (by simp) (by simp) ⟨[1, 3], by simp, by norm_num⟩
  dsimp only at h
  unfold acOf small
  simp only [Bool.false_eq_true, if_false]
  rw [h]
  have hf : (List.take 2 [[0, 10], [1, 3]] : List (List ℝ)).filter (fun d => decide (∀ u ∈ d, ∀ v ∈ d, u - v ≤ 5)) = [[1, 3]] := by
    have h1 : ¬ (∀ u ∈ ([0, 10] : List ℝ), ∀ v ∈ ([0, 10] : List ℝ), u - v ≤ 5) := by
      intro h
      have := h 10 (by simp) 0 (by simp)
      norm_num at this
    have h2 : ∀ u ∈ ([1, 3] : List ℝ), ∀ v ∈ ([1, 3] : List ℝ), u - v ≤ 5 := by norm_num
    rw [List.take_of_length_le (by simp), List.filter_cons_of_neg (by simpa using h1), List.filter_cons_of_pos (by simpa using h2)]
    rfl
  rw [hf]
  norm_num [lagged, mean, Finset.sum_range_succ, List.range_succ]

example : ∃ h', computeAc small (some (fresh small)) (some 2) none 5 = (.ok (), some h') ∧ h'.ac = [some 1, some (-1)] ∧ h'.copies 2 = some [some 1, some (-1)] ∧
    ∃ l, plotAc small (some h') = (.ok l, some h') ∧ l[1]? = some ((1000 : ℝ), some (-1 : ℝ)) := by
  obtain ⟨h', h1, h2, h3, _⟩ := (ac_stored small (fresh small) none 5).1 _ small_ac
  obtain ⟨l, hl, _, hp⟩ := plot_spec small h' ⟨some 1, by rw [h2]; simp, by simp⟩
  refine ⟨h', h1, h2, h3, l, hl, ?_⟩
  rw [hp 1 (some (-1)) (by rw [h2]; rfl)]
  norm_num [small]

end Mass.Stat.NoiseFile
