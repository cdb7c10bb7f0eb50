import Verif.States.Arrays
import Verif.Stat.Spectrum
import Mathlib.Tactic.FieldSimp
/-! C141: the vectors of a channel in its HDF5 group, resizing, the array made of them (mass/core/channel.py L646-745, L871-884), and copies of power spectra (mass/mathstat/power_spectrum.py L84-91). -/
namespace Mass.Group.Vec
open Mass

/-- the data sets of a channel's HDF5 group, by name: values (the length is the shape; types not modelled) (channel.py L705-735) -/
abbrev H5 (V : Type) := List (String × List V)

/-- the per-pulse fields in order, channel.py L703-712 -/
def fields : List String :=
  ["timestamp", "pretrig_mean", "pretrig_rms", "pulse_average", "pulse_rms", "promptness", "rise_time", "postpeak_deriv", "pretrig_deriv", "pretrig_offset", "filt_phase", "filt_phase_corr", "filt_value", "filt_value_dc",
    "filt_value_phc", "filt_value_tdc", "energy", "peak_index", "peak_value", "min_value", "shift1"]

/-- a data set of the group (used for channel.py L719-729) -/
def lookup {V : Type} (g : H5 V) (k : String) : Option (List V) := (g.find? (fun e => e.1 == k)).map Prod.snd

/-- h5py's require_dataset: a new one is zero; an old one must have the shape, else TypeError (used for channel.py L719-729) -/
def require {V : Type} (z : V) (n : Nat) (g : H5 V) (k : String) : Except Exc (H5 V) :=
  match lookup g k with
  | none => .ok (g ++ [(k, List.replicate n z)])
  | some v => if v.length = n then .ok g else .error .type

/-- several in turn (used for channel.py L713-729) -/
def requireAll {V : Type} (z : V) (n : Nat) : List String → H5 V → Except Exc (H5 V)
  | [], g => .ok g
  | k :: ks, g =>
    match require z n g k with
    | .error e => .error e
    | .ok g' => requireAll z n ks g'

/-- the name of the last field, channel.py L724-729: old files have rowcount -/
def countField {V : Type} (g : H5 V) : String := if (lookup g "rowcount").isSome then "rowcount" else "subframecount"

/-- a channel: number of pulses and its HDF5 group (channel.py L588-662) -/
structure Chan (V : Type) where
  nPulses : Nat
  h5 : H5 V

/-- __setup_vectors, channel.py L685-729 (the per-pulse vectors); `arg` is npulses. Exceptions leave the group as it was (require_dataset fails at the first field with another shape). -/
def setup {V : Type} (z : V) (c : Chan V) (arg : Option Nat) : Except Exc (Chan V) :=
  match arg with
  | none =>
    if c.nPulses = 0 then .error .assertion
    else match requireAll z c.nPulses (fields ++ [countField c.h5]) c.h5 with
      | .error e => .error e
      | .ok g => .ok { c with h5 := g }
  | some n =>
    match requireAll z n (fields ++ [countField c.h5]) c.h5 with
    | .error e => .error e
    | .ok g => .ok { c with h5 := g }

/-- resize, channel.py L871-875: the channel afterwards and the outcome -/
def resize {V : Type} (z : V) (c : Chan V) (n : Nat) : Chan V × Except Exc Unit :=
  if c.nPulses < n then (c, .error .value)
  else
    let c1 : Chan V := { c with nPulses := n }
    match setup z c1 none with
    | .error e => (c1, .error e)
    | .ok c2 => (c2, .ok ())

/-- MicrocalDataSet.__init__, channel.py L588-662: the HDF5 group with its attribute npulses if set. Without a group `None.attrs` is an AttributeError, which the handler (KeyError, L658) does not catch. -/
def newChan {V : Type} (z : V) (n : Nat) (h5 : Option (H5 V × Option Nat)) : Except Exc (Chan V) :=
  match h5 with
  | none => .error .attribute
  | some (g, np) => if np.getD n = n then setup z ⟨n, g⟩ (some n) else .error .assertion

/-- MicrocalDataSet.copy, channel.py L877-884: a new one is made without a group first; `rest` is what follows (L880-884) -/
def copyChan {V : Type} (z : V) (rest : Chan V → Chan V) (c : Chan V) : Except Exc (Chan V) := (newChan z c.nPulses none).map rest

/-- TESGroup.copy, channel_group.py L1076-1080, the copies of the data sets -/
def copyAll {V : Type} (z : V) (rest : Chan V → Chan V) (cs : List (Chan V)) : Except Exc (List (Chan V)) := cs.mapM (copyChan z rest)

/-- the attributes p_*, channel.py L719-729: each names a data set of the group -/
def attrs {V : Type} (g : H5 V) : List (String × String) := fields.map (fun f => ("p_" ++ f, f)) ++ [("p_subframecount", countField g)]

/-- numpy: a column of an array with n rows gets values: one value for all rows, or one for each (used for channel.py L681-682) -/
def assign {V : Type} (n : Nat) (v : List V) : Except Exc (List V) :=
  if v.length = n then .ok v
  else match v with
    | [x] => .ok (List.replicate n x)
    | _ => .error .value

/-- filling the columns, channel.py L681-682 -/
def fill {V : Type} (n : Nat) : List (String × List V) → Except Exc (List (String × List V))
  | [] => .ok []
  | (k, v) :: t =>
    match assign n v with
    | .error e => .error e
    | .ok w =>
      match fill n t with
      | .error e => .error e
      | .ok r => .ok ((k, w) :: r)

/-- _makeNumpyArray(), channel.py L673-683: `vs` are the attributes whose names start with "p_"; number of rows and columns -/
def makeArray {V : Type} (vs : List (String × List V)) : Except Exc (Nat × List (String × List V)) :=
  match vs with
  | [] => .error .index
  | (_, v) :: _ =>
    match fill v.length vs with
    | .error e => .error e
    | .ok r => .ok (v.length, r)

/-- the vectors of a channel (used for channel.py L673-683) -/
def vectors {V : Type} (c : Chan V) : List (String × List V) := (attrs c.h5).map (fun a => (a.1, (lookup c.h5 a.2).getD []))

/-! ### setting up -/

theorem lookup_append {V : Type} {g : H5 V} {k k' : String} {v : List V} : lookup (g ++ [(k, v)]) k' = (lookup g k').or (if k = k' then some v else none) := by
  unfold lookup
  rw [List.find?_append]
  cases h : g.find? (fun e => e.1 == k') with
  | some e => simp
  | none =>
    by_cases hk : k = k'
    · simp [hk]
    · simp [hk]

/-- [specification] data set k is what it was, or new and zero -/
def Kept {V : Type} (z : V) (n : Nat) (g g' : H5 V) (k : String) : Prop := ∃ v, lookup g' k = some v ∧ v.length = n ∧ (lookup g k = some v ∨ (lookup g k = none ∧ v = List.replicate n z))

theorem require_spec {V : Type} {z : V} {n : Nat} {g g' : H5 V} {k : String} (h : require z n g k = .ok g') :
    (∀ k', k' ≠ k → lookup g' k' = lookup g k') ∧ Kept z n g g' k ∧ ((lookup g k).isSome = true → g' = g) := by
  unfold require at h
  cases hl : lookup g k with
  | none =>
    rw [hl] at h
    have := (Except.ok.inj h).symm
    subst this
    refine ⟨fun k' hk => ?_, ⟨List.replicate n z, ?_, by simp, Or.inr ⟨hl, rfl⟩⟩, by simp⟩
    · rw [lookup_append, if_neg (Ne.symm hk), Option.or_none]
    · rw [lookup_append, hl, if_pos rfl, Option.none_or]
  | some v =>
    rw [hl] at h
    simp only [] at h
    by_cases hn : v.length = n
    · rw [if_pos hn] at h
      have := (Except.ok.inj h).symm
      subst this
      exact ⟨fun _ _ => rfl, ⟨v, hl, hn, Or.inl hl⟩, fun _ => rfl⟩
    · rw [if_neg hn] at h; cases h

theorem requireAll_spec {V : Type} {z : V} {n : Nat} : ∀ {ks : List String} {g g' : H5 V}, ks.Nodup → requireAll z n ks g = .ok g' →
    (∀ k, k ∉ ks → lookup g' k = lookup g k) ∧ ∀ k ∈ ks, Kept z n g g' k := by
  intro ks
  induction ks with
  | nil =>
    intro g g' _ h
    have := (Except.ok.inj h).symm
    subst this
    exact ⟨fun _ _ => rfl, by simp⟩
  | cons k t ih =>
    intro g g' hn h
    rw [List.nodup_cons] at hn
    unfold requireAll at h
    cases h1 : require z n g k with
    | error e => rw [h1] at h; cases h
    | ok g1 =>
      rw [h1] at h
      obtain ⟨a1, a2, -⟩ := require_spec h1
      obtain ⟨b1, b2⟩ := ih hn.2 h
      refine ⟨fun k' hk' => ?_, fun k' hk' => ?_⟩
      · rw [List.mem_cons, not_or] at hk'
        rw [b1 k' hk'.2, a1 k' hk'.1]
      · rcases List.mem_cons.1 hk' with rfl | hk2
        · obtain ⟨v, v1, v2, v3⟩ := a2
          exact ⟨v, by rw [b1 _ hn.1, v1], v2, v3⟩
        · obtain ⟨v, v1, v2, v3⟩ := b2 k' hk2
          have hne : k' ≠ k := by rintro rfl; exact hn.1 hk2
          rw [a1 k' hne] at v3
          exact ⟨v, v1, v2, v3⟩

theorem requireAll_ok {V : Type} {z : V} {n : Nat} : ∀ {ks : List String} {g : H5 V}, (∀ k ∈ ks, ∀ v, lookup g k = some v → v.length = n) → ∃ g', requireAll z n ks g = .ok g' := by
  intro ks
  induction ks with
  | nil => intro g _; exact ⟨g, rfl⟩
  | cons k t ih =>
    intro g h
    unfold requireAll
    cases h1 : require z n g k with
    | error e =>
      exfalso
      unfold require at h1
      cases hl : lookup g k with
      | none => rw [hl] at h1; cases h1
      | some v =>
        rw [hl] at h1
        simp only [] at h1
        rw [if_pos (h k List.mem_cons_self v hl)] at h1
        cases h1
    | ok g1 =>
      obtain ⟨a1, ⟨v, v1, v2, -⟩, -⟩ := require_spec h1
      refine ih (fun k' hk' w hw => ?_)
      by_cases hk : k' = k
      · subst hk
        rw [v1] at hw
        exact Option.some.inj hw ▸ v2
      · rw [a1 k' hk] at hw
        exact h k' (List.mem_cons_of_mem _ hk') w hw

theorem requireAll_same {V : Type} {z : V} {n : Nat} : ∀ {ks : List String} {g : H5 V}, (∀ k ∈ ks, ∃ v, lookup g k = some v ∧ v.length = n) → requireAll z n ks g = .ok g := by
  intro ks
  induction ks with
  | nil => intro g _; rfl
  | cons k t ih =>
    intro g h
    obtain ⟨v, v1, v2⟩ := h k List.mem_cons_self
    have hr : require z n g k = .ok g := by unfold require; rw [v1]; exact if_pos v2
    unfold requireAll
    rw [hr]
    exact ih (fun k' hk' => h k' (List.mem_cons_of_mem _ hk'))

theorem fields_nodup {V : Type} (g : H5 V) : (fields ++ [countField g]).Nodup := by
  unfold countField
  split <;> decide +kernel

/-- [specification] every per-pulse vector is there, with a value for each pulse -/
def Ready {V : Type} (c : Chan V) : Prop := ∀ k ∈ fields ++ [countField c.h5], ∃ v, lookup c.h5 k = some v ∧ v.length = c.nPulses

theorem count_kept {V : Type} {z : V} {n : Nat} {g g' : H5 V} (h : requireAll z n (fields ++ [countField g]) g = .ok g') : countField g' = countField g := by
  obtain ⟨h1, h2⟩ := requireAll_spec (fields_nodup g) h
  unfold countField
  by_cases hr : (lookup g "rowcount").isSome = true
  · have : countField g = "rowcount" := if_pos hr
    obtain ⟨v, hv, -⟩ := h2 "rowcount" (by rw [this]; simp)
    rw [if_pos hr, if_pos (by rw [hv]; rfl)]
  · have hc : countField g = "subframecount" := if_neg hr
    have : "rowcount" ∉ fields ++ [countField g] := by rw [hc]; decide +kernel
    rw [h1 _ this]

/-- C141. Setting up a channel's vectors, if the group has none of another length: each has a value for every pulse; those which were there keep their values, new ones are zero; all other data sets are untouched; doing it again
changes nothing. -/
theorem setup_ok {V : Type} (z : V) (c : Chan V) (h : ∀ k ∈ fields ++ [countField c.h5], ∀ v, lookup c.h5 k = some v → v.length = c.nPulses) :
    ∃ c', setup z c (some c.nPulses) = .ok c' ∧ c'.nPulses = c.nPulses ∧ Ready c' ∧ (∀ k ∈ fields ++ [countField c.h5], Kept z c.nPulses c.h5 c'.h5 k) ∧
      (∀ k, k ∉ fields ++ [countField c.h5] → lookup c'.h5 k = lookup c.h5 k) ∧ setup z c' (some c.nPulses) = .ok c' := by
  obtain ⟨g', hg⟩ := requireAll_ok (z := z) h
  obtain ⟨h1, h2⟩ := requireAll_spec (fields_nodup c.h5) hg
  have hcf := count_kept hg
  have hready : Ready ({ c with h5 := g' } : Chan V) := by
    intro k hk
    have hk' : k ∈ fields ++ [countField g'] := hk
    rw [hcf] at hk'
    obtain ⟨v, v1, v2, -⟩ := h2 k hk'
    exact ⟨v, v1, v2⟩
  refine ⟨{ c with h5 := g' }, ?_, rfl, hready, h2, h1, ?_⟩
  · unfold setup
    simp only [hg]
  · unfold setup
    simp only []
    rw [requireAll_same hready]

/-- C141, partial: resizing to the same number of pulses changes nothing, to more is refused. Missing: to fewer, which never works (see `resize_fails`). -/
theorem resize_partial {V : Type} (z : V) {c : Chan V} (hc : Ready c) (h0 : c.nPulses ≠ 0) {n : Nat} : (n = c.nPulses → resize z c n = (c, .ok ())) ∧ (c.nPulses < n → resize z c n = (c, .error .value)) := by
  constructor
  · rintro rfl
    unfold resize setup
    simp only [lt_irrefl, if_false, if_neg h0, requireAll_same hc]
  · intro h
    unfold resize
    rw [if_pos h]

/-- Disagreement (C141): resizing to fewer pulses raises an exception whatever the channel holds (TypeError: the data sets have another shape; AssertionError for 0 pulses), and leaves the number of pulses changed though no
vector is. -/
theorem resize_fails {V : Type} (z : V) {c : Chan V} (hc : Ready c) {n : Nat} (h : n < c.nPulses) : resize z c n = (⟨n, c.h5⟩, .error (if n = 0 then .assertion else .type)) ∧ ¬ Ready (resize z c n).1 := by
  obtain ⟨v, v1, v2⟩ := hc "timestamp" (by simp [fields])
  have e : resize z c n = (⟨n, c.h5⟩, .error (if n = 0 then .assertion else .type)) := by
    unfold resize setup
    rw [if_neg (by omega)]
    simp only []
    by_cases h0 : n = 0
    · simp only [if_pos h0]
    · have hr : requireAll z n (fields ++ [countField c.h5]) c.h5 = .error .type := by
        show requireAll z n ("timestamp" :: _) c.h5 = _
        unfold requireAll require
        rw [v1]
        simp only [if_neg (show ¬ v.length = n by omega)]
      simp only [if_neg h0, hr]
  refine ⟨e, ?_⟩
  rw [e]
  intro hr
  obtain ⟨w, w1, w2⟩ := hr "timestamp" (by simp [fields])
  have w1' : lookup c.h5 "timestamp" = some w := w1
  rw [v1] at w1'
  have := Option.some.inj w1'
  subst this
  have w2' : v.length = n := w2
  omega

/-! ### the array -/

theorem fill_ok {V : Type} {n : Nat} : ∀ {vs : List (String × List V)}, (∀ e ∈ vs, e.2.length = n) → fill n vs = .ok vs := by
  intro vs
  induction vs with
  | nil => intro _; rfl
  | cons e t ih =>
    intro h
    obtain ⟨k, v⟩ := e
    have ha : assign n v = .ok v := if_pos (h (k, v) List.mem_cons_self)
    unfold fill
    rw [ha]
    simp only []
    rw [ih (fun e he => h e (List.mem_cons_of_mem _ he))]

theorem vectors_ready {V : Type} {c : Chan V} (hc : Ready c) : ∀ e ∈ vectors c, e.2.length = c.nPulses := by
  intro e he
  obtain ⟨a, ha, rfl⟩ := List.mem_map.1 he
  have hk : a.2 ∈ fields ++ [countField c.h5] := by
    rcases List.mem_append.1 ha with ha | ha
    · obtain ⟨f, hf, rfl⟩ := List.mem_map.1 ha
      exact List.mem_append_left _ hf
    · rw [List.mem_singleton.1 ha]
      simp
  obtain ⟨v, v1, v2⟩ := hc _ hk
  simp only [v1, Option.getD_some, v2]

/-- C141. The array made of a channel has a row for every pulse and a column for every per-pulse vector, under its own name and with its own values. -/
theorem array_ok {V : Type} {c : Chan V} (hc : Ready c) :
    ∃ cols, makeArray (vectors c) = .ok (c.nPulses, cols) ∧ cols.map Prod.fst = ["p_timestamp", "p_pretrig_mean", "p_pretrig_rms", "p_pulse_average", "p_pulse_rms", "p_promptness", "p_rise_time", "p_postpeak_deriv", "p_pretrig_deriv",
        "p_pretrig_offset", "p_filt_phase", "p_filt_phase_corr", "p_filt_value", "p_filt_value_dc", "p_filt_value_phc", "p_filt_value_tdc", "p_energy", "p_peak_index", "p_peak_value", "p_min_value", "p_shift1",
        "p_subframecount"] ∧
      (∀ f ∈ fields, ∃ v, lookup c.h5 f = some v ∧ ("p_" ++ f, v) ∈ cols) ∧ (∃ v, lookup c.h5 (countField c.h5) = some v ∧ ("p_subframecount", v) ∈ cols) := by
  have hl := vectors_ready hc
  refine ⟨vectors c, ?_, ?_, ?_, ?_⟩
  · match hv : vectors c, hl with
    | [], _ => exact absurd hv (by simp [vectors, attrs, fields])
    | (k, v) :: t, hl =>
      have h1 : v.length = c.nPulses := hl (k, v) List.mem_cons_self
      unfold makeArray
      simp only [h1]
      rw [fill_ok hl]
  · unfold vectors attrs
    simp [fields]
  · intro f hf
    obtain ⟨v, v1, -⟩ := hc f (List.mem_append_left _ hf)
    exact ⟨v, v1, List.mem_map.2 ⟨("p_" ++ f, f), List.mem_append_left _ (List.mem_map.2 ⟨f, hf, rfl⟩), by simp [v1]⟩⟩
  · obtain ⟨v, v1, -⟩ := hc (countField c.h5) (by simp)
    exact ⟨v, v1, List.mem_map.2 ⟨("p_subframecount", countField c.h5), by simp [attrs], by simp [v1]⟩⟩

/-- C141. So the channel made of it (toOffStyle, channel.py L666-671) has times, relative times and a cut for all pulses, and takes unixnano from the times (with the truncation of C139). -/
theorem off_style {c : Chan ℚ} (hc : Ready c) (h0 : c.nPulses ≠ 0) :
    ∃ cols v, makeArray (vectors c) = .ok (c.nPulses, cols) ∧ lookup c.h5 "timestamp" = some v ∧
      (∃ r, States.Arr.defaults ⟨c.nPulses, cols.map Prod.fst, v, []⟩ = .ok (some r, List.replicate c.nPulses true, some (States.Arr.multInt v)) ∧ r.length = c.nPulses) ∧
      States.Arr.unixnano ⟨c.nPulses, cols.map Prod.fst, v, []⟩ = .ok (States.Arr.multInt v) := by
  obtain ⟨cols, a1, a2, -, -⟩ := array_ok hc
  obtain ⟨v, v1, v2⟩ := hc "timestamp" (by simp [fields])
  have hp : "p_timestamp" ∈ cols.map Prod.fst := by rw [a2]; decide +kernel
  have hu : "unixnano" ∉ cols.map Prod.fst := by rw [a2]; decide +kernel
  have hv : v ≠ [] := by
    rintro rfl
    exact h0 v2.symm
  refine ⟨cols, v, a1, v1, ?_, States.Arr.unixnano_made hp hu hv⟩
  match v, hv, v2 with
  | t0 :: l, _, v2 =>
    refine ⟨States.Arr.subtract t0 (t0 :: l), ?_, by simpa [States.Arr.subtract] using v2⟩
    unfold States.Arr.defaults States.Arr.trues
    simp only [if_pos hp, if_neg hu, v2]

/-- Disagreement (C141): an attribute p_* with a single value is spread over all rows instead of being refused like any other vector of the wrong length. -/
theorem spread_fails : makeArray [("p_timestamp", [1, 2, 3]), ("p_mine", [7])] = .ok (3, [("p_timestamp", [1, 2, 3]), ("p_mine", [7, 7, 7])]) ∧
    makeArray [("p_timestamp", [1, 2, 3]), ("p_mine", [7, 8])] = (.error .value : Except Exc (Nat × List (String × List Nat))) := by decide +kernel

/-- C141. A channel opened again with the group it made has the same vectors; with another number of pulses it is refused. -/
theorem reopen {V : Type} (z : V) {c : Chan V} (hc : Ready c) : newChan z c.nPulses (some (c.h5, some c.nPulses)) = .ok c ∧ ∀ n, n ≠ c.nPulses → newChan z n (some (c.h5, some c.nPulses)) = .error .assertion := by
  constructor
  · unfold newChan setup
    simp only [Option.getD_some, if_true, requireAll_same hc]
  · intro n hn
    unfold newChan
    simp only [Option.getD_some, if_neg (Ne.symm hn)]

/-- Disagreement (C141): no channel can be copied (AttributeError), and so no group with channels. -/
theorem copy_channel_fails {V : Type} (z : V) (rest : Chan V → Chan V) (c : Chan V) (cs : List (Chan V)) : copyChan z rest c = .error .attribute ∧ copyAll z rest (c :: cs) = .error .attribute := by
  refine ⟨rfl, ?_⟩
  unfold copyAll
  rw [List.mapM_cons]
  rfl

/-! ### copies of power spectra -/

/-- a PowerSpectrum object: its sum is an array in memory (power_spectrum.py L73-82) -/
structure SObj where
  m : ℕ
  dt : ℝ
  nseg : ℕ
  ref : ℕ

/-- the arrays (power_spectrum.py L79) -/
abbrev Mem := ℕ → ℕ → ℝ

/-- what an object holds (used for power_spectrum.py L93-133) -/
def view (h : Mem) (o : SObj) : Stat.Spectrum.Spec := ⟨o.m, o.dt, o.nseg, h o.ref⟩

/-- copy, power_spectrum.py L84-91: the attributes of the old object replace those of the new one, so the sum is the same array -/
def copySpec (o : SObj) : SObj := o

/-- addDataSegment, power_spectrum.py L93-118: `+=` changes the array in place, nsegments is the object's own -/
noncomputable def addObj (w : Option (List ℝ)) (h : Mem) (o : SObj) (d : List ℝ) : Except Exc (Mem × SObj) :=
  match Stat.Spectrum.addSeg w (view h o) d with
  | .error e => .error e
  | .ok s => .ok (Function.update h o.ref s.sum, { o with nseg := s.nseg })

/-- C141, partial: a copy of a spectrum is the same spectrum, and goes on like the original would. Missing: that the original stays as it was (see `copy_spectrum_fails`). -/
theorem copy_spectrum_partial (w : Option (List ℝ)) (h : Mem) (o : SObj) (d : List ℝ) (hw : Stat.Spectrum.Fits w o.m) (hd : d.length = 2 * o.m) :
    view h (copySpec o) = view h o ∧ ∃ h' c, addObj w h (copySpec o) d = .ok (h', c) ∧ Stat.Spectrum.addSeg w (view h o) d = .ok (view h' c) := by
  refine ⟨rfl, ?_⟩
  have := Stat.Spectrum.addSeg_ok w (view h o) d hw hd
  unfold addObj copySpec
  rw [this]
  refine ⟨_, _, rfl, ?_⟩
  simp only [view, Function.update_self]

/-- Disagreement (C141): data added to a copy of a spectrum change the original: the power is added to its sum though its number of segments stays, so every frequency where the data have power becomes too high there. -/
theorem copy_spectrum_fails (w : Option (List ℝ)) (h : Mem) (o : SObj) (d : List ℝ) (hw : Stat.Spectrum.Fits w o.m) (hd : d.length = 2 * o.m) (hs : o.nseg ≠ 0) :
    ∃ h' c, addObj w h (copySpec o) d = .ok (h', c) ∧ ∀ k, k ≤ o.m →
      (Stat.Spectrum.spectrum (view h' o))[k]? = some (some ((h o.ref k + Stat.Spectrum.segPower o.m o.dt w d k) / o.nseg)) ∧ (Stat.Spectrum.spectrum (view h o))[k]? = some (some (h o.ref k / o.nseg)) := by
  have := Stat.Spectrum.addSeg_ok w (view h o) d hw hd
  refine ⟨_, _, by unfold addObj copySpec; rw [this], fun k hk => ?_⟩
  have hk' : k < o.m + 1 := by omega
  unfold Stat.Spectrum.spectrum
  simp [view, hk', hs]

/-- C141. In particular (no window, one second between samples): adding the segment 1, 1 to a copy of a spectrum of the segment 0, 0 makes the original's power at frequency 0 nonzero. -/
theorem copy_spectrum_witness : 0 < Stat.Spectrum.segPower 1 1 none [1, 1] 0 := by
  have h : Lin.Dft.power (2 * 1) (fun j => (Stat.Spectrum.windowed none [1, 1]).getD j 0) 0 = 4 := by
    have h2 : Lin.Dft.dft (2 * 1) (fun j => (Stat.Spectrum.windowed none [1, 1]).getD j 0) 0 = 2 := by
      unfold Lin.Dft.dft Stat.Spectrum.windowed
      simp [Finset.sum_range_succ]
      norm_num
    unfold Lin.Dft.power
    rw [h2]
    norm_num [Complex.normSq_apply]
  unfold Stat.Spectrum.segPower
  rw [h]
  unfold Stat.Spectrum.sumWindow
  norm_num

/-! ### examples -/

example : ∃ c', setup (0 : ℚ) ⟨2, [("energy", [5, 6]), ("other", [1])]⟩ (some 2) = .ok c' ∧ lookup c'.h5 "energy" = some [5, 6] ∧ lookup c'.h5 "filt_value" = some [0, 0] ∧ lookup c'.h5 "other" = some [1] :=
  ⟨_, rfl, by decide +kernel⟩
example : (resize (0 : Nat) ⟨2, fields.map (fun f => (f, [1, 2])) ++ [("rowcount", [1, 2])]⟩ 1).2 = .error .type := by decide +kernel

end Mass.Group.Vec
