import Verif.Py
import Mathlib.Data.Rat.Defs
import Mathlib.Algebra.Order.Field.Rat
import Mathlib.Data.List.Sort
import Mathlib.Data.List.Forall2
import Mathlib.Tactic.Positivity
import Mathlib.Tactic.Linarith
/-! C167: plots with one curve for each channel of a group (mass/core/channel_group.py `plot_average_pulses`, `plot_filters`, `plot_noise_autocorrelation`). What is handed to
matplotlib is modelled: curves with their axes, labels and colours, and legends. -/
namespace Mass.Group.ChanPlots
open Mass

variable {K : Type}

/-! ### model -/

/-- what of a channel is plotted, channel_group.py L957, L996-998, L1059-1061: average pulse, filter if there is one, and autocorrelation of its noise, if it has noise records -/
structure Chan (K : Type) where
  num : Int
  avg : List K
  filt : Option (List K)
  noise : Option (List K)
deriving DecidableEq

/-- a curve (channel_group.py L961, L998, L1060): its axes, the channel in its label, its place on the colour map, abscissas and values -/
structure Drawn (K : Type) where
  axis : Nat
  chan : Int
  color : ℚ
  xs : List K
  ys : List K
deriving DecidableEq

/-- a figure of matplotlib (used for channel_group.py L942-971): the current axes, the curves in all axes, and the axes with a legend -/
structure Fig (K : Type) where
  cur : Nat
  drawn : List (Drawn K)
  legends : List Nat
deriving DecidableEq

/-- channel_group.py L940-942, L981-983, L1044-1046: the figure and the axes. Without axes the figure is cleared and gets new ones. -/
def start (f : Fig K) : Option Nat → Fig K × Nat
  | none => (⟨f.cur + 1, [], []⟩, f.cur + 1)
  | some a => (f, a)

/-- `self.channel[c]`, channel_group.py L952 -/
def look (g : List (Chan K)) (c : Int) : Option (Chan K) := g.find? (fun d => d.num == c)

/-- `[self.channel[c] for c in channels]`, channel_group.py L952: KeyError for a number that is not in the group -/
def lookAll (g : List (Chan K)) : List Int → Except Exc (List (Chan K))
  | [] => .ok []
  | c :: cs =>
    match look g c with
    | none => .error .key
    | some d =>
      match lookAll g cs with
      | .error e => .error e
      | .ok ds => .ok (d :: ds)

/-- `plt.legend(loc='best')` and what follows, channel_group.py L967-971, L1003-1007, L1064-1068: the legend is in the current axes; for more than twelve curves the texts of the one of `ax` are made small -/
def finish (legend : Bool) (n ax : Nat) (f : Fig K) : Except Exc Unit × Fig K :=
  if legend then
    let f := { f with legends := f.legends ++ [f.cur] }
    if n > 12 then (if ax ∈ f.legends then .ok () else .error .attribute, f) else (.ok (), f)
  else (.ok (), f)

/-- times in ms since the trigger, channel_group.py L947 -/
def times [Field K] (nSamples nPre : Nat) (timebase : K) : List K := (List.range nSamples).map (fun i : Nat => ((i : K) - nPre) * timebase * 1000)

/-- the curves of channel_group.py L956-961, in the current axes -/
def avgCurves [Field K] (cur nSamples nPre : Nat) (timebase : K) (lowpass : List K → List K) (ds : List (Chan K)) : List (Drawn K) :=
  ds.mapIdx (fun i d => ⟨cur, d.num, (i : ℚ) / ds.length, times nSamples nPre timebase, lowpass d.avg⟩)

/-- channel_group.py L931-971 `plot_average_pulses`; `lowpass` is what is done to an average pulse if fcut is given, `bad` the channels marked bad -/
def average [Field K] (g : List (Chan K)) (bad : List Int) (nSamples nPre : Nat) (timebase : K) (lowpass : List K → List K) (axis : Option Nat) (channels : Option (List Int)) (legend includeBad : Bool)
    (f : Fig K) : Except Exc Unit × Fig K :=
  let (f, ax) := start f axis
  match (match channels with | none => Except.ok (g.filter (fun d : Chan K => includeBad || !bad.contains d.num)) | some cs => lookAll g cs) with
  | .error e => (.error e, f)
  | .ok ds => finish legend ds.length ax { f with drawn := f.drawn ++ avgCurves f.cur nSamples nPre timebase lowpass ds }

/-- channel_group.py L984-986 and L1047-1049: the channels asked for, or all, in order of their numbers -/
def chosen (g : List (Chan K)) : Option (List Int) → List Int
  | none => (g.map Chan.num).insertionSort (· ≤ ·)
  | some cs => cs

/-- channel_group.py L992-999: the loop over the channels asked for, from number `i` on -/
def filtLoop [Field K] (g : List (Chan K)) (n : Nat) : Nat → List Int → Fig K → Fig K
  | _, [], f => f
  | i, c :: cs, f =>
    match (look g c).bind Chan.filt with
    | none => filtLoop g n (i + 1) cs f
    | some v => filtLoop g n (i + 1) cs { f with drawn := f.drawn ++ [⟨f.cur, c, (i : ℚ) / n, (List.range v.length).map (fun k : Nat => (k : K)), v⟩] }

/-- channel_group.py L973-1007 `plot_filters` -/
def filters [Field K] (g : List (Chan K)) (axis : Option Nat) (channels : Option (List Int)) (legend : Bool) (f : Fig K) : Except Exc Unit × Fig K :=
  let (f, ax) := start f axis
  let cs := chosen g channels
  finish legend cs.length ax (filtLoop g cs.length 0 cs f)

/-- channel_group.py L1055-1061 with channel.py L405-417: the loop over the channels asked for. A channel without noise records has no `plot_autocorrelation`. -/
def noiseLoop [Field K] (g : List (Chan K)) (timebase : K) (ax n : Nat) : Nat → List Int → Fig K → Except Exc Unit × Fig K
  | _, [], f => (.ok (), f)
  | i, c :: cs, f =>
    match look g c with
    | none => noiseLoop g timebase ax n (i + 1) cs f
    | some d =>
      match d.noise with
      | none => (.error .attribute, f)
      | some v => noiseLoop g timebase ax n (i + 1) cs { f with drawn := f.drawn ++ [⟨ax, c, (i : ℚ) / n, (List.range v.length).map (fun k : Nat => timebase * 1000 * (k : K)), v⟩] }

/-- channel_group.py L1035-1068 `plot_noise_autocorrelation`. The marker at lag zero is left out. -/
def noise [Field K] (g : List (Chan K)) (timebase : K) (axis : Option Nat) (channels : Option (List Int)) (legend : Bool) (f : Fig K) : Except Exc Unit × Fig K :=
  let (f, ax) := start f axis
  let cs := chosen g channels
  match noiseLoop g timebase ax cs.length 0 cs f with
  | (.error e, f) => (.error e, f)
  | (.ok _, f) => finish legend cs.length ax f

/-! ### lemmas -/

/-- the axes meant are the current ones [specification] -/
def Current (f : Fig K) (axis : Option Nat) : Prop := axis = none ∨ axis = some f.cur

/-- the curves that were there before stay only if axes are given [specification] -/
def kept (f : Fig K) : Option Nat → List (Drawn K)
  | none => []
  | some _ => f.drawn

theorem start_current {f : Fig K} {axis : Option Nat} (h : Current f axis) : (start f axis).2 = (start f axis).1.cur ∧ (start f axis).1.drawn = kept f axis := by
  rcases h with rfl | rfl <;> exact ⟨rfl, rfl⟩

theorem finish_current (legend : Bool) (n : Nat) (f : Fig K) : ∃ f', finish legend n f.cur f = (.ok (), f') ∧ f'.drawn = f.drawn ∧ (legend = true → f.cur ∈ f'.legends) := by
  unfold finish
  cases legend with
  | false => exact ⟨f, rfl, rfl, by simp⟩
  | true =>
    dsimp only
    rw [if_pos rfl]
    split
    · rw [if_pos (by simp)]
      exact ⟨_, rfl, rfl, fun _ => by simp⟩
    · exact ⟨_, rfl, rfl, fun _ => by simp⟩

theorem look_some {g : List (Chan K)} {c : Int} {d : Chan K} (h : look g c = some d) : d ∈ g ∧ d.num = c := by
  refine ⟨List.mem_of_find?_eq_some h, ?_⟩
  simpa using List.find?_some h

theorem look_mem {g : List (Chan K)} (hn : (g.map Chan.num).Nodup) {d : Chan K} (h : d ∈ g) : look g d.num = some d := by
  unfold look
  induction g with
  | nil => cases h
  | cons a t ih =>
    rw [List.map_cons, List.nodup_cons] at hn
    rcases List.mem_cons.1 h with rfl | h
    · simp
    · rw [List.find?_cons_of_neg, ih hn.2 h]
      intro e
      exact hn.1 (by rw [(by simpa using e : a.num = d.num)]; exact List.mem_map_of_mem h)

theorem look_none {g : List (Chan K)} {c : Int} (h : c ∉ g.map Chan.num) : look g c = none := by
  unfold look
  rw [List.find?_eq_none]
  intro d hd e
  exact h (by rw [← (by simpa using e : d.num = c)]; exact List.mem_map_of_mem hd)

theorem lookAll_ok {g : List (Chan K)} {cs : List Int} (h : ∀ c ∈ cs, c ∈ g.map Chan.num) : ∃ ds, lookAll g cs = .ok ds ∧ List.Forall₂ (fun c d => d ∈ g ∧ d.num = c) cs ds := by
  induction cs with
  | nil => exact ⟨[], rfl, .nil⟩
  | cons c cs ih =>
    obtain ⟨ds, h1, h2⟩ := ih (fun x hx => h x (by simp [hx]))
    cases hl : look g c with
    | none =>
      exfalso
      obtain ⟨d, hd, hc⟩ := List.mem_map.1 (h c (by simp))
      have := List.find?_eq_none.1 hl d hd
      simp [hc] at this
    | some d =>
      refine ⟨d :: ds, ?_, .cons (look_some hl) h2⟩
      rw [lookAll, hl, h1]

theorem lookAll_key {g : List (Chan K)} {cs : List Int} {c : Int} (h : c ∈ cs) (hc : c ∉ g.map Chan.num) : lookAll g cs = .error .key := by
  induction cs with
  | nil => cases h
  | cons a cs ih =>
    unfold lookAll
    cases hl : look g a with
    | none => rfl
    | some d =>
      rcases List.mem_cons.1 h with rfl | h
      · rw [look_none hc] at hl
        cases hl
      · rw [ih h]

/-! ### average pulses -/

/-- C167. One curve for each channel that is not bad (or each, if asked for), or for each channel of those asked for, in this order: its average pulse, lowpass filtered if so wanted,
over the time since the trigger in ms. There is a legend if wanted. -/
theorem average_plot [Field K] (g : List (Chan K)) (bad : List Int) (nSamples nPre : Nat) (timebase : K) (lowpass : List K → List K) {axis : Option Nat} (channels : Option (List Int)) (legend includeBad : Bool)
    {f : Fig K} (hax : Current f axis) (hch : ∀ cs, channels = some cs → ∀ c ∈ cs, c ∈ g.map Chan.num) :
    ∃ f' ax ds new, average g bad nSamples nPre timebase lowpass axis channels legend includeBad f = (.ok (), f') ∧ f'.drawn = kept f axis ++ new ∧
      (channels = none → ds = g.filter (fun d => includeBad || !bad.contains d.num)) ∧ (∀ cs, channels = some cs → List.Forall₂ (fun c d => d ∈ g ∧ d.num = c) cs ds) ∧
      List.Forall₂ (fun d (w : Drawn K) => w.axis = ax ∧ w.chan = d.num ∧ w.ys = lowpass d.avg ∧ w.xs.length = nSamples ∧
        ∀ i : Nat, i < nSamples → w.xs[i]? = some (((i : K) - nPre) * timebase * 1000)) ds new ∧
      new.Pairwise (fun v w => v.color < w.color) ∧ (∀ w ∈ new, 0 ≤ w.color ∧ w.color < 1) ∧ (legend = true → ax ∈ f'.legends) := by
  obtain ⟨s1, s2⟩ := start_current hax
  have hds : ∃ ds, (match channels with | none => Except.ok (g.filter (fun d : Chan K => includeBad || !bad.contains d.num)) | some cs => lookAll g cs) = .ok ds ∧
      (channels = none → ds = g.filter (fun d => includeBad || !bad.contains d.num)) ∧ (∀ cs, channels = some cs → List.Forall₂ (fun c d => d ∈ g ∧ d.num = c) cs ds) := by
    cases channels with
    | none => exact ⟨_, rfl, fun _ => rfl, by simp⟩
    | some cs =>
      obtain ⟨ds, h1, h2⟩ := lookAll_ok (hch cs rfl)
      exact ⟨ds, h1, by simp, fun cs' e => by cases e; exact h2⟩
  obtain ⟨ds, h1, h2, h3⟩ := hds
  obtain ⟨f', g1, g2, g3⟩ := finish_current legend ds.length
    { (start f axis).1 with drawn := (start f axis).1.drawn ++ avgCurves (start f axis).1.cur nSamples nPre timebase lowpass ds }
  refine ⟨f', (start f axis).1.cur, ds, avgCurves (start f axis).1.cur nSamples nPre timebase lowpass ds, ?_, ?_, h2, h3, ?_, ?_, ?_, g3⟩
  · unfold average
    rw [h1]
    dsimp only
    rw [s1]
    exact g1
  · rw [g2]
    dsimp only
    rw [s2]
  · unfold avgCurves
    rw [List.forall₂_iff_get]
    refine ⟨by simp, fun i hi hj => ?_⟩
    simp only [List.get_eq_getElem, List.getElem_mapIdx]
    refine ⟨trivial, trivial, trivial, by simp [times], fun k hk => ?_⟩
    simp [times, hk]
  · rw [List.pairwise_iff_getElem]
    intro i j hi hj hij
    simp only [avgCurves, List.length_mapIdx] at hi hj
    simp only [avgCurves, List.getElem_mapIdx]
    exact (div_lt_div_iff_of_pos_right (by exact_mod_cast (by omega : 0 < ds.length))).2 (by exact_mod_cast hij)
  · intro w hw
    obtain ⟨i, hi, rfl⟩ := List.getElem_of_mem hw
    simp only [avgCurves, List.length_mapIdx] at hi
    simp only [avgCurves, List.getElem_mapIdx]
    have h0 : (0 : ℚ) < ds.length := by exact_mod_cast (by omega : 0 < ds.length)
    exact ⟨by positivity, (div_lt_one h0).2 (by exact_mod_cast hi)⟩

/-- Disagreement (C167): a number that is no channel number does not give a plot of all average pulses as documented, but a KeyError; and if no axes were given, the figure has been
cleared by then. -/
theorem unknown_fails [Field K] (g : List (Chan K)) (bad : List Int) (nSamples nPre : Nat) (timebase : K) (lowpass : List K → List K) {cs : List Int} (legend includeBad : Bool) (f : Fig K)
    {c : Int} (h : c ∈ cs) (hc : c ∉ g.map Chan.num) :
    (average g bad nSamples nPre timebase lowpass none (some cs) legend includeBad f).1 = .error .key ∧
      (average g bad nSamples nPre timebase lowpass none (some cs) legend includeBad f).2.drawn = [] := by
  unfold average
  simp only [lookAll_key h hc, start, and_self]

/-- Disagreement (C167): the axes given are not those drawn in. If others are the current ones, average pulses and filters appear there. -/
theorem axis_fails [Field K] (g : List (Chan K)) (bad : List Int) (nSamples nPre : Nat) (timebase : K) (lowpass : List K → List K) (legend includeBad : Bool) (f : Fig K) {a : Nat} (ha : a ≠ f.cur)
    (hf : ∀ w ∈ f.drawn, w.axis ≠ a) :
    (∀ w ∈ (average g bad nSamples nPre timebase lowpass (some a) none legend includeBad f).2.drawn, w.axis ≠ a) ∧
    ∀ channels, ∀ w ∈ (filters g (some a) channels legend f).2.drawn, w.axis ≠ a := by
  have hfin : ∀ (n ax : Nat) (f : Fig K), (finish legend n ax f).2.drawn = f.drawn := by
    intro n ax f
    unfold finish
    cases legend with
    | false => rfl
    | true =>
      dsimp only
      rw [if_pos rfl]
      split <;> rfl
  constructor
  · intro w hw
    simp only [average, start] at hw
    rw [hfin] at hw
    rcases List.mem_append.1 hw with hw | hw
    · exact hf w hw
    · unfold avgCurves at hw
      obtain ⟨i, hi, rfl⟩ := List.getElem_of_mem hw
      simp only [List.getElem_mapIdx]
      exact ha.symm
  · intro channels w hw
    simp only [filters, start] at hw
    rw [hfin] at hw
    have gen : ∀ (n : Nat) (cs : List Int) (i : Nat) (f' : Fig K), f'.cur = f.cur → (∀ w ∈ f'.drawn, w.axis ≠ a) → ∀ w ∈ (filtLoop g n i cs f').drawn, w.axis ≠ a := by
      intro n cs
      induction cs with
      | nil => exact fun i f' _ h => h
      | cons c cs ih =>
        intro i f' hc h
        unfold filtLoop
        split
        · exact ih _ _ hc h
        · refine ih _ _ hc ?_
          intro w hw
          rcases List.mem_append.1 hw with hw | hw
          · exact h w hw
          · rw [List.mem_singleton.1 hw]
            dsimp only
            rw [hc]
            exact ha.symm
    exact gen _ _ _ f rfl hf w hw

/-- Disagreement (C167): with more than twelve channels and axes that are not the current ones and have no legend yet, all three plots end with an AttributeError if a legend is wanted
(as it is by default). -/
theorem legend_fails [Field K] (g : List (Chan K)) (bad : List Int) (nSamples nPre : Nat) (timebase : K) (lowpass : List K → List K) (f : Fig K) {a : Nat} (ha : a ≠ f.cur) (hl : a ∉ f.legends)
    (hn : 12 < g.length) (hno : ∀ d ∈ g, d.noise ≠ none) :
    (average g bad nSamples nPre timebase lowpass (some a) none true true f).1 = .error .attribute ∧ (filters g (some a) none true f).1 = .error .attribute ∧
      (noise g timebase (some a) none true f).1 = .error .attribute := by
  have hfin : ∀ (n : Nat) (f' : Fig K), 12 < n → f'.cur = f.cur → f'.legends = f.legends → (finish true n a f').1 = .error .attribute := by
    intro n f' h1 h2 h3
    unfold finish
    dsimp only
    rw [if_pos rfl, if_pos h1, if_neg]
    rw [h2, h3, List.mem_append, List.mem_singleton]
    rintro (h | h)
    · exact hl h
    · exact ha h
  have hcl : (chosen g none).length = g.length := by
    unfold chosen
    rw [List.length_insertionSort, List.length_map]
  refine ⟨?_, ?_, ?_⟩
  · simp only [average, start]
    refine hfin _ _ ?_ rfl rfl
    simpa using hn
  · simp only [filters, start]
    have gen : ∀ (n : Nat) (cs : List Int) (i : Nat) (f' : Fig K), f'.cur = f.cur → f'.legends = f.legends → (filtLoop g n i cs f').cur = f.cur ∧ (filtLoop g n i cs f').legends = f.legends := by
      intro n cs
      induction cs with
      | nil => exact fun i f' h h' => ⟨h, h'⟩
      | cons c cs ih =>
        intro i f' h h'
        unfold filtLoop
        split <;> exact ih _ _ h h'
    obtain ⟨g1, g2⟩ := gen (chosen g none).length (chosen g none) 0 f rfl rfl
    exact hfin _ _ (by rw [hcl]; exact hn) g1 g2
  · simp only [noise, start]
    have gen : ∀ (n : Nat) (cs : List Int) (i : Nat) (f' : Fig K), f'.cur = f.cur → f'.legends = f.legends →
        ∃ f'', noiseLoop g timebase a n i cs f' = (.ok (), f'') ∧ f''.cur = f.cur ∧ f''.legends = f.legends := by
      intro n cs
      induction cs with
      | nil => exact fun i f' h h' => ⟨f', rfl, h, h'⟩
      | cons c cs ih =>
        intro i f' h h'
        unfold noiseLoop
        cases hk : look g c with
        | none => exact ih _ _ h h'
        | some d =>
          dsimp only
          cases hd : d.noise with
          | none => exact absurd hd (hno d (look_some hk).1)
          | some v => exact ih _ _ h h'
    obtain ⟨f'', e, g1, g2⟩ := gen (chosen g none).length (chosen g none) 0 f rfl rfl
    rw [e]
    exact hfin _ _ (by rw [hcl]; exact hn) g1 g2

/-! ### filters and noise -/

theorem filtLoop_spec [Field K] (g : List (Chan K)) (n : Nat) (cs : List Int) : ∀ (i : Nat) (f : Fig K), ∃ new, filtLoop g n i cs f = { f with drawn := f.drawn ++ new } ∧
    new.map (fun w => (w.axis, w.chan, w.ys)) = cs.filterMap (fun c => ((look g c).bind Chan.filt).map (fun v => (f.cur, c, v))) ∧
    (∀ w ∈ new, w.xs = (List.range w.ys.length).map (fun k : Nat => (k : K)) ∧ (i : ℚ) / n ≤ w.color) ∧ (0 < n → new.Pairwise (fun v w => v.color < w.color)) ∧
    (0 < n → ∀ w ∈ new, w.color < ((i + cs.length : Nat) : ℚ) / n) := by
  induction cs with
  | nil => exact fun i f => ⟨[], by simp [filtLoop], rfl, by simp, by simp, by simp⟩
  | cons c cs ih =>
    intro i f
    unfold filtLoop
    have hle : (i : ℚ) / n ≤ ((i + 1 : Nat) : ℚ) / n := div_le_div_of_nonneg_right (by push_cast; linarith) (Nat.cast_nonneg _)
    split
    · rename_i hv
      obtain ⟨new, h1, h2, h3, h4, h5⟩ := ih (i + 1) f
      refine ⟨new, h1, ?_, fun w hw => ⟨(h3 w hw).1, hle.trans (h3 w hw).2⟩, h4, fun hn w hw => ?_⟩
      · rw [h2, List.filterMap_cons_none (by simp [hv])]
      · have := h5 hn w hw
        rwa [show i + 1 + cs.length = i + (c :: cs).length by simp; omega] at this
    · rename_i v hv
      obtain ⟨new, h1, h2, h3, h4, h5⟩ := ih (i + 1) { f with drawn := f.drawn ++ [⟨f.cur, c, (i : ℚ) / n, (List.range v.length).map (fun k : Nat => (k : K)), v⟩] }
      refine ⟨⟨f.cur, c, (i : ℚ) / n, (List.range v.length).map (fun k : Nat => (k : K)), v⟩ :: new, ?_, ?_, ?_, ?_, ?_⟩
      · rw [h1]
        simp
      · rw [List.map_cons, h2, List.filterMap_cons_some (b := (f.cur, c, v)) (by simp [hv])]
      · intro w hw
        rcases List.mem_cons.1 hw with rfl | hw
        · exact ⟨rfl, le_refl _⟩
        · exact ⟨(h3 w hw).1, hle.trans (h3 w hw).2⟩
      · intro hn
        refine List.pairwise_cons.2 ⟨fun w hw => lt_of_lt_of_le ?_ (h3 w hw).2, h4 hn⟩
        exact (div_lt_div_iff_of_pos_right (by exact_mod_cast hn)).2 (by push_cast; linarith)
      · intro hn w hw
        rcases List.mem_cons.1 hw with rfl | hw
        · dsimp only
          exact (div_lt_div_iff_of_pos_right (by exact_mod_cast hn)).2 (by push_cast [List.length_cons]; have : (0 : ℚ) ≤ cs.length := Nat.cast_nonneg _; linarith)
        · have := h5 hn w hw
          rwa [show i + 1 + cs.length = i + (c :: cs).length by simp; omega] at this

/-- C167. Exactly the filters of those channels asked for that are in the group and have one, in the order asked for, by default all (bad ones too) in order of their numbers;
colours differ. -/
theorem filters_plot [Field K] (g : List (Chan K)) (hg : (g.map Chan.num).Nodup) {axis : Option Nat} (channels : Option (List Int)) (legend : Bool) {f : Fig K} (hax : Current f axis) :
    ∃ f' ax cs new, filters g axis channels legend f = (.ok (), f') ∧ f'.drawn = kept f axis ++ new ∧ (∀ l, channels = some l → cs = l) ∧
      (channels = none → cs.Perm (g.map Chan.num) ∧ cs.Pairwise (· ≤ ·)) ∧
      (new.map (fun w => w.chan)).Sublist cs ∧ (∀ w ∈ new, w.axis = ax ∧ ∃ d ∈ g, d.num = w.chan ∧ d.filt = some w.ys) ∧
      (∀ d ∈ g, ∀ v, d.filt = some v → d.num ∈ cs → ∃ w ∈ new, w.chan = d.num) ∧
      new.Pairwise (fun v w => v.color < w.color) ∧ (∀ w ∈ new, 0 ≤ w.color ∧ w.color < 1) ∧ (legend = true → ax ∈ f'.legends) := by
  obtain ⟨s1, s2⟩ := start_current hax
  obtain ⟨new, h1, h2, h3, h4, h5⟩ := filtLoop_spec g (chosen g channels).length (chosen g channels) 0 (start f axis).1
  obtain ⟨f', g1, g2, g3⟩ := finish_current legend (chosen g channels).length (filtLoop g (chosen g channels).length 0 (chosen g channels) (start f axis).1)
  have hcur : (filtLoop g (chosen g channels).length 0 (chosen g channels) (start f axis).1).cur = (start f axis).1.cur := by rw [h1]
  have hpos : ∀ w ∈ new, 0 < (chosen g channels).length := by
    intro w hw
    rcases Nat.eq_zero_or_pos (chosen g channels).length with h0 | h0
    · rw [List.length_eq_zero_iff.1 h0] at h2
      have : new = [] := by simpa using h2
      rw [this] at hw
      cases hw
    · exact h0
  have hmem : ∀ w ∈ new, w.axis = (start f axis).1.cur ∧ w.chan ∈ chosen g channels ∧ ∃ d ∈ g, d.num = w.chan ∧ d.filt = some w.ys := by
    intro w hw
    have := List.mem_map_of_mem (f := fun w : Drawn K => (w.axis, w.chan, w.ys)) hw
    rw [h2, List.mem_filterMap] at this
    obtain ⟨c, hc, e⟩ := this
    obtain ⟨v, hv, e⟩ := Option.map_eq_some_iff.1 e
    obtain ⟨d, hd, hdv⟩ := Option.bind_eq_some_iff.1 hv
    simp only [Prod.mk.injEq] at e
    obtain ⟨e1, rfl, rfl⟩ := e
    exact ⟨e1.symm, hc, d, (look_some hd).1, (look_some hd).2, hdv⟩
  refine ⟨f', (start f axis).1.cur, chosen g channels, new, ?_, ?_, ?_, ?_, ?_, ?_, ?_, ?_, ?_, ?_⟩
  · unfold filters
    dsimp only
    rw [s1, ← hcur]
    exact g1
  · rw [g2, h1]
    dsimp only
    rw [s2]
  · rintro l rfl
    rfl
  · rintro rfl
    exact ⟨List.perm_insertionSort _ _, List.pairwise_insertionSort _ _⟩
  · have e : new.map (fun w => w.chan) = (chosen g channels).filter (fun c => ((look g c).bind Chan.filt).isSome) := by
      have := congrArg (List.map (fun t : Nat × Int × List K => t.2.1)) h2
      rw [List.map_map] at this
      rw [show (fun w : Drawn K => w.chan) = (fun t : Nat × Int × List K => t.2.1) ∘ (fun w : Drawn K => (w.axis, w.chan, w.ys)) from rfl, this, List.map_filterMap]
      rw [← List.filterMap_eq_filter]
      congr 1
      funext c
      cases ho : (look g c).bind Chan.filt with
      | none => simp only [Option.guard, ho, Option.map_none, Option.isSome_none, Bool.false_eq_true, if_false]
      | some v => simp only [Option.guard, ho, Option.map_some, Option.isSome_some, if_true]
    rw [e]
    exact List.filter_sublist
  · exact fun w hw => ⟨(hmem w hw).1, (hmem w hw).2.2⟩
  · intro d hd v hv hc
    have : ((start f axis).1.cur, d.num, v) ∈ new.map (fun w => (w.axis, w.chan, w.ys)) := by
      rw [h2, List.mem_filterMap]
      exact ⟨d.num, hc, by simp [look_mem hg hd, hv]⟩
    obtain ⟨w, hw, e⟩ := List.mem_map.1 this
    exact ⟨w, hw, (Prod.mk.inj (Prod.mk.inj e).2).1⟩
  · by_cases hn : new = []
    · rw [hn]
      exact .nil
    · obtain ⟨w, hw⟩ := List.exists_mem_of_ne_nil _ hn
      exact h4 (hpos w hw)
  · intro w hw
    refine ⟨?_, ?_⟩
    · have := (h3 w hw).2
      simpa using this
    · have := h5 (hpos w hw) w hw
      have h0 : (0 : ℚ) < (chosen g channels).length := by exact_mod_cast hpos w hw
      rwa [Nat.zero_add, div_self h0.ne'] at this
  · intro hl
    have := g3 hl
    rwa [hcur] at this

theorem noiseLoop_spec [Field K] (g : List (Chan K)) (timebase : K) (ax n : Nat) (cs : List Int) (hno : ∀ d ∈ g, d.num ∈ cs → d.noise ≠ none) : ∀ (i : Nat) (f : Fig K),
    ∃ new, noiseLoop g timebase ax n i cs f = (.ok (), { f with drawn := f.drawn ++ new }) ∧
      new.map (fun w => (w.axis, w.chan, w.ys)) = cs.filterMap (fun c => ((look g c).bind Chan.noise).map (fun v => (ax, c, v))) ∧
      (∀ w ∈ new, w.xs = (List.range w.ys.length).map (fun k : Nat => timebase * 1000 * (k : K))) := by
  induction cs with
  | nil => exact fun i f => ⟨[], by simp [noiseLoop], rfl, by simp⟩
  | cons c cs ih =>
    intro i f
    have hno' : ∀ d ∈ g, d.num ∈ cs → d.noise ≠ none := fun d hd hc => hno d hd (by simp [hc])
    unfold noiseLoop
    cases hk : look g c with
    | none =>
      obtain ⟨new, h1, h2, h3⟩ := ih hno' (i + 1) f
      exact ⟨new, h1, by rw [h2, List.filterMap_cons_none (by simp [hk])], h3⟩
    | some d =>
      dsimp only
      cases hd : d.noise with
      | none =>
        obtain ⟨k1, k2⟩ := look_some hk
        exact absurd hd (hno d k1 (by simp [k2]))
      | some v =>
        obtain ⟨new, h1, h2, h3⟩ := ih hno' (i + 1) { f with drawn := f.drawn ++ [⟨ax, c, (i : ℚ) / n, (List.range v.length).map (fun k : Nat => timebase * 1000 * (k : K)), v⟩] }
        refine ⟨⟨ax, c, (i : ℚ) / n, (List.range v.length).map (fun k : Nat => timebase * 1000 * (k : K)), v⟩ :: new, ?_, ?_, ?_⟩
        · dsimp only
          rw [h1]
          simp
        · rw [List.map_cons, h2, List.filterMap_cons_some (b := (ax, c, v)) (by simp [hk, hd])]
        · intro w hw
          rcases List.mem_cons.1 hw with rfl | hw
          · rfl
          · exact h3 w hw

/-- C167. If all channels asked for have noise records: exactly their autocorrelations, in the axes given or in new ones, over the lag in ms; numbers of no channel are passed over. -/
theorem noise_plot [Field K] (g : List (Chan K)) (timebase : K) {axis : Option Nat} (channels : Option (List Int)) {f : Fig K} (hno : ∀ d ∈ g, d.noise ≠ none) :
    ∃ f' cs new, noise g timebase axis channels false f = (.ok (), f') ∧ f'.drawn = kept f axis ++ new ∧ (∀ l, channels = some l → cs = l) ∧
      (channels = none → cs.Perm (g.map Chan.num) ∧ cs.Pairwise (· ≤ ·)) ∧ new.map (fun w => w.chan) = cs.filter (fun c => c ∈ g.map Chan.num) ∧
      (∀ w ∈ new, (∀ a, axis = some a → w.axis = a) ∧ (∃ d ∈ g, d.num = w.chan ∧ d.noise = some w.ys) ∧ w.xs.length = w.ys.length ∧
        ∀ k : Nat, k < w.ys.length → w.xs[k]? = some (timebase * 1000 * (k : K))) := by
  obtain ⟨new, h1, h2, h3⟩ := noiseLoop_spec g timebase (start f axis).2 (chosen g channels).length (chosen g channels) (fun d hd _ => hno d hd) 0 (start f axis).1
  have hs : (start f axis).1.drawn = kept f axis := by cases axis <;> rfl
  refine ⟨{ (start f axis).1 with drawn := (start f axis).1.drawn ++ new }, chosen g channels, new, ?_, by dsimp only; rw [hs], ?_, ?_, ?_, ?_⟩
  · unfold noise
    dsimp only
    rw [h1]
    simp [finish]
  · rintro l rfl
    rfl
  · rintro rfl
    exact ⟨List.perm_insertionSort _ _, List.pairwise_insertionSort _ _⟩
  · have := congrArg (List.map (fun t : Nat × Int × List K => t.2.1)) h2
    rw [List.map_map] at this
    rw [show (fun w : Drawn K => w.chan) = (fun t : Nat × Int × List K => t.2.1) ∘ (fun w : Drawn K => (w.axis, w.chan, w.ys)) from rfl, this, List.map_filterMap, ← List.filterMap_eq_filter]
    congr 1
    funext c
    by_cases hc : c ∈ g.map Chan.num
    · cases hk : look g c with
      | none =>
        obtain ⟨d, hd, e⟩ := List.mem_map.1 hc
        have := List.find?_eq_none.1 hk d hd
        simp [e] at this
      | some d =>
        cases hd : d.noise with
        | none => exact absurd hd (hno d (look_some hk).1)
        | some v => simp only [Option.bind_some, hd, Option.map_some, Option.guard, hc, decide_true, if_true]
    · simp [look_none hc, Option.guard, hc]
  · intro w hw
    have := List.mem_map_of_mem (f := fun w : Drawn K => (w.axis, w.chan, w.ys)) hw
    rw [h2, List.mem_filterMap] at this
    obtain ⟨c, hc, e⟩ := this
    obtain ⟨v, hv, e⟩ := Option.map_eq_some_iff.1 e
    obtain ⟨d, hd, hdv⟩ := Option.bind_eq_some_iff.1 hv
    simp only [Prod.mk.injEq] at e
    obtain ⟨e1, rfl, rfl⟩ := e
    refine ⟨?_, ⟨d, (look_some hd).1, (look_some hd).2, hdv⟩, by rw [h3 w hw]; simp, fun k hk => ?_⟩
    · rintro a rfl
      exact e1.symm
    · rw [h3 w hw]
      simp [hk]

/-- Disagreement (C167): one channel without noise records ends the plot of all autocorrelations with an AttributeError, while channels without filters are passed over by the plot of
filters. -/
theorem noise_fails [Field K] (g : List (Chan K)) (timebase : K) (axis : Option Nat) (channels : Option (List Int)) (legend : Bool) (f : Fig K) {d : Chan K} (hd : d ∈ g) (hg : (g.map Chan.num).Nodup)
    (hn : d.noise = none) (hc : ∀ cs, channels = some cs → d.num ∈ cs) : (noise g timebase axis channels legend f).1 = .error .attribute := by
  have hm : d.num ∈ chosen g channels := by
    cases channels with
    | none => exact (List.mem_insertionSort _).2 (List.mem_map_of_mem hd)
    | some cs => exact hc cs rfl
  have gen : ∀ (ax n : Nat) (cs : List Int), d.num ∈ cs → ∀ (i : Nat) (f : Fig K), (noiseLoop g timebase ax n i cs f).1 = .error .attribute := by
    intro ax n cs
    induction cs with
    | nil => intro h; cases h
    | cons c cs ih =>
      intro h i f
      unfold noiseLoop
      rcases List.mem_cons.1 h with rfl | h
      · rw [look_mem hg hd]
        dsimp only
        rw [hn]
      · cases look g c with
        | none => exact ih h _ _
        | some e =>
          dsimp only
          cases e.noise with
          | none => rfl
          | some v => exact ih h _ _
  have := gen (start f axis).2 (chosen g channels).length (chosen g channels) hm 0 (start f axis).1
  unfold noise
  dsimp only
  cases hr : noiseLoop g timebase (start f axis).2 (chosen g channels).length 0 (chosen g channels) (start f axis).1 with
  | mk r f' =>
    rw [hr] at this
    dsimp only at this
    subst this
    rfl

/-! ### instances -/

/-- three channels, the last bad and without a filter [specification] -/
def group0 : List (Chan ℚ) := [⟨1, [0, 5], some [1, 2], some [3]⟩, ⟨3, [1, 6], some [3, 4], some [4]⟩, ⟨5, [2, 7], none, some [5]⟩]

example : (average group0 [5] 2 1 (1 / 1000) id none none true false ⟨0, [], []⟩).2.drawn = [⟨1, 1, 0, [-1, 0], [0, 5]⟩, ⟨1, 3, 1 / 2, [-1, 0], [1, 6]⟩] ∧
    (filters group0 none (some [5, 3, 8, 1]) true ⟨0, [], []⟩).2.drawn.map (fun w => (w.chan, w.color)) = [(3, 1 / 4), (1, 3 / 4)] ∧
    (noise group0 (1 / 1000) (some 0) none true ⟨0, [], []⟩).2.drawn.map (fun w => w.chan) = [1, 3, 5] := by decide +kernel

end Mass.Group.ChanPlots
