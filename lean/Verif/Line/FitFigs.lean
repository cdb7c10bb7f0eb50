import Verif.Stat.FirstN
import Verif.Py
import Mathlib.Analysis.SpecialFunctions.Log.Basic
import Mathlib.Data.Nat.Sqrt
import Mathlib.Tactic.Linarith
import Mathlib.Tactic.FieldSimp
import Mathlib.Tactic.Ring
import Mathlib.Tactic.Positivity
/-! C171: figures of fits and histograms of OFF channels: labels of axes (mass/calibration/line_models.py L375-399, mass/off/channels.py L155-176), histograms by state (channels.py L84-111), the panels of a calibration
(L819-842), the fits of all channels (L1367-1399), and labels of peaks (mass/off/util.py L282-322). -/
namespace Mass.Line.Figs
open Mass Mass.Stat

/-- a text (used for line_models.py L375-399) -/
abbrev Text := List Char

/-- a literal as a text (used for line_models.py L384-399) -/
def tx (s : String) : Text := s.toList

section Labels
variable {K : Type} [Field K] [LinearOrder K]

/-! ### labels of a fit -/

/-- `states` of a fit, as in channels.py L169-174: none, one name, a list of names, or something else -/
inductive StArg
  | all
  | one (s : Text)
  | list (l : List Text)
  | other
deriving DecidableEq

/-- `", ".join` (used for channels.py L98, L172) -/
def joinC (l : List Text) : Text := (tx ", ").intercalate l

/-- the units and the attribute as shown, channels.py L155-164; `energy`: the attribute is an energy or there is a calibration. Without units or parameters the fit raises (C114). -/
def unitAttr (energy cal : Bool) (attr : Text) : Except Exc (Text × Text) :=
  if energy = false ∧ cal = false then .error .unbound
  else .ok (if cal then tx "eV" else tx "arbs", if cal then attr ++ tx " with cal" else attr)

/-- the hints stored with a result, line_models.py L375-382; `states` is none for what has no length -/
structure Hints (K : Type) where
  binsize : K
  short : Text
  attr : Text
  unit : Text
  cut : Text
  states : Option Text

/-- the hint for the states, channels.py L169-174 -/
def statesHint : StArg → Option Text
  | .all => some (tx "all states")
  | .one s => some s
  | .list l => some (joinC l)
  | .other => none

/-- `_handle_default_labels`, line_models.py L384-399: title, x and y labels. `fmt` is the format `g`; `bins` are the bins the fit was given. -/
def labels (fmt : K → Text) (h : Option (Hints K)) (line : Text) (bins : Option (List K)) (title xl yl : Option Text) : Except Exc (Option Text × Option Text × Option Text) :=
  match h with
  | some h =>
    let t := title.getD (h.short ++ tx ": " ++ line)
    let x := xl.getD (h.attr ++ tx " (" ++ h.unit ++ tx ")")
    match yl with
    | some y => .ok (some t, some x, some y)
    | none =>
      let y := tx "counts per " ++ fmt h.binsize ++ tx " " ++ h.unit ++ tx " bin"
      match h.states with
      | none => .error .type
      | some s => .ok (some t, some x, some (if 0 < s.length then y ++ tx "\nstates=" ++ s ++ tx ": " ++ h.cut else y))
  | none =>
    match yl, bins with
    | none, some (a :: b :: _) => .ok (title, xl, some (tx "counts per " ++ fmt (b - a) ++ tx " unit bin"))
    | none, some _ => .error .index
    | _, _ => .ok (title, xl, yl)

/-- the labels of the figure of a fit of a channel, channels.py L155-179 and line_models.py L360-373 without labels of its own -/
def fitLabels (fmt : K → Text) (short line attr cut : Text) (energy cal : Bool) (states : StArg) (binsize : K) : Except Exc (Option Text × Option Text × Option Text) :=
  match unitAttr energy cal attr with
  | .error e => .error e
  | .ok (u, a) => labels fmt (some ⟨binsize, short, a, u, cut, statesHint states⟩) line none none none none

/-- C171. Labels given are used as they are. The default title names channel and line, and the default label of the y axis tells bin size, unit, states and cut: all states, or those asked for, separated by commas. -/
theorem labels_spec (fmt : K → Text) (h : Hints K) (line : Text) (bins : Option (List K)) (title xl yl : Option Text) (s : Text) (hs : h.states = some s) (hs0 : s ≠ []) :
    labels fmt (some h) line bins title xl yl = .ok (some (title.getD (h.short ++ tx ": " ++ line)), some (xl.getD (h.attr ++ tx " (" ++ h.unit ++ tx ")")),
      some (yl.getD (tx "counts per " ++ fmt h.binsize ++ tx " " ++ h.unit ++ tx " bin" ++ tx "\nstates=" ++ s ++ tx ": " ++ h.cut))) := by
  unfold labels
  cases yl with
  | some y => rfl
  | none =>
    dsimp only
    rw [hs]
    dsimp only
    rw [if_pos (List.length_pos_iff.2 hs0)]
    rfl

/-- C171. A result without hints keeps the labels given, and if there is none for the y axis tells the distance of the bins. -/
theorem labels_plain (fmt : K → Text) (line : Text) (a b : K) (t : List K) (title xl yl : Option Text) :
    labels fmt none line (some (a :: b :: t)) title xl yl = .ok (title, xl, some (yl.getD (tx "counts per " ++ fmt (b - a) ++ tx " unit bin"))) := by
  cases yl <;> rfl

/-- C171. With a calibration the figure of a fit is in eV. -/
theorem fit_labels_cal (fmt : K → Text) (short line attr cut : Text) (states : StArg) (binsize : K) (s : Text) (hs : statesHint states = some s) (hs0 : s ≠ []) (energy : Bool) :
    fitLabels fmt short line attr cut energy true states binsize = .ok (some (short ++ tx ": " ++ line), some (attr ++ tx " with cal" ++ tx " (" ++ tx "eV" ++ tx ")"),
      some (tx "counts per " ++ fmt binsize ++ tx " " ++ tx "eV" ++ tx " bin" ++ tx "\nstates=" ++ s ++ tx ": " ++ cut)) := by
  unfold fitLabels unitAttr
  rw [if_neg (by simp)]
  dsimp only
  rw [labels_spec fmt _ line none none none none s hs hs0]
  rfl

/-- C171. Which states the label names: "all states" for a fit of all, the one asked for, or those of a list in order with commas between them. -/
theorem states_shown (fmt : K → Text) (short line attr cut : Text) (binsize : K) (energy : Bool) (s : Text) (l : List Text) (hs : s ≠ []) :
    (fitLabels fmt short line attr cut energy true .all binsize).map (fun r => r.2.2)
        = .ok (some (tx "counts per " ++ fmt binsize ++ tx " " ++ tx "eV" ++ tx " bin" ++ tx "\nstates=" ++ tx "all states" ++ tx ": " ++ cut)) ∧
    (fitLabels fmt short line attr cut energy true (.one s) binsize).map (fun r => r.2.2)
        = .ok (some (tx "counts per " ++ fmt binsize ++ tx " " ++ tx "eV" ++ tx " bin" ++ tx "\nstates=" ++ s ++ tx ": " ++ cut)) ∧
    (fitLabels fmt short line attr cut energy true (.list (s :: l)) binsize).map (fun r => r.2.2)
        = .ok (some (tx "counts per " ++ fmt binsize ++ tx " " ++ tx "eV" ++ tx " bin" ++ tx "\nstates=" ++ s ++ (l.map (fun t => tx ", " ++ t)).flatten ++ tx ": " ++ cut)) := by
  have hj : joinC (s :: l) = s ++ (l.map (fun t => tx ", " ++ t)).flatten := by
    unfold joinC
    clear hs
    induction l generalizing s with
    | nil => simp
    | cons a t ih =>
      have e : (tx ", ").intercalate (s :: a :: t) = s ++ (tx ", " ++ (tx ", ").intercalate (a :: t)) := by simp [List.intercalate]
      rw [e, ih a]
      simp
  refine ⟨?_, ?_, ?_⟩
  · rw [fit_labels_cal fmt short line attr cut .all binsize (tx "all states") rfl (by decide)]; rfl
  · rw [fit_labels_cal fmt short line attr cut (.one s) binsize s rfl hs]; rfl
  · rw [fit_labels_cal fmt short line attr cut (.list (s :: l)) binsize _ (congrArg some hj) (by simp [hs])]
    simp [Except.map]

/-- Disagreement (C171): a fit of the attribute `energy` itself is shown in arbitrary units instead of eV, on both axes. -/
theorem energy_units_fails (fmt : K → Text) (short line attr cut : Text) (states : StArg) (binsize : K) (s : Text) (hs : statesHint states = some s) (hs0 : s ≠ []) :
    fitLabels fmt short line attr cut true false states binsize = .ok (some (short ++ tx ": " ++ line), some (attr ++ tx " (" ++ tx "arbs" ++ tx ")"),
      some (tx "counts per " ++ fmt binsize ++ tx " " ++ tx "arbs" ++ tx " bin" ++ tx "\nstates=" ++ s ++ tx ": " ++ cut)) := by
  unfold fitLabels unitAttr
  rw [if_neg (by simp)]
  dsimp only
  rw [labels_spec fmt _ line none none none none s hs hs0]
  rfl

/-- Disagreement (C171): a fit to records selected by a slice or indices instead of states cannot be shown without a label for the y axis, though the fit itself is possible. -/
theorem slice_label_fails (fmt : K → Text) (short line attr cut : Text) (energy : Bool) (binsize : K) : fitLabels fmt short line attr cut energy true .other binsize = .error .type := by
  unfold fitLabels unitAttr
  rw [if_neg (by simp)]
  rfl

end Labels

/-! ### histograms by state -/

section Hist
variable {C : Type}

/-- `states` of `plotHist`, channels.py L84: one name, a list or a tuple of names, or none -/
inductive HArg
  | none
  | one (s : Text)
  | list (l : List Text)
  | tuple (l : List Text)
deriving DecidableEq

/-- `iterstates`, mass/off/util.py L362-373 -/
def iterstates : HArg → Except Exc (List Text)
  | .one s => .ok [s]
  | .list l => .ok l
  | _ => .error .assertion

/-- `", ".join(states)` of channels.py L98: of a text, its letters -/
def coLabel : HArg → Text
  | .none => []
  | .one s => joinC (s.map (fun c => [c]))
  | .list l => joinC l
  | .tuple l => joinC l

/-- the curves of `plotHist`, channels.py L95-105, each with its label; `hist` is the histogram for some states (C116). `stateLabels` is a list. -/
def curves (stateLabels : List Text) (hist : HArg → Except Exc C) (states : HArg) (coAdd : Bool) : Except Exc (List (Text × C)) :=
  let st := match states with | .none => .list stateLabels | s => s
  if coAdd then (hist st).map (fun c => [(coLabel st, c)])
  else
    match iterstates st with
    | .error e => .error e
    | .ok l => l.mapM (fun s => (hist (.one s)).map (fun c => (s, c)))

theorem mapM_labels {α β : Type} (f : α → Except Exc β) : ∀ l : List α, ∀ r, l.mapM (fun s => (f s).map (fun c => (s, c))) = .ok r → r.map Prod.fst = l ∧ ∀ p ∈ r, f p.1 = .ok p.2
  | [], r, h => by
    have h := (Except.ok.inj h).symm
    subst h
    simp
  | a :: l, r, h => by
    rw [List.mapM_cons] at h
    cases hf : f a with
    | error e => rw [hf] at h; cases h
    | ok c =>
      rw [hf] at h
      cases ht : l.mapM (fun s => (f s).map (fun c => (s, c))) with
      | error e =>
        rw [ht] at h
        cases h
      | ok t =>
        rw [ht] at h
        have h := (Except.ok.inj h).symm
        subst h
        obtain ⟨h1, h2⟩ := mapM_labels f l t ht
        refine ⟨by simp [h1], fun p hp => ?_⟩
        rcases List.mem_cons.1 hp with rfl | hp
        · exact hf
        · exact h2 p hp

/-- C171. With coAddStates=False there is one curve for each state, in order, labelled with its name, and it is the histogram of that state alone; a single name is one curve. -/
theorem curves_by_state (stateLabels : List Text) (hist : HArg → Except Exc C) (states : HArg) (hs : ∀ l, states ≠ .tuple l) {r : List (Text × C)} (h : curves stateLabels hist states false = .ok r) :
    r.map Prod.fst = (match states with | .none => stateLabels | .one s => [s] | .list l => l | .tuple l => l) ∧ ∀ p ∈ r, hist (.one p.1) = .ok p.2 := by
  unfold curves at h
  simp only [Bool.false_eq_true, if_false] at h
  cases states with
  | none => exact mapM_labels (fun s => hist (.one s)) _ _ h
  | one s => exact mapM_labels (fun s => hist (.one s)) _ _ h
  | list l => exact mapM_labels (fun s => hist (.one s)) _ _ h
  | tuple l => exact absurd rfl (hs l)

/-- C171. Coadded there is one curve, of all the states together; its label has the names in a list separated by commas. -/
theorem curves_coadded (stateLabels : List Text) (hist : HArg → Except Exc C) (l : List Text) (c : C) (h : hist (.list l) = .ok c) :
    curves stateLabels hist (.list l) true = .ok [((tx ", ").intercalate l, c)] ∧ (stateLabels = l → curves stateLabels hist .none true = .ok [((tx ", ").intercalate l, c)]) := by
  constructor
  · unfold curves
    simp only [if_true, h]
    rfl
  · rintro rfl
    unfold curves
    simp only [if_true, h]
    rfl

theorem intercalate_singles (x : Char) (s : Text) : (joinC ((x :: s).map (fun c => [c]))).length = 1 + 3 * s.length := by
  unfold joinC tx
  induction s generalizing x with
  | nil => simp [List.intercalate]
  | cons y s ih =>
    have := ih y
    simp only [List.map_cons, List.intercalate_cons_cons, List.length_append, List.length_cons, List.length_nil] at this ⊢
    rw [this]
    simp
    omega

/-- Disagreement (C171): the label of the histogram of one state given by its name is not the name but its letters with commas between them, for every name of more than one letter. -/
theorem one_label_fails (stateLabels : List Text) (hist : HArg → Except Exc C) (s : Text) (hs : 2 ≤ s.length) {r : List (Text × C)} (h : curves stateLabels hist (.one s) true = .ok r) : r.map Prod.fst ≠ [s] := by
  unfold curves at h
  simp only [if_true] at h
  cases hh : hist (.one s) with
  | error e => rw [hh] at h; cases h
  | ok c =>
    rw [hh] at h
    have h := (Except.ok.inj h).symm
    subst h
    intro hc
    simp only [List.map_cons, List.map_nil, List.cons.injEq, and_true] at hc
    cases s with
    | nil => simp at hs
    | cons x s =>
      have := congrArg List.length hc
      rw [show coLabel (.one (x :: s)) = joinC ((x :: s).map (fun c => [c])) from rfl, intercalate_singles] at this
      simp only [List.length_cons] at this hs
      omega

/-- Disagreement (C171): a tuple of states can be coadded but not shown state by state. -/
theorem tuple_fails (stateLabels l : List Text) (hist : HArg → Except Exc C) (c : C) (h : hist (.tuple l) = .ok c) :
    curves stateLabels hist (.tuple l) true = .ok [(joinC l, c)] ∧ curves stateLabels hist (.tuple l) false = .error .assertion := by
  constructor
  · unfold curves
    simp only [if_true, h]
    rfl
  · rfl

end Hist

/-! ### panels of a calibration -/

/-- the panel of `diagnoseCalibration`, channels.py L832-841: number of rows and columns, and the places of the fits, the calibration and the histogram. `i` is left over from the loop. ⌈√m⌉ is exact here. -/
def diagnose (results : Nat) : Except Exc (Nat × List Nat × Nat × Nat) :=
  let n := Nat.sqrt (results + 1) + 1
  match results with
  | 0 => .error .unbound
  | k + 1 => .ok (n, (List.range (k + 1)).map (· + 1), k + 2, k + 3)

theorem ceil_sqrt (m : Nat) : m + 1 ≤ (Nat.sqrt m + 1) ^ 2 ∧ (Nat.sqrt m) ^ 2 < m + 1 := by
  have h1 := Nat.sqrt_le' m
  have h2 := Nat.lt_succ_sqrt' m
  exact ⟨h2, by omega⟩

/-- C171. The figure of a calibration has one panel for each fit, in order, then the calibration and the histogram: all in different places that exist, in the smallest square that has room for them. -/
theorem diagnose_panels {results : Nat} (h : 0 < results) :
    ∃ n fits cal hist, diagnose results = .ok (n, fits, cal, hist) ∧ fits.length = results ∧ (fits ++ [cal, hist]).Pairwise (· < ·) ∧ (∀ p ∈ fits ++ [cal, hist], 1 ≤ p ∧ p ≤ n ^ 2) ∧
      ∀ m, results + 2 ≤ m ^ 2 → n ≤ m := by
  obtain ⟨k, rfl⟩ : ∃ k, results = k + 1 := ⟨results - 1, by omega⟩
  obtain ⟨h1, h2⟩ := ceil_sqrt (k + 1 + 1)
  have he : (List.range (k + 1)).map (· + 1) ++ [k + 2, k + 3] = (List.range (k + 3)).map (· + 1) := by
    rw [List.range_succ (n := k + 2), List.range_succ (n := k + 1), List.map_append, List.map_append]
    simp
  refine ⟨_, _, _, _, rfl, by simp, ?_, ?_, ?_⟩
  · rw [he, List.pairwise_map]
    exact List.pairwise_lt_range.imp (fun h => by omega)
  · rw [he]
    intro p hp
    obtain ⟨s, hs, rfl⟩ := List.mem_map.1 hp
    have := List.mem_range.1 hs
    exact ⟨by omega, by omega⟩
  · intro m hm
    by_contra hc
    have : m ≤ Nat.sqrt (k + 1 + 1) := by omega
    have := Nat.pow_le_pow_left this 2
    omega

/-- Disagreement (C171): a calibration without fits (an empty plan) cannot be shown: UnboundLocalError. -/
theorem diagnose_empty_fails : diagnose 0 = .error .unbound := rfl

/-! ### the fits of all channels -/

section Results
variable {K : Type} [Field K] [LinearOrder K]

/-- what is used of a fit: resolution, position, and the peak energy of its line (used for channels.py L1367-1395) -/
structure FitR (K : Type) where
  fwhm : K
  pos : K
  db : K
deriving DecidableEq

/-- what `resultPlot` shows (channels.py L1376-1398): resolutions, positions, their medians, the peak energy, and the points of the last panel -/
structure ResFig (K : Type) where
  res : List K
  pos : List K
  medRes : K
  medPos : K
  db : K
  points : List (Nat × K)
deriving DecidableEq

/-- `resultPlot`, channels.py L1367-1399: `chans` are the good channels with their fits, `all` the fit to all of them. Error bars are left out. -/
def resultPlot (chans : List (Nat × Except Exc (FitR K))) (all : Except Exc (FitR K)) : Except Exc (ResFig K) :=
  match chans.mapM Prod.snd with
  | .error e => .error e
  | .ok rs =>
    match all with
    | .error e => .error e
    | .ok r =>
      let ps := rs.map FitR.pos
      .ok ⟨rs.map FitR.fwhm, ps, FirstN.median (rs.map FitR.fwhm), FirstN.median ps, r.db, (List.range ps.length).zip ps⟩

/-- C171. The figure shows resolution and position of each good channel once, in order, with their medians and the energy of the line; a fit that raises ends it. -/
theorem result_spec (chans : List (Nat × Except Exc (FitR K))) (all : Except Exc (FitR K)) :
    (∀ (rs : List (FitR K)) (r : FitR K), chans.map Prod.snd = rs.map Except.ok → all = .ok r → ∃ fig, resultPlot chans all = .ok fig ∧ fig.res = rs.map FitR.fwhm ∧ fig.pos = rs.map FitR.pos ∧
      fig.medRes = FirstN.median (rs.map FitR.fwhm) ∧ fig.medPos = FirstN.median (rs.map FitR.pos) ∧ fig.db = r.db ∧ fig.points.map Prod.snd = rs.map FitR.pos) ∧
    ((∃ x ∈ chans, ∃ e, x.2 = .error e) → ∃ e, resultPlot chans all = .error e) := by
  have hm : ∀ (cs : List (Nat × Except Exc (FitR K))) (rs : List (FitR K)), cs.map Prod.snd = rs.map Except.ok → cs.mapM Prod.snd = .ok rs := by
    intro cs
    induction cs with
    | nil =>
      intro rs h
      cases rs with
      | nil => rfl
      | cons a t => simp at h
    | cons c cs ih =>
      intro rs h
      cases rs with
      | nil => simp at h
      | cons a t =>
        simp only [List.map_cons, List.cons.injEq] at h
        rw [List.mapM_cons, h.1, ih t h.2]
        rfl
  have he : ∀ (cs : List (Nat × Except Exc (FitR K))), (∃ x ∈ cs, ∃ e, x.2 = .error e) → ∃ e, cs.mapM Prod.snd = .error e := by
    intro cs
    induction cs with
    | nil => rintro ⟨x, hx, _⟩; cases hx
    | cons c cs ih =>
      rintro ⟨x, hx, e, he⟩
      rw [List.mapM_cons]
      cases hc : c.2 with
      | error e' => exact ⟨e', rfl⟩
      | ok v =>
        rcases List.mem_cons.1 hx with rfl | hx
        · rw [he] at hc; cases hc
        · obtain ⟨e', h'⟩ := ih ⟨x, hx, e, he⟩
          rw [h']
          exact ⟨e', rfl⟩
  constructor
  · rintro rs r h rfl
    unfold resultPlot
    rw [hm chans rs h]
    refine ⟨_, rfl, rfl, rfl, rfl, rfl, rfl, ?_⟩
    dsimp only
    rw [List.map_snd_zip]
    simp
  · intro h
    obtain ⟨e, h'⟩ := he chans h
    unfold resultPlot
    rw [h']
    exact ⟨e, rfl⟩

/-- Disagreement (C171): the axis called channel number shows 0, 1, 2, … instead of the numbers of the channels. -/
theorem result_axis_fails (chans : List (Nat × Except Exc (FitR K))) (all : Except Exc (FitR K)) {fig : ResFig K} (h : resultPlot chans all = .ok fig) (n : Nat) (c : Except Exc (FitR K)) (t : List (Nat × Except Exc (FitR K)))
    (hc : chans = (n, c) :: t) (hn : n ≠ 0) : fig.points.map Prod.fst ≠ chans.map Prod.fst ∧ fig.points.map Prod.fst = List.range chans.length := by
  have hl : ∀ (cs : List (Nat × Except Exc (FitR K))) (rs : List (FitR K)), cs.mapM Prod.snd = .ok rs → rs.length = cs.length := by
    intro cs
    induction cs with
    | nil =>
      intro rs h
      have h := (Except.ok.inj h).symm
      subst h
      rfl
    | cons c cs ih =>
      intro rs h
      rw [List.mapM_cons] at h
      cases hc : c.2 with
      | error e => rw [hc] at h; cases h
      | ok v =>
        rw [hc] at h
        cases ht : cs.mapM Prod.snd with
        | error e => rw [ht] at h; cases h
        | ok t =>
          rw [ht] at h
          have h := (Except.ok.inj h).symm
          subst h
          simp [ih t ht]
  unfold resultPlot at h
  cases hm : chans.mapM Prod.snd with
  | error e => rw [hm] at h; cases h
  | ok rs =>
    rw [hm] at h
    cases all with
    | error e => cases h
    | ok r =>
      have h := (Except.ok.inj h).symm
      subst h
      have : ((List.range (rs.map FitR.pos).length).zip (rs.map FitR.pos)).map Prod.fst = List.range chans.length := by
        rw [List.map_fst_zip (by simp), List.length_map, hl chans rs hm]
      refine ⟨?_, this⟩
      rw [this, hc]
      intro hh
      simp only [List.map_cons, List.length_cons, List.range_succ_eq_map, List.cons.injEq] at hh
      exact hn hh.1.symm

end Results

/-! ### labels of peaks -/

section Peaks
variable {K : Type} [Field K] [LinearOrder K] [IsStrictOrderedRing K]

/-- `np.interp(x, xs, ys, left=0, right=0)` for increasing xs (used for mass/off/util.py L287-288); no points are a ValueError, here 0 -/
def interp0 : List (K × K) → K → K
  | [], _ => 0
  | [p], x => if x = p.1 then p.2 else 0
  | p :: q :: t, x => if x < p.1 then 0 else if x < q.1 then p.2 + (q.2 - p.2) / (q.1 - p.1) * (x - p.1) else interp0 (q :: t) x

/-- the offsets `np.linspace(-1, 1, 10) * deltaELocalMaximum`, mass/off/util.py L288 -/
def offsets (delta : K) : List K := (List.range 10).map (fun k : Nat => (-1 + 2 * (k : K) / 9) * delta)

/-- the axes a label is drawn in, and its height: `labelPeak`, mass/off/util.py L282-290. `axis` is the one given, `current` the current one. -/
def labelPeak (_axis current : Nat) (curve : List (K × K)) (energy delta : K) : Nat × K :=
  let ys := (offsets delta).map (fun d => interp0 curve (energy + d))
  (current, (ys.tail.foldl max (ys.headD 0)))

theorem foldl_max_mem (l : List K) (a : K) : l.foldl max a ∈ a :: l ∧ ∀ x ∈ a :: l, x ≤ l.foldl max a := by
  induction l generalizing a with
  | nil => simp
  | cons b l ih =>
    obtain ⟨h1, h2⟩ := ih (max a b)
    rw [List.foldl_cons]
    constructor
    · rcases List.mem_cons.1 h1 with h | h
      · rw [h]
        rcases max_choice a b with hm | hm <;> simp [hm]
      · exact List.mem_cons_of_mem _ (List.mem_cons_of_mem _ h)
    · intro x hx
      have h3 := h2 (max a b) List.mem_cons_self
      rcases List.mem_cons.1 hx with rfl | hx
      · exact (le_max_left _ _).trans h3
      rcases List.mem_cons.1 hx with rfl | hx
      · exact (le_max_right _ _).trans h3
      · exact h2 x (List.mem_cons_of_mem _ hx)

theorem interp0_le (B : K) (hB : 0 ≤ B) : ∀ (l : List (K × K)), l.Pairwise (fun p q => p.1 < q.1) → (∀ p ∈ l, p.2 ≤ B) → ∀ x, interp0 l x ≤ B
  | [], _, _, _ => hB
  | [p], _, h, x => by
    unfold interp0
    split
    · exact h p List.mem_cons_self
    · exact hB
  | p :: q :: t, hp, h, x => by
    rw [interp0]
    split
    · exact hB
    · rename_i h1
      split
      · rename_i h2
        have hpq : p.1 < q.1 := (List.pairwise_cons.1 hp).1 q List.mem_cons_self
        have hd : 0 < q.1 - p.1 := sub_pos.2 hpq
        have ha := h p List.mem_cons_self
        have hb := h q (List.mem_cons_of_mem _ List.mem_cons_self)
        have h0 : 0 ≤ (x - p.1) / (q.1 - p.1) := div_nonneg (by linarith) hd.le
        have h3 : (x - p.1) / (q.1 - p.1) ≤ 1 := (div_le_one hd).2 (by linarith)
        have : p.2 + (q.2 - p.2) / (q.1 - p.1) * (x - p.1) = p.2 * (1 - (x - p.1) / (q.1 - p.1)) + q.2 * ((x - p.1) / (q.1 - p.1)) := by ring
        rw [this]
        nlinarith [mul_le_mul_of_nonneg_right ha (by linarith : 0 ≤ 1 - (x - p.1) / (q.1 - p.1)), mul_le_mul_of_nonneg_right hb h0]
      · exact interp0_le B hB (q :: t) (List.pairwise_cons.1 hp).2 (fun r hr => h r (List.mem_cons_of_mem _ hr)) x

/-- C171. The label of a peak stands at the height of the curve somewhere within deltaELocalMaximum of the energy, as high as the curve is at both ends of that range, and no higher than the highest point of the curve. -/
theorem label_height (axis current : Nat) (curve : List (K × K)) (energy : K) {delta : K} (hd : 0 ≤ delta) :
    (∃ d, |d| ≤ delta ∧ (labelPeak axis current curve energy delta).2 = interp0 curve (energy + d)) ∧
      interp0 curve (energy - delta) ≤ (labelPeak axis current curve energy delta).2 ∧ interp0 curve (energy + delta) ≤ (labelPeak axis current curve energy delta).2 ∧
      ∀ B, 0 ≤ B → curve.Pairwise (fun p q => p.1 < q.1) → (∀ p ∈ curve, p.2 ≤ B) → (labelPeak axis current curve energy delta).2 ≤ B := by
  obtain ⟨h1, h2⟩ := foldl_max_mem (((offsets delta).map (fun d => interp0 curve (energy + d))).tail) (((offsets delta).map (fun d => interp0 curve (energy + d))).headD 0)
  have hsplit : (((offsets delta).map (fun d => interp0 curve (energy + d))).headD 0) :: (((offsets delta).map (fun d => interp0 curve (energy + d))).tail) = (offsets delta).map (fun d => interp0 curve (energy + d)) := rfl
  rw [hsplit] at h1 h2
  obtain ⟨d, hmem, hde⟩ := List.mem_map.1 h1
  have hw : ∀ d ∈ offsets delta, |d| ≤ delta := by
    intro d hd'
    obtain ⟨k, hk, rfl⟩ := List.mem_map.1 hd'
    have hk := List.mem_range.1 hk
    have hk9 : (k : K) ≤ 9 := by exact_mod_cast (by omega : k ≤ 9)
    have hk0 : (0 : K) ≤ k := Nat.cast_nonneg k
    rw [abs_mul, abs_of_nonneg hd]
    have : |(-1 : K) + 2 * (k : K) / 9| ≤ 1 := by
      rw [abs_le]
      constructor <;> linarith
    exact mul_le_of_le_one_left hd this
  have h0 : -delta ∈ offsets delta := List.mem_map.2 ⟨0, by simp, by push_cast; ring⟩
  have h9 : delta ∈ offsets delta := List.mem_map.2 ⟨9, by simp, by push_cast; ring⟩
  refine ⟨⟨d, hw d hmem, hde.symm⟩, ?_, ?_, ?_⟩
  · exact h2 _ (List.mem_map.2 ⟨-delta, h0, by rw [sub_eq_add_neg]⟩)
  · exact h2 _ (List.mem_map.2 ⟨delta, h9, rfl⟩)
  · intro B hB hp hB'
    have : (labelPeak axis current curve energy delta).2 = interp0 curve (energy + d) := hde.symm
    rw [this]
    exact interp0_le B hB curve hp hB' _

/-- Disagreement (C171): the height is not that of the local maximum: the ten places looked at leave out the energy itself, so the label of a peak of any height that is narrower than a fifth of deltaELocalMaximum stands at zero. -/
theorem label_misses_fails (axis current : Nat) (energy h delta : K) (hd : 0 < delta) :
    (labelPeak axis current [(energy - delta / 10, 0), (energy, h), (energy + delta / 10, 0)] energy delta).2 = 0 ∧ interp0 [(energy - delta / 10, 0), (energy, h), (energy + delta / 10, 0)] energy = h := by
  constructor
  · obtain ⟨d, hd', hde⟩ : ∃ d ∈ offsets delta, (labelPeak axis current [(energy - delta / 10, 0), (energy, h), (energy + delta / 10, 0)] energy delta).2 =
        interp0 [(energy - delta / 10, 0), (energy, h), (energy + delta / 10, 0)] (energy + d) := by
      obtain ⟨h1, _⟩ := foldl_max_mem (((offsets delta).map (fun d => interp0 [(energy - delta / 10, 0), (energy, h), (energy + delta / 10, 0)] (energy + d))).tail)
        (((offsets delta).map (fun d => interp0 [(energy - delta / 10, 0), (energy, h), (energy + delta / 10, 0)] (energy + d))).headD 0)
      have h2 : (labelPeak axis current [(energy - delta / 10, 0), (energy, h), (energy + delta / 10, 0)] energy delta).2 ∈
          (offsets delta).map (fun d => interp0 [(energy - delta / 10, 0), (energy, h), (energy + delta / 10, 0)] (energy + d)) := h1
      obtain ⟨d, hm, he⟩ := List.mem_map.1 h2
      exact ⟨d, hm, he.symm⟩
    rw [hde]
    obtain ⟨k, hk, rfl⟩ := List.mem_map.1 hd'
    have hk := List.mem_range.1 hk
    have hor : (k : K) ≤ 4 ∨ (5 : K) ≤ k := by
      rcases Nat.lt_or_ge k 5 with hk5 | hk5
      · left; exact_mod_cast (by omega : k ≤ 4)
      · right; exact_mod_cast hk5
    simp only [interp0]
    rcases hor with hk4 | hk5
    · rw [if_pos]
      have : (-1 + 2 * (k : K) / 9) * delta ≤ (-1 / 9) * delta := mul_le_mul_of_nonneg_right (by linarith) hd.le
      linarith
    · have : (1 / 9) * delta ≤ (-1 + 2 * (k : K) / 9) * delta := mul_le_mul_of_nonneg_right (by linarith) hd.le
      rw [if_neg (by linarith), if_neg (by linarith), if_neg (by linarith), if_neg (by linarith), if_neg]
      intro hc
      linarith
  · simp only [interp0]
    rw [if_neg (by linarith), if_neg (lt_irrefl _), if_neg (lt_irrefl _), if_pos (by linarith)]
    ring

/-- Disagreement (C171): the label of a peak is drawn in the current axes, not in those given. -/
theorem label_axis_fails (axis current : Nat) (hne : axis ≠ current) (curve : List (K × K)) (energy delta : K) : (labelPeak axis current curve energy delta).1 = current ∧ (labelPeak axis current curve energy delta).1 ≠ axis :=
  ⟨rfl, fun h => hne h.symm⟩

end Peaks

/-! ### labels of lines on a logarithmic scale -/

/-- the height of label `i` of `n` in a plot with logarithmic scale and upper limit `top`, mass/off/util.py L312-314, L320-322; mass/core/utilities.py L187-188, L195-196. `top` is that of the current axes. -/
noncomputable def logHeight (n i : Nat) (top : ℝ) : ℝ := Real.exp ((1 + i) * Real.log top / (15 / 10 * n))

/-- C171. If the upper limit is above 1 labels of lines in a logarithmic plot rise by equal factors, stand between 1 and the upper limit, and the last at two thirds of the way on the scale from 1. -/
theorem log_heights {n : Nat} (hn : 0 < n) {top : ℝ} (ht : 1 < top) :
    (∀ i, 1 < logHeight n i top) ∧ (∀ i, i < n → logHeight n i top < top) ∧ (∀ i, logHeight n (i + 1) top = logHeight n i top * logHeight n 0 top) ∧
      Real.log (logHeight n (n - 1) top) = 2 / 3 * Real.log top := by
  have hl := Real.log_pos ht
  have hq : (0 : ℝ) < n := by exact_mod_cast hn
  refine ⟨fun i => ?_, fun i hi => ?_, fun i => ?_, ?_⟩
  · unfold logHeight
    rw [Real.one_lt_exp_iff]
    positivity
  · unfold logHeight
    rw [← Real.lt_log_iff_exp_lt (by linarith), div_lt_iff₀ (by positivity), mul_comm (Real.log top)]
    have : (1 + i : ℝ) ≤ n := by exact_mod_cast (by omega : 1 + i ≤ n)
    exact mul_lt_mul_of_pos_right (by linarith) hl
  · unfold logHeight
    rw [← Real.exp_add]
    congr 1
    push_cast
    ring
  · unfold logHeight
    rw [Real.log_exp]
    have : (1 + ((n - 1 : Nat) : ℝ)) = n := by
      rw [Nat.cast_sub hn]
      push_cast
      ring
    rw [this]
    field_simp
    ring

/-- Disagreement (C171): if the upper limit is below 1 (a logarithmic plot of a density) all labels stand above it, outside of the plot; and if the lower limit is above the first label, that one stands below it. -/
theorem log_outside_fails {n : Nat} (hn : 0 < n) (i : Nat) (hi : i < n) {top : ℝ} (h0 : 0 < top) (ht : top < 1) : top < logHeight n i top ∧ ∃ low, low < 8 ∧ logHeight 3 0 8 < low := by
  have hl := Real.log_neg h0 ht
  have hq : (0 : ℝ) < n := by exact_mod_cast hn
  constructor
  · unfold logHeight
    rw [← Real.log_lt_iff_lt_exp h0, lt_div_iff₀ (by positivity), mul_comm (Real.log top)]
    have : (1 + i : ℝ) ≤ n := by exact_mod_cast (by omega : 1 + i ≤ n)
    exact mul_lt_mul_of_neg_right (by linarith) hl
  · have := (log_heights (n := 3) (by norm_num) (top := 8) (by norm_num)).2.1 0 (by norm_num)
    exact ⟨(logHeight 3 0 8 + 8) / 2, by linarith, by linarith⟩

/-! ### instance -/

example : fitLabels (K := ℚ) (fun _ => tx "0.5") (tx "run1 chan3") (tx "MnKAlpha") (tx "filtValue") (tx "cutNone") true true (.list [tx "A", tx "B"]) (1 / 2) =
    .ok (some (tx "run1 chan3: MnKAlpha"), some (tx "filtValue with cal (eV)"), some (tx "counts per 0.5 eV bin\nstates=A, B: cutNone")) := by decide +kernel
example : curves [tx "A", tx "B"] (fun | .one s => .ok s.length | .list l => .ok (10 * l.length) | _ => .error .type) .none false = .ok [(tx "A", 1), (tx "B", 1)] := by decide +kernel
example : curves [] (fun _ => .ok 1) (.one (tx "START")) true = .ok [(tx "S, T, A, R, T", 1)] := by decide +kernel
example : diagnose 5 = .ok (3, [1, 2, 3, 4, 5], 6, 7) := by decide +kernel
example : (labelPeak (K := ℚ) 1 1 [(90, 0), (100, 60), (110, 0)] 100 9).2 = 54 := by decide +kernel
example : resultPlot (K := ℚ) [(3, .ok ⟨2, 10, 11⟩)] (.ok ⟨3, 11, 11⟩) = .ok ⟨[2], [10], FirstN.median [2], FirstN.median [10], 11, [(0, 10)]⟩ := rfl

end Mass.Line.Figs
