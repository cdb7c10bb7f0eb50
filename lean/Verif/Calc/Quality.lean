import Verif.Calc.StdDevCut
/-! C114: fits of a line to a channel and quality checks of channels (mass/off/channels.py L113-191, L730-757, L800-817, L1327-1360). -/
namespace Mass.Calc.Quality
open Mass Mass.Stat
set_option linter.unusedSectionVars false

variable {K : Type} [Field K] [LinearOrder K] [IsStrictOrderedRing K] [FloorRing K] {H : Type}

/-! ### model -/

/-- what is used of a fit result (channels.py L741-743, L1339-1358): success and the parameters; an error bar can be missing. The peak energy of the fitted line. -/
structure FitR (K : Type) where
  success : Bool
  pos : K
  stderr : Option K
  fwhm : K
  params : List (String × K × Option K)
deriving DecidableEq

/-- the parts of `linefit` that are arbitrary here: the peak energy of the model's line (channels.py L138, L144), the histogram of an attribute with a cut, with or without
the calibration given (L152), guess and fit of the counts (L156, L167) -/
structure World (K H : Type) where
  peak : K
  hist : List K → String → String → Bool → Except Exc H
  fit : H → Except Exc (FitR K)

/-- arguments of `linefit` (channels.py L113-117) that are used; `cal`: a calibration is given. Line and states are part of the `World`. -/
structure Args (K : Type) where
  attr : String
  dlo : K
  dhi : K
  binsize : Option K
  edges : Option (List K)
  label : Option String
  plot : Bool
  paramsFixed : Option String
  cut : Option String
  cal : Bool
  requireErrorbars : Bool

/-- default settings of a channel or group: cut (channels.py L228-232) and bin size (L181-191) -/
structure Defaults (K : Type) where
  cut : String
  binsize : K

/-- result of `linefit`: fit, cut shown in its label hints, whether there was a plot (channels.py L175-179) -/
structure Out (K : Type) where
  fit : FitR K
  cut : String
  plotted : Bool
deriving DecidableEq

/-- `np.arange(lo, hi, step)` for a positive step, used in channels.py L145 -/
def arange (lo hi step : K) : List K := (List.range ⌈(hi - lo) / step⌉₊).map (fun i : Nat => lo + (i : K) * step)

/-- channels.py L141 -/
def attrIsEnergy (attr : String) (cal : Bool) : Bool := "energy".toList.isPrefixOf attr.toList || "p_energy".toList.isPrefixOf attr.toList || cal

/-- channels.py L142-149: the bin edges. The bin size is taken to be positive. -/
def binEdges (w : World K H) (d : Defaults K) (a : Args K) : Except Exc (List K) :=
  match a.edges with
  | some e => .ok e
  | none => if attrIsEnergy a.attr a.cal then .ok (arange (w.peak - a.dlo) (w.peak + a.dhi) (a.binsize.getD d.binsize)) else .error .exception

/-- channels.py L138-179 `linefit`. `params` is assigned only for energies (L155-158), so that L165 raises otherwise; L175 needs two bins. -/
def linefit (w : World K H) (d : Defaults K) (a : Args K) : Except Exc (Out K) :=
  let cut := a.cut.getD d.cut
  match binEdges w d a with
  | .error e => .error e
  | .ok edges =>
    match w.hist edges a.attr cut a.cal with
    | .error e => .error e
    | .ok h =>
      if !attrIsEnergy a.attr a.cal then .error .unbound
      else
        match w.fit h with
        | .error e => .error e
        | .ok f => if edges.length ≤ 2 then .error .index else .ok ⟨f, cut, a.plot⟩

/-- arguments of `qualityCheckLinefit` (channels.py L731-734) -/
structure QArgs (K : Type) where
  tolSigma : Option K
  worst : Option K
  tolAbs : Option K
  attr : String
  dlo : K
  dhi : K
  binsize : Option K
  edges : Option (List K)
  guess : Option String
  cut : Option String
  hold : Option String

/-- channels.py L739-740: the call of `linefit`, by position: the ninth argument is `label`, the tenth `plot`, the eleventh `params_fixed` -/
def callLinefit (q : QArgs K) : Args K :=
  { attr := q.attr, dlo := q.dlo, dhi := q.dhi, binsize := q.binsize, edges := q.edges, label := q.guess, plot := (match q.cut with | some c => c != "" | none => false),
    paramsFixed := q.hold, cut := none, cal := false, requireErrorbars := true }

/-- channels.py L744-752: the tolerance, `none` for infinity -/
def tolerance (q : QArgs K) (stderr : Option K) : Except Exc (Option K) :=
  match q.tolAbs, q.tolSigma with
  | some _, some _ => .error .exception
  | some a, none => .ok (some a)
  | none, some s =>
    match stderr with
    | some e => .ok (some (e * s))
    | none => .error .type
  | none, none => .ok none

/-- channels.py L739-757 `qualityCheckLinefit`: whether the channel is bad then, and the result -/
def qualityCheck (w : World K H) (d : Defaults K) (q : QArgs K) (bad : Bool) : Bool × Except Exc (Out K) :=
  match linefit w d (callLinefit q) with
  | .error e => (bad, .error e)
  | .ok r =>
    match tolerance q r.fit.stderr with
    | .error e => (bad, .error e)
    | .ok tol =>
      let far := match tol with
        | some t => decide (t < |r.fit.pos - w.peak|)
        | none => false
      let wide := match q.worst with
        | some x => decide (x < r.fit.fwhm)
        | none => false
      (bad || far || wide, .ok r)

/-- `np.amax(np.abs(errors))`, channels.py L804 -/
def maxAbs (errs : List K) : Option K :=
  match errs.map (fun e => |e|) with
  | [] => none
  | x :: t => some (t.foldl max x)

/-- channels.py L801-817 `qualityCheckDropOneErrors` for the errors of the calibration: whether the channel is bad then. Multiplying a number and None is a TypeError. -/
def dropOne (errs : List K) (thrAbs thrSigma : Option K) (bad : Bool) : Bool × Except Exc Unit :=
  match maxAbs errs with
  | none => (bad, .error .value)
  | some m =>
    let sigma := (14826 / 10000) * FirstN.median (errs.map (fun e => |e|))
    match thrAbs with
    | none => (bad, .ok ())
    | some a =>
      match thrSigma with
      | none => (bad, .error .type)
      | some s =>
        let bad := if sigma * s < m then true else bad
        (if a < m then true else bad, .ok ())

/-- a channel of a group: number and whether it is marked bad (channels.py L1204-1209, L689) -/
structure Chan where
  num : Nat
  bad : Bool
deriving DecidableEq

/-- util.py L247-256: the loop over the good channels, outside of tests; `m` is the method of the channel: whether it marks it bad, and its result -/
def groupLoop {R : Type} (m : Nat → Bool × Except Exc R) : List Chan → List Chan × List (Nat × R)
  | [] => ([], [])
  | c :: t =>
    let r := groupLoop m t
    if c.bad then (c :: r.1, r.2)
    else
      match m c.num with
      | (b, .ok z) => (⟨c.num, b⟩ :: r.1, (c.num, z) :: r.2)
      | (_, .error _) => (⟨c.num, true⟩ :: r.1, r.2)

/-- what is written for a channel: that it is bad (channels.py L1353), or values and errors of the parameters (L1356-1358) -/
inductive Entry (K : Type) where
  | markedBad : Entry K
  | params : List (String × K × K) → Entry K
deriving DecidableEq

/-- channels.py L1356-1358: None cannot be written -/
def writeParams : List (String × K × Option K) → Option (List (String × K × K))
  | [] => some []
  | (n, v, some e) :: t => (writeParams t).map (fun l => (n, v, e) :: l)
  | (_, _, none) :: _ => none

/-- channels.py L1350-1359: the loop over all channels, with what is complete in the file -/
def writeAll (results : List (Nat × Out K)) : List Chan → List (Nat × Entry K) → List (Nat × Entry K) × Except Exc Unit
  | [], file => (file, .ok ())
  | c :: t, file =>
    if c.bad then writeAll results t (file ++ [(c.num, .markedBad)])
    else
      match results.find? (fun r => r.1 == c.num) with
      | none => (file, .error .key)
      | some r =>
        match writeParams r.2.fit.params with
        | none => (file, .error .type)
        | some l => writeAll results t (file ++ [(c.num, .params l)])

/-- what the group's method leaves: the channels, the file, and the result -/
structure GroupOut (K : Type) where
  chans : List Chan
  file : List (Nat × Entry K)
  res : Except Exc (List (Nat × Out K))

/-- channels.py L1336-1360 `ChannelGroup.qualityCheckLinefit`, with the method of each channel; `np.amax` of nothing raises at L1344 -/
def groupCheck (m : Nat → Bool × Except Exc (Out K)) (resolutionPlot hdf5 : Bool) (chans : List Chan) : GroupOut K :=
  let l := groupLoop m chans
  if resolutionPlot && (l.2.filter (fun r => r.2.fit.success)).isEmpty then ⟨l.1, [], .error .value⟩
  else if hdf5 then
    match writeAll l.2 l.1 [] with
    | (file, .error e) => ⟨l.1, file, .error e⟩
    | (file, .ok _) => ⟨l.1, file, .ok l.2⟩
  else ⟨l.1, [], .ok l.2⟩

/-! ### fits -/

/-- an attribute that is an energy by its name, or with a calibration [specification] -/
def Energy (attr : String) (cal : Bool) : Prop := (∃ r, attr.toList = ['e', 'n', 'e', 'r', 'g', 'y'] ++ r) ∨ (∃ r, attr.toList = ['p', '_', 'e', 'n', 'e', 'r', 'g', 'y'] ++ r) ∨ cal = true

theorem attrIsEnergy_iff (attr : String) (cal : Bool) : attrIsEnergy attr cal = true ↔ Energy attr cal := by
  have h1 : "energy".toList = ['e', 'n', 'e', 'r', 'g', 'y'] := by decide
  have h2 : "p_energy".toList = ['p', '_', 'e', 'n', 'e', 'r', 'g', 'y'] := by decide
  unfold attrIsEnergy Energy
  rw [h1, h2]
  simp only [Bool.or_eq_true, List.isPrefixOf_iff_prefix, or_assoc]
  constructor
  · rintro (⟨r, h⟩ | ⟨r, h⟩ | h)
    · exact Or.inl ⟨r, h.symm⟩
    · exact Or.inr (Or.inl ⟨r, h.symm⟩)
    · exact Or.inr (Or.inr h)
  · rintro (⟨r, h⟩ | ⟨r, h⟩ | h)
    · exact Or.inl ⟨r, h.symm⟩
    · exact Or.inr (Or.inl ⟨r, h.symm⟩)
    · exact Or.inr (Or.inr h)


/-- C114. By default the bins begin `dlo` below the peak energy, are all of the size wanted, and end less than a bin from `dhi` above it. -/
theorem bins_spec {w : World K H} {d : Defaults K} {a : Args K} (he : a.edges = none) (ha' : Energy a.attr a.cal) {b : K} (hb : a.binsize.getD d.binsize = b) (h0 : 0 < b)
    (hpos : 0 < a.dlo + a.dhi) :
    ∃ e, binEdges w d a = .ok e ∧ e.head? = some (w.peak - a.dlo) ∧ (∀ i x y, e[i]? = some x → e[i + 1]? = some y → y - x = b) ∧
      ∀ last, e.getLast? = some last → last < w.peak + a.dhi ∧ w.peak + a.dhi ≤ last + b := by
  have ha := (attrIsEnergy_iff _ _).2 ha'
  have hn : 0 < ⌈(w.peak + a.dhi - (w.peak - a.dlo)) / b⌉₊ := Nat.ceil_pos.2 (by
    have : w.peak + a.dhi - (w.peak - a.dlo) = a.dlo + a.dhi := by ring
    rw [this]
    exact div_pos hpos h0)
  refine ⟨arange (w.peak - a.dlo) (w.peak + a.dhi) b, ?_, ?_, ?_, ?_⟩
  · unfold binEdges
    rw [he, hb]
    simp [ha]
  · unfold arange
    obtain ⟨n, hn'⟩ := Nat.exists_eq_succ_of_ne_zero hn.ne'
    rw [hn', List.range_succ_eq_map]
    simp
  · intro i x y hx hy
    unfold arange at hx hy
    rw [List.getElem?_map] at hx hy
    obtain ⟨j, hj, rfl⟩ := Option.map_eq_some_iff.mp hx
    obtain ⟨j', hj', rfl⟩ := Option.map_eq_some_iff.mp hy
    have e1 : j = i := by
      obtain ⟨hlt, rfl⟩ := List.getElem?_eq_some_iff.mp hj
      simp
    have e2 : j' = i + 1 := by
      obtain ⟨hlt, rfl⟩ := List.getElem?_eq_some_iff.mp hj'
      simp
    rw [e1, e2]
    push_cast
    ring
  · intro last hl
    unfold arange at hl
    obtain ⟨n, hn'⟩ := Nat.exists_eq_succ_of_ne_zero hn.ne'
    rw [hn', Nat.succ_eq_add_one, List.range_succ, List.map_append] at hl
    simp only [List.map_cons, List.map_nil, List.getLast?_append, List.getLast?_singleton, Option.some_or, Option.some.injEq] at hl
    subst hl
    have h1 : (n : K) < (w.peak + a.dhi - (w.peak - a.dlo)) / b := Nat.lt_ceil.1 (by omega)
    have h2 : (w.peak + a.dhi - (w.peak - a.dlo)) / b ≤ (n + 1 : ℕ) := Nat.ceil_le.1 (by omega)
    rw [lt_div_iff₀ h0] at h1
    rw [div_le_iff₀ h0] at h2
    push_cast at h2
    constructor
    · linarith
    · linarith

/-- C114. A fit that succeeds used the cut named, or the default cut, with the bins as above. -/
theorem linefit_spec {w : World K H} {d : Defaults K} {a : Args K} {o : Out K} (h : linefit w d a = .ok o) :
    ∃ edges hst, binEdges w d a = .ok edges ∧ w.hist edges a.attr (match a.cut with | some c => c | none => d.cut) a.cal = .ok hst ∧ w.fit hst = .ok o.fit ∧
      o.plotted = a.plot ∧ o.cut = (match a.cut with | some c => c | none => d.cut) := by
  have hcut : a.cut.getD d.cut = (match a.cut with | some c => c | none => d.cut) := by cases a.cut <;> rfl
  unfold linefit at h
  dsimp only at h
  cases he : binEdges w d a with
  | error e => rw [he] at h; cases h
  | ok edges =>
    rw [he] at h
    dsimp only at h
    cases hh : w.hist edges a.attr (a.cut.getD d.cut) a.cal with
    | error e => rw [hh] at h; cases h
    | ok hst =>
      rw [hh] at h
      dsimp only at h
      split at h
      · cases h
      · cases hf : w.fit hst with
        | error e => rw [hf] at h; cases h
        | ok f =>
          rw [hf] at h
          dsimp only at h
          split at h
          · cases h
          · cases h
            exact ⟨edges, hst, rfl, by rw [← hcut]; exact hh, hf, rfl, hcut⟩

/-- C114. Energies, or values with a calibration, can be fitted with every histogram of at least two bins that can be fitted at all. -/
theorem linefit_ok_partial {w : World K H} {d : Defaults K} {a : Args K} (ha' : Energy a.attr a.cal) {edges : List K} (he : binEdges w d a = .ok edges)
    (hl : 3 ≤ edges.length) {hst : H} (hh : w.hist edges a.attr (a.cut.getD d.cut) a.cal = .ok hst) {f : FitR K} (hf : w.fit hst = .ok f) :
    linefit w d a = .ok ⟨f, a.cut.getD d.cut, a.plot⟩ := by
  have ha := (attrIsEnergy_iff _ _).2 ha'
  unfold linefit
  dsimp only
  rw [he]
  dsimp only
  rw [hh]
  dsimp only
  rw [ha, hf]
  simp only [Bool.not_true, Bool.false_eq_true, if_false]
  rw [if_neg (by omega)]

/-- Disagreement (C114): values of any other attribute can never be fitted, though bin edges are given as the documentation demands. -/
theorem other_attr_fails (w : World K H) (d : Defaults K) (a : Args K) (ha' : ¬ Energy a.attr a.cal) :
    (linefit w d a).toOption = none ∧ ∀ edges hst, a.edges = some edges → w.hist edges a.attr (a.cut.getD d.cut) a.cal = .ok hst → linefit w d a = .error .unbound := by
  have ha : attrIsEnergy a.attr a.cal = false := by
    rw [← Bool.not_eq_true, attrIsEnergy_iff]
    exact ha'
  constructor
  · unfold linefit
    dsimp only
    cases binEdges w d a with
    | error e => rfl
    | ok edges =>
      dsimp only
      cases w.hist edges a.attr (a.cut.getD d.cut) a.cal with
      | error e => rfl
      | ok h =>
        dsimp only
        rw [ha]
        rfl
  · intro edges hst he hh
    unfold linefit binEdges
    dsimp only
    rw [he]
    dsimp only
    rw [hh]
    dsimp only
    rw [ha]
    rfl

/-- Disagreement (C114): `require_errorbars` and `params_fixed` have no effect: a fit without error bars is returned all the same. -/
theorem unused_arguments_fails (w : World K H) (d : Defaults K) (a : Args K) (b : Bool) (l p : Option String) :
    linefit w d { a with requireErrorbars := b, label := l, paramsFixed := p } = linefit w d a := rfl

theorem linefit_plot (w : World K H) (d : Defaults K) (a : Args K) (p : Bool) (l f : Option String) :
    linefit w d { a with plot := p, label := l, paramsFixed := f } = (linefit w d a).map (fun o => { o with plotted := p }) := by
  have hb : binEdges w d { a with plot := p, label := l, paramsFixed := f } = binEdges w d a := rfl
  unfold linefit
  rw [hb]
  dsimp only
  cases binEdges w d a with
  | error e => rfl
  | ok edges =>
    dsimp only
    cases w.hist edges a.attr (a.cut.getD d.cut) a.cal with
    | error e => rfl
    | ok hst =>
      dsimp only
      by_cases ha : (!attrIsEnergy a.attr a.cal) = true
      · rw [if_pos ha, if_pos ha]
        rfl
      · rw [if_neg ha, if_neg ha]
        cases w.fit hst with
        | error e => rfl
        | ok f =>
          dsimp only
          by_cases hl : edges.length ≤ 2
          · rw [if_pos hl, if_pos hl]
            rfl
          · rw [if_neg hl, if_neg hl]
            rfl

/-! ### checks of fits -/

/-- C114. A check with at most one tolerance, and error bars if they are needed, marks the channel bad exactly if the position of the fit is further from the peak energy than the
tolerance or the width greater than allowed; it never marks a bad channel good; it returns the fit. -/
theorem check_spec_partial {w : World K H} {d : Defaults K} {q : QArgs K} {bad : Bool} {o : Out K} (hf : linefit w d (callLinefit q) = .ok o)
    (h1 : q.tolAbs = none ∨ q.tolSigma = none) (h2 : q.tolSigma ≠ none → o.fit.stderr ≠ none) :
    (qualityCheck w d q bad).2 = .ok o ∧
    ((qualityCheck w d q bad).1 = true ↔ bad = true ∨ (∃ t, q.tolAbs = some t ∧ t < |o.fit.pos - w.peak|) ∨
      (∃ s e, q.tolSigma = some s ∧ o.fit.stderr = some e ∧ s * e < |o.fit.pos - w.peak|) ∨ ∃ x, q.worst = some x ∧ x < o.fit.fwhm) := by
  unfold qualityCheck
  rw [hf]
  dsimp only
  have hw : ∀ P : Prop, (bad = true ∨ P ∨ ((match q.worst with | some x => decide (x < o.fit.fwhm) | none => false) = true)) ↔
      (bad = true ∨ P ∨ ∃ x, q.worst = some x ∧ x < o.fit.fwhm) := by
    intro P
    cases q.worst <;> simp
  cases ha : q.tolAbs with
  | some a =>
    have hs : q.tolSigma = none := by
      rcases h1 with h | h
      · rw [ha] at h; cases h
      · exact h
    unfold tolerance
    rw [ha, hs]
    dsimp only
    refine ⟨rfl, ?_⟩
    simp only [Bool.or_eq_true, decide_eq_true_eq, or_assoc]
    rw [hw]
    simp
  | none =>
    cases hs : q.tolSigma with
    | none =>
      unfold tolerance
      rw [ha, hs]
      dsimp only
      refine ⟨rfl, ?_⟩
      simp only [Bool.or_eq_true, or_assoc]
      rw [hw]
      simp
    | some s =>
      cases he : o.fit.stderr with
      | none => exact absurd he (h2 (by rw [hs]; simp))
      | some e =>
        unfold tolerance
        rw [ha, hs]
        dsimp only
        refine ⟨rfl, ?_⟩
        simp only [Bool.or_eq_true, decide_eq_true_eq, or_assoc]
        rw [hw]
        simp [mul_comm]

/-- C114. A check that raises leaves the mark of the channel as it was. -/
theorem check_error {w : World K H} {d : Defaults K} {q : QArgs K} {bad : Bool} {e : Exc} (h : (qualityCheck w d q bad).2 = .error e) : (qualityCheck w d q bad).1 = bad := by
  unfold qualityCheck at h ⊢
  cases hf : linefit w d (callLinefit q) with
  | error e => rfl
  | ok r =>
    rw [hf] at h
    dsimp only at h ⊢
    cases ht : tolerance q r.fit.stderr with
    | error e => rfl
    | ok t => rw [ht] at h; cases h

/-- C114. Both tolerances together are refused. -/
theorem both_tolerances {w : World K H} {d : Defaults K} {q : QArgs K} (bad : Bool) {o : Out K} (hf : linefit w d (callLinefit q) = .ok o) (h1 : q.tolAbs ≠ none) (h2 : q.tolSigma ≠ none) :
    qualityCheck w d q bad = (bad, .error .exception) := by
  obtain ⟨a, ha⟩ := Option.ne_none_iff_exists'.mp h1
  obtain ⟨s, hs⟩ := Option.ne_none_iff_exists'.mp h2
  unfold qualityCheck tolerance
  rw [hf, ha, hs]

/-- C114. The check fits the attribute, range and bins given. -/
theorem check_fit {w : World K H} {d : Defaults K} {q : QArgs K} {bad : Bool} {o : Out K} (h : (qualityCheck w d q bad).2 = .ok o) :
    ∃ label plot fixed cut req, linefit w d ⟨q.attr, q.dlo, q.dhi, q.binsize, q.edges, label, plot, fixed, cut, false, req⟩ = .ok o := by
  unfold qualityCheck at h
  cases hf : linefit w d (callLinefit q) with
  | error e => rw [hf] at h; cases h
  | ok r =>
    rw [hf] at h
    dsimp only at h
    cases ht : tolerance q r.fit.stderr with
    | error e => rw [ht] at h; cases h
    | ok t =>
      rw [ht] at h
      cases h
      exact ⟨_, _, _, _, _, hf⟩

/-- C114. A tolerance in error bars is refused for a fit without error bar. -/
theorem check_no_errorbar {w : World K H} {d : Defaults K} {q : QArgs K} (bad : Bool) {o : Out K} (hf : linefit w d (callLinefit q) = .ok o) (h1 : q.tolAbs = none) (h2 : q.tolSigma ≠ none)
    (h3 : o.fit.stderr = none) : qualityCheck w d q bad = (bad, .error .type) := by
  obtain ⟨s, hs⟩ := Option.ne_none_iff_exists'.mp h2
  unfold qualityCheck tolerance
  rw [hf, h1, hs]
  dsimp only
  rw [h3]

/-- Disagreement (C114): the cut named for the check, the guess and the values to hold are not used: the fit is made with the default cut. A cut named gives a plot instead. -/
theorem cut_ignored_fails (w : World K H) (d : Defaults K) (q : QArgs K) (c g h : Option String) (bad : Bool) :
    (qualityCheck w d { q with cut := c, guess := g, hold := h } bad).1 = (qualityCheck w d q bad).1 ∧
    (qualityCheck w d { q with cut := c, guess := g, hold := h } bad).2.map (fun o => (o.fit, o.cut)) = (qualityCheck w d q bad).2.map (fun o => (o.fit, o.cut)) ∧
    ∀ o, (qualityCheck w d { q with cut := c, guess := g, hold := h } bad).2 = .ok o → o.cut = d.cut ∧ (o.plotted = true ↔ ∃ s, c = some s ∧ s ≠ "") := by
  have key : (linefit w d (callLinefit { q with cut := c, guess := g, hold := h })) =
      (linefit w d (callLinefit q)).map (fun o => { o with plotted := (match c with | some c => c != "" | none => false) }) :=
    linefit_plot w d (callLinefit q) _ _ _
  have ht : ∀ e, tolerance { q with cut := c, guess := g, hold := h } e = tolerance q e := fun _ => rfl
  unfold qualityCheck
  rw [key]
  cases hl : linefit w d (callLinefit q) with
  | error e => exact ⟨rfl, rfl, fun o ho => by cases ho⟩
  | ok r =>
    have hc : r.cut = d.cut := (linefit_spec hl).elim (fun _ h => h.elim (fun _ h => h.2.2.2.2))
    simp only [Except.map, ht]
    cases tolerance q r.fit.stderr with
    | error e => exact ⟨rfl, rfl, fun o ho => by cases ho⟩
    | ok t =>
      refine ⟨rfl, rfl, ?_⟩
      intro o ho
      cases ho
      refine ⟨hc, ?_⟩
      cases c with
      | none => simp
      | some s => simp

/-- Disagreement (C114): a fit that did not succeed does not mark the channel bad unless a tolerance is exceeded. -/
theorem failed_fit_fails : ∃ (w : World ℚ Unit) (d : Defaults ℚ) (q : QArgs ℚ) (o : Out ℚ), q.tolAbs = some 5 ∧ q.worst = some 10 ∧ o.fit.success = false ∧ qualityCheck w d q false = (false, .ok o) :=
  ⟨⟨5898, fun _ _ _ _ => .ok (), fun _ => .ok ⟨false, 5899, none, 3, []⟩⟩, ⟨"cutNone", 1⟩, ⟨none, some 10, some 5, "energy", 50, 50, none, some [1, 2, 3], none, none, none⟩, ⟨⟨false, 5899, none, 3, []⟩, "cutNone", false⟩,
    rfl, rfl, rfl, by decide +kernel⟩

/-! ### checks of calibrations -/

theorem foldl_max_gt (t : List K) : ∀ (x a : K), a < t.foldl max x ↔ a < x ∨ ∃ y ∈ t, a < y := by
  induction t with
  | nil => intro x a; simp
  | cons y t ih =>
    intro x a
    rw [List.foldl_cons, ih]
    simp [or_assoc]

theorem maxAbs_gt {errs : List K} {m : K} (h : maxAbs errs = some m) (a : K) : a < m ↔ ∃ e ∈ errs, a < |e| := by
  unfold maxAbs at h
  cases errs with
  | nil => cases h
  | cons x t =>
    simp only [List.map_cons, Option.some.injEq] at h
    subst h
    rw [foldl_max_gt]
    simp

/-- C114. With both thresholds the check marks the channel bad exactly if some drop-one error exceeds the absolute one or that many sigmas, with sigma from the median. -/
theorem drop_one_spec_partial {errs : List K} (hne : errs ≠ []) (a s : K) (bad : Bool) :
    (dropOne errs (some a) (some s) bad).2 = .ok () ∧
    ((dropOne errs (some a) (some s) bad).1 = true ↔ bad = true ∨ ∃ e ∈ errs, a < |e| ∨ (14826 / 10000) * FirstN.median (errs.map (fun e => |e|)) * s < |e|) := by
  obtain ⟨m, hm⟩ : ∃ m, maxAbs errs = some m := by
    cases errs with
    | nil => exact absurd rfl hne
    | cons x t => exact ⟨_, rfl⟩
  unfold dropOne
  rw [hm]
  dsimp only
  refine ⟨rfl, ?_⟩
  have h1 := maxAbs_gt hm a
  have h2 := maxAbs_gt hm ((14826 / 10000) * FirstN.median (errs.map (fun e => |e|)) * s)
  have : (∃ e ∈ errs, a < |e| ∨ (14826 / 10000) * FirstN.median (errs.map (fun e => |e|)) * s < |e|) ↔ a < m ∨ (14826 / 10000) * FirstN.median (errs.map (fun e => |e|)) * s < m := by
    rw [h1, h2]
    constructor
    · rintro ⟨e, he, h | h⟩
      · exact Or.inl ⟨e, he, h⟩
      · exact Or.inr ⟨e, he, h⟩
    · rintro (⟨e, he, h⟩ | ⟨e, he, h⟩)
      · exact ⟨e, he, Or.inl h⟩
      · exact ⟨e, he, Or.inr h⟩
  rw [this]
  by_cases g1 : a < m
  · simp [g1]
  · by_cases g2 : (14826 / 10000) * FirstN.median (errs.map (fun e => |e|)) * s < m
    · simp [g2]
    · simp [g1, g2]

/-- Disagreement (C114): a threshold in sigmas alone is ignored, whatever the errors. -/
theorem sigma_ignored_fails {errs : List K} (hne : errs ≠ []) (s : K) (bad : Bool) : dropOne errs none (some s) bad = (bad, .ok ()) := by
  unfold dropOne
  cases errs with
  | nil => exact absurd rfl hne
  | cons x t => rfl

/-- Disagreement (C114): an absolute threshold alone raises a TypeError, whatever the errors; in a group this marks every channel bad. -/
theorem absolute_raises_fails (a : K) (errs : Nat → List K) (hne : ∀ n, errs n ≠ []) (chans : List Chan) :
    (∀ n bad, dropOne (errs n) (some a) none bad = (bad, .error .type)) ∧ ∀ c ∈ (groupLoop (fun n => dropOne (errs n) (some a) none false) chans).1, c.bad = true := by
  have h1 : ∀ n bad, dropOne (errs n) (some a) none bad = (bad, .error .type) := by
    intro n bad
    unfold dropOne
    have := hne n
    cases hh : errs n with
    | nil => exact absurd hh this
    | cons x t => rfl
  refine ⟨h1, ?_⟩
  induction chans with
  | nil => intro c hc; simp [groupLoop] at hc
  | cons c t ih =>
    intro c' hc'
    unfold groupLoop at hc'
    dsimp only at hc'
    by_cases hb : c.bad = true
    · rw [if_pos hb] at hc'
      rcases List.mem_cons.mp hc' with rfl | hc'
      · exact hb
      · exact ih c' hc'
    · rw [if_neg hb, h1] at hc'
      dsimp only at hc'
      rcases List.mem_cons.mp hc' with rfl | hc'
      · rfl
      · exact ih c' hc'

/-! ### checks of groups -/

/-- C114. A check of a group returns the results of exactly the channels that were good and whose check did not raise, in order. -/
theorem group_results {R : Type} (m : Nat → Bool × Except Exc R) (chans : List Chan) :
    (groupLoop m chans).2 = chans.filterMap (fun c => if c.bad then none else (m c.num).2.toOption.map (fun z => (c.num, z))) := by
  induction chans with
  | nil => rfl
  | cons c t ih =>
    unfold groupLoop
    dsimp only
    rw [List.filterMap_cons]
    by_cases hb : c.bad = true
    · rw [if_pos hb, if_pos hb]
      exact ih
    · rw [if_neg hb, if_neg hb]
      rcases hm : m c.num with ⟨b, z⟩
      cases z with
      | error e => exact ih
      | ok z => exact congrArg _ ih

/-- C114. Afterwards a channel is good exactly if it was and its check neither raised nor marked it bad. -/
theorem group_marks {R : Type} (m : Nat → Bool × Except Exc R) (chans : List Chan) :
    (groupLoop m chans).1 = chans.map (fun c => ⟨c.num, c.bad || (m c.num).1 || !(m c.num).2.toOption.isSome⟩) := by
  induction chans with
  | nil => rfl
  | cons c t ih =>
    unfold groupLoop
    dsimp only
    rw [List.map_cons, ← ih]
    obtain ⟨n, bad⟩ := c
    cases bad with
    | true => simp
    | false =>
      rcases hm : m n with ⟨b, z⟩
      cases z with
      | error e => simp [hm, Except.toOption]
      | ok z => simp [hm, Except.toOption]

theorem find_result {results : List (Nat × Out K)} {n : Nat} {o : Out K} (h : (n, o) ∈ results) (hd : ∀ o', (n, o') ∈ results → o' = o) :
    results.find? (fun r => r.1 == n) = some (n, o) := by
  cases hf : results.find? (fun r => r.1 == n) with
  | none =>
    have := List.find?_eq_none.mp hf _ h
    simp at this
  | some r =>
    have h1 := List.find?_some hf
    have h2 := List.mem_of_find?_eq_some hf
    obtain ⟨k, o'⟩ := r
    have : k = n := by simpa using h1
    subst this
    rw [hd o' h2]

theorem writeParams_ok {l : List (String × K × Option K)} (h : ∀ p ∈ l, p.2.2 ≠ none) : writeParams l = some (l.map (fun p => (p.1, p.2.1, p.2.2.getD 0))) := by
  induction l with
  | nil => rfl
  | cons p l ih =>
    obtain ⟨n, v, e⟩ := p
    cases e with
    | none => exact absurd rfl (h _ List.mem_cons_self)
    | some e =>
      unfold writeParams
      rw [ih (fun p hp => h p (List.mem_cons_of_mem _ hp))]
      rfl

theorem writeAll_ok {results : List (Nat × Out K)} (cs : List Chan) : ∀ (file : List (Nat × Entry K)),
    (∀ c ∈ cs, c.bad = false → ∃ o, (c.num, o) ∈ results ∧ (∀ o', (c.num, o') ∈ results → o' = o) ∧ ∀ p ∈ o.fit.params, p.2.2 ≠ none) →
    ∃ new, writeAll results cs file = (file ++ new, .ok ()) ∧ new.map Prod.fst = cs.map Chan.num ∧
      List.Forall₂ (fun (c : Chan) (x : Nat × Entry K) => (c.bad = true ∧ x.2 = .markedBad) ∨
        (c.bad = false ∧ ∃ o, (c.num, o) ∈ results ∧ x.2 = .params (o.fit.params.map (fun p => (p.1, p.2.1, p.2.2.getD 0))))) cs new := by
  induction cs with
  | nil => intro file _; exact ⟨[], by simp [writeAll], rfl, .nil⟩
  | cons c t ih =>
    intro file h
    unfold writeAll
    by_cases hb : c.bad = true
    · rw [if_pos hb]
      obtain ⟨new, g1, g2, g3⟩ := ih (file ++ [(c.num, .markedBad)]) (fun c hc => h c (List.mem_cons_of_mem _ hc))
      exact ⟨(c.num, .markedBad) :: new, by rw [g1]; simp, by simp [g2], .cons (Or.inl ⟨hb, rfl⟩) g3⟩
    · rw [if_neg hb]
      have hb : c.bad = false := by simpa using hb
      obtain ⟨o, ho, hd, hp⟩ := h c List.mem_cons_self hb
      rw [find_result ho hd]
      dsimp only
      rw [writeParams_ok hp]
      dsimp only
      obtain ⟨new, g1, g2, g3⟩ := ih (file ++ [(c.num, .params (o.fit.params.map (fun p => (p.1, p.2.1, p.2.2.getD 0))))]) (fun c hc => h c (List.mem_cons_of_mem _ hc))
      exact ⟨(c.num, .params (o.fit.params.map (fun p => (p.1, p.2.1, p.2.2.getD 0)))) :: new, by rw [g1]; simp, by simp [g2], .cons (Or.inr ⟨hb, o, ho, rfl⟩) g3⟩

/-- the results of a group have distinct channels, and every channel good afterwards has a result -/
theorem good_has_result {R : Type} (m : Nat → Bool × Except Exc R) {chans : List Chan} (hnd : (chans.map Chan.num).Nodup) {c : Chan} (hc : c ∈ (groupLoop m chans).1) (hb : c.bad = false) :
    ∃ o, (c.num, o) ∈ (groupLoop m chans).2 ∧ (m c.num).2 = .ok o ∧ ∀ o', (c.num, o') ∈ (groupLoop m chans).2 → o' = o := by
  rw [group_marks] at hc
  obtain ⟨c0, h0, rfl⟩ := List.mem_map.mp hc
  simp only [Bool.or_eq_false_iff, Bool.not_eq_false'] at hb
  obtain ⟨⟨hb1, hb2⟩, hb3⟩ := hb
  rcases hm : (m c0.num).2 with e | o
  · rw [hm] at hb3; cases hb3
  · refine ⟨o, ?_, rfl, ?_⟩
    · rw [group_results]
      exact List.mem_filterMap.mpr ⟨c0, h0, by simp [hb1, hm, Except.toOption]⟩
    · intro o' ho'
      rw [group_results] at ho'
      obtain ⟨c1, h1, h2⟩ := List.mem_filterMap.mp ho'
      split at h2
      · cases h2
      · simp only [Option.map_eq_some_iff, Prod.mk.injEq] at h2
        obtain ⟨z, hz, hn, rfl⟩ := h2
        rw [hn, hm] at hz
        simpa [Except.toOption] using hz.symm

/-- C114. With a file, and error bars for all parameters of the fits of good channels, and a successful fit if a plot is wanted: every channel gets an entry, in order: bad channels that
they are bad, good channels exactly the values and errors of the parameters of their fit. -/
theorem group_file_partial {m : Nat → Bool × Except Exc (Out K)} {chans : List Chan} (hnd : (chans.map Chan.num).Nodup) {plot : Bool}
    (hp : plot = true → ∃ c ∈ chans, c.bad = false ∧ ∃ o, (m c.num).2 = .ok o ∧ o.fit.success = true)
    (he : ∀ c ∈ chans, c.bad = false → ∀ o, (m c.num) = (false, .ok o) → ∀ p ∈ o.fit.params, p.2.2 ≠ none) :
    ∃ res, (groupCheck m plot true chans).res = .ok res ∧ (groupCheck m plot true chans).file.map Prod.fst = chans.map Chan.num ∧
      List.Forall₂ (fun (c : Chan) (x : Nat × Entry K) => (c.bad = true ∧ x.2 = .markedBad) ∨
        (c.bad = false ∧ ∃ o, (m c.num).2 = .ok o ∧ x.2 = .params (o.fit.params.map (fun p => (p.1, p.2.1, p.2.2.getD 0)))))
        (groupCheck m plot true chans).chans (groupCheck m plot true chans).file := by
  have hgood : ∀ c ∈ (groupLoop m chans).1, c.bad = false → ∃ o, (c.num, o) ∈ (groupLoop m chans).2 ∧ (∀ o', (c.num, o') ∈ (groupLoop m chans).2 → o' = o) ∧ ∀ p ∈ o.fit.params, p.2.2 ≠ none := by
    intro c hc hb
    obtain ⟨o, h1, h2, h3⟩ := good_has_result m hnd hc hb
    refine ⟨o, h1, h3, ?_⟩
    rw [group_marks] at hc
    obtain ⟨c0, h0, rfl⟩ := List.mem_map.mp hc
    simp only [Bool.or_eq_false_iff] at hb
    exact he c0 h0 hb.1.1 o (Prod.ext hb.1.2 h2)
  obtain ⟨new, g1, g2, g3⟩ := writeAll_ok (groupLoop m chans).1 [] hgood
  have hplot : (plot && ((groupLoop m chans).2.filter (fun r => r.2.fit.success)).isEmpty) = false := by
    cases plot with
    | false => rfl
    | true =>
      obtain ⟨c, hc, hb, o, ho, hs⟩ := hp rfl
      rw [Bool.true_and, List.isEmpty_eq_false_iff_exists_mem]
      refine ⟨(c.num, o), List.mem_filter.mpr ⟨?_, hs⟩⟩
      rw [group_results]
      exact List.mem_filterMap.mpr ⟨c, hc, by simp [hb, ho, Except.toOption]⟩
  have hg : groupCheck m plot true chans = ⟨(groupLoop m chans).1, new, .ok (groupLoop m chans).2⟩ := by
    unfold groupCheck
    dsimp only
    rw [hplot, g1]
    simp
  rw [hg]
  refine ⟨_, rfl, ?_, ?_⟩
  · dsimp only
    rw [g2, group_marks]
    simp [Function.comp_def]
  · dsimp only
    have hmem : ∀ c ∈ (groupLoop m chans).1, ∀ o, c.bad = false → (c.num, o) ∈ (groupLoop m chans).2 → (m c.num).2 = .ok o := by
      intro c hc o hb ho
      obtain ⟨o', _, h2, h3⟩ := good_has_result m hnd hc hb
      rw [h3 o ho]
      exact h2
    have lift : ∀ (cs : List Chan) (new : List (Nat × Entry K)), (∀ c ∈ cs, c ∈ (groupLoop m chans).1) →
        List.Forall₂ (fun (c : Chan) (x : Nat × Entry K) => (c.bad = true ∧ x.2 = .markedBad) ∨
          (c.bad = false ∧ ∃ o, (c.num, o) ∈ (groupLoop m chans).2 ∧ x.2 = .params (o.fit.params.map (fun p => (p.1, p.2.1, p.2.2.getD 0))))) cs new →
        List.Forall₂ (fun (c : Chan) (x : Nat × Entry K) => (c.bad = true ∧ x.2 = .markedBad) ∨
          (c.bad = false ∧ ∃ o, (m c.num).2 = .ok o ∧ x.2 = .params (o.fit.params.map (fun p => (p.1, p.2.1, p.2.2.getD 0))))) cs new := by
      intro cs new hcs hf
      induction hf with
      | nil => exact .nil
      | cons h _ ih =>
        refine .cons ?_ (ih (fun c hc => hcs c (List.mem_cons_of_mem _ hc)))
        rcases h with h | ⟨h1, o, h2, h3⟩
        · exact Or.inl h
        · exact Or.inr ⟨h1, o, hmem _ (hcs _ List.mem_cons_self) o h1 h2, h3⟩
    exact lift _ _ (fun c hc => hc) g3

/-- C114. A channel that is good afterwards always has a result. -/
theorem group_no_key_error (m : Nat → Bool × Except Exc (Out K)) {chans : List Chan} (hnd : (chans.map Chan.num).Nodup) (plot hdf5 : Bool) :
    (groupCheck m plot hdf5 chans).res ≠ .error .key := by
  have gen : ∀ (cs : List Chan) (file : List (Nat × Entry K)), (∀ c ∈ cs, c ∈ (groupLoop m chans).1) → (writeAll (groupLoop m chans).2 cs file).2 ≠ .error .key := by
    intro cs
    induction cs with
    | nil => intro file _; simp [writeAll]
    | cons c t ih =>
      intro file hcs
      unfold writeAll
      by_cases hb : c.bad = true
      · rw [if_pos hb]
        exact ih _ (fun c hc => hcs c (List.mem_cons_of_mem _ hc))
      · rw [if_neg hb]
        have hb : c.bad = false := by simpa using hb
        obtain ⟨o, h1, _, h3⟩ := good_has_result m hnd (hcs c List.mem_cons_self) hb
        rw [find_result h1 h3]
        dsimp only
        split
        · simp
        · exact ih _ (fun c hc => hcs c (List.mem_cons_of_mem _ hc))
  unfold groupCheck
  dsimp only
  split
  · simp
  · split
    · have := gen (groupLoop m chans).1 [] (fun c hc => hc)
      split
      · rename_i file e h
        rw [h] at this
        simpa using this
      · simp
    · simp

/-- Disagreement (C114): if no fit succeeds, the check of a group raises instead of returning the results, because of the plot, and nothing is written to the file. -/
theorem no_success_fails (m : Nat → Bool × Except Exc (Out K)) (hdf5 : Bool) (chans : List Chan) (h : ∀ n o, (m n).2 = .ok o → o.fit.success = false) :
    (groupCheck m true hdf5 chans).res = .error .value ∧ (groupCheck m true hdf5 chans).file = [] := by
  have : ((groupLoop m chans).2.filter (fun r => r.2.fit.success)) = [] := by
    rw [List.filter_eq_nil_iff]
    intro r hr
    rw [group_results] at hr
    obtain ⟨c, _, h2⟩ := List.mem_filterMap.mp hr
    split at h2
    · cases h2
    · simp only [Option.map_eq_some_iff] at h2
      obtain ⟨z, hz, rfl⟩ := h2
      cases hm : (m c.num).2 with
      | error e => rw [hm] at hz; cases hz
      | ok o =>
        rw [hm] at hz
        cases hz
        simp [h _ _ hm]
  unfold groupCheck
  dsimp only
  rw [this]
  exact ⟨rfl, rfl⟩

/-- Disagreement (C114): one good channel whose fit has no error bars stops the writing: the later channels are missing in the file and the results are lost. -/
theorem no_errorbars_fails : ∃ (m : Nat → Bool × Except Exc (Out ℚ)) (chans : List Chan), chans.map Chan.num = [1, 3, 5] ∧ (groupCheck m true true chans).res = .error .type ∧
    (groupCheck m true true chans).file.map Prod.fst = [1] ∧ ∀ c ∈ (groupCheck m true true chans).chans, c.bad = false :=
  ⟨fun n => (false, .ok ⟨⟨true, 5898, none, 3, [("fwhm", 3, if n = 3 then none else some 1)]⟩, "cutNone", false⟩), [⟨1, false⟩, ⟨3, false⟩, ⟨5, false⟩], rfl, by decide +kernel, by decide +kernel, by decide +kernel⟩

/-! ### examples -/

/-- a fit found at 5901 with error 1 and width 4 -/
def exWorld : World ℚ Unit := ⟨5898, fun _ _ _ _ => .ok (), fun _ => .ok ⟨true, 5901, some 1, 4, [("peak_ph", 5901, some 1), ("fwhm", 4, some (1 / 2))]⟩⟩
/-- a check with tolerances -/
def exQ (s w a : Option ℚ) : QArgs ℚ := ⟨s, w, a, "energyDC", 2, 2, some 1, none, none, none, none⟩

example : ((qualityCheck exWorld ⟨"cutNone", 1⟩ (exQ none none (some 2)) false).1, (qualityCheck exWorld ⟨"cutNone", 1⟩ (exQ (some 4) none none) false).1,
    (qualityCheck exWorld ⟨"cutNone", 1⟩ (exQ (some 2) none none) false).1, (qualityCheck exWorld ⟨"cutNone", 1⟩ (exQ (some 4) (some 3) none) false).1) = (true, false, true, true) := by decide +kernel

example : arange (5896 : ℚ) 5900 1 = [5896, 5897, 5898, 5899] := by decide +kernel

example : (dropOne [1, -2, 3, (-20 : ℚ)] (some 30) (some 3) false, dropOne [1, -2, 3, (-20 : ℚ)] (some 19) (some 30) false, dropOne [1, -2, 3, (-20 : ℚ)] (some 30) (some 30) false) =
    ((true, .ok ()), (true, .ok ()), (false, .ok ())) := by
  unfold dropOne
  have h : FirstN.median ([1, -2, 3, (-20 : ℚ)].map (fun e => |e|)) = 5 / 2 := by decide +kernel
  rw [h]
  decide +kernel

end Mass.Calc.Quality
