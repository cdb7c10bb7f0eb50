import Verif.Stat.Hist
import Mathlib.Data.List.Induction
import Mathlib.Algebra.Order.Ring.Rat
/-! Figures of histograms, mass/core/channel.py: C204 -/
namespace Mass.Stat.HistFig
open Mass Mass.Stat.Hist

variable {K : Type} [Field K] [LinearOrder K]

/-- what an axis shows: its curves in the order drawn, the name below, the width of a bin in the text at the side, the title. (mass/core/channel.py L2550-2555). Simplified: the width is kept exactly, the code prints it with one decimal;
the marks of `annotate_lines` are not kept. -/
structure Axis (K : Type) where
  curves : List (List (K × Nat)) := []
  xlabel : Option String := none
  perBin : Option K := none
  title : Option String := none
  deriving DecidableEq

/-- bin_centers = 0.5 * (bin_edges[1:] + bin_edges[:-1]), mass/core/channel.py L2524 -/
def centers : List K → List K
  | a :: b :: l => (1 / 2 * (b + a)) :: centers (b :: l)
  | _ => []

/-- one call of plot_hist: the channel's short name, the edges, the name of the values and the records with them (mass/core/channel.py L2537) -/
structure Call (K : Type) where
  short : String
  edges : List K
  attr : String
  recs : List (Rec K K)

/-- `MicrocalDataSet.plot_hist` onto a given axis, mass/core/channel.py L2537-2556: the result and the axis afterwards. The times are compared with 0 and 1e20, the defaults of `hist` (L2498); `far` is the latter. -/
def plotHist (far : K) (ax : Axis K) (c : Call K) : Except Exc Unit × Axis K :=
  match chanHist c.edges 0 far c.recs with
  | .error x => (.error x, ax)
  | .ok counts =>
    let ax1 : Axis K := { ax with curves := ax.curves ++ [(centers c.edges).zip counts], xlabel := some c.attr }
    match c.edges with
    | e0 :: e1 :: _ => (.ok (), { ax1 with perBin := some (e1 - e0), title := some c.short })
    | _ => (.error .index, ax1)

/-- calls of plot_hist one after another onto the same axis, going on after an exception (mass/core/channel.py L2537-2556) -/
def plotAll (far : K) (ax : Axis K) (cs : List (Call K)) : Axis K := cs.foldl (fun a c => (plotHist far a c).2) ax

/-- the bin edges and the width that `linefit` writes at the side of its figure, mass/core/channel.py L2585-2598: the edges given or else those of np.arange, made by `arange`; the width is always the argument binsize -/
def linefitBins (arange : K → List K) (binsize : K) (edges : Option (List K)) : List K × K :=
  match edges with
  | none => (arange binsize, binsize)
  | some e => (e, binsize)

theorem centers_length (e : List K) : (centers e).length = e.length - 1 := by
  induction e with
  | nil => rfl
  | cons a l ih =>
    cases l with
    | nil => rfl
    | cons b l => simp only [centers, List.length_cons] at ih ⊢; omega

theorem centers_get (e : List K) (i : Nat) (a b : K) (ha : e[i]? = some a) (hb : e[i + 1]? = some b) : (centers e)[i]? = some ((a + b) / 2) := by
  induction e generalizing i with
  | nil => simp at ha
  | cons x l ih =>
    cases l with
    | nil => simp at hb
    | cons y l =>
      cases i with
      | zero =>
        simp at ha hb
        subst ha hb
        simp only [centers, List.getElem?_cons_zero, Option.some.injEq]
        rw [add_comm y x, div_mul_eq_mul_div, one_mul]
      | succ i =>
        simp only [centers, List.getElem?_cons_succ] at ha hb ⊢
        exact ih i ha hb

/-- C204. A call that returns adds one curve to those the axis had, with a point for each bin: at the middle of the bin, as high as the number of records that are good, pass g_func, lie in the range of times and have a value in the bin.
The name below and the title are those of the call. -/
theorem drawn (far : K) (ax : Axis K) (c : Call K) (h : (plotHist far ax c).1 = .ok ()) :
    ∃ curve, (plotHist far ax c).2.curves = ax.curves ++ [curve] ∧ (plotHist far ax c).2.xlabel = some c.attr ∧ (plotHist far ax c).2.title = some c.short ∧
      curve.length = c.edges.length - 1 ∧
      ∀ i a b, c.edges[i]? = some a → c.edges[i + 1]? = some b →
        curve[i]? = some ((a + b) / 2, c.recs.countP (fun r => decide (0 < r.time ∧ r.time < far ∧ r.good = true ∧ r.extra = true ∧ ∃ v ∈ r.val, InBin c.edges i v))) := by
  unfold plotHist at h ⊢
  cases hc : chanHist c.edges 0 far c.recs with
  | error x => rw [hc] at h; simp at h
  | ok counts =>
    rw [hc] at h
    obtain ⟨k1, k2⟩ := channel_hist c.edges 0 far c.recs hc
    have hcl := centers_length c.edges
    have key : ((centers c.edges).zip counts).length = c.edges.length - 1 ∧ ∀ i a b, c.edges[i]? = some a → c.edges[i + 1]? = some b →
        ((centers c.edges).zip counts)[i]? = some ((a + b) / 2, c.recs.countP (fun r => decide (0 < r.time ∧ r.time < far ∧ r.good = true ∧ r.extra = true ∧ ∃ v ∈ r.val, InBin c.edges i v))) := by
      refine ⟨by simp [hcl, k1], fun i a b ha hb => ?_⟩
      have hi : i < counts.length := by
        have := (List.getElem?_eq_some_iff.1 hb).1
        omega
      have h1 := centers_get c.edges i a b ha hb
      rw [List.getElem?_zip_eq_some]
      exact ⟨h1, by rw [List.getElem?_eq_getElem hi, k2 i hi]⟩
    match he : c.edges, h with
    | e0 :: e1 :: l, _ => 
      rw [he] at key
      exact ⟨_, rfl, rfl, rfl, key.1, key.2⟩
    | [], h => simp [he] at h
    | [_], h => simp [he] at h

/-- C204. It returns exactly if there are at least two edges and none is above the next; edges that decrease somewhere are refused with ValueError and the axis is as before. -/
theorem returns_iff (far : K) (ax : Axis K) (c : Call K) :
    ((plotHist far ax c).1 = .ok () ↔ 2 ≤ c.edges.length ∧ ∀ i (h : i + 1 < c.edges.length), c.edges[i] ≤ c.edges[i + 1]) ∧
    ((¬ ∀ i (h : i + 1 < c.edges.length), c.edges[i] ≤ c.edges[i + 1]) → plotHist far ax c = (.error .value, ax)) := by
  obtain ⟨_, k2, k3⟩ := histogram_refused (usedVals 0 far c.recs) c.edges
  have bad : (¬ ∀ i (h : i + 1 < c.edges.length), c.edges[i] ≤ c.edges[i + 1]) → plotHist far ax c = (.error .value, ax) := by
    intro hm
    unfold plotHist chanHist
    rw [k2 hm]
  refine ⟨⟨fun h => ?_, fun h => ?_⟩, bad⟩
  · have hm : ∀ i (h : i + 1 < c.edges.length), c.edges[i] ≤ c.edges[i + 1] := by
      by_contra hm
      rw [bad hm] at h
      simp at h
    refine ⟨?_, hm⟩
    obtain ⟨cs, hcs⟩ := k3 hm
    unfold plotHist chanHist at h
    rw [hcs] at h
    match he : c.edges, h with
    | e0 :: e1 :: l, _ => simp
    | [], h => simp [he] at h
    | [_], h => simp [he] at h
  · obtain ⟨cs, hcs⟩ := k3 h.2
    unfold plotHist chanHist
    rw [hcs]
    match he : c.edges, h.1 with
    | e0 :: e1 :: l, _ => rfl
    | [], h => simp at h
    | [_], h => simp at h

/-- C204. The text at the side is true of every bin if all bins are of one width. -/
theorem label_partial (far : K) (ax : Axis K) (c : Call K) (w : K) (hw : ∀ i a b, c.edges[i]? = some a → c.edges[i + 1]? = some b → b - a = w)
    (h : (plotHist far ax c).1 = .ok ()) : (plotHist far ax c).2.perBin = some w := by
  unfold plotHist at h ⊢
  cases hc : chanHist c.edges 0 far c.recs with
  | error x => rw [hc] at h; simp at h
  | ok counts =>
    rw [hc] at h
    match he : c.edges, h with
    | e0 :: e1 :: l, _ => 
      have := hw 0 e0 e1 (by simp [he]) (by simp [he])
      simp [this]
    | [], h => simp [he] at h
    | [_], h => simp [he] at h

/-- C204. After any calls onto one axis the earlier curves are all there, first and unchanged. -/
theorem kept (far : K) (ax : Axis K) (cs : List (Call K)) : ∃ more, (plotAll far ax cs).curves = ax.curves ++ more ∧ more.length ≤ cs.length := by
  induction cs generalizing ax with
  | nil => exact ⟨[], by simp [plotAll], by simp⟩
  | cons c cs ih =>
    obtain ⟨m, h1, h2⟩ := ih (plotHist far ax c).2
    have h3 : ∃ m', (plotHist far ax c).2.curves = ax.curves ++ m' ∧ m'.length ≤ 1 := by
      unfold plotHist
      cases chanHist c.edges 0 far c.recs with
      | error x => exact ⟨[], by simp, by simp⟩
      | ok counts =>
        refine ⟨[(centers c.edges).zip counts], ?_, by simp⟩
        match c.edges with
        | e0 :: e1 :: l => rfl
        | [] => rfl
        | [_] => rfl
    obtain ⟨m', h4, h5⟩ := h3
    refine ⟨m' ++ m, ?_, by simp; omega⟩
    show (plotAll far (plotHist far ax c).2 cs).curves = _
    rw [h1, h4, List.append_assoc]

/-- C204. Calls that all return: one curve each, in the order of the calls, and the texts are those of the last call. -/
theorem all_drawn (far : K) (ax : Axis K) (cs : List (Call K)) (c : Call K) (hc : ∀ d ∈ cs ++ [c], ∀ a : Axis K, (plotHist far a d).1 = .ok ()) :
    (plotAll far ax (cs ++ [c])).curves.length = ax.curves.length + cs.length + 1 ∧
    (∀ (i : Nat) (d : Call K), (cs ++ [c])[i]? = some d → (plotAll far ax (cs ++ [c])).curves[ax.curves.length + i]? = (plotHist far {} d).2.curves.head?) ∧
    (plotAll far ax (cs ++ [c])).xlabel = some c.attr ∧ (plotAll far ax (cs ++ [c])).title = some c.short := by
  have gen : ∀ (ds : List (Call K)) (a : Axis K), (∀ d ∈ ds, ∀ a : Axis K, (plotHist far a d).1 = .ok ()) →
      (plotAll far a ds).curves = a.curves ++ ds.flatMap (fun d => (plotHist far {} d).2.curves) ∧ ∀ d ∈ ds, ∃ k, (plotHist far {} d).2.curves = [k] := by
    intro ds
    induction ds with
    | nil => intro a _; simp [plotAll]
    | cons d ds ih =>
      intro a hd
      obtain ⟨i1, i2⟩ := ih (plotHist far a d).2 (fun x hx => hd x (by simp [hx]))
      have e : (plotHist far a d).2.curves = a.curves ++ (plotHist far {} d).2.curves := by
        unfold plotHist
        cases chanHist d.edges 0 far d.recs with
        | error x => simp
        | ok counts =>
          match d.edges with
          | e0 :: e1 :: l => rfl
          | [] => rfl
          | [_] => rfl
      refine ⟨?_, ?_⟩
      · show (plotAll far (plotHist far a d).2 ds).curves = _
        rw [i1, e, List.flatMap_cons, List.append_assoc]
      · intro x hx
        obtain ⟨k, hk, _⟩ := drawn far {} x (hd x hx {})
        exact ⟨k, by simpa using hk⟩
  obtain ⟨g1, g2⟩ := gen (cs ++ [c]) ax hc
  have flat : ∀ (ds : List (Call K)), (∀ d ∈ ds, ∃ k, (plotHist far {} d).2.curves = [k]) →
      (ds.flatMap (fun d => (plotHist far {} d).2.curves)).length = ds.length ∧
      ∀ (i : Nat) (d : Call K), ds[i]? = some d → (ds.flatMap (fun d => (plotHist far {} d).2.curves))[i]? = (plotHist far {} d).2.curves.head? := by
    intro ds
    induction ds with
    | nil => simp
    | cons d ds ih =>
      intro hd
      obtain ⟨i1, i2⟩ := ih (fun x hx => hd x (by simp [hx]))
      obtain ⟨k, hk⟩ := hd d (by simp)
      refine ⟨by rw [List.flatMap_cons, List.length_append, i1, hk]; simp [Nat.add_comm], fun i x hx => ?_⟩
      rw [List.flatMap_cons, hk]
      cases i with
      | zero => simp at hx; subst hx; simp [hk]
      | succ i => simp at hx ⊢; exact i2 i x hx
  obtain ⟨f1, f2⟩ := flat _ g2
  have last : plotAll far ax (cs ++ [c]) = (plotHist far (plotAll far ax cs) c).2 := by simp [plotAll]
  obtain ⟨k, _, l1, l2, _⟩ := drawn far (plotAll far ax cs) c (hc c (by simp) _)
  refine ⟨by rw [g1, List.length_append, f1]; simp; omega, fun i d hd => ?_, by rw [last, l1], by rw [last, l2]⟩
  rw [g1, List.getElem?_append_right (by omega)]
  simpa using f2 i d hd

/-- Disagreement (C204): with bins of different widths the text at the side of plot_hist's figure gives the width of the first bin for all: edges 0, 1, 11 are labelled "counts per 1.0 unit bin" though the second bin is 10 wide (mass/core/channel.py L2553-2554). -/
theorem label_fails : ∃ c : Call ℚ, (plotHist 100 {} c).1 = .ok () ∧ ∃ i a b, c.edges[i]? = some a ∧ c.edges[i + 1]? = some b ∧ (plotHist 100 {} c).2.perBin ≠ some (b - a) :=
  ⟨⟨"chan1", [0, 1, 11], "p_energy", [⟨some 5, 1, true, true⟩]⟩, by decide +kernel, 1, 1, 11, rfl, rfl, by decide +kernel⟩

/-- Disagreement (C204): with a single edge plot_hist raises IndexError after it has drawn an empty curve and named the axis (mass/core/channel.py L2551-2553): an exception that leaves the figure changed. -/
theorem unchanged_fails : ∃ c : Call ℚ, (plotHist 100 {} c).1 = .error .index ∧ (plotHist 100 {} c).2 ≠ {} :=
  ⟨⟨"chan1", [0], "p_energy", []⟩, by decide +kernel, by decide +kernel⟩

/-- Disagreement (C204): with bin edges given, the text at the side of linefit's figure gives the argument binsize (1 unless given), not the width of the bins: edges 0, 5, 10 are labelled "counts per 1.00 (eV) bin" (mass/core/channel.py L2586-2597). -/
theorem linefit_label_fails : ∃ e : List ℚ, ∀ arange : ℚ → List ℚ, ∃ a b, (linefitBins arange 1 (some e)).1[0]? = some a ∧ (linefitBins arange 1 (some e)).1[1]? = some b ∧
    (linefitBins arange 1 (some e)).2 ≠ b - a :=
  ⟨[0, 5, 10], fun _ => ⟨0, 5, rfl, rfl, show (1 : ℚ) ≠ 5 - 0 by decide +kernel⟩⟩

/-- C204. linefit uses the edges it is given; without edges the text at the side is the spacing of the bins, whenever np.arange's values are that far apart. -/
theorem linefit_label_partial (arange : K → List K) (w : K) (ha : ∀ i a b, (arange w)[i]? = some a → (arange w)[i + 1]? = some b → b - a = w) :
    (∀ e, (linefitBins arange w (some e)).1 = e) ∧
    ∀ i a b, (linefitBins arange w none).1[i]? = some a → (linefitBins arange w none).1[i + 1]? = some b → (linefitBins arange w none).2 = b - a :=
  ⟨fun _ => rfl, fun i a b h1 h2 => (ha i a b h1 h2).symm⟩

-- two channels onto one axis: a bad pulse, a NaN and one outside the bins are not counted; the texts are the second's
example : plotAll (100 : ℚ) {} [⟨"chan1", [0, 2, 4], "p_energy", [⟨some 1, 5, true, true⟩, ⟨some 1, 5, false, true⟩, ⟨none, 5, true, true⟩, ⟨some 9, 5, true, true⟩, ⟨some 4, 5, true, true⟩]⟩,
    ⟨"chan3", [0, 2, 4], "p_filt_value", [⟨some 3, 5, true, true⟩]⟩] =
    { curves := [[(1, 1), (3, 1)], [(1, 0), (3, 1)]], xlabel := some "p_filt_value", perBin := some 2, title := some "chan3" } := by decide +kernel

-- equal bins as label_partial asks
example : ∀ i a b, ([0, 2, 4] : List ℚ)[i]? = some a → ([0, 2, 4] : List ℚ)[i + 1]? = some b → b - a = 2 := by
  intro i a b ha hb
  match i with
  | 0 => simp at ha hb; subst ha hb; norm_num
  | 1 => simp at ha hb; subst ha hb; norm_num
  | (n + 2) => simp at hb

end Mass.Stat.HistFig
