import Verif.Stat.Hist
import Mathlib.Algebra.Order.Floor.Ring
import Mathlib.Data.Rat.Floor
import Mathlib.Algebra.Order.Field.Power
import Mathlib.Analysis.SpecialFunctions.Log.Basic
import Mathlib.Analysis.Real.Sqrt
import Mathlib.Tactic.Linarith
import Mathlib.Tactic.Ring
import Mathlib.Tactic.FieldSimp
import Mathlib.Tactic.Positivity
import Mathlib.Tactic.NormNum
/-! Line fits of channels and groups, and energies written to text files, mass/core/channel.py, mass/core/channel_group.py: C152 -/
namespace Mass.Group.LineFits
open Mass Mass.Stat.Hist

variable {K : Type} [Field K] [LinearOrder K] [IsStrictOrderedRing K] [FloorRing K]

/-- `np.arange(start, stop, step)` (used for mass/core/channel.py L2584): as many steps as fit before `stop`, none if the step leads away from it; ZeroDivisionError for a step of 0.
Simplified: exact numbers. -/
def arange (a b s : K) : Except Exc (List K) :=
  if s = 0 then .error .zeroDiv else .ok ((List.range ⌈(b - a) / s⌉.toNat).map (fun i : Nat => a + (i : K) * s))

/-- the bin centers of `hist`, mass/core/channel.py L2524, mass/core/channel_group.py L1368 -/
def centers : List K → List K
  | a :: b :: l => ((b + a) / 2) :: centers (b :: l)
  | _ => []

/-- `sub in text` for strings (used for mass/core/channel.py L2580) -/
def isIn (sub text : List Char) : Bool := text.tails.any (fun t => sub.isPrefixOf t)

/-- one fit parameter: its value and whether it is varied (used for mass/core/channel.py L2588-2589) -/
structure Par (K : Type) where
  val : K
  vary : Bool
  deriving DecidableEq

/-- the parts of a line model that are used: the nominal energy of the peak, the text of the line, `guess(counts, bin_centers, dph_de=1)` and `fit` (arbitrary functions that may
raise) (used for mass/core/channel.py L2581-2590) -/
structure Model (K R : Type) where
  peak : K
  text : String
  guess : List Nat → List K → Except Exc (List (String × Par K))
  fit : List Nat → List (String × Par K) → List K → Except Exc R

/-- `params["dph_de"].set(vary=False)`, mass/core/channel.py L2589 -/
def holdScale (ps : List (String × Par K)) : Except Exc (List (String × Par K)) :=
  if ps.any (fun p => p.1 == "dph_de") then .ok (ps.map (fun p => if p.1 == "dph_de" then (p.1, { p.2 with vary := false }) else p)) else .error .key

/-- the arguments of `linefit` (mass/core/channel.py L2556-2559) but for category and g_func, which are part of what is known of the pulses here -/
structure Args (K T : Type) where
  line : String
  t0 : T
  tlast : T
  dlo : K
  dhi : K
  binsize : K
  edges : Option (List K)
  attr : String
  label : String
  plot : Bool
  guess : Option (List (String × K))
  units : String
  tails : Bool

/-- what is drawn: label of the first axis, the width and unit of a bin in the label of the second, the title (mass/core/channel.py L2592-2594) -/
structure Drawn (K : Type) where
  xlabel : String
  perBin : K
  perUnit : String
  title : String
  deriving DecidableEq

/-- the bin edges of a fit, mass/core/channel.py L2583-2584, mass/core/channel_group.py L1414-1415 -/
def fitEdges {T R : Type} (a : Args K T) (m : Model K R) : Except Exc (List K) :=
  match a.edges with
  | some e => .ok e
  | none => arange (m.peak - a.dlo) (m.peak + a.dhi) a.binsize

/-- `linefit` of a channel, mass/core/channel.py L2580-2596, and, as another copy of the text, of a group, mass/core/channel_group.py L1411-1427, given the histogram method and the short
name of the channel or group -/
def linefit {T R : Type} (getModel : String → Bool → Except Exc (Model K R)) (hist : List K → String → T → T → Except Exc (List K × List Nat)) (shortname : String) (a : Args K T) :
    Except Exc (R × Option (Drawn K)) :=
  if isIn "energy".toList a.attr.toList = false then .error .assertion
  else match getModel a.line a.tails with
    | .error x => .error x
    | .ok m => match fitEdges a m with
      | .error x => .error x
      | .ok e => match hist e a.attr a.t0 a.tlast with
        | .error x => .error x
        | .ok (cen, counts) => match m.guess counts cen with
          | .error x => .error x
          | .ok ps => match holdScale ps with
            | .error x => .error x
            | .ok ps' => match m.fit counts ps' cen with
              | .error x => .error x
              | .ok r => .ok (r, if a.plot then some ⟨a.attr ++ " (" ++ a.units ++ ")", a.binsize, a.units, shortname ++ "\n" ++ m.text⟩ else none)

/-- a channel: the pulses as seen through an attribute (AttributeError if there is none), with the category and g_func of the call (used for mass/core/channel.py L2525-2532) -/
abbrev Chan (K T : Type) := String → Except Exc (List (Rec K T))

/-- `MicrocalDataSet.hist`, mass/core/channel.py L2523-2535 -/
def hist {T : Type} [LinearOrder T] (c : Chan K T) (e : List K) (attr : String) (t0 tlast : T) : Except Exc (List K × List Nat) :=
  match c attr with
  | .error x => .error x
  | .ok rs => match chanHist e t0 tlast rs with
    | .error x => .error x
    | .ok cs => .ok (centers e, cs)

/-- `TESGroup.hist`, mass/core/channel_group.py L1372-1385, of the good channels and their numbers -/
def ghist {T : Type} [LinearOrder T] (g : List (Nat × Chan K T)) (e : List K) (attr : String) (t0 tlast : T) : Except Exc (List K × List Nat) :=
  match groupHist (centers e).length (fun c => (hist c e attr t0 tlast).map Prod.snd) g with
  | .error x => .error x
  | .ok cs => .ok (centers e, cs)

/-- `save_pulse_energies_ascii`, mass/core/channel_group.py L1069-1074: the name of the file and the values written, one line each; of each good channel the energies and the good marks -/
def saveEnergies {V : Type} (filename : String) (g : List (List V × List Bool)) : String × List V :=
  (filename ++ ".energies", g.foldl (fun acc c => acc ++ (c.1.zip c.2).filterMap (fun p => if p.2 then some p.1 else none)) [])

/-- The number written in format '%.10e' (used for mass/core/channel_group.py L1074) for a number other than 0: eleven decimal digits, so that no other number of that many digits is nearer
[specification of printf, used as hypothesis] -/
def Written (x d : ℚ) : Prop := ∃ (m : ℤ) (k : ℤ), 10 ^ 10 ≤ |m| ∧ |m| < 10 ^ 11 ∧ d = m * (10 : ℚ) ^ k ∧ |d - x| ≤ (10 : ℚ) ^ k / 2

/-- a finite number of type float32 (the type of p_energy, mass/core/channel.py L704-709): at most 24 binary digits, the exponent not less than -149, the leading digit not zero unless the
exponent is the least [specification] -/
def Float32 (x : ℚ) : Prop := ∃ (m : ℤ) (e : ℤ), |m| < 2 ^ 24 ∧ -149 ≤ e ∧ (2 ^ 23 ≤ |m| ∨ e = -149) ∧ x = m * (2 : ℚ) ^ e

/-- the parts of an optimal filter that the reports use (mass/core/optimal_filtering.py L245-256) -/
structure Fil where
  peak : ℝ
  variance : ℝ

/-- `predicted_v_over_dv` of a filter, mass/core/optimal_filtering.py L422, L587, which `Filter.report` prints (L294) -/
noncomputable def predicted (f : Fil) : ℝ := f.peak / Real.sqrt (8 * Real.log 2 * f.variance)

/-- the energy resolution that `Filter.report` prints, mass/core/optimal_filtering.py L295 -/
noncomputable def predictedRes (std : ℝ) (f : Fil) : ℝ := std / predicted f

/-- the datasets below "filters" of a channel with a filter that was saved (mass/core/channel.py L1134-1139) [the names only] -/
def savedNames (ats : Bool) : List String := if ats then ["values", "dt_values"] else ["values"]

/-- `summarize_filters` for one channel, mass/core/channel_group.py L1012-1021: the resolving power and resolution reported, from the variance of the filter in memory or else the one of the
dataset filt_<name> in the file; none if only a warning is given -/
noncomputable def reported (std : ℝ) (name : String) (memory : Option Fil) (file : List (String × ℝ)) : Option (ℝ × ℝ) :=
  match (match memory with | some f => some f.variance | none => (file.find? (fun p => p.1 == "filt_" ++ name)).map Prod.snd) with
  | none => none
  | some v => let vdv := 1 / Real.sqrt v / Real.sqrt (Real.log 2 * 8)
    some (vdv, std / vdv)

/-! ### The edges of the bins -/

theorem arange_spec (a b s : K) (hs : 0 < s) : ∃ l, arange a b s = .ok l ∧ (∀ i (h : i < l.length), l[i] = a + i * s ∧ l[i] < b) ∧ b ≤ a + l.length * s ∧ (l = [] ↔ b ≤ a) := by
  have hx : ∀ n : ℕ, (n : K) * s < b - a ↔ (n : K) < (b - a) / s := fun n => (lt_div_iff₀ hs).symm
  refine ⟨_, if_neg hs.ne', fun i h => ?_, ?_, ?_⟩
  · simp only [List.length_map, List.length_range] at h
    have h1 : (i : ℤ) < ⌈(b - a) / s⌉ := by omega
    have h2 := Int.lt_ceil.1 h1
    have h3 := (hx i).2 (by exact_mod_cast h2)
    simp only [List.getElem_map, List.getElem_range, true_and]
    linarith
  · simp only [List.length_map, List.length_range]
    have h1 : (b - a) / s ≤ ((⌈(b - a) / s⌉.toNat : ℕ) : K) := by
      refine le_trans (Int.le_ceil _) ?_
      exact_mod_cast Int.self_le_toNat _
    have := (div_le_iff₀ hs).1 h1
    linarith
  · simp only [List.map_eq_nil_iff, List.range_eq_nil, Int.toNat_eq_zero, Int.ceil_le, Int.cast_zero]
    rw [div_le_iff₀ hs]
    constructor <;> intro h <;> linarith

theorem centers_length (e : List K) : (centers e).length = e.length - 1 := by
  fun_induction centers e with
  | case1 a b l ih => simp [ih]
  | case2 l h => rcases l with _ | ⟨a, _ | ⟨b, l⟩⟩ <;> simp_all

theorem centers_get (e : List K) (i : Nat) (h : i < (centers e).length) (h2 : i + 1 < e.length) : (centers e)[i] = (e[i] + e[i + 1]) / 2 := by
  fun_induction centers e generalizing i with
  | case1 a b l ih =>
    cases i with
    | zero => simp [add_comm]
    | succ i => exact ih i (by simpa using h) (by simpa using h2)
  | case2 l h => simp at h

/-! ### What is fitted -/

theorem holdScale_spec (ps ps' : List (String × Par K)) (h : holdScale ps = .ok ps') :
    List.Forall₂ (fun p q => q.1 = p.1 ∧ q.2.val = p.2.val ∧ (p.1 = "dph_de" → q.2.vary = false) ∧ (p.1 ≠ "dph_de" → q.2.vary = p.2.vary)) ps ps' ∧ ∃ q ∈ ps', q.1 = "dph_de" := by
  unfold holdScale at h
  split at h
  · rename_i ha
    simp only [Except.ok.injEq] at h
    subst h
    refine ⟨?_, ?_⟩
    · rw [List.forall₂_map_right_iff]
      refine List.forall₂_same.2 (fun p _ => ?_)
      by_cases hp : p.1 = "dph_de" <;> simp [hp]
    · obtain ⟨p, hp, he⟩ := List.any_eq_true.1 ha
      have he' : p.1 = "dph_de" := by simpa using he
      exact ⟨_, List.mem_map.2 ⟨p, hp, rfl⟩, by simp [he']⟩
  · cases h

/-- linefit ends with a result exactly if all of its steps do -/
theorem linefit_iff {T R : Type} (gm : String → Bool → Except Exc (Model K R)) (hst : List K → String → T → T → Except Exc (List K × List Nat)) (sn : String) (a : Args K T) (r : R)
    (d : Option (Drawn K)) : linefit gm hst sn a = .ok (r, d) ↔
      isIn "energy".toList a.attr.toList = true ∧ ∃ m e cen counts ps ps', gm a.line a.tails = .ok m ∧ fitEdges a m = .ok e ∧ hst e a.attr a.t0 a.tlast = .ok (cen, counts) ∧
        m.guess counts cen = .ok ps ∧ holdScale ps = .ok ps' ∧ m.fit counts ps' cen = .ok r ∧
        d = if a.plot then some ⟨a.attr ++ " (" ++ a.units ++ ")", a.binsize, a.units, sn ++ "\n" ++ m.text⟩ else none := by
  unfold linefit
  constructor
  · intro h
    split at h
    · cases h
    rename_i he
    split at h
    · cases h
    rename_i m hm
    split at h
    · cases h
    rename_i e hee
    split at h
    · cases h
    rename_i cen counts hh
    split at h
    · cases h
    rename_i ps hps
    split at h
    · cases h
    rename_i ps' hps'
    split at h
    · cases h
    rename_i r' hr
    simp only [Except.ok.injEq, Prod.mk.injEq] at h
    obtain ⟨rfl, rfl⟩ := h
    exact ⟨by simpa using he, m, e, cen, counts, ps, ps', hm, hee, hh, hps, hps', hr, rfl⟩
  · rintro ⟨he, m, e, cen, counts, ps, ps', hm, hee, hh, hps, hps', hr, rfl⟩
    rw [if_neg (by rw [he]; decide), hm]
    dsimp only
    rw [hee]
    dsimp only
    rw [hh]
    dsimp only
    rw [hps]
    dsimp only
    rw [hps']
    dsimp only
    rw [hr]

/-- C152. What a line fit of a channel fits: each bin contains the pulses strictly inside the range of times, good in the category, passing g_func, with a value in the bin; bin edges given are used; the centers are those
of the bins; parameters start at the guess for a scale of 1, and only the scale is held. -/
theorem channel_fit {T R : Type} [LinearOrder T] (gm : String → Bool → Except Exc (Model K R)) (c : Chan K T) (sn : String) (a : Args K T) (r : R) (d : Option (Drawn K))
    (h : linefit gm (hist c) sn a = .ok (r, d)) :
    ∃ m e rs counts cen ps ps', gm a.line a.tails = .ok m ∧ fitEdges a m = .ok e ∧ (∀ b ∈ a.edges, e = b) ∧ c a.attr = .ok rs ∧
      counts.length = e.length - 1 ∧ cen.length = e.length - 1 ∧
      (∀ i (h1 : i < counts.length) (h2 : i < cen.length) (h3 : i + 1 < e.length), cen[i] = (e[i] + e[i + 1]) / 2 ∧
        counts[i] = rs.countP (fun q => decide (a.t0 < q.time ∧ q.time < a.tlast ∧ q.good = true ∧ q.extra = true ∧ ∃ v ∈ q.val, InBin e i v))) ∧
      m.guess counts cen = .ok ps ∧
      List.Forall₂ (fun p q => q.1 = p.1 ∧ q.2.val = p.2.val ∧ (p.1 = "dph_de" → q.2.vary = false) ∧ (p.1 ≠ "dph_de" → q.2.vary = p.2.vary)) ps ps' ∧
      m.fit counts ps' cen = .ok r ∧ (d = none ↔ a.plot = false) ∧ ∀ x ∈ d, x.title = sn ++ "\n" ++ m.text ∧ x.perUnit = a.units := by
  obtain ⟨-, m, e, cen, counts, ps, ps', hm, hee, hh, hps, hps', hr, rfl⟩ := (linefit_iff ..).1 h
  unfold hist at hh
  split at hh
  · cases hh
  rename_i rs hrs
  split at hh
  · cases hh
  rename_i cs hcs
  simp only [Except.ok.injEq, Prod.mk.injEq] at hh
  obtain ⟨rfl, rfl⟩ := hh
  obtain ⟨k1, k2⟩ := channel_hist e a.t0 a.tlast rs hcs
  refine ⟨m, e, rs, cs, centers e, ps, ps', hm, hee, ?_, hrs, k1, centers_length e, fun i h1 h2 h3 => ⟨centers_get e i h2 h3, k2 i h1⟩, hps, (holdScale_spec ps ps' hps').1, hr, ?_, ?_⟩
  · intro b hb
    have hb' : a.edges = some b := hb
    unfold fitEdges at hee
    rw [hb'] at hee
    exact (Except.ok.inj hee).symm
  · cases a.plot <;> simp
  · cases a.plot <;> simp

/-- C152. Without edges the bins are of the width asked for, begin at peak - dlo and end less than one bin before peak + dhi; so a used pulse is counted if its value is from peak - dlo to
peak + dhi - binsize, and is not counted if it is below peak - dlo or at or above peak + dhi. -/
theorem default_range {T R : Type} [LinearOrder T] (a : Args K T) (m : Model K R) (hs : 0 < a.binsize) (he : a.edges = none) (hw : a.binsize < a.dlo + a.dhi) (rs : List (Rec K T)) :
    ∃ e counts last, fitEdges a m = .ok e ∧ chanHist e a.t0 a.tlast rs = .ok counts ∧
      (∀ i (h : i < e.length), e[i] = m.peak - a.dlo + i * a.binsize ∧ e[i] < m.peak + a.dhi) ∧ last < m.peak + a.dhi ∧ m.peak + a.dhi ≤ last + a.binsize ∧
      counts.sum = (usedVals a.t0 a.tlast rs).countP (fun v => decide (m.peak - a.dlo ≤ v ∧ v ≤ last)) := by
  obtain ⟨e, h1, h2, h3, h4⟩ := arange_spec (m.peak - a.dlo) (m.peak + a.dhi) a.binsize hs
  have hlen : 2 ≤ e.length := by
    by_contra hc
    have h5 : (e.length : K) ≤ 1 := by exact_mod_cast (by omega : e.length ≤ 1)
    have := mul_le_mul_of_nonneg_right h5 hs.le
    linarith
  have hmono : ∀ i (h : i + 1 < e.length), e[i] ≤ e[i + 1] := by
    intro i h
    rw [(h2 i (by omega)).1, (h2 (i + 1) h).1]
    push_cast
    linarith
  obtain ⟨counts, hc⟩ := (histogram_refused (usedVals a.t0 a.tlast rs) e).2.2 hmono
  have hlt : e.length - 1 < e.length := by omega
  refine ⟨e, counts, e[e.length - 1], by unfold fitEdges; rw [he]; exact h1, hc, h2, (h2 _ hlt).2, ?_, ?_⟩
  · rw [(h2 _ hlt).1, Nat.cast_sub (by omega), Nat.cast_one]
    linarith
  · refine histogram_total _ e (first := m.peak - a.dlo) (last := e[e.length - 1]) ?_ ?_ hlen hc
    · rw [List.head?_eq_getElem?, List.getElem?_eq_getElem (by omega), (h2 0 (by omega)).1]
      simp
    · rw [List.getLast?_eq_getElem?, List.getElem?_eq_getElem hlt]

/-- C152. A group of one good channel fits the same as the channel; only the title differs. -/
theorem group_of_one {T R : Type} [LinearOrder T] (gm : String → Bool → Except Exc (Model K R)) (n : Nat) (c : Chan K T) (sn : String) (a : Args K T) :
    linefit gm (ghist [(n, c)]) sn a = linefit gm (hist c) sn a := by
  have : ghist [(n, c)] = hist c := by
    funext e attr t0 tlast
    unfold ghist groupHist
    simp only [hists]
    unfold hist
    cases hc : c attr with
    | error x => rfl
    | ok rs =>
      dsimp only
      cases hh : chanHist e t0 tlast rs with
      | error x => rfl
      | ok cs =>
        have h1 := (channel_hist e t0 tlast rs hh).1
        have h2 : List.zipWith (· + ·) (List.replicate (centers e).length 0) cs = cs := by
          refine List.ext_getElem (by simp [centers_length, h1]) (fun i g1 g2 => by simp)
        simp [Except.map, dictSet, h2]
  rw [this]

/-- C152. The histogram that a group fits: bin by bin the sum over its good channels, each counted as by the channel. -/
theorem group_counts {T : Type} [LinearOrder T] (g : List (Nat × Chan K T)) (hn : (g.map Prod.fst).Nodup) (e : List K) (attr : String) (t0 tlast : T) (cen : List K) (counts : List Nat)
    (h : ghist g e attr t0 tlast = .ok (cen, counts)) :
    cen = centers e ∧ counts.length = e.length - 1 ∧ ∃ rss : List (List (Rec K T)), g.map (fun c => c.2 attr) = rss.map .ok ∧
      ∀ i (hi : i < counts.length), counts[i] = (rss.map (fun rs => rs.countP (fun q => decide (t0 < q.time ∧ q.time < tlast ∧ q.good = true ∧ q.extra = true ∧ ∃ v ∈ q.val, InBin e i v)))).sum := by
  unfold ghist at h
  split at h
  · cases h
  rename_i cs hcs
  simp only [Except.ok.injEq, Prod.mk.injEq] at h
  obtain ⟨rfl, rfl⟩ := h
  have key : ∀ c : Chan K T, ∀ v, (hist c e attr t0 tlast).map Prod.snd = .ok v → ∃ rs, c attr = .ok rs ∧ chanHist e t0 tlast rs = .ok v := by
    intro c v hv
    unfold hist at hv
    cases hc : c attr with
    | error x => rw [hc] at hv; cases hv
    | ok rs =>
      rw [hc] at hv
      dsimp only at hv
      cases hh : chanHist e t0 tlast rs with
      | error x => rw [hh] at hv; cases hv
      | ok cs =>
        rw [hh] at hv
        simp only [Except.map, Except.ok.injEq] at hv
        exact ⟨rs, rfl, by rw [hh, hv]⟩
  obtain ⟨k1, vs, k2, k3⟩ := group_hist _ _ g hn (fun c _ v hv => by
    obtain ⟨rs, _, h2⟩ := key c.2 v hv
    rw [(channel_hist e t0 tlast rs h2).1, centers_length]) hcs
  refine ⟨rfl, by rw [k1, centers_length], ?_⟩
  have : ∀ (g : List (Nat × Chan K T)) (vs : List (List Nat)), g.map (fun c => (hist c.2 e attr t0 tlast).map Prod.snd) = vs.map .ok →
      ∃ rss : List (List (Rec K T)), g.map (fun c => c.2 attr) = rss.map .ok ∧ List.Forall₂ (fun rs v => chanHist e t0 tlast rs = .ok v) rss vs := by
    intro g
    induction g with
    | nil => intro vs hv; cases vs with
      | nil => exact ⟨[], rfl, .nil⟩
      | cons v vs => simp at hv
    | cons c g ih => intro vs hv; cases vs with
      | nil => simp at hv
      | cons v vs =>
        simp only [List.map_cons, List.cons.injEq] at hv
        obtain ⟨rs, r1, r2⟩ := key c.2 v hv.1
        obtain ⟨rss, s1, s2⟩ := ih vs hv.2
        exact ⟨rs :: rss, by simp [r1, s1], .cons r2 s2⟩
  obtain ⟨rss, s1, s2⟩ := this g vs k2
  refine ⟨rss, s1, fun i hi => ?_⟩
  have h0 := k3 i
  rw [List.getD_eq_getElem?_getD, List.getElem?_eq_getElem hi, Option.getD_some] at h0
  rw [h0]
  have hi' : i < e.length - 1 := by rw [k1, centers_length] at hi; exact hi
  clear h0 k3 k2 s1 hcs
  induction s2 with
  | nil => rfl
  | cons hx _ ih =>
    obtain ⟨q1, q2⟩ := channel_hist e t0 tlast _ hx
    simp only [List.map_cons, List.sum_cons, ih]
    rw [List.getD_eq_getElem?_getD, List.getElem?_eq_getElem (by omega), Option.getD_some, q2 i (by omega)]

/-- C152. Disagreement (C152): any attribute without "energy" in its name is refused with AssertionError, also with bin edges given, although the documentation offers p_filt_value. -/
theorem attr_fails {T R : Type} (gm : String → Bool → Except Exc (Model K R)) (hst : List K → String → T → T → Except Exc (List K × List Nat)) (sn : String) (a : Args K T)
    (h : a.attr = "p_filt_value" ∨ a.attr = "p_filt_value_dc" ∨ a.attr = "p_pulse_average") : linefit gm hst sn a = .error .assertion := by
  unfold linefit
  rw [if_pos]
  rcases h with h | h | h <;> rw [h] <;> decide +kernel

/-- C152. Disagreement (C152): guess_params and label, documented as passed on to the fit and the plot, change nothing. -/
theorem unused_fails {T R : Type} (gm : String → Bool → Except Exc (Model K R)) (hst : List K → String → T → T → Except Exc (List K × List Nat)) (sn : String) (a : Args K T) (l : String)
    (g : Option (List (String × K))) : linefit gm hst sn { a with label := l, guess := g } = linefit gm hst sn a := rfl

/-- C152. Disagreement (C152): the plot of a fit with given bin edges is labelled with the argument binsize (1 by default), whatever the bins: here they are 5 wide. -/
theorem label_fails : let m : Model ℚ Nat := ⟨100, "line", fun _ _ => .ok [("dph_de", ⟨1, true⟩)], fun c _ _ => .ok c.sum⟩
    ((linefit (fun _ _ => .ok m) (hist (fun _ => .ok [⟨some 101, (5 : ℚ), true, true⟩])) "ds" ⟨"line", 0, 10, 50, 50, 1, some [95, 100, 105], "p_energy", "full", true, none, "eV", false⟩).toOption.bind
      (fun p => p.2.map Drawn.perBin)) = some 1 := by decide +kernel

/-! ### Energies in a text file -/

/-- C152. The file has the good energies of all good channels, channel by channel, in their order. -/
theorem save_spec {V : Type} (name : String) (g : List (List V × List Bool)) :
    (saveEnergies name g).1 = name ++ ".energies" ∧ (saveEnergies name g).2 = (g.map (fun c => (c.1.zip c.2).filterMap (fun p => if p.2 then some p.1 else none))).flatten := by
  refine ⟨rfl, ?_⟩
  unfold saveEnergies
  dsimp only
  have : ∀ (acc : List V), g.foldl (fun acc c => acc ++ (c.1.zip c.2).filterMap (fun p => if p.2 then some p.1 else none)) acc =
      acc ++ (g.map (fun c => (c.1.zip c.2).filterMap (fun p => if p.2 then some p.1 else none))).flatten := by
    induction g with
    | nil => intro acc; simp
    | cons c g ih => intro acc; rw [List.foldl_cons, ih]; simp
  simpa using this []

theorem written_close {x d : ℚ} (h : Written x d) : |d - x| ≤ |x| / 10 ^ 10 := by
  obtain ⟨m, k, h1, h2, rfl, h4⟩ := h
  have hk : (0 : ℚ) < 10 ^ k := by positivity
  have h1' : (10 : ℚ) ^ 10 ≤ |(m : ℚ)| := by rw [← Int.cast_abs]; exact_mod_cast h1
  have h5 : |(m : ℚ) * 10 ^ k| = |(m : ℚ)| * 10 ^ k := by rw [abs_mul, abs_of_pos hk]
  have h6 : |(m : ℚ) * 10 ^ k| ≤ |(m : ℚ) * 10 ^ k - x| + |x| := by
    have := abs_add_le ((m : ℚ) * 10 ^ k - x) x
    simpa using this
  have h7 := mul_le_mul_of_nonneg_right h1' hk.le
  rw [h5] at h6
  rw [le_div_iff₀ (by norm_num)]
  nlinarith

theorem float32_apart {x y : ℚ} (hx : Float32 x) (hy : Float32 y) (hne : x ≠ y) : |x| / 2 ^ 25 ≤ |x - y| := by
  obtain ⟨m, e, h1, h2, h3, rfl⟩ := hx
  obtain ⟨n, f, g1, g2, g3, rfl⟩ := hy
  have he : (0 : ℚ) < 2 ^ e := by positivity
  have hm : |(m : ℚ)| < 2 ^ 24 := by rw [← Int.cast_abs]; exact_mod_cast h1
  have hn : |(n : ℚ)| ≤ 2 ^ 24 - 1 := by
    rw [← Int.cast_abs]
    have : |n| ≤ 2 ^ 24 - 1 := by omega
    exact_mod_cast this
  have habs : |(m : ℚ) * 2 ^ e| = |(m : ℚ)| * 2 ^ e := by rw [abs_mul, abs_of_pos he]
  have hub : |(m : ℚ) * 2 ^ e| / 2 ^ 25 ≤ 2 ^ e / 2 := by
    rw [habs, div_le_div_iff₀ (by norm_num) (by norm_num)]
    nlinarith
  refine hub.trans ?_
  rcases le_or_gt e f with hle | hlt
  · -- the difference is a multiple of 2^e
    obtain ⟨j, hj⟩ := Int.le.dest hle
    have hf : (2 : ℚ) ^ f = 2 ^ e * ((2 ^ j : ℤ) : ℚ) := by
      rw [← hj, zpow_add₀ (by norm_num), zpow_natCast]
      push_cast
      rfl
    have hd : (m : ℚ) * 2 ^ e - n * 2 ^ f = ((m - n * 2 ^ j : ℤ) : ℚ) * 2 ^ e := by
      rw [hf]
      push_cast
      ring
    have hz : m - n * 2 ^ j ≠ 0 := by
      intro hz
      apply hne
      have : (m : ℚ) * 2 ^ e - n * 2 ^ f = 0 := by rw [hd, hz]; simp
      linarith
    rw [hd, abs_mul, abs_of_pos he, ← Int.cast_abs]
    have : (1 : ℚ) ≤ ((|m - n * 2 ^ j| : ℤ) : ℚ) := by exact_mod_cast Int.one_le_abs hz
    nlinarith
  · -- y has a smaller exponent, so x has its leading digit
    have hm2 : 2 ^ 23 ≤ |m| := h3.resolve_right (by omega)
    have hm2' : (2 : ℚ) ^ 23 ≤ |(m : ℚ)| := by rw [← Int.cast_abs]; exact_mod_cast hm2
    have hf : (2 : ℚ) ^ f ≤ 2 ^ e / 2 := by
      have : (2 : ℚ) ^ f ≤ 2 ^ (e - 1) := zpow_le_zpow_right₀ (by norm_num) (by omega)
      rw [zpow_sub_one₀ (by norm_num)] at this
      linarith
    have hfp : (0 : ℚ) < 2 ^ f := by positivity
    have hy : |(n : ℚ) * 2 ^ f| ≤ (2 ^ 24 - 1) * (2 ^ e / 2) := by
      rw [abs_mul, abs_of_pos hfp]
      exact mul_le_mul hn hf hfp.le (by norm_num)
    have hx : 2 ^ 23 * 2 ^ e ≤ |(m : ℚ) * 2 ^ e| := by
      rw [habs]
      exact mul_le_mul_of_nonneg_right hm2' he.le
    have := abs_sub_abs_le_abs_sub ((m : ℚ) * 2 ^ e) (n * 2 ^ f)
    nlinarith

/-- C152. No precision is lost in the text file: the number written is nearer to the energy it was made from than to any other energy of the type stored. -/
theorem text_exact {x y d : ℚ} (hx : Float32 x) (hy : Float32 y) (hne : x ≠ y) (hd : Written x d) : |d - x| < |d - y| := by
  have h1 := written_close hd
  have h2 := float32_apart hx hy hne
  have h3 : |x - y| ≤ |d - x| + |d - y| := by
    have := abs_sub_le x d y
    rwa [abs_sub_comm x d] at this
  have h4 : 0 < |x - y| := abs_pos.2 (sub_ne_zero.2 hne)
  have h5 : |x| ≤ 2 ^ 25 * |x - y| := by
    rw [div_le_iff₀ (by norm_num)] at h2
    linarith
  have h6 : |d - x| * 10 ^ 10 ≤ |x| := (le_div_iff₀ (by norm_num)).1 h1
  nlinarith

/-! ### Reports on filters -/

/-- C152. Disagreement (C152): the resolving power reported by summarize_filters is that predicted by the filter divided by its nominal peak, and the resolution is that much larger: they agree
only if the peak is 1. -/
theorem summarize_fails (std : ℝ) (name : String) (f : Fil) (file : List (String × ℝ)) (hv : 0 < f.variance) (hp : 0 < f.peak) :
    ∃ vdv res, reported std name (some f) file = some (vdv, res) ∧ vdv * f.peak = predicted f ∧ res = predictedRes std f * f.peak ∧ (vdv = predicted f ↔ f.peak = 1) := by
  have hl : 0 < Real.log 2 := Real.log_pos (by norm_num)
  have hs : Real.sqrt (8 * Real.log 2 * f.variance) = Real.sqrt f.variance * Real.sqrt (Real.log 2 * 8) := by
    rw [← Real.sqrt_mul hv.le]
    congr 1
    ring
  have h1 : 0 < Real.sqrt f.variance := Real.sqrt_pos.2 hv
  have h2 : 0 < Real.sqrt (Real.log 2 * 8) := Real.sqrt_pos.2 (by positivity)
  have hmul : 1 / Real.sqrt f.variance / Real.sqrt (Real.log 2 * 8) * f.peak = predicted f := by
    unfold predicted
    rw [hs]
    field_simp
  have hpos : 0 < 1 / Real.sqrt f.variance / Real.sqrt (Real.log 2 * 8) := by positivity
  refine ⟨_, _, rfl, hmul, ?_, ?_⟩
  · unfold predictedRes
    rw [← hmul]
    field_simp
  · constructor
    · intro h
      rw [h] at hmul
      have : predicted f ≠ 0 := by rw [← h]; exact hpos.ne'
      exact mul_left_cancel₀ this (by rw [hmul, mul_one])
    · intro h
      rw [h, mul_one] at hmul
      exact hmul

/-- C152. Disagreement (C152): without a filter in memory the one in the file is never found, whatever its kind and the name given, as it is saved under another name. -/
theorem stored_fails (std : ℝ) (name : String) (ats : Bool) (file : List (String × ℝ)) (h : file.map Prod.fst = savedNames ats) : reported std name none file = none := by
  have hne : ∀ p ∈ file, p.1 = "values" ∨ p.1 = "dt_values" := by
    intro p hp
    have : p.1 ∈ savedNames ats := by rw [← h]; exact List.mem_map.2 ⟨p, hp, rfl⟩
    unfold savedNames at this
    cases ats <;> simp_all
  have hfil : ∀ n : String, "filt_" ++ n ≠ "values" ∧ "filt_" ++ n ≠ "dt_values" := by
    intro n
    constructor <;> intro hc <;> have := congrArg (fun s => s.toList.head?) hc <;> simp at this
  have : file.find? (fun p => p.1 == "filt_" ++ name) = none := by
    refine List.find?_eq_none.2 (fun p hp hc => ?_)
    have hc' : p.1 = "filt_" ++ name := by simpa using hc
    rcases hne p hp with h' | h'
    · exact (hfil name).1 (by rw [← hc', h'])
    · exact (hfil name).2 (by rw [← hc', h'])
  unfold reported
  rw [this]
  rfl

/-! ### Examples -/

example : arange (95 : ℚ) 105 4 = .ok [95, 99, 103] := by decide +kernel
example : arange (95 : ℚ) 105 5 = .ok [95, 100] := by decide +kernel
example : arange (95 : ℚ) 90 5 = .ok [] := by decide +kernel
/-- a fit of two channels with the counts as its result: one pulse is bad, one late, one outside -/
example : let m : Model ℚ (List Nat × List ℚ) := ⟨100, "line", fun _ _ => .ok [("fwhm", ⟨2, true⟩), ("dph_de", ⟨1, true⟩)], fun c p e => .ok (c, e ++ p.map (fun q => q.2.val))⟩
    let c1 : Chan ℚ ℚ := fun s => if s = "p_energy" then .ok [⟨some 101, 5, true, true⟩, ⟨some 96, 6, false, true⟩, ⟨some 99, 11, true, true⟩] else .error .attribute
    let c2 : Chan ℚ ℚ := fun s => if s = "p_energy" then .ok [⟨some 97, 5, true, true⟩, ⟨some 103, 6, true, true⟩, ⟨some 104, 7, true, true⟩, ⟨none, 7, true, true⟩] else .error .attribute
    (linefit (fun _ _ => .ok m) (ghist [(1, c1), (3, c2)]) "g, 2 chans" ⟨"line", 0, 10, 5, 5, 4, none, "p_energy", "full", true, none, "eV", false⟩) =
      .ok (([1, 2], [97, 101, 2, 1]), some ⟨"p_energy (eV)", 4, "eV", "g, 2 chans\nline"⟩) := by decide +kernel
example : saveEnergies "run5" [([1, 2, 3], [true, false, true]), ([], []), ([4], [true])] = ("run5.energies", [1, 3, 4]) := by decide
/-- 5898.8 as a float32 and as text -/
example : Float32 (12080742 / 2048) ∧ Written (12080742 / 2048) (58987998047 * (10 : ℚ) ^ (-7 : ℤ)) := by
  refine ⟨⟨12080742, -11, by norm_num, by norm_num, by norm_num, by norm_num [zpow_neg]⟩, 58987998047, -7, by norm_num, by norm_num, by norm_num, ?_⟩
  rw [abs_le]
  constructor <;> norm_num [zpow_neg]

end Mass.Group.LineFits
