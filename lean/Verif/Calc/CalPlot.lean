import Verif.Py
import Mathlib.Analysis.SpecialFunctions.Log.Deriv
import Mathlib.Analysis.SpecialFunctions.Pow.Deriv
import Mathlib.Analysis.SpecialFunctions.Sqrt
import Mathlib.Tactic.Ring
import Mathlib.Tactic.Linarith
import Mathlib.Tactic.NormNum
import Mathlib.Tactic.FieldSimp
/-! C165: plots of calibration curves (mass/calibration/energy_calibration.py `EnergyCalibration.plot`). Real numbers. -/
namespace Mass.Calc.CalPlot
open Real Mass

/-! ### model -/

/-- a calibration point (energy_calibration.py L640-644: `_names`, `_ph`, `_energies`, `_dph`, `_de`) -/
structure Pt where
  name : String
  ph : ℝ
  e : ℝ
  dph : ℝ
  de : ℝ

/-- what the plot uses of a calibration (energy_calibration.py L633-640): the points in order of pulse height, the curve, its inverse and its uncertainty,
and whether it is approximating -/
structure Cal where
  pts : List Pt
  E : ℝ → ℝ
  inv : ℝ → ℝ
  unc : ℝ → ℝ
  approx : Bool

/-- the types of plot, energy_calibration.py L659-703 -/
inductive Kind
  | linear | gain | invgain | loggain | loglog
deriving DecidableEq

/-- energy_calibration.py L659-703 -/
def kindOf (s : String) : Option Kind :=
  if s = "linear" then some .linear
  else if s = "gain" then some .gain
  else if s = "invgain" then some .invgain
  else if s = "loggain" then some .loggain
  else if s = "loglog" then some .loglog
  else none

/-- what is drawn: the curve, the two curves of its uncertainty, the points with their horizontal and vertical error bars, and the names at their places
(energy_calibration.py L709-724) -/
structure Plot where
  curve : List (ℝ × ℝ)
  band : Option (List (ℝ × ℝ) × List (ℝ × ℝ))
  points : List (ℝ × ℝ × ℝ × ℝ)
  texts : List (ℝ × ℝ × String)

/-- a point of the curve at one pulse height, energy_calibration.py L639-694 (`eplot`, `gplot`, `xplot`, `yplot`) -/
noncomputable def curveXY (c : Cal) (k : Kind) (p : ℝ) (ex : Bool) (ph : ℝ) : ℝ × ℝ :=
  let x := if ex then c.E ph else ph
  match k with
  | .linear => (x, c.E ph / ph ^ p)
  | .gain => (x, ph / c.E ph)
  | .invgain => (x, 1 / (ph / c.E ph))
  | .loggain => (x, log (ph / c.E ph))
  | .loglog => (log ph, log (c.E ph))

/-- the uncertainty of the curve, energy_calibration.py L661-692 (`dyplot`) -/
noncomputable def bandY (c : Cal) (k : Kind) (p : ℝ) (ph : ℝ) : ℝ :=
  match k with
  | .linear => c.unc ph / ph ^ p
  | .gain => c.unc ph / c.E ph * (ph / c.E ph)
  | .invgain => c.unc ph / ph
  | .loggain => c.unc ph / c.E ph
  | .loglog => c.unc ph / c.E ph

/-- a calibration point in the plot, energy_calibration.py L641-694 (`gains`, `x`, `y`) -/
noncomputable def pointXY (k : Kind) (p : ℝ) (ex : Bool) (t : Pt) : ℝ × ℝ :=
  let x := if ex then t.e else t.ph
  match k with
  | .linear => (x, t.e / t.ph ^ p)
  | .gain => (x, t.ph / t.e)
  | .invgain => (x, 1 / (t.ph / t.e))
  | .loggain => (x, log (t.ph / t.e))
  | .loglog => (log t.ph, log t.e)

/-- the horizontal error bar, energy_calibration.py L645-649 and L695 -/
noncomputable def xErr (k : Kind) (ex : Bool) (t : Pt) : ℝ :=
  match k with
  | .loglog => t.dph / t.ph
  | _ => if ex then t.de else t.dph

/-- the vertical error bar, energy_calibration.py L715 -/
noncomputable def yErr (t : Pt) (y : ℝ) : ℝ := √((t.de / t.e) ^ 2 + (t.dph / t.ph) ^ 2) * y

/-- `_ph.max()`, energy_calibration.py L634: ValueError without points -/
noncomputable def maxPh : List Pt → Except Exc ℝ
  | [] => .error .value
  | t :: r => .ok (r.foldl (fun m q => max m q.ph) t.ph)

/-- `np.linspace(lo, hi, 1000)`, energy_calibration.py L639 -/
noncomputable def grid (lo hi : ℝ) : List ℝ := (List.range 1000).map (fun i : ℕ => lo + i * ((hi - lo) / 999))

/-- energy_calibration.py L634-638: the first and the last pulse height of the curve -/
noncomputable def range (c : Cal) (m : ℝ) (minE maxE : Option ℝ) : ℝ × ℝ := ((minE.map c.inv).getD (m * 0.001), (maxE.map c.inv).getD (m * 1.1))

/-- energy_calibration.py L644 and L705-706: the slope taken off. None stands for a division by zero. -/
noncomputable def slopeOf (remove : Bool) (xy : List (ℝ × ℝ)) : Option ℝ :=
  if remove then
    match xy, xy.getLast? with
    | a :: _, some b => if b.1 - a.1 = 0 then none else some ((b.2 - a.2) / (b.1 - a.1))
    | _, _ => none
  else some 0

/-- energy_calibration.py L631-724 `plot`. Negative error bars are refused by matplotlib with a ValueError. After a division by zero every value drawn is NaN:
nothing is seen. Axes, colours, titles and labels are left out (for a label see `yLabel`). -/
noncomputable def plot (c : Cal) (plottype : String) (p : ℝ) (remove ex showtext showerrors : Bool) (minE maxE : Option ℝ) : Except Exc Plot :=
  match maxPh c.pts with
  | .error e => .error e
  | .ok m =>
    match kindOf plottype with
    | none => .error .value
    | some k =>
      let g := grid (range c m minE maxE).1 (range c m minE maxE).2
      let xy := c.pts.map (pointXY k p ex)
      if ∃ t ∈ c.pts, yErr t (pointXY k p ex t).2 < 0 then .error .value
      else match slopeOf remove xy with
        | none => .ok ⟨[], none, [], []⟩
        | some a =>
          let y := fun ph => (curveXY c k p ex ph).2 - a * (curveXY c k p ex ph).1
          .ok ⟨g.map (fun ph => ((curveXY c k p ex ph).1, y ph)),
            if c.approx && showerrors then
              some (g.map (fun ph => ((curveXY c k p ex ph).1, y ph + bandY c k p ph)), g.map (fun ph => ((curveXY c k p ex ph).1, y ph - bandY c k p ph)))
            else none,
            c.pts.map (fun t => ((pointXY k p ex t).1, (pointXY k p ex t).2 - a * (pointXY k p ex t).1, xErr k ex t, yErr t (pointXY k p ex t).2)),
            if showtext then c.pts.map (fun t => ((pointXY k p ex t).1, (pointXY k p ex t).2 - a * (pointXY k p ex t).1, t.name)) else []⟩

/-- the label of the vertical axis, energy_calibration.py L664-694, for the types of plot without a number in it -/
def yLabel : Kind → String
  | .linear => "Energy (eV)"
  | .gain => "Gain (PH/eV)"
  | .invgain => "Inverse Gain (eV/PH)"
  | .loggain => "Log Gain: log(eV/PH)"
  | .loglog => "Log energy/1 eV"

/-! ### the curve and the points -/

/-- the quantity each type of plot shows for a pulse height and its energy [specification] -/
noncomputable def Shown (k : Kind) (p ph e : ℝ) : ℝ :=
  match k with
  | .linear => e * ph ^ (-p)
  | .gain => ph / e
  | .invgain => e / ph
  | .loggain => log ph - log e
  | .loglog => log e

/-- the horizontal axis [specification] -/
noncomputable def Across (k : Kind) (ex : Bool) (ph e : ℝ) : ℝ := if k = .loglog then log ph else if ex then e else ph

theorem curve_shown (c : Cal) (k : Kind) (p : ℝ) (ex : Bool) {ph : ℝ} (hp : 0 < ph) (he : 0 < c.E ph) :
    curveXY c k p ex ph = (Across k ex ph (c.E ph), Shown k p ph (c.E ph)) := by
  cases k <;> simp [curveXY, Across, Shown]
  · rw [rpow_neg hp.le, div_eq_mul_inv]
  · rw [log_div hp.ne' he.ne']

theorem point_shown (k : Kind) (p : ℝ) (ex : Bool) {t : Pt} (hp : 0 < t.ph) (he : 0 < t.e) :
    pointXY k p ex t = (Across k ex t.ph t.e, Shown k p t.ph t.e) := by
  cases k <;> simp [pointXY, Across, Shown]
  · rw [rpow_neg hp.le, div_eq_mul_inv]
  · rw [log_div hp.ne' he.ne']

/-- the names of the types of plot [specification] -/
def Kind.name : Kind → String
  | .linear => "linear" | .gain => "gain" | .invgain => "invgain" | .loggain => "loggain" | .loglog => "loglog"

theorem kindOf_iff (s : String) (k : Kind) : kindOf s = some k ↔ s = k.name := by
  unfold kindOf
  constructor
  · intro h
    repeat' split at h
    all_goals first | (cases h; assumption) | cases h
  · rintro rfl
    cases k <;> decide

theorem plot_ok {c : Cal} {s : String} {p : ℝ} {remove ex showtext showerrors : Bool} {minE maxE : Option ℝ} {r : Plot}
    (h : plot c s p remove ex showtext showerrors minE maxE = .ok r) :
    ∃ m k, maxPh c.pts = .ok m ∧ s = k.name ∧ (∀ t ∈ c.pts, 0 ≤ yErr t (pointXY k p ex t).2) ∧
      ((slopeOf remove (c.pts.map (pointXY k p ex)) = none ∧ r = ⟨[], none, [], []⟩) ∨ ∃ a, slopeOf remove (c.pts.map (pointXY k p ex)) = some a ∧
        r.curve = (grid (range c m minE maxE).1 (range c m minE maxE).2).map
          (fun ph => ((curveXY c k p ex ph).1, (curveXY c k p ex ph).2 - a * (curveXY c k p ex ph).1)) ∧
        r.band = (if c.approx && showerrors then
          some ((grid (range c m minE maxE).1 (range c m minE maxE).2).map
              (fun ph => ((curveXY c k p ex ph).1, (curveXY c k p ex ph).2 - a * (curveXY c k p ex ph).1 + bandY c k p ph)),
            (grid (range c m minE maxE).1 (range c m minE maxE).2).map
              (fun ph => ((curveXY c k p ex ph).1, (curveXY c k p ex ph).2 - a * (curveXY c k p ex ph).1 - bandY c k p ph)))
          else none) ∧
        r.points = c.pts.map (fun t => ((pointXY k p ex t).1, (pointXY k p ex t).2 - a * (pointXY k p ex t).1, xErr k ex t, yErr t (pointXY k p ex t).2)) ∧
        r.texts = (if showtext then c.pts.map (fun t => ((pointXY k p ex t).1, (pointXY k p ex t).2 - a * (pointXY k p ex t).1, t.name)) else [])) := by
  unfold plot at h
  split at h
  · cases h
  · rename_i m hm
    split at h
    · cases h
    · rename_i k hk
      dsimp only at h
      split at h
      · cases h
      · rename_i hy
        refine ⟨m, k, hm, (kindOf_iff s k).1 hk, fun t ht => not_lt.1 fun hlt => hy ⟨t, ht, hlt⟩, ?_⟩
        split at h
        · rename_i hs
          cases h
          exact .inl ⟨hs, rfl⟩
        · rename_i a hs
          have e := Except.ok.inj h
          refine .inr ⟨a, hs, ?_, ?_, ?_, ?_⟩ <;> rw [← e]

theorem grid_getElem (lo hi : ℝ) (i : ℕ) (h : i < (grid lo hi).length) : (grid lo hi)[i] = lo + i * ((hi - lo) / 999) := by
  simp [grid]

theorem grid_length (lo hi : ℝ) : (grid lo hi).length = 1000 := by
  simp [grid]

theorem slope_off (xy : List (ℝ × ℝ)) : slopeOf false xy = some 0 := rfl

/-- C165. The curve drawn shows, for 1000 evenly spaced pulse heights (of the limits see `plot_range`), the quantity of the plot against the pulse height, its
logarithm or the energy. Every calibration point is drawn at its own place, and its name beside it if asked for. -/
theorem plot_curve {c : Cal} {k : Kind} {p : ℝ} {ex showtext showerrors : Bool} {minE maxE : Option ℝ} {r : Plot}
    (h : plot c k.name p false ex showtext showerrors minE maxE = .ok r) (hE : ∀ ph, 0 < ph → 0 < c.E ph) (hp : ∀ t ∈ c.pts, 0 < t.ph ∧ 0 < t.e) :
    (∃ lo hi : ℝ, r.curve.length = 1000 ∧ ∀ i (hi' : i < r.curve.length), 0 < lo + i * ((hi - lo) / 999) →
      r.curve[i] = (Across k ex (lo + i * ((hi - lo) / 999)) (c.E (lo + i * ((hi - lo) / 999))),
        Shown k p (lo + i * ((hi - lo) / 999)) (c.E (lo + i * ((hi - lo) / 999))))) ∧
    r.points.map (fun q => (q.1, q.2.1)) = c.pts.map (fun t => (Across k ex t.ph t.e, Shown k p t.ph t.e)) ∧
    r.texts = if showtext then c.pts.map (fun t => (Across k ex t.ph t.e, Shown k p t.ph t.e, t.name)) else [] := by
  obtain ⟨m, k', _, hk, _, ⟨hs, _⟩ | ⟨a, hs, h1, _, h3, h4⟩⟩ := plot_ok h
  · rw [slope_off] at hs
    cases hs
  rw [slope_off] at hs
  obtain rfl : (0 : ℝ) = a := Option.some.inj hs
  obtain rfl : k = k' := Option.some.inj (((kindOf_iff _ _).2 rfl).symm.trans ((kindOf_iff _ _).2 hk))
  refine ⟨⟨(range c m minE maxE).1, (range c m minE maxE).2, ?_, ?_⟩, ?_, ?_⟩
  · rw [h1, List.length_map, grid_length]
  · intro i hi' hpos
    have e : r.curve[i] = ((grid (range c m minE maxE).1 (range c m minE maxE).2).map
          (fun ph => ((curveXY c k p ex ph).1, (curveXY c k p ex ph).2 - 0 * (curveXY c k p ex ph).1)))[i]'(by rw [← h1]; exact hi') := by
      simp only [h1]
    rw [e, List.getElem_map, grid_getElem, zero_mul, sub_zero, curve_shown c k p ex hpos (hE _ hpos)]
  · rw [h3, List.map_map]
    refine List.map_congr_left fun t ht => ?_
    simp only [Function.comp, zero_mul, sub_zero]
    rw [point_shown k p ex (hp t ht).1 (hp t ht).2]
  · rw [h4]
    congr 1
    refine List.map_congr_left fun t ht => ?_
    rw [zero_mul, sub_zero, point_shown k p ex (hp t ht).1 (hp t ht).2]

/-- C165. If the calibration goes through its points (an exact one does, C66), the points drawn lie on the curve drawn, whatever the type of plot, with and without
removal of the slope: there is one function of the pulse height that gives both. -/
theorem points_on_curve {c : Cal} {s : String} {p : ℝ} {remove ex showtext showerrors : Bool} {minE maxE : Option ℝ} {r : Plot}
    (h : plot c s p remove ex showtext showerrors minE maxE = .ok r) (hE : ∀ t ∈ c.pts, c.E t.ph = t.e) :
    (r.curve = [] ∧ r.points = []) ∨ ∃ f : ℝ → ℝ × ℝ, (∃ lo hi, r.curve = (grid lo hi).map f) ∧ r.points.map (fun q => (q.1, q.2.1)) = c.pts.map (fun t => f t.ph) := by
  obtain ⟨m, k, _, hk, _, ⟨hs, rfl⟩ | ⟨a, hs, h1, _, h3, h4⟩⟩ := plot_ok h
  · exact .inl ⟨rfl, rfl⟩
  · refine .inr ⟨_, ⟨_, _, h1⟩, ?_⟩
    rw [h3, List.map_map]
    refine List.map_congr_left fun t ht => ?_
    have e : pointXY k p ex t = curveXY c k p ex t.ph := by
      unfold pointXY curveXY
      rw [hE t ht]
    simp only [Function.comp, e]

theorem foldl_max_ge (l : List Pt) (x : ℝ) : x ≤ l.foldl (fun m q => max m q.ph) x ∧ ∀ t ∈ l, t.ph ≤ l.foldl (fun m q => max m q.ph) x := by
  induction l generalizing x with
  | nil => exact ⟨le_refl _, by simp⟩
  | cons a r ih =>
    obtain ⟨h1, h2⟩ := ih (max x a.ph)
    refine ⟨(le_max_left _ _).trans h1, fun t ht => ?_⟩
    rcases List.mem_cons.1 ht with rfl | ht
    · exact (le_max_right _ _).trans h1
    · exact h2 t ht

theorem foldl_max_mem (l : List Pt) (x : ℝ) : l.foldl (fun m q => max m q.ph) x = x ∨ ∃ t ∈ l, t.ph = l.foldl (fun m q => max m q.ph) x := by
  induction l generalizing x with
  | nil => exact .inl rfl
  | cons a r ih =>
    rcases ih (max x a.ph) with h | ⟨t, ht, h⟩
    · rcases le_total x a.ph with hx | hx
      · right
        refine ⟨a, by simp, ?_⟩
        rw [List.foldl_cons, h, max_eq_right hx]
      · left
        rw [List.foldl_cons, h, max_eq_left hx]
    · exact .inr ⟨t, by simp [ht], h⟩

theorem maxPh_spec {l : List Pt} {m : ℝ} (h : maxPh l = .ok m) : (∀ t ∈ l, t.ph ≤ m) ∧ ∃ t ∈ l, t.ph = m := by
  cases l with
  | nil => cases h
  | cons a r =>
    obtain rfl := Except.ok.inj h
    obtain ⟨h1, h2⟩ := foldl_max_ge r a.ph
    refine ⟨fun t ht => ?_, ?_⟩
    · rcases List.mem_cons.1 ht with rfl | ht
      · exact h1
      · exact h2 t ht
    · rcases foldl_max_mem r a.ph with h | ⟨t, ht, h⟩
      · exact ⟨a, by simp, h.symm⟩
      · exact ⟨t, by simp [ht], h⟩

/-- C165. The range of the curve: from a thousandth of the largest pulse height to a tenth beyond it, or from and to the energies asked for. -/
theorem plot_range {c : Cal} {k : Kind} {p : ℝ} {showtext showerrors : Bool} {minE maxE : Option ℝ} {r : Plot} (hk : k ≠ .loglog)
    (h : plot c k.name p false true showtext showerrors minE maxE = .ok r) :
    ∃ m, (∀ t ∈ c.pts, t.ph ≤ m) ∧ (∃ t ∈ c.pts, t.ph = m) ∧
      (r.curve.head?.map Prod.fst = some (c.E (minE.elim (m / 1000) c.inv))) ∧
      (r.curve.getLast?.map Prod.fst = some (c.E (maxE.elim (m * 11 / 10) c.inv))) := by
  obtain ⟨m, k', hm, hk', _, ⟨hs, _⟩ | ⟨a, hs, h1, _, _, _⟩⟩ := plot_ok h
  · rw [slope_off] at hs
    cases hs
  obtain rfl : k = k' := Option.some.inj (((kindOf_iff _ _).2 rfl).symm.trans ((kindOf_iff _ _).2 hk'))
  obtain ⟨m1, m2⟩ := maxPh_spec hm
  have hfst : ∀ ph, (curveXY c k p true ph).1 = c.E ph := by
    intro ph
    clear h hs h1 hm
    cases k <;> first | rfl | exact absurd rfl hk
  refine ⟨m, m1, m2, ?_, ?_⟩
  · rw [h1, List.head?_map, List.head?_eq_getElem?, List.getElem?_eq_getElem (grid_length _ _ ▸ Nat.succ_pos 999), grid_getElem]
    simp only [Option.map_some, hfst]
    congr 2
    cases minE with
    | none => simp [range]; ring
    | some a => simp [range]
  · rw [h1, List.getLast?_map, List.getLast?_eq_getElem?, grid_length, List.getElem?_eq_getElem (by rw [grid_length]; norm_num), grid_getElem]
    simp only [Option.map_some, hfst]
    congr 2
    have e : (range c m minE maxE).1 + ((1000 - 1 : ℕ) : ℝ) * (((range c m minE maxE).2 - (range c m minE maxE).1) / 999) = (range c m minE maxE).2 := by
      norm_num
      ring
    rw [e]
    cases maxE with
    | none => simp [range]; ring
    | some b => simp [range]

/-- C165. The plot is refused without points and for other types of plot. -/
theorem plot_refused (c : Cal) (s : String) (p : ℝ) (remove ex showtext showerrors : Bool) (minE maxE : Option ℝ) (h : c.pts = [] ∨ ∀ k : Kind, s ≠ k.name) :
    plot c s p remove ex showtext showerrors minE maxE = .error .value := by
  unfold plot
  rcases h with h | h
  · rw [h]
    rfl
  · have hk : kindOf s = none := by
      cases e : kindOf s with
      | none => rfl
      | some k => exact absurd ((kindOf_iff s k).1 e) (h k)
    rw [hk]
    cases hm : maxPh c.pts with
    | error e =>
      cases hp : c.pts with
      | nil =>
        rw [hp] at hm
        cases hm
        rfl
      | cons a r =>
        rw [hp] at hm
        cases hm
    | ok m => rfl

/-! ### the uncertainty of the curve -/

/-- C165. The band of an approximating curve: above and below the curve by the uncertainty of the energy times the derivative of the quantity shown with respect to
the energy. -/
theorem band_spec {c : Cal} {k : Kind} {p : ℝ} {ex showtext showerrors : Bool} {minE maxE : Option ℝ} {r : Plot}
    (h : plot c k.name p false ex showtext showerrors minE maxE = .ok r) :
    (r.band = none ↔ c.approx = false ∨ showerrors = false) ∧ ∀ up dn, r.band = some (up, dn) → ∃ lo hi : ℝ, up.length = 1000 ∧ dn.length = 1000 ∧
      ∀ i (hu : i < up.length) (hd : i < dn.length) (ph : ℝ), ph = lo + i * ((hi - lo) / 999) → 0 < ph → 0 < c.E ph →
        ∃ D, HasDerivAt (fun e => Shown k p ph e) D (c.E ph) ∧
          up[i] = (Across k ex ph (c.E ph), Shown k p ph (c.E ph) + |D| * c.unc ph) ∧ dn[i] = (Across k ex ph (c.E ph), Shown k p ph (c.E ph) - |D| * c.unc ph) := by
  obtain ⟨m, k', hm, hk', _, ⟨hs, _⟩ | ⟨a, hs, _, h2, _, _⟩⟩ := plot_ok h
  · rw [slope_off] at hs
    cases hs
  rw [slope_off] at hs
  obtain rfl : (0 : ℝ) = a := Option.some.inj hs
  obtain rfl : k = k' := Option.some.inj (((kindOf_iff _ _).2 rfl).symm.trans ((kindOf_iff _ _).2 hk'))
  have hD : ∀ ph, 0 < ph → 0 < c.E ph → ∃ D, HasDerivAt (fun e => Shown k p ph e) D (c.E ph) ∧ bandY c k p ph = |D| * c.unc ph := by
    intro ph hp he
    cases k with
    | linear =>
      refine ⟨1 * ph ^ (-p), (hasDerivAt_id _).mul_const _, ?_⟩
      simp only [bandY]
      rw [one_mul, abs_of_pos (rpow_pos_of_pos hp _), rpow_neg hp.le]
      field_simp
    | gain =>
      refine ⟨ph * -(1 / c.E ph ^ 2), ?_, ?_⟩
      · have := (hasDerivAt_inv he.ne').const_mul ph
        simpa [Shown, div_eq_mul_inv] using this
      · simp only [bandY]
        rw [mul_neg, abs_neg, abs_of_pos (by positivity)]
        field_simp
    | invgain =>
      refine ⟨1 / ph, (hasDerivAt_id _).div_const _, ?_⟩
      simp only [bandY]
      rw [abs_of_pos (by positivity)]
      field_simp
    | loggain =>
      refine ⟨-(1 / c.E ph), ?_, ?_⟩
      · have := (hasDerivAt_log he.ne').const_sub (log ph)
        simpa [Shown] using this
      · simp only [bandY]
        rw [abs_neg, abs_of_pos (by positivity)]
        field_simp
    | loglog =>
      refine ⟨1 / c.E ph, ?_, ?_⟩
      · have := hasDerivAt_log he.ne'
        simpa [Shown] using this
      · simp only [bandY]
        rw [abs_of_pos (by positivity)]
        field_simp
  refine ⟨?_, ?_⟩
  · rw [h2]
    cases c.approx <;> cases showerrors <;> simp
  · intro up dn hud
    rw [h2] at hud
    split at hud
    · have e := Option.some.inj hud
      have e1 := congrArg Prod.fst e
      have e2 := congrArg Prod.snd e
      dsimp only at e1 e2
      refine ⟨(range c m minE maxE).1, (range c m minE maxE).2, ?_, ?_, ?_⟩
      · rw [← e1, List.length_map, grid_length]
      · rw [← e2, List.length_map, grid_length]
      · intro i hu hd ph hph hp he
        obtain ⟨D, hD1, hD2⟩ := hD ph hp he
        subst e1 e2
        refine ⟨D, hD1, ?_, ?_⟩
        · rw [List.getElem_map, grid_getElem, ← hph, zero_mul, sub_zero, hD2, curve_shown c k p ex hp he]
        · rw [List.getElem_map, grid_getElem, ← hph, zero_mul, sub_zero, hD2, curve_shown c k p ex hp he]
    · cases hud

/-! ### error bars -/

/-- first-order propagation: the uncertainty of `f` at a calibration point from those of pulse height and energy, if independent [specification] -/
def Propagated (f : ℝ → ℝ → ℝ) (t : Pt) (sigma : ℝ) : Prop :=
  ∃ A B, HasDerivAt (fun ph => f ph t.e) A t.ph ∧ HasDerivAt (fun e => f t.ph e) B t.e ∧ sigma = √((A * t.dph) ^ 2 + (B * t.de) ^ 2)

theorem sqrt_rel {a b y : ℝ} (hy : 0 ≤ y) : √(a ^ 2 + b ^ 2) * y = √((y * b) ^ 2 + (y * a) ^ 2) := by
  rw [show (y * b) ^ 2 + (y * a) ^ 2 = (a ^ 2 + b ^ 2) * y ^ 2 by ring, sqrt_mul (by positivity), sqrt_sq hy]

/-- C165. In plots of the gain and the inverse gain, and of energies divided by the pulse heights, the vertical error bars are those of first-order propagation
of the uncertainties of pulse height and energy; the horizontal ones are those of what is on the axis. -/
theorem bars_partial {c : Cal} {k : Kind} {p : ℝ} {ex showtext showerrors : Bool} {minE maxE : Option ℝ} {r : Plot}
    (h : plot c k.name p false ex showtext showerrors minE maxE = .ok r) (hp : ∀ t ∈ c.pts, 0 < t.ph ∧ 0 < t.e)
    (hk : k = .gain ∨ k = .invgain ∨ k = .linear ∧ p = 1) :
    List.Forall₂ (fun t q => Propagated (Shown k p) t q.2.2.2 ∧ q.2.2.1 = if ex then t.de else t.dph) c.pts r.points := by
  obtain ⟨m, k', hm, hk', _, ⟨hs, _⟩ | ⟨a, hs, _, _, h3, _⟩⟩ := plot_ok h
  · rw [slope_off] at hs
    cases hs
  obtain rfl : k = k' := Option.some.inj (((kindOf_iff _ _).2 rfl).symm.trans ((kindOf_iff _ _).2 hk'))
  rw [h3, List.forall₂_map_right_iff, List.forall₂_same]
  intro t ht
  obtain ⟨h1, h2⟩ := hp t ht
  dsimp only
  constructor
  · rw [point_shown k p ex h1 h2]
    dsimp only
    unfold yErr
    rcases hk with rfl | rfl | ⟨rfl, rfl⟩
    · refine ⟨1 / t.e, t.ph * -(1 / t.e ^ 2), (hasDerivAt_id _).div_const _, ?_, ?_⟩
      · have := (hasDerivAt_inv h2.ne').const_mul t.ph
        simpa [Shown, div_eq_mul_inv] using this
      · simp only [Shown]
        rw [sqrt_rel (div_pos h1 h2).le]
        congr 1
        field_simp
    · refine ⟨t.e * -(1 / t.ph ^ 2), 1 / t.ph, ?_, (hasDerivAt_id _).div_const _, ?_⟩
      · have := (hasDerivAt_inv h1.ne').const_mul t.e
        simpa [Shown, div_eq_mul_inv] using this
      · simp only [Shown]
        rw [sqrt_rel (div_pos h2 h1).le]
        congr 1
        field_simp
    · refine ⟨t.e * -(1 / t.ph ^ 2), 1 * t.ph ^ (-(1 : ℝ)), ?_, (hasDerivAt_id _).mul_const _, ?_⟩
      · have := (hasDerivAt_inv h1.ne').const_mul t.e
        simpa [Shown, rpow_neg_one] using this
      · simp only [Shown]
        rw [rpow_neg_one, sqrt_rel (mul_pos h2 (inv_pos.2 h1)).le]
        congr 1
        field_simp
  · rcases hk with rfl | rfl | ⟨rfl, _⟩ <;> rfl

/-- C165. The horizontal error bar of every point is that of first-order propagation: the uncertainty of the quantity along the axis (pulse height or energy) times the derivative of the coordinate with
respect to it, also where the axis is logarithmic. -/
theorem bars_horizontal {c : Cal} {k : Kind} {p : ℝ} {ex showtext showerrors : Bool} {minE maxE : Option ℝ} {r : Plot}
    (h : plot c k.name p false ex showtext showerrors minE maxE = .ok r) (hp : ∀ t ∈ c.pts, 0 < t.ph) : ∀ i (hi : i < c.pts.length), ∃ q D, r.points[i]? = some q ∧
      ((HasDerivAt (fun u => (pointXY k p ex { c.pts[i] with ph := u }).1) D (c.pts[i]).ph ∧ q.2.2.1 = D * (c.pts[i]).dph ∧ (ex = false ∨ k = .loglog)) ∨
        (HasDerivAt (fun u => (pointXY k p ex { c.pts[i] with e := u }).1) D (c.pts[i]).e ∧ q.2.2.1 = D * (c.pts[i]).de ∧ ex = true ∧ k ≠ .loglog)) := by
  obtain ⟨m, k', -, hk, -, hr⟩ := plot_ok h
  have hkk : k' = k := by
    have h1 := (kindOf_iff k.name k).2 rfl
    have h2 := (kindOf_iff k.name k').2 hk
    rw [h1] at h2; injection h2 with h2; exact h2.symm
  subst hkk
  rcases hr with ⟨hs, -⟩ | ⟨a, -, -, -, hpts, -⟩
  · cases hs
  · intro i hi
    rw [hpts, List.getElem?_map, List.getElem?_eq_getElem hi, Option.map_some]
    have hpos := hp _ (List.getElem_mem hi)
    cases k' with
    | loglog =>
      refine ⟨_, 1 / (c.pts[i]).ph, rfl, .inl ⟨?_, ?_, .inr rfl⟩⟩
      · simp only [pointXY, one_div]
        exact hasDerivAt_log (ne_of_gt hpos)
      · simp only [xErr]; ring
    | _ =>
      cases ex with
      | false =>
        refine ⟨_, 1, rfl, .inl ⟨?_, ?_, .inl rfl⟩⟩
        · simp only [pointXY, Bool.false_eq_true, if_false]; exact hasDerivAt_id _
        · simp [xErr]
      | true =>
        refine ⟨_, 1, rfl, .inr ⟨?_, ?_, rfl, by simp⟩⟩
        · simp only [pointXY, if_true]; exact hasDerivAt_id _
        · simp [xErr]

/-- Disagreement (C165): in a plot of energies the vertical error bar of a point is not the uncertainty of its energy. A point whose energy is known exactly gets the
relative uncertainty of the pulse height, which is already shown by the horizontal bar. -/
theorem bars_linear_fails {c : Cal} {ex showtext showerrors : Bool} {minE maxE : Option ℝ} {r : Plot}
    (h : plot c "linear" 0 false ex showtext showerrors minE maxE = .ok r) {t : Pt} (ht : t ∈ c.pts) (h1 : 0 < t.ph) (h2 : 0 < t.e) (h3 : t.de = 0) (h4 : 0 < t.dph) :
    ∃ q ∈ r.points, q.2.1 = t.e ∧ q.2.2.2 = t.e * t.dph / t.ph ∧ 0 < q.2.2.2 := by
  obtain ⟨m, k', hm, hk', _, ⟨hs, _⟩ | ⟨a, hs, _, _, h5, _⟩⟩ := plot_ok h
  · rw [slope_off] at hs
    cases hs
  rw [slope_off] at hs
  obtain rfl : (0 : ℝ) = a := Option.some.inj hs
  obtain rfl : Kind.linear = k' := Option.some.inj (((kindOf_iff _ .linear).2 rfl).symm.trans ((kindOf_iff _ _).2 hk'))
  rw [h5]
  refine ⟨_, List.mem_map_of_mem ht, ?_, ?_, ?_⟩
  · simp [pointXY]
  · simp only [yErr, pointXY, h3]
    rw [zero_div, zero_pow (by norm_num), zero_add, sqrt_sq (by positivity), rpow_zero]
    field_simp
  · simp only [yErr, pointXY, h3]
    rw [rpow_zero]
    positivity

/-- Disagreement (C165): for the logarithm of the gain the error bars are relative errors multiplied with the logarithm. With a gain below 1 (fewer pulse-height units
than eV) they come out negative, and the plot fails with a ValueError. -/
theorem log_gain_fails (c : Cal) (p : ℝ) (remove ex showtext showerrors : Bool) (minE maxE : Option ℝ) {t : Pt} (ht : t ∈ c.pts) (h1 : 0 < t.ph) (h2 : t.ph < t.e)
    (h3 : 0 < t.dph) : plot c "loggain" p remove ex showtext showerrors minE maxE = .error .value := by
  unfold plot
  cases hm : maxPh c.pts with
  | error e =>
    exfalso
    cases hp : c.pts with
    | nil =>
      rw [hp] at ht
      cases ht
    | cons a r =>
      rw [hp] at hm
      cases hm
  | ok m =>
    rw [show kindOf "loggain" = some .loggain from by decide]
    dsimp only
    rw [if_pos]
    refine ⟨t, ht, ?_⟩
    simp only [yErr, pointXY]
    have hlog : log (t.ph / t.e) < 0 := log_neg (by have := h1.trans h2; positivity) ((div_lt_one (h1.trans h2)).2 h2)
    have hs : 0 < √((t.de / t.e) ^ 2 + (t.dph / t.ph) ^ 2) := by
      apply sqrt_pos.2
      have : 0 < (t.dph / t.ph) ^ 2 := by positivity
      have := sq_nonneg (t.de / t.e)
      linarith
    exact mul_neg_of_pos_of_neg hs hlog

/-- Disagreement (C165): the axis of that plot is labelled log(eV/PH), but the logarithm of PH/eV is shown, which has the opposite sign. -/
theorem log_gain_label_fails (p : ℝ) (ex : Bool) {t : Pt} (h1 : 0 < t.ph) (h2 : 0 < t.e) (hne : t.ph ≠ t.e) :
    yLabel .loggain = "Log Gain: log(eV/PH)" ∧ (pointXY .loggain p ex t).2 = -log (t.e / t.ph) ∧ (pointXY .loggain p ex t).2 ≠ log (t.e / t.ph) := by
  have e : log (t.ph / t.e) = -log (t.e / t.ph) := by rw [← log_inv, inv_div]
  refine ⟨rfl, e, ?_⟩
  show log (t.ph / t.e) ≠ _
  rw [e]
  intro h
  have h0 : log (t.e / t.ph) = 0 := by linarith
  have h3 := exp_log (div_pos h2 h1)
  rw [h0, exp_zero, eq_div_iff h1.ne', one_mul] at h3
  exact hne h3

/-- Disagreement (C165): energies divided by another power of the pulse height than the first get error bars as if it were the first: for power `p` the pulse height
counts with its relative uncertainty, not with `p` times it. -/
theorem bars_power_fails {t : Pt} (h1 : 0 < t.ph) (h2 : 0 < t.e) (h3 : t.de = 0) (h4 : 0 < t.dph) {p sigma : ℝ} (hp : |p| ≠ 1) (ex : Bool)
    (hs : Propagated (Shown .linear p) t sigma) : yErr t (pointXY .linear p ex t).2 ≠ sigma := by
  obtain ⟨A, B, hA, hB, rfl⟩ := hs
  have hA' : HasDerivAt (fun ph : ℝ => Shown .linear p ph t.e) (t.e * (-p * t.ph ^ (-p - 1))) t.ph := by
    have := (hasDerivAt_rpow_const (x := t.ph) (p := -p) (.inl h1.ne')).const_mul t.e
    simpa [Shown] using this
  rw [hA.unique hA', h3, point_shown .linear p ex h1 h2]
  simp only [yErr, Shown, h3, mul_zero, zero_div]
  rw [zero_pow (by norm_num), zero_add, add_zero, sqrt_sq (by positivity), sqrt_sq_eq_abs, rpow_sub h1, rpow_one]
  have hq : 0 < t.ph ^ (-p) := rpow_pos_of_pos h1 _
  rw [show t.e * (-p * (t.ph ^ (-p) / t.ph)) * t.dph = -p * (t.e * (t.ph ^ (-p) / t.ph) * t.dph) by ring, abs_mul, abs_neg,
    abs_of_pos (show 0 < t.e * (t.ph ^ (-p) / t.ph) * t.dph by positivity)]
  intro h
  apply hp
  have h5 : 0 < t.e * (t.ph ^ (-p) / t.ph) * t.dph := by positivity
  have h6 : |p| * (t.e * (t.ph ^ (-p) / t.ph) * t.dph) = 1 * (t.e * (t.ph ^ (-p) / t.ph) * t.dph) := by
    rw [← h]
    field_simp
  exact mul_right_cancel₀ h5.ne' h6

/-! ### removal of the slope -/

/-- C165. With the slope removed, the first and the last calibration point are at the same height. -/
theorem slope_removed {c : Cal} {s : String} {p : ℝ} {ex showtext showerrors : Bool} {minE maxE : Option ℝ} {r : Plot}
    (h : plot c s p true ex showtext showerrors minE maxE = .ok r) :
    (r.points.head?.map (fun q => q.2.1)) = r.points.getLast?.map (fun q => q.2.1) ∧
      (r.points = [] ∨ ∃ a, r.points.map (fun q => (q.1, q.2.1 + a * q.1)) = c.pts.map (pointXY ((kindOf s).getD .linear) p ex)) := by
  obtain ⟨m, k, hm, hk, _, ⟨hs, rfl⟩ | ⟨a, hs, _, _, h3, _⟩⟩ := plot_ok h
  · exact ⟨rfl, .inl rfl⟩
  rw [(kindOf_iff s k).2 hk]
  constructor
  · rw [h3, List.head?_map, List.getLast?_map, Option.map_map, Option.map_map]
    unfold slopeOf at hs
    rw [if_pos rfl] at hs
    split at hs
    · rename_i u v xs w hx hl
      split at hs
      · cases hs
      · rename_i hne
        obtain rfl := Option.some.inj hs
        cases hp : c.pts with
        | nil =>
          rw [hp] at hx
          cases hx
        | cons t ts =>
          rw [hp] at hx hl
          rw [List.getLast?_map] at hl
          obtain ⟨tl, htl, hw⟩ := Option.map_eq_some_iff.1 hl
          rw [htl, List.head?_cons, Option.map_some, Option.map_some]
          rw [List.map_cons] at hx
          have hu := (List.cons.inj hx).1
          simp only [Function.comp]
          rw [hu, hw]
          congr 1
          field_simp
          ring
    · cases hs
  · right
    refine ⟨a, ?_⟩
    rw [h3, List.map_map]
    refine List.map_congr_left fun t _ => ?_
    simp only [Function.comp, sub_add_cancel]
    rfl

/-- Disagreement (C165): with a single calibration point nothing can be seen in a plot with the slope removed (0/0). -/
theorem one_point_fails (c : Cal) (s : String) (p : ℝ) (ex showtext showerrors : Bool) (minE maxE : Option ℝ) {t : Pt} (ht : c.pts = [t]) {r : Plot}
    (h : plot c s p true ex showtext showerrors minE maxE = .ok r) : r.curve = [] ∧ r.points = [] ∧ r.texts = [] := by
  obtain ⟨m, k, hm, hk, _, ⟨hs, rfl⟩ | ⟨a, hs, _, _, _, _⟩⟩ := plot_ok h
  · exact ⟨rfl, rfl, rfl⟩
  · rw [ht] at hs
    simp [slopeOf] at hs

/-- an exact calibration with two points for the examples: the energy is twice the pulse height [specification] -/
noncomputable def calEx : Cal := ⟨[⟨"a", 2, 4, 1, 0⟩, ⟨"b", 3, 6, 1, 1⟩], fun x => 2 * x, fun x => x / 2, fun _ => 1, true⟩

/-- C165, instance: the plot exists, has the points at their places, and they are on the curve -/
example : ∃ r, plot calEx "linear" 0 false false true true none none = .ok r ∧ r.points.map (fun q => (q.1, q.2.1)) = [(2, 4), (3, 6)] ∧
    r.texts = [(2, 4, "a"), (3, 6, "b")] ∧ r.band ≠ none := by
  have h : ∃ r, plot calEx "linear" 0 false false true true none none = .ok r := by
    unfold plot
    rw [show maxPh calEx.pts = .ok (max 2 3) from rfl, show kindOf "linear" = some .linear from by decide]
    dsimp only
    rw [if_neg]
    · exact ⟨_, rfl⟩
    · rintro ⟨t, ht, hlt⟩
      refine absurd hlt (not_lt.2 ?_)
      simp only [calEx, List.mem_cons, List.not_mem_nil, or_false] at ht
      rcases ht with rfl | rfl <;> simp only [yErr, pointXY] <;> positivity
  obtain ⟨r, hr⟩ := h
  have hpos : ∀ t ∈ calEx.pts, 0 < t.ph ∧ 0 < t.e := by
    intro t ht
    simp only [calEx, List.mem_cons, List.not_mem_nil, or_false] at ht
    rcases ht with rfl | rfl <;> norm_num
  obtain ⟨_, h2, h3⟩ := plot_curve (k := .linear) hr (fun ph h => by simp only [calEx]; linarith) hpos
  refine ⟨r, hr, ?_, ?_, ?_⟩
  · rw [h2]
    simp [calEx, Across, Shown]
  · rw [h3]
    simp [calEx, Across, Shown]
  · intro h0
    have := ((band_spec (k := .linear) hr).1).1 h0
    simp [calEx] at this

end Mass.Calc.CalPlot
