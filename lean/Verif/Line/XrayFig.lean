import Verif.Line.XrayFile
import Mathlib.Data.List.Nodup
/-! C191: the two figures of the data base of x-ray lines, mass/calibration/nist_xray_database.py (plot_line_uncertainties, plot_line_energies). -/
namespace Mass.Line.XrayFig
open Mass Mass.Names Mass.Line.Xray Mass.Line.ByName Mass.Line.XrayData

/-! ### model -/

/-- the transitions of the panels, nist_xray_database.py L156 -/
def uncTr : List Str := ["KL3".toList, "KL2".toList, "KM3".toList, "KM5".toList, "L3M5".toList, "L3M4".toList, "L2M4".toList, "L3N5".toList, "L2N4".toList, "L1M3".toList, "L3N7".toList, "L3M1".toList]

/-- `titles`, nist_xray_database.py L157-171; without the dollar signs and backslashes of the formulas -/
def titles : List (Str × String) := [("KL3".toList, "Kalpha_1: Intense"), ("KL2".toList, "Kalpha_2: Intense, but not easily resolved"), ("KM3".toList, "Kbeta_1: Intense"),
  ("KM2".toList, "Kbeta_3: Intense, usually unresolvable"), ("KM5".toList, "Kbeta_5: Weak line on high-E tail of Kbeta_1"), ("L3M5".toList, "Lalpha_1: Prominent"), ("L3M4".toList, "Lalpha_2: Small satellite"),
  ("L2M4".toList, "Lbeta_1: Prominent"), ("L3N5".toList, "Lbeta_2: Prominent"), ("L2N4".toList, "Kgamma_1: Weaker"), ("L1M3".toList, "Lbeta_3: Weaker"), ("L3N7".toList, "Lu: barely visible"),
  ("L3M1".toList, "Lell: very weak")]

/-- one panel of the first figure, nist_xray_database.py L177-186: its title, whether it has a label below and on the left, and the points with their texts -/
structure Panel where
  title : String
  below : Bool
  left : Bool
  points : List (ℚ × ℚ × Str)
  deriving DecidableEq

/-- the panel of number `i` before there are points, nist_xray_database.py L177-186; `titles[tr]` is a KeyError for a transition without a title -/
def blank (tr : Str) (i : Nat) : Except Exc Panel :=
  match titles.find? (fun e => decide (e.1 = tr)) with
  | none => .error .key
  | some e => .ok ⟨e.2, decide (3 * (4 - 1) ≤ i), decide (i % 3 = 0), []⟩

/-- one line is put into its panel, nist_xray_database.py L189-194 -/
def place (ps : List Panel) (l : XLine ℚ) : List Panel :=
  if l.transition ∈ uncTr then ps.modify (uncTr.idxOf l.transition) (fun p => { p with points := p.points ++ [(l.peak, l.unc, l.name)] }) else ps

/-- plot_line_uncertainties, nist_xray_database.py L154-194; `db.lines.values()` is in the order of `items` -/
def uncFigure (d : Db ℚ) : Except Exc (List Panel) :=
  match uncTr.zipIdx.mapM (fun p => blank p.1 p.2) with
  | .error e => .error e
  | .ok ps => .ok (((items d).map Prod.snd).foldl place ps)

/-- the limits of the axes of a panel, nist_xray_database.py L185-186 -/
def inView (x y : ℚ) : Bool := decide (100 ≤ x) && decide (x ≤ 30000) && decide (1 / 1000 ≤ y) && decide (y ≤ 10)

/-- ATOMIC_NUMBERS[element], nist_xray_database.py L36, L204 -/
def atomic (el : Str) : Except Exc Nat := if el ∈ elements then .ok (elements.idxOf el) else .error .key

/-- one curve of the second figure, nist_xray_database.py L202-206: its label, the atomic numbers and the energies -/
def curve (d : Db ℚ) (t : Str) : Except Exc (Str × List Nat × List ℚ) :=
  match (byType d t).mapM (fun l => atomic l.element) with
  | .error e => .error e
  | .ok z => .ok (t, z, (byType d t).map (fun l => l.peak))

/-- the curves of plot_line_energies, nist_xray_database.py L197-206 (`transitions` is the list of L201-202) -/
def energyFigure (d : Db ℚ) : Except Exc (List (Str × List Nat × List ℚ)) := transitions.mapM (curve d)

/-- the ticks, nist_xray_database.py L210 -/
def ticks : List Nat := List.range' 6 16 ++ List.range' 22 11 2 ++ List.range' 45 10 3 ++ List.range' 75 5 5

/-- the text of a tick, nist_xray_database.py L211: the element above its number; `ELEMENTS[i]` is an IndexError after the last element -/
def tickText (i : Nat) : Except Exc (Str × Nat) := match elements[i]? with
  | none => .error .index
  | some e => .ok (e, i)

/-! ### lemmas -/

/-- what a panel shows: all the lines of a transition in their order [specification] -/
def full (ls : List (XLine ℚ)) (p : Str × Nat) : Panel :=
  ⟨((titles.find? (fun e => decide (e.1 = p.1))).map Prod.snd).getD "", decide (9 ≤ p.2), decide (p.2 % 3 = 0), (ls.filter (fun l => decide (l.transition = p.1))).map (fun l => (l.peak, l.unc, l.name))⟩

theorem blank_ok : uncTr.zipIdx.mapM (fun p => blank p.1 p.2) = .ok (uncTr.zipIdx.map (full [])) := by decide +kernel

theorem place_full (ls : List (XLine ℚ)) (l : XLine ℚ) : place (uncTr.zipIdx.map (full ls)) l = uncTr.zipIdx.map (full (ls ++ [l])) := by
  have hn : uncTr.Nodup := by decide +kernel
  unfold place
  split
  · rename_i hm
    apply List.ext_getElem?
    intro j
    rw [List.getElem?_modify, List.getElem?_map, List.getElem?_map, List.getElem?_zipIdx]
    cases hj : uncTr[j]? with
    | none => simp
    | some t =>
      simp only [Option.map_some, Nat.zero_add]
      by_cases e : uncTr.idxOf l.transition = j
      · have ht : t = l.transition := by
          have h1 : uncTr[uncTr.idxOf l.transition]? = some l.transition := by
            rw [List.getElem?_eq_getElem (List.idxOf_lt_length_of_mem hm), List.getElem_idxOf]
          rw [e, hj] at h1
          exact Option.some.inj h1
        simp [e, full, List.filter_append, ht]
      · have ht : ¬ l.transition = t := by
          intro h
          apply e
          obtain ⟨hlt, hg⟩ := List.getElem?_eq_some_iff.mp hj
          rw [h, ← hg]
          exact hn.idxOf_getElem j hlt
        simp [e, full, List.filter_append, ht]
  · rename_i hm
    apply List.map_congr_left
    rintro ⟨t, i⟩ hp
    have ht : t ∈ uncTr := List.fst_mem_of_mem_zipIdx hp
    have : ¬ l.transition = t := fun h => hm (h ▸ ht)
    simp [full, List.filter_append, this]

theorem places (ls ls' : List (XLine ℚ)) : ls'.foldl place (uncTr.zipIdx.map (full ls)) = uncTr.zipIdx.map (full (ls ++ ls')) := by
  induction ls' generalizing ls with
  | nil => simp
  | cons l r ih => rw [List.foldl_cons, place_full, ih, List.append_assoc, List.singleton_append]

/-- every line is kept under its own name [specification] -/
def Keyed (d : Db ℚ) : Prop := ∀ n l, d.get n = some l → l.name = n

theorem keyed_add (flt : Str → Option ℚ) (d : Db ℚ) (t : Str) (h : ∀ e ∈ d.lines, e.2.name = e.1) : ∀ e ∈ (addLine flt d t).lines, e.2.name = e.1 := by
  unfold addLine
  split
  · exact h
  · intro e he
    rcases List.mem_cons.mp he with rfl | he
    · rfl
    · exact h e he

theorem keyed_fold (flt : Str → Option ℚ) (ts : List Str) (d : Db ℚ) (h : ∀ e ∈ d.lines, e.2.name = e.1) : ∀ e ∈ (ts.foldl (addLine flt) d).lines, e.2.name = e.1 := by
  induction ts generalizing d with
  | nil => exact h
  | cons t r ih => exact ih _ (keyed_add flt d t h)

theorem name_parts (l : XLine ℚ) (el t : Str) (he : ' ' ∉ el) (ht : ' ' ∉ t) (h : l.name = el ++ ' ' :: t) : l.element = el ∧ l.transition = t := by
  have hc := congrArg (List.count ' ') h
  unfold XLine.name at hc h
  rw [List.count_append, List.count_append, List.count_cons_self, List.count_cons_self, List.count_eq_zero_of_not_mem he, List.count_eq_zero_of_not_mem ht] at hc
  have h0 : ' ' ∉ l.element := List.count_eq_zero.mp (by omega)
  have h1 := splitName_eq l.element l.transition h0
  rw [h, splitName_eq el t he] at h1
  exact ⟨(Prod.mk.inj h1).1.symm, (Prod.mk.inj h1).2.symm⟩

theorem tr_blank : ∀ t ∈ transitions, ' ' ∉ t := by decide +kernel

theorem mapM_ok {α β : Type} (f : α → Except Exc β) (g : α → β) : ∀ l : List α, (∀ a ∈ l, f a = .ok (g a)) → l.mapM f = .ok (l.map g)
  | [], _ => rfl
  | a :: r, h => by
    rw [List.mapM_cons, h a List.mem_cons_self, mapM_ok f g r (fun b hb => h b (List.mem_cons_of_mem _ hb))]
    rfl

theorem idx_rising (f : Str → Option (XLine ℚ)) (hf : ∀ el l, f el = some l → el ∈ elements → l.element = el) :
    ((elements.filterMap f).map (fun l => elements.idxOf l.element)).Pairwise (· < ·) := by
  rw [List.map_filterMap, List.pairwise_filterMap]
  have hn := elements_nodup
  rw [List.pairwise_iff_getElem]
  intro i j hi hj hij b hb c hc
  have hel : ∀ k (hk : k < elements.length) (x : Nat), (f elements[k]).map (fun l => elements.idxOf l.element) = some x → x = k := by
    intro k hk x hx
    cases h : f elements[k] with
    | none => rw [h] at hx; cases hx
    | some l =>
      rw [h] at hx
      have := hf _ l h (List.getElem_mem hk)
      simp only [Option.map_some, Option.some.injEq] at hx
      rw [← hx, this]
      exact hn.idxOf_getElem k hk
  rw [hel i hi b hb, hel j hj c hc]
  exact hij

/-! ### theorems -/

/-- C191: however the data base was read, every line is kept under the name made of its element and transition. -/
theorem keyed (flt : Str → Option ℚ) (n : Nat) (fs : List (Option (List Str))) (d : Db ℚ) (h : load flt n fs = some d) : Keyed d := by
  have key : ∀ (fs : List (Option (List Str))) (d0 d : Db ℚ), (∀ e ∈ d0.lines, e.2.name = e.1) → loadFrom flt n d0 fs = some d → ∀ e ∈ d.lines, e.2.name = e.1 := by
    intro fs
    induction fs with
    | nil => intro d0 d h0 h; simp only [loadFrom, Option.some.injEq] at h; exact h ▸ h0
    | cons f r ih =>
      intro d0 d h0 h
      cases f with
      | none => exact ih d0 d h0 (by simpa [loadFrom, addFile] using h)
      | some ls =>
        cases hs : skipHead n ls with
        | none => simp [loadFrom, addFile, hs] at h
        | some b => exact ih _ d (keyed_fold flt b d0 h0) (by simpa [loadFrom, addFile, hs] using h)
  intro m l hm
  unfold Db.get at hm
  cases hf : d.lines.find? (fun e => decide (e.1 = m)) with
  | none => rw [hf] at hm; cases hm
  | some e =>
    rw [hf] at hm
    have h1 := List.find?_some hf
    have h2 := key fs ⟨[], []⟩ d (by simp) h e (List.mem_of_find?_eq_some hf)
    simp only [Option.map_some, Option.some.injEq] at hm
    rw [← hm, h2]
    exact of_decide_eq_true h1

/-- C191: `plot_line_uncertainties` never fails. It has one panel for each of its twelve transitions, in this order. The panel of a transition has exactly the lines of the data base with that transition,
each once, at its energy and uncertainty and with its name; the bottom row of the 4 × 3 panels has a label below and the left column one on the left. Where a line is drawn depends on nothing else. -/
theorem uncertainties_partial (d : Db ℚ) (hk : Keyed d) : ∃ ps, uncFigure d = .ok ps ∧ ps.length = 12 ∧ ∀ i t, uncTr[i]? = some t → ∃ p, ps[i]? = some p ∧
    (∀ x, x ∈ p.points ↔ ∃ l, d.get l.name = some l ∧ l.transition = t ∧ x = (l.peak, l.unc, l.name)) ∧ (p.points.map (fun x => x.2.2)).Nodup ∧
    (p.below = true ↔ i / 3 = 3) ∧ (p.left = true ↔ i % 3 = 0) ∧ (t, p.title) ∈ titles := by
  have hf : uncFigure d = .ok (uncTr.zipIdx.map (full ((items d).map Prod.snd))) := by
    unfold uncFigure
    rw [blank_ok]
    simp only
    rw [places, List.nil_append]
  refine ⟨_, hf, by simp [uncTr], fun i t hi => ⟨full ((items d).map Prod.snd) (t, i), by simp [List.getElem?_zipIdx, hi], ?_, ?_, ?_, by simp [full], ?_⟩⟩
  · rintro x
    simp only [full, List.mem_map, List.mem_filter, decide_eq_true_eq]
    constructor
    · rintro ⟨l, ⟨⟨e, he, rfl⟩, ht⟩, rfl⟩
      have h1 := look_of_mem _ (items_nodup d) e he
      rw [items_look] at h1
      exact ⟨e.2, by rw [hk _ _ h1]; exact h1, ht, rfl⟩
    · rintro ⟨l, hl, ht, rfl⟩
      rw [← items_look] at hl
      exact ⟨l, ⟨⟨_, mem_of_look _ _ _ hl, rfl⟩, ht⟩, rfl⟩
  · have e : ∀ e ∈ items d, e.2.name = e.1 := fun e he => hk _ _ (by rw [← items_look]; exact look_of_mem _ (items_nodup d) e he)
    have h1 : ((items d).map Prod.snd).map XLine.name = (items d).map Prod.fst := by
      rw [List.map_map]; exact List.map_congr_left e
    have h2 : (((items d).map Prod.snd).map XLine.name).Nodup := h1 ▸ items_nodup d
    simp only [full, List.map_map]
    exact h2.sublist ((List.filter_sublist).map _)
  · have : i < 12 := (List.getElem?_eq_some_iff.mp hi).1
    simp only [full, decide_eq_true_eq]
    omega
  · have : ∀ t ∈ uncTr, (t, ((titles.find? (fun e => decide (e.1 = t))).map Prod.snd).getD "") ∈ titles := by decide +kernel
    exact this t (List.mem_of_getElem? hi)

/-- C191: `plot_line_energies` never fails on a data base that was read: one curve for each of the eighteen transitions, labelled with it. A curve has exactly one point for each element that has
such a line, at its atomic number (the place in the periodic table, counted from 1) and its energy; the points come in the order of the atomic numbers. -/
theorem energies (d : Db ℚ) (hk : Keyed d) : ∃ cs, energyFigure d = .ok cs ∧ cs.map Prod.fst = transitions ∧ ∀ c ∈ cs,
    c.2.1.length = c.2.2.length ∧ c.2.1.Pairwise (· < ·) ∧ ∀ z e, (z, e) ∈ c.2.1.zip c.2.2 ↔ ∃ el l, elements[z]? = some el ∧ d.get (el ++ ' ' :: c.1) = some l ∧ e = l.peak := by
  have hfind : ∀ t ∈ transitions, ∀ el ∈ elements, ∀ l, d.get (el ++ ' ' :: t) = some l → l.element = el ∧ l.transition = t :=
    fun t ht el he l h => name_parts l el t (element_facts el he).1 (tr_blank t ht) (hk _ _ h)
  have hc : ∀ t ∈ transitions, curve d t = .ok (t, (byType d t).map (fun l => elements.idxOf l.element), (byType d t).map (fun l => l.peak)) := by
    intro t ht
    unfold curve
    rw [mapM_ok (fun l : XLine ℚ => atomic l.element) (fun l => elements.idxOf l.element)]
    intro l hl
    obtain ⟨el, he, h⟩ := ((byType_lines d t ht).2 l).mp hl
    simp only [atomic]
    rw [(hfind t ht el he l h).1, if_pos he]
  refine ⟨_, mapM_ok _ _ _ hc, by rw [List.map_map]; exact List.map_id _, ?_⟩
  intro c hcm
  obtain ⟨t, ht, rfl⟩ := List.mem_map.mp hcm
  refine ⟨by simp, ?_, ?_⟩
  · simp only
    rw [(byType_lines d t ht).1]
    exact idx_rising _ (fun el l h he => (hfind t ht el he l h).1)
  · intro z e
    simp only [List.zip_map', List.mem_map, Prod.mk.injEq]
    constructor
    · rintro ⟨l, hl, rfl, rfl⟩
      obtain ⟨el, he, h⟩ := ((byType_lines d t ht).2 l).mp hl
      refine ⟨el, l, ?_, h, rfl⟩
      rw [(hfind t ht el he l h).1, List.getElem?_eq_getElem (List.idxOf_lt_length_of_mem he), List.getElem_idxOf]
    · rintro ⟨el, l, hz, h, rfl⟩
      obtain ⟨hlt, hg⟩ := List.getElem?_eq_some_iff.mp hz
      have he : el ∈ elements := hg ▸ List.getElem_mem hlt
      refine ⟨l, ((byType_lines d t ht).2 l).mpr ⟨el, he, h⟩, ?_, rfl⟩
      rw [(hfind t ht el he l h).1, ← hg]
      exact elements_nodup.idxOf_getElem z hlt

/-- C191: the ticks of the second figure grow, are within the axis (6 to 100), and each shows the symbol and the number of one element. -/
theorem ticks_ok : ticks.Pairwise (· < ·) ∧ (∀ i ∈ ticks, 6 ≤ i ∧ i ≤ 100) ∧ (∀ i ∈ ticks, ∃ el, tickText i = .ok (el, i) ∧ elements[i]? = some el ∧ el ≠ []) ∧
    tickText 26 = .ok ("Fe".toList, 26) := by
  refine ⟨by decide +kernel, by decide +kernel, ?_, by decide +kernel⟩
  have h : ∀ i ∈ ticks, (elements[i]?).elim false (fun el => !el.isEmpty) = true := by decide +kernel
  intro i hi
  have := h i hi
  cases he : elements[i]? with
  | none => rw [he] at this; cases this
  | some el =>
    rw [he] at this
    exact ⟨el, by simp [tickText, he], rfl, by simpa using this⟩

/-- C191: with the data that come with the package a line of the first figure is within the axes exactly if its energy is at most 30 keV and its uncertainty at most 10 eV. -/
theorem in_view (d : Db ℚ) (n : Nat) (hd : ∀ m, n ≤ m → db m = some d) (l : XLine ℚ) (hl : l ∈ d.all) : inView l.peak l.unc = true ↔ l.peak ≤ 30000 ∧ l.unc ≤ 10 := by
  have h : ∀ l ∈ table, 100 ≤ l.peak ∧ 1 / 1000 ≤ l.unc := by decide +kernel
  obtain ⟨d', ⟨n0, h0⟩, _, hall, _⟩ := loaded
  have e : d' = d := by
    have h1 := h0 (max n n0) (by omega)
    rw [hd (max n n0) (by omega)] at h1
    exact (Option.some.inj h1).symm
  subst e
  have hm : l ∈ table := by rw [← hall]; exact List.mem_reverse.mpr hl
  simp only [inView, Bool.and_eq_true, decide_eq_true_eq]
  exact ⟨fun a => ⟨a.1.1.2, a.2⟩, fun a => ⟨⟨⟨(h l hm).1, a.1⟩, (h l hm).2⟩, a.2⟩⟩

/-- Disagreement (C191): not every line of the data base can be seen in the first figure: the limits of the axes are fixed at 30 keV and 10 eV. The Kα₁ line of uranium (98434 eV) is drawn, but
outside its panel. -/
theorem hidden_fails (d : Db ℚ) (n : Nat) (hd : ∀ m, n ≤ m → db m = some d) : ∃ ps p x, uncFigure d = .ok ps ∧ ps[0]? = some p ∧ x ∈ p.points ∧ x.2.2 = "U KL3".toList ∧ inView x.1 x.2.1 = false := by
  obtain ⟨d', ⟨n0, h0⟩, _, _, hget⟩ := loaded
  have e : d' = d := by
    have h1 := h0 (max n n0) (by omega)
    rw [hd (max n n0) (by omega)] at h1
    exact (Option.some.inj h1).symm
  subst e
  obtain ⟨ps, h1, _, h2⟩ := uncertainties_partial d' (keyed dec n _ d' (hd n le_rfl))
  obtain ⟨p, hp, hx, _⟩ := h2 0 "KL3".toList rfl
  have hu := hget "U".toList "KL3".toList (by decide +kernel)
  rw [find_u.1] at hu
  refine ⟨ps, p, (98433.75, 0.60, "U KL3".toList), h1, hp, (hx _).mpr ⟨⟨"U".toList, "KL3".toList, 98433.75, 0.60⟩, hu, rfl, ?_⟩, rfl, by decide +kernel⟩
  decide +kernel

/-- Disagreement (C191): the title of the panel for the Lγ₁ lines (L2N4) says that they are K lines. -/
theorem title_fails (d : Db ℚ) (hk : Keyed d) : ∃ ps p, uncFigure d = .ok ps ∧ uncTr[8]? = some "L2N4".toList ∧ ps[8]? = some p ∧ p.title = "Kgamma_1: Weaker" := by
  obtain ⟨ps, h1, _, h2⟩ := uncertainties_partial d hk
  obtain ⟨p, hp, _, _, _, _, ht⟩ := h2 8 "L2N4".toList rfl
  refine ⟨ps, p, h1, rfl, hp, ?_⟩
  have : ∀ e ∈ titles, e.1 = "L2N4".toList → e.2 = "Kgamma_1: Weaker" := by decide +kernel
  exact this _ ht rfl

/-- Disagreement (C191): there is a title for the Kβ₃ lines (KM2), but no panel: no such line is drawn, whatever the data base has. -/
theorem missing_fails (d : Db ℚ) (hk : Keyed d) : (∃ s, ("KM2".toList, s) ∈ titles) ∧ ∃ ps, uncFigure d = .ok ps ∧ ∀ p ∈ ps, ∀ x ∈ p.points, ∃ l, d.get l.name = some l ∧ l.name = x.2.2 ∧ l.transition ≠ "KM2".toList := by
  obtain ⟨ps, h1, hlen, h2⟩ := uncertainties_partial d hk
  refine ⟨⟨"Kbeta_3: Intense, usually unresolvable", by decide +kernel⟩, ps, h1, fun p hp x hx => ?_⟩
  obtain ⟨i, hi, hpi⟩ := List.getElem_of_mem hp
  have hu : uncTr.length = 12 := by decide +kernel
  have hi' : i < uncTr.length := by omega
  obtain ⟨q, hq, hm, _⟩ := h2 i uncTr[i] (List.getElem?_eq_getElem hi')
  rw [List.getElem?_eq_getElem hi, hpi, Option.some.injEq] at hq
  subst hq
  obtain ⟨l, hl, ht, rfl⟩ := (hm x).mp hx
  refine ⟨l, hl, rfl, ?_⟩
  have : ∀ t ∈ uncTr, t ≠ "KM2".toList := by decide +kernel
  rw [ht]
  exact this _ (List.getElem_mem hi')

/-- Disagreement (C191): the second figure has curves without a point: five of the eighteen curves (the M lines) are in the legend, but the data that come with the package have no such line. -/
theorem empty_fails (d : Db ℚ) (n : Nat) (hd : ∀ m, n ≤ m → db m = some d) : ∃ cs, energyFigure d = .ok cs ∧ ∀ t ∈ ["M5N7".toList, "M5N6".toList, "M4N6".toList, "M3N5".toList, "M3N4".toList], (t, [], []) ∈ cs := by
  obtain ⟨d', ⟨n0, h0⟩, _, _, hget⟩ := loaded
  have e : d' = d := by
    have h1 := h0 (max n n0) (by omega)
    rw [hd (max n n0) (by omega)] at h1
    exact (Option.some.inj h1).symm
  subst e
  obtain ⟨cs, h1, h2, h3⟩ := energies d' (keyed dec n _ d' (hd n le_rfl))
  refine ⟨cs, h1, fun t ht => ?_⟩
  have hT : ∀ t ∈ ["M5N7".toList, "M5N6".toList, "M4N6".toList, "M3N5".toList, "M3N4".toList], t ∈ transitions ∧ ofType t = [] := by decide +kernel
  obtain ⟨htr, hno⟩ := hT t ht
  rw [← h2] at htr
  obtain ⟨c, hc, rfl⟩ := List.mem_map.mp htr
  obtain ⟨hl, _, hz⟩ := h3 c hc
  have hnone : ∀ z e, (z, e) ∉ c.2.1.zip c.2.2 := by
    intro z e hm
    obtain ⟨el, l, hel, hgl, _⟩ := (hz z e).mp hm
    rw [hget el c.1 (element_facts el (List.mem_of_getElem? hel)).1] at hgl
    unfold find at hgl
    rw [hno] at hgl
    cases hgl
  have h0' : c.2.1.zip c.2.2 = [] := List.eq_nil_iff_forall_not_mem.mpr (fun x => hnone x.1 x.2)
  have hlen := congrArg List.length h0'
  rw [List.length_zip, hl, Nat.min_self] at hlen
  have a2 : c.2.2 = [] := List.length_eq_zero_iff.mp hlen
  have a1 : c.2.1 = [] := List.length_eq_zero_iff.mp (hl.trans hlen)
  have ec : c = (c.1, [], []) := Prod.ext rfl (Prod.ext a1 a2)
  rw [← ec]
  exact hc

/-! ### examples -/

/-- two lines of one transition and one that is not drawn -/
def ex : Db ℚ := ⟨[("Mn KM2".toList, ⟨"Mn".toList, "KM2".toList, 6490, 1 / 100⟩), ("Fe KL3".toList, ⟨"Fe".toList, "KL3".toList, 6404, 1 / 100⟩), ("Mn KL3".toList, ⟨"Mn".toList, "KL3".toList, 5899, 2 / 100⟩)], []⟩

example : (uncFigure ex).toOption.map (fun ps => ps.map (fun p => p.points.map (fun x => x.1))) = some [[5899, 6404], [], [], [], [], [], [], [], [], [], [], []] := by decide +kernel

example : (energyFigure ex).toOption.map (fun cs => cs.filter (fun c => !c.2.1.isEmpty)) = some [("KL3".toList, [25, 26], [5899, 6404]), ("KM2".toList, [25], [6490])] := by decide +kernel

example : Keyed ex := by
  intro n l h
  have : ∀ e ∈ ex.lines, e.2.name = e.1 := by decide +kernel
  unfold Db.get at h
  cases hf : ex.lines.find? (fun e => decide (e.1 = n)) with
  | none => rw [hf] at h; cases h
  | some e =>
    rw [hf] at h
    have h1 := List.find?_some hf
    simp only [Option.map_some, Option.some.injEq] at h
    rw [← h, this e (List.mem_of_find?_eq_some hf)]
    exact of_decide_eq_true h1

end Mass.Line.XrayFig
