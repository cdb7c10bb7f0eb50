import Verif.Line.XrayData
import Verif.Line.ByName
import Verif.Line.Builtin
/-! C188: what is checked on the table of x-ray lines (Verif/Line/XrayData.lean) as a whole, by evaluation in the kernel -/
namespace Mass.Line.XrayData
open Mass Mass.Names Mass.Line.Xray Mass.Line.ByName

/-- the lines of a transition [specification] -/
def ofType (t : Str) : List (XLine ℚ) := table.filter (fun l => decide (l.transition = t))

/-- the line of an element and a transition: the last one in the table [specification] -/
def find (t el : Str) : Option (XLine ℚ) := ((ofType t).filter (fun l => decide (l.element = el))).getLast?

/-- pairs of transitions, the second from a higher or to a lower level [specification] -/
def ordered : List (Str × Str) := [("KL2", "KL3"), ("KL3", "KM2"), ("KM2", "KM3"), ("KM3", "KM5"), ("L3M1", "L3M4"), ("L3M4", "L3M5"), ("L3M5", "L2M4"), ("L3M5", "L3N5"), ("L3N5", "L3N7"), ("L2M4", "L2N4"),
  ("L3M5", "L1M3")].map (fun p => (p.1.toList, p.2.toList))

theorem table_proper : ∀ l ∈ table, l.element ∈ elements ∧ l.element ≠ [] ∧ l.transition ∈ transitions ∧ ' ' ∉ l.element := by decide +kernel

theorem table_sized : ∀ l ∈ table, 0 < l.unc ∧ 100 * l.unc < l.peak := by decide +kernel

theorem table_rising : ∀ t ∈ transitions, ((elements.filterMap (find t)).map (fun l => l.peak)).IsChain (· < ·) := by decide +kernel

theorem table_ordered : ∀ p ∈ ordered, ∀ el ∈ elements, ∀ x ∈ find p.1 el, ∀ y ∈ find p.2 el, x.peak ≤ y.peak := by decide +kernel

theorem table_builtin : ∀ e ∈ Builtin.table, e.isDefault = true → e.linetype ≠ "KBeta24" → ∃ t ∈ transitions, e.linetype.toList ∈ allNames t ∧ e.element.toList ∈ elements ∧
    ∃ l, find t e.element.toList = some l ∧ |l.peak - e.nominal| ≤ 0.405 := by
  have h : ∀ e ∈ Builtin.table, e.isDefault = true → e.linetype ≠ "KBeta24" → ∃ t ∈ transitions, e.linetype.toList ∈ allNames t ∧ e.element.toList ∈ elements ∧
      ((find t e.element.toList).elim false (fun l => decide (|l.peak - e.nominal| ≤ 0.405))) = true := by decide +kernel
  intro e he h1 h2
  obtain ⟨t, ht, hn, hel, hf⟩ := h e he h1 h2
  refine ⟨t, ht, hn, hel, ?_⟩
  cases hfd : find t e.element.toList with
  | none => rw [hfd] at hf; cases hf
  | some l => rw [hfd] at hf; exact ⟨l, rfl, by simpa using hf⟩

theorem find_u : find "KL3".toList "U".toList = some ⟨"U".toList, "KL3".toList, 98433.75, 0.60⟩ ∧ find "KL2".toList "Pu".toList = some ⟨"Pu".toList, "KL2".toList, 99523.2, 1.2⟩ := by decide +kernel

theorem find_mn : find "KM3".toList "Mn".toList = some ⟨"Mn".toList, "KM3".toList, 6490.585, 0.014⟩ ∧ find "KL3".toList "Mn".toList = some ⟨"Mn".toList, "KL3".toList, 5898.8010, 0.0084⟩ := by decide +kernel

theorem row_u : Row.full "U".toList "238".toList "KL3".toList " 98433.6       3.6".toList "98431.58".toList "0.28".toList 16 "5d".toList ∈ mainRows := by decide +kernel

theorem find_u238 : ∀ t ∈ transitions, ∀ l, find t "U".toList = some l → l.peak ≠ 98431.58 := by
  have h : ∀ t ∈ transitions, ((find t "U".toList).all (fun l => decide (l.peak ≠ 98431.58))) = true := by decide +kernel
  intro t ht l hl
  have := h t ht
  rw [hl] at this
  simpa using this

theorem no_nb : ∀ t ∈ transitions, ∀ el ∈ elements, ∀ m ∈ allNames t, "NbKBeta24".toList ≠ el ++ m := by decide +kernel

end Mass.Line.XrayData
