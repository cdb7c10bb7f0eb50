import Verif.Line.XrayData
import Verif.Line.XrayTable
import Verif.Line.BuiltinThm
/-! C188: the data base of x-ray lines as it comes with the package (mass/calibration/nist_xray_data.dat, low_z_xray_data.dat), read by the model of C142 and C149. -/
namespace Mass.Line.XrayData
open Mass Mass.Names Mass.Line.Xray Mass.Line.ByName

/-! ### model -/

/-- float() of a plain decimal number (used for nist_xray_database.py L143-144); no other form occurs in the files -/
def dec (s : Str) : Option ℚ :=
  let s := s.dropWhile ws
  let ip := s.takeWhile Char.isDigit
  let num : Str → Nat := fun l => l.foldl (fun n c => 10 * n + (c.toNat - 48)) 0
  match s.dropWhile Char.isDigit with
  | [] => if ip = [] then none else some (mkRat (num ip : Int) 1)
  | '.' :: f => if f.all Char.isDigit && !(ip ++ f).isEmpty then some (mkRat (num (ip ++ f) : Int) (10 ^ f.length)) else none
  | _ => none

/-- the text of a row (nist_xray_data.dat L6-17: the columns); the end of line, which is stripped, is left out -/
def Row.text : Row → Str
  | .full el mass tr theory pk un gap more => pad 5 el ++ pad 4 mass ++ pad 7 tr ++ pad 28 theory ++ pad 16 pk ++ un ++ List.replicate gap ' ' ++ more
  | .short el mass tr theory => pad 5 el ++ pad 4 mass ++ pad 7 tr ++ theory

/-- nist_xray_data.dat -/
def mainFile : List Str := mainBefore.map String.toList ++ mainTitle.toList :: mainRows.map Row.text

/-- low_z_xray_data.dat -/
def lowFile : List Str := lowBefore.map String.toList ++ lowTitle.toList :: lowRows.map Row.text

/-- NISTXrayDBFile() with its default files, nist_xray_database.py L39, L51-74, for `fuel` rounds of the first loop; the last data base if there are not enough -/
def db (fuel : Nat) : Option (Db ℚ) := load dec fuel [some mainFile, some lowFile]

/-! ### specification -/

/-- what a row says: its element, transition, measured energy and uncertainty if there are any [specification] -/
def Row.line : Row → Option (XLine ℚ)
  | .full el _ tr _ pk un _ _ => match dec pk with
    | none => none
    | some p => match dec un with
      | none => none
      | some u => some ⟨el, tr, p, u⟩
  | .short _ _ _ _ => none

/-- a row fits its columns [specification] -/
def Row.fits : Row → Bool
  | .full el mass tr theory pk un gap more => decide (el.length ≤ 4) && decide (mass.length ≤ 4) && decide (tr.length ≤ 7) && decide (theory.length ≤ 28) && decide (pk.length ≤ 15) && decide (un.length ≤ 12) &&
      (more.isEmpty || decide (12 ≤ un.length + gap)) && el.all (fun c => !ws c) && tr.all (fun c => !ws c) && pk.all (fun c => !ws c) && un.all (fun c => !ws c)
  | .short el mass tr theory => decide (el.length ≤ 5) && decide (mass.length ≤ 4) && decide (tr.length ≤ 7) && decide (theory.length ≤ 28)

/-! ### lemmas -/

theorem parse_text (r : Row) (h : r.fits = true) : parse dec r.text = r.line := by
  cases r with
  | short el mass tr theory =>
    simp only [Row.fits, Bool.and_eq_true, decide_eq_true_eq] at h
    obtain ⟨⟨⟨h1, h2⟩, h3⟩, h4⟩ := h
    have hl : (Row.text (.short el mass tr theory)).length ≤ 44 := by
      simp only [Row.text, List.length_append, pad_length 5 el h1, pad_length 4 mass h2, pad_length 7 tr h3]
      omega
    have hc : col 45 59 (Row.text (.short el mass tr theory)) = [] := by
      unfold col
      rw [List.drop_eq_nil_of_le (by simp; omega)]
      rfl
    unfold parse
    rw [hc]
    rfl
  | full el mass tr theory pk un gap more =>
    simp only [Row.fits, Bool.and_eq_true, decide_eq_true_eq, Bool.or_eq_true, List.isEmpty_iff, List.all_eq_true, Bool.not_eq_true'] at h
    obtain ⟨⟨⟨⟨⟨⟨⟨⟨⟨⟨h1, h2⟩, h3⟩, h4⟩, h5⟩, h6⟩, h7⟩, w1⟩, w2⟩, w3⟩, w4⟩ := h
    have l1 := pad_length 5 el (by omega)
    have lm := pad_length 4 mass h2
    have l2 := pad_length 7 tr h3
    have lt := pad_length 28 theory h4
    have l3 := pad_length 16 pk (by omega)
    have c1 : col 1 4 (Row.text (.full el mass tr theory pk un gap more)) = el := by
      have := col_pad [] el (pad 4 mass ++ pad 7 tr ++ pad 28 theory ++ pad 16 pk ++ un ++ List.replicate gap ' ' ++ more) 1 4 5 rfl h1 w1 (by omega)
      simpa [Row.text, List.append_assoc] using this
    have c2 : col 10 16 (Row.text (.full el mass tr theory pk un gap more)) = tr := by
      have := col_pad (pad 5 el ++ pad 4 mass) tr (pad 28 theory ++ pad 16 pk ++ un ++ List.replicate gap ' ' ++ more) 10 7 7 (by simp [l1, lm]) h3 w2 (by omega)
      simpa [Row.text, List.append_assoc, l1, lm] using this
    have c3 : col 45 59 (Row.text (.full el mass tr theory pk un gap more)) = pk := by
      have := col_pad (pad 5 el ++ pad 4 mass ++ pad 7 tr ++ pad 28 theory) pk (un ++ List.replicate gap ' ' ++ more) 45 15 16 (by simp [l1, l2, lm, lt]) h5 w3 (by omega)
      simpa [Row.text, List.append_assoc, l1, l2, lm, lt] using this
    have c4 : col 61 72 (Row.text (.full el mass tr theory pk un gap more)) = un := by
      unfold col
      have hp : (pad 5 el ++ pad 4 mass ++ pad 7 tr ++ pad 28 theory ++ pad 16 pk).length = 60 := by simp [l1, l2, l3, lm, lt]
      have e : Row.text (.full el mass tr theory pk un gap more) = (pad 5 el ++ pad 4 mass ++ pad 7 tr ++ pad 28 theory ++ pad 16 pk) ++ (un ++ (List.replicate gap ' ' ++ more)) := by
        simp [Row.text, List.append_assoc]
      rw [e, List.drop_take, show 61 - 1 = (pad 5 el ++ pad 4 mass ++ pad 7 tr ++ pad 28 theory ++ pad 16 pk).length from hp.symm, List.drop_left, hp]
      rw [show (un ++ (List.replicate gap ' ' ++ more)).take (72 - 60) = un ++ List.replicate (min (12 - un.length) gap) ' ' from ?_]
      · exact rstrip_pad un _ w4
      · rw [List.take_append, List.take_of_length_le (by omega), List.take_append, List.take_replicate]
        rcases h7 with h7 | h7
        · rw [h7]; simp
        · rw [List.length_replicate, show 72 - 60 - un.length - gap = 0 by omega]; simp
    unfold parse
    rw [c1, c2, c3, c4]
    simp only [Row.line]
    cases dec pk with
    | none => simp
    | some p => cases dec un <;> simp

theorem rows_fit : ∀ p ∈ parts, p.1.all Row.fits = true := by decide +kernel

theorem rows_table : ∀ p ∈ parts, p.1.filterMap Row.line = p.2 := by decide +kernel

theorem heads : (∀ x ∈ mainBefore.map String.toList, isHead x = false) ∧ isHead mainTitle.toList = true ∧ (∀ x ∈ lowBefore.map String.toList, isHead x = false) ∧ isHead lowTitle.toList = true := by
  decide +kernel

theorem all_rows : mainRows ++ lowRows = (parts.map Prod.fst).flatten := by
  simp only [mainRows, lowRows, parts, List.map_cons, List.map_nil, List.flatten_cons, List.flatten_nil, List.append_nil, List.append_assoc]

theorem all_table : table = (parts.map Prod.snd).flatten := by
  simp only [table, parts, List.map_cons, List.map_nil, List.flatten_cons, List.flatten_nil, List.append_nil, List.append_assoc]

theorem read_parts : ∀ ps : List (List Row × List (XLine ℚ)), (∀ p ∈ ps, p.1.all Row.fits = true) → (∀ p ∈ ps, p.1.filterMap Row.line = p.2) →
    (((ps.map Prod.fst).flatten).map Row.text).filterMap (parse dec) = (ps.map Prod.snd).flatten
  | [], _, _ => rfl
  | p :: ps, h1, h2 => by
    have ih := read_parts ps (fun q hq => h1 q (List.mem_cons_of_mem _ hq)) (fun q hq => h2 q (List.mem_cons_of_mem _ hq))
    have hp : (p.1.map Row.text).filterMap (parse dec) = p.2 := by
      rw [← h2 p List.mem_cons_self, List.filterMap_map]
      apply List.filterMap_congr
      intro r hr
      exact parse_text r (List.all_eq_true.mp (h1 p List.mem_cons_self) r hr)
    rw [List.map_cons, List.flatten_cons, List.map_append, List.filterMap_append, hp, ih, List.map_cons, List.flatten_cons]

theorem filter_find (el t : Str) (he : ' ' ∉ el) : (table.filter (fun l => decide (l.name = el ++ ' ' :: t))).getLast? = find t el := by
  unfold find ofType
  rw [List.filter_filter]
  congr 1
  apply List.filter_congr
  intro l hl
  have hs := (table_proper l hl).2.2.2
  have : l.name = el ++ ' ' :: t ↔ l.element = el ∧ l.transition = t := by
    constructor
    · intro h
      have h1 := splitName_eq l.element l.transition hs
      unfold XLine.name at h
      rw [h, splitName_eq el t he] at h1
      exact ⟨(Prod.mk.inj h1).1.symm, (Prod.mk.inj h1).2.symm⟩
    · rintro ⟨rfl, rfl⟩; rfl
  simp only [this, Bool.decide_and]

/-! ### theorems -/

/-- C188: the data base that comes with the package: both files are read to the end, every row with a measured energy and uncertainty is a line and no other row is, and a line is found under the name
of its element and its transition. (`table` lists the 905 lines.) Under each name the data base has the last of the lines with that name. -/
theorem loaded : ∃ d : Db ℚ, (∃ n0, ∀ n, n0 ≤ n → db n = some d) ∧ Proper d ∧ d.all.reverse = table ∧ ∀ el t, ' ' ∉ el → d.get (el ++ ' ' :: t) = find t el := by
  have hg : List.Forall₂ goodFile [some mainFile, some lowFile] [mainRows.map Row.text, lowRows.map Row.text] :=
    .cons (.inr ⟨_, _, rfl, heads.1, heads.2.1⟩) (.cons (.inr ⟨_, _, rfl, heads.2.2.1, heads.2.2.2⟩) .nil)
  obtain ⟨d, n0, h0, hget, hall⟩ := load_partial dec _ _ hg
  have hbody : [mainRows.map Row.text, lowRows.map Row.text].flatten.filterMap (parse dec) = table := by
    rw [List.flatten_cons, List.flatten_cons, List.flatten_nil, List.append_nil, ← List.map_append, all_rows, all_table]
    exact read_parts parts rows_fit rows_table
  have hlast : ∀ n, d.get n = (table.filter (fun l => decide (l.name = n))).getLast? := by
    intro n; rw [hget]; unfold lastOf; rw [hbody]
  refine ⟨d, ⟨n0, h0⟩, ?_, by rw [hall, hbody], fun el t he => by rw [hlast, filter_find el t he]⟩
  intro n l h
  rw [hlast] at h
  have hm := List.mem_of_getLast? h
  rw [List.mem_filter] at hm
  obtain ⟨h1, h2, h3, _⟩ := table_proper l hm.1
  exact ⟨l.element, l.transition, h1, h2, h3, (of_decide_eq_true hm.2).symm⟩

theorem find_mem {t el : Str} {l : XLine ℚ} (h : find t el = some l) : l ∈ table ∧ l.transition = t ∧ l.element = el := by
  have hm := List.mem_of_getLast? h
  rw [List.mem_filter, ofType, List.mem_filter] at hm
  exact ⟨hm.1.1, of_decide_eq_true hm.1.2, of_decide_eq_true hm.2⟩

/-- C188: in the data base that comes with the package every line has a positive uncertainty below one hundredth of its energy, `get_lines_by_type` gives for each transition lines of strictly growing
energy (one per element), and within an element the energies are in the order of the levels. -/
theorem sensible (d : Db ℚ) (n : Nat) (hd : ∀ m, n ≤ m → db m = some d) :
    (∀ l ∈ d.all, 0 < l.unc ∧ 100 * l.unc < l.peak ∧ l.element ∈ elements ∧ l.transition ∈ transitions) ∧
    (∀ t ∈ transitions, ((byType d t).map (fun l => l.peak)).IsChain (· < ·) ∧ ∀ l ∈ byType d t, l.transition = t) ∧
    (∀ p ∈ ordered, ∀ el ∈ elements, ∀ x y, d.get (el ++ ' ' :: p.1) = some x → d.get (el ++ ' ' :: p.2) = some y → x.peak ≤ y.peak) := by
  obtain ⟨d', ⟨n0, h0⟩, _, hall, hget⟩ := loaded
  have e : d' = d := by
    have h1 := h0 (max n n0) (by omega)
    rw [hd (max n n0) (by omega)] at h1
    exact (Option.some.inj h1).symm
  subst e
  have hg : ∀ el ∈ elements, ∀ t, d'.get (el ++ ' ' :: t) = find t el := fun el he t => hget el t (element_facts el he).1
  refine ⟨fun l hl => ?_, fun t ht => ?_, fun p hp el he x y hx hy => ?_⟩
  · have : l ∈ table := by rw [← hall]; exact List.mem_reverse.mpr hl
    have a := table_sized l this
    have b := table_proper l this
    exact ⟨a.1, a.2, b.1, b.2.2.1⟩
  · have hb : byType d' t = elements.filterMap (find t) := by
      rw [(byType_lines d' t ht).1]
      apply List.filterMap_congr
      intro el he
      exact hg el he t
    rw [hb]
    refine ⟨table_rising t ht, fun l hl => ?_⟩
    obtain ⟨el, _, h⟩ := List.mem_filterMap.mp hl
    exact (find_mem h).2.1
  · rw [hg el he] at hx hy
    exact table_ordered p hp el he x hx y hy

/-- C188 (partial): each line shape that comes with the package (C186), found by its short name, has an energy of the same name in `STANDARD_FEATURES`, and its peak is within 0.405 eV of it; the full claim,
that the two are the same within the uncertainty, and that there is one for NbKBeta24, fails: see `two_energies_fails`, `nb_fails`. -/
theorem builtin_near_partial (d : Db ℚ) (n : Nat) (hd : ∀ m, n ≤ m → db m = some d) :
    ∀ e ∈ Builtin.table, e.isDefault = true → e.linetype ≠ "KBeta24" → ∃ v, look (lineEnergies d) (Builtin.shortname e).toList = some v ∧ |v - e.nominal| ≤ 0.405 := by
  obtain ⟨d', ⟨n0, h0⟩, hpr, hall, hget⟩ := loaded
  have e : d' = d := by
    have h1 := h0 (max n n0) (by omega)
    rw [hd (max n n0) (by omega)] at h1
    exact (Option.some.inj h1).symm
  subst e
  intro e he h1 h2
  obtain ⟨t, ht, hn, hel, l, hf, hc⟩ := table_builtin e he h1 h2
  refine ⟨l.peak, (line_energies_spec d' hpr _ _).mpr ⟨e.element.toList, t, e.linetype.toList, l, ?_, hel, ht, hn, ?_, rfl⟩, hc⟩
  · rw [hget _ _ (element_facts _ hel).1, hf]
  · simp only [Builtin.shortname, h1, if_true, String.toList_append]

/-- Disagreement (C188): the name of a line leaves out the mass number of the isotope, and a later isotope replaces an earlier one. `STANDARD_FEATURES["UKAlpha"]` and `["UKAlpha1"]` are the energy of
uranium 233 (98433.75 eV), not of uranium 238 (98431.58 eV, uncertainty 0.28), which no name finds. -/
theorem isotope_fails (d : Db ℚ) (n : Nat) (hd : ∀ m, n ≤ m → db m = some d) :
    Row.full "U".toList "238".toList "KL3".toList " 98433.6       3.6".toList "98431.58".toList "0.28".toList 16 "5d".toList ∈ mainRows ∧
    look (lineEnergies d) "UKAlpha".toList = some 98433.75 ∧ look (lineEnergies d) "UKAlpha1".toList = some 98433.75 ∧
    ∀ key l, d.get key = some l → ¬ (l.element = "U".toList ∧ l.peak = 98431.58) := by
  obtain ⟨d', ⟨n0, h0⟩, hpr, hall, hget⟩ := loaded
  have e : d' = d := by
    have h1 := h0 (max n n0) (by omega)
    rw [hd (max n n0) (by omega)] at h1
    exact (Option.some.inj h1).symm
  subst e
  have hU : "U".toList ∈ elements := by decide +kernel
  have hg : d'.get ("U".toList ++ ' ' :: "KL3".toList) = some ⟨"U".toList, "KL3".toList, 98433.75, 0.60⟩ := by
    rw [hget _ _ (element_facts _ hU).1, find_u.1]
  refine ⟨row_u, (line_energies_spec d' hpr _ _).mpr ⟨"U".toList, "KL3".toList, "KAlpha".toList, _, hg, hU, by decide +kernel, by decide +kernel, by decide +kernel, rfl⟩,
    (line_energies_spec d' hpr _ _).mpr ⟨"U".toList, "KL3".toList, "KAlpha1".toList, _, hg, hU, by decide +kernel, by decide +kernel, by decide +kernel, rfl⟩, ?_⟩
  rintro key l hl ⟨h1, h2⟩
  obtain ⟨el, t, hel, _, ht, hk⟩ := hpr key l hl
  rw [hk, hget _ _ (element_facts _ hel).1] at hl
  obtain ⟨_, _, h5⟩ := find_mem hl
  rw [h1] at h5
  subst h5
  exact find_u238 t ht l hl h2

/-- Disagreement (C188): one name has two energies. `get_model("MnKBeta")` gives the line shape with its peak at 6490.18 eV, `STANDARD_FEATURES["MnKBeta"]` is 6490.585 eV with an uncertainty of
0.014 eV: a calibration fitted to the shape and one made of the plain energies differ by 29 times the uncertainty. (For MnKAlpha they differ by less than the uncertainty.) -/
theorem two_energies_fails (d : Db ℚ) (n : Nat) (hd : ∀ m, n ≤ m → db m = some d) :
    (∃ e ∈ Builtin.table, Builtin.shortname e = "MnKBeta" ∧ e.nominal = 6490.18) ∧ (∃ l, d.get "Mn KM3".toList = some l ∧ l.unc = 0.014 ∧ look (lineEnergies d) "MnKBeta".toList = some l.peak ∧ 28 * l.unc < l.peak - 6490.18) := by
  obtain ⟨d', ⟨n0, h0⟩, hpr, hall, hget⟩ := loaded
  have e : d' = d := by
    have h1 := h0 (max n n0) (by omega)
    rw [hd (max n n0) (by omega)] at h1
    exact (Option.some.inj h1).symm
  subst e
  have hM : "Mn".toList ∈ elements := by decide +kernel
  have hg : d'.get ("Mn".toList ++ ' ' :: "KM3".toList) = some ⟨"Mn".toList, "KM3".toList, 6490.585, 0.014⟩ := by
    rw [hget _ _ (element_facts _ hM).1, find_mn.1]
  refine ⟨by decide +kernel, _, hg, rfl, (line_energies_spec d' hpr _ _).mpr ⟨"Mn".toList, "KM3".toList, "KBeta".toList, _, hg, hM, by decide +kernel, by decide +kernel, by decide +kernel, rfl⟩, by norm_num⟩

/-- Disagreement (C188): the name of the line NbKBeta24 is in no data base of this kind, whatever its files: `STANDARD_FEATURES["NbKBeta24"]` raises KeyError. -/
theorem nb_fails (d : Db ℚ) (hd : Proper d) : (∃ e ∈ Builtin.table, Builtin.shortname e = "NbKBeta24") ∧ look (lineEnergies d) "NbKBeta24".toList = none := by
  refine ⟨by decide +kernel, ?_⟩
  cases h : look (lineEnergies d) "NbKBeta24".toList with
  | none => rfl
  | some v =>
    obtain ⟨el, t, m, l, _, hel, ht, hm, hk, _⟩ := (line_energies_spec d hd _ _).mp h
    exact absurd hk (no_nb t ht el hel m hm)

example : dec "98431.58".toList = some 98431.58 ∧ dec " 14".toList = some 14 ∧ dec "".toList = none ∧ dec "K2".toList = none := by decide +kernel

example : parse dec (Row.text (.full "U".toList "238".toList "KL3".toList " 98433.6       3.6".toList "98431.58".toList "0.28".toList 16 "5d".toList)) = some ⟨"U".toList, "KL3".toList, 98431.58, 0.28⟩ ∧
    parse dec (Row.text (.short "Cf".toList "249".toList "L1M3".toList " 20902.9       3.9".toList)) = none := by decide +kernel

end Mass.Line.XrayData
