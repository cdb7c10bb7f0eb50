import Verif.Line.IonTable
import Verif.Line.BuiltinThm
import Verif.Line.Asd
/-! C189: the lines of highly charged ions that are written down in the package (mass/calibration/_highly_charged_ion_lines.py), with the model of `addline` of C186. -/
namespace Mass.Line.Ions
open Mass Mass.Line Mass.Line.Builtin Real

/-- the names in `spectra` after both modules are loaded, fluorescence_lines.py L445-1505, then _highly_charged_ion_lines.py L10-842 -/
def loadBoth : Except Exc (List String) :=
  match load references Builtin.table [] with
  | .error x => .error x
  | .ok k => load references table k

/-! ### specification -/

/-- a line of a hydrogen-like ion [specification] -/
def hLike (e : Entry) : Bool := " H-Like ".toList.isPrefixOf e.linetype.toList

/-- the mean of the energies with the intensities as weights, times the sum of the weights, is the nominal energy [specification] -/
def centered (e : Entry) : Bool := decide (((e.energies.zip (weights e)).map (fun p => p.1 * p.2)).sum = e.nominal * (weights e).sum)

/-- two components, the one of higher energy twice as strong [specification] -/
def doublet (e : Entry) : Bool :=
  match e.energies, weights e with
  | [a, b], [x, y] => (decide (a < b) && decide (y = 2 * x)) || (decide (b < a) && decide (x = 2 * y))
  | _, _ => false

/-- the nominal energy is that of a component, and the density is lower at all others [specification] -/
def strongest (e : Entry) : Bool := e.energies.any (fun x => decide (x = e.nominal)) && e.energies.all (fun x => decide (x = e.nominal) || decide (dens e x < dens e e.nominal))

/-! ### lemmas -/

theorem table_sound : ∀ e ∈ table, sound e = true := by decide +kernel

theorem table_ty : ∀ e ∈ table, e.ty ≠ .voigtPeakHeight := by decide +kernel

theorem table_h : ∀ e ∈ table, hLike e = true → shortname e ≠ "O H-Like 4p" → centered e = true ∧ doublet e = true := by decide +kernel

theorem table_other : ∀ e ∈ table, hLike e = false → strongest e = true := by decide +kernel

theorem table_names : ∀ e ∈ Builtin.table ++ table, ' ' ∉ (shortname e).toList ∨ ((shortname e).toList.takeWhile (fun c => c ≠ ' ')).all (fun c => !c.isDigit) = true := by decide +kernel

theorem intensities (wre : ℝ → ℝ → ℝ) {e : Entry} (h : sound e = true) (hv : e.ty ≠ .voigtPeakHeight) :
    ∃ l, line wre e = .ok l ∧ l.energies = e.energies.map (fun r : ℚ => (r : ℝ)) ∧ l.intensity = (weights e).map (fun r : ℚ => (r : ℝ) / (((weights e).sum : ℚ) : ℝ)) := by
  obtain ⟨k, hk, hr⟩ := raw_weights wre h hv
  have hs : ((weights e).map (fun r : ℚ => k * (r : ℝ))).sum = k * (((weights e).sum : ℚ) : ℝ) := by
    rw [List.sum_map_mul_left, cast_sum]
  refine ⟨_, by unfold line addline; rw [hr]; rfl, rfl, ?_⟩
  dsimp only
  rw [hs, List.map_map]
  refine List.map_congr_left fun r _ => ?_
  simp only [Function.comp]
  rw [mul_div_mul_left _ _ hk.ne']

theorem mean_cast (s : ℝ) : ∀ (E W : List ℚ), (((E.map (fun r : ℚ => (r : ℝ))).zip (W.map (fun r : ℚ => (r : ℝ) / s))).map (fun p => p.1 * p.2)).sum = (((E.zip W).map (fun p => p.1 * p.2)).sum : ℚ) / s
  | [], W => by simp
  | a :: E, [] => by simp
  | a :: E, w :: W => by
    simp only [List.map_cons, List.zip_cons_cons, List.sum_cons, mean_cast s E W]
    push_cast
    ring

/-! ### theorems -/

/-- C189. Both modules can be loaded: all references are known, and no name is used twice, neither in the file nor together with the lines of C186; afterwards the names are those of all calls. -/
theorem ions_loaded : loadBoth = .ok ((Builtin.table ++ table).map shortname) ∧ ((Builtin.table ++ table).map shortname).Nodup := by decide +kernel

/-- C189. Every line of the file is a probability density at every resolution that is not negative, with the energies and widths of its table; a negative resolution is refused. -/
theorem ions_density {wre : ℝ → ℝ → ℝ} (hw : IsWofz wre) : ∀ e ∈ table, ∃ l, line wre e = .ok l ∧ l.energies = e.energies.map (fun r : ℚ => (r : ℝ)) ∧
    l.lorentzianFwhm = e.fwhm.map (fun r : ℚ => (r : ℝ)) ∧ (∀ fwhm, 0 ≤ fwhm → ∃ f : ℝ → ℝ, (∀ x, pdf wre l x fwhm = .ok (f x)) ∧ IsDensity f) ∧
    (∀ fwhm, fwhm < 0 → ∀ x, pdf wre l x fwhm = .error .assertion) := by
  intro e he
  obtain ⟨l, a1, a2, a3, a4, a5, a6, a7, a8⟩ := line_ok hw (table_sound e he)
  have hpos : ∀ g ∈ l.lorentzianFwhm, 0 < g := by
    rw [a3]
    intro g hg
    obtain ⟨g', hg', rfl⟩ := List.mem_map.1 hg
    exact_mod_cast (sound_spec (table_sound e he)).2.2.1 g' hg'
  refine ⟨l, a1, a2, a3, ?_, ?_⟩
  · intro fwhm hf
    obtain ⟨s, f, c, _, _, hp, hd, _⟩ := (line_density hw l a5 a6 a7 a8 (fun g hg => (hpos g hg).le) fwhm (Or.inl hpos)).2 hf
    exact ⟨f, hp, hd⟩
  · intro fwhm hf x
    exact ((line_density hw l a5 a6 a7 a8 (fun g hg => (hpos g hg).le) fwhm (Or.inl hpos)).1 hf x).1

/-- C189. The lines of hydrogen-like ions are doublets, with two thirds of the intensity in the component of higher energy, and the nominal energy is the mean of the two with these weights.
Missing: one line, for which it is false (`four_p_fails`). -/
theorem h_like_partial (wre : ℝ → ℝ → ℝ) : ∀ e ∈ table, hLike e = true → shortname e ≠ "O H-Like 4p" → ∃ l, line wre e = .ok l ∧ ((l.energies.zip l.intensity).map (fun p => p.1 * p.2)).sum = (e.nominal : ℝ) ∧
    ∃ lo hi : ℝ, lo < hi ∧ (l.energies.zip l.intensity).Perm [(lo, 1 / 3), (hi, 2 / 3)] := by
  intro e he hh hn
  have hs := table_sound e he
  obtain ⟨hc, hd⟩ := table_h e he hh hn
  obtain ⟨l, hl, h1, h2⟩ := intensities wre hs (table_ty e he)
  have hW : (0 : ℝ) < (((weights e).sum : ℚ) : ℝ) := by exact_mod_cast weights_sum hs
  refine ⟨l, hl, ?_, ?_⟩
  · rw [h1, h2, mean_cast, of_decide_eq_true hc, Rat.cast_mul]
    field_simp
  · rw [h1, h2]
    unfold doublet at hd
    generalize hE : e.energies = E at hd ⊢
    generalize hw : weights e = W at hd hW ⊢
    match E, W, hd with
    | [a, b], [x, y], hd =>
      simp only [Bool.or_eq_true, Bool.and_eq_true, decide_eq_true_eq] at hd
      simp only [List.sum_cons, List.sum_nil, add_zero] at hW ⊢
      simp only [List.map_cons, List.map_nil, List.zip_cons_cons, List.zip_nil_right]
      rcases hd with ⟨h3, rfl⟩ | ⟨h3, rfl⟩
      · refine ⟨(a : ℝ), (b : ℝ), by exact_mod_cast h3, ?_⟩
        push_cast at hW ⊢
        have hx : (x : ℝ) ≠ 0 := by intro h0; rw [h0] at hW; norm_num at hW
        rw [show (x : ℝ) / (x + 2 * x) = 1 / 3 by field_simp; norm_num, show 2 * (x : ℝ) / (x + 2 * x) = 2 / 3 by field_simp; norm_num]
      · refine ⟨(b : ℝ), (a : ℝ), by exact_mod_cast h3, ?_⟩
        push_cast at hW ⊢
        have hx : (y : ℝ) ≠ 0 := by intro h0; rw [h0] at hW; norm_num at hW
        rw [show (y : ℝ) / (2 * y + y) = 1 / 3 by field_simp; norm_num, show 2 * (y : ℝ) / (2 * y + y) = 2 / 3 by field_simp; norm_num]
        exact List.Perm.swap _ _ _

/-- C189. The nominal energy of every other line is that of a component, and without resolution the density there is higher than at every other component. -/
theorem other_peak (wre : ℝ → ℝ → ℝ) : ∀ e ∈ table, hLike e = false → e.nominal ∈ e.energies ∧
    ∃ l y, line wre e = .ok l ∧ pdf wre l (e.nominal : ℝ) 0 = .ok y ∧ ∀ x ∈ e.energies, x ≠ e.nominal → ∃ z, pdf wre l (x : ℝ) 0 = .ok z ∧ z < y := by
  intro e he hh
  have hp := table_other e he hh
  unfold strongest at hp
  simp only [Bool.and_eq_true, List.any_eq_true, List.all_eq_true, Bool.or_eq_true, decide_eq_true_eq] at hp
  obtain ⟨l, c, hl, hc, hd⟩ := pdf_dens wre (table_sound e he) (table_ty e he)
  obtain ⟨⟨x, hx, rfl⟩, h2⟩ := hp
  refine ⟨hx, l, _, hl, hd _, fun z hz hne => ⟨_, hd z, ?_⟩⟩
  rcases h2 z hz with h | h
  · exact absurd h hne
  · exact mul_lt_mul_of_pos_left (by exact_mod_cast h) hc

/-- C189. The energies of one series are in order: of one ion with the principal quantum number, of one transition with the nuclear charge, and the transition of a helium-like ion is below that of the
hydrogen-like ion. -/
theorem series : (∀ e ∈ table, ∀ e' ∈ table, e.element = e'.element → ∀ i j, i < j → j < 10 → e.linetype = " H-Like " ++ toString i ++ "p" → e'.linetype = " H-Like " ++ toString j ++ "p" → e.nominal < e'.nominal) ∧
    (∀ e ∈ table, ∀ e' ∈ table, e.element = e'.element → ∀ i j, i < j → j < 10 → e.linetype = " He-Like 1s" ++ toString i ++ "p 1P1" → e'.linetype = " He-Like 1s" ++ toString j ++ "p 1P1" → e.nominal < e'.nominal) ∧
    (∀ e ∈ table, ∀ e' ∈ table, e.element = e'.element → ∀ i, i < 10 → e.linetype = " He-Like 1s" ++ toString i ++ "p 1P1" → e'.linetype = " H-Like " ++ toString i ++ "p" → e.nominal < e'.nominal) ∧
    (∀ e ∈ table, ∀ e' ∈ table, e.linetype = e'.linetype → (e.element, e'.element) ∈ [("O", "Ne"), ("Ne", "Ar"), ("O", "Ar")] → e.nominal < e'.nominal) := by
  have h1 : ∀ j < 10, ∀ i < j, ∀ e ∈ table, e.linetype = " H-Like " ++ toString i ++ "p" → ∀ e' ∈ table, e'.linetype = " H-Like " ++ toString j ++ "p" → e.element = e'.element → e.nominal < e'.nominal := by decide +kernel
  have h2 : ∀ j < 10, ∀ i < j, ∀ e ∈ table, e.linetype = " He-Like 1s" ++ toString i ++ "p 1P1" → ∀ e' ∈ table, e'.linetype = " He-Like 1s" ++ toString j ++ "p 1P1" → e.element = e'.element → e.nominal < e'.nominal := by decide +kernel
  have h3 : ∀ i < 10, ∀ e ∈ table, e.linetype = " He-Like 1s" ++ toString i ++ "p 1P1" → ∀ e' ∈ table, e'.linetype = " H-Like " ++ toString i ++ "p" → e.element = e'.element → e.nominal < e'.nominal := by decide +kernel
  exact ⟨fun e he e' he' hel i j hij hj a b => h1 j hj i hij e he a e' he' b hel, fun e he e' he' hel i j hij hj a b => h2 j hj i hij e he a e' he' b hel,
    fun e he e' he' hel i hi a b => h3 i hi e he a e' he' b hel, by decide +kernel⟩

/-- C189. The names of these lines never meet those of lines made from the levels of a data base (C130), whatever the data base: neither file prevents the other from being used. -/
theorem names_apart (el : Asd.Str) (q : Nat) (k : Asd.Str) (hel : ' ' ∉ el) : ∀ e ∈ Builtin.table ++ table, (shortname e).toList ≠ Asd.lineName el q k := by
  intro e he h
  have hd : ∀ x ∈ Nat.toDigits 10 q, x.isDigit = true := fun x hx => Nat.isDigit_of_mem_toDigits (by omega) (by omega) hx
  rcases table_names e he with hn | hn
  · rw [h] at hn
    exact hn (by simp [Asd.lineName])
  · rw [h] at hn
    have hpos : ∀ c ∈ el ++ Nat.toDigits 10 q, (decide (c ≠ ' ')) = true := by
      intro c hc
      rw [decide_eq_true_eq]
      rintro rfl
      rcases List.mem_append.1 hc with h1 | h1
      · exact hel h1
      · exact absurd (hd _ h1) (by decide)
    unfold Asd.lineName at hn
    rw [List.takeWhile_append_of_pos hpos, List.all_append, List.all_append, Bool.and_eq_true, Bool.and_eq_true] at hn
    cases hq : Nat.toDigits 10 q with
    | nil => exact absurd hq Nat.toDigits_ne_nil
    | cons a s =>
      have h1 := hd a (by rw [hq]; simp)
      have h2 := List.all_eq_true.1 hn.1.2 a (by rw [hq]; simp)
      rw [h1] at h2
      exact absurd h2 (by simp)

/-- Disagreement (C189): in "O H-Like 4p" the amplitudes are in the order of the line before, the energies are not: two thirds of the intensity are in the component of lower energy (816.951 eV). The nominal
energy is worked out with the weights the other way round, and is not the mean of the line. -/
theorem four_p_fails (wre : ℝ → ℝ → ℝ) : ∃ e ∈ table, shortname e = "O H-Like 4p" ∧ ∃ l, line wre e = .ok l ∧ l.energies = [((816.951082 : ℚ) : ℝ), ((816.974368 : ℚ) : ℝ)] ∧ l.intensity = [2 / 3, 1 / 3] ∧
    ((l.energies.zip l.intensity).map (fun p => p.1 * p.2)).sum < (e.nominal : ℝ) - 0.007 := by
  have hm : line38 ∈ table := by simp [table]
  obtain ⟨l, hl, h1, h2⟩ := intensities wre (table_sound _ hm) (table_ty _ hm)
  have hw : weights line38 = [0.2, 0.1] := by decide +kernel
  have hi : l.intensity = [2 / 3, 1 / 3] := by rw [h2, hw]; norm_num
  have he : l.energies = [((816.951082 : ℚ) : ℝ), ((816.974368 : ℚ) : ℝ)] := by rw [h1]; rfl
  refine ⟨line38, hm, by decide +kernel, l, hl, he, hi, ?_⟩
  rw [he, hi]
  have hn : line38.nominal = 816.966606 := rfl
  rw [hn]
  norm_num

/-- Disagreement (C189): the same transition of oxygen has two energies: 560.983 eV as a component of "O He-Like 1s2s+1s2p", 560.98386 eV as "O He-Like 1s2s 3S1". (For neon and argon they are the same.) -/
theorem oxygen_fails : (∃ e ∈ table, ∃ s ∈ table, shortname e = "O He-Like 1s2s+1s2p" ∧ shortname s = "O He-Like 1s2s 3S1" ∧ e.energies.head? = some 560.983 ∧ s.nominal = 560.98386) ∧
    (∀ el ∈ ["Ne", "Ar"], ∃ e ∈ table, ∃ s ∈ table, shortname e = el ++ " He-Like 1s2s+1s2p" ∧ shortname s = el ++ " He-Like 1s2s 3S1" ∧ e.energies.head? = some s.nominal) := by decide +kernel

/-! ### examples -/

example : table.length = 53 ∧ hLike line10 = true ∧ hLike line53 = false ∧ shortname line812 = "W Ni-26" := by decide +kernel

/-- the file cannot be loaded twice -/
example : load references table (table.map shortname) = .error .value := by decide +kernel

end Mass.Line.Ions
