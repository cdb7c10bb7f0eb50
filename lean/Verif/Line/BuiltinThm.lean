import Verif.Line.Builtin
import Mathlib.Tactic.FieldSimp
import Mathlib.Tactic.NormNum
/-! C186: the lines that come with the package (mass/calibration/fluorescence_lines.py L365-429, L445-1514) -/
namespace Mass.Line.Builtin
open Mass Mass.Line Real

/-! ### model -/

/-- `shortname`, fluorescence_lines.py L163-168 -/
def shortname (e : Entry) : String := if e.isDefault then e.element ++ e.linetype else e.element ++ e.linetype ++ "_" ++ e.material

/-- the parts of `addline` that look at the other arguments, fluorescence_lines.py L371-383, L415-424: the reference must be known, a line named KAlpha must have a separation (float(None) raises
TypeError), and a name in use is refused. `known` are the names so far. -/
def register (refs known : List String) (e : Entry) : Except Exc (List String) :=
  if e.reference ∉ refs then .error .assertion
  else if e.linetype.startsWith "KAlpha" && e.ka12.isNone then .error .type
  else if shortname e ∈ known then .error .value
  else .ok (known ++ [shortname e])

/-- the calls of `addline` when the module is loaded, fluorescence_lines.py L445-1505: the names in `spectra` -/
def load (refs : List String) : List Entry → List String → Except Exc (List String)
  | [], known => .ok known
  | e :: t, known =>
    match register refs known e with
    | .error x => .error x
    | .ok k => load refs t k

/-- the spectral line made of the arguments, fluorescence_lines.py L385-414; no call gives an intrinsic width, so it is 0 -/
noncomputable def line (wre : ℝ → ℝ → ℝ) (e : Entry) : Except Exc SpectralLine :=
  addline wre e.ty (e.refFwhm.map (fun r : ℚ => (r : ℝ))) (e.energies.map (fun r : ℚ => (r : ℝ))) (e.fwhm.map (fun r : ℚ => (r : ℝ))) (e.amp.map (fun r : ℚ => (r : ℝ))) 0

/-- `plot_all_spectra`, fluorescence_lines.py L1508-1514, for `keys` the names: each of the first `maxplots` lines is called without arguments, which `__call__` (L77-79) refuses: TypeError. A negative
number leaves out that many at the end. Returns how many were drawn. -/
def plotAllSpectra (keys : List String) (maxplots : Int) : Except Exc Nat :=
  let ks := if 0 ≤ maxplots then keys.take maxplots.toNat else keys.take (keys.length - (-maxplots).toNat)
  match ks with
  | [] => .ok 0
  | _ :: _ => .error .type

/-! ### specification -/

/-- the integrals of the components, up to a common factor; not for heights of Voigt profiles [specification] -/
def weights (e : Entry) : List ℚ :=
  match e.ty with
  | .lorentzianIntegralIntensity => e.amp
  | _ => (e.fwhm.zip e.amp).map (fun p => p.1 * p.2)

/-- the density at x without resolution, up to a factor: a sum of Lorentzians [specification] -/
def dens (e : Entry) (x : ℚ) : ℚ :=
  ((e.energies.zip (e.fwhm.zip (weights e))).map (fun p => p.2.2 * (p.2.1 / 2) / ((x - p.1) ^ 2 + (p.2.1 / 2) ^ 2))).sum

/-- what C90 asks of the arguments, checked on the numbers [specification] -/
def sound (e : Entry) : Bool :=
  decide (e.energies.length = e.amp.length) && decide (e.fwhm.length = e.amp.length) && e.fwhm.all (fun g => decide (0 < g)) && e.amp.all (fun a => decide (0 ≤ a)) &&
    decide (0 < e.amp.sum) && (match e.ty, e.refFwhm with
      | .voigtPeakHeight, some r => decide (0 < r)
      | .voigtPeakHeight, none => false
      | _, _ => true)

/-- the nominal peak is within half a width of some component, and the density there is more than at the center of every component farther away than half its width [specification] -/
def peaks (e : Entry) : Bool :=
  (e.energies.zip e.fwhm).any (fun p => decide (|p.1 - e.nominal| ≤ p.2 / 2)) &&
    (e.energies.zip e.fwhm).all (fun p => decide (|p.1 - e.nominal| ≤ p.2 / 2) || decide (dens e p.1 < dens e e.nominal))

/-! ### lemmas -/

theorem table_sound : ∀ e ∈ table, sound e = true := by
  decide +kernel

theorem table_peaks : ∀ e ∈ table, e.ty ≠ .voigtPeakHeight → shortname e ∉ ["AlKAlpha_metal_v1992", "PrKAlpha", "GdKBeta"] → peaks e = true := by
  decide +kernel

theorem cast_sum (l : List ℚ) : ((l.sum : ℚ) : ℝ) = (l.map (fun r : ℚ => (r : ℝ))).sum := by
  induction l with
  | nil => simp
  | cons x l ih => simp [ih]

theorem sound_spec {e : Entry} (h : sound e = true) : e.energies.length = e.amp.length ∧ e.fwhm.length = e.amp.length ∧ (∀ g ∈ e.fwhm, 0 < g) ∧ (∀ a ∈ e.amp, 0 ≤ a) ∧ 0 < e.amp.sum ∧
    (e.ty = .voigtPeakHeight → ∃ r, 0 < r ∧ e.refFwhm = some r) := by
  unfold sound at h
  simp only [Bool.and_eq_true, decide_eq_true_eq, List.all_eq_true] at h
  obtain ⟨⟨⟨⟨⟨h1, h2⟩, h3⟩, h4⟩, h5⟩, h6⟩ := h
  refine ⟨h1, h2, h3, h4, h5, ?_⟩
  intro ht
  rw [ht] at h6
  cases hr : e.refFwhm with
  | none => rw [hr] at h6; cases h6
  | some r =>
    rw [hr] at h6
    exact ⟨r, by simpa using h6, rfl⟩

theorem line_ok {wre : ℝ → ℝ → ℝ} (hw : IsWofz wre) {e : Entry} (h : sound e = true) :
    ∃ l, line wre e = .ok l ∧ l.energies = e.energies.map (fun r : ℚ => (r : ℝ)) ∧ l.lorentzianFwhm = e.fwhm.map (fun r : ℚ => (r : ℝ)) ∧ l.intrinsicSigma = 0 ∧
      l.energies.length = l.intensity.length ∧ l.lorentzianFwhm.length = l.intensity.length ∧ (∀ a ∈ l.intensity, 0 ≤ a) ∧ l.intensity.sum = 1 := by
  obtain ⟨h1, h2, h3, h4, h5, h6⟩ := sound_spec h
  obtain ⟨l, a1, a2, a3, a4, a5, a6, a7, a8, _⟩ := addline_ok hw (ty := e.ty) (refFwhm := e.refFwhm.map (fun r : ℚ => (r : ℝ))) (energies := e.energies.map (fun r : ℚ => (r : ℝ)))
    (fwhm := e.fwhm.map (fun r : ℚ => (r : ℝ))) (amp := e.amp.map (fun r : ℚ => (r : ℝ))) 0 (by simpa using h1) (by simpa using h2)
    (by
      intro g hg
      obtain ⟨g', hg', rfl⟩ := List.mem_map.1 hg
      exact_mod_cast h3 g' hg')
    (by
      intro g hg
      obtain ⟨g', hg', rfl⟩ := List.mem_map.1 hg
      exact_mod_cast h4 g' hg')
    (by
      rw [← cast_sum]
      exact_mod_cast h5.ne')
    (by
      intro ht
      obtain ⟨r, hr, e⟩ := h6 ht
      exact ⟨(r : ℝ), by exact_mod_cast hr.le, by rw [e]; rfl⟩)
  exact ⟨l, a1, a2, a3, a4, a5, a6, a7, a8⟩

theorem zip_map3 (a b : List ℚ) (c : List ℝ) : (a.map (fun r : ℚ => (r : ℝ))).zip ((b.map (fun r : ℚ => (r : ℝ))).zip c) = (a.zip (b.zip c)).map (fun p => ((p.1 : ℝ), ((p.2.1 : ℝ), p.2.2))) := by
  induction a generalizing b c with
  | nil => rfl
  | cons x a ih =>
    cases b with
    | nil => rfl
    | cons y b =>
      cases c with
      | nil => rfl
      | cons z c => simp [ih]

/-- with weights in a common proportion, the sum of Lorentzians is the density up to a factor -/
theorem sum_dens (c : ℝ) (x : ℚ) : ∀ (E F W : List ℚ) (_ : ∀ g ∈ F, 0 < g),
    ((E.zip (F.zip (W.map (fun r : ℚ => c * (r : ℝ))))).map (fun p => p.2.2 * (((p.2.1 : ℝ) * (1 / 2)) / π / (((x : ℝ) - (p.1 : ℝ)) ^ 2 + ((p.2.1 : ℝ) * (1 / 2)) ^ 2)))).sum
      = c / π * ((((E.zip (F.zip W)).map (fun p => p.2.2 * (p.2.1 / 2) / ((x - p.1) ^ 2 + (p.2.1 / 2) ^ 2))).sum : ℚ) : ℝ) := by
  intro E
  induction E with
  | nil => intro F W _; simp
  | cons y E ih =>
    intro F W hF
    cases F with
    | nil => simp
    | cons g F =>
      cases W with
      | nil => simp
      | cons w W =>
        simp only [List.map_cons, List.zip_cons_cons, List.sum_cons]
        rw [ih F W (fun g hg => hF g (by simp [hg]))]
        generalize ((E.zip (F.zip W)).map (fun p => p.2.2 * (p.2.1 / 2) / ((x - p.1) ^ 2 + (p.2.1 / 2) ^ 2))).sum = rest
        push_cast
        have hp : (π : ℝ) ≠ 0 := Real.pi_ne_zero
        have hg : (0 : ℝ) < (g : ℝ) := by exact_mod_cast hF g (by simp)
        have hd : ((x : ℝ) - (y : ℝ)) ^ 2 + ((g : ℝ) / 2) ^ 2 ≠ 0 := by positivity
        have hd' : ((x : ℝ) - (y : ℝ)) ^ 2 + ((g : ℝ) * (1 / 2)) ^ 2 = ((x : ℝ) - (y : ℝ)) ^ 2 + ((g : ℝ) / 2) ^ 2 := by ring
        rw [hd']
        field_simp

/-- the intensities are the weights up to a positive factor -/
theorem raw_weights (wre : ℝ → ℝ → ℝ) {e : Entry} (h : sound e = true) (hv : e.ty ≠ .voigtPeakHeight) :
    ∃ k, 0 < k ∧ rawIntensity wre e.ty (e.refFwhm.map (fun r : ℚ => (r : ℝ))) (e.fwhm.map (fun r : ℚ => (r : ℝ))) (e.amp.map (fun r : ℚ => (r : ℝ))) = .ok ((weights e).map (fun r : ℚ => k * (r : ℝ))) := by
  obtain ⟨h1, h2, h3, h4, h5, h6⟩ := sound_spec h
  unfold rawIntensity weights
  cases ht : e.ty with
  | voigtPeakHeight => exact absurd ht hv
  | lorentzianIntegralIntensity => exact ⟨1, one_pos, by simp⟩
  | lorentzianPeakHeight =>
    refine ⟨π / 2, by positivity, ?_⟩
    simp only [List.length_map]
    rw [if_pos h2, List.zip_map, List.map_map, List.map_map]
    congr 1
    refine List.map_congr_left fun p _ => ?_
    simp only [Function.comp, Prod.map]
    push_cast
    ring

theorem weights_sum {e : Entry} (h : sound e = true) : 0 < (weights e).sum := by
  obtain ⟨h1, h2, h3, h4, h5, h6⟩ := sound_spec h
  have gen : ∀ (F A : List ℚ), F.length = A.length → (∀ g ∈ F, 0 < g) → (∀ a ∈ A, 0 ≤ a) → 0 < A.sum → 0 < ((F.zip A).map (fun p => p.1 * p.2)).sum := by
    intro F
    induction F with
    | nil =>
      intro A hl _ _ hs
      cases A with
      | nil => simp at hs
      | cons a A => simp at hl
    | cons g F ih =>
      intro A hl hF hA hs
      cases A with
      | nil => simp at hl
      | cons a A =>
        have ha := hA a (by simp)
        have hg := hF g (by simp)
        have hn : 0 ≤ ((F.zip A).map (fun p => p.1 * p.2)).sum := by
          refine List.sum_nonneg ?_
          intro y hy
          obtain ⟨p, hp, rfl⟩ := List.mem_map.1 hy
          obtain ⟨m1, m2⟩ := List.of_mem_zip (a := p.1) (b := p.2) hp
          exact mul_nonneg (hF _ (by simp [m1])).le (hA _ (by simp [m2]))
        simp only [List.zip_cons_cons, List.map_cons, List.sum_cons]
        rcases ha.eq_or_lt with h0 | h0
        · have := ih A (by simpa using hl) (fun y hy => hF y (by simp [hy])) (fun y hy => hA y (by simp [hy])) (by simpa [← h0] using hs)
          rw [← h0]; linarith
        · have := mul_pos hg h0
          linarith
  unfold weights
  cases e.ty with
  | lorentzianIntegralIntensity => exact h5
  | lorentzianPeakHeight => exact gen _ _ h2 h3 h4 h5
  | voigtPeakHeight => exact gen _ _ h2 h3 h4 h5

/-- the density of a line without resolution is `dens` up to a positive factor -/
theorem pdf_dens (wre : ℝ → ℝ → ℝ) {e : Entry} (h : sound e = true) (hv : e.ty ≠ .voigtPeakHeight) :
    ∃ l c, line wre e = .ok l ∧ 0 < c ∧ ∀ x : ℚ, pdf wre l (x : ℝ) 0 = .ok (c * ((dens e x : ℚ) : ℝ)) := by
  obtain ⟨h1, h2, h3, h4, h5, h6⟩ := sound_spec h
  obtain ⟨k, hk, hr⟩ := raw_weights wre h hv
  have hs : ((weights e).map (fun r : ℚ => k * (r : ℝ))).sum = k * (((weights e).sum : ℚ) : ℝ) := by
    rw [List.sum_map_mul_left, cast_sum]
  have hW : (0 : ℝ) < (((weights e).sum : ℚ) : ℝ) := by exact_mod_cast weights_sum h
  refine ⟨_, 1 / (((weights e).sum : ℚ) : ℝ) / π, by unfold line addline; rw [hr]; rfl, by positivity, ?_⟩
  intro x
  unfold pdf gaussianSigma
  rw [if_pos le_rfl]
  simp only [bind, Except.bind]
  have e0 : √((0 / √(8 * log 2)) ^ 2 + (0 : ℝ) ^ 2) = 0 := by simp
  rw [e0, foldl_sum, zero_add]
  congr 1
  rw [List.map_map, zip_map3, List.map_map]
  have hc : ((fun e : ℝ × ℝ × ℝ => e.2.2 * voigt wre (x : ℝ) e.1 (e.2.1 * (1 / 2)) 0) ∘ fun p : ℚ × ℚ × ℝ => ((p.1 : ℝ), ((p.2.1 : ℝ), p.2.2)))
      = fun p : ℚ × ℚ × ℝ => p.2.2 * voigt wre (x : ℝ) (p.1 : ℝ) ((p.2.1 : ℝ) * (1 / 2)) 0 := rfl
  rw [hc]
  have hi : ((fun y => y / ((weights e).map (fun r : ℚ => k * (r : ℝ))).sum) ∘ fun r : ℚ => k * (r : ℝ)) = fun r : ℚ => 1 / (((weights e).sum : ℚ) : ℝ) * (r : ℝ) := by
    funext r
    simp only [Function.comp]
    rw [hs]
    field_simp
  rw [hi]
  unfold dens
  rw [← sum_dens _ x e.energies e.fwhm (weights e) h3]
  congr 1
  refine List.map_congr_left fun p hp => ?_
  have hm : p.2.1 ∈ e.fwhm := by
    have := (List.of_mem_zip (a := p.1) (b := p.2) hp).2
    exact (List.of_mem_zip (a := p.2.1) (b := p.2.2) this).1
  have hg : (0 : ℝ) < (p.2.1 : ℝ) := by exact_mod_cast h3 _ hm
  unfold voigt
  rw [if_neg (by positivity), if_pos rfl]

/-! ### theorems -/

/-- C186. Loading the module works: all references are known, all lines named KAlpha have a separation, no name is used twice; afterwards the names are those of all calls, in order. -/
theorem loaded : load references table [] = .ok (table.map shortname) ∧ (table.map shortname).Nodup := by
  decide +kernel

/-- C186. Every line that comes with the package is a probability density at every resolution that is not negative (also 0), with the energies and widths of its table; a negative resolution is refused. -/
theorem builtin_density {wre : ℝ → ℝ → ℝ} (hw : IsWofz wre) : ∀ e ∈ table, ∃ l, line wre e = .ok l ∧ l.energies = e.energies.map (fun r : ℚ => (r : ℝ)) ∧
    l.lorentzianFwhm = e.fwhm.map (fun r : ℚ => (r : ℝ)) ∧ (∀ fwhm, 0 ≤ fwhm → ∃ f : ℝ → ℝ, (∀ x, pdf wre l x fwhm = .ok (f x)) ∧ IsDensity f) ∧
    (∀ fwhm, fwhm < 0 → ∀ x, pdf wre l x fwhm = .error .assertion) := by
  intro e he
  obtain ⟨l, a1, a2, a3, a4, a5, a6, a7, a8⟩ := line_ok hw (table_sound e he)
  have hpos : ∀ g ∈ l.lorentzianFwhm, 0 < g := by
    rw [a3]
    intro g hg
    obtain ⟨g', hg', rfl⟩ := List.mem_map.1 hg
    exact_mod_cast (sound_spec (table_sound e he)).2.2.1 g' hg'
  refine ⟨l, a1, a2, a3, ?_, ?_⟩
  · intro fwhm hf
    obtain ⟨s, f, c, _, _, hp, hd, _⟩ := (line_density hw l a5 a6 a7 a8 (fun g hg => (hpos g hg).le) fwhm (Or.inl hpos)).2 hf
    exact ⟨f, hp, hd⟩
  · intro fwhm hf x
    exact ((line_density hw l a5 a6 a7 a8 (fun g hg => (hpos g hg).le) fwhm (Or.inl hpos)).1 hf x).1

/-- C186. The nominal peak energy is at a peak: within half a width of a component, and without resolution the density there is higher than at the center of each component that is farther away than half its width.
Missing: the three lines whose amplitudes are heights of Voigt profiles; three lines for which it is false (`pr_fails`, `gd_fails`, `al_fails`). -/
theorem nominal_partial (wre : ℝ → ℝ → ℝ) : ∀ e ∈ table, e.ty ≠ .voigtPeakHeight → shortname e ∉ ["AlKAlpha_metal_v1992", "PrKAlpha", "GdKBeta"] →
    (∃ p ∈ e.energies.zip e.fwhm, |p.1 - e.nominal| ≤ p.2 / 2) ∧
    ∃ l y, line wre e = .ok l ∧ pdf wre l (e.nominal : ℝ) 0 = .ok y ∧ ∀ p ∈ e.energies.zip e.fwhm, p.2 / 2 < |p.1 - e.nominal| → ∃ z, pdf wre l (p.1 : ℝ) 0 = .ok z ∧ z < y := by
  intro e he hv hn
  have hp := table_peaks e he hv hn
  unfold peaks at hp
  simp only [Bool.and_eq_true, List.any_eq_true, List.all_eq_true, Bool.or_eq_true, decide_eq_true_eq] at hp
  obtain ⟨l, c, hl, hc, hd⟩ := pdf_dens wre (table_sound e he) hv
  refine ⟨hp.1, l, _, hl, hd _, ?_⟩
  intro p hpm hfar
  refine ⟨_, hd p.1, ?_⟩
  rcases hp.2 p hpm with h | h
  · exact absurd h (not_le.2 hfar)
  · exact mul_lt_mul_of_pos_left (by exact_mod_cast h) hc

/-- C186. Every line that comes with the package has its own name, and is one of the table: what is under a name is the line with that name. -/
theorem name_unique : ∀ e ∈ table, ∀ e' ∈ table, shortname e = shortname e' → e = e' := by
  intro e he e' he' h
  exact List.inj_on_of_nodup_map loaded.2 he he' h

/-- Disagreement (C186): the strong component of PrKAlpha is given a width of 1887 eV (the other has 19.08; a decimal point is missing). So the density at the nominal peak is less than a fiftieth of that at the weak component. -/
theorem pr_fails (wre : ℝ → ℝ → ℝ) : PrKAlpha ∈ table ∧ ∃ l y z, line wre PrKAlpha = .ok l ∧ pdf wre l ((PrKAlpha.nominal : ℚ) : ℝ) 0 = .ok y ∧ pdf wre l ((35550.59 : ℚ) : ℝ) 0 = .ok z ∧ 50 * y < z := by
  have hm : PrKAlpha ∈ table := by simp [table]
  obtain ⟨l, c, hl, hc, hd⟩ := pdf_dens wre (table_sound _ hm) (e := PrKAlpha) (by decide)
  refine ⟨hm, l, _, _, hl, hd _, hd _, ?_⟩
  have : (50 : ℚ) * dens PrKAlpha PrKAlpha.nominal < dens PrKAlpha 35550.59 := by decide +kernel
  have h2 : (50 : ℝ) * ((dens PrKAlpha PrKAlpha.nominal : ℚ) : ℝ) < ((dens PrKAlpha 35550.59 : ℚ) : ℝ) := by exact_mod_cast this
  nlinarith

/-- Disagreement (C186): the strong component of GdKBeta is 1000 eV above the nominal peak (49696.9 for 48696.9). No component is within 4 widths of the nominal peak, and the density there is less than a hundredth of that at the strong component. -/
theorem gd_fails (wre : ℝ → ℝ → ℝ) : GdKBeta ∈ table ∧ (∀ p ∈ GdKBeta.energies.zip GdKBeta.fwhm, 4 * p.2 < |p.1 - GdKBeta.nominal|) ∧
    ∃ l y z, line wre GdKBeta = .ok l ∧ pdf wre l ((GdKBeta.nominal : ℚ) : ℝ) 0 = .ok y ∧ pdf wre l ((49696.9 : ℚ) : ℝ) 0 = .ok z ∧ 100 * y < z := by
  have hm : GdKBeta ∈ table := by simp [table]
  obtain ⟨l, c, hl, hc, hd⟩ := pdf_dens wre (table_sound _ hm) (e := GdKBeta) (by decide)
  refine ⟨hm, by decide +kernel, l, _, _, hl, hd _, hd _, ?_⟩
  have : (100 : ℚ) * dens GdKBeta GdKBeta.nominal < dens GdKBeta 49696.9 := by decide +kernel
  have h2 : (100 : ℝ) * ((dens GdKBeta GdKBeta.nominal : ℚ) : ℝ) < ((dens GdKBeta 49696.9 : ℚ) : ℝ) := by exact_mod_cast this
  nlinarith

/-- Disagreement (C186): the nominal peak of the old AlKAlpha (AlKAlpha_metal_v1992) is so far above its strong component that the density at the weaker component, 0.6 eV away, is higher. -/
theorem al_fails (wre : ℝ → ℝ → ℝ) : AlKAlpha_metal_v1992 ∈ table ∧
    ∃ l y z, line wre AlKAlpha_metal_v1992 = .ok l ∧ pdf wre l ((AlKAlpha_metal_v1992.nominal : ℚ) : ℝ) 0 = .ok y ∧ pdf wre l ((1486.293 : ℚ) : ℝ) 0 = .ok z ∧ y < z := by
  have hm : AlKAlpha_metal_v1992 ∈ table := by simp [table]
  obtain ⟨l, c, hl, hc, hd⟩ := pdf_dens wre (table_sound _ hm) (e := AlKAlpha_metal_v1992) (by decide)
  refine ⟨hm, l, _, _, hl, hd _, hd _, ?_⟩
  have : dens AlKAlpha_metal_v1992 AlKAlpha_metal_v1992.nominal < dens AlKAlpha_metal_v1992 1486.293 := by decide +kernel
  have h2 : ((dens AlKAlpha_metal_v1992 AlKAlpha_metal_v1992.nominal : ℚ) : ℝ) < ((dens AlKAlpha_metal_v1992 1486.293 : ℚ) : ℝ) := by exact_mod_cast this
  nlinarith

/-- Disagreement (C186): the figures of all lines are never drawn: with the lines of the package, for every number of figures that asks for at least one, `plot_all_spectra` ends with TypeError, since it calls a line without
an energy. -/
theorem plot_all_fails (n : Int) : (1 ≤ n ∨ -71 ≤ n ∧ n < 0 → plotAllSpectra (table.map shortname) n = .error .type) ∧ ∀ k, plotAllSpectra (table.map shortname) n = .ok k → k = 0 := by
  have hl : (table.map shortname).length = 72 := by decide +kernel
  obtain ⟨a, t, e⟩ : ∃ a t, table.map shortname = a :: t := ⟨_, _, rfl⟩
  unfold plotAllSpectra
  constructor
  · intro h
    rcases h with h | h
    · rw [if_pos (by omega)]
      obtain ⟨m, hm⟩ : ∃ m, n.toNat = m + 1 := ⟨n.toNat - 1, by omega⟩
      rw [hm, e, List.take_succ_cons]
    · rw [if_neg (by omega), hl]
      obtain ⟨m, hm⟩ : ∃ m, 72 - (-n).toNat = m + 1 := ⟨72 - (-n).toNat - 1, by omega⟩
      rw [hm, e, List.take_succ_cons]
  · intro k
    dsimp only
    split
    · intro h; injection h with h; exact h.symm
    · intro h; cases h

/-- Disagreement (C186): the older line shapes are not under the names the source gives (mass.MgKAlpha_v1): there is no such line. -/
theorem old_name_fails : "MgKAlpha_v1" ∉ table.map shortname ∧ "MgKAlpha_metal_v1" ∈ table.map shortname := by
  decide +kernel

/-! ### examples -/

example : table.length = 72 ∧ MnKAlpha.energies.length = 8 ∧ shortname SiKAlpha_Si_crystal = "SiKAlpha_Si crystal" := by decide +kernel

example : peaks MnKAlpha = true ∧ peaks PrKAlpha = false ∧ peaks GdKBeta = false ∧ peaks AlKAlpha_metal_v1992 = false := by decide +kernel

/-- a second line under a name in use is refused, and so is a KAlpha line without separation -/
example : load references [MnKAlpha, MnKBeta, MnKAlpha] [] = .error .value ∧ load references [{ MnKAlpha with ka12 := none }] [] = .error .type ∧
    load ["a"] [MnKAlpha] [] = .error .assertion := by decide +kernel

end Mass.Line.Builtin
