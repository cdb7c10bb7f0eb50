import Verif.Calc.TableThm
/-! C113: calibration plans of OFF channels and calibrating by fits of their lines (mass/off/channels.py L609-682, L1064-1095). -/
namespace Mass.Calc.Plan
open Mass Mass.Calc.Cal
set_option linter.unusedSectionVars false

variable {K : Type} [Field K] [LinearOrder K] [IsStrictOrderedRing K] {S : Type}

/-! ### model -/

/-- what a calibration plan uses of a SpectralLine (channels.py L1075-1081): its short name and peak energy -/
structure Line (K : Type) where
  name : String
  peak : K
deriving DecidableEq

/-- channels.py L1064-1068 `CalibrationPlan` -/
structure Plan (K S : Type) where
  vals : List K
  states : List S
  lines : List (Line K)

/-- channels.py L1065-1068 -/
def emptyPlan : Plan K S := ⟨[], [], []⟩

/-- channels.py L1070-1073 `addCalPoint` -/
def addCalPoint (p : Plan K S) (v : K) (st : S) (l : Line K) : Plan K S := ⟨p.vals ++ [v], p.states ++ [st], p.lines ++ [l]⟩

/-- `EnergyCalibration(curvetype=c, approximate=a)`: channels.py L641, L1092; energy_calibration.py L94-123 -/
def newCal (c : Nat) (a : Bool) : Tbl K :=
  setNonlin { ph := [], e := [], dph := [], de := [], names := [], npts := 0, curve := c, nonlin := 11 / 10, approx := a, gpr := true, stale := false }

/-- `cal.add_cal_point(ph, energy, name, ph_error)` with a number for the energy: channels.py L662, L1094 -/
def addTo (T : Tbl K) (ph e : K) (name : String) (pe : Option K) : Tbl K × Except Exc Unit :=
  addPoint (fun _ => none) (fun _ => none) T ph (.num e) name pe none true

/-- the loop of channels.py L1093-1094 -/
def roughLoop : List (K × Line K) → Tbl K → Except Exc (Tbl K)
  | [], T => .ok T
  | (v, l) :: t, T =>
    match addTo T v l.peak l.name none with
    | (_, .error e) => .error e
    | (T', .ok _) => roughLoop t T'

/-- channels.py L1091-1095 `getRoughCalibration`; curve type number 3 is "gain" -/
def rough (p : Plan K S) : Except Exc (Tbl K) := roughLoop (p.vals.zip p.lines) (newCal 3 false)

/-- `quick_monochromatic_line` (fluorescence_lines.py L204-231) and its shortname (L166-170). The peak energy, found by numerical maximization (L67-75), is taken
to be the energy given. -/
def quickLine (name : String) (e : K) : Line K := ⟨name ++ "quick_line", e⟩

/-- channels.py L614-625: which line is meant. `spectra` and `features` are the dictionaries of known lines and energies. -/
def lineFor (spectra : String → Option (Line K)) (features : String → Option K) (name : String) (energy : Option K) : Except Exc (Line K) :=
  match spectra name with
  | some l => .ok l
  | none =>
    match energy with
    | some e => .ok (quickLine name e)
    | none =>
      match features name with
      | some e => .ok (quickLine name e)
      | none => .error .exception

/-- what matters of a channel here: the plan (channels.py L610), the rough calibration installed as recipe energyRough (L629), whether it is marked bad (L689) -/
structure Chan (K S : Type) where
  plan : Plan K S
  energyRough : Option (Tbl K)
  bad : Bool

/-- channels.py L609-611 `calibrationPlanInit` -/
def planInit (c : Chan K S) : Chan K S := { c with plan := emptyPlan }

/-- arguments of `calibrationPlanAddPoint` (channels.py L613) -/
structure PointReq (K S : Type) where
  val : K
  name : String
  states : S
  energy : Option K

/-- channels.py L613-631 `calibrationPlanAddPoint`. The attribute of the plan is taken to exist as a recipe. -/
def planAddPoint (spectra : String → Option (Line K)) (features : String → Option K) (c : Chan K S) (r : PointReq K S) : Except Exc Unit × Chan K S :=
  match lineFor spectra features r.name r.energy with
  | .error e => (.error e, c)
  | .ok l =>
    let c := { c with plan := addCalPoint c.plan r.val r.states l }
    match rough c.plan with
    | .error e => (.error e, c)
    | .ok T => (.ok (), { c with energyRough := some T })

/-- what matters of a fit result (channels.py L651-661): the peak is in units of the starting calibration -/
structure Fit (K : Type) where
  success : Bool
  errorbars : Bool
  peak : K
  stderr : K

/-- channels.py L645-663: one pass over the plan. `fit` is `linefit` with the starting calibration, `e2ph` and `dedph` its conversions. The flag is whether
the channel is marked bad. -/
def pass (fit : Tbl K → Line K → S → Except Exc (Fit K)) (e2ph dedph : Tbl K → K → K) (start : Tbl K) :
    List (Line K × S) → Tbl K → Bool → Bool × Except Exc (Tbl K)
  | [], T, bad => (bad, .ok T)
  | (l, st) :: t, T, bad =>
    match fit start l st with
    | .error e => (bad, .error e)
    | .ok f =>
      if !f.success then pass fit e2ph dedph start t T true
      else if !f.errorbars then pass fit e2ph dedph start t T true
      else
        match addTo T (e2ph start f.peak) l.peak l.name (some (f.stderr / dedph start f.peak)) with
        | (_, .error e) => (bad, .error e)
        | (T', .ok _) => pass fit e2ph dedph start t T' bad

/-- channels.py L641-669: the iterations; without any, `calibration` is not defined at L670 -/
def iterations (fit : Tbl K → Line K → S → Except Exc (Fit K)) (e2ph dedph : Tbl K → K → K) (curve : Nat) (approx : Bool) (lines : List (Line K × S)) :
    Nat → Tbl K → Bool → Bool × Except Exc (Tbl K)
  | 0, _, bad => (bad, .error .unbound)
  | n + 1, start, bad =>
    match pass fit e2ph dedph start lines (newCal curve approx) bad with
    | (bad, .error e) => (bad, .error e)
    | (bad, .ok T) => if n = 0 then (bad, .ok T) else iterations fit e2ph dedph curve approx lines n T bad

/-- channels.py L634-673 `calibrateFollowingPlan`: whether the channel is bad then, and the calibration installed. `taken`: the recipe exists already. -/
def calibrate (fit : Tbl K → Line K → S → Except Exc (Fit K)) (e2ph dedph : Tbl K → K → K) (curve : Nat) (approx : Bool) (n : Nat) (taken overwrite : Bool)
    (c : Chan K S) : Bool × Except Exc (Tbl K) :=
  match rough c.plan with
  | .error e => (c.bad, .error e)
  | .ok start =>
    match iterations fit e2ph dedph curve approx (c.plan.lines.zip c.plan.states) n start c.bad with
    | (bad, .error e) => (bad, .error e)
    | (bad, .ok T) => if taken && !overwrite then (bad, .error .assertion) else (bad, .ok T)

/-! ### lemmas -/

theorem newCal_aligned (c : Nat) (a : Bool) : Aligned (newCal c a : Tbl K) [] := ⟨rfl, rfl, rfl, rfl, rfl, rfl⟩

/-- the point of a call [specification] -/
def pt (ph e : K) (name : String) (pe : Option K) : Pt K := ⟨ph, e, pe.getD (ph * (1 / 1000)), 1 / 100, name⟩

/-- a new point far from the others and consistent with them is appended -/
theorem addTo_new {T : Tbl K} {done : List (Pt K)} (h : Aligned T done) (ph e : K) (name : String) (pe : Option K)
    (hfar : ∀ q ∈ done, 1 / 100 < |e - q.e| ∧ (name ≠ "" → q.name ≠ name))
    (hc : ∀ a ∈ done ++ [pt ph e name pe], ∀ b ∈ done ++ [pt ph e name pe], a.ph < b.ph ↔ a.e < b.e) :
    ∃ T', addTo T ph e name pe = (T', .ok ()) ∧ Aligned T' (done ++ [pt ph e name pe]) := by
  rcases addPoint_spec h (fun _ => none) (fun _ => none) ph (.num e) name pe none true with ⟨_, _, h3⟩ | ⟨e', n', pts', h1, h2, h3, h4⟩
  · rcases h3 with h3 | ⟨h3, _⟩
    · simp [resolve] at h3
    · simp at h3
  · have he : e' = e ∧ n' = name := by
      simp only [resolve, Option.some.injEq, Prod.mk.injEq] at h1
      exact ⟨h1.1.symm, h1.2.symm⟩
    obtain ⟨rfl, rfl⟩ := he
    have hp : thePoint ph e' n' pe none = pt ph e' n' pe := rfl
    rw [hp] at h2
    have hput : pts' = done ++ [pt ph e' n' pe] := by
      cases h2 with
      | name pre old post g1 g2 g3 g4 => exact absurd g3 ((hfar old (by rw [g1]; simp)).2 g2)
      | near pre old post g1 g2 g3 g4 => exact absurd g3 (not_le.2 (hfar old (by rw [g1]; simp)).1)
      | new g1 g2 => rfl
    subst hput
    rcases h4 with ⟨h4, _⟩ | ⟨_, h4⟩
    · exact ⟨_, Prod.ext rfl h4, h3⟩
    · exact absurd (argsort_of_consistent hc) h4

/-- the points of a plan are compatible: positions ordered like energies, energies more than 0.01 apart, names different unless empty [specification] -/
def Compatible (l : List (K × Line K)) : Prop :=
  l.Pairwise (fun p q => 1 / 100 < |q.2.peak - p.2.peak| ∧ (q.2.name ≠ "" → p.2.name ≠ q.2.name)) ∧ ∀ p ∈ l, ∀ q ∈ l, p.1 < q.1 ↔ p.2.peak < q.2.peak

/-- the points added with the uncertainties given [specification] -/
def pts (u : K × Line K → Option K) (l : List (K × Line K)) : List (Pt K) := l.map (fun p => pt p.1 p.2.peak p.2.name (u p))

theorem addTo_next {T : Tbl K} {u : K × Line K → Option K} {done : List (K × Line K)} {p : K × Line K} {rest : List (K × Line K)}
    (h : Aligned T (pts u done)) (hc : Compatible (done ++ p :: rest)) :
    ∃ T', addTo T p.1 p.2.peak p.2.name (u p) = (T', .ok ()) ∧ Aligned T' (pts u (done ++ [p])) := by
  have hw := List.pairwise_append.1 hc.1
  have e : pts u (done ++ [p]) = pts u done ++ [pt p.1 p.2.peak p.2.name (u p)] := by simp [pts]
  rw [e]
  apply addTo_new h
  · intro q hq
    obtain ⟨a, ha, rfl⟩ := List.mem_map.mp hq
    exact hw.2.2 a ha p (by simp)
  · have gen : ∀ a ∈ pts u done ++ [pt p.1 p.2.peak p.2.name (u p)], ∃ q ∈ done ++ p :: rest, a.ph = q.1 ∧ a.e = q.2.peak := by
      intro a ha
      rcases List.mem_append.mp ha with ha | ha
      · obtain ⟨q, hq, rfl⟩ := List.mem_map.mp ha
        exact ⟨q, by simp [hq], rfl, rfl⟩
      · rw [List.mem_singleton.mp ha]
        exact ⟨p, by simp, rfl, rfl⟩
    intro a ha b hb
    obtain ⟨q, hq, h1, h2⟩ := gen a ha
    obtain ⟨q', hq', h1', h2'⟩ := gen b hb
    rw [h1, h2, h1', h2']
    exact hc.2 q hq q' hq'

theorem roughLoop_ok (rest : List (K × Line K)) : ∀ (done : List (K × Line K)) (T : Tbl K), Aligned T (pts (fun _ => none) done) → Compatible (done ++ rest) →
    ∃ T', roughLoop rest T = .ok T' ∧ Aligned T' (pts (fun _ => none) (done ++ rest)) := by
  induction rest with
  | nil => intro done T h _; exact ⟨T, rfl, by simpa using h⟩
  | cons p rest ih =>
    intro done T h hc
    obtain ⟨T', h1, h2⟩ := addTo_next h hc
    obtain ⟨T'', g1, g2⟩ := ih (done ++ [p]) T' h2 (by simpa using hc)
    refine ⟨T'', ?_, by simpa using g2⟩
    obtain ⟨v, l⟩ := p
    unfold roughLoop
    dsimp only at h1
    rw [h1]
    exact g1

/-! ### C113 -/

/-- C113. If the points are compatible, the rough calibration has exactly the points of the plan: positions, energies and names. -/
theorem rough_points_partial {p : Plan K S} (h : Compatible (p.vals.zip p.lines)) :
    ∃ T, rough p = .ok T ∧ Aligned T ((p.vals.zip p.lines).map (fun q => ⟨q.1, q.2.peak, q.1 * (1 / 1000), 1 / 100, q.2.name⟩)) := by
  obtain ⟨T, h1, h2⟩ := roughLoop_ok (p.vals.zip p.lines) [] (newCal 3 false) (by simpa [pts] using newCal_aligned 3 false) (by simpa using h)
  exact ⟨T, h1, by simpa [pts, pt] using h2⟩

/-- C113. A known line has the energy of the line; a name that is not known needs an energy. -/
theorem lineFor_spec (spectra : String → Option (Line K)) (features : String → Option K) (name : String) :
    (∀ l, spectra name = some l → lineFor spectra features name none = .ok l) ∧
    (spectra name = none → ∀ e, lineFor spectra features name (some e) = .ok ⟨name ++ "quick_line", e⟩) ∧
    (spectra name = none → ∀ e, features name = some e → lineFor spectra features name none = .ok ⟨name ++ "quick_line", e⟩) ∧
    (spectra name = none → features name = none → lineFor spectra features name none = .error .exception) := by
  unfold lineFor quickLine
  refine ⟨?_, ?_, ?_, ?_⟩
  · intro l h; rw [h]
  · intro h e; rw [h]
  · intro h e h'; rw [h]; simp [h']
  · intro h h'; rw [h]; simp [h']

/-- C113. After any history of calls, failed ones included, the plan has as many positions as lines and states; a call adds one point at the end or none. -/
theorem plan_aligned (spectra : String → Option (Line K)) (features : String → Option K) (c : Chan K S) (rs : List (PointReq K S)) :
    let c' := rs.foldl (fun c r => (planAddPoint spectra features c r).2) (planInit c)
    c'.plan.vals.length = c'.plan.lines.length ∧ c'.plan.states.length = c'.plan.lines.length ∧ c'.bad = c.bad ∧
    (c'.plan.vals.zip (c'.plan.states.zip (c'.plan.lines.map some))).Sublist
      (rs.map (fun r => (r.val, r.states, (lineFor spectra features r.name r.energy).toOption))) := by
  have gen : ∀ (rs : List (PointReq K S)) (c : Chan K S), c.plan.vals.length = c.plan.lines.length → c.plan.states.length = c.plan.lines.length →
      let c' := rs.foldl (fun c r => (planAddPoint spectra features c r).2) c
      c'.plan.vals.length = c'.plan.lines.length ∧ c'.plan.states.length = c'.plan.lines.length ∧ c'.bad = c.bad ∧
      ∃ l, c'.plan.vals.zip (c'.plan.states.zip (c'.plan.lines.map some)) = c.plan.vals.zip (c.plan.states.zip (c.plan.lines.map some)) ++ l ∧
        l.Sublist (rs.map (fun r => (r.val, r.states, (lineFor spectra features r.name r.energy).toOption))) := by
    intro rs
    induction rs with
    | nil => intro c h1 h2; exact ⟨h1, h2, rfl, [], by simp, by simp⟩
    | cons r rs ih =>
      intro c h1 h2
      rw [List.foldl_cons]
      cases hl : lineFor spectra features r.name r.energy with
      | error e =>
        have hc : (planAddPoint spectra features c r).2 = c := by unfold planAddPoint; rw [hl]
        rw [hc]
        obtain ⟨g1, g2, g3, l, g4, g5⟩ := ih c h1 h2
        exact ⟨g1, g2, g3, l, g4, by rw [List.map_cons]; exact g5.trans (List.sublist_cons_self _ _)⟩
      | ok ln =>
        have hc : (planAddPoint spectra features c r).2.plan = addCalPoint c.plan r.val r.states ln ∧ (planAddPoint spectra features c r).2.bad = c.bad := by
          unfold planAddPoint
          rw [hl]
          dsimp only
          split <;> exact ⟨rfl, rfl⟩
        obtain ⟨g1, g2, g3, l, g4, g5⟩ := ih (planAddPoint spectra features c r).2 (by rw [hc.1]; simp [addCalPoint, h1]) (by rw [hc.1]; simp [addCalPoint, h2])
        refine ⟨g1, g2, g3.trans hc.2, (r.val, r.states, some ln) :: l, ?_, ?_⟩
        · rw [g4, hc.1]
          simp only [addCalPoint, List.map_append, List.map_cons, List.map_nil]
          rw [List.zip_append (by simp [h2]), List.zip_append (by simp [h1, h2])]
          simp
        · rw [List.map_cons, hl]
          exact g5.cons₂ _
  obtain ⟨g1, g2, g3, l, g4, g5⟩ := gen rs (planInit c) rfl rfl
  refine ⟨g1, g2, g3, ?_⟩
  have : (planInit c).plan.vals.zip ((planInit c).plan.states.zip ((planInit c).plan.lines.map some)) = [] := rfl
  rw [this, List.nil_append] at g4
  rw [g4]
  exact g5

/-- C113. A failed call because the line is not known changes nothing. -/
theorem unknown_line (spectra : String → Option (Line K)) (features : String → Option K) (c : Chan K S) (r : PointReq K S)
    (h : lineFor spectra features r.name r.energy = .error .exception) : planAddPoint spectra features c r = (.error .exception, c) := by
  unfold planAddPoint
  rw [h]

theorem pass_exact {fit : Tbl K → Line K → S → Except Exc (Fit K)} {e2ph dedph : Tbl K → K → K} {start : Tbl K} {pos sd : Line K → K} (bad : Bool)
    (rest : List (Line K × S)) :
    ∀ (done : List (Line K × S)) (T : Tbl K),
      (∀ p ∈ rest, ∃ f, fit start p.1 p.2 = .ok f ∧ f.success = true ∧ f.errorbars = true ∧ e2ph start f.peak = pos p.1 ∧ f.stderr / dedph start f.peak = sd p.1) →
      Aligned T (pts (fun q => some (sd q.2)) (done.map (fun p => (pos p.1, p.1)))) → Compatible ((done ++ rest).map (fun p => (pos p.1, p.1))) →
      ∃ T', pass fit e2ph dedph start rest T bad = (bad, .ok T') ∧ Aligned T' (pts (fun q => some (sd q.2)) ((done ++ rest).map (fun p => (pos p.1, p.1)))) := by
  induction rest with
  | nil => intro done T _ h _; exact ⟨T, rfl, by simpa using h⟩
  | cons p rest ih =>
    intro done T hf h hc
    obtain ⟨f, hf1, hf2, hf3, hf4, hf5⟩ := hf p List.mem_cons_self
    obtain ⟨T', h1, h2⟩ := addTo_next (u := fun q => some (sd q.2)) (p := (pos p.1, p.1)) (rest := rest.map (fun p => (pos p.1, p.1))) h (by simpa using hc)
    obtain ⟨T'', g1, g2⟩ := ih (done ++ [p]) T' (fun q hq => hf q (List.mem_cons_of_mem _ hq)) (by simpa using h2) (by simpa using hc)
    refine ⟨T'', ?_, by simpa using g2⟩
    obtain ⟨l, st⟩ := p
    dsimp only at hf1 hf4 hf5 h1
    unfold pass
    rw [hf1]
    dsimp only
    rw [hf2, hf3, hf4, hf5, h1]
    exact g1

/-- C113. If every fit succeeds and finds the true position of its line, in units of any starting calibration, then the calibration is right after every number of
iterations, whatever the rough one: its points are the true positions with the energies and names of the lines and the propagated errors; the channel is not
marked bad. Missing: lines that are not compatible, e.g. the same line in two states (`same_line_fails`). -/
theorem calibrate_exact_partial {fit : Tbl K → Line K → S → Except Exc (Fit K)} {e2ph dedph : Tbl K → K → K} {curve : Nat} {approx : Bool} {n : Nat} (hn : n ≠ 0) {c : Chan K S}
    {taken overwrite : Bool} (htk : taken = true → overwrite = true) {start : Tbl K} (hr : rough c.plan = .ok start) {pos sd : Line K → K}
    (hf : ∀ T, ∀ p ∈ c.plan.lines.zip c.plan.states, ∃ f, fit T p.1 p.2 = .ok f ∧ f.success = true ∧ f.errorbars = true ∧ e2ph T f.peak = pos p.1 ∧
      f.stderr / dedph T f.peak = sd p.1)
    (hc : Compatible ((c.plan.lines.zip c.plan.states).map (fun p => (pos p.1, p.1)))) :
    ∃ T, calibrate fit e2ph dedph curve approx n taken overwrite c = (c.bad, .ok T) ∧
      Aligned T ((c.plan.lines.zip c.plan.states).map (fun p => ⟨pos p.1, p.1.peak, sd p.1, 1 / 100, p.1.name⟩)) := by
  have hit : ∀ n, n ≠ 0 → ∀ start, ∃ T, iterations fit e2ph dedph curve approx (c.plan.lines.zip c.plan.states) n start c.bad = (c.bad, .ok T) ∧
      Aligned T (pts (fun q => some (sd q.2)) ((c.plan.lines.zip c.plan.states).map (fun p => (pos p.1, p.1)))) := by
    intro n
    induction n with
    | zero => intro h; exact absurd rfl h
    | succ n ih =>
      intro _ start
      obtain ⟨T, h1, h2⟩ := pass_exact c.bad (c.plan.lines.zip c.plan.states) [] (newCal curve approx) (hf start) (by simpa [pts] using newCal_aligned curve approx) (by simpa using hc)
      unfold iterations
      rw [h1]
      dsimp only
      by_cases h0 : n = 0
      · rw [if_pos h0]
        exact ⟨T, rfl, by simpa using h2⟩
      · rw [if_neg h0]
        exact ih h0 T
  obtain ⟨T, h1, h2⟩ := hit n hn start
  refine ⟨T, ?_, by simpa [pts, pt, Function.comp_def] using h2⟩
  unfold calibrate
  rw [hr]
  dsimp only
  rw [h1]
  dsimp only
  have : (taken && !overwrite) = false := by
    cases taken <;> cases overwrite <;> simp_all
  rw [this]
  rfl

theorem pass_spec {fit : Tbl K → Line K → S → Except Exc (Fit K)} {e2ph dedph : Tbl K → K → K} {start : Tbl K} (rest : List (Line K × S)) :
    ∀ (T : Tbl K) (ps : List (Pt K)) (bad bad' : Bool) (T' : Tbl K), Aligned T ps → pass fit e2ph dedph start rest T bad = (bad', .ok T') →
      (bad' = true ↔ bad = true ∨ ∃ p ∈ rest, ∃ f, fit start p.1 p.2 = .ok f ∧ ¬ (f.success = true ∧ f.errorbars = true)) ∧
      ∃ ps', Aligned T' ps' ∧ ∀ a ∈ ps', a ∈ ps ∨ ∃ p ∈ rest, ∃ f, fit start p.1 p.2 = .ok f ∧ f.success = true ∧ f.errorbars = true ∧
        a.ph = e2ph start f.peak ∧ a.e = p.1.peak ∧ a.dph = f.stderr / dedph start f.peak := by
  induction rest with
  | nil =>
    intro T ps bad bad' T' h hp
    cases hp
    exact ⟨by simp, ps, h, fun a ha => Or.inl ha⟩
  | cons p rest ih =>
    obtain ⟨l, st⟩ := p
    intro T ps bad bad' T' h hp
    unfold pass at hp
    cases hf : fit start l st with
    | error e => rw [hf] at hp; cases hp
    | ok f =>
      rw [hf] at hp
      dsimp only at hp
      have bump : ∀ {ps' : List (Pt K)} {a : Pt K}, (a ∈ ps ∨ ∃ p ∈ rest, ∃ f, fit start p.1 p.2 = .ok f ∧ f.success = true ∧ f.errorbars = true ∧
          a.ph = e2ph start f.peak ∧ a.e = p.1.peak ∧ a.dph = f.stderr / dedph start f.peak) →
          a ∈ ps ∨ ∃ p ∈ (l, st) :: rest, ∃ f, fit start p.1 p.2 = .ok f ∧ f.success = true ∧ f.errorbars = true ∧
          a.ph = e2ph start f.peak ∧ a.e = p.1.peak ∧ a.dph = f.stderr / dedph start f.peak := by
        intro _ a ha
        rcases ha with ha | ⟨q, hq, g⟩
        · exact Or.inl ha
        · exact Or.inr ⟨q, List.mem_cons_of_mem _ hq, g⟩
      by_cases hs : f.success = true ∧ f.errorbars = true
      · rw [hs.1, hs.2] at hp
        simp only [Bool.not_true, Bool.false_eq_true, if_false] at hp
        cases ha : addTo T (e2ph start f.peak) l.peak l.name (some (f.stderr / dedph start f.peak)) with
        | mk T1 x =>
          rw [ha] at hp
          cases x with
          | error e => cases hp
          | ok u =>
            dsimp only at hp
            obtain ⟨e', n', ps1, h1, h2, h3⟩ := add_accepted h (fun _ => none) (fun _ => none) (e2ph start f.peak) (.num l.peak) l.name (some (f.stderr / dedph start f.peak)) none true
              (by
                have : (addPoint (fun _ => none) (fun _ => none) T (e2ph start f.peak) (.num l.peak) l.name (some (f.stderr / dedph start f.peak)) none true).2 =
                  (addTo T (e2ph start f.peak) l.peak l.name (some (f.stderr / dedph start f.peak))).2 := rfl
                rw [this, ha])
            have h3' : Aligned T1 ps1 := by
              have : (addTo T (e2ph start f.peak) l.peak l.name (some (f.stderr / dedph start f.peak))).1 = T1 := by rw [ha]
              rw [← this]
              exact h3
            have he : e' = l.peak := by
              simp only [resolve, Option.some.injEq, Prod.mk.injEq] at h1
              exact h1.1.symm
            obtain ⟨g1, ps', g2, g3⟩ := ih T1 ps1 bad bad' T' h3' hp
            have hnew : ∀ a ∈ ps1, a ∈ ps ∨ (a.ph = e2ph start f.peak ∧ a.e = l.peak ∧ a.dph = f.stderr / dedph start f.peak) := by
              intro a ha'
              cases h2 with
              | name pre old post k1 _ _ _ =>
                rcases List.mem_append.mp ha' with hm | hm
                · exact Or.inl (by rw [k1]; simp [hm])
                · rcases List.mem_cons.mp hm with rfl | hm
                  · exact Or.inr ⟨rfl, he, rfl⟩
                  · exact Or.inl (by rw [k1]; simp [hm])
              | near pre old post k1 _ _ _ =>
                rcases List.mem_append.mp ha' with hm | hm
                · exact Or.inl (by rw [k1]; simp [hm])
                · rcases List.mem_cons.mp hm with rfl | hm
                  · exact Or.inr ⟨rfl, he, rfl⟩
                  · exact Or.inl (by rw [k1]; simp [hm])
              | new _ _ =>
                rcases List.mem_append.mp ha' with hm | hm
                · exact Or.inl hm
                · rw [List.mem_singleton.mp hm]
                  exact Or.inr ⟨rfl, he, rfl⟩
            refine ⟨?_, ps', g2, ?_⟩
            · rw [g1]
              constructor
              · rintro (hb | ⟨q, hq, g⟩)
                · exact Or.inl hb
                · exact Or.inr ⟨q, List.mem_cons_of_mem _ hq, g⟩
              · rintro (hb | ⟨q, hq, f', hf', g⟩)
                · exact Or.inl hb
                · rcases List.mem_cons.mp hq with rfl | hq
                  · rw [hf] at hf'
                    cases hf'
                    exact absurd hs g
                  · exact Or.inr ⟨q, hq, f', hf', g⟩
            · intro a ha'
              rcases g3 a ha' with hm | ⟨q, hq, g⟩
              · rcases hnew a hm with hm | hm
                · exact Or.inl hm
                · exact Or.inr ⟨(l, st), List.mem_cons_self, f, hf, hs.1, hs.2, hm⟩
              · exact Or.inr ⟨q, List.mem_cons_of_mem _ hq, g⟩
      · have hp' : pass fit e2ph dedph start rest T true = (bad', .ok T') := by
          by_cases h1 : f.success = true
          · have h2 : f.errorbars = false := by
              cases he : f.errorbars with
              | false => rfl
              | true => exact absurd ⟨h1, he⟩ hs
            rw [h1, h2] at hp
            simpa using hp
          · have h1 : f.success = false := by simpa using h1
            rw [h1] at hp
            simpa using hp
        obtain ⟨g1, ps', g2, g3⟩ := ih T ps true bad' T' h hp'
        refine ⟨?_, ps', g2, fun a ha => bump (ps' := ps') (g3 a ha)⟩
        rw [g1]
        simp only [true_or, true_iff]
        exact Or.inr ⟨(l, st), List.mem_cons_self, f, hf, hs⟩

/-- every point of `T` comes from a successful fit with error bars of one of the lines, started from calibration `s` [specification] -/
def From (fit : Tbl K → Line K → S → Except Exc (Fit K)) (e2ph dedph : Tbl K → K → K) (lines : List (Line K × S)) (s T : Tbl K) : Prop :=
  ∃ ps, Aligned T ps ∧ ∀ a ∈ ps, ∃ p ∈ lines, ∃ f, fit s p.1 p.2 = .ok f ∧ f.success = true ∧ f.errorbars = true ∧ a.ph = e2ph s f.peak ∧ a.e = p.1.peak ∧
    a.dph = f.stderr / dedph s f.peak

/-- C113. Whatever the fits do: there is one starting calibration per iteration, the rough one first; every point of the next one, and finally of the result, comes from
a successful fit with error bars of a line of the plan with that starting calibration; the channel is marked bad exactly if it was or some fit, in any iteration,
failed or had no error bars. -/
theorem calibrate_points {fit : Tbl K → Line K → S → Except Exc (Fit K)} {e2ph dedph : Tbl K → K → K} {curve : Nat} {approx : Bool} {n : Nat} {c : Chan K S}
    {taken overwrite bad : Bool} {T : Tbl K} (h : calibrate fit e2ph dedph curve approx n taken overwrite c = (bad, .ok T)) :
    ∃ first rest, rough c.plan = .ok first ∧ (first :: rest).length = n ∧
      List.IsChain (From fit e2ph dedph (c.plan.lines.zip c.plan.states)) (first :: rest ++ [T]) ∧
      (bad = true ↔ c.bad = true ∨ ∃ s ∈ first :: rest, ∃ p ∈ c.plan.lines.zip c.plan.states, ∃ f, fit s p.1 p.2 = .ok f ∧ ¬ (f.success = true ∧ f.errorbars = true)) := by
  unfold calibrate at h
  cases hr : rough c.plan with
  | error e => rw [hr] at h; cases h
  | ok start =>
    rw [hr] at h
    dsimp only at h
    have gen : ∀ n start b bad T, iterations fit e2ph dedph curve approx (c.plan.lines.zip c.plan.states) n start b = (bad, .ok T) →
        ∃ rest : List (Tbl K), (start :: rest).length = n ∧ List.IsChain (From fit e2ph dedph (c.plan.lines.zip c.plan.states)) (start :: rest ++ [T]) ∧
        (bad = true ↔ b = true ∨ ∃ s ∈ start :: rest, ∃ p ∈ c.plan.lines.zip c.plan.states, ∃ f, fit s p.1 p.2 = .ok f ∧ ¬ (f.success = true ∧ f.errorbars = true)) := by
      intro n
      induction n with
      | zero => intro start b bad T h; cases h
      | succ n ih =>
        intro start b bad T h
        unfold iterations at h
        cases hp : pass fit e2ph dedph start (c.plan.lines.zip c.plan.states) (newCal curve approx) b with
        | mk b1 x =>
          rw [hp] at h
          cases x with
          | error e => cases h
          | ok T1 =>
            dsimp only at h
            obtain ⟨g1, ps, g2, g3⟩ := pass_spec _ (newCal curve approx) [] b b1 T1 (newCal_aligned curve approx) hp
            have hfrom : From fit e2ph dedph (c.plan.lines.zip c.plan.states) start T1 := by
              refine ⟨ps, g2, ?_⟩
              intro a ha
              rcases g3 a ha with hm | hm
              · simp at hm
              · exact hm
            by_cases h0 : n = 0
            · rw [if_pos h0] at h
              cases h
              refine ⟨[], by simp [h0], by simpa using hfrom, ?_⟩
              rw [g1]
              simp
            · rw [if_neg h0] at h
              obtain ⟨rest, k1, k3, k4⟩ := ih T1 b1 bad T h
              refine ⟨T1 :: rest, by simp at k1 ⊢; exact k1, ?_, ?_⟩
              · exact List.IsChain.cons_cons hfrom k3
              · rw [k4, g1]
                constructor
                · rintro ((hb | hq) | ⟨s, hs, hq⟩)
                  · exact Or.inl hb
                  · exact Or.inr ⟨start, List.mem_cons_self, hq⟩
                  · exact Or.inr ⟨s, List.mem_cons_of_mem _ hs, hq⟩
                · rintro (hb | ⟨s, hs, hq⟩)
                  · exact Or.inl (Or.inl hb)
                  · rcases List.mem_cons.mp hs with rfl | hs
                    · exact Or.inl (Or.inr hq)
                    · exact Or.inr ⟨s, hs, hq⟩
    cases hi : iterations fit e2ph dedph curve approx (c.plan.lines.zip c.plan.states) n start c.bad with
    | mk b1 x =>
      rw [hi] at h
      cases x with
      | error e => cases h
      | ok T1 =>
        dsimp only at h
        split at h
        · cases h
        · cases h
          obtain ⟨rest, g1, g2, g3⟩ := gen n start c.bad _ _ hi
          exact ⟨start, rest, rfl, g1, g2, g3⟩

/-! ### disagreements -/

theorem roughLoop_error {l : List (K × Line K)} (m : List (K × Line K)) : ∀ {T : Tbl K} {e : Exc}, roughLoop l T = .error e → roughLoop (l ++ m) T = .error e := by
  induction l with
  | nil => intro T e h; cases h
  | cons p l ih =>
    intro T e h
    obtain ⟨v, ln⟩ := p
    rw [List.cons_append]
    unfold roughLoop at h ⊢
    cases ha : addTo T v ln.peak ln.name none with
    | mk T1 x =>
      rw [ha] at h
      cases x with
      | error e' => exact h
      | ok u => exact ih h

/-- Disagreement (C113): a point that does not fit the others raises, but stays in the plan: after that every further point raises, and so does calibrating. -/
theorem stuck_fails (spectra : String → Option (Line K)) (features : String → Option K) {c : Chan K S} (hl : c.plan.vals.length = c.plan.lines.length) {e : Exc}
    (h : rough c.plan = .error e) :
    (∀ r : PointReq K S, (planAddPoint spectra features c r).1 ≠ .ok () ∧ ∃ e', rough (planAddPoint spectra features c r).2.plan = .error e') ∧
    ∀ (fit : Tbl K → Line K → S → Except Exc (Fit K)) e2ph dedph curve approx n taken overwrite,
      (calibrate fit e2ph dedph curve approx n taken overwrite c).2 = .error e := by
  constructor
  · intro r
    unfold planAddPoint
    cases hr : lineFor spectra features r.name r.energy with
    | error e' => exact ⟨by simp, e, h⟩
    | ok l =>
      dsimp only
      have : rough (addCalPoint c.plan r.val r.states l) = .error e := by
        unfold rough addCalPoint
        dsimp only
        rw [List.zip_append hl]
        exact roughLoop_error _ h
      rw [this]
      exact ⟨by simp, e, this⟩
  · intro fit e2ph dedph curve approx n taken overwrite
    unfold calibrate
    rw [h]

/-- two lines -/
def exSpectra : String → Option (Line ℚ) := fun s => if s = "MnKAlpha" then some ⟨"MnKAlpha", 5898⟩ else if s = "FeKAlpha" then some ⟨"FeKAlpha", 6403⟩ else none
/-- a new channel -/
def exChan : Chan ℚ Nat := ⟨emptyPlan, none, false⟩
/-- planning some points, all exceptions swallowed -/
def exPlan (rs : List (PointReq ℚ Nat)) : Chan ℚ Nat := rs.foldl (fun c r => (planAddPoint exSpectra (fun _ => none) c r).2) exChan

/-- such a state is reached: two points in the wrong order -/
example : (rough (exPlan [⟨1000, "MnKAlpha", 0, none⟩, ⟨900, "FeKAlpha", 0, none⟩]).plan).toOption = none ∧
    (planAddPoint exSpectra (fun _ => none) (exPlan [⟨1000, "MnKAlpha", 0, none⟩, ⟨900, "FeKAlpha", 0, none⟩]) ⟨1100, "FeKAlpha", 0, none⟩).1 = .error .exception := by
  decide +kernel

/-- Disagreement (C113): the same line planned in two states counts once: the calibration has only the position of the later fit. -/
theorem same_line_fails : ∃ c : Chan ℚ Nat, c.plan.lines.length = 2 ∧
    ((calibrate (fun _ _ st => .ok ⟨true, true, 1000 + (Nat.cast st : ℚ), 1⟩) (fun _ x => x) (fun _ _ => 1) 3 false 1 false false c).2.map (fun T => (T.ph, T.e))) = .ok ([1007], [5898]) :=
  ⟨exPlan [⟨1000, "MnKAlpha", 3, none⟩, ⟨1000, "MnKAlpha", 7, none⟩], by decide +kernel, by decide +kernel⟩

/-- Disagreement (C113): an energy given for a known name is ignored. -/
theorem energy_ignored_fails : lineFor exSpectra (fun _ => none) "MnKAlpha" (some 5900) = .ok ⟨"MnKAlpha", 5898⟩ := by decide +kernel

/-- Disagreement (C113): a point planned with an energy, or by the name of a standard feature, gets another name in the calibration: it cannot be looked up by the
name given. -/
theorem other_name_fails : ∃ c : Chan ℚ Nat, (c.energyRough.map (fun T => T.names.contains "x")) = some false ∧
    (planAddPoint exSpectra (fun _ => none) exChan ⟨1200, "x", 4, some 7000⟩) = (.ok (), c) ∧ c.energyRough.map (fun T => T.e) = some [7000] :=
  ⟨_, by decide +kernel, rfl, by decide +kernel⟩

/-- Disagreement (C113): if no fit succeeds, a calibration without any points is installed all the same. -/
theorem no_points_fails (curve : Nat) (approx : Bool) (c : Chan K S) {start : Tbl K} (hr : rough c.plan = .ok start) (e2ph dedph : Tbl K → K → K) (n : Nat) (f : Fit K)
    (hf : f.success = false) : ∃ T, (calibrate (fun _ _ _ => .ok f) e2ph dedph curve approx (n + 1) false false c).2 = .ok T ∧ Aligned T [] := by
  have hp : ∀ (l : List (Line K × S)) start T bad, ∃ b, pass (fun _ _ _ => .ok f) e2ph dedph start l T bad = (b, .ok T) := by
    intro l
    induction l with
    | nil => intro start T bad; exact ⟨bad, rfl⟩
    | cons p l ih =>
      intro start T bad
      obtain ⟨b, hb⟩ := ih start T true
      refine ⟨b, ?_⟩
      unfold pass
      simp only [hf, Bool.not_false, if_true]
      exact hb
  have hi : ∀ n start bad, ∃ b, iterations (fun _ _ _ => .ok f) e2ph dedph curve approx (c.plan.lines.zip c.plan.states) (n + 1) start bad = (b, .ok (newCal curve approx)) := by
    intro n
    induction n with
    | zero =>
      intro start bad
      obtain ⟨b, hb⟩ := hp (c.plan.lines.zip c.plan.states) start (newCal curve approx) bad
      refine ⟨b, ?_⟩
      unfold iterations
      rw [hb]
      rfl
    | succ n ih =>
      intro start bad
      obtain ⟨b, hb⟩ := hp (c.plan.lines.zip c.plan.states) start (newCal curve approx) bad
      obtain ⟨b', hb'⟩ := ih (newCal curve approx) b
      refine ⟨b', ?_⟩
      unfold iterations
      rw [hb]
      dsimp only
      rw [if_neg (by omega)]
      exact hb'
  obtain ⟨b, hb⟩ := hi n start c.bad
  refine ⟨newCal curve approx, ?_, newCal_aligned _ _⟩
  unfold calibrate
  rw [hr]
  dsimp only
  rw [hb]
  rfl

/-! ### examples -/

example : ((planAddPoint exSpectra (fun _ => none) exChan ⟨1000, "MnKAlpha", 3, none⟩).1,
    (exPlan [⟨1000, "MnKAlpha", 3, none⟩, ⟨1, "nonsense", 3, none⟩, ⟨1100, "FeKAlpha", 3, none⟩, ⟨1200, "x", 4, some 7000⟩]).energyRough.map (fun T => (T.ph, T.e, T.names))) =
    (.ok (), some ([1000, 1100, 1200], [5898, 6403, 7000], ["MnKAlpha", "FeKAlpha", "xquick_line"])) := by decide +kernel

/-- a fit that finds position 1010 for the one and 1120 for the other line, in units of a calibration that doubles -/
example : ((calibrate (fun _ l _ => .ok ⟨true, true, if l.peak = 5898 then 2020 else 2240, 4⟩) (fun _ x => x / 2) (fun _ _ => 2) 3 false 3 false false
    (exPlan [⟨1000, "MnKAlpha", 3, none⟩, ⟨1100, "FeKAlpha", 3, none⟩])).2.map (fun T => (T.ph, T.e, T.dph))) = .ok ([1010, 1120], [5898, 6403], [2, 2]) := by decide +kernel

end Mass.Calc.Plan
