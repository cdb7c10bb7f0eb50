import Verif.Calc.Efficiency
import Mathlib.Tactic.FieldSimp
import Mathlib.Tactic.Positivity
/-! C172: the ready-made models of instruments and plots of efficiencies (mass/materials/efficiency_models.py L57-73, L242-330). Nominal values; uncertainties are C164's. -/
namespace Mass.Calc.Instruments
open Real Mass Mass.Calc.Efficiency

/-! ### model -/

/-- what is used of xraydb (efficiency_models.py L105, L169-180, L214-228): standard densities, elements of sapphire and of kapton with their mass fractions, and their densities -/
structure Db where
  rho0 : String → ℝ
  oxide : List (String × ℝ)
  rhoOx : ℝ
  polymer : List (String × ℝ)
  rhoPoly : ℝ

/-- a new stack with its components added in turn (efficiency_models.py L10-41); the first that raises ends it -/
def build (s : Comp String) : List (Except Exc (Comp String)) → Except Exc (Comp String)
  | [] => .ok s
  | .error e :: _ => .error e
  | .ok c :: t => build (add s c) t

/-- `LEX_HT`, efficiency_models.py L247-271 -/
noncomputable def lexHt (db : Db) (name : String) : Except Exc (Comp String) :=
  build (.stack name []) [
    mkFilm db.rho0 "LEX_HT Film" ["C", "H", "N", "O", "Al"] none (some [6.7e-5, 2.6e-6, 7.2e-6, 1.7e-5, 1.7e-5]) none (.real 1) false,
    mkFilm db.rho0 "LEX_HT Mesh" ["Fe", "Cr", "Ni", "Mn", "Si"] none (some ([0.705, 0.19, 0.09, 0.01, 0.005].map (fun x : ℝ => x * 8 * 100e-4))) none (.real 0.19) false]

/-- a film of one material given by its thickness (used for efficiency_models.py L280, L288, L300, L307-309, L315) -/
noncomputable def one (db : Db) (name mat : String) (nm fill : ℝ) (absorber : Bool) : Except Exc (Comp String) := mkFilm db.rho0 name [mat] none none (some [nm]) (.real fill) absorber

/-- an aluminium film with oxide on both sides (used for efficiency_models.py L281-287, L306-319) -/
noncomputable def alOx (db : Db) (name : String) (nm : ℝ) : Except Exc (Comp String) := alFilmWithOxide db.rho0 name "Al" db.oxide db.rhoOx nm none 2 none

/-- an aluminium film with polymer (used for efficiency_models.py L302-305) -/
noncomputable def alPoly (db : Db) (name : String) (nm poly : ℝ) : Except Exc (Comp String) :=
  alFilmWithPolymer db.rho0 name "Al" db.oxide db.polymer db.rhoOx db.rhoPoly nm poly none 1 none none

/-- the EBIT instrument, efficiency_models.py L278-293 -/
noncomputable def ebit (db : Db) : Except Exc (Comp String) :=
  build (.stack "EBIT 2018" []) [
    one db "Electroplated Au Absorber" "Au" 965.5 1 true, alOx db "50mK Filter" 112.5, alOx db "3K Filter" 108.5,
    build (.stack "50K Filter" []) [alOx db "Al Film" 102.6, one db "Ni Mesh" "Ni" 15e3 0.17 false],
    lexHt db "Luxel Window TES", lexHt db "Luxel Window EBIT"]

/-- the RAVEN instrument, efficiency_models.py L296-310 -/
noncomputable def raven (db : Db) : Except Exc (Comp String) :=
  build (.stack "RAVEN1 2019" []) [
    one db "Evaporated Bi Absorber" "Bi" 4.4e3 1 true, alPoly db "50mK Filter" 108.4 206.4, alPoly db "3K Filter" 108.4 206.4, alOx db "50K Filter" 1e3,
    one db "Be TES Vacuum Window" "Be" 200e3 1 false, alOx db "e- Filter" 5e3, one db "Be SEM Vacuum Window" "Be" 200e3 1 false]

/-- the Horton instrument, efficiency_models.py L313-320 -/
noncomputable def horton (db : Db) : Except Exc (Comp String) :=
  build (.stack "Horton 2018" []) [
    one db "Electroplated Au Absorber" "Au" 965.5 1 true, alOx db "50mK Filter" 5000, alOx db "3K Filter" 5000, alOx db "50K Filter" 12700, lexHt db "Luxel Window TES"]

/-- `plot_efficiency` of a stack, efficiency_models.py L57-73: the unit on the x axis in eV (it is labelled keV), the x values, the total in percent and the curve of each component with its name -/
noncomputable def plotEff (mu : String → ℝ → ℝ → ℝ) (Es : List ℝ) (s : Comp String) : Except Exc (ℝ × List ℝ × List ℝ × List (String × List ℝ)) :=
  match Es.mapM (fun E => eff mu E s) with
  | .error e => .error e
  | .ok tot =>
    let comps := match s with | .film _ _ _ _ => [] | .stack _ cs => cs
    match comps.mapM (fun c => (Es.mapM (fun E => eff mu E c)).map (fun y => (c.name, y.map (fun v => v * 100)))) with
    | .error e => .error e
    | .ok cs => .ok (1000, Es, tot.map (fun v => v * 100), cs)

/-! ### lemmas -/

/-- a part is made, has this name and this efficiency [specification] -/
def Part (mu : String → ℝ → ℝ → ℝ) (E : ℝ) (p : Except Exc (Comp String)) (nv : String × ℝ) : Prop := ∃ c, p = .ok c ∧ c.name = nv.1 ∧ eff mu E c = .ok nv.2

theorem build_from (mu : String → ℝ → ℝ → ℝ) (E : ℝ) (n : String) {parts : List (Except Exc (Comp String))} {nvs : List (String × ℝ)} (h : List.Forall₂ (Part mu E) parts nvs) :
    ∀ (cs : List (Comp String)) (x : ℝ), (cs.map Comp.name ++ nvs.map Prod.fst).Nodup → effAll mu E cs = .ok x →
      ∃ cs', build (.stack n cs) parts = .ok (.stack n cs') ∧ cs'.map Comp.name = cs.map Comp.name ++ nvs.map Prod.fst ∧ effAll mu E cs' = .ok (x * (nvs.map Prod.snd).prod) := by
  induction h with
  | nil =>
    intro cs x _ hx
    exact ⟨cs, rfl, by simp, by simpa using hx⟩
  | @cons p nv ps t hp ht ih =>
    intro cs x hnd hx
    obtain ⟨c, rfl, hc, hv⟩ := hp
    have hnew : cs.any (fun z => z.name == c.name) = false := by
      rw [Bool.eq_false_iff, Ne, List.any_eq_true]
      rintro ⟨z, hz, he⟩
      rw [List.nodup_append] at hnd
      have he := beq_iff_eq.1 he
      exact hnd.2.2 z.name (List.mem_map_of_mem hz) nv.1 (by simp) (he.trans hc)
    have hadd : add (.stack n cs) c = .stack n (cs ++ [c]) := by
      unfold add
      dsimp only
      rw [hnew, if_neg (by simp)]
    obtain ⟨cs', h1, h2, h3⟩ := ih (cs ++ [c]) (x * nv.2) (by simpa [hc] using hnd) (by
      rw [effAll_append, hx, effAll, hv, effAll]
      simp [bind, Except.bind, pure, Except.pure])
    refine ⟨cs', ?_, ?_, ?_⟩
    · rw [build, hadd]
      exact h1
    · rw [h2]
      simp [hc]
    · rw [h3]
      simp [mul_assoc]

theorem build_part (mu : String → ℝ → ℝ → ℝ) (E : ℝ) (n : String) {parts : List (Except Exc (Comp String))} {nvs : List (String × ℝ)} (h : List.Forall₂ (Part mu E) parts nvs) (hnd : (nvs.map Prod.fst).Nodup)
    (hne : nvs ≠ []) : ∃ cs, build (.stack n []) parts = .ok (.stack n cs) ∧ cs.map Comp.name = nvs.map Prod.fst ∧ eff mu E (.stack n cs) = .ok (nvs.map Prod.snd).prod := by
  obtain ⟨cs, h1, h2, h3⟩ := build_from mu E n h [] 1 (by simpa using hnd) (by rw [effAll])
  refine ⟨cs, h1, by simpa using h2, ?_⟩
  have : cs ≠ [] := by
    rintro rfl
    simp only [List.map_nil, List.nil_append] at h2
    exact hne (List.map_eq_nil_iff.1 h2.symm)
  rw [eff_stack mu E n this, h3, one_mul]

theorem mkFilm_name (rho0 : String → ℝ) (name : String) (mats : List String) (dens area thick : Option (List ℝ)) (fill : Fill) (ab : Bool) {c : Comp String}
    (h : mkFilm rho0 name mats dens area thick fill ab = .ok c) : c.name = name := by
  unfold mkFilm at h
  cases fill with
  | int n => cases h
  | real phi =>
    dsimp only at h
    split at h
    · cases h
    · cases area with
      | none =>
        cases thick with
        | none => cases h
        | some t =>
          dsimp only at h
          split at h
          · cases h
          · have h := (Except.ok.inj h).symm
            subst h
            rfl
      | some a =>
        cases thick with
        | some t => cases h
        | none =>
          dsimp only at h
          cases hd : divide a (dens.getD (mats.map rho0)) with
          | error e => rw [hd] at h; cases h
          | ok t =>
            rw [hd] at h
            simp only [bind, Except.bind] at h
            split at h
            · cases h
            · have h := (Except.ok.inj h).symm
              subst h
              rfl

theorem part_of_bind {mu : String → ℝ → ℝ → ℝ} {E : ℝ} {p : Except Exc (Comp String)} {n : String} {v : ℝ} (hn : ∀ c, p = .ok c → c.name = n) (h : p.bind (eff mu E) = .ok v) : Part mu E p (n, v) := by
  cases p with
  | error e => cases h
  | ok c => exact ⟨c, rfl, hn c rfl, h⟩

/-- transmission of aluminium with oxide on both sides [specification] -/
noncomputable def tAlOx (kappa : String → ℝ → ℝ) (db : Db) (E nm : ℝ) : ℝ :=
  exp (-(kappa "Al" E * db.rho0 "Al" * (nm * 1e-7) + (db.oxide.map (fun x => kappa x.1 E * (db.rhoOx * x.2) * (6 * 1e-7))).sum))

/-- transmission of a layer of one element [specification] -/
noncomputable def tOne (kappa : String → ℝ → ℝ) (db : Db) (E : ℝ) (mat : String) (nm : ℝ) : ℝ := exp (-(kappa mat E * db.rho0 mat * (nm * 1e-7)))

/-- transmission of a LEX-HT window: the film, and a steel mesh of 100 micrometers that covers 19 percent [specification] -/
noncomputable def tLex (kappa : String → ℝ → ℝ) (E : ℝ) : ℝ :=
  exp (-(6.7e-5 * kappa "C" E + 2.6e-6 * kappa "H" E + 7.2e-6 * kappa "N" E + 1.7e-5 * kappa "O" E + 1.7e-5 * kappa "Al" E)) *
    (0.19 * exp (-(0.08 * (0.705 * kappa "Fe" E + 0.19 * kappa "Cr" E + 0.09 * kappa "Ni" E + 0.01 * kappa "Mn" E + 0.005 * kappa "Si" E))) + 0.81)

theorem part_one {mu : String → ℝ → ℝ → ℝ} {kappa : String → ℝ → ℝ} (hmu : MassAtt mu kappa) (db : Db) (E : ℝ) (name mat : String) (nm fill : ℝ) :
    Part mu E (one db name mat nm fill false) (name, tOne kappa db E mat nm * fill + (1 - fill)) ∧ Part mu E (one db name mat nm fill true) (name, (1 - tOne kappa db E mat nm) * fill) := by
  have h := film_thickness hmu db.rho0 name (ls := [(mat, db.rho0 mat, nm)]) (by simp) fill E
  simp only [List.map_cons, List.map_nil, List.sum_cons, List.sum_nil, add_zero] at h
  refine ⟨part_of_bind (fun c hc => mkFilm_name _ _ _ _ _ _ _ _ hc) h, ?_⟩
  refine part_of_bind (fun c hc => mkFilm_name _ _ _ _ _ _ _ _ hc) ?_
  unfold one mkFilm
  simp only [Option.getD_none, List.map_cons, List.map_nil, List.length_cons, List.length_nil, ne_eq, not_true_eq_false, if_false, reduceCtorEq, List.zip_cons_cons, List.zip_nil_left]
  dsimp only [Except.bind]
  rw [eff_film mu E name (by simp), transmittance_exp]
  simp only [if_true, List.map_cons, List.map_nil, List.sum_cons, List.sum_nil, add_zero, hmu mat E (db.rho0 mat)]
  unfold tOne
  rw [show db.rho0 mat * kappa mat E * (nm * 1e-7) = kappa mat E * db.rho0 mat * (nm * 1e-7) by ring]

theorem part_alOx {mu : String → ℝ → ℝ → ℝ} {kappa : String → ℝ → ℝ} (hmu : MassAtt mu kappa) (db : Db) (E : ℝ) (name : String) (nm : ℝ) : Part mu E (alOx db name nm) (name, tAlOx kappa db E nm) := by
  have h := (oxide_film hmu db.rho0 name "Al" db.oxide db.rhoOx nm none none 2 E).1 (.inr rfl)
  refine part_of_bind (fun c hc => ?_) ?_
  · unfold alOx alFilmWithOxide at hc
    rw [if_neg (by omega)] at hc
    exact mkFilm_name _ _ _ _ _ _ _ _ hc
  · unfold alOx tAlOx
    rw [h]
    simp only [Option.getD_none]
    norm_num

theorem part_lex {mu : String → ℝ → ℝ → ℝ} {kappa : String → ℝ → ℝ} (hmu : MassAtt mu kappa) (db : Db) (hrho : ∀ m, db.rho0 m ≠ 0) (E : ℝ) (name : String) :
    ∃ cs, lexHt db name = .ok (.stack name cs) ∧ eff mu E (.stack name cs) = .ok (tLex kappa E) := by
  have h1 := film_area hmu db.rho0 "LEX_HT Film" (ls := [("C", db.rho0 "C", 6.7e-5), ("H", db.rho0 "H", 2.6e-6), ("N", db.rho0 "N", 7.2e-6), ("O", db.rho0 "O", 1.7e-5), ("Al", db.rho0 "Al", 1.7e-5)]) (by simp)
    (by simp [hrho]) 1 E
  have h2 := film_area hmu db.rho0 "LEX_HT Mesh" (ls := [("Fe", db.rho0 "Fe", 0.705 * 8 * 100e-4), ("Cr", db.rho0 "Cr", 0.19 * 8 * 100e-4), ("Ni", db.rho0 "Ni", 0.09 * 8 * 100e-4), ("Mn", db.rho0 "Mn", 0.01 * 8 * 100e-4),
    ("Si", db.rho0 "Si", 0.005 * 8 * 100e-4)]) (by simp) (by simp [hrho]) 0.19 E
  simp only [List.map_cons, List.map_nil, List.sum_cons, List.sum_nil] at h1 h2
  obtain ⟨cs, e1, _, e3⟩ := build_part mu E name (List.Forall₂.cons (part_of_bind (fun c hc => mkFilm_name _ _ _ _ _ _ _ _ hc) h1)
    (List.Forall₂.cons (part_of_bind (fun c hc => mkFilm_name _ _ _ _ _ _ _ _ hc) h2) List.Forall₂.nil)) (by simp) (by simp)
  refine ⟨cs, ?_, ?_⟩
  · rw [← e1]
    rfl
  · rw [e3]
    unfold tLex
    simp only [List.map_cons, List.map_nil, List.prod_cons, List.prod_nil, mul_one, sub_self, add_zero]
    congr 2
    · congr 2
      ring
    · rw [show (1 : ℝ) - 0.19 = 0.81 by norm_num]
      congr 1
      rw [mul_comm]
      congr 3
      ring

theorem part_lex' {mu : String → ℝ → ℝ → ℝ} {kappa : String → ℝ → ℝ} (hmu : MassAtt mu kappa) (db : Db) (hrho : ∀ m, db.rho0 m ≠ 0) (E : ℝ) (name : String) : Part mu E (lexHt db name) (name, tLex kappa E) := by
  obtain ⟨cs, h1, h2⟩ := part_lex hmu db hrho E name
  exact ⟨_, h1, rfl, h2⟩

/-! ### C172 -/

/-- C172. A LEX-HT window transmits what its film transmits, times 81 percent and what the steel transmits of the other 19; so never less than 81 percent of what the film does. -/
theorem lex_ht {mu : String → ℝ → ℝ → ℝ} {kappa : String → ℝ → ℝ} (hmu : MassAtt mu kappa) (db : Db) (hrho : ∀ m, db.rho0 m ≠ 0) (E : ℝ) (name : String) :
    (lexHt db name).bind (eff mu E) = .ok (tLex kappa E) ∧
      0.81 * exp (-(6.7e-5 * kappa "C" E + 2.6e-6 * kappa "H" E + 7.2e-6 * kappa "N" E + 1.7e-5 * kappa "O" E + 1.7e-5 * kappa "Al" E)) ≤ tLex kappa E := by
  obtain ⟨cs, h1, h2⟩ := part_lex hmu db hrho E name
  constructor
  · rw [h1]
    exact h2
  · unfold tLex
    rw [mul_comm (0.81 : ℝ)]
    refine mul_le_mul_of_nonneg_left ?_ (exp_pos _).le
    have := exp_pos (-(0.08 * (0.705 * kappa "Fe" E + 0.19 * kappa "Cr" E + 0.09 * kappa "Ni" E + 0.01 * kappa "Mn" E + 0.005 * kappa "Si" E)))
    linarith

/-- C172. The EBIT instrument exists, with six components, and its efficiency is that of the gold absorber times the transmissions of the filters at 50 mK, 3 K and 50 K (with its mesh of nickel) and of two windows. -/
theorem ebit_spec {mu : String → ℝ → ℝ → ℝ} {kappa : String → ℝ → ℝ} (hmu : MassAtt mu kappa) (db : Db) (hrho : ∀ m, db.rho0 m ≠ 0) (E : ℝ) :
    ∃ cs, ebit db = .ok (.stack "EBIT 2018" cs) ∧ cs.map Comp.name = ["Electroplated Au Absorber", "50mK Filter", "3K Filter", "50K Filter", "Luxel Window TES", "Luxel Window EBIT"] ∧
      eff mu E (.stack "EBIT 2018" cs) = .ok ((1 - tOne kappa db E "Au" 965.5) * tAlOx kappa db E 112.5 * tAlOx kappa db E 108.5 *
        (tAlOx kappa db E 102.6 * (0.17 * tOne kappa db E "Ni" 15000 + 0.83)) * tLex kappa E * tLex kappa E) := by
  obtain ⟨ci, i1, _, i3⟩ := build_part mu E "50K Filter" (List.Forall₂.cons (part_alOx hmu db E "Al Film" 102.6) (List.Forall₂.cons (part_one hmu db E "Ni Mesh" "Ni" 15e3 0.17).1 List.Forall₂.nil)) (by simp) (by simp)
  obtain ⟨cs, e1, e2, e3⟩ := build_part mu E "EBIT 2018" (List.Forall₂.cons (part_one hmu db E "Electroplated Au Absorber" "Au" 965.5 1).2
    (List.Forall₂.cons (part_alOx hmu db E "50mK Filter" 112.5) (List.Forall₂.cons (part_alOx hmu db E "3K Filter" 108.5) (List.Forall₂.cons (b := ("50K Filter", _)) ⟨_, i1, rfl, i3⟩
    (List.Forall₂.cons (part_lex' hmu db hrho E "Luxel Window TES") (List.Forall₂.cons (part_lex' hmu db hrho E "Luxel Window EBIT") List.Forall₂.nil)))))) (by simp) (by simp)
  refine ⟨cs, e1, e2, ?_⟩
  rw [e3]
  simp only [List.map_cons, List.map_nil, List.prod_cons, List.prod_nil, mul_one]
  congr 1
  norm_num
  ring

/-- C172. The Horton instrument likewise, with a gold absorber, three filters and one window. -/
theorem horton_spec {mu : String → ℝ → ℝ → ℝ} {kappa : String → ℝ → ℝ} (hmu : MassAtt mu kappa) (db : Db) (hrho : ∀ m, db.rho0 m ≠ 0) (E : ℝ) :
    ∃ cs, horton db = .ok (.stack "Horton 2018" cs) ∧ cs.map Comp.name = ["Electroplated Au Absorber", "50mK Filter", "3K Filter", "50K Filter", "Luxel Window TES"] ∧
      eff mu E (.stack "Horton 2018" cs) = .ok ((1 - tOne kappa db E "Au" 965.5) * tAlOx kappa db E 5000 * tAlOx kappa db E 5000 * tAlOx kappa db E 12700 * tLex kappa E) := by
  obtain ⟨cs, e1, e2, e3⟩ := build_part mu E "Horton 2018" (List.Forall₂.cons (part_one hmu db E "Electroplated Au Absorber" "Au" 965.5 1).2
    (List.Forall₂.cons (part_alOx hmu db E "50mK Filter" 5000) (List.Forall₂.cons (part_alOx hmu db E "3K Filter" 5000) (List.Forall₂.cons (part_alOx hmu db E "50K Filter" 12700)
    (List.Forall₂.cons (part_lex' hmu db hrho E "Luxel Window TES") List.Forall₂.nil))))) (by simp) (by simp)
  refine ⟨cs, e1, e2, ?_⟩
  rw [e3]
  simp only [List.map_cons, List.map_nil, List.prod_cons, List.prod_nil, mul_one]
  congr 1
  ring

/-- Disagreement (C172): in the RAVEN instrument the two filters with polymer have no part of the last element of the polymer, and of the second element of the oxide as if it were 206.4 nm thick. -/
theorem raven_fails {mu : String → ℝ → ℝ → ℝ} {kappa : String → ℝ → ℝ} (hmu : MassAtt mu kappa) (db : Db) (o1 o2 last : String × ℝ) (poly : List (String × ℝ)) (ho : db.oxide = [o1, o2])
    (hp : db.polymer = poly ++ [last]) (E : ℝ) :
    ∃ cs, raven db = .ok (.stack "RAVEN1 2019" cs) ∧ cs.length = 7 ∧
      eff mu E (.stack "RAVEN1 2019" cs) = .ok ((1 - tOne kappa db E "Bi" 4400) *
        exp (-(kappa "Al" E * db.rho0 "Al" * (108.4 * 1e-7) + (kappa o1.1 E * (db.rhoOx * o1.2) * (3 * 1e-7) + (kappa o2.1 E * (db.rhoOx * o2.2) * (206.4 * 1e-7) +
          (poly.map (fun x => kappa x.1 E * (db.rhoPoly * x.2) * (206.4 * 1e-7))).sum)))) ^ 2 *
        tAlOx kappa db E 1000 * tAlOx kappa db E 5000 * tOne kappa db E "Be" 200000 ^ 2) := by
  have hpoly : ∀ name, Part mu E (alPoly db name 108.4 206.4) (name, exp (-(kappa "Al" E * db.rho0 "Al" * (108.4 * 1e-7) + (kappa o1.1 E * (db.rhoOx * o1.2) * (3 * 1e-7) +
      (kappa o2.1 E * (db.rhoOx * o2.2) * (206.4 * 1e-7) + (poly.map (fun x => kappa x.1 E * (db.rhoPoly * x.2) * (206.4 * 1e-7))).sum))))) := by
    intro name
    have h := polymer_fails hmu db.rho0 name "Al" o1 o2 last poly db.rhoOx db.rhoPoly 108.4 206.4 none none none (surfaces := 1) (.inl rfl) E
    refine part_of_bind (fun c hc => ?_) ?_
    · unfold alPoly alFilmWithPolymer at hc
      rw [if_neg (by omega)] at hc
      exact mkFilm_name _ _ _ _ _ _ _ _ hc
    · unfold alPoly
      rw [ho, hp, h]
      simp only [Option.getD_none, Nat.cast_one, mul_one]
  obtain ⟨cs, e1, e2, e3⟩ := build_part mu E "RAVEN1 2019" (List.Forall₂.cons (part_one hmu db E "Evaporated Bi Absorber" "Bi" 4.4e3 1).2
    (List.Forall₂.cons (hpoly "50mK Filter") (List.Forall₂.cons (hpoly "3K Filter") (List.Forall₂.cons (part_alOx hmu db E "50K Filter" 1e3)
    (List.Forall₂.cons (part_one hmu db E "Be TES Vacuum Window" "Be" 200e3 1).1 (List.Forall₂.cons (part_alOx hmu db E "e- Filter" 5e3)
    (List.Forall₂.cons (part_one hmu db E "Be SEM Vacuum Window" "Be" 200e3 1).1 List.Forall₂.nil))))))) (by simp) (by simp)
  refine ⟨cs, e1, ?_, ?_⟩
  · have := congrArg List.length e2
    simpa using this
  · rw [e3]
    simp only [List.map_cons, List.map_nil, List.prod_cons, List.prod_nil, mul_one, sub_self, add_zero]
    congr 1
    norm_num
    ring

/-- C172. With attenuation that is not negative the efficiencies of the instruments are between 0 and that of their absorbers. -/
theorem instrument_range {kappa : String → ℝ → ℝ} (hk : ∀ m E, 0 ≤ kappa m E) (db : Db) (hrho : ∀ m, 0 < db.rho0 m) (hox : 0 ≤ db.rhoOx) (hfr : ∀ x ∈ db.oxide, 0 ≤ x.2) {mu : String → ℝ → ℝ → ℝ} (hmu : MassAtt mu kappa)
    (E : ℝ) : (∃ x, (ebit db).bind (eff mu E) = .ok x ∧ 0 ≤ x ∧ x ≤ 1 - tOne kappa db E "Au" 965.5) ∧ ∃ x, (horton db).bind (eff mu E) = .ok x ∧ 0 ≤ x ∧ x ≤ 1 - tOne kappa db E "Au" 965.5 := by
  have hone : ∀ m nm, 0 ≤ nm → 0 ≤ tOne kappa db E m nm ∧ tOne kappa db E m nm ≤ 1 := by
    intro m nm hnm
    unfold tOne
    refine ⟨(exp_pos _).le, ?_⟩
    rw [exp_le_one_iff, Left.neg_nonpos_iff]
    have := hk m E
    have := (hrho m).le
    positivity
  have hal : ∀ nm, 0 ≤ nm → 0 ≤ tAlOx kappa db E nm ∧ tAlOx kappa db E nm ≤ 1 := by
    intro nm hnm
    unfold tAlOx
    refine ⟨(exp_pos _).le, ?_⟩
    rw [exp_le_one_iff, Left.neg_nonpos_iff]
    have h1 := hk "Al" E
    have h2 := (hrho "Al").le
    refine add_nonneg (by positivity) (List.sum_nonneg ?_)
    intro y hy
    obtain ⟨x, hx, rfl⟩ := List.mem_map.1 hy
    have h3 := hfr x hx
    have h4 := hk x.1 E
    positivity
  have hlex : 0 ≤ tLex kappa E ∧ tLex kappa E ≤ 1 := by
    unfold tLex
    have e1 : exp (-(6.7e-5 * kappa "C" E + 2.6e-6 * kappa "H" E + 7.2e-6 * kappa "N" E + 1.7e-5 * kappa "O" E + 1.7e-5 * kappa "Al" E)) ≤ 1 := by
      rw [exp_le_one_iff, Left.neg_nonpos_iff]
      have := hk "C" E; have := hk "H" E; have := hk "N" E; have := hk "O" E; have := hk "Al" E
      positivity
    have e2 : exp (-(0.08 * (0.705 * kappa "Fe" E + 0.19 * kappa "Cr" E + 0.09 * kappa "Ni" E + 0.01 * kappa "Mn" E + 0.005 * kappa "Si" E))) ≤ 1 := by
      rw [exp_le_one_iff, Left.neg_nonpos_iff]
      have := hk "Fe" E; have := hk "Cr" E; have := hk "Ni" E; have := hk "Mn" E; have := hk "Si" E
      positivity
    have p1 := exp_pos (-(6.7e-5 * kappa "C" E + 2.6e-6 * kappa "H" E + 7.2e-6 * kappa "N" E + 1.7e-5 * kappa "O" E + 1.7e-5 * kappa "Al" E))
    have p2 := exp_pos (-(0.08 * (0.705 * kappa "Fe" E + 0.19 * kappa "Cr" E + 0.09 * kappa "Ni" E + 0.01 * kappa "Mn" E + 0.005 * kappa "Si" E)))
    exact ⟨mul_nonneg p1.le (by linarith), mul_le_one₀ e1 (by linarith) (by linarith)⟩
  have hmul : ∀ a x : ℝ, 0 ≤ x → x ≤ 1 → ∀ b, 0 ≤ a ∧ a ≤ b → 0 ≤ a * x ∧ a * x ≤ b := fun a x h0 h1 b h => ⟨mul_nonneg h.1 h0, (mul_le_of_le_one_right h.1 h1).trans h.2⟩
  have hau := hone "Au" 965.5 (by norm_num)
  have hbase : 0 ≤ 1 - tOne kappa db E "Au" 965.5 ∧ 1 - tOne kappa db E "Au" 965.5 ≤ 1 - tOne kappa db E "Au" 965.5 := ⟨by linarith, le_rfl⟩
  have hrho' : ∀ m, db.rho0 m ≠ 0 := fun m => (hrho m).ne'
  constructor
  · obtain ⟨cs, e1, _, e3⟩ := ebit_spec hmu db hrho' E
    refine ⟨_, by rw [e1]; exact e3, ?_⟩
    have hni := hone "Ni" 15000 (by norm_num)
    have hmesh : 0 ≤ 0.17 * tOne kappa db E "Ni" 15000 + 0.83 ∧ 0.17 * tOne kappa db E "Ni" 15000 + 0.83 ≤ 1 := ⟨by linarith [hni.1], by linarith [hni.2]⟩
    have h50 := hal 102.6 (by norm_num)
    exact hmul _ _ hlex.1 hlex.2 _ (hmul _ _ hlex.1 hlex.2 _ (hmul _ _ (mul_nonneg h50.1 hmesh.1) (mul_le_one₀ h50.2 hmesh.1 hmesh.2) _
      (hmul _ _ (hal 108.5 (by norm_num)).1 (hal 108.5 (by norm_num)).2 _ (hmul _ _ (hal 112.5 (by norm_num)).1 (hal 112.5 (by norm_num)).2 _ hbase))))
  · obtain ⟨cs, e1, _, e3⟩ := horton_spec hmu db hrho' E
    refine ⟨_, by rw [e1]; exact e3, ?_⟩
    exact hmul _ _ hlex.1 hlex.2 _ (hmul _ _ (hal 12700 (by norm_num)).1 (hal 12700 (by norm_num)).2 _ (hmul _ _ (hal 5000 (by norm_num)).1 (hal 5000 (by norm_num)).2 _
      (hmul _ _ (hal 5000 (by norm_num)).1 (hal 5000 (by norm_num)).2 _ hbase)))

theorem mapM_of {α β : Type} (f : α → Except Exc β) (g : α → β) : ∀ l : List α, (∀ a ∈ l, f a = .ok (g a)) → l.mapM f = .ok (l.map g)
  | [], _ => rfl
  | a :: l, h => by
    rw [List.mapM_cons, h a List.mem_cons_self, mapM_of f g l (fun b hb => h b (List.mem_cons_of_mem _ hb))]
    rfl

/-- C172. The plot of a stack shows at each energy the total efficiency in percent, and that of each component under its name, of which the total is the product. -/
theorem plot_spec (mu : String → ℝ → ℝ → ℝ) (Es : List ℝ) (n : String) {cs : List (Comp String)} (hne : cs ≠ []) (v : Comp String → ℝ → ℝ) (h : ∀ c ∈ cs, ∀ E ∈ Es, eff mu E c = .ok (v c E)) :
    ∃ unit, plotEff mu Es (.stack n cs) = .ok (unit, Es, Es.map (fun E => (cs.map (fun c => v c E)).prod * 100), cs.map (fun c => (c.name, Es.map (fun E => v c E * 100)))) := by
  refine ⟨1000, ?_⟩
  unfold plotEff
  rw [mapM_of (fun E => eff mu E (.stack n cs)) (fun E => (cs.map (fun c => v c E)).prod) Es (fun E hE => by rw [eff_stack mu E n hne, effAll_eq mu E (fun c hc => h c hc E hE)])]
  dsimp only
  rw [mapM_of (fun c : Comp String => (Es.mapM (fun E => eff mu E c)).map (fun y => (c.name, y.map (fun v : ℝ => v * 100)))) (fun c => (c.name, Es.map (fun E => v c E * 100))) cs (fun c hc => by
    rw [mapM_of (fun E => eff mu E c) (fun E => v c E) Es (fun E hE => h c hc E hE)]
    simp [Except.map, Function.comp_def])]
  simp [Function.comp_def]

/-- Disagreement (C172): the energies, given in eV, are shown on an axis in keV. -/
theorem plot_axis_fails (mu : String → ℝ → ℝ → ℝ) (Es : List ℝ) (s : Comp String) {unit : ℝ} {xs tot : List ℝ} {cs : List (String × List ℝ)} (h : plotEff mu Es s = .ok (unit, xs, tot, cs)) (hE : ∃ E ∈ Es, E ≠ 0) :
    xs.map (fun x => x * unit) ≠ Es := by
  have hx : unit = 1000 ∧ xs = Es := by
    unfold plotEff at h
    cases h1 : Es.mapM (fun E => eff mu E s) with
    | error e => rw [h1] at h; cases h
    | ok t =>
      rw [h1] at h
      dsimp only at h
      split at h
      · cases h
      · have h := Except.ok.inj h
        simp only [Prod.mk.injEq] at h
        exact ⟨h.1.symm, h.2.1.symm⟩
  rw [hx.1, hx.2]
  intro hc
  obtain ⟨E, hm, h0⟩ := hE
  obtain ⟨i, hi, he⟩ := List.getElem_of_mem hm
  have h2 : (Es.map (fun x => x * 1000))[i]? = Es[i]? := by rw [hc]
  rw [List.getElem?_map, List.getElem?_eq_getElem hi, Option.map_some, Option.some.injEq, he] at h2
  apply h0
  linarith

/-! ### instance -/

/-- C172, instance: a data base with all densities 1 and attenuation 2 of every element -/
example : ∃ x, (horton ⟨fun _ => 1, [("Al", 0.53), ("O", 0.47)], 4, [("C", 1)], 1⟩).bind (eff (fun _ _ d => d * 2) 5000) = .ok x ∧ 0 ≤ x ∧ x ≤ 1 - exp (-(2 * 1 * (965.5 * 1e-7))) :=
  (instrument_range (kappa := fun _ _ => 2) (by intros; norm_num) _ (by intros; norm_num) (by norm_num) (by intro x hx; simp at hx; rcases hx with rfl | rfl <;> norm_num) (fun _ _ _ => rfl) 5000).2

end Mass.Calc.Instruments
