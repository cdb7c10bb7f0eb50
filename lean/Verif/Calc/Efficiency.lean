import Verif.Py
import Mathlib.Analysis.SpecialFunctions.Exp
import Mathlib.Tactic.Ring
import Mathlib.Tactic.Linarith
import Mathlib.Tactic.NormNum
import Mathlib.Algebra.BigOperators.Group.List.Lemmas
/-! C117: efficiencies of filters and detectors (mass/materials/efficiency_models.py). -/
namespace Mass.Calc.Efficiency
open Real
variable {M : Type}

/-! ### model -/

/-- a fill fraction as the caller writes it (efficiency_models.py L102; uncertainties_helpers.py L10-27): a float or a number with uncertainty, of
which only the nominal value is used here, or an int -/
inductive Fill
  | real (x : ℝ)
  | int (n : Int)

/-- efficiency_models.py L10-13, L83-126: a film, of which the efficiency only uses the triples material, density (g/cm³) and thickness (cm), the
fill fraction and whether it absorbs; or a stack with its components in the order of their insertion, each under its own name -/
inductive Comp (M : Type)
  | film (name : String) (layers : List (M × ℝ × ℝ)) (fill : ℝ) (absorber : Bool)
  | stack (name : String) (comps : List (Comp M))

/-- efficiency_models.py L12 and L98: the name of a component -/
def Comp.name : Comp M → String
  | .film n _ _ _ => n
  | .stack n _ => n

/-- elementwise division of numpy arrays with one dimension: the lengths agree or one of them is 1 (used for efficiency_models.py L120) -/
noncomputable def divide (a d : List ℝ) : Except Exc (List ℝ) :=
  if a.length = d.length then .ok (List.zipWith (· / ·) a d)
  else if a.length = 1 then .ok (d.map (fun x => a.headD 0 / x))
  else if d.length = 1 then .ok (a.map (fun x => x / d.headD 0))
  else .error .value

/-- efficiency_models.py L84-126 `Film.__init__`. `rho0` is the standard density. Scalars are lists of one element (`ndmin=1`). Fill fractions of
type int are refused (uncertainties_helpers.py L26-27), as is an empty list of thicknesses (uncertainties_helpers.py L18). The layers are what the
`zip` of L131 makes of the three lists. Uncertainties are left out. -/
noncomputable def mkFilm (rho0 : M → ℝ) (name : String) (mats : List M) (dens area thick : Option (List ℝ)) (fill : Fill) (absorber : Bool) :
    Except Exc (Comp M) :=
  match fill with
  | .int _ => .error .exception
  | .real phi =>
    let rho := dens.getD (mats.map rho0)
    if mats.length ≠ rho.length then .error .assertion
    else match area, thick with
      | none, none => .error .assertion
      | some _, some _ => .error .assertion
      | none, some t =>
        if t = [] then .error .index
        else .ok (.film name (mats.zip (rho.zip (t.map (fun x => x * 1e-7)))) phi absorber)
      | some a, none => do
        let t ← divide a rho
        if t = [] then .error .index
        else .ok (.film name (mats.zip (rho.zip t)) phi absorber)

/-- efficiency_models.py L129-133: product of the transmittances of the layers; `mu m E d` is `xraydb.material_mu` -/
noncomputable def transmittance (mu : M → ℝ → ℝ → ℝ) (E : ℝ) (layers : List (M × ℝ × ℝ)) : ℝ :=
  (layers.map (fun l => exp (-(mu l.1 E l.2.1 * l.2.2)))).prod

mutual
/-- efficiency_models.py L43-52 and L128-141 `get_efficiency` at one energy (arrays of energies are treated element by element), nominal values.
`np.vstack` of nothing is a ValueError. -/
noncomputable def eff (mu : M → ℝ → ℝ → ℝ) (E : ℝ) : Comp M → Except Exc ℝ
  | .film _ layers phi absorber =>
    match layers with
    | [] => .error .value
    | _ :: _ =>
      .ok (if absorber then (1 - transmittance mu E layers) * phi else transmittance mu E layers * phi + (1 - phi))
  | .stack _ comps =>
    match comps with
    | [] => .error .assertion
    | c :: t => do
      let x ← eff mu E c
      let y ← effAll mu E t
      pure (x * y)
/-- efficiency_models.py L46-48: the product over the components -/
noncomputable def effAll (mu : M → ℝ → ℝ → ℝ) (E : ℝ) : List (Comp M) → Except Exc ℝ
  | [] => .ok 1
  | c :: t => do
    let x ← eff mu E c
    let y ← effAll mu E t
    pure (x * y)
end

/-- efficiency_models.py L15-17 (L23, L29, L37, L41): adding a component to a stack replaces one with the same name in place, otherwise it comes last.
A film is a stack too, but its own efficiency never looks at its components (L128-141). -/
def add (s c : Comp M) : Comp M :=
  match s with
  | .film n l p a => .film n l p a
  | .stack n comps =>
    if comps.any (fun x => x.name == c.name) then .stack n (comps.map (fun x => if x.name == c.name then c else x))
    else .stack n (comps ++ [c])

/-- efficiency_models.py L157-188 `AlFilmWithOxide`: `al` is aluminium, `oxide` the elements of the oxide with their mass fractions, `rhoOx` its
density. The densities given are taken as one number each. -/
noncomputable def alFilmWithOxide (rho0 : M → ℝ) (name : String) (al : M) (oxide : List (M × ℝ)) (rhoOx : ℝ) (tAl : ℝ) (rhoAl : Option ℝ)
    (surfaces : Nat) (dens : Option ℝ) : Except Exc (Comp M) :=
  if surfaces ≠ 1 ∧ surfaces ≠ 2 then .error .assertion
  else
    let rho := dens.getD rhoOx
    mkFilm rho0 name (al :: oxide.map Prod.fst) (some (rhoAl.getD (rho0 al) :: oxide.map (fun x => rho * x.2))) none
      (some (tAl :: List.replicate oxide.length (surfaces * 3))) (.real 1) false

/-- efficiency_models.py L196-239 `AlFilmWithPolymer`: the thickness of the oxide is one number, not one for each of its elements (L216, L236);
`polymer` are the elements of the polymer with their mass fractions -/
noncomputable def alFilmWithPolymer (rho0 : M → ℝ) (name : String) (al : M) (oxide polymer : List (M × ℝ)) (rhoOx rhoPoly : ℝ) (tAl tPoly : ℝ)
    (rhoAl : Option ℝ) (surfaces : Nat) (densOx densPoly : Option ℝ) : Except Exc (Comp M) :=
  if surfaces ≠ 1 ∧ surfaces ≠ 2 then .error .assertion
  else
    let ro := densOx.getD rhoOx
    let rp := densPoly.getD rhoPoly
    mkFilm rho0 name (al :: oxide.map Prod.fst ++ polymer.map Prod.fst)
      (some (rhoAl.getD (rho0 al) :: oxide.map (fun x => ro * x.2) ++ polymer.map (fun x => rp * x.2))) none
      (some (tAl :: (surfaces * 3 : ℝ) :: List.replicate polymer.length tPoly)) (.real 1) false

/-! ### films -/

/-- attenuation is proportional to the density, with the mass attenuation coefficient `kappa` [specification] -/
def MassAtt (mu : M → ℝ → ℝ → ℝ) (kappa : M → ℝ → ℝ) : Prop := ∀ m E d, mu m E d = d * kappa m E

theorem transmittance_exp (mu : M → ℝ → ℝ → ℝ) (E : ℝ) (layers : List (M × ℝ × ℝ)) :
    transmittance mu E layers = exp (-(layers.map (fun l => mu l.1 E l.2.1 * l.2.2)).sum) := by
  unfold transmittance
  induction layers with
  | nil => simp
  | cons l t ih => rw [List.map_cons, List.prod_cons, ih, List.map_cons, List.sum_cons, neg_add, exp_add]

theorem eff_film (mu : M → ℝ → ℝ → ℝ) (E : ℝ) (n : String) {layers : List (M × ℝ × ℝ)} (h : layers ≠ []) (phi : ℝ) (ab : Bool) :
    eff mu E (.film n layers phi ab) =
      .ok (if ab then (1 - transmittance mu E layers) * phi else transmittance mu E layers * phi + (1 - phi)) := by
  cases layers with
  | nil => exact absurd rfl h
  | cons l t => rw [eff]

/-- C117. A film given by thicknesses (one for each material, in nm): a part `phi` of the beam meets it and is attenuated with the sum of density times
thickness times mass attenuation coefficient, the rest passes. -/
theorem film_thickness {mu : M → ℝ → ℝ → ℝ} {kappa : M → ℝ → ℝ} (hmu : MassAtt mu kappa) (rho0 : M → ℝ) (name : String)
    {ls : List (M × ℝ × ℝ)} (hne : ls ≠ []) (phi : ℝ) (E : ℝ) :
    (mkFilm rho0 name (ls.map Prod.fst) (some (ls.map (fun l => l.2.1))) none (some (ls.map (fun l => l.2.2))) (.real phi) false).bind (eff mu E) =
      .ok (exp (-(ls.map (fun l => kappa l.1 E * l.2.1 * (l.2.2 * 1e-7))).sum) * phi + (1 - phi)) := by
  have hz : (ls.map Prod.fst).zip ((ls.map (fun l => l.2.1)).zip ((ls.map (fun l => l.2.2)).map (fun x => x * 1e-7))) =
      ls.map (fun l => (l.1, l.2.1, l.2.2 * 1e-7)) := by
    rw [List.map_map, List.zip_map', List.zip_map']
    rfl
  simp only [mkFilm, Option.getD_some, List.length_map, ne_eq, not_true_eq_false, if_false, List.map_eq_nil_iff, hne, hz]
  dsimp only [Except.bind]
  rw [eff_film mu E name (by simpa using hne), transmittance_exp, List.map_map]
  have : (fun l : M × ℝ × ℝ => mu l.1 E l.2.1 * l.2.2) ∘ (fun l : M × ℝ × ℝ => (l.1, l.2.1, l.2.2 * 1e-7)) =
      fun l : M × ℝ × ℝ => kappa l.1 E * l.2.1 * (l.2.2 * 1e-7) := by
    funext l
    simp only [Function.comp, hmu l.1 E l.2.1]
    ring
  rw [this]
  simp

/-- C117. A film given by areal densities, one for each material: the efficiency does not depend on the densities at all. -/
theorem film_area {mu : M → ℝ → ℝ → ℝ} {kappa : M → ℝ → ℝ} (hmu : MassAtt mu kappa) (rho0 : M → ℝ) (name : String)
    {ls : List (M × ℝ × ℝ)} (hne : ls ≠ []) (hpos : ∀ l ∈ ls, l.2.1 ≠ 0) (phi : ℝ) (E : ℝ) :
    (mkFilm rho0 name (ls.map Prod.fst) (some (ls.map (fun l => l.2.1))) (some (ls.map (fun l => l.2.2))) none (.real phi) false).bind (eff mu E) =
      .ok (exp (-(ls.map (fun l => kappa l.1 E * l.2.2)).sum) * phi + (1 - phi)) := by
  have hd : divide (ls.map (fun l => l.2.2)) (ls.map (fun l => l.2.1)) = .ok (ls.map (fun l => l.2.2 / l.2.1)) := by
    unfold divide
    rw [if_pos (by simp), List.zipWith_map, List.zipWith_self]
  have hz : (ls.map Prod.fst).zip ((ls.map (fun l => l.2.1)).zip (ls.map (fun l => l.2.2 / l.2.1))) =
      ls.map (fun l => (l.1, l.2.1, l.2.2 / l.2.1)) := by
    rw [List.zip_map', List.zip_map']
  simp only [mkFilm, Option.getD_some, List.length_map, ne_eq, not_true_eq_false, if_false, hd, bind, Except.bind, List.map_eq_nil_iff, hne, hz]
  rw [eff_film mu E name (by simpa using hne), transmittance_exp, List.map_map]
  have : ls.map ((fun l : M × ℝ × ℝ => mu l.1 E l.2.1 * l.2.2) ∘ (fun l => (l.1, l.2.1, l.2.2 / l.2.1))) =
      ls.map (fun l => kappa l.1 E * l.2.2) := by
    apply List.map_congr_left
    intro l hl
    simp only [Function.comp, hmu l.1 E l.2.1]
    have := hpos l hl
    field_simp
  rw [this]
  simp

/-- C117. Areal density and thickness: exactly one has to be given; there is one density for each material; a fill fraction of type int is refused. -/
theorem film_refused (rho0 : M → ℝ) (name : String) (mats : List M) (dens area thick : Option (List ℝ)) (fill : Fill) (ab : Bool) {c : Comp M}
    (h : mkFilm rho0 name mats dens area thick fill ab = .ok c) :
    (area.isSome ↔ thick = none) ∧ (∀ d, dens = some d → d.length = mats.length) ∧ ∃ x, fill = .real x := by
  unfold mkFilm at h
  cases fill with
  | int n => simp at h
  | real phi =>
    dsimp only at h
    split at h
    · simp at h
    · rename_i hl
      push Not at hl
      refine ⟨?_, ?_, _, rfl⟩
      · cases area <;> cases thick <;> simp_all
      · rintro d rfl
        exact hl.symm

/-- C117. What a film transmits and what it absorbs add up to the whole beam. -/
theorem film_complement (mu : M → ℝ → ℝ → ℝ) (E : ℝ) (n : String) {layers : List (M × ℝ × ℝ)} (h : layers ≠ []) (phi : ℝ) :
    ∃ x y, eff mu E (.film n layers phi false) = .ok x ∧ eff mu E (.film n layers phi true) = .ok y ∧ x + y = 1 := by
  refine ⟨_, _, eff_film mu E n h phi false, eff_film mu E n h phi true, ?_⟩
  simp
  ring

/-- C117. A thicker film transmits less. -/
theorem thicker {mu : M → ℝ → ℝ → ℝ} (hmu : ∀ m E d, 0 ≤ d → 0 ≤ mu m E d) (E : ℝ) (n n' : String) {ls : List (M × ℝ × ℝ × ℝ)} (hne : ls ≠ [])
    (hd : ∀ l ∈ ls, 0 ≤ l.2.1) (hle : ∀ l ∈ ls, l.2.2.1 ≤ l.2.2.2) {phi : ℝ} (hphi : 0 ≤ phi) :
    ∃ x y, eff mu E (.film n (ls.map (fun l => (l.1, l.2.1, l.2.2.1))) phi false) = .ok x ∧
      eff mu E (.film n' (ls.map (fun l => (l.1, l.2.1, l.2.2.2))) phi false) = .ok y ∧ y ≤ x := by
  refine ⟨_, _, eff_film mu E n (by simpa using hne) phi false, eff_film mu E n' (by simpa using hne) phi false, ?_⟩
  simp only [Bool.false_eq_true, if_false]
  have : transmittance mu E (ls.map (fun l => (l.1, l.2.1, l.2.2.2))) ≤ transmittance mu E (ls.map (fun l => (l.1, l.2.1, l.2.2.1))) := by
    rw [transmittance_exp, transmittance_exp, exp_le_exp, neg_le_neg_iff, List.map_map, List.map_map]
    apply List.sum_le_sum
    intro l hl
    exact mul_le_mul_of_nonneg_left (hle l hl) (hmu _ _ _ (hd l hl))
  have := mul_le_mul_of_nonneg_right this hphi
  linarith

/-! ### stacks -/

theorem eff_stack (mu : M → ℝ → ℝ → ℝ) (E : ℝ) (n : String) {cs : List (Comp M)} (h : cs ≠ []) : eff mu E (.stack n cs) = effAll mu E cs := by
  cases cs with
  | nil => exact absurd rfl h
  | cons c t => rw [eff, effAll]

theorem effAll_eq (mu : M → ℝ → ℝ → ℝ) (E : ℝ) {cs : List (Comp M)} {v : Comp M → ℝ} (h : ∀ c ∈ cs, eff mu E c = .ok (v c)) :
    effAll mu E cs = .ok (cs.map v).prod := by
  induction cs with
  | nil => rw [effAll]; rfl
  | cons c t ih =>
    rw [effAll, h c (by simp), ih (fun x hx => h x (by simp [hx]))]
    simp [bind, Except.bind, pure, Except.pure]

theorem effAll_append (mu : M → ℝ → ℝ → ℝ) (E : ℝ) (a b : List (Comp M)) :
    effAll mu E (a ++ b) = (do let x ← effAll mu E a; let y ← effAll mu E b; pure (x * y)) := by
  induction a with
  | nil =>
    rw [effAll]
    simp only [List.nil_append, bind, Except.bind, pure, Except.pure, one_mul]
    cases effAll mu E b <;> rfl
  | cons c t ih =>
    rw [List.cons_append, effAll, effAll, ih]
    simp only [bind, Except.bind, pure, Except.pure]
    cases eff mu E c with
    | error e => rfl
    | ok x =>
      cases effAll mu E t with
      | error e => rfl
      | ok y =>
        cases effAll mu E b with
        | error e => rfl
        | ok z => simp [mul_assoc]

/-- C117. The efficiency of a stack is the product of the efficiencies of its components, in whatever order they were added. -/
theorem stack_product (mu : M → ℝ → ℝ → ℝ) (E : ℝ) (n n' : String) {cs cs' : List (Comp M)} (hne : cs ≠ []) (hp : cs'.Perm cs) {v : Comp M → ℝ}
    (h : ∀ c ∈ cs, eff mu E c = .ok (v c)) :
    eff mu E (.stack n cs) = .ok (cs.map v).prod ∧ eff mu E (.stack n' cs') = eff mu E (.stack n cs) := by
  have h1 : eff mu E (.stack n cs) = .ok (cs.map v).prod := by rw [eff_stack mu E n hne, effAll_eq mu E h]
  refine ⟨h1, ?_⟩
  have hne' : cs' ≠ [] := by rintro rfl; exact hne (List.nil_perm.1 hp)
  rw [h1, eff_stack mu E n' hne', effAll_eq mu E (fun c hc => h c (hp.subset hc)), (hp.map v).prod_eq]

/-- C117. A stack inside of a stack counts as its components. -/
theorem stack_nested (mu : M → ℝ → ℝ → ℝ) (E : ℝ) (n k : String) (a b : List (Comp M)) {cs : List (Comp M)} (hne : cs ≠ []) :
    eff mu E (.stack n (a ++ .stack k cs :: b)) = eff mu E (.stack n (a ++ cs ++ b)) := by
  rw [eff_stack mu E n (by simp), eff_stack mu E n (by simp [hne]), effAll_append, effAll, eff_stack mu E k hne, effAll_append, effAll_append]
  simp only [bind, Except.bind, pure, Except.pure]
  cases effAll mu E a with
  | error e => rfl
  | ok x =>
    cases effAll mu E cs with
    | error e => rfl
    | ok y =>
      cases effAll mu E b with
      | error e => rfl
      | ok z => simp [mul_assoc]

/-- C117. A stack without components has no efficiency: an AssertionError, also inside of other stacks if everything before it has one. -/
theorem empty_stack (mu : M → ℝ → ℝ → ℝ) (E : ℝ) (n k : String) {a b : List (Comp M)} {v : Comp M → ℝ} (h : ∀ c ∈ a, eff mu E c = .ok (v c)) :
    eff mu E (.stack n (a ++ .stack k [] :: b)) = .error .assertion := by
  rw [eff_stack mu E n (by simp), effAll_append, effAll_eq mu E h, effAll]
  have : eff mu E (.stack k []) = .error .assertion := by rw [eff]
  rw [this]
  rfl

/-- C117. Adding a component with a new name multiplies the efficiency of the stack with that of the component. -/
theorem add_new_partial (mu : M → ℝ → ℝ → ℝ) (E : ℝ) (n : String) {cs : List (Comp M)} (hne : cs ≠ []) {c : Comp M}
    (hnew : c.name ∉ cs.map Comp.name) {x y : ℝ} (hx : eff mu E (.stack n cs) = .ok x) (hy : eff mu E c = .ok y) :
    eff mu E (add (.stack n cs) c) = .ok (x * y) := by
  have : cs.any (fun z => z.name == c.name) = false := by
    rw [Bool.eq_false_iff, Ne, List.any_eq_true]
    rintro ⟨z, hz, he⟩
    exact hnew ((beq_iff_eq.1 he) ▸ List.mem_map_of_mem hz)
  unfold add
  dsimp only
  rw [this, if_neg (by simp), eff_stack mu E n (by simp), effAll_append, ← eff_stack mu E n hne, hx, effAll, hy, effAll]
  simp [bind, Except.bind, pure, Except.pure]

/-- C117. Components are known by their names: what is added is found under its name from then on, everything else as before, and a stack inside has the name it was given. -/
theorem add_by_name (n : String) (cs : List (Comp M)) (c : Comp M) : ∃ cs', add (.stack n cs) c = .stack n cs' ∧
    (∀ m, cs'.find? (fun x => x.name == m) = if m = c.name then some c else cs.find? (fun x => x.name == m)) ∧
    (c.name ∈ cs.map Comp.name → cs'.map Comp.name = cs.map Comp.name) ∧
    ∀ k l (a b : List (Comp M)), add (add (.stack n []) (.stack k a)) (.stack l b) = .stack n (if k = l then [.stack l b] else [.stack k a, .stack l b]) := by
  have hlast : ∀ k l (a b : List (Comp M)), add (add (.stack n []) (.stack k a)) (.stack l b) = .stack n (if k = l then [.stack l b] else [.stack k a, .stack l b]) := by
    intro k l a b
    by_cases h : k = l <;> simp [add, Comp.name, h]
  by_cases h : cs.any (fun x => x.name == c.name) = true
  · refine ⟨cs.map (fun x => if x.name == c.name then c else x), by simp only [add, h, if_true], ?_, ?_, hlast⟩
    · intro m
      split
      · rename_i hm
        subst hm
        clear hlast
        induction cs with
        | nil => cases h
        | cons a t ih =>
          rw [List.map_cons]
          by_cases ha : a.name == c.name
          · simp [ha]
          · rw [List.any_cons, Bool.eq_false_iff.2 ha, Bool.false_or] at h
            rw [if_neg ha, List.find?_cons_of_neg (by simpa using ha)]
            exact ih h
      · rename_i hm
        clear h hlast
        induction cs with
        | nil => rfl
        | cons a t ih =>
          rw [List.map_cons]
          by_cases ha : a.name == c.name
          · have e : a.name = c.name := by simpa using ha
            rw [if_pos ha, List.find?_cons_of_neg (by simpa using fun q => hm q.symm), List.find?_cons_of_neg (by simpa [e] using fun q => hm q.symm), ih]
          · rw [if_neg ha, List.find?_cons, List.find?_cons, ih]
    · intro _
      rw [List.map_map]
      refine List.map_congr_left (fun x _ => ?_)
      dsimp only [Function.comp]
      split
      · rename_i e
        exact (by simpa using e : x.name = c.name).symm
      · rfl
  · refine ⟨cs ++ [c], by simp only [add, h, if_false, Bool.false_eq_true], ?_, ?_, hlast⟩
    · intro m
      have hn : ∀ x ∈ cs, x.name ≠ c.name := fun x hx e => h (List.any_eq_true.2 ⟨x, hx, by simp [e]⟩)
      rw [List.find?_append]
      split
      · rename_i hm
        subst hm
        rw [List.find?_eq_none.2 (fun x hx => by simpa using hn x hx)]
        simp
      · rename_i hm
        rw [List.find?_cons_of_neg (by simpa using fun q => hm q.symm)]
        simp
    · intro hm
      obtain ⟨x, hx, e⟩ := List.mem_map.1 hm
      exact absurd (List.any_eq_true.2 ⟨x, hx, by simp [e]⟩) h

mutual
/-- fill fractions between 0 and 1, no negative density or thickness, and nothing empty, in all parts [specification] -/
def Physical : Comp M → Prop
  | .film _ layers phi _ => layers ≠ [] ∧ 0 ≤ phi ∧ phi ≤ 1 ∧ ∀ l ∈ layers, 0 ≤ l.2.1 ∧ 0 ≤ l.2.2
  | .stack _ comps => comps ≠ [] ∧ AllPhysical comps
/-- all components are [specification] -/
def AllPhysical : List (Comp M) → Prop
  | [] => True
  | c :: t => Physical c ∧ AllPhysical t
end

theorem transmittance_range {mu : M → ℝ → ℝ → ℝ} (hmu : ∀ m E d, 0 ≤ d → 0 ≤ mu m E d) (E : ℝ) {layers : List (M × ℝ × ℝ)}
    (h : ∀ l ∈ layers, 0 ≤ l.2.1 ∧ 0 ≤ l.2.2) : 0 < transmittance mu E layers ∧ transmittance mu E layers ≤ 1 := by
  rw [transmittance_exp]
  refine ⟨exp_pos _, ?_⟩
  rw [exp_le_one_iff, Left.neg_nonpos_iff]
  apply List.sum_nonneg
  intro x hx
  obtain ⟨l, hl, rfl⟩ := List.mem_map.1 hx
  exact mul_nonneg (hmu _ _ _ (h l hl).1) (h l hl).2

mutual
/-- C117. The efficiency of anything built from films with physical properties exists and is between 0 and 1, at every energy. -/
theorem efficiency_range {mu : M → ℝ → ℝ → ℝ} (hmu : ∀ m E d, 0 ≤ d → 0 ≤ mu m E d) (E : ℝ) :
    ∀ c : Comp M, Physical c → ∃ x, eff mu E c = .ok x ∧ 0 ≤ x ∧ x ≤ 1
  | .film n layers phi ab, h => by
    rw [Physical] at h
    obtain ⟨h1, h2, h3, h4⟩ := h
    refine ⟨_, eff_film mu E n h1 phi ab, ?_⟩
    obtain ⟨t1, t2⟩ := transmittance_range hmu E h4
    cases ab
    · simp only [Bool.false_eq_true, if_false]
      constructor
      · have := mul_nonneg t1.le h2
        linarith
      · have := mul_le_mul_of_nonneg_right t2 h2
        linarith
    · simp only [if_true]
      constructor
      · exact mul_nonneg (by linarith) h2
      · have : (1 - transmittance mu E layers) * phi ≤ 1 * 1 := mul_le_mul (by linarith) h3 h2 (by norm_num)
        linarith
  | .stack n comps, h => by
    rw [Physical] at h
    rw [eff_stack mu E n h.1]
    exact efficiency_range_all hmu E comps h.2
theorem efficiency_range_all {mu : M → ℝ → ℝ → ℝ} (hmu : ∀ m E d, 0 ≤ d → 0 ≤ mu m E d) (E : ℝ) :
    ∀ cs : List (Comp M), AllPhysical cs → ∃ x, effAll mu E cs = .ok x ∧ 0 ≤ x ∧ x ≤ 1
  | [], _ => ⟨1, by rw [effAll], by norm_num, by norm_num⟩
  | c :: t, h => by
    rw [AllPhysical] at h
    obtain ⟨x, hx, x0, x1⟩ := efficiency_range hmu E c h.1
    obtain ⟨y, hy, y0, y1⟩ := efficiency_range_all hmu E t h.2
    refine ⟨x * y, ?_, mul_nonneg x0 y0, ?_⟩
    · rw [effAll, hx, hy]; rfl
    · have := mul_le_mul x1 y1 y0 (by norm_num : (0 : ℝ) ≤ 1)
      linarith
end

/-- a model of attenuation for the examples: proportional to the density, and to 1, 2, 3... for materials 1, 2, 3... [specification] -/
def muEx : Nat → ℝ → ℝ → ℝ := fun m _ d => d * m

theorem muEx_att : MassAtt muEx (fun m _ => (m : ℝ)) := fun _ _ _ => rfl

/-- C117, instance: a mesh of two materials covering a fifth of the beam, and a foil -/
example : eff muEx 1000 (.stack "s" [.film "mesh" [(1, 2, 3), (2, 1, 1)] 0.2 false, .film "foil" [(1, 1, 1)] 1 false]) =
    .ok ((exp (-8) * 0.2 + 0.8) * exp (-1)) := by
  simp only [eff, effAll, transmittance, muEx, bind, Except.bind, pure, Except.pure, List.map, List.prod_cons, List.prod_nil]
  rw [show (-8 : ℝ) = -(2 * ((1 : ℕ) : ℝ) * 3) + -(1 * ((2 : ℕ) : ℝ) * 1) by norm_num, exp_add]
  norm_num

/-- Disagreement (C117): one thickness for a film of several materials is accepted, but only the first material counts. (One areal density is taken
for each material.) -/
theorem one_thickness_fails (mu : M → ℝ → ℝ → ℝ) (E : ℝ) (rho0 : M → ℝ) (name : String) (m : M) (rest : List M) (t : ℝ) (phi : ℝ) :
    (mkFilm rho0 name (m :: rest) none none (some [t]) (.real phi) false).bind (eff mu E) =
      (mkFilm rho0 name [m] none none (some [t]) (.real phi) false).bind (eff mu E) := by
  simp [mkFilm]

/-- Disagreement (C117): a component with the name of another one silently takes its place, so that adding the same foil twice is adding it once. -/
theorem same_name_fails (n : String) (c : Comp M) : add (add (.stack n []) c) c = add (.stack n []) c := by
  simp [add]

/-- Disagreement (C117): films are stacks, and components can be added to them, but this does not change their efficiency. -/
theorem film_add_fails (mu : M → ℝ → ℝ → ℝ) (E : ℝ) (n : String) (l : List (M × ℝ × ℝ)) (phi : ℝ) (ab : Bool) (c : Comp M) :
    eff mu E (add (.film n l phi ab) c) = eff mu E (.film n l phi ab) := rfl

/-- Disagreement (C117): a fill fraction of 1 or 0 written as an int is refused. -/
theorem int_fill_fails (rho0 : M → ℝ) (name : String) (mats : List M) (dens area thick : Option (List ℝ)) (n : Int) (ab : Bool) :
    mkFilm rho0 name mats dens area thick (.int n) ab = .error .exception := rfl

/-! ### aluminium films -/

/-- C117. An aluminium film with oxide of 3 nm on one or two surfaces: attenuation by the aluminium and by each element of the oxide with its share of
the density of the oxide. Other numbers of surfaces are refused. -/
theorem oxide_film {mu : M → ℝ → ℝ → ℝ} {kappa : M → ℝ → ℝ} (hmu : MassAtt mu kappa) (rho0 : M → ℝ) (name : String) (al : M)
    (oxide : List (M × ℝ)) (rhoOx tAl : ℝ) (rhoAl dens : Option ℝ) (surfaces : Nat) (E : ℝ) :
    (surfaces = 1 ∨ surfaces = 2 → (alFilmWithOxide rho0 name al oxide rhoOx tAl rhoAl surfaces dens).bind (eff mu E) =
      .ok (exp (-(kappa al E * rhoAl.getD (rho0 al) * (tAl * 1e-7) +
        (oxide.map (fun x => kappa x.1 E * (dens.getD rhoOx * x.2) * (3 * surfaces * 1e-7))).sum)))) ∧
    (surfaces ≠ 1 → surfaces ≠ 2 → alFilmWithOxide rho0 name al oxide rhoOx tAl rhoAl surfaces dens = .error .assertion) := by
  constructor
  · intro hs
    have := film_thickness hmu rho0 name (ls := (al, rhoAl.getD (rho0 al), tAl) :: oxide.map (fun x => (x.1, dens.getD rhoOx * x.2, (surfaces * 3 : ℝ))))
      (by simp) 1 E
    unfold alFilmWithOxide
    rw [if_neg (by omega)]
    dsimp only
    simp only [List.map_cons, List.map_map, Function.comp_def, List.map_const', List.sum_cons] at this
    rw [this]
    congr 1
    rw [mul_one, sub_self, add_zero]
    congr 4
    apply List.map_congr_left
    intro x _
    ring
  · intro h1 h2
    simp [alFilmWithOxide, h1, h2]

/-- Disagreement (C117): for an aluminium film with polymer, the thickness of the oxide is given once although the oxide has two elements. So the
second element of the oxide is taken to be as thick as the polymer, and the last element of the polymer is left out. -/
theorem polymer_fails {mu : M → ℝ → ℝ → ℝ} {kappa : M → ℝ → ℝ} (hmu : MassAtt mu kappa) (rho0 : M → ℝ) (name : String) (al : M)
    (o1 o2 last : M × ℝ) (polymer : List (M × ℝ)) (rhoOx rhoPoly tAl tPoly : ℝ) (rhoAl densOx densPoly : Option ℝ) {surfaces : Nat}
    (hs : surfaces = 1 ∨ surfaces = 2) (E : ℝ) :
    (alFilmWithPolymer rho0 name al [o1, o2] (polymer ++ [last]) rhoOx rhoPoly tAl tPoly rhoAl surfaces densOx densPoly).bind (eff mu E) =
      .ok (exp (-(kappa al E * rhoAl.getD (rho0 al) * (tAl * 1e-7) +
        (kappa o1.1 E * (densOx.getD rhoOx * o1.2) * (3 * surfaces * 1e-7) +
        (kappa o2.1 E * (densOx.getD rhoOx * o2.2) * (tPoly * 1e-7) +
        (polymer.map (fun x => kappa x.1 E * (densPoly.getD rhoPoly * x.2) * (tPoly * 1e-7))).sum))))) := by
  have := film_thickness hmu rho0 name (ls := (al, rhoAl.getD (rho0 al), tAl) :: (o1.1, densOx.getD rhoOx * o1.2, (surfaces * 3 : ℝ)) ::
    (o2.1, densOx.getD rhoOx * o2.2, tPoly) :: polymer.map (fun x => (x.1, densPoly.getD rhoPoly * x.2, tPoly))) (by simp) 1 E
  simp only [List.map_cons, List.map_map, Function.comp_def, List.sum_cons, mul_one, sub_self, add_zero] at this
  rw [show (3 * (surfaces : ℝ)) = surfaces * 3 by ring, ← this]
  unfold alFilmWithPolymer
  rw [if_neg (by omega)]
  dsimp only
  unfold mkFilm
  simp only [Option.getD_some, List.length_cons, List.length_map, List.length_append, List.map_cons, List.map_nil, List.cons_append, List.nil_append,
    List.length_nil]
  congr 1
  simp only [ne_eq, not_true_eq_false, if_false, List.cons_ne_nil, if_false, reduceCtorEq]
  congr 2
  simp only [List.zip_cons_cons, List.cons.injEq, true_and, List.map_append, List.map_replicate, List.map_cons]
  have hr : List.replicate (polymer.length + (0 + 1)) (tPoly * 1e-7) = (tPoly * 1e-7) :: polymer.map (fun _ => tPoly * 1e-7) := by
    rw [List.map_const']
    rfl
  simp only [hr, List.zip_cons_cons, List.cons.injEq, true_and, List.map_map]
  have hz : ∀ (a : List M) (b c : List ℝ), a.length = c.length → b.length = c.length → ∀ (x : M) (y : ℝ),
      (a ++ [x]).zip ((b ++ [y]).zip c) = a.zip (b.zip c) := by
    intro a
    induction a with
    | nil =>
      intro b c h1 h2 x y
      have : c = [] := List.length_eq_zero_iff.1 h1.symm
      subst this
      simp
    | cons a0 a ih =>
      intro b c h1 h2 x y
      cases c with
      | nil => simp at h1
      | cons c0 c =>
        cases b with
        | nil => simp at h2
        | cons b0 b =>
          simp only [List.cons_append, List.zip_cons_cons]
          rw [ih b c (by simpa using h1) (by simpa using h2)]
  simp only [Function.comp_def]
  exact hz _ _ _ (by simp) (by simp) _ _

/-- C117, instance: an aluminium film (material 13) with sapphire on both surfaces -/
example : (alFilmWithOxide (fun _ => 2.7) "50K" 13 [(13, 0.53), (8, 0.47)] 4 100 none 2 none).bind (eff muEx 5000) =
    .ok (exp (-(13 * 2.7 * (100 * 1e-7) + (13 * (4 * 0.53) * (3 * 2 * 1e-7) + (8 * (4 * 0.47) * (3 * 2 * 1e-7) + 0))))) := by
  have := (oxide_film muEx_att (fun _ => 2.7) "50K" 13 [(13, 0.53), (8, 0.47)] 4 100 none none 2 5000).1 (.inr rfl)
  simpa using this

end Mass.Calc.Efficiency
