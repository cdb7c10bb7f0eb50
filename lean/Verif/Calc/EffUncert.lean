import Verif.Calc.Efficiency
import Mathlib.Analysis.SpecialFunctions.ExpDeriv
import Mathlib.Analysis.Calculus.Deriv.Mul
import Mathlib.Analysis.Calculus.Deriv.Add
import Mathlib.Analysis.SpecialFunctions.Sqrt
import Mathlib.Algebra.BigOperators.Field
import Mathlib.Tactic.FieldSimp
import Mathlib.Tactic.FinCases
/-! C164: uncertainties of efficiencies (mass/materials/efficiency_models.py with `uncertain=True`, mass/materials/uncertainties_helpers.py). -/
namespace Mass.Calc.EffUncert
open Real Mass.Calc.Efficiency
variable {M S : Type} [Fintype S] [DecidableEq S]

/-! ### model -/

/-- A number with uncertainty as the package `uncertainties` keeps it: nominal value and, for each independent source of error, the derivative with
respect to the source times the standard deviation of the source (used for uncertainties_helpers.py L19-25, efficiency_models.py L128-141) -/
structure UF (S : Type) where
  v : ℝ
  d : S → ℝ

/-- the attribute `std_dev` of a number with uncertainty: the contributions of the sources added in quadrature (the package `uncertainties`, used for
efficiency_models.py L49-52) -/
noncomputable def UF.std (u : UF S) : ℝ := √(∑ s, u.d s ^ 2)

/-- a float in a sum or a product with numbers with uncertainty (used for efficiency_models.py L135-137) -/
def UF.exact (x : ℝ) : UF S := ⟨x, fun _ => 0⟩

/-- a new independent number with the given standard deviation, `ufloat(x, sigma)` (used for uncertainties_helpers.py L23 and L32) -/
def UF.fresh (s : S) (x sigma : ℝ) : UF S := ⟨x, Pi.single s sigma⟩

/-- a float times a number with uncertainty (used for efficiency_models.py L130) -/
def UF.scale (a : ℝ) (u : UF S) : UF S := ⟨a * u.v, fun s => a * u.d s⟩

/-- the product of two numbers with uncertainty (used for efficiency_models.py L48 and L133) -/
def UF.mul (a b : UF S) : UF S := ⟨a.v * b.v, fun s => a.d s * b.v + a.v * b.d s⟩

/-- the sum of two numbers with uncertainty (used for efficiency_models.py L137) -/
def UF.add (a b : UF S) : UF S := ⟨a.v + b.v, fun s => a.d s + b.d s⟩

/-- `1.0 - u` (used for efficiency_models.py L135 and L137) -/
def UF.oneSub (u : UF S) : UF S := ⟨1 - u.v, fun s => -u.d s⟩

/-- `unp.exp(-u)` (efficiency_models.py L132) -/
noncomputable def UF.expNeg (u : UF S) : UF S := ⟨exp (-u.v), fun s => -(exp (-u.v) * u.d s)⟩

/-- `np.prod` of numbers with uncertainty (efficiency_models.py L48 and L133) -/
def UF.prod : List (UF S) → UF S
  | [] => UF.exact 1
  | u :: t => UF.mul u (UF.prod t)

/-- efficiency_models.py L10-13, L83-126: films and stacks, with uncertainties of thicknesses and fill fraction -/
inductive UComp (M S : Type)
  | film (name : String) (layers : List (M × ℝ × UF S)) (fill : UF S) (absorber : Bool)
  | stack (name : String) (comps : List (UComp M S))

/-- efficiency_models.py L129-133: the transmittance with its uncertainty -/
noncomputable def transU (mu : M → ℝ → ℝ → ℝ) (E : ℝ) (layers : List (M × ℝ × UF S)) : UF S :=
  UF.prod (layers.map (fun l => UF.expNeg (UF.scale (mu l.1 E l.2.1) l.2.2)))

mutual
/-- efficiency_models.py L43-52 and L128-141 `get_efficiency(…, uncertain=True)` at one energy -/
noncomputable def effU (mu : M → ℝ → ℝ → ℝ) (E : ℝ) : UComp M S → Except Exc (UF S)
  | .film _ layers phi absorber =>
    match layers with
    | [] => .error .value
    | _ :: _ =>
      .ok (if absorber then UF.mul (UF.oneSub (transU mu E layers)) phi
        else UF.add (UF.mul (transU mu E layers) phi) (UF.oneSub phi))
  | .stack _ comps =>
    match comps with
    | [] => .error .assertion
    | c :: t => do
      let x ← effU mu E c
      let y ← effUAll mu E t
      pure (UF.mul x y)
/-- efficiency_models.py L46-48: the product over the components -/
noncomputable def effUAll (mu : M → ℝ → ℝ → ℝ) (E : ℝ) : List (UComp M S) → Except Exc (UF S)
  | [] => .ok (UF.exact 1)
  | c :: t => do
    let x ← effU mu E c
    let y ← effUAll mu E t
    pure (UF.mul x y)
end

/-- a number as a caller writes it, or as it stands in an array: a float, or a number with uncertainty (uncertainties_helpers.py L10-27). Ints are
C117's. -/
inductive Num (S : Type)
  | fl (x : ℝ)
  | uf (u : UF S)

/-- the nominal value [specification] -/
def Num.v : Num S → ℝ
  | .fl x => x
  | .uf u => u.v

/-- multiplication by a float (used for efficiency_models.py L117 and L120) -/
def Num.scale (a : ℝ) : Num S → Num S
  | .fl x => .fl (a * x)
  | .uf u => .uf (UF.scale a u)

/-- what a number in an array counts as when it is multiplied with others (used for efficiency_models.py L130) -/
def Num.val : Num S → UF S
  | .fl x => UF.exact x
  | .uf u => u

/-- uncertainties_helpers.py L22-25 `ensure_uncertain` of a scalar; `s` names the new source. A negative standard deviation is refused by the package. -/
noncomputable def ensure (s : S) : Num S → Except Exc (UF S)
  | .fl x => if x < 0 then .error .exception else .ok (UF.fresh s x x)
  | .uf u => .ok u

/-- `unp.uarray(x, x)` with new sources `s i` (uncertainties_helpers.py L21): numbers with uncertainty cannot be made floats (TypeError) -/
noncomputable def uarray (s : ℕ → S) : List (Num S) → Except Exc (List (UF S))
  | [] => .ok []
  | .uf _ :: _ => .error .type
  | .fl x :: t =>
    if x < 0 then .error .exception
    else match uarray (fun i => s (i + 1)) t with
      | .error e => .error e
      | .ok r => .ok (UF.fresh (s 0) x x :: r)

/-- uncertainties_helpers.py L17-21 `ensure_uncertain` of an array: only the first element is looked at -/
noncomputable def ensureArr (s : ℕ → S) : List (Num S) → Except Exc (List (UF S))
  | [] => .error .index
  | .uf u :: t => .ok (u :: t.map Num.val)
  | .fl x :: t => uarray s (.fl x :: t)

/-- uncertainties_helpers.py L30-36 `with_fractional_uncertainty` of a float -/
noncomputable def withFraction (s : S) (x r : ℝ) : Except Exc (UF S) :=
  if x * r < 0 then .error .exception else .ok (UF.fresh s x (x * r))

/-- efficiency_models.py L84-126 `Film.__init__` with thicknesses (nm) and one density for each material; `s` and `f` name the sources made by
`ensure_uncertain` for the thicknesses and the fill fraction -/
noncomputable def filmT (s : ℕ → S) (f : S) (name : String) (mats : List M) (rho : List ℝ) (t : List (Num S)) (fill : Num S) (absorber : Bool) :
    Except Exc (UComp M S) :=
  match ensure f fill with
  | .error e => .error e
  | .ok phi =>
    if mats.length ≠ rho.length then .error .assertion
    else match ensureArr s (t.map (Num.scale 1e-7)) with
      | .error e => .error e
      | .ok ts => .ok (.film name (mats.zip (rho.zip ts)) phi absorber)

/-- efficiency_models.py L84-126 `Film.__init__` with areal densities (g/cm²), one and one density for each material (other lengths are C117's) -/
noncomputable def filmA (s : ℕ → S) (f : S) (name : String) (mats : List M) (rho : List ℝ) (a : List (Num S)) (fill : Num S) (absorber : Bool) :
    Except Exc (UComp M S) :=
  match ensure f fill with
  | .error e => .error e
  | .ok phi =>
    if mats.length ≠ rho.length ∨ a.length ≠ rho.length then .error .assertion
    else match ensureArr s (List.zipWith (fun x r => Num.scale (1 / r) x) a rho) with
      | .error e => .error e
      | .ok ts => .ok (.film name (mats.zip (rho.zip ts)) phi absorber)

/-- efficiency_models.py L19-23 `add_Film` without a fill fraction: the film it makes, of which the fill fraction is `ufloat(1, 0)` -/
noncomputable def addFilm (s : ℕ → S) (f : S) (name : String) (mats : List M) (rho : List ℝ) (t : List (Num S)) (absorber : Bool) :
    Except Exc (UComp M S) :=
  filmT s f name mats rho t (.uf (UF.exact 1)) absorber

/-- efficiency_models.py L157-188 `AlFilmWithOxide`: the fill fraction is the default of `Film`, the float 1.0 (L85). `rhos` are the densities of the
elements of the oxide in it. -/
noncomputable def alOxide (s : ℕ → S) (f : S) (name : String) (al : M) (rhoAl : ℝ) (oxide : List (M × ℝ)) (tAl : Num S) (surfaces : ℕ) :
    Except Exc (UComp M S) :=
  if surfaces ≠ 1 ∧ surfaces ≠ 2 then .error .assertion
  else filmT s f name (al :: oxide.map Prod.fst) (rhoAl :: oxide.map Prod.snd) (tAl :: List.replicate oxide.length (.fl (surfaces * 3))) (.fl 1) false

/-! ### what the uncertainty means -/

/-- the number when each source `s` is off by `xi s` standard deviations, to first order [specification] -/
def UF.lin (u : UF S) (xi : S → ℝ) : ℝ := u.v + ∑ s, u.d s * xi s

mutual
/-- the film or stack when each source is off by `xi s` standard deviations [specification] -/
def UComp.off (xi : S → ℝ) : UComp M S → Comp M
  | .film n layers phi ab => .film n (layers.map (fun l => (l.1, l.2.1, l.2.2.lin xi))) (phi.lin xi) ab
  | .stack n comps => .stack n (UComp.offAll xi comps)
/-- all components [specification] -/
def UComp.offAll (xi : S → ℝ) : List (UComp M S) → List (Comp M)
  | [] => []
  | c :: t => UComp.off xi c :: UComp.offAll xi t
end

theorem lin_single (u : UF S) (s : S) (z : ℝ) : u.lin (Pi.single s z) = u.v + u.d s * z := by
  unfold UF.lin
  rw [Finset.sum_eq_single s]
  · rw [Pi.single_eq_same]
  · intro b _ hb
    rw [Pi.single_eq_of_ne hb, mul_zero]
  · intro h
    exact absurd (Finset.mem_univ s) h

theorem lin_zero (u : UF S) : u.lin 0 = u.v := by
  simp [UF.lin]

theorem transU_v (mu : M → ℝ → ℝ → ℝ) (E : ℝ) (layers : List (M × ℝ × UF S)) :
    (transU mu E layers).v = transmittance mu E (layers.map (fun l => (l.1, l.2.1, l.2.2.v))) := by
  unfold transU transmittance
  induction layers with
  | nil => rfl
  | cons l t ih =>
    simp only [List.map_cons, List.prod_cons]
    rw [← ih]
    rfl

theorem transU_d (mu : M → ℝ → ℝ → ℝ) (E : ℝ) (layers : List (M × ℝ × UF S)) (s : S) :
    (transU mu E layers).d s = -((transU mu E layers).v * (layers.map (fun l => mu l.1 E l.2.1 * l.2.2.d s)).sum) := by
  unfold transU
  induction layers with
  | nil => simp [UF.prod, UF.exact]
  | cons l t ih =>
    simp only [List.map_cons, UF.prod, UF.mul, UF.expNeg, UF.scale, List.sum_cons] at ih ⊢
    rw [ih]
    ring

theorem trans_deriv (mu : M → ℝ → ℝ → ℝ) (E : ℝ) (layers : List (M × ℝ × UF S)) (s : S) :
    HasDerivAt (fun z => transmittance mu E (layers.map (fun l => (l.1, l.2.1, l.2.2.lin (Pi.single s z))))) ((transU mu E layers).d s) 0 := by
  have e : (fun z : ℝ => transmittance mu E (layers.map (fun l => (l.1, l.2.1, l.2.2.lin (Pi.single s z))))) =
      fun z => exp (-((layers.map (fun l => mu l.1 E l.2.1 * l.2.2.v)).sum + (layers.map (fun l => mu l.1 E l.2.1 * l.2.2.d s)).sum * z)) := by
    funext z
    rw [transmittance_exp, List.map_map]
    congr 2
    induction layers with
    | nil => simp
    | cons l t ih =>
      rw [List.map_cons, List.map_cons, List.map_cons, List.sum_cons, List.sum_cons, List.sum_cons, ih]
      simp only [Function.comp, lin_single]
      ring
  rw [e, transU_d, transU_v, transmittance_exp, List.map_map]
  have h1 : HasDerivAt (fun z : ℝ => -((layers.map (fun l => mu l.1 E l.2.1 * l.2.2.v)).sum +
      (layers.map (fun l => mu l.1 E l.2.1 * l.2.2.d s)).sum * z)) (-((layers.map (fun l => mu l.1 E l.2.1 * l.2.2.d s)).sum * 1)) 0 :=
    (((hasDerivAt_id (0 : ℝ)).const_mul _).const_add _).neg
  have h2 := h1.exp
  convert h2 using 1
  rw [mul_zero, add_zero, mul_one, mul_neg]
  rfl

theorem lin_deriv (u : UF S) (s : S) : HasDerivAt (fun z => u.lin (Pi.single s z)) (u.d s) 0 := by
  have e : (fun z : ℝ => u.lin (Pi.single s z)) = fun z => u.v + u.d s * z := funext (lin_single u s)
  rw [e]
  simpa using ((hasDerivAt_id (0 : ℝ)).const_mul (u.d s)).const_add u.v

/-- `F`, the efficiency for each error of the sources, has nominal value and contributions `u` at no error [specification] -/
def FirstOrder (F : (S → ℝ) → ℝ) (u : UF S) : Prop := u.v = F 0 ∧ ∀ s, HasDerivAt (fun z => F (Pi.single s z)) (u.d s) 0

theorem FirstOrder.mul {F G : (S → ℝ) → ℝ} {u w : UF S} (hF : FirstOrder F u) (hG : FirstOrder G w) :
    FirstOrder (fun xi => F xi * G xi) (UF.mul u w) := by
  refine ⟨by rw [UF.mul, hF.1, hG.1], fun s => ?_⟩
  have h := (hF.2 s).mul (hG.2 s)
  rw [Pi.single_zero] at h
  show HasDerivAt _ (u.d s * w.v + u.v * w.d s) 0
  rw [hF.1, hG.1]
  exact h

mutual
/-- C164. The result with uncertainties of any film or any nested stack, whatever its sources of error have in common: the nominal value is the
efficiency (of C117), and what each source contributes to the uncertainty is the derivative of the efficiency with respect to that source, times
the standard deviation of the source. There is a result exactly if there is one without uncertainties. -/
theorem first_order (mu : M → ℝ → ℝ → ℝ) (E : ℝ) :
    ∀ c : UComp M S, (∃ e, effU mu E c = .error e ∧ ∀ xi, eff mu E (c.off xi) = .error e) ∨
      ∃ u F, effU mu E c = .ok u ∧ (∀ xi, eff mu E (c.off xi) = .ok (F xi)) ∧ FirstOrder F u
  | .film n [] phi ab => by
    refine .inl ⟨.value, by rw [effU], fun xi => ?_⟩
    rw [UComp.off, List.map_nil, eff]
  | .film n (l :: t) phi ab => by
    right
    refine ⟨_, fun xi => if ab then (1 - transmittance mu E ((l :: t).map (fun l => (l.1, l.2.1, l.2.2.lin xi)))) * phi.lin xi
      else transmittance mu E ((l :: t).map (fun l => (l.1, l.2.1, l.2.2.lin xi))) * phi.lin xi + (1 - phi.lin xi), by rw [effU], fun xi => ?_, ?_, fun s => ?_⟩
    · rw [UComp.off, eff_film mu E n (by simp)]
    · simp only [lin_zero, ← transU_v]
      cases ab <;> simp [UF.add, UF.mul, UF.oneSub]
    · have h1 := trans_deriv mu E (l :: t) s
      have h2 := lin_deriv phi s
      cases ab
      · simp only [Bool.false_eq_true, if_false]
        have h := (h1.mul h2).add (h2.const_sub 1)
        simp only [Pi.single_zero, lin_zero] at h
        simp only [UF.add, UF.mul, UF.oneSub, transU_v]
        exact h
      · simp only [if_true]
        have h := (h1.const_sub 1).mul h2
        simp only [Pi.single_zero, lin_zero] at h
        simp only [UF.mul, UF.oneSub, transU_v]
        exact h
  | .stack n [] => by
    refine .inl ⟨.assertion, by rw [effU], fun xi => ?_⟩
    rw [UComp.off, UComp.offAll, eff]
  | .stack n (c :: t) => by
    rcases first_order_all mu E (c :: t) with ⟨e, h1, h2⟩ | ⟨u, F, h1, h2, h3⟩
    · refine .inl ⟨e, ?_, fun xi => ?_⟩
      · rw [effU, ← h1, effUAll]
      · rw [UComp.off, eff_stack mu E n (by simp [UComp.offAll])]
        exact h2 xi
    · refine .inr ⟨u, F, ?_, fun xi => ?_, h3⟩
      · rw [effU, ← h1, effUAll]
      · rw [UComp.off, eff_stack mu E n (by simp [UComp.offAll])]
        exact h2 xi
theorem first_order_all (mu : M → ℝ → ℝ → ℝ) (E : ℝ) :
    ∀ cs : List (UComp M S), (∃ e, effUAll mu E cs = .error e ∧ ∀ xi, effAll mu E (UComp.offAll xi cs) = .error e) ∨
      ∃ u F, effUAll mu E cs = .ok u ∧ (∀ xi, effAll mu E (UComp.offAll xi cs) = .ok (F xi)) ∧ FirstOrder F u
  | [] => by
    refine .inr ⟨UF.exact 1, fun _ => 1, by rw [effUAll], fun xi => by rw [UComp.offAll, effAll], rfl, fun s => ?_⟩
    exact hasDerivAt_const _ _
  | c :: t => by
    rcases first_order mu E c with ⟨e, h1, h2⟩ | ⟨u, F, h1, h2, h3⟩
    · refine .inl ⟨e, ?_, fun xi => ?_⟩
      · rw [effUAll, h1]; rfl
      · rw [UComp.offAll, effAll, h2 xi]; rfl
    · rcases first_order_all mu E t with ⟨e, k1, k2⟩ | ⟨w, G, k1, k2, k3⟩
      · refine .inl ⟨e, ?_, fun xi => ?_⟩
        · rw [effUAll, h1, k1]; rfl
        · rw [UComp.offAll, effAll, h2 xi, k2 xi]; rfl
      · refine .inr ⟨UF.mul u w, fun xi => F xi * G xi, ?_, fun xi => ?_, h3.mul k3⟩
        · rw [effUAll, h1, k1]; rfl
        · rw [UComp.offAll, effAll, h2 xi, k2 xi]; rfl
end

/-- C164. `get_efficiency(E, uncertain=True)`: if `F` is the efficiency as a function of the errors of all sources (in standard deviations), the nominal
value is that without errors, and the standard deviation is that of first-order propagation of independent errors. -/
theorem efficiency_std {mu : M → ℝ → ℝ → ℝ} {E : ℝ} {c : UComp M S} {F : (S → ℝ) → ℝ} (hF : ∀ xi, eff mu E (c.off xi) = .ok (F xi)) :
    ∃ u, effU mu E c = .ok u ∧ u.v = F 0 ∧ u.std = √(∑ s, deriv (fun z => F (Pi.single s z)) 0 ^ 2) := by
  rcases first_order mu E c with ⟨e, _, h2⟩ | ⟨u, G, h1, h2, h3⟩
  · have := (hF 0).symm.trans (h2 0)
    cases this
  · have e : F = G := by
      funext xi
      exact Except.ok.inj ((hF xi).symm.trans (h2 xi))
    subst e
    refine ⟨u, h1, h3.1, ?_⟩
    unfold UF.std
    congr 1
    refine Finset.sum_congr rfl fun s _ => ?_
    rw [(h3.2 s).deriv]

/-! ### stacks -/

/-- no source contributes to both [specification] -/
def Apart (a b : UF S) : Prop := ∀ s, a.d s = 0 ∨ b.d s = 0

omit [DecidableEq S] in
theorem std_sq (u : UF S) : u.std ^ 2 = ∑ s, u.d s ^ 2 := sq_sqrt (Finset.sum_nonneg fun s _ => sq_nonneg _)

omit [DecidableEq S] in
theorem mul_relative {a b : UF S} (h : Apart a b) (ha : a.v ≠ 0) (hb : b.v ≠ 0) :
    ((UF.mul a b).std / (UF.mul a b).v) ^ 2 = (a.std / a.v) ^ 2 + (b.std / b.v) ^ 2 := by
  have h1 : (UF.mul a b).std ^ 2 = b.v ^ 2 * a.std ^ 2 + a.v ^ 2 * b.std ^ 2 := by
    rw [std_sq, std_sq, std_sq, Finset.mul_sum, Finset.mul_sum, ← Finset.sum_add_distrib]
    refine Finset.sum_congr rfl fun s _ => ?_
    show (a.d s * b.v + a.v * b.d s) ^ 2 = _
    rcases h s with h | h <;> rw [h] <;> ring
  rw [div_pow, h1]
  show _ / (a.v * b.v) ^ 2 = _
  field_simp

omit [Fintype S] [DecidableEq S] in
theorem prod_apart {a : UF S} {us : List (UF S)} (h : ∀ b ∈ us, Apart a b) : Apart a (UF.prod us) := by
  induction us with
  | nil => exact fun s => .inr rfl
  | cons b t ih =>
    intro s
    rcases h b (by simp) s with hb | hb
    · exact .inl hb
    · rcases ih (fun x hx => h x (by simp [hx])) s with ht | ht
      · exact .inl ht
      · right
        show b.d s * (UF.prod t).v + b.v * (UF.prod t).d s = 0
        rw [hb, ht]
        ring

omit [Fintype S] [DecidableEq S] in
theorem prod_ne {us : List (UF S)} (h : ∀ b ∈ us, b.v ≠ 0) : (UF.prod us).v ≠ 0 := by
  induction us with
  | nil => exact one_ne_zero
  | cons b t ih => exact mul_ne_zero (h b (by simp)) (ih fun x hx => h x (by simp [hx]))

omit [DecidableEq S] in
theorem prod_relative {us : List (UF S)} (h : us.Pairwise Apart) (hv : ∀ b ∈ us, b.v ≠ 0) :
    ((UF.prod us).std / (UF.prod us).v) ^ 2 = (us.map (fun u => (u.std / u.v) ^ 2)).sum := by
  induction us with
  | nil => simp [UF.prod, UF.exact, UF.std]
  | cons b t ih =>
    rw [List.pairwise_cons] at h
    rw [UF.prod, mul_relative (prod_apart h.1) (hv b (by simp)) (prod_ne fun x hx => hv x (by simp [hx])),
      ih h.2 (fun x hx => hv x (by simp [hx]))]
    simp

omit [Fintype S] [DecidableEq S] in
theorem effUAll_prod (mu : M → ℝ → ℝ → ℝ) (E : ℝ) {cs : List (UComp M S)} {us : List (UF S)}
    (h : List.Forall₂ (fun c u => effU mu E c = .ok u) cs us) : effUAll mu E cs = .ok (UF.prod us) := by
  induction h with
  | nil => rw [effUAll]; rfl
  | cons h _ ih => rw [effUAll, h, ih]; rfl

/-- C164. A stack whose components have no source of error in common: the squares of the relative uncertainties add up. -/
theorem stack_relative (mu : M → ℝ → ℝ → ℝ) (E : ℝ) (n : String) {cs : List (UComp M S)} {us : List (UF S)} (hne : cs ≠ [])
    (h : List.Forall₂ (fun c u => effU mu E c = .ok u) cs us) (hp : us.Pairwise Apart) (hv : ∀ b ∈ us, b.v ≠ 0) :
    ∃ u, effU mu E (.stack n cs) = .ok u ∧ u.v = (us.map UF.v).prod ∧ (u.std / u.v) ^ 2 = (us.map (fun u => (u.std / u.v) ^ 2)).sum := by
  refine ⟨UF.prod us, ?_, ?_, prod_relative hp hv⟩
  · cases cs with
    | nil => exact absurd rfl hne
    | cons c t =>
      rw [← effUAll_prod mu E h, effU, effUAll]
  · clear hp hv h
    induction us with
    | nil => rfl
    | cons b t ih =>
      rw [List.map_cons, List.prod_cons, ← ih]
      rfl

/-! ### films -/

omit [DecidableEq S] in
theorem std_nonneg (u : UF S) : 0 ≤ u.std := sqrt_nonneg _

omit [DecidableEq S] in
theorem std_scale (a : ℝ) (u : UF S) : (UF.scale a u).std ^ 2 = (a * u.std) ^ 2 := by
  rw [mul_pow, std_sq, std_sq, Finset.mul_sum]
  exact Finset.sum_congr rfl fun s _ => mul_pow _ _ _

omit [DecidableEq S] in
theorem std_expNeg (u : UF S) : ((UF.expNeg u).std / (UF.expNeg u).v) ^ 2 = u.std ^ 2 := by
  rw [div_pow, std_sq, std_sq, Finset.sum_div]
  refine Finset.sum_congr rfl fun s _ => ?_
  show (-(exp (-u.v) * u.d s)) ^ 2 / exp (-u.v) ^ 2 = _
  have := (exp_pos (-u.v)).ne'
  field_simp

theorem std_fresh (s : S) (x sigma : ℝ) : (UF.fresh s x sigma).std ^ 2 = sigma ^ 2 := by
  rw [std_sq, Finset.sum_eq_single s]
  · show (Pi.single s sigma : S → ℝ) s ^ 2 = _
    rw [Pi.single_eq_same]
  · intro b _ hb
    show (Pi.single s sigma : S → ℝ) b ^ 2 = _
    rw [Pi.single_eq_of_ne hb]
    norm_num
  · intro h
    exact absurd (Finset.mem_univ s) h

theorem trans_relative (mu : M → ℝ → ℝ → ℝ) (E : ℝ) {layers : List (M × ℝ × UF S)} (h : layers.Pairwise (fun a b => Apart a.2.2 b.2.2)) :
    (transU mu E layers).std ^ 2 = (transU mu E layers).v ^ 2 * (layers.map (fun l => (mu l.1 E l.2.1 * l.2.2.std) ^ 2)).sum ∧ 0 < (transU mu E layers).v := by
  have hv : 0 < (transU mu E layers).v := by
    rw [transU_v, transmittance_exp]
    exact exp_pos _
  have hp : (layers.map (fun l => UF.expNeg (UF.scale (mu l.1 E l.2.1) l.2.2))).Pairwise Apart := by
    rw [List.pairwise_map]
    refine h.imp fun {a b} hab s => ?_
    rcases hab s with k | k
    · left
      show -(_ * (_ * a.2.2.d s)) = 0
      rw [k]; ring
    · right
      show -(_ * (_ * b.2.2.d s)) = 0
      rw [k]; ring
  have h1 := prod_relative hp (by
    intro b hb
    obtain ⟨l, _, rfl⟩ := List.mem_map.1 hb
    exact (exp_pos _).ne')
  rw [List.map_map] at h1
  have h2 : ((transU mu E layers).std / (transU mu E layers).v) ^ 2 = (layers.map (fun l => (mu l.1 E l.2.1 * l.2.2.std) ^ 2)).sum := by
    refine h1.trans ?_
    congr 1
    refine List.map_congr_left fun l _ => ?_
    simp only [Function.comp]
    rw [std_expNeg, std_scale]
  refine ⟨?_, hv⟩
  rw [← h2, div_pow]
  field_simp

/-- C164. A film whose thicknesses and fill fraction have separate sources of error, passing or absorbing: the uncertainty of the thicknesses counts
with the part of the beam that gets through, that of the fill fraction with the part that does not. -/
theorem film_std (mu : M → ℝ → ℝ → ℝ) (E : ℝ) (n : String) {layers : List (M × ℝ × UF S)} {phi : UF S} (ab : Bool) (hne : layers ≠ [])
    (h : layers.Pairwise (fun a b => Apart a.2.2 b.2.2)) (hphi : ∀ l ∈ layers, Apart l.2.2 phi) :
    ∃ u, effU mu E (.film n layers phi ab) = .ok u ∧ ∃ T, T = transmittance mu E (layers.map (fun l => (l.1, l.2.1, l.2.2.v))) ∧
      u.v = (if ab then (1 - T) * phi.v else T * phi.v + (1 - phi.v)) ∧
      u.std ^ 2 = (T * phi.v) ^ 2 * (layers.map (fun l => (mu l.1 E l.2.1 * l.2.2.std) ^ 2)).sum + ((1 - T) * phi.std) ^ 2 := by
  obtain ⟨h1, h2⟩ := trans_relative mu E h
  have hT : Apart (transU mu E layers) phi := by
    intro s
    rw [transU_d]
    by_cases hs : phi.d s = 0
    · exact .inr hs
    · left
      have : (layers.map (fun l => mu l.1 E l.2.1 * l.2.2.d s)).sum = 0 := by
        apply List.sum_eq_zero
        intro x hx
        obtain ⟨l, hl, rfl⟩ := List.mem_map.1 hx
        rcases hphi l hl s with k | k
        · rw [k, mul_zero]
        · exact absurd k hs
      rw [this, mul_zero, neg_zero]
  have key : ∀ u : UF S, (∀ s, u.d s ^ 2 = phi.v ^ 2 * (transU mu E layers).d s ^ 2 + (1 - (transU mu E layers).v) ^ 2 * phi.d s ^ 2) →
      u.std ^ 2 = ((transU mu E layers).v * phi.v) ^ 2 * (layers.map (fun l => (mu l.1 E l.2.1 * l.2.2.std) ^ 2)).sum +
        ((1 - (transU mu E layers).v) * phi.std) ^ 2 := by
    intro u hu
    rw [std_sq, Finset.sum_congr rfl (fun s _ => hu s), Finset.sum_add_distrib, ← Finset.mul_sum, ← Finset.mul_sum, ← std_sq, ← std_sq, h1]
    ring
  cases layers with
  | nil => exact absurd rfl hne
  | cons l t =>
    refine ⟨_, by rw [effU], (transU mu E (l :: t)).v, transU_v mu E _, ?_, key _ fun s => ?_⟩
    · cases ab <;> rfl
    · cases ab
      · show ((transU mu E (l :: t)).d s * phi.v + (transU mu E (l :: t)).v * phi.d s + -phi.d s) ^ 2 = _
        rcases hT s with k | k <;> rw [k] <;> ring
      · show (-(transU mu E (l :: t)).d s * phi.v + (1 - (transU mu E (l :: t)).v) * phi.d s) ^ 2 = _
        rcases hT s with k | k <;> rw [k] <;> ring

/-! ### numbers given without uncertainty -/

/-- C164. `ensure_uncertain`: a float is given an uncertainty of 100 %, a number with uncertainty is returned as it is; a negative float is refused. -/
theorem ensure_spec (s : S) (n : Num S) :
    (∀ x, n = .fl x → 0 ≤ x → ∃ u, ensure s n = .ok u ∧ u.v = x ∧ u.std = x) ∧ (∀ u, n = .uf u → ensure s n = .ok u) ∧
      (∀ x, n = .fl x → x < 0 → ensure s n = .error .exception) := by
  refine ⟨?_, ?_, ?_⟩
  · rintro x rfl hx
    refine ⟨UF.fresh s x x, ?_, rfl, ?_⟩
    · rw [ensure, if_neg (not_lt.2 hx)]
    · exact (sq_eq_sq₀ (std_nonneg _) hx).1 (std_fresh s x x)
  · rintro u rfl
    rfl
  · rintro x rfl hx
    rw [ensure, if_pos hx]

/-- C164. `with_fractional_uncertainty`: the relative uncertainty is the one asked for. -/
theorem fraction_spec (s : S) (x r : ℝ) : (0 ≤ x * r → ∃ u, withFraction s x r = .ok u ∧ u.v = x ∧ u.std = x * r) ∧
    (x * r < 0 → withFraction s x r = .error .exception) := by
  refine ⟨fun h => ⟨UF.fresh s x (x * r), by rw [withFraction, if_neg (not_lt.2 h)], rfl, ?_⟩, fun h => by rw [withFraction, if_pos h]⟩
  exact (sq_eq_sq₀ (std_nonneg _) h).1 (std_fresh s x (x * r))

omit [Fintype S] in
theorem uarray_floats (s : ℕ → S) {xs : List ℝ} (h : ∀ x ∈ xs, 0 ≤ x) :
    uarray s (xs.map .fl) = .ok (xs.mapIdx (fun i x => UF.fresh (s i) x x)) := by
  induction xs generalizing s with
  | nil => rfl
  | cons x t ih =>
    rw [List.map_cons, uarray, if_neg (not_lt.2 (h x (by simp))), ih _ (fun y hy => h y (by simp [hy])), List.mapIdx_cons]

omit [Fintype S] in
theorem ensureArr_floats (s : ℕ → S) {xs : List ℝ} (hne : xs ≠ []) (h : ∀ x ∈ xs, 0 ≤ x) :
    ensureArr s (xs.map .fl) = .ok (xs.mapIdx (fun i x => UF.fresh (s i) x x)) := by
  rw [← uarray_floats s h]
  cases xs with
  | nil => exact absurd rfl hne
  | cons x t => rfl

omit [Fintype S] in
theorem fresh_apart {a b : S} (h : a ≠ b) (x sx y sy : ℝ) : Apart (UF.fresh a x sx) (UF.fresh b y sy) := by
  intro s
  by_cases hs : s = a
  · right
    show (Pi.single b sy : S → ℝ) s = 0
    exact Pi.single_eq_of_ne (hs.trans_ne h) _
  · left
    show (Pi.single a sx : S → ℝ) s = 0
    exact Pi.single_eq_of_ne hs _

/-- the layers of a film made from floats: materials, densities, thicknesses in cm -/
theorem zip_mapIdx (s : ℕ → S) (ls : List (M × ℝ × ℝ)) :
    (ls.map Prod.fst).zip ((ls.map (fun l => l.2.1)).zip ((ls.map (fun l => l.2.2)).mapIdx (fun i x => UF.fresh (s i) x x))) =
      ls.mapIdx (fun i l => (l.1, l.2.1, UF.fresh (s i) l.2.2 l.2.2)) := by
  induction ls generalizing s with
  | nil => rfl
  | cons l t ih =>
    simp only [List.map_cons, List.mapIdx_cons, List.zip_cons_cons]
    rw [ih (fun i => s (i + 1))]

theorem mapIdx_pairwise {s : ℕ → S} (ls : List (M × ℝ × ℝ)) (hs : Set.InjOn s (Set.Iio ls.length)) :
    (ls.mapIdx (fun i l => (l.1, l.2.1, UF.fresh (s i) l.2.2 l.2.2))).Pairwise (fun a b => Apart a.2.2 b.2.2) := by
  rw [List.pairwise_iff_getElem]
  intro i j hi hj hij
  rw [List.length_mapIdx] at hi hj
  simp only [List.getElem_mapIdx]
  exact fresh_apart (fun h => absurd (hs hi hj h) hij.ne) _ _ _ _

theorem map_mapIdx_const {A B C : Type} {g : ℕ → A → B} {h : B → C} {k : A → C} (hk : ∀ i a, h (g i a) = k a) (l : List A) :
    (l.mapIdx g).map h = l.map k := by
  induction l generalizing g with
  | nil => rfl
  | cons a t ih => rw [List.mapIdx_cons, List.map_cons, List.map_cons, hk, ih fun i a => hk (i + 1) a]

theorem std_fresh_nonneg (s : S) (x : ℝ) {sigma : ℝ} (h : 0 ≤ sigma) : (UF.fresh s x sigma).std = sigma :=
  (sq_eq_sq₀ (std_nonneg _) h).1 (std_fresh s x sigma)

/-- the layers of a film whose thicknesses are floats (nm) [specification] -/
noncomputable def floatLayers (s : ℕ → S) (ls : List (M × ℝ × ℝ)) : List (M × ℝ × UF S) :=
  (ls.map (fun l => (l.1, l.2.1, 1e-7 * l.2.2))).mapIdx (fun i l => (l.1, l.2.1, UF.fresh (s i) l.2.2 l.2.2))

theorem filmT_floats (s : ℕ → S) (f : S) (name : String) {ls : List (M × ℝ × ℝ)} (hne : ls ≠ []) (hpos : ∀ l ∈ ls, 0 ≤ l.2.2) {fill : Num S} {phi : UF S}
    (hphi : ensure f fill = .ok phi) (ab : Bool) :
    filmT s f name (ls.map Prod.fst) (ls.map (fun l => l.2.1)) (ls.map (fun l => .fl l.2.2)) fill ab = .ok (.film name (floatLayers s ls) phi ab) := by
  obtain ⟨ls', hls⟩ : ∃ ls', ls' = ls.map (fun l => (l.1, l.2.1, 1e-7 * l.2.2)) := ⟨_, rfl⟩
  unfold filmT floatLayers
  rw [hphi]
  dsimp only
  rw [if_neg (by simp), ← hls]
  have e : (ls.map (fun l => Num.fl (S := S) l.2.2)).map (Num.scale 1e-7) = (ls'.map (fun l => l.2.2)).map .fl := by
    rw [hls]
    simp [Num.scale, Function.comp_def]
  rw [e, ensureArr_floats s (by rw [hls]; simpa using hne)]
  · dsimp only
    have e1 : ls.map Prod.fst = ls'.map Prod.fst := by rw [hls]; simp [Function.comp_def]
    have e2 : ls.map (fun l => l.2.1) = ls'.map (fun l => l.2.1) := by rw [hls]; simp [Function.comp_def]
    rw [e1, e2, zip_mapIdx]
  · intro x hx
    rw [hls, List.map_map] at hx
    obtain ⟨l, hl, rfl⟩ := List.mem_map.1 hx
    exact mul_nonneg (by norm_num) (hpos l hl)

theorem floatLayers_std (mu : M → ℝ → ℝ → ℝ) (E : ℝ) (s : ℕ → S) (ls : List (M × ℝ × ℝ)) :
    (floatLayers s ls).map (fun l => (mu l.1 E l.2.1 * l.2.2.std) ^ 2) = ls.map (fun l => (mu l.1 E l.2.1 * (1e-7 * l.2.2)) ^ 2) := by
  unfold floatLayers
  rw [map_mapIdx_const (k := fun l => (mu l.1 E l.2.1 * l.2.2) ^ 2), List.map_map]
  · rfl
  · intro i a
    dsimp only
    rw [mul_pow, std_fresh, mul_pow]

theorem floatLayers_v (mu : M → ℝ → ℝ → ℝ) (E : ℝ) (s : ℕ → S) (ls : List (M × ℝ × ℝ)) :
    transmittance mu E ((floatLayers s ls).map (fun l => (l.1, l.2.1, l.2.2.v))) = exp (-(ls.map (fun l => mu l.1 E l.2.1 * (1e-7 * l.2.2))).sum) := by
  unfold floatLayers
  rw [map_mapIdx_const (k := fun l => (l.1, l.2.1, l.2.2)) (fun _ _ => rfl), transmittance_exp, List.map_map, List.map_map]
  simp [Function.comp_def]

theorem floatLayers_apart {s : ℕ → S} (ls : List (M × ℝ × ℝ)) (hs : Set.InjOn s (Set.Iio ls.length)) :
    (floatLayers s ls).Pairwise (fun a b => Apart a.2.2 b.2.2) :=
  mapIdx_pairwise _ (by rwa [List.length_map])

theorem floatLayers_ne (s : ℕ → S) {ls : List (M × ℝ × ℝ)} (h : ls ≠ []) : floatLayers s ls ≠ [] := by
  unfold floatLayers
  simpa using h

theorem sq_sum_nonneg {A : Type} (l : List A) (g : A → ℝ) : 0 ≤ (l.map (fun x => g x ^ 2)).sum := by
  apply List.sum_nonneg
  intro x hx
  obtain ⟨l, _, rfl⟩ := List.mem_map.1 hx
  exact sq_nonneg _

/-- C164. A film added to a stack with its thicknesses given as floats: each thickness counts as uncertain by itself, by 100 %. So the relative
uncertainty of what gets through is the optical depths of the materials, added in quadrature. -/
theorem default_film {mu : M → ℝ → ℝ → ℝ} (E : ℝ) {s : ℕ → S} (f : S) (name : String) {ls : List (M × ℝ × ℝ)} (hs : Set.InjOn s (Set.Iio ls.length))
    (hne : ls ≠ []) (hpos : ∀ l ∈ ls, 0 ≤ l.2.2) :
    ∃ u, (addFilm s f name (ls.map Prod.fst) (ls.map (fun l => l.2.1)) (ls.map (fun l => .fl l.2.2)) false).bind (effU mu E) = .ok u ∧
      u.v = exp (-(ls.map (fun l => mu l.1 E l.2.1 * (1e-7 * l.2.2))).sum) ∧
      u.std = u.v * √(ls.map (fun l => (mu l.1 E l.2.1 * (1e-7 * l.2.2)) ^ 2)).sum := by
  unfold addFilm
  rw [filmT_floats s f name hne hpos (phi := UF.exact 1) rfl]
  obtain ⟨u, h1, T, hT, h2, h3⟩ := film_std mu E name (phi := UF.exact 1) false (floatLayers_ne s hne) (floatLayers_apart ls hs) (fun l _ x => .inr rfl)
  rw [floatLayers_v] at hT
  have hv : u.v = T := by
    rw [h2]
    simp [UF.exact]
  refine ⟨u, h1, hv.trans hT, ?_⟩
  have hT0 : 0 < T := by
    rw [hT]
    exact exp_pos _
  have h0 : (UF.exact (S := S) 1).std = 0 := by simp [UF.std, UF.exact]
  rw [floatLayers_std, h0, mul_zero] at h3
  rw [hv]
  refine (sq_eq_sq₀ (std_nonneg _) (mul_nonneg hT0.le (sqrt_nonneg _))).1 ?_
  rw [h3, mul_pow T (√_), sq_sqrt (sq_sum_nonneg ls (fun l => mu l.1 E l.2.1 * (1e-7 * l.2.2)))]
  simp [UF.exact]

/-- C164, instance: two materials of optical depths 3 and 4 have a transmittance uncertain by five times its value. -/
example : ∃ u, (addFilm (S := Fin 3) (fun i => if i = 0 then 0 else 1) 2 "foil" [1, 2] [1, 1] [.fl 3e7, .fl 2e7] false).bind (effU muEx 1000) = .ok u ∧
    u.v = exp (-7) ∧ u.std = u.v * 5 := by
  obtain ⟨u, h1, h2, h3⟩ := default_film (mu := muEx) 1000 (s := fun i => if i = 0 then (0 : Fin 3) else 1) 2 "foil"
    (ls := [(1, 1, 3e7), (2, 1, 2e7)]) (by
      intro i hi j hj h
      simp only [List.length_cons, List.length_nil, Set.mem_Iio] at hi hj
      have hi' : i = 0 ∨ i = 1 := by omega
      have hj' : j = 0 ∨ j = 1 := by omega
      rcases hi' with rfl | rfl <;> rcases hj' with rfl | rfl <;> simp_all) (by simp) (by
      intro l hl
      simp only [List.mem_cons, List.not_mem_nil, or_false] at hl
      rcases hl with rfl | rfl <;> norm_num)
  refine ⟨u, h1, ?_, ?_⟩
  · rw [h2]
    norm_num [muEx]
  · rw [h3]
    congr 1
    have : ([(1, 1, 3e7), (2, 1, 2e7)].map (fun l : ℕ × ℝ × ℝ => (muEx l.1 1000 l.2.1 * (1e-7 * l.2.2)) ^ 2)).sum = 5 ^ 2 := by
      norm_num [muEx]
    rw [this, sqrt_sq (by norm_num)]

/-- C164. The fill fraction a caller gives is used with its uncertainty: what gets through a film of floats that covers a part of the beam. -/
theorem mesh_film {mu : M → ℝ → ℝ → ℝ} (E : ℝ) {s : ℕ → S} (f : S) (name : String) {ls : List (M × ℝ × ℝ)} (hs : Set.InjOn s (Set.Iio ls.length))
    (hne : ls ≠ []) (hpos : ∀ l ∈ ls, 0 ≤ l.2.2) {g : S} (hg : ∀ i < ls.length, s i ≠ g) (phi sigma : ℝ) (ab : Bool) :
    ∃ u T, (filmT s f name (ls.map Prod.fst) (ls.map (fun l => l.2.1)) (ls.map (fun l => .fl l.2.2)) (.uf (UF.fresh g phi sigma)) ab).bind (effU mu E) = .ok u ∧
      T = exp (-(ls.map (fun l => mu l.1 E l.2.1 * (1e-7 * l.2.2))).sum) ∧
      u.v = (if ab then (1 - T) * phi else T * phi + (1 - phi)) ∧
      u.std ^ 2 = (T * phi) ^ 2 * (ls.map (fun l => (mu l.1 E l.2.1 * (1e-7 * l.2.2)) ^ 2)).sum + ((1 - T) * sigma) ^ 2 := by
  rw [filmT_floats s f name hne hpos (phi := UF.fresh g phi sigma) rfl]
  obtain ⟨u, h1, T, hT, h2, h3⟩ := film_std mu E name (phi := UF.fresh g phi sigma) ab (floatLayers_ne s hne) (floatLayers_apart ls hs) (by
    intro l hl
    unfold floatLayers at hl
    rw [List.mem_mapIdx] at hl
    obtain ⟨i, hi, rfl⟩ := hl
    rw [List.length_map] at hi
    exact fresh_apart (hg i hi) _ _ _ _)
  rw [floatLayers_v] at hT
  refine ⟨u, T, h1, hT, h2, ?_⟩
  rw [h3, floatLayers_std, mul_pow (1 - T), std_fresh, ← mul_pow]
  rfl

omit [Fintype S] in
theorem ensureArr_uf (s : ℕ → S) {us : List (UF S)} (hne : us ≠ []) : ensureArr s (us.map .uf) = .ok us := by
  cases us with
  | nil => exact absurd rfl hne
  | cons u t =>
    rw [List.map_cons, ensureArr, List.map_map]
    congr 2
    exact List.map_id t

/-- C164. A film given by areal densities with uncertainties of separate sources (the vacuum window, for one): the relative uncertainty of what gets through
is that of the optical depths, added in quadrature, whatever the densities. -/
theorem area_film {mu : M → ℝ → ℝ → ℝ} {kappa : M → ℝ → ℝ} (hmu : MassAtt mu kappa) (E : ℝ) (s : ℕ → S) (f : S) (name : String)
    {ls : List (M × ℝ × UF S)} (hne : ls ≠ []) (hrho : ∀ l ∈ ls, l.2.1 ≠ 0) (hap : ls.Pairwise (fun a b => Apart a.2.2 b.2.2)) :
    ∃ u, (filmA s f name (ls.map Prod.fst) (ls.map (fun l => l.2.1)) (ls.map (fun l => .uf l.2.2)) (.uf (UF.exact 1)) false).bind (effU mu E) = .ok u ∧
      u.v = exp (-(ls.map (fun l => kappa l.1 E * l.2.2.v)).sum) ∧
      u.std = u.v * √(ls.map (fun l => (kappa l.1 E * l.2.2.std) ^ 2)).sum := by
  obtain ⟨layers, hlay⟩ : ∃ layers : List (M × ℝ × UF S), layers = ls.map (fun l => (l.1, l.2.1, UF.scale (1 / l.2.1) l.2.2)) := ⟨_, rfl⟩
  have hc : filmA s f name (ls.map Prod.fst) (ls.map (fun l => l.2.1)) (ls.map (fun l => .uf l.2.2)) (.uf (UF.exact 1)) false =
      .ok (.film name layers (UF.exact 1) false) := by
    unfold filmA
    rw [ensure]
    dsimp only
    rw [if_neg (by simp)]
    have e : List.zipWith (fun x r => Num.scale (1 / r) x) (ls.map (fun l => Num.uf (S := S) l.2.2)) (ls.map (fun l => l.2.1)) =
        (layers.map (fun l => l.2.2)).map .uf := by
      rw [hlay, List.zipWith_map, List.zipWith_self, List.map_map, List.map_map]
      rfl
    rw [e, ensureArr_uf s (by rw [hlay]; simpa using hne)]
    dsimp only
    congr 2
    rw [hlay, List.map_map, List.zip_map', List.zip_map']
    rfl
  rw [hc]
  obtain ⟨u, h1, T, hT, h2, h3⟩ := film_std mu E name (layers := layers) (phi := UF.exact 1) false (by rw [hlay]; simpa using hne) (by
      rw [hlay, List.pairwise_map]
      refine hap.imp fun {a b} hab x => ?_
      rcases hab x with k | k
      · left
        show _ * a.2.2.d x = 0
        rw [k, mul_zero]
      · right
        show _ * b.2.2.d x = 0
        rw [k, mul_zero]) (fun l _ x => .inr rfl)
  have hv : u.v = T := by
    rw [h2]
    simp [UF.exact]
  have hT' : T = exp (-(ls.map (fun l => kappa l.1 E * l.2.2.v)).sum) := by
    rw [hT, transmittance_exp, hlay, List.map_map, List.map_map]
    congr 3
    refine List.map_congr_left fun l hl => ?_
    simp only [Function.comp, hmu l.1 E l.2.1, UF.scale]
    have := hrho l hl
    field_simp
  refine ⟨u, h1, hv.trans hT', ?_⟩
  have h0 : (UF.exact (S := S) 1).std = 0 := by simp [UF.std, UF.exact]
  have e : layers.map (fun l => (mu l.1 E l.2.1 * l.2.2.std) ^ 2) = ls.map (fun l => (kappa l.1 E * l.2.2.std) ^ 2) := by
    rw [hlay, List.map_map]
    refine List.map_congr_left fun l hl => ?_
    simp only [Function.comp]
    rw [mul_pow, std_scale, hmu l.1 E l.2.1]
    have := hrho l hl
    field_simp
  rw [e, h0, mul_zero] at h3
  have hT0 : 0 < T := by
    rw [hT']
    exact exp_pos _
  rw [hv]
  refine (sq_eq_sq₀ (std_nonneg _) (mul_nonneg hT0.le (sqrt_nonneg _))).1 ?_
  rw [h3, mul_pow T (√_), sq_sqrt (sq_sum_nonneg ls (fun l => kappa l.1 E * l.2.2.std))]
  simp [UF.exact]

omit [Fintype S] in
theorem uarray_v (s : ℕ → S) {l : List (Num S)} {r : List (UF S)} (h : uarray s l = .ok r) : r.map UF.v = l.map Num.v := by
  induction l generalizing s r with
  | nil =>
    rw [uarray] at h
    cases h
    rfl
  | cons a t ih =>
    cases a with
    | uf u => simp [uarray] at h
    | fl x =>
      rw [uarray] at h
      split at h
      · cases h
      · split at h
        · cases h
        · rename_i r' hr
          cases h
          rw [List.map_cons, List.map_cons, ih _ hr]
          rfl

omit [Fintype S] in
theorem ensureArr_v (s : ℕ → S) {l : List (Num S)} {r : List (UF S)} (h : ensureArr s l = .ok r) : r.map UF.v = l.map Num.v := by
  cases l with
  | nil => cases h
  | cons a t =>
    cases a with
    | uf u =>
      cases h
      rw [List.map_cons, List.map_cons, List.map_map]
      congr 1
      refine List.map_congr_left fun x _ => ?_
      cases x <;> rfl
    | fl x => exact uarray_v s h

/-- C164. Uncertainties do not change nominal values: a film made with them is, without errors of its sources, the film made (as in C117) from the
nominal values. -/
theorem nominal_film (rho0 : M → ℝ) (s : ℕ → S) (f : S) (name : String) (mats : List M) (rho : List ℝ) (t : List (Num S)) (fill : Num S) (ab : Bool)
    {c : UComp M S} (h : filmT s f name mats rho t fill ab = .ok c) :
    mkFilm rho0 name mats (some rho) none (some (t.map Num.v)) (.real fill.v) ab = .ok (c.off 0) := by
  unfold filmT at h
  split at h
  · cases h
  · rename_i phi hphi
    split at h
    · cases h
    · rename_i hl
      split at h
      · cases h
      · rename_i ts hts
        cases h
        have hv := ensureArr_v s hts
        have hne : t ≠ [] := by
          rintro rfl
          cases hts
        have hf : phi.v = fill.v := by
          cases fill with
          | uf u => cases hphi; rfl
          | fl x =>
            rw [ensure] at hphi
            split at hphi
            · cases hphi
            · cases hphi; rfl
        unfold mkFilm
        dsimp only
        rw [Option.getD_some, if_neg hl, if_neg (by simpa using hne), UComp.off, lin_zero, hf]
        congr 2
        have e : (t.map Num.v).map (fun x => x * 1e-7) = ts.map UF.v := by
          rw [hv, List.map_map, List.map_map]
          refine List.map_congr_left fun x _ => ?_
          cases x <;> simp only [Function.comp, Num.v, Num.scale, UF.scale] <;> ring
        rw [e]
        clear hl hts hv e
        induction mats generalizing rho ts with
        | nil => rfl
        | cons m ms ih =>
          cases rho with
          | nil => simp
          | cons r rs =>
            cases ts with
            | nil => simp
            | cons u us =>
              rw [List.map_cons, List.zip_cons_cons, List.zip_cons_cons, List.zip_cons_cons, List.zip_cons_cons, List.map_cons, ih, lin_zero]

/-! ### disagreements -/

/-- Disagreement (C164): the fill fraction of an aluminium film with oxide (or polymer) is 1 by default, with an uncertainty of 100 %, whereas a film
added to a stack without a fill fraction has the fill fraction 1 exactly. So the uncertainty of an aluminium film that covers everything is at least
the part of the beam it stops, however well its thickness is known. -/
theorem fill_default_fails {mu : M → ℝ → ℝ → ℝ} (E : ℝ) {s : ℕ → S} {f : S} (name : String) (al : M) (rhoAl : ℝ) (oxide : List (M × ℝ)) {tAl : ℝ} (ht : 0 ≤ tAl)
    {surfaces : ℕ} (hsurf : surfaces = 1 ∨ surfaces = 2) (hs : Set.InjOn s (Set.Iio (oxide.length + 1))) (hf : ∀ i < oxide.length + 1, s i ≠ f) :
    ∃ u w, (alOxide s f name al rhoAl oxide (.fl tAl) surfaces).bind (effU mu E) = .ok u ∧ 1 - u.v ≤ u.std ∧
      (addFilm s f name (al :: oxide.map Prod.fst) (rhoAl :: oxide.map Prod.snd) (.fl tAl :: List.replicate oxide.length (.fl (surfaces * 3))) false).bind
        (effU mu E) = .ok w ∧ w.v = u.v ∧ u.std ^ 2 = w.std ^ 2 + (1 - u.v) ^ 2 := by
  obtain ⟨ls, hls⟩ : ∃ ls : List (M × ℝ × ℝ), ls = (al, rhoAl, tAl) :: oxide.map (fun x => (x.1, x.2, (surfaces * 3 : ℝ))) := ⟨_, rfl⟩
  have hlen : ls.length = oxide.length + 1 := by rw [hls]; simp
  have e1 : al :: oxide.map Prod.fst = ls.map Prod.fst := by rw [hls]; simp [Function.comp_def]
  have e2 : rhoAl :: oxide.map Prod.snd = ls.map (fun l => l.2.1) := by rw [hls]; simp [Function.comp_def]
  have e3 : (Num.fl (S := S) tAl :: List.replicate oxide.length (.fl (surfaces * 3))) = ls.map (fun l => .fl l.2.2) := by rw [hls]; simp [Function.comp_def]
  have hne : ls ≠ [] := by rw [hls]; simp
  have hpos : ∀ l ∈ ls, 0 ≤ l.2.2 := by
    intro l hl
    rw [hls, List.mem_cons, List.mem_map] at hl
    rcases hl with rfl | ⟨x, _, rfl⟩
    · exact ht
    · positivity
  rw [← hlen] at hs hf
  obtain ⟨w, w1, w2, w3⟩ := default_film (mu := mu) E f name hs hne hpos
  obtain ⟨u, T, u1, hT, u2, u3⟩ := mesh_film (mu := mu) E f name hs hne hpos hf 1 1 false
  have hv : u.v = T := by rw [u2]; simp
  have hstd : u.std ^ 2 = w.std ^ 2 + (1 - u.v) ^ 2 := by
    rw [u3, w3, w2, ← hT, hv, mul_pow T (√_), sq_sqrt (sq_sum_nonneg ls (fun l => mu l.1 E l.2.1 * (1e-7 * l.2.2)))]
    ring
  refine ⟨u, w, ?_, ?_, ?_, ?_, hstd⟩
  · unfold alOxide
    rw [if_neg (by omega), e1, e2, e3]
    have : filmT s f name (ls.map Prod.fst) (ls.map (fun l => l.2.1)) (ls.map (fun l => .fl l.2.2)) (.fl 1) false =
        filmT s f name (ls.map Prod.fst) (ls.map (fun l => l.2.1)) (ls.map (fun l => .fl l.2.2)) (.uf (UF.fresh f 1 1)) false := by
      unfold filmT
      rw [ensure, if_neg (by norm_num), ensure]
    rw [this]
    exact u1
  · refine le_of_sq_le_sq ?_ (std_nonneg u)
    rw [hstd]
    have := sq_nonneg w.std
    linarith
  · rw [e1, e2, e3]
    exact w1
  · rw [w2, hv, hT]

/-- Disagreement (C164): if the thickness of the aluminium is given with an uncertainty, the oxide has none at all, although its thickness is a
guess (3 nm for each surface) that is taken to be uncertain by 100 % otherwise. -/
theorem oxide_exact_fails {mu : M → ℝ → ℝ → ℝ} (E : ℝ) (s : ℕ → S) (f : S) (name : String) (al : M) (rhoAl : ℝ) (oxide : List (M × ℝ)) {a : S} (haf : a ≠ f)
    (tAl sigma : ℝ) {surfaces : ℕ} (hsurf : surfaces = 1 ∨ surfaces = 2) :
    ∃ u, (alOxide s f name al rhoAl oxide (.uf (UF.fresh a tAl sigma)) surfaces).bind (effU mu E) = .ok u ∧
      u.std ^ 2 = (u.v * (mu al E rhoAl * (1e-7 * sigma))) ^ 2 + (1 - u.v) ^ 2 := by
  obtain ⟨layers, hlay⟩ : ∃ layers : List (M × ℝ × UF S), layers = (al, rhoAl, UF.scale 1e-7 (UF.fresh a tAl sigma)) ::
    oxide.map (fun x => (x.1, x.2, UF.exact (1e-7 * (surfaces * 3)))) := ⟨_, rfl⟩
  have hc : alOxide s f name al rhoAl oxide (.uf (UF.fresh a tAl sigma)) surfaces = .ok (.film name layers (UF.fresh f 1 1) false) := by
    unfold alOxide filmT
    rw [if_neg (by omega), ensure, if_neg (by norm_num)]
    dsimp only
    rw [if_neg (by simp), List.map_cons, Num.scale, ensureArr]
    dsimp only
    congr 2
    rw [List.map_replicate, List.map_replicate, List.zip_cons_cons, List.zip_cons_cons, hlay]
    congr 1
    clear hlay
    induction oxide with
    | nil => rfl
    | cons x t ih =>
      rw [List.length_cons, List.replicate_succ, List.map_cons, List.map_cons, List.zip_cons_cons, List.zip_cons_cons, ih]
      rfl
  rw [hc]
  have hap : ∀ c, Apart (UF.scale (S := S) 1e-7 (UF.fresh a tAl sigma)) (UF.exact c) := fun c x => .inr rfl
  obtain ⟨u, h1, T, hT, h2, h3⟩ := film_std mu E name (layers := layers) (phi := UF.fresh f 1 1) false (by rw [hlay]; simp) (by
      rw [hlay, List.pairwise_cons]
      refine ⟨?_, ?_⟩
      · intro b hb
        obtain ⟨x, _, rfl⟩ := List.mem_map.1 hb
        exact hap _
      · rw [List.pairwise_map]
        exact List.pairwise_of_forall (fun _ _ _ => .inl rfl)) (by
      intro l hl
      rw [hlay, List.mem_cons, List.mem_map] at hl
      rcases hl with rfl | ⟨x, _, rfl⟩
      · intro x
        rcases fresh_apart haf tAl sigma 1 1 x with k | k
        · left
          show 1e-7 * (UF.fresh a tAl sigma).d x = 0
          rw [k, mul_zero]
        · exact .inr k
      · exact fun _ => .inl rfl)
  have hv : u.v = T := by
    rw [h2]
    simp [UF.fresh]
  refine ⟨u, h1, ?_⟩
  rw [h3, hv, mul_pow (1 - T), std_fresh, hlay, List.map_cons, List.sum_cons, List.map_map]
  have h0 : ∀ c, (UF.exact (S := S) c).std = 0 := fun c => by simp [UF.std, UF.exact]
  have hz : (oxide.map ((fun l : M × ℝ × UF S => (mu l.1 E l.2.1 * l.2.2.std) ^ 2) ∘ fun x => (x.1, x.2, UF.exact (1e-7 * (surfaces * 3))))).sum = 0 := by
    apply List.sum_eq_zero
    intro y hy
    obtain ⟨x, _, rfl⟩ := List.mem_map.1 hy
    simp only [Function.comp, h0]
    ring
  rw [hz, mul_pow (mu al E rhoAl), std_scale, mul_pow (1e-7 : ℝ), std_fresh]
  simp only [UF.fresh]
  ring

/-- Disagreement (C164): of an array only the first number is looked at. A list of thicknesses that begins with a float and has a number with uncertainty
further on is refused with a TypeError; in the other order it is accepted. -/
theorem mixed_fails (s : ℕ → S) (f : S) (name : String) {mats : List M} {rho : List ℝ} (hl : mats.length = rho.length) {x : ℝ} (hx : 0 ≤ x) (u phi : UF S) (ab : Bool) :
    filmT s f name mats rho [.fl x, .uf u] (.uf phi) ab = .error .type ∧ ∃ c, filmT s f name mats rho [.uf u, .fl x] (.uf phi) ab = .ok c := by
  constructor
  · unfold filmT
    rw [ensure]
    dsimp only
    rw [if_neg (by simp [hl])]
    have h1 : ¬ (1e-7 * x < 0) := not_lt.2 (mul_nonneg (by norm_num) hx)
    simp only [List.map_cons, List.map_nil, Num.scale, ensureArr, uarray, if_neg h1]
  · unfold filmT
    rw [ensure]
    dsimp only
    rw [if_neg (by simp [hl])]
    exact ⟨_, rfl⟩

/-- Disagreement (C164): the thickness of one layer of oxide is one number, but each element of the oxide has it with an error of its own. For an oxide of two
elements the uncertainty of the film comes out smaller than that of a layer uncertain by 100 %. (Shown for an aluminium thickness of zero and without the
uncertainty of the fill fraction.) -/
theorem layer_fails {mu : M → ℝ → ℝ → ℝ} (E : ℝ) {s : ℕ → S} (f : S) (name : String) (m k : M) {a b t : ℝ} (ht : 0 < t) (ha : 0 < mu m E a) (hb : 0 < mu k E b)
    (hs : s 0 ≠ s 1) :
    ∃ u, (addFilm s f name [m, k] [a, b] [.fl t, .fl t] false).bind (effU mu E) = .ok u ∧
      u.std < |deriv (fun r => exp (-((mu m E a + mu k E b) * (1e-7 * (t + r * t))))) 0| := by
  obtain ⟨u, h1, h2, h3⟩ := default_film (mu := mu) E (s := s) f name (ls := [(m, a, t), (k, b, t)]) (by
      intro i hi j hj h
      simp only [List.length_cons, List.length_nil, Set.mem_Iio] at hi hj
      have hi' : i = 0 ∨ i = 1 := by omega
      have hj' : j = 0 ∨ j = 1 := by omega
      rcases hi' with rfl | rfl <;> rcases hj' with rfl | rfl
      · rfl
      · exact absurd h hs
      · exact absurd h.symm hs
      · rfl) (by simp) (by
      intro l hl
      simp only [List.mem_cons, List.not_mem_nil, or_false] at hl
      rcases hl with rfl | rfl <;> exact ht.le)
  refine ⟨u, h1, ?_⟩
  have hd : HasDerivAt (fun r : ℝ => exp (-((mu m E a + mu k E b) * (1e-7 * (t + r * t)))))
      (exp (-((mu m E a + mu k E b) * (1e-7 * (t + 0 * t)))) * -((mu m E a + mu k E b) * (1e-7 * (1 * t)))) 0 :=
    ((((((hasDerivAt_id (0 : ℝ)).mul_const t).const_add t).const_mul (1e-7 : ℝ)).const_mul (mu m E a + mu k E b)).neg).exp
  rw [hd.deriv, h3, h2]
  have hp : 0 < mu m E a * (1e-7 * t) := by positivity
  have hq : 0 < mu k E b * (1e-7 * t) := by positivity
  simp only [List.map_cons, List.map_nil, List.sum_cons, List.sum_nil, add_zero, zero_mul, one_mul]
  rw [abs_mul, abs_of_pos (exp_pos _), abs_neg, show (mu m E a + mu k E b) * (1e-7 * t) = mu m E a * (1e-7 * t) + mu k E b * (1e-7 * t) by ring,
    abs_of_pos (by linarith)]
  refine mul_lt_mul_of_pos_left ?_ (exp_pos _)
  rw [sqrt_lt' (by linarith)]
  have := mul_pos hp hq
  nlinarith

end Mass.Calc.EffUncert
