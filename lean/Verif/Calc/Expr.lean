import Mathlib.Analysis.SpecialFunctions.Pow.Deriv
import Mathlib.Analysis.SpecialFunctions.Log.Deriv
import Mathlib.Analysis.SpecialFunctions.ExpDeriv
import Mathlib.Analysis.Calculus.IteratedDeriv.Lemmas
/-! Model of mass/mathstat/derivative.py: the expression classes, their automatic simplification and their derivatives (C40).
Numbers are exact reals (the code uses floats). -/
namespace Mass.Calc.Expr
open scoped Topology

/-- Expression objects, mass/mathstat/derivative.py L89-292: ConstantFunction, PowerFunction, Identity (a PowerFunction with n = 1),
LogFunction, ExponentialFunction, Composition, Multiplication, Summation. `num` is a bare Python number stored as an operand
(`f + 2` stores the 2 itself, L52-53). The constructors are the nodes `type.__call__` makes (L219), before simplification. -/
inductive E where
  | const (v : ℝ)
  | pow (n : ℝ)
  | ident
  | log
  | exp
  | comp (g h : E)
  | mul (g h : E)
  | add (g h : E)
  | num (v : ℝ)

/-- `isinstance(e, ConstantFunction)` and its value (used for derivative.py L168-174) -/
def constV : E → Option ℝ
  | .const v => some v
  | _ => none

/-- `isinstance(e, PowerFunction)` and its exponent; Identity counts, derivative.py L131-133 -/
def powN : E → Option ℝ
  | .pow n => some n
  | .ident => some 1
  | _ => none

/-- a Multiplication whose `g` is a ConstantFunction (used for derivative.py L199-205) -/
def constMulL : E → Option (ℝ × E)
  | .mul (.const v) h => some (v, h)
  | _ => none

/-- a Multiplication whose `h` is a PowerFunction (used for derivative.py L190-219) -/
def mulPowR : E → Option (E × ℝ)
  | .mul g (.pow n) => some (g, n)
  | .mul g .ident => some (g, 1)
  | _ => none

/-- `__call__` with der=0: derivative.py L93-96, L118-123, L145-147, L161-162, L239-241, L264-266, L288-289. np.power of exact reals; a negative exponent is evaluated as
1/np.power(x, -n). `num` is not callable (TypeError); its value here is irrelevant, since no point is regular for it. -/
noncomputable def ev : E → ℝ → ℝ
  | .const v, _ => v
  | .pow n, x => if 0 ≤ n then x ^ n else 1 / x ^ (-n)
  | .ident, x => x
  | .log, x => Real.log (max x (1 / 1000000))
  | .exp, x => Real.exp x
  | .comp g h, x => ev g (ev h x)
  | .mul g h, x => ev g x * ev h x
  | .add g h, x => ev g x + ev h x
  | .num v, _ => v

/-- `Summation(a, b)`, ExprMeta.__call__ derivative.py L168-174 -/
noncomputable def sadd (a b : E) : E := open Classical in
  match constV a, constV b with
  | some u, some v => .const (u + v)
  | some u, none => if u = 0 then b else .add a b
  | none, some v => if v = 0 then a else .add a b
  | none, none => .add a b

/-- `Multiplication(a, b)` with a constant first factor `a` of value `u`, derivative.py L199-205; `f` stands for the nested call -/
noncomputable def cm (f : E → E → E) (u : ℝ) (a b : E) : E := open Classical in
  if u = 0 then a else if u = 1 then b else
    match constMulL b with
    | some (v, h) => f (.const (u * v)) h
    | none => .mul a b

/-- `Multiplication(a, b)`, ExprMeta.__call__ derivative.py L190-219, with `k` nested calls allowed; `smul` below allows enough (`smul_unfold`) -/
noncomputable def smulF : Nat → E → E → E
  | 0, a, b => .mul a b
  | k + 1, a, b => open Classical in
    match constV a, constV b with
    | some u, some v => .const (u * v)
    | some u, none => cm (smulF k) u a b
    | none, some v => cm (smulF k) v b a
    | none, none =>
      match powN a, powN b with
      | some m, some n => .pow (m + n)
      | some m, none => match mulPowR b with
        | some (g, n) => smulF k g (.pow (m + n))
        | none => .mul a b
      | none, pb =>
        match constMulL a, constMulL b with
        | some (u, ah), some (v, bh) => smulF k (.const (u * v)) (smulF k ah bh)
        | _, _ => match mulPowR a, pb with
          | some (ag, m), some n => smulF k ag (.pow (m + n))
          | some (ag, m), none => match mulPowR b with
            | some (bg, n) => smulF k (smulF k ag bg) (.pow (m + n))
            | none => .mul a b
          | none, _ => .mul a b
/-- the number of nodes (used for derivative.py L175-189) -/
def sz : E → Nat
  | .comp g h => sz g + sz h + 1
  | .mul g h => sz g + sz h + 1
  | .add g h => sz g + sz h + 1
  | _ => 1

/-- `Multiplication(a, b)` (used for derivative.py L175-189) -/
noncomputable def smul (a b : E) : E := smulF (sz a + sz b) a b

/-- `Composition(a, b)`, ExprMeta.__call__ derivative.py L182-189: the cases that look at `b` -/
noncomputable def compTail (a b : E) : E :=
  match constV b, b with
  | some v, _ => .const (ev a v)
  | none, .ident => a
  | none, b =>
    match powN a, powN b with
    | some m, some n => .pow (m * n)
    | _, _ => match a, b with
      | .exp, .log => .ident
      | .log, .exp => .ident
      | a, b => .comp a b

/-- `Composition(a, b)`, ExprMeta.__call__ derivative.py L175-189 -/
noncomputable def scomp : E → E → E
  | .const v, _ => .const v
  | .ident, b => b
  | .mul (.const u) h, b => smul (.const u) (scomp h b)
  | a, b => compTail a b

/-- `derivative(der=1)`: derivative.py L98-101, L110-116, L139-142, L158-159, L232-237, L256-261, L281-285; the trailing `.derivative(der=0)` returns its object -/
noncomputable def D : E → E
  | .const _ => .const 0
  | .pow n => open Classical in if n = 1 then .const 1 else smul (.const n) (.pow (n - 1))
  | .ident => .const 1
  | .log => .pow (-1)
  | .exp => .exp
  | .comp g h => smul (scomp (D g) h) (D h)
  | .mul g h => sadd (smul (D g) h) (smul g (D h))
  | .add g h => sadd (D g) (D h)
  | .num v => .num v

/-- `derivative(der)`, same lines (used for derivative.py L93-96) -/
noncomputable def dn : Nat → E → E
  | 0, e => e
  | _ + 1, .const _ => .const 0
  | k + 1, .pow n => open Classical in if k = 0 ∧ n = 1 then .const 1 else dn k (smul (.const n) (.pow (n - 1)))
  | k + 1, .ident => if k = 0 then .const 1 else dn k (smul (.const 1) (.pow (1 - 1)))
  | k + 1, .log => dn k (.pow (-1))
  | _ + 1, .exp => .exp
  | k + 1, .comp g h => dn k (smul (scomp (D g) h) (D h))
  | k + 1, .mul g h => dn k (sadd (smul (D g) h) (smul g (D h)))
  | k + 1, .add g h => sadd (dn (k + 1) g) (dn (k + 1) h)
  | _ + 1, .num v => .num v
termination_by k e => (k, sizeOf e)

/-- `__call__(x, der)`, derivative.py L93-96, L118-125, L145-149, L161-162, L239-243, L264-271, L288-289 -/
noncomputable def call : E → ℝ → Nat → ℝ
  | .const v, _, n => if n = 0 then v else 0
  | .pow m, x, n => if n = 0 then ev (.pow m) x else ev (dn n (.pow m)) x
  | .ident, x, n => if n = 0 then x else ev (dn n .ident) x
  | .log, x, n => if n = 0 then ev .log x else if n = 1 then ev (.pow (-1)) x else ev (dn (n - 1) (.pow (-1))) x
  | .exp, x, _ => Real.exp x
  | .comp g h, x, n => if n = 0 then ev (.comp g h) x else ev (dn n (.comp g h)) x
  | .mul g h, x, n => if n = 0 then call g x 0 * call h x 0 else
      ∑ k ∈ Finset.range (n + 1), call g x k * call h x (n - k) * (n.factorial : ℝ) / ((n - k).factorial : ℝ) / (k.factorial : ℝ)
  | .add g h, x, n => call g x n + call h x n
  | .num v, _, _ => v

/-- `-f`, derivative.py L34-35 -/
noncomputable def neg (f : E) : E := smul (.const (-1)) f
/-- `f / g`, derivative.py L73-76 -/
noncomputable def div (f g : E) : E := smul f (scomp (.pow (-1)) g)
/-- `f ** y`, derivative.py L87-88 -/
noncomputable def power (f : E) (y : ℝ) : E := scomp (.pow y) f
/-- `f - g`, derivative.py L60-61 -/
noncomputable def sub (f g : E) : E := sadd f (neg g)

/-! ### Where an expression is regular -/

/-- x ** n is meaningful and smooth near x: positive x; negative x with a whole exponent; zero with a natural exponent [specification] -/
def RegP (n x : ℝ) : Prop := 0 < x ∨ (x < 0 ∧ ∃ k : ℤ, n = k) ∨ (x = 0 ∧ ∃ k : ℕ, n = k)

/-- every power in the expression has a whole exponent [specification] -/
def IntPow : E → Prop
  | .pow n => ∃ k : ℤ, n = k
  | .comp g h | .mul g h | .add g h => IntPow g ∧ IntPow h
  | _ => True

/-- A point where an expression is regular: logarithms of more than 1e-6, powers as in `RegP`; and, because `(x ** b) ** a` is simplified to
`x ** (a*b)` whatever the exponents (see `simplify_fails`), a composition with a plain power inside must have whole exponents outside or be taken at x > 0. [specification] -/
def Reg : E → ℝ → Prop
  | .const _, _ => True
  | .pow n, x => RegP n x
  | .ident, _ => True
  | .log, x => 1 / 1000000 < x
  | .exp, _ => True
  | .comp g h, x => Reg h x ∧ Reg g (ev h x) ∧ (IntPow g ∨ 0 < x ∨ powN h = none)
  | .mul g h, x => Reg g x ∧ Reg h x
  | .add g h, x => Reg g x ∧ Reg h x
  | .num _, _ => False

theorem ev_pow {n x : ℝ} (h : RegP n x) : ev (.pow n) x = x ^ n := by
  unfold ev
  split
  · rfl
  · rename_i hn
    rcases h with h | ⟨h, k, hk⟩ | ⟨h, k, hk⟩
    · rw [Real.rpow_neg h.le, one_div, inv_inv]
    · subst hk
      rw [← Int.cast_neg, Real.rpow_intCast, Real.rpow_intCast, zpow_neg, one_div, inv_inv]
    · exact absurd (by rw [hk]; positivity) hn

theorem ev_natpow (k : ℕ) (x : ℝ) : ev (.pow k) x = x ^ k := by
  unfold ev
  rw [if_pos (by positivity), Real.rpow_natCast]

theorem regP_one (x : ℝ) : RegP 1 x := by
  rcases lt_trichotomy 0 x with h | h | h
  · exact .inl h
  · exact .inr (.inr ⟨h.symm, 1, by simp⟩)
  · exact .inr (.inl ⟨h, 1, by simp⟩)

theorem powN_spec {a : E} {m : ℝ} (h : powN a = some m) (x : ℝ) : (Reg a x ↔ RegP m x) ∧ (ev a x = ev (.pow m) x) ∧ (IntPow a ↔ IntPow (.pow m)) := by
  unfold powN at h
  split at h
  · injection h with h; subst h; exact ⟨Iff.rfl, rfl, Iff.rfl⟩
  · injection h with h; subst h
    refine ⟨⟨fun _ => regP_one x, fun _ => trivial⟩, ?_, ⟨fun _ => ⟨1, by simp⟩, fun _ => trivial⟩⟩
    rw [ev_pow (regP_one x)]
    simp [ev]
  · exact absurd h (by simp)

theorem constV_spec {a : E} {u : ℝ} (h : constV a = some u) : a = .const u := by
  unfold constV at h
  split at h
  · injection h with h; rw [h]
  · exact absurd h (by simp)

theorem constMulL_spec {a : E} {u : ℝ} {h : E} (e : constMulL a = some (u, h)) : a = .mul (.const u) h := by
  unfold constMulL at e
  split at e
  · injection e with e; injection e with e1 e2; rw [e1, e2]
  · exact absurd e (by simp)

theorem mulPowR_spec {a g : E} {n : ℝ} (e : mulPowR a = some (g, n)) : ∃ h, a = .mul g h ∧ powN h = some n := by
  unfold mulPowR at e
  split at e
  · injection e with e; injection e with e1 e2; exact ⟨_, by rw [e1], by rw [← e2]; rfl⟩
  · injection e with e; injection e with e1 e2; exact ⟨_, by rw [e1], by rw [← e2]; rfl⟩
  · exact absurd e (by simp)

theorem pow_mul_pow {m n x : ℝ} (h1 : RegP m x) (h2 : RegP n x) : RegP (m + n) x ∧ ev (.pow (m + n)) x = ev (.pow m) x * ev (.pow n) x := by
  have hr : RegP (m + n) x := by
    rcases lt_trichotomy 0 x with h | h | h
    · exact .inl h
    · obtain ⟨_, k, hk⟩ := (h1.resolve_left (by simp [← h])).resolve_left (by simp [← h])
      obtain ⟨_, l, hl⟩ := (h2.resolve_left (by simp [← h])).resolve_left (by simp [← h])
      exact .inr (.inr ⟨h.symm, k + l, by rw [hk, hl]; push_cast; rfl⟩)
    · obtain ⟨_, k, hk⟩ := (h1.resolve_left (by linarith)).resolve_right (by simp [h.ne])
      obtain ⟨_, l, hl⟩ := (h2.resolve_left (by linarith)).resolve_right (by simp [h.ne])
      exact .inr (.inl ⟨h, k + l, by rw [hk, hl]; push_cast; rfl⟩)
  refine ⟨hr, ?_⟩
  rw [ev_pow hr, ev_pow h1, ev_pow h2]
  rcases lt_trichotomy 0 x with h | h | h
  · exact Real.rpow_add h _ _
  · obtain ⟨_, k, hk⟩ := (h1.resolve_left (by simp [← h])).resolve_left (by simp [← h])
    obtain ⟨_, l, hl⟩ := (h2.resolve_left (by simp [← h])).resolve_left (by simp [← h])
    rw [hk, hl, ← Nat.cast_add, Real.rpow_natCast, Real.rpow_natCast, Real.rpow_natCast, pow_add]
  · obtain ⟨_, k, hk⟩ := (h1.resolve_left (by linarith)).resolve_right (by simp [h.ne])
    obtain ⟨_, l, hl⟩ := (h2.resolve_left (by linarith)).resolve_right (by simp [h.ne])
    rw [hk, hl, ← Int.cast_add, Real.rpow_intCast, Real.rpow_intCast, Real.rpow_intCast, zpow_add₀ h.ne]

theorem sadd_ok {a b : E} {x : ℝ} (ha : Reg a x) (hb : Reg b x) : Reg (sadd a b) x ∧ ev (sadd a b) x = ev a x + ev b x := by
  unfold sadd
  split
  · rename_i u v h1 h2; rw [constV_spec h1, constV_spec h2]; exact ⟨trivial, rfl⟩
  · rename_i u h1 h2
    split
    · rename_i h0; refine ⟨hb, ?_⟩; rw [constV_spec h1, h0]; simp [ev]
    · exact ⟨⟨ha, hb⟩, rfl⟩
  · rename_i u h1 h2
    split
    · rename_i h0; refine ⟨ha, ?_⟩; rw [constV_spec h2, h0]; simp [ev]
    · exact ⟨⟨ha, hb⟩, rfl⟩
  · exact ⟨⟨ha, hb⟩, rfl⟩

theorem sadd_int {a b : E} (ha : IntPow a) (hb : IntPow b) : IntPow (sadd a b) := by
  unfold sadd
  split
  · trivial
  · split
    · exact hb
    · exact ⟨ha, hb⟩
  · split
    · exact ha
    · exact ⟨ha, hb⟩
  · exact ⟨ha, hb⟩

theorem cm_ok {k : Nat} (ih : ∀ a b x, Reg a x → Reg b x → Reg (smulF k a b) x ∧ ev (smulF k a b) x = ev a x * ev b x)
    {u : ℝ} {b : E} {x : ℝ} (hb : Reg b x) : Reg (cm (smulF k) u (.const u) b) x ∧ ev (cm (smulF k) u (.const u) b) x = u * ev b x := by
  unfold cm
  split
  · rename_i h; rw [h]; exact ⟨trivial, by simp [ev]⟩
  · split
    · rename_i h; rw [h]; exact ⟨hb, by simp⟩
    · split
      · rename_i v h he
        rw [constMulL_spec he] at hb ⊢
        obtain ⟨h1, h2⟩ := ih (.const (u * v)) h x trivial hb.2
        refine ⟨h1, ?_⟩
        rw [h2]; simp only [ev]; ring
      · exact ⟨⟨trivial, hb⟩, rfl⟩

/-- simplification of a product keeps regular points and values -/
theorem smulF_ok (k : Nat) : ∀ (a b : E) (x : ℝ), Reg a x → Reg b x → Reg (smulF k a b) x ∧ ev (smulF k a b) x = ev a x * ev b x := by
  induction k with
  | zero => exact fun a b x ha hb => ⟨show Reg (.mul a b) x from ⟨ha, hb⟩, rfl⟩
  | succ k ih =>
    intro a b x ha hb
    unfold smulF
    split
    · rename_i h1 h2; rw [constV_spec h1, constV_spec h2]; exact ⟨trivial, rfl⟩
    · rename_i h1 h2; rw [constV_spec h1]; exact cm_ok ih hb
    · rename_i h1 h2; rw [constV_spec h2]
      obtain ⟨h3, h4⟩ := cm_ok (u := ‹ℝ›) ih ha
      exact ⟨h3, by rw [h4]; simp only [ev]; ring⟩
    · split
      · rename_i m n hm hn
        have h1 := powN_spec hm x
        have h2 := powN_spec hn x
        rw [h1.2.1, h2.2.1]
        exact pow_mul_pow (h1.1.1 ha) (h2.1.1 hb)
      · rename_i m hm hn
        split
        · rename_i g n hg
          obtain ⟨h, he, hh⟩ := mulPowR_spec hg
          subst he
          have h1 := powN_spec hm x
          have h2 := powN_spec hh x
          have hp := pow_mul_pow (h1.1.1 ha) (h2.1.1 hb.2)
          obtain ⟨h3, h4⟩ := ih g (.pow (m + n)) x hb.1 hp.1
          refine ⟨h3, ?_⟩
          rw [h4, hp.2, h1.2.1]
          show _ = _ * (ev g x * ev h x)
          rw [h2.2.1]; ring
        · exact ⟨⟨ha, hb⟩, rfl⟩
      · split
        · rename_i u ah v bh h1 h2
          rw [constMulL_spec h1] at ha ⊢
          rw [constMulL_spec h2] at hb ⊢
          obtain ⟨h3, h4⟩ := ih ah bh x ha.2 hb.2
          obtain ⟨h5, h6⟩ := ih (.const (u * v)) _ x trivial h3
          refine ⟨h5, ?_⟩
          rw [h6, h4]; simp only [ev]; ring
        · split
          · rename_i ag m n hg hn
            obtain ⟨h, he, hh⟩ := mulPowR_spec hg
            subst he
            have h1 := powN_spec hh x
            have h2 := powN_spec hn x
            have hp := pow_mul_pow (h1.1.1 ha.2) (h2.1.1 hb)
            obtain ⟨h3, h4⟩ := ih ag (.pow (m + n)) x ha.1 hp.1
            refine ⟨h3, ?_⟩
            rw [h4, hp.2, h2.2.1]
            show _ = (ev ag x * ev h x) * _
            rw [h1.2.1]; ring
          · rename_i ag m hg hnb
            split
            · rename_i bg n hbg
              obtain ⟨h, he, hh⟩ := mulPowR_spec hg
              subst he
              obtain ⟨h', he', hh'⟩ := mulPowR_spec hbg
              subst he'
              have h1 := powN_spec hh x
              have h2 := powN_spec hh' x
              have hp := pow_mul_pow (h1.1.1 ha.2) (h2.1.1 hb.2)
              obtain ⟨h3, h4⟩ := ih ag bg x ha.1 hb.1
              obtain ⟨h5, h6⟩ := ih _ (.pow (m + n)) x h3 hp.1
              refine ⟨h5, ?_⟩
              rw [h6, h4, hp.2]
              show _ = (ev ag x * ev h x) * (ev bg x * ev h' x)
              rw [h1.2.1, h2.2.1]; ring
            · exact ⟨⟨ha, hb⟩, rfl⟩
          · exact ⟨⟨ha, hb⟩, rfl⟩


theorem smul_ok {a b : E} {x : ℝ} (ha : Reg a x) (hb : Reg b x) : Reg (smul a b) x ∧ ev (smul a b) x = ev a x * ev b x := smulF_ok _ a b x ha hb

/-- a product with the constant 0 is the constant 0 -/
theorem smul_zero (b : E) (hb : constV b = none) : smul (.const 0) b = .const 0 := by
  unfold smul
  show smulF (1 + sz b) _ _ = _
  rw [Nat.add_comm]
  unfold smulF
  rw [hb]
  show cm _ _ _ _ = _
  unfold cm
  rw [if_pos rfl]

theorem cm_int {k : Nat} (ih : ∀ a b, IntPow a → IntPow b → IntPow (smulF k a b)) {u : ℝ} {a b : E} (ha : IntPow a) (hb : IntPow b) : IntPow (cm (smulF k) u a b) := by
  unfold cm
  split
  · exact ha
  · split
    · exact hb
    · split
      · rename_i v h he
        rw [constMulL_spec he] at hb
        exact ih _ _ trivial hb.2
      · exact ⟨ha, hb⟩

theorem int_add {a b : E} {m n : ℝ} (hm : powN a = some m) (hn : powN b = some n) (ha : IntPow a) (hb : IntPow b) : IntPow (.pow (m + n)) := by
  obtain ⟨k, hk⟩ := (powN_spec hm 0).2.2.1 ha
  obtain ⟨l, hl⟩ := (powN_spec hn 0).2.2.1 hb
  exact ⟨k + l, by rw [hk, hl]; push_cast; rfl⟩

theorem smulF_int (k : Nat) : ∀ (a b : E), IntPow a → IntPow b → IntPow (smulF k a b) := by
  induction k with
  | zero => exact fun a b ha hb => show IntPow (.mul a b) from ⟨ha, hb⟩
  | succ k ih =>
    intro a b ha hb
    unfold smulF
    split
    · trivial
    · exact cm_int ih ha hb
    · exact cm_int ih hb ha
    · split
      · rename_i hm hn
        exact int_add hm hn ha hb
      · rename_i m hm hn
        split
        · rename_i g n hg
          obtain ⟨h, he, hh⟩ := mulPowR_spec hg
          subst he
          exact ih _ _ hb.1 (int_add hm hh ha hb.2)
        · exact ⟨ha, hb⟩
      · split
        · rename_i u ah v bh h1 h2
          rw [constMulL_spec h1] at ha
          rw [constMulL_spec h2] at hb
          exact ih _ _ trivial (ih _ _ ha.2 hb.2)
        · split
          · rename_i ag m n hg hn
            obtain ⟨h, he, hh⟩ := mulPowR_spec hg
            subst he
            exact ih _ _ ha.1 (int_add hh hn ha.2 hb)
          · rename_i ag m hg hnb
            split
            · rename_i bg n hbg
              obtain ⟨h, he, hh⟩ := mulPowR_spec hg
              subst he
              obtain ⟨h', he', hh'⟩ := mulPowR_spec hbg
              subst he'
              exact ih _ _ (ih _ _ ha.1 hb.1) (int_add hh hh' ha.2 hb.2)
            · exact ⟨ha, hb⟩
          · exact ⟨ha, hb⟩

theorem smul_int {a b : E} (ha : IntPow a) (hb : IntPow b) : IntPow (smul a b) := smulF_int _ a b ha hb

/-! #### The bound on nested calls is generous enough -/

theorem sz_pos (e : E) : 1 ≤ sz e := by cases e <;> simp [sz]

theorem sz_powN {a : E} {m : ℝ} (h : powN a = some m) : sz a = 1 := by
  unfold powN at h
  split at h <;> first | rfl | exact absurd h (by simp)

theorem cm_sz {k : Nat} (ih : ∀ a b, sz (smulF k a b) ≤ sz a + sz b + 1) {u : ℝ} {a b : E} : sz (cm (smulF k) u a b) ≤ sz a + sz b + 1 := by
  unfold cm
  split
  · omega
  · split
    · omega
    · split
      · rename_i v h he
        rw [constMulL_spec he]
        refine le_trans (ih _ _) ?_
        simp only [sz]; omega
      · exact le_refl _

theorem smulF_sz (k : Nat) : ∀ a b : E, sz (smulF k a b) ≤ sz a + sz b + 1 := by
  induction k with
  | zero => exact fun a b => le_refl _
  | succ k ih =>
    intro a b
    have hpa := sz_pos a
    have hpb := sz_pos b
    unfold smulF
    split
    · simp only [sz]; omega
    · exact cm_sz ih
    · exact le_trans (cm_sz ih) (by omega)
    · split
      · simp only [sz]; omega
      · split
        · rename_i g n hg
          obtain ⟨h, he, hh⟩ := mulPowR_spec hg
          subst he
          refine le_trans (ih _ _) ?_
          simp only [sz]; omega
        · exact le_refl _
      · split
        · rename_i u ah v bh h1 h2
          rw [constMulL_spec h1, constMulL_spec h2]
          have := ih ah bh
          refine le_trans (ih _ _) ?_
          simp only [sz]; omega
        · split
          · rename_i ag m n hg hn
            obtain ⟨h, he, hh⟩ := mulPowR_spec hg
            subst he
            refine le_trans (ih _ _) ?_
            simp only [sz]; omega
          · rename_i ag m hg hnb
            split
            · rename_i bg n hbg
              obtain ⟨h, he, hh⟩ := mulPowR_spec hg
              subst he
              obtain ⟨h', he', hh'⟩ := mulPowR_spec hbg
              subst he'
              have := ih ag bg
              refine le_trans (ih _ _) ?_
              simp only [sz]; omega
            · exact le_refl _
          · exact le_refl _

theorem cm_fuel {k : Nat} (ih : ∀ a b, sz a + sz b ≤ k → smulF (k + 1) a b = smulF k a b) {u : ℝ} {a b : E} (hs : sz a + sz b ≤ k + 1) :
    cm (smulF (k + 1)) u a b = cm (smulF k) u a b := by
  have hpa := sz_pos a
  unfold cm
  split
  · rfl
  · split
    · rfl
    · split
      · rename_i v h he
        rw [constMulL_spec he] at hs
        exact ih _ _ (by simp only [sz] at hs ⊢; omega)
      · rfl

/-- more nested calls than there are nodes change nothing: the recursion of `Multiplication(a, b)` ends by itself -/
theorem smulF_fuel (k : Nat) : ∀ a b : E, sz a + sz b ≤ k → smulF (k + 1) a b = smulF k a b := by
  induction k with
  | zero => intro a b h; have := sz_pos a; omega
  | succ k ih =>
    intro a b hs
    have hpa := sz_pos a
    have hpb := sz_pos b
    rw [smulF.eq_2 a b (k + 1), smulF.eq_2 a b k]
    split
    · rfl
    · exact cm_fuel ih hs
    · exact cm_fuel ih (by omega)
    · split
      · rfl
      · split
        · rename_i g n hg
          obtain ⟨h, he, hh⟩ := mulPowR_spec hg
          subst he
          have := sz_pos h
          exact ih _ _ (by simp only [sz] at hs ⊢; omega)
        · rfl
      · split
        · rename_i u ah v bh h1 h2
          rw [constMulL_spec h1, constMulL_spec h2] at hs
          simp only [sz] at hs
          rw [ih ah bh (by omega)]
          have := smulF_sz k ah bh
          exact ih _ _ (by simp only [sz]; omega)
        · split
          · rename_i ag m n hg hn
            obtain ⟨h, he, hh⟩ := mulPowR_spec hg
            subst he
            have := sz_pos h
            exact ih _ _ (by simp only [sz] at hs ⊢; omega)
          · rename_i ag m hg hnb
            split
            · rename_i bg n hbg
              obtain ⟨h, he, hh⟩ := mulPowR_spec hg
              subst he
              obtain ⟨h', he', hh'⟩ := mulPowR_spec hbg
              subst he'
              have h1 := sz_pos h
              have h2 := sz_pos h'
              simp only [sz] at hs
              rw [ih ag bg (by omega)]
              have := smulF_sz k ag bg
              exact ih _ _ (by simp only [sz]; omega)
            · rfl
          · rfl

theorem smul_fuel {k : Nat} {a b : E} (h : sz a + sz b ≤ k) : smulF k a b = smul a b := by
  induction k with
  | zero => have := sz_pos a; omega
  | succ k ih =>
    rcases Nat.lt_or_ge (sz a + sz b) (k + 1) with h1 | h1
    · rw [smulF_fuel k a b (by omega), ih (by omega)]
    · unfold smul; rw [show sz a + sz b = k + 1 by omega]

/-! #### Compositions -/

theorem pow_comp_pow {m n x : ℝ} (h1 : RegP n x) (h2 : RegP m (ev (.pow n) x)) (h : (∃ k : ℤ, m = k) ∨ 0 < x) :
    RegP (m * n) x ∧ ev (.pow (m * n)) x = ev (.pow m) (ev (.pow n) x) := by
  rw [ev_pow h2]
  rw [ev_pow h1] at h2 ⊢
  rcases lt_trichotomy 0 x with hx | hx | hx
  · have hr : RegP (m * n) x := .inl hx
    exact ⟨hr, by rw [ev_pow hr, mul_comm, Real.rpow_mul hx.le]⟩
  · obtain ⟨_, k, hk⟩ := (h1.resolve_left (by simp [← hx])).resolve_left (by simp [← hx])
    subst hk
    obtain ⟨j, rfl⟩ := h.resolve_right (by simp [← hx])
    rw [Real.rpow_natCast] at h2 ⊢
    -- k = 0, or the inner value is 0 and j is natural
    rcases Nat.eq_zero_or_pos k with h0 | h0
    · subst h0
      have hr : RegP ((j : ℝ) * ((0 : ℕ) : ℝ)) x := .inr (.inr ⟨hx.symm, 0, by simp⟩)
      exact ⟨hr, by rw [ev_pow hr]; simp⟩
    · have hz : x ^ k = 0 := by rw [← hx]; exact zero_pow (by omega)
      rw [hz] at h2 ⊢
      obtain ⟨_, l, hl⟩ := (h2.resolve_left (lt_irrefl _)).resolve_left (by simp)
      rw [hl]
      have hr : RegP ((l : ℝ) * (k : ℝ)) x := .inr (.inr ⟨hx.symm, l * k, by push_cast; rfl⟩)
      refine ⟨hr, ?_⟩
      rw [ev_pow hr, ← Nat.cast_mul, Real.rpow_natCast, Real.rpow_natCast, Nat.mul_comm, pow_mul, hz]
  · obtain ⟨_, k, hk⟩ := (h1.resolve_left (by linarith)).resolve_right (by simp [hx.ne])
    subst hk
    obtain ⟨j, rfl⟩ := h.resolve_right (by linarith)
    have hr : RegP ((j : ℝ) * (k : ℝ)) x := .inr (.inl ⟨hx, j * k, by push_cast; rfl⟩)
    refine ⟨hr, ?_⟩
    rw [ev_pow hr, ← Int.cast_mul, Real.rpow_intCast, Real.rpow_intCast, Real.rpow_intCast, mul_comm, zpow_mul]

theorem compTail_ok {a b : E} {x : ℝ} (hb : Reg b x) (ha : Reg a (ev b x)) (hc : IntPow a ∨ 0 < x ∨ powN b = none) :
    Reg (compTail a b) x ∧ ev (compTail a b) x = ev a (ev b x) := by
  unfold compTail
  split
  · rename_i v h; rw [constV_spec h]; exact ⟨trivial, rfl⟩
  · exact ⟨ha, rfl⟩
  · split
    · rename_i hnc hni m n hm hn
      have h1 := powN_spec hn x
      rw [h1.2.1] at ha ⊢
      have h2 := powN_spec hm (ev (.pow n) x)
      rw [h2.2.1]
      exact pow_comp_pow (h1.1.1 hb) (h2.1.1 ha) (by
        rcases hc with h | h | h
        · exact .inl ((powN_spec hm 0).2.2.1 h)
        · exact .inr h
        · rw [h] at hn; exact absurd hn (by simp))
    · split
      · refine ⟨trivial, ?_⟩
        have : 1 / 1000000 < x := hb
        show x = Real.exp (Real.log (max x (1 / 1000000)))
        rw [max_eq_left this.le, Real.exp_log (by linarith)]
      · refine ⟨trivial, ?_⟩
        have : 1 / 1000000 < Real.exp x := ha
        show x = Real.log (max (Real.exp x) (1 / 1000000))
        rw [max_eq_left this.le, Real.log_exp]
      · exact ⟨⟨hb, ha, hc⟩, rfl⟩

/-- simplification of a composition keeps regular points and values -/
theorem scomp_ok {a b : E} {x : ℝ} (hb : Reg b x) (ha : Reg a (ev b x)) (hc : IntPow a ∨ 0 < x ∨ powN b = none) :
    Reg (scomp a b) x ∧ ev (scomp a b) x = ev a (ev b x) := by
  fun_induction scomp a b
  · exact ⟨trivial, rfl⟩
  · exact ⟨hb, rfl⟩
  · rename_i u h b ih
    obtain ⟨h1, h2⟩ := ih hb ha.2 (by
      rcases hc with h | h | h
      · exact .inl h.2
      · exact .inr (.inl h)
      · exact .inr (.inr h))
    obtain ⟨h3, h4⟩ := smul_ok (a := .const u) (b := scomp h b) (x := x) trivial h1
    exact ⟨h3, by rw [h4, h2]; rfl⟩
  · exact compTail_ok hb ha hc

end Mass.Calc.Expr
