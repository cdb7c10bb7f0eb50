import Verif.Calc.Expr
/-! C40: `derivative()` is the derivative. -/
namespace Mass.Calc.Expr
open scoped Topology

theorem compTail_int {a b : E} (ha : IntPow a) (hb : IntPow b) : IntPow (compTail a b) := by
  unfold compTail
  split
  · trivial
  · exact ha
  · split
    · rename_i hm hn
      obtain ⟨k, hk⟩ := (powN_spec hm 0).2.2.1 ha
      obtain ⟨l, hl⟩ := (powN_spec hn 0).2.2.1 hb
      exact ⟨k * l, by rw [hk, hl]; push_cast; rfl⟩
    · split
      · trivial
      · trivial
      · exact ⟨ha, hb⟩

theorem scomp_int {a b : E} (ha : IntPow a) (hb : IntPow b) : IntPow (scomp a b) := by
  fun_induction scomp a b
  · trivial
  · exact hb
  · rename_i u h b ih
    exact smul_int trivial (ih ha.2 hb)
  · exact compTail_int ha hb

theorem D_int : ∀ {e : E}, IntPow e → IntPow (D e) := by
  intro e
  induction e with
  | const v => exact fun _ => trivial
  | pow n =>
    intro h
    unfold D
    split
    · trivial
    · obtain ⟨k, hk⟩ := h
      exact smul_int trivial ⟨k - 1, by rw [hk]; push_cast; rfl⟩
  | ident => exact fun _ => trivial
  | log => exact fun _ => ⟨-1, by simp⟩
  | exp => exact fun _ => trivial
  | comp g h ig ih => exact fun hi => smul_int (scomp_int (ig hi.1) hi.2) (ih hi.2)
  | mul g h ig ih => exact fun hi => sadd_int (smul_int (ig hi.1) hi.2) (smul_int hi.1 (ih hi.2))
  | add g h ig ih => exact fun hi => sadd_int (ig hi.1) (ih hi.2)
  | num v => exact fun _ => trivial

theorem regP_open {n x : ℝ} (h : RegP n x) : ∀ᶠ y in 𝓝 x, RegP n y := by
  rcases h with h | ⟨h, k, hk⟩ | ⟨h, k, hk⟩
  · filter_upwards [lt_mem_nhds h] with y hy using .inl hy
  · filter_upwards [gt_mem_nhds h] with y hy using .inr (.inl ⟨hy, k, hk⟩)
  · refine Filter.Eventually.of_forall (fun y => ?_)
    rcases lt_trichotomy 0 y with hy | hy | hy
    · exact .inl hy
    · exact .inr (.inr ⟨hy.symm, k, hk⟩)
    · exact .inr (.inl ⟨hy, k, by rw [hk]; simp⟩)

/-- regular points have regular neighbours, and the expression is smooth there -/
theorem reg_open_smooth (e : E) : ∀ x, Reg e x → (∀ᶠ y in 𝓝 x, Reg e y) ∧ ∀ n : ℕ, ContDiffAt ℝ n (ev e) x := by
  induction e with
  | const v => exact fun x _ => ⟨Filter.Eventually.of_forall (fun _ => trivial), fun n => contDiffAt_const⟩
  | ident => exact fun x _ => ⟨Filter.Eventually.of_forall (fun _ => trivial), fun n => contDiffAt_id⟩
  | exp => exact fun x _ => ⟨Filter.Eventually.of_forall (fun _ => trivial), fun n => Real.contDiff_exp.contDiffAt⟩
  | num v => exact fun x h => h.elim
  | pow m =>
    intro x h
    have ho := regP_open h
    refine ⟨ho, fun n => ?_⟩
    by_cases hx : x = 0
    · obtain ⟨_, k, hk⟩ := (h.resolve_left (by simp [hx])).resolve_left (by simp [hx])
      subst hk
      have : ev (.pow (k : ℝ)) = fun x => x ^ k := funext (ev_natpow k)
      rw [this]
      exact (contDiff_id.pow k).contDiffAt
    · refine (Real.contDiffAt_rpow_const_of_ne (p := m) hx).congr_of_eventuallyEq ?_
      filter_upwards [ho] with y hy using ev_pow hy
  | log =>
    intro x h
    have h : 1 / 1000000 < x := h
    have ho : ∀ᶠ y in 𝓝 x, Reg .log y := lt_mem_nhds h
    refine ⟨ho, fun n => ?_⟩
    refine (Real.contDiffAt_log.2 (by linarith : x ≠ 0) : ContDiffAt ℝ n Real.log x).congr_of_eventuallyEq ?_
    filter_upwards [ho] with y hy
    have hy : 1 / 1000000 < y := hy
    show Real.log (max y (1 / 1000000)) = _
    rw [max_eq_left hy.le]
  | comp g h ig ih =>
    intro x hr
    obtain ⟨h1, h2, h3⟩ := hr
    obtain ⟨ho, hs⟩ := ih x h1
    obtain ⟨go, gs⟩ := ig _ h2
    refine ⟨?_, fun n => (gs n).comp x (hs n)⟩
    have hc : ContinuousAt (ev h) x := (hs 0).continuousAt
    have h4 : ∀ᶠ y in 𝓝 x, Reg g (ev h y) := hc.eventually go
    rcases h3 with h3 | h3 | h3
    · filter_upwards [ho, h4] with y a b using ⟨a, b, .inl h3⟩
    · filter_upwards [ho, h4, lt_mem_nhds h3] with y a b c using ⟨a, b, .inr (.inl c)⟩
    · filter_upwards [ho, h4] with y a b using ⟨a, b, .inr (.inr h3)⟩
  | mul g h ig ih =>
    intro x hr
    obtain ⟨ho, hs⟩ := ih x hr.2
    obtain ⟨go, gs⟩ := ig x hr.1
    exact ⟨go.and ho, fun n => (gs n).mul (hs n)⟩
  | add g h ig ih =>
    intro x hr
    obtain ⟨ho, hs⟩ := ih x hr.2
    obtain ⟨go, gs⟩ := ig x hr.1
    exact ⟨go.and ho, fun n => (gs n).add (hs n)⟩

theorem pow_deriv {n x : ℝ} (h : RegP n x) : Reg (smul (.const n) (.pow (n - 1))) x ∧ HasDerivAt (ev (.pow n)) (ev (smul (.const n) (.pow (n - 1))) x) x := by
  have ho := regP_open h
  by_cases hz : n = 0
  · subst hz
    rw [smul_zero _ rfl]
    refine ⟨trivial, ?_⟩
    have : ev (.pow 0) = fun _ => 1 := by
      funext y
      simp [ev]
    rw [this]
    exact hasDerivAt_const x 1
  · have hr : RegP (n - 1) x := by
      rcases h with h | ⟨h, k, hk⟩ | ⟨h, k, hk⟩
      · exact .inl h
      · exact .inr (.inl ⟨h, k - 1, by rw [hk]; push_cast; rfl⟩)
      · refine .inr (.inr ⟨h, k - 1, ?_⟩)
        have : 1 ≤ k := Nat.one_le_iff_ne_zero.2 (by rintro rfl; simp at hk; exact hz hk)
        rw [hk]; push_cast [this]; rfl
    obtain ⟨h1, h2⟩ := smul_ok (a := .const n) (b := .pow (n - 1)) (x := x) trivial hr
    refine ⟨h1, ?_⟩
    rw [h2, ev_pow hr]
    have hd : HasDerivAt (fun y : ℝ => y ^ n) (n * x ^ (n - 1)) x := by
      refine Real.hasDerivAt_rpow_const ?_
      by_cases hx : x = 0
      · obtain ⟨_, k, hk⟩ := (h.resolve_left (by simp [hx])).resolve_left (by simp [hx])
        right
        rw [hk]
        exact_mod_cast Nat.one_le_iff_ne_zero.2 (by rintro rfl; simp at hk; exact hz hk)
      · exact .inl hx
    refine hd.congr_of_eventuallyEq ?_
    filter_upwards [ho] with y hy using ev_pow hy

/-- `derivative()` is regular wherever the expression is, and denotes its derivative there -/
theorem D_ok (e : E) : ∀ x, Reg e x → Reg (D e) x ∧ HasDerivAt (ev e) (ev (D e) x) x := by
  induction e with
  | const v => exact fun x _ => ⟨trivial, hasDerivAt_const x v⟩
  | ident => exact fun x _ => ⟨trivial, hasDerivAt_id' x⟩
  | exp => exact fun x _ => ⟨trivial, Real.hasDerivAt_exp x⟩
  | num v => exact fun x h => h.elim
  | pow n =>
    intro x h
    unfold D
    split
    · rename_i h1
      subst h1
      refine ⟨trivial, (hasDerivAt_id' x).congr_of_eventuallyEq ?_⟩
      refine Filter.Eventually.of_forall (fun y => ?_)
      rw [ev_pow (regP_one y)]
      simp
    · exact pow_deriv h
  | log =>
    intro x h
    have h : 1 / 1000000 < x := h
    have hx : 0 < x := by linarith
    have hr : RegP (-1) x := .inl hx
    refine ⟨hr, ?_⟩
    show HasDerivAt _ (ev (.pow (-1)) x) x
    rw [ev_pow hr, Real.rpow_neg_one]
    refine (Real.hasDerivAt_log hx.ne').congr_of_eventuallyEq ?_
    filter_upwards [lt_mem_nhds h] with y hy
    show Real.log (max y (1 / 1000000)) = _
    rw [max_eq_left hy.le]
  | comp g h ig ih =>
    intro x hr
    obtain ⟨h1, h2, h3⟩ := hr
    obtain ⟨r1, d1⟩ := ih x h1
    obtain ⟨r2, d2⟩ := ig _ h2
    obtain ⟨r3, e3⟩ := scomp_ok h1 r2 (h3.imp_left D_int)
    obtain ⟨r4, e4⟩ := smul_ok r3 r1
    refine ⟨r4, ?_⟩
    show HasDerivAt _ (ev (smul (scomp (D g) h) (D h)) x) x
    rw [e4, e3]
    exact d2.comp x d1
  | mul g h ig ih =>
    intro x hr
    obtain ⟨r1, d1⟩ := ig x hr.1
    obtain ⟨r2, d2⟩ := ih x hr.2
    obtain ⟨r3, e3⟩ := smul_ok r1 hr.2
    obtain ⟨r4, e4⟩ := smul_ok hr.1 r2
    obtain ⟨r5, e5⟩ := sadd_ok r3 r4
    refine ⟨r5, ?_⟩
    show HasDerivAt _ (ev (sadd (smul (D g) h) (smul g (D h))) x) x
    rw [e5, e3, e4]
    exact d1.mul d2
  | add g h ig ih =>
    intro x hr
    obtain ⟨r1, d1⟩ := ig x hr.1
    obtain ⟨r2, d2⟩ := ih x hr.2
    obtain ⟨r5, e5⟩ := sadd_ok r1 r2
    refine ⟨r5, ?_⟩
    show HasDerivAt _ (ev (sadd (D g) (D h)) x) x
    rw [e5]
    exact d1.add d2

/-- one more derivative, when `m` denotes the derivative of `e` -/
theorem iter_step {e m : E} (h : ∀ x, Reg e x → Reg m x ∧ HasDerivAt (ev e) (ev m x) x) (n : Nat) (x : ℝ) (hx : Reg e x) :
    iteratedDeriv (n + 1) (ev e) x = iteratedDeriv n (ev m) x := by
  rw [iteratedDeriv_succ']
  refine Filter.EventuallyEq.iteratedDeriv_eq n ?_
  filter_upwards [(reg_open_smooth e x hx).1] with y hy using (h y hy).2.deriv

/-- `derivative(n)`: everywhere regular where the expression is, and the n-th derivative there -/
theorem dn_ok (n : Nat) : ∀ (e : E) (x : ℝ), Reg e x → Reg (dn n e) x ∧ ev (dn n e) x = iteratedDeriv n (ev e) x := by
  induction n with
  | zero => intro e x h; unfold dn; exact ⟨h, by rw [iteratedDeriv_zero]⟩
  | succ k ih =>
    have step : ∀ {e m : E}, (∀ x, Reg e x → Reg m x ∧ HasDerivAt (ev e) (ev m x) x) → ∀ x, Reg e x →
        Reg (dn k m) x ∧ ev (dn k m) x = iteratedDeriv (k + 1) (ev e) x := by
      intro e m h x hx
      rw [iter_step h k x hx]
      exact ih m x (h x hx).1
    intro e
    induction e with
    | const v =>
      intro x _
      rw [dn.eq_2]
      refine ⟨trivial, ?_⟩
      show (0 : ℝ) = _
      have := iter_step (e := .const v) (m := .const 0) (fun y _ => ⟨trivial, hasDerivAt_const y v⟩) k x trivial
      rw [this]
      have : ev (.const 0) = fun _ => (0 : ℝ) := rfl
      rw [this, iteratedDeriv_const]
      split <;> rfl
    | ident =>
      intro x hx
      unfold dn
      split
      · rename_i h0; subst h0
        refine ⟨trivial, ?_⟩
        rw [iteratedDeriv_one]
        exact (hasDerivAt_id' x).deriv.symm
      · exact step (fun y _ => by
          have h := pow_deriv (regP_one y)
          refine ⟨h.1, h.2.congr_of_eventuallyEq (Filter.Eventually.of_forall (fun z => ?_))⟩
          rw [ev_pow (regP_one z), Real.rpow_one]; rfl) x hx
    | exp =>
      intro x _
      unfold dn
      refine ⟨trivial, ?_⟩
      have : ev .exp = Real.exp := rfl
      rw [this, iteratedDeriv_eq_iterate, Real.iter_deriv_exp]
    | num v => exact fun x h => h.elim
    | pow m =>
      intro x hx
      unfold dn
      split
      · rename_i h
        obtain ⟨rfl, rfl⟩ := h
        refine ⟨trivial, ?_⟩
        rw [iteratedDeriv_one]
        have := (D_ok (.pow 1) x hx).2.deriv
        rw [this]
        unfold D
        rw [if_pos rfl]
      · exact step (fun y hy => pow_deriv hy) x hx
    | log => intro x hx; unfold dn; exact step (fun y hy => D_ok .log y hy) x hx
    | comp g h ig ih' => intro x hx; unfold dn; exact step (fun y hy => D_ok (.comp g h) y hy) x hx
    | mul g h ig ih' => intro x hx; unfold dn; exact step (fun y hy => D_ok (.mul g h) y hy) x hx
    | add g h ig ih' =>
      intro x hx
      unfold dn
      obtain ⟨r1, e1⟩ := ig x hx.1
      obtain ⟨r2, e2⟩ := ih' x hx.2
      obtain ⟨r3, e3⟩ := sadd_ok r1 r2
      refine ⟨r3, ?_⟩
      rw [e3, e1, e2]
      exact (iteratedDeriv_add ((reg_open_smooth g x hx.1).2 _) ((reg_open_smooth h x hx.2).2 _)).symm

/-- `__call__(x, der=n)` -/
theorem call_ok (e : E) : ∀ (x : ℝ) (n : Nat), Reg e x → call e x n = iteratedDeriv n (ev e) x := by
  induction e with
  | const v =>
    intro x n h
    unfold call
    have : ev (.const v) = fun _ => v := rfl
    rw [this, iteratedDeriv_const]
  | num v => exact fun x n h => h.elim
  | exp =>
    intro x n h
    have : ev .exp = Real.exp := rfl
    rw [this, iteratedDeriv_eq_iterate, Real.iter_deriv_exp]
    rfl
  | ident =>
    intro x n h
    unfold call
    split
    · rename_i h0; rw [h0, iteratedDeriv_zero]; rfl
    · exact (dn_ok n .ident x h).2
  | pow m =>
    intro x n h
    unfold call
    split
    · rename_i h0; rw [h0, iteratedDeriv_zero]
    · exact (dn_ok n (.pow m) x h).2
  | log =>
    intro x n h
    unfold call
    split
    · rename_i h0; rw [h0, iteratedDeriv_zero]
    · split
      · rename_i h1; rw [h1, iteratedDeriv_one]; exact (D_ok .log x h).2.deriv.symm
      · obtain ⟨k, rfl⟩ : ∃ k, n = k + 1 := ⟨n - 1, by omega⟩
        rw [Nat.add_sub_cancel, iter_step (D_ok .log) k x h]
        exact (dn_ok k (.pow (-1)) x (D_ok .log x h).1).2
  | comp g h ig ih =>
    intro x n hr
    unfold call
    split
    · rename_i h0; rw [h0, iteratedDeriv_zero]
    · exact (dn_ok n (.comp g h) x hr).2
  | mul g h ig ih =>
    intro x n hr
    unfold call
    split
    · rename_i h0
      rw [h0, ig x 0 hr.1, ih x 0 hr.2, iteratedDeriv_zero, iteratedDeriv_zero, iteratedDeriv_zero]; rfl
    · have : ev (.mul g h) = ev g * ev h := rfl
      rw [this, iteratedDeriv_mul ((reg_open_smooth g x hr.1).2 n) ((reg_open_smooth h x hr.2).2 n)]
      refine Finset.sum_congr rfl (fun k hk => ?_)
      have hk : k ≤ n := by have := Finset.mem_range.1 hk; omega
      rw [ig x k hr.1, ih x (n - k) hr.2, Nat.cast_choose ℝ hk]
      have h1 : (k.factorial : ℝ) ≠ 0 := by exact_mod_cast Nat.factorial_ne_zero k
      have h2 : ((n - k).factorial : ℝ) ≠ 0 := by exact_mod_cast Nat.factorial_ne_zero (n - k)
      field_simp
  | add g h ig ih =>
    intro x n hr
    unfold call
    rw [ig x n hr.1, ih x n hr.2]
    exact (iteratedDeriv_add ((reg_open_smooth g x hr.1).2 _) ((reg_open_smooth h x hr.2).2 _)).symm

/-- C40 (partial: the claim is false for fractional powers of plain powers, `simplify_fails`). At every regular point of every expression, `derivative(n)` and
evaluation with `der=n` give the true n-th derivative of the function the expression denotes. -/
theorem derivative_partial (e : E) (x : ℝ) (h : Reg e x) (n : Nat) :
    ev (dn n e) x = iteratedDeriv n (ev e) x ∧ call e x n = iteratedDeriv n (ev e) x ∧ Reg (dn n e) x ∧
    HasDerivAt (ev (dn n e)) (ev (dn (n + 1) e) x) x := by
  obtain ⟨h1, h2⟩ := dn_ok n e x h
  refine ⟨h2, call_ok e x n h, h1, ?_⟩
  have h3 := (dn_ok (n + 1) e x h).2
  obtain ⟨_, h4⟩ := D_ok (dn n e) x h1
  have : ev (dn (n + 1) e) x = ev (D (dn n e)) x := by
    rw [h3, iteratedDeriv_succ, ← h4.deriv]
    refine Filter.EventuallyEq.deriv_eq ?_
    filter_upwards [(reg_open_smooth e x h).1] with y hy using ((dn_ok n e y hy).2).symm
  rw [this]
  exact h4

/-- C40 (partial, as above). The automatic simplifications keep regular points regular and do not change values: sums, differences, products, quotients,
compositions and powers evaluate to the sum, difference, product, ... of the values. -/
theorem simplify_partial (f g : E) (x : ℝ) (hg : Reg g x) :
    (Reg f x → ev (sadd f g) x = ev f x + ev g x ∧ ev (smul f g) x = ev f x * ev g x ∧ ev (sub f g) x = ev f x - ev g x) ∧
    (Reg f x → ev g x ≠ 0 → ev (div f g) x = ev f x / ev g x) ∧
    (Reg f (ev g x) → IntPow f ∨ 0 < x ∨ powN g = none → ev (scomp f g) x = ev f (ev g x)) ∧
    (∀ y, 0 < ev g x → 0 < x ∨ powN g = none → ev (power g y) x = ev g x ^ y) ∧
    ev (neg g) x = -ev g x := by
  have hn := smul_ok (a := .const (-1)) (b := g) (x := x) trivial hg
  have hnv : ev (neg g) x = -ev g x := by unfold neg; rw [hn.2]; simp [ev]
  refine ⟨fun hf => ⟨(sadd_ok hf hg).2, (smul_ok hf hg).2, ?_⟩, fun hf h0 => ?_, fun hf hc => (scomp_ok hg hf hc).2, fun y h0 hc => ?_, hnv⟩
  · unfold sub
    rw [(sadd_ok hf (show Reg (neg g) x from hn.1)).2, hnv]; ring
  · have hr : RegP (-1) (ev g x) := by
      rcases lt_or_gt_of_ne h0 with h | h
      · exact .inr (.inl ⟨h, -1, by simp⟩)
      · exact .inl h
    have hs := scomp_ok (a := .pow (-1)) hg hr (.inl ⟨-1, by simp⟩)
    unfold div
    rw [(smul_ok hf hs.1).2, hs.2, ev_pow hr]
    have : ((-1 : ℝ)) = ((-1 : ℤ) : ℝ) := by simp
    rw [this, Real.rpow_intCast, zpow_neg_one, div_eq_mul_inv]
  · have hr : RegP y (ev g x) := .inl h0
    unfold power
    rw [(scomp_ok (a := .pow y) hg hr (.inr hc)).2, ev_pow hr]

/-- C40 is false as stated: (x**2)**0.5 is simplified to x, so that at x = -2 it is -2 where the expression written has the value 2. -/
theorem simplify_fails : ev (scomp (.pow (1 / 2)) (.pow 2)) (-2) = -2 ∧ ev (.pow (1 / 2)) (ev (.pow 2) (-2)) = 2 := by
  have h2 : ev (.pow 2) (-2) = 4 := by
    have := ev_natpow 2 (-2)
    norm_num at this ⊢
    exact this
  constructor
  · show ev (.pow (1 / 2 * 2)) (-2) = -2
    rw [show (1 / 2 * 2 : ℝ) = 1 by norm_num, ev_pow (regP_one _), Real.rpow_one]
  · rw [h2, ev_pow (.inl (by norm_num)), show (4 : ℝ) = 2 ^ (2 : ℝ) by norm_num, ← Real.rpow_mul (by norm_num)]
    norm_num

/-- C40 is false for `f + 2`, `f - 2`, `f * 2` with the number on the right: the bare number is stored as an operand and the result can be evaluated nowhere
(calling it raises TypeError), while `2 + f` works. -/
theorem number_operand_fails (x : ℝ) : ¬ Reg (sadd .ident (.num 2)) x ∧ ¬ Reg (smul .ident (.num 2)) x ∧ Reg (sadd (.const 2) .ident) x ∧
    ev (sadd (.const 2) .ident) x = 2 + x := by
  refine ⟨fun h => h.2, ?_, (sadd_ok (a := .const 2) (b := .ident) trivial trivial).1, (sadd_ok (a := .const 2) (b := .ident) trivial trivial).2⟩
  intro h
  have : smul .ident (.num 2) = .mul .ident (.num 2) := rfl
  rw [this] at h
  exact h.2

/-- C40, instance: the sigmoid 1 / (1 + exp(-x)) is regular everywhere, so its symbolic derivative is right everywhere. -/
example (x : ℝ) : HasDerivAt (fun x => 1 / (1 + Real.exp (-1 * x)))
    (ev (dn 1 (.comp (.pow (-1)) (.add (.const 1) (.comp .exp (.mul (.const (-1)) .ident))))) x) x := by
  have hp : 0 < 1 + Real.exp (-1 * x) := by positivity
  have h : Reg (.comp (.pow (-1)) (.add (.const 1) (.comp .exp (.mul (.const (-1)) .ident)))) x :=
    ⟨⟨trivial, ⟨trivial, trivial⟩, trivial, .inl trivial⟩, .inl hp, .inl ⟨-1, by simp⟩⟩
  have hd := (derivative_partial _ x h 0).2.2.2
  refine hd.congr_of_eventuallyEq (Filter.Eventually.of_forall (fun y => ?_))
  have hy : 0 < 1 + Real.exp (-1 * y) := by positivity
  unfold dn
  show _ = ev (.pow (-1)) (1 + Real.exp (-1 * y))
  rw [ev_pow (.inl hy), Real.rpow_neg_one]
  exact one_div _

/-- C40, instance of the simplifications: 2 * x * (3 * x**2) becomes 6 * x**3 -/
example : smul (smul (.const 2) .ident) (smul (.const 3) (.pow 2)) = .mul (.const (2 * 3)) (.pow (1 + 2)) := by
  have h1 : smul (.const 2) .ident = .mul (.const 2) .ident := by
    simp [smul, smulF, sz, constV, cm, constMulL]
  have h2 : smul (.const 3) (.pow 2) = .mul (.const 3) (.pow 2) := by
    simp [smul, smulF, sz, constV, cm, constMulL]
  rw [h1, h2]
  have : ((2 : ℝ) * 3 = 0) = False := by norm_num
  have : ((2 : ℝ) * 3 = 1) = False := by norm_num
  simp [smul, smulF, sz, constV, powN, constMulL, cm, *]

end Mass.Calc.Expr
