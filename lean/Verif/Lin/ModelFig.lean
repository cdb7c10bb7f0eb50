import Verif.Lin.PulseModel
import Mathlib.Algebra.Order.Group.Unbundled.Abs
import Mathlib.Tactic.Linarith
/-! C195: what the figures of a pulse model show (mass/core/pulse_model.py `plot`), on the model of C48. Exact arithmetic over an ordered field. -/
namespace Mass.Lin.ModelFig
open Mass Matrix Mass.Lin.PM
variable {K : Type} [Field K] [LinearOrder K] [IsStrictOrderedRing K]

/-! ### model -/

/-- what is drawn, pulse_model.py L154-201: curves with their labels (projectors, basis), the first pulses and residuals, the picture of the errors before the logarithm, and the two curves of the second figure -/
structure Fig (K : Type) (n k t : ℕ) where
  projectors : List ((Fin n → K) × Label)
  basis : List ((Fin n → K) × Label)
  pulses : List (Fin n → K)
  residuals : List (Fin n → K)
  legend : ℕ
  wrongness : Matrix (Fin k) (Fin k) K
  pulse0 : Fin n → K
  model0 : Fin n → K

/-- the modelled pulses, pulse_model.py L155-156 -/
def modelled {n k t : ℕ} (M : Model K n k) (T : Matrix (Fin n) (Fin t) K) : Matrix (Fin n) (Fin t) K := M.B * (M.P * T)

/-- the errors, not below `tiny` = 1e-20, pulse_model.py L185-188 -/
def wrong {n k : ℕ} (tiny : K) (M : Model K n k) : Matrix (Fin k) (Fin k) K := fun i j =>
  let w := |(M.P * M.B) i j - (1 : Matrix (Fin k) (Fin k) K) i j|
  if w < tiny then tiny else w

/-- `plot`, pulse_model.py L147-201, for a model with `extra` components from the 5-lag filters and training pulses T (columns). The legends give the reversed labels to the reversed curves in
their order. Without a training pulse: IndexError (L198). -/
def plot {n k t : ℕ} (tiny : K) (M : Model K n k) (extra : ℕ) (T : Matrix (Fin n) (Fin t) K) : Except Exc (Fig K n k t) :=
  if h : 0 < t then
    .ok ⟨((List.finRange k).reverse.map (fun i => M.P i)).zip (labels k extra).reverse, ((List.finRange k).reverse.map (fun i => fun s => M.B s i)).zip (labels k extra).reverse,
      ((List.finRange t).take 10).map (fun j => fun s => T s j), ((List.finRange t).take 10).map (fun j => fun s => (T - modelled M T) s j), 10, wrong tiny M,
      fun s => T s ⟨0, h⟩, fun s => modelled M T s ⟨0, h⟩⟩
  else .error .index

/-! ### lemmas -/

/-- the sign of a component when it is saved inverted [specification] -/
def sgn {k : ℕ} (i : Fin k) : K := if i.val = 0 then 1 else -1

theorem sgn_sq {k : ℕ} (i : Fin k) : (sgn i : K) * sgn i = 1 := by unfold sgn; split <;> simp

theorem abs_sgn {k : ℕ} (i : Fin k) : |(sgn i : K)| = 1 := by unfold sgn; split <;> simp

theorem flip_P {n k : ℕ} (M : Model K n k) (i : Fin k) (j : Fin n) : (PM.flip M).P i j = sgn i * M.P i j := by unfold PM.flip sgn; dsimp only; split <;> simp

theorem flip_B {n k : ℕ} (M : Model K n k) (i : Fin n) (j : Fin k) : (PM.flip M).B i j = M.B i j * sgn j := by unfold PM.flip sgn; dsimp only; split <;> simp

theorem flip_modelled {n k t : ℕ} (M : Model K n k) (T : Matrix (Fin n) (Fin t) K) : modelled (PM.flip M) T = modelled M T := by
  ext s j
  unfold modelled
  rw [Matrix.mul_apply, Matrix.mul_apply]
  apply Finset.sum_congr rfl
  intro i _
  have : ((PM.flip M).P * T) i j = sgn i * (M.P * T) i j := by
    rw [Matrix.mul_apply, Matrix.mul_apply, Finset.mul_sum]
    exact Finset.sum_congr rfl (fun r _ => by rw [flip_P, mul_assoc])
  rw [this, flip_B, mul_assoc, ← mul_assoc (sgn i), sgn_sq, one_mul]

theorem flip_wrong {n k : ℕ} (tiny : K) (M : Model K n k) : wrong tiny (PM.flip M) = wrong tiny M := by
  funext i j
  have h1 : ((PM.flip M).P * (PM.flip M).B) i j = sgn i * (M.P * M.B) i j * sgn j := by
    rw [Matrix.mul_apply, Matrix.mul_apply, Finset.mul_sum, Finset.sum_mul]
    exact Finset.sum_congr rfl (fun r _ => by rw [flip_P, flip_B, mul_assoc, mul_assoc, mul_assoc])
  have h2 : (1 : Matrix (Fin k) (Fin k) K) i j = sgn i * (1 : Matrix (Fin k) (Fin k) K) i j * sgn j := by
    by_cases h : i = j
    · subst h; rw [Matrix.one_apply_eq, mul_one, sgn_sq]
    · rw [Matrix.one_apply_ne h, mul_zero, zero_mul]
  have h3 : |((PM.flip M).P * (PM.flip M).B) i j - (1 : Matrix (Fin k) (Fin k) K) i j| = |(M.P * M.B) i j - (1 : Matrix (Fin k) (Fin k) K) i j| := by
    rw [h1]
    nth_rewrite 1 [h2]
    rw [← sub_mul, ← mul_sub, abs_mul, abs_mul, abs_sgn, abs_sgn, one_mul, mul_one]
  unfold wrong
  dsimp only
  rw [h3]

/-! ### theorems -/

/-- C195: the figure of a model: every component is drawn once, from the last to the first, with its own label; the first ten pulses with what is left of them after subtracting the modelled pulse; and the first
pulse beside its model. There is a figure exactly if there is a training pulse. -/
theorem curves_partial {n k t : ℕ} (tiny : K) (M : Model K n k) (extra : ℕ) (T : Matrix (Fin n) (Fin t) K) (hk : 3 ≤ k) :
    ((∃ f, plot tiny M extra T = .ok f) ↔ 0 < t) ∧ ∀ f, plot tiny M extra T = .ok f →
      f.projectors.length = k ∧ f.basis.length = k ∧
      (∀ i : Fin k, ∃ l, (labels k extra)[i.val]? = some l ∧ f.projectors[k - 1 - i.val]? = some (M.P i, l) ∧ f.basis[k - 1 - i.val]? = some (fun s => M.B s i, l)) ∧
      f.pulses.length = min 10 t ∧ f.residuals.length = min 10 t ∧
      (∀ j : Fin t, j.val < 10 → ∃ x r, f.pulses[j.val]? = some x ∧ f.residuals[j.val]? = some r ∧ (∀ s, x s = T s j) ∧ ∀ s, x s = r s + modelled M T s j) ∧
      (∀ s, ∃ h : 0 < t, f.pulse0 s = T s ⟨0, h⟩ ∧ f.model0 s = modelled M T s ⟨0, h⟩) := by
  unfold plot
  have hl : (labels k extra).length = k := (labels_partial k extra hk).1
  refine ⟨?_, ?_⟩
  · split <;> simp [*]
  · intro f hf
    split at hf
    · rename_i h
      injection hf with hf
      subst hf
      refine ⟨by simp [hl], by simp [hl], ?_, by simp, by simp, ?_, fun s => ⟨h, rfl, rfl⟩⟩
      · intro i
        have hi : i.val < (labels k extra).length := by rw [hl]; exact i.isLt
        have h1 : (labels k extra).reverse[k - 1 - i.val]? = some (labels k extra)[i.val] := by
          rw [List.getElem?_reverse (by omega), hl, show k - 1 - (k - 1 - i.val) = i.val by omega, List.getElem?_eq_getElem hi]
        have h2 : ∀ {β : Type} (g : Fin k → β), ((List.finRange k).reverse.map g)[k - 1 - i.val]? = some (g i) := by
          intro β g
          have hlen : (List.finRange k).length = k := by simp
          rw [List.getElem?_map, List.getElem?_reverse (by rw [hlen]; omega), hlen, show k - 1 - (k - 1 - i.val) = i.val by omega, List.getElem?_eq_getElem (by rw [hlen]; exact i.isLt)]
          simp
        refine ⟨_, List.getElem?_eq_getElem hi, ?_, ?_⟩
        · dsimp only
          rw [List.getElem?_zip_eq_some]
          exact ⟨h2 _, h1⟩
        · dsimp only
          rw [List.getElem?_zip_eq_some]
          exact ⟨h2 _, h1⟩
      · intro j hj
        have h2 : ∀ {β : Type} (g : Fin t → β), (((List.finRange t).take 10).map g)[j.val]? = some (g j) := by
          intro β g
          rw [List.getElem?_map, List.getElem?_take_of_lt hj, List.getElem?_eq_getElem (by simp)]
          simp
        exact ⟨_, _, h2 _, h2 _, fun s => rfl, fun s => by simp⟩
    · cases hf

/-- C195: for a model whose projectors are dual to its basis: what is left of a pulse has no component left, and nothing is left exactly of the pulses that are combinations of the basis. -/
theorem residual_spec {n k t : ℕ} (M : Model K n k) (h : Dual M) (T : Matrix (Fin n) (Fin t) K) :
    M.P * (T - modelled M T) = 0 ∧ modelled M (modelled M T) = modelled M T ∧ (T - modelled M T = 0 ↔ ∃ X : Matrix (Fin k) (Fin t) K, T = M.B * X) := by
  unfold Dual at h
  have h1 : M.P * modelled M T = M.P * T := by unfold modelled; rw [← Matrix.mul_assoc, h, Matrix.one_mul]
  refine ⟨by rw [Matrix.mul_sub, h1, sub_self], by unfold modelled at h1 ⊢; rw [h1], ⟨fun e => ⟨M.P * T, sub_eq_zero.mp e⟩, ?_⟩⟩
  rintro ⟨X, rfl⟩
  unfold modelled
  rw [← Matrix.mul_assoc M.P, h, Matrix.one_mul, sub_self]

/-- C195: the picture of the errors is nowhere below `tiny`, so that its logarithm exists; each value is the error of that product of a projector and a basis vector if it is at least `tiny`. It is `tiny`
everywhere if the projectors are dual to the basis, and only if they are to within `tiny`. -/
theorem wrong_spec {n k : ℕ} (tiny : K) (ht : 0 < tiny) (M : Model K n k) :
    (∀ i j, 0 < wrong tiny M i j ∧ tiny ≤ wrong tiny M i j ∧ |(M.P * M.B) i j - (1 : Matrix (Fin k) (Fin k) K) i j| ≤ wrong tiny M i j) ∧
    (∀ i j, tiny ≤ |(M.P * M.B) i j - (1 : Matrix (Fin k) (Fin k) K) i j| → wrong tiny M i j = |(M.P * M.B) i j - (1 : Matrix (Fin k) (Fin k) K) i j|) ∧
    (Dual M → ∀ i j, wrong tiny M i j = tiny) ∧ ((∀ i j, wrong tiny M i j = tiny) → ∀ i j, |(M.P * M.B) i j - (1 : Matrix (Fin k) (Fin k) K) i j| ≤ tiny) := by
  have h0 : ∀ i j, tiny ≤ wrong tiny M i j ∧ |(M.P * M.B) i j - (1 : Matrix (Fin k) (Fin k) K) i j| ≤ wrong tiny M i j := by
    intro i j
    unfold wrong
    dsimp only
    split
    · exact ⟨le_refl _, le_of_lt ‹_›⟩
    · exact ⟨not_lt.mp ‹_›, le_refl _⟩
  refine ⟨fun i j => ⟨lt_of_lt_of_le ht (h0 i j).1, h0 i j⟩, fun i j h => by unfold wrong; dsimp only; rw [if_neg (not_lt.mpr h)], fun hd i j => ?_, fun h i j => by rw [← h i j]; exact (h0 i j).2⟩
  unfold Dual at hd
  unfold wrong
  dsimp only
  rw [hd, sub_self, abs_zero, if_pos ht]

/-- C195: a model that was saved inverted and is read back shows the same pulses, residuals, modelled pulse and errors as the one that was saved; its components are the same up to the sign. -/
theorem inverted {n k t : ℕ} (tiny : K) (M : Model K n k) (extra : ℕ) (T : Matrix (Fin n) (Fin t) K) (f g : Fig K n k t) (hf : plot tiny M extra T = .ok f) (hg : plot tiny (PM.flip M) extra T = .ok g) :
    g.pulses = f.pulses ∧ g.residuals = f.residuals ∧ g.wrongness = f.wrongness ∧ g.pulse0 = f.pulse0 ∧ g.model0 = f.model0 := by
  unfold plot at hf hg
  split at hf
  · rename_i h
    rw [dif_pos h] at hg
    injection hf with hf
    injection hg with hg
    subst hf
    subst hg
    simp only [flip_modelled, flip_wrong, and_self]
  · cases hf

/-- Disagreement (C195): for a model with components from the 5-lag filters one curve has the wrong label: the first of these components is labelled as an SVD component. -/
theorem label_fails {n k t : ℕ} (tiny : K) (M : Model K n k) (extra : ℕ) (T : Matrix (Fin n) (Fin t) K) (hk : 3 + extra ≤ k) (he : 1 ≤ extra) (f : Fig K n k t) (hf : plot tiny M extra T = .ok f) :
    f.projectors[extra - 1]? = some (M.P ⟨k - extra, by omega⟩, .svd (k - 3 - extra)) := by
  obtain ⟨l, h1, h2, _⟩ := ((curves_partial tiny M extra T (by omega)).2 f hf).2.2.1 ⟨k - extra, by omega⟩
  dsimp only at h1 h2
  rw [labels_fails k extra hk he, Option.some.injEq] at h1
  subst h1
  rwa [show k - 1 - (k - extra) = extra - 1 by omega] at h2

/-- Disagreement (C195): with fewer than ten training pulses the legends have entries without a curve. -/
theorem legend_fails {n k t : ℕ} (tiny : K) (M : Model K n k) (extra : ℕ) (T : Matrix (Fin n) (Fin t) K) (ht : t < 10) (f : Fig K n k t) (hf : plot tiny M extra T = .ok f) : f.pulses.length < f.legend := by
  unfold plot at hf
  split at hf
  · injection hf with hf
    subst hf
    simp [ht]
  · cases hf

/-! ### examples -/

/-- a model of three components in four samples, projectors dual to the basis -/
def ex : Model ℚ 4 3 := ⟨!![1, 0, 0, 0; 0, 1, 0, 0; 0, 0, 1, -1], !![1, 0, 0; 0, 1, 0; 0, 0, 1; 0, 0, 0]⟩

example : Dual ex := by unfold Dual ex; decide +kernel
example : (modelled ex !![1; 2; 3; 1]) = !![1; 2; 2; 0] ∧ (wrong (1 / 100) ex) 2 2 = 1 / 100 := by decide +kernel

end Mass.Lin.ModelFig
