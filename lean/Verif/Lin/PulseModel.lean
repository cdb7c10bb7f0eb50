import Verif.Py
import Mathlib.Data.Matrix.Block
import Mathlib.Data.Matrix.ColumnRowPartitioned
import Mathlib.LinearAlgebra.Matrix.NonsingularInverse
import Mathlib.LinearAlgebra.Matrix.Notation
import Mathlib.Algebra.Order.Field.Rat
import Mathlib.Tactic.NoncommRing
import Mathlib.Tactic.Abel
import Mathlib.Tactic.NormNum
import Mathlib.Tactic.FinCases
/-! Pulse models, mass/core/pulse_model.py: C48 (projectors stay dual to the basis), C49 (saving does not change the model), C75 (saved models load unchanged), C76 (labels). Exact arithmetic. -/
namespace Mass.Lin.PM
open Mass Matrix

variable {K : Type} [Field K]

/-- The basis (n samples by k elements) and the projectors (k by n), mass/core/pulse_model.py L7-9 -/
structure Model (K : Type) (n k : ℕ) where
  P : Matrix (Fin k) (Fin n) K
  B : Matrix (Fin n) (Fin k) K

/-- residuals, pulse_model.py L124-126; the training pulses are the columns of T -/
def residuals {n k t : ℕ} (M : Model K n k) (T : Matrix (Fin n) (Fin t) K) : Matrix (Fin n) (Fin t) K := T - M.B * (M.P * T)

/-- `Y` of `find_range_randomly`, mass/mathstat/utilities.py L191-195, for any random matrix Ω; one power iteration -/
def sketch {n t l : ℕ} (A : Matrix (Fin n) (Fin t) K) (Ω : Matrix (Fin t) (Fin l) K) : Matrix (Fin n) (Fin l) K := A * (A.transpose * (A * Ω))

/-- What np.linalg.qr promises of Q and R, mass/mathstat/utilities.py L196 (reduced form; l at most n; the triangular shape of R is not used) -/
def IsQR {n l : ℕ} (Y Q : Matrix (Fin n) (Fin l) K) (R : Matrix (Fin l) (Fin l) K) : Prop := Q * R = Y ∧ Q.transpose * Q = 1

/-- What np.linalg.pinv promises that is used here (the first Moore-Penrose condition), pulse_model.py L129 -/
def IsPinv {n l : ℕ} (Q : Matrix (Fin n) (Fin l) K) (X : Matrix (Fin l) (Fin n) K) : Prop := Q * X * Q = Q

/-- hstack and vstack of `_additional_projectors_tsvd`, pulse_model.py L129-133 -/
def extend {n k l : ℕ} (M : Model K n k) (Q : Matrix (Fin n) (Fin l) K) (X : Matrix (Fin l) (Fin n) K) : Model K n (k + l) where
  P := (fromRows M.P (X - X * M.B * M.P)).submatrix finSumFinEquiv.symm id
  B := (fromCols M.B Q).submatrix id finSumFinEquiv.symm

/-- flipping every component but the first, pulse_model.py L57-58 -/
def flip {n k : ℕ} (M : Model K n k) : Model K n k where
  P := fun i j => if i.val = 0 then M.P i j else -M.P i j
  B := fun i j => if j.val = 0 then M.B i j else -M.B i j

/-- the projectors are dual to the basis (docstring, pulse_model.py L8-9) -/
def Dual {n k : ℕ} (M : Model K n k) : Prop := M.P * M.B = 1

/-- A Q that lies in the range of the residuals and a left inverse of it keep duality. -/
theorem extend_dual {n k l : ℕ} (M : Model K n k) (Q : Matrix (Fin n) (Fin l) K) (X : Matrix (Fin l) (Fin n) K) (h : Dual M) (hQ : M.P * Q = 0) (hX : X * Q = 1) : Dual (extend M Q X) := by
  unfold Dual at *
  unfold extend
  refine (Matrix.submatrix_mul_equiv (fromRows M.P (X - X * M.B * M.P)) (fromCols M.B Q) finSumFinEquiv.symm (Equiv.refl (Fin n)) finSumFinEquiv.symm).trans ?_
  rw [fromRows_mul_fromCols]
  have h1 : (X - X * M.B * M.P) * M.B = 0 := by rw [Matrix.sub_mul, Matrix.mul_assoc (X * M.B), h, Matrix.mul_one, sub_self]
  have h2 : (X - X * M.B * M.P) * Q = 1 := by rw [Matrix.sub_mul, Matrix.mul_assoc (X * M.B), hQ, Matrix.mul_zero, sub_zero, hX]
  rw [h, hQ, h1, h2, fromBlocks_one]
  ext i j
  simp [Matrix.one_apply]

/-- C48: adding components found from any training pulses with any random matrix: if the sketch has full column rank (its triangular factor is invertible), the result is dual again. -/
theorem tsvd_dual {n k l t : ℕ} (M : Model K n k) (T : Matrix (Fin n) (Fin t) K) (Ω : Matrix (Fin t) (Fin l) K) (Q : Matrix (Fin n) (Fin l) K) (R : Matrix (Fin l) (Fin l) K) (X : Matrix (Fin l) (Fin n) K)
    (h : Dual M) (hqr : IsQR (sketch (residuals M T) Ω) Q R) (hR : IsUnit R.det) (hX : IsPinv Q X) : Dual (extend M Q X) := by
  have hPres : M.P * residuals M T = 0 := by
    unfold residuals
    rw [Matrix.mul_sub, ← Matrix.mul_assoc, h, Matrix.one_mul, sub_self]
  refine extend_dual M Q X h ?_ ?_
  · have h1 : M.P * (Q * R) = 0 := by rw [hqr.1, sketch, ← Matrix.mul_assoc, hPres, Matrix.zero_mul]
    have h2 : M.P * Q * (R * R⁻¹) = 0 := by rw [← Matrix.mul_assoc, Matrix.mul_assoc M.P, h1, Matrix.zero_mul]
    rwa [Matrix.mul_nonsing_inv _ hR, Matrix.mul_one] at h2
  · have h1 : Q.transpose * (Q * X * Q) = Q.transpose * Q := by rw [hX]
    rw [← Matrix.mul_assoc, ← Matrix.mul_assoc, hqr.2, Matrix.one_mul] at h1
    exact h1

/-- C48: flipping for inverted data keeps duality. -/
theorem flip_dual {n k : ℕ} (M : Model K n k) (h : Dual M) : Dual (flip M) := by
  unfold Dual at *
  ext i j
  have hij := congrFun (congrFun h i) j
  rw [Matrix.mul_apply] at hij ⊢
  unfold flip
  dsimp only
  by_cases hi : i.val = 0 <;> by_cases hj : j.val = 0
  · simpa [hi, hj] using hij
  · have hne : i ≠ j := fun e => hj (e ▸ hi)
    simp only [hi, hj, if_true, if_false, mul_neg, Finset.sum_neg_distrib, hij, Matrix.one_apply_ne hne, neg_zero]
  · have hne : i ≠ j := fun e => hi (e ▸ hj)
    simp only [hi, hj, if_true, if_false, neg_mul, Finset.sum_neg_distrib, hij, Matrix.one_apply_ne hne, neg_zero]
  · simpa [hi, hj] using hij

/-- three samples, one basis element, one more found from one training pulse [specification] -/
def smallModel : Model ℚ 3 1 := ⟨!![1, 0, 0], !![1; 0; 0]⟩

example : Dual smallModel ∧ IsQR (sketch (residuals smallModel !![5; 3; 4]) !![1]) !![0; 3/5; 4/5] !![125] ∧ IsPinv (K := ℚ) (n := 3) !![0; 3/5; 4/5] !![0, 3/5, 4/5] ∧
    Dual (extend smallModel !![0; 3/5; 4/5] !![0, 3/5, 4/5]) := by
  have h1 : Dual smallModel := by
    unfold Dual smallModel
    ext i j
    fin_cases i; fin_cases j
    simp [Matrix.mul_apply, Fin.sum_univ_succ]
  have h2 : IsQR (sketch (residuals smallModel !![5; 3; 4]) !![1]) !![0; 3/5; 4/5] !![125] := by
    constructor
    · ext i j
      fin_cases i <;> fin_cases j <;> norm_num [sketch, residuals, smallModel, Matrix.mul_apply, Fin.sum_univ_succ, Matrix.transpose_apply]
    · ext i j
      fin_cases i; fin_cases j
      norm_num [Matrix.mul_apply, Fin.sum_univ_succ, Matrix.transpose_apply]
  have h3 : IsPinv (K := ℚ) (n := 3) !![0; 3/5; 4/5] !![0, 3/5, 4/5] := by
    unfold IsPinv
    ext i j
    fin_cases i <;> fin_cases j <;> norm_num [Matrix.mul_apply, Fin.sum_univ_succ]
  exact ⟨h1, h2, h3, tsvd_dual smallModel _ _ _ _ _ h1 h2 (by simp) h3⟩

/-- When the existing basis already describes the training pulses exactly, the sketch is zero, and qr of it (which then returns the first unit vectors) gives projectors that are not dual to the basis. -/
theorem tsvd_degenerate_fails :
    let M : Model ℚ 2 1 := ⟨!![1, 0], !![1; 0]⟩
    let T : Matrix (Fin 2) (Fin 1) ℚ := !![7; 0]
    let Q : Matrix (Fin 2) (Fin 1) ℚ := !![1; 0]
    Dual M ∧ IsQR (sketch (residuals M T) (1 : Matrix (Fin 1) (Fin 1) ℚ)) Q 0 ∧ IsPinv Q Q.transpose ∧ ¬ Dual (extend M Q Q.transpose) := by
  intro M T Q
  have hq : Q.transpose * Q = 1 := by
    ext i j
    fin_cases i; fin_cases j
    norm_num [Q, Matrix.mul_apply, Fin.sum_univ_succ, Matrix.transpose_apply]
  refine ⟨?_, ⟨?_, hq⟩, ?_, ?_⟩
  · unfold Dual
    ext i j
    fin_cases i; fin_cases j
    simp [M, Matrix.mul_apply, Fin.sum_univ_succ]
  · ext i j
    fin_cases i <;> fin_cases j <;> norm_num [M, T, sketch, residuals, Matrix.mul_apply, Fin.sum_univ_succ]
  · unfold IsPinv
    rw [Matrix.mul_assoc, hq, Matrix.mul_one]
  · intro hd
    have h01 := congrFun (congrFun hd 0) 1
    have e0 : (finSumFinEquiv (m := 1) (n := 1)).symm 0 = .inl 0 := by decide
    have e1 : (finSumFinEquiv (m := 1) (n := 1)).symm 1 = .inr 0 := by decide
    simp only [extend, Matrix.mul_apply, Matrix.submatrix_apply, id] at h01
    rw [show ((0 : Fin (1 + 1))) = 0 from rfl] at h01
    simp only [e0, e1, fromRows_apply_inl, fromCols_apply_inr] at h01
    norm_num [M, Q, Fin.sum_univ_succ, Matrix.one_apply] at h01

/-! ### Saving and loading -/

/-- The other stored values of a model (training pulses, v_dv, rms values, file name, filter, noise), of any type; pulse_model.py L60-76. Whether `extra_n_basis_5lag` is positive matters only when a model is first built. -/
structure Saved (K X : Type) (n k : ℕ) where
  M : Model K n k
  inverted : Bool
  version : ℕ
  rest : X

/-- `toHDF5` into an empty group, pulse_model.py L53-76: what is written, and the model in memory afterwards. `self.projectors[()]` of a numpy array is a view of it, so the flip in place changes the model too. -/
def toHDF5 {X : Type} {n k : ℕ} (st : Model K n k × X) (inv : Bool) : Saved K X n k × (Model K n k × X) :=
  let M := if inv then flip st.1 else st.1
  (⟨M, inv, 2, st.2⟩, (M, st.2))

/-- `fromHDF5`, pulse_model.py L78-100 and L21-29 with _from_hdf5: the stored arrays as they are -/
def fromHDF5 {X : Type} {n k : ℕ} (f : Saved K X n k) : Except Exc (Model K n k × X) :=
  if f.version ≠ 2 then .error .exception else .ok (f.M, f.rest)

theorem flip_flip {n k : ℕ} (M : Model K n k) : flip (flip M) = M := by
  cases M with
  | mk P B =>
    unfold flip
    congr 1
    · ext i j
      dsimp only
      split <;> simp
    · ext i j
      dsimp only
      split <;> simp

/-- C49, saving without inversion: any number of saves write the same and leave the model as it was. -/
theorem save_keeps_partial {X : Type} {n k : ℕ} (st : Model K n k × X) (c : ℕ) :
    let step := fun s : Model K n k × X => (toHDF5 s false).2
    step^[c] st = st ∧ toHDF5 (step^[c] st) false = toHDF5 st false := by
  intro step
  have h : step^[c] st = st := by
    induction c with
    | zero => rfl
    | succ c ih => rw [Function.iterate_succ_apply', ih]; rfl
  exact ⟨h, by rw [h]⟩

/-- Saving with inversion flips the model in memory; saving again (elsewhere) writes the unflipped one. -/
theorem save_inverted_twice_fails {X : Type} {n k : ℕ} (st : Model K n k × X) :
    (toHDF5 st true).2.1 = flip st.1 ∧ (toHDF5 st true).1.M = flip st.1 ∧ (toHDF5 (toHDF5 st true).2 true).1.M = st.1 := by
  refine ⟨rfl, rfl, ?_⟩
  show flip (flip st.1) = st.1
  exact flip_flip _

example : flip smallModel = smallModel := by
  unfold flip smallModel
  congr 1
  · ext i j; fin_cases i; rfl
  · ext i j; fin_cases j; rfl

/-- a model that is changed by the flip -/
example : let M : Model ℚ 2 2 := ⟨1, 1⟩; Dual M ∧ ((toHDF5 (M, ()) true).2.1).P 1 1 ≠ M.P 1 1 := by
  refine ⟨by simp [Dual], ?_⟩
  norm_num [toHDF5, flip]

/-- C75: a saved model loads unchanged, flipped if it was saved inverted. -/
theorem save_load_partial {X : Type} {n k : ℕ} (st : Model K n k × X) (inv : Bool) : fromHDF5 (toHDF5 st inv).1 = .ok (if inv then flip st.1 else st.1, st.2) := by
  cases inv <;> rfl

/-- Disagreement (C75): a model saved inverted is not loaded as it was when it was saved; every projector but the first has the opposite sign.
So it is for every model with a second projector that is not zero. -/
theorem save_load_fails [CharZero K] {X : Type} {n k : ℕ} (st : Model K n k × X) {i : Fin k} (hi : i.val ≠ 0) {j : Fin n} (h : st.1.P i j ≠ 0) :
    fromHDF5 (toHDF5 st true).1 ≠ .ok st := by
  rw [save_load_partial, if_pos rfl]
  intro e
  have e1 : flip st.1 = st.1 := congrArg Prod.fst (Except.ok.inj e)
  have e2 : (flip st.1).P i j = st.1.P i j := by rw [e1]
  have e3 : (if i.val = 0 then st.1.P i j else -st.1.P i j) = st.1.P i j := e2
  rw [if_neg hi] at e3
  exact h (self_eq_neg.1 e3.symm)

example : fromHDF5 (toHDF5 ((⟨1, 1⟩ : Model ℚ 2 2), ()) true).1 ≠ .ok (⟨1, 1⟩, ()) :=
  save_load_fails (i := 1) (j := 1) _ (by decide) (by simp)

/-- C75: a file of another version is refused -/
theorem load_version {X : Type} {n k : ℕ} (f : Saved K X n k) : (∃ r, fromHDF5 f = .ok r) ↔ f.version = 2 := by
  unfold fromHDF5
  by_cases h : f.version = 2 <;> simp [h]

/-- The loaded model is what is in memory after saving, also when inverted. -/
theorem save_load_memory {X : Type} {n k : ℕ} (st : Model K n k × X) (inv : Bool) : fromHDF5 (toHDF5 st inv).1 = .ok (toHDF5 st inv).2 := by
  cases inv <;> rfl

/-! ### Labels -/

/-- a label: the text is the kind and, for the last two, the number (used for pulse_model.py L138-145) -/
inductive Label
  | const | deriv | pulse
  | svd (i : ℕ)
  | lag (z : ℤ)
deriving DecidableEq

/-- `labels`, pulse_model.py L138-145 -/
def labels (n extra : ℕ) : List Label :=
  [.const, .deriv, .pulse] ++ (List.range (n - 3)).map (fun i : ℕ => if (i : ℤ) > (n : ℤ) - 3 - extra then .lag ((i : ℤ) + 2 - extra) else .svd i)

/-- C76: one label for each component, all different. -/
theorem labels_partial (n extra : ℕ) (h : 3 ≤ n) : (labels n extra).length = n ∧ (labels n extra).Nodup := by
  constructor
  · simp [labels]; omega
  · unfold labels
    rw [List.nodup_append]
    refine ⟨by decide, ?_, ?_⟩
    · refine List.Nodup.map_on ?_ List.nodup_range
      intro a _ b _ hab
      split at hab <;> split at hab
      · simp at hab; omega
      · simp at hab
      · simp at hab
      · simpa using hab
    · intro a ha b hb
      obtain ⟨i, _, rfl⟩ := List.mem_map.1 hb
      rintro rfl
      split at ha <;> simp at ha

/-- But the first of the components from the 5-lag filters is labelled as an SVD component. -/
theorem labels_fails (n extra : ℕ) (h : 3 + extra ≤ n) (he : 1 ≤ extra) : (labels n extra)[n - extra]? = some (.svd (n - 3 - extra)) := by
  unfold labels
  rw [List.getElem?_append_right (by simp; omega), List.getElem?_map, List.getElem?_range (by simp; omega)]
  simp only [List.length_cons, List.length_nil, Option.map_some]
  rw [if_neg (by omega)]
  congr 2
  omega

example : labels 10 5 = [.const, .deriv, .pulse, .svd 0, .svd 1, .svd 2, .lag 0, .lag 1, .lag 2, .lag 3] := by decide +kernel

end Mass.Lin.PM
