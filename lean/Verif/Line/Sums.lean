import Verif.Py
import Mathlib.Data.List.Basic
import Mathlib.Data.List.Nodup
import Mathlib.Algebra.Field.Rat

/-!
# Arithmetic with models

Models of lines and backgrounds are added, subtracted, multiplied and divided to fit several of them
at once.  Here: what such a model evaluates to, which parameters it has, and that it is fitted by
maximum likelihood, for any expression.
-/

namespace Mass.Line.Sums

open Mass

/-- The four operators (mass/calibration/line_models.py L131-145, L234-248). -/
inductive Op where
  | add | sub | mul | div
  deriving DecidableEq

/-- lmfit.model.operator (used at mass/calibration/line_models.py L133, L137, L141, L145), for one
bin. Division by zero gives 0 here, not an infinity. -/
def Op.fn {K : Type} [Field K] : Op → K → K → K
  | .add => (· + ·)
  | .sub => (· - ·)
  | .mul => (· * ·)
  | .div => (· / ·)

/-- A set of values of parameters, by name. [specification] -/
abbrev Vals (K : Type) := String → K

/-- A model of lmfit: its parameters with prefix, and its function of the values, for the bins of a
histogram; or two models and an operator. `mle` says whether it is of a class of this package, with
the residual of maximum likelihood (mass/calibration/line_models.py L86, L210). -/
inductive Mod (K : Type) where
  | leaf (mle : Bool) (names : List String) (f : Vals K → List K)
  | comp (mle : Bool) (op : Op) (l r : Mod K)

variable {K : Type} [Field K]

/-- Is the class of the model one of this package? (mass/calibration/line_models.py L86, L210) -/
def Mod.mle : Mod K → Bool
  | .leaf b _ _ => b
  | .comp b _ _ _ => b

/-- `param_names` of lmfit (used at mass/calibration/line_models.py L133, L137, L141, L145): of a
composite model those of the left one and then those of the right one. -/
def Mod.names : Mod K → List String
  | .leaf _ n _ => n
  | .comp _ _ l r => l.names ++ r.names

/-- `eval` of lmfit (used at mass/calibration/line_models.py L96, L220): the operator on the arrays of
the two sides. -/
def Mod.eval (v : Vals K) : Mod K → List K
  | .leaf _ _ f => f v
  | .comp _ op l r => List.zipWith op.fn (l.eval v) (r.eval v)

/-- `a + b` and the like, mass/calibration/line_models.py L131-145, L234-248: Python asks the left
operand. A model of this package makes a composite of this package; a model of lmfit itself one of lmfit
(which has no reflected operators). A common parameter is a NameError in lmfit; `none` is an operand that
is not a model, a ValueError. -/
def combine (op : Op) (a : Mod K) (b : Option (Mod K)) : Except Exc (Mod K) :=
  match b with
  | none => .error .value
  | some b =>
    if a.names.any (fun n => b.names.contains n) then .error .exception
    else .ok (.comp a.mle op a b)

/-- `_residual`, mass/calibration/line_models.py L92-114, L216-228, or that of lmfit: `ml` and `chi` are
the two kinds of residuals, of the evaluated model and the data (for the first see C94). -/
def residual (ml chi : List K → List K → List K) (m : Mod K) (v : Vals K) (data : List K) : List K :=
  if m.mle then ml (m.eval v) data else chi (m.eval v) data

/-- An expression a user writes (mass/calibration/line_models.py L131-145, L234-248). -/
inductive Expr (K : Type) where
  | model (m : Mod K)
  | bin (op : Op) (l r : Expr K)

/-- What Python makes of it (mass/calibration/line_models.py L131-145, L234-248). -/
def build : Expr K → Except Exc (Mod K)
  | .model m => .ok m
  | .bin op l r =>
    match build l with
    | .error e => .error e
    | .ok a => match build r with
      | .error e => .error e
      | .ok b => combine op a (some b)

/-- [specification] The value of an expression in one bin: arithmetic with the values of its models. -/
def Expr.value (v : Vals K) (i : Nat) : Expr K → K
  | .model m => (m.eval v).getD i 0
  | .bin op l r => op.fn (l.value v i) (r.value v i)

/-- [specification] The models of an expression from left to right. -/
def Expr.parts : Expr K → List (Mod K)
  | .model m => [m]
  | .bin _ l r => l.parts ++ r.parts

/-- [specification] A model that depends on its own parameters only and gives `n` bins. -/
def Own (n : Nat) (m : Mod K) : Prop :=
  m.names.Nodup ∧ (∀ v, (m.eval v).length = n) ∧ ∀ v w, (∀ s ∈ m.names, v s = w s) → m.eval v = m.eval w

/-- C203. When an expression can be built: the parameters are those of its models, all different; in
every bin its value is that of the arithmetic; it depends on its own parameters only. -/
theorem build_spec (n : Nat) (e : Expr K) : ∀ m, (∀ p ∈ e.parts, Own n p) → build e = .ok m →
    m.names = e.parts.flatMap Mod.names ∧ Own n m ∧ ∀ v, ∀ i < n, (m.eval v).getD i 0 = e.value v i := by
  induction e with
  | model p =>
    intro m hp h
    simp only [build, Except.ok.injEq] at h
    subst h
    exact ⟨by simp [Expr.parts], hp _ (by simp [Expr.parts]), fun v i _ => rfl⟩
  | bin op l r il ir =>
    intro m hp h
    unfold build at h
    cases hl : build l with
    | error x => rw [hl] at h; simp at h
    | ok a =>
      cases hr : build r with
      | error x => rw [hl, hr] at h; simp at h
      | ok b =>
        rw [hl, hr] at h
        dsimp only [combine] at h
        obtain ⟨l1, ⟨l2, l3, l4⟩, l5⟩ := il a (fun p h => hp p (by simp [Expr.parts, h])) hl
        obtain ⟨r1, ⟨r2, r3, r4⟩, r5⟩ := ir b (fun p h => hp p (by simp [Expr.parts, h])) hr
        split at h
        · simp at h
        rename_i hd
        simp only [Except.ok.injEq] at h
        subst h
        refine ⟨by simp [Mod.names, Expr.parts, l1, r1], ⟨?_, ?_, ?_⟩, ?_⟩
        · simp only [Mod.names]
          refine List.Nodup.append l2 r2 ?_
          intro s h1 h2
          apply hd
          rw [List.any_eq_true]
          exact ⟨s, h1, by simpa using h2⟩
        · intro v
          simp [Mod.eval, l3, r3]
        · intro v w hvw
          simp only [Mod.eval]
          rw [l4 v w fun s hs => hvw s (by simp [Mod.names, hs]), r4 v w fun s hs => hvw s (by simp [Mod.names, hs])]
        · intro v i hi
          have e1 : i < (a.eval v).length := by rw [l3]; exact hi
          have e2 : i < (b.eval v).length := by rw [r3]; exact hi
          rw [Expr.value, ← l5 v i hi, ← r5 v i hi]
          simp only [Mod.eval, List.getD_eq_getElem?_getD, List.getElem?_zipWith, List.getElem?_eq_getElem e1,
            List.getElem?_eq_getElem e2, Option.getD_some]

/-- C203. An expression can be built exactly if no two of its models have a parameter in common (as when
two lines of the same prefix are added). -/
theorem build_iff (e : Expr K) (hp : ∀ p ∈ e.parts, p.names.Nodup) :
    (∃ m, build e = .ok m ∧ m.names = e.parts.flatMap Mod.names) ∧ (e.parts.flatMap Mod.names).Nodup ∨
    (build e = .error .exception ∧ ¬ (e.parts.flatMap Mod.names).Nodup) := by
  induction e with
  | model p => exact .inl ⟨⟨p, rfl, by simp [Expr.parts]⟩, by simpa [Expr.parts] using hp p (by simp [Expr.parts])⟩
  | bin op l r il ir =>
    have hpl := il fun p h => hp p (by simp [Expr.parts, h])
    have hpr := ir fun p h => hp p (by simp [Expr.parts, h])
    simp only [Expr.parts, List.flatMap_append, List.nodup_append']
    rcases hpl with ⟨⟨a, l1, l2⟩, l3⟩ | ⟨l1, l2⟩
    · rcases hpr with ⟨⟨b, r1, r2⟩, r3⟩ | ⟨r1, r2⟩
      · by_cases hd : a.names.any (fun n => b.names.contains n) = true
        · right
          refine ⟨by simp only [build, l1, r1, combine]; rw [if_pos hd], ?_⟩
          rintro ⟨-, -, h⟩
          rw [List.any_eq_true] at hd
          obtain ⟨s, h1, h2⟩ := hd
          exact h (l2 ▸ h1) (r2 ▸ (by simpa using h2))
        · left
          refine ⟨⟨.comp a.mle op a b, ?_, by simp [Mod.names, l2, r2]⟩, l3, r3, ?_⟩
          · simp only [build, l1, r1, combine]
            rw [if_neg hd]
          · intro s h1 h2
            apply hd
            rw [List.any_eq_true]
            exact ⟨s, l2 ▸ h1, by simpa using (r2 ▸ h2 : s ∈ b.names)⟩
      · exact .inr ⟨by simp [build, l1, r1], fun h => r2 h.2.1⟩
    · exact .inr ⟨by simp [build, l1], fun h => l2 h.1⟩

/-- [specification] The first model of an expression. -/
def Expr.head : Expr K → Mod K
  | .model m => m
  | .bin _ l _ => l.head

/-- C203, as far as it is true. The expression is fitted by maximum likelihood if its first model is one of
this package, in particular if all are. -/
theorem likelihood_partial (ml chi : List K → List K → List K) (e : Expr K) : ∀ m, build e = .ok m →
    m.mle = e.head.mle ∧
    ((∀ p ∈ e.parts, p.mle = true) → ∀ v data, residual ml chi m v data = ml (m.eval v) data) := by
  have key : ∀ (e : Expr K) m, build e = .ok m → m.mle = e.head.mle := by
    intro e
    induction e with
    | model p => intro m h; simp only [build, Except.ok.injEq] at h; subst h; rfl
    | bin op l r il ir =>
      intro m h
      unfold build at h
      cases hl : build l with
      | error x => rw [hl] at h; simp at h
      | ok a =>
        cases hr : build r with
        | error x => rw [hl, hr] at h; simp at h
        | ok b =>
          rw [hl, hr] at h
          dsimp only [combine] at h
          split at h
          · simp at h
          simp only [Except.ok.injEq] at h
          subst h
          exact il a hl
  have hh : ∀ e : Expr K, e.head ∈ e.parts := by
    intro e
    induction e with
    | model p => simp [Expr.head, Expr.parts]
    | bin op l r il ir => simp [Expr.head, Expr.parts, il]
  intro m h
  refine ⟨key e m h, fun hp v data => ?_⟩
  unfold residual
  rw [key e m h, hp _ (hh e), if_pos rfl]

/-- Disagreement (C203): a model of lmfit plus a line is not fitted by maximum likelihood, though the line
plus the model of lmfit is, and both have the same values. -/
theorem order_fails (ml chi : List K → List K → List K) (a b : Mod K) (ha : a.mle = true) (hb : b.mle = false)
    (hd : ∀ s ∈ a.names, s ∉ b.names) :
    ∃ x y : Mod K, combine .add a (some b) = .ok x ∧ combine .add b (some a) = .ok y ∧ (∀ v, x.eval v = y.eval v) ∧
      ∀ v data, residual ml chi x v data = ml (x.eval v) data ∧ residual ml chi y v data = chi (x.eval v) data := by
  have h1 : ¬ a.names.any (fun n => b.names.contains n) = true := by
    rw [List.any_eq_true]
    rintro ⟨s, h, k⟩
    exact hd s h (by simpa using k)
  have h2 : ¬ b.names.any (fun n => a.names.contains n) = true := by
    rw [List.any_eq_true]
    rintro ⟨s, h, k⟩
    exact hd s (by simpa using k) h
  have he : ∀ v, (Mod.comp a.mle Op.add a b).eval v = (Mod.comp b.mle Op.add b a).eval v := by
    intro v
    simp only [Mod.eval, Op.fn]
    exact List.zipWith_comm_of_comm (fun x y => add_comm x y)
  refine ⟨.comp a.mle .add a b, .comp b.mle .add b a, ?_, ?_, he, fun v data => ⟨?_, ?_⟩⟩
  · simp only [combine]; rw [if_neg h1]
  · simp only [combine]; rw [if_neg h2]
  · unfold residual; rw [if_pos (show (Mod.comp a.mle Op.add a b).mle = true from ha)]
  · unfold residual; rw [he v, if_neg (by rw [show (Mod.comp b.mle Op.add b a).mle = false from hb]; simp)]

/-- Two lines of height `h` and a background, in three bins. [specification] -/
def demo (name : String) (shape : List ℚ) : Mod ℚ := .leaf true [name] fun v => shape.map (v name * ·)

example : Own 3 (demo "a_h" [0, 1, 0]) := by
  refine ⟨by simp [demo, Mod.names], fun v => by simp [demo, Mod.eval], fun v w h => ?_⟩
  have : v "a_h" = w "a_h" := h _ (by simp [demo, Mod.names])
  simp [demo, Mod.eval, this]

example : (build (.bin .sub (.bin .add (.model (demo "a_h" [0, 1, 0])) (.model (demo "b_h" [2, 1, 0]))) (.model (demo "bg" [1, 1, 1])))).map
      (fun m => (m.names, m.eval fun s => if s = "bg" then 1 else 5)) = .ok (["a_h", "b_h", "bg"], [9, 9, -1]) ∧
    (build (.bin .add (.model (demo "h" [0, 1, 0])) (.model (demo "h" [2, 1, 0])))).map (fun m => m.names) = .error .exception := by
  decide +kernel

end Mass.Line.Sums
