import Verif.Py
import Mathlib.Algebra.Order.Field.Basic
import Mathlib.Algebra.BigOperators.Group.List.Basic
import Mathlib.Algebra.Order.BigOperators.Group.List
import Mathlib.Data.List.GetD
import Mathlib.Data.Rat.Floor
import Mathlib.Tactic.FieldSimp
import Mathlib.Tactic.Linarith
import Mathlib.Tactic.NormNum
import Mathlib.Tactic.Positivity
import Mathlib.Tactic.Push
/-! C129: starting values, method and acceptance of a line fit (mass/calibration/line_models.py: `GenericLineModel.guess`, `MLEModel.fit`, `MLEModel._fit`, `LineModelResult._validate_bins_per_fwhm`).
The minimizer (lmfit) is an arbitrary function of method and starting parameters. Exact arithmetic over an ordered field. -/
namespace Mass.Line.Fit
set_option linter.unusedSectionVars false
open Mass
variable {K : Type} [Field K] [LinearOrder K] [IsStrictOrderedRing K]

/-! ### Starting values -/

/-- data.cumsum()[k], line_models.py L318 -/
def cum (data : List K) (k : Nat) : K := (data.take (k + 1)).sum

/-- (order_stat > p).argmax(), line_models.py L318-321: the first bin where the cumulated fraction exceeds p. Without counts all fractions are NaN and the answer is 0. -/
def pbin (data : List K) (p : K) : Nat :=
  if data.sum = 0 then 0
  else ((List.range data.length).find? (fun k => decide (p < cum data k / data.sum))).getD 0

/-- the largest value, used for data.argmax(), line_models.py L323 -/
def maxOf : List K → K
  | [] => 0
  | a :: t => t.foldl max a

/-- data.argmax(), line_models.py L323 -/
def argmax (data : List K) : Nat := data.findIdx (fun v => decide (v = maxOf data))

/-- the baseline, line_models.py L324-328 -/
def baseline (data : List K) : K :=
  if 20 < data.length then max ((data.take 10).sum / 10) (1 / (data.length : K)) else 1 / 10

/-- the guessed values (line_models.py L332-334) -/
structure Guess (K : Type) where
  peakPh : K
  background : K
  integral : K
  fwhm : K
  dphDe : K
  deriving DecidableEq

/-- `guess`, line_models.py L316-335, before the limits of the parameters are applied. An empty histogram has no argmax: ValueError. -/
def guess (data centers : List K) (dphDe : K) : Except Exc (Guess K) :=
  if data = [] then .error .value
  else
    let fwhmArb := 7 / 10 * (centers.getD (pbin data (3 / 4)) 0 - centers.getD (pbin data (1 / 4)) 0)
    let bg := baseline data
    let t := data.sum - bg * data.length
    .ok ⟨centers.getD (argmax data) 0, bg, if t < 0 then data.sum else t, fwhmArb / dphDe, dphDe⟩

/-! ### The fit -/

/-- what a minimizer returns (used for line_models.py L188-210) -/
structure Res (P : Type) where
  params : P
  success : Bool
  errorbars : Bool

/-- whether the caller gave a set of parameters, by name or as second argument, or none (line_models.py L200-203) -/
inductive Given | keyword | position | no
  deriving DecidableEq

/-- `_fit`, line_models.py L188-210. `lm` is lmfit's fit with a method and starting parameters `p`; if no set of parameters is given, lmfit makes it from hints, here also `p`. -/
def fitInner {P : Type} (lm : String → P → Except Exc (Res P)) (method : String) (given : Given) (p : P) : Except Exc (Res P) :=
  if method = "leastsq_refit" then
    match lm "leastsq" p with
    | .error e => .error e
    | .ok r0 =>
      if r0.success && r0.errorbars then .ok r0
      else lm "least_squares" (if given = .no then p else r0.params)
  else lm method p

/-- One component of a model (line_models.py L406-413): its prefix and, for a line, the function minimum_fwhm of its spectrum -/
structure Comp (K : Type) where
  pre : String
  minimumFwhm : Option (K → K)

/-- `_validate_bins_per_fwhm` for one component, line_models.py L407-426: `look` gives the fitted parameters by name. A component without spectrum has no attribute `spect`. -/
def checkComp (binSize minBins : K) (look : String → Option K) (c : Comp K) : Except Exc Unit :=
  match look (c.pre ++ "dph_de"), look (c.pre ++ "fwhm") with
  | some d, some w =>
    match c.minimumFwhm with
    | none => .error .attribute
    | some f => if f w / (binSize / d) < minBins then .error .value else .ok ()
  | _, _ => .ok ()

/-- `_validate_bins_per_fwhm`, line_models.py L399-426. `flag` is VALIDATE_BIN_SIZE; `centers` is none when no bin_centers were given by name. -/
def validate (flag : Bool) (centers : Option (List K)) (minBins : K) (look : String → Option K) (comps : List (Comp K)) : Except Exc Unit :=
  match centers with
  | none => .ok ()
  | some c =>
    if !flag then .ok ()
    else
      match c with
      | a :: b :: _ => comps.foldl (fun r comp => match r with | .error e => .error e | .ok _ => checkComp (b - a) minBins look comp) (.ok ())
      | _ => .error .index

/-- `fit`, line_models.py L166-186: `weights` is true if weights other than None are given, `minBins` the argument minimum_bins_per_fwhm, `look` reads the parameters of a result. -/
def fit {P : Type} (lm : String → P → Except Exc (Res P)) (look : P → String → Option K) (comps : List (Comp K)) (flag : Bool)
    (method : Option String) (weights : Bool) (minBins : Option K) (given : Given) (centers : Option (List K)) (p : P) : Except Exc (Res P) :=
  let m := method.getD "least_squares"
  let nb := minBins.getD 3
  if weights then .error .exception
  else
    match fitInner lm m given p with
    | .error e => .error e
    | .ok r =>
      match validate flag centers nb (look r.params) comps with
      | .error e => .error e
      | .ok _ => .ok r

/-! ### Lemmas -/

theorem foldl_max_spec (t : List K) : ∀ a : K, (t.foldl max a ∈ a :: t) ∧ ∀ x ∈ a :: t, x ≤ t.foldl max a := by
  induction t with
  | nil => intro a; simp
  | cons b t ih =>
    intro a
    rw [List.foldl_cons]
    obtain ⟨h1, h2⟩ := ih (max a b)
    constructor
    · rcases List.mem_cons.1 h1 with h | h
      · rcases le_total a b with hab | hab
        · rw [max_eq_right hab] at h ⊢; rw [h]; simp
        · rw [max_eq_left hab] at h ⊢; rw [h]; simp
      · simp [h]
    · intro x hx
      have hm := h2 (max a b) (by simp)
      simp only [List.mem_cons] at hx
      rcases hx with rfl | rfl | hx
      · exact le_trans (le_max_left _ _) hm
      · exact le_trans (le_max_right _ _) hm
      · exact h2 x (by simp [hx])

theorem maxOf_mem {r : List K} (h : r ≠ []) : maxOf r ∈ r := by
  cases r with
  | nil => exact absurd rfl h
  | cons a t => exact (foldl_max_spec t a).1

theorem le_maxOf {r : List K} {x : K} (h : x ∈ r) : x ≤ maxOf r := by
  cases r with
  | nil => simp at h
  | cons a t => exact (foldl_max_spec t a).2 x h

theorem cum_mono (data : List K) (hd : ∀ x ∈ data, 0 ≤ x) (j k : Nat) (h : j ≤ k) : cum data j ≤ cum data k := by
  unfold cum
  have e : data.take (k + 1) = data.take (j + 1) ++ (data.drop (j + 1)).take (k - j) := by
    rw [← List.take_add]
    congr 1
    omega
  rw [e, List.sum_append]
  have : 0 ≤ ((data.drop (j + 1)).take (k - j)).sum := List.sum_nonneg (fun x hx => hd x (List.mem_of_mem_drop (List.mem_of_mem_take hx)))
  linarith

theorem cum_last (data : List K) (h : data ≠ []) : cum data (data.length - 1) = data.sum := by
  unfold cum
  have : data.length ≠ 0 := by rw [Ne, List.length_eq_zero_iff]; exact h
  rw [List.take_of_length_le (by omega)]

/-- C129. The quantile bin: the first bin up to which more than the fraction p of all counts lie. -/
theorem pbin_spec (data : List K) (hd : ∀ x ∈ data, 0 ≤ x) (hs : 0 < data.sum) (p : K) (hp : p < 1) :
    pbin data p < data.length ∧ p * data.sum < cum data (pbin data p) ∧ ∀ k, k < pbin data p → cum data k ≤ p * data.sum := by
  have hne : data ≠ [] := by rintro rfl; simp at hs
  have hlen : data.length ≠ 0 := by rw [Ne, List.length_eq_zero_iff]; exact hne
  unfold pbin
  rw [if_neg hs.ne']
  cases hf : (List.range data.length).find? (fun k => decide (p < cum data k / data.sum)) with
  | none =>
    exfalso
    rw [List.find?_eq_none] at hf
    have := hf (data.length - 1) (List.mem_range.2 (by omega))
    rw [cum_last data hne, div_self hs.ne'] at this
    simp at this
    exact absurd hp (not_lt.2 this)
  | some c =>
    rw [List.find?_range_eq_some] at hf
    obtain ⟨h1, h2, h3⟩ := hf
    refine ⟨List.mem_range.1 h2, ?_, ?_⟩
    · have := of_decide_eq_true h1
      rw [lt_div_iff₀ hs] at this
      exact this
    · intro k hk
      have := h3 k hk
      simp only [Bool.not_eq_true', decide_eq_false_iff_not, not_lt] at this
      rw [div_le_iff₀ hs] at this
      exact this

theorem pbin_mono (data : List K) (hd : ∀ x ∈ data, 0 ≤ x) (p q : K) (hpq : p ≤ q) (hq : q < 1) : pbin data p ≤ pbin data q := by
  rcases eq_or_lt_of_le (List.sum_nonneg hd) with h0 | hs
  · unfold pbin
    rw [if_pos h0.symm, if_pos h0.symm]
  · obtain ⟨-, -, h1⟩ := pbin_spec data hd hs p (lt_of_le_of_lt hpq hq)
    obtain ⟨-, h2, -⟩ := pbin_spec data hd hs q hq
    by_contra hc
    push Not at hc
    have := h1 _ hc
    have : p * data.sum ≤ q * data.sum := mul_le_mul_of_nonneg_right hpq hs.le
    linarith

/-- C129. The guess from any histogram (even one without counts), with increasing bins and a positive gain: the peak is at the centre of the fullest bin (the first of them), the background is positive, the width is not
negative, and the integral is not negative and not more than all counts; signal and background together are all counts, unless the background alone would be more, when the integral is all counts. -/
theorem guess_spec (data centers : List K) (hd : ∀ x ∈ data, 0 ≤ x) (hne : data ≠ []) (hl : centers.length = data.length) (hc : centers.Pairwise (· < ·)) (d : K) (hdp : 0 < d) :
    ∃ g, guess data centers d = .ok g ∧ (∃ k, k < data.length ∧ g.peakPh = centers.getD k 0 ∧ (∀ j, j < data.length → data.getD j 0 ≤ data.getD k 0) ∧ ∀ j, j < k → data.getD j 0 < data.getD k 0) ∧
      0 < g.background ∧ 0 ≤ g.fwhm ∧ 0 ≤ g.integral ∧ g.integral ≤ data.sum ∧ g.dphDe = d ∧
      (g.integral + g.background * data.length = data.sum ∨ (g.integral = data.sum ∧ data.sum < g.background * data.length)) := by
  have hlen : data.length ≠ 0 := by rw [Ne, List.length_eq_zero_iff]; exact hne
  have hlenK : (0 : K) < data.length := by exact_mod_cast Nat.pos_of_ne_zero hlen
  have hbg : 0 < baseline data := by
    unfold baseline
    split
    · exact lt_of_lt_of_le (one_div_pos.2 hlenK) (le_max_right _ _)
    · norm_num
  have hsum := List.sum_nonneg hd
  have hprod : 0 < baseline data * data.length := mul_pos hbg hlenK
  unfold guess
  rw [if_neg hne]
  dsimp only
  refine ⟨_, rfl, ?_, hbg, ?_, ?_, ?_, rfl, ?_⟩
  · have hk : argmax data < data.length := List.findIdx_lt_length_of_exists ⟨maxOf data, maxOf_mem hne, by simp⟩
    have hv : data.getD (argmax data) 0 = maxOf data := by
      rw [List.getD_eq_getElem _ _ hk]
      exact of_decide_eq_true (List.findIdx_getElem (xs := data) (p := fun v => decide (v = maxOf data)) (w := hk))
    refine ⟨argmax data, hk, rfl, ?_, ?_⟩
    · intro j hj
      rw [hv, List.getD_eq_getElem _ _ hj]
      exact le_maxOf (List.getElem_mem hj)
    · intro j hj
      have hj' : j < data.length := by omega
      rw [hv, List.getD_eq_getElem _ _ hj']
      refine lt_of_le_of_ne (le_maxOf (List.getElem_mem hj')) ?_
      have := List.not_of_lt_findIdx (xs := data) (p := fun v => decide (v = maxOf data)) hj
      simpa using this
  · refine div_nonneg (mul_nonneg (by norm_num) (sub_nonneg.2 ?_)) hdp.le
    have hm := pbin_mono data hd (1 / 4) (3 / 4) (by norm_num) (by norm_num)
    have hlt : pbin data (3 / 4) < centers.length := by
      rw [hl]
      rcases eq_or_lt_of_le hsum with h0 | hs
      · unfold pbin
        rw [if_pos h0.symm]
        omega
      · exact (pbin_spec data hd hs (3 / 4) (by norm_num)).1
    rcases Nat.lt_or_eq_of_le hm with h | h
    · rw [List.getD_eq_getElem _ _ hlt, List.getD_eq_getElem _ _ (by omega)]
      exact (List.pairwise_iff_getElem.1 hc _ _ _ _ h).le
    · rw [h]
  · split
    · exact hsum
    · rename_i h
      exact not_lt.1 h
  · split
    · exact le_refl _
    · linarith
  · split
    · rename_i h
      exact Or.inr ⟨rfl, by linarith⟩
    · exact Or.inl (by ring)

/-- bin k is the first one up to which more than the fraction p of all counts lie [specification] -/
def QuantileAt (data : List K) (p : K) (k : Nat) : Prop :=
  k < data.length ∧ p * data.sum < (data.take (k + 1)).sum ∧ (data.take k).sum ≤ p * data.sum

theorem quantile_unique (data : List K) (hd : ∀ x ∈ data, 0 ≤ x) (p : K) (i j : Nat) (hi : QuantileAt data p i) (hj : QuantileAt data p j) : i = j := by
  have aux : ∀ i j, QuantileAt data p i → QuantileAt data p j → ¬ i < j := by
    intro i j hi hj hlt
    have h := cum_mono data hd i (j - 1) (by omega)
    unfold cum at h
    rw [show j - 1 + 1 = j by omega] at h
    have := hi.2.1
    have := hj.2.2
    linarith
  have := aux i j hi hj
  have := aux j i hj hi
  omega

theorem pbin_quantile (data : List K) (hd : ∀ x ∈ data, 0 ≤ x) (hs : 0 < data.sum) (p : K) (h0 : 0 ≤ p) (hp : p < 1) : QuantileAt data p (pbin data p) := by
  obtain ⟨h1, h2, h3⟩ := pbin_spec data hd hs p hp
  refine ⟨h1, h2, ?_⟩
  cases hk : pbin data p with
  | zero => simpa using mul_nonneg h0 hs.le
  | succ n => exact h3 n (by omega)

/-- C129. The guessed width is 0.7 times the distance of the quartiles (the bins where the cumulated counts pass one and three quarters), in energy. -/
theorem width_spec (data centers : List K) (hd : ∀ x ∈ data, 0 ≤ x) (hs : 0 < data.sum) (d : K) (g : Guess K) (h : guess data centers d = .ok g) (i j : Nat)
    (hi : QuantileAt data (1 / 4) i) (hj : QuantileAt data (3 / 4) j) : g.fwhm = 7 / 10 * (centers.getD j 0 - centers.getD i 0) / d := by
  have hne : data ≠ [] := by rintro rfl; simp at hs
  have e1 := quantile_unique data hd _ _ _ hi (pbin_quantile data hd hs (1 / 4) (by norm_num) (by norm_num))
  have e2 := quantile_unique data hd _ _ _ hj (pbin_quantile data hd hs (3 / 4) (by norm_num) (by norm_num))
  unfold guess at h
  rw [if_neg hne] at h
  injection h with h
  subst h
  rw [e1, e2]

/-- C129. With more than 20 bins the guessed background is the mean of the first ten bins, or one count in the whole histogram if that is more. -/
theorem background_spec (data centers : List K) (hn : 20 < data.length) (d : K) (g : Guess K) (h : guess data centers d = .ok g) :
    (data.take 10).sum ≤ 10 * g.background ∧ 1 ≤ g.background * data.length ∧ ((data.take 10).sum = 10 * g.background ∨ g.background * data.length = 1) := by
  have hne : data ≠ [] := by rintro rfl; simp at hn
  have hlenK : (0 : K) < data.length := by exact_mod_cast (by omega : 0 < data.length)
  unfold guess at h
  rw [if_neg hne] at h
  injection h with h
  subst h
  dsimp only
  unfold baseline
  rw [if_pos hn]
  have h1 : (data.take 10).sum / 10 * 10 = (data.take 10).sum := div_mul_cancel₀ _ (by norm_num)
  have h2 : 1 / (data.length : K) * data.length = 1 := div_mul_cancel₀ _ hlenK.ne'
  rcases le_total ((data.take 10).sum / 10) (1 / (data.length : K)) with hle | hle
  · rw [max_eq_right hle]
    refine ⟨by linarith, h2.ge, Or.inr h2⟩
  · rw [max_eq_left hle]
    refine ⟨by linarith, ?_, Or.inl (by linarith)⟩
    calc (1 : K) = 1 / (data.length : K) * data.length := h2.symm
      _ ≤ _ := mul_le_mul_of_nonneg_right hle hlenK.le

/-- C129. Moving all bins moves the guessed peak and nothing else; stretching all bins stretches the peak and the width. -/
theorem guess_affine (data centers : List K) (hd : ∀ x ∈ data, 0 ≤ x) (hl : centers.length = data.length) (d a b : K) (g : Guess K) (h : guess data centers d = .ok g) :
    guess data (centers.map (fun x => a * x + b)) d = .ok { g with
      peakPh := a * g.peakPh + b
      fwhm := a * g.fwhm } := by
  unfold guess at h ⊢
  by_cases hne : data = []
  · rw [if_pos hne] at h; exact absurd h (by simp)
  rw [if_neg hne] at h ⊢
  dsimp only at h ⊢
  injection h with h
  subst h
  have hlen : data.length ≠ 0 := by rw [Ne, List.length_eq_zero_iff]; exact hne
  have hg : ∀ k, k < data.length → (centers.map (fun x => a * x + b)).getD k 0 = a * centers.getD k 0 + b := by
    intro k hk
    rw [List.getD_eq_getElem _ _ (by rw [List.length_map]; omega), List.getD_eq_getElem _ _ (by omega), List.getElem_map]
  have hp : ∀ p : K, p < 1 → pbin data p < data.length := by
    intro p hp
    rcases eq_or_lt_of_le (List.sum_nonneg hd) with h0 | hs
    · unfold pbin
      rw [if_pos h0.symm]
      omega
    · exact (pbin_spec data hd hs p hp).1
  have hk : argmax data < data.length := List.findIdx_lt_length_of_exists ⟨maxOf data, maxOf_mem hne, by simp⟩
  rw [hg _ (hp (3 / 4) (by norm_num)), hg _ (hp (1 / 4) (by norm_num)), hg _ hk]
  congr 2
  ring

example : guess (K := ℚ) [0, 1, 6, 2, 1] [10, 11, 12, 13, 14] 2 = .ok ⟨12, 1 / 10, 19 / 2, 7 / 20, 2⟩ := by decide +kernel

/-- C129. Without a method the minimizer is called once, with "least_squares"; another method is passed on as it is; with "leastsq_refit" it is called with "leastsq", and if that gives no uncertainties again with
"least_squares", from the parameters found. -/
theorem method_spec {P : Type} (lm : String → P → Except Exc (Res P)) (look : P → String → Option K) (comps : List (Comp K)) (flag : Bool)
    (method : Option String) (minBins : Option K) (given : Given) (centers : Option (List K)) (p : P) (r : Res P)
    (h : fit lm look comps flag method false minBins given centers p = .ok r) :
    (method = none → lm "least_squares" p = .ok r) ∧
    (∀ m, method = some m → m ≠ "leastsq_refit" → lm m p = .ok r) ∧
    (method = some "leastsq_refit" → given ≠ .no → ∃ r0, lm "leastsq" p = .ok r0 ∧ ((r0.success = true ∧ r0.errorbars = true ∧ r = r0) ∨
      ((r0.success = false ∨ r0.errorbars = false) ∧ lm "least_squares" r0.params = .ok r))) := by
  unfold fit at h
  dsimp only at h
  rw [if_neg (by simp)] at h
  have hi : fitInner lm (method.getD "least_squares") given p = .ok r := by
    split at h
    · exact absurd h (by simp)
    · rename_i r' hr'
      split at h
      · exact absurd h (by simp)
      · injection h with h
        rw [← h]
        exact hr'
  refine ⟨?_, ?_, ?_⟩
  · rintro rfl
    unfold fitInner at hi
    rw [if_neg (by decide)] at hi
    exact hi
  · rintro m rfl hm
    unfold fitInner at hi
    rw [if_neg (by simpa using hm)] at hi
    exact hi
  · rintro rfl hg
    unfold fitInner at hi
    rw [if_pos (by rfl)] at hi
    cases h0 : lm "leastsq" p with
    | error e => rw [h0] at hi; exact absurd hi (by simp)
    | ok r0 =>
      rw [h0] at hi
      dsimp only at hi
      refine ⟨r0, rfl, ?_⟩
      split at hi
      · rename_i hb
        rw [Bool.and_eq_true] at hb
        injection hi with hi
        exact Or.inl ⟨hb.1, hb.2, hi.symm⟩
      · rename_i hb
        refine Or.inr ⟨?_, hi⟩
        cases hsu : r0.success <;> cases her : r0.errorbars <;> simp_all

/-- C129. Weights are refused. -/
theorem weights_refused {P : Type} (lm : String → P → Except Exc (Res P)) (look : P → String → Option K) (comps : List (Comp K)) (flag : Bool)
    (method : Option String) (minBins : Option K) (given : Given) (centers : Option (List K)) (p : P) :
    fit lm look comps flag method true minBins given centers p = .error .exception := rfl

theorem foldl_check (f : Comp K → Except Exc Unit) (l : List (Comp K)) (e : Exc) :
    l.foldl (fun r comp => match r with | .error e => .error e | .ok _ => f comp) (.error e : Except Exc Unit) = .error e := by
  induction l with
  | nil => rfl
  | cons c l ih => rw [List.foldl_cons]; exact ih

theorem foldl_ok (f : Comp K → Except Exc Unit) (l : List (Comp K)) :
    l.foldl (fun r comp => match r with | .error e => .error e | .ok _ => f comp) (.ok () : Except Exc Unit) = .ok () ↔ ∀ c ∈ l, f c = .ok () := by
  induction l with
  | nil => simp
  | cons c l ih =>
    rw [List.foldl_cons]
    dsimp only
    cases hc : f c with
    | error e =>
      rw [foldl_check]
      simp [hc]
    | ok u => rw [ih]; simp [hc]

/-- the check of bins is done when bin_centers were given by name, and asks for this: every component that has a gain and a width is a line with at least so many bins in its width [specification] -/
def BinsOk (a b minBins : K) (look : String → Option K) (comps : List (Comp K)) : Prop :=
  ∀ c ∈ comps, ∀ d w, look (c.pre ++ "dph_de") = some d → look (c.pre ++ "fwhm") = some w → ∃ f, c.minimumFwhm = some f ∧ minBins * (b - a) ≤ f w * d

/-- C129. The bins are accepted exactly when each line has at least the asked number of bins in its width (in energy: the bin size divided by the gain). -/
theorem validate_spec (a b : K) (t : List K) (hab : a < b) (minBins : K) (look : String → Option K) (comps : List (Comp K)) (hd : ∀ c ∈ comps, ∀ d, look (c.pre ++ "dph_de") = some d → 0 < d) :
    validate true (some (a :: b :: t)) minBins look comps = .ok () ↔ BinsOk a b minBins look comps := by
  unfold validate
  dsimp only
  rw [if_neg (by simp), foldl_ok]
  unfold BinsOk
  refine forall_congr' fun c => forall_congr' fun hc => ?_
  unfold checkComp
  cases h1 : look (c.pre ++ "dph_de") with
  | none => simp
  | some d =>
    have hd0 := hd c hc d h1
    cases h2 : look (c.pre ++ "fwhm") with
    | none => simp
    | some w =>
      dsimp only
      cases hf : c.minimumFwhm with
      | none => simp
      | some f =>
        dsimp only
        have hba := sub_pos.2 hab
        have key : f w / ((b - a) / d) < minBins ↔ ¬ minBins * (b - a) ≤ f w * d := by
          rw [not_le, div_div_eq_mul_div, div_lt_iff₀ hba]
        constructor
        · intro h d' w' hd' hw'
          injection hd' with hd'
          injection hw' with hw'
          subst hd' hw'
          refine ⟨f, rfl, ?_⟩
          by_contra hcon
          rw [if_pos (key.2 hcon)] at h
          exact absurd h (by simp)
        · intro h
          obtain ⟨f', hf', hle⟩ := h d w rfl rfl
          injection hf' with hf'
          subst hf'
          rw [if_neg (fun hcon => key.1 hcon hle)]

/-- C129. A fit to a histogram that is returned has at least the asked number of bins (three, if not said) in the width of every line. -/
theorem fit_bins {P : Type} (lm : String → P → Except Exc (Res P)) (look : P → String → Option K) (comps : List (Comp K))
    (method : Option String) (minBins : Option K) (given : Given) (a b : K) (t : List K) (hab : a < b) (p : P) (r : Res P)
    (hd : ∀ c ∈ comps, ∀ d, look r.params (c.pre ++ "dph_de") = some d → 0 < d)
    (h : fit lm look comps true method false minBins given (some (a :: b :: t)) p = .ok r) : BinsOk a b (minBins.getD 3) (look r.params) comps := by
  unfold fit at h
  dsimp only at h
  rw [if_neg (by simp)] at h
  split at h
  · exact absurd h (by simp)
  · rename_i r' hr'
    split at h
    · exact absurd h (by simp)
    · rename_i u hu
      injection h with h
      subst h
      exact (validate_spec a b t hab _ _ comps hd).1 hu

/-- C129. A histogram of fewer than two bins is refused: it has no bin size. -/
theorem fit_one_bin {P : Type} (lm : String → P → Except Exc (Res P)) (look : P → String → Option K) (comps : List (Comp K)) (method : Option String) (minBins : Option K) (given : Given) (centers : List K)
    (hc : centers.length < 2) (p : P) : ∃ e, fit lm look comps true method false minBins given (some centers) p = .error e := by
  have hv : ∀ m l, validate true (some centers) m l comps = .error .index := by
    intro m l
    match centers, hc with
    | [], _ => rfl
    | [_], _ => rfl
  unfold fit
  dsimp only
  rw [if_neg (by simp)]
  split
  · exact ⟨_, rfl⟩
  · rw [hv]
    exact ⟨_, rfl⟩

/-- C129. Bins fine enough for a fit are fine enough when made smaller, and when fewer are asked for. -/
theorem bins_mono (a b a' b' m m' : K) (h0 : 0 ≤ m') (hb : b' - a' ≤ b - a) (hab : a' ≤ b') (hm : m' ≤ m) (look : String → Option K) (comps : List (Comp K)) (h : BinsOk a b m look comps) :
    BinsOk a' b' m' look comps := by
  intro c hc d w hd hw
  obtain ⟨f, hf, hle⟩ := h c hc d w hd hw
  refine ⟨f, hf, le_trans ?_ hle⟩
  exact mul_le_mul hm hb (sub_nonneg.2 hab) (le_trans h0 hm)

/-- C129, instance: a line with width 3 in energy, gain 2, bins of 1 unit: six bins in the width -/
example : (validate (K := ℚ) true (some [10, 11, 12]) 6 (fun s => if s = "dph_de" then some 2 else if s = "fwhm" then some 3 else none) [⟨"", some (fun w => w)⟩]) = .ok () ∧
    (validate (K := ℚ) true (some [10, 11, 12]) 7 (fun s => if s = "dph_de" then some 2 else if s = "fwhm" then some 3 else none) [⟨"", some (fun w => w)⟩]) = .error .value := by decide +kernel

/-! ### Disagreements -/

/-- Disagreement (C129): a line plus another component (a background, say) with the same prefix: the other component is taken for a line, since the parameters of the line have its prefix too, and every fit to a histogram raises an
AttributeError when it is done. -/
theorem same_prefix_fails {P : Type} (lm : String → P → Except Exc (Res P)) (look : P → String → Option K) (pre : String) (f : K → K) (p : P) (a b : K) (t : List K) (r : Res P)
    (hr : lm "least_squares" p = .ok r) (d w : K) (hd : look r.params (pre ++ "dph_de") = some d) (hw : look r.params (pre ++ "fwhm") = some w) (hfine : ¬ f w / ((b - a) / d) < 3) :
    fit lm look [⟨pre, some f⟩, ⟨pre, none⟩] true none false none .position (some (a :: b :: t)) p = .error .attribute := by
  unfold fit
  dsimp only
  rw [if_neg (by simp)]
  have : fitInner lm ((none : Option String).getD "least_squares") .position p = .ok r := by
    unfold fitInner
    rw [if_neg (by decide)]
    exact hr
  rw [this]
  dsimp only
  unfold validate
  dsimp only
  rw [if_neg (by simp)]
  simp only [List.foldl_cons, List.foldl_nil, checkComp, hd, hw, Option.getD_none, if_neg hfine]

/-- Disagreement (C129): a histogram in which one bin contains both quartiles (more than half of all counts, for instance a narrow line in coarse bins) gets the width zero as starting value. -/
theorem zero_width_fails (data centers : List K) (hd : ∀ x ∈ data, 0 ≤ x) (d : K) (g : Guess K) (h : guess data centers d = .ok g) (k : Nat) (hk : k < data.length)
    (h1 : (data.take k).sum ≤ 1 / 4 * data.sum) (h2 : 3 / 4 * data.sum < (data.take (k + 1)).sum) : g.fwhm = 0 := by
  have h0 := List.sum_nonneg hd
  have hs : 0 < data.sum := by
    rcases eq_or_lt_of_le h0 with e | e
    · exfalso
      have h3 : (data.take (k + 1)).sum + (data.drop (k + 1)).sum = data.sum := by rw [← List.sum_append, List.take_append_drop]
      have h4 : 0 ≤ (data.drop (k + 1)).sum := List.sum_nonneg (fun x hx => hd x (List.mem_of_mem_drop hx))
      linarith
    · exact e
  rw [width_spec data centers hd hs d g h k k ⟨hk, by linarith, h1⟩ ⟨hk, h2, by linarith⟩]
  simp

example : (guess (K := ℚ) [0, 0, 8, 1, 0] [10, 11, 12, 13, 14] 1).map (fun g => (g.peakPh, g.fwhm)) = .ok (12, 0) := by decide +kernel

/-- Disagreement (C129): with at most 20 bins the guessed background is 0.1 per bin whatever the counts: also for a histogram of frequencies or with thousands of counts per bin (where the counts are then all attributed to the line). -/
theorem background_fails (data centers : List K) (hd : data ≠ []) (hn : data.length ≤ 20) (d : K) : (guess data centers d).map (·.background) = .ok (1 / 10) := by
  unfold guess
  rw [if_neg hd]
  dsimp only
  have : baseline data = 1 / 10 := by unfold baseline; rw [if_neg (by omega)]
  rw [this]
  rfl

/-- Disagreement (C129): "leastsq_refit" without a set of parameters (the values given one by one) starts the second fit again from the beginning, not from what the first one found. -/
theorem refit_start_fails {P : Type} (lm : String → P → Except Exc (Res P)) (p : P) (r0 : Res P) (h0 : lm "leastsq" p = .ok r0) (hb : r0.errorbars = false) :
    fitInner lm "leastsq_refit" .no p = lm "least_squares" p := by
  unfold fitInner
  rw [if_pos rfl, h0]
  dsimp only
  rw [if_neg (by simp [hb]), if_pos rfl]

end Mass.Line.Fit
