import Mathlib.Data.Int.Log
import Mathlib.Data.Rat.Floor
import Mathlib.Data.String.Basic
import Mathlib.Data.List.Sort
import Mathlib.Algebra.Order.Field.Basic
import Mathlib.Algebra.Order.Field.Power
import Mathlib.Tactic.FieldSimp
import Mathlib.Tactic.Linarith
import Mathlib.Tactic.Positivity
import Mathlib.Tactic.NormNum
import Mathlib.Tactic.Ring
/-! C185: the parameters written on the figure of a fit (mass/calibration/line_models.py L341-373). Numbers are exact; what the formats write is modelled as a number. -/
namespace Mass.Line.Report
set_option linter.unusedSectionVars false

variable {K : Type} [Field K] [LinearOrder K] [IsStrictOrderedRing K] [FloorRing K]

/-! ### model -/

/-- the errors that occur: int() of an infinite number, and of NaN (used for line_models.py L351) -/
inductive Fail
  | overflow
  | value
deriving DecidableEq

/-- the nearest whole number, to the even one of two (used for line_models.py L349-355) -/
def nearest (x : K) : Int :=
  if x - ⌊x⌋ < 1 / 2 then ⌊x⌋ else if 1 / 2 < x - ⌊x⌋ then ⌊x⌋ + 1 else if ⌊x⌋ % 2 = 0 then ⌊x⌋ else ⌊x⌋ + 1

/-- the worth of the last of n figures of v (used for line_models.py L349-355) -/
def unit (n : Int) (v : K) : K := (10 : K) ^ (Int.log 10 |v| - n + 1)

/-- the number written by the format `.{n}g`, line_models.py L349, L353, L356: v rounded to n significant figures, half to even. Simplified: only the number that is written is modelled, not whether it is
written with an exponent; trailing zeros do not matter. -/
def shown (n : Int) (v : K) : K := if v = 0 then 0 else nearest (v / unit n v) * unit n v

/-- line_models.py L351-352: `max(1, int(ceil(log10(abs(v / stderr))) + 1))`. The parameters hold numpy numbers: a value of 0 gives the logarithm minus infinity, an error of 0 gives infinity, both
give NaN. int() then raises OverflowError or ValueError. -/
def sigFigs (v err : K) : Except Fail Int :=
  if err = 0 then (if v = 0 then .error .value else .error .overflow)
  else if v = 0 then .error .overflow
  else .ok (max 1 (Int.clog 10 |v / err| + 1))

/-- a parameter of the result: name, whether it was varied, value, uncertainty (None if the fit gave none) (used for line_models.py L344-355) -/
structure Par (K : Type) where
  name : String
  vary : Bool
  value : K
  stderr : Option K

/-- a line of the report: value and uncertainty; value without uncertainty; value of a held parameter; reduced chi-squared (line_models.py L349, L353, L356, L357) -/
inductive Row (K : Type)
  | fitted (label : String) (value err : K)
  | unsure (label : String) (value : K)
  | held (label : String) (value : K)
  | redchi (value : K)
deriving DecidableEq

/-- `sn.get(k, k)`, line_models.py L343 -/
def label (k : String) : String :=
  if k = "background" then "bg" else if k = "integral" then "intgrl" else if k = "bg_slope" then "bg_slp" else k

/-- one turn of the loop, line_models.py L345-356 -/
def row (p : Par K) : Except Fail (Row K) :=
  if p.vary then
    match p.stderr with
    | none => .ok (.unsure (label p.name) (shown 2 p.value))
    | some e => (sigFigs p.value e).map (fun n => .fitted (label p.name) (shown n p.value) (shown 2 e))
  else .ok (.held (label p.name) (shown 2 p.value))

/-- `_compact_fit_report`, line_models.py L341-358: the parameters in order of their names -/
def report (ps : List (Par K)) (redchi : K) : Except Fail (List (Row K)) :=
  ((ps.insertionSort (fun p q => p.name ≤ q.name)).mapM row).map (fun l => l ++ [.redchi (shown 2 redchi)])

/-! ### lemmas -/

theorem nearest_spec (x : K) : |(nearest x : K) - x| ≤ 1 / 2 := by
  have h1 := Int.floor_le x
  have h2 := Int.lt_floor_add_one x
  unfold nearest
  split_ifs with a b c
  · rw [abs_le]; constructor <;> linarith
  · push_cast; rw [abs_le]; constructor <;> linarith
  · rw [abs_le]; constructor <;> linarith
  · push_cast; rw [abs_le]; constructor <;> linarith

theorem nearest_int (k : Int) : nearest (k : K) = k := by
  unfold nearest
  simp

theorem unit_pos (n : Int) (v : K) : 0 < unit n v := zpow_pos (by norm_num) _

/-- the leading figure is worth no more than the number, and ten times as much is more -/
theorem lead {v : K} (h : v ≠ 0) : (10 : K) ^ Int.log 10 |v| ≤ |v| ∧ |v| < (10 : K) ^ (Int.log 10 |v| + 1) := by
  have h1 := Int.zpow_log_le_self (R := K) (b := 10) (by norm_num) (abs_pos.2 h)
  have h2 := Int.lt_zpow_succ_log_self (R := K) (b := 10) (by norm_num) |v|
  simpa using And.intro h1 h2

theorem shown_err (n : Int) (v : K) : |shown n v - v| ≤ unit n v / 2 := by
  unfold shown
  split_ifs with h
  · subst h
    simp only [sub_self, abs_zero]
    have := unit_pos n (0 : K)
    linarith
  · have hu := unit_pos n v
    have e : (nearest (v / unit n v) : K) * unit n v - v = ((nearest (v / unit n v) : K) - v / unit n v) * unit n v := by
      field_simp
    rw [e, abs_mul, abs_of_pos hu]
    have := nearest_spec (v / unit n v)
    nlinarith

theorem unit_le {n : Int} {v : K} (h : v ≠ 0) : unit n v ≤ |v| * (10 : K) ^ (1 - n) := by
  have := (lead h).1
  unfold unit
  have e : (10 : K) ^ (Int.log 10 |v| - n + 1) = (10 : K) ^ Int.log 10 |v| * (10 : K) ^ (1 - n) := by
    rw [← zpow_add₀ (by norm_num)]
    congr 1
    ring
  rw [e]
  exact mul_le_mul_of_nonneg_right this (zpow_pos (by norm_num) _).le

/-! ### theorems -/

/-- C185. A fitted value with an uncertainty is written to within half of the uncertainty: the figures left out never matter. -/
theorem within_half {v err : K} (he : 0 < err) {n : Int} (h : sigFigs v err = .ok n) : |shown n v - v| ≤ err / 2 := by
  unfold sigFigs at h
  rw [if_neg he.ne'] at h
  by_cases hv : v = 0
  · rw [if_pos hv] at h; cases h
  · rw [if_neg hv] at h
    injection h with h
    have h1 := shown_err n v
    have h2 := unit_le (n := n) hv
    have hc := Int.self_le_zpow_clog (R := K) (b := 10) (by norm_num) |v / err|
    have hle : |v| * (10 : K) ^ (1 - n) ≤ err := by
      have hn : Int.clog 10 |v / err| ≤ n - 1 := by
        have := le_max_right 1 (Int.clog 10 |v / err| + 1)
        omega
      have h3 : |v / err| ≤ (10 : K) ^ (n - 1) := by
        refine hc.trans ?_
        push_cast
        exact zpow_le_zpow_right₀ (by norm_num) hn
      rw [abs_div, abs_of_pos he, div_le_iff₀ he] at h3
      have hp : (0 : K) < (10 : K) ^ (1 - n) := zpow_pos (by norm_num) _
      have e : (10 : K) ^ (n - 1) * (10 : K) ^ (1 - n) = 1 := by
        rw [← zpow_add₀ (by norm_num)]
        simp
      calc |v| * (10 : K) ^ (1 - n) ≤ ((10 : K) ^ (n - 1) * err) * (10 : K) ^ (1 - n) := mul_le_mul_of_nonneg_right h3 hp.le
        _ = ((10 : K) ^ (n - 1) * (10 : K) ^ (1 - n)) * err := by ring
        _ = err := by rw [e, one_mul]
    linarith

/-- C185. And no more than needed: unless only one figure is written, the last one is worth more than a hundredth of the uncertainty. -/
theorem no_more {v err : K} (he : 0 < err) {n : Int} (h : sigFigs v err = .ok n) : 1 ≤ n ∧ (n = 1 ∨ err / 100 < unit n v) := by
  unfold sigFigs at h
  rw [if_neg he.ne'] at h
  by_cases hv : v = 0
  · rw [if_pos hv] at h; cases h
  · rw [if_neg hv] at h
    injection h with h
    refine ⟨by rw [← h]; exact le_max_left _ _, ?_⟩
    by_cases h1 : n = 1
    · exact Or.inl h1
    · right
      have hn : n = Int.clog 10 |v / err| + 1 := by
        rcases max_choice 1 (Int.clog 10 |v / err| + 1) with e | e <;> rw [e] at h
        · exact absurd h.symm h1
        · exact h.symm
      have hpos : 0 < |v / err| := abs_pos.2 (div_ne_zero hv he.ne')
      have hc := Int.zpow_pred_clog_lt_self (R := K) (b := 10) (by norm_num) hpos
      push_cast at hc
      rw [abs_div, abs_of_pos he, lt_div_iff₀ he] at hc
      have hl := (lead hv).2
      have hu : unit n v * (10 : K) ^ (n - 2) * 100 = (10 : K) ^ (Int.log 10 |v| + 1) := by
        unfold unit
        rw [← zpow_add₀ (by norm_num), show (100 : K) = (10 : K) ^ (2 : Int) by norm_num, ← zpow_add₀ (by norm_num)]
        congr 1
        ring
      have hp : (0 : K) < (10 : K) ^ (n - 2) := zpow_pos (by norm_num) _
      have e2 : Int.clog 10 |v / err| - 1 = n - 2 := by omega
      rw [abs_div, abs_of_pos he] at e2
      rw [e2] at hc
      have h3 : (10 : K) ^ (n - 2) * err < unit n v * (10 : K) ^ (n - 2) * 100 := by
        rw [hu]; exact hc.trans hl
      have h4 : (10 : K) ^ (n - 2) * err < (10 : K) ^ (n - 2) * (unit n v * 100) := by
        calc _ < _ := h3
          _ = _ := by ring
      have := lt_of_mul_lt_mul_left h4 hp.le
      linarith

/-- C185. Held values, values without uncertainty, uncertainties and the reduced chi-squared are written with two figures: to within a twentieth of their size. -/
theorem two_figures (v : K) : |shown 2 v - v| ≤ |v| / 20 := by
  by_cases hv : v = 0
  · subst hv; simp [shown]
  · have h1 := shown_err 2 v
    have h2 := unit_le (n := 2) hv
    have : (10 : K) ^ (1 - 2 : Int) = 1 / 10 := by norm_num
    rw [this] at h2
    linarith

/-- C185. Numbers that have no more figures are written as they are, in particular 0. -/
theorem exact (n : Int) (v : K) (k : Int) (h : v = k * unit n v) : shown n v = v := by
  unfold shown
  split_ifs with h0
  · exact h0.symm
  · have e : v / unit n v = k := by
      rw [div_eq_iff (unit_pos n v).ne']; exact h
    rw [e, nearest_int, ← h]

theorem sorted_names (ps : List (Par K)) : (ps.insertionSort (fun p q => p.name ≤ q.name)).Pairwise (fun p q => p.name ≤ q.name) := by
  haveI : Std.Total (fun p q : Par K => p.name ≤ q.name) := ⟨fun p q => le_total p.name q.name⟩
  haveI : IsTrans (Par K) (fun p q => p.name ≤ q.name) := ⟨fun _ _ _ h1 h2 => le_trans h1 h2⟩
  exact List.pairwise_insertionSort _ _

theorem mapM_ok {α β ε : Type} (f : α → Except ε β) : ∀ (l : List α), (∀ x ∈ l, ∃ y, f x = .ok y) → ∃ r, l.mapM f = .ok r ∧ List.Forall₂ (fun x y => f x = .ok y) l r := by
  intro l
  induction l with
  | nil => intro _; exact ⟨[], rfl, List.Forall₂.nil⟩
  | cons x l ih =>
    intro h
    obtain ⟨y, hy⟩ := h x (by simp)
    obtain ⟨r, hr, hf⟩ := ih (fun z hz => h z (by simp [hz]))
    refine ⟨y :: r, ?_, List.Forall₂.cons hy hf⟩
    rw [List.mapM_cons, hy, hr]
    rfl

theorem mapM_error {α β ε : Type} (f : α → Except ε β) : ∀ (l : List α), (∃ x ∈ l, ∃ e, f x = .error e) → ∃ e, l.mapM f = .error e := by
  intro l
  induction l with
  | nil => rintro ⟨x, hx, _⟩; simp at hx
  | cons x l ih =>
    intro h
    rw [List.mapM_cons]
    cases hx : f x with
    | error e => exact ⟨e, rfl⟩
    | ok y =>
      obtain ⟨z, hz, e, he⟩ := h
      rcases List.mem_cons.1 hz with rfl | hz
      · rw [hx] at he; cases he
      · obtain ⟨e', he'⟩ := ih ⟨z, hz, e, he⟩
        exact ⟨e', by rw [he']; rfl⟩

/-- what a line must say of its parameter [specification] -/
def Says (p : Par K) (r : Row K) : Prop :=
  match p.vary, p.stderr, r with
  | true, some e, .fitted l v s => l = label p.name ∧ |v - p.value| ≤ e / 2 ∧ |s - e| ≤ e / 20
  | true, none, .unsure l v => l = label p.name ∧ |v - p.value| ≤ |p.value| / 20
  | false, _, .held l v => l = label p.name ∧ |v - p.value| ≤ |p.value| / 20
  | _, _, _ => False

/-- C185. If no varied parameter with an uncertainty is exactly 0 and all uncertainties are positive, there is a report. It has one line for each parameter, in order of their names, and then that of the
reduced chi-squared; each line says of its parameter whether it was held, the value, and the uncertainty if there is one, with the errors above. -/
theorem report_partial (ps : List (Par K)) (redchi : K) (h : ∀ p ∈ ps, p.vary = true → ∀ e, p.stderr = some e → 0 < e ∧ p.value ≠ 0) :
    ∃ (l : List (Par K)) (rows : List (Row K)), l.Perm ps ∧ l.Pairwise (fun p q => p.name ≤ q.name) ∧ List.Forall₂ Says l rows ∧
      report ps redchi = .ok (rows ++ [.redchi (shown 2 redchi)]) ∧ |shown 2 redchi - redchi| ≤ |redchi| / 20 := by
  have hp := List.perm_insertionSort (fun p q : Par K => p.name ≤ q.name) ps
  have hrow : ∀ p ∈ ps, ∃ r, row p = .ok r := by
    intro p hpm
    unfold row
    cases hv : p.vary with
    | false => exact ⟨_, rfl⟩
    | true =>
      cases hs : p.stderr with
      | none => exact ⟨_, rfl⟩
      | some e =>
        obtain ⟨he, h0⟩ := h p hpm hv e hs
        refine ⟨.fitted (label p.name) (shown (max 1 (Int.clog 10 |p.value / e| + 1)) p.value) (shown 2 e), ?_⟩
        simp only [if_true, sigFigs, if_neg he.ne', if_neg h0]
        rfl
  obtain ⟨rows, hr, hf⟩ := mapM_ok row (ps.insertionSort (fun p q => p.name ≤ q.name)) (fun p hpm => hrow p (hp.mem_iff.1 hpm))
  refine ⟨_, rows, hp, sorted_names ps, ?_, ?_, two_figures redchi⟩
  · refine List.forall₂_iff_get.2 ⟨hf.length_eq, fun i h1 h2 => ?_⟩
    have hg := (List.forall₂_iff_get.1 hf).2 i h1 h2
    set p := (ps.insertionSort (fun p q => p.name ≤ q.name)).get ⟨i, h1⟩ with hpdef
    have hpm : p ∈ ps := hp.mem_iff.1 (List.get_mem _ _)
    generalize rows.get ⟨i, h2⟩ = r at hg
    unfold row at hg
    unfold Says
    cases hv : p.vary with
    | false =>
      rw [hv] at hg
      simp only [Bool.false_eq_true, if_false] at hg
      injection hg with hg
      rw [← hg]
      cases p.stderr <;> exact ⟨rfl, two_figures _⟩
    | true =>
      rw [hv] at hg
      simp only [if_true] at hg
      cases hs : p.stderr with
      | none =>
        rw [hs] at hg
        injection hg with hg
        rw [← hg]
        exact ⟨rfl, two_figures _⟩
      | some e =>
        rw [hs] at hg
        dsimp only at hg
        obtain ⟨he, h0⟩ := h p hpm hv e hs
        cases hn : sigFigs p.value e with
        | error x => rw [hn] at hg; cases hg
        | ok n =>
          rw [hn] at hg
          simp only [Except.map] at hg
          injection hg with hg
          rw [← hg]
          refine ⟨rfl, within_half he hn, ?_⟩
          have := two_figures e
          rwa [abs_of_pos he] at this
  · unfold report
    rw [hr]
    rfl

/-- C185. Two parameters have the same label only if one of them is named like the short form of the other. -/
theorem label_inj {a b : String} (h : label a = label b) (ha : a ≠ "bg" ∧ a ≠ "intgrl" ∧ a ≠ "bg_slp") (hb : b ≠ "bg" ∧ b ≠ "intgrl" ∧ b ≠ "bg_slp") : a = b := by
  obtain ⟨a1, a2, a3⟩ := ha
  obtain ⟨b1, b2, b3⟩ := hb
  unfold label at h
  split_ifs at h with h1 h2 h3 h4 h5 h6 h7 h8 h9 <;> simp_all

/-- Disagreement (C185): if a varied parameter with an uncertainty is exactly 0 (say a background or a tail that the fit left at its limit of 0), or an uncertainty is 0, there is no report, and the figure ends
with an error: the number of figures is the integer part of an infinite number. -/
theorem zero_fails (ps : List (Par K)) (redchi : K) (h : ∃ p ∈ ps, p.vary = true ∧ ∃ e, p.stderr = some e ∧ (p.value = 0 ∨ e = 0)) : ∃ x, report ps redchi = .error x := by
  obtain ⟨p, hp, hv, e, hs, h0⟩ := h
  have hm := (List.perm_insertionSort (fun p q : Par K => p.name ≤ q.name) ps).mem_iff.2 hp
  have : ∃ x, row p = .error x := by
    unfold row
    rw [hv, hs]
    simp only [if_true]
    unfold sigFigs
    rcases h0 with h0 | h0
    · by_cases he : e = 0
      · exact ⟨.value, by rw [if_pos he, if_pos h0]; rfl⟩
      · exact ⟨.overflow, by rw [if_neg he, if_pos h0]; rfl⟩
    · by_cases hz : p.value = 0
      · exact ⟨.value, by rw [if_pos h0, if_pos hz]; rfl⟩
      · exact ⟨.overflow, by rw [if_pos h0, if_neg hz]; rfl⟩
  obtain ⟨x, hx⟩ := this
  obtain ⟨y, hy⟩ := mapM_error row _ ⟨p, hm, x, hx⟩
  exact ⟨y, by unfold report; rw [hy]; rfl⟩

/-! ### examples -/

/-- 5898.8043 ± 0.0213 is written with 7 figures, as 5898.804 ± 0.021. -/
example : sigFigs (58988043 / 10000 : ℚ) (213 / 10000) = .ok 7 ∧ shown 7 (58988043 / 10000 : ℚ) = 5898804 / 1000 ∧ shown 2 (213 / 10000 : ℚ) = 21 / 1000 := by
  decide +kernel

example : shown 2 (58988043 / 10000 : ℚ) = 5900 ∧ shown 2 (-25 / 2 : ℚ) = -12 ∧ shown 2 (0 : ℚ) = 0 := by decide +kernel

example : report [⟨"integral", true, 1234, some 40⟩, ⟨"background", true, 3, none⟩, ⟨"dph_de", false, 1, none⟩] (21 / 20 : ℚ)
    = .ok [.unsure "bg" 3, .held "dph_de" 1, .fitted "intgrl" 1230 40, .redchi 1] := by decide +kernel

/-- the background was left at 0 -/
example : report [⟨"integral", true, 1234, some 40⟩, ⟨"background", true, 0, some 2⟩] (1 : ℚ) = .error .overflow := by decide +kernel

end Mass.Line.Report
