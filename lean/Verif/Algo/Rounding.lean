import Mathlib.Data.Int.Log
import Mathlib.Data.Rat.Floor
import Mathlib.Tactic.Linarith
import Mathlib.Tactic.Ring
import Mathlib.Tactic.FieldSimp
import Mathlib.Tactic.Positivity
import Mathlib.Tactic.NormNum
/-! Binary floating point: rounding to the nearest number with p significant bits, used for times and stored values in C154 -/
namespace Mass.Fl

/-- a number rounded to an integer, halves to even (IEEE 754, the arithmetic of numpy; used for mass/core/files.py L439) -/
def rne (x : ℚ) : Int :=
  if 2 * (x - ⌊x⌋) < 1 then ⌊x⌋ else if 1 < 2 * (x - ⌊x⌋) then ⌊x⌋ + 1 else ⌊x⌋ + ⌊x⌋ % 2

/-- a number rounded to `p` significant bits: 53 for float64, 24 for float32 (IEEE 754, the arithmetic of numpy; used for mass/core/files.py L439). Simplified: there is no largest and no
smallest exponent. -/
def fl (p : Nat) (x : ℚ) : ℚ := if x = 0 then 0 else rne (x / 2 ^ (Int.log 2 |x| + 1 - p)) * 2 ^ (Int.log 2 |x| + 1 - p)

theorem rne_err (x : ℚ) : |(rne x : ℚ) - x| ≤ 1 / 2 := by
  have h1 := Int.floor_le x
  have h2 := Int.lt_floor_add_one x
  unfold rne
  rw [abs_le]
  split
  · constructor <;> linarith
  split
  · push_cast; constructor <;> linarith
  · have : ⌊x⌋ % 2 = 0 ∨ ⌊x⌋ % 2 = 1 := by omega
    rcases this with h | h <;> rw [h] <;> push_cast <;> constructor <;> linarith

theorem rne_int (z : Int) : rne (z : ℚ) = z := by
  unfold rne
  simp

theorem rne_mono {x y : ℚ} (h : x ≤ y) : rne x ≤ rne y := by
  have hx1 := Int.floor_le x
  have hx2 := Int.lt_floor_add_one x
  have hf : ⌊x⌋ ≤ ⌊y⌋ := Int.floor_le_floor h
  have up : rne x ≤ ⌊x⌋ + 1 := by unfold rne; split; · omega
                                  split <;> omega
  have lo : ⌊y⌋ ≤ rne y := by unfold rne; split; · omega
                              split <;> omega
  rcases lt_or_eq_of_le hf with h' | h'
  · omega
  · unfold rne
    rw [h']
    have h0 : ⌊y⌋ % 2 = 0 ∨ ⌊y⌋ % 2 = 1 := by omega
    rcases lt_trichotomy (2 * (x - ⌊y⌋)) 1 with h1 | h1 | h1 <;> rcases lt_trichotomy (2 * (y - ⌊y⌋)) 1 with h2 | h2 | h2
    · rw [if_pos h1, if_pos h2]
    · rw [if_pos h1, if_neg (by linarith), if_neg (by linarith)]; omega
    · rw [if_pos h1, if_neg (by linarith), if_pos h2]; omega
    · exfalso; linarith
    · rw [if_neg (by linarith), if_neg (by linarith), if_neg (by linarith), if_neg (by linarith)]
    · rw [if_neg (by linarith), if_neg (by linarith), if_neg (by linarith), if_pos h2]; omega
    · exfalso; linarith
    · exfalso; linarith
    · rw [if_neg (by linarith), if_pos h1, if_neg (by linarith), if_pos h2]

theorem rne_neg (x : ℚ) : rne (-x) = -rne x := by
  have h1 := Int.floor_le x
  have h2 := Int.lt_floor_add_one x
  by_cases hx : (⌊x⌋ : ℚ) = x
  · rw [← hx, ← Int.cast_neg, rne_int, rne_int]
  · have hlt : (⌊x⌋ : ℚ) < x := lt_of_le_of_ne h1 hx
    have hfl : ⌊-x⌋ = -⌊x⌋ - 1 := by
      rw [Int.floor_eq_iff]
      push_cast
      constructor <;> linarith
    unfold rne
    rw [hfl]
    push_cast
    rcases lt_trichotomy (2 * (x - ⌊x⌋)) 1 with h | h | h
    · rw [if_neg (by linarith), if_pos (by linarith), if_pos h]; ring
    · rw [if_neg (by linarith), if_neg (by linarith), if_neg (by linarith), if_neg (by linarith)]
      omega
    · rw [if_pos (by linarith), if_neg (by linarith), if_pos h]; ring

theorem fl_zero (p : Nat) : fl p 0 = 0 := by simp [fl]

theorem fl_neg (p : Nat) (x : ℚ) : fl p (-x) = -fl p x := by
  unfold fl
  by_cases h : x = 0
  · simp [h]
  · rw [if_neg (by simpa using h), if_neg h, abs_neg, neg_div, rne_neg]
    push_cast
    ring

theorem two_zpow_pos (e : Int) : (0 : ℚ) < 2 ^ e := zpow_pos (by norm_num) e

/-- the relative error of rounding is at most half a unit of the last bit -/
theorem fl_err (p : Nat) (x : ℚ) : |fl p x - x| ≤ |x| / 2 ^ p := by
  unfold fl
  by_cases h : x = 0
  · simp [h]
  rw [if_neg h]
  have hx : 0 < |x| := abs_pos.2 h
  have hl := Int.zpow_log_le_self (b := 2) (by norm_num) hx
  push_cast at hl
  have hu := two_zpow_pos (Int.log 2 |x| + 1 - p)
  have he := rne_err (x / 2 ^ (Int.log 2 |x| + 1 - p))
  have e1 : (rne (x / 2 ^ (Int.log 2 |x| + 1 - p)) : ℚ) * 2 ^ (Int.log 2 |x| + 1 - p) - x =
      ((rne (x / 2 ^ (Int.log 2 |x| + 1 - p)) : ℚ) - x / 2 ^ (Int.log 2 |x| + 1 - p)) * 2 ^ (Int.log 2 |x| + 1 - p) := by
    rw [sub_mul, div_mul_cancel₀ _ hu.ne']
  rw [e1, abs_mul, abs_of_pos hu]
  have e2 : (2 : ℚ) ^ (Int.log 2 |x| + 1 - p) = 2 * (2 ^ Int.log 2 |x| / 2 ^ p) := by
    rw [zpow_sub₀ (by norm_num), zpow_add₀ (by norm_num), zpow_one, zpow_natCast]
    ring
  calc _ ≤ 1 / 2 * 2 ^ (Int.log 2 |x| + 1 - p) := mul_le_mul_of_nonneg_right he hu.le
    _ = 2 ^ Int.log 2 |x| / 2 ^ p := by rw [e2]; ring
    _ ≤ _ := div_le_div_of_nonneg_right hl (by positivity)

/-- numbers with p bits are kept -/
theorem fl_grid (p : Nat) (hp : 0 < p) (m : Int) (k : Int) (hm : |m| ≤ 2 ^ p) : fl p ((m : ℚ) * 2 ^ k) = m * 2 ^ k := by
  unfold fl
  by_cases h : (m : ℚ) * 2 ^ k = 0
  · rw [if_pos h, h]
  rw [if_neg h]
  have hk := two_zpow_pos k
  have hx : 0 < |(m : ℚ) * 2 ^ k| := abs_pos.2 h
  have hl := Int.zpow_log_le_self (b := 2) (by norm_num) hx
  generalize hE : Int.log 2 |(m : ℚ) * 2 ^ k| = e at hl ⊢
  have hle : |(m : ℚ) * 2 ^ k| ≤ 2 ^ ((p : Int) + k) := by
    rw [abs_mul, abs_of_pos hk, zpow_add₀ (by norm_num), zpow_natCast]
    refine mul_le_mul_of_nonneg_right ?_ hk.le
    exact_mod_cast hm
  by_cases hc : e + 1 - p ≤ k
  · obtain ⟨j, hj⟩ : ∃ j : Nat, k = (e + 1 - p) + j := ⟨(k - (e + 1 - p)).toNat, by omega⟩
    have hu := two_zpow_pos (e + 1 - p)
    have : (m : ℚ) * 2 ^ k / 2 ^ (e + 1 - p) = ((m * 2 ^ j : Int) : ℚ) := by
      rw [hj, zpow_add₀ (by norm_num), zpow_natCast]
      push_cast
      field_simp
    rw [this, rne_int, ← this, div_mul_cancel₀ _ hu.ne']
  · -- then |x| is exactly the power of two
    push_cast at hl
    have h1 : ((p : Int) + k) ≤ e := by omega
    have h2 : (2 : ℚ) ^ ((p : Int) + k) ≤ 2 ^ e := zpow_le_zpow_right₀ (by norm_num) h1
    have he : (2 : ℚ) ^ e = 2 ^ ((p : Int) + k) := le_antisymm (hl.trans hle) h2
    have hee : e = (p : Int) + k := zpow_right_injective₀ (by norm_num : (0 : ℚ) < 2) (by norm_num) he
    have hmm : |m| = 2 ^ p := by
      have h3 : |(m : ℚ) * 2 ^ k| = 2 ^ ((p : Int) + k) := le_antisymm hle (by rw [← he]; exact hl)
      rw [abs_mul, abs_of_pos hk, zpow_add₀ (by norm_num), zpow_natCast] at h3
      have := mul_right_cancel₀ hk.ne' h3
      exact_mod_cast this
    rw [hee, show (p : Int) + k + 1 - p = k + 1 by ring]
    obtain ⟨q, rfl⟩ : ∃ q, p = q + 1 := ⟨p - 1, by omega⟩
    have hu := two_zpow_pos (k + 1)
    obtain ⟨a, ha⟩ : ∃ a : Int, m = 2 * a := by
      rcases abs_choice m with hh | hh <;> rw [hh] at hmm
      · exact ⟨2 ^ q, by rw [hmm]; ring⟩
      · exact ⟨-2 ^ q, by rw [← neg_neg m, hmm]; ring⟩
    have : (m : ℚ) * 2 ^ k / 2 ^ (k + 1) = (a : ℚ) := by
      rw [ha, zpow_add₀ (by norm_num), zpow_one]
      push_cast
      field_simp
    rw [this, rne_int, ← this, div_mul_cancel₀ _ hu.ne']

/-- integers of at most p bits are kept -/
theorem fl_int (p : Nat) (hp : 0 < p) (m : Int) (hm : |m| ≤ 2 ^ p) : fl p (m : ℚ) = m := by
  have := fl_grid p hp m 0 hm
  simpa using this

/-- a rounded number has p bits -/
theorem fl_form (p : Nat) (hp : 0 < p) (x : ℚ) (hx : x ≠ 0) : ∃ m : Int, fl p x = m * 2 ^ (Int.log 2 |x| + 1 - p) ∧ |m| ≤ 2 ^ p ∧ 2 ^ (p - 1) ≤ |m| := by
  refine ⟨rne (x / 2 ^ (Int.log 2 |x| + 1 - p)), by unfold fl; rw [if_neg hx], ?_⟩
  have hu := two_zpow_pos (Int.log 2 |x| + 1 - p)
  have h0 : 0 < |x| := abs_pos.2 hx
  have h1 := Int.zpow_log_le_self (b := 2) (by norm_num) h0
  have h2 := Int.lt_zpow_succ_log_self (b := 2) (by norm_num) |x|
  push_cast at h1 h2
  have habs : ∀ y : ℚ, |rne y| = rne |y| := by
    intro y
    rcases le_total 0 y with h | h
    · rw [abs_of_nonneg h, abs_of_nonneg]
      have := rne_mono h
      rwa [show (0 : ℚ) = ((0 : Int) : ℚ) by simp, rne_int] at this
    · rw [abs_of_nonpos h, rne_neg, abs_of_nonpos]
      have := rne_mono h
      rwa [show (0 : ℚ) = ((0 : Int) : ℚ) by simp, rne_int] at this
  rw [habs, abs_div, abs_of_pos hu]
  constructor
  · have : rne (|x| / 2 ^ (Int.log 2 |x| + 1 - p)) ≤ rne (((2 ^ p : Int)) : ℚ) := by
      refine rne_mono ?_
      rw [div_le_iff₀ hu]
      push_cast
      rw [← zpow_natCast, ← zpow_add₀ (by norm_num)]
      refine h2.le.trans (le_of_eq ?_)
      congr 1
      ring
    rwa [rne_int] at this
  · have : rne (((2 ^ (p - 1) : Int)) : ℚ) ≤ rne (|x| / 2 ^ (Int.log 2 |x| + 1 - p)) := by
      refine rne_mono ?_
      rw [le_div_iff₀ hu]
      push_cast
      rw [← zpow_natCast, ← zpow_add₀ (by norm_num)]
      refine le_trans (le_of_eq ?_) h1
      congr 1
      push_cast [Nat.cast_sub (show 1 ≤ p from hp)]
      ring
    rwa [rne_int] at this

/-- rounding twice is rounding once -/
theorem fl_idem (p : Nat) (hp : 0 < p) (x : ℚ) : fl p (fl p x) = fl p x := by
  by_cases h : x = 0
  · rw [h, fl_zero, fl_zero]
  · obtain ⟨m, h1, h2, -⟩ := fl_form p hp x h
    rw [h1, fl_grid p hp m _ h2]

theorem fl_nonneg {p : Nat} {x : ℚ} (h : 0 ≤ x) : 0 ≤ fl p x := by
  unfold fl
  split
  · exact le_refl _
  · have hu := two_zpow_pos (Int.log 2 |x| + 1 - p)
    have := rne_mono (div_nonneg h hu.le)
    rw [show (0 : ℚ) = ((0 : Int) : ℚ) by simp, rne_int] at this
    exact mul_nonneg (by exact_mod_cast this) hu.le

theorem fl_mono_pos {p : Nat} (hp : 0 < p) {x y : ℚ} (hx : 0 < x) (h : x ≤ y) : fl p x ≤ fl p y := by
  have hy : 0 < y := lt_of_lt_of_le hx h
  have hxa : |x| = x := abs_of_pos hx
  have hya : |y| = y := abs_of_pos hy
  have hl : Int.log 2 x ≤ Int.log 2 y := Int.log_mono_right hx h
  rcases lt_or_eq_of_le hl with hlt | he
  · obtain ⟨m, h1, h2, -⟩ := fl_form p hp x hx.ne'
    obtain ⟨n, h3, -, h4⟩ := fl_form p hp y hy.ne'
    rw [hxa] at h1
    rw [hya] at h3
    have hn : 0 ≤ n := by
      have h5 := fl_nonneg (p := p) hy.le
      rw [h3] at h5
      have := nonneg_of_mul_nonneg_left h5 (two_zpow_pos _)
      exact_mod_cast this
    rw [abs_of_nonneg hn] at h4
    rw [h1, h3]
    have hux := two_zpow_pos (Int.log 2 x + 1 - p)
    have huy := two_zpow_pos (Int.log 2 y + 1 - p)
    have hm : (m : ℚ) ≤ 2 ^ (p : Int) := by
      rw [zpow_natCast]
      exact_mod_cast (le_abs_self m).trans h2
    have hn' : (2 : ℚ) ^ ((p : Int) - 1) ≤ n := by
      have : ((2 ^ (p - 1) : Int) : ℚ) ≤ n := by exact_mod_cast h4
      rw [show ((p : Int) - 1) = ((p - 1 : Nat) : Int) by omega, zpow_natCast]
      simpa using this
    calc (m : ℚ) * 2 ^ (Int.log 2 x + 1 - p) ≤ 2 ^ (p : Int) * 2 ^ (Int.log 2 x + 1 - p) := mul_le_mul_of_nonneg_right hm hux.le
      _ = 2 ^ (Int.log 2 x + 1) := by rw [← zpow_add₀ (by norm_num)]; congr 1; ring
      _ ≤ 2 ^ (Int.log 2 y) := zpow_le_zpow_right₀ (by norm_num) (by omega)
      _ = 2 ^ ((p : Int) - 1) * 2 ^ (Int.log 2 y + 1 - p) := by rw [← zpow_add₀ (by norm_num)]; congr 1; ring
      _ ≤ _ := mul_le_mul_of_nonneg_right hn' huy.le
  · unfold fl
    rw [if_neg hx.ne', if_neg hy.ne', hxa, hya, he]
    have hu := two_zpow_pos (Int.log 2 y + 1 - p)
    refine mul_le_mul_of_nonneg_right ?_ hu.le
    exact_mod_cast rne_mono (div_le_div_of_nonneg_right h hu.le)

/-- rounding keeps order -/
theorem fl_mono {p : Nat} (hp : 0 < p) {x y : ℚ} (h : x ≤ y) : fl p x ≤ fl p y := by
  rcases lt_trichotomy x 0 with hx | hx | hx
  · rcases lt_trichotomy y 0 with hy | hy | hy
    · have := fl_mono_pos hp (x := -y) (y := -x) (by linarith) (by linarith)
      rw [fl_neg, fl_neg] at this
      linarith
    · subst hy
      have := fl_nonneg (p := p) (x := -x) (by linarith)
      rw [fl_neg] at this
      rw [fl_zero]
      linarith
    · have h1 := fl_nonneg (p := p) (x := -x) (by linarith)
      rw [fl_neg] at h1
      have h2 := fl_nonneg (p := p) hy.le
      linarith
  · subst hx
    rw [fl_zero]
    exact fl_nonneg h
  · exact fl_mono_pos hp hx h

/-- a rounded large number is an integer -/
theorem fl_integral {p : Nat} (hp : 0 < p) {x : ℚ} (h : 2 ^ (p - 1) ≤ |x|) : ∃ z : Int, fl p x = z := by
  have h0 : (0 : ℚ) < |x| := lt_of_lt_of_le (by positivity) h
  obtain ⟨m, h1, -⟩ := fl_form p hp x (abs_pos.1 h0)
  have hl : ((p - 1 : Nat) : Int) ≤ Int.log 2 |x| := by
    rw [← Int.zpow_le_iff_le_log (b := 2) (by norm_num) h0]
    push_cast
    rwa [zpow_natCast]
  obtain ⟨j, hj⟩ : ∃ j : Nat, Int.log 2 |x| + 1 - p = j := ⟨(Int.log 2 |x| + 1 - p).toNat, by omega⟩
  refine ⟨m * 2 ^ j, ?_⟩
  rw [h1, hj, zpow_natCast]
  push_cast
  rfl

/-- a number of p bits is the nearest of them to itself, so a number at least as large as it is rounded to no less -/
theorem le_fl_of_grid {p : Nat} (hp : 0 < p) {g x : ℚ} (hg : fl p g = g) (h : g ≤ x) : g ≤ fl p x := by
  rw [← hg]; exact fl_mono hp h

theorem fl_le_of_grid {p : Nat} (hp : 0 < p) {g x : ℚ} (hg : fl p g = g) (h : x ≤ g) : fl p x ≤ g := by
  rw [← hg]; exact fl_mono hp h

-- 0.1 in float64 and in float32; 2^53+1 becomes 2^53
example : fl 53 (1 / 10) = 3602879701896397 / 2 ^ 55 ∧ fl 24 (1 / 10) = 13421773 / 2 ^ 27 ∧ fl 53 9007199254740993 = 9007199254740992 := by decide +kernel

end Mass.Fl
