import Verif.Py
import Mathlib.Algebra.Order.Floor.Ring
import Mathlib.Data.Rat.Floor
import Mathlib.Tactic.Linarith
import Mathlib.Tactic.Ring
import Mathlib.Tactic.FieldSimp
import Mathlib.Tactic.NormNum
/-! C31 and C62: flux-jump correction (mass/core/analysis_algorithms.pyx). Numbers are elements of an ordered field with a floor function (the
rationals or the reals); the code uses float64. -/
namespace Mass.Algo
variable {K : Type} [Field K] [LinearOrder K] [IsStrictOrderedRing K] [FloorRing K]

/-! ### model -/

/-- numpy `x % q` for positive `q` (used for analysis_algorithms.pyx L782-821) -/
def pmod (x q : K) : K := x - q * (⌊x / q⌋ : ℤ)

/-- `np.amax` of a non-empty array (used for analysis_algorithms.pyx L812-814) -/
def amax (a : K) (l : List K) : K := l.foldl max a
/-- `np.amin` of a non-empty array (used for analysis_algorithms.pyx L812-814) -/
def amin (a : K) (l : List K) : K := l.foldl min a

/-- `l[g]` for a boolean array (used for analysis_algorithms.pyx L812-814) -/
def good (l : List K) (g : List Bool) : List K := (l.zip g).filterMap (fun e => if e.2 then some e.1 else none)

/-- analysis_algorithms.pyx L812-814: `np.amax(c[g]) - np.amin(c[g]) > 0.75 q`; a mask of another length raises IndexError, an empty selection
ValueError -/
def jumpsLeft (c : List K) (g : List Bool) (q : K) : Except Exc Bool :=
  if g.length ≠ c.length then .error .index
  else match good c g with
    | [] => .error .value
    | a :: t => .ok (decide (3 / 4 * q < amax a t - amin a t))

/-- analysis_algorithms.pyx L782-821 `correct_flux_jumps` -/
def fluxCorrect (vals : List K) (g : List Bool) (q : K) : Except Exc (List K) :=
  match vals with
  | [] => .error .value
  | v0 :: t =>
    if q ≤ amax v0 t - amin v0 t then do
      let c := vals.map (fun v => pmod v q)
      let j ← jumpsLeft c g q
      let c := if j then (vals.map (fun v => pmod (v + q / 4) q)).map (fun x => x - q / 4 + q) else c
      let c0 := c.headD 0
      pure (c.map (fun x => x - (c0 - v0)))
    else .ok vals

/-! ### arithmetic -/

theorem pmod_range {x q : K} (hq : 0 < q) : 0 ≤ pmod x q ∧ pmod x q < q := by
  unfold pmod
  have h1 := Int.floor_le (x / q)
  have h2 := Int.lt_floor_add_one (x / q)
  rw [le_div_iff₀ hq] at h1
  rw [div_lt_iff₀ hq] at h2
  constructor <;> nlinarith

theorem pmod_of_cell {x q : K} (hq : 0 < q) (n : ℤ) (h1 : q * n ≤ x) (h2 : x < q * (n + 1)) : pmod x q = x - q * n := by
  unfold pmod
  have : ⌊x / q⌋ = n := by
    rw [Int.floor_eq_iff, le_div_iff₀ hq, div_lt_iff₀ hq]
    constructor <;> linarith
  rw [this]

theorem pmod_shift {x q : K} (hq : 0 < q) (n : ℤ) : pmod (x - n * q) q = pmod x q := by
  unfold pmod
  have : (x - n * q) / q = x / q - n := by field_simp
  rw [this, Int.floor_sub_intCast]
  push_cast
  ring

theorem le_amax (a : K) (l : List K) : a ≤ amax a l ∧ ∀ x ∈ l, x ≤ amax a l := by
  unfold amax
  induction l generalizing a with
  | nil => simp
  | cons b t ih =>
    rw [List.foldl_cons]
    have := ih (max a b)
    refine ⟨le_trans (le_max_left _ _) this.1, ?_⟩
    intro x hx
    rcases List.mem_cons.1 hx with rfl | hx
    · exact le_trans (le_max_right _ _) this.1
    · exact this.2 x hx

theorem amin_le (a : K) (l : List K) : amin a l ≤ a ∧ ∀ x ∈ l, amin a l ≤ x := by
  unfold amin
  induction l generalizing a with
  | nil => simp
  | cons b t ih =>
    rw [List.foldl_cons]
    have := ih (min a b)
    refine ⟨le_trans this.1 (min_le_left _ _), ?_⟩
    intro x hx
    rcases List.mem_cons.1 hx with rfl | hx
    · exact le_trans this.1 (min_le_right _ _)
    · exact this.2 x hx

theorem amax_mem (a : K) (l : List K) : amax a l ∈ a :: l := by
  unfold amax
  induction l generalizing a with
  | nil => simp
  | cons b t ih =>
    rw [List.foldl_cons]
    have := ih (max a b)
    rcases List.mem_cons.1 this with h | h
    · rw [h]
      rcases max_choice a b with h | h <;> rw [h] <;> simp
    · simp [h]

theorem amin_mem (a : K) (l : List K) : amin a l ∈ a :: l := by
  unfold amin
  induction l generalizing a with
  | nil => simp
  | cons b t ih =>
    rw [List.foldl_cons]
    have := ih (min a b)
    rcases List.mem_cons.1 this with h | h
    · rw [h]
      rcases min_choice a b with h | h <;> rw [h] <;> simp
    · simp [h]

/-! ### shape of the result -/

/-- In the corrected case the result is `v ↦ (v+s) mod q`, shifted so that the first value is kept; `s` is 0 or q/4. -/
theorem flux_shape {v0 : K} {t : List K} {g : List Bool} {q : K} {r : List K} (h : fluxCorrect (v0 :: t) g q = .ok r)
    (hj : q ≤ amax v0 t - amin v0 t) :
    ∃ b, jumpsLeft ((v0 :: t).map (fun v => pmod v q)) g q = .ok b ∧
      r = (v0 :: t).map (fun v => pmod (v + if b then q / 4 else 0) q - pmod (v0 + if b then q / 4 else 0) q + v0) := by
  unfold fluxCorrect at h
  dsimp only at h
  rw [if_pos hj] at h
  cases hb : jumpsLeft ((v0 :: t).map (fun v => pmod v q)) g q with
  | error e => rw [hb] at h; exact absurd h (by simp [bind, Except.bind])
  | ok b =>
    rw [hb] at h
    simp only [bind, Except.bind, pure, Except.pure] at h
    injection h with h
    refine ⟨b, rfl, ?_⟩
    rw [← h]
    cases b with
    | false =>
      simp only [Bool.false_eq_true, if_false, List.map_cons, List.headD_cons, List.map_map, add_zero]
      congr 1
      · ring
      · apply List.map_congr_left
        intro x _
        simp only [Function.comp]
        ring
    | true =>
      simp only [if_true, List.map_cons, List.headD_cons, List.map_map]
      congr 1
      · ring
      · apply List.map_congr_left
        intro x _
        simp only [Function.comp]
        ring

/-- C31. Whenever the call succeeds: the number of values is kept, the first value is kept, every value moves by a whole number of quanta, and all
results lie in one window of width less than a quantum; a value that was in the window already is unchanged. -/
theorem flux_whole_quanta {vals : List K} {g : List Bool} {q : K} (hq : 0 < q) {r : List K} (h : fluxCorrect vals g q = .ok r) :
    r.head? = vals.head? ∧ ∃ w : K,
      List.Forall₂ (fun v x => (∃ k : ℤ, x = v + k * q) ∧ w ≤ x ∧ x < w + q ∧ (w ≤ v → v < w + q → x = v)) vals r := by
  have uniq : ∀ (v x w : K), (∃ k : ℤ, x = v + k * q) → w ≤ x → x < w + q → w ≤ v → v < w + q → x = v := by
    rintro v x w ⟨k, rfl⟩ h1 h2 h3 h4
    have hk : k = 0 := by
      have a : (k : K) < 1 := by nlinarith
      have b : (-1 : K) < k := by nlinarith
      have a' : k < 1 := by exact_mod_cast a
      have b' : -1 < k := by exact_mod_cast b
      omega
    rw [hk]; simp
  cases vals with
  | nil => exact absurd h (by simp [fluxCorrect])
  | cons v0 t =>
    by_cases hj : q ≤ amax v0 t - amin v0 t
    · obtain ⟨b, -, hr⟩ := flux_shape h hj
      generalize (if b then q / 4 else 0) = s at hr
      refine ⟨by rw [hr]; simp, v0 - pmod (v0 + s) q, ?_⟩
      have key : ∀ l : List K, List.Forall₂ (fun v x => (∃ k : ℤ, x = v + k * q) ∧ v0 - pmod (v0 + s) q ≤ x ∧ x < v0 - pmod (v0 + s) q + q ∧
          (v0 - pmod (v0 + s) q ≤ v → v < v0 - pmod (v0 + s) q + q → x = v)) l
          (l.map (fun v => pmod (v + s) q - pmod (v0 + s) q + v0)) := by
        intro l
        induction l with
        | nil => exact .nil
        | cons v l ih =>
          refine .cons ?_ ih
          have h1 := pmod_range (x := v + s) hq
          have hk : ∃ k : ℤ, pmod (v + s) q - pmod (v0 + s) q + v0 = v + k * q := by
            refine ⟨⌊(v0 + s) / q⌋ - ⌊(v + s) / q⌋, ?_⟩
            unfold pmod
            push_cast
            ring
          exact ⟨hk, by linarith, by linarith, uniq _ _ _ hk (by linarith) (by linarith)⟩
      rw [hr]
      exact key _
    · unfold fluxCorrect at h
      dsimp only at h
      rw [if_neg hj] at h
      injection h with h
      subst h
      refine ⟨rfl, amin v0 t, ?_⟩
      have hlo := amin_le v0 t
      have hhi := le_amax v0 t
      have key : ∀ l : List K, (∀ x ∈ l, amin v0 t ≤ x ∧ x ≤ amax v0 t) →
          List.Forall₂ (fun v x => (∃ k : ℤ, x = v + k * q) ∧ amin v0 t ≤ x ∧ x < amin v0 t + q ∧
            (amin v0 t ≤ v → v < amin v0 t + q → x = v)) l l := by
        intro l
        induction l with
        | nil => intro _; exact .nil
        | cons v l ih =>
          intro hl
          have := hl v (by simp)
          exact .cons ⟨⟨0, by simp⟩, this.1, by linarith, fun _ _ => rfl⟩ (ih (fun x hx => hl x (by simp [hx])))
      apply key
      intro x hx
      rcases List.mem_cons.1 hx with rfl | hx
      · exact ⟨hlo.1, hhi.1⟩
      · exact ⟨hlo.2 x hx, hhi.2 x hx⟩

/-- C31. Two values that differ by whole quanta become equal. -/
theorem flux_equal_mod {vals : List K} {g : List Bool} {q : K} (hq : 0 < q) {r : List K} (h : fluxCorrect vals g q = .ok r)
    {i j : Nat} {v v' x x' : K} (hv : vals[i]? = some v) (hv' : vals[j]? = some v') (hx : r[i]? = some x) (hx' : r[j]? = some x')
    (k : ℤ) (hk : v = v' + k * q) : x = x' := by
  obtain ⟨-, w, hw⟩ := flux_whole_quanta hq h
  have get : ∀ {n : Nat} {v x : K}, vals[n]? = some v → r[n]? = some x → (∃ k : ℤ, x = v + k * q) ∧ w ≤ x ∧ x < w + q := by
    intro n v x h1 h2
    have := List.forall₂_iff_get.1 hw
    obtain ⟨hn1, rfl⟩ := List.getElem?_eq_some_iff.1 h1
    obtain ⟨hn2, rfl⟩ := List.getElem?_eq_some_iff.1 h2
    have := this.2 n hn1 hn2
    exact ⟨this.1, this.2.1, this.2.2.1⟩
  obtain ⟨⟨a, ha⟩, h1, h2⟩ := get hv hx
  obtain ⟨⟨b, hb⟩, h3, h4⟩ := get hv' hx'
  have e : x = x' + ((k + a - b : ℤ) : K) * q := by
    rw [ha, hb, hk]; push_cast; ring
  have hz : k + a - b = 0 := by
    have a1 : ((k + a - b : ℤ) : K) < 1 := by nlinarith
    have b1 : (-1 : K) < ((k + a - b : ℤ) : K) := by nlinarith
    have a' : k + a - b < 1 := by exact_mod_cast a1
    have b' : -1 < k + a - b := by exact_mod_cast b1
    omega
  rw [e, hz]; simp

/-- the call succeeds for every non-empty vector with a mask that selects something -/
theorem flux_succeeds {vals : List K} {g : List Bool} (q : K) (hl : g.length = vals.length) (hg : true ∈ g) : ∃ r, fluxCorrect vals g q = .ok r := by
  cases vals with
  | nil => cases g with
    | nil => simp at hg
    | cons b t => simp at hl
  | cons v0 t =>
    unfold fluxCorrect
    dsimp only
    split
    · have : ∃ b, jumpsLeft ((v0 :: t).map (fun v => pmod v q)) g q = .ok b := by
        unfold jumpsLeft
        rw [if_neg (by simpa using hl)]
        have hne : good ((v0 :: t).map (fun v => pmod v q)) g ≠ [] := by
          have key : ∀ (l : List K) (g : List Bool), g.length = l.length → true ∈ g → good l g ≠ [] := by
            intro l
            induction l with
            | nil => intro g h1 h2; cases g with
              | nil => simp at h2
              | cons b t => simp at h1
            | cons x l ih =>
              intro g h1 h2
              cases g with
              | nil => simp at h1
              | cons b t =>
                unfold good
                rw [List.zip_cons_cons, List.filterMap_cons]
                cases b with
                | true => simp
                | false =>
                  simp only [Bool.false_eq_true, if_false]
                  exact ih t (by simpa using h1) (by simpa using h2)
          exact key _ g (by simpa using hl) hg
        split
        · rename_i h; exact absurd h hne
        · exact ⟨_, rfl⟩
      obtain ⟨b, hb⟩ := this
      rw [hb]
      exact ⟨_, rfl⟩
    · exact ⟨_, rfl⟩

/-- C31, instance: jumps by one and two quanta of 10 -/
example : fluxCorrect [3, 14, 5, 22, (-6)] [true, true, true, true, true] (10 : ℚ) = .ok [3, 4, 5, 2, 4] := by decide +kernel
/-- C31, instance: baseline near a whole number of quanta, so that the quarter shift is needed -/
example : fluxCorrect [9, 11, 20, 31] [true, true, true, true] (10 : ℚ) = .ok [9, 11, 10, 11] := by decide +kernel

/-! ### C62: no jumps left -/

theorem good_map (f : K → K) (l : List K) (g : List Bool) : good (l.map f) g = (good l g).map f := by
  unfold good
  induction l generalizing g with
  | nil => simp
  | cons a t ih =>
    cases g with
    | nil => simp
    | cons b g =>
      rw [List.map_cons, List.zip_cons_cons, List.zip_cons_cons, List.filterMap_cons, List.filterMap_cons]
      cases b with
      | true => simp only [if_true, List.map_cons]; rw [ih]
      | false => simp only [Bool.false_eq_true, if_false]; exact ih g

/-- C62. If, apart from whole quanta, the good values all lie in an interval shorter than a quarter quantum, and the values span at least a quantum, then
the corrected good values all lie within a quarter quantum of each other: no jump is left. -/
theorem flux_no_jump_left_partial {v0 : K} {t : List K} {g : List Bool} {q : K} (hq : 0 < q) {r : List K}
    (h : fluxCorrect (v0 :: t) g q = .ok r) (hj : q ≤ amax v0 t - amin v0 t) (c : K)
    (hc : ∀ v ∈ good (v0 :: t) g, ∃ n : ℤ, c ≤ v - n * q ∧ v - n * q < c + q / 4) :
    ∀ x ∈ good r g, ∀ y ∈ good r g, x - y < q / 4 := by
  obtain ⟨b, hb, hr⟩ := flux_shape h hj
  -- the good values of the result
  have hgood : good r g = (good (v0 :: t) g).map (fun v => pmod (v + if b then q / 4 else 0) q - pmod (v0 + if b then q / 4 else 0) q + v0) := by
    rw [hr, good_map]
  -- it is enough to know the difference of any two
  have key : ∀ v ∈ good (v0 :: t) g, ∀ v' ∈ good (v0 :: t) g,
      pmod (v + if b then q / 4 else 0) q - pmod (v' + if b then q / 4 else 0) q < q / 4 := by
    unfold jumpsLeft at hb
    split at hb
    · exact absurd hb (by simp)
    · rw [good_map] at hb
      cases hgl : (good (v0 :: t) g).map (fun v => pmod v q) with
      | nil =>
        intro v hv
        have := List.mem_map_of_mem (f := fun v => pmod v q) hv
        rw [hgl] at this
        simp at this
      | cons a l =>
        rw [hgl] at hb
        dsimp only at hb
        injection hb with hb
        cases b with
        | false =>
          -- not shifted: the span of the good values is at most 3/4 of a quantum
          rw [decide_eq_false_iff_not, not_lt] at hb
          intro v hv v' hv'
          simp only [Bool.false_eq_true, if_false, add_zero]
          obtain ⟨n, h1, h2⟩ := hc v hv
          obtain ⟨n', h1', h2'⟩ := hc v' hv'
          have hmem : ∀ u ∈ good (v0 :: t) g, amin a l ≤ pmod u q ∧ pmod u q ≤ amax a l := by
            intro u hu
            have := List.mem_map_of_mem (f := fun v => pmod v q) hu
            rw [hgl] at this
            rcases List.mem_cons.1 this with h | h
            · rw [h]; exact ⟨(amin_le a l).1, (le_amax a l).1⟩
            · exact ⟨(amin_le a l).2 _ h, (le_amax a l).2 _ h⟩
          have m1 := hmem v hv
          have m2 := hmem v' hv'
          have e : pmod v q - pmod v' q = (v - n * q) - (v' - n' * q) + ((n - n' - ⌊v / q⌋ + ⌊v' / q⌋ : ℤ) : K) * q := by
            unfold pmod; push_cast; ring
          have hz : n - n' - ⌊v / q⌋ + ⌊v' / q⌋ = 0 := by
            have a1 : ((n - n' - ⌊v / q⌋ + ⌊v' / q⌋ : ℤ) : K) < 1 := by nlinarith
            have b1 : (-1 : K) < ((n - n' - ⌊v / q⌋ + ⌊v' / q⌋ : ℤ) : K) := by nlinarith
            have a' : n - n' - ⌊v / q⌋ + ⌊v' / q⌋ < 1 := by exact_mod_cast a1
            have b' : -1 < n - n' - ⌊v / q⌋ + ⌊v' / q⌋ := by exact_mod_cast b1
            omega
          rw [e, hz]
          simp only [Int.cast_zero, zero_mul, add_zero]
          linarith
        | true =>
          -- shifted: some good values lie on either side of a multiple of the quantum
          rw [decide_eq_true_eq] at hb
          have hmax := amax_mem a l
          have hmin := amin_mem a l
          rw [← hgl] at hmax hmin
          obtain ⟨u, hu, hu'⟩ := List.mem_map.1 hmax
          obtain ⟨u2, hu2, hu2'⟩ := List.mem_map.1 hmin
          obtain ⟨n, h1, h2⟩ := hc u hu
          obtain ⟨m, h3, h4⟩ := hc u2 hu2
          -- the boundary
          obtain ⟨B, hB1, hB2⟩ : ∃ B : ℤ, u - n * q < q * B ∧ q * B ≤ u2 - m * q := by
            refine ⟨⌊(u2 - m * q) / q⌋, ?_, ?_⟩
            · have r1 := pmod_range (x := u - n * q) hq
              have r2 := pmod_range (x := u2 - m * q) hq
              have e1 : pmod (u - n * q) q = amax a l := by rw [pmod_shift hq, ← hu']
              have e2 : pmod (u2 - m * q) q = amin a l := by rw [pmod_shift hq, ← hu2']
              have d : pmod (u - n * q) q - pmod (u2 - m * q) q =
                  (u - n * q) - (u2 - m * q) + ((⌊(u2 - m * q) / q⌋ - ⌊(u - n * q) / q⌋ : ℤ) : K) * q := by
                unfold pmod; push_cast; ring
              have hpos : 0 < ⌊(u2 - m * q) / q⌋ - ⌊(u - n * q) / q⌋ := by
                have : (0 : K) < ((⌊(u2 - m * q) / q⌋ - ⌊(u - n * q) / q⌋ : ℤ) : K) := by
                  rw [e1, e2] at d
                  nlinarith
                exact_mod_cast this
              have hle : (⌊(u - n * q) / q⌋ : K) + 1 ≤ (⌊(u2 - m * q) / q⌋ : K) := by
                have : ⌊(u - n * q) / q⌋ + 1 ≤ ⌊(u2 - m * q) / q⌋ := by omega
                exact_mod_cast this
              have := Int.lt_floor_add_one ((u - n * q) / q)
              rw [div_lt_iff₀ hq] at this
              nlinarith
            · have := Int.floor_le ((u2 - m * q) / q)
              rw [le_div_iff₀ hq] at this
              linarith
          have cell : ∀ v ∈ good (v0 :: t) g, ∃ k : ℤ, pmod (v + q / 4) q = v - k * q + q / 4 - q * B ∧ c ≤ v - k * q ∧ v - k * q < c + q / 4 := by
            intro v hv
            obtain ⟨k, h5, h6⟩ := hc v hv
            refine ⟨k, ?_, h5, h6⟩
            rw [show v + q / 4 = (v - k * q + q / 4) + k * q by ring, ← pmod_shift hq k, add_sub_cancel_right]
            exact pmod_of_cell hq B (by linarith) (by linarith)
          intro v hv v' hv'
          obtain ⟨k, e1, h5, h6⟩ := cell v hv
          obtain ⟨k', e2, h5', h6'⟩ := cell v' hv'
          simp only [if_true]
          rw [e1, e2]
          linarith
  rw [hgood]
  intro x hx y hy
  obtain ⟨v, hv, rfl⟩ := List.mem_map.1 hx
  obtain ⟨v', hv', rfl⟩ := List.mem_map.1 hy
  have := key v hv v' hv'
  linarith

/-- C62, instance: the hypotheses hold for data with noise 2 and jumps of a quantum of 10 around 10 -/
example : ∀ v ∈ good [9, 11, 20, 31] [true, true, true, true], ∃ n : ℤ, (9 : ℚ) ≤ v - n * 10 ∧ v - n * 10 < 9 + 10 / 4 := by
  intro v hv
  simp [good] at hv
  rcases hv with rfl | rfl | rfl | rfl
  · exact ⟨0, by norm_num⟩
  · exact ⟨0, by norm_num⟩
  · exact ⟨1, by norm_num⟩
  · exact ⟨2, by norm_num⟩

/-- C62 without the condition on the span is false: a single jump that, because of noise, spans a little less than a quantum is not corrected. -/
theorem flux_small_jump_fails : fluxCorrect [1, 10] [true, true] (10 : ℚ) = .ok [1, 10] ∧
    (∀ v ∈ ([1, 10] : List ℚ), ∃ n : ℤ, (0 : ℚ) ≤ v - n * 10 ∧ v - n * 10 < 0 + 10 / 4) := by
  refine ⟨by decide +kernel, ?_⟩
  intro v hv
  simp at hv
  rcases hv with rfl | rfl
  · exact ⟨0, by norm_num⟩
  · exact ⟨1, by norm_num⟩

end Mass.Algo
