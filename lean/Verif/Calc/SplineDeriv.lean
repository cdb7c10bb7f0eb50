import Verif.Calc.Spline
/-! C39 continued: the spline is smooth and `der=1`, `der=2` are its true derivatives (over ℝ). -/
namespace Mass.Calc
set_option linter.unusedSectionVars false

/-- two functions that meet with the same derivative -/
theorem glue {f p q : ℝ → ℝ} {d t a b : ℝ} (ha : a < t) (hb : t < b) (hp : HasDerivAt p d t) (hq : HasDerivAt q d t)
    (hfp : ∀ s, a < s → s ≤ t → f s = p s) (hfq : ∀ s, t ≤ s → s < b → f s = q s) : HasDerivAt f d t := by
  have h1 : HasDerivWithinAt f d (Set.Iic t) t := by
    refine (hp.hasDerivWithinAt (s := Set.Iic t)).congr_of_eventuallyEq ?_ (hfp t ha (le_refl _))
    have : Set.Ioi a ∈ nhdsWithin t (Set.Iic t) := mem_nhdsWithin_of_mem_nhds (Ioi_mem_nhds ha)
    filter_upwards [this, self_mem_nhdsWithin] with s hs1 hs2
    exact hfp s hs1 hs2
  have h2 : HasDerivWithinAt f d (Set.Ici t) t := by
    refine (hq.hasDerivWithinAt (s := Set.Ici t)).congr_of_eventuallyEq ?_ (hfq t (le_refl _) hb)
    have : Set.Iio b ∈ nhdsWithin t (Set.Ici t) := mem_nhdsWithin_of_mem_nhds (Iio_mem_nhds hb)
    filter_upwards [this, self_mem_nhdsWithin] with s hs1 hs2
    exact hfq s hs2 hs1
  have := h1.union h2
  rwa [Set.Iic_union_Ici, hasDerivWithinAt_univ] at this

/-- within a piece, `der=1` is the derivative of the value and `der=2` of `der=1` -/
theorem piece_deriv (S : Spline ℝ) (hx : Inc S.x S.n) (m : Nat) (t : ℝ) :
    HasDerivAt (piece S m 0) (piece S m 1 t) t ∧ HasDerivAt (piece S m 1) (piece S m 2 t) t := by
  by_cases h0 : m = 0
  · have e0 : piece S m 0 = fun t => S.y 0 + (t - S.x 0) * S.yp1 := by funext t; unfold piece; rw [if_pos h0, if_pos rfl]
    have e1 : piece S m 1 = fun _ => S.yp1 := by funext t; unfold piece; rw [if_pos h0, if_neg (by decide), if_pos rfl]
    have e2 : piece S m 2 t = 0 := by unfold piece; rw [if_pos h0, if_neg (by decide), if_neg (by decide)]
    rw [e0, e1, e2]
    refine ⟨?_, hasDerivAt_const t _⟩
    have := (((hasDerivAt_id' t).sub_const (S.x 0)).mul_const S.yp1).const_add (S.y 0)
    simpa using this
  by_cases hn : S.n ≤ m
  · have e0 : piece S m 0 = fun t => S.y (S.n - 1) + (t - S.x (S.n - 1)) * S.ypN := by funext t; unfold piece; rw [if_neg h0, if_pos hn, if_pos rfl]
    have e1 : piece S m 1 = fun _ => S.ypN := by funext t; unfold piece; rw [if_neg h0, if_pos hn, if_neg (by decide), if_pos rfl]
    have e2 : piece S m 2 t = 0 := by unfold piece; rw [if_neg h0, if_pos hn, if_neg (by decide), if_neg (by decide)]
    rw [e0, e1, e2]
    refine ⟨?_, hasDerivAt_const t _⟩
    have := (((hasDerivAt_id' t).sub_const (S.x (S.n - 1))).mul_const S.ypN).const_add (S.y (S.n - 1))
    simpa using this
  obtain ⟨k, rfl⟩ : ∃ k, m = k + 1 := ⟨m - 1, by omega⟩
  have hlt := hx k (k + 1) (by omega) (by omega)
  have hd : S.x (k + 1) - S.x k ≠ 0 := by intro h; linarith
  set dx := S.x (k + 1) - S.x k with hdx
  have ha : HasDerivAt (fun t => (S.x (k + 1) - t) / dx) (-1 / dx) t := ((hasDerivAt_id' t).const_sub (S.x (k + 1))).div_const dx
  have hb : HasDerivAt (fun t => (t - S.x k) / dx) (1 / dx) t := ((hasDerivAt_id' t).sub_const (S.x k)).div_const dx
  have e0 : piece S (k + 1) 0 = fun t => (S.x (k + 1) - t) / dx * S.y k + (t - S.x k) / dx * S.y (k + 1)
      + ((((S.x (k + 1) - t) / dx) ^ 3 - (S.x (k + 1) - t) / dx) * S.y2 k + (((t - S.x k) / dx) ^ 3 - (t - S.x k) / dx) * S.y2 (k + 1)) * dx * dx / 6 := by
    funext t; unfold piece; rw [if_neg h0, if_neg hn]; dsimp only; rw [if_pos rfl]; rfl
  have e1 : piece S (k + 1) 1 = fun t => -S.y k / dx + S.y (k + 1) / dx
      + ((-((S.x (k + 1) - t) / dx) ^ 2 + 1 / 3) * S.y2 k + (((t - S.x k) / dx) ^ 2 - 1 / 3) * S.y2 (k + 1)) * dx / 2 := by
    funext t; unfold piece; rw [if_neg h0, if_neg hn]; dsimp only; rw [if_neg (by decide), if_pos rfl]; rfl
  have e2 : piece S (k + 1) 2 t = (S.x (k + 1) - t) / dx * S.y2 k + (t - S.x k) / dx * S.y2 (k + 1) := by
    unfold piece; rw [if_neg h0, if_neg hn]; dsimp only; rw [if_neg (by decide), if_neg (by decide), if_pos rfl]; rfl
  constructor
  · rw [e0]
    have h := ((ha.mul_const (S.y k)).add (hb.mul_const (S.y (k + 1)))).add
      (((((((ha.pow 3).sub ha).mul_const (S.y2 k)).add (((hb.pow 3).sub hb).mul_const (S.y2 (k + 1)))).mul_const dx).mul_const dx).div_const 6)
    refine h.congr_deriv ?_
    rw [e1]
    dsimp only
    push_cast
    field_simp
    ring
  · rw [e1]
    have h := ((((((ha.pow 2).neg.add_const (1 / 3)).mul_const (S.y2 k)).add (((hb.pow 2).sub_const (1 / 3)).mul_const (S.y2 (k + 1)))).mul_const dx).div_const 2).const_add
      (-S.y k / dx + S.y (k + 1) / dx)
    refine h.congr_deriv ?_
    rw [e2]
    push_cast
    field_simp

section
variable {x y : Nat → ℝ} {n : Nat} {yp1 ypN : Option ℝ}

/-- the slope of an interval at its ends -/
theorem slope_left (S : Spline ℝ) (k : Nat) (hk : k + 1 < S.n) (hx : Inc S.x S.n) :
    piece S (k + 1) 1 (S.x k) = (S.y (k + 1) - S.y k) / (S.x (k + 1) - S.x k) - (S.x (k + 1) - S.x k) * (S.y2 k / 3 + S.y2 (k + 1) / 6) := by
  have h := hx k (k + 1) (by omega) hk
  have hd : S.x (k + 1) - S.x k ≠ 0 := by intro h; linarith
  unfold piece
  rw [if_neg (by omega), if_neg (by omega)]
  dsimp only
  rw [if_neg (by decide), if_pos rfl, Nat.add_sub_cancel, div_self hd, sub_self, zero_div]
  field_simp
  ring

theorem slope_right (S : Spline ℝ) (k : Nat) (hk : k + 1 < S.n) (hx : Inc S.x S.n) :
    piece S (k + 1) 1 (S.x (k + 1)) = (S.y (k + 1) - S.y k) / (S.x (k + 1) - S.x k) + (S.x (k + 1) - S.x k) * (S.y2 k / 6 + S.y2 (k + 1) / 3) := by
  have h := hx k (k + 1) (by omega) hk
  have hd : S.x (k + 1) - S.x k ≠ 0 := by intro h; linarith
  unfold piece
  rw [if_neg (by omega), if_neg (by omega)]
  dsimp only
  rw [if_neg (by decide), if_pos rfl, Nat.add_sub_cancel, div_self hd, sub_self, zero_div]
  field_simp
  ring

/-- slopes agree from both sides at every knot -/
theorem slopes_meet (hn : 2 ≤ n) (hx : Inc x n) (k : Nat) (hk : k < n) :
    piece (compute x y n yp1 ypN) k 1 (x k) = piece (compute x y n yp1 ypN) (k + 1) 1 (x k) := by
  set S := compute x y n yp1 ypN with hS
  have hxS : Inc S.x S.n := hx
  have hlow : ∀ t, piece S 0 1 t = S.yp1 := fun t => by unfold piece; rw [if_pos rfl, if_neg (by decide), if_pos rfl]
  have hhigh : ∀ t, piece S n 1 t = S.ypN := fun t => by
    unfold piece; rw [if_neg (by omega), if_pos (show S.n ≤ n from le_refl n), if_neg (by decide), if_pos rfl]
  by_cases h0 : k = 0
  · subst h0
    rw [hlow]
    have := slope_left S 0 (show 0 + 1 < n by omega) hxS
    rw [show x 0 = S.x 0 from rfl, this]
    exact start_slope hn hx
  obtain ⟨j, rfl⟩ : ∃ j, k = j + 1 := ⟨k - 1, by omega⟩
  have hr := slope_right S j (show j + 1 < n by omega) hxS
  rw [show x (j + 1) = S.x (j + 1) from rfl, hr]
  by_cases h1 : j + 2 = n
  · rw [show j + 1 + 1 = n from h1, hhigh]
    have := end_slope (x := x) (y := y) (yp1 := yp1) (ypN := ypN) hn hx
    have e1 : n - 1 = j + 1 := by omega
    have e2 : n - 2 = j := by omega
    rw [e1, e2] at this
    exact this.symm
  · have hl := slope_left S (j + 1) (show j + 1 + 1 < n by omega) hxS
    rw [hl]
    have ht := tridiag (x := x) (y := y) (yp1 := yp1) (ypN := ypN) hn hx j (by omega)
    show (y (j + 1) - y j) / (x (j + 1) - x j) + (x (j + 1) - x j) * (S.y2 j / 6 + S.y2 (j + 1) / 3)
      = (y (j + 2) - y (j + 1)) / (x (j + 2) - x (j + 1)) - (x (j + 2) - x (j + 1)) * (S.y2 (j + 1) / 3 + S.y2 (j + 2) / 6)
    rw [← hS] at ht
    linear_combination (1 / 6) * ht

theorem curv_left (S : Spline ℝ) (k : Nat) (hk : k + 1 < S.n) (hx : Inc S.x S.n) : piece S (k + 1) 2 (S.x k) = S.y2 k := by
  have h := hx k (k + 1) (by omega) hk
  have hd : S.x (k + 1) - S.x k ≠ 0 := by intro h; linarith
  unfold piece
  rw [if_neg (by omega), if_neg (by omega)]
  dsimp only
  rw [if_neg (by decide), if_neg (by decide), if_pos rfl, Nat.add_sub_cancel, div_self hd, sub_self, zero_div]
  ring

theorem curv_right (S : Spline ℝ) (k : Nat) (hk : k + 1 < S.n) (hx : Inc S.x S.n) : piece S (k + 1) 2 (S.x (k + 1)) = S.y2 (k + 1) := by
  have h := hx k (k + 1) (by omega) hk
  have hd : S.x (k + 1) - S.x k ≠ 0 := by intro h; linarith
  unfold piece
  rw [if_neg (by omega), if_neg (by omega)]
  dsimp only
  rw [if_neg (by decide), if_neg (by decide), if_pos rfl, Nat.add_sub_cancel, div_self hd, sub_self, zero_div]
  ring

/-- second derivatives agree from both sides at every knot, at an end when the end is natural -/
theorem curvs_meet (hn : 2 ≤ n) (hx : Inc x n) (k : Nat) (hk : k < n) (h1 : k = 0 → yp1 = none) (h2 : k = n - 1 → ypN = none) :
    piece (compute x y n yp1 ypN) k 2 (x k) = piece (compute x y n yp1 ypN) (k + 1) 2 (x k) := by
  set S := compute x y n yp1 ypN with hS
  have hxS : Inc S.x S.n := hx
  have hlow : ∀ t, piece S 0 2 t = 0 := fun t => by unfold piece; rw [if_pos rfl, if_neg (by decide), if_neg (by decide)]
  have hhigh : ∀ t, piece S n 2 t = 0 := fun t => by
    unfold piece; rw [if_neg (by omega), if_pos (show S.n ≤ n from le_refl n), if_neg (by decide), if_neg (by decide)]
  by_cases h0 : k = 0
  · subst h0
    rw [hlow, show x 0 = S.x 0 from rfl, curv_left S 0 (show 0 + 1 < n by omega) hxS, hS]
    have h1 := h1 rfl
    subst h1
    exact (natural_start hn).symm
  obtain ⟨j, rfl⟩ : ∃ j, k = j + 1 := ⟨k - 1, by omega⟩
  rw [show x (j + 1) = S.x (j + 1) from rfl, curv_right S j (show j + 1 < n by omega) hxS]
  by_cases hl : j + 2 = n
  · rw [show j + 1 + 1 = n from hl, hhigh]
    have h2 := h2 (by omega)
    subst h2
    have := natural_end (x := x) (y := y) (n := n) (yp1 := yp1)
    have e : n - 1 = j + 1 := by omega
    rw [e] at this
    exact this
  · rw [curv_left S (j + 1) (show j + 1 + 1 < n by omega) hxS]

/-- the value and the slope as functions of the point, near the point t -/
theorem near (S : Spline ℝ) (hn : 2 ≤ S.n) (hx : Inc S.x S.n) (t : ℝ) (d : Nat)
    (hmeet : ∀ k, k < S.n → t = S.x k → piece S k d t = piece S (k + 1) d t) :
    ∃ a b m m', a < t ∧ t < b ∧ (∀ s, a < s → s ≤ t → eval S s d = piece S m d s) ∧ (∀ s, t ≤ s → s < b → eval S s d = piece S m' d s) ∧
      m = cnt S.x t S.n ∧ (m' = m ∨ (m' = m + 1 ∧ m < S.n ∧ t = S.x m)) := by
  obtain ⟨hlo, hhi⟩ := cnt_spec S.x t S.n hx
  set m := cnt S.x t S.n with hm
  have hmn : m ≤ S.n := cnt_le _ _ _
  -- lower end
  obtain ⟨a, hat, hai⟩ : ∃ a, a < t ∧ ∀ i, i < m → S.x i ≤ a := by
    by_cases h : m = 0
    · exact ⟨t - 1, by linarith, fun i hi => by omega⟩
    · refine ⟨S.x (m - 1), hlo (m - 1) (by omega), fun i hi => ?_⟩
      rcases Nat.lt_or_ge i (m - 1) with h1 | h1
      · exact le_of_lt (hx i (m - 1) h1 (by omega))
      · obtain rfl : i = m - 1 := by omega
        exact le_refl _
  have hleft : ∀ s, a < s → s ≤ t → eval S s d = piece S m d s := by
    intro s h1 h2
    unfold eval
    rw [cnt_eq S.x s S.n m hmn (fun i hi => lt_of_le_of_lt (hai i hi) h1) (fun i h3 h4 => le_trans h2 (hhi i h3 h4))]
  by_cases hk : m < S.n ∧ t = S.x m
  · -- t is knot m
    obtain ⟨b, htb, hbi⟩ : ∃ b, t < b ∧ ∀ i, m + 1 ≤ i → i < S.n → b ≤ S.x i := by
      by_cases h : m + 1 = S.n
      · exact ⟨t + 1, by linarith, fun i h1 h2 => by omega⟩
      · refine ⟨S.x (m + 1), by rw [hk.2]; exact hx m (m + 1) (by omega) (by omega), fun i h1 h2 => ?_⟩
        rcases Nat.lt_or_ge (m + 1) i with h3 | h3
        · exact le_of_lt (hx (m + 1) i h3 h2)
        · obtain rfl : i = m + 1 := by omega
          exact le_refl _
    refine ⟨a, b, m, m + 1, hat, htb, hleft, ?_, hm.symm ▸ rfl, .inr ⟨rfl, hk.1, hk.2⟩⟩
    intro s h1 h2
    rcases lt_or_eq_of_le h1 with h | h
    · unfold eval
      rw [cnt_eq S.x s S.n (m + 1) (by omega) (fun i hi => ?_) (fun i h3 h4 => le_trans (le_of_lt h2) (hbi i h3 h4))]
      rcases Nat.lt_or_ge i m with h3 | h3
      · exact lt_trans (hlo i h3) h
      · obtain rfl : i = m := by omega
        rw [← hk.2]; exact h
    · rw [← h, hleft t hat (le_refl _), hmeet m hk.1 hk.2]
  · -- t lies strictly inside
    obtain ⟨b, htb, hbi⟩ : ∃ b, t < b ∧ ∀ i, m ≤ i → i < S.n → b ≤ S.x i := by
      by_cases h : m = S.n
      · exact ⟨t + 1, by linarith, fun i h1 h2 => by omega⟩
      · have hlt : t < S.x m := lt_of_le_of_ne (hhi m (le_refl _) (by omega)) (fun he => hk ⟨by omega, he⟩)
        refine ⟨S.x m, hlt, fun i h1 h2 => ?_⟩
        rcases Nat.lt_or_ge m i with h3 | h3
        · exact le_of_lt (hx m i h3 h2)
        · obtain rfl : i = m := by omega
          exact le_refl _
    refine ⟨a, b, m, m, hat, htb, hleft, ?_, hm.symm ▸ rfl, .inl rfl⟩
    intro s h1 h2
    unfold eval
    rw [cnt_eq S.x s S.n m hmn (fun i hi => lt_of_lt_of_le (hlo i hi) h1) (fun i h3 h4 => le_trans (le_of_lt h2) (hbi i h3 h4))]

theorem deriv_value (hn : 2 ≤ n) (hx : Inc x n) (t : ℝ) :
    HasDerivAt (fun s => eval (compute x y n yp1 ypN) s 0) (eval (compute x y n yp1 ypN) t 1) t := by
  set S := compute x y n yp1 ypN with hS
  have hxS : Inc S.x S.n := hx
  obtain ⟨a, b, m, m', ha, hb, h1, h2, hm, hmm⟩ := near S hn hxS t 0 (fun k hk he => by
    have := pieces_meet S hn hxS k hk
    rw [he, this.1, this.2])
  have hslope : piece S m 1 t = piece S m' 1 t := by
    rcases hmm with h | ⟨h, hmn, he⟩
    · rw [h]
    · rw [h, he]; exact slopes_meet hn hx m hmn
  have hev : eval S t 1 = piece S m 1 t := by unfold eval; rw [hm]
  rw [hev]
  refine glue ha hb (piece_deriv S hxS m t).1 ?_ h1 h2
  rw [hslope]
  exact (piece_deriv S hxS m' t).1

theorem deriv_slope (hn : 2 ≤ n) (hx : Inc x n) (t : ℝ) (h1 : t = x 0 → yp1 = none) (h2 : t = x (n - 1) → ypN = none) :
    HasDerivAt (fun s => eval (compute x y n yp1 ypN) s 1) (eval (compute x y n yp1 ypN) t 2) t := by
  set S := compute x y n yp1 ypN with hS
  have hxS : Inc S.x S.n := hx
  obtain ⟨a, b, m, m', ha, hb, hl, hr, hm, hmm⟩ := near S hn hxS t 1 (fun k hk he => by
    rw [he]; exact slopes_meet hn hx k hk)
  have hcurv : piece S m 2 t = piece S m' 2 t := by
    rcases hmm with h | ⟨h, hmn, he⟩
    · rw [h]
    · rw [h, he]
      refine curvs_meet hn hx m hmn (fun h0 => h1 (by rw [he, h0]; rfl)) (fun h0 => h2 (by rw [he, h0]; rfl))
  have hev : eval S t 2 = piece S m 2 t := by unfold eval; rw [hm]
  rw [hev]
  refine glue ha hb (piece_deriv S hxS m t).2 ?_ hl hr
  rw [hcurv]
  exact (piece_deriv S hxS m' t).2

end

/-- C39. At every real point - inside, at the knots, at the ends, beyond the ends - the spline is differentiable and `der=1` returns its derivative. -/
theorem spline_smooth {pts : List (ℝ × ℝ)} {yp1 ypN : Option ℝ} {S : Spline ℝ} (h : mkSpline pts yp1 ypN = .ok S) (hnd : (pts.map Prod.fst).Nodup) (t : ℝ) :
    HasDerivAt (fun s => eval S s 0) (eval S t 1) t := by
  have hinc := sorted_inc pts hnd
  unfold mkSpline at h
  split at h
  · exact absurd h (by simp)
  · dsimp only at h
    injection h with h
    rw [← h]
    exact deriv_value (by omega) hinc t

/-- C39. The slope is differentiable too, with derivative `der=2`, at every point except an end knot whose slope was prescribed. -/
theorem spline_smooth2 {pts : List (ℝ × ℝ)} {yp1 ypN : Option ℝ} {S : Spline ℝ} (h : mkSpline pts yp1 ypN = .ok S) (hnd : (pts.map Prod.fst).Nodup) (t : ℝ)
    (h1 : (∀ p ∈ pts, t ≤ p.1) → (∃ p ∈ pts, t = p.1) → yp1 = none) (h2 : (∀ p ∈ pts, p.1 ≤ t) → (∃ p ∈ pts, t = p.1) → ypN = none) :
    HasDerivAt (fun s => eval S s 1) (eval S t 2) t := by
  have hinc := sorted_inc pts hnd
  unfold mkSpline at h
  split at h
  · exact absurd h (by simp)
  · rename_i hn
    dsimp only at h
    injection h with h
    rw [← h]
    set s := pts.insertionSort (fun a b => a.1 ≤ b.1) with hs
    have hperm : s.Perm pts := List.perm_insertionSort _ _
    have hlen : s.length = pts.length := hperm.length_eq
    have hget : ∀ i, i < pts.length → s.getD i (0, 0) ∈ pts := by
      intro i hi
      rw [List.getD_eq_getElem?_getD, List.getElem?_eq_getElem (by omega)]
      exact hperm.mem_iff.1 (List.getElem_mem _)
    have hall : ∀ p ∈ pts, ∃ i, i < pts.length ∧ s.getD i (0, 0) = p := by
      intro p hp
      obtain ⟨k, hk, hpk⟩ := List.getElem_of_mem (hperm.mem_iff.2 hp)
      exact ⟨k, by omega, by rw [List.getD_eq_getElem?_getD, List.getElem?_eq_getElem hk]; exact hpk⟩
    refine deriv_slope (by omega) hinc t (fun he => ?_) (fun he => ?_)
    · refine h1 (fun p hp => ?_) ⟨_, hget 0 (by omega), he⟩
      obtain ⟨i, hi, rfl⟩ := hall p hp
      rw [he]
      rcases Nat.eq_zero_or_pos i with h0 | h0
      · rw [h0]
      · exact le_of_lt (hinc 0 i h0 hi)
    · refine h2 (fun p hp => ?_) ⟨_, hget (pts.length - 1) (by omega), he⟩
      obtain ⟨i, hi, rfl⟩ := hall p hp
      rw [he]
      rcases Nat.lt_or_ge i (pts.length - 1) with h0 | h0
      · exact le_of_lt (hinc i (pts.length - 1) h0 (by omega))
      · obtain rfl : i = pts.length - 1 := by omega
        exact le_refl _

/-- C39. Beyond the end knots the spline is a straight line. -/
theorem spline_extrapolates {pts : List (ℝ × ℝ)} {yp1 ypN : Option ℝ} {S : Spline ℝ} (h : mkSpline pts yp1 ypN = .ok S) (t : ℝ) :
    ((∀ p ∈ pts, t ≤ p.1) → eval S t 0 = S.y 0 + (t - S.x 0) * S.yp1) ∧
    ((∀ p ∈ pts, p.1 < t) → eval S t 0 = S.y (S.n - 1) + (t - S.x (S.n - 1)) * S.ypN) := by
  unfold mkSpline at h
  split at h
  · exact absurd h (by simp)
  · rename_i hn
    dsimp only at h
    injection h with h
    have hperm : (pts.insertionSort (fun a b => a.1 ≤ b.1)).Perm pts := List.perm_insertionSort _ _
    have hlen := hperm.length_eq
    have hget : ∀ i, i < pts.length → ∃ p ∈ pts, S.x i = p.1 := by
      intro i hi
      refine ⟨(pts.insertionSort (fun a b => a.1 ≤ b.1)).getD i (0, 0), ?_, by rw [← h]; rfl⟩
      rw [List.getD_eq_getElem?_getD, List.getElem?_eq_getElem (by omega)]
      exact hperm.mem_iff.1 (List.getElem_mem _)
    have hSn : S.n = pts.length := by rw [← h]; rfl
    refine ⟨fun ht => ?_, fun ht => ?_⟩
    · unfold eval
      rw [cnt_eq S.x t S.n 0 (by omega) (fun i hi => by omega) (fun i _ hi => by
        obtain ⟨p, hp, he⟩ := hget i (by omega)
        rw [he]; exact ht p hp)]
      unfold piece
      rw [if_pos rfl, if_pos rfl]
    · unfold eval
      rw [cnt_eq S.x t S.n S.n (le_refl _) (fun i hi => by
        obtain ⟨p, hp, he⟩ := hget i (by omega)
        rw [he]; exact ht p hp) (fun i h1 h2 => by omega)]
      unfold piece
      rw [if_neg (by omega), if_pos (le_refl _), if_pos rfl]

/-- C39, instance: natural spline through four points given out of order -/
example : (mkSpline [(2, 4), (0, 0), (1, 1), ((4 : ℚ), 2)] none none).map (fun S => [eval S 0 0, eval S 1 0, eval S 2 0, eval S 4 0, eval S 3 0, eval S 5 0]) =
    .ok [0, 1, 4, 2, 96 / 23, -13 / 23] := by decide +kernel

/-- C39 is false for der=3: the value is multiplied by the interval's width instead of divided. On the data of y = x³ at 0, 2, 4 with exact end slopes the
third derivative is 6 everywhere inside, but 24 is returned. -/
theorem spline_der3_fails : (mkSpline [(0, 0), (2, 8), ((4 : ℚ), 64)] (some 0) (some 48)).map (fun S => [eval S 1 0, eval S 1 1, eval S 1 2, eval S 1 3]) =
    .ok [1, 3, 6, 24] := by decide +kernel

end Mass.Calc
