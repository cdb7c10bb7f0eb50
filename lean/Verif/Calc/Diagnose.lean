import Verif.Calc.Autocal
import Mathlib.Data.Nat.Sqrt
import Mathlib.Data.Nat.Cast.Field
import Mathlib.Tactic.FieldSimp
import Mathlib.Tactic.Positivity
/-! C168: the figure that shows an automatic calibration (mass/calibration/algorithms.py `EnergyCalibrationAutocal.diagnose`). What is handed to matplotlib is modelled; exact arithmetic. -/
namespace Mass.Calc.Diag
open Mass Mass.Calc.Fit Mass.Calc.Auto Mass.Calc.Cal
set_option linter.unusedSectionVars false

variable {K : Type} [Field K] [LinearOrder K] [IsStrictOrderedRing K]

/-! ### model -/

/-- `int(np.ceil(np.sqrt(N)))`, algorithms.py L339 -/
def side (N : Nat) : Nat := if N.sqrt * N.sqrt = N then N.sqrt else N.sqrt + 1

/-- a rectangle: left, bottom, width and height as fractions of the figure (used for algorithms.py L343-346, L375) -/
structure Rect (K : Type) where
  x : K
  y : K
  w : K
  h : K
deriving DecidableEq

/-- algorithms.py L341-346: the place of panel `i` -/
def place (n i : Nat) : Rect K :=
  ⟨3 / 5 * ((i % n : Nat) : K) / n + 1 / 20, 9 / 10 * ((i / n : Nat) : K) / n + 2 / 25, (3 / 5 - 1 / 10) / n, (9 / 10 - 1 / 10) / n⟩

/-- algorithms.py L375: the place of the calibration curve -/
def bigPlace : Rect K := ⟨1 / 20 + 3 / 5, 2 / 25, (1 - 1 / 20 - 3 / 5) - 6 / 100, 9 / 10 - 5 / 100⟩

/-- `np.linspace(a, b, m)` for m > 1 (used for algorithms.py L350, L355, L397) -/
def linspace (a b : K) (m : Nat) : List K := (List.range m).map (fun i : Nat => a + (i : K) * ((b - a) / ((m : K) - 1)))

/-- `np.repeat(l, 2)`, algorithms.py L352 -/
def twice (l : List K) : List K := l.flatMap (fun x => [x, x])

/-- `np.min` of what is not empty (used for algorithms.py L369, L393) -/
def least : List K → K
  | [] => 0
  | [a] => a
  | a :: b :: t => min a (least (b :: t))

/-- `np.max` of what is not empty (used for algorithms.py L369-370, L394) -/
def greatest : List K → K
  | [] => 0
  | [a] => a
  | a :: b :: t => max a (greatest (b :: t))

/-- what is used of the fit of one line, algorithms.py L349-368: bin centers, counts, whether the name of the model contains "Gaussian", and the fitted curve -/
structure Res (K : Type) where
  centers : List K
  data : List K
  gauss : Bool
  curve : K → K

/-- one panel, algorithms.py L343-370: place, outline of the histogram, text, resolution in the text, fitted curve, limits of the axes (from zero upwards) -/
structure Panel (K : Type) where
  place : Rect K
  outline : List (K × K)
  text : String
  eres : K
  curve : List (K × K)
  xlim : K × K
  top : K

/-- the name shown in a panel, algorithms.py L356-365: only strings have `replace`. `pretty` writes Greek letters. -/
def panelText (shw : Line K → String) (pretty : String → String) (gauss : Bool) (l : Line K) : Except Exc String :=
  if gauss then .ok (shw l ++ " (eV)")
  else match l with
    | .name s => .ok (pretty s)
    | .energy _ => .error .attribute

/-- algorithms.py L343-370: the panel of one line -/
def panel (shw : Line K → String) (pretty : String → String) (n i : Nat) (l : Line K) (r : Res K) (eres : K) : Except Exc (Panel K) :=
  match r.centers with
  | c0 :: c1 :: t =>
    let last := (c1 :: t).getLastD c1
    let b := c1 - c0
    let edges := linspace (c0 - b / 2) (last + b / 2) (r.centers.length + 1)
    let x := linspace c0 last 201
    match panelText shw pretty r.gauss l with
    | .error e => .error e
    | .ok s => .ok ⟨place n i, (twice edges).zip (0 :: (twice r.data ++ [0])), s, eres, x.map (fun v => (v, r.curve v)), (least x, greatest x), greatest r.data * (13 / 10)⟩
  | _ => .error .index

/-- algorithms.py L342-370: the loop over lines, fits and resolutions -/
def panels (shw : Line K → String) (pretty : String → String) (n : Nat) : Nat → List (Line K) → List (Res K) → List K → Except Exc (List (Panel K))
  | i, l :: ls, r :: rs, s :: ss =>
    match panel shw pretty n i l r s with
    | .error e => .error e
    | .ok p => match panels shw pretty n (i + 1) ls rs ss with
      | .error e => .error e
      | .ok ps => .ok (p :: ps)
  | _, _, _, _ => .ok []

/-- the panel with the calibration, algorithms.py L375-407: texts with their places, points, curve and limits -/
structure Big (K : Type) where
  place : Rect K
  texts : List (K × K × String)
  points : List (K × K)
  curve : List (K × K)
  xlim : K × K

/-- the name shown at a point, algorithms.py L379-383; `fmt` writes an energy with one digit -/
def pointText (pretty : String → String) (fmt : K → String) (l : Line K) (e : K) : String :=
  match l with
  | .name s => pretty s
  | .energy _ => fmt e ++ " (eV)"

/-- algorithms.py L375-407. No points: ValueError (L393). -/
def big (pretty : String → String) (fmt : K → String) (cal : K → K) (lines : List (Line K)) (phs es : List K) : Except Exc (Big K) :=
  if phs = [] then .error .value
  else
    let lb := least phs
    let ub := greatest phs
    let w := ub - lb
    let x := linspace (lb - w / 10) (ub + w / 10) 101
    .ok ⟨bigPlace, (lines.zip (phs.zip es)).map (fun p => (p.2.1, p.2.2, pointText pretty fmt p.1 p.2.2)), phs.zip es, x.map (fun v => (v, cal v)), (lb - w / 10, ub + w / 10)⟩

/-- algorithms.py L336-407 `diagnose`; fits and resolutions are None before the lines are fitted (TypeError) -/
def diagnose (shw : Line K → String) (pretty : String → String) (fmt : K → String) (lines : List (Line K)) (fits : Option (List (Res K) × List K)) (cal : K → K) (phs es : List K) :
    Except Exc (List (Panel K) × Big K) :=
  match fits with
  | none => .error .type
  | some (rs, ss) =>
    match panels shw pretty (side lines.length) 0 lines rs ss with
    | .error e => .error e
    | .ok ps => match big pretty fmt cal lines phs es with
      | .error e => .error e
      | .ok b => .ok (ps, b)

/-! ### lemmas -/

theorem side_spec (N : Nat) : N ≤ side N * side N ∧ ∀ m, N ≤ m * m → side N ≤ m := by
  have h1 := Nat.sqrt_le N
  have h2 := Nat.lt_succ_sqrt N
  unfold side
  split
  · rename_i h
    refine ⟨h.ge, fun m hm => ?_⟩
    by_contra hc
    have : m * m < N.sqrt * N.sqrt := Nat.mul_self_lt_mul_self (by omega)
    omega
  · rename_i h
    refine ⟨h2.le, fun m hm => ?_⟩
    by_contra hc
    have : m * m ≤ N.sqrt * N.sqrt := Nat.mul_self_le_mul_self (by omega)
    omega

theorem least_spec {l : List K} (h : l ≠ []) : least l ∈ l ∧ ∀ x ∈ l, least l ≤ x := by
  induction l with
  | nil => exact absurd rfl h
  | cons a t ih =>
    cases t with
    | nil => simp [least]
    | cons b t =>
      obtain ⟨h1, h2⟩ := ih (by simp)
      rw [least]
      constructor
      · rcases min_choice a (least (b :: t)) with e | e <;> rw [e]
        · simp
        · exact List.mem_cons_of_mem _ h1
      · intro x hx
        rcases List.mem_cons.1 hx with rfl | hx
        · exact min_le_left _ _
        · exact (min_le_right _ _).trans (h2 x hx)

theorem greatest_spec {l : List K} (h : l ≠ []) : greatest l ∈ l ∧ ∀ x ∈ l, x ≤ greatest l := by
  induction l with
  | nil => exact absurd rfl h
  | cons a t ih =>
    cases t with
    | nil => simp [greatest]
    | cons b t =>
      obtain ⟨h1, h2⟩ := ih (by simp)
      rw [greatest]
      constructor
      · rcases max_choice a (greatest (b :: t)) with e | e <;> rw [e]
        · simp
        · exact List.mem_cons_of_mem _ h1
      · intro x hx
        rcases List.mem_cons.1 hx with rfl | hx
        · exact le_max_left _ _
        · exact (h2 x hx).trans (le_max_right _ _)

theorem linspace_get (a b : K) {m i : Nat} (h : i < m) : (linspace a b m)[i]? = some (a + (i : K) * ((b - a) / ((m : K) - 1))) := by
  simp [linspace, h]

theorem linspace_mem {a b : K} (hab : a ≤ b) {m : Nat} (hm : 2 ≤ m) {x : K} (h : x ∈ linspace a b m) : a ≤ x ∧ x ≤ b := by
  obtain ⟨i, hi, rfl⟩ := List.mem_map.1 h
  have hi' : i < m := List.mem_range.1 hi
  have hm' : (0 : K) < (m : K) - 1 := by
    have : (2 : K) ≤ m := by exact_mod_cast hm
    linarith
  have h1 : (0 : K) ≤ i := Nat.cast_nonneg _
  have h2 : (i : K) ≤ (m : K) - 1 := by
    have : ((i + 1 : Nat) : K) ≤ m := by exact_mod_cast hi'
    push_cast at this
    linarith
  have hq : 0 ≤ (b - a) / ((m : K) - 1) := div_nonneg (by linarith) hm'.le
  refine ⟨by nlinarith [mul_nonneg h1 hq], ?_⟩
  have : (i : K) * ((b - a) / ((m : K) - 1)) ≤ ((m : K) - 1) * ((b - a) / ((m : K) - 1)) := mul_le_mul_of_nonneg_right h2 hq
  rw [mul_div_cancel₀ _ hm'.ne'] at this
  linarith

theorem linspace_ends (a b : K) {m : Nat} (hm : 2 ≤ m) : a ∈ linspace a b m ∧ b ∈ linspace a b m := by
  have hm' : (m : K) - 1 ≠ 0 := by
    have : (2 : K) ≤ m := by exact_mod_cast hm
    intro h
    linarith
  constructor
  · exact List.mem_map.2 ⟨0, List.mem_range.2 (by omega), by simp⟩
  · refine List.mem_map.2 ⟨m - 1, List.mem_range.2 (by omega), ?_⟩
    rw [Nat.cast_sub (by omega), Nat.cast_one, mul_div_cancel₀ _ hm']
    ring

theorem linspace_extremes {a b : K} (hab : a ≤ b) {m : Nat} (hm : 2 ≤ m) : least (linspace a b m) = a ∧ greatest (linspace a b m) = b := by
  have hne : linspace a b m ≠ [] := List.ne_nil_of_mem (linspace_ends a b hm).1
  obtain ⟨l1, l2⟩ := least_spec hne
  obtain ⟨g1, g2⟩ := greatest_spec hne
  exact ⟨le_antisymm (l2 _ (linspace_ends a b hm).1) (linspace_mem hab hm l1).1, le_antisymm (linspace_mem hab hm g1).2 (g2 _ (linspace_ends a b hm).2)⟩

theorem twice_get (l : List K) : ∀ k : Nat, (twice l)[2 * k]? = l[k]? ∧ (twice l)[2 * k + 1]? = l[k]? := by
  induction l with
  | nil => intro k; simp [twice]
  | cons a t ih =>
    intro k
    cases k with
    | zero => simp [twice]
    | succ k =>
      have := ih k
      simp only [twice] at this ⊢
      rw [List.flatMap_cons]
      exact ⟨by rw [show 2 * (k + 1) = 2 * k + 1 + 1 by ring]; simpa using this.1, by rw [show 2 * (k + 1) + 1 = 2 * k + 1 + 1 + 1 by ring]; simpa using this.2⟩

theorem twice_length (l : List K) : (twice l).length = 2 * l.length := by
  induction l with
  | nil => rfl
  | cons a t ih =>
    simp only [twice, List.flatMap_cons, List.length_append, List.length_cons, List.length_nil] at ih ⊢
    omega

/-! ### where the panels are -/

/-- two rectangles have a gap between them [specification] -/
def Apart (a b : Rect K) : Prop := a.x + a.w < b.x ∨ b.x + b.w < a.x ∨ a.y + a.h < b.y ∨ b.y + b.h < a.y

/-- C168. However many lines there are, the panels lie inside the figure, and there are gaps between any two of them and between each and the panel of the calibration. -/
theorem panels_apart {N i : Nat} (hi : i < N) :
    let p : Rect K := place (side N) i
    0 < p.w ∧ 0 < p.h ∧ 0 < p.x ∧ p.x + p.w < 1 ∧ 0 < p.y ∧ p.y + p.h < 1 ∧ Apart p bigPlace ∧ ∀ j, j < N → i ≠ j → Apart p (place (side N) j) := by
  have hs := (side_spec N).1
  have hn : 0 < side N := by
    by_contra h
    have : side N = 0 := by omega
    rw [this] at hs
    omega
  generalize side N = n at hs hn
  have hn' : (0 : K) < n := by exact_mod_cast hn
  have col : ∀ j : Nat, j < N → ((j % n : Nat) : K) + 1 ≤ n ∧ ((j / n : Nat) : K) + 1 ≤ n := by
    intro j hj
    have h1 : j % n < n := Nat.mod_lt _ hn
    have h2 : j / n < n := Nat.div_lt_of_lt_mul (by omega)
    exact ⟨by exact_mod_cast h1, by exact_mod_cast h2⟩
  have step : ∀ (a : K) (c d : Nat), 1 / 10 < a → c < d → a * (c : K) / n + (a - 1 / 10) / n < a * (d : K) / n := by
    intro a c d ha hcd
    rw [← add_div, div_lt_div_iff_of_pos_right hn']
    have : ((c + 1 : Nat) : K) ≤ d := by exact_mod_cast hcd
    push_cast at this
    nlinarith
  obtain ⟨c1, c2⟩ := col i hi
  have right : 3 / 5 * ((i % n : Nat) : K) / n + (3 / 5 - 1 / 10) / n < 3 / 5 := by
    rw [← add_div, div_lt_iff₀ hn']
    linarith
  have top : 9 / 10 * ((i / n : Nat) : K) / n + (9 / 10 - 1 / 10) / n < 9 / 10 := by
    rw [← add_div, div_lt_iff₀ hn']
    linarith
  have left0 : (0 : K) ≤ 3 / 5 * ((i % n : Nat) : K) / n := by positivity
  have bot0 : (0 : K) ≤ 9 / 10 * ((i / n : Nat) : K) / n := by positivity
  dsimp only [place, bigPlace, Apart]
  refine ⟨div_pos (by norm_num) hn', div_pos (by norm_num) hn', by linarith, by linarith, by linarith, by linarith, .inl (by linarith), ?_⟩
  intro j hj hij
  by_cases hx : i % n = j % n
  · have hy : i / n ≠ j / n := by
      intro hy
      apply hij
      rw [← Nat.div_add_mod i n, ← Nat.div_add_mod j n, hx, hy]
    rcases Nat.lt_or_gt_of_ne hy with h | h
    · right; right; left
      have := step (9 / 10) _ _ (by norm_num) h
      linarith
    · right; right; right
      have := step (9 / 10) _ _ (by norm_num) h
      linarith
  · rcases Nat.lt_or_gt_of_ne hx with h | h
    · left
      have := step (3 / 5) _ _ (by norm_num) h
      linarith
    · right; left
      have := step (3 / 5) _ _ (by norm_num) h
      linarith

/-- C168. The panels are no smaller than needed: with fewer rows and columns there would not be room for all. -/
theorem side_minimal (N m : Nat) (h : m < side N) : m * m < N := by
  by_contra hc
  exact absurd ((side_spec N).2 m (by omega)) (by omega)

/-! ### what the panels show -/

/-- C168. A panel shows the histogram that was fitted: bin `k` of width `b` around `c + k b` reaches from its lower to its upper edge, at the height of its counts, and the outline
begins and ends at zero; the curve is the fitted one from the center of the first to that of the last bin, as are the limits of the axes. -/
theorem panel_spec (shw : Line K → String) (pretty : String → String) (n i : Nat) (l : Line K) (r : Res K) (eres : K) {p : Panel K} {c b : K} (hb : 0 < b) {m : Nat} (hm : 2 ≤ m)
    (hc : r.centers = (List.range m).map (fun k : Nat => c + (k : K) * b)) (hd : r.data.length = m) (h : panel shw pretty n i l r eres = .ok p) :
    p.place = place n i ∧ p.eres = eres ∧ p.outline.length = 2 * m + 2 ∧ p.outline[0]? = some (c - b / 2, 0) ∧ p.outline[2 * m + 1]? = some (c + ((m : K) - 1) * b + b / 2, 0) ∧
      (∀ k : Nat, k < m → ∃ d, r.data[k]? = some d ∧ p.outline[2 * k + 1]? = some (c + (k : K) * b - b / 2, d) ∧ p.outline[2 * k + 2]? = some (c + (k : K) * b + b / 2, d)) ∧
      p.curve.length = 201 ∧ (∀ q ∈ p.curve, q.2 = r.curve q.1 ∧ p.xlim.1 ≤ q.1 ∧ q.1 ≤ p.xlim.2) ∧ p.xlim = (c, c + ((m : K) - 1) * b) ∧
      (∀ d ∈ r.data, 0 ≤ d → d ≤ p.top) := by
  obtain ⟨k, rfl⟩ : ∃ k, m = k + 2 := ⟨m - 2, by omega⟩
  have hcs : r.centers = c :: (c + b) :: (List.range k).map (fun j : Nat => c + ((j : K) + 1 + 1) * b) := by
    rw [hc, List.range_succ_eq_map, List.range_succ_eq_map]
    simp [Function.comp_def]
  have hlast : ((c + b) :: (List.range k).map (fun j : Nat => c + ((j : K) + 1 + 1) * b)).getLastD (c + b) = c + ((k : K) + 1) * b := by
    cases k with
    | zero => simp
    | succ k =>
      rw [List.range_succ, List.map_append, List.map_singleton, ← List.cons_append, List.getLastD_concat]
      push_cast
      ring
  have hlen : r.centers.length = k + 2 := by rw [hc]; simp
  unfold panel at h
  rw [hlen] at h
  rw [hcs] at h
  dsimp only at h
  rw [hlast] at h
  cases ht : panelText shw pretty r.gauss l with
  | error e => rw [ht] at h; cases h
  | ok s =>
    rw [ht] at h
    dsimp only at h
    have h := (Except.ok.inj h).symm
    subst h
    dsimp only
    have hkk : (0 : K) ≤ k := Nat.cast_nonneg _
    have hle : c ≤ c + ((k : K) + 1) * b := by nlinarith
    obtain ⟨e1, e2⟩ := linspace_extremes hle (m := 201) (by norm_num)
    have hb1 : ((k + 2 + 1 : Nat) : K) - 1 = (k : K) + 2 := by push_cast; ring
    have hk2 : ((k : K) + 2) ≠ 0 := by linarith
    have edge : ∀ j : Nat, j < k + 3 → (linspace (c - (c + b - c) / 2) (c + ((k : K) + 1) * b + (c + b - c) / 2) (k + 2 + 1))[j]? = some (c + (j : K) * b - b / 2) := by
      intro j hj
      rw [linspace_get _ _ (by omega), hb1]
      congr 1
      field_simp
      ring
    have hzl : (twice (linspace (c - (c + b - c) / 2) (c + ((k : K) + 1) * b + (c + b - c) / 2) (k + 2 + 1))).length = 2 * (k + 2) + 2 := by
      rw [twice_length]
      simp [linspace]
      omega
    have hdl : (0 :: (twice r.data ++ [0])).length = 2 * (k + 2) + 2 := by
      rw [List.length_cons, List.length_append, twice_length, hd]
      simp
    refine ⟨rfl, rfl, ?_, ?_, ?_, ?_, ?_, ?_, ?_, ?_⟩
    · rw [List.length_zip, hzl, hdl, Nat.min_self]
    · rw [List.getElem?_zip_eq_some]
      refine ⟨?_, rfl⟩
      have := (twice_get (linspace (c - (c + b - c) / 2) (c + ((k : K) + 1) * b + (c + b - c) / 2) (k + 2 + 1)) 0).1
      rw [Nat.mul_zero] at this
      rw [this, edge 0 (by omega)]
      simp
    · rw [List.getElem?_zip_eq_some]
      constructor
      · rw [show 2 * (k + 2) + 1 = 2 * (k + 2) + 1 from rfl, (twice_get _ (k + 2)).2, edge (k + 2) (by omega)]
        congr 1
        push_cast
        ring
      · rw [List.getElem?_cons_succ, List.getElem?_append_right (by rw [twice_length, hd]), twice_length, hd]
        simp
    · intro j hj
      obtain ⟨d, hdj⟩ : ∃ d, r.data[j]? = some d := ⟨r.data[j]'(by omega), List.getElem?_eq_getElem _⟩
      refine ⟨d, hdj, ?_, ?_⟩
      · rw [List.getElem?_zip_eq_some]
        refine ⟨by rw [(twice_get _ j).2, edge j (by omega)], ?_⟩
        rw [List.getElem?_cons_succ, List.getElem?_append_left (by rw [twice_length, hd]; omega), (twice_get _ j).1, hdj]
      · rw [List.getElem?_zip_eq_some]
        constructor
        · rw [show 2 * j + 2 = 2 * (j + 1) by ring, (twice_get _ (j + 1)).1, edge (j + 1) (by omega)]
          congr 1
          push_cast
          ring
        · rw [List.getElem?_cons_succ, List.getElem?_append_left (by rw [twice_length, hd]; omega), (twice_get _ j).2, hdj]
    · simp [linspace]
    · intro q hq
      obtain ⟨v, hv, rfl⟩ := List.mem_map.1 hq
      rw [e1, e2]
      exact ⟨rfl, linspace_mem hle (by norm_num) hv⟩
    · rw [e1, e2]
      congr 2
      push_cast
      ring
    · intro d hd' h0
      have := (greatest_spec (List.ne_nil_of_mem hd')).2 d hd'
      linarith

theorem panels_spec (shw : Line K → String) (pretty : String → String) (n : Nat) (ls : List (Line K)) : ∀ (i : Nat) (rs : List (Res K)) (ss : List K) (ps : List (Panel K)),
    rs.length = ls.length → ss.length = ls.length → panels shw pretty n i ls rs ss = .ok ps → ps.length = ls.length ∧
      ∀ (k : Nat) (l : Line K) (r : Res K) (s : K), ls[k]? = some l → rs[k]? = some r → ss[k]? = some s → ∃ p, ps[k]? = some p ∧ panel shw pretty n (i + k) l r s = .ok p := by
  induction ls with
  | nil =>
    intro i rs ss ps _ _ h
    simp only [panels] at h
    cases h
    simp
  | cons l ls ih =>
    intro i rs ss ps hr hs h
    match rs, ss, hr, hs with
    | r :: rs, s :: ss, hr, hs =>
      unfold panels at h
      cases hp : panel shw pretty n i l r s with
      | error e => rw [hp] at h; cases h
      | ok p =>
        rw [hp] at h
        dsimp only at h
        cases hq : panels shw pretty n (i + 1) ls rs ss with
        | error e => rw [hq] at h; cases h
        | ok qs =>
          rw [hq] at h
          cases h
          obtain ⟨h1, h2⟩ := ih (i + 1) rs ss qs (by simpa using hr) (by simpa using hs) hq
          refine ⟨by simp [h1], ?_⟩
          intro k l' r' s' e1 e2 e3
          cases k with
          | zero =>
            simp only [List.getElem?_cons_zero, Option.some.injEq] at e1 e2 e3
            subst e1 e2 e3
            exact ⟨p, rfl, hp⟩
          | succ k =>
            obtain ⟨q, q1, q2⟩ := h2 k l' r' s' (by simpa using e1) (by simpa using e2) (by simpa using e3)
            exact ⟨q, by simpa using q1, by rwa [show i + (k + 1) = i + 1 + k by omega]⟩

/-- C168. If lines are known by name, there is one panel for each, in its place, with its own histogram, fit and resolution, named after it. All points of the calibration and its curve are
shown in the large panel, to a tenth of the range beyond the outermost points. -/
theorem diagnose_spec (shw : Line K → String) (pretty : String → String) (fmt : K → String) {lines : List (Line K)} {rs : List (Res K)} {ss : List K} (cal : K → K) {phs es : List K}
    (hr : rs.length = lines.length) (hs : ss.length = lines.length) (hn : ∀ l ∈ lines, ∃ s, l = .name s) (hc : ∀ r ∈ rs, 2 ≤ r.centers.length) (hp : phs ≠ []) :
    ∃ ps b, diagnose shw pretty fmt lines (some (rs, ss)) cal phs es = .ok (ps, b) ∧ ps.length = lines.length ∧
      (∀ (k : Nat) (s : String) (r : Res K) (x : K), lines[k]? = some (Line.name s) → rs[k]? = some r → ss[k]? = some x → ∃ p, ps[k]? = some p ∧ p.place = place (side lines.length) k ∧
        panel shw pretty (side lines.length) k (.name s) r x = .ok p ∧ p.eres = x ∧ p.text = if r.gauss then shw (.name s) ++ " (eV)" else pretty s) ∧
      b.points = phs.zip es ∧ (∀ q ∈ b.curve, q.2 = cal q.1) ∧ (∀ v ∈ phs, b.xlim.1 ≤ v ∧ v ≤ b.xlim.2) ∧
      (∃ lo ∈ phs, ∃ hi ∈ phs, b.xlim = (lo - (hi - lo) / 10, hi + (hi - lo) / 10) ∧ (lo - (hi - lo) / 10, cal (lo - (hi - lo) / 10)) ∈ b.curve ∧
        (hi + (hi - lo) / 10, cal (hi + (hi - lo) / 10)) ∈ b.curve) := by
  have hpanel : ∀ n i s r x, 2 ≤ r.centers.length → ∃ p, panel shw pretty n i (.name s) r x = .ok p ∧ p.place = place n i ∧ p.eres = x ∧
      p.text = if r.gauss then shw (.name s) ++ " (eV)" else pretty s := by
    intro n i s r x h2
    unfold panel
    match hcs : r.centers, h2 with
    | c0 :: c1 :: t, _ =>
      dsimp only
      cases hg : r.gauss <;> exact ⟨_, rfl, rfl, rfl, rfl⟩
  have hall : ∀ (n : Nat) (ls : List (Line K)) (i : Nat) (rs : List (Res K)) (ss : List K), rs.length = ls.length → ss.length = ls.length → (∀ l ∈ ls, ∃ s, l = .name s) →
      (∀ r ∈ rs, 2 ≤ r.centers.length) → ∃ ps, panels shw pretty n i ls rs ss = .ok ps := by
    intro n ls
    induction ls with
    | nil => intro i rs ss _ _ _ _; exact ⟨[], by simp [panels]⟩
    | cons l ls ih =>
      intro i rs ss h1 h2 h3 h4
      match rs, ss, h1, h2 with
      | r :: rs, s :: ss, h1, h2 =>
        obtain ⟨nm, rfl⟩ := h3 l (by simp)
        obtain ⟨p, hp1, _⟩ := hpanel n i nm r s (h4 r (by simp))
        obtain ⟨qs, hq⟩ := ih (i + 1) rs ss (by simpa using h1) (by simpa using h2) (fun l hl => h3 l (by simp [hl])) (fun r hr => h4 r (by simp [hr]))
        exact ⟨p :: qs, by rw [panels, hp1]; dsimp only; rw [hq]⟩
  obtain ⟨ps, hps⟩ := hall (side lines.length) lines 0 rs ss hr hs hn hc
  obtain ⟨q1, q2⟩ := panels_spec shw pretty (side lines.length) lines 0 rs ss ps hr hs hps
  obtain ⟨l1, l2⟩ := least_spec hp
  obtain ⟨g1, g2⟩ := greatest_spec hp
  have hlg : least phs ≤ greatest phs := l2 _ g1
  obtain ⟨b, hb⟩ : ∃ b, big pretty fmt cal lines phs es = .ok b := by unfold big; rw [if_neg hp]; exact ⟨_, rfl⟩
  refine ⟨ps, b, ?_, q1, ?_, ?_⟩
  · unfold diagnose
    dsimp only
    rw [hps]
    dsimp only
    rw [hb]
  · intro k s r x e1 e2 e3
    obtain ⟨p, p1, p2⟩ := q2 k _ r x e1 e2 e3
    rw [Nat.zero_add] at p2
    obtain ⟨p', p1', p3, p4, p5⟩ := hpanel (side lines.length) k s r x (hc r (List.mem_of_getElem? e2))
    rw [p2] at p1'
    cases p1'
    exact ⟨p, p1, p3, p2, p4, p5⟩
  · unfold big at hb
    rw [if_neg hp] at hb
    have hb := (Except.ok.inj hb).symm
    subst hb
    dsimp only
    refine ⟨rfl, ?_, ?_, least phs, l1, greatest phs, g1, rfl, ?_, ?_⟩
    · intro q hq
      obtain ⟨v, _, rfl⟩ := List.mem_map.1 hq
      rfl
    · intro v hv
      have := l2 v hv
      have := g2 v hv
      constructor <;> linarith
    · exact List.mem_map_of_mem (f := fun v => (v, cal v)) (linspace_ends _ _ (by norm_num)).1
    · exact List.mem_map_of_mem (f := fun v => (v, cal v)) (linspace_ends _ _ (by norm_num)).2

/-- C168. Before lines are fitted there is nothing to show: TypeError. Without points in the calibration, or with a histogram of a single bin, there is no figure either. -/
theorem diagnose_refused (shw : Line K → String) (pretty : String → String) (fmt : K → String) (lines : List (Line K)) (cal : K → K) (phs es : List K) :
    diagnose shw pretty fmt lines none cal phs es = .error .type ∧ (∀ f, ∃ e, diagnose shw pretty fmt lines f cal [] es = .error e) ∧
    (∀ n i l r x, r.centers.length < 2 → panel shw pretty n i l r x = .error .index) := by
  refine ⟨rfl, ?_, ?_⟩
  · intro f
    unfold diagnose
    cases f with
    | none => exact ⟨_, rfl⟩
    | some f =>
      obtain ⟨rs, ss⟩ := f
      dsimp only
      cases panels shw pretty (side lines.length) 0 lines rs ss with
      | error e => exact ⟨e, rfl⟩
      | ok ps => exact ⟨.value, by simp [big]⟩
  · intro n i l r x h
    unfold panel
    match hcs : r.centers with
    | [] => rfl
    | [c] => rfl
    | c :: d :: t => rw [hcs] at h; simp only [List.length_cons] at h; omega

/-- C168. In a new calibration every name is at the fitted position of its line and at its energy. -/
theorem labels_new (feat : String → Option K) (shw : Line K → String) (pretty : String → String) (fmt : K → String) (fit : List K → Line K → K → K → K → K → Except Exc (K × K)) (vals : List K)
    (cv : Nat) (ap : Bool) (A : Params K) {T : Tbl K} {fs : List (K × K)} {ps : List (Line K × K)} (hps : sortLines feat A.lines = .ok ps) (hfar : ps.Pairwise (fun a b => 1 / 100 < b.2 - a.2))
    (hnames : (A.lines.map shw).Nodup) (h : fitLines feat shw fit vals (newTbl cv ap) A = (T, .ok fs)) (cal : K → K) {b : Big K}
    (hb : big pretty fmt cal (ps.map Prod.fst) T.ph T.e = .ok b) :
    List.Forall₂ (fun (p : (K × K) × (Line K × K)) (t : K × K × String) => t.1 = p.1.1 ∧ t.2.1 = p.2.2 ∧ t.2.2 = match p.2.1 with | .name s => pretty s | .energy _ => fmt p.2.2 ++ " (eV)")
      (fs.zip ps) b.texts := by
  obtain ⟨h1, h2, _⟩ := fit_lines feat shw fit vals cv ap A hps hfar hnames h
  obtain ⟨hl, _⟩ := fit_all fit vals ps _ _ _ _ h1
  unfold big at hb
  split at hb
  · cases hb
  · have hb := (Except.ok.inj hb).symm
    subst hb
    dsimp only
    have e : (ps.map Prod.fst).zip (T.ph.zip T.e) = (fs.zip ps).map (fun p => (p.2.1, p.1.1, p.2.2)) := by
      have := h2.ph
      rw [h2.ph, h2.e, List.map_map, List.map_map, List.zip_map']
      have hp : ps.map Prod.fst = (fs.zip ps).map (fun p => p.2.1) := by
        conv_lhs => rw [← List.map_snd_zip (l₁ := fs) (l₂ := ps) (by omega)]
        rw [List.map_map]
        rfl
      rw [hp, List.zip_map']
      rfl
    rw [e, List.map_map, List.forall₂_map_right_iff]
    refine List.forall₂_same.2 (fun p _ => ⟨rfl, rfl, ?_⟩)
    dsimp only [Function.comp]
    cases p.2.1 <;> rfl

/-! ### disagreements -/

/-- Disagreement (C168): lines may be given by their energies, for which the text of the large panel even has a form, but then there is no figure: a number has no `replace`, and no model's
name contains "Gaussian" any more. -/
theorem energies_fails (shw : Line K → String) (pretty : String → String) (fmt : K → String) {lines : List (Line K)} {rs : List (Res K)} {ss : List K} (cal : K → K) (phs es : List K)
    (hr : rs.length = lines.length) (hs : ss.length = lines.length) (hg : ∀ r ∈ rs, r.gauss = false) {e : K} (he : Line.energy e ∈ lines) :
    ∃ x, diagnose shw pretty fmt lines (some (rs, ss)) cal phs es = .error x := by
  have gen : ∀ (n : Nat) (ls : List (Line K)) (i : Nat) (rs : List (Res K)) (ss : List K), rs.length = ls.length → ss.length = ls.length → (∀ r ∈ rs, r.gauss = false) →
      Line.energy e ∈ ls → ∃ x, panels shw pretty n i ls rs ss = .error x := by
    intro n ls
    induction ls with
    | nil => intro i rs ss _ _ _ h; cases h
    | cons l ls ih =>
      intro i rs ss h1 h2 h3 h4
      match rs, ss, h1, h2 with
      | r :: rs, s :: ss, h1, h2 =>
        unfold panels
        cases hp : panel shw pretty n i l r s with
        | error x => exact ⟨x, rfl⟩
        | ok p =>
          dsimp only
          rcases List.mem_cons.1 h4 with rfl | h4
          · exfalso
            unfold panel at hp
            split at hp
            · simp [panelText, h3 r (by simp)] at hp
            · cases hp
          · obtain ⟨x, hx⟩ := ih (i + 1) rs ss (by simpa using h1) (by simpa using h2) (fun r hr => h3 r (by simp [hr])) h4
            exact ⟨x, by rw [hx]⟩
  obtain ⟨x, hx⟩ := gen (side lines.length) lines 0 rs ss hr hs hg he
  exact ⟨x, by unfold diagnose; dsimp only; rw [hx]⟩

/-- Disagreement (C168): if the calibration had points before, names are at the wrong points: the lines fitted are matched with the first points of the calibration. Here a calibration with the
point (50, 500) is extended by the line "A" at (80, 800), whose name then is at (50, 500). -/
theorem earlier_fails :
    let T0 : Tbl ℚ := (addAll (fun _ => none) (newTbl 0 false) [(50, 500, "X")]).1
    let T1 := addAll (fun _ => none) T0 [(80, 800, "A")]
    T1.2 = .ok () ∧ T1.1.ph = [50, 80] ∧ (big id (fun _ => "") id [Line.name "A"] T1.1.ph T1.1.e).toOption.map (fun b => b.texts) = some [(50, 500, "A")] := by
  decide +kernel

/-! ### instance -/

example : let r : Res ℚ := ⟨[10, 12, 14], [1, 5, 2], false, fun x => x⟩
    (panel (fun _ => "") id 2 3 (Line.name "MnKAlpha") r 3).toOption.map (fun p => (p.place, p.outline, p.xlim, p.top)) =
      some (⟨7 / 20, 53 / 100, 1 / 4, 2 / 5⟩, [(9, 0), (9, 1), (11, 1), (11, 5), (13, 5), (13, 2), (15, 2), (15, 0)], (10, 14), 13 / 2) := by decide +kernel

end Mass.Calc.Diag
