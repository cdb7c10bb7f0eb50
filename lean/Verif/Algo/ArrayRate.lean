import Verif.Algo.CountRate
/-! C192: the count rates of all channels of a group (mass/core/channel_group.py `plot_count_rate`), on the model of C132. Exact arithmetic over an ordered field. -/
namespace Mass.Algo.ArrayRate
set_option linter.unusedSectionVars false
open Mass Mass.Algo.CountRate
variable {K : Type} [Field K] [LinearOrder K] [IsStrictOrderedRing K] [FloorRing K]

/-! ### model -/

/-- what is used of a channel, channel_group.py L1185-1207: its number, the times of its pulses and which of them are good -/
structure Chan (K : Type) where
  num : Nat
  ts : List K
  good : List Bool

/-- what is drawn, channel_group.py L1190-1207 -/
structure Fig (K : Type) where
  centers : List K
  all : List (List K)
  good : List (List K)
  array : List K
  meanAll : List (Nat × K)
  meanGood : List (Nat × K)

/-- the rates of one channel, channel_group.py L1189-1190 -/
def row (goodonly : Bool) (e : List K) (c : Chan K) : Except Exc (List K) :=
  match countRate c.ts c.good goodonly (.edges e) with
  | .error x => .error x
  | .ok p => .ok p.2

/-- `mean(axis=1)` of one row, channel_group.py L1204-1205 -/
def mean (r : List K) : K := r.sum / (r.length : K)

/-- plot_count_rate, channel_group.py L1185-1210, for the channels that are not bad, in their order (L1186: the first of them is the first good dataset; an IndexError if there is none) -/
def plotRate (cs : List (Chan K)) (w : K) : Except Exc (Fig K) :=
  match cs with
  | [] => .error .index
  | c0 :: _ =>
    match c0.ts with
    | [] => .error .index
    | t0 :: r =>
      match arange t0 (r.foldl max t0) w with
      | .error x => .error x
      | .ok e =>
        match e with
        | e0 :: e1 :: q =>
          match cs.mapM (row false (e0 :: e1 :: q)), cs.mapM (row true (e0 :: e1 :: q)) with
          | .error x, _ => .error x
          | .ok _, .error x => .error x
          | .ok a, .ok g => .ok ⟨(e0 :: e1 :: q).dropLast.map (fun x => x + 1 / 2 * (e1 - e0)), a, g, (List.range (q.length + 1)).map (fun k => (a.map (fun l => l.getD k 0)).sum),
              (cs.map (·.num)).zip (a.map mean), (cs.map (·.num)).zip (g.map mean)⟩
        | _ => .error .index

/-! ### specification -/

/-- a pulse at time t is in bin k of n, each of width w, the first from t0 on: the upper end belongs to the next bin, except for the last [specification] -/
def InBin (t0 w : K) (n k : Nat) (t : K) : Prop := t0 + (k : K) * w ≤ t ∧ (t < t0 + ((k : K) + 1) * w ∨ (k + 1 = n ∧ t = t0 + ((k : K) + 1) * w))

instance (t0 w : K) (n k : Nat) (t : K) : Decidable (InBin t0 w n k t) := by unfold InBin; infer_instance

/-- the number of pulses in a bin [specification] -/
def inBin (xs : List K) (t0 w : K) (n k : Nat) : Nat := xs.countP (fun t => decide (InBin t0 w n k t))

/-- the number of pulses in all bins [specification] -/
def inAll (xs : List K) (t0 w : K) (n : Nat) : Nat := xs.countP (fun t => decide (t0 ≤ t ∧ t ≤ t0 + (n : K) * w))

/-- a row of rates of the pulses xs [specification] -/
def IsRow (xs : List K) (t0 w : K) (n : Nat) (r : List K) : Prop :=
  r.length = n ∧ (∀ k, k < n → r.getD k 0 * w = (inBin xs t0 w n k : K)) ∧ r.sum * w = (inAll xs t0 w n : K)

/-! ### lemmas -/

theorem foldl_max_ge (l : List K) (a : K) : a ≤ l.foldl max a ∧ ∀ x ∈ l, x ≤ l.foldl max a := by
  induction l generalizing a with
  | nil => simp
  | cons b r ih =>
    obtain ⟨h1, h2⟩ := ih (max a b)
    refine ⟨(le_max_left a b).trans h1, fun x hx => ?_⟩
    rcases List.mem_cons.mp hx with rfl | hx
    · exact (le_max_right a x).trans h1
    · exact h2 x hx

theorem foldl_max_mem (l : List K) (a : K) : l.foldl max a ∈ a :: l := by
  induction l generalizing a with
  | nil => simp
  | cons b r ih =>
    rw [List.foldl_cons]
    rcases max_choice a b with h | h
    · rw [h]
      rcases List.mem_cons.mp (ih a) with e | e
      · rw [e]; simp
      · simp [e]
    · rw [h]
      exact List.mem_cons_of_mem _ (ih b)

theorem is_row (t0 w : K) (hw : 0 < w) (n : Nat) (e0 e1 : K) (q : List K) (hq : q.length + 1 = n) (hmono : (e0 :: e1 :: q).Pairwise (· ≤ ·))
    (hget : ∀ k, k < n + 1 → (e0 :: e1 :: q).getD k 0 = t0 + (k : K) * w) (xs : List K) :
    ∃ c r, rates xs (e0 :: e1 :: q) = .ok (c, r) ∧ IsRow xs t0 w n r := by
  have he0 : e0 = t0 := by simpa using hget 0 (by omega)
  have he1 : e1 = t0 + w := by simpa using hget 1 (by omega)
  have hd : e1 - e0 = w := by rw [he0, he1]; ring
  have hlen : (e0 :: e1 :: q).length = n + 1 := by simp [hq]
  refine ⟨_, (hist xs (e0 :: e1 :: q)).map (fun n : Nat => (n : K) / (e1 - e0)), by unfold rates; rw [if_neg (not_not_intro hmono)], ?_, ?_, ?_⟩
  · rw [List.length_map, hist_length, hlen]; omega
  · intro k hk
    have hh := hist_get xs (e0 :: e1 :: q) k (by omega)
    rw [hget k (by omega), hget (k + 1) (by omega), hlen] at hh
    have hkl : k < (hist xs (e0 :: e1 :: q)).length := by rw [hist_length, hlen]; omega
    rw [List.getD_eq_getElem _ _ (by rw [List.length_map]; exact hkl), List.getElem_map, hd, div_mul_cancel₀ _ hw.ne']
    rw [List.getD_eq_getElem _ _ hkl] at hh
    rw [hh]
    unfold inBin
    congr 2
    funext s
    rw [decide_eq_decide]
    unfold InBin
    push_cast
    refine and_congr_right fun _ => ?_
    constructor
    · rintro (h1 | ⟨h1, h2⟩)
      · exact Or.inl h1
      · rcases lt_or_eq_of_le h2 with h3 | h3
        · exact Or.inl h3
        · exact Or.inr ⟨by omega, h3⟩
    · rintro (h1 | ⟨h1, h2⟩)
      · exact Or.inl h1
      · exact Or.inr ⟨by omega, h2.le⟩
  · have ht := hist_total xs e0 e1 q hmono
    have hlast : (e0 :: e1 :: q).getLast (by simp) = t0 + (n : K) * w := by
      rw [List.getLast_eq_getElem]
      have := hget n (by omega)
      rw [List.getD_eq_getElem _ _ (by omega)] at this
      rw [← this]
      congr 1
    rw [hlast, he0] at ht
    unfold inAll
    rw [← ht, hd, ← he0]
    clear ht hlast
    generalize hist xs (e0 :: e1 :: q) = l
    induction l with
    | nil => simp
    | cons a l ih => rw [List.map_cons, List.sum_cons, add_mul, ih, div_mul_cancel₀ _ hw.ne', List.sum_cons]; push_cast; rfl

theorem rows_ok (t0 w : K) (hw : 0 < w) (n : Nat) (e0 e1 : K) (q : List K) (hq : q.length + 1 = n) (hmono : (e0 :: e1 :: q).Pairwise (· ≤ ·))
    (hget : ∀ k, k < n + 1 → (e0 :: e1 :: q).getD k 0 = t0 + (k : K) * w) (b : Bool) (cs : List (Chan K)) (hl : ∀ c ∈ cs, c.good.length = c.ts.length) :
    ∃ a, cs.mapM (row b (e0 :: e1 :: q)) = .ok a ∧ List.Forall₂ (fun (c : Chan K) r => IsRow (used c.ts c.good b) t0 w n r) cs a := by
  induction cs with
  | nil => exact ⟨[], rfl, .nil⟩
  | cons c cs ih =>
    obtain ⟨a, ha, hf⟩ := ih (fun d hd => hl d (List.mem_cons_of_mem _ hd))
    obtain ⟨cc, r, h1, h2⟩ := is_row t0 w hw n e0 e1 q hq hmono hget (used c.ts c.good b)
    have hr : row b (e0 :: e1 :: q) c = .ok r := by
      unfold row countRate
      dsimp only
      rw [used_eq c.ts c.good (hl c List.mem_cons_self), h1]
    refine ⟨r :: a, ?_, .cons h2 hf⟩
    rw [List.mapM_cons, hr, ha]
    rfl

theorem sum_rows (t0 w : K) (n k : Nat) (hk : k < n) (f : Chan K → List K) : ∀ (cs : List (Chan K)) (a : List (List K)), List.Forall₂ (fun (c : Chan K) r => IsRow (f c) t0 w n r) cs a →
    (a.map (fun l => l.getD k 0)).sum * w = (((cs.map (fun c => inBin (f c) t0 w n k)).sum : Nat) : K) := by
  intro cs a h
  induction h with
  | nil => simp
  | cons h1 _ ih =>
    rw [List.map_cons, List.sum_cons, add_mul, ih, h1.2.1 k hk, List.map_cons, List.sum_cons]
    push_cast
    rfl

theorem means (t0 w : K) (hw : 0 < w) (n : Nat) (hn : 0 < n) (f : Chan K → List K) : ∀ (cs : List (Chan K)) (a : List (List K)), List.Forall₂ (fun (c : Chan K) r => IsRow (f c) t0 w n r) cs a →
    (cs.map (·.num)).zip (a.map mean) = cs.map (fun c => (c.num, (inAll (f c) t0 w n : K) / ((n : K) * w))) := by
  intro cs a h
  have hn' : (n : K) ≠ 0 := by exact_mod_cast hn.ne'
  induction h with
  | nil => rfl
  | @cons c r cs a h1 _ ih =>
    rw [List.map_cons, List.map_cons, List.zip_cons_cons, ih, List.map_cons]
    congr 2
    unfold mean
    rw [h1.1, ← h1.2.2]
    field_simp

/-- the edges of the figure are the multiples of the width [specification] -/
theorem edges_ok (t0 z w : K) (hw : 0 < w) (e0 e1 : K) (q : List K) (h : arange t0 z w = .ok (e0 :: e1 :: q)) :
    (e0 :: e1 :: q).Pairwise (· ≤ ·) ∧ (∀ k, k < q.length + 1 + 1 → (e0 :: e1 :: q).getD k 0 = t0 + (k : K) * w) ∧ t0 + ((q.length + 1 : Nat) : K) * w < z ∧ z ≤ t0 + (((q.length + 1 : Nat) : K) + 1) * w := by
  obtain ⟨hlen, hmono, hget, hlt⟩ := arange_edges t0 z w hw _ h
  refine ⟨hmono, fun k hk => hget k (by simpa using hk), ?_, ?_⟩
  · have := hget (q.length + 1) (by simp)
    rw [← this]
    apply hlt
    rw [List.getD_eq_getElem _ _ (by simp)]
    exact List.getElem_mem _
  · have hceil : ⌈(z - t0) / w⌉ = ((q.length + 1 : Nat) : Int) + 1 := by
      simp only [List.length_cons] at hlen
      omega
    have h2 := (Int.ceil_eq_iff.1 hceil).2
    push_cast at h2
    rw [div_le_iff₀ hw] at h2
    push_cast
    linarith

/-! ### theorems -/

/-- C192: if there is a figure: it has n bins of the given width from the first pulse of the first channel on, n the number that fits before the latest pulse of that channel, with their centres on the
axis. Each channel has one row of rates for all its pulses and one for its good ones; a rate times the width is the number of these pulses in the bin. The rate of the array in a bin is, times the
width, the number of all pulses of all channels in it. The average of a channel is the number of its pulses in all bins over the time of all bins, shown at its channel number. -/
theorem figure (cs : List (Chan K)) (hl : ∀ c ∈ cs, c.good.length = c.ts.length) (w : K) (hw : 0 < w) (f : Fig K) (h : plotRate cs w = .ok f) :
    ∃ (c0 : Chan K) (t0 tm : K) (n : Nat), cs.head? = some c0 ∧ c0.ts.head? = some t0 ∧ tm ∈ c0.ts ∧ (∀ t ∈ c0.ts, t ≤ tm) ∧ 0 < n ∧ t0 + (n : K) * w < tm ∧ tm ≤ t0 + ((n : K) + 1) * w ∧
      f.centers = (List.range n).map (fun k : Nat => t0 + ((k : K) + 1 / 2) * w) ∧
      List.Forall₂ (fun (c : Chan K) r => IsRow c.ts t0 w n r) cs f.all ∧ List.Forall₂ (fun (c : Chan K) r => IsRow (used c.ts c.good true) t0 w n r) cs f.good ∧
      f.array.length = n ∧ (∀ k, k < n → f.array.getD k 0 * w = (((cs.map (fun c => inBin c.ts t0 w n k)).sum : Nat) : K)) ∧
      f.meanAll = cs.map (fun c => (c.num, (inAll c.ts t0 w n : K) / ((n : K) * w))) ∧
      f.meanGood = cs.map (fun c => (c.num, (inAll (used c.ts c.good true) t0 w n : K) / ((n : K) * w))) := by
  unfold plotRate at h
  cases cs with
  | nil => exact absurd h (by simp)
  | cons c0 cr =>
    dsimp only at h
    cases hts : c0.ts with
    | nil => rw [hts] at h; exact absurd h (by simp)
    | cons t0 r =>
      rw [hts] at h
      dsimp only at h
      cases he : arange t0 (r.foldl max t0) w with
      | error x => rw [he] at h; exact absurd h (by simp)
      | ok e =>
        rw [he] at h
        dsimp only at h
        match e, he, h with
        | [], _, h => exact absurd h (by simp)
        | [_], _, h => exact absurd h (by simp)
        | e0 :: e1 :: q, he, h =>
          obtain ⟨hmono, hget, h1, h2⟩ := edges_ok t0 _ w hw e0 e1 q he
          obtain ⟨a, ha, hfa⟩ := rows_ok t0 w hw (q.length + 1) e0 e1 q rfl hmono hget false (c0 :: cr) hl
          obtain ⟨g, hg, hfg⟩ := rows_ok t0 w hw (q.length + 1) e0 e1 q rfl hmono hget true (c0 :: cr) hl
          dsimp only at h
          rw [ha, hg] at h
          dsimp only at h
          injection h with h
          subst h
          have hfa' : List.Forall₂ (fun (c : Chan K) r => IsRow c.ts t0 w (q.length + 1) r) (c0 :: cr) a := by simpa [used] using hfa
          refine ⟨c0, t0, r.foldl max t0, q.length + 1, rfl, by rw [hts]; rfl, by rw [hts]; exact foldl_max_mem r t0, ?_, by omega, h1, h2, ?_, hfa', hfg, by simp, ?_, ?_, ?_⟩
          · intro t ht
            rw [hts] at ht
            rcases List.mem_cons.mp ht with rfl | ht
            · exact (foldl_max_ge r t).1
            · exact (foldl_max_ge r t0).2 t ht
          · apply List.ext_getElem
            · simp
            · intro k hk1 hk2
              have hk : k < q.length + 1 := by simpa using hk2
              have hg1 := hget k (by omega)
              rw [List.getD_eq_getElem _ _ (by simp; omega)] at hg1
              have he0 : e0 = t0 := by simpa using hget 0 (by omega)
              have he1 : e1 = t0 + w := by simpa using hget 1 (by omega)
              simp only [List.getElem_map, List.getElem_dropLast, List.getElem_range]
              rw [hg1, he0, he1]
              ring
          · intro k hk
            rw [List.getD_eq_getElem _ _ (by simpa using hk), List.getElem_map, List.getElem_range]
            exact sum_rows t0 w _ k hk (fun c => c.ts) _ _ hfa'
          · exact means t0 w hw _ (by omega) (fun c => c.ts) _ _ hfa'
          · exact means t0 w hw _ (by omega) (fun c => used c.ts c.good true) _ _ hfg

/-- C192: there is a figure exactly if there is a good channel and the first of them has pulses more than one width after its first one; otherwise an IndexError is raised and nothing is drawn. What
the other channels have does not matter. -/
theorem figure_iff_partial (cs : List (Chan K)) (hl : ∀ c ∈ cs, c.good.length = c.ts.length) (w : K) (hw : 0 < w) :
    ((∃ f, plotRate cs w = .ok f) ↔ ∃ c0 t0, cs.head? = some c0 ∧ c0.ts.head? = some t0 ∧ ∃ t ∈ c0.ts, t0 + w < t) ∧ ((∃ f, plotRate cs w = .ok f) ∨ plotRate cs w = .error .index) := by
  unfold plotRate
  cases cs with
  | nil => simp
  | cons c0 cr =>
    dsimp only
    cases hts : c0.ts with
    | nil => simp [hts]
    | cons t0 r =>
      dsimp only
      cases he : arange t0 (r.foldl max t0) w with
      | error x => unfold arange at he; rw [if_neg hw.ne'] at he; exact absurd he (by simp)
      | ok e =>
        have hnone : e.length < 2 → ¬ ∃ t ∈ c0.ts, t0 + w < t := by
          rintro hle ⟨t, ht, hlt⟩
          obtain ⟨hlen, _, _, _⟩ := arange_edges t0 _ w hw _ he
          have hce : ⌈(r.foldl max t0 - t0) / w⌉ ≤ 1 := by omega
          rw [Int.ceil_le, Int.cast_one, div_le_iff₀ hw] at hce
          have : t ≤ r.foldl max t0 := by
            rw [hts] at ht
            rcases List.mem_cons.mp ht with rfl | ht
            · exact (foldl_max_ge r t).1
            · exact (foldl_max_ge r t0).2 t ht
          linarith
        dsimp only
        match e, he, hnone with
        | [], _, hnone => simpa [hts] using hnone (by simp)
        | [_], _, hnone => simpa [hts] using hnone (by simp)
        | e0 :: e1 :: q, he, _ =>
          obtain ⟨hmono, hget, h1, h2⟩ := edges_ok t0 _ w hw e0 e1 q he
          obtain ⟨a, ha, hfa⟩ := rows_ok t0 w hw (q.length + 1) e0 e1 q rfl hmono hget false (c0 :: cr) hl
          obtain ⟨g, hg, hfg⟩ := rows_ok t0 w hw (q.length + 1) e0 e1 q rfl hmono hget true (c0 :: cr) hl
          dsimp only
          rw [ha, hg]
          dsimp only
          have hex : ∃ t ∈ c0.ts, t0 + w < t := by
            refine ⟨_, by rw [hts]; exact foldl_max_mem r t0, lt_of_le_of_lt ?_ h1⟩
            have h3 : (1 : K) ≤ ((q.length + 1 : Nat) : K) := by exact_mod_cast Nat.succ_le_succ (Nat.zero_le _)
            have := mul_le_mul_of_nonneg_right h3 hw.le
            linarith
          exact ⟨⟨fun _ => ⟨c0, t0, rfl, by rw [hts]; rfl, hex⟩, fun _ => ⟨_, rfl⟩⟩, Or.inl ⟨_, rfl⟩⟩

/-- C192: in the figure, the average rate of the good pulses of a channel is at most that of all its pulses, and neither is negative. -/
theorem good_below (cs : List (Chan K)) (hl : ∀ c ∈ cs, c.good.length = c.ts.length) (w : K) (hw : 0 < w) (f : Fig K) (h : plotRate cs w = .ok f) :
    f.meanAll.map Prod.fst = cs.map (·.num) ∧ List.Forall₂ (fun g a => g.1 = a.1 ∧ 0 ≤ g.2 ∧ g.2 ≤ a.2) f.meanGood f.meanAll := by
  obtain ⟨c0, t0, tm, n, _, _, _, _, hn, _, _, _, _, _, _, _, hA, hG⟩ := figure cs hl w hw f h
  rw [hA, hG]
  have hn' : (0 : K) < n := by exact_mod_cast hn
  refine ⟨by rw [List.map_map]; rfl, ?_⟩
  rw [List.forall₂_map_left_iff, List.forall₂_map_right_iff, List.forall₂_same]
  intro c hc
  refine ⟨rfl, by positivity, ?_⟩
  apply div_le_div_of_nonneg_right _ (by positivity)
  have hs : (used c.ts c.good true).Sublist c.ts := by
    unfold used
    rw [if_pos rfl]
    have h1 : (((c.ts.zip c.good).filter (·.2)).map Prod.fst).Sublist ((c.ts.zip c.good).map Prod.fst) := List.Sublist.map _ List.filter_sublist
    rw [List.map_fst_zip (by have := hl c hc; omega)] at h1
    exact h1
  exact_mod_cast hs.countP_le

/-- Disagreement (C192): the figure does not count all pulses. The latest pulse of the first channel is in no bin, so that the average rate of that channel over the time of the bins is always less
than all its pulses over that time. -/
theorem lost_fails (cs : List (Chan K)) (hl : ∀ c ∈ cs, c.good.length = c.ts.length) (w : K) (hw : 0 < w) (f : Fig K) (h : plotRate cs w = .ok f) :
    ∃ (c0 : Chan K) (n : Nat), cs.head? = some c0 ∧ 0 < n ∧ f.array.length = n ∧ ∃ m, f.meanAll.head? = some (c0.num, m) ∧ m * ((n : K) * w) < (c0.ts.length : K) := by
  obtain ⟨c0, t0, tm, n, hc0, _, htm, _, hn, hlt, _, _, _, _, hal, _, hA, _⟩ := figure cs hl w hw f h
  have hn' : (0 : K) < n := by exact_mod_cast hn
  refine ⟨c0, n, hc0, hn, hal, (inAll c0.ts t0 w n : K) / ((n : K) * w), by rw [hA, List.head?_map, hc0]; rfl, ?_⟩
  rw [div_mul_cancel₀ _ (by positivity)]
  have : inAll c0.ts t0 w n < c0.ts.length := by
    unfold inAll
    rw [List.countP_lt_length_iff]
    exact ⟨tm, htm, decide_eq_false (fun hc => absurd hc.2 (not_le.2 hlt))⟩
  exact_mod_cast this

/-- two channels; the second has pulses before the first pulse of the first and after its last -/
def two : List (Chan ℚ) := [⟨1, [10, 12, 21, 35], [true, false, true, true]⟩, ⟨3, [1, 2, 3, 15, 40, 41, 42], [true, true, true, true, true, true, true]⟩]

/-- Disagreement (C192): the bins are those of the first channel. Another channel's pulses before or after are not counted: of the seven pulses of the second channel of this example only one is. -/
theorem others_fails : (plotRate two 10).toOption.map (fun f => (f.array, f.meanAll)) = some ([3 / 10, 1 / 10], [(1, 3 / 20), (3, 1 / 20)]) := by decide +kernel

/-- Disagreement (C192): a first channel with a short run hides the others: there is an IndexError although the second channel has a long one. -/
theorem short_fails : (plotRate ([⟨1, [10, 12], [true, true]⟩, ⟨3, [1, 50, 100, 200], [true, true, true, true]⟩] : List (Chan ℚ)) 10).toOption.isNone = true ∧
    (plotRate ([⟨3, [1, 50, 100, 200], [true, true, true, true]⟩, ⟨1, [10, 12], [true, true]⟩] : List (Chan ℚ)) 10).toOption.isSome = true := by decide +kernel

/-! ### examples -/

example : (plotRate two 10).toOption.map (fun f => (f.centers, f.all, f.good, f.meanGood)) =
    some ([15, 25], [[2 / 10, 1 / 10], [1 / 10, 0]], [[1 / 10, 1 / 10], [1 / 10, 0]], [(1, 1 / 10), (3, 1 / 20)]) := by decide +kernel

end Mass.Algo.ArrayRate
