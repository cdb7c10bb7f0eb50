import Verif.Stat.Hist
import Mathlib.Algebra.Order.Ring.Abs
import Mathlib.Tactic.FieldSimp
import Mathlib.Tactic.Positivity
import Mathlib.Tactic.NormNum
/-! C184: figures and numbers that compare an aligned channel with its reference channel (mass/off/channels.py L958-1014, L1035-1060). Numbers are exact. -/
namespace Mass.Calc.Agree
open Mass Mass.Stat.Hist
set_option linter.unusedSectionVars false

variable {K : Type} [Field K] [LinearOrder K] [IsStrictOrderedRing K]

/-! ### model -/

/-- np.cumsum from a start (used for channels.py L1057-1058) -/
def cumsum : Nat → List Nat → List Nat
  | _, [] => []
  | s, x :: t => (s + x) :: cumsum (s + x) t

/-- channels.py L1057-1059 for the two lists of counts: the largest difference of the two normalized cumulative sums. None is NaN, from dividing by a sum of zero (numpy
warns and goes on, and np.amax of NaN is NaN); np.amax of nothing raises ValueError. -/
def ksOf (a b : List Nat) : Except Exc (Option ℚ) :=
  match List.zipWith (fun x y : Nat => |(x : ℚ) / (a.sum : ℚ) - (y : ℚ) / (b.sum : ℚ)|) (cumsum 0 a) (cumsum 0 b) with
  | [] => .error .value
  | d :: t => if a.sum = 0 ∨ b.sum = 0 then .ok none else .ok (some (t.foldl max d))

/-- the state of an aligner, channels.py L943-956: channel number of the reference, the bin edges, the bins of the peaks in both channels; `newattr` is the attribute of that
name, none if it was never set (`__init__` sets none of that name) -/
structure Aligner (K : Type) where
  refNum : Nat
  edges : List K
  indsA : List Int
  indsB : List Int
  newattr : Option String

/-- `__init__`, channels.py L943-956, given what was found for the peaks -/
def mk (refNum : Nat) (edges : List K) (indsA indsB : List Int) : Aligner K := ⟨refNum, edges, indsA, indsB, none⟩

/-- `_ksStatistic`, channels.py L1048-1060: `getA` and `getB` are the values of an attribute after the cut, of the two channels -/
def ksStatistic (al : Aligner K) (attr : String) (getA getB : String → Except Exc (List K)) : Except Exc (Option ℚ) := do
  let phA ← getA attr
  match al.newattr with
  | none => .error .attribute
  | some n => do
    let phB ← getB n
    let a ← histogram phA al.edges
    let b ← histogram phB al.edges
    ksOf a b

/-- `_laplaceEntropy`, channels.py L1035-1046, with the cross entropy as an arbitrary function of the values above the first edge and the width. The width is read from the edges before
the values if it is not given. -/
def laplaceEntropy {R : Type} (al : Aligner K) (attr : String) (w : Option K) (cross : List K → List K → K → R) (getA getB : String → Except Exc (List K)) : Except Exc R := do
  let w ← match w, al.edges with
    | some w, _ => Except.ok w
    | none, e0 :: e1 :: _ => .ok (e1 - e0)
    | none, _ => .error .index
  let phA ← getA attr
  match al.newattr with
  | none => .error .attribute
  | some n => do
    let phB ← getB n
    match al.edges with
    | [] => .error .index
    | e0 :: _ => .ok (cross (phA.filter (fun x => decide (e0 < x))) (phB.filter (fun x => decide (e0 < x))) w)

/-- `bin_centers`, channels.py L948 -/
def centers : List K → List K
  | a :: b :: l => 1 / 2 * (b + a) :: centers (b :: l)
  | _ => []

/-- `v[i]` of an array: a negative index counts from the end (used for channels.py L979-986) -/
def pyAt {α : Type} (v : List α) (i : Int) : Except Exc α :=
  let j : Int := if i < 0 then i + v.length else i
  if j < 0 then .error .index else match v[j.toNat]? with
    | some x => .ok x
    | none => .error .index

/-- one mark, channels.py L979-980, L984-985 -/
def mark (centers : List K) (counts : List Nat) (i : Int) : Except Exc (K × Nat) := do
  let x ← pyAt centers i
  let y ← pyAt counts i
  return (x, y)

/-- the figure: two curves and the marks on each -/
structure Fig (K : Type) where
  curveA : List (K × Nat)
  marksA : List (K × Nat)
  curveB : List (K × Nat)
  marksB : List (K × Nat)
deriving DecidableEq

/-- the common part of the two figures, channels.py L974-986, L1000-1011: `phA`, `phB` the values of both channels, `iB` the bins that are marked on the second curve.
Simplified: an error keeps nothing of the figure; labels and colours are left out. -/
def figure (edges : List K) (phA phB : List K) (iA iB : List Int) : Except Exc (Fig K) := do
  let a ← histogram phA edges
  let b ← histogram phB edges
  let ma ← iA.mapM (mark (centers edges) a)
  let mb ← iB.mapM (mark (centers edges) b)
  return ⟨(centers edges).zip a, ma, (centers edges).zip b, mb⟩

/-- `samePeaksPlot`, channels.py L967-991, given the values -/
def samePeaksPlot (al : Aligner K) (phA phB : List K) : Except Exc (Fig K) := figure al.edges phA phB al.indsA al.indsB

/-- the second channel: its values, and its recipe "arbsInRefChannelUnits", none if there is none (channels.py L726-727) -/
structure ChanB (K : Type) where
  vals : List K
  arbs : Option (K → K)

/-- the end of `alignToReferenceChannel`, channels.py L726-728: the recipe is put in or replaced -/
def aligned (c : ChanB K) (f : K → K) : ChanB K := { c with arbs := some f }

/-- `samePeaksPlotWithAlignmentCal`, channels.py L993-1014: the values of the second channel are taken by the name of the recipe (getAttr raises if there is none: KeyError);
the bins of the peaks of the reference are marked on both curves. The number is that of the reference in the label of the axis (L1012). -/
def samePeaksPlotCal (al : Aligner K) (phA : List K) (c : ChanB K) : Except Exc (Fig K × Nat) := do
  let phB ← match c.arbs with
    | none => Except.error Exc.key
    | some f => .ok (c.vals.map f)
  let f ← figure al.edges phA phB al.indsA al.indsA
  return (f, al.refNum)

/-! ### specification -/

/-- the values up to upper edge number k of the bins: from the first edge on and below edge k + 1, for the last edge also at it [specification] -/
def upTo (edges : List K) (k : Nat) (v : K) : Bool :=
  match edges.head?, edges[k + 1]? with
  | some a, some b => decide (a ≤ v ∧ (v < b ∨ k + 2 = edges.length ∧ v = b))
  | _, _ => false

/-- the values within the bins [specification] -/
def inRange (edges : List K) (v : K) : Bool := upTo edges (edges.length - 2) v

/-- the share of the values within the bins that are up to edge k [specification] -/
def share (edges : List K) (vals : List K) (k : Nat) : ℚ := (vals.countP (upTo edges k) : ℚ) / (vals.countP (inRange edges) : ℚ)

/-! ### lemmas -/

theorem cumsum_length (s : Nat) (l : List Nat) : (cumsum s l).length = l.length := by
  induction l generalizing s with
  | nil => rfl
  | cons x t ih => simp [cumsum, ih]

theorem cumsum_get (l : List Nat) (s k : Nat) (h : k < l.length) : (cumsum s l)[k]? = some (s + (l.take (k + 1)).sum) := by
  induction l generalizing s k with
  | nil => simp at h
  | cons x t ih =>
    cases k with
    | zero => simp [cumsum]
    | succ k =>
      simp only [cumsum, List.getElem?_cons_succ, List.take_succ_cons, List.sum_cons]
      rw [ih _ _ (by simpa using h)]
      simp [Nat.add_assoc]

/-- sums of differences of an increasing list -/
theorem take_diffs (l : List Nat) (hl : l.Pairwise (· ≤ ·)) (a : Nat) (ha : l.head? = some a) (k b : Nat) (hb : l[k]? = some b) :
    ((diffs l).take k).sum = b - a := by
  induction l generalizing a k b with
  | nil => simp at ha
  | cons x t ih =>
    simp only [List.head?_cons, Option.some.injEq] at ha
    subst ha
    cases k with
    | zero =>
      simp only [List.getElem?_cons_zero, Option.some.injEq] at hb
      simp [hb]
    | succ k =>
      cases t with
      | nil => simp at hb
      | cons y t =>
        simp only [List.getElem?_cons_succ] at hb
        have h1 := ih (List.pairwise_cons.1 hl).2 y rfl k b hb
        have hxy : x ≤ y := (List.pairwise_cons.1 hl).1 y (by simp)
        have hyb : y ≤ b := by
          have hm := List.mem_of_getElem? hb
          rcases List.mem_cons.1 hm with rfl | hm
          · exact le_rfl
          · exact (List.pairwise_cons.1 (List.pairwise_cons.1 hl).2).1 b hm
        simp only [diffs, List.take_succ_cons, List.sum_cons, h1]
        omega

theorem cum_get (vals : List K) (edges : List K) (k : Nat) (e : K) (h : edges[k]? = some e) :
    (cum vals edges)[k]? = some (vals.countP (fun v => decide (v < e ∨ k + 1 = edges.length ∧ v = e))) := by
  induction edges generalizing k with
  | nil => simp at h
  | cons x t ih =>
    cases t with
    | nil =>
      cases k with
      | zero =>
        simp only [List.getElem?_cons_zero, Option.some.injEq] at h
        subst h
        simp [cum, le_iff_lt_or_eq]
      | succ k => simp at h
    | cons y t =>
      cases k with
      | zero =>
        simp only [List.getElem?_cons_zero, Option.some.injEq] at h
        subst h
        simp [cum]
      | succ k =>
        simp only [List.getElem?_cons_succ] at h
        have := ih k h
        simp only [cum, List.getElem?_cons_succ, List.length_cons] at this ⊢
        rw [this]
        simp

theorem monotone_pairwise {l : List K} (h : monotone l = true) : l.Pairwise (· ≤ ·) := by
  induction l with
  | nil => exact List.Pairwise.nil
  | cons a l ih =>
    have := monotone_tail h
    exact List.pairwise_cons.2 ⟨this.2, ih this.1⟩

theorem cum_pairwise (vals : List K) {edges : List K} (h : monotone edges = true) : (cum vals edges).Pairwise (· ≤ ·) := by
  rw [List.pairwise_iff_getElem]
  intro i j hi hj hij
  rw [cum_length] at hi hj
  have hp := List.pairwise_iff_getElem.1 (monotone_pairwise h) i j hi hj hij
  have e1 := cum_get vals edges i edges[i] (List.getElem?_eq_getElem hi)
  have e2 := cum_get vals edges j edges[j] (List.getElem?_eq_getElem hj)
  rw [List.getElem?_eq_getElem (by rw [cum_length]; exact hi), Option.some.injEq] at e1
  rw [List.getElem?_eq_getElem (by rw [cum_length]; exact hj), Option.some.injEq] at e2
  rw [e1, e2]
  refine List.countP_mono_left ?_
  intro v _ hv
  simp only [decide_eq_true_eq] at hv ⊢
  rcases hv with hv | ⟨hv, _⟩
  · exact Or.inl (hv.trans_le hp)
  · omega

/-- cumulative sums of a histogram count the values up to an edge -/
theorem cumsum_hist (vals : List K) {edges : List K} (h : monotone edges = true) (k : Nat) (hk : k + 1 < edges.length) :
    (cumsum 0 (diffs (cum vals edges)))[k]? = some (vals.countP (upTo edges k)) ∧ ((diffs (cum vals edges)).take (k + 1)).sum = vals.countP (upTo edges k) := by
  obtain ⟨e0, t, rfl⟩ : ∃ e0 t, edges = e0 :: t := by
    cases edges with
    | nil => simp at hk
    | cons a t => exact ⟨a, t, rfl⟩
  have hb : (e0 :: t)[k + 1]? = some (e0 :: t)[k + 1] := List.getElem?_eq_getElem hk
  have h0 := cum_get vals (e0 :: t) 0 e0 rfl
  have h1 := cum_get vals (e0 :: t) (k + 1) _ hb
  have hlast : ¬ 0 + 1 = (e0 :: t).length := by omega
  simp only [hlast, false_and, or_false] at h0
  have hh : (cum vals (e0 :: t)).head? = some (vals.countP (fun v => decide (v < e0))) := by rw [List.head?_eq_getElem?]; exact h0
  have hd := take_diffs _ (cum_pairwise vals h) _ hh (k + 1) _ h1
  have hle : e0 ≤ (e0 :: t)[k + 1] := (monotone_tail h).2 _ (by simp)
  rw [countP_sub _ _ _ (by
    intro v hv
    simp only [decide_eq_true_eq] at hv ⊢
    exact Or.inl (hv.trans_le hle))] at hd
  have e : (fun x => decide (x < (e0 :: t)[k + 1] ∨ k + 1 + 1 = (e0 :: t).length ∧ x = (e0 :: t)[k + 1]) && !decide (x < e0)) = upTo (e0 :: t) k := by
    funext v
    unfold upTo
    rw [hb]
    simp only [List.head?_cons]
    rw [Bool.eq_iff_iff]
    simp only [Bool.and_eq_true, decide_eq_true_eq, Bool.not_eq_true', decide_eq_false_iff_not, not_lt]
    constructor
    · rintro ⟨h1, h2⟩; exact ⟨h2, h1⟩
    · rintro ⟨h1, h2⟩; exact ⟨h2, h1⟩
  rw [e] at hd
  refine ⟨?_, hd⟩
  rw [cumsum_get _ _ _ (by rw [diffs_length, cum_length]; omega), hd, Nat.zero_add]

/-- all bins together count the values within the bins -/
theorem sum_hist (vals : List K) {edges : List K} (h : monotone edges = true) (hk : 2 ≤ edges.length) : (diffs (cum vals edges)).sum = vals.countP (inRange edges) := by
  have := (cumsum_hist vals h (edges.length - 2) (by omega)).2
  rw [List.take_of_length_le (by rw [diffs_length, cum_length]; omega)] at this
  exact this

theorem foldl_max_le (t : List ℚ) : ∀ (d : ℚ), (∀ x ∈ d :: t, x ≤ t.foldl max d) ∧ t.foldl max d ∈ d :: t := by
  induction t with
  | nil => intro d; simp
  | cons y t ih =>
    intro d
    have := ih (max d y)
    simp only [List.foldl_cons]
    refine ⟨?_, ?_⟩
    · intro x hx
      have hm := this.1 (max d y) (by simp)
      rcases List.mem_cons.1 hx with rfl | hx
      · exact (le_max_left _ _).trans hm
      · rcases List.mem_cons.1 hx with rfl | hx
        · exact (le_max_right _ _).trans hm
        · exact this.1 x (by simp [hx])
    · rcases List.mem_cons.1 this.2 with h | h
      · rw [h]
        rcases max_choice d y with e | e <;> rw [e] <;> simp
      · simp [h]

theorem share_range (edges vals : List K) (k : Nat) (h : monotone edges = true) (hk : k + 1 < edges.length) : 0 ≤ share edges vals k ∧ share edges vals k ≤ 1 := by
  refine ⟨by unfold share; positivity, ?_⟩
  unfold share
  refine div_le_one_of_le₀ ?_ (by positivity)
  exact_mod_cast List.countP_mono_left (by
    intro v _ hv
    unfold inRange
    unfold upTo at hv ⊢
    have e1 : edges[k + 1]? = some edges[k + 1] := List.getElem?_eq_getElem hk
    have hl : edges.length - 2 + 1 < edges.length := by omega
    have e2 : edges[edges.length - 2 + 1]? = some edges[edges.length - 2 + 1] := List.getElem?_eq_getElem hl
    rw [e1] at hv
    rw [e2]
    cases hh : edges.head? with
    | none => rw [hh] at hv; simp at hv
    | some a =>
      rw [hh] at hv
      simp only [decide_eq_true_eq] at hv ⊢
      refine ⟨hv.1, ?_⟩
      by_cases hj : k = edges.length - 2
      · subst hj; exact hv.2
      · have hle : edges[k + 1] ≤ edges[edges.length - 2 + 1] := List.pairwise_iff_getElem.1 (monotone_pairwise h) _ _ hk hl (by omega)
        rcases hv.2 with hv | ⟨hv, _⟩
        · exact Or.inl (hv.trans_le hle)
        · omega)

/-- the differences that are compared -/
theorem diffs_spec {edges phA phB : List K} (h : monotone edges = true) (hl : 2 ≤ edges.length) :
    List.zipWith (fun x y : Nat => |(x : ℚ) / ((diffs (cum phA edges)).sum : ℚ) - (y : ℚ) / ((diffs (cum phB edges)).sum : ℚ)|)
      (cumsum 0 (diffs (cum phA edges))) (cumsum 0 (diffs (cum phB edges)))
    = (List.range (edges.length - 1)).map (fun k => |share edges phA k - share edges phB k|) := by
  refine List.ext_getElem? fun k => ?_
  rw [List.getElem?_zipWith, List.getElem?_map]
  by_cases hk : k + 1 < edges.length
  · rw [(cumsum_hist phA h k hk).1, (cumsum_hist phB h k hk).1, sum_hist phA h hl, sum_hist phB h hl, List.getElem?_range (by omega)]
    rfl
  · rw [List.getElem?_eq_none (by rw [cumsum_length, diffs_length, cum_length]; omega), List.getElem?_eq_none (l := List.range _) (by simp; omega)]
    rfl

/-! ### theorems -/

/-- C184. What the statistic is: with increasing edges (two or more), and values of both channels within the bins, the result is the largest difference, over all bins, of the shares of the
two channels up to the upper edge of the bin. It lies between 0 and 1. -/
theorem ks_spec {edges phA phB : List K} (h : monotone edges = true) (hl : 2 ≤ edges.length) (hA : ∃ v ∈ phA, inRange edges v = true) (hB : ∃ v ∈ phB, inRange edges v = true) :
    ∃ a b D, histogram phA edges = .ok a ∧ histogram phB edges = .ok b ∧ ksOf a b = .ok (some D) ∧ 0 ≤ D ∧ D ≤ 1 ∧
      (∀ k, k + 1 < edges.length → |share edges phA k - share edges phB k| ≤ D) ∧ (∃ k, k + 1 < edges.length ∧ |share edges phA k - share edges phB k| = D) := by
  have hs := diffs_spec (phA := phA) (phB := phB) h hl
  have hne : ¬ ((diffs (cum phA edges)).sum = 0 ∨ (diffs (cum phB edges)).sum = 0) := by
    rw [sum_hist phA h hl, sum_hist phB h hl]
    rintro (e | e)
    · obtain ⟨v, hv, hr⟩ := hA
      exact absurd (List.countP_pos_iff.2 ⟨v, hv, hr⟩) (by omega)
    · obtain ⟨v, hv, hr⟩ := hB
      exact absurd (List.countP_pos_iff.2 ⟨v, hv, hr⟩) (by omega)
  obtain ⟨d, t, e⟩ : ∃ d t, (List.range (edges.length - 1)).map (fun k => |share edges phA k - share edges phB k|) = d :: t := by
    cases hc : (List.range (edges.length - 1)).map (fun k => |share edges phA k - share edges phB k|) with
    | nil =>
      have := congrArg List.length hc
      simp at this
      omega
    | cons d t => exact ⟨d, t, rfl⟩
  have hm := foldl_max_le t d
  rw [← e] at hm
  have hat : ∃ k, k + 1 < edges.length ∧ |share edges phA k - share edges phB k| = t.foldl max d := by
    obtain ⟨k, hk, hk2⟩ := List.mem_map.1 hm.2
    exact ⟨k, by have := List.mem_range.1 hk; omega, hk2⟩
  refine ⟨_, _, t.foldl max d, by unfold histogram; rw [if_neg (by simp [h])], by unfold histogram; rw [if_neg (by simp [h])], ?_, ?_, ?_, ?_, hat⟩
  · unfold ksOf
    rw [hs, e]
    simp only [if_neg hne]
  · obtain ⟨k, _, e⟩ := hat
    rw [← e]; exact abs_nonneg _
  · obtain ⟨k, hk, e⟩ := hat
    rw [← e, abs_le]
    have h1 := share_range edges phA k h hk
    have h2 := share_range edges phB k h hk
    constructor <;> linarith [h1.1, h1.2, h2.1, h2.2]
  · intro k hk
    exact hm.1 _ (List.mem_map.2 ⟨k, List.mem_range.2 (by omega), rfl⟩)

/-- C184. Without values of one channel within the bins the result is NaN. -/
theorem ks_nan {edges phA phB : List K} (h : monotone edges = true) (hl : 2 ≤ edges.length) (hE : (∀ v ∈ phA, inRange edges v = false) ∨ (∀ v ∈ phB, inRange edges v = false)) :
    ∃ a b, histogram phA edges = .ok a ∧ histogram phB edges = .ok b ∧ ksOf a b = .ok none := by
  refine ⟨_, _, by unfold histogram; rw [if_neg (by simp [h])], by unfold histogram; rw [if_neg (by simp [h])], ?_⟩
  have hz : (diffs (cum phA edges)).sum = 0 ∨ (diffs (cum phB edges)).sum = 0 := by
    rw [sum_hist phA h hl, sum_hist phB h hl]
    rcases hE with e | e
    · exact Or.inl (List.countP_eq_zero.2 (fun v hv => by simp [e v hv]))
    · exact Or.inr (List.countP_eq_zero.2 (fun v hv => by simp [e v hv]))
  unfold ksOf
  rw [diffs_spec h hl]
  cases hc : (List.range (edges.length - 1)).map (fun k => |share edges phA k - share edges phB k|) with
  | nil =>
    have := congrArg List.length hc
    simp at this
    omega
  | cons d t => simp only [if_pos hz]

/-- C184. The statistic does not depend on which channel is the reference. -/
theorem ks_symm (a b : List Nat) : ksOf a b = ksOf b a := by
  unfold ksOf
  rw [List.zipWith_comm]
  have : (fun (b_1 a_1 : Nat) => |(a_1 : ℚ) / (a.sum : ℚ) - (b_1 : ℚ) / (b.sum : ℚ)|) = fun x y : Nat => |(x : ℚ) / (b.sum : ℚ) - (y : ℚ) / (a.sum : ℚ)| := by
    funext x y; exact abs_sub_comm _ _
  rw [this]
  simp only [or_comm]

/-- C184. Nor does it depend on the order of the pulses. -/
theorem hist_perm {vals vals' : List K} (hp : vals.Perm vals') (edges : List K) : histogram vals edges = histogram vals' edges := by
  have : cum vals edges = cum vals' edges := by
    fun_induction cum vals edges with
    | case1 => rfl
    | case2 e => simp [cum, hp.countP_eq]
    | case3 e es h ih =>
      rw [cum.eq_3 _ _ _ h, ih, hp.countP_eq]
  unfold histogram
  rw [this]

/-- C184. It is 0 exactly if the two channels have the same share of their values in every bin, 1 only if some edge separates all values of one channel from all of the other. -/
theorem ks_extreme {edges phA phB : List K} (h : monotone edges = true) (hl : 2 ≤ edges.length) {a b : List Nat} {D : ℚ} (ha : histogram phA edges = .ok a)
    (hb : histogram phB edges = .ok b) (hD : ksOf a b = .ok (some D)) :
    (D = 0 ↔ ∀ k, k + 1 < edges.length → share edges phA k = share edges phB k) ∧
    (D = 1 ↔ ∃ k, k + 1 < edges.length ∧ (share edges phA k = 0 ∧ share edges phB k = 1 ∨ share edges phA k = 1 ∧ share edges phB k = 0)) := by
  have hA : ∃ v ∈ phA, inRange edges v = true := by
    by_contra hc
    obtain ⟨a', b', e1, e2, e3⟩ := ks_nan (phA := phA) (phB := phB) h hl (Or.inl (fun v hv => by
      by_contra hn
      exact hc ⟨v, hv, by simpa using hn⟩))
    rw [ha] at e1; rw [hb] at e2
    cases e1; cases e2
    rw [hD] at e3
    cases e3
  have hB : ∃ v ∈ phB, inRange edges v = true := by
    by_contra hc
    obtain ⟨a', b', e1, e2, e3⟩ := ks_nan (phA := phA) (phB := phB) h hl (Or.inr (fun v hv => by
      by_contra hn
      exact hc ⟨v, hv, by simpa using hn⟩))
    rw [ha] at e1; rw [hb] at e2
    cases e1; cases e2
    rw [hD] at e3
    cases e3
  obtain ⟨a', b', D', e1, e2, e3, h0, h1, hall, k0, hk0, hk⟩ := ks_spec h hl hA hB
  rw [ha] at e1; rw [hb] at e2
  cases e1; cases e2
  rw [hD] at e3
  cases e3
  refine ⟨⟨?_, ?_⟩, ⟨?_, ?_⟩⟩
  · intro e k hk
    have := hall k hk
    rw [e] at this
    exact sub_eq_zero.1 (abs_eq_zero.1 (le_antisymm this (abs_nonneg _)))
  · intro hh
    rw [← hk, hh k0 hk0, sub_self, abs_zero]
  · intro e
    refine ⟨k0, hk0, ?_⟩
    rw [e] at hk
    have r1 := share_range edges phA k0 h hk0
    have r2 := share_range edges phB k0 h hk0
    rcases abs_choice (share edges phA k0 - share edges phB k0) with c | c
    · rw [c] at hk
      exact Or.inr ⟨by linarith [r1.1, r1.2, r2.1, r2.2], by linarith [r1.1, r1.2, r2.1, r2.2]⟩
    · rw [c] at hk
      exact Or.inl ⟨by linarith [r1.1, r1.2, r2.1, r2.2], by linarith [r1.1, r1.2, r2.1, r2.2]⟩
  · rintro ⟨k, hk, hc⟩
    have := hall k hk
    rcases hc with ⟨c1, c2⟩ | ⟨c1, c2⟩
    · rw [c1, c2] at this
      norm_num at this
      linarith
    · rw [c1, c2] at this
      norm_num at this
      linarith

/-- Disagreement (C184): the two numbers are never given. Both methods read an attribute of the aligner that nothing sets, so for every aligner that was made, whatever its peaks and bins, and whatever
the channels hold, `_ksStatistic` and `_laplaceEntropy` end with an error; with readable values and two edges it is AttributeError. -/
theorem statistics_fails (refNum : Nat) (edges : List K) (indsA indsB : List Int) (attr : String) (w : Option K) {R : Type} (cross : List K → List K → K → R)
    (getA getB : String → Except Exc (List K)) :
    (∀ r, ksStatistic (mk refNum edges indsA indsB) attr getA getB ≠ .ok r) ∧ (∀ r, laplaceEntropy (mk refNum edges indsA indsB) attr w cross getA getB ≠ .ok r) ∧
    (∀ v, getA attr = .ok v → 2 ≤ edges.length → ksStatistic (mk refNum edges indsA indsB) attr getA getB = .error .attribute ∧
      laplaceEntropy (mk refNum edges indsA indsB) attr w cross getA getB = .error .attribute) := by
  refine ⟨?_, ?_, ?_⟩
  · intro r
    unfold ksStatistic mk
    cases getA attr <;> simp [bind, Except.bind]
  · intro r
    unfold laplaceEntropy mk
    cases w with
    | some w => cases getA attr <;> simp [bind, Except.bind]
    | none =>
      rcases edges with _ | ⟨e0, _ | ⟨e1, t⟩⟩ <;> cases getA attr <;> simp [bind, Except.bind]
  · intro v hv he
    refine ⟨by unfold ksStatistic mk; rw [hv]; rfl, ?_⟩
    unfold laplaceEntropy mk
    rcases edges with _ | ⟨e0, _ | ⟨e1, t⟩⟩
    · simp at he
    · simp at he
    · cases w <;> simp [bind, Except.bind, hv]

theorem centers_length (e : List K) : (centers e).length = e.length - 1 := by
  fun_induction centers e with
  | case1 a b l ih => simp [ih]
  | case2 l h =>
    match l, h with
    | [], _ => rfl
    | [_], _ => rfl
    | a :: b :: t, h => exact absurd rfl (h a b t)

theorem at_nat {α : Type} (v : List α) (i : Nat) (h : i < v.length) : pyAt v (i : Int) = .ok v[i] := by
  unfold pyAt
  have : ¬ (i : Int) < 0 := by omega
  simp only [this, if_false, Int.toNat_natCast, List.getElem?_eq_getElem h]

theorem mapM_mark (edges : List K) (counts : List Nat) (hc : counts.length = edges.length - 1) : ∀ (l : List Nat), (∀ i ∈ l, i + 1 < edges.length) →
    (l.map (fun i : Nat => (i : Int))).mapM (mark (centers edges) counts) = .ok (l.filterMap (fun i => ((centers edges).zip counts)[i]?)) := by
  intro l
  induction l with
  | nil => intro _; rfl
  | cons i l ih =>
    intro h
    have hi := h i (by simp)
    have h1 : i < (centers edges).length := by rw [centers_length]; omega
    have h2 : i < counts.length := by omega
    have e : ((centers edges).zip counts)[i]? = some ((centers edges)[i], counts[i]) := by
      rw [List.getElem?_eq_getElem (by simp; omega), List.getElem_zip]
    rw [List.map_cons, List.mapM_cons, ih (fun j hj => h j (by simp [hj])), List.filterMap_cons, e]
    unfold mark
    rw [at_nat _ _ h1, at_nat _ _ h2]
    rfl

/-- C184. The figures show both histograms over the centers of the bins, and for bins of peaks within the range the marks are points of the curves: one for each peak, in order. -/
theorem figure_spec {edges : List K} (h : monotone edges = true) (phA phB : List K) (iA iB : List Nat) (hA : ∀ i ∈ iA, i + 1 < edges.length) (hB : ∀ i ∈ iB, i + 1 < edges.length) :
    ∃ a b, histogram phA edges = .ok a ∧ histogram phB edges = .ok b ∧ a.length = edges.length - 1 ∧ b.length = edges.length - 1 ∧
      figure edges phA phB (iA.map (fun i : Nat => (i : Int))) (iB.map (fun i : Nat => (i : Int))) = .ok ⟨(centers edges).zip a, iA.filterMap (fun i => ((centers edges).zip a)[i]?),
        (centers edges).zip b, iB.filterMap (fun i => ((centers edges).zip b)[i]?)⟩ ∧
      (iA.filterMap (fun i => ((centers edges).zip a)[i]?)).length = iA.length ∧ (iB.filterMap (fun i => ((centers edges).zip b)[i]?)).length = iB.length := by
  have ha : histogram phA edges = .ok (diffs (cum phA edges)) := by unfold histogram; rw [if_neg (by simp [h])]
  have hb : histogram phB edges = .ok (diffs (cum phB edges)) := by unfold histogram; rw [if_neg (by simp [h])]
  have la : (diffs (cum phA edges)).length = edges.length - 1 := by rw [diffs_length, cum_length]
  have lb : (diffs (cum phB edges)).length = edges.length - 1 := by rw [diffs_length, cum_length]
  have hlen : ∀ (c : List Nat), c.length = edges.length - 1 → ∀ l : List Nat, (∀ i ∈ l, i + 1 < edges.length) → (l.filterMap (fun i => ((centers edges).zip c)[i]?)).length = l.length := by
    intro c hc l
    induction l with
    | nil => intro _; rfl
    | cons i l ih =>
      intro hl
      have hi := hl i (by simp)
      rw [List.filterMap_cons, List.getElem?_eq_getElem (by simp [centers_length]; omega)]
      simp only [List.length_cons]
      rw [ih (fun j hj => hl j (by simp [hj]))]
  refine ⟨_, _, ha, hb, la, lb, ?_, hlen _ la iA hA, hlen _ lb iB hB⟩
  unfold figure
  rw [ha, hb]
  simp only [bind, Except.bind]
  rw [mapM_mark edges _ la iA hA]
  simp only
  rw [mapM_mark edges _ lb iB hB]
  rfl

/-- C184. Right after an alignment the second figure shows the second channel in the units of that reference, and the marks of the reference on both curves. -/
theorem cal_figure (al : Aligner K) (phA : List K) (c : ChanB K) (f : K → K) :
    samePeaksPlotCal al phA (aligned c f) = (figure al.edges phA (c.vals.map f) al.indsA al.indsA).map (fun g => (g, al.refNum)) := by
  unfold samePeaksPlotCal aligned
  simp only [bind, Except.bind]
  cases figure al.edges phA (c.vals.map f) al.indsA al.indsA <;> rfl

/-- C184. Without an alignment by the channel itself (an aligner made by hand) the second figure is refused. -/
theorem cal_figure_missing (al : Aligner K) (phA vals : List K) : samePeaksPlotCal al phA ⟨vals, none⟩ = .error .key := rfl

/-- Disagreement (C184): after a second alignment the second figure of the first aligner, which can still be asked for, names its own reference channel on the axis, but shows the values in units of the
other reference. Here all pulses fall into the marked bin by the first alignment, and out of it by the second. -/
theorem stale_fails : let c : ChanB ℚ := ⟨[5, 5], none⟩
    let al : Aligner ℚ := mk 1 [0, 10, 20] [1] [0]
    ((samePeaksPlotCal al [15] (aligned c (fun x => 3 * x))).map (fun r => (r.1.curveB, r.2)) = .ok ([(5, 0), (15, 2)], 1)) ∧
    ((samePeaksPlotCal al [15] (aligned (aligned c (fun x => 3 * x)) (fun x => x))).map (fun r => (r.1.curveB, r.2)) = .ok ([(5, 2), (15, 0)], 1)) := by
  decide +kernel

/-- Disagreement (C184): a peak that was found one bin below the first (see C115) is marked at the last bin. -/
theorem mark_below_fails : (samePeaksPlot (mk 1 [0, 10, 20, 30] [1] [-1] : Aligner ℚ) [15] [2, 25, 25]).map (fun g => g.marksB) = .ok [(25, 2)] := by
  decide +kernel

/-! ### examples -/

/-- Three bins; the second channel has its pulses one bin higher, and one pulse out of range. -/
example : (histogram ([1, 2, 11] : List ℚ) [0, 10, 20, 30], histogram ([12, 15, 21, 99] : List ℚ) [0, 10, 20, 30]) = (.ok [2, 1, 0], .ok [0, 2, 1]) ∧
    ksOf [2, 1, 0] [0, 2, 1] = .ok (some (2 / 3)) := by decide +kernel

example : ksOf [2, 1, 0] [4, 2, 0] = .ok (some 0) ∧ ksOf [2, 0, 0] [0, 1, 1] = .ok (some 1) ∧ ksOf [0, 0] [1, 1] = .ok none := by decide +kernel

example : ∃ a b D, histogram ([1, 2, 11] : List ℚ) [0, 10, 20, 30] = .ok a ∧ histogram ([12, 15, 21, 99] : List ℚ) [0, 10, 20, 30] = .ok b ∧ ksOf a b = .ok (some D) ∧ 0 ≤ D ∧ D ≤ 1 := by
  obtain ⟨a, b, D, h1, h2, h3, h4, h5, _⟩ := ks_spec (edges := ([0, 10, 20, 30] : List ℚ)) (phA := [1, 2, 11]) (phB := [12, 15, 21, 99]) (by decide +kernel) (by decide)
    ⟨1, by decide +kernel, by decide +kernel⟩ ⟨12, by decide +kernel, by decide +kernel⟩
  exact ⟨a, b, D, h1, h2, h3, h4, h5⟩

example : samePeaksPlot (mk 1 [0, 10, 20, 30] [1] [2] : Aligner ℚ) [15, 16] [2, 25, 25] = .ok ⟨[(5, 0), (15, 2), (25, 0)], [(15, 2)], [(5, 1), (15, 0), (25, 2)], [(25, 2)]⟩ := by
  decide +kernel

end Mass.Calc.Agree
