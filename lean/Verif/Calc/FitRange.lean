import Verif.Py
import Mathlib.Algebra.Order.Field.Basic
import Mathlib.Algebra.Order.Field.Rat
import Mathlib.Data.List.Sort
import Mathlib.Data.List.Dedup
import Mathlib.Tactic.Linarith
import Mathlib.Tactic.Ring
import Mathlib.Tactic.FieldSimp
import Mathlib.Tactic.NormNum
/-! Fit ranges and assignment of peaks to lines, mass/calibration/algorithms.py: C45, C68. Exact arithmetic in an ordered field; NaN and infinite energies are not modelled. -/
namespace Mass.Calc.Fit
open Mass

variable {K : Type} [Field K] [LinearOrder K] [IsStrictOrderedRing K]

/-- a line given by name or by energy, algorithms.py L23-27 -/
inductive Line (K : Type) where
  | name (s : String)
  | energy (e : K)

/-- STANDARD_FEATURES.get(x, x), algorithms.py L30. Simplified: an unknown name, which the code carries along as a string and fails on later, is a TypeError at once. -/
def energyOf (feat : String → Option K) : Line K → Except Exc K
  | .name s => match feat s with
    | some e => .ok e
    | none => .error .type
  | .energy e => .ok e

/-- all energies, or the first error (used for algorithms.py L23-34) -/
def energiesOf (feat : String → Option K) : List (Line K) → Except Exc (List K)
  | [] => .ok []
  | l :: ls => match energyOf feat l with
    | .error x => .error x
    | .ok e => match energiesOf feat ls with
      | .error x => .error x
      | .ok es => .ok (e :: es)

/-- the energies of `line_names_and_energies`, algorithms.py L23-34, in increasing order (the names are left out) -/
def lineEnergies (feat : String → Option K) (ls : List (Line K)) : Except Exc (List K) :=
  match energiesOf feat ls with
  | .error x => .error x
  | .ok es => .ok (es.insertionSort (· ≤ ·))

/-- one turn of the loop of `build_fit_ranges`, algorithms.py L147-158; no line below (above) stands for minus (plus) infinity -/
def fitRange (all : List K) (width e : K) : K × K :=
  (match (all.filter (fun a => decide (a < e))).getLast? with
    | none => e - width / 2
    | some b => max (e - width / 2) ((e + b) / 2),
   match (all.filter (fun a => decide (e < a))).head? with
    | none => e + width / 2
    | some a => min (e + width / 2) ((e + a) / 2))

/-- `build_fit_ranges`, algorithms.py L128-162: energies and ranges. The slopes, passed through from the calibration, are left out. -/
def buildFitRanges (feat : String → Option K) (lines excl : List (Line K)) (width : K) : Except Exc (List K × List (K × K)) :=
  match lineEnergies feat lines with
  | .error x => .error x
  | .ok es => match lineEnergies feat excl with
    | .error x => .error x
    | .ok xs =>
      let all := (es ++ xs).insertionSort (· ≤ ·)
      if all.length = all.dedup.length then .ok (es, es.map (fitRange all width)) else .error .assertion

/-- `build_fit_ranges_ph`, algorithms.py L114-125, the ranges; `e2ph` is the approximate calibration's energy2ph -/
def buildFitRangesPh (feat : String → Option K) (e2ph : K → K) (lines excl : List (Line K)) (width : K) : Except Exc (List K × List (K × K)) :=
  match buildFitRanges feat lines excl width with
  | .error x => .error x
  | .ok (es, rs) => .ok (es, rs.map (fun r => (e2ph r.1, e2ph r.2)))

/-! ### C45 -/

omit [Field K] [IsStrictOrderedRing K] in
theorem nodup_of_dedup {l : List K} (h : l.dedup = l) : l.Nodup := h ▸ List.nodup_dedup l

theorem below_spec {all : List K} (hs : all.Pairwise (· ≤ ·)) (e : K) :
    match (all.filter (fun a => decide (a < e))).getLast? with
    | none => ∀ a ∈ all, ¬ a < e
    | some b => b ∈ all ∧ b < e ∧ ∀ a ∈ all, a < e → a ≤ b := by
  generalize hf : all.filter (fun a => decide (a < e)) = f
  have hmem : ∀ a, a ∈ f ↔ a ∈ all ∧ a < e := by intro a; rw [← hf]; simp
  have hsf : f.Pairwise (· ≤ ·) := by rw [← hf]; exact hs.filter _
  cases h : f.getLast? with
  | none =>
    have := List.getLast?_eq_none_iff.1 h
    intro a ha hlt
    have := (hmem a).2 ⟨ha, hlt⟩
    simp_all
  | some b =>
    dsimp only
    obtain ⟨ys, rfl⟩ := List.getLast?_eq_some_iff.1 h
    have hb := (hmem b).1 (by simp)
    refine ⟨hb.1, hb.2, fun a ha hlt => ?_⟩
    rcases List.mem_append.1 ((hmem a).2 ⟨ha, hlt⟩) with h1 | h1
    · exact (List.pairwise_append.1 hsf).2.2 a h1 b (by simp)
    · rw [List.mem_singleton.1 h1]

theorem above_spec {all : List K} (hs : all.Pairwise (· ≤ ·)) (e : K) :
    match (all.filter (fun a => decide (e < a))).head? with
    | none => ∀ a ∈ all, ¬ e < a
    | some b => b ∈ all ∧ e < b ∧ ∀ a ∈ all, e < a → b ≤ a := by
  generalize hf : all.filter (fun a => decide (e < a)) = f
  have hmem : ∀ a, a ∈ f ↔ a ∈ all ∧ e < a := by intro a; rw [← hf]; simp
  have hsf : f.Pairwise (· ≤ ·) := by rw [← hf]; exact hs.filter _
  cases f with
  | nil =>
    intro a ha hlt
    have := (hmem a).2 ⟨ha, hlt⟩
    simp at this
  | cons b f =>
    have hb := (hmem b).1 (by simp)
    refine ⟨hb.1, hb.2, fun a ha hlt => ?_⟩
    rcases List.mem_cons.1 ((hmem a).2 ⟨ha, hlt⟩) with h1 | h1
    · rw [h1]
    · exact (List.pairwise_cons.1 hsf).1 a h1

theorem fitRange_lo {all : List K} (hs : all.Pairwise (· ≤ ·)) (w e : K) :
    e - w / 2 ≤ (fitRange all w e).1 ∧ (0 ≤ w → (fitRange all w e).1 ≤ e) ∧ (0 < w → (fitRange all w e).1 < e) ∧ (∀ a ∈ all, a < e → (e + a) / 2 ≤ (fitRange all w e).1) ∧
    ((∀ a ∈ all, a < e → a ≤ e - w) → (fitRange all w e).1 = e - w / 2) := by
  have h := below_spec hs e
  unfold fitRange
  dsimp only
  cases hb : (all.filter (fun a => decide (a < e))).getLast? with
  | none =>
    rw [hb] at h
    dsimp only at h ⊢
    exact ⟨le_refl _, fun _ => by linarith, fun _ => by linarith, fun a ha hlt => absurd hlt (h a ha), fun _ => rfl⟩
  | some b =>
    rw [hb] at h
    dsimp only at h ⊢
    obtain ⟨h1, h2, h3⟩ := h
    refine ⟨le_max_left _ _, fun _ => max_le (by linarith) (by linarith), fun _ => max_lt (by linarith) (by linarith), fun a ha hlt => ?_, fun hfar => ?_⟩
    · have := h3 a ha hlt
      exact le_trans (by linarith) (le_max_right _ _)
    · have := hfar b h1 h2
      exact max_eq_left (by linarith)

theorem fitRange_hi {all : List K} (hs : all.Pairwise (· ≤ ·)) (w e : K) :
    (fitRange all w e).2 ≤ e + w / 2 ∧ (0 ≤ w → e ≤ (fitRange all w e).2) ∧ (0 < w → e < (fitRange all w e).2) ∧ (∀ a ∈ all, e < a → (fitRange all w e).2 ≤ (e + a) / 2) ∧
    ((∀ a ∈ all, e < a → e + w ≤ a) → (fitRange all w e).2 = e + w / 2) := by
  have h := above_spec hs e
  unfold fitRange
  dsimp only
  cases hb : (all.filter (fun a => decide (e < a))).head? with
  | none =>
    rw [hb] at h
    dsimp only at h ⊢
    exact ⟨le_refl _, fun _ => by linarith, fun _ => by linarith, fun a ha hlt => absurd hlt (h a ha), fun _ => rfl⟩
  | some b =>
    rw [hb] at h
    dsimp only at h ⊢
    obtain ⟨h1, h2, h3⟩ := h
    refine ⟨min_le_left _ _, fun _ => le_min (by linarith) (by linarith), fun _ => lt_min (by linarith) (by linarith), fun a ha hlt => ?_, fun hfar => ?_⟩
    · have := h3 a ha hlt
      exact le_trans (min_le_right _ _) (by linarith)
    · have := hfar b h1 h2
      exact min_eq_left (by linarith)

/-- what the energies of a list of lines are, without reference to sorting: one per line, in the same number -/
theorem lineEnergies_spec {feat : String → Option K} {ls : List (Line K)} {es : List K} (h : lineEnergies feat ls = .ok es) :
    es.Pairwise (· ≤ ·) ∧ es.length = ls.length ∧ (∀ e, e ∈ es ↔ ∃ l ∈ ls, energyOf feat l = .ok e) := by
  unfold lineEnergies at h
  cases h0 : energiesOf feat ls with
  | error x => rw [h0] at h; exact absurd h (by simp)
  | ok raw =>
    rw [h0] at h
    simp only [Except.ok.injEq] at h
    subst h
    have key : raw.length = ls.length ∧ ∀ e, e ∈ raw ↔ ∃ l ∈ ls, energyOf feat l = .ok e := by
      induction ls generalizing raw with
      | nil => simp only [energiesOf, Except.ok.injEq] at h0; subst h0; simp
      | cons l ls ih =>
        unfold energiesOf at h0
        cases hl : energyOf feat l with
        | error x => rw [hl] at h0; exact absurd h0 (by simp)
        | ok e0 =>
          rw [hl] at h0
          dsimp only at h0
          cases hr : energiesOf feat ls with
          | error x => rw [hr] at h0; exact absurd h0 (by simp)
          | ok rest =>
            rw [hr] at h0
            simp only [Except.ok.injEq] at h0
            subst h0
            obtain ⟨i1, i2⟩ := ih rest hr
            refine ⟨by simp [i1], fun e => ?_⟩
            rw [List.mem_cons, i2]
            constructor
            · rintro (rfl | ⟨l', hl', h'⟩)
              · exact ⟨l, by simp, hl⟩
              · exact ⟨l', by simp [hl'], h'⟩
            · rintro ⟨l', hl', h'⟩
              rcases List.mem_cons.1 hl' with rfl | hl'
              · rw [hl] at h'; simp only [Except.ok.injEq] at h'; exact .inl h'.symm
              · exact .inr ⟨l', hl', h'⟩
    refine ⟨List.pairwise_insertionSort _ _, by rw [List.length_insertionSort]; exact key.1, fun e => ?_⟩
    rw [List.mem_insertionSort]
    exact key.2 e

/-- C45. One range per line, in order of energy. Each contains its line (inside, if the width is positive), is no wider than asked for, and contains no other line, included or excluded; it is
the full width when no other line is nearer than the width; ranges of different lines do not overlap. -/
theorem fit_ranges (feat : String → Option K) (lines excl : List (Line K)) (w : K) (hw : 0 ≤ w) {es : List K} {rs : List (K × K)} (h : buildFitRanges feat lines excl w = .ok (es, rs)) :
    es.length = lines.length ∧ rs.length = es.length ∧ es.Pairwise (· < ·) ∧ (∀ e, e ∈ es ↔ ∃ l ∈ lines, energyOf feat l = .ok e) ∧
    (∀ i (hi : i < es.length) (hi' : i < rs.length), rs[i].1 ≤ es[i] ∧ es[i] ≤ rs[i].2 ∧ rs[i].2 - rs[i].1 ≤ w ∧ (0 < w → rs[i].1 < es[i] ∧ es[i] < rs[i].2) ∧
      (∀ l ∈ lines ++ excl, ∀ a, energyOf feat l = .ok a → a ≠ es[i] → a < rs[i].1 ∨ rs[i].2 < a) ∧
      ((∀ l ∈ lines ++ excl, ∀ a, energyOf feat l = .ok a → a ≠ es[i] → w ≤ |a - es[i]|) → rs[i] = (es[i] - w / 2, es[i] + w / 2))) ∧
    rs.Pairwise (fun r s => r.2 ≤ s.1) := by
  unfold buildFitRanges at h
  cases h1 : lineEnergies feat lines with
  | error x => rw [h1] at h; exact absurd h (by simp)
  | ok es0 =>
    rw [h1] at h
    dsimp only at h
    cases h2 : lineEnergies feat excl with
    | error x => rw [h2] at h; exact absurd h (by simp)
    | ok xs =>
      rw [h2] at h
      dsimp only at h
      split at h
      swap
      · exact absurd h (by simp)
      rename_i hd
      simp only [Except.ok.injEq, Prod.mk.injEq] at h
      obtain ⟨rfl, rfl⟩ := h
      generalize hall : (es0 ++ xs).insertionSort (· ≤ ·) = all at hd
      have hperm : all.Perm (es0 ++ xs) := by rw [← hall]; exact List.perm_insertionSort _ _
      have hs : all.Pairwise (· ≤ ·) := by rw [← hall]; exact List.pairwise_insertionSort _ _
      have hnd : all.Nodup := nodup_of_dedup ((List.dedup_sublist all).eq_of_length hd.symm)
      obtain ⟨l1, l2, l3⟩ := lineEnergies_spec h1
      obtain ⟨m1, m2, m3⟩ := lineEnergies_spec h2
      have hnde : es0.Nodup := (List.nodup_append.1 (hperm.nodup_iff.1 hnd)).1
      have hlt : es0.Pairwise (· < ·) := by
        refine List.Pairwise.imp₂ (fun a b h1 h2 => lt_of_le_of_ne h1 h2) l1 hnde
      have hall_mem : ∀ l ∈ lines ++ excl, ∀ a, energyOf feat l = .ok a → a ∈ all := by
        intro l hl a ha
        rw [hperm.mem_iff, List.mem_append]
        rcases List.mem_append.1 hl with hl | hl
        · exact .inl ((l3 a).2 ⟨l, hl, ha⟩)
        · exact .inr ((m3 a).2 ⟨l, hl, ha⟩)
      have hmem_all : ∀ a ∈ all, ∃ l ∈ lines ++ excl, energyOf feat l = .ok a := by
        intro a ha
        rcases List.mem_append.1 (hperm.mem_iff.1 ha) with ha | ha
        · obtain ⟨l, hl, h⟩ := (l3 a).1 ha; exact ⟨l, by simp [hl], h⟩
        · obtain ⟨l, hl, h⟩ := (m3 a).1 ha; exact ⟨l, by simp [hl], h⟩
      refine ⟨l2, by simp, hlt, l3, ?_, ?_⟩
      · intro i hi hi'
        simp only [List.getElem_map]
        obtain ⟨a1, a2, a3, a4, a5⟩ := fitRange_lo hs w es0[i]
        obtain ⟨b1, b2, b3, b4, b5⟩ := fitRange_hi hs w es0[i]
        refine ⟨a2 hw, b2 hw, by linarith, fun hw' => ⟨a3 hw', b3 hw'⟩, fun l hl a ha hne => ?_, fun hfar => ?_⟩
        · have hm := hall_mem l hl a ha
          rcases lt_or_gt_of_ne hne with hh | hh
          · have := a4 a hm hh; left; linarith
          · have := b4 a hm hh; right; linarith
        · refine Prod.ext (a5 fun a ha hh => ?_) (b5 fun a ha hh => ?_)
          · obtain ⟨l, hl, hle⟩ := hmem_all a ha
            have := hfar l hl a hle hh.ne
            rw [abs_of_neg (by linarith)] at this
            linarith
          · obtain ⟨l, hl, hle⟩ := hmem_all a ha
            have := hfar l hl a hle hh.ne'
            rw [abs_of_pos (by linarith)] at this
            linarith
      · rw [List.pairwise_map]
        refine List.Pairwise.imp_of_mem (fun {a b} ha hb hab => ?_) hlt
        have i1 := (fitRange_hi hs w a).2.2.2.1 b (hperm.mem_iff.2 (List.mem_append_left _ hb)) hab
        have i2 := (fitRange_lo hs w b).2.2.2.1 a (hperm.mem_iff.2 (List.mem_append_left _ ha)) hab
        linarith

/-- C45. With known lines, the call is refused (AssertionError) exactly when two lines have the same energy. -/
theorem fit_ranges_refused (feat : String → Option K) (lines excl : List (Line K)) (w : K) {es xs : List K} (h1 : lineEnergies feat lines = .ok es) (h2 : lineEnergies feat excl = .ok xs) :
    ((es ++ xs).Nodup → ∃ r, buildFitRanges feat lines excl w = .ok r) ∧ (¬ (es ++ xs).Nodup → buildFitRanges feat lines excl w = .error .assertion) := by
  unfold buildFitRanges
  rw [h1, h2]
  dsimp only
  have hp : ((es ++ xs).insertionSort (· ≤ ·)).Perm (es ++ xs) := List.perm_insertionSort _ _
  constructor
  · intro hn
    rw [if_pos (by rw [(hp.nodup_iff.2 hn).dedup])]
    exact ⟨_, rfl⟩
  · intro hn
    rw [if_neg]
    intro hl
    exact hn (hp.nodup_iff.1 (nodup_of_dedup ((List.dedup_sublist _).eq_of_length hl.symm)))

/-- C45, in pulse heights: with a strictly increasing approximate calibration each range contains the line's pulse height, no other line's, and different ranges do not overlap. -/
theorem fit_ranges_ph (feat : String → Option K) (e2ph : K → K) (hm : StrictMono e2ph) (lines excl : List (Line K)) (w : K) (hw : 0 ≤ w) {es : List K} {rs : List (K × K)}
    (h : buildFitRangesPh feat e2ph lines excl w = .ok (es, rs)) :
    rs.length = es.length ∧ (∀ i (hi : i < es.length) (hi' : i < rs.length), rs[i].1 ≤ e2ph es[i] ∧ e2ph es[i] ≤ rs[i].2 ∧
      (∀ l ∈ lines ++ excl, ∀ a, energyOf feat l = .ok a → a ≠ es[i] → e2ph a < rs[i].1 ∨ rs[i].2 < e2ph a)) ∧ rs.Pairwise (fun r s => r.2 ≤ s.1) := by
  unfold buildFitRangesPh at h
  cases hb : buildFitRanges feat lines excl w with
  | error x => rw [hb] at h; exact absurd h (by simp)
  | ok r =>
    obtain ⟨es0, rs0⟩ := r
    rw [hb] at h
    simp only [Except.ok.injEq, Prod.mk.injEq] at h
    obtain ⟨rfl, rfl⟩ := h
    obtain ⟨_, k2, _, _, k5, k6⟩ := fit_ranges feat lines excl w hw hb
    refine ⟨by simp [k2], fun i hi hi' => ?_, ?_⟩
    · simp only [List.getElem_map]
      obtain ⟨q1, q2, _, _, q5, _⟩ := k5 i hi (by omega)
      exact ⟨hm.monotone q1, hm.monotone q2, fun l hl a ha hne => (q5 l hl a ha hne).imp (fun h => hm h) (fun h => hm h)⟩
    · rw [List.pairwise_map]
      exact k6.imp (fun h => hm.monotone h)

/-- instances: lines at 100 and 130, excluded line at 104, width 20 -/
example : buildFitRanges (fun s => if s = "A" then some (130 : ℚ) else none) [.name "A", .energy 100] [.energy 104] 20 = .ok ([100, 130], [(90, 102), (120, 140)]) := by decide +kernel
example : buildFitRanges (fun _ => none) [.energy (100 : ℚ)] [.energy 100] 20 = .error .assertion := by decide +kernel
example : buildFitRangesPh (fun _ => none) (fun e => 2 * e) [.energy (100 : ℚ)] [.energy 104] 20 = .ok ([100], [(180, 204)]) := by decide +kernel

/-! ### C68: assignment of peaks to lines -/

/-- itertools.combinations(l, k), in its order (used for algorithms.py L89-111) -/
def combos {α : Type} : Nat → List α → List (List α)
  | 0, _ => [[]]
  | _ + 1, [] => []
  | k + 1, x :: xs => (combos k xs).map (x :: ·) ++ combos (k + 1) xs

/-- the square of `acc_est` for one assignment, algorithms.py L94-97: how far each inner peak is from where its neighbours put it. Simplified: squares are compared instead of norms (same order), and a division
by zero, NaN in numpy, gives 0: theorems ask for distinct energies and peaks. -/
def score : List K → List K → K
  | e0 :: e1 :: e2 :: es, a0 :: a1 :: a2 :: as =>
    let f := (e1 - e0) / (e2 - e0)
    ((a0 * (1 - f) + a2 * f - a1) / (a2 - a0)) ^ 2 + score (e1 :: e2 :: es) (a1 :: a2 :: as)
  | _, _ => 0

/-- np.argmin: the first of least score (used for algorithms.py L89-111) -/
def best (s : List K → K) : List (List K) → Option (List K)
  | [] => none
  | c :: cs => match best s cs with
    | none => some c
    | some d => if s c ≤ s d then some c else some d

/-- the loop of `find_opt_assignment`, algorithms.py L89-111, entered with `nsel` peaks; `inc` is nincrement - 1 (for nincrement ≤ 0 the loop may not end). `es` are the sorted energies, `tol2` is
maxacc squared (maxacc ≥ 0). Too few peaks: sorting an array without columns raises AxisError, a ValueError. -/
def assignLoop (peaks es : List K) (tol2 : K) (inc nmax nsel : Nat) : Except Exc (List K) :=
  match best (score es) ((combos es.length (peaks.take nsel)).map (fun c => c.insertionSort (· ≤ ·))) with
  | none => .error .value
  | some a =>
    if tol2 * (es.length : K) < score es a then
      if h : nmax < nsel + (inc + 1) then .error .value else assignLoop peaks es tol2 inc nmax (nsel + (inc + 1))
    else .ok a
termination_by nmax + 1 - nsel
decreasing_by omega

/-- `find_opt_assignment`, algorithms.py L67-111, with the energies already looked up and sorted: the peak positions assigned to the energies in order -/
def findOptAssignment (peaks es : List K) (nextra inc nextramax : Nat) (tol2 : K) : Except Exc (List K) :=
  assignLoop peaks es tol2 inc (es.length + nextramax) (es.length + nextra)

theorem mem_combos {α : Type} (k : Nat) (l c : List α) : c ∈ combos k l ↔ c.Sublist l ∧ c.length = k := by
  induction l generalizing k c with
  | nil => cases k <;> simp [combos]; rintro rfl; simp
  | cons x xs ih =>
    cases k with
    | zero => simp only [combos, List.mem_singleton]; constructor
              · rintro rfl; simp
              · rintro ⟨_, h⟩; exact List.length_eq_zero_iff.1 h
    | succ k =>
      simp only [combos, List.mem_append, List.mem_map, ih]
      constructor
      · rintro (⟨d, ⟨h1, h2⟩, rfl⟩ | ⟨h1, h2⟩)
        · exact ⟨h1.cons_cons x, by simp [h2]⟩
        · exact ⟨h1.cons x, h2⟩
      · rintro ⟨h1, h2⟩
        cases h1 with
        | cons _ h1 => exact .inr ⟨h1, h2⟩
        | cons_cons _ h1 => exact .inl ⟨_, ⟨h1, by simpa using h2⟩, rfl⟩

omit [Field K] [IsStrictOrderedRing K] in
theorem best_spec (s : List K → K) (cs : List (List K)) :
    (best s cs = none ↔ cs = []) ∧ ∀ a, best s cs = some a → a ∈ cs ∧ ∀ c ∈ cs, s a ≤ s c := by
  induction cs with
  | nil => simp [best]
  | cons c cs ih =>
    unfold best
    cases hb : best s cs with
    | none =>
      have := ih.1.1 hb
      subst this
      simp
    | some d =>
      obtain ⟨h1, h2⟩ := ih.2 d hb
      dsimp only
      split
      · rename_i hle
        refine ⟨by simp, fun a ha => ?_⟩
        simp only [Option.some.injEq] at ha
        subst ha
        refine ⟨by simp, fun x hx => ?_⟩
        rcases List.mem_cons.1 hx with rfl | hx
        · exact le_refl _
        · exact hle.trans (h2 x hx)
      · rename_i hle
        refine ⟨by simp, fun a ha => ?_⟩
        simp only [Option.some.injEq] at ha
        subst ha
        refine ⟨by simp [h1], fun x hx => ?_⟩
        rcases List.mem_cons.1 hx with rfl | hx
        · exact (lt_of_not_ge hle).le
        · exact h2 x hx

/-- an assignment a user may be given: increasing positions, chosen among the first n peaks, as many as there are lines [specification] -/
def Choice (peaks : List K) (n k : Nat) (a : List K) : Prop := a.Pairwise (· ≤ ·) ∧ ∃ c, c.Sublist (peaks.take n) ∧ c.length = k ∧ a.Perm c

omit [Field K] [IsStrictOrderedRing K] in
theorem choice_iff (peaks : List K) (n k : Nat) (a : List K) : Choice peaks n k a ↔ a ∈ (combos k (peaks.take n)).map (fun c => c.insertionSort (· ≤ ·)) := by
  rw [List.mem_map]
  constructor
  · rintro ⟨hs, c, h1, h2, h3⟩
    refine ⟨c, (mem_combos _ _ _).2 ⟨h1, h2⟩, ?_⟩
    exact List.Perm.eq_of_pairwise' (r := (· ≤ ·)) (List.pairwise_insertionSort _ _) hs ((List.perm_insertionSort _ _).trans h3.symm)
  · rintro ⟨c, hc, rfl⟩
    obtain ⟨h1, h2⟩ := (mem_combos _ _ _).1 hc
    exact ⟨List.pairwise_insertionSort _ _, c, h1, h2, List.perm_insertionSort _ _⟩

theorem loop_spec (peaks es : List K) (tol2 : K) (inc nmax nsel : Nat) (hn : es.length ≤ nsel) :
    (∀ a, assignLoop peaks es tol2 inc nmax nsel = .ok a → ∃ j, (j = 0 ∨ nsel + j * (inc + 1) ≤ nmax) ∧ Choice peaks (nsel + j * (inc + 1)) es.length a ∧
      score es a ≤ tol2 * es.length ∧ (∀ b, Choice peaks (nsel + j * (inc + 1)) es.length b → score es a ≤ score es b) ∧
      ∀ i < j, ∀ b, Choice peaks (nsel + i * (inc + 1)) es.length b → tol2 * es.length < score es b) ∧
    (∀ x, assignLoop peaks es tol2 inc nmax nsel = .error x → x = .value ∧ ∀ i, (i = 0 ∨ nsel + i * (inc + 1) ≤ nmax) →
      ∀ b, Choice peaks (nsel + i * (inc + 1)) es.length b → tol2 * es.length < score es b) := by
  fun_induction assignLoop peaks es tol2 inc nmax nsel with
  | case1 nsel hb =>
    refine ⟨fun a h => absurd h (by simp), fun x h => ?_⟩
    simp only [Except.error.injEq] at h
    subst h
    have h0 := (best_spec (score es) _).1.1 hb
    have hk : combos es.length (peaks.take nsel) = [] := List.map_eq_nil_iff.1 h0
    have hfew : peaks.length < es.length := by
      by_contra hc
      have : (peaks.take nsel).take es.length ∈ combos es.length (peaks.take nsel) := (mem_combos _ _ _).2 ⟨List.take_sublist _ _, by simp; omega⟩
      rw [hk] at this
      simp at this
    refine ⟨rfl, fun i hi b hb => ?_⟩
    obtain ⟨_, c, c1, c2, _⟩ := hb
    have := (c1.trans (List.take_sublist _ _)).length_le
    omega
  | case2 nsel a hb hlt h =>
    refine ⟨fun a h => absurd h (by simp), fun x hx => ?_⟩
    simp only [Except.error.injEq] at hx
    subst hx
    refine ⟨rfl, fun i hi b hbc => ?_⟩
    have hi0 : i = 0 := by
      rcases hi with hi | hi
      · exact hi
      · by_contra hne
        have : inc + 1 ≤ i * (inc + 1) := Nat.le_mul_of_pos_left _ (Nat.pos_of_ne_zero hne)
        omega
    subst hi0
    rw [Nat.zero_mul, Nat.add_zero, choice_iff] at hbc
    exact lt_of_lt_of_le hlt (((best_spec _ _).2 a hb).2 b hbc)
  | case3 nsel a hb hlt h ih =>
    obtain ⟨ih1, ih2⟩ := ih (by omega)
    have hfirst : ∀ b, Choice peaks nsel es.length b → tol2 * es.length < score es b := fun b hbc =>
      lt_of_lt_of_le hlt (((best_spec _ _).2 a hb).2 b ((choice_iff _ _ _ _).1 hbc))
    have hsh : ∀ i, nsel + (i + 1) * (inc + 1) = nsel + (inc + 1) + i * (inc + 1) := fun i => by ring
    refine ⟨fun a' ha' => ?_, fun x hx => ?_⟩
    · obtain ⟨j, j1, j2, j3, j4, j5⟩ := ih1 a' ha'
      refine ⟨j + 1, .inr ?_, by rw [hsh]; exact j2, j3, by rw [hsh]; exact j4, fun i hi b hbc => ?_⟩
      · rcases j1 with rfl | j1
        · simp; omega
        · rw [hsh]; exact j1
      · cases i with
        | zero => rw [Nat.zero_mul, Nat.add_zero] at hbc; exact hfirst b hbc
        | succ i => rw [hsh] at hbc; exact j5 i (by omega) b hbc
    · obtain ⟨k1, k2⟩ := ih2 x hx
      refine ⟨k1, fun i hi b hbc => ?_⟩
      cases i with
      | zero => rw [Nat.zero_mul, Nat.add_zero] at hbc; exact hfirst b hbc
      | succ i =>
        rw [hsh] at hbc
        rcases hi with hi | hi
        · omega
        · rw [hsh] at hi; exact k2 i (.inr hi) b hbc
  | case4 nsel a hb hlt =>
    refine ⟨fun a' h => ?_, fun x h => absurd h (by simp)⟩
    simp only [Except.ok.injEq] at h
    subst h
    have := (best_spec _ _).2 a hb
    refine ⟨0, .inl rfl, ?_, not_lt.1 hlt, ?_, fun i hi => absurd hi (by omega)⟩
    · rw [Nat.zero_mul, Nat.add_zero, choice_iff]; exact this.1
    · intro b hbc
      rw [Nat.zero_mul, Nat.add_zero, choice_iff] at hbc
      exact this.2 b hbc

/-- C68. What find_opt_assignment returns is chosen among the first N peaks (N the least number tried which gives a good enough choice), as many as there are lines, in increasing order, good
enough, and the best of all choices among these N peaks. -/
theorem assignment_best (peaks es : List K) (nextra inc nextramax : Nat) (tol2 : K) {a : List K} (h : findOptAssignment peaks es nextra inc nextramax tol2 = .ok a) :
    ∃ j, (j = 0 ∨ nextra + j * (inc + 1) ≤ nextramax) ∧ Choice peaks (es.length + nextra + j * (inc + 1)) es.length a ∧ score es a ≤ tol2 * es.length ∧
      (∀ b, Choice peaks (es.length + nextra + j * (inc + 1)) es.length b → score es a ≤ score es b) ∧
      ∀ i < j, ∀ b, Choice peaks (es.length + nextra + i * (inc + 1)) es.length b → tol2 * es.length < score es b := by
  obtain ⟨j, j1, j2⟩ := (loop_spec peaks es tol2 inc _ _ (by omega)).1 a h
  exact ⟨j, j1.imp id (fun h => by omega), j2⟩

/-- C68. A failure is a ValueError, and then no choice among the peaks it may use is good enough. -/
theorem assignment_fails_only (peaks es : List K) (nextra inc nextramax : Nat) (tol2 : K) {x : Exc} (h : findOptAssignment peaks es nextra inc nextramax tol2 = .error x) :
    x = .value ∧ ∀ i, (i = 0 ∨ nextra + i * (inc + 1) ≤ nextramax) → ∀ b, Choice peaks (es.length + nextra + i * (inc + 1)) es.length b → tol2 * es.length < score es b := by
  obtain ⟨h1, h2⟩ := (loop_spec peaks es tol2 inc _ _ (by omega)).2 x h
  exact ⟨h1, fun i hi => h2 i (hi.imp id (fun h => by omega))⟩

theorem score_nonneg (es as : List K) : 0 ≤ score es as := by
  fun_induction score es as with
  | case1 e0 e1 e2 es a0 a1 a2 as f ih => exact add_nonneg (sq_nonneg _) ih
  | case2 => exact le_refl _

theorem score_linear (es : List K) (hs : es.Pairwise (· < ·)) (g o : K) : score es (es.map (fun e => g * e + o)) = 0 := by
  match es, hs with
  | [], _ => rfl
  | [_], _ => rfl
  | [_, _], _ => rfl
  | e0 :: e1 :: e2 :: es, hs =>
    have ih := score_linear (e1 :: e2 :: es) (List.pairwise_cons.1 hs).2 g o
    have h02 : e2 - e0 ≠ 0 := sub_ne_zero.2 ((List.pairwise_cons.1 hs).1 e2 (by simp)).ne'
    simp only [List.map_cons] at ih ⊢
    unfold score
    dsimp only
    rw [ih, show (g * e0 + o) * (1 - (e1 - e0) / (e2 - e0)) + (g * e2 + o) * ((e1 - e0) / (e2 - e0)) - (g * e1 + o) = 0 by field_simp; ring]
    simp

/-- C68. If among the first peaks there are ones in exactly linear relation to the line energies, an assignment is found, and it fits exactly too. -/
theorem assignment_linear (peaks es : List K) (nextra inc nextramax : Nat) (tol2 : K) (ht : 0 ≤ tol2) (hs : es.Pairwise (· < ·)) (g o : K) (hg : 0 < g) (c : List K)
    (hc : c.Sublist (peaks.take (es.length + nextra))) (hcp : c.Perm (es.map (fun e => g * e + o))) :
    ∃ a, findOptAssignment peaks es nextra inc nextramax tol2 = .ok a ∧ Choice peaks (es.length + nextra) es.length a ∧ score es a = 0 := by
  have hch : Choice peaks (es.length + nextra) es.length (es.map (fun e => g * e + o)) := by
    refine ⟨?_, c, hc, by rw [hcp.length_eq]; simp, hcp.symm⟩
    rw [List.pairwise_map]
    exact hs.imp (fun {a b} h => by have := mul_le_mul_of_nonneg_left h.le hg.le; linarith)
  have h0 := score_linear es hs g o
  have htol : ¬ tol2 * (es.length : K) < 0 := not_lt.2 (mul_nonneg ht (Nat.cast_nonneg _))
  cases hr : findOptAssignment peaks es nextra inc nextramax tol2 with
  | error x =>
    have := (assignment_fails_only peaks es nextra inc nextramax tol2 hr).2 0 (.inl rfl) _ (by simpa using hch)
    rw [h0] at this
    exact absurd this htol
  | ok a =>
    obtain ⟨j, _, j2, _, j4, j5⟩ := assignment_best peaks es nextra inc nextramax tol2 hr
    have hj : j = 0 := by
      by_contra hne
      have := j5 0 (Nat.pos_of_ne_zero hne) _ (by simpa using hch)
      rw [h0] at this
      exact absurd this htol
    subst hj
    simp only [Nat.zero_mul, Nat.add_zero] at j2 j4
    exact ⟨a, rfl, j2, le_antisymm (h0 ▸ j4 _ hch) (score_nonneg _ _)⟩

/-- instances: lines 1, 2, 4; strong peaks at 10, 25, 20, 40 (25 spurious); and no good choice -/
example : findOptAssignment [10, 25, 20, 40] [(1 : ℚ), 2, 4] 2 2 8 (1 / 10000) = .ok [10, 20, 40] := by decide +kernel
example : findOptAssignment [10, 38, 40] [(1 : ℚ), 2, 4] 2 2 8 (1 / 10000) = .error .value := by decide +kernel

end Mass.Calc.Fit
