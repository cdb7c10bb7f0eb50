import Verif.Py
import Mathlib.Data.List.Sort
import Mathlib.Data.List.Nodup
import Mathlib.Data.Rat.Floor
import Mathlib.Tactic.Linarith
import Mathlib.Tactic.FieldSimp
import Mathlib.Tactic.Ring
import Mathlib.Algebra.Order.Floor.Ring
/-! C125: corrections of filtered pulse heights by arrival time, from model pulses run through the filter (`FilterTimeCorrection`, mass/core/analysis_algorithms.pyx L343-637). -/
namespace Mass.Algo.TimeCorr
open Mass
set_option linter.unusedSectionVars false

variable {K : Type} [Field K] [LinearOrder K] [IsStrictOrderedRing K]

/-! ### Clusters -/

/-- the energies of the pulses of one cluster, `energy[labels == i]` (analysis_algorithms.pyx L451) -/
def ofLabel (pulses : List (Int × K)) (i : Int) : List K := (pulses.filter (fun p => decide (p.1 = i))).map Prod.snd

/-- `energy[labels == i].mean()`, analysis_algorithms.pyx L451. The mean of no values is NaN in numpy and 0 here; the theorems are about clusters that have pulses. -/
def meanOf (pulses : List (Int × K)) (i : Int) : K := (ofLabel pulses i).sum / ((ofLabel pulses i).length : K)

/-- `int(1 + labels.max())`, analysis_algorithms.pyx L448 (the maximum of no labels raises; here it is -1) -/
def nLabels (pulses : List (Int × K)) : Nat := (1 + (pulses.map Prod.fst).foldl max (-1)).toNat

/-- `_sort_labels`, analysis_algorithms.pyx L446-455: pulses are (label, energy). `args` is what `argsort` answers for the mean energies; `args.argsort()[l]` is written as the place of `l` in
`args`. The answer is the mean energies in order and the pulses with their new labels. -/
def sortLabels (argsort : List K → List Nat) (pulses : List (Int × K)) : List K × List (Int × K) :=
  let means := (List.range (nLabels pulses)).map (fun i : Nat => meanOf pulses (i : Int))
  let args := argsort means
  (args.map (fun i => means.getD i 0), pulses.map (fun p => if 0 ≤ p.1 then (((args.idxOf p.1.toNat : Nat) : Int), p.2) else p))

/-- what `argsort` promises [specification] -/
def Sorts (argsort : List K → List Nat) : Prop := ∀ l, (argsort l).Perm (List.range l.length) ∧ ((argsort l).map (fun i => l.getD i 0)).Pairwise (· ≤ ·)

theorem foldl_max_le : ∀ (l : List Int) (a : Int), a ≤ l.foldl max a ∧ ∀ x ∈ l, x ≤ l.foldl max a
  | [], a => ⟨le_refl _, by simp⟩
  | y :: l, a => by
    obtain ⟨h1, h2⟩ := foldl_max_le l (max a y)
    rw [List.foldl_cons]
    refine ⟨le_trans (le_max_left _ _) h1, fun x hx => ?_⟩
    rcases List.mem_cons.1 hx with rfl | hx
    · exact le_trans (le_max_right _ _) h1
    · exact h2 x hx

theorem label_lt {pulses : List (Int × K)} {p : Int × K} (hp : p ∈ pulses) (h0 : 0 ≤ p.1) : p.1.toNat < nLabels pulses := by
  have := (foldl_max_le (pulses.map Prod.fst) (-1)).2 p.1 (List.mem_map_of_mem hp)
  unfold nLabels
  omega

/-- C125. Sorting the clusters by mean energy keeps them: two pulses are in the same cluster afterwards exactly if they were before, pulses in no cluster stay in none, energies and order of
the pulses are unchanged; the mean energies kept are in increasing order, and the one with the number of a pulse's cluster is the mean energy of the pulses in that cluster. -/
theorem clusters_sorted {argsort : List K → List Nat} (ha : Sorts argsort) (pulses : List (Int × K)) :
    let r := sortLabels argsort pulses
    r.1.Pairwise (· ≤ ·) ∧ r.1.length = nLabels pulses ∧ r.2.map Prod.snd = pulses.map Prod.snd ∧
    ∃ f : Int → Int, r.2.map Prod.fst = pulses.map (fun p => f p.1) ∧ (∀ l, l < 0 → f l = l) ∧
      (∀ p ∈ pulses, ∀ q ∈ pulses, (f p.1 = f q.1 ↔ p.1 = q.1)) ∧
      (∀ p ∈ pulses, 0 ≤ p.1 → 0 ≤ f p.1 ∧ (f p.1).toNat < nLabels pulses ∧ r.1.getD (f p.1).toNat 0 = meanOf r.2 (f p.1)) := by
  dsimp only
  obtain ⟨hperm, hsort⟩ := ha ((List.range (nLabels pulses)).map (fun i : Nat => meanOf pulses (i : Int)))
  have hlen : ((List.range (nLabels pulses)).map (fun i : Nat => meanOf pulses (i : Int))).length = nLabels pulses := by simp
  rw [hlen] at hperm
  unfold sortLabels
  dsimp only
  generalize hargs : argsort ((List.range (nLabels pulses)).map (fun i : Nat => meanOf pulses (i : Int))) = args at *
  have hnd : args.Nodup := hperm.nodup_iff.2 List.nodup_range
  have hal : args.length = nLabels pulses := by rw [hperm.length_eq]; simp
  have hmem : ∀ n, n < nLabels pulses → n ∈ args := fun n hn => hperm.mem_iff.2 (List.mem_range.2 hn)
  have hidx : ∀ n, n < nLabels pulses → args.idxOf n < args.length ∧ args[args.idxOf n]? = some n := by
    intro n hn
    have h1 := List.idxOf_lt_length_of_mem (hmem n hn)
    exact ⟨h1, by rw [List.getElem?_eq_getElem h1, List.getElem_idxOf h1]⟩
  have hfeq : ∀ p ∈ pulses, ∀ q ∈ pulses, ((if 0 ≤ p.1 then ((args.idxOf p.1.toNat : Nat) : Int) else p.1) = (if 0 ≤ q.1 then ((args.idxOf q.1.toNat : Nat) : Int) else q.1) ↔ p.1 = q.1) := by
    intro p hp q hq
    refine ⟨fun h => ?_, fun h => by rw [h]⟩
    by_cases h1 : 0 ≤ p.1 <;> by_cases h2 : 0 ≤ q.1
    · rw [if_pos h1, if_pos h2] at h
      have e1 := (hidx _ (label_lt hp h1)).2
      have e2 := (hidx _ (label_lt hq h2)).2
      rw [show args.idxOf p.1.toNat = args.idxOf q.1.toNat by exact_mod_cast h, e2] at e1
      simp only [Option.some.injEq] at e1
      omega
    · rw [if_pos h1, if_neg h2] at h; omega
    · rw [if_neg h1, if_pos h2] at h; omega
    · rwa [if_neg h1, if_neg h2] at h
  refine ⟨hsort, by rw [List.length_map, hal], ?_, fun l => if 0 ≤ l then ((args.idxOf l.toNat : Nat) : Int) else l, ?_, ?_, hfeq, ?_⟩
  · rw [List.map_map]
    apply List.map_congr_left
    intro p _
    simp only [Function.comp]
    split <;> rfl
  · rw [List.map_map]
    apply List.map_congr_left
    intro p _
    simp only [Function.comp]
    split <;> rfl
  · intro l hl
    exact if_neg (by omega)
  · intro p hp h0
    have hlt := label_lt hp h0
    obtain ⟨hi1, hi2⟩ := hidx _ hlt
    dsimp only
    rw [if_pos h0]
    refine ⟨by omega, by simpa [hal] using hi1, ?_⟩
    have hget : (args.map (fun i => ((List.range (nLabels pulses)).map (fun i : Nat => meanOf pulses (i : Int))).getD i 0)).getD (((args.idxOf p.1.toNat : Nat) : Int)).toNat 0 = meanOf pulses p.1 := by
      rw [Int.toNat_natCast, List.getD_eq_getElem?_getD, List.getElem?_map, hi2]
      simp only [Option.map_some, Option.getD_some]
      rw [List.getD_eq_getElem?_getD, List.getElem?_map, List.getElem?_range hlt]
      simp only [Option.map_some, Option.getD_some]
      rw [Int.toNat_of_nonneg h0]
    rw [hget]
    have hof : ofLabel (pulses.map (fun p => if 0 ≤ p.1 then (((args.idxOf p.1.toNat : Nat) : Int), p.2) else p)) ((args.idxOf p.1.toNat : Nat) : Int) = ofLabel pulses p.1 := by
      unfold ofLabel
      rw [List.filter_map, List.map_map]
      have hfil2 : pulses.filter ((fun q : Int × K => decide (q.1 = ((args.idxOf p.1.toNat : Nat) : Int))) ∘ fun p => if 0 ≤ p.1 then (((args.idxOf p.1.toNat : Nat) : Int), p.2) else p) =
          pulses.filter (fun q => decide (q.1 = p.1)) := by
        apply List.filter_congr
        intro q hq
        have := hfeq q hq p hp
        rw [if_pos h0] at this
        simp only [Function.comp]
        rw [decide_eq_decide, ← this]
        split <;> rfl
      rw [hfil2]
      apply List.map_congr_left
      intro q _
      simp only [Function.comp]
      split <;> rfl
    unfold meanOf
    rw [hof]

/-- a sort for the examples -/
def exSort (l : List K) : List Nat := (List.range l.length).insertionSort (fun i j => l.getD i 0 ≤ l.getD j 0)

example : sortLabels exSort [((0 : Int), (30 : ℚ)), (1, 10), (-1, 99), (0, 32), (2, 20), (1, 12)] = ([11, 20, 31], [(2, 30), (0, 10), (-1, 99), (2, 32), (1, 20), (0, 12)]) := by decide +kernel

/-! ### Model pulses through the filter -/

/-- `np.dot` of two vectors of the same length (analysis_algorithms.pyx L535-536) -/
def dot (a b : List K) : K := (List.zipWith (· * ·) a b).sum

/-- a model pulse at a given promptness, analysis_algorithms.pyx L508-510, L531-532: `coefs` has the polynomial of each sample from `zeros` on, highest power first; earlier samples are zero -/
def modelPulse (zeros : Nat) (coefs : List (List K)) (dp : K) : List K := List.replicate zeros 0 ++ coefs.map (fun c => c.foldl (fun acc a => acc * dp + a) 0)

/-- the five lags, analysis_algorithms.pyx L534-536: all of `model[k:k-4]` and `model[4:]` have length M - 4, and `np.dot` raises ValueError for another filter length -/
def lags (model filter : List K) : Except Exc (List K) :=
  if model.length - 4 = filter.length then .ok ((List.range 5).map (fun k => dot ((model.drop k).take (model.length - 4)) filter)) else .error .value

/-- The checks and the loops of `__init__` (L380-417) and `_filter_model` (L495-556) of analysis_algorithms.pyx with labels given, as far as they depend on lengths: M samples per pulse, F in
the filter, one model pulse per cluster. Drawing is on (`plot=True` is the default and is never given), and the list of colors divides by `Nlabels - 1.`. -/
def build (M F : Nat) (filter : List K) (models : List (List K)) : Except Exc (List (List K)) :=
  if F > M ∨ (M - F) % 2 ≠ 0 then .error .exception
  else if models.length = 1 then .error .zeroDiv
  else models.mapM (fun m => lags m filter)

/-- C125. With a filter four samples shorter than the records, the five outputs are the correlations of the model pulse with the filter at the lags 0 to 4. -/
theorem lags_spec {model filter : List K} (h : model.length = filter.length + 4) :
    ∃ l, lags model filter = .ok l ∧ l.length = 5 ∧ ∀ k, k < 5 → l[k]? = some (dot ((List.range filter.length).map (fun j => model.getD (k + j) 0)) filter) := by
  unfold lags
  rw [if_pos (by omega)]
  refine ⟨_, rfl, by simp, fun k hk => ?_⟩
  rw [List.getElem?_map, List.getElem?_range hk]
  simp only [Option.map_some]
  congr 2
  apply List.ext_getElem?
  intro j
  rw [List.getElem?_take, List.getElem?_map]
  by_cases hj : j < filter.length
  · rw [if_pos (by omega), List.getElem?_drop, List.getElem?_range hj]
    simp only [Option.map_some]
    rw [List.getD_eq_getElem?_getD, List.getElem?_eq_getElem (by omega)]
    rfl
  · rw [if_neg (by omega), List.getElem?_eq_none (by simpa using hj)]
    rfl

/-- C125. At the median promptness the model pulse is the constant terms of the fits. -/
theorem model_at_median (zeros : Nat) (coefs : List (List K)) (h : ∀ c ∈ coefs, c ≠ []) : modelPulse zeros coefs 0 = List.replicate zeros 0 ++ coefs.map (fun c => c.getLastD 0) := by
  unfold modelPulse
  congr 1
  apply List.map_congr_left
  intro c hc
  have key : ∀ (c : List K) (a : K), c ≠ [] → c.foldl (fun acc a => acc * 0 + a) a = c.getLastD 0 := by
    intro c
    induction c with
    | nil => intro a h; exact absurd rfl h
    | cons x c ih =>
      intro a _
      rw [List.foldl_cons]
      cases c with
      | nil => simp
      | cons y c => rw [ih _ (by simp)]; simp
  exact key c 0 (h c hc)

/-- C125. Disagreement (C125): any filter shorter than the records by an even number of samples is to do, but all except four fail with ValueError. -/
theorem lengths_fails (filter : List K) (models : List (List K)) (M : Nat) (hm : ∀ m ∈ models, m.length = M) (h2 : 2 ≤ models.length) (hF : filter.length ≤ M) (he : (M - filter.length) % 2 = 0)
    (h4 : M - filter.length ≠ 4) (hM : 4 ≤ M) : build M filter.length filter models = .error .value := by
  unfold build
  rw [if_neg (by omega), if_neg (by omega)]
  cases models with
  | nil => simp at h2
  | cons m ms =>
    have : lags m filter = .error .value := by
      unfold lags
      rw [if_neg]
      rw [hm m (by simp)]
      omega
    rw [List.mapM_cons, this]
    rfl

/-- C125. A filter longer than the records, or shorter by an odd number of samples, is refused. -/
theorem lengths_refused (M F : Nat) (filter : List K) (models : List (List K)) (h : M < F ∨ (M - F) % 2 = 1) : build M F filter models = .error .exception := by
  unfold build
  rw [if_pos (by omega)]

/-- C125. Disagreement (C125): a single cluster is provided for in applying the correction, but making one always fails with ZeroDivisionError, in choosing the colors of a plot. -/
theorem one_cluster_fails (M : Nat) (filter : List K) (model : List K) (hF : filter.length ≤ M) (he : (M - filter.length) % 2 = 0) : build M filter.length filter [model] = .error .zeroDiv := by
  unfold build
  rw [if_neg (by omega), if_pos (by simp)]

/-- what works: two clusters, six samples, filter of two -/
example : build 6 2 [(1 : ℚ), -1] [[0, 0, 4, 3, 2, 1], [0, 0, 8, 6, 4, 2]] = .ok [[0, -4, 1, 1, 1], [0, -8, 2, 2, 2]] := by decide +kernel

/-- arguments of `__init__` without defaults: trainingPulses, promptness, energy, linearFilter, nPresamples (analysis_algorithms.pyx L360-361), and the call made by `copy` (L421-425) with four of
them. A call with too few arguments raises TypeError. -/
def callInit (required given : Nat) : Except Exc Unit := if given < required then .error .type else .ok ()

/-- C125. Disagreement (C125): `copy` never works: it always raises TypeError, since one argument more is needed (nPresamples is not given). -/
theorem copy_fails : callInit 5 4 = .error .type ∧ callInit 5 5 = .ok () := ⟨rfl, rfl⟩

/-! ### Applying the correction -/

/-- the interval of a pulse, analysis_algorithms.pyx L594-596 -/
def interval (bnd : List K) (rms : K) : Nat := (List.range (bnd.length - 2)).foldl (fun cur i => if bnd.getD (i + 1) 0 < rms then i + 1 else cur) 0

/-- limited extrapolation, analysis_algorithms.pyx L603-606 -/
def fraction (a b rms : K) : K :=
  let f := (rms - a) / (b - a)
  let f := if f < -1 / 2 then -1 / 2 else f
  if 3 / 2 < f then 3 / 2 else f

/-- `__call__`, analysis_algorithms.pyx L576-610, for one pulse; `cast` is the conversion to the type of `prompt` (`np.zeros_like(prompt)`, L585), the identity for floats. Without clusters
the answer is zero. -/
def call (cast : K → K) (bnd : List K) (spl : List (K → K)) (prompt rms : K) : K :=
  if bnd.length = 0 then 0
  else if bnd.length - 1 = 0 then spl.getD 0 (fun _ => 0) prompt
  else
    let i := interval bnd rms
    let f := fraction (bnd.getD i 0) (bnd.getD (i + 1) 0) rms
    let fa := spl.getD i (fun _ => 0) prompt
    let fb := spl.getD (i + 1) (fun _ => 0) prompt
    cast (fa + (fb - fa) * f)

theorem fraction_mid {a b rms : K} (h1 : -1 / 2 ≤ (rms - a) / (b - a)) (h2 : (rms - a) / (b - a) ≤ 3 / 2) : fraction a b rms = (rms - a) / (b - a) := by
  unfold fraction
  dsimp only
  rw [if_neg (not_lt.2 h1), if_neg (not_lt.2 h2)]

/-- boundaries in increasing order [specification] -/
def Inc (bnd : List K) : Prop := ∀ i j, i < j → j < bnd.length → bnd.getD i 0 < bnd.getD j 0

theorem interval_aux (bnd : List K) (hb : Inc bnd) (rms : K) : ∀ m, m + 2 ≤ bnd.length →
    let c := (List.range m).foldl (fun cur i => if bnd.getD (i + 1) 0 < rms then i + 1 else cur) 0
    c ≤ m ∧ (0 < c → bnd.getD c 0 < rms) ∧ (∀ k, c < k → k ≤ m → rms ≤ bnd.getD k 0) := by
  intro m
  induction m with
  | zero => intro _; exact ⟨le_refl _, by simp, by intro k h1 h2; simp at h1; omega⟩
  | succ m ih =>
    intro hm
    obtain ⟨h1, h2, h3⟩ := ih (by omega)
    dsimp only
    rw [List.range_succ, List.foldl_append]
    simp only [List.foldl_cons, List.foldl_nil]
    by_cases hc : bnd.getD (m + 1) 0 < rms
    · rw [if_pos hc]
      exact ⟨le_refl _, fun _ => hc, fun k hk1 hk2 => absurd hk1 (by omega)⟩
    · rw [if_neg hc]
      refine ⟨by omega, h2, fun k hk1 hk2 => ?_⟩
      rcases Nat.lt_or_ge k (m + 1) with h | h
      · exact h3 k hk1 (by omega)
      · have : k = m + 1 := by omega
        subst this
        exact not_lt.1 hc

/-- Which interval is used: the first one for everything up to the second boundary, the last one for everything above the last but one. -/
theorem interval_spec (bnd : List K) (hb : Inc bnd) (h2 : 2 ≤ bnd.length) (rms : K) :
    interval bnd rms + 1 < bnd.length ∧ (0 < interval bnd rms → bnd.getD (interval bnd rms) 0 < rms) ∧ (interval bnd rms + 2 < bnd.length → rms ≤ bnd.getD (interval bnd rms + 1) 0) := by
  obtain ⟨h1, h2', h3⟩ := interval_aux bnd hb rms (bnd.length - 2) (by omega)
  refine ⟨?_, h2', fun h => h3 _ (by unfold interval; omega) ?_⟩
  · unfold interval; omega
  · unfold interval at h ⊢; omega

/-- C125. Between the mean energies of neighbouring clusters the correction is interpolated linearly between the curves of the two; at a cluster's mean energy it is the curve of that cluster. -/
theorem interpolates (bnd : List K) (hb : Inc bnd) (spl : List (K → K)) (prompt rms : K) (i : Nat) (hi : i + 1 < bnd.length) (h1 : bnd.getD i 0 ≤ rms) (h2 : rms ≤ bnd.getD (i + 1) 0) :
    let t := (rms - bnd.getD i 0) / (bnd.getD (i + 1) 0 - bnd.getD i 0)
    0 ≤ t ∧ t ≤ 1 ∧ call id bnd spl prompt rms = (1 - t) * spl.getD i (fun _ => 0) prompt + t * spl.getD (i + 1) (fun _ => 0) prompt := by
  have hd : 0 < bnd.getD (i + 1) 0 - bnd.getD i 0 := by
    have := hb i (i + 1) (by omega) hi
    linarith
  have ht0 : 0 ≤ (rms - bnd.getD i 0) / (bnd.getD (i + 1) 0 - bnd.getD i 0) := div_nonneg (by linarith) hd.le
  have ht1 : (rms - bnd.getD i 0) / (bnd.getD (i + 1) 0 - bnd.getD i 0) ≤ 1 := by rw [div_le_one hd]; linarith
  refine ⟨ht0, ht1, ?_⟩
  unfold call
  rw [if_neg (by omega), if_neg (by omega)]
  dsimp only
  obtain ⟨g1, g2, g3⟩ := interval_spec bnd hb (by omega) rms
  have hcases : interval bnd rms = i ∨ (interval bnd rms + 1 = i ∧ rms = bnd.getD i 0) := by
    rcases Nat.lt_trichotomy (interval bnd rms) i with h | h | h
    · right
      have h3 := g3 (by omega)
      rcases Nat.lt_or_ge (interval bnd rms + 1) i with h' | h'
      · have := hb _ _ h' (by omega)
        exact absurd (lt_of_le_of_lt h3 this) (not_lt.2 h1)
      · have : interval bnd rms + 1 = i := by omega
        refine ⟨this, ?_⟩
        rw [this] at h3
        exact le_antisymm h3 h1
    · exact .inl h
    · have h3 := g2 (by omega)
      rcases Nat.lt_or_ge (i + 1) (interval bnd rms) with h' | h'
      · have := hb _ _ h' (by omega)
        exact absurd (lt_trans this h3) (not_lt.2 h2)
      · have : interval bnd rms = i + 1 := by omega
        rw [this] at h3
        exact absurd h3 (not_lt.2 h2)
  rcases hcases with hc | ⟨hc, hr⟩
  · rw [hc]
    have hf : fraction (bnd.getD i 0) (bnd.getD (i + 1) 0) rms = (rms - bnd.getD i 0) / (bnd.getD (i + 1) 0 - bnd.getD i 0) :=
      fraction_mid (by linarith) (by linarith)
    rw [hf, id]
    ring
  · have hd' : bnd.getD i 0 - bnd.getD (interval bnd rms) 0 ≠ 0 := by
      have := hb (interval bnd rms) i (by omega) (by omega)
      exact ne_of_gt (by linarith)
    have hf : fraction (bnd.getD (interval bnd rms) 0) (bnd.getD (interval bnd rms + 1) 0) rms = 1 := by
      have e : (rms - bnd.getD (interval bnd rms) 0) / (bnd.getD (interval bnd rms + 1) 0 - bnd.getD (interval bnd rms) 0) = 1 := by
        rw [hc]
        nth_rewrite 1 [hr]
        exact div_self hd'
      rw [fraction_mid (by rw [e]; norm_num) (by rw [e]; norm_num), e]
    have ht : rms - bnd.getD i 0 = 0 := by rw [hr]; ring
    rw [hf, hc, ht, id]
    ring

/-- C125. The correction is extrapolated by at most half an interval; beyond, it does not depend on the energy. -/
theorem extrapolation_limited (bnd : List K) (hb : Inc bnd) (h2 : 2 ≤ bnd.length) (spl : List (K → K)) (prompt rms : K) :
    (rms ≤ bnd.getD 0 0 - (bnd.getD 1 0 - bnd.getD 0 0) / 2 → call id bnd spl prompt rms = (3 / 2) * spl.getD 0 (fun _ => 0) prompt - (1 / 2) * spl.getD 1 (fun _ => 0) prompt) ∧
    (bnd.getD (bnd.length - 1) 0 + (bnd.getD (bnd.length - 1) 0 - bnd.getD (bnd.length - 2) 0) / 2 ≤ rms →
      call id bnd spl prompt rms = (3 / 2) * spl.getD (bnd.length - 1) (fun _ => 0) prompt - (1 / 2) * spl.getD (bnd.length - 2) (fun _ => 0) prompt) := by
  obtain ⟨g1, g2, g3⟩ := interval_spec bnd hb h2 rms
  constructor
  · intro h
    have hd : 0 < bnd.getD 1 0 - bnd.getD 0 0 := by linarith [hb 0 1 (by omega) (by omega)]
    have hi : interval bnd rms = 0 := by
      by_contra hne
      have h3 := g2 (by omega)
      have h4 := hb 0 (interval bnd rms) (by omega) (by omega)
      linarith
    unfold call
    rw [if_neg (by omega), if_neg (by omega)]
    dsimp only
    rw [hi]
    have hle : (rms - bnd.getD 0 0) / (bnd.getD (0 + 1) 0 - bnd.getD 0 0) ≤ -1 / 2 := by
      rw [div_le_iff₀ hd]
      linarith
    have hf : fraction (bnd.getD 0 0) (bnd.getD (0 + 1) 0) rms = -1 / 2 := by
      unfold fraction
      dsimp only
      rcases lt_or_eq_of_le hle with h' | h'
      · rw [if_pos h', if_neg (by norm_num)]
      · rw [h', if_neg (lt_irrefl _), if_neg (by norm_num)]
    rw [hf, id]
    ring
  · intro h
    have e : bnd.length - 2 + 1 = bnd.length - 1 := by omega
    have hd : 0 < bnd.getD (bnd.length - 1) 0 - bnd.getD (bnd.length - 2) 0 := by linarith [hb (bnd.length - 2) (bnd.length - 1) (by omega) (by omega)]
    have hi : interval bnd rms = bnd.length - 2 := by
      by_contra hne
      have h3 := g3 (by omega)
      have h4 := hb (interval bnd rms + 1) (bnd.length - 1) (by omega) (by omega)
      linarith
    unfold call
    rw [if_neg (by omega), if_neg (by omega)]
    dsimp only
    rw [hi, e]
    have hle : 3 / 2 ≤ (rms - bnd.getD (bnd.length - 2) 0) / (bnd.getD (bnd.length - 1) 0 - bnd.getD (bnd.length - 2) 0) := by
      rw [le_div_iff₀ hd]
      linarith
    have hf : fraction (bnd.getD (bnd.length - 2) 0) (bnd.getD (bnd.length - 1) 0) rms = 3 / 2 := by
      have hn : ¬ (rms - bnd.getD (bnd.length - 2) 0) / (bnd.getD (bnd.length - 1) 0 - bnd.getD (bnd.length - 2) 0) < -1 / 2 := by
        intro hc
        linarith
      unfold fraction
      dsimp only
      rw [if_neg hn]
      rcases lt_or_eq_of_le hle with h' | h'
      · rw [if_pos h']
      · rw [← h', if_neg (lt_irrefl _)]
    rw [hf, id]
    ring

/-- C125. With one cluster its curve is the correction, whatever the energy. -/
theorem one_curve (cast : K → K) (b : K) (s : K → K) (prompt rms : K) : call cast [b] [s] prompt rms = s prompt := by
  simp [call]

example : (call id [(10 : ℚ), 20, 40] [fun p => p, fun p => 2 * p, fun p => 4 * p] 3 30, call id [(10 : ℚ), 20, 40] [fun p => p, fun p => 2 * p, fun p => 4 * p] 3 100,
    call id [(10 : ℚ), 20, 40] [fun p => p, fun p => 2 * p, fun p => 4 * p] 3 20) = (9, 15, 6) := by decide +kernel

/-- C125. Disagreement (C125): for arrival times given as whole numbers the correction is cut off to a whole number as well, but only if there are several clusters: 0 instead of 3/4. -/
theorem whole_numbers_fails : call (fun x : ℚ => (if 0 ≤ x then (⌊x⌋ : ℚ) else (⌈x⌉ : ℚ))) [10, 20] [fun p => p / 4, fun p => p / 4] 3 15 = 0 ∧
    call id [10, 20] [fun p : ℚ => p / 4, fun p => p / 4] 3 15 = 3 / 4 := by
  constructor <;> decide +kernel

end Mass.Algo.TimeCorr
