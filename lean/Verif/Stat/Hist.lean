import Verif.Py
import Mathlib.Algebra.Order.Field.Basic
import Mathlib.Algebra.Order.Field.Rat
import Mathlib.Algebra.BigOperators.Group.List.Basic
import Mathlib.Data.List.Nodup
import Mathlib.Tactic.Linarith
/-! Histograms of channels and groups, mass/core/channel.py, mass/core/channel_group.py, mass/off/channels.py: C57 -/
namespace Mass.Stat.Hist
open Mass

variable {K : Type} [LinearOrder K]

/-- np.histogram's cumulative counts for given edges: values below each edge, for the last edge values at or below it. (numpy sorts and uses searchsorted, 'left' and for the last edge 'right';
NaN values sort to the end and are not counted.) (used for mass/core/channel.py L2498-2535) -/
def cum (vals : List K) : List K → List Nat
  | [] => []
  | [e] => [vals.countP (fun v => decide (v ≤ e))]
  | e :: es => vals.countP (fun v => decide (v < e)) :: cum vals es

/-- np.diff (used for mass/core/channel.py L2498-2535) -/
def diffs : List Nat → List Nat
  | a :: b :: l => (b - a) :: diffs (b :: l)
  | _ => []

/-- no edge above the next (used for mass/core/channel.py L2498-2535) -/
def monotone : List K → Bool
  | a :: b :: l => decide (a ≤ b) && monotone (b :: l)
  | _ => true

/-- the counts of np.histogram(vals, edges) for an array of edges, not NaN: ValueError if the edges decrease somewhere; without edges there are no counts (numpy before 1.15 raised IndexError) (used for mass/core/channel.py L2498-2535) -/
def histogram (vals : List K) (edges : List K) : Except Exc (List Nat) :=
  if monotone edges = false then .error .value else .ok (diffs (cum vals edges))

/-- what hist uses of one pulse record: the value (none is NaN), the time, the cut result, the result of g_func (true if it is not given) (used for mass/core/channel.py L2525-2532) -/
structure Rec (K T : Type) where
  val : Option K
  time : T
  good : Bool
  extra : Bool

/-- the values that `hist` of one channel histograms, mass/core/channel.py L2525-2532 -/
def usedVals {T : Type} [LinearOrder T] (t0 tlast : T) (c : List (Rec K T)) : List K :=
  c.filterMap (fun r => if (decide (t0 < r.time) && decide (r.time < tlast)) && r.good && r.val.isSome && r.extra then r.val else none)

/-- `MicrocalDataSet.hist`, mass/core/channel.py L2498-2535, the counts -/
def chanHist {T : Type} [LinearOrder T] (edges : List K) (t0 tlast : T) (c : List (Rec K T)) : Except Exc (List Nat) := histogram (usedVals t0 tlast c) edges

/-- `Channel.hist`, mass/off/channels.py L505-520, the counts, given the values that pass the cuts (none is NaN) and the calibration (identity if not given) -/
def offHist (edges : List K) (cal : Option K → Option K) (vals : List (Option K)) : Except Exc (List Nat) := histogram (vals.filterMap cal) edges

/-- d[k] = v (used for mass/core/channel_group.py L1369) -/
def dictSet {V : Type} (d : List (Nat × V)) (k : Nat) (v : V) : List (Nat × V) :=
  if d.any (fun p => p.1 == k) then d.map (fun p => if p.1 == k then (k, v) else p) else d ++ [(k, v)]

/-- the dictionary comprehension of `hists`, mass/core/channel_group.py L1369 (the loop of mass/off/channels.py L1234-1236): channel number -> counts, going through the good channels -/
def hists {C : Type} (h : C → Except Exc (List Nat)) : List (Nat × C) → List (Nat × List Nat) → Except Exc (List (Nat × List Nat))
  | [], d => .ok d
  | (n, c) :: cs, d => match h c with
    | .error x => .error x
    | .ok v => hists h cs (dictSet d n v)

/-- `hist` of a group, mass/core/channel_group.py L1372-1385, mass/off/channels.py L1211-1227: zeros, then += the counts of every channel. Simplified: the bin centers, of number
`nbins`, are computed before. -/
def groupHist {C : Type} (nbins : Nat) (h : C → Except Exc (List Nat)) (cs : List (Nat × C)) : Except Exc (List Nat) :=
  match hists h cs [] with
  | .error x => .error x
  | .ok d => .ok (d.foldl (fun acc p => List.zipWith (· + ·) acc p.2) (List.replicate nbins 0))

/-- v lies in bin i: at or above its lower edge and below its upper edge; the last bin contains its upper edge [specification] -/
def InBin (edges : List K) (i : Nat) (v : K) : Prop :=
  ∃ a b, edges[i]? = some a ∧ edges[i + 1]? = some b ∧ a ≤ v ∧ (v < b ∨ i + 2 = edges.length ∧ v = b)

instance (edges : List K) (i : Nat) (v : K) : Decidable (InBin edges i v) :=
  match h1 : edges[i]?, h2 : edges[i + 1]? with
  | some a, some b => if h : a ≤ v ∧ (v < b ∨ i + 2 = edges.length ∧ v = b) then isTrue ⟨a, b, h1, h2, h.1, h.2⟩ else isFalse (by
      rintro ⟨a', b', e1, e2, h'⟩
      rw [h1] at e1; rw [h2] at e2
      cases e1; cases e2
      exact h h')
  | none, _ => isFalse (by rintro ⟨a', b', e1, _⟩; rw [h1] at e1; cases e1)
  | some _, none => isFalse (by rintro ⟨a', b', _, e2, _⟩; rw [h2] at e2; cases e2)

theorem monotone_tail {a : K} {l : List K} (h : monotone (a :: l) = true) : monotone l = true ∧ ∀ b ∈ l, a ≤ b := by
  induction l generalizing a with
  | nil => exact ⟨rfl, by simp⟩
  | cons b l ih =>
    unfold monotone at h
    rw [Bool.and_eq_true, decide_eq_true_iff] at h
    refine ⟨h.2, fun c hc => ?_⟩
    rcases List.mem_cons.1 hc with rfl | hc
    · exact h.1
    · exact h.1.trans ((ih h.2).2 c hc)

theorem countP_sub {α : Type} (l : List α) (p q : α → Bool) (h : ∀ x, p x = true → q x = true) : l.countP q - l.countP p = l.countP (fun x => q x && !p x) := by
  have : l.countP p + l.countP (fun x => q x && !p x) = l.countP q := by
    induction l with
    | nil => rfl
    | cons x l ih =>
      simp only [List.countP_cons]
      cases hp : p x <;> cases hq : q x <;> simp <;> first | omega | (have := h x hp; rw [hq] at this; simp at this)
  omega

theorem cum_length (vals edges : List K) : (cum vals edges).length = edges.length := by
  fun_induction cum vals edges <;> simp_all

theorem diffs_length (l : List Nat) : (diffs l).length = l.length - 1 := by
  fun_induction diffs l with
  | case1 a b l ih => simp [ih]
  | case2 l hl =>
    match l, hl with
    | [], _ => rfl
    | [_], _ => rfl
    | a :: b :: l, hl => exact absurd rfl (hl a b l)

theorem bins (vals edges : List K) (hm : monotone edges = true) (i : Nat) (hi : i + 1 < edges.length) :
    (diffs (cum vals edges)).getD i 0 = vals.countP (fun v => decide (InBin edges i v)) := by
  induction edges generalizing i with
  | nil => simp at hi
  | cons a l ih =>
    obtain ⟨hm', hle⟩ := monotone_tail hm
    match l, hi, hm', hle, ih with
    | [], hi, _, _, _ => simp at hi
    | [b], hi, hm', hle, ih =>
      have hi0 : i = 0 := by simp at hi; omega
      subst hi0
      have hab := hle b (by simp)
      simp only [cum, diffs, List.getD_cons_zero]
      rw [countP_sub _ _ _ (fun x hx => by simp only [decide_eq_true_iff] at hx ⊢; exact (hx.trans_le hab).le)]
      refine List.countP_congr (fun v _ => ?_)
      simp only [Bool.and_eq_true, Bool.not_eq_true', decide_eq_true_iff, decide_eq_false_iff_not, not_lt]
      constructor
      · rintro ⟨h1, h2⟩
        exact ⟨a, b, rfl, rfl, h2, (lt_or_eq_of_le h1).imp id (fun e => ⟨rfl, e⟩)⟩
      · rintro ⟨a', b', e1, e2, h1, h2⟩
        cases e1; cases e2
        exact ⟨h2.elim le_of_lt (fun e => e.2.le), h1⟩
    | b :: c :: l, hi, hm', hle, ih =>
      have hab := hle b (by simp)
      simp only [cum, diffs]
      cases i with
      | zero =>
        simp only [List.getD_cons_zero]
        rw [countP_sub _ _ _ (fun x hx => by simp only [decide_eq_true_iff] at hx ⊢; exact hx.trans_le hab)]
        refine List.countP_congr (fun v _ => ?_)
        simp only [Bool.and_eq_true, Bool.not_eq_true', decide_eq_true_iff, decide_eq_false_iff_not, not_lt]
        constructor
        · rintro ⟨h1, h2⟩
          exact ⟨a, b, rfl, rfl, h2, .inl h1⟩
        · rintro ⟨a', b', e1, e2, h1, h2⟩
          cases e1; cases e2
          exact ⟨h2.elim id (fun e => absurd e.1 (by simp)), h1⟩
      | succ i =>
        have := ih hm' i (by simpa using hi)
        simp only [cum] at this
        rw [List.getD_cons_succ, this]
        refine List.countP_congr (fun v _ => ?_)
        simp only [decide_eq_true_iff]
        unfold InBin
        simp only [List.getElem?_cons_succ, List.length_cons]
        constructor <;> rintro ⟨a', b', e1, e2, h1, h2⟩ <;> exact ⟨a', b', e1, e2, h1, h2.imp id (fun e => ⟨by omega, e.2⟩)⟩

/-- C57. For increasing edges the counts are, bin by bin, the number of values in the bin, one count per bin. -/
theorem histogram_bins (vals edges : List K) {cs : List Nat} (h : histogram vals edges = .ok cs) :
    cs.length = edges.length - 1 ∧ ∀ i (hi : i < cs.length), cs[i] = vals.countP (fun v => decide (InBin edges i v)) := by
  unfold histogram at h
  split at h
  · exact absurd h (by simp)
  rename_i hm
  simp only [Except.ok.injEq] at h
  subst h
  have hl : (diffs (cum vals edges)).length = edges.length - 1 := by
    rw [diffs_length, cum_length]
  refine ⟨hl, fun i hi => ?_⟩
  rw [← bins vals edges (by simpa using hm) i (by omega)]
  simp [hi]

/-- C57. Decreasing edges are refused with ValueError, all others are accepted; without edges there are no counts. -/
theorem histogram_refused (vals edges : List K) :
    (edges = [] → histogram vals edges = .ok []) ∧ ((¬ ∀ i (h : i + 1 < edges.length), edges[i] ≤ edges[i + 1]) → histogram vals edges = .error .value) ∧
    ((∀ i (h : i + 1 < edges.length), edges[i] ≤ edges[i + 1]) → ∃ cs, histogram vals edges = .ok cs) := by
  have key : monotone edges = true ↔ ∀ i (h : i + 1 < edges.length), edges[i] ≤ edges[i + 1] := by
    induction edges with
    | nil => simp [monotone]
    | cons a l ih =>
      cases l with
      | nil => simp [monotone]
      | cons b l =>
        unfold monotone
        rw [Bool.and_eq_true, decide_eq_true_iff, ih]
        constructor
        · rintro ⟨h1, h2⟩ i hi
          cases i with
          | zero => exact h1
          | succ i => exact h2 i (by simpa using hi)
        · intro h
          exact ⟨h 0 (by simp), fun i hi => h (i + 1) (by simpa using hi)⟩
  unfold histogram
  refine ⟨fun h => by subst h; rfl, fun h2 => ?_, fun h2 => ?_⟩
  · rw [if_pos]
    rw [← Bool.not_eq_true, key]
    exact h2
  · rw [key.2 h2]
    exact ⟨_, rfl⟩

/-- C57. A value between the first and last edge lies in exactly one bin; a value outside in none. -/
theorem one_bin (edges : List K) (hm : monotone edges = true) {first last : K} (hf : edges.head? = some first) (hl : edges.getLast? = some last) (h2 : 2 ≤ edges.length) (v : K) :
    (first ≤ v ∧ v ≤ last → ∃ i, InBin edges i v ∧ ∀ j, InBin edges j v → j = i) ∧ (¬ (first ≤ v ∧ v ≤ last) → ∀ i, ¬ InBin edges i v) := by
  induction edges generalizing first with
  | nil => simp at h2
  | cons a l ih =>
    obtain ⟨hm', hle⟩ := monotone_tail hm
    simp only [List.head?_cons, Option.some.injEq] at hf
    subst hf
    match l, hl, h2, hm', hle, ih with
    | [], _, h2, _, _, _ => simp at h2
    | [b], hl, _, _, hle, _ =>
      simp at hl
      subst hl
      constructor
      · rintro ⟨h1, h3⟩
        refine ⟨0, ⟨a, b, rfl, rfl, h1, (lt_or_eq_of_le h3).imp id (fun e => ⟨rfl, e⟩)⟩, ?_⟩
        rintro j ⟨a', b', e1, e2, _⟩
        have := (List.getElem?_eq_some_iff.1 e2).1
        simp at this
        omega
      · rintro hn j ⟨a', b', e1, e2, h1, h3⟩
        have hj := (List.getElem?_eq_some_iff.1 e2).1
        simp at hj
        obtain rfl : j = 0 := by omega
        cases e1; cases e2
        exact hn ⟨h1, h3.elim le_of_lt (fun e => e.2.le)⟩
    | b :: c :: l, hl, _, hm', hle, ih =>
      have hab := hle b (by simp)
      have hbl : ∀ x ∈ c :: l, b ≤ x := (monotone_tail hm').2
      obtain ⟨ih1, ih2⟩ := ih hm' rfl (by simpa using hl) (by simp)
      have shift : ∀ j, InBin (a :: b :: c :: l) (j + 1) v ↔ InBin (b :: c :: l) j v := by
        intro j
        unfold InBin
        simp only [List.getElem?_cons_succ, List.length_cons]
        constructor <;> rintro ⟨a', b', e1, e2, h1, h2⟩ <;> exact ⟨a', b', e1, e2, h1, h2.imp id (fun e => ⟨by omega, e.2⟩)⟩
      have zero : InBin (a :: b :: c :: l) 0 v ↔ a ≤ v ∧ v < b := by
        constructor
        · rintro ⟨a', b', e1, e2, h1, h2⟩
          cases e1; cases e2
          exact ⟨h1, h2.elim id (fun e => absurd e.1 (by simp))⟩
        · rintro ⟨h1, h2⟩
          exact ⟨a, b, rfl, rfl, h1, .inl h2⟩
      have hlast : last ∈ c :: l := by
        have : (c :: l).getLast? = some last := by simpa [List.getLast?_cons_cons] using hl
        exact List.mem_of_getLast? this
      constructor
      · rintro ⟨h1, h3⟩
        by_cases hv : v < b
        · refine ⟨0, zero.2 ⟨h1, hv⟩, fun j hj => ?_⟩
          cases j with
          | zero => rfl
          | succ j => exact absurd ((shift j).1 hj) (ih2 (fun h => absurd h.1 (not_le.2 hv)) j)
        · obtain ⟨i, hi, hu⟩ := ih1 ⟨not_lt.1 hv, h3⟩
          refine ⟨i + 1, (shift i).2 hi, fun j hj => ?_⟩
          cases j with
          | zero => exact absurd (zero.1 hj).2 hv
          | succ j => rw [hu j ((shift j).1 hj)]
      · intro hn i hi
        cases i with
        | zero =>
          obtain ⟨h1, h3⟩ := zero.1 hi
          exact hn ⟨h1, h3.le.trans (hbl last hlast)⟩
        | succ i =>
          refine ih2 (fun h => hn ⟨hab.trans h.1, h.2⟩) i ((shift i).1 hi)

theorem sum_countP {α : Type} (vals : List α) (n : Nat) (p : Nat → α → Bool) (q : α → Bool)
    (h : ∀ v, q v = true → ∃ i < n, p i v = true ∧ ∀ j < n, p j v = true → j = i) (h' : ∀ v, q v = false → ∀ i < n, p i v = false) :
    ((List.range n).map (fun i => vals.countP (p i))).sum = vals.countP q := by
  induction vals with
  | nil => simp
  | cons v vals ih =>
    simp only [List.countP_cons]
    rw [List.sum_map_add, ih]
    congr 1
    cases hq : q v with
    | false =>
      rw [List.map_congr_left (g := fun _ => 0) (fun i hi => by simp [h' v hq i (List.mem_range.1 hi)])]
      simp
    | true =>
      obtain ⟨i, hi, hp, hu⟩ := h v hq
      have : ∀ m ≤ n, ((List.range m).map (fun j => if p j v = true then 1 else 0)).sum = if i < m then 1 else 0 := by
        intro m hm
        induction m with
        | zero => simp
        | succ m ihm =>
          rw [List.range_succ, List.map_append, List.sum_append, ihm (by omega)]
          by_cases hmi : m = i
          · subst hmi; simp [hp]
          · have : p m v = false := by
              cases hpm : p m v with
              | false => rfl
              | true => exact absurd (hu m (by omega) hpm) hmi
            simp only [List.map_cons, List.map_nil, this]
            by_cases him : i < m
            · simp [him, Nat.lt_succ_of_lt him]
            · have : ¬ i < m + 1 := by omega
              simp [him, this]
      rw [this n (le_refl _), if_pos hi]
      rfl

/-- C57. The counts add up to the number of values between the first and the last edge. -/
theorem histogram_total (vals edges : List K) {cs : List Nat} {first last : K} (hf : edges.head? = some first) (hl : edges.getLast? = some last) (h2 : 2 ≤ edges.length)
    (h : histogram vals edges = .ok cs) : cs.sum = vals.countP (fun v => decide (first ≤ v ∧ v ≤ last)) := by
  obtain ⟨k1, k2⟩ := histogram_bins vals edges h
  have hm : monotone edges = true := by
    unfold histogram at h
    split at h
    · exact absurd h (by simp)
    rename_i hm
    simpa using hm
  have hcs : cs = (List.range cs.length).map (fun i => vals.countP (fun v => decide (InBin edges i v))) := by
    refine List.ext_getElem (by simp) (fun i h1 h2 => ?_)
    rw [k2 i h1]
    simp
  have hlt : ∀ i v, InBin edges i v → i < cs.length := by
    rintro i v ⟨a, b, e1, e2, _⟩
    have := (List.getElem?_eq_some_iff.1 e2).1
    omega
  rw [hcs]
  refine sum_countP vals cs.length _ _ (fun v hv => ?_) (fun v hv i hi => ?_)
  · obtain ⟨i, hi, hu⟩ := (one_bin edges hm hf hl h2 v).1 (by simpa using hv)
    exact ⟨i, hlt i v hi, by simpa using hi, fun j _ hj => hu j (by simpa using hj)⟩
  · have := (one_bin edges hm hf hl h2 v).2 (by simpa using hv) i
    simpa using this

/-- C57. What one channel's histogram counts: in bin i, the records strictly inside the time range, good, passing g_func, with a value (not NaN) in the bin. -/
theorem channel_hist {T : Type} [LinearOrder T] (edges : List K) (t0 tlast : T) (c : List (Rec K T)) {cs : List Nat} (h : chanHist edges t0 tlast c = .ok cs) :
    cs.length = edges.length - 1 ∧ ∀ i (hi : i < cs.length),
      cs[i] = c.countP (fun r => decide (t0 < r.time ∧ r.time < tlast ∧ r.good = true ∧ r.extra = true ∧ ∃ v ∈ r.val, InBin edges i v)) := by
  obtain ⟨k1, k2⟩ := histogram_bins _ _ h
  refine ⟨k1, fun i hi => ?_⟩
  rw [k2 i hi]
  unfold usedVals
  rw [List.countP_filterMap]
  refine List.countP_congr (fun r _ => ?_)
  obtain ⟨val, time, good, extra⟩ := r
  cases val with
  | none => simp
  | some v => cases good <;> cases extra <;> simp [and_assoc] <;> split <;> simp_all

/-- C57. The same for OFF files: values that are NaN after the calibration are not counted. -/
theorem off_hist (edges : List K) (cal : Option K → Option K) (vals : List (Option K)) {cs : List Nat} (h : offHist edges cal vals = .ok cs) :
    cs.length = edges.length - 1 ∧ ∀ i (hi : i < cs.length), cs[i] = vals.countP (fun o => decide (∃ v ∈ cal o, InBin edges i v)) := by
  obtain ⟨k1, k2⟩ := histogram_bins _ _ h
  refine ⟨k1, fun i hi => ?_⟩
  rw [k2 i hi, List.countP_filterMap]
  refine List.countP_congr (fun o _ => ?_)
  cases cal o <;> simp

theorem dictSet_new {V : Type} (d : List (Nat × V)) (k : Nat) (v : V) (h : k ∉ d.map Prod.fst) : dictSet d k v = d ++ [(k, v)] := by
  unfold dictSet
  rw [if_neg]
  intro ha
  obtain ⟨p, hp, hk⟩ := List.any_eq_true.1 ha
  exact h (List.mem_map.2 ⟨p, hp, by simpa using hk⟩)

theorem hists_spec {C : Type} (h : C → Except Exc (List Nat)) (cs : List (Nat × C)) (d d' : List (Nat × List Nat)) (hn : (d.map Prod.fst ++ cs.map Prod.fst).Nodup)
    (hok : hists h cs d = .ok d') : ∃ vs : List (List Nat), cs.map (fun c => h c.2) = vs.map .ok ∧ d' = d ++ (cs.map Prod.fst).zip vs := by
  induction cs generalizing d with
  | nil => simp only [hists, Except.ok.injEq] at hok; subst hok; exact ⟨[], by simp⟩
  | cons c cs ih =>
    obtain ⟨n, c⟩ := c
    unfold hists at hok
    cases hc : h c with
    | error x => rw [hc] at hok; exact absurd hok (by simp)
    | ok v =>
      rw [hc] at hok
      dsimp only at hok
      have hnd : n ∉ d.map Prod.fst := by
        intro hm
        exact (List.nodup_append.1 hn).2.2 n hm n (by simp) rfl
      rw [dictSet_new d n v hnd] at hok
      obtain ⟨vs, h1, h2⟩ := ih (d ++ [(n, v)]) (by simpa using hn) hok
      exact ⟨v :: vs, by simp [hc, h1], by simp [h2]⟩

theorem fold_add (vs : List (List Nat)) (ns : List Nat) (hl : ns.length = vs.length) (acc : List Nat) (hv : ∀ v ∈ vs, v.length = acc.length) :
    ((ns.zip vs).foldl (fun acc p => List.zipWith (· + ·) acc p.2) acc).length = acc.length ∧
    ∀ i, ((ns.zip vs).foldl (fun acc p => List.zipWith (· + ·) acc p.2) acc).getD i 0 = acc.getD i 0 + (vs.map (fun v => v.getD i 0)).sum := by
  induction vs generalizing ns acc with
  | nil => simp
  | cons v vs ih =>
    cases ns with
    | nil => simp at hl
    | cons n ns =>
      have hva := hv v (by simp)
      simp only [List.zip_cons_cons, List.foldl_cons]
      obtain ⟨i1, i2⟩ := ih ns (by simpa using hl) (List.zipWith (· + ·) acc v) (fun w hw => by rw [hv w (by simp [hw])]; simp [hva])
      refine ⟨by rw [i1]; simp [hva], fun i => ?_⟩
      rw [i2, List.map_cons, List.sum_cons, ← Nat.add_assoc]
      congr 1
      by_cases hi : i < acc.length
      · simp [List.getD_eq_getElem?_getD, List.getElem?_zipWith, hi, hva ▸ hi]
      · have h1 : acc[i]? = none := List.getElem?_eq_none (by omega)
        have h2 : v[i]? = none := List.getElem?_eq_none (by omega)
        simp [List.getD_eq_getElem?_getD, List.getElem?_zipWith, h1, h2]

/-- C57. With distinct channel numbers the group histogram is, bin by bin, the sum of the histograms of its channels. -/
theorem group_hist {C : Type} (nbins : Nat) (h : C → Except Exc (List Nat)) (cs : List (Nat × C)) (hn : (cs.map Prod.fst).Nodup)
    (hlen : ∀ c ∈ cs, ∀ v, h c.2 = .ok v → v.length = nbins) {total : List Nat} (hok : groupHist nbins h cs = .ok total) :
    total.length = nbins ∧ ∃ vs : List (List Nat), cs.map (fun c => h c.2) = vs.map .ok ∧ ∀ i, total.getD i 0 = (vs.map (fun v => v.getD i 0)).sum := by
  unfold groupHist at hok
  cases hd : hists h cs [] with
  | error x => rw [hd] at hok; exact absurd hok (by simp)
  | ok d =>
    rw [hd] at hok
    simp only [Except.ok.injEq] at hok
    obtain ⟨vs, h1, h2⟩ := hists_spec h cs [] d (by simpa using hn) hd
    rw [List.nil_append] at h2
    subst h2
    have hl : (cs.map Prod.fst).length = vs.length := by have := congrArg List.length h1; simpa using this
    have hv : ∀ v ∈ vs, v.length = (List.replicate nbins 0).length := by
      intro v hv
      have : Except.ok v ∈ cs.map (fun c => h c.2) := by rw [h1]; exact List.mem_map.2 ⟨v, hv, rfl⟩
      obtain ⟨c, hc, he⟩ := List.mem_map.1 this
      rw [List.length_replicate]
      exact hlen c hc v he
    obtain ⟨f1, f2⟩ := fold_add vs _ hl _ hv
    rw [hok] at f1 f2
    refine ⟨by rw [f1]; simp, vs, h1, fun i => ?_⟩
    rw [f2]
    have : (List.replicate nbins 0).getD i 0 = 0 := by
      rw [List.getD_eq_getElem?_getD, List.getElem?_replicate]
      split <;> rfl
    rw [this, Nat.zero_add]

/-- the group histogram needs distinct channel numbers: of two channels with one number only the last is counted -/
theorem group_hist_same_number_fails : groupHist 1 (fun v : List ℚ => histogram v [0, 10]) [(1, [5]), (1, [6])] = .ok [1] := by decide +kernel

/-- instances -/
example : histogram [1, 2, 2, 3, 9, (0 : ℚ)] [1, 2, 3] = .ok [1, 3] := by decide +kernel
example : histogram [(1 : ℚ)] [2, 1] = .error .value := by decide +kernel
example : chanHist [0, 10] (0 : Int) 100 [⟨some (5 : ℚ), 5, true, true⟩, ⟨none, 5, true, true⟩, ⟨some 5, 0, true, true⟩, ⟨some 5, 99, false, true⟩] = .ok [1] := by decide +kernel
example : offHist [0, 10] (fun o => o.map (· * 2)) [some (4 : ℚ), none, some 6] = .ok [1] := by decide +kernel
example : groupHist 2 (fun v : List ℚ => histogram v [0, 10, 20]) [(1, [5, 15]), (3, [6, 20])] = .ok [2, 2] := by decide +kernel

end Mass.Stat.Hist
