import Verif.Stat.Crosstalk
import Mathlib.Data.Set.Card
import Mathlib.Data.List.Sort
import Mathlib.Tactic.Linarith
import Mathlib.Tactic.Ring
/-! C106: lists of neighbouring channels, `set_nearest_neighbors_list` of mass/core/channel.py L2380-2498, and the choice of neighbours in
`flag_crosstalking_pulses`, L2306-2378. -/
namespace Mass.Stat.Neighbors
open Mass

/-! ### model -/

/-- the map file: channel numbers with positions, in the order of the file (channel.py L2460-2463) -/
abbrev Map := List (Int × List Int)

/-- a row of `neighbors_list`: channel number, squared distance, n of "n-th nearest neighbour" (channel.py L2436-2439) -/
abbrev Row := Int × Int × Int

/-- `positionValues[ch == channelNumbers][0]` (channel.py L2432, L2485); `none` is the IndexError when there is no such channel -/
def posOf (m : Map) (ch : Int) : Option (List Int) := (m.find? (fun e => e.1 == ch)).map Prod.snd

/-- column `j` of the positions (used for channel.py L2409) -/
def col (m : Map) (j : Nat) : List Int := m.map (fun e => e.2.getD j 0)

/-- `np.amax` of a column (used for channel.py L2409) -/
def amax : List Int → Int
  | [] => 0
  | a :: t => t.foldl max a

/-- `np.amin` of a column (used for channel.py L2409) -/
def amin : List Int → Int
  | [] => 0
  | a :: t => t.foldl min a

/-- channel.py L2409 `maxDistances` -/
def extents (m : Map) (nDims : Nat) : List Int := (List.range nDims).map (fun j => amax (col m j) - amin (col m j))

/-- channel.py L2411-2423 `allSquaredDistances`: a square of a distance up to the maximum in every dimension, in every combination, summed (the order
of the meshgrid is lost in L2425) -/
def possible : List Int → List Int
  | [] => [0]
  | e :: es => (List.range (e + 1).toNat).flatMap (fun k : Nat => (possible es).map (fun s => (k : Int) ^ 2 + s))

/-- `np.unique` (channel.py L2425) -/
def unique (l : List Int) : List Int := l.dedup.insertionSort (· ≤ ·)

/-- channel.py L2433-2435 `squaredDistance` (whole numbers, as the positions are) -/
def sqdist (p q : List Int) : Int := (List.zipWith (fun a b => (a - b) ^ 2) p q).sum

/-- channel.py L2426-2430 and L2438-2439: the value under the key `s` of the dictionary that numbers the unique distances; KeyError -/
def nth (u : List Int) (s : Int) : Except Exc Int :=
  match u.findIdx? (· == s) with
  | none => .error .key
  | some k => .ok k

/-- channel.py L2431-2439: one turn of the loop over the channels of the map, for a channel at `v` -/
def row (m : Map) (u : List Int) (v : List Int) (ch : Int) : Except Exc Row :=
  match posOf m ch with
  | none => .error .index
  | some p => (nth u (sqdist v p)).map (fun n => (ch, sqdist v p, n))

/-- channel.py L2400-2439 `calculate_cartesian_squared_distances`. Without coordinates there is no `possibleSquaredCombinations[0]`: IndexError. -/
def cartesian (m : Map) (nDims : Nat) (v : List Int) : Except Exc (List Row) :=
  if nDims = 0 then .error .index
  else m.mapM (fun e => row m (unique (possible (extents m nDims))) v e.1)

/-- channel.py L2380-2498 `set_nearest_neighbors_list` for one channel and one category: the stored list (`none`: there is none) before and after.
Simplified: rows are stored all at once; that a stored list of positions has another number of coordinates is not considered.
A map of one line is read as a one-dimensional array (L2460-2461: IndexError). -/
def setList (stored : Option (List Row)) (m : Map) (channum : Int) (distanceType : String) (forceNew : Bool) :
    Option (List Row) × Except Exc Unit :=
  if m.length < 2 then (stored, .error .index)
  else
    let nDims := (m.headD (0, [])).2.length
    let l := stored.getD (m.map (fun _ => (0, 0, 0)))
    if l.length ≠ m.length then (stored, .error .type)
    else if l.any (fun r => r != (0, 0, 0)) && !forceNew then (some l, .ok ())
    else
      match posOf m channum with
      | none => (some l, .error .index)
      | some v =>
        if distanceType ≠ "cartesian" then (some l, .error .exception)
        else
          match cartesian m nDims v with
          | .error e => (some l, .error e)
          | .ok r => (some r, .ok ())

/-- an element of an object array: a number, or the view of a dictionary's keys as one object (used for channel.py L2352, L2369) -/
inductive Obj
  | num (n : Int)
  | keys (l : List Int)
  deriving DecidableEq

/-- channel.py L2352, L2369 `np.sum(np.isin(self.tes_group.channel.keys(), selectNeighbors))`: the keys of a dictionary are not a sequence, so numpy
makes an array of one element of them, the view itself -/
def countIn (chans sel : List Int) : Nat := ([Obj.keys chans].filter (fun e => decide (e ∈ sel.map Obj.num))).length

/-- channel.py L2349-2350, L2367-2368: the channels at the distances asked for -/
def select (rows : List Row) (dists : List Int) : List Int := (rows.filter (fun r => decide (r.2.2 ∈ dists))).map Prod.fst

/-- channel.py L2306-2378 from the flags stored so far (`none`: there are none) to those after. `cats` are the neighbour lists per category (`none`: not
set), `flagging` is `crosstalk_flagging_loop`, given neighbours; `oldH5` says that h5py is older than 3.0 and a dataset has the attribute
`value` (L2347, L2366). Not modelled: the separate arrays per category. -/
def flagPulses (oldH5 combine forceNew : Bool) (nPulses : Nat) (cats : Option (List (List Row))) (dists chans : List Int)
    (flagging : List Int → List Bool) (stored : Option (List Bool)) : Option (List Bool) × Except Exc Unit :=
  match cats with
  | none => (stored, .ok ())
  | some cs =>
    let f := stored.getD (List.replicate nPulses false)
    if f.any id && !forceNew then (some f, .ok ())
    else if combine then
      match cs.getLast? with
      | none => (some f, .error .unbound)
      | some last =>
        if !oldH5 then (some f, .error .attribute)
        else if 0 < countIn chans (select last dists) then
          (some (flagging ((cs.flatMap (fun c => select c dists)).dedup.insertionSort (· ≤ ·))), .ok ())
        else (some f, .ok ())
    else
      if !oldH5 && cs ≠ [] then (some f, .error .attribute)
      else (some (cs.foldl (fun f c => if 0 < countIn chans (select c dists)
        then List.zipWith or f (flagging (select c dists)) else f) f), .ok ())

/-! ### specification -/

/-- `s` is a squared distance between two points of a grid that has these extents [specification] -/
def GridDistance (ext : List Int) (s : Int) : Prop := ∃ ks : List Int, List.Forall₂ (fun k e => 0 ≤ k ∧ k ≤ e) ks ext ∧ s = (ks.map (· ^ 2)).sum

/-- the map has at least two channels, all with `d > 0` coordinates [specification] -/
def Rect (m : Map) (d : Nat) : Prop := 2 ≤ m.length ∧ 0 < d ∧ ∀ e ∈ m, e.2.length = d

/-! ### proofs -/

theorem sum_nonneg' {l : List Int} (h : ∀ x ∈ l, 0 ≤ x) : 0 ≤ l.sum := by
  induction l with
  | nil => simp
  | cons a t ih =>
    have h1 := h a List.mem_cons_self
    have h2 := ih (fun x hx => h x (List.mem_cons_of_mem _ hx))
    rw [List.sum_cons]; omega

theorem possible_iff (ext : List Int) (s : Int) : s ∈ possible ext ↔ GridDistance ext s := by
  induction ext generalizing s with
  | nil =>
    simp only [possible, List.mem_singleton]
    constructor
    · rintro rfl; exact ⟨[], .nil, rfl⟩
    · rintro ⟨ks, h, rfl⟩; cases h; rfl
  | cons e es ih =>
    simp only [possible, List.mem_flatMap, List.mem_range, List.mem_map]
    constructor
    · rintro ⟨k, hk, t, ht, rfl⟩
      obtain ⟨ks, h1, rfl⟩ := (ih t).1 ht
      exact ⟨(k : Int) :: ks, .cons ⟨by omega, by omega⟩ h1, by simp⟩
    · rintro ⟨ks, h, rfl⟩
      cases h with
      | cons hk h =>
        rename_i k ks
        refine ⟨k.toNat, by omega, (ks.map (· ^ 2)).sum, (ih _).2 ⟨ks, h, rfl⟩, ?_⟩
        rw [Int.toNat_of_nonneg hk.1]; simp

theorem unique_mem (l : List Int) (s : Int) : s ∈ unique l ↔ s ∈ l := by
  unfold unique; rw [List.mem_insertionSort, List.mem_dedup]

theorem unique_sorted (l : List Int) : (unique l).Pairwise (· < ·) := by
  have h1 : (unique l).Pairwise (· ≤ ·) := List.pairwise_insertionSort _ _
  have h2 : (unique l).Nodup := (List.perm_insertionSort _ _).nodup_iff.2 (List.nodup_dedup l)
  exact (h1.and h2).imp (fun h => lt_of_le_of_ne h.1 h.2)

/-- the position of an element of an ascending list is the number of elements less than it -/
theorem findIdx_rank {u : List Int} (hu : u.Pairwise (· < ·)) {s : Int} (hs : s ∈ u) :
    u.findIdx? (· == s) = some (u.filter (fun t => decide (t < s))).length := by
  induction u with
  | nil => simp at hs
  | cons a t ih =>
    obtain ⟨ha, ht⟩ := List.pairwise_cons.1 hu
    by_cases h : a = s
    · subst h
      have h0 : (a :: t).filter (fun x => decide (x < a)) = [] := by
        rw [List.filter_eq_nil_iff]
        intro x hx
        rcases List.mem_cons.1 hx with rfl | hx
        · simp
        · have := ha x hx; simp; omega
      rw [h0]; simp [List.findIdx?_cons]
    · have hst : s ∈ t := (List.mem_cons.1 hs).resolve_left (fun e => h e.symm)
      have := ha s hst
      rw [List.findIdx?_cons, List.filter_cons_of_pos (by simpa using this), ih ht hst]
      simp [h]

theorem filter_ncard {u : List Int} (hu : u.Pairwise (· < ·)) (s : Int) :
    (u.filter (fun t => decide (t < s))).length = {t | t ∈ u ∧ t < s}.ncard := by
  have hn : (u.filter (fun t => decide (t < s))).Nodup := (hu.imp (fun h => ne_of_lt h)).filter _
  rw [← List.toFinset_card_of_nodup hn, ← Set.ncard_coe_finset]
  congr 1
  ext t
  simp

theorem nth_rank {ext : List Int} {s : Int} (hs : GridDistance ext s) :
    nth (unique (possible ext)) s = .ok ({t | GridDistance ext t ∧ t < s}.ncard : Int) := by
  have hm : s ∈ unique (possible ext) := (unique_mem _ _).2 ((possible_iff _ _).2 hs)
  unfold nth
  rw [findIdx_rank (unique_sorted _) hm, filter_ncard (unique_sorted _)]
  simp only [unique_mem, possible_iff]

theorem foldl_max_ge (l : List Int) (a : Int) : a ≤ l.foldl max a ∧ ∀ x ∈ l, x ≤ l.foldl max a := by
  induction l generalizing a with
  | nil => simp
  | cons b t ih =>
    obtain ⟨h1, h2⟩ := ih (max a b)
    simp only [List.foldl_cons]
    refine ⟨le_trans (le_max_left _ _) h1, ?_⟩
    intro x hx
    rcases List.mem_cons.1 hx with rfl | hx
    · exact le_trans (le_max_right _ _) h1
    · exact h2 x hx

theorem foldl_min_le (l : List Int) (a : Int) : l.foldl min a ≤ a ∧ ∀ x ∈ l, l.foldl min a ≤ x := by
  induction l generalizing a with
  | nil => simp
  | cons b t ih =>
    obtain ⟨h1, h2⟩ := ih (min a b)
    simp only [List.foldl_cons]
    refine ⟨le_trans h1 (min_le_left _ _), ?_⟩
    intro x hx
    rcases List.mem_cons.1 hx with rfl | hx
    · exact le_trans h1 (min_le_right _ _)
    · exact h2 x hx

theorem amax_ge {l : List Int} {x : Int} (h : x ∈ l) : x ≤ amax l := by
  cases l with
  | nil => simp at h
  | cons a t =>
    rcases List.mem_cons.1 h with rfl | h
    · exact (foldl_max_ge t x).1
    · exact (foldl_max_ge t a).2 x h

theorem amin_le {l : List Int} {x : Int} (h : x ∈ l) : amin l ≤ x := by
  cases l with
  | nil => simp at h
  | cons a t =>
    rcases List.mem_cons.1 h with rfl | h
    · exact (foldl_min_le t x).1
    · exact (foldl_min_le t a).2 x h

/-- the squared distance of two channels of the map is one of the grid -/
theorem sqdist_grid {m : Map} {d : Nat} (hm : ∀ e ∈ m, e.2.length = d) {p q : Int × List Int} (hp : p ∈ m) (hq : q ∈ m) :
    GridDistance (extents m d) (sqdist p.2 q.2) := by
  refine ⟨List.zipWith (fun a b => |a - b|) p.2 q.2, ?_, ?_⟩
  · rw [List.forall₂_iff_get]
    have h1 := hm p hp
    have h2 := hm q hq
    refine ⟨by simp [extents, h1, h2], ?_⟩
    intro i h3 h4
    have hi : i < d := by simpa [extents] using h4
    have hcol : ∀ e ∈ m, e.2.getD i 0 ∈ col m i := fun e he => List.mem_map_of_mem he
    have e1 : p.2.getD i 0 = p.2[i]'(by omega) := by rw [List.getD_eq_getElem?_getD, List.getElem?_eq_getElem (by omega)]; rfl
    have e2 : q.2.getD i 0 = q.2[i]'(by omega) := by rw [List.getD_eq_getElem?_getD, List.getElem?_eq_getElem (by omega)]; rfl
    have a1 := amax_ge (hcol p hp)
    have a2 := amax_ge (hcol q hq)
    have b1 := amin_le (hcol p hp)
    have b2 := amin_le (hcol q hq)
    rw [e1] at a1 b1
    rw [e2] at a2 b2
    simp only [List.get_eq_getElem, List.getElem_zipWith, extents, List.getElem_map, List.getElem_range]
    refine ⟨abs_nonneg _, abs_le.2 ⟨by omega, by omega⟩⟩
  · unfold sqdist
    rw [List.map_zipWith]
    congr 2
    funext a b
    exact (sq_abs _).symm

theorem posOf_mem {m : Map} {ch : Int} {v : List Int} (h : posOf m ch = some v) : (ch, v) ∈ m := by
  unfold posOf at h
  cases hf : m.find? (fun e => e.1 == ch) with
  | none => rw [hf] at h; simp at h
  | some e =>
    rw [hf] at h
    simp only [Option.map_some, Option.some.injEq] at h
    have h1 := List.mem_of_find?_eq_some hf
    have h2 : e.1 = ch := by simpa using List.find?_some hf
    rw [← h, ← h2]
    exact h1

theorem posOf_isSome {m : Map} {e : Int × List Int} (he : e ∈ m) : ∃ p, posOf m e.1 = some p := by
  unfold posOf
  cases hf : m.find? (fun x => x.1 == e.1) with
  | none => exact absurd (List.find?_eq_none.1 hf e he) (by simp)
  | some x => exact ⟨x.2, rfl⟩

theorem mapM_ok {A B : Type} (f : A → Except Exc B) (P : A → B → Prop) (l : List A) (h : ∀ x ∈ l, ∃ y, f x = .ok y ∧ P x y) :
    ∃ r, l.mapM f = .ok r ∧ List.Forall₂ P l r := by
  induction l with
  | nil => exact ⟨[], rfl, .nil⟩
  | cons a t ih =>
    obtain ⟨y, hy, hP⟩ := h a List.mem_cons_self
    obtain ⟨r, hr, hF⟩ := ih (fun x hx => h x (List.mem_cons_of_mem _ hx))
    refine ⟨y :: r, ?_, .cons hP hF⟩
    rw [List.mapM_cons, hy, hr]
    rfl

/-- C106. For every map with at least two channels and coordinates, a channel in it gets, for every channel of the map in the order of the map, the
squared distance and the number of squared distances on the grid that are less; no lookup fails. Nothing else decides the list. -/
theorem neighbors_list {m : Map} {d : Nat} (hm : Rect m d) {channum : Int} {v : List Int} (hv : posOf m channum = some v)
    {stored : Option (List Row)} (hs : ∀ l, stored = some l → l.length = m.length) {force : Bool}
    (hf : force = true ∨ ∀ l, stored = some l → ∀ r ∈ l, r = (0, 0, 0)) :
    ∃ r, setList stored m channum "cartesian" force = (some r, .ok ()) ∧
      List.Forall₂ (fun (e : Int × List Int) (r : Row) => r.1 = e.1 ∧ ∃ q, posOf m e.1 = some q ∧ r.2.1 = sqdist v q ∧
        r.2.2 = {t | GridDistance (extents m d) t ∧ t < sqdist v q}.ncard) m r := by
  obtain ⟨h2, hd, hall⟩ := hm
  have hlen : (stored.getD (m.map (fun _ => ((0, 0, 0) : Row)))).length = m.length := by
    cases stored with
    | none => simp
    | some l => exact hs l rfl
  have hany : ((stored.getD (m.map (fun _ => ((0, 0, 0) : Row)))).any (fun r => r != (0, 0, 0)) && !force) = false := by
    rcases hf with rfl | hz
    · simp
    · have : (stored.getD (m.map (fun _ => ((0, 0, 0) : Row)))).any (fun r => r != (0, 0, 0)) = false := by
        rw [List.any_eq_false]
        intro r hr
        cases stored with
        | none =>
          obtain ⟨e, -, rfl⟩ := List.mem_map.1 hr
          simp
        | some l => simp [hz l rfl r hr]
      rw [this]; rfl
  have hnd : (m.headD (0, [])).2.length = d := by
    cases m with
    | nil => simp at h2
    | cons e t => exact hall e List.mem_cons_self
  obtain ⟨r, hr, hF⟩ := mapM_ok (fun e : Int × List Int => row m (unique (possible (extents m d))) v e.1)
    (fun e r => r.1 = e.1 ∧ ∃ q, posOf m e.1 = some q ∧ r.2.1 = sqdist v q ∧
        r.2.2 = {t | GridDistance (extents m d) t ∧ t < sqdist v q}.ncard) m (by
      intro e he
      obtain ⟨q, hq⟩ := posOf_isSome he
      have hg := sqdist_grid hall (posOf_mem hv) (posOf_mem hq)
      refine ⟨(e.1, sqdist v q, _), ?_, rfl, q, hq, rfl, rfl⟩
      unfold row
      rw [hq]
      simp only [nth_rank hg, Except.map])
  refine ⟨r, ?_, hF⟩
  unfold setList
  rw [if_neg (by omega)]
  simp only [hlen, ne_eq, not_true_eq_false, if_false, hany, hv, hnd]
  have hcart : cartesian m d v = .ok r := by
    unfold cartesian
    rw [if_neg (by omega), hr]
  simp [hcart]

/-- C106, instance: a 2 × 3 array seen from the corner: the squared distances on the grid are 0, 1, 2, 4, 5 -/
example : setList none [(1, [0, 0]), (3, [0, 1]), (5, [0, 2]), (7, [1, 0]), (9, [1, 1]), (11, [1, 2])] 1 "cartesian" false =
    (some [(1, 0, 0), (3, 1, 1), (5, 4, 3), (7, 1, 1), (9, 2, 2), (11, 5, 4)], .ok ()) := by decide +kernel

theorem grid_finite (ext : List Int) (s : Int) : {t | GridDistance ext t ∧ t < s}.Finite := by
  refine Set.Finite.subset (List.finite_toSet (possible ext)) ?_
  rintro t ⟨h, -⟩
  exact (possible_iff ext t).2 h

/-- C106. Of two channels the one at the lesser distance has the lesser n; equal distances have equal n. -/
theorem nearer_iff {ext : List Int} {s t : Int} (hs : GridDistance ext s) (_ht : GridDistance ext t) :
    {u | GridDistance ext u ∧ u < s}.ncard < {u | GridDistance ext u ∧ u < t}.ncard ↔ s < t := by
  constructor
  · intro h
    by_contra hle
    have : {u | GridDistance ext u ∧ u < t}.ncard ≤ {u | GridDistance ext u ∧ u < s}.ncard :=
      Set.ncard_le_ncard (fun u hu => ⟨hu.1, lt_of_lt_of_le hu.2 (not_lt.1 hle)⟩) (grid_finite ext s)
    omega
  · intro h
    refine Set.ncard_lt_ncard ⟨fun u hu => ⟨hu.1, lt_trans hu.2 h⟩, ?_⟩ (grid_finite ext t)
    intro hsub
    exact absurd (hsub ⟨hs, h⟩).2 (lt_irrefl s)

theorem grid_nonneg {ext : List Int} {s : Int} (h : GridDistance ext s) : 0 ≤ s := by
  obtain ⟨ks, -, rfl⟩ := h
  refine sum_nonneg' ?_
  intro x hx
  obtain ⟨k, -, rfl⟩ := List.mem_map.1 hx
  exact sq_nonneg k

theorem extents_nonneg {m : Map} {d : Nat} (hne : m ≠ []) {e : Int} (he : e ∈ extents m d) : 0 ≤ e := by
  obtain ⟨j, -, rfl⟩ := List.mem_map.1 he
  cases m with
  | nil => exact absurd rfl hne
  | cons x t =>
    have h : x.2.getD j 0 ∈ col (x :: t) j := List.mem_map_of_mem List.mem_cons_self
    have := amax_ge h
    have := amin_le h
    omega

/-- a grid that has a second point has squared distances 0 and 1 -/
theorem grid_zero {ext : List Int} (h : ∀ e ∈ ext, 0 ≤ e) : GridDistance ext 0 := by
  induction ext with
  | nil => exact ⟨[], .nil, rfl⟩
  | cons e es ih =>
    obtain ⟨ks, h1, h2⟩ := ih (fun x hx => h x (List.mem_cons_of_mem _ hx))
    exact ⟨0 :: ks, .cons ⟨le_refl _, h e List.mem_cons_self⟩ h1, by simp [← h2]⟩

theorem grid_one {ext : List Int} (h : ∀ e ∈ ext, 0 ≤ e) (h1 : ∃ e ∈ ext, 1 ≤ e) : GridDistance ext 1 := by
  induction ext with
  | nil => obtain ⟨e, he, -⟩ := h1; simp at he
  | cons e es ih =>
    have hes : ∀ x ∈ es, 0 ≤ x := fun x hx => h x (List.mem_cons_of_mem _ hx)
    by_cases he : 1 ≤ e
    · obtain ⟨ks, h2, h3⟩ := grid_zero hes
      exact ⟨1 :: ks, .cons ⟨by omega, he⟩ h2, by simp [← h3]⟩
    · obtain ⟨x, hx, hx1⟩ := h1
      have hxe : x ∈ es := (List.mem_cons.1 hx).resolve_left (fun e' => he (e' ▸ hx1))
      obtain ⟨ks, h2, h3⟩ := ih hes ⟨x, hxe, hx1⟩
      exact ⟨0 :: ks, .cons ⟨le_refl _, h e List.mem_cons_self⟩ h2, by simp [← h3]⟩

theorem sqdist_zero {p q : List Int} (h : p.length = q.length) : sqdist p q = 0 ↔ p = q := by
  induction p generalizing q with
  | nil => cases q with
    | nil => simp [sqdist]
    | cons b q => simp at h
  | cons a p ih =>
    cases q with
    | nil => simp at h
    | cons b q =>
      have h' : p.length = q.length := by simpa using h
      have hn : ∀ p q : List Int, 0 ≤ sqdist p q := by
        intro p q
        refine sum_nonneg' ?_
        intro x hx
        obtain ⟨i, hi, rfl⟩ := List.getElem_of_mem hx
        rw [List.getElem_zipWith]
        exact sq_nonneg _
      have he : sqdist (a :: p) (b :: q) = (a - b) ^ 2 + sqdist p q := by simp [sqdist]
      rw [he, List.cons.injEq, ← ih h']
      have := sq_nonneg (a - b)
      have := hn p q
      constructor
      · intro h0
        have h1 : (a - b) ^ 2 = 0 := by omega
        have h2 : a - b = 0 := pow_eq_zero_iff (two_ne_zero) |>.1 h1
        exact ⟨by omega, by omega⟩
      · rintro ⟨rfl, h2⟩
        simp [h2]

/-- C106. The n of a row is 0 exactly for channels at the same place, and 1 exactly for channels one step away along one coordinate (squared distance
1). -/
theorem neighbor_numbers {m : Map} {d : Nat} (hm : Rect m d) {v q : List Int} {c c' : Int} (hv : posOf m c = some v) (hq : posOf m c' = some q) :
    ({t | GridDistance (extents m d) t ∧ t < sqdist v q}.ncard = 0 ↔ v = q) ∧
      ((∃ e ∈ extents m d, 1 ≤ e) → ({t | GridDistance (extents m d) t ∧ t < sqdist v q}.ncard = 1 ↔ sqdist v q = 1)) := by
  obtain ⟨h2, hd, hall⟩ := hm
  have hne : m ≠ [] := by rintro rfl; simp at h2
  have hext : ∀ e ∈ extents m d, 0 ≤ e := fun e he => extents_nonneg hne he
  have hg : GridDistance (extents m d) (sqdist v q) := sqdist_grid hall (posOf_mem hv) (posOf_mem hq)
  have hg0 := grid_zero hext
  have hlen : v.length = q.length := by rw [hall _ (posOf_mem hv), hall _ (posOf_mem hq)]
  have z0 : {t | GridDistance (extents m d) t ∧ t < 0}.ncard = 0 := by
    rw [Set.ncard_eq_zero (grid_finite _ _)]
    ext t
    simp only [Set.mem_ofPred_eq, Set.mem_empty_iff_false, iff_false, not_and, not_lt]
    exact fun h => grid_nonneg h
  have nn := grid_nonneg hg
  constructor
  · rw [← sqdist_zero hlen]
    constructor
    · intro h
      by_contra hne0
      have h1 : (0 : Int) < sqdist v q := by omega
      have := (nearer_iff hg0 hg).2 h1
      omega
    · intro h; rw [h]; exact z0
  · intro hex
    have hg1 := grid_one hext hex
    have z1 : {t | GridDistance (extents m d) t ∧ t < 1}.ncard = 1 := by
      rw [Set.ncard_eq_one]
      refine ⟨0, ?_⟩
      ext t
      simp only [Set.mem_ofPred_eq, Set.mem_singleton_iff]
      constructor
      · rintro ⟨h, hlt⟩
        have := grid_nonneg h
        omega
      · rintro rfl; exact ⟨hg0, by omega⟩
    constructor
    · intro h
      rcases lt_trichotomy (sqdist v q) 1 with hlt | heq | hgt
      · have := (nearer_iff hg hg1).2 hlt
        have h0 : sqdist v q = 0 := by omega
        rw [h0, z0] at h
        omega
      · exact heq
      · have := (nearer_iff hg1 hg).2 hgt
        omega
    · intro h; rw [h]; exact z1

/-- C106. The neighbours chosen for numbers `ns` are exactly the channels of the map whose squared distance has, on the grid, as many lesser ones as one of the `ns` says. -/
theorem selected_neighbors {m : Map} {d : Nat} (hm : Rect m d) {channum : Int} {v : List Int} (hv : posOf m channum = some v) (ns : List Int) :
    ∃ r, setList none m channum "cartesian" false = (some r, .ok ()) ∧ ∀ c, c ∈ select r ns ↔
      ∃ q, posOf m c = some q ∧ (({t | GridDistance (extents m d) t ∧ t < sqdist v q}.ncard : Nat) : Int) ∈ ns := by
  obtain ⟨r, h1, h2⟩ := neighbors_list (force := false) (stored := none) hm hv (by simp) (.inr (by simp))
  refine ⟨r, h1, fun c => ?_⟩
  unfold select
  simp only [List.mem_map, List.mem_filter, decide_eq_true_eq]
  constructor
  · rintro ⟨x, ⟨hx, hn⟩, rfl⟩
    obtain ⟨i, hi, rfl⟩ := List.getElem_of_mem hx
    have hl := h2.length_eq
    obtain ⟨e1, q, e2, -, e4⟩ := (List.forall₂_iff_get.1 h2).2 i (by omega) hi
    simp only [List.get_eq_getElem] at e1 e2 e4
    rw [e1]
    exact ⟨q, e2, by rw [← e4]; exact hn⟩
  · rintro ⟨q, hq, hn⟩
    obtain ⟨i, hi, he⟩ := List.getElem_of_mem (posOf_mem hq)
    have hl := h2.length_eq
    obtain ⟨e1, q', e2, -, e4⟩ := (List.forall₂_iff_get.1 h2).2 i hi (by omega)
    simp only [List.get_eq_getElem, he] at e1 e2 e4
    rw [hq] at e2
    obtain rfl := Option.some.inj e2
    exact ⟨r[i], ⟨List.getElem_mem _, by rw [e4]; exact hn⟩, e1⟩

/-- C106. A list that exists is kept as it is unless asked for anew, whatever the map (of as many channels); a channel that is not in the map
gets no list but keeps what it had. -/
theorem list_kept {l : List Row} {m : Map} (hl : l.length = m.length) (hm : 2 ≤ m.length) (hne : ∃ r ∈ l, r ≠ (0, 0, 0)) (channum : Int)
    (dist : String) : setList (some l) m channum dist false = (some l, .ok ()) := by
  have h1 : l.any (fun r => r != (0, 0, 0)) = true := by
    rw [List.any_eq_true]
    obtain ⟨r, hr, h⟩ := hne
    exact ⟨r, hr, by simpa using h⟩
  unfold setList
  rw [if_neg (by omega)]
  simp [hl, h1]

theorem list_absent {l : List Row} {m : Map} (hl : l.length = m.length) (hm : 2 ≤ m.length) {channum : Int} (hc : ∀ e ∈ m, e.1 ≠ channum)
    (dist : String) : setList (some l) m channum dist true = (some l, .error .index) := by
  have h1 : posOf m channum = none := by
    unfold posOf
    rw [List.find?_eq_none.2 (fun e he => by simpa using hc e he)]
    rfl
  unfold setList
  rw [if_neg (by omega)]
  simp [hl, h1]

/-- Disagreement (C106): the n of a "n-th nearest neighbour" counts distances that a full grid would have, not channels that exist: of two channels at
0 and 5 each is the other's nearest neighbour, but is listed as the fifth, and no channel is listed as the first. -/
theorem gap_fails : setList none [(1, [0]), (3, [5])] 1 "cartesian" false = (some [(1, 0, 0), (3, 25, 5)], .ok ()) ∧
    select [(1, 0, 0), (3, 25, 5)] [1] = [] ∧ select [(1, 0, 0), (3, 25, 5)] [5] = [3] := by decide +kernel

theorem countIn_zero (chans sel : List Int) : countIn chans sel = 0 := by
  unfold countIn
  rw [List.length_eq_zero_iff, List.filter_eq_nil_iff]
  intro e he
  rw [List.mem_singleton] at he
  subst he
  simp

/-- Disagreement (C106, C51): `flag_crosstalking_pulses` never flags a pulse. The test whether any neighbour is in the group looks for the channel numbers
in an array whose only element is the dictionary's keys object, and never finds one (and with h5py 3.0 or later the attribute `value`
of a dataset is missing). Whatever the neighbours, the times and the options, the flags stay as they were: all false at first. -/
theorem flagging_fails (oldH5 combine forceNew : Bool) (nPulses : Nat) (cats : List (List Row)) (dists chans : List Int)
    (flagging : List Int → List Bool) (stored : Option (List Bool)) :
    (flagPulses oldH5 combine forceNew nPulses (some cats) dists chans flagging stored).1 =
      some (stored.getD (List.replicate nPulses false)) := by
  have hfold : ∀ f : List Bool, cats.foldl (fun f c => if 0 < countIn chans (select c dists)
        then List.zipWith or f (flagging (select c dists)) else f) f = f := by
    intro f
    induction cats with
    | nil => rfl
    | cons c t ih =>
      rw [List.foldl_cons, countIn_zero]
      simpa using ih
  unfold flagPulses
  simp only [hfold]
  generalize stored.getD (List.replicate nPulses false) = f
  by_cases h1 : (f.any id && !forceNew) = true
  · simp [h1]
  · simp only [h1]
    cases combine
    · by_cases h2 : (!oldH5 && decide (cats ≠ [])) = true
      · simp only [h2]; simp
      · simp only [h2]; simp
    · cases hl : cats.getLast? with
      | none => simp
      | some last =>
        cases oldH5
        · simp
        · simp [countIn_zero]

/-- C106, instance of the disagreement: channel 3 is the first neighbour of channel 1 and fires within its window, as the flagging of C51 would say -/
example : (flagPulses true true false 1 (some [[(1, 0, 0), (3, 1, 1)]]) [1] [1, 3]
      (fun ns => if ns = [3] then match Crosstalk.flags (K := ℚ) 1 1 [10] [10] with | .ok f => f | .error _ => [] else []) none) =
      (some [false], .ok ()) ∧ Crosstalk.flags (K := ℚ) 1 1 [10] [10] = .ok [true] := by decide +kernel

end Mass.Stat.Neighbors
