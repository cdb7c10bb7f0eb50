import Verif.States.Model
import Verif.Ljh.Header
import Mathlib.Tactic.Conv
/-! C22, C23, C24: experiment states. -/
namespace Mass.States
open Mass.Ljh (Bytes asc splitLines strip pyIntB IsLine)

/-! ### specification vocabulary -/

/-- record `i` lies in the slice [specification] -/
def Slice.has (s : Slice) (i : Nat) : Bool := decide (s.start ≤ i) && decide (i < s.stop)
/-- the slices of a dictionary value (used for channels.py L309-327) -/
def Val.slices : Val → List Slice
  | .one s => [s]
  | .many l => l
/-- every (state, slice) pair of the dictionary [specification] -/
def pieces (d : SD) : List (Bytes × Slice) := d.flatMap (fun e => e.2.slices.map (fun s => (e.1, s)))
/-- the states record `i` is assigned to, once for every slice it lies in [specification] -/
def statesAt (d : SD) (i : Nat) : List Bytes := ((pieces d).filter (fun x => x.2.has i)).map Prod.fst

/-- numbers in order [specification] -/
def Sorted (l : List Int) : Prop := l.Pairwise (· ≤ ·)
/-- a rounding that keeps the order [specification] -/
def Mono (rd : Int → Int) : Prop := ∀ a b, a ≤ b → rd a ≤ rd b

/-! ### the dictionary as a bag of pieces -/

theorem get_none {d : SD} {k : Bytes} (h : get d k = none) : k ∉ d.map Prod.fst := by
  unfold get at h
  rw [Option.map_eq_none_iff, List.find?_eq_none] at h
  intro hm
  obtain ⟨e, he, rfl⟩ := List.mem_map.1 hm
  exact h e he (by simp)

theorem get_some {d : SD} {k : Bytes} {v : Val} (h : get d k = some v) : (k, v) ∈ d := by
  unfold get at h
  obtain ⟨e, he, rfl⟩ := Option.map_eq_some_iff.1 h
  have h1 := List.mem_of_find?_eq_some he
  have h2 := List.find?_some he
  have : e.1 = k := by simpa using h2
  rw [← this]; exact h1

theorem setv_keys (d : SD) (k : Bytes) (v : Val) : (setv d k v).map Prod.fst = d.map Prod.fst := by
  unfold setv
  rw [List.map_map]
  apply List.map_congr_left
  intro e _
  simp only [Function.comp]
  split
  · simp_all
  · rfl

theorem setv_of_notMem {d : SD} {k : Bytes} {v : Val} (h : k ∉ d.map Prod.fst) : setv d k v = d := by
  unfold setv
  conv_rhs => rw [← List.map_id d]
  apply List.map_congr_left
  intro e he
  rw [if_neg (fun h' => h (by rw [← h']; exact List.mem_map_of_mem he))]; rfl

/-- the pieces after replacing a value -/
theorem pieces_setv {d : SD} (hnd : (d.map Prod.fst).Nodup) {k : Bytes} {v w : Val} (h : (k, v) ∈ d) (extra : List Slice)
    (hw : w.slices = v.slices ++ extra) : (pieces (setv d k w)).Perm (pieces d ++ extra.map (fun s => (k, s))) := by
  induction d with
  | nil => simp at h
  | cons e t ih =>
    rw [List.map_cons, List.nodup_cons] at hnd
    obtain ⟨k', v'⟩ := e
    rcases List.mem_cons.1 h with he | he
    · cases he
      have : setv ((k, v) :: t) k w = (k, w) :: t := by
        unfold setv
        rw [List.map_cons, if_pos rfl]
        congr 1
        exact setv_of_notMem hnd.1
      rw [this]
      unfold pieces
      rw [List.flatMap_cons, List.flatMap_cons, hw, List.map_append, List.append_assoc, List.append_assoc]
      exact List.Perm.append_left _ List.perm_append_comm
    · have hk : k' ≠ k := fun e => hnd.1 (List.mem_map.2 ⟨(k, v), he, e.symm⟩)
      have : setv ((k', v') :: t) k w = (k', v') :: setv t k w := by
        unfold setv
        rw [List.map_cons, if_neg hk]
      rw [this]
      unfold pieces
      rw [List.flatMap_cons, List.flatMap_cons, List.append_assoc]
      exact List.Perm.append_left _ (ih hnd.2 he)

/-- what the loop would add, as a plain list [specification] -/
def raw (keep : Bytes → Bool) (alias : Bytes → Bytes) (n : Nat) : List (Bytes × Nat) → List (Bytes × Slice)
  | [] => []
  | (label, i) :: rest =>
    (if keep label then [(alias label, (⟨i, match rest with | [] => n | (_, j) :: _ => j⟩ : Slice))] else []) ++
      raw keep alias n rest

/-- one turn of the loop [specification] -/
def addPiece (d : SD) (a : Bytes) (s : Slice) : SD :=
  match get d a with
  | none => d ++ [(a, .one s)]
  | some (.one v) => setv d a (.many [v, s])
  | some (.many l) => setv d a (.many (l ++ [s]))

theorem addPiece_keys (d : SD) (a : Bytes) (s : Slice) :
    (addPiece d a s).map Prod.fst = if a ∈ d.map Prod.fst then d.map Prod.fst else d.map Prod.fst ++ [a] := by
  unfold addPiece
  cases h : get d a with
  | none => rw [if_neg (get_none h)]; simp
  | some v =>
    rw [if_pos (List.mem_map_of_mem (get_some h))]
    cases v <;> exact setv_keys _ _ _

theorem addPiece_nodup {d : SD} (h : (d.map Prod.fst).Nodup) (a : Bytes) (s : Slice) : ((addPiece d a s).map Prod.fst).Nodup := by
  rw [addPiece_keys]
  split
  · exact h
  · rename_i hn
    rw [List.nodup_append]
    refine ⟨h, by simp, ?_⟩
    rintro x hx y hy rfl
    rw [List.mem_singleton] at hy
    subst hy
    exact hn hx

theorem addPiece_pieces {d : SD} (h : (d.map Prod.fst).Nodup) (a : Bytes) (s : Slice) :
    (pieces (addPiece d a s)).Perm (pieces d ++ [(a, s)]) := by
  unfold addPiece
  cases hg : get d a with
  | none => simp [pieces, Val.slices]
  | some v =>
    cases v with
    | one v => exact pieces_setv h (get_some hg) [s] rfl
    | many l => exact pieces_setv h (get_some hg) [s] rfl

theorem stateLoop_cons (keep : Bytes → Bool) (alias : Bytes → Bytes) (n : Nat) (label : Bytes) (i : Nat) (rest : List (Bytes × Nat))
    (d : SD) : stateLoop keep alias n ((label, i) :: rest) d =
      if keep label then stateLoop keep alias n rest
        (addPiece d (alias label) ⟨i, match rest with | [] => n | (_, j) :: _ => j⟩)
      else stateLoop keep alias n rest d := by
  conv_lhs => unfold stateLoop
  rfl

theorem stateLoop_nodup {keep : Bytes → Bool} {alias : Bytes → Bytes} {n : Nat} (xs : List (Bytes × Nat)) {d : SD}
    (h : (d.map Prod.fst).Nodup) : ((stateLoop keep alias n xs d).map Prod.fst).Nodup := by
  induction xs generalizing d with
  | nil => exact h
  | cons x t ih =>
    obtain ⟨l, i⟩ := x
    rw [stateLoop_cons]
    split
    · exact ih (addPiece_nodup h _ _)
    · exact ih h

theorem stateLoop_pieces {keep : Bytes → Bool} {alias : Bytes → Bytes} {n : Nat} (xs : List (Bytes × Nat)) {d : SD}
    (h : (d.map Prod.fst).Nodup) : (pieces (stateLoop keep alias n xs d)).Perm (pieces d ++ raw keep alias n xs) := by
  induction xs generalizing d with
  | nil => simp [stateLoop, raw]
  | cons x t ih =>
    obtain ⟨l, i⟩ := x
    rw [stateLoop_cons]
    unfold raw
    split
    · refine (ih (addPiece_nodup h _ _)).trans ?_
      refine ((addPiece_pieces h _ _).append_right _).trans ?_
      rw [List.append_assoc]
    · exact ih h

/-! ### which piece contains a record -/

theorem raw_none {keep : Bytes → Bool} {alias : Bytes → Bytes} {n i : Nat} (xs : List (Bytes × Nat)) (h : ∀ x ∈ xs, i < x.2) :
    (raw keep alias n xs).filter (fun x => x.2.has i) = [] := by
  induction xs with
  | nil => rfl
  | cons x t ih =>
    obtain ⟨l, a⟩ := x
    unfold raw
    rw [List.filter_append, ih (fun x hx => h x (by simp [hx]))]
    have : i < a := h (l, a) (by simp)
    split
    · simp [Slice.has]; omega
    · simp

theorem raw_at {keep : Bytes → Bool} {alias : Bytes → Bytes} {n i : Nat} (hi : i < n) (xs : List (Bytes × Nat))
    (hs : (xs.map Prod.snd).Pairwise (· ≤ ·)) :
    ((raw keep alias n xs).filter (fun x => x.2.has i)).map Prod.fst =
      match (xs.filter (fun x => decide (x.2 ≤ i))).getLast? with
      | none => []
      | some x => if keep x.1 then [alias x.1] else [] := by
  induction xs with
  | nil => rfl
  | cons x t ih =>
    obtain ⟨l, a⟩ := x
    rw [List.map_cons, List.pairwise_cons] at hs
    by_cases ha : a ≤ i
    · cases t with
      | nil =>
        simp only [raw, List.append_nil, List.filter_cons, ha, decide_true, if_true, List.filter_nil, List.getLast?_singleton]
        split
        · simp [Slice.has, ha, hi]
        · rfl
      | cons y t =>
        obtain ⟨m, b⟩ := y
        by_cases hb : b ≤ i
        · have e : ((l, a) :: (m, b) :: t).filter (fun x => decide (x.2 ≤ i)) =
              (l, a) :: (((m, b) :: t).filter (fun x => decide (x.2 ≤ i))) := by
            rw [List.filter_cons, if_pos (by simpa using ha)]
          have hne : ((m, b) :: t).filter (fun x => decide (x.2 ≤ i)) ≠ [] := by
            rw [List.filter_cons, if_pos (by simpa using hb)]; simp
          rw [e, List.getLast?_cons_of_ne_nil hne, ← ih hs.2]
          conv_lhs => unfold raw
          rw [List.filter_append]
          have : (if keep l = true then [(alias l, (⟨a, b⟩ : Slice))] else []).filter (fun x => x.2.has i) = [] := by
            split
            · simp [Slice.has]; omega
            · rfl
          dsimp only
          rw [this, List.nil_append]
        · have hall : ∀ x ∈ (m, b) :: t, i < x.2 := by
            intro x hx
            rcases List.mem_cons.1 hx with rfl | hx
            · simpa using hb
            · have := hs.2
              rw [List.map_cons, List.pairwise_cons] at this
              have := this.1 x.2 (List.mem_map_of_mem hx)
              dsimp only at this
              omega
          have e : ((l, a) :: (m, b) :: t).filter (fun x => decide (x.2 ≤ i)) = [(l, a)] := by
            rw [List.filter_cons, if_pos (by simpa using ha), List.filter_eq_nil_iff.2]
            intro x hx; have := hall x hx; simpa using this
          rw [e]
          conv_lhs => unfold raw
          rw [List.filter_append, raw_none _ hall, List.append_nil]
          simp only [List.getLast?_singleton]
          split
          · have hh : (⟨a, b⟩ : Slice).has i = true := by
              unfold Slice.has
              simp only [Bool.and_eq_true, decide_eq_true_eq]
              omega
            rw [List.filter_cons, if_pos hh]; rfl
          · rfl
    · have hall : ∀ x ∈ (l, a) :: t, i < x.2 := by
        intro x hx
        rcases List.mem_cons.1 hx with rfl | hx
        · simpa using ha
        · have := hs.1 x.2 (List.mem_map_of_mem hx)
          dsimp only at this
          omega
      rw [raw_none _ hall, List.filter_eq_nil_iff.2]
      · rfl
      · intro x hx; have := hall x hx; simpa using this

theorem statesAt_loop {keep : Bytes → Bool} {alias : Bytes → Bytes} {n i : Nat} (hi : i < n) (xs : List (Bytes × Nat))
    (hs : (xs.map Prod.snd).Pairwise (· ≤ ·)) :
    statesAt (stateLoop keep alias n xs []) i =
      match (xs.filter (fun x => decide (x.2 ≤ i))).getLast? with
      | none => []
      | some x => if keep x.1 then [alias x.1] else [] := by
  have hp := stateLoop_pieces (keep := keep) (alias := alias) (n := n) xs (d := []) (by simp)
  have hp2 := (hp.filter (fun x => x.2.has i)).map Prod.fst
  rw [show pieces [] ++ raw keep alias n xs = raw keep alias n xs from rfl, raw_at hi xs hs] at hp2
  unfold statesAt
  split at hp2
  · exact hp2.eq_nil
  · split at hp2
    · rename_i hk
      rw [if_pos hk]
      exact List.perm_singleton.1 hp2
    · rename_i hk
      rw [if_neg hk]
      exact hp2.eq_nil

/-! ### searchsorted -/

theorem searchsorted_le (ps : List Int) (t : Int) : searchsorted ps t ≤ ps.length :=
  (List.takeWhile_sublist _).length_le

theorem searchsorted_iff {ps : List Int} (hs : Sorted ps) (t : Int) {i : Nat} (hi : i < ps.length) :
    searchsorted ps t ≤ i ↔ t ≤ ps[i] := by
  induction ps generalizing i with
  | nil => simp at hi
  | cons p ps ih =>
    unfold Sorted at hs
    rw [List.pairwise_cons] at hs
    unfold searchsorted
    rw [List.takeWhile_cons]
    by_cases hp : p < t
    · rw [if_pos (by simpa using hp), List.length_cons]
      cases i with
      | zero => simp; omega
      | succ i =>
        have := ih hs.2 (i := i) (by simpa using hi)
        unfold searchsorted at this
        rw [List.getElem_cons_succ, ← this]; omega
    · rw [if_neg (by simpa using hp)]
      have : p ≤ (p :: ps)[i] := by
        cases i with
        | zero => simp
        | succ i => exact hs.1 _ (List.getElem_mem _)
      simp; omega

theorem searchsorted_mono (ps : List Int) {s t : Int} (h : s ≤ t) : searchsorted ps s ≤ searchsorted ps t := by
  unfold searchsorted
  induction ps with
  | nil => simp
  | cons p ps ih =>
    rw [List.takeWhile_cons, List.takeWhile_cons]
    by_cases hp : p < s
    · rw [if_pos (by simpa using hp), if_pos (by simp; omega)]; simp [ih]
    · rw [if_neg (by simpa using hp)]; simp

/-! ### exclusions -/

theorem mem_uniqueKept (excl r all : List Bytes) (l : Bytes) : l ∈ uniqueKept excl r all ↔ l ∈ r ∨ (l ∈ all ∧ l ∉ excl) := by
  induction all generalizing r with
  | nil => simp [uniqueKept]
  | cons x t ih =>
    unfold uniqueKept
    by_cases h : excl.contains x || r.contains x
    · rw [if_pos h, ih]
      simp only [Bool.or_eq_true, List.contains_iff_mem] at h
      constructor
      · rintro (h1 | h1)
        · exact .inl h1
        · exact .inr ⟨by simp [h1.1], h1.2⟩
      · rintro (h1 | ⟨h1, h2⟩)
        · exact .inl h1
        · rcases List.mem_cons.1 h1 with rfl | h1
          · exact .inl (h.resolve_left h2)
          · exact .inr ⟨h1, h2⟩
    · rw [if_neg h, ih]
      simp only [Bool.or_eq_true, List.contains_iff_mem, not_or] at h
      constructor
      · rintro (h1 | h1)
        · rcases List.mem_append.1 h1 with h1 | h1
          · exact .inl h1
          · rw [List.mem_singleton] at h1; subst h1; exact .inr ⟨by simp, h.1⟩
        · exact .inr ⟨by simp [h1.1], h1.2⟩
      · rintro (h1 | ⟨h1, h2⟩)
        · exact .inl (by simp [h1])
        · rcases List.mem_cons.1 h1 with rfl | h1
          · exact .inl (by simp)
          · exact .inr ⟨h1, h2⟩

/-- the object is in a state that parsing can produce: one time per label, and the states in use are the labels not excluded [specification] -/
def EF.Good (ef : EF) (excl : List Bytes) : Prop :=
  ef.times.length = ef.allLabels.length ∧ ∀ l, l ∈ ef.unaliased ↔ l ∈ ef.allLabels ∧ l ∉ excl

theorem absorb_good {ef : EF} {new : List (Int × Bytes)} {p : Nat} (h : ef.times.length = ef.allLabels.length) :
    ∃ ex, (absorb ef new p).excl = some ex ∧ (absorb ef new p).Good ex := by
  refine ⟨_, rfl, ?_, ?_⟩
  · simp [absorb, h]
  · intro l
    show l ∈ uniqueKept _ [] _ ↔ _
    rw [mem_uniqueKept]
    simp [absorb]

/-! ### C22 -/

theorem batch_eq (rd : Int → Int) (ef : EF) (alias : Bytes → Bytes) (pulses : List Int) :
    batch rd ef alias pulses = .ok (stateLoop (fun l => ef.unaliased.contains l) alias pulses.length
      (ef.allLabels.zip (ef.times.map (fun t => searchsorted (pulses.map rd) (rd t)))) []) := by
  unfold batch calcStates
  simp

/-- C22. One-batch state dictionary: for each pulse, the states it is assigned to (counted with multiplicity) are the label of the last
state-file entry at or before the pulse's time if that label is not excluded, and nothing otherwise. -/
theorem batch_assigns_partial {rd : Int → Int} (hrd : Mono rd) {ef : EF} {excl : List Bytes} (hef : ef.Good excl) {alias : Bytes → Bytes}
    {pulses : List Int} (ht : Sorted ef.times) (hp : Sorted pulses) :
    ∃ d, batch rd ef alias pulses = .ok d ∧ ∀ i (hi : i < pulses.length),
      statesAt d i = match ((ef.allLabels.zip ef.times).filter (fun e => decide (rd e.2 ≤ rd pulses[i]))).getLast? with
        | none => []
        | some e => if e.1 ∈ excl then [] else [alias e.1] := by
  refine ⟨_, batch_eq rd ef alias pulses, ?_⟩
  intro i hi
  have hps : Sorted (pulses.map rd) := by
    unfold Sorted at *
    rw [List.pairwise_map]
    exact hp.imp (fun h => hrd _ _ h)
  rw [statesAt_loop hi]
  · rw [List.zip_map_right, List.filter_map]
    have hf : ((fun x : Bytes × Nat => decide (x.2 ≤ i)) ∘ Prod.map id fun t => searchsorted (pulses.map rd) (rd t)) =
        fun e : Bytes × Int => decide (rd e.2 ≤ rd pulses[i]) := by
      funext e
      have := searchsorted_iff hps (rd e.2) (i := i) (by simpa using hi)
      rw [List.getElem_map] at this
      simp only [Function.comp, Prod.map, decide_eq_decide]
      exact this
    rw [hf, List.getLast?_map]
    cases hl : ((ef.allLabels.zip ef.times).filter (fun e => decide (rd e.2 ≤ rd pulses[i]))).getLast? with
    | none => rfl
    | some e =>
      simp only [Option.map_some, Prod.map, id]
      have hm : e ∈ ef.allLabels.zip ef.times := (List.mem_filter.1 (List.mem_of_getLast? hl)).1
      have hm1 : e.1 ∈ ef.allLabels := (List.of_mem_zip (by exact hm : (e.1, e.2) ∈ _)).1
      by_cases hx : e.1 ∈ excl
      · rw [if_pos hx, if_neg (by simp [hef.2, hx])]
      · rw [if_neg hx, if_pos (by simp [hef.2, hx, hm1])]
  · have h1 : ((ef.allLabels.zip (ef.times.map (fun t => searchsorted (pulses.map rd) (rd t)))).map Prod.snd) =
        ef.times.map (fun t => searchsorted (pulses.map rd) (rd t)) := by
      rw [List.map_snd_zip]
      rw [List.length_map, hef.1]; exact Nat.le_refl _
    rw [h1, List.pairwise_map]
    exact ht.imp (fun h => searchsorted_mono _ (hrd _ _ h))

theorem raw_bounds {keep : Bytes → Bool} {alias : Bytes → Bytes} {n : Nat} (xs : List (Bytes × Nat))
    (hs : (xs.map Prod.snd).Pairwise (· ≤ ·)) (hn : ∀ x ∈ xs, x.2 ≤ n) :
    ∀ y ∈ raw keep alias n xs, y.2.start ≤ y.2.stop ∧ y.2.stop ≤ n := by
  induction xs with
  | nil => intro y hy; simp [raw] at hy
  | cons x t ih =>
    obtain ⟨l, a⟩ := x
    rw [List.map_cons, List.pairwise_cons] at hs
    intro y hy
    unfold raw at hy
    rcases List.mem_append.1 hy with hy | hy
    · split at hy
      · rw [List.mem_singleton] at hy
        subst hy
        cases t with
        | nil => exact ⟨hn (l, a) (by simp), Nat.le_refl _⟩
        | cons z t =>
          obtain ⟨m, b⟩ := z
          exact ⟨hs.1 b (by simp), hn (m, b) (by simp)⟩
      · simp at hy
    · exact ih hs.2 (fun x hx => hn x (by simp [hx])) y hy

/-- C22. Every slice in the dictionary is in bounds. -/
theorem batch_bounds {rd : Int → Int} (hrd : Mono rd) {ef : EF} {excl : List Bytes} (hef : ef.Good excl) {alias : Bytes → Bytes}
    {pulses : List Int} (ht : Sorted ef.times) {d : SD} (h : batch rd ef alias pulses = .ok d) :
    (d.map Prod.fst).Nodup ∧ ∀ x ∈ pieces d, x.2.start ≤ x.2.stop ∧ x.2.stop ≤ pulses.length := by
  rw [batch_eq] at h
  injection h with h
  subst h
  refine ⟨stateLoop_nodup _ (by simp), ?_⟩
  intro x hx
  have hx := (stateLoop_pieces _ (by simp)).mem_iff.1 hx
  refine raw_bounds _ ?_ ?_ x (by simpa [pieces] using hx)
  · rw [List.map_snd_zip (by rw [List.length_map, hef.1]; exact Nat.le_refl _), List.pairwise_map]
    exact ht.imp (fun h => searchsorted_mono _ (hrd _ _ h))
  · intro y hy
    obtain ⟨-, h2⟩ := List.of_mem_zip (by exact hy : (y.1, y.2) ∈ _)
    obtain ⟨t, -, ht⟩ := List.mem_map.1 h2
    rw [← ht]
    have := searchsorted_le (pulses.map rd) (rd t)
    rwa [List.length_map] at this

/-- a state file object with these entries and exclusions [specification] -/
def mkEF (excl : List Bytes) (es : List (Bytes × Int)) : EF := absorb (newEF (some excl)) (es.map (fun e => (e.2, e.1))) 1

/-- C22, instance: states A (repeated) and B, with START excluded -/
example : (batch id (mkEF [asc "START"] [(asc "START", 0), (asc "A", 10), (asc "B", 20), (asc "A", 30)]) id [5, 10, 15, 20, 29, 30, 40]) =
    .ok [(asc "A", .many [⟨1, 3⟩, ⟨5, 7⟩]), (asc "B", .one ⟨3, 5⟩)] := by decide +kernel

/-- C22 as stated is false at nanosecond precision: state times are stored as float64, which at present-day values steps by 256 ns, so a pulse
100 ns before a state begins is put into it. -/
theorem batch_rounding_fails :
    batch toDouble (mkEF [] [(asc "A", 0), (asc "B", 1700000000000000100)]) id [1700000000000000000] =
      .ok [(asc "A", .one ⟨0, 0⟩), (asc "B", .one ⟨0, 1⟩)] := by decide +kernel

/-! ### the float64 rounding keeps the order -/

/-- `toDouble` on naturals [specification] -/
def rnd (a : Nat) : Nat :=
  (if 2 * (a % 2 ^ (Nat.log2 a - 52)) < 2 ^ (Nat.log2 a - 52) then a / 2 ^ (Nat.log2 a - 52)
    else if 2 ^ (Nat.log2 a - 52) < 2 * (a % 2 ^ (Nat.log2 a - 52)) then a / 2 ^ (Nat.log2 a - 52) + 1
    else a / 2 ^ (Nat.log2 a - 52) + a / 2 ^ (Nat.log2 a - 52) % 2) * 2 ^ (Nat.log2 a - 52)

theorem toDouble_eq (n : Int) : toDouble n = if n < 0 then -((rnd n.natAbs : Nat) : Int) else ((rnd n.natAbs : Nat) : Int) := rfl

theorem div_round_mono {a b k : Nat} (hk : 0 < k) (h : a ≤ b) :
    (if 2 * (a % k) < k then a / k else if k < 2 * (a % k) then a / k + 1 else a / k + a / k % 2) ≤
    (if 2 * (b % k) < k then b / k else if k < 2 * (b % k) then b / k + 1 else b / k + b / k % 2) := by
  have h1 : a / k ≤ b / k := Nat.div_le_div_right h
  by_cases he : a / k = b / k
  · have ha := Nat.div_add_mod a k
    have hb := Nat.div_add_mod b k
    rw [he] at ha ⊢
    have : a % k ≤ b % k := by omega
    split <;> split <;> (try split) <;> (try split) <;> omega
  · split <;> split <;> (try split) <;> (try split) <;> omega

theorem rnd_le (a : Nat) (ha : a ≠ 0) : rnd a ≤ 2 ^ (Nat.log2 a + 1) := by
  have h1 : a < 2 ^ (Nat.log2 a + 1) := Nat.lt_log2_self
  by_cases h52 : Nat.log2 a ≤ 52
  · have : Nat.log2 a - 52 = 0 := by omega
    unfold rnd
    rw [this]
    simp only [Nat.pow_zero, Nat.mod_one, Nat.div_one, Nat.mul_one]
    simp
    omega
  · have he : Nat.log2 a + 1 = (Nat.log2 a - 52) + 53 := by omega
    unfold rnd
    rw [he, Nat.pow_add, Nat.mul_comm (2 ^ (Nat.log2 a - 52))]
    apply Nat.mul_le_mul_right
    rw [he, Nat.pow_add] at h1
    have : a / 2 ^ (Nat.log2 a - 52) < 2 ^ 53 := Nat.div_lt_of_lt_mul h1
    split
    · omega
    · split <;> omega

theorem le_rnd (a : Nat) (ha : a ≠ 0) : 2 ^ Nat.log2 a ≤ rnd a := by
  have h1 : 2 ^ Nat.log2 a ≤ a := Nat.log2_self_le ha
  by_cases h52 : Nat.log2 a ≤ 52
  · have : Nat.log2 a - 52 = 0 := by omega
    unfold rnd
    rw [this]
    simp only [Nat.pow_zero, Nat.mod_one, Nat.div_one, Nat.mul_one]
    simp
    omega
  · have he : Nat.log2 a = (Nat.log2 a - 52) + 52 := by omega
    unfold rnd
    have h2 : 2 ^ Nat.log2 a = 2 ^ 52 * 2 ^ (Nat.log2 a - 52) := by
      conv_lhs => rw [he, Nat.pow_add, Nat.mul_comm]
    rw [h2] at h1 ⊢
    apply Nat.mul_le_mul_right
    have : 2 ^ 52 ≤ a / 2 ^ (Nat.log2 a - 52) := (Nat.le_div_iff_mul_le (Nat.two_pow_pos _)).2 h1
    split
    · omega
    · split <;> omega

theorem rnd_mono {a b : Nat} (h : a ≤ b) : rnd a ≤ rnd b := by
  by_cases ha : a = 0
  · subst ha; simp [rnd]
  have hb : b ≠ 0 := by omega
  by_cases he : Nat.log2 a = Nat.log2 b
  · unfold rnd
    rw [he]
    exact Nat.mul_le_mul_right _ (div_round_mono (Nat.two_pow_pos _) h)
  · have hl : Nat.log2 a < Nat.log2 b := by
      rcases Nat.lt_or_ge (Nat.log2 a) (Nat.log2 b) with h' | h'
      · exact h'
      · exfalso
        have h1 : b < 2 ^ (Nat.log2 b + 1) := Nat.lt_log2_self
        have h2 : 2 ^ Nat.log2 a ≤ a := Nat.log2_self_le ha
        have h3 : 2 ^ (Nat.log2 b + 1) ≤ 2 ^ Nat.log2 a := Nat.pow_le_pow_right (by omega) (by omega)
        omega
    exact Nat.le_trans (rnd_le a ha) (Nat.le_trans (Nat.pow_le_pow_right (by omega) hl) (le_rnd b hb))

/-- C22: conversion to float64 keeps the order, so `batch_assigns_partial` applies with `rd := toDouble` -/
theorem toDouble_mono : Mono toDouble := by
  intro a b h
  rw [toDouble_eq, toDouble_eq]
  split <;> split
  · have := rnd_mono (show b.natAbs ≤ a.natAbs by omega)
    omega
  · omega
  · omega
  · have := rnd_mono (show a.natAbs ≤ b.natAbs by omega)
    omega

/-- C22: below 2^53 the conversion is exact -/
theorem toDouble_small {n : Int} (h : n.natAbs < 2 ^ 53) : toDouble n = n := by
  rw [toDouble_eq]
  have h52 : Nat.log2 n.natAbs - 52 = 0 := by
    by_cases h0 : n.natAbs = 0
    · rw [h0]; decide
    · have := (Nat.log2_lt h0).2 h
      omega
  have : rnd n.natAbs = n.natAbs := by
    unfold rnd
    rw [h52]
    simp [Nat.mod_one]
  rw [this]
  split <;> omega

/-! ### C24 -/

theorem splitLines_append_nl (f1 f2 : Bytes) : splitLines (f1 ++ 10 :: f2) = splitLines (f1 ++ [10]) ++ splitLines f2 := by
  induction f1 with
  | nil => simp [splitLines]
  | cons b t ih =>
    rw [List.cons_append, List.cons_append]
    generalize hF : splitLines f2 = F at *
    unfold splitLines
    split
    · rw [ih]; rfl
    · rw [ih]
      cases h : splitLines (t ++ [10]) with
      | nil =>
        exfalso
        have := (Mass.Ljh.splitLines_shape (t ++ [10])).1
        rw [h] at this
        simp at this
      | cons l ls => rfl

/-- the text is empty or ends at a line boundary [specification] -/
def WholeLines (f : Bytes) : Prop := f = [] ∨ ∃ g, f = g ++ [10]

theorem splitLines_append {f1 : Bytes} (h : WholeLines f1) (f2 : Bytes) : splitLines (f1 ++ f2) = splitLines f1 ++ splitLines f2 := by
  rcases h with rfl | ⟨g, rfl⟩
  · rfl
  · rw [List.append_assoc]; exact splitLines_append_nl g f2

theorem parseLines_append (a b : List Bytes) : parseLines (a ++ b) = (parseLines a).bind (fun x => (parseLines b).map (fun y => x ++ y)) := by
  induction a with
  | nil =>
    simp only [List.nil_append, parseLines, Except.bind]
    cases parseLines b <;> rfl
  | cons l t ih =>
    simp only [List.cons_append, parseLines]
    cases hl : parseLine l with
    | error e => rfl
    | ok x =>
      simp only [bind, Except.bind, ih]
      cases ht : parseLines t with
      | error e => rfl
      | ok y =>
        simp only [pure, Except.pure]
        cases parseLines b <;> rfl

theorem absorb_absorb (ex : List Bytes) (p1 p2 : Nat) (ef : EF) (h : ef.excl = some ex) (n1 n2 : List (Int × Bytes)) :
    absorb (absorb ef n1 p1) n2 p2 = absorb ef (n1 ++ n2) p2 := by
  unfold absorb
  simp [h]

theorem splitLines_ne_nil {f : Bytes} (h : f ≠ []) : splitLines f ≠ [] := by
  intro e
  have := (Mass.Ljh.splitLines_shape f).1
  rw [e] at this
  exact h this.symm

theorem parse_inv {ex : List Bytes} {f : Bytes} {ef : EF} (h : parse (newEF (some ex)) f = .ok ef) :
    ∃ hd rest new, splitLines f = hd :: rest ∧ hd.head? = some 35 ∧ rest ≠ [] ∧ parseLines rest = .ok new ∧
      ef = absorb (newEF (some ex)) new f.length ∧ f ≠ [] := by
  unfold parse at h
  rw [show (newEF (some ex)).parseStart = 0 from rfl, List.drop_zero, if_pos rfl] at h
  cases hs : splitLines f with
  | nil => rw [hs] at h; exact absurd h (by simp)
  | cons hd rest =>
    rw [hs] at h
    dsimp only at h
    split at h
    · exact absurd h (by simp)
    · split at h
      · exact absurd h (by simp)
      · rename_i h1 h2
        cases hp : parseLines rest with
        | error e => rw [hp] at h; exact absurd h (by simp [Except.map])
        | ok new =>
          rw [hp] at h
          simp only [Except.map, Except.ok.injEq] at h
          refine ⟨hd, rest, new, rfl, by simpa using h1, h2, hp, h.symm, ?_⟩
          rintro rfl
          simp [splitLines] at hs

/-- one more parse after the file grew -/
theorem parse_grow {ex : List Bytes} {f1 f2 : Bytes} {ef : EF} (hw : WholeLines f1) (h : parse (newEF (some ex)) f1 = .ok ef) :
    parse ef (f1 ++ f2) = parse (newEF (some ex)) (f1 ++ f2) := by
  obtain ⟨hd, rest, new, hs, h1, h2, hp, rfl, hne⟩ := parse_inv h
  have hlen : f1.length ≠ 0 := by simpa using hne
  conv_rhs => unfold parse
  rw [show (newEF (some ex)).parseStart = 0 from rfl, List.drop_zero, if_pos rfl, splitLines_append hw, hs]
  dsimp only [List.cons_append]
  rw [if_neg (by simp [h1]), if_neg (by simp [h2]), parseLines_append, hp]
  unfold parse
  rw [show (absorb (newEF (some ex)) new f1.length).parseStart = f1.length from rfl, List.drop_left, if_neg hlen]
  dsimp only [Except.bind]
  by_cases hf2 : f2 = []
  · subst hf2
    simp [splitLines, parseLines, Except.map]
  · rw [if_neg (splitLines_ne_nil hf2)]
    cases parseLines (splitLines f2) with
    | error e => rfl
    | ok y =>
      simp only [Except.map]
      rw [absorb_absorb ex _ _ _ rfl]

/-- parse every time the file has grown by a chunk [specification] -/
def parseAll (ef : EF) (f : Bytes) : List Bytes → Except Exc EF
  | [] => .ok ef
  | g :: t => (parse ef (f ++ g)).bind (fun ef' => parseAll ef' (f ++ g) t)

/-- C24, for explicit exclusions and reads at line boundaries: parsing the file each time it has grown gives the same object, or the
same exception, as parsing the finished file once. The last chunk may end anywhere. -/
theorem parse_incremental_explicit {ex : List Bytes} {f : Bytes} {ef : EF} {chunks : List Bytes} (last : Bytes)
    (hf : WholeLines f) (hc : ∀ c ∈ chunks, WholeLines c) (h : parse (newEF (some ex)) f = .ok ef) {efEnd : EF}
    (hend : parse (newEF (some ex)) (f ++ chunks.flatten ++ last) = .ok efEnd) :
    parseAll ef f (chunks ++ [last]) = .ok efEnd := by
  induction chunks generalizing f ef with
  | nil =>
    simp only [List.nil_append, parseAll]
    rw [parse_grow hf h]
    rw [List.flatten_nil, List.append_nil] at hend
    rw [hend]; rfl
  | cons c t ih =>
    have hfc : WholeLines (f ++ c) := by
      rcases hc c (by simp) with rfl | ⟨g, rfl⟩
      · simpa using hf
      · exact .inr ⟨f ++ g, by simp⟩
    have hend' : parse (newEF (some ex)) ((f ++ c) ++ t.flatten ++ last) = .ok efEnd := by
      rw [List.flatten_cons, ← List.append_assoc] at hend; exact hend
    have hok : ∃ ef', parse (newEF (some ex)) (f ++ c) = .ok ef' := by
      obtain ⟨hd, rest, new, hs, h1, h2, hp, -, -⟩ := parse_inv hend'
      rw [List.append_assoc, splitLines_append hfc] at hs
      obtain ⟨hd0, rest0, new0, hs0, h10, h20, hp0, -, -⟩ := parse_inv h
      rw [splitLines_append hf, hs0] at hs
      simp only [List.cons_append, List.append_assoc, List.cons.injEq] at hs
      rw [← hs.2, ← List.append_assoc, parseLines_append] at hp
      cases hq : parseLines (rest0 ++ splitLines c) with
      | error e => rw [hq] at hp; exact absurd hp (by simp [Except.bind])
      | ok y =>
        refine ⟨absorb (newEF (some ex)) y (f ++ c).length, ?_⟩
        unfold parse
        rw [show (newEF (some ex)).parseStart = 0 from rfl, List.drop_zero, if_pos rfl, splitLines_append hf, hs0]
        dsimp only [List.cons_append]
        rw [if_neg (by simp [h10]), if_neg (by simp [h20]), hq]
        rfl
    obtain ⟨ef', hef'⟩ := hok
    rw [List.cons_append, parseAll, parse_grow hf h, hef']
    exact ih hfc (fun x hx => hc x (by simp [hx])) hef' hend'

/-- the part of the object that records what the file says [specification] -/
def EF.view (ef : EF) : Nat × List Bytes × List Int := (ef.parseStart, ef.allLabels, ef.times)

theorem parse_view {ef ef' : EF} (h : ef.view = ef'.view) (f : Bytes) : (parse ef f).map EF.view = (parse ef' f).map EF.view := by
  simp only [EF.view, Prod.mk.injEq] at h
  obtain ⟨h1, h2, h3⟩ := h
  have hab : ∀ new p, (absorb ef new p).view = (absorb ef' new p).view := by
    intro new p; simp [absorb, EF.view, h2, h3]
  have hm : ∀ ls : List Bytes, ((parseLines ls).map (fun new => absorb ef new f.length)).map EF.view =
      ((parseLines ls).map (fun new => absorb ef' new f.length)).map EF.view := by
    intro ls
    cases parseLines ls with
    | error e => rfl
    | ok n => simp only [Except.map, hab]
  unfold parse
  rw [h1]
  dsimp only
  split
  · split
    · rfl
    · split
      · rfl
      · split
        · rfl
        · exact hm _
  · split
    · simp [Except.map, EF.view, h1, h2, h3]
    · exact hm _

theorem parseAll_view (chunks : List Bytes) {ef ef' : EF} (h : ef.view = ef'.view) (f : Bytes) :
    (parseAll ef f chunks).map EF.view = (parseAll ef' f chunks).map EF.view := by
  induction chunks generalizing ef ef' f with
  | nil => simp [parseAll, Except.map, h]
  | cons c t ih =>
    have := parse_view h (f ++ c)
    simp only [parseAll]
    cases h1 : parse ef (f ++ c) <;> cases h2 : parse ef' (f ++ c) <;> rw [h1, h2] at this <;>
      simp only [Except.map, Except.error.injEq, Except.ok.injEq, reduceCtorEq] at this
    · subst this; rfl
    · exact ih this _

/-- C24, any exclusions ("auto" or a list), reads at line boundaries: however the growing file is read, the labels, their times and the read
position end up as after one parse of the finished file. -/
theorem parse_incremental {excl : Option (List Bytes)} {f : Bytes} {ef : EF} {chunks : List Bytes} (last : Bytes)
    (hf : WholeLines f) (hc : ∀ c ∈ chunks, WholeLines c) (h : parse (newEF excl) f = .ok ef) {efEnd : EF}
    (hend : parse (newEF excl) (f ++ chunks.flatten ++ last) = .ok efEnd) :
    ∃ ef', parseAll ef f (chunks ++ [last]) = .ok ef' ∧ ef'.allLabels = efEnd.allLabels ∧ ef'.times = efEnd.times ∧
      ef'.parseStart = efEnd.parseStart := by
  have e0 : (newEF excl).view = (newEF (some [])).view := rfl
  have v1 := parse_view e0 f
  have v2 := parse_view e0 (f ++ chunks.flatten ++ last)
  rw [h] at v1
  rw [hend] at v2
  cases h1 : parse (newEF (some [])) f with
  | error e => rw [h1] at v1; exact absurd v1 (by simp [Except.map])
  | ok g =>
    cases h2 : parse (newEF (some [])) (f ++ chunks.flatten ++ last) with
    | error e => rw [h2] at v2; exact absurd v2 (by simp [Except.map])
    | ok gEnd =>
      rw [h1] at v1
      rw [h2] at v2
      simp only [Except.map, Except.ok.injEq] at v1 v2
      have hp := parse_incremental_explicit last hf hc h1 h2
      have v3 := parseAll_view (chunks ++ [last]) v1 f
      rw [hp] at v3
      cases h3 : parseAll ef f (chunks ++ [last]) with
      | error e => rw [h3] at v3; exact absurd v3 (by simp [Except.map])
      | ok ef' =>
        rw [h3] at v3
        simp only [Except.map, Except.ok.injEq] at v3
        rw [← v2] at v3
        simp only [EF.view, Prod.mk.injEq] at v3
        exact ⟨ef', rfl, v3.2.1, v3.2.2, v3.1⟩

/-- What one parse leaves in the object is what the file says: the labels and times of its lines in order. -/
theorem parse_content {ex : List Bytes} {f : Bytes} {ef : EF} (h : parse (newEF (some ex)) f = .ok ef) :
    ∃ hd rest new, splitLines f = hd :: rest ∧ hd.head? = some 35 ∧ parseLines rest = .ok new ∧
      ef.allLabels = new.map Prod.snd ∧ ef.times = new.map Prod.fst ∧ ef.Good ex := by
  obtain ⟨hd, rest, new, hs, h1, h2, hp, rfl, hne⟩ := parse_inv h
  refine ⟨hd, rest, new, hs, h1, hp, by simp [absorb, newEF], by simp [absorb, newEF], ?_⟩
  obtain ⟨ex', h3, h4⟩ := absorb_good (ef := newEF (some ex)) (new := new) (p := f.length) rfl
  simp only [absorb, newEF, Option.getD_some, Option.some.injEq] at h3
  subst h3
  exact h4

/-- C24, instance: two parses while the file grows -/
example : parseAll (mkEF [] []) [] [] = .ok (mkEF [] []) ∧
    (parse (newEF (some [asc "STOP"])) (asc "# h\n1, A\n")).bind
      (fun ef => parseAll ef (asc "# h\n1, A\n") [asc "2, STOP\n", asc "", asc "3, B\n4,A"]) =
    parse (newEF (some [asc "STOP"])) (asc "# h\n1, A\n2, STOP\n3, B\n4,A") := by decide +kernel

/-- The states in use (not the labels read) do depend on the reading schedule with exclusions "auto": the exclusions are worked out from the labels seen at the first parse and then kept. -/
theorem parse_auto_fails :
    ((parse (newEF none) (asc "# h\n1, START\n")).bind (fun ef => parseAll ef (asc "# h\n1, START\n") [asc "2, A\n"])).map EF.unaliased
      = .ok [asc "START", asc "A"] ∧
    (parse (newEF none) (asc "# h\n1, START\n2, A\n")).map EF.unaliased = .ok [asc "A"] := by decide +kernel

/-- C24 is false when a read happens in the middle of a line: half the label is taken for a label and the rest of the line is an error. -/
theorem parse_midline_fails :
    (parse (newEF (some [])) (asc "# h\n1, A\n2, BA")).map EF.allLabels = .ok [asc "A", asc "BA"] ∧
    ((parse (newEF (some [])) (asc "# h\n1, A\n2, BA")).bind
      (fun ef => parseAll ef (asc "# h\n1, A\n2, BA") [asc "CK\n"])).map EF.allLabels = .error .value ∧
    (parse (newEF (some [])) (asc "# h\n1, A\n2, BACK\n")).map EF.allLabels = .ok [asc "A", asc "BACK"] := by decide +kernel

/-! ### C23 -/

theorem stateLoop_append {keep : Bytes → Bool} {alias : Bytes → Bytes} {n : Nat} (xs : List (Bytes × Nat)) (l : Bytes) (j : Nat)
    (ys : List (Bytes × Nat)) (d : SD) :
    stateLoop keep alias n (xs ++ (l, j) :: ys) d = stateLoop keep alias n ((l, j) :: ys) (stateLoop keep alias j xs d) := by
  induction xs generalizing d with
  | nil => rfl
  | cons x t ih =>
    obtain ⟨m, i⟩ := x
    rw [List.cons_append, stateLoop_cons, ih, ih]
    conv_rhs => rw [stateLoop_cons keep alias j m i t d]
    cases t with
    | nil => split <;> rfl
    | cons y t => split <;> rfl

theorem stateLoop_none {keep : Bytes → Bool} {alias : Bytes → Bytes} {n : Nat} (xs : List (Bytes × Nat)) (d : SD)
    (h : ∀ x ∈ xs, keep x.1 = false) : stateLoop keep alias n xs d = d := by
  induction xs generalizing d with
  | nil => rfl
  | cons x t ih =>
    obtain ⟨m, i⟩ := x
    rw [stateLoop_cons, if_neg (by simp [h (m, i) (by simp)])]
    exact ih d (fun x hx => h x (by simp [hx]))

theorem stateLoop_keys {keep : Bytes → Bool} {alias : Bytes → Bytes} {n : Nat} (xs : List (Bytes × Nat)) (d : SD) (k : Bytes) :
    k ∈ (stateLoop keep alias n xs d).map Prod.fst ↔ k ∈ d.map Prod.fst ∨ ∃ x ∈ xs, keep x.1 = true ∧ alias x.1 = k := by
  induction xs generalizing d with
  | nil => simp [stateLoop]
  | cons x t ih =>
    obtain ⟨m, i⟩ := x
    rw [stateLoop_cons]
    split
    · rename_i hk
      rw [ih, addPiece_keys]
      split
      · rename_i hm
        constructor
        · rintro (h | ⟨x, h1, h2⟩)
          · exact .inl h
          · exact .inr ⟨x, by simp [h1], h2⟩
        · rintro (h | ⟨x, h1, h2⟩)
          · exact .inl h
          · rcases List.mem_cons.1 h1 with rfl | h1
            · exact .inl (by rw [← h2.2]; exact hm)
            · exact .inr ⟨x, h1, h2⟩
      · constructor
        · rintro (h | ⟨x, h1, h2⟩)
          · rcases List.mem_append.1 h with h | h
            · exact .inl h
            · rw [List.mem_singleton] at h
              exact .inr ⟨(m, i), by simp, hk, h.symm⟩
          · exact .inr ⟨x, by simp [h1], h2⟩
        · rintro (h | ⟨x, h1, h2⟩)
          · exact .inl (by simp [h])
          · rcases List.mem_cons.1 h1 with rfl | h1
            · exact .inl (by simp [← h2.2])
            · exact .inr ⟨x, h1, h2⟩
    · rename_i hk
      rw [ih]
      constructor
      · rintro (h | ⟨x, h1, h2⟩)
        · exact .inl h
        · exact .inr ⟨x, by simp [h1], h2⟩
      · rintro (h | ⟨x, h1, h2⟩)
        · exact .inl h
        · rcases List.mem_cons.1 h1 with rfl | h1
          · exact absurd h2.1 hk
          · exact .inr ⟨x, h1, h2⟩

/-- the loop when the last label is kept and is new -/
theorem stateLoop_last {keep : Bytes → Bool} {alias : Bytes → Bytes} {n : Nat} (ys : List (Bytes × Nat)) (l : Bytes) (i : Nat)
    (hk : keep l = true) (hnew : ∀ y ∈ ys, keep y.1 = true → alias y.1 ≠ alias l) :
    stateLoop keep alias n (ys ++ [(l, i)]) [] = stateLoop keep alias i ys [] ++ [(alias l, .one ⟨i, n⟩)] := by
  rw [stateLoop_append, stateLoop_cons, if_pos hk]
  have : get (stateLoop keep alias i ys []) (alias l) = none := by
    cases h : get (stateLoop keep alias i ys []) (alias l) with
    | none => rfl
    | some v =>
      have := List.mem_map_of_mem (f := Prod.fst) (get_some h)
      rw [stateLoop_keys] at this
      rcases this with h | ⟨x, h1, h2, h3⟩
      · simp at h
      · exact absurd h3 (hnew x h1 h2)
  unfold addPiece
  rw [this]
  rfl

theorem setv_last {d : SD} {k : Bytes} {v w : Val} (h : k ∉ d.map Prod.fst) : setv (d ++ [(k, v)]) k w = d ++ [(k, w)] := by
  have := setv_of_notMem (v := w) h
  unfold setv at *
  rw [List.map_append, this]
  simp

theorem searchsorted_append_late {P Q : List Int} {t : Int} (h : ∀ p ∈ P, p < t) :
    searchsorted (P ++ Q) t = searchsorted Q t + P.length := by
  unfold searchsorted
  rw [List.takeWhile_append_of_pos (by simpa using h), List.length_append]
  omega

theorem searchsorted_append_early {P Q : List Int} {t : Int} (h : ∀ q ∈ Q, t ≤ q) : searchsorted (P ++ Q) t = searchsorted P t := by
  unfold searchsorted
  induction P with
  | nil =>
    cases Q with
    | nil => rfl
    | cons q Q =>
      have := h q (by simp)
      rw [List.nil_append, List.takeWhile_cons, if_neg (by simp; omega)]; rfl
  | cons p P ih =>
    rw [List.cons_append, List.takeWhile_cons, List.takeWhile_cons]
    split
    · simp [ih]
    · rfl

/-- Circumstances in which the incremental update is right, when the state file object was `ef1` with pulses `P`, and is now `ef2` with further
pulses `Q`: (a) no state is in use so far, or the last label in the file is in use and its name did not occur before; (b) no new label
is timed at or before a pulse already seen; (c) no new pulse precedes a label already seen. [specification] -/
def Calm (rd : Int → Int) (ex : List Bytes) (alias : Bytes → Bytes) (ef1 ef2 : EF) (P Q : List Int) : Prop :=
  ((∀ l ∈ ef1.allLabels, l ∈ ex) ∨ (∃ ys l, ef1.allLabels = ys ++ [l] ∧ l ∉ ex ∧ ∀ y ∈ ys, y ∉ ex → alias y ≠ alias l)) ∧
  (∀ t ∈ ef2.times.drop ef1.times.length, ∀ p ∈ P, rd p < rd t) ∧
  (∀ t ∈ ef1.times, ∀ q ∈ Q, rd t ≤ rd q)

theorem calcStates_step {rd : Int → Int} {ex : List Bytes} {alias : Bytes → Bytes} {ef1 ef2 : EF} {P Q : List Int} {d1 : SD}
    (h1 : ef1.Good ex) (h2 : ef2.Good ex) {L T} (hL : ef2.allLabels = ef1.allLabels ++ L) (hT : ef2.times = ef1.times ++ T)
    (hb : batch rd ef1 alias P = .ok d1) (hc : Calm rd ex alias ef1 ef2 P Q) :
    calcStates rd ef2 alias Q d1 ef1.allLabels.length P.length = batch rd ef2 alias (P ++ Q) := by
  obtain ⟨ha, hb2, hc2⟩ := hc
  rw [hT, List.drop_left] at hb2
  rw [batch_eq] at hb
  injection hb with hb
  rw [batch_eq]
  -- the two ways to decide what is kept agree
  have hk1 : ∀ l ∈ ef1.allLabels, (ef1.unaliased.contains l) = !ex.contains l := by
    intro l hl
    have := h1.2 l
    by_cases hx : l ∈ ex <;> simp_all
  have hk2 : ∀ l ∈ ef1.allLabels, (ef2.unaliased.contains l) = !ex.contains l := by
    intro l hl
    have := h2.2 l
    by_cases hx : l ∈ ex <;> simp_all
  have hinds1 : ef1.times.map (fun t => searchsorted ((P ++ Q).map rd) (rd t)) = ef1.times.map (fun t => searchsorted (P.map rd) (rd t)) := by
    apply List.map_congr_left
    intro t ht
    rw [List.map_append, searchsorted_append_early]
    simpa using hc2 t ht
  have hinds2 : T.map (fun t => searchsorted ((P ++ Q).map rd) (rd t)) = T.map (fun t => searchsorted (Q.map rd) (rd t) + P.length) := by
    apply List.map_congr_left
    intro t ht
    rw [List.map_append, searchsorted_append_late (by simpa using hb2 t ht), List.length_map]
  have hzip : ef2.allLabels.zip (ef2.times.map (fun t => searchsorted ((P ++ Q).map rd) (rd t))) =
      ef1.allLabels.zip (ef1.times.map (fun t => searchsorted (P.map rd) (rd t))) ++
        L.zip (T.map (fun t => searchsorted (Q.map rd) (rd t) + P.length)) := by
    rw [hL, hT, List.map_append, hinds1, hinds2, List.zip_append (by simp [h1.1])]
  have hlen : T.length = L.length := by
    have := h2.1
    rw [hL, hT, List.length_append, List.length_append, h1.1] at this
    omega
  rw [hzip]
  generalize hx1 : ef1.allLabels.zip (ef1.times.map (fun t => searchsorted (P.map rd) (rd t))) = xs1 at hb ⊢
  have hmem : ∀ x ∈ xs1, x.1 ∈ ef1.allLabels := by
    intro x hx
    rw [← hx1] at hx
    exact (List.of_mem_zip (by exact hx : (x.1, x.2) ∈ _)).1
  have hsame : ∀ n, stateLoop (fun l => ef1.unaliased.contains l) alias n xs1 [] =
      stateLoop (fun l => ef2.unaliased.contains l) alias n xs1 [] := by
    intro n
    have : ∀ (xs : List (Bytes × Nat)) (d : SD), (∀ x ∈ xs, x.1 ∈ ef1.allLabels) →
        stateLoop (fun l => ef1.unaliased.contains l) alias n xs d = stateLoop (fun l => ef2.unaliased.contains l) alias n xs d := by
      intro xs
      induction xs with
      | nil => intro d _; rfl
      | cons x t ih =>
        intro d hm
        obtain ⟨l, i⟩ := x
        rw [stateLoop_cons, stateLoop_cons]
        have hl := hm (l, i) (by simp)
        rw [hk1 l hl, hk2 l hl, ih _ (fun x hx => hm x (by simp [hx])), ih _ (fun x hx => hm x (by simp [hx]))]
    exact this xs1 [] hmem
  have hdropL : ef2.allLabels.drop ef1.allLabels.length = L := by rw [hL, List.drop_left]
  have hdropT : ef2.times.drop ef1.allLabels.length = T := by rw [hT, ← h1.1, List.drop_left]
  unfold calcStates
  dsimp only
  rw [hdropL, hdropT]
  generalize hinds : T.map (fun t => searchsorted (Q.map rd) (rd t) + P.length) = is
  rw [hsame] at hb
  rcases ha with ha | ⟨ys, l, hys, hl, hnew⟩
  · -- nothing is in use
    have hno : ∀ x ∈ xs1, ef2.unaliased.contains x.1 = false := by
      intro x hx
      rw [hk2 _ (hmem x hx)]
      simp [ha _ (hmem x hx)]
    rw [stateLoop_none _ _ hno] at hb
    subst hb
    rw [if_neg (by simp), if_neg (by simp), if_neg (by simp)]
    dsimp only
    rw [List.length_append]
    cases hz : L.zip is with
    | nil => rw [List.append_nil, stateLoop_none _ _ hno]; rfl
    | cons x t =>
      obtain ⟨m, j⟩ := x
      rw [stateLoop_append, stateLoop_none xs1 _ hno]
  · -- the last label is in use and is new
    have hzl : ∃ zs i, xs1 = zs ++ [(l, i)] ∧ ∀ z ∈ zs, z.1 ∈ ys := by
      rw [hys] at hx1
      have hl1 : (ef1.times.map (fun t => searchsorted (P.map rd) (rd t))).length = ys.length + 1 := by
        rw [List.length_map, h1.1, hys]; simp
      generalize ef1.times.map (fun t => searchsorted (P.map rd) (rd t)) = ts at hx1 hl1
      have hts : ts ≠ [] := by intro e; rw [e] at hl1; simp at hl1
      refine ⟨ys.zip ts.dropLast, ts.getLast hts, ?_, ?_⟩
      · rw [← hx1]
        conv_lhs => rw [← List.dropLast_concat_getLast hts]
        rw [List.zip_append (by simp [hl1])]
        rfl
      · intro z hz
        exact (List.of_mem_zip (by exact hz : (z.1, z.2) ∈ _)).1
    obtain ⟨zs, i, rfl, hzs⟩ := hzl
    have hkl : ef2.unaliased.contains l = true := by
      rw [hk2 l (by rw [hys]; simp)]; simpa using hl
    have hnewz : ∀ y ∈ zs, ef2.unaliased.contains y.1 = true → alias y.1 ≠ alias l := by
      intro y hy hk
      rw [hk2 _ (by rw [hys]; simp [hzs y hy])] at hk
      exact hnew _ (hzs y hy) (by simpa using hk)
    have hlast : ∀ n, stateLoop (fun l => ef2.unaliased.contains l) alias n (zs ++ [(l, i)]) [] =
        stateLoop (fun l => ef2.unaliased.contains l) alias i zs [] ++ [(alias l, .one ⟨i, n⟩)] :=
      fun n => stateLoop_last (keep := fun l => ef2.unaliased.contains l) zs l i hkl hnewz
    have hnk : alias l ∉ (stateLoop (fun l => ef2.unaliased.contains l) alias i zs []).map Prod.fst := by
      rw [stateLoop_keys]
      rintro (h | ⟨x, h1, h2, h3⟩)
      · simp at h
      · exact hnewz x h1 h2 h3
    have hpos : ef1.allLabels.length > 0 := by rw [hys]; simp
    rw [hlast] at hb
    subst hb
    cases L with
    | nil =>
      rw [if_pos ⟨by simp, rfl⟩, if_pos hpos, List.zip_nil_left, List.append_nil, hlast]
      unfold extendLast
      rw [List.getLast?_concat]
      dsimp only
      rw [setv_last hnk, List.length_append]
    | cons m L =>
      cases T with
      | nil => simp at hlen
      | cons t T =>
        rw [List.map_cons] at hinds
        subst hinds
        rw [if_neg (by simp), if_neg (by omega), if_pos (by simp)]
        unfold closeLast
        rw [List.getLast?_concat]
        dsimp only [List.headD]
        rw [setv_last hnk, List.zip_cons_cons, stateLoop_append, hlast, List.length_append]

/-- One `refreshFromFiles` on a channel whose state dictionary was in use. -/
theorem refresh_step {rd : Int → Int} {ex : List Bytes} {alias : Bytes → Bytes} {ef1 ef2 : EF} {f1 f2 : Bytes} {P Q : List Int} {d1 : SD}
    (hw : WholeLines f1) (h1 : parse (newEF (some ex)) f1 = .ok ef1) (h2 : parse (newEF (some ex)) (f1 ++ f2) = .ok ef2)
    (hb : batch rd ef1 alias P = .ok d1) (hc : Calm rd ex alias ef1 ef2 P Q) :
    ∃ d2, refresh rd ef1 alias (f1 ++ f2) (some d1) P.length (P ++ Q) = .ok (ef2, d2) ∧ batch rd ef2 alias (P ++ Q) = .ok d2 := by
  obtain ⟨hd', rest', new', hs', -, hp', b1, b2, good2⟩ := parse_content h2
  obtain ⟨hd'', rest'', new'', hs'', -, hp'', c1, c2, good1⟩ := parse_content h1
  rw [splitLines_append hw, hs''] at hs'
  simp only [List.cons_append, List.cons.injEq] at hs'
  rw [← hs'.2, parseLines_append, hp''] at hp'
  dsimp only [Except.bind] at hp'
  cases hq : parseLines (splitLines f2) with
  | error e => rw [hq] at hp'; exact absurd hp' (by simp [Except.map])
  | ok y =>
    rw [hq] at hp'
    simp only [Except.map, Except.ok.injEq] at hp'
    subst hp'
    rw [List.map_append, ← c1] at b1
    rw [List.map_append, ← c2] at b2
    have hstep := calcStates_step good1 good2 b1 b2 hb hc
    refine ⟨_, ?_, batch_eq rd ef2 alias (P ++ Q)⟩
    unfold refresh
    rw [parse_grow hw h1, h2]
    simp only [bind, Except.bind, List.drop_left, hstep, batch_eq]
    rfl

/-- a run of refreshes: each step the state file grows by some text and the channel by some pulses [specification] -/
def runRefresh (rd : Int → Int) (alias : Bytes → Bytes) (ef : EF) (d : SD) (f : Bytes) (P : List Int) :
    List (Bytes × List Int) → Except Exc (EF × SD)
  | [] => .ok (ef, d)
  | (g, Q) :: t => (refresh rd ef alias (f ++ g) (some d) P.length (P ++ Q)).bind (fun r => runRefresh rd alias r.1 r.2 (f ++ g) (P ++ Q) t)

/-- every step of the run is calm and reads whole lines [specification] -/
def AllCalm (rd : Int → Int) (ex : List Bytes) (alias : Bytes → Bytes) (f : Bytes) (P : List Int) : List (Bytes × List Int) → Prop
  | [] => True
  | (g, Q) :: t => WholeLines f ∧ (∃ ef1 ef2, parse (newEF (some ex)) f = .ok ef1 ∧ parse (newEF (some ex)) (f ++ g) = .ok ef2 ∧
      Calm rd ex alias ef1 ef2 P Q) ∧ AllCalm rd ex alias (f ++ g) (P ++ Q) t

/-- C23, in calm circumstances: after any number of refreshes the state dictionary is the one computed from the whole file and all pulses at
once. -/
theorem incremental_eq_batch_partial {rd : Int → Int} {ex : List Bytes} {alias : Bytes → Bytes} {ef : EF} {f : Bytes} {P : List Int} {d : SD}
    (h : parse (newEF (some ex)) f = .ok ef) (hb : batch rd ef alias P = .ok d) (steps : List (Bytes × List Int))
    (hc : AllCalm rd ex alias f P steps) :
    ∃ ef' d', runRefresh rd alias ef d f P steps = .ok (ef', d') ∧
      parse (newEF (some ex)) (f ++ (steps.map Prod.fst).flatten) = .ok ef' ∧
      batch rd ef' alias (P ++ (steps.map Prod.snd).flatten) = .ok d' := by
  induction steps generalizing ef f P d with
  | nil => exact ⟨ef, d, rfl, by simpa using h, by simpa using hb⟩
  | cons s t ih =>
    obtain ⟨g, Q⟩ := s
    obtain ⟨hw, ⟨ef1, ef2, h1, h2, hcalm⟩, hrest⟩ := hc
    rw [h] at h1
    injection h1 with h1
    subst h1
    obtain ⟨d2, hr, hb2⟩ := refresh_step hw h h2 hb hcalm
    obtain ⟨ef', d', hrun, hp, hbb⟩ := ih h2 hb2 hrest
    refine ⟨ef', d', ?_, by simpa using hp, by simpa using hbb⟩
    rw [runRefresh, hr]
    exact hrun

/-- C23, instance: START, A, then B, with pulses arriving in between; the incremental result is the batch result -/
example : ((parse (newEF (some [asc "START"])) (asc "# h\n1, START\n2, A\n")).bind (fun ef =>
      (batch id ef id [1, 3]).bind (fun d => runRefresh id id ef d (asc "# h\n1, START\n2, A\n") [1, 3]
        [([], [4, 5]), (asc "6, B\n", [5, 6, 7])]))).map Prod.snd = .ok [(asc "A", .one ⟨1, 5⟩), (asc "B", .one ⟨5, 7⟩)] ∧
    ((parse (newEF (some [asc "START"])) (asc "# h\n1, START\n2, A\n6, B\n")).bind (fun ef => batch id ef id [1, 3, 4, 5, 5, 6, 7])) =
      .ok [(asc "A", .one ⟨1, 5⟩), (asc "B", .one ⟨5, 7⟩)] := by decide +kernel

example : AllCalm id [asc "START"] id (asc "# h\n1, START\n2, A\n") [1, 3] [([], [4, 5]), (asc "6, B\n", [5, 6, 7])] := by
  refine ⟨.inr ⟨asc "# h\n1, START\n2, A", by decide +kernel⟩, ⟨mkEF [asc "START"] [(asc "START", 1), (asc "A", 2)] |> fun e => { e with parseStart := 18 },
    mkEF [asc "START"] [(asc "START", 1), (asc "A", 2)] |> fun e => { e with parseStart := 18 }, by decide +kernel, by decide +kernel,
    .inr ⟨[asc "START"], asc "A", by decide +kernel, by decide +kernel, by decide +kernel⟩, by decide +kernel, by decide +kernel⟩, ?_⟩
  refine ⟨.inr ⟨asc "# h\n1, START\n2, A", by decide +kernel⟩, ⟨mkEF [asc "START"] [(asc "START", 1), (asc "A", 2)] |> fun e => { e with parseStart := 18 },
    mkEF [asc "START"] [(asc "START", 1), (asc "A", 2), (asc "B", 6)] |> fun e => { e with parseStart := 23 }, by decide +kernel, by decide +kernel,
    .inr ⟨[asc "START"], asc "A", by decide +kernel, by decide +kernel, by decide +kernel⟩, by decide +kernel, by decide +kernel⟩, trivial⟩

/-- an incremental run against one batch over the same data [specification] -/
def compare (ex : List Bytes) (f : Bytes) (P : List Int) (steps : List (Bytes × List Int)) : Except Exc SD × Except Exc SD :=
  (((parse (newEF (some ex)) f).bind (fun ef => (batch id ef id P).bind (fun d => runRefresh id id ef d f P steps))).map Prod.snd,
   (parse (newEF (some ex)) (f ++ (steps.map Prod.fst).flatten)).bind (fun ef => batch id ef id (P ++ (steps.map Prod.snd).flatten)))

/-- C23 fails: the last state is a repeated one and a new state begins — AttributeError -/
theorem incremental_repeat_fails :
    compare [] (asc "# h\n1, A\n2, B\n3, B\n") [1, 2, 3] [(asc "4, C\n", [4])] =
      (.error .attribute, .ok [(asc "A", .one ⟨0, 1⟩), (asc "B", .many [⟨1, 2⟩, ⟨2, 3⟩]), (asc "C", .one ⟨3, 4⟩)]) := by decide +kernel

/-- C23 fails: the active state is a return to an earlier one — the wrong state grows -/
theorem incremental_return_fails :
    compare [] (asc "# h\n1, A\n2, B\n3, A\n") [1, 2, 3] [([], [4])] =
      (.ok [(asc "A", .many [⟨0, 1⟩, ⟨2, 3⟩]), (asc "B", .one ⟨1, 4⟩)],
       .ok [(asc "A", .many [⟨0, 1⟩, ⟨2, 4⟩]), (asc "B", .one ⟨1, 2⟩)]) := by decide +kernel

/-- C23 fails: the active state is excluded — pulses that belong to no state are added to the last one -/
theorem incremental_excluded_fails :
    compare [asc "STOP"] (asc "# h\n1, A\n2, STOP\n") [1, 2, 3] [([], [4])] =
      (.ok [(asc "A", .one ⟨0, 4⟩)], .ok [(asc "A", .one ⟨0, 1⟩)]) := by decide +kernel

/-- C23 fails: a label arrives late, after pulses of its state -/
theorem incremental_late_label_fails :
    compare [] (asc "# h\n1, A\n") [1, 2, 3] [(asc "2, B\n", [4])] =
      (.ok [(asc "A", .one ⟨0, 3⟩), (asc "B", .one ⟨3, 4⟩)], .ok [(asc "A", .one ⟨0, 1⟩), (asc "B", .one ⟨1, 4⟩)]) := by decide +kernel

/-- C23 fails: pulses arrive late, after the label of the next state -/
theorem incremental_late_pulse_fails :
    compare [] (asc "# h\n1, A\n5, B\n") [1, 2] [([], [3, 6])] =
      (.ok [(asc "A", .one ⟨0, 2⟩), (asc "B", .one ⟨2, 4⟩)], .ok [(asc "A", .one ⟨0, 3⟩), (asc "B", .one ⟨3, 4⟩)]) := by decide +kernel

/-- C23 fails: a channel whose dictionary was not used before the refresh gets the new states twice -/
theorem refresh_unused_fails :
    ((parse (newEF (some [])) (asc "# h\n1, A\n")).bind (fun ef => refresh id ef id (asc "# h\n1, A\n3, B\n5, C\n") none 2 [1, 2, 3, 4, 5])).map
      (fun r => (r.2, statesAt r.2 2)) =
      .ok ([(asc "A", .one ⟨0, 2⟩), (asc "B", .many [⟨2, 4⟩, ⟨2, 4⟩]), (asc "C", .many [⟨4, 2⟩, ⟨4, 5⟩])], [asc "B", asc "B"]) := by
  decide +kernel

end Mass.States
