import Mathlib.Data.List.Forall2
/-! C30: time to the nearest external triggers (mass/core/analysis_algorithms.pyx). Times are modelled as unbounded integers; the code uses int64, so
differences of times more than 2^63 apart are outside the model. -/
namespace Mass.Algo

/-! ### model -/

/-- analysis_algorithms.pyx L701 `np.iinfo(np.int64).max`, the mark for "no such trigger" -/
def maxValue : Int := 2 ^ 63 - 1

/-- analysis_algorithms.pyx L721-737 and L739-742: `a`, `b` are the current bracketing triggers, `rest` the triggers after `b`, the last argument the
pulses not yet done. Gives (delay from last trigger, delay until next trigger) per pulse. -/
def scan : Int → Int → List Int → List Int → List (Int × Int)
  | _, _, _, [] => []
  | a, b, rest, p :: ps =>
    if p < b then (p - a, b - p) :: scan a b rest ps
    else match rest with
      | [] => (p :: ps).map (fun q => (q - b, maxValue))
      | c :: rest' => scan b c rest' (p :: ps)
termination_by _ _ rest ps => rest.length + ps.length

/-- analysis_algorithms.pyx L708-719: pulses before the first trigger, then the scan -/
def lead (a b : Int) (rest : List Int) : List Int → List (Int × Int)
  | [] => []
  | p :: ps => if p < a then (maxValue, a - p) :: lead a b rest ps else scan a b rest (p :: ps)

/-- analysis_algorithms.pyx L743-752: exactly one trigger. The assignment in L752 goes to a misspelt name, so the delay until the next trigger keeps
its initial value 0. -/
def single (a p : Int) : Int × Int := if p > a then (p - a, maxValue) else (maxValue, 0)

/-- what the function returns: one array, or a pair of arrays (here an array of pairs) (used for analysis_algorithms.pyx L662-759) -/
inductive Arrivals
  | oneArray
  | pair (l : List (Int × Int))
  deriving DecidableEq

/-- analysis_algorithms.pyx L662-759 `nearest_arrivals` -/
def nearestArrivals (ps ts : List Int) : Arrivals :=
  if ps = [] then .oneArray
  else match ts with
    | a :: b :: rest => .pair (lead a b rest ps)
    | [a] => .pair (ps.map (single a))
    | [] => .pair (ps.map (fun _ => (maxValue, maxValue)))

/-- `np.searchsorted(xs, x)` (left) on sorted data (used for analysis_algorithms.pyx L637-656) -/
def search (xs : List Int) (x : Int) : Nat := (xs.takeWhile (fun y => decide (y < x))).length

/-- analysis_algorithms.pyx L637-656 `python_nearest_arrivals`, for float arrays (`none` is infinity). `k` is the pulse's position. The index
arrays are kept per pulse; L643 and L644 search the (sorted) array of indices. An index outside the trigger list raises IndexError: `none` outside. -/
def pythonArrivals (ps ts : List Int) : Option (List (Option Int × Option Int)) :=
  let after := ps.map (search ts)
  let last := search (after.map (fun n : Nat => (n : Int))) ts.length
  let first := search (after.map (fun n : Nat => (n : Int))) 1
  (ps.zip after).zipIdx.mapM (fun e =>
    let p := e.1.1
    let nb := (if e.2 < first then 1 else e.1.2) - 1
    let na := if last ≤ e.2 then ts.length - 1 else e.1.2
    match ts[nb]?, ts[na]? with
    | some tb, some ta => some (if e.2 < first then none else some (p - tb), if last ≤ e.2 then none else some (ta - p))
    | _, _ => none)

/-! ### specification -/

/-- non-decreasing times [specification] -/
def Increasing (l : List Int) : Prop := l.Pairwise (· ≤ ·)

/-- `d` is the time since the last trigger at or before `p`, or the mark when there is none [specification] -/
def Since (ts : List Int) (p d : Int) : Prop :=
  ((∀ t ∈ ts, p < t) ∧ d = maxValue) ∨ ∃ t ∈ ts, t ≤ p ∧ (∀ u ∈ ts, u ≤ p → u ≤ t) ∧ d = p - t

/-- `d` is the time until the first trigger after `p`, or the mark when there is none [specification] -/
def Until (ts : List Int) (p d : Int) : Prop :=
  ((∀ t ∈ ts, t ≤ p) ∧ d = maxValue) ∨ ∃ t ∈ ts, p < t ∧ (∀ u ∈ ts, p < u → t ≤ u) ∧ d = t - p

/-- the list of delays `ds` is right for the pulses `ps` [specification] -/
def Right (ts : List Int) (ps : List Int) (ds : List (Int × Int)) : Prop :=
  List.Forall₂ (fun p d => Since ts p d.1 ∧ Until ts p d.2) ps ds

/-! ### proofs -/

theorem scan_right (ts pre : List Int) (a b : Int) (rest ps : List Int) (hts : ts = pre ++ a :: b :: rest)
    (hs : Increasing ts) (hp : Increasing ps) (ha : ∀ p ∈ ps, a ≤ p) : Right ts ps (scan a b rest ps) := by
  fun_induction scan a b rest ps generalizing pre with
  | case1 => exact .nil
  | case2 a b rest p ps h ih =>
    unfold Increasing at hp hs
    rw [List.pairwise_cons] at hp
    refine .cons ⟨.inr ⟨a, by simp [hts], ha p (by simp), ?_, rfl⟩, .inr ⟨b, by simp [hts], h, ?_, rfl⟩⟩ (ih pre hts hp.2 (fun q hq => ha q (by simp [hq])))
    · intro u hu hup
      rw [hts, List.pairwise_append, List.pairwise_cons, List.pairwise_cons] at hs
      rw [hts] at hu
      rcases List.mem_append.1 hu with hu | hu
      · exact hs.2.2 u hu a (by simp)
      · rcases List.mem_cons.1 hu with rfl | hu
        · exact Int.le_refl _
        · rcases List.mem_cons.1 hu with rfl | hu
          · omega
          · have := hs.2.1.2.1 u hu
            omega
    · intro u hu hup
      rw [hts, List.pairwise_append, List.pairwise_cons, List.pairwise_cons] at hs
      rw [hts] at hu
      have hap := ha p (by simp)
      rcases List.mem_append.1 hu with hu | hu
      · have := hs.2.2 u hu a (by simp)
        omega
      · rcases List.mem_cons.1 hu with rfl | hu
        · omega
        · rcases List.mem_cons.1 hu with rfl | hu
          · exact Int.le_refl _
          · exact hs.2.1.2.1 u hu
  | case3 a b p ps h =>
    have hall : ∀ q ∈ p :: ps, b ≤ q := by
      intro q hq
      unfold Increasing at hp
      rw [List.pairwise_cons] at hp
      rcases List.mem_cons.1 hq with rfl | hq
      · omega
      · have := hp.1 q hq; omega
    have hle : ∀ u ∈ ts, u ≤ b := by
      intro u hu
      unfold Increasing at hs
      rw [hts, List.pairwise_append, List.pairwise_cons] at hs
      rw [hts] at hu
      rcases List.mem_append.1 hu with hu | hu
      · exact hs.2.2 u hu b (by simp)
      · rcases List.mem_cons.1 hu with rfl | hu
        · exact hs.2.1.1 b (by simp)
        · rw [List.mem_singleton] at hu; omega
    unfold Right
    have key : ∀ (l : List Int), (∀ q ∈ l, b ≤ q) →
        List.Forall₂ (fun p d => Since ts p d.1 ∧ Until ts p d.2) l (l.map (fun q => (q - b, maxValue))) := by
      intro l
      induction l with
      | nil => intro _; exact .nil
      | cons q t ih =>
        intro h
        refine .cons ⟨.inr ⟨b, by simp [hts], h q (by simp), fun u hu _ => hle u hu, rfl⟩, .inl ⟨?_, rfl⟩⟩ (ih (fun r hr => h r (by simp [hr])))
        intro t ht
        have := hle t ht
        have := h q (by simp)
        omega
    exact key _ hall
  | case4 a b p ps h c rest ih =>
    refine ih (pre ++ [a]) (by simp [hts]) hp ?_
    intro q hq
    unfold Increasing at hp
    rw [List.pairwise_cons] at hp
    rcases List.mem_cons.1 hq with rfl | hq
    · omega
    · have := hp.1 q hq; omega

theorem lead_right (a b : Int) (rest ps : List Int) (hs : Increasing (a :: b :: rest)) (hp : Increasing ps) :
    Right (a :: b :: rest) ps (lead a b rest ps) := by
  induction ps with
  | nil => exact .nil
  | cons p ps ih =>
    unfold lead
    have hp' := hp
    unfold Increasing at hp'
    rw [List.pairwise_cons] at hp'
    split
    · rename_i h
      have hmin : ∀ u ∈ a :: b :: rest, a ≤ u := by
        intro u hu
        unfold Increasing at hs
        rw [List.pairwise_cons] at hs
        rcases List.mem_cons.1 hu with rfl | hu
        · exact Int.le_refl _
        · exact hs.1 u hu
      refine .cons ⟨.inl ⟨fun t ht => ?_, rfl⟩, .inr ⟨a, by simp, h, fun u hu _ => hmin u hu, rfl⟩⟩ (ih hp'.2)
      have := hmin t ht
      omega
    · rename_i h
      refine scan_right _ [] a b rest (p :: ps) rfl hs hp ?_
      intro q hq
      rcases List.mem_cons.1 hq with rfl | hq
      · omega
      · have := hp'.1 q hq; omega

/-- C30. With any number of triggers except one, and at least one pulse, the fast scan returns for every pulse the time since the last trigger at or
before it and the time until the first trigger after it. -/
theorem nearest_arrivals_partial {ps ts : List Int} (hne : ps ≠ []) (h1 : ts.length ≠ 1) (hs : Increasing ts) (hp : Increasing ps) :
    ∃ ds, nearestArrivals ps ts = .pair ds ∧ Right ts ps ds := by
  unfold nearestArrivals
  rw [if_neg hne]
  match ts, h1, hs with
  | [], _, _ =>
    refine ⟨_, rfl, ?_⟩
    unfold Right
    have key : ∀ l : List Int,
        List.Forall₂ (fun p d => Since [] p d.1 ∧ Until [] p d.2) l (l.map (fun _ => (maxValue, maxValue))) := by
      intro l
      induction l with
      | nil => exact .nil
      | cons q t ih => exact .cons ⟨.inl ⟨by simp, rfl⟩, .inl ⟨by simp, rfl⟩⟩ ih
    exact key ps
  | a :: b :: rest, _, hs => exact ⟨_, rfl, lead_right a b rest ps hs hp⟩

/-- C30. The mark for no trigger is larger than the time between any two moments that fit in 64 bits with sign, after the first one. -/
theorem mark_larger (p t : Int) (ht : 0 < t) (hp : p < 2 ^ 63) : p - t < maxValue := by
  unfold maxValue
  omega

/-- C30, instance: ties and pulses on both sides -/
example : nearestArrivals [1, 5, 7, 10, 12, 30] [5, 10, 20] =
    .pair [(maxValue, 4), (0, 5), (2, 3), (0, 10), (2, 8), (10, maxValue)] := by decide +kernel

/-- C30 is false with one trigger: the delay until a later trigger is reported as 0, and a trigger at the pulse's own time is not seen. -/
theorem nearest_single_fails : nearestArrivals [3, 10] [10] = .pair [(maxValue, 0), (maxValue, 0)] ∧
    ¬ Until [10] 3 0 ∧ ¬ Since [10] 10 maxValue := by
  refine ⟨by decide +kernel, ?_, ?_⟩
  · rintro (⟨h, -⟩ | ⟨t, ht, h1, -, h2⟩)
    · have := h 10 (by simp); omega
    · omega
  · rintro (⟨h, -⟩ | ⟨t, ht, h1, -, h2⟩)
    · have := h 10 (by simp); omega
    · simp at ht; subst ht; exact absurd h2 (by decide)

/-- With no pulses the function returns one array, not two. -/
theorem nearest_no_pulses_fails (ts : List Int) : nearestArrivals [] ts = .oneArray := rfl

/-- With one trigger the other half of the answer is right for pulses after the trigger. -/
theorem single_after {a p : Int} (h : a < p) : Since [a] p (single a p).1 ∧ Until [a] p (single a p).2 := by
  unfold single
  rw [if_pos h]
  refine ⟨.inr ⟨a, by simp, by omega, ?_, rfl⟩, .inl ⟨?_, rfl⟩⟩
  · intro u hu _; simp at hu; omega
  · intro u hu; simp at hu; omega

/-! ### the binary-search version -/

theorem search_le (ts : List Int) (p : Int) : search ts p ≤ ts.length := (List.takeWhile_prefix _).length_le

theorem search_iff {ts : List Int} (hs : Increasing ts) (p : Int) {i : Nat} (hi : i < ts.length) : i < search ts p ↔ ts[i] < p := by
  unfold search
  induction ts generalizing i with
  | nil => simp at hi
  | cons a t ih =>
    unfold Increasing at hs
    rw [List.pairwise_cons] at hs
    rw [List.takeWhile_cons]
    by_cases ha : a < p
    · simp only [ha, decide_true, if_true, List.length_cons]
      cases i with
      | zero => simp [ha]
      | succ i =>
        rw [List.getElem_cons_succ, ← ih hs.2 (by simpa using hi)]
        omega
    · simp only [ha, decide_false, Bool.false_eq_true, if_false, List.length_nil]
      constructor
      · omega
      · intro h
        cases i with
        | zero => exact absurd h ha
        | succ i =>
          have := hs.1 (t[i]'(by simpa using hi)) (List.getElem_mem _)
          simp at h
          omega

theorem search_mono (ts : List Int) {p q : Int} (h : p ≤ q) : search ts p ≤ search ts q := by
  unfold search
  induction ts with
  | nil => simp
  | cons a t ih =>
    rw [List.takeWhile_cons, List.takeWhile_cons]
    by_cases ha : a < p
    · have : a < q := by omega
      simp [ha, this]; exact ih
    · simp [ha]

/-- time since the last trigger before `p` (strictly), `none` when there is none [specification] -/
def SinceStrict (ts : List Int) (p : Int) : Option Int → Prop
  | none => ∀ t ∈ ts, p ≤ t
  | some d => ∃ t ∈ ts, t < p ∧ (∀ u ∈ ts, u < p → u ≤ t) ∧ d = p - t

/-- time until the first trigger at or after `p`, `none` when there is none [specification] -/
def UntilOrAt (ts : List Int) (p : Int) : Option Int → Prop
  | none => ∀ t ∈ ts, t < p
  | some d => ∃ t ∈ ts, p ≤ t ∧ (∀ u ∈ ts, p ≤ u → t ≤ u) ∧ d = t - p

theorem python_one {ts : List Int} (hs : Increasing ts) (p : Int) :
    (search ts p < 1 → ∀ t ∈ ts, p ≤ t) ∧
    (∀ h : 1 ≤ search ts p, ∃ hi : search ts p - 1 < ts.length,
      SinceStrict ts p (some (p - ts[search ts p - 1]))) ∧
    (ts.length ≤ search ts p → ∀ t ∈ ts, t < p) ∧
    (∀ h : search ts p < ts.length, UntilOrAt ts p (some (ts[search ts p] - p))) := by
  have hle := search_le ts p
  have hmono : ∀ i j (hi : i < ts.length) (hj : j < ts.length), i ≤ j → ts[i] ≤ ts[j] := by
    intro i j hi hj hij
    rcases Nat.lt_or_eq_of_le hij with h | rfl
    · exact List.pairwise_iff_getElem.1 hs i j hi hj h
    · exact Int.le_refl _
  refine ⟨?_, ?_, ?_, ?_⟩
  · intro h t ht
    obtain ⟨i, hi, rfl⟩ := List.getElem_of_mem ht
    have := search_iff hs p hi
    omega
  · intro h
    have hi : search ts p - 1 < ts.length := by omega
    refine ⟨hi, _, List.getElem_mem hi, (search_iff hs p hi).1 (by omega), ?_, rfl⟩
    intro u hu hup
    obtain ⟨j, hj, rfl⟩ := List.getElem_of_mem hu
    have := (search_iff hs p hj).2 hup
    exact hmono j _ hj hi (by omega)
  · intro h t ht
    obtain ⟨i, hi, rfl⟩ := List.getElem_of_mem ht
    exact (search_iff hs p hi).1 (by omega)
  · intro h
    have h0 : ¬ ts[search ts p] < p := fun hc => absurd ((search_iff hs p h).2 hc) (by omega)
    refine ⟨_, List.getElem_mem h, by omega, ?_, rfl⟩
    intro u hu hup
    obtain ⟨j, hj, rfl⟩ := List.getElem_of_mem hu
    have : ¬ j < search ts p := fun hc => absurd ((search_iff hs p hj).1 hc) (by omega)
    exact hmono _ j h hj (by omega)

theorem mapM_forall₂ {α β : Type} (f : α → Option β) (P : α → β → Prop) (l : List α) (h : ∀ x ∈ l, ∃ y, f x = some y ∧ P x y) :
    ∃ r, l.mapM f = some r ∧ List.Forall₂ P l r := by
  induction l with
  | nil => exact ⟨[], rfl, .nil⟩
  | cons x t ih =>
    obtain ⟨y, h1, h2⟩ := h x (by simp)
    obtain ⟨r, h3, h4⟩ := ih (fun z hz => h z (by simp [hz]))
    refine ⟨y :: r, ?_, .cons h2 h4⟩
    rw [List.mapM_cons, h1, h3]
    rfl

theorem after_sorted {ts ps : List Int} (hp : Increasing ps) : Increasing ((ps.map (search ts)).map (fun n : Nat => (n : Int))) := by
  unfold Increasing at *
  rw [List.map_map, List.pairwise_map]
  refine hp.imp ?_
  intro a b h
  have := search_mono ts h
  simp only [Function.comp]
  omega

theorem forall₂_zipIdx {α β : Type} (P : α → β → Prop) (l : List α) (k : Nat) (r : List β)
    (h : List.Forall₂ (fun e y => P e.1 y) (l.zipIdx k) r) : List.Forall₂ P l r := by
  induction l generalizing k r with
  | nil => cases h; exact .nil
  | cons x t ih =>
    rw [List.zipIdx_cons] at h
    cases h with
    | cons h1 h2 => exact .cons h1 (ih _ _ h2)

theorem forall₂_zip {α β γ : Type} (P : α → γ → Prop) (l : List α) (f : α → β) (r : List γ)
    (h : List.Forall₂ (fun e y => P e.1 y) (l.zip (l.map f)) r) : List.Forall₂ P l r := by
  induction l generalizing r with
  | nil => cases h; exact .nil
  | cons x t ih =>
    rw [List.map_cons, List.zip_cons_cons] at h
    cases h with
    | cons h1 h2 => exact .cons h1 (ih _ h2)

/-- C30. The binary-search version, for at least one trigger: time since the last trigger strictly before and time until the first trigger at or after
each pulse. -/
theorem python_arrivals_spec {ps ts : List Int} (hne : ts ≠ []) (hs : Increasing ts) (hp : Increasing ps) :
    ∃ ds, pythonArrivals ps ts = some ds ∧ List.Forall₂ (fun p d => SinceStrict ts p d.1 ∧ UntilOrAt ts p d.2) ps ds := by
  unfold pythonArrivals
  dsimp only
  obtain ⟨r, h1, h2⟩ := mapM_forall₂
    (fun e : (Int × Nat) × Nat =>
      match ts[(if e.2 < search ((ps.map (search ts)).map (fun n : Nat => (n : Int))) 1 then 1 else e.1.2) - 1]?,
        ts[if search ((ps.map (search ts)).map (fun n : Nat => (n : Int))) ts.length ≤ e.2 then ts.length - 1 else e.1.2]? with
      | some tb, some ta => some (if e.2 < search ((ps.map (search ts)).map (fun n : Nat => (n : Int))) 1 then none else some (e.1.1 - tb),
          if search ((ps.map (search ts)).map (fun n : Nat => (n : Int))) ts.length ≤ e.2 then none else some (ta - e.1.1))
      | _, _ => none)
    (fun e d => SinceStrict ts e.1.1 d.1 ∧ UntilOrAt ts e.1.1 d.2) ((ps.zip (ps.map (search ts))).zipIdx) (by
      rintro ⟨⟨p, n⟩, k⟩ he
      have hk : (ps.zip (ps.map (search ts)))[k]? = some (p, n) := by
        rw [List.mk_mem_zipIdx_iff_getElem?] at he; exact he
      obtain ⟨hkl, hk⟩ := List.getElem?_eq_some_iff.1 hk
      rw [List.getElem_zip, List.getElem_map] at hk
      have hkp : k < ps.length := by rw [List.length_zip] at hkl; omega
      have hp0 : ps[k] = p := by injection hk
      have hn : search ts p = n := by injection hk with h1 h2; rw [← h2, h1]
      have hA : k < ((ps.map (search ts)).map (fun n : Nat => (n : Int))).length := by simpa using hkp
      have hAk : ((ps.map (search ts)).map (fun n : Nat => (n : Int)))[k] = (n : Int) := by simp [hp0, hn]
      have hfirst := search_iff (after_sorted (ts := ts) hp) 1 hA
      have hlast := search_iff (after_sorted (ts := ts) hp) ts.length hA
      rw [hAk] at hfirst hlast
      have hpos : 0 < ts.length := List.length_pos_iff.2 hne
      obtain ⟨q1, q2, q3, q4⟩ := python_one hs p
      rw [hn] at q1 q2 q3 q4
      dsimp only
      by_cases hf : k < search ((ps.map (search ts)).map (fun n : Nat => (n : Int))) 1 <;>
      by_cases hl : search ((ps.map (search ts)).map (fun n : Nat => (n : Int))) ts.length ≤ k
      · rw [if_pos hf, if_pos hl, List.getElem?_eq_getElem (by omega), List.getElem?_eq_getElem (by omega)]
        dsimp only
        rw [if_pos hf, if_pos hl]
        exact ⟨_, rfl, q1 (by omega), q3 (by omega)⟩
      · rw [if_pos hf, if_neg hl, List.getElem?_eq_getElem (by omega), List.getElem?_eq_getElem (by omega)]
        dsimp only
        rw [if_pos hf, if_neg hl]
        exact ⟨_, rfl, q1 (by omega), q4 (by omega)⟩
      · obtain ⟨hi, q2⟩ := q2 (by omega)
        rw [if_neg hf, if_pos hl, List.getElem?_eq_getElem (by omega), List.getElem?_eq_getElem (by omega)]
        dsimp only
        rw [if_neg hf, if_pos hl]
        exact ⟨_, rfl, q2, q3 (by omega)⟩
      · obtain ⟨hi, q2⟩ := q2 (by omega)
        rw [if_neg hf, if_neg hl, List.getElem?_eq_getElem (by omega), List.getElem?_eq_getElem (by omega)]
        dsimp only
        rw [if_neg hf, if_neg hl]
        exact ⟨_, rfl, q2, q4 (by omega)⟩)
  exact ⟨r, h1, forall₂_zip _ ps (search ts) r (forall₂_zipIdx _ _ 0 r h2)⟩

example : pythonArrivals [1, 5, 7, 12, 30] [5, 10, 20] =
    some [(none, some 4), (none, some 0), (some 2, some 3), (some 2, some 8), (some 10, none)] := by decide +kernel

/-- "no such trigger" in either notation [specification] -/
def asMark : Option Int → Int
  | none => maxValue
  | some d => d

theorem since_unique {ts : List Int} {p d : Int} {o : Option Int} (hno : p ∉ ts) (h1 : Since ts p d) (h2 : SinceStrict ts p o) : d = asMark o := by
  have hne : ∀ t ∈ ts, t ≠ p := fun t ht h => hno (h ▸ ht)
  cases o with
  | none =>
    rcases h1 with ⟨-, h⟩ | ⟨t, ht, h3, -⟩
    · exact h
    · have := h2 t ht; have := hne t ht; omega
  | some e =>
    obtain ⟨u, hu, h3, h4, h5⟩ := h2
    rcases h1 with ⟨h, -⟩ | ⟨t, ht, h6, h7, h8⟩
    · have := h u hu; omega
    · have := h7 u hu (by omega)
      have := h4 t ht (by have := hne t ht; omega)
      show d = e
      omega

theorem until_unique {ts : List Int} {p d : Int} {o : Option Int} (hno : p ∉ ts) (h1 : Until ts p d) (h2 : UntilOrAt ts p o) : d = asMark o := by
  have hne : ∀ t ∈ ts, t ≠ p := fun t ht h => hno (h ▸ ht)
  cases o with
  | none =>
    rcases h1 with ⟨-, h⟩ | ⟨t, ht, h3, -⟩
    · exact h
    · have := h2 t ht; omega
  | some e =>
    obtain ⟨u, hu, h3, h4, h5⟩ := h2
    have hup := hne u hu
    rcases h1 with ⟨h, -⟩ | ⟨t, ht, h6, h7, h8⟩
    · have := h u hu; omega
    · have := h7 u hu (by omega)
      have := h4 t ht (by omega)
      show d = e
      omega

/-- C30. The fast scan and the binary search agree when there are two or more triggers and no pulse coincides with a trigger. -/
theorem versions_agree_partial {ps ts : List Int} (hne : ps ≠ []) (h2 : 2 ≤ ts.length) (hs : Increasing ts) (hp : Increasing ps)
    (hno : ∀ p ∈ ps, p ∉ ts) :
    ∃ ds, pythonArrivals ps ts = some ds ∧ nearestArrivals ps ts = .pair (ds.map (fun d => (asMark d.1, asMark d.2))) := by
  obtain ⟨ds, h3, h4⟩ := nearest_arrivals_partial hne (by omega) hs hp
  obtain ⟨es, h5, h6⟩ := python_arrivals_spec (ps := ps) (by rintro rfl; simp at h2) hs hp
  refine ⟨es, h5, ?_⟩
  rw [h3]
  congr 1
  have key : ∀ (l : List Int) (ds : List (Int × Int)) (es : List (Option Int × Option Int)), (∀ p ∈ l, p ∉ ts) → Right ts l ds →
      List.Forall₂ (fun p d => SinceStrict ts p d.1 ∧ UntilOrAt ts p d.2) l es → ds = es.map (fun d => (asMark d.1, asMark d.2)) := by
    intro l
    induction l with
    | nil => intro ds es _ h1 h2; cases h1; cases h2; rfl
    | cons p t ih =>
      intro ds es hno h1 h2
      cases h1 with
      | cons a b =>
        cases h2 with
        | cons c d =>
          rw [List.map_cons, ← ih _ _ (fun q hq => hno q (by simp [hq])) b d]
          congr 1
          exact Prod.ext (since_unique (hno p (by simp)) a.1 c.1) (until_unique (hno p (by simp)) a.2 c.2)
  exact key ps ds es hno h4 h6

/-- The two versions differ when a pulse coincides with a trigger. -/
theorem versions_tie_fails : nearestArrivals [10] [5, 10, 20] = .pair [(0, 10)] ∧ pythonArrivals [10] [5, 10, 20] = some [(some 5, some 0)] := by
  decide +kernel

/-- The binary-search version raises when there are no triggers. -/
theorem python_no_triggers_fails (p : Int) (ps : List Int) : pythonArrivals (p :: ps) [] = none := by
  unfold pythonArrivals
  dsimp only
  rw [List.map_cons, List.zip_cons_cons, List.zipIdx_cons, List.mapM_cons]
  simp

end Mass.Algo
