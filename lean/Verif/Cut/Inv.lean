import Verif.Cut.Lemmas
/-! The representation invariant of the cut-field tables and its preservation (helper file). -/
namespace Mass.Cut

/-- (category, code) pairs listed for a field. [specification] -/
def entries (g : Group) (name : String) : List (String × Word) :=
  (g.catList.filter (fun e => e.1 == name)).map (fun e => e.2)

/-- [specification or instance] -/
structure FieldOK (mask : Word) (es : List (String × Word)) : Prop where
  catNodup : (es.map Prod.fst).Nodup
  codeNodup : (es.map Prod.snd).Nodup
  fits : ∀ e ∈ es, (e.2 <<< bitPos mask) &&& mask = e.2 <<< bitPos mask
  back : ∀ e ∈ es, (e.2 <<< bitPos mask) >>> bitPos mask = e.2
  dflt : es.head?.map Prod.snd = some 0#32

/-- slot table is well formed and agrees with `f`, where `P` tells the bits used by others [specification] -/
structure SlotInv (d : List (String × Word)) (f : Word) (P : Nat → Prop) : Prop where
  len : d.length = 32
  slot : ∀ i b, d[i]? = some b → b = ("", 0#32) ∨ (b.1 ≠ "" ∧ b.2 = bit i)
  flags : ∀ i, i < 32 → (f.getLsbD i = true ↔ ((∃ b, d[i]? = some b ∧ b.1 ≠ "") ∨ P i))
  disj : ∀ i b, d[i]? = some b → b.1 ≠ "" → ¬ P i

/-- bits used by the categorical fields [specification] -/
def catBit (cats : List (String × Word)) (i : Nat) : Prop := ∃ c ∈ cats, c.2.getLsbD i = true

/-- [specification or instance] -/
structure Inv (g : Group) : Prop where
  slots : SlotInv g.bools g.flags (catBit g.cats)
  catNodup : (g.cats.map Prod.fst).Nodup
  catDisj : g.cats.Pairwise (fun a b => a.2 &&& b.2 = 0#32)
  catNe : ∀ c ∈ g.cats, c.2 ≠ 0#32
  listed : ∀ e ∈ g.catList, e.1 ∈ g.cats.map Prod.fst
  field : ∀ c ∈ g.cats, FieldOK c.2 (entries g c.1)

theorem SlotInv.mono {d f P Q} (h : SlotInv d f P) (hPQ : ∀ i, i < 32 → (P i ↔ Q i)) :
    SlotInv d f Q := by
  refine ⟨h.len, h.slot, ?_, ?_⟩
  · intro i hi; rw [h.flags i hi, hPQ i hi]
  · intro i b hb hn hq
    have hi : i < 32 := by
      have := (List.getElem?_eq_some_iff.mp hb).1
      rw [h.len] at this; exact this
    exact h.disj i b hb hn ((hPQ i hi).mpr hq)

theorem catBit_lt {cats i} (h : catBit cats i) : i < 32 := by
  obtain ⟨c, _, hc⟩ := h
  exact lsb_lt hc

/-! ### boolean registration -/

theorem regStep {d f P i n} (h : SlotInv d f P) (hn : n ≠ "") (hi : lowestAvail f = .ok i) :
    SlotInv (d.set i (n, bit i)) (f ||| bit i) P := by
  obtain ⟨h1, h2, _⟩ := lowestAvail_ok hi
  have hd : i < d.length := by rw [h.len]; exact h1
  have hnot : ¬ ((∃ b, d[i]? = some b ∧ b.1 ≠ "") ∨ P i) := by
    rw [← h.flags i h1, h2]; simp
  refine ⟨by simp [h.len], ?_, ?_, ?_⟩
  · intro j b hb
    rw [List.getElem?_set] at hb
    by_cases hij : i = j
    · subst hij
      simp [hd] at hb
      subst hb
      exact Or.inr ⟨hn, rfl⟩
    · simp [hij] at hb
      exact h.slot j b hb
  · intro j hj
    rw [BitVec.getLsbD_or, bit_lsb, List.getElem?_set]
    by_cases hij : i = j
    · subst hij
      simp [hd, hj, hn]
    · have hji : j ≠ i := fun e => hij e.symm
      have := h.flags j hj
      simp only [hij, if_false]
      rw [← this]
      simp [hji]
  · intro j b hb hbn
    rw [List.getElem?_set] at hb
    by_cases hij : i = j
    · subst hij
      exact fun hp => hnot (Or.inr hp)
    · simp [hij] at hb
      exact h.disj j b hb hbn

theorem regLoop_inv {ns d f P r} (h : SlotInv d f P) (hn : ∀ n ∈ ns, n ≠ "")
    (hr : regLoop ns d f = .ok r) : SlotInv r.1 r.2 P := by
  induction ns generalizing d f with
  | nil => simp [regLoop] at hr; subst hr; exact h
  | cons n ns ih =>
    simp only [regLoop] at hr
    split at hr
    · cases hr
    · rename_i i hi
      exact ih (regStep h (hn n (by simp)) hi) (fun m hm => hn m (by simp [hm])) hr

/-- free bits of a flag word [specification] -/
def free (f : Word) : Nat := (List.range 32).countP (fun i => !f.getLsbD i)

theorem countP_flip {l : List Nat} (hl : l.Nodup) {p q : Nat → Bool} {i : Nat} (hi : i ∈ l)
    (hp : p i = true) (hq : q i = false) (h : ∀ j, j ≠ i → q j = p j) :
    l.countP q + 1 = l.countP p := by
  induction l with
  | nil => simp at hi
  | cons a as ih =>
    rw [List.nodup_cons] at hl
    by_cases ha : a = i
    · subst ha
      have : as.countP q = as.countP p := by
        apply List.countP_congr
        intro j hj
        have : j ≠ a := fun e => hl.1 (e ▸ hj)
        rw [h j this]
      rw [List.countP_cons, List.countP_cons]
      simp [hp, hq, this]
    · have hi' : i ∈ as := by
        cases hi with
        | head => exact absurd rfl ha
        | tail _ h => exact h
      have := ih hl.2 hi'
      rw [List.countP_cons, List.countP_cons, h a ha]
      omega

theorem free_set {f : Word} {i : Nat} (hi : i < 32) (h : f.getLsbD i = false) :
    free (f ||| bit i) + 1 = free f := by
  unfold free
  apply countP_flip List.nodup_range (List.mem_range.mpr hi)
  · rw [h]; rfl
  · rw [BitVec.getLsbD_or, bit_lsb, h]; simp [hi]
  · intro j hj
    rw [BitVec.getLsbD_or, bit_lsb]; simp [hj]

theorem free_zero {f : Word} (h : ∀ j, j < 32 → f.getLsbD j = true) : free f = 0 := by
  unfold free
  rw [List.countP_eq_zero]
  intro a ha
  simp only [List.mem_range] at ha
  rw [h a ha]; simp

theorem lowestAvail_free {f : Word} : (∃ i, lowestAvail f = .ok i) ↔ 0 < free f := by
  constructor
  · rintro ⟨i, hi⟩
    obtain ⟨h1, h2, _⟩ := lowestAvail_ok hi
    have := free_set h1 h2
    omega
  · intro h
    cases hl : lowestAvail f with
    | ok i => exact ⟨i, rfl⟩
    | error e =>
      rw [free_zero (lowestAvail_err hl).2] at h
      omega

theorem regLoop_ok_iff {ns d f} : (∃ r, regLoop ns d f = .ok r) ↔ ns.length ≤ free f := by
  induction ns generalizing d f with
  | nil => simp [regLoop]
  | cons n ns ih =>
    simp only [regLoop, List.length_cons]
    cases hl : lowestAvail f with
    | error e =>
      have := free_zero (lowestAvail_err hl).2
      simp [this]
    | ok i =>
      obtain ⟨h1, h2, _⟩ := lowestAvail_ok hl
      have := free_set h1 h2
      simp only []
      rw [ih]
      omega

theorem regLoop_err {ns d f e} (h : regLoop ns d f = .error e) : e = .value := by
  induction ns generalizing d f with
  | nil => simp [regLoop] at h
  | cons n ns ih =>
    simp only [regLoop] at h
    split at h
    · rename_i e' he
      injection h with h
      subst h
      exact (lowestAvail_err he).1
    · exact ih h

/-- the names newly registered by a call [specification] -/
def newNames (g : Group) (names : List String) : List String :=
  names.filter (fun n => !(g.bools.map Prod.fst).contains n)

theorem registerBool_run (s : Sys) (names : List String) :
    registerBool names s = match regLoop (newNames s.grp names) s.grp.bools s.grp.flags with
      | .error e => (.error e, s)
      | .ok r => (.ok (), { s with grp := { s.grp with bools := r.1, flags := r.2 } }) := by
  unfold registerBool
  simp only [bind_def, getS, lift]
  unfold newNames
  generalize regLoop _ _ _ = x
  cases x <;> rfl

theorem mem_map_fst_iff {d : List (String × Word)} {n : String} :
    n ∈ d.map Prod.fst ↔ ∃ (i : Nat) (b : String × Word), d[i]? = some b ∧ b.1 = n := by
  rw [List.mem_map]
  constructor
  · rintro ⟨b, hb, rfl⟩
    obtain ⟨i, hi⟩ := List.getElem?_of_mem hb
    exact ⟨i, b, hi, rfl⟩
  · rintro ⟨i, b, hb, rfl⟩
    exact ⟨b, List.mem_of_getElem? hb, rfl⟩

theorem newNames_ne {g : Group} (h : Inv g) {names r}
    (hr : regLoop (newNames g names) g.bools g.flags = .ok r) :
    ∀ n ∈ newNames g names, n ≠ "" := by
  intro n hn he
  subst he
  have hfull : ∀ j, j < 32 → g.flags.getLsbD j = true := by
    intro j hj
    rw [h.slots.flags j hj]
    left
    have hj' : j < g.bools.length := by rw [h.slots.len]; exact hj
    refine ⟨g.bools[j], List.getElem?_eq_getElem hj', ?_⟩
    intro hb
    have hmem : "" ∈ g.bools.map Prod.fst :=
      mem_map_fst_iff.mpr ⟨j, g.bools[j], List.getElem?_eq_getElem hj', hb⟩
    unfold newNames at hn
    rw [List.mem_filter] at hn
    have h2 := hn.2
    rw [List.contains_iff_mem.mpr hmem] at h2
    cases h2
  have : (newNames g names).length ≤ free g.flags := regLoop_ok_iff.mp ⟨r, hr⟩
  rw [free_zero hfull] at this
  have := List.length_pos_of_mem hn
  omega

theorem registerBool_inv {s : Sys} (h : Inv s.grp) (names : List String) :
    Inv ((registerBool names s).2).grp := by
  rw [registerBool_run]
  cases hr : regLoop (newNames s.grp names) s.grp.bools s.grp.flags with
  | error e => exact h
  | ok r =>
    have := regLoop_inv h.slots (newNames_ne h hr) hr
    exact ⟨this, h.catNodup, h.catDisj, h.catNe, h.listed, h.field⟩

/-! ### boolean unregistration -/

/-- table after unregistering [specification] -/
def clearSlots (names : List String) (d : List (String × Word)) : List (String × Word) :=
  d.map (fun b => if names.contains b.1 then ("", 0#32) else b)

/-- bits freed by unregistering [specification] -/
def clearBits (names : List String) (d : List (String × Word)) : Word :=
  ((d.filter (fun b => names.contains b.1)).map Prod.snd).foldl (· ||| ·) 0#32

/-- all names are registered booleans [specification] -/
def allBool (g : Group) (names : List String) : Bool :=
  names.all (fun n => n != "" && (g.bools.map Prod.fst).contains n)

theorem unregisterBool_run (s : Sys) (names : List String) :
    unregisterBool names s = if allBool s.grp names then
      (.ok (), { s with grp := { s.grp with bools := clearSlots names s.grp.bools,
                                            flags := s.grp.flags &&& ~~~ clearBits names s.grp.bools } })
      else (.error .key, s) := by
  unfold unregisterBool
  have : names.any (fun n => n == "" || !(s.grp.bools.map Prod.fst).contains n)
      = !allBool s.grp names := by
    unfold allBool
    rw [List.not_all_eq_any_not]
    congr 1
    funext n
    cases h1 : n == "" <;> cases h2 : (s.grp.bools.map Prod.fst).contains n <;> simp_all
  simp only [bind_def, getS]
  rw [this]
  cases allBool s.grp names
  · rfl
  · rfl

theorem clearBits_lsb {d f P names} (h : SlotInv d f P) (hn : "" ∉ names) (j : Nat) :
    (clearBits names d).getLsbD j = true ↔ ∃ b, d[j]? = some b ∧ b.1 ∈ names := by
  unfold clearBits
  rw [foldl_or_lsb]
  simp only [BitVec.getLsbD_zero, Bool.false_or, List.any_map, List.any_eq_true, List.mem_filter,
    Function.comp]
  constructor
  · rintro ⟨b, ⟨hb, hbn⟩, hj⟩
    obtain ⟨i, hi⟩ := List.getElem?_of_mem hb
    rcases h.slot i b hi with rfl | ⟨_, h2⟩
    · simp at hj
    · rw [h2, bit_lsb] at hj
      simp at hj
      rw [hj.2]
      exact ⟨b, hi, by simpa using hbn⟩
  · rintro ⟨b, hb, hbn⟩
    refine ⟨b, ⟨List.mem_of_getElem? hb, by simpa using hbn⟩, ?_⟩
    rcases h.slot j b hb with rfl | ⟨_, h2⟩
    · exact absurd hbn hn
    · have := (List.getElem?_eq_some_iff.mp hb).1
      rw [h.len] at this
      rw [h2, bit_lsb]; simp [this]

theorem clearSlots_get {names d} {i : Nat} {b : String × Word} :
    (clearSlots names d)[i]? = some b ↔
      ∃ b', d[i]? = some b' ∧ b = if names.contains b'.1 then ("", 0#32) else b' := by
  unfold clearSlots
  rw [List.getElem?_map]
  cases d[i]? <;> simp [eq_comm]

theorem clear_inv {d f P names} (h : SlotInv d f P) (hn : "" ∉ names) :
    SlotInv (clearSlots names d) (f &&& ~~~ clearBits names d) P := by
  refine ⟨by simp [clearSlots, h.len], ?_, ?_, ?_⟩
  · intro i b hb
    obtain ⟨b', hb', rfl⟩ := clearSlots_get.mp hb
    split
    · exact Or.inl rfl
    · exact h.slot i b' hb'
  · intro i hi
    rw [and_not_lsb, Bool.and_eq_true, h.flags i hi, Bool.not_eq_true', ← Bool.not_eq_true,
      clearBits_lsb h hn]
    constructor
    · rintro ⟨h1 | h1, h2⟩
      · obtain ⟨b, hb, hbn⟩ := h1
        left
        refine ⟨b, clearSlots_get.mpr ⟨b, hb, ?_⟩, hbn⟩
        have : b.1 ∉ names := fun hm => h2 ⟨b, hb, hm⟩
        simp [this]
      · exact Or.inr h1
    · rintro (⟨b, hb, hbn⟩ | h1)
      · obtain ⟨b', hb', rfl⟩ := clearSlots_get.mp hb
        by_cases hm : b'.1 ∈ names
        · simp [hm] at hbn
        · simp [hm] at hbn
          refine ⟨Or.inl ⟨b', hb', hbn⟩, ?_⟩
          rintro ⟨b'', hb'', hm'⟩
          rw [hb'] at hb''
          injection hb'' with e
          subst e
          exact hm hm'
      · refine ⟨Or.inr h1, ?_⟩
        rintro ⟨b, hb, hm⟩
        exact h.disj i b hb (fun e => hn (e ▸ hm)) h1
  · intro i b hb hbn
    obtain ⟨b', hb', rfl⟩ := clearSlots_get.mp hb
    by_cases hm : b'.1 ∈ names
    · simp [hm] at hbn
    · simp [hm] at hbn
      exact h.disj i b' hb' hbn

theorem allBool_ne {g : Group} {names} (h : allBool g names = true) : "" ∉ names := by
  intro hm
  unfold allBool at h
  rw [List.all_eq_true] at h
  have := h _ hm
  simp at this

theorem unregisterBool_inv {s : Sys} (h : Inv s.grp) (names : List String) :
    Inv ((unregisterBool names s).2).grp := by
  rw [unregisterBool_run]
  split
  · rename_i ha
    exact ⟨clear_inv h.slots (allBool_ne ha), h.catNodup, h.catDisj, h.catNe, h.listed, h.field⟩
  · exact h

/-! ### categorical registration -/

theorem alloc_ok {used n bm lo ms r} (h : allocLoop used n bm lo ms = .ok r) :
    ∃ ps : List Nat, ps.length = n ∧ ps.Pairwise (· < ·) ∧
      (∀ p ∈ ps, p < 32 ∧ (used ||| bm).getLsbD p = false) ∧
      (∀ j, r.1.getLsbD j = (bm.getLsbD j || ps.contains j)) ∧
      r.2.1 = ps.foldl (fun a p => min p a) lo ∧ r.2.2 = (ps.map bit).reverse ++ ms := by
  induction n generalizing bm lo ms with
  | zero =>
    simp [allocLoop] at h
    subst h
    exact ⟨[], by simp⟩
  | succ n ih =>
    simp only [allocLoop] at h
    split at h
    · cases h
    · rename_i i hi
      obtain ⟨h1, h2, h3⟩ := lowestAvail_ok hi
      obtain ⟨ps, p1, p2, p3, p4, p5, p6⟩ := ih h
      refine ⟨i :: ps, by simp [p1], ?_, ?_, ?_, by simp [p5], by simp [p6]⟩
      · rw [List.pairwise_cons]
        refine ⟨?_, p2⟩
        intro p hp
        have hq := (p3 p hp).2
        rw [BitVec.getLsbD_or, BitVec.getLsbD_or, bit_lsb] at hq
        rcases Nat.lt_trichotomy i p with hlt | heq | hgt
        · exact hlt
        · subst heq; simp [h1] at hq
        · have := h3 p hgt
          rw [BitVec.getLsbD_or] at this
          simp_all
      · intro p hp
        cases hp with
        | head => exact ⟨h1, h2⟩
        | tail _ hp =>
          obtain ⟨q1, q2⟩ := p3 p hp
          refine ⟨q1, ?_⟩
          rw [BitVec.getLsbD_or, BitVec.getLsbD_or] at q2
          rw [BitVec.getLsbD_or]
          cases hu : used.getLsbD p <;> cases hb : bm.getLsbD p <;> simp [hu, hb] at q2 ⊢
      · intro j
        rw [p4 j, BitVec.getLsbD_or, bit_lsb]
        by_cases hj : j = i
        · subst hj; simp [h1]
        · simp [hj]

theorem alloc_err {used n bm lo ms e} (h : allocLoop used n bm lo ms = .error e) : e = .value := by
  induction n generalizing bm lo ms with
  | zero => simp [allocLoop] at h
  | succ n ih =>
    simp only [allocLoop] at h
    split at h
    · rename_i e' he
      injection h with h
      subst h
      exact (lowestAvail_err he).1
    · exact ih h

theorem alloc_ok_iff {used n bm lo ms} :
    (∃ r, allocLoop used n bm lo ms = .ok r) ↔ n ≤ free (used ||| bm) := by
  induction n generalizing bm lo ms with
  | zero => simp [allocLoop]
  | succ n ih =>
    simp only [allocLoop]
    cases hl : lowestAvail (used ||| bm) with
    | error e =>
      have := free_zero (lowestAvail_err hl).2
      simp [this]
    | ok i =>
      obtain ⟨h1, h2, _⟩ := lowestAvail_ok hl
      have := free_set h1 h2
      simp only []
      rw [ih, ← BitVec.or_assoc]
      omega

theorem foldl_min_head {p : Nat} {ps : List Nat} (h : ∀ q ∈ ps, p < q) :
    ps.foldl (fun a p => min p a) p = p := by
  induction ps with
  | nil => rfl
  | cons q qs ih =>
    rw [List.foldl_cons]
    have : min q p = p := by have := h q (by simp); omega
    rw [this]
    exact ih (fun r hr => h r (by simp [hr]))

theorem bitPos_eq {m : Word} {p : Nat} (hp : m.getLsbD p = true)
    (hlt : ∀ j, j < p → m.getLsbD j = false) : bitPos m = p := by
  unfold bitPos
  have key : ∀ i, ((m >>> i) &&& 1#32 != 0#32) = m.getLsbD i := by
    intro i
    rw [Bool.eq_iff_iff, bne_iff_ne, Ne, eq_zero_iff]
    constructor
    · intro h
      cases hm : m.getLsbD i with
      | true => rfl
      | false =>
        exfalso; apply h; intro j
        rw [BitVec.getLsbD_and, BitVec.getLsbD_ushiftRight, BitVec.getLsbD_one]
        by_cases hj : j = 0
        · subst hj; simp [hm]
        · simp [hj]
    · intro h hall
      have := hall 0
      rw [BitVec.getLsbD_and, BitVec.getLsbD_ushiftRight, BitVec.getLsbD_one] at this
      simp [h] at this
  simp only [key]
  have hp32 := lsb_lt hp
  cases hf : (List.range 32).find? (fun i => m.getLsbD i) with
  | none =>
    have := find_range_none hf p hp32
    rw [hp] at this; cases this
  | some i =>
    obtain ⟨h1, h2, h3⟩ := find_range_some hf
    simp only [Option.getD_some]
    rcases Nat.lt_trichotomy i p with h | h | h
    · rw [hlt i h] at h2; cases h2
    · exact h
    · have := h3 p h
      rw [hp] at this; cases this

/-- The bits of number `i` (from bit `k` on) deposited at the positions `ps`. [specification] -/
def deposit (i : Nat) : List Nat → Nat → Word
  | [], _ => 0#32
  | p :: ps, k => deposit i ps (k + 1) + bit p * (if i.testBit k then 1#32 else 0#32)

theorem deposit_lsb {i : Nat} {ps : List Nat} (hps : ps.Nodup) (hlt : ∀ p ∈ ps, p < 32) :
    ∀ k j : Nat, (deposit i ps k).getLsbD j = true ↔
      ∃ m, ps[m]? = some j ∧ i.testBit (k + m) = true := by
  induction ps with
  | nil => simp [deposit]
  | cons p ps ih =>
    intro k j
    rw [List.nodup_cons] at hps
    have ih := ih hps.2 (fun q hq => hlt q (by simp [hq]))
    have hp : p < 32 := hlt p (by simp)
    simp only [deposit]
    have hsplit : (∃ m, (p :: ps)[m]? = some j ∧ i.testBit (k + m) = true) ↔
        ((j = p ∧ i.testBit k = true) ∨ ∃ m, ps[m]? = some j ∧ i.testBit (k + 1 + m) = true) := by
      constructor
      · rintro ⟨m, h1, h2⟩
        cases m with
        | zero => simp at h1; exact Or.inl ⟨h1.symm, h2⟩
        | succ m => right; exact ⟨m, by simpa using h1, by rw [← h2]; congr 1; omega⟩
      · rintro (⟨rfl, h⟩ | ⟨m, h1, h2⟩)
        · exact ⟨0, by simp, h⟩
        · exact ⟨m + 1, by simpa using h1, by rw [← h2]; congr 1; omega⟩
    rw [hsplit]
    cases hb : i.testBit k with
    | false =>
      simp only [Bool.false_eq_true, if_false, BitVec.mul_zero, BitVec.add_zero, and_false, false_or]
      exact ih (k + 1) j
    | true =>
      simp only [if_true, BitVec.mul_one, and_true]
      have hdisj : deposit i ps (k + 1) &&& bit p = 0#32 := by
        rw [and_eq_zero_iff]
        rintro q ⟨h1, h2⟩
        rw [bit_lsb] at h2
        simp at h2
        rw [h2.2, ih] at h1
        obtain ⟨m, hm, _⟩ := h1
        exact hps.1 (List.mem_of_getElem? hm)
      rw [BitVec.add_eq_or_of_and_eq_zero _ _ hdisj, BitVec.getLsbD_or, bit_lsb, Bool.or_eq_true,
        ih (k + 1) j]
      simp only [Bool.and_eq_true, decide_eq_true_eq]
      constructor
      · rintro (h | ⟨_, h⟩)
        · exact Or.inr h
        · exact Or.inl h
      · rintro (h | h)
        · exact Or.inr ⟨by omega, h⟩
        · exact Or.inl h

theorem deposit_eq_sum (i : Nat) (ps : List Nat) (k : Nat) :
    (List.zipWith (· * ·) (ps.map bit)
      ((List.range' k ps.length).map (fun k => if i.testBit k then 1#32 else 0#32))).foldr
        (fun x y => y + x) 0#32 = deposit i ps k := by
  induction ps generalizing k with
  | nil => rfl
  | cons p ps ih =>
    simp only [List.length_cons, List.range'_succ, List.map_cons, List.zipWith_cons_cons,
      List.foldr_cons, deposit]
    rw [ih]

theorem catCode_eq (i : Nat) (ps : List Nat) (lo : Nat) :
    catCode (ps.map bit).reverse lo ps.length i = deposit i ps 0 >>> lo := by
  unfold catCode digits
  rw [List.map_reverse, ← List.reverse_zipWith (by simp),
    List.foldl_reverse, List.range_eq_range', deposit_eq_sum]

theorem numBitsLoop_spec (len : Nat) : ∀ fuel nb, len ≤ 2 ^ nb + fuel →
    nb ≤ numBitsLoop len fuel nb ∧ len ≤ 2 ^ numBitsLoop len fuel nb ∧
    (numBitsLoop len fuel nb = nb ∨ 2 ^ (numBitsLoop len fuel nb - 1) < len) := by
  intro fuel
  induction fuel with
  | zero => intro nb h; exact ⟨by simp [numBitsLoop], by simpa [numBitsLoop] using h, by simp [numBitsLoop]⟩
  | succ fuel ih =>
    intro nb h
    simp only [numBitsLoop]
    split
    · rename_i hlt
      have hpow : 2 ^ (nb + 1) = 2 ^ nb * 2 := Nat.pow_succ ..
      have hpos : 0 < 2 ^ nb := Nat.two_pow_pos nb
      obtain ⟨h1, h2, h3⟩ := ih (nb + 1) (by omega)
      refine ⟨by omega, h2, ?_⟩
      rcases h3 with h3 | h3
      · right; rw [h3]; simpa using hlt
      · exact Or.inr h3
    · exact ⟨Nat.le_refl _, by omega, Or.inl rfl⟩

theorem numBits_spec (len : Nat) : 1 ≤ numBits len ∧ len ≤ 2 ^ numBits len ∧
    (numBits len = 1 ∨ 2 ^ (numBits len - 1) < len) :=
  numBitsLoop_spec len len 1 (by omega)

theorem dedup_aux (cs acc : List String) (h : acc.Nodup) :
    (cs.foldl (fun acc c => if acc.contains c then acc else acc ++ [c]) acc).Nodup ∧
    ∀ c, c ∈ cs.foldl (fun acc c => if acc.contains c then acc else acc ++ [c]) acc ↔
      c ∈ acc ∨ c ∈ cs := by
  induction cs generalizing acc with
  | nil => simp [h]
  | cons x xs ih =>
    rw [List.foldl_cons]
    by_cases hx : x ∈ acc
    · simp only [List.contains_iff_mem.mpr hx, if_true]
      obtain ⟨h1, h2⟩ := ih acc h
      refine ⟨h1, fun c => ?_⟩
      rw [h2]
      simp only [List.mem_cons]
      constructor
      · rintro (h | h)
        · exact Or.inl h
        · exact Or.inr (Or.inr h)
      · rintro (h | rfl | h)
        · exact Or.inl h
        · exact Or.inl hx
        · exact Or.inr h
    · have hx' : acc.contains x = false := by
        cases hc : acc.contains x with
        | false => rfl
        | true => exact absurd (List.contains_iff_mem.mp hc) hx
      simp only [hx', Bool.false_eq_true, if_false]
      obtain ⟨h1, h2⟩ := ih (acc ++ [x]) (by
        rw [List.nodup_append]
        refine ⟨h, by simp, ?_⟩
        intro a ha b hb
        simp at hb; subst hb
        exact fun e => hx (e ▸ ha))
      refine ⟨h1, fun c => ?_⟩
      rw [h2]
      simp [or_assoc]

theorem dedup_nodup (cs : List String) : (dedup cs).Nodup := (dedup_aux cs [] (by simp)).1
theorem mem_dedup (cs : List String) (c : String) : c ∈ dedup cs ↔ c ∈ cs := by
  unfold dedup; rw [(dedup_aux cs [] (by simp)).2 c]; simp

theorem categoryList_nodup (cs : List String) (d : String) : (categoryList cs d).Nodup := by
  unfold categoryList
  rw [List.nodup_cons]
  refine ⟨?_, (dedup_nodup cs).erase d⟩
  intro h
  rw [(dedup_nodup cs).mem_erase_iff] at h
  exact h.1 rfl

theorem mem_categoryList (cs : List String) (d c : String) :
    c ∈ categoryList cs d ↔ c = d ∨ c ∈ cs := by
  unfold categoryList
  rw [List.mem_cons, (dedup_nodup cs).mem_erase_iff, mem_dedup]
  by_cases h : c = d <;> simp [h]

/-- The (category, code) pairs created by a successful registration. [specification] -/
def newEntries (cl : List String) (ms : List Word) (lo nb : Nat) : List (String × Word) :=
  cl.zipIdx.map (fun ci => (ci.1, catCode ms lo nb ci.2))

theorem registerCat_run (s : Sys) (name : String) (cs : List String) (d : String) :
    registerCat name cs d s =
      if (s.grp.cats.map Prod.fst).contains name then (.ok (), s) else
      match allocLoop s.grp.flags (numBits (categoryList cs d).length) 0#32 31 [] with
      | .error e => (.error e, s)
      | .ok r => (.ok (), { s with grp := { s.grp with
          catList := s.grp.catList ++ (newEntries (categoryList cs d) r.2.2 r.2.1
            (numBits (categoryList cs d).length)).map (fun e => (name, e)),
          cats := s.grp.cats ++ [(name, r.1)],
          flags := s.grp.flags ||| r.1 } }) := by
  unfold registerCat
  simp only [bind_def, getS]
  cases (s.grp.cats.map Prod.fst).contains name
  · simp only [Bool.false_eq_true, if_false, bind_def, lift]
    generalize allocLoop _ _ _ _ _ = x
    cases x
    · rfl
    · simp [newEntries, setCatList, setCats, setFlags, Function.comp_def, getS]
  · rfl

theorem newEntries_ok {used : Word} {cl : List String} {r} (hcl : cl.Nodup) (hne : cl ≠ [])
    (h : allocLoop used (numBits cl.length) 0#32 31 [] = .ok r) :
    FieldOK r.1 (newEntries cl r.2.2 r.2.1 (numBits cl.length)) ∧ r.1 ≠ 0#32 ∧
      used &&& r.1 = 0#32 := by
  obtain ⟨ps, h1, h2, h3, h4, h5, h6⟩ := alloc_ok h
  obtain ⟨n1, n2, _⟩ := numBits_spec cl.length
  have hnodup : ps.Nodup := by
    rw [List.nodup_iff_pairwise_ne]
    exact h2.imp (fun h => Nat.ne_of_lt h)
  have hlt : ∀ p ∈ ps, p < 32 := fun p hp => (h3 p hp).1
  have hr1 : ∀ j, r.1.getLsbD j = true ↔ j ∈ ps := by
    intro j; rw [h4 j]; simp
  match ps, h1, h2, h3, h4, h5, h6, hnodup, hlt, hr1 with
  | [], h1, _, _, _, _, _, _, _, _ => simp at h1; omega
  | p :: qs, h1, h2, h3, h4, h5, h6, hnodup, hlt, hr1 =>
  rw [List.pairwise_cons] at h2
  have hlo : r.2.1 = p := by
    rw [h5, List.foldl_cons]
    have : min p 31 = p := by have := hlt p (by simp); omega
    rw [this]
    exact foldl_min_head h2.1
  have hpos : bitPos r.1 = p := by
    apply bitPos_eq
    · rw [hr1]; simp
    · intro j hj
      cases hb : r.1.getLsbD j with
      | false => rfl
      | true =>
        rw [hr1] at hb
        cases hb with
        | head => omega
        | tail _ hb => have := h2.1 j hb; omega
  have hcode : ∀ i, catCode r.2.2 r.2.1 (numBits cl.length) i = deposit i (p :: qs) 0 >>> p := by
    intro i
    rw [h6, hlo, ← h1, List.append_nil, catCode_eq]
  have hdep : ∀ i j, (deposit i (p :: qs) 0).getLsbD j = true ↔
      ∃ m, (p :: qs)[m]? = some j ∧ i.testBit m = true := by
    intro i j
    rw [deposit_lsb hnodup hlt 0 j]; simp
  have hshift : ∀ i, (deposit i (p :: qs) 0 >>> p) <<< p = deposit i (p :: qs) 0 := by
    intro i
    apply ext_lsb
    intro j hj
    rw [BitVec.getLsbD_shiftLeft, BitVec.getLsbD_ushiftRight]
    by_cases hjp : j < p
    · simp only [hjp, decide_true, Bool.not_true, Bool.and_false, Bool.false_and]
      cases hb : (deposit i (p :: qs) 0).getLsbD j with
      | false => rfl
      | true =>
        rw [hdep] at hb
        obtain ⟨m, hm, _⟩ := hb
        have := List.mem_of_getElem? hm
        cases this with
        | head => omega
        | tail _ hb => have := h2.1 j hb; omega
    · have : p + (j - p) = j := by omega
      simp [hj, hjp, this]
  have hinj : ∀ i j, i < 2 ^ (numBits cl.length) → j < 2 ^ (numBits cl.length) →
      deposit i (p :: qs) 0 >>> p = deposit j (p :: qs) 0 >>> p → i = j := by
    intro i j hi hj hij
    have hij' : deposit i (p :: qs) 0 = deposit j (p :: qs) 0 := by
      rw [← hshift i, ← hshift j, hij]
    apply Nat.eq_of_testBit_eq
    intro m
    by_cases hm : m < numBits cl.length
    · have hm' : m < (p :: qs).length := by omega
      have key : ∀ i, (deposit i (p :: qs) 0).getLsbD (p :: qs)[m] = i.testBit m := by
        intro i
        rw [Bool.eq_iff_iff, hdep]
        constructor
        · rintro ⟨m', h1', h2'⟩
          have h3' : (p :: qs)[m]? = some (p :: qs)[m] := List.getElem?_eq_getElem hm'
          have : m' = m := by
            rw [← h3'] at h1'
            have hm'' : m' < (p :: qs).length := by
              rw [h3'] at h1'
              exact (List.getElem?_eq_some_iff.mp h1').1
            exact (List.getElem?_inj hm'' hnodup).mp h1'
          rw [← this]; exact h2'
        · intro h
          exact ⟨m, List.getElem?_eq_getElem hm', h⟩
      rw [← key i, ← key j, hij']
    · have hle : 2 ^ numBits cl.length ≤ 2 ^ m := Nat.pow_le_pow_right (by omega) (by omega)
      rw [Nat.testBit_lt_two_pow (by omega), Nat.testBit_lt_two_pow (by omega)]
  refine ⟨⟨?_, ?_, ?_, ?_, ?_⟩, ?_, ?_⟩
  · unfold newEntries
    rw [List.map_map]
    have : (Prod.fst ∘ fun (ci : String × Nat) => (ci.1, catCode r.2.2 r.2.1 (numBits cl.length) ci.2))
        = Prod.fst := rfl
    rw [this, List.zipIdx_map_fst]
    exact hcl
  · unfold newEntries
    rw [List.map_map]
    have : (Prod.snd ∘ fun (ci : String × Nat) => (ci.1, catCode r.2.2 r.2.1 (numBits cl.length) ci.2))
        = (fun i => deposit i (p :: qs) 0 >>> p) ∘ Prod.snd := by
      funext ci; simp [hcode]
    rw [this, ← List.map_map, List.zipIdx_map_snd]
    rw [List.nodup_iff_pairwise_ne, List.pairwise_map]
    have hr : (List.range' 0 cl.length).Pairwise (· ≠ ·) := by
      rw [← List.nodup_iff_pairwise_ne]; exact List.nodup_range' ..
    refine hr.imp_of_mem ?_
    intro a b ha hb hab he
    simp [List.mem_range'] at ha hb
    exact hab (hinj a b (by omega) (by omega) he)
  · intro e he
    unfold newEntries at he
    simp only [List.mem_map] at he
    obtain ⟨ci, _, rfl⟩ := he
    simp only []
    rw [hpos, hcode, hshift]
    apply ext_lsb
    intro j hj
    rw [BitVec.getLsbD_and]
    cases hb : (deposit ci.2 (p :: qs) 0).getLsbD j with
    | false => rfl
    | true =>
      rw [hdep] at hb
      obtain ⟨m, hm, _⟩ := hb
      rw [(hr1 j).mpr (List.mem_of_getElem? hm)]
      rfl
  · intro e he
    unfold newEntries at he
    simp only [List.mem_map] at he
    obtain ⟨ci, _, rfl⟩ := he
    simp only []
    rw [hpos, hcode, hshift]
  · unfold newEntries
    cases cl with
    | nil => exact absurd rfl hne
    | cons c cs =>
      simp only [List.zipIdx_cons, List.map_cons, List.head?_cons, Option.map_some]
      rw [hcode]
      congr 1
      have : deposit 0 (p :: qs) 0 = 0#32 := by
        rw [eq_zero_iff]
        intro j
        cases hb : (deposit 0 (p :: qs) 0).getLsbD j with
        | false => rfl
        | true => rw [hdep] at hb; simp at hb
      rw [this]; simp
  · rw [ne_zero_iff]; exact ⟨p, by rw [hr1]; simp⟩
  · rw [and_eq_zero_iff]
    rintro j ⟨ha, hb⟩
    rw [hr1] at hb
    have := (h3 j hb).2
    rw [BitVec.getLsbD_or, ha] at this
    simp at this

theorem filter_const_false {α} (l : List α) : l.filter (fun _ => false) = [] := by
  induction l <;> simp_all
theorem filter_const_true {α} (l : List α) : l.filter (fun _ => true) = l := by
  induction l <;> simp_all

theorem registerCat_inv {s : Sys} (h : Inv s.grp) (name : String) (cs : List String) (d : String) :
    Inv ((registerCat name cs d s).2).grp := by
  rw [registerCat_run]
  split
  · exact h
  · rename_i hname
    have hname : name ∉ s.grp.cats.map Prod.fst := fun hm => hname (List.contains_iff_mem.mpr hm)
    cases hr : allocLoop s.grp.flags (numBits (categoryList cs d).length) 0#32 31 [] with
    | error e => exact h
    | ok r =>
      obtain ⟨hf, hnz, hdis⟩ := newEntries_ok (categoryList_nodup cs d) (by simp [categoryList]) hr
      rw [and_eq_zero_iff] at hdis
      have hbit : ∀ i, catBit (s.grp.cats ++ [(name, r.1)]) i ↔
          (catBit s.grp.cats i ∨ r.1.getLsbD i = true) := by
        intro i; unfold catBit; simp [or_and_right, exists_or]
      refine ⟨⟨h.slots.len, h.slots.slot, ?_, ?_⟩, ?_, ?_, ?_, ?_, ?_⟩
      · intro i hi
        simp only []
        rw [hbit, BitVec.getLsbD_or, Bool.or_eq_true, h.slots.flags i hi, or_assoc]
      · intro i b hb hbn hc
        simp only [] at hb
        rw [hbit] at hc
        rcases hc with hc | hc
        · exact h.slots.disj i b hb hbn hc
        · have hi : i < 32 := lsb_lt hc
          exact hdis i ⟨(h.slots.flags i hi).mpr (Or.inl ⟨b, hb, hbn⟩), hc⟩
      · simp only [List.map_append, List.map_cons, List.map_nil]
        rw [List.nodup_append]
        refine ⟨h.catNodup, by simp, ?_⟩
        intro a ha b hb
        simp at hb; subst hb
        exact fun e => hname (e ▸ ha)
      · simp only []
        rw [List.pairwise_append]
        refine ⟨h.catDisj, by simp, ?_⟩
        intro a ha b hb
        simp at hb; subst hb
        rw [and_eq_zero_iff]
        rintro i ⟨h1, h2⟩
        exact hdis i ⟨(h.slots.flags i (lsb_lt h1)).mpr (Or.inr ⟨a, ha, h1⟩), h2⟩
      · intro c hc
        simp only [List.mem_append, List.mem_singleton] at hc
        rcases hc with hc | rfl
        · exact h.catNe c hc
        · exact hnz
      · intro e he
        simp only [List.mem_append, List.mem_map, List.map_append, List.map_cons, List.map_nil,
          List.mem_singleton] at he ⊢
        rcases he with he | ⟨x, _, rfl⟩
        · left; simpa using h.listed e he
        · right; rfl
      · intro c hc
        simp only [List.mem_append, List.mem_singleton] at hc
        unfold entries
        simp only [List.filter_append, List.map_append]
        rcases hc with hc | rfl
        · have hne : (name == c.1) = false := by
            rw [beq_eq_false_iff_ne]
            intro e; exact hname (e ▸ List.mem_map_of_mem hc)
          rw [List.filter_map]
          simp only [Function.comp_def, hne]
          rw [filter_const_false]
          simp only [List.map_nil, List.append_nil]
          exact h.field c hc
        · have : s.grp.catList.filter (fun e => e.1 == name) = [] := by
            rw [List.filter_eq_nil_iff]
            intro e he hb
            rw [beq_iff_eq] at hb
            exact hname (hb ▸ h.listed e he)
          simp only []
          rw [this, List.filter_map]
          simp only [Function.comp_def, beq_self_eq_true, filter_const_true, List.map_map,
            List.map_nil, List.nil_append, List.map_id']
          exact hf

/-! ### categorical unregistration -/

theorem unregisterCat_run (s : Sys) (name : String) :
    unregisterCat name s = match s.grp.cats.find? (fun c => c.1 == name) with
      | none => (.error .key, s)
      | some c => (.ok (), { s with grp := { s.grp with
          cats := s.grp.cats.filter (fun x => x.1 != name),
          catList := s.grp.catList.filter (fun x => x.1 != name),
          flags := s.grp.flags &&& ~~~ c.2 } }) := by
  unfold unregisterCat
  simp only [bind_def, getS]
  cases s.grp.cats.find? (fun c => c.1 == name) <;> rfl

theorem cats_unique {g : Group} (h : Inv g) {a b : String × Word} (ha : a ∈ g.cats) (hb : b ∈ g.cats)
    (hab : a.1 = b.1) : a = b := by
  have := h.catNodup
  generalize g.cats = l at *
  induction l with
  | nil => simp at ha
  | cons x xs ih =>
    simp only [List.map_cons, List.nodup_cons] at this
    rcases List.mem_cons.mp ha with rfl | ha' <;> rcases List.mem_cons.mp hb with rfl | hb'
    · rfl
    · exact absurd (hab ▸ List.mem_map_of_mem hb') this.1
    · exact absurd (hab ▸ List.mem_map_of_mem ha') this.1
    · exact ih ha' hb' this.2

theorem cats_disj {g : Group} (h : Inv g) {a b : String × Word} (ha : a ∈ g.cats) (hb : b ∈ g.cats)
    (hab : a ≠ b) : a.2 &&& b.2 = 0#32 := by
  have := h.catDisj
  generalize g.cats = l at *
  induction l with
  | nil => simp at ha
  | cons x xs ih =>
    rw [List.pairwise_cons] at this
    rcases List.mem_cons.mp ha with rfl | ha' <;> rcases List.mem_cons.mp hb with rfl | hb'
    · exact absurd rfl hab
    · exact this.1 b hb'
    · rw [BitVec.and_comm]; exact this.1 a ha'
    · exact ih ha' hb' this.2

theorem unregisterCat_inv {s : Sys} (h : Inv s.grp) (name : String) :
    Inv ((unregisterCat name s).2).grp := by
  rw [unregisterCat_run]
  cases hf : s.grp.cats.find? (fun c => c.1 == name) with
  | none => exact h
  | some c =>
    have hc : c ∈ s.grp.cats := List.mem_of_find?_eq_some hf
    have hcn : c.1 = name := by simpa using List.find?_some hf
    have hbit : ∀ i, catBit (s.grp.cats.filter (fun x => x.1 != name)) i ↔
        (catBit s.grp.cats i ∧ c.2.getLsbD i = false) := by
      intro i
      unfold catBit
      constructor
      · rintro ⟨b, hb, hbi⟩
        rw [List.mem_filter] at hb
        refine ⟨⟨b, hb.1, hbi⟩, ?_⟩
        have hbc : b ≠ c := by
          rintro rfl
          simp [hcn] at hb
        have := and_eq_zero_iff.mp (cats_disj h hb.1 hc hbc) i
        simpa [hbi] using this
      · rintro ⟨⟨b, hb, hbi⟩, hci⟩
        refine ⟨b, ?_, hbi⟩
        rw [List.mem_filter]
        refine ⟨hb, ?_⟩
        rw [bne_iff_ne]
        intro e
        have := cats_unique h hb hc (by rw [e, hcn])
        subst this
        rw [hbi] at hci; cases hci
    refine ⟨⟨h.slots.len, h.slots.slot, ?_, ?_⟩, ?_, ?_, ?_, ?_, ?_⟩
    · intro i hi
      simp only []
      rw [hbit, and_not_lsb, Bool.and_eq_true, h.slots.flags i hi, Bool.not_eq_true']
      constructor
      · rintro ⟨h1 | h1, h2⟩
        · exact Or.inl h1
        · exact Or.inr ⟨h1, h2⟩
      · rintro (⟨b, hb, hbn⟩ | h1)
        · refine ⟨Or.inl ⟨b, hb, hbn⟩, ?_⟩
          have := h.slots.disj i b hb hbn
          cases hci : c.2.getLsbD i with
          | false => rfl
          | true => exact absurd ⟨c, hc, hci⟩ this
        · exact ⟨Or.inr h1.1, h1.2⟩
    · intro i b hb hbn hcb
      exact h.slots.disj i b hb hbn ((hbit i).mp hcb).1
    · exact h.catNodup.sublist (List.filter_sublist.map _)
    · exact h.catDisj.sublist List.filter_sublist
    · intro x hx
      exact h.catNe x (List.mem_filter.mp hx).1
    · intro e he
      simp only [List.mem_filter] at he
      obtain ⟨x, hx, hxe⟩ := List.mem_map.mp (h.listed e he.1)
      simp only []
      rw [← hxe]
      apply List.mem_map_of_mem
      rw [List.mem_filter]
      exact ⟨hx, by rw [hxe]; exact he.2⟩
    · intro x hx
      simp only [List.mem_filter] at hx
      unfold entries
      simp only [List.filter_filter]
      have : (fun (e : String × String × Word) => (e.1 == x.1) && (e.1 != name))
          = (fun e => e.1 == x.1) := by
        funext e
        cases he : e.1 == x.1 with
        | false => rfl
        | true =>
          rw [beq_iff_eq] at he
          rw [he]; simpa using hx.2
      rw [this]
      exact h.field x hx.1

end Mass.Cut
