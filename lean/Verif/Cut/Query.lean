import Verif.Cut.Ops
/-! Meaning of the query methods under the invariant (helper file). -/
namespace Mass.Cut

theorem maskOf_lsb {g : Group} (h : Inv g) {F : String} {j : Nat}
    (hj : (maskOf g F).getLsbD j = true) :
    (∃ b, g.bools[j]? = some b ∧ b.1 = F ∧ F ≠ "") ∨ (∃ c ∈ g.cats, c.1 = F ∧ c.2.getLsbD j = true) := by
  unfold maskOf at hj
  cases hb : g.bools.find? (fun b => b.1 == F) with
  | some b =>
    rw [hb] at hj
    simp only [] at hj
    have hbF : b.1 = F := by simpa using List.find?_some hb
    obtain ⟨i, hi⟩ := List.getElem?_of_mem (List.mem_of_find?_eq_some hb)
    rcases h.slots.slot i b hi with rfl | ⟨hne, h2⟩
    · simp at hj
    · rw [h2, bit_lsb] at hj
      simp at hj
      left
      rw [hj.2]
      exact ⟨b, hi, hbF, hbF ▸ hne⟩
  | none =>
    rw [hb] at hj
    simp only [] at hj
    cases hc : g.cats.find? (fun c => c.1 == F) with
    | none => rw [hc] at hj; simp at hj
    | some c =>
      rw [hc] at hj
      right
      exact ⟨c, List.mem_of_find?_eq_some hc, by simpa using List.find?_some hc, hj⟩

theorem boolMask_ok {g : Group} {names : List String} :
    (∃ bm, boolMask g names = .ok bm) ↔ ∀ n ∈ names, n ≠ "" ∧ n ∈ g.bools.map Prod.fst := by
  unfold boolMask
  have hmem : ∀ n, n ∈ (g.bools.filter (fun b => b.1 != "")).map Prod.fst ↔
      n ≠ "" ∧ n ∈ g.bools.map Prod.fst := by
    intro n
    simp only [List.mem_map, List.mem_filter, bne_iff_ne]
    constructor
    · rintro ⟨b, ⟨h1, h2⟩, rfl⟩; exact ⟨h2, b, h1, rfl⟩
    · rintro ⟨h2, b, h1, rfl⟩; exact ⟨b, ⟨h1, h2⟩, rfl⟩
  split
  · rename_i hn; subst hn; simp
  · split
    · rename_i hall
      rw [List.all_eq_true] at hall
      constructor
      · intro _ n hn
        exact (hmem n).mp (List.contains_iff_mem.mp (hall n hn))
      · intro _; exact ⟨_, rfl⟩
    · rename_i hall
      constructor
      · rintro ⟨_, h⟩; cases h
      · intro hh
        exfalso; apply hall
        rw [List.all_eq_true]
        intro n hn
        exact List.contains_iff_mem.mpr ((hmem n).mpr (hh n hn))

theorem boolMask_err {g : Group} {names : List String} {e} (h : boolMask g names = .error e) :
    e = .value := by
  unfold boolMask at h
  split at h
  · cases h
  · split at h
    · cases h
    · injection h with h; exact h.symm

theorem boolMask_lsb {g : Group} (h : Inv g) {names : List String} {bm}
    (hb : boolMask g names = .ok bm) (j : Nat) :
    bm.getLsbD j = true ↔ ∃ b, g.bools[j]? = some b ∧ b.1 ≠ "" ∧ (names = [] ∨ b.1 ∈ names) := by
  have aux : ∀ p : String × Word → Bool, (∀ b, p b = true → b.1 ≠ "") →
      ((((g.bools.filter p).map Prod.snd).foldl (· ||| ·) 0#32).getLsbD j = true ↔
        ∃ b, g.bools[j]? = some b ∧ p b = true) := by
    intro p hp
    rw [foldl_or_lsb]
    simp only [BitVec.getLsbD_zero, Bool.false_or, List.any_map, List.any_eq_true, List.mem_filter,
      Function.comp]
    constructor
    · rintro ⟨b, ⟨hb, hbn⟩, hj⟩
      obtain ⟨i, hi⟩ := List.getElem?_of_mem hb
      rcases h.slots.slot i b hi with rfl | ⟨_, h2⟩
      · simp at hj
      · rw [h2, bit_lsb] at hj
        simp at hj
        rw [hj.2]
        exact ⟨b, hi, hbn⟩
    · rintro ⟨b, hb, hbn⟩
      refine ⟨b, ⟨List.mem_of_getElem? hb, hbn⟩, ?_⟩
      rcases h.slots.slot j b hb with rfl | ⟨_, h2⟩
      · exact absurd rfl (hp _ hbn)
      · have := (List.getElem?_eq_some_iff.mp hb).1
        rw [h.slots.len] at this
        rw [h2, bit_lsb]; simp [this]
  have hreg := boolMask_ok.mp ⟨bm, hb⟩
  unfold boolMask at hb
  split at hb
  · rename_i hn
    injection hb with hb
    subst hb
    rw [aux _ (by intro b hb; simpa using hb)]
    simp [hn]
  · rename_i hn
    split at hb
    · injection hb with hb
      subst hb
      rw [aux _ (by
        intro b hb
        exact (hreg b.1 (List.contains_iff_mem.mp hb)).1)]
      constructor
      · rintro ⟨b, h1, h2⟩
        have h2 := List.contains_iff_mem.mp h2
        exact ⟨b, h1, (hreg b.1 h2).1, Or.inr h2⟩
      · rintro ⟨b, h1, _, h3 | h3⟩
        · exact absurd h3 hn
        · exact ⟨b, h1, List.contains_iff_mem.mpr h3⟩
    · cases hb

theorem boolMask_disj {g : Group} (h : Inv g) {names : List String} {bm} {F : String}
    (hb : boolMask g names = .ok bm) (hne : names ≠ []) (hF : F ∉ names) :
    bm &&& maskOf g F = 0#32 := by
  rw [and_eq_zero_iff]
  rintro j ⟨h1, h2⟩
  rw [boolMask_lsb h hb] at h1
  obtain ⟨b, hb1, hb2, hb3⟩ := h1
  rcases hb3 with hb3 | hb3
  · exact hne hb3
  · rcases maskOf_lsb h h2 with ⟨b', hb', hF', _⟩ | ⟨c, hc, _, hcj⟩
    · rw [hb1] at hb'
      injection hb' with e
      subst e
      exact hF (hF' ▸ hb3)
    · exact h.slots.disj j b hb1 hb2 ⟨c, hc, hcj⟩

theorem cat_disj_maskOf {g : Group} (h : Inv g) {c : String × Word} (hc : c ∈ g.cats) {F : String}
    (hF : c.1 ≠ F) : c.2 &&& maskOf g F = 0#32 := by
  rw [and_eq_zero_iff]
  rintro j ⟨h1, h2⟩
  rcases maskOf_lsb h h2 with ⟨b, hb, hbF, hne⟩ | ⟨c', hc', hcF, hcj⟩
  · exact h.slots.disj j b hb (hbF ▸ hne) ⟨c, hc, h1⟩
  · have : c ≠ c' := by rintro rfl; exact hF hcF
    exact and_eq_zero_iff.mp (cats_disj h hc hc' this) j ⟨h1, hcj⟩

theorem selectLoop_bits {g : Group} {kw bm tg r} (h : selectLoop g kw bm tg = .ok r) (j : Nat)
    (hj : r.1.getLsbD j = true) :
    bm.getLsbD j = true ∨ ∃ c ∈ g.cats, c.1 ∈ kw.map Prod.fst ∧ c.2.getLsbD j = true := by
  induction kw generalizing bm tg with
  | nil => simp [selectLoop] at h; subst h; exact Or.inl hj
  | cons x xs ih =>
    obtain ⟨n, c⟩ := x
    simp only [selectLoop] at h
    split at h
    · cases h
    · rename_i f hf
      split at h
      · cases h
      · rcases ih h with h' | ⟨c', h1, h2, h3⟩
        · rw [BitVec.getLsbD_or, Bool.or_eq_true] at h'
          rcases h' with h' | h'
          · exact Or.inl h'
          · right
            exact ⟨f, List.mem_of_find?_eq_some hf, by
              have : f.1 = n := by simpa using List.find?_some hf
              simp [this], h'⟩
        · exact Or.inr ⟨c', h1, by simp at h2 ⊢; exact Or.inr h2, h3⟩

theorem select_frame {s s' : Sys} (h : Inv s.grp) {F : String} (ho : OnlyBits (maskOf s.grp F) s s')
    {kw} (hF : F ∉ kw.map Prod.fst) : selectCategory s' kw = selectCategory s kw := by
  unfold selectCategory
  rw [ho.1]
  cases hl : selectLoop s.grp kw 0#32 0#32 with
  | error e => rfl
  | ok r =>
    obtain ⟨bm, tg⟩ := r
    simp only []
    congr 1
    apply ho.2.query (F := fun w => w == tg)
    rw [and_eq_zero_iff]
    rintro j ⟨h1, h2⟩
    rcases selectLoop_bits hl j h1 with h' | ⟨c, hc, hcn, hcj⟩
    · simp at h'
    · have : c.1 ≠ F := by rintro rfl; exact hF hcn
      exact and_eq_zero_iff.mp (cat_disj_maskOf h hc this) j ⟨hcj, h2⟩

theorem codes_frame {s s' : Sys} (h : Inv s.grp) {F G : String}
    (ho : OnlyBits (maskOf s.grp F) s s') (hF : F ≠ G) : categoryCodes s' G = categoryCodes s G := by
  unfold categoryCodes
  rw [ho.1]
  cases hl : s.grp.cats.find? (fun c => c.1 == G) with
  | none => rfl
  | some c =>
    simp only []
    congr 1
    apply ho.2.query (F := fun w => w >>> bitPos c.2)
    apply cat_disj_maskOf h (List.mem_of_find?_eq_some hl)
    have : c.1 = G := by simpa using List.find?_some hl
    rw [this]; exact fun e => hF e.symm

theorem good_frame {s s' : Sys} (h : Inv s.grp) {F : String} (ho : OnlyBits (maskOf s.grp F) s s')
    {names kw} (hne : names ≠ []) (hF : F ∉ names) (hkw : F ∉ kw.map Prod.fst) :
    good s' names kw = good s names kw ∧ bad s' names kw = bad s names kw := by
  unfold good bad
  rw [select_frame h ho hkw, ho.1]
  cases hb : boolMask s.grp names with
  | error e => exact ⟨rfl, rfl⟩
  | ok bm =>
    simp only []
    have hd := boolMask_disj h hb hne hF
    rw [ho.2.query hd (F := fun w => w == 0#32), ho.2.query hd (F := fun w => w != 0#32)]
    exact ⟨rfl, rfl⟩

end Mass.Cut
