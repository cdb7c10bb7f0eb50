import Verif.Cut.Model
/-! Helper lemmas about cut words and the registration loops (not themselves claims). -/
namespace Mass.Cut

theorem ext_lsb {a b : Word} (h : ∀ i, i < 32 → a.getLsbD i = b.getLsbD i) : a = b :=
  BitVec.eq_of_getLsbD_eq (fun i hi => h i hi)

theorem lsb_lt {a : Word} {i : Nat} (h : a.getLsbD i = true) : i < 32 := by
  rcases Nat.lt_or_ge i 32 with h' | h'
  · exact h'
  · rw [BitVec.getLsbD_of_ge _ _ h'] at h; cases h

theorem bit_lsb (i j : Nat) : (bit i).getLsbD j = (decide (j < 32) && decide (j = i)) := by
  unfold bit
  rw [BitVec.getLsbD_shiftLeft, BitVec.getLsbD_one]
  by_cases h1 : j < 32 <;> by_cases h2 : j = i <;> by_cases h3 : j < i <;> simp_all <;> omega

theorem eq_zero_iff {a : Word} : a = 0#32 ↔ ∀ i, a.getLsbD i = false := by
  constructor
  · rintro rfl i; simp
  · intro h; apply ext_lsb; intro i _; simp [h i]

theorem ne_zero_iff {a : Word} : a ≠ 0#32 ↔ ∃ i, a.getLsbD i = true := by
  rw [Ne, eq_zero_iff]; simp

theorem and_eq_zero_iff {a b : Word} :
    a &&& b = 0#32 ↔ ∀ i, ¬ (a.getLsbD i = true ∧ b.getLsbD i = true) := by
  rw [eq_zero_iff]; simp

theorem not_lsb (a : Word) (i : Nat) (h : i < 32) : (~~~ a).getLsbD i = !a.getLsbD i := by
  simp [h]

theorem and_not_lsb (a b : Word) (i : Nat) :
    (a &&& ~~~ b).getLsbD i = (a.getLsbD i && !b.getLsbD i) := by
  rcases Nat.lt_or_ge i 32 with h | h
  · simp [h]
  · simp [BitVec.getLsbD_of_ge _ _ h]

theorem and_bit (f : Word) {i : Nat} (hi : i < 32) :
    (f &&& bit i == 0#32) = !f.getLsbD i := by
  rw [Bool.eq_iff_iff]
  rw [beq_iff_eq, and_eq_zero_iff]
  constructor
  · intro h
    have := h i
    rw [bit_lsb] at this
    rw [decide_eq_true hi] at this
    cases hf : f.getLsbD i <;> simp_all
  · intro h j ⟨h1, h2⟩
    rw [bit_lsb] at h2
    simp at h2
    rw [h2.2] at h1
    simp [h1] at h

theorem foldl_or_lsb (l : List Word) (a : Word) (j : Nat) :
    (l.foldl (· ||| ·) a).getLsbD j = (a.getLsbD j || l.any (fun w => w.getLsbD j)) := by
  induction l generalizing a with
  | nil => simp
  | cons x xs ih => simp [ih, Bool.or_assoc]

theorem find_range_some {p : Nat → Bool} {n i : Nat}
    (h : (List.range n).find? p = some i) : i < n ∧ p i = true ∧ ∀ j, j < i → p j = false := by
  induction n with
  | zero => simp at h
  | succ n ih =>
    rw [List.range_succ, List.find?_append] at h
    cases hf : (List.range n).find? p with
    | some k =>
      rw [hf] at h
      simp at h
      subst h
      have := ih hf
      exact ⟨by omega, this.2⟩
    | none =>
      rw [hf] at h
      simp [List.find?] at h
      cases hp : p n with
      | false => simp [hp] at h
      | true =>
        simp [hp] at h
        subst h
        refine ⟨by omega, hp, ?_⟩
        intro j hj
        rw [List.find?_eq_none] at hf
        have := hf j (List.mem_range.mpr hj)
        simpa using this

theorem find_range_none {p : Nat → Bool} {n : Nat}
    (h : (List.range n).find? p = none) : ∀ j, j < n → p j = false := by
  rw [List.find?_eq_none] at h
  intro j hj
  simpa using h j (List.mem_range.mpr hj)

theorem lowestAvail_ok {f : Word} {i : Nat} (h : lowestAvail f = .ok i) :
    i < 32 ∧ f.getLsbD i = false ∧ ∀ j, j < i → f.getLsbD j = true := by
  unfold lowestAvail at h
  split at h
  · rename_i k hk
    injection h with h
    subst h
    obtain ⟨h1, h2, h3⟩ := find_range_some hk
    refine ⟨h1, ?_, ?_⟩
    · simpa [and_bit f h1] using h2
    · intro j hj
      have := h3 j hj
      rw [and_bit f (by omega)] at this
      simpa using this
  · cases h

theorem lowestAvail_err {f : Word} {e : Err} (h : lowestAvail f = .error e) :
    e = .value ∧ ∀ j, j < 32 → f.getLsbD j = true := by
  unfold lowestAvail at h
  split at h
  · cases h
  · rename_i hk
    injection h with h
    refine ⟨h.symm, ?_⟩
    intro j hj
    have := find_range_none hk j hj
    rw [and_bit f hj] at this
    simpa using this

theorem lowestAvail_full {f : Word} (h : ∀ j, j < 32 → f.getLsbD j = true) :
    lowestAvail f = .error .value := by
  cases hl : lowestAvail f with
  | error e => rw [(lowestAvail_err hl).1]
  | ok i =>
    have := lowestAvail_ok hl
    rw [h i this.1] at this
    simp at this

/-! ### the monad -/

theorem bind_def {α β} (m : M α) (f : α → M β) (s : Sys) :
    (m >>= f) s = match m s with
      | (.error e, s') => (.error e, s')
      | (.ok a, s') => f a s' := rfl

theorem pure_def {α} (a : α) (s : Sys) : (pure a : M α) s = (.ok a, s) := rfl

end Mass.Cut
