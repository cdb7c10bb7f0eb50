import Verif.Ljh.Copy
import Verif.States.Props
/-! C83: what the text of a state file says. -/
namespace Mass.States
open Mass.Ljh (Bytes asc splitLines strip pyIntB IsLine decInt)

/-- one line of a state file, `time, label` [specification] -/
def entryLine (e : Nat × Bytes) : Bytes := decInt (e.1 : Int) ++ asc ", " ++ e.2 ++ [10]
/-- the text of a state file: a comment line, then one line for every entry [specification] -/
def stateText (comment : Bytes) (es : List (Nat × Bytes)) : Bytes := 35 :: comment ++ [10] ++ es.flatMap entryLine
/-- a label that can be written: no comma, no line end, no space around it [specification] -/
def Writable (l : Bytes) : Prop := (44 : UInt8) ∉ l ∧ (10 : UInt8) ∉ l ∧ strip l = l

theorem parseLine_entry {e : Nat × Bytes} (h : Writable e.2) : parseLine (entryLine e) = .ok ((e.1 : Int), e.2) := by
  obtain ⟨h1, h2, h3⟩ := h
  have hd : ∀ b ∈ decInt (e.1 : Int), 48 ≤ b ∧ b ≤ 57 := Ljh.decInt_digit (by omega)
  have hc : ∀ b ∈ decInt (e.1 : Int), b ≠ 44 := fun b hb h => by
    have := (hd b hb).1; subst h; revert this; decide
  have hasc : asc ", " = [44, 32] := by decide +kernel
  have hform : entryLine e = decInt (e.1 : Int) ++ 44 :: (32 :: (e.2 ++ [10])) := by
    unfold entryLine; rw [hasc]; simp
  unfold parseLine
  have hcount : (entryLine e).count 44 = 1 := by
    rw [hform, List.count_append, List.count_eq_zero.2 (fun hm => hc _ hm rfl)]
    simp [List.count_eq_zero.2 h1]
  rw [if_neg (by rw [hcount]; decide)]
  have ht : (entryLine e).takeWhile (· != 44) = decInt (e.1 : Int) := by
    rw [hform, List.takeWhile_append_of_pos (fun b hb => by simpa using hc b hb)]
    simp
  have hdw : ((entryLine e).dropWhile (· != 44)).drop 1 = 32 :: (e.2 ++ [10]) := by
    rw [hform, List.dropWhile_append_of_pos (fun b hb => by simpa using hc b hb)]
    simp
  rw [ht, hdw, Ljh.strip_value10 h3]
  have hst : strip (decInt (e.1 : Int)) = decInt (e.1 : Int) := by
    have hns : ∀ b ∈ decInt (e.1 : Int), Ljh.isSpaceB b = false := by
      intro b hb
      obtain ⟨a, c⟩ := hd b hb
      unfold Ljh.isSpaceB
      have n1 : b ≠ 32 := by rintro rfl; revert a; decide
      have n2 : ¬ b ≤ 13 := fun hh => absurd (UInt8.le_trans a hh) (by decide)
      simp [n1, n2]
    unfold strip
    have hdrop : ∀ l : Bytes, (∀ b ∈ l, Ljh.isSpaceB b = false) → l.dropWhile Ljh.isSpaceB = l := by
      intro l hl
      cases l with
      | nil => rfl
      | cons a t => rw [List.dropWhile_cons, hl a (by simp)]; rfl
    rw [hdrop _ hns, hdrop _ (fun b hb => hns b (by simpa using hb)), List.reverse_reverse]
  rw [hst, Ljh.pyIntB_decInt (by omega)]
  rfl

theorem entryLine_line {e : Nat × Bytes} (h : Writable e.2) : IsLine (entryLine e) := by
  refine ⟨decInt (e.1 : Int) ++ asc ", " ++ e.2, rfl, ?_⟩
  have hasc : asc ", " = [44, 32] := by decide +kernel
  rw [hasc]
  simp only [List.mem_append, not_or]
  refine ⟨⟨fun hm => ?_, by decide⟩, h.2.1⟩
  have := (Ljh.decInt_digit (by omega) _ hm).1
  revert this; decide

theorem parseLines_entries {es : List (Nat × Bytes)} (h : ∀ e ∈ es, Writable e.2) :
    parseLines (es.map entryLine) = .ok (es.map (fun e => ((e.1 : Int), e.2))) := by
  induction es with
  | nil => rfl
  | cons e t ih =>
    simp only [List.map_cons, parseLines]
    rw [parseLine_entry (h e (by simp)), ih (fun x hx => h x (by simp [hx]))]
    rfl

theorem splitLines_text {comment : Bytes} (hc : (10 : UInt8) ∉ comment) {es : List (Nat × Bytes)} (h : ∀ e ∈ es, Writable e.2) :
    splitLines (stateText comment es) = (35 :: comment ++ [10]) :: es.map entryLine := by
  unfold stateText
  have hl : IsLine (35 :: comment ++ [10]) := ⟨35 :: comment, rfl, by simp [hc]⟩
  rw [Ljh.splitLines_line hl, List.flatMap_def]
  have := Ljh.splitLines_lines (pre := es.map entryLine) (by
    intro l hl
    obtain ⟨e, he, rfl⟩ := List.mem_map.1 hl
    exact entryLine_line (h e he)) []
  rw [List.append_nil] at this
  rw [this]; simp [splitLines]

theorem uniqueKept_order (excl all : List Bytes) : ∀ (suf pre r : List Bytes), all = pre ++ suf → (∀ x ∈ r, x ∈ pre) →
    r.Pairwise (fun a b => all.idxOf a < all.idxOf b) → (∀ x ∈ pre, x ∉ excl → x ∈ r) →
    (uniqueKept excl r suf).Pairwise (fun a b => all.idxOf a < all.idxOf b)
  | [], pre, r, _, _, hp, _ => by simpa [uniqueKept] using hp
  | l :: t, pre, r, ha, hr, hp, hk => by
    unfold uniqueKept
    by_cases hx : (excl.contains l || r.contains l) = true
    · rw [if_pos hx]
      refine uniqueKept_order excl all t (pre ++ [l]) r (by simp [ha]) (fun x hx => by simp [hr x hx]) hp ?_
      intro x hx' hex
      rcases List.mem_append.1 hx' with h | h
      · exact hk x h hex
      · simp only [List.mem_singleton] at h
        subst h
        simpa [hex] using hx
    · rw [if_neg hx]
      simp only [Bool.or_eq_true, List.contains_iff_mem, not_or] at hx
      have hl : l ∉ pre := fun h => hx.2 (hk l h hx.1)
      refine uniqueKept_order excl all t (pre ++ [l]) (r ++ [l]) (by simp [ha]) ?_ ?_ ?_
      · intro x hx'
        rcases List.mem_append.1 hx' with h | h
        · simp [hr x h]
        · exact List.mem_append_right _ h
      · rw [List.pairwise_append]
        refine ⟨hp, List.pairwise_singleton _ _, ?_⟩
        intro a ha' b hb
        simp only [List.mem_singleton] at hb
        subst hb
        rw [ha, List.idxOf_append_of_mem (hr a ha'), List.idxOf_append_of_notMem hl]
        have := List.idxOf_lt_length_iff.2 (hr a ha')
        omega
      · intro x hx' hex
        rcases List.mem_append.1 hx' with h | h
        · exact List.mem_append_left _ (hk x h hex)
        · exact List.mem_append_right _ h

/-- C83. Reading a state file gives the times and labels written in it, in order; the states in use are the different labels in order
of first appearance, without the excluded ones. Without an explicit list, START, STOP, END and IGNORE are excluded, or only IGNORE if
there are no other labels. -/
theorem read_states {comment : Bytes} (hc : (10 : UInt8) ∉ comment) {es : List (Nat × Bytes)} (hne : es ≠ [])
    (h : ∀ e ∈ es, Writable e.2) (excl : Option (List Bytes)) :
    ∃ ef, parse (newEF excl) (stateText comment es) = .ok ef ∧ ef.times = es.map (fun e => (e.1 : Int)) ∧
      ef.allLabels = es.map Prod.snd ∧
      ef.unaliased.Pairwise (fun a b => (es.map Prod.snd).idxOf a < (es.map Prod.snd).idxOf b) ∧
      (∀ l, l ∈ ef.unaliased ↔ (∃ t, (t, l) ∈ es) ∧
        (match excl with
          | some ex => l ∉ ex
          | none => l ≠ asc "IGNORE" ∧ ((l = asc "START" ∨ l = asc "STOP" ∨ l = asc "END") →
              ∀ e ∈ es, e.2 = asc "START" ∨ e.2 = asc "STOP" ∨ e.2 = asc "END" ∨ e.2 = asc "IGNORE"))) := by
  have hl : splitLines (stateText comment es) = _ := splitLines_text hc h
  have hlab : (es.map (fun e => ((e.1 : Int), e.2))).map Prod.snd = es.map Prod.snd := by simp
  refine ⟨absorb (newEF excl) (es.map (fun e => ((e.1 : Int), e.2))) (stateText comment es).length, ?_, ?_, ?_, ?_, ?_⟩
  · unfold parse
    simp only [newEF, List.drop_zero]
    rw [hl]
    have : es.map entryLine ≠ [] := by simpa using hne
    simp only [if_true, List.cons_append, List.head?_cons, ne_eq, not_true, if_false]
    rw [if_neg this, parseLines_entries h]
    rfl
  · simp [absorb, newEF]
  · simp [absorb, newEF]
  · simp only [absorb, newEF, List.nil_append, hlab]
    exact uniqueKept_order _ _ _ [] [] rfl (by simp) List.Pairwise.nil (by simp)
  · intro l
    simp only [absorb, newEF, List.nil_append, hlab]
    rw [mem_uniqueKept]
    have hm : l ∈ es.map Prod.snd ↔ ∃ t, (t, l) ∈ es := by simp
    rw [hm]
    simp only [List.not_mem_nil, false_or]
    refine and_congr_right (fun _ => ?_)
    cases excl with
    | some ex => simp
    | none =>
      simp only [Option.getD_none]
      unfold autoExcludes
      have d1 : asc "START" ≠ asc "IGNORE" := by decide +kernel
      have d2 : asc "STOP" ≠ asc "IGNORE" := by decide +kernel
      have d3 : asc "END" ≠ asc "IGNORE" := by decide +kernel
      have hall : ((es.map Prod.snd).all (normallyIgnore.contains ·)) = true ↔
          ∀ e ∈ es, e.2 = asc "START" ∨ e.2 = asc "STOP" ∨ e.2 = asc "END" ∨ e.2 = asc "IGNORE" := by
        rw [List.all_eq_true]
        simp only [List.mem_map, forall_exists_index, and_imp, forall_apply_eq_imp_iff₂, normallyIgnore,
          List.contains_iff_mem, List.mem_cons, List.not_mem_nil, or_false]
      by_cases ha : ((es.map Prod.snd).all (normallyIgnore.contains ·)) = true
      · rw [if_pos ha]
        simp only [List.mem_singleton]
        exact ⟨fun h => ⟨h, fun _ => hall.1 ha⟩, fun h => h.1⟩
      · rw [if_neg ha]
        simp only [normallyIgnore, List.mem_cons, List.not_mem_nil, or_false, not_or]
        constructor
        · rintro ⟨h1, h2, h3, h4⟩
          refine ⟨h4, ?_⟩
          rintro (h | h | h)
          · exact absurd h h1
          · exact absurd h h2
          · exact absurd h h3
        · rintro ⟨h1, h2⟩
          exact ⟨fun h => ha (hall.2 (h2 (.inl h))), fun h => ha (hall.2 (h2 (.inr (.inl h)))),
            fun h => ha (hall.2 (h2 (.inr (.inr h)))), h1⟩

/-- C83. A line without exactly one comma is refused, wherever it stands, and nothing is kept. -/
theorem read_bad_line {comment : Bytes} (hc : (10 : UInt8) ∉ comment) {es : List (Nat × Bytes)} (h : ∀ e ∈ es, Writable e.2)
    (bad rest : Bytes) (hb : (10 : UInt8) ∉ bad) (hcount : bad.count 44 ≠ 1) (excl : Option (List Bytes)) :
    parse (newEF excl) (stateText comment es ++ bad ++ 10 :: rest) = .error .value := by
  have hw : WholeLines (stateText comment es) := by
    right
    rcases List.eq_nil_or_concat es with rfl | ⟨xs, e, rfl⟩
    · exact ⟨35 :: comment, by simp [stateText]⟩
    · refine ⟨35 :: comment ++ [10] ++ xs.flatMap entryLine ++ (decInt (e.1 : Int) ++ asc ", " ++ e.2), ?_⟩
      simp [stateText, entryLine]
  have hsp : splitLines (stateText comment es ++ bad ++ 10 :: rest) =
      (35 :: comment ++ [10]) :: (es.map entryLine ++ (bad ++ [10]) :: splitLines rest) := by
    rw [List.append_assoc, splitLines_append hw, splitLines_text hc h]
    have : bad ++ 10 :: rest = (bad ++ [10]) ++ rest := by simp
    rw [this, Ljh.splitLines_line ⟨bad, rfl, hb⟩]
    simp
  unfold parse
  simp only [newEF, List.drop_zero]
  rw [hsp]
  simp only [if_true, List.cons_append, List.head?_cons, ne_eq, not_true, if_false]
  rw [if_neg (by simp), parseLines_append, parseLines_entries h]
  have hpl : parseLine (bad ++ [10]) = .error .value := by
    unfold parseLine
    rw [if_pos]
    rw [List.count_append]
    simpa using hcount
  simp only [Except.bind, parseLines, hpl]
  rfl

/-- C83, instance: with exclusions "auto" -/
example : (parse (newEF none) (stateText (asc " unixnano, label") [(5, asc "START"), (7, asc "MN A"), (8, asc "B"), (12, asc "MN A")])).map
      (fun ef => (ef.times, ef.unaliased)) = .ok ([5, 7, 8, 12], [asc "MN A", asc "B"]) ∧
    (parse (newEF none) (stateText (asc " h") [(5, asc "START"), (7, asc "IGNORE"), (8, asc "STOP")])).map
      (fun ef => ef.unaliased) = .ok [asc "START", asc "STOP"] ∧
    parse (newEF none) (stateText (asc " h") [(5, asc "A")] ++ asc "6, x, y" ++ 10 :: asc "7, B") = .error .value ∧
    Writable (asc "MN A") := by
  refine ⟨by decide +kernel, by decide +kernel, by decide +kernel, by decide +kernel, by decide +kernel, by decide +kernel⟩

end Mass.States
