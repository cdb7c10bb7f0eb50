import Verif.Off.Model
import Verif.Ljh.Records
/-! C19, C20 and C60: OFF files. -/
namespace Mass.Off
open Mass.Ljh (Bytes asc splitLines IsLine)

/-! ### C19 -/

/-- the documented OFF versions [specification] -/
def Supported (ver : String) : Prop := ver = "0.1.0" ∨ ver = "0.2.0" ∨ ver = "0.3.0"

/-- bytes of a record before the coefficients: 4+4+8+8+4+4, and 4 more for pretriggerDelta [specification] -/
def headBytes (ver : String) : Nat := if ver = "0.3.0" then 36 else 32

theorem headFields_cases (ver : String) :
    (Supported ver ∧ ∃ hd, headFields ver = .ok hd ∧ itemsize hd = headBytes ver ∧ (hd.map Prod.fst).Nodup ∧
      ∀ n ∈ ["pulseMean", "derivativeLike", "filtValue", "extraCoefs", "coefs"], n ∉ hd.map Prod.fst) ∨
    (¬ Supported ver ∧ headFields ver = .error .exception) := by
  unfold headFields
  by_cases h1 : ver = "0.1.0" ∨ ver = "0.2.0"
  · rw [if_pos h1]
    refine .inl ⟨h1.elim .inl (fun h => .inr (.inl h)), _, rfl, ?_, by decide +kernel, by decide +kernel⟩
    rcases h1 with rfl | rfl <;> decide +kernel
  · rw [if_neg h1]
    by_cases h2 : ver = "0.3.0"
    · rw [if_pos h2]
      refine .inl ⟨.inr (.inr h2), _, rfl, ?_, by decide +kernel, by decide +kernel⟩
      subst h2; decide +kernel
    · rw [if_neg h2]
      refine .inr ⟨?_, rfl⟩
      rintro (h | h | h)
      · exact h1 (.inl h)
      · exact h1 (.inr h)
      · exact h2 h

theorem recordFields_eq {ver : String} (h : Supported ver) :
    ∃ hd, itemsize hd = headBytes ver ∧ (hd.map Prod.fst).Nodup ∧
      (∀ n ∈ ["pulseMean", "derivativeLike", "filtValue", "extraCoefs", "coefs"], n ∉ hd.map Prod.fst) ∧
      ∀ n d, recordFields ver n d = .ok (hd ++ coefFields n d) := by
  rcases headFields_cases ver with ⟨-, hd, h1, h2, h3, h4⟩ | ⟨h1, -⟩
  · exact ⟨hd, h2, h3, h4, fun n d => by unfold recordFields; rw [h1]; rfl⟩
  · exact absurd h h1

/-- C19. Exactly the three documented versions have a layout. -/
theorem layout_ok_iff (ver : String) (n : Nat) (d : Bool) : (∃ fs, recordFields ver n d = .ok fs) ↔ Supported ver := by
  constructor
  · rintro ⟨fs, h⟩
    rcases headFields_cases ver with ⟨h1, -⟩ | ⟨-, h1⟩
    · exact h1
    · unfold recordFields at h; rw [h1] at h; cases h
  · intro h
    obtain ⟨hd, -, -, -, h1⟩ := recordFields_eq h
    exact ⟨_, h1 n d⟩

theorem itemsize_append (a b : List (String × Nat)) : itemsize (a ++ b) = itemsize a + itemsize b := by
  simp [itemsize]

theorem coef_size (n : Nat) : itemsize (coefFields n false) = 4 * n ∧ itemsize (coefFields n true) = 4 * max n 3 := by
  constructor
  · simp [itemsize, coefFields]
  · unfold coefFields itemsize
    by_cases h : 3 < n
    · simp [h]; omega
    · simp [h]; omega

/-- C19. The record size is the documented sum. -/
theorem record_size {ver : String} (h : Supported ver) (n : Nat) :
    (∃ fs, recordFields ver n false = .ok fs ∧ itemsize fs = headBytes ver + 4 * n) ∧
    (∃ fs, recordFields ver n true = .ok fs ∧ itemsize fs = headBytes ver + 4 * max n 3) := by
  obtain ⟨hd, h1, -, -, h2⟩ := recordFields_eq h
  exact ⟨⟨_, h2 n false, by rw [itemsize_append, h1, (coef_size n).1]⟩, ⟨_, h2 n true, by rw [itemsize_append, h1, (coef_size n).2]⟩⟩

/-- a packed layout: `(position, size)` of each field [specification] -/
def ranges : Nat → List (String × Nat) → List (Nat × Nat)
  | _, [] => []
  | pos, (_, s) :: t => (pos, s) :: ranges (pos + s) t

theorem ranges_ge {pos : Nat} {fs : List (String × Nat)} {r : Nat × Nat} (h : r ∈ ranges pos fs) : pos ≤ r.1 := by
  induction fs generalizing pos with
  | nil => simp [ranges] at h
  | cons a t ih =>
    obtain ⟨n, s⟩ := a
    simp only [ranges, List.mem_cons] at h
    rcases h with rfl | h
    · exact Nat.le_refl _
    · exact Nat.le_trans (by omega) (ih h)

theorem fieldAt_mem {name : String} {pos : Nat} {fs : List (String × Nat)} {r : Nat × Nat}
    (h : fieldAt name pos fs = some r) : r ∈ ranges pos fs := by
  induction fs generalizing pos with
  | nil => cases h
  | cons a t ih =>
    obtain ⟨n, s⟩ := a
    unfold fieldAt at h
    split at h
    · injection h with h; subst h; simp [ranges]
    · simp only [ranges, List.mem_cons]; exact .inr (ih h)

theorem fieldAt_isSome {name : String} {pos : Nat} {fs : List (String × Nat)} (h : name ∈ fs.map Prod.fst) :
    ∃ r, fieldAt name pos fs = some r := by
  induction fs generalizing pos with
  | nil => simp at h
  | cons a t ih =>
    obtain ⟨n, s⟩ := a
    unfold fieldAt
    by_cases hn : n = name
    · rw [if_pos hn]; exact ⟨_, rfl⟩
    · rw [if_neg hn]
      simp only [List.map_cons, List.mem_cons] at h
      exact ih (h.resolve_left (fun e => hn e.symm))

theorem fieldAt_cover {fs : List (String × Nat)} (hnd : (fs.map Prod.fst).Nodup) {pos b : Nat} (h1 : pos ≤ b)
    (h2 : b < pos + itemsize fs) :
    ∃ n r, n ∈ fs.map Prod.fst ∧ fieldAt n pos fs = some r ∧ r.1 ≤ b ∧ b < r.1 + r.2 := by
  induction fs generalizing pos with
  | nil => simp [itemsize] at h2; omega
  | cons a t ih =>
    obtain ⟨n, s⟩ := a
    by_cases hb : b < pos + s
    · exact ⟨n, (pos, s), by simp, by simp [fieldAt], h1, hb⟩
    · have hn := List.nodup_cons.1 hnd
      obtain ⟨m, r, hm, hr, h3⟩ := ih hn.2 (pos := pos + s) (by omega) (by simp [itemsize] at h2 ⊢; omega)
      refine ⟨m, r, by simp [hm], ?_, h3⟩
      unfold fieldAt
      rw [if_neg (fun e => hn.1 (by rw [show (n, s).1 = n from rfl, e]; exact hm))]
      exact hr

theorem fieldAt_disjoint {fs : List (String × Nat)} {pos b : Nat} {n m : String} {r s : Nat × Nat}
    (hn : fieldAt n pos fs = some r) (hm : fieldAt m pos fs = some s)
    (h1 : r.1 ≤ b ∧ b < r.1 + r.2) (h2 : s.1 ≤ b ∧ b < s.1 + s.2) : n = m := by
  induction fs generalizing pos with
  | nil => cases hn
  | cons a t ih =>
    obtain ⟨k, z⟩ := a
    unfold fieldAt at hn hm
    by_cases e1 : k = n
    · rw [if_pos e1] at hn
      injection hn with hn; subst hn
      by_cases e2 : k = m
      · rw [← e1, ← e2]
      · rw [if_neg e2] at hm
        have := ranges_ge (fieldAt_mem hm)
        simp at h1; omega
    · rw [if_neg e1] at hn
      by_cases e2 : k = m
      · rw [if_pos e2] at hm
        injection hm with hm; subst hm
        have := ranges_ge (fieldAt_mem hn)
        simp at h2; omega
      · rw [if_neg e2] at hm
        exact ih hn hm

theorem layout_nodup {ver : String} {n : Nat} {d : Bool} {fs : List (String × Nat)} (h : recordFields ver n d = .ok fs) :
    (fs.map Prod.fst).Nodup := by
  have hv := (layout_ok_iff ver n d).1 ⟨_, h⟩
  obtain ⟨hd, -, h2, h3, h4⟩ := recordFields_eq hv
  rw [h4] at h; injection h with h; subst h
  rw [List.map_append, List.nodup_append]
  have hc : ∀ x ∈ (coefFields n d).map Prod.fst, x ∈ ["pulseMean", "derivativeLike", "filtValue", "extraCoefs", "coefs"] := by
    unfold coefFields
    by_cases h3 : 3 < n <;> cases d <;> simp [h3]
  refine ⟨h2, ?_, ?_⟩
  · unfold coefFields
    by_cases h3 : 3 < n <;> cases d <;> simp [h3]
  · rintro a ha b hb rfl
    exact h3 a (hc a hb) ha

theorem fieldAt_append (name : String) (a b : List (String × Nat)) (pos : Nat) :
    fieldAt name pos (a ++ b) = (fieldAt name pos a).or (fieldAt name (pos + itemsize a) b) := by
  induction a generalizing pos with
  | nil => simp [fieldAt, itemsize]
  | cons x t ih =>
    obtain ⟨n, s⟩ := x
    simp only [List.cons_append, fieldAt]
    by_cases h : n = name
    · simp [h]
    · rw [if_neg h, if_neg h, ih]
      have : pos + s + itemsize t = pos + itemsize ((n, s) :: t) := by simp [itemsize]; omega
      rw [this]

theorem fieldAt_none {name : String} {fs : List (String × Nat)} (h : name ∉ fs.map Prod.fst) (pos : Nat) :
    fieldAt name pos fs = none := by
  induction fs generalizing pos with
  | nil => rfl
  | cons x t ih =>
    obtain ⟨n, s⟩ := x
    unfold fieldAt
    rw [if_neg (fun e => h (by simp [e]))]
    exact ih (fun hm => h (by simp [hm])) _

/-- C19. The fields tile the record: every byte of it belongs to exactly one field. -/
theorem layout_tiles {ver : String} {n : Nat} {d : Bool} {fs : List (String × Nat)} (h : recordFields ver n d = .ok fs)
    {b : Nat} (hb : b < itemsize fs) :
    ∃ name off sz, fieldAt name 0 fs = some (off, sz) ∧ off ≤ b ∧ b < off + sz ∧
      ∀ name' off' sz', fieldAt name' 0 fs = some (off', sz') → off' ≤ b → b < off' + sz' → name' = name := by
  obtain ⟨m, r, -, h1, h2⟩ := fieldAt_cover (layout_nodup h) (Nat.zero_le b) (by simpa using hb)
  exact ⟨m, r.1, r.2, h1, h2.1, h2.2, fun m' o' s' h' h3 h4 => fieldAt_disjoint h' h1 ⟨h3, h4⟩ h2⟩

/-- C19, the part that holds. With at least 3 basis elements both layouts have the same size and agree on every field before the
coefficients; the coefficients seen through the plain layout are pulseMean, derivativeLike, filtValue and then the
extra ones, in order. -/
theorem views_agree_partial {ver : String} (h : Supported ver) {n : Nat} (hn : 3 ≤ n) :
    ∃ fd fp, recordFields ver n true = .ok fd ∧ recordFields ver n false = .ok fp ∧ itemsize fd = itemsize fp ∧
      (∀ name off sz, off < headBytes ver → (fieldAt name 0 fd = some (off, sz) ↔ fieldAt name 0 fp = some (off, sz))) ∧
      coefView ver n 0 = (match fieldAt "pulseMean" 0 fd with | some r => .ok r | none => .error .key) ∧
      coefView ver n 1 = (match fieldAt "derivativeLike" 0 fd with | some r => .ok r | none => .error .key) ∧
      coefView ver n 2 = (match fieldAt "filtValue" 0 fd with | some r => .ok r | none => .error .key) ∧
      (∀ k, 3 ≤ k → k < n → ∃ off sz, fieldAt "extraCoefs" 0 fd = some (off, sz) ∧
        coefView ver n k = .ok (off + 4 * (k - 3), 4) ∧ 4 * (k - 3) + 4 ≤ sz) := by
  obtain ⟨hd, h1, h2, h3, h4⟩ := recordFields_eq h
  have hs : itemsize (hd ++ coefFields n true) = itemsize (hd ++ coefFields n false) := by
    rw [itemsize_append, itemsize_append, (coef_size n).1, (coef_size n).2]; omega
  have hc : ∀ (x : String) (d : Bool), x ∈ ["pulseMean", "derivativeLike", "filtValue", "extraCoefs", "coefs"] →
      fieldAt x 0 (hd ++ coefFields n d) = fieldAt x (headBytes ver) (coefFields n d) := by
    intro x d hx
    rw [fieldAt_append, fieldAt_none (h3 x hx), h1]; simp
  have hcv : ∀ k, k < n → coefView ver n k = .ok (headBytes ver + 4 * k, 4) := by
    intro k hk
    unfold coefView
    simp only [h4, bind, Except.bind]
    rw [if_neg (by simpa using hs), hc _ _ (by simp)]
    show (if 4 * k + 4 ≤ 4 * n then _ else _) = _
    rw [if_pos (by omega)]
  refine ⟨_, _, h4 n true, h4 n false, hs, ?_, ?_, ?_, ?_, ?_⟩
  · have key : ∀ (d : Bool) name off sz, off < headBytes ver →
        (fieldAt name 0 (hd ++ coefFields n d) = some (off, sz) ↔ fieldAt name 0 hd = some (off, sz)) := by
      intro d name off sz ho
      rw [fieldAt_append, Option.or_eq_some_iff]
      constructor
      · rintro (h | ⟨-, h⟩)
        · exact h
        · have := ranges_ge (fieldAt_mem h)
          simp at this; omega
      · exact .inl
    intro name off sz ho
    rw [key true name off sz ho, key false name off sz ho]
  · rw [hcv 0 (by omega), hc _ _ (by simp)]; rfl
  · rw [hcv 1 (by omega), hc _ _ (by simp)]; rfl
  · rw [hcv 2 (by omega), hc _ _ (by simp)]; rfl
  · intro k hk hkn
    refine ⟨headBytes ver + 12, 4 * (n - 3), ?_, ?_, by omega⟩
    · rw [hc _ _ (by simp)]
      unfold coefFields
      rw [if_pos rfl, if_pos (by omega)]
      rfl
    · rw [hcv k hkn, show headBytes ver + 12 + 4 * (k - 3) = headBytes ver + 4 * k by omega]

/-- C19 is false below 3 basis elements: the record sizes differ, so records are read at the wrong places and the coefficients
cannot be viewed. -/
theorem views_agree_fails :
    (recordFields "0.3.0" 2 true).map itemsize = .ok 48 ∧ (recordFields "0.3.0" 2 false).map itemsize = .ok 44 ∧
    coefView "0.3.0" 2 0 = .error .value := by decide +kernel

/-- C19, instance -/
example : (recordFields "0.3.0" 5 true).map (fun fs => (itemsize fs, fieldAt "filtValue" 0 fs, fieldAt "extraCoefs" 0 fs)) =
    .ok (56, some (44, 4), some (48, 8)) ∧ coefView "0.3.0" 5 4 = .ok (52, 4) := by decide +kernel

/-! ### C20 -/

/-- what can happen to a file while it is being read: the writer appends bytes, or the reader refreshes [specification] -/
inductive Ev
  | append (b : Bytes)
  | refresh

/-- one event [specification] -/
def step (s : Except Exc OffFile × Bytes) : Ev → Except Exc OffFile × Bytes
  | .append b => (s.1, s.2 ++ b)
  | .refresh => (s.1.bind (fun o => refresh o s.2), s.2)

/-- the whole history [specification] -/
def run (o : OffFile) (f : Bytes) (evs : List Ev) : Except Exc OffFile × Bytes := evs.foldl step (.ok o, f)

/-- the view `o` shows complete records of `f` only [specification] -/
def Fits (o : OffFile) (f : Bytes) : Prop := o.after + o.nRecords * o.size ≤ f.length

theorem record_ok {o : OffFile} {f : Bytes} (h : Fits o f) {i : Nat} (hi : i < o.nRecords) :
    record o f i = .ok ((f.drop (o.after + i * o.size)).take o.size) := by
  unfold record
  rw [if_pos hi]
  dsimp only
  have : (i + 1) * o.size ≤ o.nRecords * o.size := Nat.mul_le_mul_right _ hi
  rw [Nat.add_mul, Nat.one_mul] at this
  unfold Fits at h
  rw [if_neg (by rw [List.length_take, List.length_drop]; omega)]

theorem record_append {o o' : OffFile} {f b : Bytes} (h : Fits o f) (h' : Fits o' (f ++ b)) (hs : o'.size = o.size)
    (ha : o'.after = o.after) (hn : o.nRecords ≤ o'.nRecords) {i : Nat} (hi : i < o.nRecords) :
    record o' (f ++ b) i = record o f i := by
  rw [record_ok h hi, record_ok h' (by omega), hs, ha]
  have : (i + 1) * o.size ≤ o.nRecords * o.size := Nat.mul_le_mul_right _ hi
  rw [Nat.add_mul, Nat.one_mul] at this
  unfold Fits at h
  rw [List.drop_append_of_le_length (by omega), List.take_append_of_le_length (by rw [List.length_drop]; omega)]

theorem refresh_inv {o o' : OffFile} {f : Bytes} (h : refresh o f = .ok o') :
    o.after ≤ f.length ∧ o' = { o with nRecords := (f.length - o.after) / o.size } := by
  unfold refresh at h
  split at h
  · cases h
  · injection h with h; exact ⟨by omega, h.symm⟩

theorem openOff_size {js : Bytes → Option Hdr} {f : Bytes} {o : OffFile} (h : openOff js f = .ok o) :
    o.nRecords = (f.length - o.after) / o.size ∧ o.after ≤ f.length ∧ 0 < o.size := by
  unfold openOff at h
  split at h
  · cases h
  · split at h
    · cases h
    · rename_i hdr _
      split at h
      · cases h
      · cases h
      · rename_i fs _ hfs _
        dsimp only at h
        split at h
        · cases h
        split at h
        · cases h
        split at h
        · cases h
        · obtain ⟨hlt, rfl⟩ := refresh_inv h
          refine ⟨rfl, by simpa using hlt, ?_⟩
          have hsup := (layout_ok_iff _ _ _).1 ⟨_, hfs⟩
          obtain ⟨-, fs2, e1, e2⟩ := record_size hsup hdr.nBases
          rw [hfs] at e1; injection e1 with e1; subst e1
          show 0 < itemsize fs
          rw [e2]; unfold headBytes; split <;> omega

theorem refresh_ok {o : OffFile} {f : Bytes} (h : o.after ≤ f.length) :
    refresh o f = .ok { o with nRecords := (f.length - o.after) / o.size } := by
  unfold refresh; rw [if_neg (by omega)]

theorem run_inv {o : OffFile} {f : Bytes} (h1 : Fits o f) (h2 : 0 < o.size) (evs : List Ev) :
    ∃ o' b, run o f evs = (.ok o', f ++ b) ∧ Fits o' (f ++ b) ∧ o'.size = o.size ∧ o'.after = o.after ∧
      o'.headerLen = o.headerLen ∧ o.nRecords ≤ o'.nRecords := by
  induction evs generalizing o f with
  | nil => exact ⟨o, [], by simp [run], by simpa using h1, rfl, rfl, rfl, Nat.le_refl _⟩
  | cons e t ih =>
    cases e with
    | append b =>
      obtain ⟨o', c, g1, g2, g3⟩ := ih (o := o) (f := f ++ b) (by unfold Fits at *; rw [List.length_append]; omega) h2
      exact ⟨o', b ++ c, by rw [← List.append_assoc]; exact g1, by rw [← List.append_assoc]; exact g2, g3⟩
    | refresh =>
      have ha : o.after ≤ f.length := by unfold Fits at h1; omega
      have hle : o.nRecords ≤ (f.length - o.after) / o.size := by
        rw [Nat.le_div_iff_mul_le h2]; unfold Fits at h1; omega
      obtain ⟨o', c, g1, g2, g3, g4, g5, g6⟩ := ih (o := { o with nRecords := (f.length - o.after) / o.size }) (f := f) (by
        show o.after + (f.length - o.after) / o.size * o.size ≤ f.length
        have := Nat.div_mul_le_self (f.length - o.after) o.size
        omega) h2
      refine ⟨o', c, ?_, g2, g3, g4, g5, Nat.le_trans hle g6⟩
      rw [← g1]
      show List.foldl step (step (.ok o, f) .refresh) t = _
      rw [show step (.ok o, f) .refresh = (refresh o f, f) from rfl, refresh_ok ha]
      rfl

/-- C20. Whatever the writer appends and whenever the reader refreshes: the reader never fails, the number of records never decreases,
records seen once read the same for ever, every visible record is complete, and right after a refresh the number of
records is that of the complete records in the file. -/
theorem growing_file {js : Bytes → Option Hdr} {f : Bytes} {o : OffFile} (h : openOff js f = .ok o) (evs more : List Ev) :
    ∃ o1 f1 o2 f2, run o f evs = (.ok o1, f1) ∧ run o f (evs ++ more) = (.ok o2, f2) ∧
      o1.nRecords ≤ o2.nRecords ∧
      (∀ i < o1.nRecords, ∃ b, record o1 f1 i = .ok b ∧ record o2 f2 i = .ok b ∧ b.length = o.size) ∧
      (∀ o3 f3, run o f (evs ++ [.refresh]) = (.ok o3, f3) →
        o3.after + o3.nRecords * o3.size ≤ f3.length ∧ f3.length < o3.after + (o3.nRecords + 1) * o3.size) := by
  obtain ⟨s1, s2, s3⟩ := openOff_size h
  have hfit : Fits o f := by
    unfold Fits; rw [s1]
    have := Nat.div_mul_le_self (f.length - o.after) o.size
    omega
  obtain ⟨o1, b1, g1, g2, g3, g4, g5, g6⟩ := run_inv hfit s3 evs
  obtain ⟨o2, b2, k1, k2, k3, k4, k5, k6⟩ := run_inv g2 (by omega) more
  have hrun2 : ∀ m, run o f (evs ++ m) = m.foldl step (.ok o1, f ++ b1) := by
    intro m
    unfold run; rw [List.foldl_append]
    have : evs.foldl step (.ok o, f) = (.ok o1, f ++ b1) := g1
    rw [this]
  refine ⟨o1, _, o2, _, g1, (hrun2 more).trans k1, k6, ?_, ?_⟩
  · intro i hi
    refine ⟨_, record_ok g2 hi, ?_, ?_⟩
    · rw [record_append g2 k2 k3 k4 k6 hi, record_ok g2 hi]
    · have : (i + 1) * o1.size ≤ o1.nRecords * o1.size := Nat.mul_le_mul_right _ hi
      rw [Nat.add_mul, Nat.one_mul] at this
      unfold Fits at g2
      rw [List.length_take, List.length_drop]; omega
  · intro o3 f3 h3
    rw [hrun2] at h3
    have ha : o1.after ≤ (f ++ b1).length := by unfold Fits at g2; omega
    simp only [List.foldl_cons, List.foldl_nil, step, Except.bind, refresh_ok ha, Prod.mk.injEq, Except.ok.injEq] at h3
    obtain ⟨rfl, rfl⟩ := h3
    dsimp only
    have e1 := Nat.div_add_mod ((f ++ b1).length - o1.after) o1.size
    have e2 := Nat.mod_lt ((f ++ b1).length - o1.after) (show 0 < o1.size by omega)
    rw [Nat.mul_comm] at e1
    rw [Nat.add_mul, Nat.one_mul]
    omega

/-! ### C60 -/

/-- C60. For a header of ASCII text, the records start right after the header line (and the projectors and basis, if they are
stored as binary). -/
theorem header_offset_partial {js : Bytes → Option Hdr} {pre : List Bytes} {body : Bytes} {h : Hdr} {o : OffFile}
    (hpre : ∀ l ∈ pre, IsLine l ∧ l ≠ asc "}\n" ∧ ∀ b ∈ l, b < 128)
    (hj : js (pre.flatten ++ asc "}\n") = some h) (ho : openOff js (pre.flatten ++ (asc "}\n" ++ body)) = .ok o) :
    o.after = (pre.flatten ++ asc "}\n").length + (if h.base64 then 0 else 2 * (8 * h.bRows * h.bCols)) := by
  have hl : IsLine (asc "}\n") := ⟨asc "}", by decide +kernel, by decide +kernel⟩
  have hsp : ∀ p : List Bytes, (∀ l ∈ p, IsLine l ∧ l ≠ asc "}\n" ∧ ∀ b ∈ l, b < 128) →
      jsonLines (splitLines (p.flatten ++ (asc "}\n" ++ body))) = some (p.flatten ++ asc "}\n") := by
    intro p hp
    induction p with
    | nil =>
      simp only [List.flatten_nil, List.nil_append]
      rw [Ljh.splitLines_line hl]
      simp [jsonLines]
    | cons a t ih =>
      rw [List.flatten_cons, List.append_assoc, Ljh.splitLines_line (hp a (by simp)).1]
      unfold jsonLines
      rw [if_neg (hp a (by simp)).2.1, ih (fun l hl => hp l (by simp [hl]))]
      simp
  have hcc : charCount (pre.flatten ++ asc "}\n") = (pre.flatten ++ asc "}\n").length := by
    unfold charCount
    rw [List.filter_eq_self.2]
    intro x hx
    rcases List.mem_append.1 hx with hx | hx
    · obtain ⟨l, hl, hx⟩ := List.mem_flatten.1 hx
      simp [(hpre l hl).2.2 x hx]
    · have : ∀ y ∈ asc "}\n", y < 128 := by decide +kernel
      simp [this x hx]
  unfold openOff at ho
  rw [hsp pre hpre] at ho
  dsimp only at ho
  rw [hj] at ho
  dsimp only at ho
  split at ho
  · cases ho
  · cases ho
  · split at ho
    · cases ho
    split at ho
    · cases ho
    split at ho
    · cases ho
    obtain ⟨-, rfl⟩ := refresh_inv ho
    dsimp only [afterHeader]
    rw [hcc]
    split
    · simp
    · rw [Nat.mul_comm h.bCols, Nat.mul_comm (h.bRows * h.bCols) 8, Nat.mul_assoc]

/-- an OFF header with a non-ASCII character (U+2126, three bytes) [specification] -/
def omegaHeader : Bytes := asc "{\n\"" ++ [0xE2, 0x84, 0xA6] ++ asc "\": {\n }\n}\n"
/-- the meaning of that header [specification] -/
def omegaJs (_ : Bytes) : Option Hdr := some ⟨"OFF", "0.3.0", 3, true, 3, 1, 1, 3⟩

/-- C60 is false for non-ASCII headers: the offset is counted in characters, so the records are read from inside the header. -/
theorem header_offset_fails :
    (openOff omegaJs (omegaHeader ++ List.replicate 48 7)).map (fun o => (o.after, o.nRecords)) =
      .ok (omegaHeader.length - 2, 1) ∧
    (openOff omegaJs (omegaHeader ++ List.replicate 48 7)).bind (fun o => record o (omegaHeader ++ List.replicate 48 7) 0) =
      .ok ([125, 10] ++ List.replicate 46 7) := by decide +kernel

/-- an ASCII header [specification] -/
def plainHeader : Bytes := asc "{\n\"a\": {\n }\n}\n"

/-- C20 and C60, instance: a file opened with one and a half records; after half a record more and a refresh there are two, and the
first one still reads the same -/
example :
    (openOff omegaJs (plainHeader ++ List.replicate 72 7)).map (fun o => (o.after, o.nRecords)) = .ok (plainHeader.length, 1) ∧
    ((openOff omegaJs (plainHeader ++ List.replicate 72 7)).bind (fun o =>
      (run o (plainHeader ++ List.replicate 72 7) [.append (List.replicate 10 8), .refresh, .append (List.replicate 15 9), .refresh]).1)).map
        (fun o => o.nRecords) = .ok 2 ∧
    ((openOff omegaJs (plainHeader ++ List.replicate 72 7)).bind (fun o =>
      (run o (plainHeader ++ List.replicate 72 7) [.append (List.replicate 10 8), .refresh]).1)).map (fun o => o.nRecords) = .ok 1 := by
  decide +kernel

end Mass.Off
