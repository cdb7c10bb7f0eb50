import Verif.Ljh.Model
/-! C13: the header scan. -/
namespace Mass.Ljh

/-! ### specification -/

/-- a complete line: newline at the end and nowhere else [specification] -/
def IsLine (l : Bytes) : Prop := ∃ s, l = s ++ [10] ∧ (10 : UInt8) ∉ s
/-- ASCII whitespace [specification] -/
def Ws (b : UInt8) : Prop := b ∈ [32, 9, 10, 11, 12, 13]
/-- `t` is `s` without the whitespace at both ends [specification] -/
def Trims (s t : Bytes) : Prop :=
  ∃ p q, s = p ++ (t ++ q) ∧ (∀ b ∈ p, Ws b) ∧ (∀ b ∈ q, Ws b) ∧
    (∀ b, t.head? = some b → ¬ Ws b) ∧ (∀ b, t.getLast? = some b → ¬ Ws b)
/-- the line says `k: v` [specification] -/
def Entry (line k v : Bytes) : Prop :=
  ∃ a b, line = a ++ 58 :: b ∧ (58 : UInt8) ∉ a ∧ Trims a k ∧ Trims b v
/-- the file starts with the header lines `pre`, then the end marker line `endl`, then `body` [specification] -/
def HeaderSplit (f : Bytes) (pre : List Bytes) (endl body : Bytes) : Prop :=
  f = pre.flatten ++ (endl ++ body) ∧ (∀ l ∈ pre, IsLine l ∧ ¬ endMark <+: l) ∧ endMark <+: endl ∧
    (IsLine endl ∨ (10 ∉ endl ∧ body = []))

/-! ### lemmas -/

theorem isSpaceB_iff (b : UInt8) : isSpaceB b = true ↔ Ws b := by
  have : ∀ b : UInt8, isSpaceB b = true ↔ b ∈ [32, 9, 10, 11, 12, 13] := by
    intro b
    have h : ∀ n : Fin 256, isSpaceB (UInt8.ofNat n) = decide (UInt8.ofNat n ∈ ([32, 9, 10, 11, 12, 13] : List UInt8)) := by
      decide +kernel
    have h1 := h ⟨b.toNat, UInt8.toNat_lt b⟩
    simp only [UInt8.ofNat_toNat] at h1
    rw [h1]; exact decide_eq_true_iff
  exact this b

theorem mem_takeWhile {α} {p : α → Bool} {l : List α} {x : α} (h : x ∈ l.takeWhile p) : p x = true := by
  induction l with
  | nil => simp at h
  | cons a t ih =>
    rw [List.takeWhile_cons] at h
    split at h
    · rcases List.mem_cons.1 h with h | h
      · rw [h]; assumption
      · exact ih h
    · simp at h

theorem head_dropWhile {α} {p : α → Bool} {l : List α} {x : α} (h : (l.dropWhile p).head? = some x) : p x = false := by
  induction l with
  | nil => simp at h
  | cons a t ih =>
    rw [List.dropWhile_cons] at h
    split at h
    · exact ih h
    · rename_i hn
      simp at h; subst h; simpa using hn

theorem dropWhile_append_of_all {α} {p : α → Bool} {l r : List α} (h : ∀ x ∈ l, p x = true) :
    (l ++ r).dropWhile p = r.dropWhile p := by
  induction l with
  | nil => rfl
  | cons a t ih =>
    simp only [List.cons_append, List.dropWhile_cons]
    rw [if_pos (h a (by simp))]
    exact ih (fun x hx => h x (by simp [hx]))

theorem dropWhile_of_head {α} {p : α → Bool} {l : List α} (h : ∀ x, l.head? = some x → p x = false) :
    l.dropWhile p = l := by
  cases l with
  | nil => rfl
  | cons a t => rw [List.dropWhile_cons, if_neg]; simpa using h a rfl

theorem strip_trims (s : Bytes) : Trims s (strip s) := by
  refine ⟨s.takeWhile isSpaceB, (((s.dropWhile isSpaceB).reverse.takeWhile isSpaceB)).reverse, ?_, ?_, ?_, ?_, ?_⟩
  · unfold strip
    rw [← List.reverse_append, List.takeWhile_append_dropWhile, List.reverse_reverse,
      List.takeWhile_append_dropWhile]
  · intro b hb; exact (isSpaceB_iff b).1 (mem_takeWhile hb)
  · intro b hb; exact (isSpaceB_iff b).1 (mem_takeWhile (List.mem_reverse.1 hb))
  · intro b hb hw
    unfold strip at hb
    rw [List.head?_reverse] at hb
    have hw := (isSpaceB_iff b).2 hw
    -- last of dropWhile of reverse is last of the reverse = head of original
    have h2 : ((s.dropWhile isSpaceB).reverse).getLast? = some b := by
      generalize (s.dropWhile isSpaceB).reverse = r at hb
      obtain ⟨x, hx⟩ : ∃ x, r = x ++ r.dropWhile isSpaceB := ⟨_, (List.takeWhile_append_dropWhile).symm⟩
      rw [hx, List.getLast?_append, hb]; rfl
    rw [List.getLast?_reverse] at h2
    have := head_dropWhile h2
    rw [this] at hw; cases hw
  · intro b hb hw
    unfold strip at hb
    rw [List.getLast?_reverse] at hb
    have := head_dropWhile hb
    rw [(isSpaceB_iff b).2 hw] at this; cases this

theorem Trims.eq_strip {s t : Bytes} (h : Trims s t) : strip s = t := by
  obtain ⟨p, q, rfl, hp, hq, h1, h2⟩ := h
  unfold strip
  rw [dropWhile_append_of_all (fun x hx => (isSpaceB_iff x).2 (hp x hx))]
  by_cases ht : t = []
  · subst ht
    simp only [List.nil_append]
    have : q.dropWhile isSpaceB = [] := by
      have := dropWhile_append_of_all (p := isSpaceB) (l := q) (r := []) (fun x hx => (isSpaceB_iff x).2 (hq x hx))
      simpa using this
    rw [this]; rfl
  · rw [dropWhile_of_head (l := t ++ q)]
    · rw [List.reverse_append, dropWhile_append_of_all, dropWhile_of_head, List.reverse_reverse]
      · intro x hx; rw [List.head?_reverse] at hx
        have := h2 x hx
        rw [← isSpaceB_iff] at this; simpa using this
      · intro x hx; exact (isSpaceB_iff x).2 (hq x (List.mem_reverse.1 hx))
    · intro x hx
      have : t.head? = some x := by
        cases t with
        | nil => exact absurd rfl ht
        | cons a t => simpa using hx
      have := h1 x this
      rw [← isSpaceB_iff] at this; simpa using this

theorem takeWhile_ne {α} [DecidableEq α] {x : α} {a b : List α} (h : x ∉ a) :
    (a ++ x :: b).takeWhile (· != x) = a ∧ (a ++ x :: b).dropWhile (· != x) = x :: b := by
  induction a with
  | nil => simp
  | cons c t ih =>
    simp only [List.mem_cons, not_or] at h
    obtain ⟨i1, i2⟩ := ih h.2
    have hc : c ≠ x := fun e => h.1 e.symm
    simp [hc, i1, i2]

theorem mem_split_ne {α} [DecidableEq α] {x : α} {l : List α} (h : x ∈ l) :
    ∃ a b, l = a ++ x :: b ∧ x ∉ a := by
  induction l with
  | nil => simp at h
  | cons c t ih =>
    by_cases hc : c = x
    · exact ⟨[], t, by simp [hc], by simp⟩
    · obtain ⟨a, b, e, hn⟩ := ih (by simpa [Ne.symm hc] using h)
      exact ⟨c :: a, b, by simp [e], by simp [hn, Ne.symm hc]⟩

/-- the entry of a line, as the code finds it -/
theorem headerLine_cases (d : Dict) (line : Bytes) :
    (∃ k v, Entry line k v ∧ headerLine d line = dictSet d k v ∧ ∀ k' v', Entry line k' v' → k' = k ∧ v' = v) ∨
    ((∀ k v, ¬ Entry line k v) ∧ headerLine d line = d) := by
  by_cases h : (58 : UInt8) ∈ line
  · left
    obtain ⟨a, b, rfl, hn⟩ := mem_split_ne h
    obtain ⟨h1, h2⟩ := takeWhile_ne (b := b) hn
    refine ⟨strip a, strip b, ⟨a, b, rfl, hn, strip_trims _, strip_trims _⟩, ?_, ?_⟩
    · unfold headerLine
      rw [if_pos (by simp), h1, h2]; rfl
    · rintro k' v' ⟨a', b', e, hn', ha, hb⟩
      obtain ⟨g1, g2⟩ := takeWhile_ne (b := b') hn'
      rw [← e] at g1 g2
      rw [h1] at g1; rw [h2] at g2
      cases g1; cases g2
      exact ⟨ha.eq_strip.symm, hb.eq_strip.symm⟩
  · right
    refine ⟨?_, ?_⟩
    · rintro k v ⟨a, b, rfl, -⟩; simp at h
    · unfold headerLine; rw [if_neg (by simpa using h)]

theorem dictGet_set_self (d : Dict) (k v : Bytes) : dictGet (dictSet d k v) k = some v := by
  unfold dictGet dictSet
  split
  · rename_i h
    induction d with
    | nil => simp at h
    | cons e t ih =>
      by_cases he : e.1 = k
      · simp [he]
      · have h : k ∈ (e :: t).map Prod.fst := by simpa using h
        simp only [List.map_cons, List.mem_cons] at h
        rw [List.map_cons, if_neg he, List.find?_cons_of_neg (by simpa using he)]
        exact ih (by simpa using h.resolve_left (fun e => he e.symm))
  · rename_i h
    have h : k ∉ d.map Prod.fst := by simpa using h
    rw [List.find?_append, List.find?_eq_none.2]
    · simp
    · intro x hx e
      apply h
      rw [← (show x.1 = k by simpa using e)]
      exact List.mem_map_of_mem hx

theorem dictGet_set_ne (d : Dict) {k k' : Bytes} (v : Bytes) (hk : k' ≠ k) : dictGet (dictSet d k v) k' = dictGet d k' := by
  unfold dictGet dictSet
  split
  · congr 1
    induction d with
    | nil => rfl
    | cons e t ih =>
      by_cases he : e.1 = k
      · have h' : e.1 ≠ k' := fun x => hk (x.symm.trans he)
        have h'' : ∀ w : Bytes, ((k, w) : Bytes × Bytes).1 ≠ k' := fun _ x => hk x.symm
        rw [List.map_cons, if_pos he, List.find?_cons_of_neg (by simpa using h'' v), List.find?_cons_of_neg (by simpa using h')]
        by_cases hm : (t.map Prod.fst).contains k
        · exact ih (by simpa using hm)
        · congr 1
          have : t.map (fun e => if e.1 = k then (k, v) else e) = t := by
            rw [List.map_congr_left (g := id)]
            · simp
            · intro x hx
              rw [if_neg]; rfl
              intro e; apply hm; simp only [List.contains_iff_mem]; rw [← e]; exact List.mem_map_of_mem hx
          rw [this]
      · rename_i h
        have h : k ∈ t.map Prod.fst := by
          have h : k ∈ (e :: t).map Prod.fst := by simpa using h
          simp only [List.map_cons, List.mem_cons] at h
          exact h.resolve_left (fun e => he e.symm)
        rw [List.map_cons, if_neg he]
        rw [List.find?_cons, List.find?_cons, ih (by simpa using h)]
  · rw [List.find?_append]
    have : List.find? (fun e : Bytes × Bytes => e.1 == k') [(k, v)] = none := by
      simpa using fun e => hk e.symm
    rw [this]; simp

theorem foldl_header (pre : List Bytes) (d : Dict) (k v : Bytes) :
    dictGet (pre.foldl headerLine d) k = some v ↔
      (∃ xs line ys, pre = xs ++ line :: ys ∧ Entry line k v ∧ ∀ l ∈ ys, ∀ v', ¬ Entry l k v') ∨
      ((∀ l ∈ pre, ∀ v', ¬ Entry l k v') ∧ dictGet d k = some v) := by
  induction pre generalizing d with
  | nil => simp
  | cons line t ih =>
    rw [List.foldl_cons, ih]
    constructor
    · rintro (⟨xs, l, ys, rfl, h⟩ | ⟨hn, hd⟩)
      · exact .inl ⟨line :: xs, l, ys, rfl, h⟩
      · rcases headerLine_cases d line with ⟨k0, v0, he, hl, hu⟩ | ⟨hne, hl⟩
        · rw [hl] at hd
          by_cases hk : k = k0
          · subst hk; rw [dictGet_set_self] at hd; cases hd
            exact .inl ⟨[], line, t, rfl, he, hn⟩
          · rw [dictGet_set_ne _ _ hk] at hd
            right; refine ⟨?_, hd⟩
            intro l hl' v' he'
            rcases List.mem_cons.1 hl' with rfl | hl'
            · exact hk (hu _ _ he').1
            · exact hn l hl' v' he'
        · rw [hl] at hd
          right; refine ⟨?_, hd⟩
          intro l hl' v' he'
          rcases List.mem_cons.1 hl' with rfl | hl'
          · exact hne _ _ he'
          · exact hn l hl' v' he'
    · rintro (⟨xs, l, ys, e, he, hu⟩ | ⟨hn, hd⟩)
      · cases xs with
        | nil =>
          simp only [List.nil_append, List.cons.injEq] at e
          obtain ⟨rfl, rfl⟩ := e
          right; refine ⟨hu, ?_⟩
          rcases headerLine_cases d line with ⟨k0, v0, he0, hl, hu0⟩ | ⟨hne, hl⟩
          · obtain ⟨rfl, rfl⟩ := hu0 _ _ he
            rw [hl, dictGet_set_self]
          · exact absurd he (hne _ _)
        | cons x xs =>
          simp only [List.cons_append, List.cons.injEq] at e
          exact .inl ⟨xs, l, ys, e.2, he, hu⟩
      · right
        refine ⟨fun l hl => hn l (by simp [hl]), ?_⟩
        rcases headerLine_cases d line with ⟨k0, v0, he0, hl, hu0⟩ | ⟨hne, hl⟩
        · rw [hl, dictGet_set_ne, hd]
          rintro rfl; exact hn line (by simp) _ he0
        · rw [hl, hd]

theorem splitLines_line {l : Bytes} (h : IsLine l) (r : Bytes) : splitLines (l ++ r) = l :: splitLines r := by
  obtain ⟨s, rfl, hs⟩ := h
  induction s with
  | nil => simp [splitLines]
  | cons b t ih =>
    simp only [List.mem_cons, not_or] at hs
    have ih := ih hs.2
    simp only [List.cons_append, splitLines]
    rw [if_neg (fun e => hs.1 e.symm)]
    rw [ih]

theorem splitLines_last {l : Bytes} (h : (10 : UInt8) ∉ l) (hne : l ≠ []) : splitLines l = [l] := by
  induction l with
  | nil => exact absurd rfl hne
  | cons b t ih =>
    simp only [List.mem_cons, not_or] at h
    simp only [splitLines]
    rw [if_neg (fun e => h.1 e.symm)]
    by_cases ht : t = []
    · subst ht; rfl
    · rw [ih h.2 ht]

theorem splitLines_lines {pre : List Bytes} (h : ∀ l ∈ pre, IsLine l) (r : Bytes) :
    splitLines (pre.flatten ++ r) = pre ++ splitLines r := by
  induction pre with
  | nil => rfl
  | cons l t ih =>
    rw [List.flatten_cons, List.append_assoc, splitLines_line (h l (by simp)), ih (fun x hx => h x (by simp [hx]))]
    rfl

/-- the lines of any file: all but the last end in a newline -/
theorem splitLines_shape (f : Bytes) :
    (splitLines f).flatten = f ∧ ∀ l rest, (∃ xs, splitLines f = xs ++ l :: rest) →
      IsLine l ∨ ((10 : UInt8) ∉ l ∧ rest = []) := by
  induction f with
  | nil => refine ⟨rfl, ?_⟩; rintro l rest ⟨xs, e⟩; simp [splitLines] at e
  | cons b t ih =>
    by_cases hb : b = 10
    · subst hb
      have e : splitLines (10 :: t) = [10] :: splitLines t := by simp [splitLines]
      rw [e]
      refine ⟨by rw [List.flatten_cons, ih.1]; rfl, ?_⟩
      rintro l rest ⟨xs, e⟩
      cases xs with
      | nil => simp at e; left; exact ⟨[], by simp [e.1.symm], by simp⟩
      | cons x xs => simp at e; exact ih.2 l rest ⟨xs, e.2⟩
    · cases hs : splitLines t with
      | nil =>
        have e : splitLines (b :: t) = [[b]] := by simp [splitLines, hb, hs]
        rw [e]
        have ht : t = [] := by rw [← ih.1, hs]; rfl
        refine ⟨by simp [ht], ?_⟩
        rintro l rest ⟨xs, e⟩
        cases xs with
        | nil => simp at e; right; exact ⟨by simp [← e.1, Ne.symm hb], e.2⟩
        | cons x xs => simp at e
      | cons l0 ls =>
        have e : splitLines (b :: t) = (b :: l0) :: ls := by simp [splitLines, hb, hs]
        rw [e]
        refine ⟨?_, ?_⟩
        · have := ih.1
          rw [hs] at this
          simpa using this
        · rintro l rest ⟨xs, e⟩
          cases xs with
          | nil =>
            simp at e
            obtain ⟨rfl, rfl⟩ := e
            rcases ih.2 l0 ls ⟨[], by rw [hs]; rfl⟩ with ⟨s, rfl, hn⟩ | ⟨hn, hr⟩
            · exact .inl ⟨b :: s, by simp, by simp [hn, Ne.symm hb]⟩
            · exact .inr ⟨by simp [hn, Ne.symm hb], hr⟩
          | cons x xs =>
            simp at e
            exact ih.2 l rest ⟨l0 :: xs, by rw [hs, e.2]; rfl⟩

theorem headerLoop_run {pre : List Bytes} (h : ∀ l ∈ pre, ¬ endMark <+: l) {endl : Bytes} (he : endMark <+: endl)
    (rest : List Bytes) (i pos : Nat) (d : Dict) (hi : i + pre.length ≤ 256) :
    headerLoop i pos d (pre ++ endl :: rest) = .ok (pre.foldl headerLine d, pos + pre.flatten.length + endl.length) := by
  induction pre generalizing i pos d with
  | nil =>
    simp only [List.nil_append, headerLoop]
    rw [if_pos (List.isPrefixOf_iff_prefix.2 he)]; simp
  | cons l t ih =>
    simp only [List.cons_append, headerLoop]
    simp only [List.length_cons] at hi
    rw [if_neg (fun e => h l (by simp) (List.isPrefixOf_iff_prefix.1 e)), if_neg (by omega),
      ih (fun x hx => h x (by simp [hx])) _ _ _ (by omega)]
    simp; omega

theorem headerLoop_conv {ls : List Bytes} {i pos : Nat} {d d' : Dict} {n : Nat}
    (h : headerLoop i pos d ls = .ok (d', n)) :
    ∃ pre endl rest, ls = pre ++ endl :: rest ∧ (∀ l ∈ pre, ¬ endMark <+: l) ∧ endMark <+: endl ∧
      (i ≤ 256 → i + pre.length ≤ 256) ∧ d' = pre.foldl headerLine d ∧ n = pos + pre.flatten.length + endl.length := by
  induction ls generalizing i pos d with
  | nil => simp [headerLoop] at h
  | cons l t ih =>
    simp only [headerLoop] at h
    split at h
    · rename_i he
      injection h with h; injection h with h1 h2
      exact ⟨[], l, t, rfl, by simp, List.isPrefixOf_iff_prefix.1 he, by simp, by simp [h1], by simp [← h2]⟩
    · rename_i he
      split at h
      · cases h
      · rename_i hi
        obtain ⟨pre, endl, rest, rfl, h1, h2, h3, h4, h5⟩ := ih h
        refine ⟨l :: pre, endl, rest, rfl, ?_, h2, ?_, ?_, ?_⟩
        · intro x hx
          rcases List.mem_cons.1 hx with rfl | hx
          · exact fun e => he (List.isPrefixOf_iff_prefix.2 e)
          · exact h1 x hx
        · intro _; have := h3 (by omega); simp only [List.length_cons]; omega
        · simpa using h4
        · simp only [List.flatten_cons, List.length_append]; omega

theorem endMark_ne : endMark ≠ [] := by decide +kernel

theorem readHeader_run {f : Bytes} {pre : List Bytes} {endl body : Bytes} (h : HeaderSplit f pre endl body)
    (hlen : pre.length ≤ 256) :
    readHeader f = .ok (pre.foldl headerLine [], pre.flatten.length + endl.length) := by
  obtain ⟨rfl, hpre, hend, hl⟩ := h
  unfold readHeader
  rw [splitLines_lines (fun l hl => (hpre l hl).1)]
  obtain ⟨rest, hr⟩ : ∃ rest, splitLines (endl ++ body) = endl :: rest := by
    rcases hl with hl | ⟨hl, rfl⟩
    · exact ⟨_, splitLines_line hl _⟩
    · refine ⟨[], ?_⟩
      rw [List.append_nil, splitLines_last hl]
      rintro rfl
      exact endMark_ne (List.prefix_nil.1 hend)
  rw [hr, headerLoop_run (fun l hl => (hpre l hl).2) hend _ _ _ _ (by omega)]
  simp

/-! ### C13 -/

/-- C13. If a file starts with at most 256 lines followed by a line starting with the end marker, the scan returns the
offset just past that line and, for each key, exactly the value of its last `key: value` line. -/
theorem header_scan {f : Bytes} {pre : List Bytes} {endl body : Bytes} (h : HeaderSplit f pre endl body)
    (hlen : pre.length ≤ 256) :
    ∃ d, readHeader f = .ok (d, (pre.flatten ++ endl).length) ∧
      ∀ k v, dictGet d k = some v ↔
        ∃ xs line ys, pre = xs ++ line :: ys ∧ Entry line k v ∧ ∀ l ∈ ys, ∀ v', ¬ Entry l k v' := by
  refine ⟨_, by rw [List.length_append]; exact readHeader_run h hlen, ?_⟩
  intro k v
  rw [foldl_header]
  simp [dictGet]

/-- C13. Whenever the scan returns, the file has that form: without an end marker within the first 257 lines it raises. -/
theorem header_scan_only {f : Bytes} {d : Dict} {n : Nat} (h : readHeader f = .ok (d, n)) :
    ∃ pre endl body, HeaderSplit f pre endl body ∧ pre.length ≤ 256 ∧ n = (pre.flatten ++ endl).length := by
  unfold readHeader at h
  obtain ⟨pre, endl, rest, e, h1, h2, h3, -, h5⟩ := headerLoop_conv h
  obtain ⟨hf, hs⟩ := splitLines_shape f
  refine ⟨pre, endl, rest.flatten, ⟨?_, ?_, h2, ?_⟩, by have := h3 (by omega); omega, by simp [h5]⟩
  · rw [← hf, e]; simp
  · intro l hl
    refine ⟨?_, h1 l hl⟩
    obtain ⟨xs, ys, rfl⟩ := List.append_of_mem hl
    rcases hs l (ys ++ endl :: rest) ⟨xs, by rw [e]; simp⟩ with h | ⟨-, h⟩
    · exact h
    · simp at h
  · rcases hs endl rest ⟨pre, e⟩ with h | ⟨h, rfl⟩
    · exact .inl h
    · exact .inr ⟨h, rfl⟩

/-- C13. Which error: no end marker at all and at most 256 lines gives the end-of-file exception; otherwise OSError. -/
theorem header_scan_error (f : Bytes) (hno : ∀ pre endl body, ¬ HeaderSplit f pre endl body) :
    readHeader f = .error .exception ∨ readHeader f = .error .os := by
  have key : ∀ ls i pos d, (headerLoop i pos d ls = .error .exception ∨ headerLoop i pos d ls = .error .os) ∨
      ∃ r, headerLoop i pos d ls = .ok r := by
    intro ls
    induction ls with
    | nil => intro i pos d; exact .inl (.inl rfl)
    | cons l t ih =>
      intro i pos d
      simp only [headerLoop]
      split
      · exact .inr ⟨_, rfl⟩
      · split
        · exact .inl (.inr rfl)
        · exact ih _ _ _
  rcases key (splitLines f) 0 0 [] with h | ⟨r, h⟩
  · exact h
  · obtain ⟨pre, endl, body, hs, -⟩ := header_scan_only (f := f) (d := r.1) (n := r.2) h
    exact absurd hs (hno _ _ _)

/-- C13, instance: a three-line header with a repeated key and binary data after it. -/
example : readHeader (asc "A: 1\nx\nB : 2:3 \r\nA:4\n#End of Header\r\n\x01\x02") =
    .ok ([(asc "A", asc "4"), (asc "B", asc "2:3")], 37) := by decide +kernel
example : readHeader (asc "A: 1\nx\nB") = .error .exception := by decide +kernel
example : readHeader (asc (String.join (List.replicate 257 "a\n") ++ "#End of Header\n")) = .error .os := by
  decide +kernel
example : readHeader (asc (String.join (List.replicate 256 "a\n") ++ "#End of Header\n")) = .ok ([], 527) := by
  decide +kernel

end Mass.Ljh
