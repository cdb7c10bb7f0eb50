import Verif.Names.Props
import Mathlib.Data.List.Basic
/-! C09, C10: directories given instead of a file, and what `int` accepts as a channel number. -/
namespace Mass.Names.Paths
open Mass Mass.Names

theorem dropWhile_nil {α : Type} {p : α → Bool} (l : List α) : l.dropWhile p = [] ↔ ∀ c ∈ l, p c = true := by
  induction l with
  | nil => simp
  | cons c t ih =>
    rw [List.dropWhile_cons]
    cases h : p c
    · simp [h]
    · simp [h, ih]

theorem takeWhile_reverse_split (p : Str) : ∃ h, p = h ++ tailPart p ∧ (h = [] ∨ h.getLast? = some '/') ∧ '/' ∉ tailPart p := by
  refine ⟨(p.reverse.dropWhile (· != '/')).reverse, ?_, ?_, ?_⟩
  · unfold tailPart
    rw [← List.reverse_append, List.takeWhile_append_dropWhile, List.reverse_reverse]
  · cases hd : p.reverse.dropWhile (· != '/') with
    | nil => exact .inl rfl
    | cons c t =>
      right
      have := List.head_dropWhile_not (p := fun c => c != '/') (l := p.reverse) (by rw [hd]; simp)
      simp only [hd, List.head_cons] at this
      rw [List.getLast?_reverse, List.head?_cons]
      simp at this
      rw [this]
  · unfold tailPart
    intro h
    rw [List.mem_reverse] at h
    have := mem_takeWhile h
    simp at this

/-- C09. The two parts of a path: the second has no slash; the path is the first, some slashes, and the second; the first does not end in a slash unless it is nothing but slashes (the root); no slashes
stand between them only if the first is empty or the root. -/
theorem split_spec (p : Str) : ∃ k, p = (pathSplit p).1 ++ (List.replicate k '/' ++ (pathSplit p).2) ∧ '/' ∉ (pathSplit p).2 ∧
    ((∀ c ∈ (pathSplit p).1, c = '/') ∨ (pathSplit p).1.getLast? ≠ some '/') ∧ (k = 0 → ∀ c ∈ (pathSplit p).1, c = '/') ∧ ((∀ c ∈ (pathSplit p).1, c = '/') → k = 0) := by
  obtain ⟨h, hp, hlast, hno⟩ := takeWhile_reverse_split p
  have hh : headPart p = h := by
    unfold headPart
    have hl : p.length - (tailPart p).length = h.length := by
      have := congrArg List.length hp
      rw [List.length_append] at this
      omega
    rw [hl]
    conv_lhs => rw [hp]
    simp
  unfold pathSplit
  rw [hh]
  dsimp only
  by_cases ha : h.all (· == '/') = true
  · rw [if_pos ha]
    have hall : ∀ c ∈ h, c = '/' := by simpa using ha
    exact ⟨0, by simpa using hp, hno, .inl hall, fun _ => hall, fun _ => rfl⟩
  · rw [if_neg ha]
    have hsp : h = (h.reverse.dropWhile (· == '/')).reverse ++ (h.reverse.takeWhile (· == '/')).reverse := by
      rw [← List.reverse_append, List.takeWhile_append_dropWhile, List.reverse_reverse]
    have hrep : (h.reverse.takeWhile (· == '/')).reverse = List.replicate (h.reverse.takeWhile (· == '/')).length '/' := by
      rw [List.eq_replicate_iff]
      refine ⟨by simp, fun c hc => ?_⟩
      rw [List.mem_reverse] at hc
      have := mem_takeWhile hc
      simpa using this
    have hne : (h.reverse.dropWhile (· == '/')) ≠ [] := by
      intro e
      apply ha
      rw [List.all_eq_true]
      intro c hc
      exact (dropWhile_nil _).1 e c (List.mem_reverse.2 hc)
    have hl : (h.reverse.dropWhile (· == '/')).reverse.getLast? ≠ some '/' := by
      rw [List.getLast?_reverse]
      have := List.head_dropWhile_not (p := fun c => c == '/') (l := h.reverse) hne
      rw [List.head?_eq_some_head hne]
      simpa using this
    have hnall : ¬ ∀ c ∈ (h.reverse.dropWhile (· == '/')).reverse, c = '/' := by
      intro hc
      apply hl
      rw [List.getLast?_reverse, List.head?_eq_some_head hne]
      rw [hc _ (List.mem_reverse.2 (List.head_mem hne))]
    refine ⟨(h.reverse.takeWhile (· == '/')).length, ?_, hno, .inr hl, fun hk => ?_, fun hc => absurd hc hnall⟩
    · rw [← hrep, ← List.append_assoc, ← hsp]; exact hp
    · exfalso
      rw [hk] at hrep
      rw [hrep] at hsp
      simp only [List.replicate_zero, List.append_nil] at hsp
      rcases hlast with e | e
      · apply ha; rw [e]; rfl
      · rw [hsp] at e; exact hl e

/-- C09. A path that exists as a directory has a basename unless it consists of slashes; only then there is an error, an IndexError. A path that is not a directory always has one. -/
theorem directory_error (isdir : Str → Bool) (p : Str) (e : Exc) : basenameChannum isdir p = .error e ↔ e = .index ∧ isdir p = true ∧ ∀ c ∈ p, c = '/' := by
  unfold basenameChannum
  cases hd : isdir p
  case false => simp
  case true =>
    simp only [if_true]
    have hq : ((p.reverse.dropWhile (· == '/')).reverse = []) ↔ ∀ c ∈ p, c = '/' := by
      rw [List.reverse_eq_nil_iff, dropWhile_nil]
      simp
    unfold stripSlashes
    by_cases h : ∀ c ∈ p, c = '/'
    · simp only [if_pos (hq.2 h)]
      simp only [bind, Except.bind, Except.error.injEq]
      exact ⟨fun x => ⟨x.symm, trivial, h⟩, fun x => x.1.symm⟩
    · simp only [if_neg (fun x => h (hq.1 x))]
      simp only [bind, Except.bind, pure, Except.pure, reduceCtorEq, false_iff]
      exact fun x => h x.2.2

example : basenameChannum (fun _ => true) "/".toList = .error .index ∧ basenameChannum (fun _ => true) "/run/".toList = .ok ("/run/run".toList, none) ∧
    basenameChannum (fun _ => true) "data//run_chan3//".toList = .ok ("data/run_chan3/run".toList, some 3) := by decide +kernel

/-! ### `int` of a text -/

/-- the value of decimal digits [specification] -/
def value (ds : Str) : Nat := ds.foldl (fun a c => 10 * a + (c.toNat - '0'.toNat)) 0

/-- groups of digits with single underscores between them [specification] -/
def Groups (gs : List Str) (t : Str) : Prop := gs ≠ [] ∧ (∀ g ∈ gs, g ≠ [] ∧ ∀ c ∈ g, c.isDigit = true) ∧ t = ['_'].intercalate gs

theorem foldl_digits (a : Nat) (l r : Str) : (l ++ r).foldl (fun a c => 10 * a + (c.toNat - '0'.toNat)) a = r.foldl (fun a c => 10 * a + (c.toNat - '0'.toNat)) (l.foldl (fun a c => 10 * a + (c.toNat - '0'.toNat)) a) :=
  List.foldl_append

theorem underscore_digit : ('_' : Char).isDigit = false := by decide

/-- what is read after a digit (`true`), or at the beginning and after an underscore -/
theorem body_iff (t : Str) : ∀ (a n : Nat), (intBody false a t = some n ↔ ∃ gs, Groups gs t ∧ n = gs.flatten.foldl (fun a c => 10 * a + (c.toNat - '0'.toNat)) a) ∧
    (intBody true a t = some n ↔ ∃ g gs, (∀ c ∈ g, c.isDigit = true) ∧ (∀ x ∈ gs, x ≠ [] ∧ ∀ c ∈ x, c.isDigit = true) ∧ t = ['_'].intercalate (g :: gs) ∧ n = (g :: gs).flatten.foldl (fun a c => 10 * a + (c.toNat - '0'.toNat)) a) := by
  induction t with
  | nil =>
    intro a n
    constructor
    · simp only [intBody, Bool.false_eq_true, if_false, reduceCtorEq, false_iff, not_exists, not_and]
      rintro gs ⟨hne, hg, ht⟩
      cases gs with
      | nil => exact absurd rfl hne
      | cons g gs =>
        have hg0 := (hg g (by simp)).1
        cases gs with
        | nil => simp [List.intercalate] at ht; exact absurd ht.symm (fun h => hg0 h.symm)
        | cons g' gs => rw [List.intercalate_cons_cons] at ht; simp at ht
    · simp only [intBody, if_true, Option.some.injEq]
      constructor
      · rintro rfl
        exact ⟨[], [], by simp, by simp, by simp [List.intercalate], by simp⟩
      · rintro ⟨g, gs, h1, h2, h3, h4⟩
        cases gs with
        | nil =>
          simp [List.intercalate] at h3
          subst h3
          simpa using h4.symm
        | cons g' gs => rw [List.intercalate_cons_cons] at h3; simp at h3
  | cons c t ih =>
    intro a n
    by_cases hc : c.isDigit = true
    · have key : intBody true (10 * a + (c.toNat - '0'.toNat)) t = some n ↔ ∃ g gs, (∀ c ∈ g, c.isDigit = true) ∧ (∀ x ∈ gs, x ≠ [] ∧ ∀ c ∈ x, c.isDigit = true) ∧
          c :: t = ['_'].intercalate ((c :: g) :: gs) ∧ n = ((c :: g) :: gs).flatten.foldl (fun a c => 10 * a + (c.toNat - '0'.toNat)) a := by
        rw [(ih _ n).2]
        have ei : ∀ (g : Str) (gs : List Str), ['_'].intercalate ((c :: g) :: gs) = c :: ['_'].intercalate (g :: gs) := by
          intro g gs
          cases gs with
          | nil => simp [List.intercalate]
          | cons g' gs => rw [List.intercalate_cons_cons, List.intercalate_cons_cons]; simp
        constructor
        · rintro ⟨g, gs, h1, h2, h3, h4⟩
          exact ⟨g, gs, h1, h2, by rw [ei, h3], by rw [h4]; simp⟩
        · rintro ⟨g, gs, h1, h2, h3, h4⟩
          rw [ei] at h3
          exact ⟨g, gs, h1, h2, List.cons.inj h3 |>.2, by rw [h4]; simp⟩
      have shape : ∀ (g : Str) (gs : List Str), (gs ≠ [] → ∀ x ∈ gs, x ≠ []) → c :: t = ['_'].intercalate (g :: gs) → ∃ g', g = c :: g' := by
        intro g gs _ h
        cases g with
        | nil =>
          cases gs with
          | nil => simp [List.intercalate] at h
          | cons x gs =>
            rw [List.intercalate_cons_cons] at h
            simp at h
            rw [h.1] at hc
            exact absurd hc (by rw [underscore_digit]; simp)
        | cons d g' =>
          refine ⟨g', ?_⟩
          cases gs with
          | nil => simp [List.intercalate] at h; rw [h.1]
          | cons x gs =>
            rw [List.intercalate_cons_cons] at h
            simp at h
            rw [h.1]
      constructor
      · rw [intBody, if_pos hc, key]
        constructor
        · rintro ⟨g, gs, h1, h2, h3, h4⟩
          refine ⟨(c :: g) :: gs, ⟨by simp, ?_, h3⟩, h4⟩
          intro x hx
          rcases List.mem_cons.1 hx with rfl | hx
          · refine ⟨by simp, ?_⟩
            intro d hd
            rcases List.mem_cons.1 hd with rfl | hd
            · exact hc
            · exact h1 d hd
          · exact h2 x hx
        · rintro ⟨gs, ⟨hne, hg, ht⟩, hn⟩
          cases gs with
          | nil => exact absurd rfl hne
          | cons g gs =>
            obtain ⟨g', rfl⟩ := shape g gs (fun _ x hx => (hg x (by simp [hx])).1) ht
            exact ⟨g', gs, fun d hd => (hg (c :: g') (by simp)).2 d (by simp [hd]), fun x hx => hg x (by simp [hx]), ht, hn⟩
      · rw [intBody, if_pos hc, key]
        constructor
        · rintro ⟨g, gs, h1, h2, h3, h4⟩
          refine ⟨c :: g, gs, ?_, h2, h3, h4⟩
          intro d hd
          rcases List.mem_cons.1 hd with rfl | hd
          · exact hc
          · exact h1 d hd
        · rintro ⟨g, gs, h1, h2, h3, h4⟩
          obtain ⟨g', rfl⟩ := shape g gs (fun _ x hx => (h2 x hx).1) h3
          exact ⟨g', gs, fun d hd => h1 d (by simp [hd]), h2, h3, h4⟩
    · have first : ∀ (g : Str) (gs : List Str), g ≠ [] → (∀ d ∈ g, d.isDigit = true) → c :: t = ['_'].intercalate (g :: gs) → False := by
        intro g gs hg hd h
        cases g with
        | nil => exact hg rfl
        | cons d g' =>
          have : c = d := by
            cases gs with
            | nil => simp [List.intercalate] at h; exact h.1
            | cons x gs => rw [List.intercalate_cons_cons] at h; simp at h; exact h.1
          exact hc (this ▸ hd d (by simp))
      constructor
      · rw [intBody, if_neg hc, if_neg (by simp)]
        simp only [reduceCtorEq, false_iff, not_exists, not_and]
        rintro gs ⟨hne, hg, ht⟩
        cases gs with
        | nil => exact absurd rfl hne
        | cons g gs => exact absurd ht (fun h => first g gs (hg g (by simp)).1 (hg g (by simp)).2 h)
      · rw [intBody, if_neg hc]
        by_cases hu : c = '_'
        · rw [if_pos ⟨hu, rfl⟩, (ih a n).1]
          subst hu
          constructor
          · rintro ⟨gs, ⟨hne, hg, ht⟩, hn⟩
            cases gs with
            | nil => exact absurd rfl hne
            | cons g gs =>
              refine ⟨[], g :: gs, by simp, hg, ?_, by simpa using hn⟩
              rw [List.intercalate_cons_cons, ht]; rfl
          · rintro ⟨g, gs, h1, h2, h3, h4⟩
            cases g with
            | cons d g' => exact absurd h3 (fun h => first (d :: g') gs (by simp) h1 h)
            | nil =>
              cases gs with
              | nil => simp [List.intercalate] at h3
              | cons g gs =>
                rw [List.intercalate_cons_cons] at h3
                exact ⟨g :: gs, ⟨by simp, h2, by simpa using h3⟩, by simpa using h4⟩
        · rw [if_neg (fun h => hu h.1)]
          simp only [reduceCtorEq, false_iff, not_exists, not_and]
          intro g gs h1 h2 h3 _
          cases g with
          | cons d g' => exact first (d :: g') gs (by simp) h1 h3
          | nil =>
            cases gs with
            | nil => simp [List.intercalate] at h3
            | cons g gs => rw [List.intercalate_cons_cons] at h3; simp at h3; exact hu h3.1

theorem body_head {t : Str} {a n : Nat} (h : intBody false a t = some n) : ∃ c r, t = c :: r ∧ c.isDigit = true := by
  cases t with
  | nil => simp [intBody] at h
  | cons c r =>
    refine ⟨c, r, rfl, ?_⟩
    by_contra hc
    rw [intBody, if_neg hc, if_neg (by simp)] at h
    cases h

theorem body_last {t : Str} : ∀ {p : Bool} {a n : Nat}, intBody p a t = some n → t = [] ∨ ∃ c, t.getLast? = some c ∧ c.isDigit = true := by
  induction t with
  | nil => intros; exact .inl rfl
  | cons c r ih =>
    intro p a n h
    right
    have fin : ∀ q b, intBody q b r = some n → (r = [] → c.isDigit = true) → ∃ d, (c :: r).getLast? = some d ∧ d.isDigit = true := by
      intro q b hb hr
      rcases ih hb with e | ⟨d, e, hd⟩
      · subst e; exact ⟨c, rfl, hr rfl⟩
      · exact ⟨d, by rw [List.getLast?_cons, e]; rfl, hd⟩
    rw [intBody] at h
    split at h
    · rename_i hc; exact fin _ _ h (fun _ => hc)
    · split at h
      · refine fin _ _ h (fun e => ?_)
        subst e
        simp [intBody] at h
      · cases h

theorem digit_not_space {c : Char} (h : c.isDigit = true) : isSpace c = false := (isDigit_cases h).1

theorem strip_eq (pre m post : Str) (h1 : ∀ c ∈ pre, isSpace c = true) (h2 : ∀ c ∈ post, isSpace c = true) (a : Char) (r : Str) (hm : m = a :: r) (ha : isSpace a = false)
    (b : Char) (hb : m.getLast? = some b) (hbs : isSpace b = false) : (((pre ++ m ++ post).dropWhile isSpace).reverse.dropWhile isSpace).reverse = m := by
  rw [List.append_assoc, List.dropWhile_append_of_pos h1]
  have e1 : (m ++ post).dropWhile isSpace = m ++ post := by rw [hm, List.cons_append, List.dropWhile_cons, ha]; rfl
  rw [e1, List.reverse_append, List.dropWhile_append_of_pos (fun c hc => h2 c (List.mem_reverse.1 hc))]
  have e2 : m.reverse.dropWhile isSpace = m.reverse := by
    cases hr : m.reverse with
    | nil => rfl
    | cons x y =>
      have : x = b := by
        rw [← List.head?_reverse, hr] at hb
        simpa using hb
      rw [List.dropWhile_cons, this, hbs]; rfl
  rw [e2, List.reverse_reverse]

theorem strip_split (s : Str) : ∃ pre post, s = pre ++ ((s.dropWhile isSpace).reverse.dropWhile isSpace).reverse ++ post ∧ (∀ c ∈ pre, isSpace c = true) ∧ ∀ c ∈ post, isSpace c = true := by
  refine ⟨s.takeWhile isSpace, ((s.dropWhile isSpace).reverse.takeWhile isSpace).reverse, ?_, fun c hc => mem_takeWhile hc, fun c hc => mem_takeWhile (List.mem_reverse.1 hc)⟩
  rw [List.append_assoc, ← List.reverse_append, List.takeWhile_append_dropWhile, List.reverse_reverse, List.takeWhile_append_dropWhile]

/-- C10. What is accepted as a channel number: blanks at both ends, perhaps a sign, and groups of digits with single underscores between them, which are read together; everything else is a ValueError. -/
theorem int_iff (s : Str) : (∀ v : Int, pyInt s = .ok v ↔ ∃ gs t, Groups gs t ∧ ∃ pre post sign, s = pre ++ (sign ++ t) ++ post ∧ (∀ c ∈ pre, isSpace c = true) ∧ (∀ c ∈ post, isSpace c = true) ∧
      ((sign = ['-'] ∧ v = -(value gs.flatten : Int)) ∨ ((sign = ['+'] ∨ sign = []) ∧ v = value gs.flatten))) ∧ ∀ e, pyInt s = .error e → e = .value := by
  constructor
  · intro v
    constructor
    · intro h
      obtain ⟨pre, post, hs, h1, h2⟩ := strip_split s
      unfold pyInt at h
      dsimp only at h
      generalize ((s.dropWhile isSpace).reverse.dropWhile isSpace).reverse = m at hs h
      split at h
      · rename_i n hn
        cases h
        split at hn
        · rename_i t
          cases hb : intBody false 0 t with
          | none => rw [hb] at hn; cases hn
          | some k =>
            rw [hb] at hn; cases hn
            obtain ⟨gs, hg, hv⟩ := ((body_iff t 0 k).1).1 hb
            exact ⟨gs, t, hg, pre, post, ['-'], hs, h1, h2, .inl ⟨rfl, by rw [hv]; rfl⟩⟩
        · rename_i t
          cases hb : intBody false 0 t with
          | none => rw [hb] at hn; cases hn
          | some k =>
            rw [hb] at hn; cases hn
            obtain ⟨gs, hg, hv⟩ := ((body_iff t 0 k).1).1 hb
            exact ⟨gs, t, hg, pre, post, ['+'], hs, h1, h2, .inr ⟨.inl rfl, by rw [hv]; rfl⟩⟩
        · rename_i t _ _
          cases hb : intBody false 0 m with
          | none => rw [hb] at hn; cases hn
          | some k =>
            rw [hb] at hn; cases hn
            obtain ⟨gs, hg, hv⟩ := ((body_iff m 0 k).1).1 hb
            exact ⟨gs, m, hg, pre, post, [], hs, h1, h2, .inr ⟨.inr rfl, by rw [hv]; rfl⟩⟩
      · cases h
    · rintro ⟨gs, t, hg, pre, post, sign, hs, h1, h2, hv⟩
      have hb := ((body_iff t 0 (value gs.flatten)).1).2 ⟨gs, hg, rfl⟩
      obtain ⟨c, r, ht, hc⟩ := body_head hb
      obtain ⟨d, hd, hdd⟩ : ∃ d, t.getLast? = some d ∧ d.isDigit = true := by
        rcases body_last hb with e | h
        · rw [ht] at e; cases e
        · exact h
      have hlast : ∀ x : Str, (x ++ t).getLast? = some d := by
        intro x; rw [List.getLast?_append, hd]; rfl
      rcases hv with ⟨rfl, hv⟩ | ⟨rfl | rfl, hv⟩
      · unfold pyInt
        rw [hs, strip_eq pre (['-'] ++ t) post h1 h2 '-' t rfl (by decide) d (hlast _) (digit_not_space hdd)]
        simp only [List.cons_append, List.nil_append, hb, Option.map_some, hv]
        rfl
      · unfold pyInt
        rw [hs, strip_eq pre (['+'] ++ t) post h1 h2 '+' t rfl (by decide) d (hlast _) (digit_not_space hdd)]
        simp only [List.cons_append, List.nil_append, hb, Option.map_some, hv]
        rfl
      · unfold pyInt
        rw [hs, strip_eq pre ([] ++ t) post h1 h2 c r (by simpa using ht) (digit_not_space hc) d (hlast _) (digit_not_space hdd)]
        obtain ⟨-, n1, n2, -⟩ := isDigit_cases hc
        simp only [List.nil_append]
        split
        · rename_i n hn
          split at hn
          · injection ht with e _; exact absurd e.symm n1
          · injection ht with e _; exact absurd e.symm n2
          · rw [hb] at hn; cases hn; rw [hv]
        · rename_i hn
          split at hn
          · injection ht with e _; exact absurd e.symm n1
          · injection ht with e _; exact absurd e.symm n2
          · rw [hb] at hn; cases hn
  · intro e h
    unfold pyInt at h
    dsimp only at h
    split at h
    · cases h
    · injection h with h; exact h.symm

/-- accepted: signs, blanks, underscores between digits; not accepted: nothing, two underscores, an underscore at an end -/
example : pyInt " -1_0 ".toList = .ok (-10) ∧ pyInt "007".toList = .ok 7 ∧ pyInt "".toList = .error .value ∧ pyInt "1__0".toList = .error .value ∧ pyInt "1_".toList = .error .value ∧
    pyInt "_1".toList = .error .value ∧ pyInt "- 1".toList = .error .value := by decide +kernel

end Mass.Names.Paths
