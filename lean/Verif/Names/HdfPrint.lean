import Verif.Py

/-!
# What `hdf5print` shows of a file

`bin/hdf5print` prints the contents of HDF5 files: each group, data set and attribute, but not
more than one `chan…` group on each level.  An HDF5 file is a tree of nodes with keys; what is
printed is a list of lines.
-/

namespace Mass.Names.HdfPrint

open Mass

/-- What `h5py` gives for one key of a group (bin/hdf5print L44: `node.items()`).  `len` of a data
set is its first dimension, none if it is scalar; shape, type and attribute values are the texts
Python formats them as.  `link` is a soft link leading nowhere, for which `items()` gives `None`. -/
inductive Node where
  | link (key : List Char)
  | data (key : List Char) (len : Option Nat) (shape dtype : List Char)
      (attrs : List (List Char × List Char))
  | group (key : List Char) (attrs : List (List Char × List Char)) (kids : List Node)

/-- The key of a node, the last part of its name (bin/hdf5print L25, L44). -/
def Node.key : Node → List Char
  | .link k => k
  | .data k _ _ _ _ => k
  | .group k _ _ => k

/-- One printed line (bin/hdf5print L21, L31, L33, L35, L39). -/
inductive Line where
  | dash (depth : Nat)
  | data (depth : Nat) (key shape dtype : List Char)
  | file (name : List Char)
  | item (depth : Nat) (key : List Char)
  | attr (depth : Nat) (key value : List Char)
  deriving DecidableEq

/-- What precedes the name of an object (bin/hdf5print L26-29). -/
def before : Nat → List Char
  | 0 => []
  | n + 1 => (List.replicate n ['|', '\t']).flatten ++ ['+', ' ', '-', ' ', '-', ' ', '-']

/-- The text of a line (bin/hdf5print L21, L25-39). -/
def Line.text : Line → List Char
  | .dash d => List.replicate d '\t' ++ [' ', '-']
  | .data d k s t => before d ++ [' ', '/'] ++ k ++ " (shape=".toList ++ s ++ " dtype=".toList ++ t
      ++ [')']
  | .file n => "HDF5 file \"".toList ++ n ++ ['"']
  | .item d k => before d ++ [' ', '/'] ++ k
  | .attr d k v => (List.replicate d ['|', '\t']).flatten ++ ['|', '-', '{'] ++ k ++ ['='] ++ v
      ++ ['}']

/-- What has been printed, and the exception if there was one. -/
abbrev Out := List Line × Option Exc

/-- One statement after another: nothing happens after an exception (Python's rule, used for
bin/hdf5print L19-50). -/
def andThen (a b : Out) : Out :=
  match a.2 with
  | some e => (a.1, some e)
  | none => (a.1 ++ b.1, b.2)

/-- `key.startswith('chan')` (bin/hdf5print L45). -/
def isChan (n : Node) : Bool := ['c', 'h', 'a', 'n'].isPrefixOf n.key

/-- Print the attributes (bin/hdf5print L37-39).  `has` says whether the attributes of the
installed `h5py` have a method `iteritems`, as they had under Python 2 only. -/
def attrsOut (has : Bool) (depth : Nat) (attrs : List (List Char × List Char)) : Out :=
  if has then (attrs.map fun a => .attr depth a.1 a.2, none) else ([], some .attribute)

mutual
/-- `printHDF5(node, depth, maxchan)` for what is not a file (bin/hdf5print L19-50). -/
def put (has : Bool) (depth maxchan : Nat) : Node → Out
  | .link _ => ([.dash depth], none)
  | .data k len sh dt at' =>
    match len with
    | none => ([], some .type)
    | some 0 => ([.dash depth], none)
    | some (_ + 1) => andThen ([.data depth k sh dt], none) (attrsOut has depth at')
  | .group k at' kids =>
    if kids.isEmpty then ([.dash depth], none) else
      andThen ([.item depth k], none)
        (andThen (attrsOut has depth at') (putKids has depth maxchan 0 kids))

/-- The loop over the children (bin/hdf5print L41-50).  The depth is one more; `maxchan` is not
passed on, so it is 1 below. -/
def putKids (has : Bool) (depth maxchan seen : Nat) : List Node → Out
  | [] => ([], none)
  | n :: t =>
    if isChan n then
      if seen + 1 > maxchan then putKids has depth maxchan (seen + 1) t
      else andThen (put has (depth + 1) 1 n) (putKids has depth maxchan (seen + 1) t)
    else andThen (put has (depth + 1) 1 n) (putKids has depth maxchan seen t)
end

/-- An HDF5 file: its name, and the root group. -/
structure File where
  name : List Char
  attrs : List (List Char × List Char)
  kids : List Node

/-- `printHDF5(f)` of an open file (bin/hdf5print L19-50 with `depth=0`). -/
def putFile (has : Bool) (maxchan : Nat) (f : File) : Out :=
  if f.kids.isEmpty then ([.dash 0], none) else
    andThen ([.file f.name], none)
      (andThen (attrsOut has 0 f.attrs) (putKids has 0 maxchan 0 f.kids))

/-- `printHDF5("filename.hdf5")`, as the usage says (bin/hdf5print L6-8, L20-25): a text has a
length but no `name`. -/
def putText (s : List Char) : Out := if s.isEmpty then ([.dash 0], none) else ([], some .attribute)

/-- The command with file names (bin/hdf5print L53-57); `disk` opens a file, none if that is not
possible. -/
def main (has : Bool) (disk : List Char → Option File) : List (List Char) → Out
  | [] => ([], none)
  | n :: t =>
    match disk n with
    | none => ([], some .os)
    | some f => andThen (putFile has 1 f) (main has disk t)

/-- [specification] The child `c` is one of the `kids` to be shown, when `seen` channels have been
seen before and `m` may be shown: it is no channel, or fewer than `m` were seen before it. -/
def Kept (m seen : Nat) (kids : List Node) (c : Node) : Prop :=
  ∃ pre post, kids = pre ++ c :: post ∧
    (isChan c = true → seen + (pre.filter isChan).length < m)

/-- [specification] The object `x` at depth `d'` is to be shown when `n` is printed at depth `d`. -/
inductive Shown : Nat → Nat → Node → Nat → Node → Prop
  | self (m d n) : Shown m d n d n
  | kid (m d k at' kids c d' x) : Kept m 0 kids c → Shown 1 (d + 1) c d' x →
      Shown m d (.group k at' kids) d' x

/-- [specification] The lines belonging to one object. -/
def own (d : Nat) : Node → List Line
  | .link _ => [.dash d]
  | .data _ none _ _ _ => []
  | .data k (some n) sh dt at' =>
    if n = 0 then [.dash d] else .data d k sh dt :: at'.map fun a => .attr d a.1 a.2
  | .group k at' kids =>
    if kids = [] then [.dash d] else .item d k :: at'.map fun a => .attr d a.1 a.2

/-- [specification] A data set without dimensions. -/
def Scalar : Node → Prop
  | .data _ none _ _ _ => True
  | _ => False

theorem andThen_none (a b : Out) : (andThen a b).2 = none ↔ a.2 = none ∧ b.2 = none := by
  unfold andThen
  cases a.2 <;> simp

theorem andThen_mem {a b : Out} (h : (andThen a b).2 = none) (l : Line) :
    l ∈ (andThen a b).1 ↔ l ∈ a.1 ∨ l ∈ b.1 := by
  have h' := (andThen_none a b).1 h
  unfold andThen
  rw [h'.1]; simp

theorem kept_nil (m seen : Nat) (c : Node) : ¬ Kept m seen [] c := by
  rintro ⟨pre, post, h, _⟩
  simp at h

theorem kept_cons (m seen : Nat) (n : Node) (t : List Node) (c : Node) :
    Kept m seen (n :: t) c ↔
      (c = n ∧ (isChan n = true → seen < m)) ∨ Kept m (seen + if isChan n then 1 else 0) t c := by
  constructor
  · rintro ⟨pre, post, h, hc⟩
    cases pre with
    | nil =>
      simp only [List.nil_append, List.cons.injEq] at h
      left
      refine ⟨h.1.symm, fun hn => ?_⟩
      simpa using hc (h.1 ▸ hn)
    | cons p pre =>
      simp only [List.cons_append, List.cons.injEq] at h
      right
      refine ⟨pre, post, h.2, fun hn => ?_⟩
      have := hc hn
      rw [← h.1] at this
      by_cases hn' : isChan n = true
      · simp [List.filter, hn'] at this ⊢; omega
      · simp [List.filter, hn'] at this ⊢; omega
  · rintro (⟨rfl, h⟩ | ⟨pre, post, h, hc⟩)
    · exact ⟨[], t, rfl, by simpa using h⟩
    · refine ⟨n :: pre, post, by rw [h]; rfl, fun hn => ?_⟩
      have := hc hn
      by_cases hn' : isChan n = true
      · simp [List.filter, hn'] at this ⊢; omega
      · simp [List.filter, hn'] at this ⊢; omega

/-- The loop raises nothing exactly if none of the children to be shown raises. -/
theorem putKids_none (has : Bool) (d m : Nat) (kids : List Node) : ∀ seen,
    ((putKids has d m seen kids).2 = none ↔
      ∀ c, Kept m seen kids c → (put has (d + 1) 1 c).2 = none) := by
  induction kids with
  | nil => intro seen; simp [putKids, kept_nil]
  | cons n t ih =>
    intro seen
    unfold putKids
    by_cases hn : isChan n = true
    · by_cases hs : seen + 1 > m
      · have hs' : ¬ seen < m := by omega
        simp only [hn, hs, if_true, ih, kept_cons, hs']
        simp
      · have hs' : seen < m := by omega
        simp only [hn, hs, if_true, if_false, andThen_none, ih, kept_cons, hs']
        constructor
        · rintro ⟨h1, h2⟩ c (⟨rfl, _⟩ | h)
          · exact h1
          · exact h2 c h
        · intro h
          exact ⟨h n (Or.inl ⟨rfl, by simp⟩), fun c hc => h c (Or.inr hc)⟩
    · simp only [hn, Bool.false_eq_true, if_false, Nat.add_zero, andThen_none, ih, kept_cons]
      constructor
      · rintro ⟨h1, h2⟩ c (⟨rfl, _⟩ | h)
        · exact h1
        · exact h2 c h
      · intro h
        exact ⟨h n (Or.inl ⟨rfl, by simp⟩), fun c hc => h c (Or.inr hc)⟩

/-- The lines of the loop are the lines of the children to be shown. -/
theorem putKids_mem (has : Bool) (d m : Nat) (l : Line) (kids : List Node) : ∀ seen,
    (putKids has d m seen kids).2 = none →
      (l ∈ (putKids has d m seen kids).1 ↔
        ∃ c, Kept m seen kids c ∧ l ∈ (put has (d + 1) 1 c).1) := by
  induction kids with
  | nil => intro seen _; simp [putKids, kept_nil]
  | cons n t ih =>
    intro seen
    unfold putKids
    by_cases hn : isChan n = true
    · by_cases hs : seen + 1 > m
      · have hs' : ¬ seen < m := by omega
        simp only [hn, hs, if_true, kept_cons, hs']
        intro h
        rw [ih _ h]
        simp
      · have hs' : seen < m := by omega
        simp only [hn, hs, if_true, if_false, kept_cons, hs']
        intro h
        have h2 := (andThen_none _ _).1 h
        rw [andThen_mem h, ih _ h2.2]
        constructor
        · rintro (h | ⟨c, hc, hl⟩)
          · exact ⟨n, Or.inl ⟨rfl, by simp⟩, h⟩
          · exact ⟨c, Or.inr hc, hl⟩
        · rintro ⟨c, (⟨rfl, _⟩ | hc), hl⟩
          · exact Or.inl hl
          · exact Or.inr ⟨c, hc, hl⟩
    · simp only [hn, Bool.false_eq_true, if_false, Nat.add_zero, kept_cons]
      intro h
      have h2 := (andThen_none _ _).1 h
      rw [andThen_mem h, ih _ h2.2]
      constructor
      · rintro (h | ⟨c, hc, hl⟩)
        · exact ⟨n, Or.inl ⟨rfl, by simp⟩, h⟩
        · exact ⟨c, Or.inr hc, hl⟩
      · rintro ⟨c, (⟨rfl, _⟩ | hc), hl⟩
        · exact Or.inl hl
        · exact Or.inr ⟨c, hc, hl⟩

theorem kept_mem {m seen : Nat} {kids : List Node} {c : Node} (h : Kept m seen kids c) :
    c ∈ kids := by
  obtain ⟨pre, post, h, _⟩ := h
  simp [h]

/-- With attributes that can be listed, printing an object raises nothing exactly if no scalar
data set is among the objects to be shown. -/
theorem put_none (d m : Nat) (n : Node) :
    (put true d m n).2 = none ↔ ∀ d' x, Shown m d n d' x → ¬ Scalar x := by
  match n with
  | .link k =>
    simp only [put, true_iff]
    rintro d' x ⟨⟩
    simp [Scalar]
  | .data k len sh dt at' =>
    constructor
    · rintro h d' x ⟨⟩ hs
      cases len with
      | none => simp [put] at h
      | some v => simp [Scalar] at hs
    · intro h
      have := h d _ (Shown.self m d _)
      match len with
      | none => exact absurd trivial this
      | some 0 => simp [put]
      | some (v + 1) => simp [put, andThen, attrsOut]
  | .group k at' kids =>
    have ih : ∀ c ∈ kids, ((put true (d + 1) 1 c).2 = none ↔
        ∀ d' x, Shown 1 (d + 1) c d' x → ¬ Scalar x) := fun c hc => put_none (d + 1) 1 c
    have key : (put true d m (.group k at' kids)).2 = none ↔
        ∀ c, Kept m 0 kids c → (put true (d + 1) 1 c).2 = none := by
      cases kids with
      | nil => simp [put, kept_nil]
      | cons a t =>
        rw [← putKids_none true d m (a :: t) 0]
        unfold put
        simp [andThen_none, attrsOut]
    rw [key]
    constructor
    · intro h d' x hs
      cases hs with
      | self => simp [Scalar]
      | kid _ _ _ _ _ c _ _ hk hs =>
        exact (ih c (kept_mem hk)).1 (h c hk) d' x hs
    · intro h c hk
      exact (ih c (kept_mem hk)).2 fun d' x hs => h d' x (Shown.kid m d k at' kids c d' x hk hs)
  termination_by sizeOf n
  decreasing_by
    have := List.sizeOf_lt_of_mem hc
    simp; omega

/-- With attributes that can be listed, what is printed of an object is exactly the lines of the
objects to be shown. -/
theorem put_mem (d m : Nat) (l : Line) (n : Node) (h : (put true d m n).2 = none) :
    l ∈ (put true d m n).1 ↔ ∃ d' x, Shown m d n d' x ∧ l ∈ own d' x := by
  match n with
  | .link k =>
    constructor
    · intro hl
      exact ⟨d, _, Shown.self m d _, by simpa [put, own] using hl⟩
    · rintro ⟨d', x, ⟨⟩, hl⟩
      simpa [put, own] using hl
  | .data k len sh dt at' =>
    have key : l ∈ (put true d m (.data k len sh dt at')).1 ↔ l ∈ own d (.data k len sh dt at') := by
      match len with
      | none => simp [put] at h
      | some 0 => simp [put, own]
      | some (v + 1) => simp [put, andThen, attrsOut, own]
    rw [key]
    constructor
    · intro hl
      exact ⟨d, _, Shown.self m d _, hl⟩
    · rintro ⟨d', x, ⟨⟩, hl⟩
      exact hl
  | .group k at' kids =>
    have ih : ∀ c ∈ kids, (put true (d + 1) 1 c).2 = none → (l ∈ (put true (d + 1) 1 c).1 ↔
        ∃ d' x, Shown 1 (d + 1) c d' x ∧ l ∈ own d' x) :=
      fun c hc hn => put_mem (d + 1) 1 l c hn
    have key : l ∈ (put true d m (.group k at' kids)).1 ↔
        l ∈ own d (.group k at' kids) ∨
          ∃ c, Kept m 0 kids c ∧ l ∈ (put true (d + 1) 1 c).1 := by
      cases kids with
      | nil => simp [put, own, kept_nil]
      | cons a t =>
        have hk : (putKids true d m 0 (a :: t)).2 = none := by
          unfold put at h
          simpa [andThen_none, attrsOut] using h
        rw [← putKids_mem true d m l (a :: t) 0 hk]
        unfold put at h ⊢
        simp only [List.isEmpty_cons, Bool.false_eq_true, if_false] at h ⊢
        rw [andThen_mem h, andThen_mem ((andThen_none _ _).1 h).2]
        simp [attrsOut, own, or_assoc]
    have hall : ∀ c, Kept m 0 kids c → (put true (d + 1) 1 c).2 = none := by
      intro c hk
      rw [put_none] at h ⊢
      exact fun d' x hs => h d' x (Shown.kid m d k at' kids c d' x hk hs)
    rw [key]
    constructor
    · rintro (hl | ⟨c, hk, hl⟩)
      · exact ⟨d, _, Shown.self m d _, hl⟩
      · obtain ⟨d', x, hs, hl⟩ := (ih c (kept_mem hk) (hall c hk)).1 hl
        exact ⟨d', x, Shown.kid m d k at' kids c d' x hk hs, hl⟩
    · rintro ⟨d', x, hs, hl⟩
      cases hs with
      | self => exact Or.inl hl
      | kid _ _ _ _ _ c _ _ hk hs =>
        exact Or.inr ⟨c, hk, (ih c (kept_mem hk) (hall c hk)).2 ⟨d', x, hs, hl⟩⟩
  termination_by sizeOf n
  decreasing_by
    have := List.sizeOf_lt_of_mem hc
    simp; omega

/-- [specification] The objects shown of a file: the children to be shown, and what is shown of
each. -/
def ShownFile (m : Nat) (f : File) (d : Nat) (x : Node) : Prop :=
  ∃ c, Kept m 0 f.kids c ∧ Shown 1 1 c d x

/-- With attributes that can be listed: if no scalar data set is to be shown, the lines printed of
a file that is not empty are its name, its attributes, and the lines of the objects to be shown. -/
theorem file_lines_partial (m : Nat) (f : File) (hne : f.kids ≠ [])
    (hs : ∀ d x, ShownFile m f d x → ¬ Scalar x) (l : Line) :
    (putFile true m f).2 = none ∧
      (l ∈ (putFile true m f).1 ↔ l = .file f.name ∨ (∃ a ∈ f.attrs, l = .attr 0 a.1 a.2) ∨
        ∃ d x, ShownFile m f d x ∧ l ∈ own d x) := by
  have hall : ∀ c, Kept m 0 f.kids c → (put true 1 1 c).2 = none := fun c hk =>
    (put_none 1 1 c).2 fun d x h => hs d x ⟨c, hk, h⟩
  have hk : (putKids true 0 m 0 f.kids).2 = none := (putKids_none true 0 m f.kids 0).2 hall
  have he : f.kids.isEmpty = false := by simpa using hne
  have h0 : (putFile true m f).2 = none := by
    simp [putFile, he, andThen_none, attrsOut, hk]
  refine ⟨h0, ?_⟩
  unfold putFile at h0 ⊢
  simp only [he, Bool.false_eq_true, if_false] at h0 ⊢
  rw [andThen_mem h0, andThen_mem ((andThen_none _ _).1 h0).2, putKids_mem true 0 m l f.kids 0 hk]
  have e : (∃ c, Kept m 0 f.kids c ∧ l ∈ (put true (0 + 1) 1 c).1) ↔
      ∃ d x, ShownFile m f d x ∧ l ∈ own d x := by
    constructor
    · rintro ⟨c, hc, hl⟩
      obtain ⟨d, x, h, hl⟩ := (put_mem 1 1 l c (hall c hc)).1 hl
      exact ⟨d, x, ⟨c, hc, h⟩, hl⟩
    · rintro ⟨d, x, ⟨c, hc, h⟩, hl⟩
      exact ⟨c, hc, (put_mem 1 1 l c (hall c hc)).2 ⟨d, x, h, hl⟩⟩
  rw [e]
  simp [attrsOut, eq_comm]

/-- Every child that is no channel is to be shown, and so is the first channel. -/
theorem kept_iff (m : Nat) (kids : List Node) (c : Node) :
    (isChan c = false → c ∈ kids → Kept m 0 kids c) ∧
      (0 < m → ∀ pre post, kids = pre ++ c :: post → (∀ p ∈ pre, isChan p = false) →
        Kept m 0 kids c) := by
  constructor
  · intro hc hm
    obtain ⟨pre, post, h⟩ := List.append_of_mem hm
    exact ⟨pre, post, h, by simp [hc]⟩
  · intro hm pre post h hp
    refine ⟨pre, post, h, fun _ => ?_⟩
    have : pre.filter isChan = [] := by
      rw [List.filter_eq_nil_iff]
      intro p hq
      simp [hp p hq]
    rw [this]; simpa using hm

/-- Disagreement (C196): under Python 3 the attributes of `h5py` have no `iteritems`: of any file
that is not empty only its name is printed, and an `AttributeError` ends the command before any
group, data set or attribute, and before any further file. -/
theorem contents_fails (disk : List Char → Option File) (n : List Char) (t : List (List Char))
    (f : File) (hf : disk n = some f) (hne : f.kids ≠ []) :
    main false disk (n :: t) = ([.file f.name], some .attribute) := by
  have he : f.kids.isEmpty = false := by simpa using hne
  simp [main, hf, putFile, he, andThen, attrsOut]

/-- Disagreement (C196): the usage `printHDF5("filename.hdf5")` given in the file does not work: it
prints nothing and raises an `AttributeError` for any file name. -/
theorem usage_fails (s : List Char) (h : s ≠ []) : putText s = ([], some .attribute) := by
  have he : s.isEmpty = false := by simpa using h
  simp [putText, he]

/-- Disagreement (C196): even where attributes can be listed, a scalar data set ends the command
with a `TypeError`, without any line for it. -/
theorem scalar_fails (m : Nat) (f : File) (c : Node) (hk : Kept m 0 f.kids c) (hs : Scalar c) :
    (putFile true m f).2 ≠ none := by
  intro h
  have hne : f.kids.isEmpty = false := by
    cases hf : f.kids with
    | nil => rw [hf] at hk; exact absurd hk (kept_nil _ _ _)
    | cons => rfl
  have h' : (putKids true 0 m 0 f.kids).2 = none := by
    simpa [putFile, hne, andThen_none, attrsOut] using h
  have := (putKids_none true 0 m f.kids 0).1 h' c hk
  exact (put_none 1 1 c).1 this 1 c (Shown.self 1 1 c) hs

/-- Disagreement (C196): an empty group or data set is shown by a dash only, without its name and
attributes; two that differ in both look the same. -/
theorem empty_fails (has : Bool) (d m : Nat) (k : List Char) (at' : List (List Char × List Char))
    (sh dt : List Char) :
    put has d m (.group k at' []) = ([.dash d], none) ∧
      put has d m (.data k (some 0) sh dt at') = ([.dash d], none) := by
  simp [put]

theorem putKids_free (has : Bool) (d m m' : Nat) (kids : List Node)
    (h : ∀ c ∈ kids, isChan c = false) : ∀ seen seen',
    putKids has d m seen kids = putKids has d m' seen' kids := by
  induction kids with
  | nil => intro _ _; simp [putKids]
  | cons n t ih =>
    intro seen seen'
    have hn : isChan n = false := h n (by simp)
    simp only [putKids, hn, Bool.false_eq_true, if_false]
    rw [ih (fun c hc => h c (by simp [hc])) seen seen']

/-- Disagreement (C196): `maxchan` holds for the first level only: where the channels are inside a
group of the file, what is printed does not depend on `maxchan`. -/
theorem maxchan_fails (has : Bool) (m m' : Nat) (f : File) (h : ∀ c ∈ f.kids, isChan c = false) :
    putFile has m f = putFile has m' f := by
  unfold putFile
  rw [putKids_free has 0 m m' f.kids h 0 0]

/-- [specification] The children to be shown, in order: after `m` channels no further ones. -/
def chosen (m : Nat) : List Node → List Node
  | [] => []
  | n :: t => if isChan n then (if 0 < m then n :: chosen (m - 1) t else chosen 0 t)
      else n :: chosen m t

/-- The children chosen are a part of all, in the same order, with all that are no channels and the
first `m` channels. -/
theorem chosen_spec (m : Nat) (kids : List Node) :
    (chosen m kids).Sublist kids ∧
      (chosen m kids).filter (fun c => !isChan c) = kids.filter (fun c => !isChan c) ∧
      (chosen m kids).filter isChan = (kids.filter isChan).take m := by
  induction kids generalizing m with
  | nil => simp [chosen]
  | cons n t ih =>
    unfold chosen
    by_cases hn : isChan n = true
    · cases m with
      | zero =>
        have := ih 0
        simp only [hn, if_true, Nat.lt_irrefl, if_false]
        refine ⟨this.1.cons _, ?_, ?_⟩
        · rw [this.2.1]; simp [List.filter, hn]
        · rw [this.2.2]; simp
      | succ m =>
        have := ih m
        simp only [hn, if_true, Nat.zero_lt_succ, Nat.add_sub_cancel]
        refine ⟨this.1.cons_cons _, ?_, ?_⟩
        · simpa [List.filter, hn] using this.2.1
        · simpa [List.filter, hn] using this.2.2
    · have := ih m
      simp only [hn, Bool.false_eq_true, if_false]
      refine ⟨this.1.cons_cons _, ?_, ?_⟩
      · simpa [List.filter, hn] using this.2.1
      · simpa [List.filter, hn] using this.2.2

theorem putKids_order (has : Bool) (d m : Nat) (kids : List Node) : ∀ seen,
    (putKids has d m seen kids).2 = none →
      (putKids has d m seen kids).1 =
        (chosen (m - seen) kids).flatMap fun c => (put has (d + 1) 1 c).1 := by
  induction kids with
  | nil => intro seen _; simp [putKids, chosen]
  | cons n t ih =>
    intro seen
    unfold putKids chosen
    by_cases hn : isChan n = true
    · by_cases hs : seen + 1 > m
      · have h0 : m - seen = 0 := by omega
        have h1 : m - (seen + 1) = 0 := by omega
        simp only [hn, hs, if_true, h0, Nat.lt_irrefl, if_false]
        intro h
        rw [ih _ h, h1]
      · have h0 : 0 < m - seen := by omega
        have h1 : m - seen - 1 = m - (seen + 1) := by omega
        simp only [hn, hs, if_true, if_false, h0, h1]
        intro h
        have h2 := (andThen_none _ _).1 h
        unfold andThen
        rw [h2.1]
        simp [ih _ h2.2]
    · simp only [hn, Bool.false_eq_true, if_false]
      intro h
      have h2 := (andThen_none _ _).1 h
      unfold andThen
      rw [h2.1]
      simp [ih _ h2.2]

/-- What is printed of a file comes in order: its name, its attributes, then all of each child to
be shown, one after the other. -/
theorem file_order (m : Nat) (f : File) (hne : f.kids ≠ []) (h : (putFile true m f).2 = none) :
    (putFile true m f).1 = .file f.name :: (f.attrs.map fun a => .attr 0 a.1 a.2) ++
      (chosen m f.kids).flatMap fun c => (put true 1 1 c).1 := by
  have he : f.kids.isEmpty = false := by simpa using hne
  have hk : (putKids true 0 m 0 f.kids).2 = none := by
    simpa [putFile, he, andThen_none, attrsOut] using h
  have := putKids_order true 0 m f.kids 0 hk
  simp only [putFile, he, Bool.false_eq_true, if_false, andThen, attrsOut, if_true, this]
  simp

/-- Several files are shown one after the other, as long as each exists and can be shown. -/
theorem main_files (disk : List Char → Option File) (names : List (List Char))
    (h : ∀ n ∈ names, ∃ f, disk n = some f ∧ (putFile true 1 f).2 = none) :
    main true disk names = (names.flatMap fun n =>
      match disk n with
      | some f => (putFile true 1 f).1
      | none => [], none) := by
  induction names with
  | nil => simp [main]
  | cons n t ih =>
    obtain ⟨f, hf, h0⟩ := h n (by simp)
    rw [main, ih fun x hx => h x (by simp [hx])]
    simp [hf, andThen, h0]

/-- The first file that cannot be opened ends the command: the files before it
have been shown, and none after it. -/
theorem main_stops (has : Bool) (disk : List Char → Option File) (names rest : List (List Char))
    (n : List Char) (l : List Line) (hb : main has disk names = (l, none)) (hn : disk n = none) :
    main has disk (names ++ n :: rest) = (l, some .os) := by
  induction names generalizing l with
  | nil =>
    simp only [main, Prod.mk.injEq, and_true] at hb
    simp [main, hn, ← hb]
  | cons a t ih =>
    simp only [List.cons_append, main] at hb ⊢
    cases ha : disk a with
    | none => simp [ha] at hb
    | some f =>
      simp only [ha] at hb ⊢
      have h2 := (andThen_none (putFile has 1 f) (main has disk t)).1 (by rw [hb])
      rw [ih (main has disk t).1 (by rw [← h2.2])]
      unfold andThen at hb ⊢
      rw [h2.1] at hb ⊢
      simp only [Prod.mk.injEq] at hb ⊢
      exact ⟨hb.1, trivial⟩

/-- A file with two channels and a group: the second channel is left out; the empty group is a
dash. -/
def exFile : File :=
  { name := ['a'], attrs := [(['n'], ['2'])]
    kids := [.group ['c', 'h', 'a', 'n', '1'] [] [.data ['v'] (some 3) ['(', '3', ',', ')'] ['f'] []],
      .group ['c', 'h', 'a', 'n', '3'] [] [.link ['x']], .group ['e'] [(['b'], ['1'])] []] }

example : (putFile true 1 exFile).1.map Line.text =
    ["HDF5 file \"a\"", "|-{n=2}", "+ - - - /chan1", "|\t+ - - - /v (shape=(3,) dtype=f)",
      "\t -"].map String.toList := by decide +kernel

example : main false (fun _ => some exFile) [['a'], ['b']] =
    ([.file ['a']], some .attribute) :=
  contents_fails _ _ _ exFile rfl (by simp [exFile])

example : (putFile true 1 { exFile with kids := [.data ['s'] none [] [] []] }) =
    ([.file ['a'], .attr 0 ['n'] ['2']], some .type) := by decide +kernel

example : Kept 1 0 exFile.kids (.group ['e'] [(['b'], ['1'])] []) :=
  (kept_iff 1 _ _).1 rfl (by simp [exFile])

end Mass.Names.HdfPrint
