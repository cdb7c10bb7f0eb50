import Verif.Py
import Mathlib.Algebra.Order.Field.Basic
import Mathlib.Data.List.GetD
import Mathlib.Data.List.Nodup
import Mathlib.Data.List.Pairwise
import Mathlib.Data.Rat.Floor
import Mathlib.Tactic.Linarith
import Mathlib.Tactic.NormNum
import Mathlib.Tactic.Push
/-! C130: levels from the atomic spectra database and the lines made of them (mass/calibration/hci_lines.py: `getAvailableLevels`, `getSingleLevel`, `add_hci_line`, `add_H_like_lines_from_asd`, `add_He_like_lines_from_asd`;
mass/calibration/import_asd.py: `parseLine`, `write_asd_pickle`).
Strings are lists of characters; a value that is no number (NaN) is `none`. Exact arithmetic over an ordered field. -/
namespace Mass.Line.Asd
set_option linter.unusedSectionVars false
set_option synthInstance.maxSize 2000
open Mass
variable {K : Type} [Field K] [LinearOrder K] [IsStrictOrderedRing K]

/-- str, for names of elements and levels (hci_lines.py L71) -/
abbrev Str := List Char

/-- str.split() (hci_lines.py L81): the words between white space. Simplified: white space is blank, tab and line ends. -/
def words (s : Str) : List Str := (s.splitOnP Char.isWhitespace).filter (fun w => !w.isEmpty)

/-- conf, term and JVal of a level, hci_lines.py L81-82: ValueError if it has not three words, IndexError if the last one has no '='. -/
def parse (s : Str) : Except Exc (Str × Str × Str) :=
  match words s with
  | [c, t, j] =>
    match (j.splitOn '=')[1]? with
    | some v => .ok (c, t, v)
    | none => .error .index
  | _ => .error .value

/-- the levels of one charge state: name, energy and uncertainty in cm-1, in the order of the file (hci_lines.py L71, L100) -/
abbrev Levels (K : Type) := List (Str × Option K × Option K)

/-- units (hci_lines.py L98, L103, L110) -/
inductive Units | invCm | eV | other
  deriving DecidableEq

/-- what is asked for (hci_lines.py L53-55) -/
structure Req where
  conf : Option Str := none
  term : Option Str := none
  jval : Option Str := none
  deriving DecidableEq

/-- includeConf and includeTerm and includeJVal, hci_lines.py L83-96 -/
def Req.accepts (r : Req) (p : Str × Str × Str) : Bool :=
  (match r.conf with | none => true | some c => decide (p.1 = c)) &&
  (match r.term with | none => true | some t => decide (p.2.1 = t)) &&
  (match r.jval with | none => true | some j => decide (p.2.2 = j))

/-- the value of a level in the units asked for, hci_lines.py L98-109: energy, and uncertainty if that is asked for. `c` is INVCM_TO_EV. -/
def value (c : K) (u : Units) (unc : Bool) (v : Option K × Option K) : Option K × Option (Option K) :=
  let f : Option K → Option K := fun x => if u = .eV then x.map (· * c) else x
  (f v.1, if unc then some (f v.2) else none)

/-- the result: none if the units are not supported -/
abbrev Found (K : Type) := Option (List (Str × Option K × Option (Option K)))

/-- the loop of `getAvailableLevels`, hci_lines.py L71-115, after `n` accepted levels. Names in a dictionary differ, so each level is a new entry. -/
def go (c : K) (r : Req) (maxLevels : Option Int) (u : Units) (unc : Bool) : Nat → Found K → Levels K → Except Exc (Found K)
  | _, acc, [] => .ok acc
  | n, acc, (k, v) :: l =>
    if maxLevels = some (n : Int) then .ok acc
    else
      match parse k with
      | .ok p =>
        if r.accepts p then go c r maxLevels u unc (n + 1) (if u = .other then none else acc.map (· ++ [(k, value c u unc v)])) l
        else go c r maxLevels u unc n acc l
      | .error .value => go c r maxLevels u unc n acc l
      | .error e => .error e

/-- `getAvailableLevels`, hci_lines.py L53-115, for the levels of one element and charge state. -/
def available (c : K) (l : Levels K) (r : Req) (maxLevels : Option Int) (u : Units) (unc : Bool) : Except Exc (Found K) :=
  go c r maxLevels u unc 0 (some []) l

/-- the name of a level, hci_lines.py L129, import_asd.py L85 -/
def levelName (conf term j : Str) : Str := conf ++ ' ' :: term ++ ' ' :: 'J' :: '=' :: j

/-- `getSingleLevel`, hci_lines.py L117-144 -/
def single (c : K) (l : Levels K) (conf term j : Str) (u : Units) (unc : Bool) : Except Exc (Option (Option K × Option (Option K))) :=
  if u = .other then .ok none
  else
    match l.find? (fun e => decide (e.1 = levelName conf term j)) with
    | none => .error .key
    | some e => .ok (some (value c u unc e.2))

/-- the name of a line, hci_lines.py L154 and fluorescence_lines.py L166-168 -/
def lineName (element : Str) (charge : Nat) (level : Str) : Str := element ++ Nat.toDigits 10 charge ++ ' ' :: level

/-- the known lines by name (fluorescence_lines.py L418-423), each with its energy -/
abbrev Lines (K : Type) := List (Str × Option K)

/-- `add_hci_line` with one energy and ratio 1, hci_lines.py L148-170, and the registration in `addline`, fluorescence_lines.py L418-423: a known name is refused. -/
def addLine (reg : Lines K) (name : Str) (e : Option K) : Except Exc (Lines K) :=
  if name ∈ reg.map Prod.fst then .error .value else .ok (reg ++ [(name, e)])

/-- the loop over levels, hci_lines.py L181-187, L198-204: a level at energy 0 gives no line (NaN is not 0). The known lines are kept when it stops with an exception. -/
def addAll (element : Str) (charge : Nat) : Lines K → List (Str × Option K) → Lines K × Except Exc Unit
  | reg, [] => (reg, .ok ())
  | reg, (k, e) :: l =>
    if e = some 0 then addAll element charge reg l
    else
      match addLine reg (lineName element charge k) e with
      | .error x => (reg, .error x)
      | .ok reg' => addAll element charge reg' l

/-- `add_H_like_lines_from_asd`, `add_He_like_lines_from_asd`, hci_lines.py L173-204, for the levels of the charge state that is used. -/
def addLines (c : K) (reg : Lines K) (element : Str) (charge : Nat) (l : Levels K) (maxLevels : Option Int) : Lines K × Except Exc Unit :=
  match available c l {} (maxLevels.map (· + 1)) .eV true with
  | .error e => (reg, .error e)
  | .ok none => (reg, .error .attribute)
  | .ok (some f) => addAll element charge reg (f.map (fun e => (e.1, e.2.1)))

/-! ### The conversion of the database -/

/-- one row of the table: element, charge, conf, term, J, energy and uncertainty (none if not a number), import_asd.py L62-78 -/
structure Row (K : Type) where
  element : Str
  charge : Nat
  conf : Str
  term : Str
  j : Str
  energy : Option K
  unc : Option K

/-- assignment to an entry of a dictionary, keeping its place if it exists, used in import_asd.py L82-86 -/
def put {α β : Type} [DecidableEq α] (a : α) (b : β) : List (α × β) → List (α × β)
  | [] => [(a, b)]
  | e :: l => if e.1 = a then (a, b) :: l else e :: put a b l

/-- energyLevelsDict (import_asd.py L22) -/
abbrev Db (K : Type) := List (Str × List (Nat × Levels K))

/-- the entry of a dictionary, or an empty one, import_asd.py L81-84 -/
def sub {α β : Type} [DecidableEq α] (a : α) (l : List (α × List β)) : List β := ((l.find? (fun e => decide (e.1 = a))).map Prod.snd).getD []

/-- one row of `parseLine`, import_asd.py L61-86 -/
def addRow (db : Db K) (r : Row K) : Db K :=
  if r.conf ≠ [] ∧ r.term ≠ [] ∧ r.term ≠ ['*'] then
    let el := sub r.element db
    let ch := sub r.charge el
    put r.element (put r.charge (put (levelName r.conf r.term r.j) (r.energy, r.unc) ch) el) db
  else db

/-- the loop of `write_asd_pickle` over what was read, import_asd.py L43-44: `energyLevelsDict.values()` gives the dictionaries of charge states, not pairs. Two names for one of them need exactly two charge states
(ValueError otherwise), and the second one is then a number, without `values` (AttributeError). Without elements an empty dictionary is written. -/
def writePickle (db : Db K) : Except Exc (Db K) :=
  match db with
  | [] => .ok []
  | (_, chs) :: _ => if chs.length = 2 then .error .attribute else .error .value

/-! ### Lemmas -/

/-- a word: not empty and without white space [specification] -/
def IsWord (s : Str) : Prop := s ≠ [] ∧ ∀ x ∈ s, x.isWhitespace = false

theorem words_single (s : Str) (h : IsWord s) : words s = [s] := by
  unfold words
  rw [List.splitOnP_eq_singleton h.2]
  simp [h.1]

theorem words_cons (s t : Str) (h : IsWord s) : words (s ++ ' ' :: t) = s :: words t := by
  unfold words
  rw [List.splitOnP_append_cons_of_forall_mem h.2 ' ' (by decide) t, List.filter_cons_of_pos (by simp [h.1])]

/-- C130. The name of a level is taken apart into the configuration, term and J it was made of. -/
theorem parse_levelName (conf term j : Str) (hc : IsWord conf) (ht : IsWord term) (hj : ∀ x ∈ j, x.isWhitespace = false ∧ x ≠ '=') :
    parse (levelName conf term j) = .ok (conf, term, j) := by
  unfold parse levelName
  have hJ : IsWord ('J' :: '=' :: j) := by
    refine ⟨by simp, ?_⟩
    intro x hx
    simp only [List.mem_cons] at hx
    rcases hx with rfl | rfl | hx
    · decide
    · decide
    · exact (hj x hx).1
  rw [List.append_assoc, List.cons_append, words_cons conf _ hc, words_cons term _ ht, words_single _ hJ]
  dsimp only
  have : ('J' :: '=' :: j).splitOn '=' = [['J'], j] := by
    rw [List.splitOn_eq_splitOnP]
    have h1 := List.splitOnP_append_cons_of_forall_mem (p := (· == '=')) (xs := ['J']) (by simp) '=' (by simp) j
    have h2 := List.splitOnP_eq_singleton (p := (· == '=')) (xs := j) (fun x hx => by simpa using (hj x hx).2)
    rw [h2] at h1
    exact h1
  rw [this]
  rfl

/-- the levels a search should give: those whose name has three words and fits, in the order of the file [specification] -/
def wanted (r : Req) (l : Levels K) : Levels K :=
  l.filter (fun e => match parse e.1 with | .ok p => r.accepts p | .error _ => false)

theorem go_spec (c : K) (r : Req) (m : Option Int) (u : Units) (hu : u ≠ .other) (unc : Bool) (l : Levels K) (hi : ∀ e ∈ l, parse e.1 ≠ .error .index) :
    ∀ (n : Nat) (acc : List (Str × Option K × Option (Option K))), (∀ k, m = some k → (n : Int) ≤ k) →
      go c r m u unc n (some acc) l =
        .ok (some (acc ++ (match m with | none => wanted r l | some k => (wanted r l).take (k - n).toNat).map (fun e : Str × Option K × Option K => (e.1, value c u unc e.2)))) := by
  induction l with
  | nil => intro n acc h; cases m <;> simp [go, wanted]
  | cons e l ih =>
    intro n acc h
    obtain ⟨k, v⟩ := e
    have hi' : ∀ e ∈ l, parse e.1 ≠ .error .index := fun e he => hi e (List.mem_cons_of_mem _ he)
    have hik := hi (k, v) (by simp)
    unfold go
    by_cases hm : m = some (n : Int)
    · rw [if_pos hm, hm]
      simp
    · rw [if_neg hm]
      cases hp : parse k with
      | error x =>
        have hx : x = .value := by
          unfold parse at hp
          split at hp
          · split at hp
            · exact absurd hp (by simp)
            · injection hp with hp
              subst hp
              exfalso
              apply hik
              unfold parse
              simp_all
          · injection hp with hp
            exact hp.symm
        subst hx
        dsimp only
        rw [ih hi' n acc h]
        have : wanted r ((k, v) :: l) = wanted r l := by
          unfold wanted
          rw [List.filter_cons_of_neg (by simp [hp])]
        rw [this]
      | ok p =>
        dsimp only
        by_cases ha : r.accepts p = true
        · rw [if_pos ha, if_neg hu, Option.map_some]
          have hw : wanted r ((k, v) :: l) = (k, v) :: wanted r l := by
            unfold wanted
            rw [List.filter_cons_of_pos (by simp [hp, ha])]
          rw [ih hi' (n + 1) _ ?_, hw]
          · cases m with
            | none => simp
            | some q =>
              have hq := h q rfl
              have hne : q ≠ n := fun e => hm (by rw [e])
              have e1 : (q - (n : Int)).toNat = (q - ((n + 1 : Nat) : Int)).toNat + 1 := by omega
              dsimp only
              rw [e1, List.take_succ_cons]
              simp
          · intro q hq
            have := h q hq
            have hne : q ≠ n := fun e => hm (by rw [hq, e])
            omega
        · rw [if_neg ha, ih hi' n acc h]
          have : wanted r ((k, v) :: l) = wanted r l := by
            unfold wanted
            rw [List.filter_cons_of_neg (by simp [hp, ha])]
          rw [this]

/-- C130. A search without limit gives exactly the levels that fit, in the order of the file and in the units asked for; with a limit (not negative) it gives the first so many of them. -/
theorem available_spec (c : K) (l : Levels K) (r : Req) (u : Units) (hu : u ≠ .other) (unc : Bool) (hi : ∀ e ∈ l, parse e.1 ≠ .error .index) :
    available c l r none u unc = .ok (some ((wanted r l).map (fun e => (e.1, value c u unc e.2)))) ∧
    ∀ n : Nat, available c l r (some n) u unc = .ok (some (((wanted r l).take n).map (fun e => (e.1, value c u unc e.2)))) := by
  constructor
  · unfold available
    rw [go_spec c r none u hu unc l hi 0 [] (by simp)]
    simp
  · intro n
    unfold available
    rw [go_spec c r (some (n : Int)) u hu unc l hi 0 [] (by intro k hk; injection hk with hk; omega)]
    simp

/-- C130. What is found for a condition: each entry is a level of the file whose parts are the ones asked for. -/
theorem wanted_iff (r : Req) (l : Levels K) (e : Str × Option K × Option K) :
    e ∈ wanted r l ↔ e ∈ l ∧ ∃ p, parse e.1 = .ok p ∧ (∀ x, r.conf = some x → p.1 = x) ∧ (∀ x, r.term = some x → p.2.1 = x) ∧ (∀ x, r.jval = some x → p.2.2 = x) := by
  unfold wanted
  rw [List.mem_filter]
  refine and_congr_right fun _ => ?_
  cases hp : parse e.1 with
  | error x => simp
  | ok p =>
    dsimp only
    unfold Req.accepts
    rcases r with ⟨a, b, d⟩
    cases a <;> cases b <;> cases d <;> simp [and_assoc]

/-- C130. A level asked for by configuration, term and J is the same one, with the same value, that a search for these finds, and it is the only one. -/
theorem single_spec (c : K) (l : Levels K) (hn : (l.map Prod.fst).Nodup) (hform : ∀ e ∈ l, ∃ cf tm j, IsWord cf ∧ IsWord tm ∧ (∀ x ∈ j, x.isWhitespace = false ∧ x ≠ '=') ∧ e.1 = levelName cf tm j)
    (conf term j : Str) (hc : IsWord conf) (ht : IsWord term) (hj : ∀ x ∈ j, x.isWhitespace = false ∧ x ≠ '=') (u : Units) (hu : u ≠ .other) (unc : Bool) :
    (∀ v, single c l conf term j u unc = .ok (some v) → available c l ⟨some conf, some term, some j⟩ none u unc = .ok (some [(levelName conf term j, v)])) ∧
    (single c l conf term j u unc = .error .key → available c l ⟨some conf, some term, some j⟩ none u unc = .ok (some [])) := by
  have hi : ∀ e ∈ l, parse e.1 ≠ .error .index := by
    intro e he
    obtain ⟨cf, tm, j', h1, h2, h3, h4⟩ := hform e he
    rw [h4, parse_levelName cf tm j' h1 h2 h3]
    simp
  rw [(available_spec c l _ u hu unc hi).1]
  have hacc : ∀ e ∈ l, ((match parse e.1 with | .ok p => (⟨some conf, some term, some j⟩ : Req).accepts p | .error _ => false) = true ↔ e.1 = levelName conf term j) := by
    intro e he
    obtain ⟨cf, tm, j', h1, h2, h3, h4⟩ := hform e he
    rw [h4, parse_levelName cf tm j' h1 h2 h3]
    dsimp only
    unfold Req.accepts
    simp only [Bool.and_eq_true, decide_eq_true_eq]
    constructor
    · rintro ⟨⟨rfl, rfl⟩, rfl⟩; rfl
    · intro h
      have := parse_levelName cf tm j' h1 h2 h3
      rw [h, parse_levelName conf term j hc ht hj] at this
      injection this with this
      injection this with a b
      injection b with b d
      exact ⟨⟨a.symm, b.symm⟩, d.symm⟩
  have hw : wanted ⟨some conf, some term, some j⟩ l = l.filter (fun e => decide (e.1 = levelName conf term j)) := by
    unfold wanted
    apply List.filter_congr
    intro e he
    rw [Bool.eq_iff_iff, hacc e he, decide_eq_true_eq]
  rw [hw]
  unfold single
  rw [if_neg hu]
  clear hi hacc hw hform
  generalize levelName conf term j = name
  constructor
  · intro v hv
    split at hv
    · exact absurd hv (by simp)
    · rename_i e hf
      injection hv with hv
      injection hv with hv
      rw [← hv]
      clear hv
      induction l with
      | nil => simp at hf
      | cons a l ih =>
        rw [List.map_cons, List.nodup_cons] at hn
        by_cases ha : a.1 = name
        · rw [List.find?_cons_of_pos (by simpa using ha)] at hf
          injection hf with hf
          subst hf
          rw [List.filter_cons_of_pos (by simpa using ha)]
          have : l.filter (fun e => decide (e.1 = name)) = [] := by
            rw [List.filter_eq_nil_iff]
            intro b hb hbn
            apply hn.1
            rw [ha, ← of_decide_eq_true hbn]
            exact List.mem_map_of_mem hb
          rw [this]
          simp [ha]
        · rw [List.find?_cons_of_neg (by simpa using ha)] at hf
          rw [List.filter_cons_of_neg (by simpa using ha)]
          exact ih hn.2 hf
  · intro hv
    split at hv
    · rename_i hf
      rw [List.find?_eq_none] at hf
      rw [List.filter_eq_nil_iff.2 (fun e he => by simpa using hf e he)]
      rfl
    · exact absurd hv (by simp)

/-! ### Names of lines -/

theorem toDigits_inj {m n : Nat} (h : Nat.toDigits 10 m = Nat.toDigits 10 n) : m = n := by
  have h1 : m.repr = n.repr := by rw [Nat.repr_eq_ofList_toDigits, Nat.repr_eq_ofList_toDigits, h]
  have h2 : ∀ n : Nat, Nat.ofDigitChars 10 (Nat.toDigits 10 n) 0 = n := fun n => by simp
  rw [← h2 m, ← h2 n, h]

theorem span_eq {p : Char → Bool} (a a' b b' : List Char) (ha : ∀ x ∈ a, p x = true) (ha' : ∀ x ∈ a', p x = true) (hb : ∀ x ∈ b.head?, p x = false) (hb' : ∀ x ∈ b'.head?, p x = false)
    (h : a ++ b = a' ++ b') : a = a' ∧ b = b' := by
  induction a generalizing a' with
  | nil =>
    cases a' with
    | nil => exact ⟨rfl, h⟩
    | cons y t =>
      rw [List.nil_append] at h
      have := hb y (by rw [h]; simp)
      rw [ha' y (by simp)] at this
      exact absurd this (by simp)
  | cons x s ih =>
    cases a' with
    | nil =>
      rw [List.nil_append] at h
      have := hb' x (by rw [← h]; simp)
      rw [ha x (by simp)] at this
      exact absurd this (by simp)
    | cons y t =>
      rw [List.cons_append, List.cons_append] at h
      injection h with h1 h2
      obtain ⟨e1, e2⟩ := ih t (fun z hz => ha z (by simp [hz])) (fun z hz => ha' z (by simp [hz])) h2
      exact ⟨by rw [h1, e1], e2⟩

/-- C130. Two lines with the same name are the same level of the same charge state of the same element. -/
theorem lineName_inj (e e' : Str) (q q' : Nat) (k k' : Str) (he : ∀ x ∈ e, x.isDigit = false) (he' : ∀ x ∈ e', x.isDigit = false) (h : lineName e q k = lineName e' q' k') : e = e' ∧ q = q' ∧ k = k' := by
  unfold lineName at h
  rw [List.append_assoc, List.append_assoc] at h
  have hd : ∀ n : Nat, ∀ x ∈ Nat.toDigits 10 n, x.isDigit = true := fun n x hx => Nat.isDigit_of_mem_toDigits (by omega) (by omega) hx
  have hh : ∀ (n : Nat) (t : Str), ∀ x ∈ (Nat.toDigits 10 n ++ t).head?, x.isDigit = true := by
    intro n t x hx
    cases hn : Nat.toDigits 10 n with
    | nil => exact absurd hn Nat.toDigits_ne_nil
    | cons a s =>
      rw [hn] at hx
      simp only [List.cons_append, List.head?_cons, Option.mem_def, Option.some.injEq] at hx
      subst hx
      exact hd n a (by rw [hn]; simp)
  obtain ⟨h1, h2⟩ := span_eq (p := fun x => !x.isDigit) e e' _ _ (fun x hx => by simp [he x hx]) (fun x hx => by simp [he' x hx])
    (fun x hx => by simp [hh _ _ x hx]) (fun x hx => by simp [hh _ _ x hx]) h
  obtain ⟨h3, h4⟩ := span_eq (p := Char.isDigit) _ _ _ _ (hd q) (hd q') (fun x hx => by simp at hx; subst hx; decide) (fun x hx => by simp at hx; subst hx; decide) h2
  injection h4 with _ h5
  exact ⟨h1, toDigits_inj h3, h5⟩

theorem addAll_spec (el : Str) (q : Nat) (hel : ∀ x ∈ el, x.isDigit = false) (l : List (Str × Option K)) : ∀ (reg : Lines K), (l.map Prod.fst).Nodup → (∀ e ∈ l, lineName el q e.1 ∉ reg.map Prod.fst) →
    addAll el q reg l = (reg ++ (l.filter (fun e => decide (e.2 ≠ some 0))).map (fun e => (lineName el q e.1, e.2)), .ok ()) := by
  induction l with
  | nil => intro reg _ _; simp [addAll]
  | cons e l ih =>
    intro reg hn hr
    obtain ⟨k, v⟩ := e
    rw [List.map_cons, List.nodup_cons] at hn
    unfold addAll
    by_cases hv : v = some 0
    · rw [if_pos hv, ih reg hn.2 (fun e he => hr e (by simp [he])), List.filter_cons_of_neg (by simp [hv])]
    · rw [if_neg hv]
      unfold addLine
      rw [if_neg (hr (k, v) (by simp))]
      dsimp only
      rw [ih _ hn.2 ?_, List.filter_cons_of_pos (by simp [hv])]
      · simp
      · intro e he hmem
        rw [List.map_append, List.mem_append] at hmem
        rcases hmem with h | h
        · exact hr e (by simp [he]) h
        · simp only [List.map_cons, List.map_nil, List.mem_singleton] at h
          have := (lineName_inj _ _ _ _ _ _ hel hel h).2.2
          exact hn.1 (List.mem_map.2 ⟨e, he, this⟩)

/-- C130. The lines added for an element: one for every level except the ground state (energy 0), at the energy of that level in eV, under a name of its own; what was known before stays. -/
theorem addLines_spec (c : K) (hc : c ≠ 0) (reg : Lines K) (el : Str) (q : Nat) (hel : ∀ x ∈ el, x.isDigit = false) (l : Levels K) (hn : (l.map Prod.fst).Nodup)
    (hi : ∀ e ∈ l, ∃ p, parse e.1 = .ok p) (hr : ∀ e ∈ l, lineName el q e.1 ∉ reg.map Prod.fst) :
    addLines c reg el q l none = (reg ++ (l.filter (fun e => decide (e.2.1 ≠ some 0))).map (fun e => (lineName el q e.1, e.2.1.map (· * c))), .ok ()) ∧
    ∀ n : Nat, addLines c reg el q l (some n) = (reg ++ ((l.take (n + 1)).filter (fun e => decide (e.2.1 ≠ some 0))).map (fun e => (lineName el q e.1, e.2.1.map (· * c))), .ok ()) := by
  have hw : wanted {} l = l := by
    unfold wanted
    rw [List.filter_eq_self]
    intro e he
    obtain ⟨p, hp⟩ := hi e he
    rw [hp]
    rfl
  have hidx : ∀ e ∈ l, parse e.1 ≠ .error .index := by
    intro e he
    obtain ⟨p, hp⟩ := hi e he
    rw [hp]
    simp
  have key : ∀ l' : Levels K, l'.Sublist l → addAll el q reg ((l'.map (fun e => (e.1, value c .eV true e.2))).map (fun e => (e.1, e.2.1))) =
      (reg ++ (l'.filter (fun e => decide (e.2.1 ≠ some 0))).map (fun e => (lineName el q e.1, e.2.1.map (· * c))), .ok ()) := by
    intro l' hl'
    rw [List.map_map]
    rw [addAll_spec el q hel]
    · rw [List.filter_map, List.map_map]
      congr 2
      have : (l'.filter ((fun e : Str × Option K => decide (e.2 ≠ some 0)) ∘ ((fun e : Str × Option K × Option (Option K) => (e.1, e.2.1)) ∘ fun e : Str × Option K × Option K => (e.1, value c .eV true e.2)))) =
          l'.filter (fun e => decide (e.2.1 ≠ some 0)) := by
        apply List.filter_congr
        intro e _
        simp only [Function.comp, value, if_true]
        cases e.2.1 with
        | none => simp
        | some x => simp [hc]
      rw [this]
      apply List.map_congr_left
      intro e _
      simp [value]
    · rw [List.map_map]
      exact (hl'.map Prod.fst).nodup hn
    · intro e he
      rw [List.mem_map] at he
      obtain ⟨a, ha, rfl⟩ := he
      exact hr a (hl'.subset ha)
  constructor
  · unfold addLines
    rw [Option.map_none, (available_spec c l {} .eV (by decide) true hidx).1, hw]
    exact key l (List.Sublist.refl _)
  · intro n
    unfold addLines
    have := (available_spec c l {} .eV (by decide) true hidx).2 (n + 1)
    rw [Option.map_some, show ((n : Int) + 1) = ((n + 1 : Nat) : Int) by push_cast; rfl, this, hw]
    exact key _ (List.take_sublist _ _)

/-- C130. With the ground state first and no other level at energy 0, a limit of n gives the lines of the n lowest excited levels. -/
theorem addLines_max (c : K) (hc : c ≠ 0) (reg : Lines K) (el : Str) (q : Nat) (hel : ∀ x ∈ el, x.isDigit = false) (g : Str) (gu : Option K) (l : Levels K) (hn : ((g, some 0, gu) :: l |>.map Prod.fst).Nodup)
    (hi : ∀ e ∈ (g, some 0, gu) :: l, ∃ p, parse e.1 = .ok p) (hr : ∀ e ∈ (g, some 0, gu) :: l, lineName el q e.1 ∉ reg.map Prod.fst) (hz : ∀ e ∈ l, e.2.1 ≠ some 0) (n : Nat) :
    addLines c reg el q ((g, some 0, gu) :: l) (some n) = (reg ++ (l.take n).map (fun e => (lineName el q e.1, e.2.1.map (· * c))), .ok ()) := by
  rw [(addLines_spec c hc reg el q hel _ hn hi hr).2 n, List.take_succ_cons, List.filter_cons_of_neg (by simp), List.filter_eq_self.2]
  intro e he
  simpa using hz e (List.mem_of_mem_take he)

/-! ### Rows of the database -/

theorem put_lookup {α β : Type} [DecidableEq α] (a b : α) (v : β) (l : List (α × β)) :
    ((put a v l).find? (fun e => decide (e.1 = b))).map Prod.snd = if a = b then some v else (l.find? (fun e => decide (e.1 = b))).map Prod.snd := by
  induction l with
  | nil => by_cases h : a = b <;> simp [put, h]
  | cons e l ih =>
    unfold put
    by_cases he : e.1 = a
    · rw [if_pos he]
      by_cases h : a = b
      · simp [h]
      · rw [if_neg h, List.find?_cons_of_neg (by simpa using h), List.find?_cons_of_neg (by rw [he]; simpa using h)]
    · rw [if_neg he]
      by_cases h : e.1 = b
      · have hab : a ≠ b := by rintro rfl; exact he h
        rw [List.find?_cons_of_pos (by simpa using h), List.find?_cons_of_pos (by simpa using h), if_neg hab]
      · rw [List.find?_cons_of_neg (by simpa using h), List.find?_cons_of_neg (by simpa using h), ih]

/-- the value stored for a level: dictionary of elements, of charge states, of levels [specification] -/
def lookup (db : Db K) (el : Str) (q : Nat) (k : Str) : Option (Option K × Option K) :=
  ((sub q (sub el db)).find? (fun e => decide (e.1 = k))).map Prod.snd

theorem sub_put {α β : Type} [DecidableEq α] (a b : α) (v : List β) (l : List (α × List β)) : sub b (put a v l) = if a = b then v else sub b l := by
  unfold sub
  rw [put_lookup]
  split <;> rfl

/-- C130. A row with configuration and term sets the level it names and no other; a row without one of them (or with the term "*") sets none. -/
theorem addRow_spec (db : Db K) (r : Row K) (el : Str) (q : Nat) (k : Str) :
    lookup (addRow db r) el q k =
      if (r.conf ≠ [] ∧ r.term ≠ [] ∧ r.term ≠ ['*']) ∧ r.element = el ∧ r.charge = q ∧ levelName r.conf r.term r.j = k then some (r.energy, r.unc) else lookup db el q k := by
  unfold addRow
  by_cases hc : r.conf ≠ [] ∧ r.term ≠ [] ∧ r.term ≠ ['*']
  · rw [if_pos hc]
    dsimp only
    unfold lookup
    rw [sub_put]
    by_cases h1 : r.element = el
    · rw [if_pos h1, sub_put]
      by_cases h2 : r.charge = q
      · rw [if_pos h2, put_lookup]
        by_cases h3 : levelName r.conf r.term r.j = k
        · rw [if_pos h3, if_pos ⟨hc, h1, h2, h3⟩]
        · rw [if_neg h3, if_neg (fun h => h3 h.2.2.2), h1, h2]
      · rw [if_neg h2, if_neg (fun h => h2 h.2.2.1), h1]
    · rw [if_neg h1, if_neg (fun h => h1 h.2.1)]
  · rw [if_neg hc, if_neg (fun h => hc h.1)]

/-- C130. After any number of rows the value of a level is that of the last row that names it. -/
theorem rows_spec (rows : List (Row K)) (r : Row K) (after : List (Row K)) (hr : r.conf ≠ [] ∧ r.term ≠ [] ∧ r.term ≠ ['*'])
    (h : ∀ s ∈ after, ¬ (s.element = r.element ∧ s.charge = r.charge ∧ levelName s.conf s.term s.j = levelName r.conf r.term r.j)) (db : Db K) :
    lookup ((rows ++ r :: after).foldl addRow db) r.element r.charge (levelName r.conf r.term r.j) = some (r.energy, r.unc) := by
  rw [List.foldl_append, List.foldl_cons]
  generalize rows.foldl addRow db = db'
  have h0 : lookup (addRow db' r) r.element r.charge (levelName r.conf r.term r.j) = some (r.energy, r.unc) := by
    rw [addRow_spec, if_pos ⟨hr, rfl, rfl, rfl⟩]
  generalize addRow db' r = d at h0
  clear db'
  induction after generalizing d with
  | nil => exact h0
  | cons s t ih =>
    rw [List.foldl_cons]
    apply ih (fun s hs => h s (by simp [hs]))
    rw [addRow_spec, if_neg (fun hh => h s (by simp) hh.2)]
    exact h0

/-! ### Examples -/

/-- some levels of hydrogen-like neon [specification] -/
def ne10 : Levels ℚ := [("1s 2S J=1/2".toList, some 0, some 0), ("2p 2P* J=1/2".toList, some 10, some 1), ("2s 2S J=1/2".toList, some 11, some 1), ("2p 2P* J=3/2".toList, some 12, none)]

example : available (1 / 2) ne10 ⟨some "2p".toList, none, none⟩ none .eV true =
    .ok (some [("2p 2P* J=1/2".toList, some 5, some (some (1 / 2))), ("2p 2P* J=3/2".toList, some 6, some none)]) := by decide +kernel
example : available (1 / 2) ne10 {} (some 2) .invCm false = .ok (some [("1s 2S J=1/2".toList, some 0, none), ("2p 2P* J=1/2".toList, some 10, none)]) := by decide +kernel
example : addLines (1 / 2) [] "Ne".toList 10 ne10 (some 2) = ([("Ne10 2p 2P* J=1/2".toList, some 5), ("Ne10 2s 2S J=1/2".toList, some (11 / 2))], .ok ()) := by decide +kernel

/-! ### Disagreements -/

/-- Disagreement (C130): the conversion of the database fails for every table with at least one level: the loop takes the values of the dictionary where it needs names and values. Nothing is written. -/
theorem write_fails (db : Db K) (r : Row K) (hr : r.conf ≠ [] ∧ r.term ≠ [] ∧ r.term ≠ ['*']) (after : List (Row K)) :
    ∃ e, writePickle (after.foldl addRow (addRow db r)) = .error e := by
  have hput : ∀ {α β : Type} [DecidableEq α] (a : α) (v : β) (l : List (α × β)), put a v l ≠ [] := by
    intro α β _ a v l
    cases l with
    | nil => simp [put]
    | cons e l => unfold put; split <;> simp
  have h1 : ∀ (d : Db K) (s : Row K), d ≠ [] → addRow d s ≠ [] := by
    intro d s hd
    unfold addRow
    split
    · exact hput _ _ _
    · exact hd
  have h0 : addRow db r ≠ [] := by
    unfold addRow
    rw [if_pos hr]
    exact hput _ _ _
  have h2 : after.foldl addRow (addRow db r) ≠ [] := by
    generalize addRow db r = d at h0
    induction after generalizing d with
    | nil => exact h0
    | cons s t ih => exact ih _ (h1 d s h0)
  generalize after.foldl addRow (addRow db r) = d at h2
  cases d with
  | nil => exact absurd rfl h2
  | cons e t =>
    obtain ⟨a, chs⟩ := e
    unfold writePickle
    dsimp only
    split
    · exact ⟨_, rfl⟩
    · exact ⟨_, rfl⟩

/-- Disagreement (C130): a level whose configuration or term contains a blank is never found by a search, whatever is asked for, though it can be asked for by name. -/
theorem blank_fails : available (1 : ℚ) [("3d (2D) 2P J=1/2".toList, some 5, none)] {} none .eV true = .ok (some []) ∧
    single (1 : ℚ) [("3d (2D) 2P J=1/2".toList, some 5, none)] "3d (2D)".toList "2P".toList "1/2".toList .eV true = .ok (some (some 5, some none)) := by decide +kernel

theorem go_negative (c : K) (r : Req) (u : Units) (unc : Bool) (k : Int) (hk : k < 0) (l : Levels K) : ∀ (n : Nat) (acc : Found K), go c r (some k) u unc n acc l = go c r none u unc n acc l := by
  induction l with
  | nil => intro n acc; rfl
  | cons e l ih =>
    intro n acc
    unfold go
    have h1 : ¬ (some k = some (n : Int)) := by
      rw [Option.some.injEq]
      omega
    have h2 : ¬ ((none : Option Int) = some (n : Int)) := by simp
    rw [if_neg h1, if_neg h2]
    split
    · rw [ih, ih]
    · exact ih _ _
    · rfl

/-- Disagreement (C130): a negative limit is no limit: all levels are given. -/
theorem negative_limit_fails (c : K) (l : Levels K) (r : Req) (u : Units) (unc : Bool) (k : Int) (hk : k < 0) : available c l r (some k) u unc = available c l r none u unc :=
  go_negative c r u unc k hk l 0 _

/-- Disagreement (C130): for units that are not known a search gives nothing (None) if there are levels that fit, but an empty dictionary if there are none. -/
theorem units_fails : available (1 : ℚ) ne10 {} none .other true = .ok none ∧ available (1 : ℚ) ne10 ⟨some "9p".toList, none, none⟩ none .other true = .ok (some []) := by decide +kernel

/-- Disagreement (C130): without a ground state among the levels that can be read, a limit of n gives n + 1 lines. -/
theorem limit_fails : ((addLines (1 : ℚ) [] "Ne".toList 10 (ne10.drop 1) (some 2)).1).length = 3 := by decide +kernel

/-- Disagreement (C130): a level whose energy is not known (NaN) gets a line as well, at no energy. -/
theorem nan_line_fails : addLines (1 : ℚ) [] "Ne".toList 10 [("2p 2P* J=1/2".toList, none, none)] none = ([("Ne10 2p 2P* J=1/2".toList, none)], .ok ()) := by decide +kernel

/-- Disagreement (C130): adding the lines of an element a second time (those of N, O, Ne and Ar are there from the start) raises a ValueError at the first line: also when a larger limit would add new ones. -/
theorem again_fails : let r := addLines (1 : ℚ) [] "Ne".toList 10 ne10 (some 1)
    addLines (1 : ℚ) r.1 "Ne".toList 10 ne10 none = (r.1, .error .value) := by decide +kernel

end Mass.Line.Asd
