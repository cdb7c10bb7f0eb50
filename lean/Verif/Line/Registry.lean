import Verif.Py
import Mathlib.Data.List.Induction

/-!
# Lines by name in the module

`addline` registers a line in two dictionaries and as two variables of the module: the line itself
under its short name, and a function that makes a fitter under the name with "Fitter" appended.
Here: what these give after any history of calls.
-/

namespace Mass.Line.Registry

open Mass

/-- Names as lists of characters (mass/calibration/fluorescence_lines.py L166-170). -/
abbrev Name := List Char

/-- A line, as far as it matters here: element, type, material, is the material the default one, the
class of its fitter if one was given, and all other data (mass/calibration/fluorescence_lines.py
L398-415). -/
structure Line (F B : Type) where
  element : Name
  linetype : Name
  material : Name
  isDefault : Bool
  fitter : Option F
  body : B
  deriving DecidableEq

variable {F B : Type}

/-- `SpectralLine.shortname`, mass/calibration/fluorescence_lines.py L166-170. -/
def shortname (l : Line F B) : Name :=
  if l.isDefault then l.element ++ l.linetype else l.element ++ l.linetype ++ '_' :: l.material

/-- The text appended for fitters (mass/calibration/fluorescence_lines.py L430). -/
def suffix : Name := ['F', 'i', 't', 't', 'e', 'r']

/-- A variable of the module: a line, or the function making a fitter for a line
(mass/calibration/fluorescence_lines.py L425, L427-430). -/
inductive Obj (F B : Type) where
  | line (l : Line F B)
  | mlf (l : Line F B)
  deriving DecidableEq

/-- The dictionaries `spectra` and `spectrum_classes` (of the latter what the stored functions
return) and the variables of the module made by `addline` (mass/calibration/fluorescence_lines.py
L357-358, L423-430). -/
structure Reg (F B : Type) where
  spectra : Name → Option (Line F B)
  classes : Name → Option (Line F B)
  vars : Name → Option (Obj F B)

/-- The registration at the end of `addline`, mass/calibration/fluorescence_lines.py L418-431. -/
def add (r : Reg F B) (l : Line F B) (replace : Bool) : Except Exc Unit × Reg F B :=
  let name := shortname l
  if (r.spectra name).isSome && !replace then (.error .value, r)
  else
    let v1 := fun n => if n = name then some (.line l) else r.vars n
    (.ok (), { spectra := fun n => if n = name then some l else r.spectra n
               classes := fun n => if n = name then some l else r.classes n
               vars := fun n => if n = name ++ suffix then some (.mlf l) else v1 n })

/-- A model: its class (none: GenericLineModel), its line and its name
(mass/calibration/fluorescence_lines.py L187-191, L436-441). -/
structure Model (F B : Type) where
  cls : Option F
  spect : Line F B
  name : Name
  deriving DecidableEq

/-- `line.model()`, mass/calibration/fluorescence_lines.py L185-191. -/
def model (l : Line F B) : Model F B := ⟨none, l, l.element ++ l.linetype⟩

/-- `make_line_fitter`, `line.fitter()`, mass/calibration/fluorescence_lines.py L193-194, L434-442. -/
def makeFitter (l : Line F B) : Model F B :=
  match l.fitter with
  | some c => ⟨some c, l, l.element ++ l.linetype⟩
  | none => ⟨none, l, l.element ++ l.linetype⟩

/-- Calling the variable `n` of the module without arguments (mass/calibration/fluorescence_lines.py
L427-430); a line that is called with no arguments raises TypeError, an unknown name AttributeError. -/
def call (r : Reg F B) (n : Name) : Except Exc (Model F B) :=
  match r.vars n with
  | none => .error .attribute
  | some (.line _) => .error .type
  | some (.mlf l) => .ok (makeFitter l)

/-- A history of calls (mass/calibration/fluorescence_lines.py L418-431). -/
def run (r : Reg F B) (h : List (Line F B × Bool)) : Reg F B := h.foldl (fun r p => (add r p.1 p.2).2) r

/-- The module before any line is added (mass/calibration/fluorescence_lines.py L357-358). -/
def empty : Reg F B := ⟨fun _ => none, fun _ => none, fun _ => none⟩

/-- [specification] The line with the name `n` after a history: the first one, or the last one added
with replacement, whichever is later. -/
def current (n : Name) (h : List (Line F B × Bool)) : Option (Line F B) :=
  (h.filter fun p => decide (shortname p.1 = n)).foldl
    (fun o p => match o with | none => some p.1 | some x => if p.2 then some p.1 else some x) none

/-- [specification] The name does not end like that of a fitter. -/
def Plain (n : Name) : Prop := ∀ m, n ≠ m ++ suffix

theorem suffix_plain (n : Name) : ¬ Plain (n ++ suffix) := fun h => h n rfl

/-- C202. Under a new name, or with replacement, a line is found afterwards in both dictionaries and
in the module, and the fitter made by the module is for it; else ValueError, and nothing changes. -/
theorem add_spec (r : Reg F B) (l : Line F B) (replace : Bool) :
    ((r.spectra (shortname l)).isSome = true ∧ replace = false ∧ add r l replace = (.error .value, r)) ∨
    ((r.spectra (shortname l) = none ∨ replace = true) ∧ (add r l replace).1 = .ok () ∧
      (add r l replace).2.spectra (shortname l) = some l ∧ (add r l replace).2.classes (shortname l) = some l ∧
      (add r l replace).2.vars (shortname l) = some (.line l) ∧
      call (add r l replace).2 (shortname l ++ suffix) = .ok (makeFitter l) ∧
      ∀ n, n ≠ shortname l → n ≠ shortname l ++ suffix →
        (add r l replace).2.spectra n = r.spectra n ∧ (add r l replace).2.classes n = r.classes n ∧
        (add r l replace).2.vars n = r.vars n) := by
  by_cases h : ((r.spectra (shortname l)).isSome && !replace) = true
  · left
    have h' := h
    simp only [Bool.and_eq_true, Bool.not_eq_true'] at h'
    refine ⟨h'.1, h'.2, ?_⟩
    simp only [add]
    rw [if_pos h]
  · right
    have e : shortname l ≠ shortname l ++ suffix := by
      intro h
      have := congrArg List.length h
      simp [suffix] at this
    refine ⟨?_, ?_⟩
    · cases hr : replace with
      | true => exact .inr rfl
      | false =>
        left
        rw [hr] at h
        simpa using h
    · simp only [add]
      rw [if_neg h]
      refine ⟨rfl, by simp, by simp, by simp [e], by simp [call], fun n h1 h2 => by simp [h1, h2]⟩

/-- C202. After any history of calls, failing ones too, with names that do not end in "Fitter": what
the dictionaries and the module give under a name is one and the same line, the first with this name or
the last one that replaced it; and calling the variable with "Fitter" gives a fitter for that line. -/
theorem history_partial (h : List (Line F B × Bool)) (hp : ∀ p ∈ h, Plain (shortname p.1)) (n : Name) (hn : Plain n) :
    (run empty h).spectra n = current n h ∧ (run empty h).classes n = current n h ∧
    (run empty h).vars n = (current n h).map .line ∧
    (run empty h).vars (n ++ suffix) = (current n h).map .mlf := by
  induction h using List.reverseRecOn with
  | nil => exact ⟨rfl, rfl, rfl, rfl⟩
  | append_singleton t p ih =>
    obtain ⟨i1, i2, i3, i4⟩ := ih fun q hq => hp q (List.mem_append_left _ hq)
    have hpl := hp p (by simp)
    have hr : run empty (t ++ [p]) = (add (run empty t) p.1 p.2).2 := by
      simp [run, List.foldl_append]
    have n1 : n ++ suffix ≠ shortname p.1 := fun e => hpl n e.symm
    have n2 : n ≠ shortname p.1 ++ suffix := hn _
    rw [hr]
    by_cases hk : shortname p.1 = n
    · have hc : current n (t ++ [p]) =
          match current n t with | none => some p.1 | some x => if p.2 then some p.1 else some x := by
        simp [current, List.filter_append, List.foldl_append, hk]
      rw [hc]
      subst hk
      rcases add_spec (run empty t) p.1 p.2 with ⟨a1, a2, a3⟩ | ⟨a1, -, a3, a4, a5, -, -⟩
      · rw [a3]
        rw [i1] at a1
        obtain ⟨x, hx⟩ := Option.isSome_iff_exists.1 a1
        rw [hx] at i1 i2 i3 i4 ⊢
        rw [a2]
        exact ⟨i1, i2, i3, i4⟩
      · have hm : (match current (shortname p.1) t with
            | none => some p.1 | some x => if p.2 then some p.1 else some x) = some p.1 := by
          rcases a1 with a1 | a1
          · rw [i1] at a1; rw [a1]
          · rw [a1]; cases current (shortname p.1) t <;> rfl
        rw [hm]
        refine ⟨a3, a4, a5, ?_⟩
        have hnot : ¬ (((run empty t).spectra (shortname p.1)).isSome && !p.2) = true := by
          rcases a1 with a1 | a1 <;> simp [a1]
        simp only [add]
        rw [if_neg hnot]
        simp
    · have hc : current n (t ++ [p]) = current n t := by
        simp [current, List.filter_append, hk]
      rw [hc]
      have n3 : n ++ suffix ≠ shortname p.1 ++ suffix := fun e => hk (List.append_cancel_right e).symm
      rcases add_spec (run empty t) p.1 p.2 with ⟨-, -, a3⟩ | ⟨-, -, -, -, -, -, a7⟩
      · rw [a3]; exact ⟨i1, i2, i3, i4⟩
      · obtain ⟨b1, b2, b3⟩ := a7 n (Ne.symm hk) n2
        obtain ⟨-, -, b4⟩ := a7 (n ++ suffix) n1 n3
        exact ⟨b1.trans i1, b2.trans i2, b3.trans i3, b4.trans i4⟩

/-- C202. Without replacement the first line of a name stays, whatever is added later. -/
theorem first_stays (h : List (Line F B × Bool)) (l : Line F B) (b : Bool) (hr : ∀ p ∈ h, p.2 = false) :
    (run empty ((l, b) :: h)).spectra (shortname l) = some l := by
  have h0 : (run empty [(l, b)]).spectra (shortname l) = some l := by simp [run, add, empty]
  have key : ∀ (h : List (Line F B × Bool)) (r : Reg F B), (∀ p ∈ h, p.2 = false) → r.spectra (shortname l) = some l →
      (run r h).spectra (shortname l) = some l := by
    intro h
    induction h with
    | nil => exact fun r _ hl => hl
    | cons p t ih =>
      intro r hr hl
      apply ih (add r p.1 p.2).2 (fun q hq => hr q (List.mem_cons_of_mem _ hq))
      rcases add_spec r p.1 p.2 with ⟨-, -, a3⟩ | ⟨a1, -, -, -, -, -, -⟩
      · rw [a3]; exact hl
      · have hp := hr p (by simp)
        by_cases hk : shortname l = shortname p.1
        · rcases a1 with a1 | a1
          · rw [← hk, hl] at a1; simp at a1
          · rw [hp] at a1; simp at a1
        · simp only [add]
          split
          · exact hl
          · simp [hk, hl]
  exact key h (run empty [(l, b)]) hr h0

/-- C202. Without a class of its own the fitter of a line is its model; with one it has the same line
and the same name. -/
theorem fitter_model (l : Line F B) :
    (makeFitter l).spect = (model l).spect ∧ (makeFitter l).name = (model l).name ∧ (makeFitter l).cls = l.fitter ∧
    (l.fitter = none → makeFitter l = model l) ∧
    (l.isDefault = true → (model l).name = shortname l) := by
  unfold makeFitter model shortname
  cases l.fitter <;> simp

/-- Disagreement (C202): a line whose name ends in "Fitter" takes the place of the function that makes
the fitter of the other line, without an exception. -/
theorem fitter_lost_fails (r : Reg F B) (l m : Line F B) (h : shortname m = shortname l ++ suffix)
    (hl : r.spectra (shortname l) = none) (hm : r.spectra (shortname m) = none) :
    (add r l false).1 = .ok () ∧ (add (add r l false).2 m false).1 = .ok () ∧
    call (add r l false).2 (shortname l ++ suffix) = .ok (makeFitter l) ∧
    call (add (add r l false).2 m false).2 (shortname l ++ suffix) = .error .type := by
  have e : shortname l ++ suffix ≠ shortname l := by
    intro h
    have := congrArg List.length h
    simp [suffix] at this
  have hm' : r.spectra (shortname l ++ suffix) = none := h ▸ hm
  simp [add, hl, hm', h, e, call]
  simp [suffix]

/-- Disagreement (C202): models of the same line in different materials have the same name, though the
lines have different short names. -/
theorem same_name_fails (l : Line F B) (m1 m2 : Name) (h : m1 ≠ m2) :
    shortname { l with isDefault := false, material := m1 } ≠ shortname { l with isDefault := false, material := m2 } ∧
    (model { l with isDefault := false, material := m1 }).name = (model { l with isDefault := false, material := m2 }).name := by
  refine ⟨?_, rfl⟩
  simp [shortname, h]

/-- Disagreement (C202): different lines can have the same short name, so that the second cannot be
added: element and type are written without a mark between them. -/
theorem ambiguous_fails (b c : B) : ∃ l m : Line F B, l.element ≠ m.element ∧ l.linetype ≠ m.linetype ∧
    (add (add empty l false).2 m false).1 = .error .value :=
  ⟨⟨['C'], ['o', 'K'], [], true, none, b⟩, ⟨['C', 'o'], ['K'], [], true, none, c⟩, by simp, by simp, by
    simp [add, empty, shortname]⟩

/-- The hypothesis of `history_partial` can be met. -/
example : Plain ['F', 'e', 'K', 'A'] := by
  intro m h
  have := congrArg List.length h
  simp [suffix] at this

/-- Iron, as metal and as oxide, then iron again with and without replacement. -/
example :
    let fe : Line Nat Nat := ⟨['F', 'e'], ['K', 'A'], ['m'], true, none, 1⟩
    let ox : Line Nat Nat := ⟨['F', 'e'], ['K', 'A'], ['o'], false, some 7, 2⟩
    let h := [(fe, false), (ox, false), ({ fe with body := 3 }, false), ({ fe with body := 4 }, true)]
    ((run empty h).spectra ['F', 'e', 'K', 'A']).map Line.body = some 4 ∧
    (call (run empty h) (['F', 'e', 'K', 'A'] ++ suffix)).map (fun m => (m.cls, m.spect.body)) = .ok (none, 4) ∧
    (call (run empty h) (['F', 'e', 'K', 'A', '_', 'o'] ++ suffix)).map (fun m => (m.cls, m.name)) = .ok (some 7, ['F', 'e', 'K', 'A']) := by
  decide +kernel

end Mass.Line.Registry
