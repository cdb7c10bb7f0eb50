import Verif.Names.Props
import Mathlib.Tactic.ByContra
import Mathlib.Data.List.Nodup
/-! C142: the data base of x-ray lines read from text files (mass/calibration/nist_xray_database.py L27-152). Characters are folded as ASCII; the conversion of text to a number is an arbitrary partial function. -/
namespace Mass.Line.Xray
open Mass Mass.Names

/-- is a character white space, as in str.rstrip and str.split (nist_xray_database.py L111, L142) -/
def ws (c : Char) : Bool := c = ' ' || c = '\n' || c = '\t' || c = '\r'

/-- str.rstrip, nist_xray_database.py L142 -/
def rstrip (s : Str) : Str := (s.reverse.dropWhile ws).reverse

/-- the first column of six, `textline[a:b].rstrip()` with a = first - 1, nist_xray_database.py L139-142 -/
def col (first last : Nat) (t : Str) : Str := rstrip ((t.take last).drop (first - 1))

/-- a line of the data base, nist_xray_database.py L139-146. Columns `blend`, `ref` and the raw text are left out. -/
structure XLine (K : Type) where
  element : Str
  transition : Str
  peak : K
  unc : K
  deriving DecidableEq

/-- NISTXrayLine.name, nist_xray_database.py L145 -/
def XLine.name {K : Type} (l : XLine K) : Str := l.element ++ ' ' :: l.transition

/-- NISTXrayLine.__init__ with the default columns, nist_xray_database.py L126-146; `none`: an exception (float fails) -/
def parse {K : Type} (flt : Str → Option K) (t : Str) : Option (XLine K) :=
  match flt (col 45 59 t) with
  | none => none
  | some p => match flt (col 61 72 t) with
    | none => none
    | some u => some ⟨col 1 4 t, col 10 16 t, p, u⟩

/-- `sub in s`, nist_xray_database.py L62, L96-100 -/
def has (sub : Str) : Str → Bool
  | [] => sub.isPrefixOf []
  | c :: t => sub.isPrefixOf (c :: t) || has sub t

/-- the test of L62: is this the line of column titles? nist_xray_database.py L62 -/
def isHead (t : Str) : Bool := has "Theory".toList t && has "Blend".toList t && has "Ref.".toList t

/-- `while True: line = fp.readline(); if …: break`, nist_xray_database.py L60-63: the lines left after at most `fuel` rounds, `none` if the loop is not over then. After the end of the file readline returns the empty text. -/
def skipHead : Nat → List Str → Option (List Str)
  | 0, _ => none
  | n + 1, [] => if isHead [] then some [] else skipHead n []
  | n + 1, t :: r => if isHead t then some r else skipHead n r

/-- the data base: `lines` (newest entry first) and `alllines`, nist_xray_database.py L48-49 -/
structure Db (K : Type) where
  lines : List (Str × XLine K)
  all : List (XLine K)

/-- `self.lines.get(name)` (used for nist_xray_database.py L107, L115) -/
def Db.get {K : Type} (d : Db K) (n : Str) : Option (XLine K) := (d.lines.find? (fun e => decide (e.1 = n))).map Prod.snd

/-- one text line, nist_xray_database.py L65-71. The objects have no __eq__: `alllines` keeps every one. -/
def addLine {K : Type} (flt : Str → Option K) (d : Db K) (t : Str) : Db K :=
  match parse flt t with
  | none => d
  | some l => ⟨(l.name, l) :: d.lines, l :: d.all⟩

/-- one file: `none` cannot be opened, nist_xray_database.py L54-71; the result is `none` if it is not read within `fuel` rounds of the first loop -/
def addFile {K : Type} (flt : Str → Option K) (fuel : Nat) (d : Db K) : Option (List Str) → Option (Db K)
  | none => some d
  | some ls => (skipHead fuel ls).map (fun r => r.foldl (addLine flt) d)

/-- NISTXrayDBFile.__init__ with the contents of its files, nist_xray_database.py L48-74 -/
def loadFrom {K : Type} (flt : Str → Option K) (fuel : Nat) : Db K → List (Option (List Str)) → Option (Db K)
  | d, [] => some d
  | d, f :: r => match addFile flt fuel d f with
    | none => none
    | some d' => loadFrom flt fuel d' r

/-- NISTXrayDBFile(*files), nist_xray_database.py L41-74 -/
def load {K : Type} (flt : Str → Option K) (fuel : Nat) (fs : List (Option (List Str))) : Option (Db K) := loadFrom flt fuel ⟨[], []⟩ fs

/-- LINE_NICKNAMES, nist_xray_database.py L76-89 -/
def nicks : List (Str × Str) :=
  [("KA1".toList, "KL3".toList), ("KA2".toList, "KL2".toList), ("KB1".toList, "KM3".toList), ("KB3".toList, "KM2".toList),
   ("KB5".toList, "KM5".toList), ("LA1".toList, "L3M5".toList), ("LA2".toList, "L3M4".toList), ("Ll".toList, "L3M1".toList),
   ("LB3".toList, "L1M3".toList), ("LB1".toList, "L2M4".toList), ("LB2".toList, "L3N5".toList), ("LG1".toList, "L2N4".toList)]

/-- LINE_NICKNAMES as a dictionary, nist_xray_database.py L102, L121 -/
def nick (s : Str) : Option Str := (nicks.find? (fun e => decide (e.1 = s))).map Prod.snd

/-- str.upper, nist_xray_database.py L95, L113 -/
def upper (s : Str) : Str := s.map Char.toUpper

/-- str.lower, nist_xray_database.py L117 -/
def lower (s : Str) : Str := s.map Char.toLower

/-- str.capitalize, nist_xray_database.py L112 -/
def capitalize : Str → Str
  | [] => []
  | c :: t => c.toUpper :: lower t

/-- str.replace, nist_xray_database.py L97-101, L118-120: `skip` characters of a match are still to be left out -/
def repl (old new : Str) : Nat → Str → Str
  | _, [] => []
  | k + 1, _ :: t => repl old new k t
  | 0, c :: t => if old.isPrefixOf (c :: t) then new ++ repl old new (old.length - 1) t else c :: repl old new 0 t

/-- the beginning of get_lines_by_type, nist_xray_database.py L95-102 -/
def norm (ty : Str) : Str :=
  let t := upper ty
  let t := if has "ALPHA".toList t then repl "ALPHA".toList "A".toList 0 t
    else if has "BETA".toList t then repl "BETA".toList "B".toList 0 t
    else if has "GAMMA".toList t then repl "GAMMA".toList "G".toList 0 t
    else t
  (nick t).getD t

/-- ELEMENTS, nist_xray_database.py L27-36 -/
def elements : List Str :=
  ["", "H", "He", "Li", "Be", "B", "C", "N", "O", "F", "Ne", "Na", "Mg", "Al", "Si", "P", "S", "Cl", "Ar", "K", "Ca", "Sc", "Ti", "V", "Cr",
   "Mn", "Fe", "Co", "Ni", "Cu", "Zn", "Ga", "Ge", "As", "Se", "Br", "Kr", "Rb", "Sr", "Y", "Zr", "Nb", "Mo", "Tc", "Ru", "Rh", "Pd", "Ag", "Cd",
   "In", "Sn", "Sb", "Te", "I", "Xe", "Cs", "Ba", "La", "Ce", "Pr", "Nd", "Pm", "Sm", "Eu", "Gd", "Tb", "Dy", "Ho", "Er", "Tm", "Yb", "Lu", "Hf",
   "Ta", "W", "Re", "Os", "Ir", "Pt", "Au", "Hg", "Tl", "Pb", "Bi", "Po", "At", "Rn", "Fr", "Ra", "Ac", "Th", "Pa", "U", "Np", "Pu", "Am", "Cm",
   "Bk", "Cf", "Es", "Fm", "Md", "No", "Lr"].map String.toList

/-- get_lines_by_type, nist_xray_database.py L92-108 -/
def byType {K : Type} (d : Db K) (ty : Str) : List (XLine K) := elements.filterMap (fun e => d.get (e ++ ' ' :: norm ty))

/-- str.split(): the words of a text, nist_xray_database.py L111 -/
def words (s : Str) : List Str := (s.splitOnP ws).filter (fun w => !w.isEmpty)

/-- the second form of the name of L117-120: lower case, Greek letters by their initial, nist_xray_database.py L117-120 -/
def lc (line : Str) : Str :=
  repl "gamma".toList "g".toList 0 (repl "beta".toList "b".toList 0 (repl "alpha".toList "a".toList 0 (lower line)))

/-- __getitem__, nist_xray_database.py L110-124 -/
def getitem {K : Type} (d : Db K) (key : Str) : Except Exc (XLine K) :=
  match words key with
  | el :: line :: _ =>
    let el := capitalize el
    let line := upper line
    match d.get (el ++ ' ' :: line) with
    | some l => .ok l
    | none => match nick (lc line) with
      | some t => match d.get (el ++ ' ' :: t) with
        | some l => .ok l
        | none => .error .key
      | none => .error .key
  | _ => .error .value

/-! ### proofs -/

theorem toUpper_idem (c : Char) : c.toUpper.toUpper = c.toUpper := by
  unfold Char.toUpper
  split <;> rename_i h
  · rw [dif_neg]
    intro h2
    have ha := h.1; have hb := h.2
    simp only [ge_iff_le, UInt32.le_iff_toNat_le, UInt32.toNat_add] at *
    have e1 : ('a'.val).toNat = 97 := rfl
    have e2 : ('z'.val).toNat = 122 := rfl
    have e3 : ('A'.val - 'a'.val).toNat = 4294967264 := rfl
    rw [e1] at ha
    rw [e2] at hb
    rw [e1, e2, e3] at h2
    omega
  · rfl

theorem upper_upper (s : Str) : upper (upper s) = upper s := by
  unfold upper
  rw [List.map_map]
  exact List.map_congr_left (fun c _ => toUpper_idem c)

theorem toLower_upper (c : Char) : c.toUpper.toLower = c.toLower := by
  unfold Char.toUpper
  split <;> rename_i h
  · have ha := h.1; have hb := h.2
    unfold Char.toLower
    have e1 : ('a'.val).toNat = 97 := rfl
    have e2 : ('z'.val).toNat = 122 := rfl
    have e3 : ('A'.val - 'a'.val).toNat = 4294967264 := rfl
    have e4 : ('A'.val).toNat = 65 := rfl
    have e5 : ('Z'.val).toNat = 90 := rfl
    have e6 : ('a'.val - 'A'.val).toNat = 32 := rfl
    simp only [ge_iff_le, UInt32.le_iff_toNat_le, e1, e2] at ha hb
    rw [dif_pos (by
      simp only [ge_iff_le, UInt32.le_iff_toNat_le, UInt32.toNat_add, e3, e4, e5]
      omega), dif_neg (by
      simp only [ge_iff_le, UInt32.le_iff_toNat_le, e4, e5]
      omega)]
    apply Char.ext
    apply UInt32.toNat_inj.1
    simp only [UInt32.toNat_add, e3, e6]
    omega
  · rfl

/-- [specification] no capital letter -/
def noCap (s : Str) : Prop := ∀ c ∈ s, ¬ ('A' ≤ c ∧ c ≤ 'Z')

theorem lower_noCap (s : Str) : noCap (lower s) := by
  intro c hc
  obtain ⟨d, _, rfl⟩ := List.mem_map.1 hc
  rintro ⟨h1, h2⟩
  rw [Char.le_def, UInt32.le_iff_toNat_le] at h1 h2
  have e4 : ('A'.val).toNat = 65 := rfl
  have e5 : ('Z'.val).toNat = 90 := rfl
  have e6 : ('a'.val - 'A'.val).toNat = 32 := rfl
  rw [e4] at h1
  rw [e5] at h2
  unfold Char.toLower at h1 h2
  split at h1 <;> rename_i h
  · rw [dif_pos h] at h2
    have ha := h.1; have hb := h.2
    simp only [ge_iff_le, UInt32.le_iff_toNat_le, UInt32.toNat_add, e4, e5, e6] at *
    omega
  · rw [dif_neg h] at h2
    apply h
    simp only [ge_iff_le, UInt32.le_iff_toNat_le, e4, e5]
    exact ⟨h1, h2⟩

theorem repl_noCap (old new : Str) (hn : noCap new) : ∀ (s : Str) (k : Nat), noCap s → noCap (repl old new k s)
  | [], k, h => by cases k <;> exact h
  | c :: t, k + 1, h => repl_noCap old new hn t k (fun d hd => h d (List.mem_cons_of_mem _ hd))
  | c :: t, 0, h => by
    unfold repl
    split
    · intro d hd
      rcases List.mem_append.1 hd with hd | hd
      · exact hn d hd
      · exact repl_noCap old new hn t _ (fun d hd => h d (List.mem_cons_of_mem _ hd)) d hd
    · intro d hd
      rcases List.mem_cons.1 hd with rfl | hd
      · exact h _ List.mem_cons_self
      · exact repl_noCap old new hn t _ (fun d hd => h d (List.mem_cons_of_mem _ hd)) d hd

theorem lc_noCap (s : Str) : noCap (lc s) := by
  unfold lc
  refine repl_noCap _ _ ?_ _ _ (repl_noCap _ _ ?_ _ _ (repl_noCap _ _ ?_ _ _ (lower_noCap s))) <;>
    · intro c hc
      have := List.mem_singleton.1 hc
      subst this
      decide

theorem nick_none (s : Str) (h : noCap s) : nick s = none := by
  unfold nick
  rw [Option.map_eq_none_iff, List.find?_eq_none]
  intro e he
  have hc : ∃ c ∈ e.1, 'A' ≤ c ∧ c ≤ 'Z' := by
    revert e
    decide
  intro hs
  have hs := of_decide_eq_true hs
  obtain ⟨c, h1, h2⟩ := hc
  exact h c (hs ▸ h1) h2

/-- C142: looking up a line never uses the nicknames. A key of two or more words gives the line whose name is the first word capitalized and the second in capital letters, and KeyError if there is none; a key of fewer words is a ValueError. -/
theorem getitem_partial {K : Type} (d : Db K) (key : Str) :
    getitem d key = match words key with
      | el :: line :: _ => (match d.get (capitalize el ++ ' ' :: upper line) with
        | some l => .ok l
        | none => .error .key)
      | _ => .error .value := by
  unfold getitem
  rcases words key with _ | ⟨a, _ | ⟨b, t⟩⟩
  · rfl
  · rfl
  · dsimp only
    cases d.get (capitalize a ++ ' ' :: upper b) with
    | some l => rfl
    | none => rw [nick_none _ (lc_noCap _)]

/-- [specification] made of capital letters, small letters and digits only -/
def plain (s : Str) : Prop := ∀ c ∈ s, ws c = false

theorem splitOnP_plain (a r : Str) (c : Char) (h : plain a) (hc : ws c = true) :
    (a ++ c :: r).splitOnP ws = a :: r.splitOnP ws := by
  apply List.splitOnP_first
  · intro x hx
    rw [h x hx]
  · exact hc

theorem splitOnP_all (a : Str) (h : plain a) : a.splitOnP ws = [a] := by
  apply List.splitOnP_eq_single
  intro x hx
  rw [h x hx]

theorem words_two (a b : Str) (ha : plain a) (hb : plain b) (ha0 : a ≠ []) (hb0 : b ≠ []) : words (a ++ ' ' :: b) = [a, b] := by
  unfold words
  rw [splitOnP_plain a b ' ' ha (by decide), splitOnP_all b hb]
  cases a with
  | nil => exact absurd rfl ha0
  | cons x xs => cases b with
    | nil => exact absurd rfl hb0
    | cons y ys => rfl

theorem ws_upper (c : Char) (h : ws c = false) : ws c.toUpper = false := by
  unfold ws at *
  simp only [Bool.or_eq_false_iff, decide_eq_false_iff_not] at *
  unfold Char.toUpper
  split <;> rename_i hh
  · have ha := hh.1; have hb := hh.2
    have e1 : ('a'.val).toNat = 97 := rfl
    have e2 : ('z'.val).toNat = 122 := rfl
    have e3 : ('A'.val - 'a'.val).toNat = 4294967264 := rfl
    simp only [ge_iff_le, UInt32.le_iff_toNat_le, e1, e2] at ha hb
    refine ⟨⟨⟨?_, ?_⟩, ?_⟩, ?_⟩ <;>
      · intro he
        have := congrArg (fun c : Char => c.val.toNat) he
        simp only [UInt32.toNat_add, e3] at this
        have f1 : (' '.val).toNat = 32 := rfl
        have f2 : ('\n'.val).toNat = 10 := rfl
        have f3 : ('\t'.val).toNat = 9 := rfl
        have f4 : ('\r'.val).toNat = 13 := rfl
        omega
  · exact h

/-- C142: looking up is the same in capital and small letters. -/
theorem getitem_case {K : Type} (d : Db K) (a a' b b' : Str) (ha : plain a) (ha' : plain a') (hb : plain b) (hb' : plain b')
    (h1 : a ≠ []) (h2 : b ≠ []) (hae : upper a = upper a') (hbe : upper b = upper b') :
    getitem d (a ++ ' ' :: b) = getitem d (a' ++ ' ' :: b') := by
  have h1' : a' ≠ [] := by
    rintro rfl
    exact h1 (List.map_eq_nil_iff.1 hae)
  have h2' : b' ≠ [] := by
    rintro rfl
    exact h2 (List.map_eq_nil_iff.1 hbe)
  have hcap : capitalize a = capitalize a' := by
    have hl : lower a = lower a' := by
      have := congrArg lower hae
      simp only [lower, upper] at this ⊢
      rw [List.map_map, List.map_map] at this
      have e : (Char.toLower ∘ Char.toUpper) = Char.toLower := funext toLower_upper
      rwa [e] at this
    cases a with
    | nil => exact absurd rfl h1
    | cons x xs => cases a' with
      | nil => exact absurd rfl h1'
      | cons y ys =>
        simp only [upper, lower, List.map_cons, List.cons.injEq] at hae hl
        simp only [capitalize, lower, hae.1, hl.2]
  rw [getitem_partial, getitem_partial, words_two a b ha hb h1 h2, words_two a' b' ha' hb' h1' h2']
  dsimp only
  rw [hcap, hbe]

theorem words_lead (w s : Str) (h : ∀ c ∈ w, ws c = true) : words (w ++ s) = words s := by
  induction w with
  | nil => rfl
  | cons c w ih =>
    rw [← ih (fun x hx => h x (List.mem_cons_of_mem _ hx))]
    unfold words
    have := splitOnP_plain [] (w ++ s) c (by intro x hx; cases hx) (h c List.mem_cons_self)
    rw [List.nil_append] at this
    rw [List.cons_append, this]
    rfl

theorem words_plain (a s : Str) (c : Char) (ha : plain a) (ha0 : a ≠ []) (hc : ws c = true) : words (a ++ c :: s) = a :: words s := by
  unfold words
  rw [splitOnP_plain a s c ha hc]
  cases a with
  | nil => exact absurd rfl ha0
  | cons x xs => rfl

/-- C142: white space before, after and between the two words of a key does not matter, nor which kind it is. -/
theorem getitem_blanks {K : Type} (d : Db K) (u v w a b : Str) (hu : ∀ c ∈ u, ws c = true) (hv : ∀ c ∈ v, ws c = true) (hw : ∀ c ∈ w, ws c = true) (hv0 : v ≠ [])
    (ha : plain a) (hb : plain b) (ha0 : a ≠ []) (hb0 : b ≠ []) : getitem d (u ++ (a ++ (v ++ (b ++ w)))) = getitem d (a ++ ' ' :: b) := by
  have e1 : words (u ++ (a ++ (v ++ (b ++ w)))) = [a, b] := by
    rw [words_lead u _ hu]
    cases v with
    | nil => exact absurd rfl hv0
    | cons c v =>
      rw [List.cons_append, words_plain a _ c ha ha0 (hv c List.mem_cons_self), words_lead v _ (fun x hx => hv x (List.mem_cons_of_mem _ hx))]
      cases w with
      | nil =>
        rw [List.append_nil]
        unfold words
        rw [splitOnP_all b hb]
        cases b with
        | nil => exact absurd rfl hb0
        | cons y ys => rfl
      | cons e w =>
        rw [words_plain b _ e hb hb0 (hw e List.mem_cons_self)]
        have := words_lead w [] (fun x hx => hw x (List.mem_cons_of_mem _ hx))
        rw [List.append_nil] at this
        rw [this]
        rfl
  unfold getitem
  rw [e1, words_two a b ha hb ha0 hb0]

/-- Disagreement (C142): the nicknames of lines (KA1, Kalpha1, LB3, …) are promised by `__getitem__` but never found, whatever is in the data base: unless a line has this very text as its transition the look-up is a KeyError.
The name is put in small letters before it is looked up among nicknames which are in capital letters. -/
theorem nickname_fails {K : Type} (d : Db K) (el ni t : Str) (_hn : (ni, t) ∈ nicks) (he : plain el) (h0 : el ≠ [])
    (hno : d.get (capitalize el ++ ' ' :: upper ni) = none) :
    getitem d (el ++ ' ' :: ni) = .error .key := by
  have hp : plain ni ∧ ni ≠ [] := by
    have : ∀ e ∈ nicks, (∀ c ∈ e.1, ws c = false) ∧ e.1 ≠ [] := by decide
    exact this _ _hn
  rw [getitem_partial, words_two el ni he hp.1 h0 hp.2]
  dsimp only
  rw [hno]

/-- C142: type names are the same in capital and small letters. -/
theorem byType_case {K : Type} (d : Db K) (s t : Str) (h : upper s = upper t) : byType d s = byType d t := by
  unfold byType norm
  rw [h]

/-- C142: every nickname but `Ll` gives the lines of its transition. -/
theorem byType_nick {K : Type} (d : Db K) (ni t : Str) (h : (ni, t) ∈ nicks) (hne : ni ≠ "Ll".toList) :
    byType d ni = byType d t := by
  have : ∀ e ∈ nicks, e.1 ≠ "Ll".toList → norm e.1 = norm e.2 := by decide +kernel
  unfold byType
  rw [this _ h hne]

/-- C142: the spelled-out Greek letters are understood. -/
theorem byType_greek {K : Type} (d : Db K) :
    byType d "Kalpha1".toList = byType d "KL3".toList ∧ byType d "Kalpha2".toList = byType d "KL2".toList ∧
     byType d "Kbeta1".toList = byType d "KM3".toList ∧ byType d "Kbeta3".toList = byType d "KM2".toList ∧
     byType d "Lalpha1".toList = byType d "L3M5".toList ∧ byType d "Lbeta1".toList = byType d "L2M4".toList ∧
     byType d "Lgamma1".toList = byType d "L2N4".toList := by
  have h : norm "Kalpha1".toList = norm "KL3".toList ∧ norm "Kalpha2".toList = norm "KL2".toList ∧
     norm "Kbeta1".toList = norm "KM3".toList ∧ norm "Kbeta3".toList = norm "KM2".toList ∧
     norm "Lalpha1".toList = norm "L3M5".toList ∧ norm "Lbeta1".toList = norm "L2M4".toList ∧
     norm "Lgamma1".toList = norm "L2N4".toList := by decide +kernel
  unfold byType
  rw [h.1, h.2.1, h.2.2.1, h.2.2.2.1, h.2.2.2.2.1, h.2.2.2.2.2.1, h.2.2.2.2.2.2]
  exact ⟨rfl, rfl, rfl, rfl, rfl, rfl, rfl⟩

/-- [specification] the transitions in use -/
def transitions : List Str := ["KL2", "KL3", "KM5", "KM3", "KM2", "L3M5", "L3M4", "L3M1", "L2M4", "L2N4", "L3N5", "L1M3", "L3N7", "M5N7", "M5N6", "M4N6", "M3N5", "M3N4"].map String.toList

/-- C142: for a transition, `get_lines_by_type` has the line of every element which has one, once, by increasing atomic number (the `i`-th element comes before the `j`-th). -/
theorem byType_lines {K : Type} (d : Db K) (t : Str) (ht : t ∈ transitions) :
    byType d t = elements.filterMap (fun e => d.get (e ++ ' ' :: t)) ∧
    (∀ l, l ∈ byType d t ↔ ∃ e ∈ elements, d.get (e ++ ' ' :: t) = some l) := by
  have h : norm t = t := by
    have : ∀ t ∈ transitions, norm t = t := by decide +kernel
    exact this t ht
  have h1 : byType d t = elements.filterMap (fun e => d.get (e ++ ' ' :: t)) := by unfold byType; rw [h]
  refine ⟨h1, fun l => ?_⟩
  rw [h1, List.mem_filterMap]

/-- C142: no element is in the list of elements twice, so that no element's line is given twice. -/
theorem elements_nodup : elements.Nodup := by decide +kernel

/-! ### reading -/

theorem has_iff (sub : Str) : ∀ s : Str, has sub s = true ↔ sub <:+: s
  | [] => by
    unfold has
    rw [List.isPrefixOf_iff_prefix]
    constructor
    · exact List.IsPrefix.isInfix
    · intro h
      rw [List.infix_nil.1 h]
      exact List.prefix_rfl
  | c :: t => by
    unfold has
    rw [Bool.or_eq_true, List.isPrefixOf_iff_prefix, has_iff sub t, List.infix_cons_iff]

/-- C142: the title is the first line which contains the words Theory, Blend and Ref., not a line with only some of them (the definitions of the columns before the title). -/
theorem title_iff (t : Str) : isHead t = true ↔ "Theory".toList <:+: t ∧ "Blend".toList <:+: t ∧ "Ref.".toList <:+: t := by
  unfold isHead
  rw [Bool.and_eq_true, Bool.and_eq_true, has_iff, has_iff, has_iff, and_assoc]

theorem isHead_nil : isHead [] = false := by decide +kernel

theorem skipHead_nil : ∀ n, skipHead n [] = none
  | 0 => rfl
  | n + 1 => by
    unfold skipHead
    rw [isHead_nil]
    exact skipHead_nil n

theorem skipHead_split (a : List Str) (t : Str) (r : List Str) (ha : ∀ x ∈ a, isHead x = false) (ht : isHead t = true) :
    ∀ n, skipHead n (a ++ t :: r) = if a.length < n then some r else none := by
  induction a with
  | nil =>
    intro n
    cases n with
    | zero => rfl
    | succ n =>
      simp only [List.nil_append, skipHead, ht, if_true, List.length_nil, Nat.zero_lt_succ]
  | cons x a ih =>
    intro n
    cases n with
    | zero => simp [skipHead]
    | succ n =>
      simp only [List.cons_append, skipHead, ha x List.mem_cons_self]
      rw [ih (fun y hy => ha y (List.mem_cons_of_mem _ hy))]
      simp

/-- Disagreement (C142): a file without a line of column titles (an empty file, any other text) is never read to an end: the loop looking for the title goes on for ever after the end of the file. -/
theorem no_header_fails {K : Type} (flt : Str → Option K) (d : Db K) (ls : List Str) (h : ∀ x ∈ ls, isHead x = false) (fuel : Nat) :
    addFile flt fuel d (some ls) = none := by
  have : skipHead fuel ls = none := by
    induction ls generalizing fuel with
    | nil => exact skipHead_nil fuel
    | cons x r ih =>
      cases fuel with
      | zero => rfl
      | succ n =>
        simp only [skipHead, h x List.mem_cons_self]
        exact ih (fun y hy => h y (List.mem_cons_of_mem _ hy)) n
  unfold addFile
  dsimp only
  rw [this]; rfl

/-- [specification] what a list of texts has for a name: the last readable one -/
def lastOf {K : Type} (flt : Str → Option K) (n : Str) (ts : List Str) : Option (XLine K) :=
  ((ts.filterMap (parse flt)).filter (fun l => decide (l.name = n))).getLast?

theorem fold_get {K : Type} (flt : Str → Option K) (n : Str) : ∀ (ts : List Str) (d : Db K),
    (ts.foldl (addLine flt) d).get n = (lastOf flt n ts).or (d.get n)
  | [], d => rfl
  | t :: ts, d => by
    rw [List.foldl_cons, fold_get flt n ts]
    unfold addLine lastOf
    cases hp : parse flt t with
    | none => simp only [List.filterMap_cons, hp]
    | some l =>
      simp only [List.filterMap_cons, hp, List.filter_cons]
      by_cases hl : l.name = n
      · simp only [hl, decide_true, if_true, List.getLast?_cons]
        cases ((ts.filterMap (parse flt)).filter (fun l => decide (l.name = n))).getLast? with
        | none => simp [Db.get, hl]
        | some x => rfl
      · simp only [hl, decide_false, Bool.false_eq_true, if_false]
        simp [Db.get, hl]

theorem fold_all {K : Type} (flt : Str → Option K) : ∀ (ts : List Str) (d : Db K),
    (ts.foldl (addLine flt) d).all = (ts.filterMap (parse flt)).reverse ++ d.all
  | [], d => rfl
  | t :: ts, d => by
    rw [List.foldl_cons, fold_all flt ts]
    unfold addLine
    cases hp : parse flt t with
    | none => simp only [List.filterMap_cons, hp]
    | some l => simp only [List.filterMap_cons, hp, List.reverse_cons, List.append_assoc, List.singleton_append]

/-- [specification] a file with text before the title, the title and the lines after it; or one which cannot be opened -/
def goodFile (f : Option (List Str)) (body : List Str) : Prop :=
  (f = none ∧ body = []) ∨ ∃ a t, f = some (a ++ t :: body) ∧ (∀ x ∈ a, isHead x = false) ∧ isHead t = true

theorem loadFrom_ok {K : Type} (flt : Str → Option K) : ∀ (fs : List (Option (List Str))) (bs : List (List Str)) (d : Db K),
    List.Forall₂ goodFile fs bs → ∃ n0, ∀ n, n0 ≤ n → loadFrom flt n d fs = some (bs.flatten.foldl (addLine flt) d)
  | _, _, d, .nil => ⟨0, fun _ _ => rfl⟩
  | f :: fs, b :: bs, d, .cons h t => by
    obtain ⟨n0, h0⟩ := loadFrom_ok flt fs bs (b.foldl (addLine flt) d) t
    rw [List.flatten_cons, List.foldl_append]
    rcases h with ⟨rfl, rfl⟩ | ⟨a, x, rfl, ha, hx⟩
    · refine ⟨n0, fun n hn => ?_⟩
      unfold loadFrom addFile
      exact h0 n hn
    · refine ⟨max n0 (a.length + 1), fun n hn => ?_⟩
      have h1 : n0 ≤ n := by omega
      have h2 : a.length < n := by omega
      unfold loadFrom addFile
      dsimp only
      rw [skipHead_split a x b ha hx, if_pos h2]
      exact h0 n h1

/-- C142: files with a title line are read to the end, whatever comes before the title; the result has for every name the last readable line after the titles, over all files in order, unreadable lines (no measured energy) and files left out;
`alllines` has every readable line. -/
theorem load_partial {K : Type} (flt : Str → Option K) (fs : List (Option (List Str))) (bs : List (List Str)) (h : List.Forall₂ goodFile fs bs) :
    ∃ (d : Db K) (n0 : Nat), (∀ n, n0 ≤ n → load flt n fs = some d) ∧ (∀ name, d.get name = lastOf flt name bs.flatten) ∧
      d.all.reverse = bs.flatten.filterMap (parse flt) := by
  obtain ⟨n0, h0⟩ := loadFrom_ok flt fs bs ⟨[], []⟩ h
  refine ⟨_, n0, h0, fun name => ?_, ?_⟩
  · rw [fold_get]
    cases lastOf flt name bs.flatten <;> rfl
  · rw [fold_all, List.append_nil, List.reverse_reverse]

/-- [specification] text padded with blanks to a width -/
def pad (w : Nat) (s : Str) : Str := s ++ List.replicate (w - s.length) ' '

theorem rstrip_pad (s : Str) (w : Nat) (h : ∀ c ∈ s, ws c = false) : rstrip (s ++ List.replicate w ' ') = s := by
  unfold rstrip
  rw [List.reverse_append, List.reverse_replicate]
  have h1 : (List.replicate w ' ' ++ s.reverse).dropWhile ws = s.reverse := by
    induction w with
    | zero =>
      simp only [List.replicate_zero, List.nil_append]
      cases hr : s.reverse with
      | nil => rfl
      | cons c t =>
        have : c ∈ s := by rw [← List.mem_reverse, hr]; exact List.mem_cons_self
        rw [List.dropWhile_cons, h c this]; rfl
    | succ w ih =>
      rw [List.replicate_succ, List.cons_append, List.dropWhile_cons]
      exact ih
  rw [h1, List.reverse_reverse]

theorem pad_length (w : Nat) (s : Str) (h : s.length ≤ w) : (pad w s).length = w := by
  simp [pad]; omega

theorem col_pad (pre s rest : Str) (first w v : Nat) (hf : pre.length + 1 = first) (hs : s.length ≤ w) (hp : ∀ c ∈ s, ws c = false)
    (hv : w ≤ v) : col first (pre.length + w) (pre ++ pad v s ++ rest) = s := by
  unfold col
  have h1 : first - 1 = pre.length := by omega
  rw [h1, List.drop_take, List.append_assoc, List.drop_left]
  have h2 : pre.length + w - pre.length = w := by omega
  rw [h2]
  have h3 : pad v s ++ rest = (s ++ List.replicate (w - s.length) ' ') ++ (List.replicate (v - w) ' ' ++ rest) := by
    unfold pad
    have : v - s.length = (w - s.length) + (v - w) := by omega
    rw [this, List.replicate_add]
    simp only [List.append_assoc]
  rw [h3]
  have h4 : (s ++ List.replicate (w - s.length) ' ').length = w := by simp; omega
  rw [List.take_append_of_le_length (by omega), List.take_of_length_le (by omega)]
  exact rstrip_pad s _ hp

/-- C142: a line laid out in the columns of the header is read as it was written, whatever stands in the columns of mass number and theory and after the uncertainty. -/
theorem columns {K : Type} (flt : Str → Option K) (el tr pk un mass theory rest : Str) (p u : K)
    (h1 : el.length ≤ 4) (h2 : tr.length ≤ 7) (h3 : pk.length ≤ 15) (h4 : un.length ≤ 12)
    (hm : mass.length = 4) (ht : theory.length = 28)
    (hel : ∀ c ∈ el, ws c = false) (htr : ∀ c ∈ tr, ws c = false) (hpk : ∀ c ∈ pk, ws c = false) (hun : ∀ c ∈ un, ws c = false)
    (hp : flt pk = some p) (hu : flt un = some u) :
    parse flt (pad 5 el ++ mass ++ pad 7 tr ++ theory ++ pad 16 pk ++ pad 12 un ++ rest) = some ⟨el, tr, p, u⟩ := by
  have l1 := pad_length 5 el (by omega)
  have l2 := pad_length 7 tr h2
  have l3 := pad_length 16 pk (by omega)
  have c1 : col 1 4 (pad 5 el ++ mass ++ pad 7 tr ++ theory ++ pad 16 pk ++ pad 12 un ++ rest) = el := by
    have := col_pad [] el (mass ++ pad 7 tr ++ theory ++ pad 16 pk ++ pad 12 un ++ rest) 1 4 5 rfl h1 hel (by omega)
    simpa [List.append_assoc] using this
  have c2 : col 10 16 (pad 5 el ++ mass ++ pad 7 tr ++ theory ++ pad 16 pk ++ pad 12 un ++ rest) = tr := by
    have := col_pad (pad 5 el ++ mass) tr (theory ++ pad 16 pk ++ pad 12 un ++ rest) 10 7 7 (by simp [l1, hm]) h2 htr (by omega)
    simpa [List.append_assoc, l1, hm] using this
  have c3 : col 45 59 (pad 5 el ++ mass ++ pad 7 tr ++ theory ++ pad 16 pk ++ pad 12 un ++ rest) = pk := by
    have := col_pad (pad 5 el ++ mass ++ pad 7 tr ++ theory) pk (pad 12 un ++ rest) 45 15 16 (by simp [l1, l2, hm, ht]) h3 hpk (by omega)
    simpa [List.append_assoc, l1, l2, hm, ht] using this
  have c4 : col 61 72 (pad 5 el ++ mass ++ pad 7 tr ++ theory ++ pad 16 pk ++ pad 12 un ++ rest) = un := by
    have := col_pad (pad 5 el ++ mass ++ pad 7 tr ++ theory ++ pad 16 pk) un rest 61 12 12 (by simp [l1, l2, l3, hm, ht]) h4 hun (by omega)
    simpa [List.append_assoc, l1, l2, l3, hm, ht] using this
  unfold parse
  rw [c1, c2, c3, c4, hp]
  dsimp only
  rw [hu]

/-! ### examples -/

/-- [specification] a number of two digits -/
def flt2 : Str → Option Nat
  | [a, b] => if a.isDigit && b.isDigit then some ((a.toNat - 48) * 10 + (b.toNat - 48)) else none
  | _ => none

/-- [specification] a small file: title and three lines, one of them without an energy -/
def file1 : List Str :=
  ["Theory (eV) = 18 - 30", "Ele. A   Trans.  Theory (eV)   Unc. (eV)    Direct (eV)     Unc. (eV)    Blend  Ref.",
   "Mn       KL3     5898.82       0.14         58              01                  1d",
   "Cl       L3M1    183.31        0.83         18              02",
   "P        L1M3    186.4         1.0"].map String.toList

/-- [specification] the data base of `file1` -/
def db1 : Db Nat := ((load flt2 9 [none, some file1]).getD ⟨[], []⟩)

example : db1.all.map (fun l => String.ofList l.name) = ["Cl L3M1", "Mn KL3"] := by decide +kernel
example : (match getitem db1 "mn kl3 x".toList with | .ok l => some l.peak | _ => none) = some 58 := by decide +kernel
example : (byType db1 "Kalpha1".toList).map XLine.peak = [58] := by decide +kernel

/-- Disagreement (C142): `db["Mn KA1"]` is a KeyError though the line Mn KL3 is there and `get_lines_by_type("KA1")` finds it. -/
theorem nickname_witness_fails : (byType db1 "KA1".toList).map XLine.name = ["Mn KL3".toList] ∧
    (match getitem db1 "Mn KA1".toList with | .error .key => true | _ => false) = true := by decide +kernel

/-- Disagreement (C142): the nickname `Ll` never works: the name is put in capital letters, and only `Ll` is a nickname. With the line Cl L3M1 in the data base, asking for Ll gives nothing. -/
theorem ll_fails : byType db1 "Ll".toList = [] ∧ (byType db1 "L3M1".toList).map XLine.name = ["Cl L3M1".toList] := by decide +kernel

end Mass.Line.Xray
