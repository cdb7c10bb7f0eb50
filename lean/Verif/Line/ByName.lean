import Verif.Line.XrayDb
import Verif.Line.Hci
import Mathlib.Analysis.SpecialFunctions.Log.Base
import Mathlib.Tactic.Positivity
import Mathlib.Tactic.Linarith
/-! Lines and models by name: `LineEnergies` (mass/calibration/energy_calibration.py L15-51), `get_model` (mass/calibration/algorithms.py L175-200), the starting
values and bounds of line models and the report of a fit (mass/calibration/line_models.py L301-358), and the ready-made models of highly charged ions
(mass/calibration/hci_models.py L109-135, L157-222): C149. -/
namespace Mass.Line.ByName
open Mass Mass.Names Mass.Line.Xray

/-! #### `LineEnergies` -/

section
variable {K : Type}

/-- `db.lines` as a Python dictionary: the place of the first, the value of the last line of a name; used at mass/calibration/energy_calibration.py L32 -/
def items (d : Xray.Db K) : List (Str × XLine K) := d.lines.reverse.foldl (fun h e => Asd.put e.1 e.2 h) []

/-- the dictionary of nicknames turned around, mass/calibration/energy_calibration.py L29 (a later one replaces an earlier one) -/
def altName (t : Str) : Option Str := (nicks.reverse.find? (fun e => decide (e.2 = t))).map Prod.fst

/-- `replace("A", "Alpha").replace("B", "Beta").replace("G", "Gamma")`, mass/calibration/energy_calibration.py L37-38 -/
def longName (s : Str) : Str := Xray.repl "G".toList "Gamma".toList 0 (Xray.repl "B".toList "Beta".toList 0 (Xray.repl "A".toList "Alpha".toList 0 s))

/-- all names of a transition, mass/calibration/energy_calibration.py L34-45 -/
def allNames (t : Str) : List Str :=
  match altName t with
  | none => [t]
  | some s => [t, s, longName s] ++ (if s.getLast? = some '1' then [s.dropLast, (longName s).dropLast] else [])

/-- `fullname.split(" ", 1)`, mass/calibration/energy_calibration.py L33 (the names of the data base have a space) -/
def splitName (s : Str) : Str × Str := (s.takeWhile (· ≠ ' '), (s.dropWhile (· ≠ ' ')).drop 1)

/-- `LineEnergies`, mass/calibration/energy_calibration.py L15-51 -/
def lineEnergies (d : Xray.Db K) : List (Str × K) :=
  (items d).foldl (fun data e => (allNames (splitName e.1).2).foldl (fun data n => Asd.put ((splitName e.1).1 ++ n) e.2.peak data) data) []

/-- the value of a dictionary, used at mass/calibration/algorithms.py L181-185 -/
def look {α : Type} (h : List (Str × α)) (n : Str) : Option α := (h.find? (fun e => decide (e.1 = n))).map Prod.snd

theorem look_put {α : Type} (a b : Str) (v : α) (h : List (Str × α)) : look (Asd.put a v h) b = if a = b then some v else look h b := Asd.put_lookup a b v h

theorem mem_put {α : Type} (a : Str) (v : α) (h : List (Str × α)) (e : Str × α) (he : e ∈ Asd.put a v h) : e = (a, v) ∨ e ∈ h := by
  induction h with
  | nil => left; simpa [Asd.put] using he
  | cons x t ih =>
    unfold Asd.put at he
    split at he
    · rcases List.mem_cons.mp he with rfl | h'
      · exact Or.inl rfl
      · exact Or.inr (by simp [h'])
    · rcases List.mem_cons.mp he with rfl | h'
      · exact Or.inr (by simp)
      · rcases ih h' with h1 | h1
        · exact Or.inl h1
        · exact Or.inr (by simp [h1])

theorem items_look (d : Xray.Db K) (n : Str) : look (items d) n = d.get n := by
  have gen : ∀ (l : List (Str × XLine K)) (h : List (Str × XLine K)),
      look (l.reverse.foldl (fun h e => Asd.put e.1 e.2 h) h) n = ((l.find? (fun e => decide (e.1 = n))).map Prod.snd).or (look h n) := by
    intro l
    induction l with
    | nil => intro h; simp
    | cons e t ih =>
      intro h
      rw [List.reverse_cons, List.foldl_append]
      simp only [List.foldl_cons, List.foldl_nil]
      rw [look_put]
      by_cases he : e.1 = n
      · simp [he]
      · rw [if_neg he, ih, List.find?_cons_of_neg (by simpa using he)]
  unfold items
  rw [gen d.lines []]
  simp [look, Xray.Db.get]

/-- the keys of a dictionary made by assignments are different [specification] -/
theorem put_nodup {α : Type} (a : Str) (v : α) (h : List (Str × α)) (hn : (h.map Prod.fst).Nodup) : ((Asd.put a v h).map Prod.fst).Nodup := by
  induction h with
  | nil => simp [Asd.put]
  | cons x t ih =>
    unfold Asd.put
    rw [List.map_cons, List.nodup_cons] at hn
    split
    · rename_i hx
      rw [List.map_cons, List.nodup_cons]
      exact ⟨hx ▸ hn.1, hn.2⟩
    · rename_i hx
      rw [List.map_cons, List.nodup_cons]
      refine ⟨fun hm => ?_, ih hn.2⟩
      obtain ⟨e, he, e1⟩ := List.mem_map.mp hm
      rcases mem_put a v t e he with rfl | h'
      · exact hx e1.symm
      · exact hn.1 (e1 ▸ List.mem_map_of_mem h')

theorem items_nodup (d : Xray.Db K) : ((items d).map Prod.fst).Nodup := by
  have gen : ∀ (l h : List (Str × XLine K)), (h.map Prod.fst).Nodup → ((l.foldl (fun h e => Asd.put e.1 e.2 h) h).map Prod.fst).Nodup := by
    intro l
    induction l with
    | nil => intro h hn; exact hn
    | cons e t ih => intro h hn; exact ih _ (put_nodup e.1 e.2 h hn)
  exact gen _ [] (by simp)

theorem look_of_mem {α : Type} (h : List (Str × α)) (hn : (h.map Prod.fst).Nodup) (e : Str × α) (he : e ∈ h) : look h e.1 = some e.2 := by
  induction h with
  | nil => cases he
  | cons x t ih =>
    rw [List.map_cons, List.nodup_cons] at hn
    unfold look
    rcases List.mem_cons.mp he with rfl | h'
    · simp
    · have : x.1 ≠ e.1 := fun e1 => hn.1 (e1 ▸ List.mem_map_of_mem h')
      rw [List.find?_cons_of_neg (by simpa using this)]
      exact ih hn.2 h'

theorem mem_of_look {α : Type} (h : List (Str × α)) (n : Str) (v : α) (he : look h n = some v) : (n, v) ∈ h := by
  unfold look at he
  obtain ⟨x, hx, rfl⟩ := Option.map_eq_some_iff.mp he
  have h1 := List.mem_of_find?_eq_some hx
  have h2 := List.find?_some hx
  have h2 : x.1 = n := by simpa using h2
  subst h2
  exact h1

/-- a name ready for the table: an element of the periodic table, a space and one of the transitions in use [specification] -/
def Proper (d : Xray.Db K) : Prop := ∀ n l, d.get n = some l → ∃ el t, el ∈ elements ∧ el ≠ [] ∧ t ∈ transitions ∧ n = el ++ ' ' :: t

theorem splitName_eq (el t : Str) (h : ' ' ∉ el) : splitName (el ++ ' ' :: t) = (el, t) := by
  unfold splitName
  have h1 : ∀ c ∈ el, (decide (c ≠ ' ')) = true := by
    intro c hc
    simp only [ne_eq, decide_eq_true_eq]
    rintro rfl; exact h hc
  rw [List.takeWhile_append_of_pos h1, List.dropWhile_append_of_pos h1]
  simp

/-- the symbol at the beginning of a key: a letter and the small letters after it [specification] -/
def symbol : Str → Str
  | [] => []
  | c :: t => c :: t.takeWhile Char.isLower

theorem element_facts : ∀ el ∈ elements, ' ' ∉ el ∧ (el ≠ [] → el.tail.all Char.isLower = true) := by decide +kernel

theorem names_facts : ∀ t ∈ transitions, ∀ n ∈ allNames t, (n.headD 'a').isLower = false ∧ n ≠ [] := by decide +kernel

theorem names_disjoint : ∀ t ∈ transitions, ∀ t' ∈ transitions, t ≠ t' → ∀ n ∈ allNames t, n ∉ allNames t' := by decide +kernel

theorem symbol_append (el n : Str) (hne : el ≠ []) (hl : el.tail.all Char.isLower = true) (hn : (n.headD 'a').isLower = false) : symbol (el ++ n) = el := by
  obtain ⟨c, t, rfl⟩ := List.exists_cons_of_ne_nil hne
  simp only [List.tail_cons] at hl
  simp only [List.cons_append, symbol]
  rw [List.takeWhile_append_of_pos (by simpa using hl)]
  cases n with
  | nil => simp at hn
  | cons a s => simp at hn; simp [hn]

theorem key_inj (el el' t t' n n' : Str) (he : el ∈ elements) (he' : el' ∈ elements) (h0 : el ≠ []) (h0' : el' ≠ []) (ht : t ∈ transitions) (ht' : t' ∈ transitions)
    (hn : n ∈ allNames t) (hn' : n' ∈ allNames t') (h : el ++ n = el' ++ n') : el = el' ∧ t = t' := by
  have e : el = el' := by
    rw [← symbol_append el n h0 ((element_facts el he).2 h0) (names_facts t ht n hn).1, h,
      symbol_append el' n' h0' ((element_facts el' he').2 h0') (names_facts t' ht' n' hn').1]
  subst e
  refine ⟨rfl, ?_⟩
  by_contra hne
  have := List.append_cancel_left h
  subst this
  exact names_disjoint t ht t' ht' hne n hn hn'

theorem fold_puts (el : Str) (v : K) (ns : List Str) (data : List (Str × K)) (k : Str) :
    look (ns.foldl (fun data n => Asd.put (el ++ n) v data) data) k = if ∃ n ∈ ns, el ++ n = k then some v else look data k := by
  induction ns generalizing data with
  | nil => simp
  | cons a t ih =>
    rw [List.foldl_cons, ih, look_put]
    by_cases h1 : ∃ n ∈ t, el ++ n = k
    · rw [if_pos h1, if_pos]
      obtain ⟨n, hn, e⟩ := h1
      exact ⟨n, by simp [hn], e⟩
    · rw [if_neg h1]
      by_cases h2 : el ++ a = k
      · rw [if_pos h2, if_pos ⟨a, by simp, h2⟩]
      · rw [if_neg h2, if_neg]
        rintro ⟨n, hn, e⟩
        rcases List.mem_cons.mp hn with rfl | h'
        · exact h2 e
        · exact h1 ⟨n, h', e⟩

/-- C149: every line of the data base is in the table of energies under each of its names, and nothing else is. -/
theorem line_energies_spec (d : Xray.Db K) (hd : Proper d) (k : Str) (v : K) :
    look (lineEnergies d) k = some v ↔ ∃ el t n l, d.get (el ++ ' ' :: t) = some l ∧ el ∈ elements ∧ t ∈ transitions ∧ n ∈ allNames t ∧ k = el ++ n ∧ v = l.peak := by
  have hmem : ∀ e ∈ items d, ∃ el t, el ∈ elements ∧ el ≠ [] ∧ t ∈ transitions ∧ e.1 = el ++ ' ' :: t ∧ splitName e.1 = (el, t) ∧ d.get e.1 = some e.2 := by
    intro e he
    have h1 := look_of_mem _ (items_nodup d) e he
    rw [items_look] at h1
    obtain ⟨el, t, a, b, c, hh⟩ := hd _ _ h1
    exact ⟨el, t, a, b, c, hh, by rw [hh, splitName_eq el t (element_facts el a).1], h1⟩
  have gen : ∀ (its : List (Str × XLine K)) (data : List (Str × K)), (its.map Prod.fst).Nodup → (∀ e ∈ its, e ∈ items d) →
      ∀ k, look (its.foldl (fun data e => (allNames (splitName e.1).2).foldl (fun data n => Asd.put ((splitName e.1).1 ++ n) e.2.peak data) data) data) k =
        match its.find? (fun e : Str × XLine K => decide (∃ n ∈ allNames (splitName e.1).2, (splitName e.1).1 ++ n = k)) with
        | some e => some e.2.peak
        | none => look data k := by
    intro its
    induction its with
    | nil => intro data _ _ k; rfl
    | cons e s ih =>
      intro data hn hsub k
      rw [List.map_cons, List.nodup_cons] at hn
      rw [List.foldl_cons, ih _ hn.2 (fun x hx => hsub x (by simp [hx]))]
      by_cases hk : ∃ n ∈ allNames (splitName e.1).2, (splitName e.1).1 ++ n = k
      · have hnone : s.find? (fun e : Str × XLine K => decide (∃ n ∈ allNames (splitName e.1).2, (splitName e.1).1 ++ n = k)) = none := by
          rw [List.find?_eq_none]
          intro x hx hp
          obtain ⟨n', hn', e'⟩ := of_decide_eq_true hp
          obtain ⟨n, hnn, e1⟩ := hk
          obtain ⟨el, t, a1, a2, a3, a4, a5, _⟩ := hmem e (hsub e (by simp))
          obtain ⟨el', t', b1, b2, b3, b4, b5, _⟩ := hmem x (hsub x (by simp [hx]))
          rw [a5] at hnn e1
          rw [b5] at hn' e'
          obtain ⟨q1, q2⟩ := key_inj el el' t t' n n' a1 b1 a2 b2 a3 b3 hnn hn' (e1.trans e'.symm)
          exact hn.1 (by rw [a4, q1, q2, ← b4]; exact List.mem_map_of_mem hx)
        rw [hnone, List.find?_cons_of_pos (by simpa using hk)]
        dsimp only
        rw [fold_puts, if_pos hk]
      · rw [List.find?_cons_of_neg (by simpa using hk)]
        split
        · rfl
        · rw [fold_puts, if_neg hk]
  unfold lineEnergies
  rw [gen (items d) [] (items_nodup d) (fun _ h => h) k]
  constructor
  · intro h
    split at h
    · rename_i e he
      have h1 := List.mem_of_find?_eq_some he
      have hq := List.find?_some he
      obtain ⟨n, hn, hk⟩ := of_decide_eq_true hq
      obtain ⟨el, t, a1, a2, a3, a4, a5, a6⟩ := hmem e h1
      rw [a5] at hn hk
      exact ⟨el, t, n, e.2, a4 ▸ a6, a1, a3, hn, hk.symm, (Option.some.inj h).symm⟩
    · simp [look] at h
  · rintro ⟨el, t, n, l, hg, he, ht, hn, rfl, rfl⟩
    have hm : (el ++ ' ' :: t, l) ∈ items d := mem_of_look _ _ _ (by rw [items_look]; exact hg)
    have hs : splitName (el ++ ' ' :: t) = (el, t) := splitName_eq el t (element_facts el he).1
    have h0 : el ≠ [] := by
      obtain ⟨el', t', b1, b2, b3, b4, b5, _⟩ := hmem _ hm
      rw [hs] at b5
      have : el = el' := congrArg Prod.fst b5
      exact this ▸ b2
    cases hf : (items d).find? (fun e : Str × XLine K => decide (∃ n' ∈ allNames (splitName e.1).2, (splitName e.1).1 ++ n' = el ++ n)) with
    | none =>
      rw [List.find?_eq_none] at hf
      exact absurd (hf _ hm) (by
        simp only [hs, decide_eq_true_eq, not_not]
        exact ⟨n, hn, rfl⟩)
    | some e =>
      have h1 := List.mem_of_find?_eq_some hf
      have hq := List.find?_some hf
      obtain ⟨n', hn', hk⟩ := of_decide_eq_true hq
      obtain ⟨el', t', b1, b2, b3, b4, b5, b6⟩ := hmem e h1
      rw [b5] at hn' hk
      obtain ⟨q1, q2⟩ := key_inj el' el t' t n' n b1 he b2 h0 b3 ht hn' hn hk
      subst q1; subst q2
      rw [b4, hg] at b6
      dsimp only
      rw [Option.some.inj b6]

/-- C149: the four names of the documentation (MnKAlpha, MnKA, MnKA1, MnKL3) and MnKAlpha1 mean the same line, for every element. -/
theorem documented_names (d : Xray.Db K) (hd : Proper d) (el : Str) (he : el ∈ elements) (l : XLine K) (h : d.get (el ++ ' ' :: "KL3".toList) = some l) :
    ∀ n ∈ ["KAlpha", "KA", "KA1", "KL3", "KAlpha1"], look (lineEnergies d) (el ++ n.toList) = some l.peak := by
  intro n hn
  have h1 : ∀ n ∈ ["KAlpha", "KA", "KA1", "KL3", "KAlpha1"], n.toList ∈ allNames "KL3".toList := by decide +kernel
  exact (line_energies_spec d hd _ _).mpr ⟨el, "KL3".toList, n.toList, l, h, he, by decide +kernel, h1 n hn, rfl, rfl⟩

/-- the names in use for each transition with a Siegbahn name [specification] -/
def usual : List (String × List String) :=
  [("KL3", ["KL3", "KA1", "KAlpha1", "KA", "KAlpha"]),
   ("KL2", ["KL2", "KA2", "KAlpha2"]),
   ("KM3", ["KM3", "KB1", "KBeta1", "KB", "KBeta"]),
   ("KM2", ["KM2", "KB3", "KBeta3"]),
   ("KM5", ["KM5", "KB5", "KBeta5"]),
   ("L3M5", ["L3M5", "LA1", "LAlpha1", "LA", "LAlpha"]),
   ("L3M4", ["L3M4", "LA2", "LAlpha2"]),
   ("L3M1", ["L3M1", "Ll"]),
   ("L1M3", ["L1M3", "LB3", "LBeta3"]),
   ("L2M4", ["L2M4", "LB1", "LBeta1", "LB", "LBeta"]),
   ("L3N5", ["L3N5", "LB2", "LBeta2"]),
   ("L2N4", ["L2N4", "LG1", "LGamma1", "LG", "LGamma"])]

/-- C149: every line with a Siegbahn name has its energy under the names of both notations, short and long (MnKL3, MnKA1, MnKAlpha1; the first of a series also without its number). -/
theorem usual_names (d : Xray.Db K) (hd : Proper d) (el : Str) (he : el ∈ elements) (t : String) (ns : List String) (ht : (t, ns) ∈ usual) (l : XLine K)
    (h : d.get (el ++ ' ' :: t.toList) = some l) : ∀ n ∈ ns, look (lineEnergies d) (el ++ n.toList) = some l.peak := by
  intro n hn
  have h1 : ∀ e ∈ usual, e.1.toList ∈ transitions ∧ ∀ n ∈ e.2, n.toList ∈ allNames e.1.toList := by decide +kernel
  obtain ⟨h2, h3⟩ := h1 _ ht
  exact (line_energies_spec d hd _ _).mpr ⟨el, t.toList, n.toList, l, h, he, h2, h3 n hn, rfl, rfl⟩

example : (lineEnergies db1).map (fun e => (String.ofList e.1, e.2)) =
    [("MnKL3", 58), ("MnKA1", 58), ("MnKAlpha1", 58), ("MnKA", 58), ("MnKAlpha", 58), ("ClL3M1", 18), ("ClLl", 18)] := by decide +kernel

/-! #### `get_model` -/

/-- what `get_model` may be given: a model (by its line), a line, a text, something convertible to a number (with its text), or something else [specification] -/
inductive Arg (K L : Type)
  | model (l : L)
  | line (l : L)
  | text (s : Str)
  | number (shown : Str) (e : K)
  | other

/-- the line found: an existing one, or a narrow line of this name and energy [specification] -/
inductive Found (K L : Type)
  | known (l : L)
  | narrow (name : Str) (e : K)

/-- the line chosen by `get_model`, mass/calibration/algorithms.py L175-199 (FailedToGetModelException is an Exception); `spectra` the lines with a known shape,
`std` the table of energies -/
def getLine {K L : Type} (spectra : List (Str × L)) (std : List (Str × K)) : Arg K L → Except Exc (Found K L)
  | .model l => .ok (.known l)
  | .line l => .ok (.known l)
  | .text s =>
    match look spectra s with
    | some l => .ok (.known l)
    | none => match look std s with
      | some e => .ok (.narrow s e)
      | none => .error .exception
  | .number shown e => .ok (.narrow (shown ++ "eV".toList) e)
  | .other => .error .exception

/-- C149: under any of the names of a line of the data base, `get_model` finds the line of known shape registered under that name, or else a narrow line of that
name at the energy of the data base. A text that is neither is refused, even if it reads as a number. -/
theorem get_model_spec {L : Type} (d : Xray.Db K) (hd : Proper d) (spectra : List (Str × L)) (s : Str) :
    (∀ l, look spectra s = some l → getLine spectra (lineEnergies d) (.text s) = .ok (.known l)) ∧
    (look spectra s = none → ∀ el t l, el ∈ elements → t ∈ transitions → d.get (el ++ ' ' :: t) = some l → (∃ n ∈ allNames t, s = el ++ n) →
      getLine spectra (lineEnergies d) (.text s) = .ok (.narrow s l.peak)) ∧
    (look spectra s = none → (¬ ∃ el t n, el ∈ elements ∧ t ∈ transitions ∧ (d.get (el ++ ' ' :: t)).isSome ∧ n ∈ allNames t ∧ s = el ++ n) →
      getLine spectra (lineEnergies d) (.text s) = .error .exception) := by
  refine ⟨fun l h => by simp [getLine, h], ?_, ?_⟩
  · rintro h el t l he ht hg ⟨n, hn, e⟩
    have := (line_energies_spec d hd s l.peak).mpr ⟨el, t, n, l, hg, he, ht, hn, e, rfl⟩
    simp [getLine, h, this]
  · intro h hno
    cases hl : look (lineEnergies d) s with
    | none => simp [getLine, h, hl]
    | some v =>
      obtain ⟨el, t, n, l, hg, he, ht, hn, e, _⟩ := (line_energies_spec d hd s v).mp hl
      exact absurd ⟨el, t, n, he, ht, by simp [hg], hn, e⟩ hno

example : (match getLine [("MnKA".toList, true)] (lineEnergies db1) (.text "ClLl".toList) with | .ok (.narrow s e) => some (String.ofList s, e) | _ => none) = some ("ClLl", 18) ∧
    (match getLine [("MnKA".toList, true)] (lineEnergies db1) (.text "MnKA".toList) with | .ok (.known l) => some l | _ => none) = some true := by decide +kernel

end

/-! #### Starting values and bounds -/

/-- a hint: starting value, bounds, whether varied [specification] -/
structure Hint (K : Type) where
  name : String
  value : K
  min : Option K
  max : Option K
  vary : Bool

/-- `_set_paramhints_prefix`, mass/calibration/line_models.py L301-314, for a line of nominal energy `e` -/
def hints {K : Type} [Field K] (e : K) (background tails : Bool) : List (Hint K) :=
  [⟨"fwhm", e / 1000, some (e / 10000), some e, true⟩, ⟨"peak_ph", e, some 0, none, true⟩, ⟨"dph_de", 1, some (1 / 100), some 100, true⟩, ⟨"integral", 100, some 0, none, true⟩] ++
  (if background then [⟨"background", 1, some 0, none, true⟩, ⟨"bg_slope", 0, none, none, false⟩] else []) ++
  (if tails then [⟨"tail_frac", 5 / 100, some 0, some 1, true⟩, ⟨"tail_tau", e / 200, some 0, some (e / 10), true⟩, ⟨"tail_share_hi", 0, some 0, some 1, false⟩,
    ⟨"tail_tau_hi", e / 200, some 0, some (e / 10), false⟩] else [])

/-- C149: for any line of positive energy, every parameter that is fitted starts strictly inside its bounds, and every other within them. -/
theorem hints_spec {K : Type} [Field K] [LinearOrder K] [IsStrictOrderedRing K] (e : K) (he : 0 < e) (background tails : Bool) :
    ∀ h ∈ hints e background tails, (∀ a, h.min = some a → a ≤ h.value ∧ (h.vary = true → a < h.value)) ∧ (∀ b, h.max = some b → h.value ≤ b ∧ (h.vary = true → h.value < b)) := by
  intro h hh
  unfold hints at hh
  simp only [List.mem_append] at hh
  have e1 : e / 10000 < e / 1000 := div_lt_div_of_pos_left he (by norm_num) (by norm_num)
  have e2 : e / 1000 < e := div_lt_self he (by norm_num)
  have e3 : e / 200 < e / 10 := div_lt_div_of_pos_left he (by norm_num) (by norm_num)
  have e4 : 0 < e / 200 := by positivity
  rcases hh with (hh | hh) | hh
  · simp only [List.mem_cons, List.not_mem_nil, or_false] at hh
    rcases hh with rfl | rfl | rfl | rfl <;> refine ⟨?_, ?_⟩ <;> intro a ha <;> simp only [Option.some.injEq, reduceCtorEq] at ha
    · subst ha; exact ⟨e1.le, fun _ => e1⟩
    · subst ha; exact ⟨e2.le, fun _ => e2⟩
    · subst ha; exact ⟨he.le, fun _ => he⟩
    · subst ha; exact ⟨by norm_num, fun _ => by norm_num⟩
    · subst ha; exact ⟨by norm_num, fun _ => by norm_num⟩
    · subst ha; exact ⟨by norm_num, fun _ => by norm_num⟩
  · cases background
    · simp at hh
    · simp only [if_true, List.mem_cons, List.not_mem_nil, or_false] at hh
      rcases hh with rfl | rfl <;> refine ⟨?_, ?_⟩ <;> intro a ha <;> simp only [Option.some.injEq, reduceCtorEq] at ha
      subst ha; exact ⟨by norm_num, fun _ => by norm_num⟩
  · cases tails
    · simp at hh
    · simp only [if_true, List.mem_cons, List.not_mem_nil, or_false] at hh
      rcases hh with rfl | rfl | rfl | rfl <;> refine ⟨?_, ?_⟩ <;> intro a ha <;> simp only [Option.some.injEq] at ha <;> subst ha
      · exact ⟨by norm_num, fun _ => by norm_num⟩
      · exact ⟨by norm_num, fun _ => by norm_num⟩
      · exact ⟨e4.le, fun _ => e4⟩
      · exact ⟨e3.le, fun _ => e3⟩
      · exact ⟨le_rfl, fun h => absurd h (by simp)⟩
      · exact ⟨by norm_num, fun _ => by norm_num⟩
      · exact ⟨e4.le, fun _ => e4⟩
      · exact ⟨e3.le, fun _ => e3⟩

example : ((hints (6000 : ℚ) true true).map (·.name)).length = 10 ∧ ((hints (6000 : ℚ) false false).map (·.value)) = [6, 6000, 1, 100] := by decide +kernel

/-! #### The report of a fit -/

/-- the number of digits shown, mass/calibration/line_models.py L351-352; `none`: OverflowError (the logarithm is infinite if the value or its error is zero) -/
noncomputable def sigFigs (value stderr : ℝ) : Option ℤ :=
  if value = 0 ∨ stderr = 0 then none else some (max 1 (⌈Real.logb 10 |value / stderr|⌉ + 1))

/-- `r` shows `v` with `s` significant digits: it is off by at most half a unit of the last of them (the format "g" of mass/calibration/line_models.py L353) [specification] -/
def Shows (v : ℝ) (s : ℤ) (r : ℝ) : Prop := |r - v| ≤ 1 / 2 * (10 : ℝ) ^ (⌊Real.logb 10 |v|⌋ + 1 - s)

/-- C149: in the report of a fit every value with an error is shown with at least one digit and to within half of its error. -/
theorem report_digits (v sd : ℝ) (hv : v ≠ 0) (hs : 0 < sd) : ∃ s, sigFigs v sd = some s ∧ 1 ≤ s ∧ ∀ r, Shows v s r → |r - v| ≤ sd / 2 := by
  refine ⟨max 1 (⌈Real.logb 10 |v / sd|⌉ + 1), by simp [sigFigs, hv, hs.ne'], le_max_left _ _, ?_⟩
  intro r hr
  unfold Shows at hr
  refine hr.trans ?_
  have hva : 0 < |v| := abs_pos.mpr hv
  have hlog : Real.logb 10 |v / sd| = Real.logb 10 |v| - Real.logb 10 sd := by
    rw [abs_div, abs_of_pos hs, Real.logb_div hva.ne' hs.ne']
  have h1 : ((⌊Real.logb 10 |v|⌋ : ℤ) : ℝ) ≤ Real.logb 10 |v| := Int.floor_le _
  have h2 : Real.logb 10 |v / sd| ≤ (⌈Real.logb 10 |v / sd|⌉ : ℤ) := Int.le_ceil _
  have h3 : (⌈Real.logb 10 |v / sd|⌉ + 1 : ℤ) ≤ max 1 (⌈Real.logb 10 |v / sd|⌉ + 1) := le_max_right _ _
  have h4 : ((⌊Real.logb 10 |v|⌋ + 1 - max 1 (⌈Real.logb 10 |v / sd|⌉ + 1) : ℤ) : ℝ) ≤ Real.logb 10 sd := by
    have h3' : ((⌈Real.logb 10 |v / sd|⌉ : ℤ) : ℝ) + 1 ≤ ((max 1 (⌈Real.logb 10 |v / sd|⌉ + 1) : ℤ) : ℝ) := by exact_mod_cast h3
    push_cast at h3' ⊢
    linarith
  have h5 : (10 : ℝ) ^ (⌊Real.logb 10 |v|⌋ + 1 - max 1 (⌈Real.logb 10 |v / sd|⌉ + 1)) ≤ sd := by
    rw [← Real.rpow_intCast]
    calc (10 : ℝ) ^ (((⌊Real.logb 10 |v|⌋ + 1 - max 1 (⌈Real.logb 10 |v / sd|⌉ + 1) : ℤ)) : ℝ) ≤ (10 : ℝ) ^ (Real.logb 10 sd) :=
          Real.rpow_le_rpow_of_exponent_le (by norm_num) h4
      _ = sd := Real.rpow_logb (by norm_num) (by norm_num) hs
  linarith

example : sigFigs 100 1 = some 3 := by
  have : Real.logb 10 |(100 : ℝ) / 1| = 2 := by
    rw [show |(100 : ℝ) / 1| = (10 : ℝ) ^ (2 : ℝ) by norm_num, Real.logb_rpow (by norm_num) (by norm_num)]
  unfold sigFigs
  rw [if_neg (by norm_num), this]
  norm_num

/-- Disagreement (C149): a fitted parameter that is exactly zero (a background at its bound, say) makes the report, and with it the plot of the fit, fail. -/
theorem report_zero_fails (sd : ℝ) : sigFigs 0 sd = none := by simp [sigFigs]

/-! #### Ready-made models of highly charged ions -/

section
variable {K : Type} [Field K]
open Mass.Line.Hci

/-- the names of the lines of a He-like complex, mass/calibration/hci_models.py L120-124 -/
def heNames (element : Str) (charge : Nat) : List Str :=
  ["1s.2s 3S J=1", "1s.2p 3P* J=1", "1s.2p 1P* J=1"].map (fun s => element ++ Nat.toDigits 10 charge ++ ' ' :: s.toList)

/-- the lines by their names, mass/calibration/hci_models.py L127-128 (KeyError for an unknown one) -/
def linesOf (energyOf : Str → Option K) (names : List Str) : Except Exc (List (Model K)) :=
  names.mapM (fun n => match energyOf n with | some e => .ok (lineModel n e) | none => .error .key)

/-- `initialize_HeLike_complex_model`, mass/calibration/hci_models.py L109-135; `charge` is one less than the atomic number -/
def heComplex (energyOf : Str → Option K) (element : Str) (charge : Nat) (bg : Bool) (extra : List Str) : Except Exc (Model K) :=
  match linesOf energyOf (heNames element charge ++ extra) with
  | .error e => .error e
  | .ok ms => composite ms bg (some (element ++ Nat.toDigits 10 charge ++ " 1s.2p 1P* J=1".toList))

/-- a single line, mass/calibration/hci_models.py L15-29, used at L194-198 (its background is part of the line model) -/
def single (energyOf : Str → Option K) (name : Str) : Except Exc (Model K) :=
  match energyOf name with
  | some e => .ok (lineModel name e)
  | none => .error .key

/-- a composite of a He-like line and an H-like pair, mass/calibration/hci_models.py L203-220 -/
def region (energyOf : Str → Option K) (he : String) (el : String) (z : Nat) (heFirst bg : Bool) : Except Exc (Model K) :=
  match single energyOf he.toList, hLike energyOf el.toList z "2p".toList false with
  | .ok a, .ok b => composite (if heFirst then [a, b] else [b, a]) bg (some (hName el.toList z "2p".toList "3/2".toList))
  | .error e, _ => .error e
  | _, .error e => .error e

/-- the models made by `models`, with their names, in order: mass/calibration/hci_models.py L170-222 -/
def entries (energyOf : Str → Option K) (bg : Bool) (extra : List Str) : List (Str × Except Exc (Model K)) :=
  ([("N", 7, ["3p", "4p", "5p"]), ("O", 8, ["3p", "4p", "5p"]), ("Ne", 10, ["2p", "3p", "4p", "5p"]), ("Ar", 18, ["2p", "3p", "4p", "5p"])].flatMap
    (fun (el, z, cs) => cs.map (fun c => ((el ++ toString z ++ " " ++ c).toList, hLike energyOf el.toList z c.toList bg)))) ++
  ([("N", 6), ("O", 7), ("Ne", 9), ("Ar", 17)].map (fun (el, q) => ((el ++ toString q ++ " 1s2s_2p Complex").toList, heComplex energyOf el.toList q bg extra))) ++
  ([("N", 6, ["1s.4p", "1s.5p"]), ("O", 7, ["1s.4p", "1s.5p"]), ("Ne", 9, ["1s.3p", "1s.4p", "1s.5p"]), ("Ar", 17, ["1s.3p", "1s.4p", "1s.5p"])].flatMap
    (fun (el, q, cs) => cs.map (fun c => ((el ++ toString q ++ " " ++ c ++ " 1P* J=1").toList, single energyOf (el ++ toString q ++ " " ++ c ++ " 1P* J=1").toList)))) ++
  [("N 500eV Region".toList, region energyOf "N6 1s.3p 1P* J=1" "N" 7 true bg), ("O 660eV Region".toList, region energyOf "O7 1s.3p 1P* J=1" "O" 8 false bg)]

/-- storing the models one after the other, mass/calibration/hci_models.py L167, L178-222 -/
def store : List (Str × Except Exc (Model K)) → List (Str × Model K) → Except Exc (List (Str × Model K))
  | [], h => .ok h
  | (_, .error e) :: _, _ => .error e
  | (n, .ok m) :: t, h => store t (Asd.put n m h)

/-- `models`, mass/calibration/hci_models.py L157-222 -/
def models (energyOf : Str → Option K) (bg : Bool) (extra : List Str) : Except Exc (List (Str × Model K)) := store (entries energyOf bg extra) []

theorem put_new {α : Type} (a : Str) (v : α) (h : List (Str × α)) (hn : a ∉ h.map Prod.fst) : Asd.put a v h = h ++ [(a, v)] := by
  induction h with
  | nil => rfl
  | cons x t ih =>
    simp only [List.map_cons, List.mem_cons, not_or] at hn
    unfold Asd.put
    rw [if_neg (fun e => hn.1 e.symm), ih hn.2]
    rfl

theorem store_spec (l : List (Str × Except Exc (Model K))) (h : List (Str × Model K)) (hn : (h.map Prod.fst ++ l.map Prod.fst).Nodup) (D : List (Str × Model K)) :
    store l h = .ok D ↔ ∃ ms, l = ms.map (fun e => (e.1, .ok e.2)) ∧ D = h ++ ms := by
  induction l generalizing h with
  | nil =>
    simp only [store]
    constructor
    · intro e; cases e; exact ⟨[], rfl, by simp⟩
    · rintro ⟨ms, e1, e2⟩
      have : ms = [] := by simpa using e1.symm
      subst this; simp [e2]
  | cons x t ih =>
    obtain ⟨n, r⟩ := x
    cases r with
    | error e =>
      simp only [store, reduceCtorEq, false_iff]
      rintro ⟨ms, e1, _⟩
      cases ms with
      | nil => simp at e1
      | cons a b => simp at e1
    | ok m =>
      simp only [store]
      have hne : n ∉ h.map Prod.fst := by
        intro hm
        rw [List.nodup_append] at hn
        exact hn.2.2 n hm n (by simp) rfl
      rw [put_new n m h hne, ih (h ++ [(n, m)]) (by simpa using hn)]
      constructor
      · rintro ⟨ms, e1, e2⟩
        exact ⟨(n, m) :: ms, by simp [e1], by simp [e2]⟩
      · rintro ⟨ms, e1, e2⟩
        cases ms with
        | nil => simp at e1
        | cons a b =>
          simp only [List.map_cons, List.cons.injEq, Prod.mk.injEq, Except.ok.injEq] at e1
          obtain ⟨⟨h1, h2⟩, h3⟩ := e1
          have : a = (n, m) := Prod.ext h1.symm h2.symm
          subst this
          exact ⟨b, h3, by simp [e2]⟩

/-- the names of the ready-made models [specification] -/
def modelNames : List String :=
  ["N7 3p", "N7 4p", "N7 5p", "O8 3p", "O8 4p", "O8 5p", "Ne10 2p", "Ne10 3p", "Ne10 4p", "Ne10 5p", "Ar18 2p", "Ar18 3p", "Ar18 4p", "Ar18 5p",
   "N6 1s2s_2p Complex", "O7 1s2s_2p Complex", "Ne9 1s2s_2p Complex", "Ar17 1s2s_2p Complex", "N6 1s.4p 1P* J=1", "N6 1s.5p 1P* J=1", "O7 1s.4p 1P* J=1", "O7 1s.5p 1P* J=1",
   "Ne9 1s.3p 1P* J=1", "Ne9 1s.4p 1P* J=1", "Ne9 1s.5p 1P* J=1", "Ar17 1s.3p 1P* J=1", "Ar17 1s.4p 1P* J=1", "Ar17 1s.5p 1P* J=1", "N 500eV Region", "O 660eV Region"]

theorem entries_names (energyOf : Str → Option K) (bg : Bool) (extra : List Str) : (entries energyOf bg extra).map Prod.fst = modelNames.map String.toList := by
  simp only [entries, List.map_append, List.flatMap_cons, List.flatMap_nil, List.map_cons, List.map_nil, List.append_nil, List.nil_append]
  decide +kernel

/-- the ready-made models and the lines they are made of, by name, as the comments of the code have it [specification] -/
def contents (extra : List Str) : List (String × List Str) :=
  (["N7 3p", "N7 4p", "N7 5p", "O8 3p", "O8 4p", "O8 5p", "Ne10 2p", "Ne10 3p", "Ne10 4p", "Ne10 5p", "Ar18 2p", "Ar18 3p", "Ar18 4p", "Ar18 5p"].map
    (fun n => (n, [(n ++ " 2P* J=1/2").toList, (n ++ " 2P* J=3/2").toList]))) ++
  (["N6", "O7", "Ne9", "Ar17"].map (fun n => (n ++ " 1s2s_2p Complex", [(n ++ " 1s.2s 3S J=1").toList, (n ++ " 1s.2p 3P* J=1").toList, (n ++ " 1s.2p 1P* J=1").toList] ++ extra))) ++
  (["N6 1s.4p", "N6 1s.5p", "O7 1s.4p", "O7 1s.5p", "Ne9 1s.3p", "Ne9 1s.4p", "Ne9 1s.5p", "Ar17 1s.3p", "Ar17 1s.4p", "Ar17 1s.5p"].map
    (fun n => (n ++ " 1P* J=1", [(n ++ " 1P* J=1").toList]))) ++
  [("N 500eV Region", ["N6 1s.3p 1P* J=1".toList, "N7 2p 2P* J=1/2".toList, "N7 2p 2P* J=3/2".toList]),
   ("O 660eV Region", ["O8 2p 2P* J=1/2".toList, "O8 2p 2P* J=3/2".toList, "O7 1s.3p 1P* J=1".toList])]

/-- the model consists of these lines, in order, with the known energies; and it can be had if they are all known [specification] -/
def Good (energyOf : Str → Option K) (r : Except Exc (Model K)) (ns : List Str) : Prop :=
  (∀ m, r = .ok m → m.comps.map (fun c => (c.name, some c.energy)) = ns.map (fun n => (n, energyOf n))) ∧
  ((∀ n ∈ ns, (energyOf n).isSome) → ∃ m, r = .ok m)

theorem composite_ok (ms : List (Model K)) (n : Str) (h : ∃ c ∈ ms.flatMap (·.comps), c.name = n) : ∃ m, composite ms false (some n) = .ok m := by
  obtain ⟨c, hc, hn⟩ := h
  unfold composite
  dsimp only
  rw [if_neg (by simp)]
  cases hcs : ms.flatMap (·.comps) with
  | nil => rw [hcs] at hc; cases hc
  | cons c0 t =>
    rw [hcs] at hc
    dsimp only [Option.getD_some]
    have hlt : (c0 :: t).findIdx (fun c => decide (c.name = n)) < (c0 :: t).length := List.findIdx_lt_length_of_exists ⟨c, hc, by simpa using hn⟩
    rw [List.getElem?_eq_getElem hlt]
    exact ⟨_, rfl⟩

theorem composite_comps (ms : List (Model K)) (n : Str) (m : Model K) (h : composite ms false (some n) = .ok m) : m.comps = ms.flatMap (·.comps) := by
  unfold composite at h
  dsimp only at h
  rw [if_neg (by simp)] at h
  cases hcs : ms.flatMap (·.comps) with
  | nil => rw [hcs] at h; cases h
  | cons c0 t =>
    rw [hcs] at h
    dsimp only at h
    split at h
    · cases h
    · cases h; rfl

theorem single_good (energyOf : Str → Option K) (n : Str) : Good energyOf (single energyOf n) [n] := by
  unfold Good single
  cases h : energyOf n with
  | none => exact ⟨fun m hm => (by cases hm), fun hn => by simpa [h] using hn n (by simp)⟩
  | some e => exact ⟨fun m hm => (by cases hm; simp [lineModel, h]), fun _ => ⟨_, rfl⟩⟩

theorem hLike_good (energyOf : Str → Option K) (el : Str) (z : Nat) (c : Str) :
    Good energyOf (hLike energyOf el z c false) [hName el z c "1/2".toList, hName el z c "3/2".toList] := by
  unfold Good hLike
  dsimp only
  generalize hName el z c "1/2".toList = n1
  generalize hName el z c "3/2".toList = n3
  cases h1 : energyOf n1 with
  | none => exact ⟨fun m hm => (by cases hm), fun hn => by simpa [h1] using hn n1 (by simp)⟩
  | some e1 =>
    cases h3 : energyOf n3 with
    | none => exact ⟨fun m hm => (by cases hm), fun hn => by simpa [h3] using hn n3 (by simp)⟩
    | some e3 =>
      dsimp only
      obtain ⟨m0, hm0⟩ := composite_ok [lineModel n1 e1, lineModel n3 e3] n3 ⟨⟨n3, mkPrefix n3, e3⟩, by simp [lineModel], rfl⟩
      rw [hm0]
      refine ⟨fun m hm => ?_, fun _ => ⟨_, rfl⟩⟩
      cases hm
      simp [composite_comps _ _ _ hm0, lineModel, h1, h3]

theorem region_good (energyOf : Str → Option K) (he el : String) (z : Nat) (first : Bool) :
    Good energyOf (region energyOf he el z first false)
      (if first then he.toList :: [hName el.toList z "2p".toList "1/2".toList, hName el.toList z "2p".toList "3/2".toList]
        else [hName el.toList z "2p".toList "1/2".toList, hName el.toList z "2p".toList "3/2".toList] ++ [he.toList]) := by
  have ha := single_good energyOf he.toList
  have hb := hLike_good energyOf el.toList z "2p".toList
  unfold region
  generalize hx : hName el.toList z "2p".toList "3/2".toList = n3 at *
  generalize hName el.toList z "2p".toList "1/2".toList = n1 at *
  constructor
  · intro m hm
    cases h1 : single energyOf he.toList with
    | error e => rw [h1] at hm; cases h2 : hLike energyOf el.toList z "2p".toList false <;> rw [h2] at hm <;> cases hm
    | ok a =>
      cases h2 : hLike energyOf el.toList z "2p".toList false with
      | error e => rw [h1, h2] at hm; cases hm
      | ok b =>
        rw [h1, h2] at hm
        dsimp only at hm
        rw [composite_comps _ _ _ hm]
        have q1 := ha.1 a h1
        have q2 := hb.1 b h2
        cases first
        · simp only [List.flatMap_cons, List.flatMap_nil, List.append_nil, List.map_append, q1, q2, Bool.false_eq_true, if_false]
        · simp only [List.flatMap_cons, List.flatMap_nil, List.append_nil, List.map_append, q1, q2, if_true]
          simp
  · intro hn
    obtain ⟨a, h1⟩ := ha.2 (fun n h => hn n (by cases first <;> simp_all))
    obtain ⟨b, h2⟩ := hb.2 (fun n h => hn n (by cases first <;> simp_all <;> tauto))
    rw [h1, h2]
    dsimp only
    have q2 := hb.1 b h2
    have h3 : ∃ c ∈ b.comps, c.name = n3 := by
      have : (n3, energyOf n3) ∈ b.comps.map (fun c => (c.name, some c.energy)) := by rw [q2]; simp
      obtain ⟨c, hc, e⟩ := List.mem_map.mp this
      exact ⟨c, hc, congrArg Prod.fst e⟩
    obtain ⟨c, hc, e⟩ := h3
    exact composite_ok _ _ ⟨c, by cases first <;> simp [hc], e⟩

theorem linesOf_good (energyOf : Str → Option K) (ns : List Str) :
    (∀ ms, linesOf energyOf ns = .ok ms → (ms.flatMap (·.comps)).map (fun c => (c.name, some c.energy)) = ns.map (fun n => (n, energyOf n))) ∧
    ((∀ n ∈ ns, (energyOf n).isSome) → ∃ ms, linesOf energyOf ns = .ok ms) := by
  induction ns with
  | nil => exact ⟨fun ms e => by simp [linesOf, pure, Except.pure] at e; subst e; rfl, fun _ => ⟨[], rfl⟩⟩
  | cons a t ih =>
    cases ha : energyOf a with
    | none =>
      refine ⟨fun ms e => ?_, fun hn => by simpa [ha] using hn a (by simp)⟩
      unfold linesOf at e
      rw [List.mapM_cons, ha] at e
      cases e
    | some v =>
      have step : linesOf energyOf (a :: t) = match linesOf energyOf t with | .ok ms => .ok (lineModel a v :: ms) | .error e => .error e := by
        unfold linesOf
        rw [List.mapM_cons, ha]
        simp only [bind, Except.bind]
        split <;> simp_all [pure, Except.pure]
      rw [step]
      constructor
      · intro ms e
        cases ht : linesOf energyOf t with
        | error x => rw [ht] at e; cases e
        | ok ms' =>
          rw [ht] at e
          cases e
          simp [ih.1 ms' ht, lineModel, ha]
      · intro hn
        obtain ⟨ms', ht⟩ := ih.2 (fun n h => hn n (by simp [h]))
        exact ⟨_, by rw [ht]⟩

theorem heComplex_good (energyOf : Str → Option K) (el : Str) (q : Nat) (extra : List Str) : Good energyOf (heComplex energyOf el q false extra) (heNames el q ++ extra) := by
  have hl := linesOf_good energyOf (heNames el q ++ extra)
  unfold heComplex
  constructor
  · intro m hm
    cases h1 : linesOf energyOf (heNames el q ++ extra) with
    | error e => rw [h1] at hm; cases hm
    | ok ms =>
      rw [h1] at hm
      dsimp only at hm
      rw [composite_comps _ _ _ hm]
      exact hl.1 ms h1
  · intro hn
    obtain ⟨ms, h1⟩ := hl.2 hn
    rw [h1]
    dsimp only
    apply composite_ok
    have : (el ++ Nat.toDigits 10 q ++ " 1s.2p 1P* J=1".toList, energyOf (el ++ Nat.toDigits 10 q ++ " 1s.2p 1P* J=1".toList)) ∈
        (ms.flatMap (·.comps)).map (fun c => (c.name, some c.energy)) := by
      rw [hl.1 ms h1]
      apply List.mem_map.mpr
      refine ⟨_, List.mem_append_left _ ?_, rfl⟩
      unfold heNames
      exact List.mem_map.mpr ⟨"1s.2p 1P* J=1", by simp, rfl⟩
    obtain ⟨c, hc, e⟩ := List.mem_map.mp this
    exact ⟨c, hc, congrArg Prod.fst e⟩

theorem good_entries (energyOf : Str → Option K) (extra : List Str) :
    List.Forall₂ (fun e c => e.1 = c.1.toList ∧ Good energyOf e.2 c.2) (entries energyOf false extra) (contents extra) := by
  have hH : ∀ (el : String) (z : Nat) (c n : String), (el ++ toString z ++ " " ++ c).toList = n.toList →
      hName el.toList z c.toList "1/2".toList = (n ++ " 2P* J=1/2").toList → hName el.toList z c.toList "3/2".toList = (n ++ " 2P* J=3/2").toList →
      (el ++ toString z ++ " " ++ c).toList = n.toList ∧ Good energyOf (hLike energyOf el.toList z c.toList false) [(n ++ " 2P* J=1/2").toList, (n ++ " 2P* J=3/2").toList] := by
    intro el z c n h1 h2 h3
    exact ⟨h1, by rw [← h2, ← h3]; exact hLike_good energyOf el.toList z c.toList⟩
  have hC : ∀ (el : String) (q : Nat) (n : String), (el ++ toString q ++ " 1s2s_2p Complex").toList = (n ++ " 1s2s_2p Complex").toList →
      heNames el.toList q = [(n ++ " 1s.2s 3S J=1").toList, (n ++ " 1s.2p 3P* J=1").toList, (n ++ " 1s.2p 1P* J=1").toList] →
      (el ++ toString q ++ " 1s2s_2p Complex").toList = (n ++ " 1s2s_2p Complex").toList ∧ Good energyOf (heComplex energyOf el.toList q false extra)
        ([(n ++ " 1s.2s 3S J=1").toList, (n ++ " 1s.2p 3P* J=1").toList, (n ++ " 1s.2p 1P* J=1").toList] ++ extra) := by
    intro el q n h1 h2
    exact ⟨h1, by rw [← h2]; exact heComplex_good energyOf el.toList q extra⟩
  have hS : ∀ (el : String) (q : Nat) (c n : String), (el ++ toString q ++ " " ++ c ++ " 1P* J=1").toList = (n ++ " 1P* J=1").toList →
      (el ++ toString q ++ " " ++ c ++ " 1P* J=1").toList = (n ++ " 1P* J=1").toList ∧
        Good energyOf (single energyOf (el ++ toString q ++ " " ++ c ++ " 1P* J=1").toList) [(n ++ " 1P* J=1").toList] := by
    intro el q c n h1
    exact ⟨h1, by rw [← h1]; exact single_good energyOf _⟩
  have hN : Good energyOf (region energyOf "N6 1s.3p 1P* J=1" "N" 7 true false) ["N6 1s.3p 1P* J=1".toList, "N7 2p 2P* J=1/2".toList, "N7 2p 2P* J=3/2".toList] := by
    have h1 : hName "N".toList 7 "2p".toList "1/2".toList = "N7 2p 2P* J=1/2".toList := by decide +kernel
    have h2 : hName "N".toList 7 "2p".toList "3/2".toList = "N7 2p 2P* J=3/2".toList := by decide +kernel
    rw [← h1, ← h2]
    exact region_good energyOf "N6 1s.3p 1P* J=1" "N" 7 true
  have hO : Good energyOf (region energyOf "O7 1s.3p 1P* J=1" "O" 8 false false) ["O8 2p 2P* J=1/2".toList, "O8 2p 2P* J=3/2".toList, "O7 1s.3p 1P* J=1".toList] := by
    have h1 : hName "O".toList 8 "2p".toList "1/2".toList = "O8 2p 2P* J=1/2".toList := by decide +kernel
    have h2 : hName "O".toList 8 "2p".toList "3/2".toList = "O8 2p 2P* J=3/2".toList := by decide +kernel
    rw [← h1, ← h2]
    exact region_good energyOf "O7 1s.3p 1P* J=1" "O" 8 false
  unfold entries contents
  simp only [List.flatMap_cons, List.flatMap_nil, List.map_cons, List.map_nil, List.append_nil, List.cons_append, List.nil_append]
  refine List.Forall₂.cons (hH "N" 7 "3p" "N7 3p" (by decide +kernel) (by decide +kernel) (by decide +kernel)) ?_
  refine List.Forall₂.cons (hH "N" 7 "4p" "N7 4p" (by decide +kernel) (by decide +kernel) (by decide +kernel)) ?_
  refine List.Forall₂.cons (hH "N" 7 "5p" "N7 5p" (by decide +kernel) (by decide +kernel) (by decide +kernel)) ?_
  refine List.Forall₂.cons (hH "O" 8 "3p" "O8 3p" (by decide +kernel) (by decide +kernel) (by decide +kernel)) ?_
  refine List.Forall₂.cons (hH "O" 8 "4p" "O8 4p" (by decide +kernel) (by decide +kernel) (by decide +kernel)) ?_
  refine List.Forall₂.cons (hH "O" 8 "5p" "O8 5p" (by decide +kernel) (by decide +kernel) (by decide +kernel)) ?_
  refine List.Forall₂.cons (hH "Ne" 10 "2p" "Ne10 2p" (by decide +kernel) (by decide +kernel) (by decide +kernel)) ?_
  refine List.Forall₂.cons (hH "Ne" 10 "3p" "Ne10 3p" (by decide +kernel) (by decide +kernel) (by decide +kernel)) ?_
  refine List.Forall₂.cons (hH "Ne" 10 "4p" "Ne10 4p" (by decide +kernel) (by decide +kernel) (by decide +kernel)) ?_
  refine List.Forall₂.cons (hH "Ne" 10 "5p" "Ne10 5p" (by decide +kernel) (by decide +kernel) (by decide +kernel)) ?_
  refine List.Forall₂.cons (hH "Ar" 18 "2p" "Ar18 2p" (by decide +kernel) (by decide +kernel) (by decide +kernel)) ?_
  refine List.Forall₂.cons (hH "Ar" 18 "3p" "Ar18 3p" (by decide +kernel) (by decide +kernel) (by decide +kernel)) ?_
  refine List.Forall₂.cons (hH "Ar" 18 "4p" "Ar18 4p" (by decide +kernel) (by decide +kernel) (by decide +kernel)) ?_
  refine List.Forall₂.cons (hH "Ar" 18 "5p" "Ar18 5p" (by decide +kernel) (by decide +kernel) (by decide +kernel)) ?_
  refine List.Forall₂.cons (hC "N" 6 "N6" (by decide +kernel) (by decide +kernel)) ?_
  refine List.Forall₂.cons (hC "O" 7 "O7" (by decide +kernel) (by decide +kernel)) ?_
  refine List.Forall₂.cons (hC "Ne" 9 "Ne9" (by decide +kernel) (by decide +kernel)) ?_
  refine List.Forall₂.cons (hC "Ar" 17 "Ar17" (by decide +kernel) (by decide +kernel)) ?_
  refine List.Forall₂.cons (hS "N" 6 "1s.4p" "N6 1s.4p" (by decide +kernel)) ?_
  refine List.Forall₂.cons (hS "N" 6 "1s.5p" "N6 1s.5p" (by decide +kernel)) ?_
  refine List.Forall₂.cons (hS "O" 7 "1s.4p" "O7 1s.4p" (by decide +kernel)) ?_
  refine List.Forall₂.cons (hS "O" 7 "1s.5p" "O7 1s.5p" (by decide +kernel)) ?_
  refine List.Forall₂.cons (hS "Ne" 9 "1s.3p" "Ne9 1s.3p" (by decide +kernel)) ?_
  refine List.Forall₂.cons (hS "Ne" 9 "1s.4p" "Ne9 1s.4p" (by decide +kernel)) ?_
  refine List.Forall₂.cons (hS "Ne" 9 "1s.5p" "Ne9 1s.5p" (by decide +kernel)) ?_
  refine List.Forall₂.cons (hS "Ar" 17 "1s.3p" "Ar17 1s.3p" (by decide +kernel)) ?_
  refine List.Forall₂.cons (hS "Ar" 17 "1s.4p" "Ar17 1s.4p" (by decide +kernel)) ?_
  refine List.Forall₂.cons (hS "Ar" 17 "1s.5p" "Ar17 1s.5p" (by decide +kernel)) ?_
  exact List.Forall₂.cons ⟨rfl, hN⟩ (List.Forall₂.cons ⟨rfl, hO⟩ List.Forall₂.nil)

theorem entries_maps (energyOf : Str → Option K) (es : List (Str × Except Exc (Model K))) (cs : List (String × List Str))
    (hf : List.Forall₂ (fun e c => e.1 = c.1.toList ∧ Good energyOf e.2 c.2) es cs) :
    (∀ D : List (Str × Model K), es = D.map (fun e => (e.1, .ok e.2)) →
      D.map (fun e => (e.1, e.2.comps.map (fun c => (c.name, some c.energy)))) = cs.map (fun e => (e.1.toList, e.2.map (fun n => (n, energyOf n))))) ∧
    ((∀ c ∈ cs, ∀ n ∈ c.2, (energyOf n).isSome) → ∃ D : List (Str × Model K), es = D.map (fun e => (e.1, .ok e.2))) := by
  induction hf with
  | nil => exact ⟨fun D h => by have : D = [] := by simpa using h.symm
                                subst this; rfl, fun _ => ⟨[], rfl⟩⟩
  | @cons e c es cs h _ ih =>
    constructor
    · intro D hD
      cases D with
      | nil => simp at hD
      | cons x D =>
        simp only [List.map_cons, List.cons.injEq] at hD
        obtain ⟨h1, h2⟩ := hD
        subst h1
        simp only [List.map_cons, List.cons.injEq, Prod.mk.injEq]
        exact ⟨⟨h.1, h.2.1 x.2 rfl⟩, ih.1 D h2⟩
    · intro hk
      obtain ⟨m, hm⟩ := h.2.2 (hk c (by simp))
      obtain ⟨D, hD⟩ := ih.2 (fun c hc => hk c (by simp [hc]))
      exact ⟨(e.1, m) :: D, by simp [hD, ← hm]⟩

/-- C149: the ready-made models are had exactly if all their lines are known; they have the thirty names, no two the same, and each consists of the lines of the
table, in its order, with the energies of the data base. -/
theorem models_spec (energyOf : Str → Option K) (extra : List Str) :
    ((∃ D, models energyOf false extra = .ok D) ↔ ∀ c ∈ contents extra, ∀ n ∈ c.2, (energyOf n).isSome) ∧
    ∀ D, models energyOf false extra = .ok D → (D.map Prod.fst).Nodup ∧
      D.map (fun e => (e.1, e.2.comps.map (fun c => (c.name, some c.energy)))) = (contents extra).map (fun e => (e.1.toList, e.2.map (fun n => (n, energyOf n)))) := by
  have hmaps := entries_maps energyOf _ _ (good_entries energyOf extra)
  have hnn : ((entries energyOf false extra).map Prod.fst).Nodup := by rw [entries_names]; decide +kernel
  have hst := store_spec (entries energyOf false extra) [] (by simpa using hnn)
  have two : ∀ D, models energyOf false extra = .ok D → (D.map Prod.fst).Nodup ∧
      D.map (fun e => (e.1, e.2.comps.map (fun c => (c.name, some c.energy)))) = (contents extra).map (fun e => (e.1.toList, e.2.map (fun n => (n, energyOf n)))) := by
    intro D h
    obtain ⟨ms, e1, e2⟩ := (hst D).mp h
    rw [List.nil_append] at e2
    subst e2
    refine ⟨?_, hmaps.1 D e1⟩
    rw [e1, List.map_map] at hnn
    exact hnn
  refine ⟨⟨?_, ?_⟩, two⟩
  · rintro ⟨D, h⟩ c hc n hn
    have h2 := (two D h).2
    have : (c.1.toList, c.2.map (fun n => (n, energyOf n))) ∈ D.map (fun e => (e.1, e.2.comps.map (fun c => (c.name, some c.energy)))) := by
      rw [h2]; exact List.mem_map.mpr ⟨c, hc, rfl⟩
    obtain ⟨e, _, he⟩ := List.mem_map.mp this
    have h3 := congrArg Prod.snd he
    dsimp only at h3
    have h4 : (n, energyOf n) ∈ e.2.comps.map (fun c => (c.name, some c.energy)) := by rw [h3]; exact List.mem_map.mpr ⟨n, hn, rfl⟩
    obtain ⟨x, _, hx⟩ := List.mem_map.mp h4
    have := congrArg Prod.snd hx
    dsimp only at this
    rw [← this]; rfl
  · intro hk
    obtain ⟨D, hD⟩ := hmaps.2 hk
    exact ⟨D, (hst D).mpr ⟨D, hD, by simp⟩⟩

example : ((models (fun s => some (s.length : ℚ)) false ["Ne8".toList]).toOption.map (fun D => (D.length, (look D "O7 1s2s_2p Complex".toList).map (fun m => (m.comps.map (·.energy), m.peak.map (·.energy)))))) =
    some (30, some ([15, 16, 16, 3], some 16)) := by decide +kernel

/-- C149: a He-like complex consists of its three lines and the additional ones, in this order, with the 1P line as its peak. -/
theorem he_complex_spec [LinearOrder K] [IsStrictOrderedRing K] (energyOf : Str → Option K) (element : Str) (charge : Nat) (extra : List Str) (m : Model K) (h : heComplex energyOf element charge false extra = .ok m) :
    m.comps.map (fun c => (c.name, some c.energy)) = (heNames element charge ++ extra).map (fun n => (n, energyOf n)) ∧
      ∃ p, m.peak = some p ∧ p ∈ m.comps ∧ p.name = element ++ Nat.toDigits 10 charge ++ " 1s.2p 1P* J=1".toList := by
  unfold heComplex at h
  cases hl : linesOf energyOf (heNames element charge ++ extra) with
  | error e => rw [hl] at h; cases h
  | ok ms =>
    rw [hl] at h
    dsimp only at h
    obtain ⟨h1, p, h2, h3, h4, _⟩ := (composite_peak ms _).1 m h
    exact ⟨by rw [h1]; exact (linesOf_good energyOf _).1 _ hl, p, h2, h3, h4 _ rfl⟩

/-- C149: a line that is not known makes the model of a complex or of a region that contains it fail with a KeyError. -/
theorem unknown_line (energyOf : Str → Option K) : (∀ (element : Str) (charge : Nat) (extra : List Str) (bg : Bool) (n : Str), n ∈ heNames element charge ++ extra → energyOf n = none →
      heComplex energyOf element charge bg extra = .error .key) ∧
    ∀ (he el : String) (z : Nat) (first bg : Bool), energyOf he.toList = none → region energyOf he el z first bg = .error .key := by
  have hl : ∀ (ns : List Str) (n : Str), n ∈ ns → energyOf n = none → linesOf energyOf ns = .error .key := by
    intro ns n hn h
    induction ns with
    | nil => cases hn
    | cons a t ih =>
      unfold linesOf at ih ⊢
      rw [List.mapM_cons]
      rcases List.mem_cons.1 hn with rfl | hn
      · rw [h]
        rfl
      · rw [ih hn]
        cases energyOf a <;> rfl
  refine ⟨fun element charge extra bg n hn h => ?_, fun he el z first bg h => ?_⟩
  · unfold heComplex
    rw [hl _ n hn h]
  · unfold region single
    rw [h]

/-- Disagreement (C149): with `has_linear_background=True` no ready-made model can be had, whatever lines are known. -/
theorem models_background_fails (energyOf : Str → Option K) (extra : List Str) : ∃ e, models energyOf true extra = .error e := by
  have h : ∃ e, hLike energyOf "N".toList 7 "3p".toList true = .error e := by
    unfold hLike
    dsimp only
    split
    · exact ⟨_, rfl⟩
    · exact ⟨_, rfl⟩
  obtain ⟨e, he⟩ := h
  refine ⟨e, ?_⟩
  unfold models entries
  simp only [List.flatMap_cons, List.map_cons, List.cons_append, he, store]

end

end Mass.Line.ByName
