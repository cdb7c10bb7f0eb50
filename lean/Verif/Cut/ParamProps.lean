import Verif.Cut.Params
/-! C156: properties made from dictionaries of parameters (mass/core/param_dict_base.py L170-180). Names of attributes and parameters are ASCII; which text Python accepts as a name is any function. -/
namespace Mass.Cut.Params
variable {V : Type}

/-- `prm.replace(' ', '_')`, param_dict_base.py L176 -/
def spaced (k : String) : String := k.map (fun c => if c = ' ' then '_' else c)

/-- a property of the class: its name, the attribute and the key it reads (param_dict_base.py L177-178: the key has underscores for blanks, too) -/
structure Prop' where
  name : String
  attr : String
  key : String
  deriving DecidableEq

/-- the commands for the names of one dictionary, param_dict_base.py L174-180: exec raises SyntaxError (`exception`) for a text that is no name -/
def propsOf (ident : String → Bool) (attr : String) : List String → List Prop' → List Prop' × Option Exc
  | [], made => (made, none)
  | k :: r, made => if ident (spaced k) then propsOf ident attr r (made ++ [⟨spaced k, attr, spaced k⟩]) else (made, some .exception)

/-- `properties`, param_dict_base.py L170-180: the properties made and the exception. `attrs` are the attributes whose name ends in _prm in order of their making, None for one that is no dictionary:
`for prm in None` raises TypeError. The class is in the namespace given. -/
def properties (ident : String → Bool) : List (String × Option (Dict V)) → List Prop' → List Prop' × Option Exc
  | [], made => (made, none)
  | (_, none) :: _, made => (made, some .type)
  | (a, some d) :: r, made =>
    match propsOf ident a (d.map Prod.fst) made with
    | (made', none) => properties ident r made'
    | (made', some e) => (made', some e)

/-- reading `obj.name`, param_dict_base.py L177-178: the property made last counts; AttributeError without one, KeyError if the dictionary has no such key -/
def readProp (made : List Prop') (attrs : List (String × Option (Dict V))) (name : String) : Except Exc V :=
  match made.reverse.find? (fun p => p.name == name) with
  | none => .error .attribute
  | some p =>
    match attrs.lookup p.attr with
    | none => .error .attribute
    | some none => .error .type
    | some (some d) => match d.lookup p.key with
      | none => .error .key
      | some v => .ok v

theorem propsOf_ok (ident : String → Bool) (attr : String) : ∀ (ks : List String) (made : List Prop'), (∀ k ∈ ks, ident (spaced k) = true) →
    propsOf ident attr ks made = (made ++ ks.map (fun k => ⟨spaced k, attr, spaced k⟩), none)
  | [], made, _ => by simp [propsOf]
  | k :: r, made, h => by
    rw [propsOf, if_pos (h k (by simp)), propsOf_ok ident attr r _ (fun k' hk' => h k' (by simp [hk']))]
    simp

/-- [specification] all attributes are dictionaries and their names make names of Python -/
def AllNames (ident : String → Bool) (attrs : List (String × Option (Dict V))) : Prop := ∀ a ∈ attrs, ∃ d, a.2 = some d ∧ ∀ p ∈ d, ident (spaced p.1) = true

/-- [specification] the properties for one attribute -/
def propList (a : String × Option (Dict V)) : List Prop' :=
  match a.2 with
  | some d => d.map (fun p => ⟨spaced p.1, a.1, spaced p.1⟩)
  | none => []

theorem properties_ok (ident : String → Bool) : ∀ (attrs : List (String × Option (Dict V))) (made : List Prop'), AllNames ident attrs →
    properties ident attrs made = (made ++ attrs.flatMap propList, none)
  | [], made, _ => by simp [properties]
  | (a, o) :: r, made, h => by
    obtain ⟨d, hd, hp⟩ := h (a, o) (by simp)
    simp only at hd
    subst hd
    rw [properties, propsOf_ok ident a _ made (by
      intro k hk
      obtain ⟨p, hp', rfl⟩ := List.mem_map.1 hk
      exact hp p hp')]
    simp only
    rw [properties_ok ident r _ (fun x hx => h x (by simp [hx]))]
    simp [propList, List.append_assoc, Function.comp_def]

theorem spaced_id (k : String) (h : ∀ c ∈ k.toList, c ≠ ' ') : spaced k = k := by
  have : (spaced k).toList = k.toList := by
    unfold spaced
    rw [String.toList_map]
    have : ∀ l : List Char, (∀ c ∈ l, c ≠ ' ') → l.map (fun c => if c = ' ' then '_' else c) = l := by
      intro l
      induction l with
      | nil => simp
      | cons c l ih =>
        intro hl
        rw [List.map_cons, if_neg (hl c (by simp)), ih (fun c' hc' => hl c' (by simp [hc']))]
    exact this _ h
  exact String.toList_inj.1 this

/-- what a property reads that no later dictionary replaces -/
theorem found_last (A B : List (String × Option (Dict V))) (n : String) (d : Dict V) (k : String) (hk : ∃ p ∈ d, spaced p.1 = k)
    (hB : ∀ b ∈ B, ∀ d', b.2 = some d' → ∀ p ∈ d', spaced p.1 ≠ k) :
    ((A ++ (n, some d) :: B).flatMap propList).reverse.find? (fun p => p.name == k) = some ⟨k, n, k⟩ := by
  rw [List.flatMap_append, List.flatMap_cons, List.reverse_append, List.reverse_append, List.find?_append, List.find?_append]
  have e1 : ((B.flatMap propList).reverse.find? (fun p => p.name == k)) = none := by
    rw [List.find?_eq_none]
    intro p hp
    rw [List.mem_reverse, List.mem_flatMap] at hp
    obtain ⟨⟨bn, bo⟩, hb, hp⟩ := hp
    cases bo with
    | none => simp [propList] at hp
    | some d' =>
      simp only [propList, List.mem_map] at hp
      obtain ⟨q, hq, rfl⟩ := hp
      simpa using hB _ hb d' rfl q hq
  have e2 : ((propList (n, some d)).reverse.find? (fun p => p.name == k)) = some ⟨k, n, k⟩ := by
    have hs : ((propList (n, some d)).reverse.find? (fun p => p.name == k)).isSome = true := by
      rw [List.find?_isSome]
      obtain ⟨p, hp, hpk⟩ := hk
      refine ⟨⟨spaced p.1, n, spaced p.1⟩, ?_, by simpa using hpk⟩
      rw [List.mem_reverse]
      exact List.mem_map.2 ⟨p, hp, rfl⟩
    obtain ⟨q, hq⟩ := Option.isSome_iff_exists.1 hs
    have h1 := List.find?_some hq
    have h2 := List.mem_of_find?_eq_some hq
    rw [List.mem_reverse] at h2
    simp only [propList, List.mem_map] at h2
    obtain ⟨p, -, rfl⟩ := h2
    simp only [beq_iff_eq] at h1
    rw [hq, h1]
  rw [e1, e2]
  simp

/-- C156: a property reads the parameter as it is when it is read (not when the property was made), for every registered name without blanks that occurs in one dictionary only. -/
theorem property_reads (ident : String → Bool) (A B : List (String × Option (Dict V))) (n k : String) (d d' : Dict V) (v : V) (now : List (String × Option (Dict V)))
    (hall : AllNames ident (A ++ (n, some d) :: B)) (hk : (d.lookup k).isSome) (hb : ∀ c ∈ k.toList, c ≠ ' ')
    (hB : ∀ b ∈ B, ∀ d', b.2 = some d' → ∀ p ∈ d', spaced p.1 ≠ k) (hnow : now.lookup n = some (some d')) (hv : d'.lookup k = some v) :
    ∃ made, properties ident (A ++ (n, some d) :: B) [] = (made, none) ∧ readProp made now k = .ok v := by
  refine ⟨_, properties_ok ident _ [] hall, ?_⟩
  have hk' : ∃ p ∈ d, spaced p.1 = k := by
    have : has d k = true := by rw [has_iff]; exact hk
    simp only [has, List.any_eq_true, beq_iff_eq] at this
    obtain ⟨p, hp, e⟩ := this
    exact ⟨p, hp, by rw [e]; exact spaced_id k hb⟩
  unfold readProp
  rw [List.nil_append, found_last A B n d k hk' hB]
  simp only [hnow, hv]

/-- Disagreement (C156): properties cannot be made for an object without meta data (`user_prm` is None, which is what the constructor sets): TypeError, and no property is made. -/
theorem properties_no_meta_fails (ident : String → Bool) (r : List (String × Option (Dict V))) : properties ident (("user_prm", none) :: r) [] = ([], some .type) := rfl

/-- Disagreement (C156): the property of a parameter whose name has a blank raises KeyError when it is read, unless the dictionary has a parameter with an underscore there. -/
theorem blank_property_fails (ident : String → Bool) (A B : List (String × Option (Dict V))) (n k : String) (d d' : Dict V) (now : List (String × Option (Dict V)))
    (hall : AllNames ident (A ++ (n, some d) :: B)) (hk : (d.lookup k).isSome)
    (hB : ∀ b ∈ B, ∀ d', b.2 = some d' → ∀ p ∈ d', spaced p.1 ≠ spaced k) (hnow : now.lookup n = some (some d')) (hv : d'.lookup (spaced k) = none) :
    ∃ made, properties ident (A ++ (n, some d) :: B) [] = (made, none) ∧ readProp made now (spaced k) = .error .key := by
  refine ⟨_, properties_ok ident _ [] hall, ?_⟩
  have hk' : ∃ p ∈ d, spaced p.1 = spaced k := by
    have : has d k = true := by rw [has_iff]; exact hk
    simp only [has, List.any_eq_true, beq_iff_eq] at this
    obtain ⟨p, hp, e⟩ := this
    exact ⟨p, hp, by rw [e]⟩
  unfold readProp
  rw [List.nil_append, found_last A B n d (spaced k) hk' hB]
  simp only [hnow, hv]

/-- Disagreement (C156): of a name in two dictionaries `set` sets the first, the property reads the last. -/
theorem property_shared_fails : (properties (fun _ => true) [("user_prm", some []), ("a_prm", some [("x", 1)]), ("b_prm", some [("x", 2)])] []).2 = none ∧
    readProp (properties (fun _ => true) [("user_prm", some []), ("a_prm", some [("x", 1)]), ("b_prm", some [("x", 2)])] []).1
      [("user_prm", some []), ("a_prm", some [("x", 7)]), ("b_prm", some [("x", 2)])] "x" = .ok 2 := by decide +kernel

/-- `property_reads`, `blank_property_fails`, instances -/
example : (let o := [("user_prm", some []), ("a_prm", some [("x", 1), ("y z", 2)])]
    let m := (properties (fun _ => true) o []).1
    (readProp m [("user_prm", some []), ("a_prm", some [("x", 7), ("y z", 2)])] "x", readProp m o "y_z", readProp m o "w")) = (.ok 7, .error .key, .error .attribute) := by decide +kernel

end Mass.Cut.Params
