import Verif.Py
/-! Model of mass/off/util.py: RecipeBook and Recipe (L29-217). Recipe objects live in a heap and refer to each other by address, as python
objects do. Values are an arbitrary type `V`. -/
namespace Mass.Recipe

/-- names of recipes and ingredients -/
abbrev Name := List Char

/-- the data passed to craft: `ingredientSource[k]`, and `ingredientSource.view(coefs_dtype)["coefs"]` (util.py L195-203) -/
structure Src (V : Type) where
  get : Name → Except Exc V
  coefs : Except Exc V

/-- a python function: its parameter names without `self` (util.py L59-61), and its effect when called with positional arguments
(an exception for a wrong number of arguments is part of `call`) -/
structure Fn (V : Type) where
  params : List Name
  call : List V → Except Exc V

/-- a Recipe object (util.py L162-184): the function, and the ordered dictionary from ingredient to recipe address (`some`) or to the data
itself (`none`). The `inverse` and the `name` are not modelled. -/
structure Obj (V : Type) where
  call : List V → Except Exc V
  i2a : List (Name × Option Nat)

/-- a RecipeBook (util.py L30-39) with the heap of all recipe objects -/
structure Book (V : Type) where
  base : List Name
  heap : List (Obj V)
  crafted : List (Name × Nat)

/-- an empty book (mass/off/util.py `RecipeBook.__init__` L29-38) -/
def newBook (V : Type) (base : List Name) : Book V := ⟨base, [], []⟩

/-- `craftedIngredients.get(k)` (used for util.py L58-77) -/
def lookup (d : List (Name × Nat)) (k : Name) : Option Nat := (d.find? (fun e => e.1 == k)).map Prod.snd
/-- `craftedIngredients[k] = a` (used for util.py L41-93) -/
def store (d : List (Name × Nat)) (k : Name) (a : Nat) : List (Name × Nat) :=
  if (d.map Prod.fst).contains k then d.map (fun e => if e.1 = k then (k, a) else e) else d ++ [(k, a)]

/-- keys of an ordered dictionary filled in this order: repeats keep the first place (util.py L62-77) -/
def dictKeys : List Name → List Name → List Name
  | seen, [] => seen
  | seen, k :: t => if seen.contains k then dictKeys seen t else dictKeys (seen ++ [k]) t

/-- util.py L58-77: the ingredient list, or an AssertionError. `zip` stops at the shorter list. -/
def ingredientList (b : Book V) (f : Fn V) (ingredients : Option (List Name)) : Except Exc (List Name) :=
  let known (k : Name) : Bool := b.base.contains k || (lookup b.crafted k).isSome
  match ingredients with
  | none => if f.params.all known then .ok f.params else .error .assertion
  | some l =>
    if f.params.length < l.length then .error .assertion
    else if l.all known then .ok l else .error .assertion

/-- util.py L79-82: the new recipe object; ingredients that are recipes now are bound to them -/
def newObj (b : Book V) (f : Fn V) (l : List Name) : Obj V := ⟨f.call, (dictKeys [] l).map (fun k => (k, lookup b.crafted k))⟩

/-- the reserved name (util.py L83) -/
def tempName : Name := "__temp__".toList

/-- util.py L41-93 `add`: the address of the new recipe and the changed book. Simplified: properties of the class are not modelled. -/
def add (b : Book V) (name : Name) (f : Fn V) (ingredients : Option (List Name)) (overwrite : Bool) : Except Exc Nat × Book V :=
  match ingredientList b f ingredients with
  | .error e => (.error e, b)
  | .ok l =>
    let a := b.heap.length
    let heap := b.heap ++ [newObj b f l]
    if name = tempName then (.ok a, { b with heap := heap })
    else if (lookup b.crafted name).isSome ∧ overwrite = false then (.error .assertion, b)
    else if name.head? = some '!' then (.error .assertion, b)
    else (.ok a, { b with heap := heap, crafted := store b.crafted name a })

/-- util.py L194-203: one argument: from another recipe or from the data -/
def ingVal (ev : Nat → Option (Except Exc V)) (src : Src V) (k : Name) : Option Nat → Option (Except Exc V)
  | some a => ev a
  | none => some (if k = "coefs".toList then src.coefs else src.get k)

/-- util.py L192-203: the arguments. `none` means that a call did not return. -/
def collect (ev : Nat → Option (Except Exc V)) (src : Src V) : List (Name × Option Nat) → Option (Except Exc (List V))
  | [] => some (.ok [])
  | (k, r) :: t =>
    match ingVal ev src k r with
    | none => none
    | some (.error e) => some (.error e)
    | some (.ok v) =>
      match collect ev src t with
      | none => none
      | some (.error e) => some (.error e)
      | some (.ok vs) => some (.ok (v :: vs))

/-- util.py L191-206 `Recipe.__call__`, running at most `fuel` nested calls; `none` if that is not enough. Simplified: python's recursion limit
is not modelled. -/
def call (heap : List (Obj V)) (src : Src V) : Nat → Nat → Option (Except Exc V)
  | 0, _ => none
  | fuel + 1, a =>
    match heap[a]? with
    | none => none
    | some o =>
      match collect (call heap src fuel) src o.i2a with
      | none => none
      | some (.error e) => some (.error e)
      | some (.ok vs) => some (o.call vs)

/-- `"cut" in name` (used for util.py L104-119) -/
def hasCut : Name → Bool
  | [] => false
  | c :: t => ['c', 'u', 't'].isPrefixOf (c :: t) || hasCut t

/-- util.py L130-138 `_craftCut`, with at most `fuel` nested calls -/
def craftCut (b : Book V) (lnot : V → V) (name : Name) (src : Src V) (fuel : Nat) : Option (Except Exc V) :=
  let basename := name.dropWhile (· == '!')
  let bangs := name.length - basename.length
  match lookup b.crafted basename with
  | none => some (.error .assertion)
  | some a =>
    if bangs % 2 = 0 then call b.heap src fuel a
    else (call b.heap src fuel a).map (fun r => r.map lnot)

/-- util.py L104-119 `craft` for a name -/
def craft (b : Book V) (lnot : V → V) (name : Name) (src : Src V) (fuel : Nat) : Option (Except Exc V) :=
  if hasCut name then craftCut b lnot name src fuel
  else match lookup b.crafted name with
    | some a => call b.heap src fuel a
    | none => some (.error .exception)

/-- util.py L111-112, L121-128 `craft` for a function: a temporary recipe -/
def craftFn (b : Book V) (f : Fn V) (ingredients : Option (List Name)) (src : Src V) (fuel : Nat) : Option (Except Exc V) × Book V :=
  match add b tempName f ingredients false with
  | (.error e, b') => (some (.error e), b')
  | (.ok a, b') => (call b'.heap src fuel a, b')

/-- a call of `add` (arguments of mass/off/util.py L41-93) -/
structure Req (V : Type) where
  name : Name
  f : Fn V
  ingredients : Option (List Name)
  overwrite : Bool

/-- a history of calls of `add`; those that raise leave the book alone (repeated mass/off/util.py L41-93) -/
def runAdds (b : Book V) (rs : List (Req V)) : Book V := rs.foldl (fun b r => (add b r.name r.f r.ingredients r.overwrite).2) b

end Mass.Recipe
