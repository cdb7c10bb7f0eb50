import Verif.Py
/-
Model of /repo/mass/core/cut.py: cut-field registration (CutFieldMixin, L48-316)
and the per-pulse 32-bit cut words (Cuts, L319-633).

Simplifications common to this file:
* names are `String`s of unlimited length (the code stores `bytes_64`, i.e. names
  longer than 64 bytes are truncated by numpy; such names are in Cut/Stored.lean);
* the HDF5 attributes `cut_boolean_field_desc`, `cut_categorical_field_desc`,
  `cut_category_list`, `cut_used_bit_flags` are the four fields of `Group`; reading an
  attribute gives a fresh array (so local edits are not visible until written back);
* one channel (`Cuts` object) is modelled; a group has one per channel, and the
  `Cuts` methods never touch another channel's words.
-/
namespace Mass.Cut

/-- `np.uint32` (cut.py L76, L79, L83, L333). -/
abbrev Word := BitVec 32

/-- Python exceptions raised by cut.py (ValueError, KeyError, AssertionError, IndexError). (used for cut.py L164-183) -/
inductive Err
  | value | key | assertion | index
  deriving DecidableEq, Repr



/-- The four HDF5 attributes of a group, cut.py L126-156. `bools` has 32 slots, the slot
number is the bit number, an empty name marks a free slot. -/
structure Group where
  bools : List (String × Word)
  cats : List (String × Word)
  catList : List (String × String × Word)
  flags : Word
  deriving DecidableEq, Repr

/-- A group together with the cut words of one channel (cut.py L322-341). -/
structure Sys where
  grp : Group
  mask : List Word
  deriving DecidableEq, Repr

/-- Methods: may raise, and keep whatever was written before raising. -/
abbrev M (α : Type) := Sys → Except Err α × Sys

/-- Python sequencing: on an exception the rest is skipped, the state stays.; Python's own semantics, used in all of cut.py -/
def M.bind {α β} (m : M α) (f : α → M β) : M β := fun s =>
  match m s with
  | (.error e, s') => (.error e, s')
  | (.ok a, s') => f a s'

instance : Monad M where
  pure a := fun s => (.ok a, s)
  bind := M.bind

/-- `raise` (used for cut.py L206-231) -/
def raise {α} (e : Err) : M α := fun s => (.error e, s)
/-- use a local (non-mutating) computation that may raise (used for cut.py L185-204) -/
def lift {α} (x : Except Err α) : M α := fun s => (x, s)
/-- read the whole state (used for cut.py L185-204) -/
def getS : M Sys := fun s => (.ok s, s)
/-- setter properties, cut.py L130-132, L138-140, L146-148, L154-156 -/
def setBools (v : List (String × Word)) : M Unit :=
  fun s => (.ok (), { s with grp := { s.grp with bools := v } })
@[inherit_doc setBools] def setCats (v : List (String × Word)) : M Unit :=
  fun s => (.ok (), { s with grp := { s.grp with cats := v } })
@[inherit_doc setBools] def setCatList (v : List (String × String × Word)) : M Unit :=
  fun s => (.ok (), { s with grp := { s.grp with catList := v } })
@[inherit_doc setBools] def setFlags (v : Word) : M Unit :=
  fun s => (.ok (), { s with grp := { s.grp with flags := v } })
/-- `self._mask[...] = v` (used for cut.py L358-365) -/
def setMask (v : List Word) : M Unit := fun s => (.ok (), { s with mask := v })

/-- `np.uint32(1) << i` (used for cut.py L164-183) -/
def bit (i : Nat) : Word := 1#32 <<< i

/-- cut.py L164-183 `__lowest_available_cut_bit`: loop over 0..31, first clear bit. -/
def lowestAvail (flags : Word) : Except Err Nat :=
  match (List.range 32).find? (fun i => flags &&& bit i == 0#32) with
  | some i => .ok i
  | none => .error .value

/-- cut.py L198-201, the loop over `new_fields` on local copies. -/
def regLoop : List String → List (String × Word) → Word → Except Err (List (String × Word) × Word)
  | [], d, f => .ok (d, f)
  | n :: ns, d, f =>
    match lowestAvail f with
    | .error e => .error e
    | .ok i => regLoop ns (d.set i (n, bit i)) (f ||| bit i)

/-- cut.py L185-204 `register_boolean_cut_fields`. -/
def registerBool (names : List String) : M Unit := do
  let s ← getS
  let new := names.filter (fun n => !(s.grp.bools.map Prod.fst).contains n)
  let r ← lift (regLoop new s.grp.bools s.grp.flags)
  setBools r.1
  setFlags r.2

/-- cut.py L206-231 `unregister_boolean_cut_fields`. (The loop L225-228 over the 32 slots is
a map over the slots plus the OR of the cleared slots' masks.) -/
def unregisterBool (names : List String) : M Unit := do
  let s ← getS
  if names.any (fun n => n == "" || !(s.grp.bools.map Prod.fst).contains n) then
    raise .key
  else do
    let clear := ((s.grp.bools.filter (fun b => names.contains b.1)).map Prod.snd).foldl
      (· ||| ·) 0#32
    setBools (s.grp.bools.map (fun b => if names.contains b.1 then ("", 0#32) else b))
    let s' ← getS
    setFlags (s'.grp.flags &&& ~~~ clear)

/-- cut.py L251-254: drop duplicates keeping the first occurrences. -/
def dedup (cs : List String) : List String :=
  cs.foldl (fun acc c => if acc.contains c then acc else acc ++ [c]) []

/-- cut.py L251-262: deduplicated categories with the default moved to (or put at) the head. -/
def categoryList (categories : List String) (default : String) : List String :=
  default :: (dedup categories).erase default

/-- cut.py L265-266 `while (1 << num_bits) < len(category_list): num_bits += 1`, run with
`fuel` iterations at most (the loop needs fewer than `len` iterations). -/
def numBitsLoop (len : Nat) : Nat → Nat → Nat
  | 0, nb => nb
  | fuel + 1, nb => if 2 ^ nb < len then numBitsLoop len fuel (nb + 1) else nb

/-- cut.py L264-266. -/
def numBits (len : Nat) : Nat := numBitsLoop len len 1

/-- cut.py L273-277: result (bit_mask, lowest_bit_pos, individual_bit_masks). -/
def allocLoop (used : Word) : Nat → Word → Nat → List Word → Except Err (Word × Nat × List Word)
  | 0, bm, lo, ms => .ok (bm, lo, ms)
  | n + 1, bm, lo, ms =>
    match lowestAvail (used ||| bm) with
    | .error e => .error e
    | .ok i => allocLoop used n (bm ||| bit i) (min i lo) (bit i :: ms)

/-- cut.py L282 `f"{i:032b}"[-num_bits:]` as digits, most significant first. -/
def digits (nb i : Nat) : List Word :=
  (List.range nb).reverse.map (fun k => if i.testBit k then 1#32 else 0#32)

/-- cut.py L282-284: the code of category number `i`. -/
def catCode (ms : List Word) (lo nb i : Nat) : Word :=
  ((List.zipWith (· * ·) ms (digits nb i)).foldl (· + ·) 0#32) >>> lo

/-- cut.py L233-293 `register_categorical_cut_field`. -/
def registerCat (name : String) (categories : List String) (default : String) : M Unit := do
  let s ← getS
  if (s.grp.cats.map Prod.fst).contains name then
    pure ()
  else do
    let cl := categoryList categories default
    let nb := numBits cl.length
    let (bm, lo, ms) ← lift (allocLoop s.grp.flags nb 0#32 31 [])
    let new := cl.zipIdx.map (fun ci => (name, ci.1, catCode ms lo nb ci.2))
    setCatList (s.grp.catList ++ new)
    setCats (s.grp.cats ++ [(name, bm)])
    let s' ← getS
    setFlags (s'.grp.flags ||| bm)

/-- cut.py L295-316 `unregister_categorical_cut_field`. -/
def unregisterCat (name : String) : M Unit := do
  let s ← getS
  match s.grp.cats.find? (fun c => c.1 == name) with
  | none => raise .key
  | some c => do
    setCats (s.grp.cats.filter (fun x => x.1 != name))
    setCatList (s.grp.catList.filter (fun x => x.1 != name))
    let s' ← getS
    setFlags (s'.grp.flags &&& ~~~ c.2)

/-- cut.py L376-379, L502-505, L532-535: lowest set bit (31 when there is none, because the
loop variable keeps its last value). -/
def bitPos (m : Word) : Nat :=
  ((List.range 32).find? (fun i => (m >>> i) &&& 1#32 != 0#32)).getD 31

/-- Second argument of `Cuts.cut` (cut.py L348): a boolean vector or a vector of codes. -/
inductive Arg
  | bools (l : List Bool)
  | codes (l : List Word)
  deriving DecidableEq, Repr

/-- `mask.size` (used for cut.py L358-365) -/
def Arg.size : Arg → Nat
  | .bools l => l.length
  | .codes l => l.length

/-- `np.asarray(mask, dtype=np.uint32)` (cut.py L382). -/
def Arg.toCodes : Arg → List Word
  | .bools l => l.map (fun b => if b then 1#32 else 0#32)
  | .codes l => l

/-- `self._mask[mask] |= bit_mask` (cut.py L365, L370): boolean indexing, or – when an integer
vector reaches this line – numpy integer indexing, IndexError when out of range.
(The words are taken to be a numpy array, `hdf5_group=None`, L333.) -/
def orAt (words : List Word) (a : Arg) (bm : Word) : Except Err (List Word) :=
  match a with
  | .bools l => .ok (List.zipWith (fun w (b : Bool) => if b then w ||| bm else w) words l)
  | .codes l =>
    if l.all (fun c => c.toNat < words.length) then
      .ok (words.zipIdx.map (fun wi => if (l.map BitVec.toNat).contains wi.2 then wi.1 ||| bm else wi.1))
    else .error .index

/-- cut.py L358-365 `Cuts.cut` with an integer first argument. -/
def cutInt (cutNum : Int) (a : Arg) : M Unit := do
  let s ← getS
  if a.size ≠ s.mask.length then raise .assertion
  else if cutNum < 0 ∨ cutNum > 31 then raise .value
  else match s.grp.bools[cutNum.toNat]? with
    | none => raise .index
    | some b =>
      if b.1 = "" then raise .value
      else do
        let w ← lift (orAt s.mask a b.2)
        setMask w

/-- cut.py L366-385 `Cuts.cut` with a string first argument. -/
def cut (name : String) (a : Arg) : M Unit := do
  let s ← getS
  if a.size ≠ s.mask.length then raise .assertion
  else match s.grp.bools.find? (fun b => b.1 == name) with
    | some b => do
      let w ← lift (orAt s.mask a b.2)
      setMask w
    | none =>
      match s.grp.cats.find? (fun c => c.1 == name) with
      | some c => do
        let pos := bitPos c.2
        let temp := s.mask.map (fun w => w &&& ~~~ c.2)
        let vals := a.toCodes.map (fun (v : Word) => v <<< pos)
        setMask (List.zipWith (fun t v => t ||| (v &&& c.2)) temp vals)
      | none => raise .value

/-- cut.py L158-162 `cut_field_categories(field)[category]`: a dict comprehension, later entries win. -/
def fieldCode (g : Group) (field category : String) : Option Word :=
  ((g.catList.filter (fun e => e.1 == field && e.2.1 == category)).getLast?).map (fun e => e.2.2)

/-- `labels[catbool] = code` (cut.py L403); IndexError when the lengths differ. -/
def assignLabels (labels : List Word) (b : List Bool) (code : Word) : Except Err (List Word) :=
  if b.length = labels.length then
    .ok (List.zipWith (fun l (x : Bool) => if x then code else l) labels b)
  else .error .index

/-- cut.py L402-403, first loop. -/
def labelLoop (g : Group) (field : String) :
    List (String × List Bool) → List Word → Except Err (List Word)
  | [], ls => .ok ls
  | (c, b) :: rest, ls =>
    match fieldCode g field c with
    | none => .error .key
    | some code =>
      match assignLabels ls b code with
      | .error e => .error e
      | .ok ls' => labelLoop g field rest ls'

/-- cut.py L404-406, second loop: every flagged pulse still carries the category's code. -/
def labelsConsistent (g : Group) (field : String) (d : List (String × List Bool))
    (ls : List Word) : Bool :=
  d.all (fun cb => match fieldCode g field cb.1 with
    | none => false
    | some code => (List.zipWith (fun l (x : Bool) => !x || l == code) ls cb.2).all id)

/-- cut.py L389-407 `Cuts.cut_categorical`. The dict is a list of (category, bools) pairs. -/
def cutCategorical (field : String) (d : List (String × List Bool)) : M Unit := do
  let s ← getS
  let ls ← lift (labelLoop s.grp field d (List.replicate s.mask.length 0#32))
  if labelsConsistent s.grp field d ls then cut field (.codes ls)
  else raise .value

/-- cut.py L475-510 `Cuts.select_category`, the loop: (field mask, target bits). -/
def selectLoop (g : Group) : List (String × String) → Word → Word → Except Err (Word × Word)
  | [], bm, tg => .ok (bm, tg)
  | (n, c) :: rest, bm, tg =>
    match g.cats.find? (fun x => x.1 == n) with
    | none => .error .value
    | some f =>
      match g.catList.find? (fun e => e.1 == n && e.2.1 == c) with
      | none => .error .value
      | some e => selectLoop g rest (bm ||| f.2) (tg ||| (e.2.2 <<< bitPos f.2))

/-- cut.py L475-510 `Cuts.select_category(**kwargs)`. -/
def selectCategory (s : Sys) (kwargs : List (String × String)) : Except Err (List Bool) :=
  match selectLoop s.grp kwargs 0#32 0#32 with
  | .error e => .error e
  | .ok (bm, tg) => .ok (s.mask.map (fun w => w &&& bm == tg))

/-- cut.py L512-539 `Cuts.category_codes`. -/
def categoryCodes (s : Sys) (name : String) : Except Err (List Word) :=
  match s.grp.cats.find? (fun c => c.1 == name) with
  | none => .error .key
  | some c => .ok (s.mask.map (fun w => (w &&& c.2) >>> bitPos c.2))

/-- cut.py L587-605 `Cuts._boolean_fields_bit_mask`. -/
def boolMask (g : Group) (names : List String) : Except Err Word :=
  if names = [] then
    .ok (((g.bools.filter (fun b => b.1 != "")).map Prod.snd).foldl (· ||| ·) 0#32)
  else if names.all (fun n => ((g.bools.filter (fun b => b.1 != "")).map Prod.fst).contains n) then
    .ok (((g.bools.filter (fun b => names.contains b.1)).map Prod.snd).foldl (· ||| ·) 0#32)
  else .error .value

/-- cut.py L607-619 `Cuts.good(*names, **cats)`. -/
def good (s : Sys) (names : List String) (kwargs : List (String × String) := []) :
    Except Err (List Bool) :=
  match boolMask s.grp names with
  | .error e => .error e
  | .ok bm =>
    let g := s.mask.map (fun w => w &&& bm == 0#32)
    if kwargs = [] then .ok g
    else match selectCategory s kwargs with
      | .error e => .error e
      | .ok sel => .ok (List.zipWith (· && ·) g sel)

/-- cut.py L621-633 `Cuts.bad(*names, **cats)`. -/
def bad (s : Sys) (names : List String) (kwargs : List (String × String) := []) :
    Except Err (List Bool) :=
  match boolMask s.grp names with
  | .error e => .error e
  | .ok bm =>
    let g := s.mask.map (fun w => w &&& bm != 0#32)
    if kwargs = [] then .ok g
    else match selectCategory s kwargs with
      | .error e => .error e
      | .ok sel => .ok (List.zipWith (· && ·) g sel)

/-- cut.py L576-585 `Cuts.clear_cut`. -/
def clearCut (names : List String) : M Unit := do
  let s ← getS
  let bm ← lift (boolMask s.grp names)
  setMask (s.mask.map (fun w => w &&& ~~~ bm))

/-- One column of cut.py L541-574 `Cuts.cut_mask`: booleans give `good(name)`, categoricals give
the codes. -/
inductive Column
  | flag (l : List Bool)
  | code (l : List Word)
  deriving DecidableEq, Repr

/-- cut.py L541-574 `Cuts.cut_mask(*fields)`: list of (name, column). numpy refuses a dtype with
repeated names (ValueError), L563. -/
def cutMask (s : Sys) (fields : List String) : Except Err (List (String × Column)) :=
  let bn := if fields = [] then (s.grp.bools.map Prod.fst).filter (· != "")
            else (s.grp.bools.map Prod.fst).filter (fun n => fields.contains n)
  let cn := if fields = [] then s.grp.cats.map Prod.fst
            else (s.grp.cats.map Prod.fst).filter (fun n => fields.contains n)
  if fields.any (fun f => !(bn ++ cn).contains f) then .error .value
  else if ¬ (bn ++ cn).Nodup then .error .value
  else do
    let bs ← bn.mapM (fun n => do let g ← good s [n]; pure (n, Column.flag g))
    let cs ← cn.mapM (fun n => do let c ← categoryCodes s n; pure (n, Column.code c))
    pure (bs ++ cs)

/-! ### cut_parameter -/

/-- A float: `none` is NaN. Exact rationals otherwise. -/
abbrev F := Option Rat

/-- `x <= y` for a datum and a (non-NaN) limit; comparisons with NaN are False. (used for cut.py L446-451) -/
def F.le (x : F) (y : Rat) : Bool := match x with
  | none => false
  | some x => decide (x ≤ y)
/-- `x >= y`, False for NaN (used for cut.py L446-451) -/
def F.ge (x : F) (y : Rat) : Bool := match x with
  | none => false
  | some x => decide (y ≤ x)

/-- Elements of the sequence form of `allowed` (cut.py L423-424, L442-457); limits may be None. -/
inductive Element
  | range (a b : Option Rat)
  | invert
  deriving DecidableEq, Repr

/-- `allowed` (cut.py L420-424): None, a pair, or a sequence of pairs and 'invert'. -/
inductive Allowed
  | none
  | pair (a b : Option Rat)
  | seq (l : List Element)
  deriving Repr

/-- cut.py L446-451: the new value of the variable `index`; unchanged when both limits are None. -/
def rangeIndex (data : List F) (old : Option (List Bool)) (a b : Option Rat) :
    Option (List Bool) :=
  match a, b with
  | some a, some b => some (data.map (fun x => x.ge a && x.le b))
  | some a, none => some (data.map (fun x => x.ge a))
  | none, some b => some (data.map (fun x => x.le b))
  | none, none => old

/-- cut.py L442-457: loop carrying (`index`, `cut_vec`, `doInvert`). An unbound `index`
(UnboundLocalError) is turned into ValueError by L453-455. -/
def rangesLoop (data : List F) :
    List Element → Option (List Bool) → List Bool → Bool → Except Err (List Bool × Bool)
  | [], _, cv, inv => .ok (cv, inv)
  | .invert :: rest, ix, cv, _ => rangesLoop data rest ix cv true
  | .range a b :: rest, ix, cv, inv =>
    match rangeIndex data ix a b with
    | none => .error .value
    | some ix' => rangesLoop data rest (some ix')
        (List.zipWith (fun c (i : Bool) => if i then false else c) cv ix') inv

/-- Python truthiness of a limit (None or a number). (used for cut.py L409-473) -/
def truthy (a : Option Rat) : Bool := match a with
  | none => false
  | some a => a != 0

/-- cut.py L409-473 `Cuts.cut_parameter` with a string `cut_id`. An empty sequence raises
IndexError at `allowed[0]` (L439). -/
def cutParameter (data : List F) (allowed : Allowed) (cutId : String) : M Unit := do
  match allowed with
  | .none => pure ()
  | .pair a b => do
    let s ← getS
    if !(s.grp.bools.map Prod.fst).contains cutId then raise .value
    else match truthy a && truthy b, a, b with
      | true, some a, some b => cut cutId (.bools (data.map (fun x => x.le a || x.ge b)))
      | _, _, _ => do
        match a with
        | some a => cut cutId (.bools (data.map (fun x => x.le a)))
        | none => pure ()
        match b with
        | some b => cut cutId (.bools (data.map (fun x => x.ge b)))
        | none => pure ()
  | .seq l => do
    let s ← getS
    if !(s.grp.bools.map Prod.fst).contains cutId then raise .value
    else if l = [] then raise .index
    else do
      let r ← lift (rangesLoop data l Option.none (data.map (fun _ => true)) false)
      cut cutId (.bools (if r.2 then r.1.map (fun b => !b) else r.1))

/-! ### histories -/

/-- cut.py L52-67 -/
def builtinBool : List String :=
  ["pretrigger_rms", "pretrigger_mean", "pretrigger_mean_departure_from_median", "peak_time_ms",
   "rise_time_ms", "postpeak_deriv", "pulse_average", "min_value", "timestamp_sec",
   "timestamp_diff_sec", "subframecount_diff_sec", "peak_value", "energy", "timing",
   "p_filt_phase", "smart_cuts"]

/-- API calls that change the state. (used for cut.py L85-124) -/
inductive Op
  | regBool (names : List String)
  | unregBool (names : List String)
  | regCat (name : String) (cats : List String) (default : String)
  | unregCat (name : String)
  | cut (name : String) (a : Arg)
  | cutInt (n : Int) (a : Arg)
  | cutCategorical (field : String) (d : List (String × List Bool))
  | cutParameter (data : List F) (allowed : Allowed) (cutId : String)
  | clearCut (names : List String)

/-- Run one API call. (used for cut.py L85-124) -/
def Op.run : Op → M Unit
  | .regBool ns => registerBool ns
  | .unregBool ns => unregisterBool ns
  | .regCat n cs d => registerCat n cs d
  | .unregCat n => unregisterCat n
  | .cut n a => Cut.cut n a
  | .cutInt n a => Cut.cutInt n a
  | .cutCategorical f d => Cut.cutCategorical f d
  | .cutParameter d a c => Cut.cutParameter d a c
  | .clearCut ns => Cut.clearCut ns

/-- New state after a call (the caller catches any exception). (used for cut.py L85-124) -/
def Op.step (s : Sys) (op : Op) : Sys := (op.run s).2

/-- cut.py L107-124 on a new file with `n` pulses: empty tables, then the builtin fields. -/
def empty (n : Nat) : Sys :=
  { grp := { bools := List.replicate 32 ("", 0#32), cats := [], catList := [], flags := 0#32 },
    mask := List.replicate n 0#32 }

/-- cut.py L85-124 `cut_field_desc_init` on a new file. -/
def initial (n : Nat) : Sys :=
  ((empty n |> (Op.step · (.regBool builtinBool))) |>
    (Op.step · (.regCat "calibration" ["in", "out"] "in")))

end Mass.Cut
