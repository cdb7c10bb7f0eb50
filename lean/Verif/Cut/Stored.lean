import Verif.Cut.Model
import Mathlib.Tactic.Common
/-! C182: the names of cut fields and categories as they are stored, in 64 bytes of UTF-8 (mass/core/cut.py), and the tables that show them. `Verif/Cut/Model.lean` (C01 to C08) takes names as strings of any length; here it is
shown for which names that is right, and what happens for the others. -/
namespace Mass.Cut.Stored
open Mass.Cut

/-- bytes (cut.py L75-83) -/
abbrev Name := List UInt8

/-- `name.encode()` (used for cut.py L195) -/
def enc (s : String) : Name := s.toByteArray.data.toList

/-- `name.decode()` (used for cut.py L592); `none` is a UnicodeDecodeError, which is a ValueError -/
def dec (b : Name) : Option String := String.fromUTF8? ⟨b.toArray⟩

/-- zero bytes at the end do not count: reading an element of a numpy array of bytes leaves them out (cut.py L75-83) -/
def strip (b : Name) : Name := (b.reverse.dropWhile (· == 0)).reverse

/-- what an element of an array of `np.bytes_, 64` gives back after `b` was assigned to it (cut.py L75, L201) -/
def stored (b : Name) : Name := strip (b.take 64)

/-- `array["name"] == b` for one element, also `b in array["name"]` (cut.py L195, L220, L246, L308, L367, L372): numpy does not count zero bytes at the end -/
def eqS (st b : Name) : Bool := st == strip b

/-- The four HDF5 attributes of a group as stored, cut.py L75-83, L126-156 -/
structure GroupB where
  bools : List (Name × Word)
  cats : List (Name × Word)
  catList : List (Name × Name × Word)
  flags : Word
  deriving DecidableEq

/-- a group and the cut words of one channel (cut.py L322-341) -/
structure SysB where
  grp : GroupB
  mask : List Word
  deriving DecidableEq

/-- cut.py L198-201 -/
def regLoopB : List Name → List (Name × Word) → Word → Except Err (List (Name × Word) × Word)
  | [], d, f => .ok (d, f)
  | n :: ns, d, f =>
    match lowestAvail f with
    | .error e => .error e
    | .ok i => regLoopB ns (d.set i (stored n, bit i)) (f ||| bit i)

/-- `register_boolean_cut_fields`, cut.py L185-204 -/
def registerBoolB (names : List String) (s : SysB) : Except Err Unit × SysB :=
  let new := (names.map enc).filter (fun n => !s.grp.bools.any (fun b => eqS b.1 n))
  match regLoopB new s.grp.bools s.grp.flags with
  | .error e => (.error e, s)
  | .ok r => (.ok (), { s with grp := { s.grp with bools := r.1, flags := r.2 } })

/-- `unregister_boolean_cut_fields`, cut.py L206-231. The names in the table are looked for among those given as Python bytes (L226) -/
def unregisterBoolB (names : List String) (s : SysB) : Except Err Unit × SysB :=
  if (names.map enc).any (fun n => n == [] || !s.grp.bools.any (fun b => eqS b.1 n)) then (.error .key, s)
  else
    let clear := ((s.grp.bools.filter (fun b => (names.map enc).contains b.1)).map Prod.snd).foldl (· ||| ·) 0#32
    (.ok (), { s with grp := { s.grp with bools := s.grp.bools.map (fun b => if (names.map enc).contains b.1 then ([], 0#32) else b), flags := s.grp.flags &&& ~~~ clear } })

/-- `register_categorical_cut_field`, cut.py L233-293 -/
def registerCatB (name : String) (categories : List String) (default : String) (s : SysB) : Except Err Unit × SysB :=
  if s.grp.cats.any (fun c => eqS c.1 (enc name)) then (.ok (), s)
  else
    let cl := categoryList categories default
    let nb := numBits cl.length
    match allocLoop s.grp.flags nb 0#32 31 [] with
    | .error e => (.error e, s)
    | .ok (bm, lo, ms) => (.ok (), { s with grp := { s.grp with
        catList := s.grp.catList ++ cl.zipIdx.map (fun ci => (stored (enc name), stored (enc ci.1), catCode ms lo nb ci.2))
        cats := s.grp.cats ++ [(stored (enc name), bm)], flags := s.grp.flags ||| bm } })

/-- `unregister_categorical_cut_field`, cut.py L295-316 -/
def unregisterCatB (name : String) (s : SysB) : Except Err Unit × SysB :=
  match s.grp.cats.find? (fun c => eqS c.1 (enc name)) with
  | none => (.error .key, s)
  | some c => (.ok (), { s with grp := { s.grp with cats := s.grp.cats.filter (fun x => !eqS x.1 (enc name)), catList := s.grp.catList.filter (fun x => !eqS x.1 (enc name)), flags := s.grp.flags &&& ~~~ c.2 } })

/-- `Cuts.cut` with a name, cut.py L366-385 -/
def cutB (name : String) (a : Arg) (s : SysB) : Except Err Unit × SysB :=
  if a.size ≠ s.mask.length then (.error .assertion, s)
  else match s.grp.bools.find? (fun b => eqS b.1 (enc name)) with
    | some b => match orAt s.mask a b.2 with
      | .error e => (.error e, s)
      | .ok w => (.ok (), { s with mask := w })
    | none => match s.grp.cats.find? (fun c => eqS c.1 (enc name)) with
      | some c => (.ok (), { s with mask := List.zipWith (fun t v => t ||| (v &&& c.2)) (s.mask.map (fun w => w &&& ~~~ c.2)) (a.toCodes.map (fun (v : Word) => v <<< bitPos c.2)) })
      | none => (.error .value, s)

/-- `Cuts.cut` with a number, cut.py L358-365 -/
def cutIntB (cutNum : Int) (a : Arg) (s : SysB) : Except Err Unit × SysB :=
  if a.size ≠ s.mask.length then (.error .assertion, s)
  else if cutNum < 0 ∨ cutNum > 31 then (.error .value, s)
  else match s.grp.bools[cutNum.toNat]? with
    | none => (.error .index, s)
    | some b =>
      if b.1 = [] then (.error .value, s)
      else match orAt s.mask a b.2 with
        | .error e => (.error e, s)
        | .ok w => (.ok (), { s with mask := w })

/-- `cut_field_categories(field)`, cut.py L158-162: the field is compared as Python bytes; a category that cannot be decoded raises -/
def categoriesB (g : GroupB) (field : String) : Except Err (List (String × Word)) :=
  match (g.catList.filter (fun e => e.1 == enc field)).mapM (fun e => (dec e.2.1).map (fun c => (c, e.2.2))) with
  | none => .error .value
  | some l => .ok l

/-- the dictionary looked up; later entries win (cut.py L161) -/
def lookupB (l : List (String × Word)) (category : String) : Option Word := ((l.filter (fun e => e.1 == category)).getLast?).map (·.2)

/-- cut.py L402-403 -/
def labelLoopB (code : String → Option Word) : List (String × List Bool) → List Word → Except Err (List Word)
  | [], ls => .ok ls
  | (c, b) :: rest, ls =>
    match code c with
    | none => .error .key
    | some w =>
      match assignLabels ls b w with
      | .error e => .error e
      | .ok ls' => labelLoopB code rest ls'

/-- cut.py L404-406 -/
def consistentB (code : String → Option Word) (d : List (String × List Bool)) (ls : List Word) : Bool :=
  d.all (fun cb => match code cb.1 with
    | none => false
    | some w => (List.zipWith (fun l (x : Bool) => !x || l == w) ls cb.2).all id)

/-- `Cuts.cut_categorical`, cut.py L389-407 -/
def cutCategoricalB (field : String) (d : List (String × List Bool)) (s : SysB) : Except Err Unit × SysB :=
  match categoriesB s.grp field with
  | .error e => (.error e, s)
  | .ok l => match labelLoopB (lookupB l) d (List.replicate s.mask.length 0#32) with
    | .error e => (.error e, s)
    | .ok ls => if consistentB (lookupB l) d ls then cutB field (.codes ls) s else (.error .value, s)

/-- the boolean fields with decoded names; one that cannot be decoded raises (cut.py L592, L599) -/
def decoded (l : List (Name × Word)) : Option (List (String × Word)) := l.mapM (fun b => (dec b.1).map (fun n => (n, b.2)))

/-- `Cuts._boolean_fields_bit_mask`, cut.py L587-605; without names nothing is decoded -/
def boolMaskB (g : GroupB) (names : List String) : Except Err Word :=
  if names = [] then .ok (((g.bools.filter (fun b => b.1 != [])).map Prod.snd).foldl (· ||| ·) 0#32)
  else match decoded g.bools with
    | none => .error .value
    | some l => if names.all (fun n => ((l.filter (fun b => b.1 != "")).map Prod.fst).contains n) then .ok (((l.filter (fun b => names.contains b.1)).map Prod.snd).foldl (· ||| ·) 0#32) else .error .value

/-- `Cuts.clear_cut`, cut.py L576-585 -/
def clearCutB (names : List String) (s : SysB) : Except Err Unit × SysB :=
  match boolMaskB s.grp names with
  | .error e => (.error e, s)
  | .ok bm => (.ok (), { s with mask := s.mask.map (fun w => w &&& ~~~ bm) })

/-- `Cuts.select_category`, the loop, cut.py L483-508 -/
def selectLoopB (g : GroupB) : List (String × String) → Word → Word → Except Err (Word × Word)
  | [], bm, tg => .ok (bm, tg)
  | (n, c) :: rest, bm, tg =>
    match g.cats.find? (fun x => eqS x.1 (enc n)) with
    | none => .error .value
    | some f =>
      match g.catList.find? (fun e => eqS e.1 (enc n) && eqS e.2.1 (enc c)) with
      | none => .error .value
      | some e => selectLoopB g rest (bm ||| f.2) (tg ||| (e.2.2 <<< bitPos f.2))

/-- `Cuts.good`, cut.py L607-619 -/
def goodB (s : SysB) (names : List String) (kwargs : List (String × String)) : Except Err (List Bool) :=
  match boolMaskB s.grp names with
  | .error e => .error e
  | .ok bm =>
    let g := s.mask.map (fun w => w &&& bm == 0#32)
    if kwargs = [] then .ok g
    else match selectLoopB s.grp kwargs 0#32 0#32 with
      | .error e => .error e
      | .ok (bm, tg) => .ok (List.zipWith (· && ·) g (s.mask.map (fun w => w &&& bm == tg)))

/-- `Cuts.category_codes`, cut.py L512-539 -/
def categoryCodesB (s : SysB) (name : String) : Except Err (List Word) :=
  match s.grp.cats.find? (fun c => eqS c.1 (enc name)) with
  | none => .error .key
  | some c => .ok (s.mask.map (fun w => (w &&& c.2) >>> bitPos c.2))

/-- `Cuts.cut_parameter`, cut.py L409-473; as `cutParameter` of `Verif/Cut/Model.lean`, with the name looked up among the stored ones (L434) -/
def cutParameterB (data : List F) (allowed : Allowed) (cutId : String) (s : SysB) : Except Err Unit × SysB :=
  match allowed with
  | .none => (.ok (), s)
  | .pair a b =>
    if !s.grp.bools.any (fun x => eqS x.1 (enc cutId)) then (.error .value, s)
    else match truthy a && truthy b, a, b with
      | true, some a, some b => cutB cutId (.bools (data.map (fun x : F => x.le a || x.ge b))) s
      | _, _, _ =>
        match (match a with | some a => cutB cutId (.bools (data.map (fun x : F => x.le a))) s | none => (.ok (), s)) with
        | (.error e, t) => (.error e, t)
        | (.ok _, t) => match b with
          | some b => cutB cutId (.bools (data.map (fun x : F => x.ge b))) t
          | none => (.ok (), t)
  | .seq l =>
    if !s.grp.bools.any (fun x => eqS x.1 (enc cutId)) then (.error .value, s)
    else if l = [] then (.error .index, s)
    else match rangesLoop data l Option.none (data.map (fun _ => true)) false with
      | .error e => (.error e, s)
      | .ok r => cutB cutId (.bools (if r.2 then r.1.map (fun b => !b) else r.1)) s

/-- the calls of `Verif/Cut/Model.lean` on stored names (cut.py L85-473, L576-585) -/
def runB : Op → SysB → Except Err Unit × SysB
  | .regBool ns => registerBoolB ns
  | .unregBool ns => unregisterBoolB ns
  | .regCat n cs d => registerCatB n cs d
  | .unregCat n => unregisterCatB n
  | .cut n a => cutB n a
  | .cutInt n a => cutIntB n a
  | .cutCategorical f d => cutCategoricalB f d
  | .cutParameter d a c => cutParameterB d a c
  | .clearCut ns => clearCutB ns

/-! ### Names of at most 64 bytes -/

/-- a name of at most 64 bytes that does not end in a zero byte [specification] -/
def Short (s : String) : Prop := (enc s).length ≤ 64 ∧ (enc s).getLast? ≠ some 0

instance (s : String) : Decidable (Short s) := by unfold Short; infer_instance

/-- the names that a call gets are short (and it is not `cut_parameter`) [specification] -/
def ShortOp : Op → Prop
  | .regBool ns => ∀ n ∈ ns, Short n
  | .unregBool ns => ∀ n ∈ ns, Short n
  | .regCat n cs d => Short n ∧ (∀ c ∈ cs, Short c) ∧ Short d
  | .unregCat n => Short n
  | .cut n _ => Short n
  | .cutInt _ _ => True
  | .cutCategorical f _ => Short f
  | .cutParameter _ _ c => Short c
  | .clearCut _ => True

/-- the group of the model, stored [specification] -/
def img (g : Group) : GroupB := ⟨g.bools.map (fun b => (enc b.1, b.2)), g.cats.map (fun b => (enc b.1, b.2)), g.catList.map (fun e => (enc e.1, enc e.2.1, e.2.2)), g.flags⟩

/-- the state of the model, stored [specification] -/
def imgS (s : Sys) : SysB := ⟨img s.grp, s.mask⟩

theorem enc_inj (a b : String) : enc a = enc b ↔ a = b := by
  constructor
  · intro h
    unfold enc at h
    rw [← String.toByteArray_inj]
    have := Array.toList_inj.1 h
    cases ha : a.toByteArray; cases hb : b.toByteArray; simp_all
  · rintro rfl; rfl

theorem dec_enc (s : String) : dec (enc s) = some s := by
  have e : (⟨(enc s).toArray⟩ : ByteArray) = s.toByteArray := by cases h : s.toByteArray; simp [enc, h]
  unfold dec
  rw [e]
  unfold String.fromUTF8?
  rw [dif_pos s.isValidUTF8]
  congr 1

theorem strip_of (b : Name) (h : b.getLast? ≠ some 0) : strip b = b := by
  unfold strip
  rw [List.getLast?_eq_head?_reverse] at h
  cases hr : b.reverse with
  | nil =>
    have := congrArg List.reverse hr
    simp at this
    simp [this]
  | cons x l =>
    rw [hr] at h
    have hx : (x == 0) = false := by
      simp only [List.head?_cons, ne_eq, Option.some.injEq] at h
      simpa using h
    rw [List.dropWhile_cons, hx]
    simp only [Bool.false_eq_true, if_false]
    rw [← hr, List.reverse_reverse]

theorem strip_short (s : String) (h : Short s) : strip (enc s) = enc s := strip_of _ h.2

theorem stored_short (s : String) (h : Short s) : stored (enc s) = enc s := by
  unfold stored
  rw [List.take_of_length_le h.1, strip_short s h]

theorem eqS_short (a b : String) (h : Short b) : eqS (enc a) (enc b) = (a == b) := by
  unfold eqS
  rw [strip_short b h]
  by_cases e : a = b
  · subst e; simp
  · have : enc a ≠ enc b := fun h => e ((enc_inj a b).1 h)
    simp [e, this]

theorem enc_empty (a : String) : (enc a == []) = (a == "") := by
  have e0 : enc "" = [] := by decide +kernel
  by_cases e : a = ""
  · subst e; simp [e0]
  · have h1 : enc a ≠ [] := fun h => e ((enc_inj a "").1 (h.trans e0.symm))
    rw [beq_eq_false_iff_ne.2 h1, beq_eq_false_iff_ne.2 e]

theorem contains_enc (l : List String) (n : String) : (l.map enc).contains (enc n) = l.contains n := by
  rw [Bool.eq_iff_iff]
  simp only [List.contains_iff_mem, List.mem_map, enc_inj, exists_eq_right]

theorem any_short (l : List (String × Word)) (n : String) (h : Short n) : (l.map (fun b => (enc b.1, b.2))).any (fun b => eqS b.1 (enc n)) = (l.map Prod.fst).contains n := by
  induction l with
  | nil => rfl
  | cons b l ih =>
    simp only [List.map_cons, List.any_cons, List.contains_cons, ih, eqS_short _ _ h]
    rw [Bool.beq_comm]

theorem find_short (l : List (String × Word)) (n : String) (h : Short n) : (l.map (fun b => (enc b.1, b.2))).find? (fun b => eqS b.1 (enc n)) = (l.find? (fun b => b.1 == n)).map (fun b => (enc b.1, b.2)) := by
  induction l with
  | nil => rfl
  | cons b l ih =>
    simp only [List.map_cons, List.find?_cons, eqS_short _ _ h, ih]
    cases b.1 == n <;> rfl

theorem regLoop_short (ns : List String) (h : ∀ n ∈ ns, Short n) (d : List (String × Word)) (f : Word) :
    regLoopB (ns.map enc) (d.map (fun b => (enc b.1, b.2))) f = (regLoop ns d f).map (fun r => (r.1.map (fun b => (enc b.1, b.2)), r.2)) := by
  induction ns generalizing d f with
  | nil => rfl
  | cons n ns ih =>
    simp only [List.map_cons, regLoopB, regLoop]
    cases lowestAvail f with
    | error e => rfl
    | ok i =>
      dsimp only
      rw [← ih (fun m hm => h m (List.mem_cons_of_mem _ hm)), stored_short n (h n (by simp)), List.map_set]

theorem filter_short (ns : List String) (h : ∀ n ∈ ns, Short n) (l : List (String × Word)) :
    (ns.map enc).filter (fun n => !(l.map (fun b => (enc b.1, b.2))).any (fun b => eqS b.1 n)) = (ns.filter (fun n => !(l.map Prod.fst).contains n)).map enc := by
  induction ns with
  | nil => rfl
  | cons n ns ih =>
    rw [List.map_cons, List.filter_cons, List.filter_cons, ih (fun m hm => h m (List.mem_cons_of_mem _ hm)), any_short l n (h n (by simp))]
    split <;> rfl

theorem decoded_img (l : List (String × Word)) : decoded (l.map (fun b => (enc b.1, b.2))) = some l := by
  unfold decoded
  induction l with
  | nil => rfl
  | cons b l ih => rw [List.map_cons, List.mapM_cons, ih, dec_enc]; rfl

theorem boolMask_img (g : Group) (names : List String) : boolMaskB (img g) names = boolMask g names := by
  unfold boolMaskB boolMask
  split
  · congr 1
    simp only [img, List.filter_map, List.map_map]
    congr 1
    have : (fun b : Name × Word => b.1 != []) ∘ (fun b : String × Word => (enc b.1, b.2)) = fun b => b.1 != "" := by
      funext b; simp only [Function.comp, bne, enc_empty]
    rw [this]
    rfl
  · simp only [img, decoded_img]

theorem dedup_mem (cs : List String) : ∀ c ∈ dedup cs, c ∈ cs := by
  unfold dedup
  have : ∀ (cs acc : List String), ∀ c ∈ cs.foldl (fun acc c => if acc.contains c then acc else acc ++ [c]) acc, c ∈ acc ∨ c ∈ cs := by
    intro cs
    induction cs with
    | nil => intro acc c hc; exact .inl hc
    | cons x cs ih =>
      intro acc c hc
      rcases ih _ c hc with h | h
      · dsimp only at h
        split at h
        · exact .inl h
        · rcases List.mem_append.1 h with h | h
          · exact .inl h
          · exact .inr (by rw [List.mem_singleton.1 h]; simp)
      · exact .inr (List.mem_cons_of_mem _ h)
  intro c hc
  rcases this cs [] c hc with h | h
  · simp at h
  · exact h

theorem categoriesB_img (g : Group) (field category : String) : ∃ l, categoriesB (img g) field = .ok l ∧ ∀ category, lookupB l category = fieldCode g field category := by
  refine ⟨(g.catList.filter (fun e => e.1 == field)).map (fun e => (e.2.1, e.2.2)), ?_, ?_⟩
  · unfold categoriesB img
    dsimp only
    have : ∀ l : List (String × String × Word), ((l.map (fun e => (enc e.1, enc e.2.1, e.2.2))).filter (fun e => e.1 == enc field)).mapM (fun e => (dec e.2.1).map (fun c => (c, e.2.2))) =
        some ((l.filter (fun e => e.1 == field)).map (fun e => (e.2.1, e.2.2))) := by
      intro l
      induction l with
      | nil => rfl
      | cons e l ih =>
        have he : (enc e.1 == enc field) = (e.1 == field) := by
          rw [Bool.eq_iff_iff]; simp [enc_inj]
        rw [List.map_cons, List.filter_cons, List.filter_cons]
        dsimp only
        rw [he]
        split
        · rw [List.mapM_cons, ih, dec_enc]; rfl
        · exact ih
    rw [this]
  · intro category
    unfold lookupB fieldCode
    rw [List.filter_map, List.getLast?_map, Option.map_map, List.filter_filter]
    congr 2
    apply List.filter_congr
    intro e _
    simp only [Function.comp]
    rw [Bool.and_comm]

theorem labelLoop_eq (g : Group) (field : String) (code : String → Option Word) (hc : ∀ c, code c = fieldCode g field c) (d : List (String × List Bool)) (ls : List Word) :
    labelLoopB code d ls = labelLoop g field d ls ∧ ∀ ls, consistentB code d ls = labelsConsistent g field d ls := by
  have e : code = fieldCode g field := funext hc
  subst e
  refine ⟨?_, fun ls => rfl⟩
  induction d generalizing ls with
  | nil => rfl
  | cons x d ih =>
    obtain ⟨c, b⟩ := x
    simp only [labelLoopB, labelLoop]
    cases fieldCode g field c with
    | none => rfl
    | some w =>
      dsimp only
      cases assignLabels ls b w with
      | error e => rfl
      | ok ls' => exact ih ls'

theorem cut_img (name : String) (a : Arg) (h : Short name) (s : Sys) : cutB name a (imgS s) = ((Cut.cut name a s).1, imgS (Cut.cut name a s).2) := by
  unfold cutB Cut.cut
  simp only [imgS, img, find_short _ _ h, bind, M.bind, getS]
  by_cases hs : a.size ≠ s.mask.length
  · simp only [if_pos hs]; rfl
  · simp only [if_neg hs]
    cases s.grp.bools.find? (fun b => b.1 == name) with
    | some b =>
      simp only [Option.map_some, lift]
      cases orAt s.mask a b.2 <;> rfl
    | none =>
      simp only [Option.map_none]
      cases s.grp.cats.find? (fun b => b.1 == name) <;> rfl

/-- C182. For names and categories of at most 64 bytes that do not end in a zero byte, each call on the stored names does what it does on the names of any length that C01 to C08 speak of: the same result or exception, and the stored state is that
of the other. -/
theorem run_img (op : Op) (h : ShortOp op) (s : Sys) : runB op (imgS s) = ((op.run s).1, imgS (op.run s).2) := by
  cases op with
  | regBool ns =>
    simp only [runB, Op.run, registerBoolB, registerBool, bind, M.bind, getS, lift, imgS, img]
    rw [filter_short ns h, regLoop_short _ (fun n hn => h n (List.mem_filter.1 hn).1)]
    cases regLoop (ns.filter (fun n => !(s.grp.bools.map Prod.fst).contains n)) s.grp.bools s.grp.flags <;> rfl
  | unregBool ns =>
    simp only [runB, Op.run, unregisterBoolB, unregisterBool, bind, M.bind, getS, imgS, img]
    have e : (ns.map enc).any (fun n => n == [] || !(s.grp.bools.map (fun b => (enc b.1, b.2))).any (fun b => eqS b.1 n)) = ns.any (fun n => n == "" || !(s.grp.bools.map Prod.fst).contains n) := by
      rw [List.any_map]
      rw [Bool.eq_iff_iff, List.any_eq_true, List.any_eq_true]
      constructor
      · rintro ⟨n, hn, h1⟩
        refine ⟨n, hn, ?_⟩
        simp only [Function.comp, any_short _ n (h n hn), enc_empty] at h1
        exact h1
      · rintro ⟨n, hn, h1⟩
        refine ⟨n, hn, ?_⟩
        simp only [Function.comp, any_short _ n (h n hn), enc_empty]
        exact h1
    cases hh : ns.any (fun n => n == "" || !(s.grp.bools.map Prod.fst).contains n)
    case true => simp only [e, hh, if_true]; rfl
    case false =>
      simp only [e, hh, Bool.false_eq_true, if_false, M.bind]
      simp only [setBools, setFlags, List.map_map, List.filter_map]
      have e1 : (fun b : Name × Word => (ns.map enc).contains b.1) ∘ (fun b : String × Word => (enc b.1, b.2)) = fun b => ns.contains b.1 := by
        funext b; simp only [Function.comp, contains_enc]
      have e0 : enc "" = [] := by decide +kernel
      rw [e1]
      have e2 : (s.grp.bools.map ((fun b : Name × Word => if (ns.map enc).contains b.1 then ([], 0#32) else b) ∘ fun b : String × Word => (enc b.1, b.2))) =
          s.grp.bools.map ((fun b : String × Word => (enc b.1, b.2)) ∘ fun b => if ns.contains b.1 then ("", 0#32) else b) := by
        apply List.map_congr_left
        intro b _
        simp only [Function.comp, contains_enc]
        split <;> simp [e0]
      rw [e2]
      simp only [getS, List.map_map]
      rfl
  | regCat n cs d =>
    obtain ⟨h1, h2, h3⟩ := h
    simp only [runB, Op.run, registerCatB, registerCat, bind, M.bind, getS, lift, imgS, img]
    have e := any_short s.grp.cats n h1
    cases hh : (s.grp.cats.map Prod.fst).contains n
    case true => simp only [e, hh, if_true]; rfl
    case false =>
      simp only [e, hh, Bool.false_eq_true, if_false, M.bind]
      cases allocLoop s.grp.flags (numBits (categoryList cs d).length) 0#32 31 [] with
      | error e => rfl
      | ok r =>
        obtain ⟨bm, lo, ms⟩ := r
        simp only [setCatList, setCats, setFlags, List.map_append, List.map_cons, List.map_nil, List.map_map]
        have e : (categoryList cs d).zipIdx.map (fun ci => (stored (enc n), stored (enc ci.1), catCode ms lo (numBits (categoryList cs d).length) ci.2)) =
            (categoryList cs d).zipIdx.map ((fun e : String × String × Word => (enc e.1, enc e.2.1, e.2.2)) ∘ fun ci => (n, ci.1, catCode ms lo (numBits (categoryList cs d).length) ci.2)) := by
          apply List.map_congr_left
          intro ci hci
          have hm : ci.1 ∈ categoryList cs d := by
            have := List.fst_mem_of_mem_zipIdx hci
            exact this
          have hs : Short ci.1 := by
            unfold categoryList at hm
            rcases List.mem_cons.1 hm with e | hm
            · rw [e]; exact h3
            · exact h2 _ (dedup_mem cs _ (List.mem_of_mem_erase hm))
          simp only [Function.comp, stored_short n h1, stored_short ci.1 hs]
        rw [e, stored_short n h1]
        simp only [getS, lift, List.map_append, List.map_cons, List.map_nil, List.map_map]
  | unregCat n =>
    simp only [runB, Op.run, unregisterCatB, unregisterCat, bind, M.bind, getS, imgS, img, find_short _ _ h]
    cases s.grp.cats.find? (fun c => c.1 == n) with
    | none => rfl
    | some c =>
      simp only [Option.map_some, setCats, setCatList, setFlags, List.filter_map]
      have e1 : (fun x : Name × Word => !eqS x.1 (enc n)) ∘ (fun b : String × Word => (enc b.1, b.2)) = fun x => x.1 != n := by
        funext b; simp only [Function.comp, eqS_short _ _ h, bne]
      have e2 : (fun x : Name × Name × Word => !eqS x.1 (enc n)) ∘ (fun e : String × String × Word => (enc e.1, enc e.2.1, e.2.2)) = fun x => x.1 != n := by
        funext b; simp only [Function.comp, eqS_short _ _ h, bne]
      rw [e1, e2]
      rfl
  | cut n a => exact cut_img n a h s
  | cutInt n a =>
    simp only [runB, Op.run, cutIntB, Cut.cutInt, bind, M.bind, getS, imgS, img, List.getElem?_map]
    by_cases hs : a.size ≠ s.mask.length
    · simp only [if_pos hs]; rfl
    · simp only [if_neg hs]
      by_cases hn : n < 0 ∨ n > 31
      · simp only [if_pos hn]; rfl
      · simp only [if_neg hn]
        cases s.grp.bools[n.toNat]? with
        | none => rfl
        | some b =>
          simp only [Option.map_some]
          have e0 : (enc b.1 = []) ↔ (b.1 = "") := by
            have := enc_empty b.1
            rw [Bool.eq_iff_iff] at this
            simpa using this
          by_cases hb : b.1 = ""
          · simp only [if_pos hb, if_pos (e0.2 hb)]; rfl
          · simp only [if_neg hb, if_neg (fun h => hb (e0.1 h)), lift]
            cases orAt s.mask a b.2 <;> rfl
  | cutCategorical f d =>
    obtain ⟨l, hl, hc⟩ := categoriesB_img s.grp f ""
    simp only [runB, Op.run, cutCategoricalB, Cut.cutCategorical, bind, M.bind, getS, lift]
    have h0 : (imgS s).grp = img s.grp := rfl
    have hm : (imgS s).mask = s.mask := rfl
    rw [h0, hl, hm]
    dsimp only
    rw [(labelLoop_eq s.grp f (lookupB l) hc d _).1]
    cases labelLoop s.grp f d (List.replicate s.mask.length 0#32) with
    | error e => rfl
    | ok ls =>
      dsimp only
      rw [(labelLoop_eq s.grp f (lookupB l) hc d []).2]
      split
      · exact cut_img f _ h s
      · rfl
  | cutParameter d al c =>
    have hc : Short c := h
    have e : (imgS s).grp.bools.any (fun x => eqS x.1 (enc c)) = (s.grp.bools.map Prod.fst).contains c := any_short s.grp.bools c hc
    simp only [runB, Op.run, cutParameterB, Cut.cutParameter]
    cases al with
    | none => rfl
    | pair a b =>
      simp only [bind, M.bind, getS, e]
      cases hh : (s.grp.bools.map Prod.fst).contains c
      case false => rfl
      case true =>
        simp only [Bool.not_true, Bool.false_eq_true, if_false]
        cases a with
        | none =>
          cases b with
          | none => rfl
          | some b => simp only [truthy, Bool.false_and]; exact cut_img c _ hc s
        | some a =>
          cases b with
          | none =>
            simp only [truthy, Bool.and_false]
            rw [cut_img c _ hc s]
            cases hr : Cut.cut c (.bools (d.map (fun x => x.le a))) s with
            | mk r t => cases r <;> (unfold M.bind; rw [hr]; try rfl)
          | some b =>
            cases ht : truthy (some a) && truthy (some b)
            case true => exact cut_img c _ hc s
            case false =>
              simp only
              rw [cut_img c _ hc s]
              cases hr : Cut.cut c (.bools (d.map (fun x => x.le a))) s with
              | mk r t =>
                cases r with
                | error e => unfold M.bind; rw [hr]
                | ok u => unfold M.bind; rw [hr]; exact cut_img c _ hc t
    | seq l =>
      simp only [bind, M.bind, getS, e, lift]
      cases hh : (s.grp.bools.map Prod.fst).contains c
      case false => rfl
      case true =>
        simp only [Bool.not_true, Bool.false_eq_true, if_false]
        by_cases hl : l = []
        · simp only [if_pos hl]; rfl
        · simp only [if_neg hl]
          cases rangesLoop d l Option.none (d.map (fun _ => true)) false with
          | error e => rfl
          | ok r => exact cut_img c _ hc s
  | clearCut ns =>
    simp only [runB, Op.run, clearCutB, Cut.clearCut, bind, M.bind, getS, lift]
    have h0 : (imgS s).grp = img s.grp := rfl
    rw [h0, boolMask_img]
    cases boolMask s.grp ns <;> rfl

/-- C182. So for every history of calls with such names, from a new file on, the stored state is that of the model of C01 to C08, and what is seen of it is the same. -/
theorem history_img (n : ℕ) (ops : List Op) (h : ∀ op ∈ ops, ShortOp op) : let s := ops.foldl Op.step (initial n)
    let b := ops.foldl (fun b op => (runB op b).2) ((runB (.regCat "calibration" ["in", "out"] "in") (runB (.regBool builtinBool) ⟨⟨List.replicate 32 ([], 0#32), [], [], 0#32⟩, List.replicate n 0#32⟩).2).2)
    b = imgS s ∧ (∀ names kwargs, (∀ x ∈ kwargs, Short x.1 ∧ Short x.2) → goodB b names kwargs = good s names kwargs) ∧ (∀ name, Short name → categoryCodesB b name = categoryCodes s name) := by
  have e0 : (⟨⟨List.replicate 32 ([], 0#32), [], [], 0#32⟩, List.replicate n 0#32⟩ : SysB) = imgS (empty n) := by
    have : enc "" = [] := by decide +kernel
    simp only [imgS, img, empty, List.map_replicate, this, List.map_nil]
  have hb : ∀ m ∈ builtinBool, Short m := by decide +kernel
  have hc : Short "calibration" ∧ (∀ c ∈ ["in", "out"], Short c) ∧ Short "in" := by decide +kernel
  have key : ∀ (ops : List Op) (s : Sys), (∀ op ∈ ops, ShortOp op) → ops.foldl (fun b op => (runB op b).2) (imgS s) = imgS (ops.foldl Op.step s) := by
    intro ops
    induction ops with
    | nil => intro s _; rfl
    | cons op ops ih =>
      intro s h
      rw [List.foldl_cons, List.foldl_cons, run_img op (h op (by simp)) s]
      exact ih _ (fun o ho => h o (List.mem_cons_of_mem _ ho))
  have main : ops.foldl (fun b op => (runB op b).2) ((runB (.regCat "calibration" ["in", "out"] "in") (runB (.regBool builtinBool) ⟨⟨List.replicate 32 ([], 0#32), [], [], 0#32⟩, List.replicate n 0#32⟩).2).2) =
      imgS (ops.foldl Op.step (initial n)) := by
    rw [e0, run_img (.regBool builtinBool) hb, run_img (.regCat "calibration" ["in", "out"] "in") hc, key ops _ h]
    rfl
  dsimp only
  rw [main]
  generalize ops.foldl Op.step (initial n) = s
  refine ⟨rfl, fun names kwargs hk => ?_, fun name hn => ?_⟩
  · have sel : ∀ (kw : List (String × String)) (bm tg : Word), (∀ x ∈ kw, Short x.1 ∧ Short x.2) → selectLoopB (img s.grp) kw bm tg = selectLoop s.grp kw bm tg := by
      intro kw
      induction kw with
      | nil => intro bm tg _; rfl
      | cons x kw ih =>
        intro bm tg hx
        obtain ⟨m, c⟩ := x
        obtain ⟨h1, h2⟩ := hx (m, c) (by simp)
        have ef : ∀ l : List (String × String × Word), (l.map (fun e => (enc e.1, enc e.2.1, e.2.2))).find? (fun e => eqS e.1 (enc m) && eqS e.2.1 (enc c)) =
            (l.find? (fun e => e.1 == m && e.2.1 == c)).map (fun e => (enc e.1, enc e.2.1, e.2.2)) := by
          intro l
          induction l with
          | nil => rfl
          | cons e l ih =>
            simp only [List.map_cons, List.find?_cons, eqS_short _ _ h1, eqS_short _ _ h2, ih]
            cases e.1 == m && e.2.1 == c <;> rfl
        unfold selectLoopB selectLoop
        simp only [img, find_short _ _ h1, ef]
        cases s.grp.cats.find? (fun x => x.1 == m) with
        | none => rfl
        | some f =>
          simp only [Option.map_some]
          cases s.grp.catList.find? (fun e => e.1 == m && e.2.1 == c) with
          | none => rfl
          | some e => exact ih _ _ (fun y hy => hx y (List.mem_cons_of_mem _ hy))
    unfold goodB good
    simp only [imgS, boolMask_img]
    cases boolMask s.grp names with
    | error e => rfl
    | ok bm =>
      dsimp only
      by_cases hkw : kwargs = []
      · rw [if_pos hkw, if_pos hkw]
      · rw [if_neg hkw, if_neg hkw, sel kwargs _ _ hk]
        unfold selectCategory
        cases selectLoop s.grp kwargs 0#32 0#32 <;> rfl
  · unfold categoryCodesB categoryCodes
    simp only [imgS, img, find_short _ _ hn]
    cases s.grp.cats.find? (fun c => c.1 == name) <;> rfl

/-- the hypotheses are met by ordinary names, also by 64 letters -/
example : (∀ n ∈ builtinBool, Short n) ∧ Short (String.ofList (List.replicate 64 'x')) ∧ ¬ Short (String.ofList (List.replicate 65 'x')) ∧ Short "Al Kα" := by decide +kernel

/-! ### Longer names -/

/-- a name of more than 64 bytes [specification] -/
def Long (s : String) : Prop := 64 < (strip (enc s)).length

/-- the stored names have at most 64 bytes: so it is in every state (`stored_le`) [specification] -/
def Fits (s : SysB) : Prop := (∀ b ∈ s.grp.bools, b.1.length ≤ 64) ∧ ∀ b ∈ s.grp.cats, b.1.length ≤ 64

theorem strip_le (b : Name) : (strip b).length ≤ b.length := by
  unfold strip
  rw [List.length_reverse]
  calc _ ≤ b.reverse.length := (List.dropWhile_suffix _).length_le
    _ = b.length := List.length_reverse

theorem stored_le (b : Name) : (stored b).length ≤ 64 := by
  unfold stored
  calc _ ≤ (b.take 64).length := strip_le _
    _ ≤ 64 := by rw [List.length_take]; omega

theorem long_ne (b : Name) (s : String) (hb : b.length ≤ 64) (h : Long s) : eqS b (enc s) = false := by
  unfold eqS
  rw [beq_eq_false_iff_ne]
  intro e
  unfold Long at h
  rw [← e] at h
  omega

theorem enc_dec (b : Name) (s : String) (h : dec b = some s) : enc s = b := by
  unfold dec String.fromUTF8? at h
  split at h
  · rename_i hv
    simp only [Option.some.injEq] at h
    subst h
    simp [enc, String.fromUTF8]
  · simp at h

theorem decoded_le (l : List (Name × Word)) (d : List (String × Word)) (h : decoded l = some d) (hl : ∀ b ∈ l, b.1.length ≤ 64) : ∀ x ∈ d, (enc x.1).length ≤ 64 := by
  induction l generalizing d with
  | nil =>
    simp only [decoded, List.mapM_nil] at h
    cases h
    simp
  | cons b l ih =>
    unfold decoded at h
    rw [List.mapM_cons] at h
    cases hd : dec b.1 with
    | none => rw [hd] at h; cases h
    | some x =>
      rw [hd] at h
      cases hm : l.mapM (fun b => (dec b.1).map (fun n => (n, b.2))) with
      | none => rw [hm] at h; cases h
      | some d' =>
        rw [hm] at h
        cases h
        intro y hy
        rcases List.mem_cons.1 hy with rfl | hy
        · dsimp only
          rw [enc_dec _ _ hd]
          exact hl b (by simp)
        · exact ih d' hm (fun b hb => hl b (List.mem_cons_of_mem _ hb)) y hy

/-- Disagreement (C182): a name of more than 64 bytes can be registered, but is not found afterwards: in every state, registering it (again) takes the next free bit, and cutting by it, asking for its pulses, clearing and unregistering it raise. -/
theorem long_name_fails (s : SysB) (hs : Fits s) (n : String) (h : Long n) :
    (∀ i, lowestAvail s.grp.flags = .ok i → registerBoolB [n] s = (.ok (), { s with grp := { s.grp with bools := s.grp.bools.set i (stored (enc n), bit i), flags := s.grp.flags ||| bit i } }) ∧ Fits (registerBoolB [n] s).2) ∧
    (∀ a : Arg, a.size = s.mask.length → cutB n a s = (.error .value, s)) ∧ goodB s [n] [] = .error .value ∧ clearCutB [n] s = (.error .value, s) ∧ unregisterBoolB [n] s = (.error .key, s) ∧ unregisterCatB n s = (.error .key, s) := by
  have hany : s.grp.bools.any (fun b => eqS b.1 (enc n)) = false := by
    rw [List.any_eq_false]
    intro b hb
    rw [long_ne b.1 n (hs.1 b hb) h]; simp
  have hfind : s.grp.bools.find? (fun b => eqS b.1 (enc n)) = none := by
    rw [List.find?_eq_none]
    intro b hb
    rw [long_ne b.1 n (hs.1 b hb) h]; simp
  have hfindc : s.grp.cats.find? (fun b => eqS b.1 (enc n)) = none := by
    rw [List.find?_eq_none]
    intro b hb
    rw [long_ne b.1 n (hs.2 b hb) h]; simp
  have hmask : boolMaskB s.grp [n] = .error .value := by
    unfold boolMaskB
    rw [if_neg (by simp)]
    cases hd : decoded s.grp.bools with
    | none => rfl
    | some l =>
      dsimp only
      rw [if_neg]
      intro hc
      simp only [List.all_cons, List.all_nil, Bool.and_true, List.contains_iff_mem, List.mem_map] at hc
      obtain ⟨x, hx, rfl⟩ := hc
      have h1 := decoded_le _ l hd hs.1 x (List.mem_filter.1 hx).1
      have h2 := strip_le (enc x.1)
      unfold Long at h
      omega
  refine ⟨fun i hi => ?_, fun a ha => ?_, ?_, ?_, ?_, ?_⟩
  · have e : registerBoolB [n] s = (.ok (), { s with grp := { s.grp with bools := s.grp.bools.set i (stored (enc n), bit i), flags := s.grp.flags ||| bit i } }) := by
      unfold registerBoolB
      simp only [List.map_cons, List.map_nil, List.filter_cons, hany, Bool.not_false, if_true, List.filter_nil, regLoopB, hi]
    refine ⟨e, ?_⟩
    rw [e]
    refine ⟨fun b hb => ?_, hs.2⟩
    rcases List.mem_or_eq_of_mem_set hb with hb | hb
    · exact hs.1 b hb
    · rw [hb]; exact stored_le _
  · unfold cutB
    simp only [ha, ne_eq, not_true_eq_false, if_false, hfind, hfindc]
  · unfold goodB; rw [hmask]
  · unfold clearCutB; rw [hmask]
  · unfold unregisterBoolB
    simp only [List.map_cons, List.map_nil, List.any_cons, hany, Bool.not_false, Bool.or_true, List.any_nil, Bool.true_or, if_true]
  · unfold unregisterCatB
    rw [hfindc]

/-- a new file, with the fields there are from the start (cut.py L85-124) [specification] -/
def start (n : ℕ) : SysB := imgS (initial n)

/-- registering `n` again and again, how each ends [specification] -/
def again (n : String) : ℕ → SysB → List Bool
  | 0, _ => []
  | k + 1, s => (registerBoolB [n] s).1.isOk :: again n k (registerBoolB [n] s).2

/-- 65 letters [specification] -/
def long65 : String := String.ofList (List.replicate 65 'x')

/-- Disagreement (C182): so "registering a field that exists is silently ignored" does not hold for a long name: the sixteenth time, all 32 bits are used up and registering raises, also for any other field. -/
theorem exhausted_fails : again long65 16 (start 2) = List.replicate 15 true ++ [false] ∧ Long long65 := by
  unfold Long; decide +kernel

/-- Disagreement (C182): two names with the same first 64 bytes become two fields of the same name, of which cutting sees the first and asking sees both; the given names raise. -/
theorem same_beginning_fails : let a := String.ofList (List.replicate 64 'x')
    let s := (registerBoolB [a ++ "1", a ++ "2"] (start 2)).2
    let c := (cutIntB 18 (.bools [false, true]) (cutB a (.bools [true, false]) s).2).2
    c.grp.bools.filter (fun b => b.1 == enc a) = [(enc a, bit 17), (enc a, bit 18)] ∧ goodB c [a] [] = .ok [false, false] ∧ goodB c [a ++ "1"] [] = .error .value := by decide +kernel

/-- Disagreement (C182): if the 64 bytes end within a letter of two or more bytes, then afterwards asking for any field by name raises ValueError, on all channels of the group; asking for all fields at once still works. -/
theorem split_letter_fails : let n := String.ofList (List.replicate 63 'x') ++ "é"
    let s := (registerBoolB [n] (start 2)).2
    (registerBoolB [n] (start 2)).1 = .ok () ∧ (builtinBool.all (fun f => goodB s [f] [] == .error .value)) = true ∧ goodB s [] [] = .ok [true, true] ∧ goodB (start 2) ["energy"] [] = .ok [true, true] := by decide +kernel

/-- Disagreement (C182): a category with a long name is registered without an error, but pulses cannot be assigned to it or selected by it. -/
theorem long_category_fails : let s := (registerCatB "state" [long65, "B"] "A" (start 2)).2
    (registerCatB "state" [long65, "B"] "A" (start 2)).1 = .ok () ∧ (cutCategoricalB "state" [(long65, [true, false])] s).1 = .error .key ∧ goodB s [] [("state", long65)] = .error .value ∧
    (cutCategoricalB "state" [("B", [true, false])] s).1 = .ok () := by decide +kernel

/-! ### Tables of the fields -/

/-- `_get_max_width`, cut.py L13-17; `max` of an empty sequence is a ValueError -/
def maxWidth (lens : List ℕ) (low : ℕ) : Except Err ℕ := match lens with
  | [] => .error .value
  | x :: l => .ok (max (l.foldl max x) low)

/-- the format `{:^width}`, used in cut.py L22-28: the text in the middle, the odd space after it -/
def center (w : ℕ) (s : List Char) : List Char := List.replicate ((w - s.length) / 2) ' ' ++ s ++ List.replicate ((w - s.length) - (w - s.length) / 2) ' '

/-- the format `{:032b}` of a mask, cut.py L25 -/
def bin32 (m : Word) : List Char := (List.range 32).reverse.map (fun i => if m.getLsbD i then '1' else '0')

/-- the text of a table of boolean or categorical fields, line by line: `CutDesc.__repr__`, cut.py L21-30. A name that cannot be decoded raises -/
def fieldTable (l : List (Name × Word)) : Except Err (List (List Char)) := do
  let w ← maxWidth (l.map (fun b => b.1.length)) 4
  match decoded (l.filter (fun b => b.2 != 0#32)) with
  | none => .error .value
  | some rows => .ok ([center (w + 2) "name".toList ++ ['|'] ++ center 34 "mask".toList, List.replicate (w + 2) '-' ++ ['+'] ++ List.replicate 34 '-'] ++
      rows.map (fun r => center (w + 2) r.1.toList ++ ['|', ' '] ++ bin32 r.2 ++ [' ']))

/-- what a reader reads in 32 binary digits [specification] -/
def readBin (l : List Char) : ℕ := l.foldl (fun v c => 2 * v + (if c = '1' then 1 else 0)) 0

theorem len_le (s : String) : s.length ≤ (enc s).length := by
  obtain ⟨l, rfl⟩ : ∃ l, s = String.ofList l := ⟨s.toList, by simp⟩
  unfold enc
  rw [String.toByteArray_ofList, String.length_ofList]
  induction l with
  | nil => simp
  | cons c l ih =>
    rw [List.utf8Encode_cons]
    simp only [ByteArray.data_append, Array.toList_append, List.length_append]
    have : 1 ≤ ([c].utf8Encode).data.toList.length := by
      simp [List.utf8Encode]
      have := c.utf8Size_pos
      omega
    simp only [List.length_cons]
    omega

theorem center_length (w : ℕ) (s : List Char) (h : s.length ≤ w) : (center w s).length = w := by
  simp only [center, List.length_append, List.length_replicate]
  omega

theorem readBin_append (a b : List Char) : readBin (a ++ b) = readBin a * 2 ^ b.length + readBin b := by
  have : ∀ (b : List Char) (v : ℕ), b.foldl (fun v c => 2 * v + (if c = '1' then 1 else 0)) v = v * 2 ^ b.length + readBin b := by
    intro b
    induction b with
    | nil => intro v; simp [readBin]
    | cons c b ih =>
      intro v
      have h1 := ih (2 * v + (if c = '1' then 1 else 0))
      have h2 := ih (2 * 0 + (if c = '1' then 1 else 0))
      simp only [List.foldl_cons, readBin, List.length_cons] at h1 h2 ⊢
      rw [h1, h2, Nat.pow_succ]
      simp only [Nat.add_mul, Nat.mul_add]
      generalize 2 ^ b.length = p
      rw [show v * (p * 2) = 2 * v * p by rw [Nat.mul_comm p 2, ← Nat.mul_assoc, Nat.mul_comm v 2]]
      omega
  unfold readBin
  rw [List.foldl_append, this]
  rfl

theorem readBin_digits (m k : ℕ) : readBin ((List.range k).reverse.map (fun i => if m.testBit i then '1' else '0')) = m % 2 ^ k := by
  induction k with
  | zero => simp [readBin, Nat.mod_one]
  | succ k ih =>
    rw [List.range_succ, List.reverse_append, List.reverse_singleton, List.map_append, readBin_append, ih]
    simp only [List.map_cons, List.map_nil, List.length_map, List.length_reverse, List.length_range]
    rw [Nat.mod_pow_succ, Nat.testBit_eq_decide_div_mod_eq]
    rcases Nat.mod_two_eq_zero_or_one (m / 2 ^ k) with e | e <;> simp [readBin, e] <;> omega

theorem le_foldl_max (l : List ℕ) (x a : ℕ) (h : a ≤ x ∨ a ∈ l) : a ≤ l.foldl max x := by
  induction l generalizing x with
  | nil => simpa using h
  | cons y l ih =>
    rw [List.foldl_cons]
    apply ih
    rcases h with h | h
    · exact .inl (by omega)
    · rcases List.mem_cons.1 h with rfl | h
      · exact .inl (by omega)
      · exact .inr h

theorem decoded_mem (l : List (Name × Word)) (d : List (String × Word)) (h : decoded l = some d) : d.map (fun x => (enc x.1, x.2)) = l := by
  induction l generalizing d with
  | nil =>
    simp only [decoded, List.mapM_nil] at h
    cases h
    rfl
  | cons b l ih =>
    unfold decoded at h
    rw [List.mapM_cons] at h
    cases hd : dec b.1 with
    | none => rw [hd] at h; cases h
    | some x =>
      rw [hd] at h
      cases hm : l.mapM (fun b => (dec b.1).map (fun n => (n, b.2))) with
      | none => rw [hm] at h; cases h
      | some d' =>
        rw [hm] at h
        cases h
        rw [List.map_cons, ih d' hm]
        dsimp only
        rw [enc_dec _ _ hd]

/-- C182. The table of the fields, where it is printed, has after two head lines one line for each field that has a bit, in order; all lines are equally long; a line holds the name within spaces, a bar, and 32 binary digits that read as the mask. -/
theorem table_shows (l : List (Name × Word)) (t : List (List Char)) (h : fieldTable l = .ok t) : ∃ rows : List (String × Word), ∃ w,
    rows.map (fun r => (enc r.1, r.2)) = l.filter (fun b => b.2 != 0#32) ∧ t.length = rows.length + 2 ∧ (∀ line ∈ t, line.length = w + 35) ∧
    ∀ i (hi : i < rows.length), ∃ j k digits, t[i + 2]? = some (List.replicate j ' ' ++ (rows[i]).1.toList ++ List.replicate k ' ' ++ ['|', ' '] ++ digits ++ [' ']) ∧ digits.length = 32 ∧ readBin digits = (rows[i]).2.toNat := by
  unfold fieldTable at h
  cases hw : maxWidth (l.map (fun b => b.1.length)) 4 with
  | error e => rw [hw] at h; cases h
  | ok w =>
    rw [hw] at h
    simp only [bind, Except.bind] at h
    cases hd : decoded (l.filter (fun b => b.2 != 0#32)) with
    | none => rw [hd] at h; cases h
    | some rows =>
      rw [hd] at h
      simp only [Except.ok.injEq] at h
      have hm := decoded_mem _ _ hd
      have hlen : ∀ r ∈ rows, r.1.toList.length ≤ w + 2 := by
        intro r hr
        have h1 : (enc r.1, r.2) ∈ l := by
          have : (enc r.1, r.2) ∈ rows.map (fun x => (enc x.1, x.2)) := List.mem_map.2 ⟨r, hr, rfl⟩
          rw [hm] at this
          exact (List.mem_filter.1 this).1
        have h2 : (enc r.1).length ≤ w := by
          have hmem : (enc r.1).length ∈ l.map (fun b => b.1.length) := List.mem_map.2 ⟨_, h1, rfl⟩
          unfold maxWidth at hw
          split at hw
          · cases hw
          · rename_i x l' e
            simp only [Except.ok.injEq] at hw
            have := le_foldl_max l' x (enc r.1).length (by rw [e] at hmem; rcases List.mem_cons.1 hmem with h | h; exacts [.inl (by omega), .inr h])
            omega
        have h3 := len_le r.1
        rw [String.length_toList]
        omega
      have hw4 : 4 ≤ w := by
        unfold maxWidth at hw
        split at hw
        · cases hw
        · simp only [Except.ok.injEq] at hw; omega
      subst h
      refine ⟨rows, w + 2, hm, by simp, fun line hl => ?_, fun i hi => ?_⟩
      · simp only [List.cons_append, List.nil_append, List.mem_cons, List.mem_map] at hl
        rcases hl with rfl | rfl | ⟨r, hr, rfl⟩
        · simp only [List.length_append, center_length (w + 2) "name".toList (by show 4 ≤ w + 2; omega), center_length 34 "mask".toList (by decide), List.length_cons, List.length_nil]
        · simp
        · simp only [List.length_append, center_length (w + 2) _ (hlen r hr), List.length_cons, List.length_nil, bin32, List.length_map, List.length_reverse, List.length_range]
      · refine ⟨(w + 2 - (rows[i]).1.toList.length) / 2, (w + 2 - (rows[i]).1.toList.length) - (w + 2 - (rows[i]).1.toList.length) / 2, bin32 (rows[i]).2, ?_, by simp [bin32], ?_⟩
        · simp only [List.cons_append, List.nil_append, List.getElem?_cons_succ, List.getElem?_map, List.getElem?_eq_getElem hi, Option.map_some]
          rfl
        · unfold bin32
          have := readBin_digits (rows[i]).2.toNat 32
          rw [Nat.mod_eq_of_lt (rows[i]).2.isLt] at this
          rw [← this]
          rfl

/-- the text of the table of categories: `CategoryList.__repr__`, cut.py L33-45 -/
def categoryTable (l : List (Name × Name × ℕ)) : Except Err (List (List Char)) := do
  let fw ← maxWidth (l.map (fun b => b.1.length)) 5
  let cw ← maxWidth (l.map (fun b => b.2.1.length)) 8
  let w ← maxWidth (l.map (fun b => (Nat.toDigits 10 b.2.2).length)) 4
  match l.mapM (fun b => (dec b.1).bind (fun f => (dec b.2.1).map (fun c => (f, c, b.2.2)))) with
  | none => .error .value
  | some rows => .ok ([center (fw + 2) "field".toList ++ ['|'] ++ center (cw + 2) "category".toList ++ ['|'] ++ center (w + 2) "code".toList,
      List.replicate (fw + 2) '-' ++ ['+'] ++ List.replicate (cw + 2) '-' ++ ['+'] ++ List.replicate (w + 2) '-'] ++
      rows.map (fun r => center (fw + 2) r.1.toList ++ ['|'] ++ center (cw + 2) r.2.1.toList ++ ['|'] ++ center (w + 2) (Nat.toDigits 10 r.2.2) ++ [' ']))

theorem maxWidth_le (lens : List ℕ) (low w : ℕ) (h : maxWidth lens low = .ok w) : low ≤ w ∧ ∀ x ∈ lens, x ≤ w := by
  unfold maxWidth at h
  split at h
  · cases h
  · rename_i x l
    simp only [Except.ok.injEq] at h
    refine ⟨by omega, fun a ha => ?_⟩
    have := le_foldl_max l x a (by rcases List.mem_cons.1 ha with h | h; exacts [.inl (by omega), .inr h])
    omega

/-- C182. The table of categories, where it is printed, has one line for each category below two head lines, with the field, the category and the code in decimal digits, each within spaces between bars; these lines are equally long, one blank longer than the head. -/
theorem categories_shown (l : List (Name × Name × ℕ)) (t : List (List Char)) (h : categoryTable l = .ok t) : ∃ rows : List (String × String × ℕ), ∃ w,
    rows.map (fun r => (enc r.1, enc r.2.1, r.2.2)) = l ∧ t.length = rows.length + 2 ∧ (∀ i, i < 2 → ∃ line, t[i]? = some line ∧ line.length = w) ∧
    ∀ i (hi : i < rows.length), ∃ a b c d e f line, t[i + 2]? = some line ∧ line.length = w + 1 ∧
      line = (List.replicate a ' ' ++ (rows[i]).1.toList ++ List.replicate b ' ') ++ ['|'] ++ (List.replicate c ' ' ++ (rows[i]).2.1.toList ++ List.replicate d ' ') ++ ['|'] ++
        (List.replicate e ' ' ++ Nat.toDigits 10 (rows[i]).2.2 ++ List.replicate f ' ') ++ [' '] := by
  unfold categoryTable at h
  cases hf : maxWidth (l.map (fun b => b.1.length)) 5 with
  | error e => rw [hf] at h; cases h
  | ok fw =>
  cases hc : maxWidth (l.map (fun b => b.2.1.length)) 8 with
  | error e => rw [hf, hc] at h; cases h
  | ok cw =>
  cases hn : maxWidth (l.map (fun b => (Nat.toDigits 10 b.2.2).length)) 4 with
  | error e => rw [hf, hc, hn] at h; cases h
  | ok w =>
  rw [hf, hc, hn] at h
  simp only [bind, Except.bind] at h
  cases hd : l.mapM (fun b => (dec b.1).bind (fun f => (dec b.2.1).map (fun c => (f, c, b.2.2)))) with
  | none => rw [hd] at h; cases h
  | some rows =>
    have h' := h
    rw [hd] at h'
    simp only [Except.ok.injEq] at h'
    clear h
    have hm : ∀ (l : List (Name × Name × ℕ)) rows, l.mapM (fun b => (dec b.1).bind (fun f => (dec b.2.1).map (fun c => (f, c, b.2.2)))) = some rows → rows.map (fun r : String × String × ℕ => (enc r.1, enc r.2.1, r.2.2)) = l := by
      intro l
      induction l with
      | nil => intro rows h; rw [List.mapM_nil] at h; cases h; rfl
      | cons b l ih =>
        intro rows h
        rw [List.mapM_cons] at h
        cases h1 : dec b.1 with
        | none => rw [h1] at h; cases h
        | some x =>
        cases h2 : dec b.2.1 with
        | none => rw [h1, h2] at h; cases h
        | some y =>
        rw [h1, h2] at h
        cases h3 : l.mapM (fun b => (dec b.1).bind (fun f => (dec b.2.1).map (fun c => (f, c, b.2.2)))) with
        | none => rw [h3] at h; cases h
        | some d =>
          rw [h3] at h
          cases h
          rw [List.map_cons, ih d h3]
          dsimp only
          rw [enc_dec _ _ h1, enc_dec _ _ h2]
    have hrows := hm l rows hd
    have hF := maxWidth_le _ _ _ hf
    have hC := maxWidth_le _ _ _ hc
    have hN := maxWidth_le _ _ _ hn
    have hmem : ∀ r ∈ rows, r.1.toList.length ≤ fw + 2 ∧ r.2.1.toList.length ≤ cw + 2 ∧ (Nat.toDigits 10 r.2.2).length ≤ w + 2 := by
      intro r hr
      have h1 : (enc r.1, enc r.2.1, r.2.2) ∈ l := by rw [← hrows]; exact List.mem_map.2 ⟨r, hr, rfl⟩
      have a1 := hF.2 _ (List.mem_map.2 ⟨_, h1, rfl⟩)
      have a2 := hC.2 _ (List.mem_map.2 ⟨_, h1, rfl⟩)
      have a3 := hN.2 _ (List.mem_map.2 ⟨_, h1, rfl⟩)
      have b1 := len_le r.1
      have b2 := len_le r.2.1
      simp only [String.length_toList]
      dsimp only at a1 a2 a3
      omega
    subst h'
    have hh : (center (fw + 2) "field".toList ++ ['|'] ++ center (cw + 2) "category".toList ++ ['|'] ++ center (w + 2) "code".toList).length = fw + cw + w + 8 := by
      simp only [List.length_append, center_length (fw + 2) "field".toList (by show 5 ≤ fw + 2; omega), center_length (cw + 2) "category".toList (by show 8 ≤ cw + 2; omega),
        center_length (w + 2) "code".toList (by show 4 ≤ w + 2; omega), List.length_cons, List.length_nil]
      omega
    refine ⟨rows, fw + cw + w + 8, hrows, by simp, fun i hi => ?_, fun i hi => ?_⟩
    · match i, hi with
      | 0, _ => exact ⟨_, rfl, hh⟩
      | 1, _ => exact ⟨_, rfl, by simp only [List.length_append, List.length_replicate, List.length_cons, List.length_nil]; omega⟩
    · obtain ⟨m1, m2, m3⟩ := hmem _ (List.getElem_mem hi)
      refine ⟨(fw + 2 - (rows[i]).1.toList.length) / 2, (fw + 2 - (rows[i]).1.toList.length) - (fw + 2 - (rows[i]).1.toList.length) / 2,
        (cw + 2 - (rows[i]).2.1.toList.length) / 2, (cw + 2 - (rows[i]).2.1.toList.length) - (cw + 2 - (rows[i]).2.1.toList.length) / 2,
        (w + 2 - (Nat.toDigits 10 (rows[i]).2.2).length) / 2, (w + 2 - (Nat.toDigits 10 (rows[i]).2.2).length) - (w + 2 - (Nat.toDigits 10 (rows[i]).2.2).length) / 2,
        center (fw + 2) (rows[i]).1.toList ++ ['|'] ++ center (cw + 2) (rows[i]).2.1.toList ++ ['|'] ++ center (w + 2) (Nat.toDigits 10 (rows[i]).2.2) ++ [' '], ?_, ?_, rfl⟩
      · simp only [List.cons_append, List.nil_append, List.getElem?_cons_succ, List.getElem?_map, List.getElem?_eq_getElem hi, Option.map_some]
      · simp only [List.length_append, center_length _ _ m1, center_length _ _ m2, center_length _ _ m3, List.length_cons, List.length_nil]
        omega

example : (categoryTable [(enc "calibration", enc "in", 0), (enc "calibration", enc "out", 1)]).map (List.map String.ofList) =
    .ok ["    field    | category | code ", "-------------+----------+------", " calibration |    in    |  0    ", " calibration |   out    |  1    "] := by decide +kernel

/-- Disagreement (C182): without categorical fields (the only one there is from the start was unregistered) the tables of categorical fields and of categories cannot be shown: ValueError. -/
theorem empty_table_fails : let s := (unregisterCatB "calibration" (start 2)).2
    (unregisterCatB "calibration" (start 2)).1 = .ok () ∧ fieldTable s.grp.cats = .error .value ∧ s.grp.catList = [] ∧ categoryTable [] = .error .value ∧ ((fieldTable (start 2).grp.cats).map List.length) = .ok 3 := by decide +kernel

/-- the table of a new file: 16 fields below two head lines -/
example : ((fieldTable (start 2).grp.bools).map List.length) = .ok 18 ∧ (fieldTable [(enc "Kα", 5#32), ([], 0#32)]).map (List.map String.ofList) =
    .ok [" name |               mask               ", "------+----------------------------------", "  Kα  | 00000000000000000000000000000101 "] := by decide +kernel

end Mass.Cut.Stored
