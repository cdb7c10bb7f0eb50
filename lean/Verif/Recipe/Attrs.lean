import Verif.Recipe.Props
import Mathlib.Tactic.Tauto
/-! C180: recipes as attributes of channels (mass/off/util.py L83-93, mass/off/channels.py L196-207, L1446-1460), and recipe books in files
(util.py L146-159). Properties are added to the class, so they are shared by all channels of a process. -/
namespace Mass.Recipe.Attrs
open Mass.Recipe
variable {V : Type}

/-! ### model -/

/-- the two classes of channels (mass/off/channels.py L193, L1446): `ChannelFromNpArray` inherits from `Channel` -/
inductive Cls
  | off
  | np
  deriving DecidableEq

/-- what a class has by a name from its definition: a property that reads the quantity of that name, or something else -/
inductive Kind
  | own
  | other
  deriving DecidableEq

/-- mass/off/channels.py L347-377: properties that are `self.getAttr(name, NoCutInds())` for their own name -/
def ownNames : List Name := ["residualStdDev".toList, "pretriggerMean".toList, "relTimeSec".toList, "unixnano".toList, "pulseMean".toList,
  "derivativeLike".toList, "filtPhase".toList, "filtValue".toList]

/-- mass/off/channels.py L75-190, L193-936, L1446-1535: methods, other properties and values of the classes CorG, Channel and
ChannelFromNpArray. Simplified: names that begin with two underscores are left out. -/
def otherNames : List Name := ["stateLabels".toList, "plotHist".toList, "linefit".toList, "_default_bin_size".toList,
  "setDefaultBinsize".toList, "_handleDefaultBinsize".toList, "_offAttrs".toList, "_recipeAttrs".toList, "statesDict".toList,
  "nRecords".toList, "rowPeriodSeconds".toList, "rowcount".toList, "subframeDivisions".toList, "subframePeriodSeconds".toList,
  "subframecount".toList, "_defineDefaultRecipesAndProperties".toList, "cutAdd".toList, "cutSetDefault".toList,
  "_handleDefaultCut".toList, "isOffAttr".toList, "isRecipeAttr".toList, "learnChannumAndShortname".toList,
  "learnResidualStdDevCut".toList, "getStatesIndicies".toList, "_indexOffWithCuts".toList, "getAttr".toList, "_getAttr".toList,
  "plotAvsB2d".toList, "plotAvsB".toList, "_plotAvsB_list".toList, "_plotAvsB_single".toList, "hist".toList,
  "learnDriftCorrection".toList, "learnPhaseCorrection".toList, "learnTimeDriftCorrection".toList, "plotCompareDriftCorrect".toList,
  "calibrationPlanInit".toList, "calibrationPlanAddPoint".toList, "calibrateFollowingPlan".toList,
  "learnCalibrationPlanFromEnergiesAndPeaks".toList, "markBad".toList, "markGood".toList, "alignToReferenceChannel".toList,
  "qualityCheckLinefit".toList, "histsToHDF5".toList, "energyTimestampLabelToHDF5".toList, "qualityCheckDropOneErrors".toList,
  "diagnoseCalibration".toList, "add5LagRecipes".toList, "_calcExternalTriggerTiming".toList]

/-- mass/off/channels.py L1475-1477: a method of ChannelFromNpArray only -/
def npNames : List Name := ["refreshFromFiles".toList]

/-- mass/off/channels.py L198-207, L226, L250-251, L1448-1457: attributes that every new channel sets on itself. Simplified: attributes set by
later calls (calibrationPlan, aligner, ...) are left out. -/
def instNames : List Name := ["offFile".toList, "experimentStateFile".toList, "markedBadBool".toList, "_statesDict".toList,
  "verbose".toList, "recipes".toList, "_default_cut_recipe_name".toList, "channum".toList, "shortName".toList]

/-- what the definition of a class says of a name (mass/off/channels.py L75-936, L1446-1535) -/
def fixedKind (k : Cls) (n : Name) : Option Kind :=
  if ownNames.contains n then some .own
  else if otherNames.contains n || (k == .np && npNames.contains n) then some .other
  else none

/-- a channel: its class, its recipe book and its data (mass/off/channels.py L197-207, L1447-1460) -/
structure Ch (V : Type) where
  cls : Cls
  book : Book V
  src : Src V

/-- what is in a file: a whole RecipeBook, some other object, or the beginning of one (mass/off/util.py L146-159) -/
inductive Content (V : Type)
  | book (b : Book V)
  | other
  | cut

/-- a process and the files: names of the properties that were added to each class, channels, files -/
structure W (V : Type) where
  userOff : List Name
  userNp : List Name
  chans : List (Ch V)
  files : List (Name × Content V)

/-- a property was added by that name, to the class or to the one it inherits from (mass/off/util.py L90) -/
def userHas (w : W V) (k : Cls) (n : Name) : Bool := w.userOff.contains n || (k == .np && w.userNp.contains n)

/-- `hasattr(self.propertyClass, recipeName)`, mass/off/util.py L90 -/
def classHas (w : W V) (k : Cls) (n : Name) : Bool := (fixedKind k n).isSome || userHas w k n

/-- `setattr(self.propertyClass, recipeName, ...)`, mass/off/util.py L91-92 -/
def addProp (w : W V) (k : Cls) (n : Name) : W V :=
  match k with
  | .off => { w with userOff := w.userOff ++ [n] }
  | .np => { w with userNp := w.userNp ++ [n] }

/-- `dict[path] = content` for files (used for mass/off/util.py L150) -/
def putFile (fs : List (Name × Content V)) (p : Name) (c : Content V) : List (Name × Content V) := (p, c) :: fs.filter (fun e => e.1 != p)

/-- the content of a file (used for mass/off/util.py L147, L155) -/
def file (w : W V) (p : Name) : Option (Content V) := (w.files.find? (fun e => e.1 == p)).map Prod.snd

/-- what happens, one after the other, in this process and later ones. `fate` of a save: `dill.dump` returns, or it raises or the process dies
before it does. -/
inductive Op (V : Type)
  | openCh (k : Cls) (base : List Name) (src : Src V)
  | add (i : Nat) (r : Req V) (createProperty : Bool)
  | save (i : Nat) (path : Name) (overwrite : Bool) (finishes : Bool)
  | load (i : Nat) (path : Name)
  | restart

/-- One step. `openCh`: mass/off/channels.py L197-206, L1447-1459 (the recipes that a new channel adds to itself are `add` steps that follow);
assigning to an attribute that is a property of the class raises AttributeError. `add`: util.py L41-93. `save`: util.py L146-151 `to_file`.
`load`: `ds.recipes = RecipeBook.from_file(path)`, util.py L153-159, or channels.py L1423-1427 for one channel. `restart`: a new python process. -/
def step (w : W V) : Op V → Except Exc Unit × W V
  | .openCh k base src =>
    if instNames.any (userHas w k) then (.error .attribute, w)
    else (.ok (), { w with chans := w.chans ++ [⟨k, newBook V base, src⟩] })
  | .add i r createProperty =>
    match w.chans[i]? with
    | none => (.error .key, w)
    | some c =>
      match add c.book r.name r.f r.ingredients r.overwrite with
      | (.error e, b) => (.error e, { w with chans := w.chans.set i { c with book := b } })
      | (.ok _, b) =>
        let w' : W V := { w with chans := w.chans.set i { c with book := b } }
        if r.name = tempName then (.ok (), w')
        else if createProperty && !classHas w c.cls r.name then (.ok (), addProp w' c.cls r.name)
        else (.ok (), w')
  | .save i path overwrite finishes =>
    match w.chans[i]? with
    | none => (.error .key, w)
    | some c =>
      if !overwrite && (file w path).isSome then (.error .exception, w)
      else if finishes then (.ok (), { w with files := putFile w.files path (.book c.book) })
      else (.error .exception, { w with files := putFile w.files path .cut })
  | .load i path =>
    match w.chans[i]? with
    | none => (.error .key, w)
    | some c =>
      match file w path with
      | none => (.error .os, w)
      | some .cut => (.error .eof, w)
      | some .other => (.error .assertion, w)
      | some (.book b) => (.ok (), { w with chans := w.chans.set i { c with book := b } })
  | .restart => (.ok (), { w with userOff := [], userNp := [], chans := [] })

/-- any number of steps (repeated calls; see `step`) [specification] -/
def run (w : W V) (ops : List (Op V)) : W V := ops.foldl (fun w o => (step w o).2) w

/-- mass/off/channels.py L422-456 `getAttr(name, NoCutInds())`: a recipe, the coefficients, or data of the file, for all records -/
def getAttr (lnot : V → V) (fuel : Nat) (c : Ch V) (n : Name) : Option (Except Exc V) :=
  if (lookup c.book.crafted n).isSome then craft c.book lnot n c.src fuel
  else if n = "coefs".toList then some c.src.coefs
  else if c.book.base.contains n then some (c.src.get n)
  else some (.error .exception)

/-- what `ds.name` gives -/
inductive Got (V : Type)
  /-- AttributeError -/
  | missing
  /-- what the class or the channel itself has by that name -/
  | fixed
  /-- what `getAttr` returned or raised; `none` if it did not return -/
  | val (r : Option (Except Exc V))

/-- names that `getAttr` itself reads from the channel (mass/off/channels.py L388, L417, L240-241) -/
def usedNames : List Name := ["offFile".toList, "recipes".toList, "_default_cut_recipe_name".toList]

/-- the body of a property (mass/off/util.py L91-92, channels.py L347-377). If one of the names it reads is such a property too, the calls never end. -/
def viaProp (w : W V) (lnot : V → V) (fuel : Nat) (c : Ch V) (n : Name) : Got V :=
  .val (if usedNames.any (userHas w c.cls) then none else getAttr lnot fuel c n)

/-- `ds.name`: a property of the class comes first, then what was set on the channel, then what else the class has (Python data model; class
contents from mass/off/channels.py and util.py L91-92) -/
def access (w : W V) (lnot : V → V) (fuel : Nat) (c : Ch V) (n : Name) : Got V :=
  match fixedKind c.cls n with
  | some .own => viaProp w lnot fuel c n
  | some .other => .fixed
  | none => if userHas w c.cls n then viaProp w lnot fuel c n else if instNames.contains n then .fixed else .missing

/-! ### lemmas -/

theorem run_cons (w : W V) (o : Op V) (ops : List (Op V)) : run w (o :: ops) = run (step w o).2 ops := rfl

theorem run_append (w : W V) (a b : List (Op V)) : run w (a ++ b) = run (run w a) b := by
  unfold run; rw [List.foldl_append]

/-- an `add` that works, when it creates a property [specification] -/
theorem step_user (w : W V) (o : Op V) : o = .restart ∨
    ((step w o).2.userOff = w.userOff ∧ (step w o).2.userNp = w.userNp) ∨
    (∃ i r c, o = .add i r true ∧ w.chans[i]? = some c ∧ classHas w c.cls r.name = false ∧
      (step w o).2.userOff = (addProp w c.cls r.name).userOff ∧ (step w o).2.userNp = (addProp w c.cls r.name).userNp) := by
  cases o with
  | restart => exact .inl rfl
  | openCh k base src =>
    refine .inr (.inl ?_)
    simp only [step]
    split <;> exact ⟨rfl, rfl⟩
  | save i path ow fin =>
    refine .inr (.inl ?_)
    simp only [step]
    split
    · exact ⟨rfl, rfl⟩
    · split
      · exact ⟨rfl, rfl⟩
      · split <;> exact ⟨rfl, rfl⟩
  | load i path =>
    refine .inr (.inl ?_)
    simp only [step]
    split
    · exact ⟨rfl, rfl⟩
    · split <;> exact ⟨rfl, rfl⟩
  | add i r cp =>
    cases hc : w.chans[i]? with
    | none => refine .inr (.inl ?_); simp [step, hc]
    | some c =>
      rcases ha : add c.book r.name r.f r.ingredients r.overwrite with ⟨e | a, b⟩
      · refine .inr (.inl ?_); simp [step, hc, ha]
      · by_cases ht : r.name = tempName
        · refine .inr (.inl ?_)
          rw [ht] at ha
          simp [step, hc, ha, ht]
        · cases hp : cp && !classHas w c.cls r.name with
          | false => refine .inr (.inl ?_); simp [step, hc, ha, ht, hp]
          | true =>
            rw [Bool.and_eq_true, Bool.not_eq_true'] at hp
            obtain ⟨rfl, hp⟩ := hp
            refine .inr (.inr ⟨i, r, c, rfl, hc, hp, ?_⟩)
            simp only [step, hc, ha, ht, hp, if_false, Bool.not_false, Bool.and_true, if_true]
            cases c.cls <;> exact ⟨rfl, rfl⟩

/-- properties stay until the process ends -/
theorem step_keeps (w : W V) {o : Op V} (ho : o ≠ .restart) {k : Cls} {n : Name} (h : userHas w k n = true) :
    userHas (step w o).2 k n = true := by
  rcases step_user w o with h1 | ⟨h1, h2⟩ | ⟨i, r, c, -, -, -, h1, h2⟩
  · exact absurd h1 ho
  · unfold userHas at h ⊢; rw [h1, h2]; exact h
  · unfold userHas at h ⊢
    rw [h1, h2]
    cases c.cls <;> cases k <;> simp_all [addProp] <;> tauto

theorem run_keeps (w : W V) {ops : List (Op V)} (ho : ∀ o ∈ ops, o ≠ .restart) {k : Cls} {n : Name} (h : userHas w k n = true) :
    userHas (run w ops) k n = true := by
  induction ops generalizing w with
  | nil => exact h
  | cons o t ih =>
    rw [run_cons]
    exact ih _ (fun x hx => ho x (List.mem_cons_of_mem _ hx)) (step_keeps w (ho o List.mem_cons_self) h)

/-- the name of the recipe that an operation adds [specification] -/
def Op.adds : Op V → Option Name
  | .add _ r _ => some r.name
  | _ => none

/-- no attribute set on a channel is hidden by a property [specification] -/
def Clear (w : W V) : Prop := ∀ k, ∀ n ∈ instNames, userHas w k n = false

theorem step_clear {w : W V} (h : Clear w) {o : Op V} (ho : ∀ n, o.adds = some n → n ∉ instNames) : Clear (step w o).2 := by
  intro k n hn
  rcases step_user w o with h1 | ⟨h1, h2⟩ | ⟨i, r, c, h0, -, -, h1, h2⟩
  · subst h1; simp [step, userHas]
  · have := h k n hn
    unfold userHas at this ⊢; rw [h1, h2]; exact this
  · subst h0
    have hr : n ≠ r.name := by
      rintro rfl
      exact ho r.name rfl hn
    have h0 := h k n hn
    have h0' := h .np n hn
    unfold userHas at h0 h0' ⊢
    rw [h1, h2]
    cases c.cls <;> cases k <;> simp_all [addProp]

theorem run_clear {w : W V} (h : Clear w) {ops : List (Op V)} (ho : ∀ o ∈ ops, ∀ n, o.adds = some n → n ∉ instNames) :
    Clear (run w ops) := by
  induction ops generalizing w with
  | nil => exact h
  | cons o t ih =>
    rw [run_cons]
    exact ih (step_clear h (ho o List.mem_cons_self)) (fun x hx => ho x (List.mem_cons_of_mem _ hx))

theorem used_inst {n : Name} (h : n ∈ usedNames) : n ∈ instNames := by
  have h1 : usedNames.all (fun m => instNames.contains m) = true := by decide +kernel
  exact List.contains_iff_mem.mp (List.all_eq_true.mp h1 n h)

theorem clear_used {w : W V} (h : Clear w) (k : Cls) : usedNames.any (userHas w k) = false := by
  rw [List.any_eq_false]
  intro n hn
  rw [h k n ?_]
  · exact Bool.false_ne_true
  · exact used_inst hn

theorem access_own {w : W V} (hw : Clear w) (lnot : V → V) (fuel : Nat) (c : Ch V) {n : Name} (hk : classHas w c.cls n = true)
    (hn : fixedKind c.cls n ≠ some .other) : access w lnot fuel c n = .val (getAttr lnot fuel c n) := by
  unfold access viaProp
  rw [clear_used hw]
  cases hf : fixedKind c.cls n with
  | none =>
    unfold classHas at hk
    rw [hf] at hk
    simp only [Option.isSome_none, Bool.false_or] at hk
    simp [hk]
  | some x =>
    cases x with
    | own => simp
    | other => exact absurd hf hn

theorem classHas_np {w : W V} {n : Name} (h : classHas w .off n = true) (k : Cls) : classHas w k n = true := by
  cases k with
  | off => exact h
  | np =>
    unfold classHas fixedKind userHas at h ⊢
    cases h1 : ownNames.contains n <;> cases h2 : otherNames.contains n <;> simp_all

theorem classHas_of_user {w w' : W V} {k : Cls} {n : Name} (hu : ∀ m, userHas w k m = true → userHas w' k m = true)
    (h : classHas w k n = true) : classHas w' k n = true := by
  unfold classHas at h ⊢
  rw [Bool.or_eq_true] at h ⊢
  exact h.imp id (hu n)

/-- after an `add` that works and creates the property, the class has the name -/
theorem add_has {w : W V} {i : Nat} {r : Req V} {c : Ch V} (hc : w.chans[i]? = some c) (ht : r.name ≠ tempName)
    (hok : (step w (.add i r true)).1 = .ok ()) : classHas (step w (.add i r true)).2 c.cls r.name = true := by
  rcases ha : add c.book r.name r.f r.ingredients r.overwrite with ⟨e | a, b⟩
  · simp [step, hc, ha] at hok
  · cases hp : classHas w c.cls r.name with
    | true =>
      simp only [step, hc, ha, ht, hp, if_false, Bool.not_true, Bool.and_false, Bool.false_eq_true]
      exact hp
    | false =>
      simp only [step, hc, ha, ht, hp, if_false, Bool.not_false, Bool.and_true, if_true]
      unfold classHas userHas
      cases c.cls <;> simp [addProp]

/-! ### theorems -/

/-- Once a recipe was added with a property, to a channel of whatever group, `ds.name` is `ds.getAttr(name, NoCutInds())` for every channel
`ds` of that class (or of the class that inherits from it) until the process ends, whatever is added, saved, loaded or opened afterwards.
This is for names that the class does not use for something else, and when no recipe is named like an attribute of channels. -/
theorem attribute_after_add {w : W V} (hw : Clear w) {i : Nat} {r : Req V} {c : Ch V} (hc : w.chans[i]? = some c)
    (ht : r.name ≠ "__temp__".toList) (hok : (step w (.add i r true)).1 = .ok ()) {ops : List (Op V)} (ho : ∀ o ∈ ops, o ≠ .restart)
    (hi : ∀ o ∈ .add i r true :: ops, ∀ n, o.adds = some n → n ∉ instNames) {d : Ch V}
    (hd : d.cls = c.cls ∨ c.cls = .off) (hn : fixedKind d.cls r.name ≠ some .other) (lnot : V → V) (fuel : Nat) :
    access (run w (.add i r true :: ops)) lnot fuel d r.name = .val (getAttr lnot fuel d r.name) := by
  refine access_own (run_clear hw hi) lnot fuel d ?_ hn
  have h1 := add_has hc ht hok
  have h2 : classHas (step w (.add i r true)).2 d.cls r.name = true := by
    rcases hd with h | h
    · rw [h]; exact h1
    · rw [h] at h1; exact classHas_np h1 _
  rw [run_cons]
  exact classHas_of_user (fun m hm => run_keeps _ ho hm) h2

theorem lookup_add {b : Book V} {name : Name} {f : Fn V} {ing : Option (List Name)} {ow : Bool} {n : Name}
    (h : (lookup (add b name f ing ow).2.crafted n).isSome = true) :
    (lookup b.crafted n).isSome = true ∨ (n = name ∧ name ≠ tempName ∧ ∃ a, (add b name f ing ow).1 = .ok a) := by
  rcases add_cases b name f ing ow with ⟨e, h1⟩ | ⟨l, -, -, h1⟩ | ⟨l, -, ht, -, -, h1⟩ <;> rw [h1] at h ⊢
  · exact .inl h
  · exact .inl h
  · by_cases hn : n = name
    · exact .inr ⟨hn, ht, _, rfl⟩
    · dsimp only at h
      rw [lookup_store_ne _ _ hn] at h
      exact .inl h

/-- every recipe of every channel is an attribute of its class [specification] -/
def AllHas (w : W V) : Prop := ∀ c ∈ w.chans, ∀ n, (lookup c.book.crafted n).isSome = true → classHas w c.cls n = true

/-- a step of a program that always creates properties and loads no books [specification] -/
def Op.Plain : Op V → Prop
  | .add _ _ cp => cp = true
  | .load _ _ => False
  | _ => True

theorem step_all {w : W V} (h : AllHas w) {o : Op V} (ho : o.Plain) : AllHas (step w o).2 := by
  cases o with
  | restart => intro c hc; simp [step] at hc
  | load i path => exact ho.elim
  | openCh k base src =>
    simp only [step]
    split
    · exact h
    · intro c hc n hn
      dsimp only at hc
      rw [List.mem_append, List.mem_singleton] at hc
      rcases hc with hc | rfl
      · exact h c hc n hn
      · simp [newBook, lookup] at hn
  | save i path ow fin =>
    simp only [step]
    split
    · exact h
    · split
      · exact h
      · split <;> exact h
  | add i r cp =>
    have hcp : cp = true := ho
    subst hcp
    have hkeep : ∀ {k m}, classHas w k m = true → classHas (step w (.add i r true)).2 k m = true := fun {k m} hm =>
      classHas_of_user (fun q hq => step_keeps w (by simp) hq) hm
    cases hc : w.chans[i]? with
    | none => simpa [step, hc] using h
    | some c =>
      have hmem : c ∈ w.chans := List.mem_of_getElem? hc
      have hchans : (step w (.add i r true)).2.chans = w.chans.set i { c with book := (add c.book r.name r.f r.ingredients r.overwrite).2 } := by
        rcases ha : add c.book r.name r.f r.ingredients r.overwrite with ⟨e | a, b⟩
        · simp [step, hc, ha]
        · by_cases ht : r.name = tempName
          · rw [ht] at ha; simp [step, hc, ha, ht]
          · simp only [step, hc, ha, ht, if_false]
            split
            · cases c.cls <;> rfl
            · rfl
      intro d hd n hn
      rw [hchans] at hd
      rcases List.mem_or_eq_of_mem_set hd with hd | rfl
      · exact hkeep (h d hd n hn)
      · rcases lookup_add hn with h1 | ⟨rfl, ht, a, ha⟩
        · exact hkeep (h c hmem n h1)
        · refine add_has (c := c) hc ht ?_
          rcases ha' : add c.book r.name r.f r.ingredients r.overwrite with ⟨e | a', b⟩
          · rw [ha'] at ha; cases ha
          · simp only [step, hc, ha', ht, if_false]
            split <;> rfl

/-- In a process that creates properties for all recipes and loads no books, `ds.name` is `ds.getAttr(name, NoCutInds())` for every recipe of every
channel, after any history and over any number of processes: for names that the class does not use for something else, when no recipe is
named like an attribute of channels. -/
theorem attribute_is_recipe_partial (files : List (Name × Content V)) {ops : List (Op V)} (hp : ∀ o ∈ ops, o.Plain)
    (hi : ∀ o ∈ ops, ∀ n, o.adds = some n → n ∉ instNames) {c : Ch V} (hc : c ∈ (run ⟨[], [], [], files⟩ ops).chans) {n : Name}
    (hn : n ∈ c.book.crafted.map Prod.fst) (hk : fixedKind c.cls n ≠ some .other) (lnot : V → V) (fuel : Nat) :
    access (run ⟨[], [], [], files⟩ ops) lnot fuel c n = .val (craft c.book lnot n c.src fuel) := by
  have h0 : ∀ (w : W V) (l : List (Op V)), AllHas w → (∀ o ∈ l, o.Plain) → AllHas (run w l) := by
    intro w l
    induction l generalizing w with
    | nil => intro h _; exact h
    | cons o t ih =>
      intro h hl
      rw [run_cons]
      exact ih _ (step_all h (hl o List.mem_cons_self)) (fun x hx => hl x (List.mem_cons_of_mem _ hx))
  have hs : (lookup c.book.crafted n).isSome = true := by
    unfold lookup
    rw [Option.isSome_map, List.find?_isSome]
    obtain ⟨e, he, rfl⟩ := List.mem_map.mp hn
    exact ⟨e, he, beq_self_eq_true _⟩
  have h1 := h0 ⟨[], [], [], files⟩ ops (by intro d hd; cases hd) hp c hc n hs
  have hcl : Clear (run ⟨[], [], [], files⟩ ops) := run_clear (fun k m _ => by simp [userHas]) hi
  rw [access_own hcl lnot fuel c h1 hk]
  unfold getAttr
  rw [if_pos hs]

/-- Adding a recipe to one channel does not change what another channel gives for a name it had, unless the recipe is named like an attribute of
channels; and the other channel's book and data stay. -/
theorem others_keep (w : W V) (i : Nat) (r : Req V) (cp : Bool) (hr : r.name ∉ instNames) {j : Nat} (hj : j ≠ i) {c : Ch V}
    (hc : w.chans[j]? = some c) (lnot : V → V) (fuel : Nat) {n : Name} (hn : access w lnot fuel c n ≠ .missing) :
    (step w (.add i r cp)).2.chans[j]? = some c ∧
    access (step w (.add i r cp)).2 lnot fuel c n = access w lnot fuel c n := by
  constructor
  · cases hi : w.chans[i]? with
    | none => simp [step, hi, hc]
    | some d =>
      rcases ha : add d.book r.name r.f r.ingredients r.overwrite with ⟨e | a, b⟩
      · simp [step, hi, ha, List.getElem?_set_ne hj.symm, hc]
      · by_cases ht : r.name = tempName
        · rw [ht] at ha; simp [step, hi, ha, ht, List.getElem?_set_ne hj.symm, hc]
        · simp only [step, hi, ha, ht, if_false]
          split
          · cases d.cls <;> simp [addProp, List.getElem?_set_ne hj.symm, hc]
          · simp [List.getElem?_set_ne hj.symm, hc]
  · have hother : ∀ k m, m ≠ r.name → userHas (step w (.add i r cp)).2 k m = userHas w k m := by
      intro k m hm
      rcases step_user w (.add i r cp) with h1 | ⟨h1, h2⟩ | ⟨i', r', d, h0, -, -, h1, h2⟩
      · cases h1
      · unfold userHas; rw [h1, h2]
      · cases h0
        unfold userHas
        rw [h1, h2]
        cases d.cls <;> cases k <;> simp [addProp, hm]
    have hused : usedNames.any (userHas (step w (.add i r cp)).2 c.cls) = usedNames.any (userHas w c.cls) := by
      rw [Bool.eq_iff_iff, List.any_eq_true, List.any_eq_true]
      have hne : ∀ m ∈ usedNames, m ≠ r.name := by
        rintro m hm rfl
        exact hr (used_inst hm)
      constructor
      · rintro ⟨m, hm, h⟩; exact ⟨m, hm, by rwa [hother _ _ (hne m hm)] at h⟩
      · rintro ⟨m, hm, h⟩; exact ⟨m, hm, by rwa [hother _ _ (hne m hm)]⟩
    by_cases hnr : n = r.name
    · subst hnr
      unfold access viaProp at hn ⊢
      rw [hused]
      cases hf : fixedKind c.cls r.name with
      | some x => cases x <;> rfl
      | none =>
        rw [hf] at hn
        dsimp only at hn ⊢
        cases hu : userHas w c.cls r.name with
        | true => rw [step_keeps w (by simp) hu]
        | false =>
          rw [hu] at hn
          simp only [Bool.false_eq_true, if_false] at hn
          split at hn
          · rename_i hin
            exact absurd (List.contains_iff_mem.mp hin) hr
          · exact absurd rfl hn
    · unfold access viaProp
      rw [hused, hother _ _ hnr]

/-! files -/

theorem file_put_self (fs : List (Name × Content V)) (p : Name) (c : Content V) :
    ((putFile fs p c).find? (fun e => e.1 == p)).map Prod.snd = some c := by
  simp [putFile]

theorem file_put_ne (fs : List (Name × Content V)) {p q : Name} (c : Content V) (h : q ≠ p) :
    ((putFile fs p c).find? (fun e => e.1 == q)).map Prod.snd = (fs.find? (fun e => e.1 == q)).map Prod.snd := by
  unfold putFile
  rw [List.find?_cons_of_neg (by simpa using fun hh : p = q => h hh.symm)]
  congr 1
  induction fs with
  | nil => rfl
  | cons e t ih =>
    by_cases he : e.1 = p
    · rw [List.filter_cons_of_neg (by simp [he]), ih, List.find?_cons_of_neg (by simpa [he] using fun hh : p = q => h hh.symm)]
    · rw [List.filter_cons_of_pos (by simpa using he)]
      by_cases heq : e.1 = q
      · rw [List.find?_cons_of_pos (by simp [heq]), List.find?_cons_of_pos (by simp [heq])]
      · rw [List.find?_cons_of_neg (by simpa using heq), List.find?_cons_of_neg (by simpa using heq), ih]

/-- the operation does not write that file [specification] -/
def Op.Spares (p : Name) : Op V → Prop
  | .save _ q _ _ => q ≠ p
  | _ => True

theorem step_file (w : W V) {o : Op V} {p : Name} (ho : o.Spares p) : file (step w o).2 p = file w p := by
  cases o with
  | restart => rfl
  | openCh k base src => simp only [step]; split <;> rfl
  | load i path =>
    simp only [step]
    split
    · rfl
    · split <;> rfl
  | save i path ow fin =>
    have hq : p ≠ path := fun h => ho h.symm
    simp only [step]
    split
    · rfl
    · split
      · rfl
      · split
        · exact file_put_ne _ _ hq
        · exact file_put_ne _ _ hq
  | add i r cp =>
    simp only [step]
    split
    · rfl
    · rename_i c _
      split
      · rfl
      · split
        · rfl
        · split
          · cases c.cls <;> rfl
          · rfl

/-- A recipe book that was saved is loaded unchanged, by any channel, whatever happens in between (also in another process), as long as nothing
else is saved by that name. So the channel computes every recipe as the one that saved it did, from its own data. -/
theorem saved_is_loaded {w : W V} {i : Nat} {p : Name} {ow fin : Bool} {c : Ch V} (hc : w.chans[i]? = some c)
    (hs : (step w (.save i p ow fin)).1 = .ok ()) {ops : List (Op V)} (ho : ∀ o ∈ ops, o.Spares p) {j : Nat} {d : Ch V}
    (hd : (run w (.save i p ow fin :: ops)).chans[j]? = some d) :
    (step (run w (.save i p ow fin :: ops)) (.load j p)).1 = .ok () ∧
    (step (run w (.save i p ow fin :: ops)) (.load j p)).2.chans[j]? = some ⟨d.cls, c.book, d.src⟩ := by
  have h1 : file (step w (.save i p ow fin)).2 p = some (.book c.book) := by
    simp only [step, hc] at hs ⊢
    split at hs
    · cases hs
    · rename_i hno
      rw [if_neg hno]
      cases fin with
      | false => simp at hs
      | true => exact file_put_self _ _ _
  have h2 : ∀ (w : W V) (l : List (Op V)), (∀ o ∈ l, o.Spares p) → file (run w l) p = file w p := by
    intro w l
    induction l generalizing w with
    | nil => intro _; rfl
    | cons o t ih =>
      intro hl
      rw [run_cons, ih _ (fun x hx => hl x (List.mem_cons_of_mem _ hx)), step_file w (hl o List.mem_cons_self)]
  have h3 : file (run w (.save i p ow fin :: ops)) p = some (.book c.book) := by
    rw [run_cons, h2 _ _ ho, h1]
  obtain ⟨hlt, hget⟩ := List.getElem?_eq_some_iff.mp hd
  simp [step, hd, h3, hlt, hget]

/-- Saving does not touch a file that is there unless told to overwrite; loading something else than a recipe book raises and changes nothing; neither
changes any channel. -/
theorem save_and_load_refuse (w : W V) (i : Nat) (p : Name) (fin : Bool) :
    (∀ x, file w p = some x → (∃ e, (step w (.save i p false fin)).1 = .error e) ∧ (step w (.save i p false fin)).2 = w) ∧
    ((∀ b, file w p ≠ some (.book b)) → (∃ e, (step w (.load i p)).1 = .error e) ∧ (step w (.load i p)).2 = w) := by
  constructor
  · intro x hx
    simp only [step]
    split
    · exact ⟨⟨_, rfl⟩, rfl⟩
    · simp [hx]
  · intro hb
    simp only [step]
    split
    · exact ⟨⟨_, rfl⟩, rfl⟩
    · split
      · exact ⟨⟨_, rfl⟩, rfl⟩
      · exact ⟨⟨_, rfl⟩, rfl⟩
      · exact ⟨⟨_, rfl⟩, rfl⟩
      · rename_i b hf
        exact absurd hf (hb b)

/-! ### examples and disagreements -/

/-- a source of numbers [specification] -/
def exSrc : Src Int := ⟨fun k => if k = "filtValue".toList then .ok 21 else .error .value, .error .value⟩
/-- `lambda filtValue: 2*filtValue` [specification] -/
def exFn : Fn Int := ⟨["filtValue".toList], fun l => match l with | [x] => .ok (2 * x) | _ => .error .type⟩
/-- the request to add it by a name [specification] -/
def exReq (n : String) : Req Int := ⟨n.toList, exFn, none, false⟩
/-- a process with two channels [specification] -/
def exTwo : List (Op Int) := [.openCh .off ["filtValue".toList] exSrc, .openCh .off ["filtValue".toList] exSrc]
/-- no files, no channels [specification] -/
def w0 : W Int := ⟨[], [], [], []⟩
/-- the value found under a name of a channel, if it is one [specification] -/
def look (w : W Int) (j : Nat) (n : String) : Option (Got Int) := (w.chans[j]?).map (fun c => access w (fun x => x) 5 c n.toList)

/-- what is got, as a number [specification] -/
def num : Option (Got Int) → Option Int
  | some (.val (some (.ok v))) => some v
  | _ => none

example : num (look (run w0 (exTwo ++ [.add 0 (exReq "energy") true])) 0 "energy") = some 42 := by decide +kernel
example : num (look (run w0 (exTwo ++ [.add 0 (exReq "energy") true, .add 1 (exReq "energy") false])) 1 "energy") = some 42 := by decide +kernel
example : (step (run w0 (exTwo ++ [.add 0 (exReq "energy") true])) (.save 0 "f".toList false true)).1.isOk = true := by decide +kernel

/-- kinds of results, for comparison [specification] -/
def kindOf : Option (Got Int) → Nat
  | none => 0
  | some .missing => 1
  | some .fixed => 2
  | some (.val none) => 3
  | some (.val (some (.error _))) => 4
  | some (.val (some (.ok _))) => 5

/-- Disagreement (C180): a recipe book that was saved and is loaded in a new process computes the recipe, but the recipe is not an attribute of the
channel: `ds.energy` raises AttributeError, since only `add` creates properties. -/
theorem loaded_recipe_fails :
    let w := run w0 (exTwo ++ [.add 0 (exReq "energy") true, .save 0 "f".toList false true, .restart] ++ exTwo ++ [.load 0 "f".toList])
    (w.chans[0]?).map (fun c => (getAttr (fun x => x) 5 c "energy".toList).map Except.toOption) = some (some (some 42)) ∧
    kindOf (look w 0 "energy") = 1 := by
  decide +kernel

/-- Disagreement (C180): a recipe with the name of a method or other property of channels is accepted, but `ds.name` is still the method. -/
theorem method_name_fails :
    (step (run w0 exTwo) (.add 0 (exReq "hist") true)).1.isOk = true ∧
    kindOf (look (run w0 (exTwo ++ [.add 0 (exReq "hist") true])) 0 "hist") = 2 := by
  decide +kernel

/-- Disagreement (C180): a recipe with the name of an attribute of channels is accepted for one channel, and then hides that attribute in all channels
of the process: another channel's `ds.verbose` raises, and no channel can be opened any more. -/
theorem hidden_attribute_fails :
    let w := run w0 exTwo
    let w' := run w0 (exTwo ++ [.add 0 (exReq "verbose") true])
    (step w (.add 0 (exReq "verbose") true)).1.isOk = true ∧ kindOf (look w 1 "verbose") = 2 ∧ kindOf (look w' 1 "verbose") = 4 ∧
    (step w (.openCh .off ["filtValue".toList] exSrc)).1.isOk = true ∧
    (step w' (.openCh .off ["filtValue".toList] exSrc)).1.isOk = false := by
  decide +kernel

/-- Disagreement (C180): a recipe named `offFile` leaves no attribute of any channel readable: reading `ds.filtValue` does not return (RecursionError). -/
theorem hidden_file_fails :
    kindOf (look (run w0 exTwo) 1 "filtValue") = 5 ∧
    kindOf (look (run w0 (exTwo ++ [.add 0 (exReq "offFile") true])) 1 "filtValue") = 3 := by
  decide +kernel

/-- Disagreement (C180): when a book is saved over an older one and that does not finish (an object that cannot be pickled, or a crash), the older one is
lost too: for every book. -/
theorem overwrite_stops_fails (w : W V) {i : Nat} {p : Name} {c : Ch V} (hc : w.chans[i]? = some c) (j : Nat) :
    file (step w (.save i p true false)).2 p = some .cut ∧
    ∃ e, (step (step w (.save i p true false)).2 (.load j p)).1 = .error e := by
  have h1 : file (step w (.save i p true false)).2 p = some .cut := by
    simp only [step, hc, Bool.not_true, Bool.false_and, Bool.false_eq_true, if_false]
    exact file_put_self _ _ _
  refine ⟨h1, ?_⟩
  exact ((save_and_load_refuse (step w (.save i p true false)).2 j p true).2 (by intro b; rw [h1]; simp)).1

end Mass.Recipe.Attrs
