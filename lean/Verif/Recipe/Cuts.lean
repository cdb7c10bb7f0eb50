import Verif.Recipe.Props
/-! C111: the default cut of channels and groups (mass/off/channels.py). -/
namespace Mass.Recipe.Cuts
open Mass.Recipe
variable {V : Type}

/-! ### model -/

/-- channels.py L197-207: what matters of a Channel here: its recipe book, its default cut, whether it is marked bad -/
structure Chan (V : Type) where
  book : Book V
  dflt : Name
  bad : Bool

/-- `name.startswith("cut")` (channels.py L224, L1410) -/
def startsCut (n : Name) : Bool := "cut".toList.isPrefixOf n

/-- `name in self.recipes.keys()` (channels.py L225, L1154; util.py `keys`) -/
def known (b : Book V) (n : Name) : Bool := (lookup b.crafted n).isSome

/-- channels.py L223-226 `Channel.cutSetDefault` -/
def cutSetDefault (c : Chan V) (n : Name) : Except Exc Unit × Chan V :=
  if !startsCut n then (.error .assertion, c)
  else if !known c.book n then (.error .assertion, c)
  else (.ok (), { c with dflt := n })

/-- arguments of `cutAdd` (channels.py L219) -/
structure CutReq (V : Type) where
  name : Name
  f : Fn V
  ingredients : Option (List Name)
  overwrite : Bool
  setDefault : Bool

/-- channels.py L218-222 `Channel.cutAdd` -/
def cutAdd (c : Chan V) (r : CutReq V) : Except Exc Unit × Chan V :=
  match add c.book r.name r.f r.ingredients r.overwrite with
  | (.error e, _) => (.error e, c)
  | (.ok _, b) => if r.setDefault then cutSetDefault { c with book := b } r.name else (.ok (), { c with book := b })

/-- channels.py L209-216 `_defineDefaultRecipesAndProperties`; `f1`, `f2`, `f3` are the functions of recipe_classes. The default cut is undefined before. -/
def newChan (base : List Name) (f1 f2 f3 : Fn V) : Except Exc Unit × Chan V :=
  let b0 := newBook V base
  match add b0 "relTimeSec".toList f1 (some ["unixnano".toList]) false with
  | (.error e, b) => (.error e, ⟨b, [], false⟩)
  | (.ok _, b1) =>
    match add b1 "filtPhase".toList f2 (some ["derivativeLike".toList, "filtValue".toList]) false with
    | (.error e, b) => (.error e, ⟨b, [], false⟩)
    | (.ok _, b2) => cutAdd ⟨b2, [], false⟩ ⟨"cutNone".toList, f3, some ["unixnano".toList], false, true⟩

/-- channels.py L228-232 `Channel._handleDefaultCut` -/
def handleDefault (c : Chan V) (n : Option Name) : Name := n.getD c.dflt

/-- A group: its channels by number in order (channels.py L1109, L1173-1181) -/
abbrev Group (V : Type) := List (Nat × Chan V)

/-- `self.items()` (channels.py L1268-1281) outside of includeBad -/
def goodOnes (g : Group V) : Group V := g.filter (fun p => !p.2.bad)

/-- channels.py L1150-1156, L1186-1190: `ChannelGroup._handleDefaultCut` -/
def groupHandle (g : Group V) (n : Option Name) : Except Exc Name :=
  match goodOnes g with
  | [] => .error .exception
  | (_, c) :: _ =>
    let name := handleDefault c n
    if (goodOnes g).all (fun p => known p.2.book name) then .ok name else .error .assertion

/-- channels.py L1211-1238 with L506-521 `ChannelGroup.hist`: the cut that each channel's pulses go through. The name is handed on as given. -/
def histCuts (g : Group V) (n : Option Name) : List (Nat × Name) := (goodOnes g).map (fun p => (p.1, handleDefault p.2 n))

/-- channels.py L137-154 `linefit` of a group: the cut is resolved once and passed to `hist` -/
def linefitCuts (g : Group V) (n : Option Name) : Except Exc (List (Nat × Name)) :=
  match groupHandle g n with
  | .error e => .error e
  | .ok name => .ok (histCuts g (some name))

/-- util.py L243-258 (`add_group_loop`) applied to `cutAdd`: each good channel in turn; one that raises is marked bad. (Outside of tests: not rethrown.) -/
def groupCutAdd (g : Group V) (r : CutReq V) : Group V :=
  g.map (fun p => if p.2.bad then p else
    match cutAdd p.2 r with
    | (.ok _, c) => (p.1, c)
    | (.error _, c) => (p.1, { c with bad := true }))

/-- channels.py L1409-1414 `ChannelGroup.cutSetDefault`: L1411 reads `self.recipes`, which a group does not have. -/
def groupSetDefault (g : Group V) (n : Name) : Except Exc Unit × Group V :=
  if !startsCut n then (.error .assertion, g) else (.error .attribute, g)

/-- channels.py L1322-1325 `markAllGood` -/
def markAllGood (g : Group V) : Group V := g.map (fun p => (p.1, { p.2 with bad := false }))

/-- channels.py L1416-1421 `saveRecipeBooks`: the books of the good channels. (dill keeps what it is given.) -/
def saveBooks (g : Group V) : List (Nat × Book V) := (goodOnes g).map (fun p => (p.1, p.2.book))

/-- `self[channum].recipes = recipes` (channels.py L1427) -/
def setBook (g : Group V) (n : Nat) (b : Book V) : Group V := g.map (fun p => if p.1 = n then (p.1, { p.2 with book := b }) else p)

/-- channels.py L1423-1427 `loadRecipeBooks` -/
def loadBooks (g : Group V) : List (Nat × Book V) → Except Exc Unit × Group V
  | [] => (.ok (), g)
  | (n, b) :: t => if g.any (fun p => p.1 == n) then loadBooks (setBook g n b) t else (.error .key, g)

/-- one call concerning the recipes of a channel (arguments of channels.py L218-226, util.py L41) -/
inductive Op (V : Type)
  | add (r : Req V)
  | cutAdd (r : CutReq V)
  | setDefault (n : Name)

/-- the call (channels.py L218-226, util.py L41-93) -/
def run1 (c : Chan V) : Op V → Chan V
  | .add r => { c with book := (add c.book r.name r.f r.ingredients r.overwrite).2 }
  | .cutAdd r => (cutAdd c r).2
  | .setDefault n => (cutSetDefault c n).2

/-- a history of calls, exceptions swallowed (channels.py L218-226, util.py L41-93) -/
def run (c : Chan V) (ops : List (Op V)) : Chan V := ops.foldl run1 c

/-! ### C111 -/

/-- the default cut is a cut and it exists [specification] -/
def Usable (c : Chan V) : Prop := startsCut c.dflt = true ∧ known c.book c.dflt = true

theorem known_add {b : Book V} {n : Name} (h : known b n = true) (name : Name) (f : Fn V) (ing : Option (List Name)) (ow : Bool) :
    known (add b name f ing ow).2 n = true := by
  rcases add_cases b name f ing ow with ⟨e, h1⟩ | ⟨l, -, -, h1⟩ | ⟨l, -, -, -, -, h1⟩ <;> rw [h1]
  · exact h
  · exact h
  · unfold known at h ⊢
    dsimp only
    by_cases he : n = name
    · subst he
      rw [lookup_store_self]
      rfl
    · rw [lookup_store_ne _ _ he]
      exact h

theorem add_error_same {b b' : Book V} {name : Name} {f : Fn V} {ing : Option (List Name)} {ow : Bool} {e : Exc} (h : add b name f ing ow = (.error e, b')) :
    b' = b := by
  rcases add_cases b name f ing ow with ⟨e', h1⟩ | ⟨l, -, -, h1⟩ | ⟨l, -, -, -, -, h1⟩ <;> rw [h1] at h <;> cases h
  rfl

/-- C111. `cutSetDefault` accepts exactly existing recipes whose name starts with "cut", and then that is the default; otherwise nothing changes. -/
theorem setDefault_spec (c : Chan V) (n : Name) :
    ((cutSetDefault c n).1 = .ok () ↔ startsCut n = true ∧ known c.book n = true) ∧
    ((cutSetDefault c n).1 = .ok () → (cutSetDefault c n).2 = { c with dflt := n }) ∧
    ((cutSetDefault c n).1 ≠ .ok () → (cutSetDefault c n).2 = c) := by
  unfold cutSetDefault
  cases startsCut n <;> cases known c.book n <;> simp

theorem setDefault_usable {c : Chan V} (h : Usable c) (n : Name) : Usable (cutSetDefault c n).2 := by
  unfold cutSetDefault
  cases h1 : startsCut n <;> cases h2 : known c.book n <;> simp <;> first | exact h | exact ⟨h1, h2⟩

theorem cutAdd_usable {c : Chan V} (h : Usable c) (r : CutReq V) : Usable (cutAdd c r).2 := by
  unfold cutAdd
  have hk := known_add h.2 r.name r.f r.ingredients r.overwrite
  cases ha : add c.book r.name r.f r.ingredients r.overwrite with
  | mk x b =>
    rw [ha] at hk
    cases x with
    | error e => exact h
    | ok a =>
      dsimp only
      split
      · exact setDefault_usable (c := { c with book := b }) ⟨h.1, hk⟩ _
      · exact ⟨h.1, hk⟩

theorem run1_usable {c : Chan V} (h : Usable c) (op : Op V) : Usable (run1 c op) := by
  cases op with
  | add r => exact ⟨h.1, known_add h.2 _ _ _ _⟩
  | cutAdd r => exact cutAdd_usable h r
  | setDefault n => exact setDefault_usable h n

theorem run_usable {c : Chan V} (h : Usable c) (ops : List (Op V)) : Usable (run c ops) := by
  unfold run
  induction ops generalizing c with
  | nil => exact h
  | cons op ops ih => exact ih (run1_usable h op)

theorem newChan_usable {base : List Name} {f1 f2 f3 : Fn V} (h : (newChan base f1 f2 f3).1 = .ok ()) : Usable (newChan base f1 f2 f3).2 := by
  unfold newChan at h ⊢
  dsimp only at h ⊢
  cases h1 : add (newBook V base) "relTimeSec".toList f1 (some ["unixnano".toList]) false with
  | mk x b1 =>
    rw [h1] at h
    cases x with
    | error e => cases h
    | ok a1 =>
      dsimp only at h ⊢
      cases h2 : add b1 "filtPhase".toList f2 (some ["derivativeLike".toList, "filtValue".toList]) false with
      | mk y b2 =>
        rw [h2] at h
        cases y with
        | error e => cases h
        | ok a2 =>
          dsimp only at h ⊢
          unfold cutAdd at h ⊢
          cases h3 : add b2 "cutNone".toList f3 (some ["unixnano".toList]) false with
          | mk z b3 =>
            dsimp only at h ⊢
            rw [h3] at h
            cases z with
            | error e => cases h
            | ok a3 =>
              simp only [if_true] at h ⊢
              have hs := setDefault_spec (⟨b3, [], false⟩ : Chan V) "cutNone".toList
              rw [hs.2.1 h]
              exact hs.1.mp h

theorem startsCut_head {n : Name} (h : startsCut n = true) : n.head? ≠ some '!' ∧ hasCut n = true := by
  unfold startsCut at h
  cases n with
  | nil => cases h
  | cons a t =>
    have ha : a = 'c' := by
      have : "cut".toList = ['c', 'u', 't'] := rfl
      rw [this, List.isPrefixOf_cons_cons] at h
      have := (Bool.and_eq_true_iff.mp h).1
      exact (by simpa using this : 'c' = a).symm
    constructor
    · rw [ha]
      simp
    · unfold hasCut
      rw [show ['c', 'u', 't'] = "cut".toList from rfl, h]
      rfl

/-- C111. After any history of additions and choices of defaults, failed ones included, leaving out the cut name selects a cut recipe that exists: its function
is evaluated. -/
theorem default_usable {base : List Name} {f1 f2 f3 : Fn V} (h : (newChan base f1 f2 f3).1 = .ok ()) (ops : List (Op V)) (lnot : V → V) (src : Src V)
    (fuel : Nat) :
    let c := run (newChan base f1 f2 f3).2 ops
    ∃ a, lookup c.book.crafted (handleDefault c none) = some a ∧ craft c.book lnot (handleDefault c none) src fuel = call c.book.heap src fuel a := by
  intro c
  obtain ⟨h1, h2⟩ := run_usable (newChan_usable h) ops
  change startsCut c.dflt = true at h1
  change known c.book c.dflt = true at h2
  obtain ⟨a, ha⟩ := Option.isSome_iff_exists.mp h2
  refine ⟨a, ha, ?_⟩
  obtain ⟨hb, hc⟩ := startsCut_head h1
  unfold craft handleDefault
  rw [Option.getD_none, if_pos hc]
  unfold craftCut
  have hd : c.dflt.dropWhile (· == '!') = c.dflt := by
    cases hn : c.dflt with
    | nil => rfl
    | cons x t =>
      rw [hn] at hb
      rw [List.dropWhile_cons_of_neg]
      simpa using hb
  dsimp only
  rw [hd, ha]
  simp

/-- C111. A successful `cutAdd` adds the recipe and makes it the default if asked to, and only then. -/
theorem cutAdd_spec {c c' : Chan V} {r : CutReq V} (h : cutAdd c r = (.ok (), c')) :
    c'.book = (add c.book r.name r.f r.ingredients r.overwrite).2 ∧ c'.dflt = (if r.setDefault then r.name else c.dflt) ∧ c'.bad = c.bad ∧
    (∀ n, n = r.name → n ≠ "__temp__".toList → known c'.book n = true) := by
  unfold cutAdd at h
  rcases add_cases c.book r.name r.f r.ingredients r.overwrite with ⟨e, h1⟩ | ⟨l, -, ht, h1⟩ | ⟨l, -, -, -, -, h1⟩ <;> rw [h1] at h ⊢
  · cases h
  · dsimp only at h
    by_cases hs : r.setDefault = true
    · rw [if_pos hs] at h
      have hsp := setDefault_spec ({ c with book := { c.book with heap := c.book.heap ++ [newObj c.book r.f l] } } : Chan V) r.name
      have hc := hsp.2.1 (by rw [h])
      rw [h] at hc
      dsimp only at hc
      rw [hc, if_pos hs]
      exact ⟨rfl, rfl, rfl, fun n e hne => absurd (e.trans ht) hne⟩
    · rw [if_neg hs] at h
      cases h
      rw [if_neg hs]
      exact ⟨rfl, rfl, rfl, fun n e hne => absurd (e.trans ht) hne⟩
  · dsimp only at h
    have hk : ∀ n, n = r.name → known ({ c.book with heap := c.book.heap ++ [newObj c.book r.f l], crafted := store c.book.crafted r.name c.book.heap.length } : Book V) n = true := by
      rintro n rfl
      unfold known
      rw [lookup_store_self]
      rfl
    by_cases hs : r.setDefault = true
    · rw [if_pos hs] at h
      have hsp := setDefault_spec ({ c with book := { c.book with heap := c.book.heap ++ [newObj c.book r.f l], crafted := store c.book.crafted r.name c.book.heap.length } } : Chan V) r.name
      have hc := hsp.2.1 (by rw [h])
      rw [h] at hc
      dsimp only at hc
      rw [hc, if_pos hs]
      exact ⟨rfl, rfl, rfl, fun n e _ => hk n e⟩
    · rw [if_neg hs] at h
      cases h
      rw [if_neg hs]
      exact ⟨rfl, rfl, rfl, fun n e _ => hk n e⟩

/-- all good channels of the group have a usable default, and the same one [specification] -/
def Same (g : Group V) : Prop := (∀ p ∈ goodOnes g, Usable p.2) ∧ ∀ p ∈ goodOnes g, ∀ q ∈ goodOnes g, p.2.dflt = q.2.dflt

theorem mem_goodOnes {g : Group V} {p : Nat × Chan V} : p ∈ goodOnes g ↔ p ∈ g ∧ p.2.bad = false := by
  unfold goodOnes
  rw [List.mem_filter]
  simp

theorem groupCutAdd_good {g : Group V} {r : CutReq V} {p : Nat × Chan V} (h : p ∈ goodOnes (groupCutAdd g r)) :
    ∃ q ∈ goodOnes g, q.1 = p.1 ∧ cutAdd q.2 r = (.ok (), p.2) := by
  obtain ⟨h1, h2⟩ := mem_goodOnes.mp h
  unfold groupCutAdd at h1
  obtain ⟨q, hq, e⟩ := List.mem_map.mp h1
  cases hb : q.2.bad with
  | true =>
    rw [hb] at e
    simp only [if_true] at e
    rw [← e, hb] at h2
    cases h2
  | false =>
    rw [hb] at e
    simp only [Bool.false_eq_true, if_false] at e
    refine ⟨q, mem_goodOnes.mpr ⟨hq, hb⟩, ?_⟩
    cases hc : cutAdd q.2 r with
    | mk x c =>
      rw [hc] at e
      cases x with
      | error ex =>
        dsimp only at e
        rw [← e] at h2
        cases h2
      | ok u =>
        dsimp only at e
        rw [← e]
        exact ⟨rfl, rfl⟩

theorem groupCutAdd_same {g : Group V} (h : Same g) (r : CutReq V) : Same (groupCutAdd g r) := by
  constructor
  · intro p hp
    obtain ⟨q, hq, _, hc⟩ := groupCutAdd_good hp
    have := cutAdd_usable (h.1 q hq) r
    rw [hc] at this
    exact this
  · intro p hp p' hp'
    obtain ⟨q, hq, _, hc⟩ := groupCutAdd_good hp
    obtain ⟨q', hq', _, hc'⟩ := groupCutAdd_good hp'
    rw [(cutAdd_spec hc).2.1, (cutAdd_spec hc').2.1, h.2 q hq q' hq']

theorem groupHandle_some {g : Group V} {n : Name} (hg : goodOnes g ≠ []) (hk : ∀ p ∈ goodOnes g, known p.2.book n = true) :
    groupHandle g (some n) = .ok n := by
  unfold groupHandle
  cases h : goodOnes g with
  | nil => exact absurd h hg
  | cons p t =>
    dsimp only
    rw [if_pos]
    · rfl
    · rw [List.all_eq_true]
      intro q hq
      exact hk q (by rw [h]; exact hq)

/-- C111. If cuts are only added through the group (a channel that raises is marked bad), then the good channels always have the same usable default: without a
cut name, histogram and line fit of the group succeed and use the same cut of every channel. Missing: channels handled one by one or marked good again
(`marked_good_fails`). -/
theorem group_default_partial {g : Group V} (h : Same g) (rs : List (CutReq V)) :
    let g' := rs.foldl groupCutAdd g
    Same g' ∧ (goodOnes g' ≠ [] → linefitCuts g' none = .ok (histCuts g' none)) := by
  intro g'
  have hs : Same g' := by
    have : ∀ (rs : List (CutReq V)) (g : Group V), Same g → Same (rs.foldl groupCutAdd g) := by
      intro rs
      induction rs with
      | nil => intro g h; exact h
      | cons r rs ih => intro g h; exact ih _ (groupCutAdd_same h r)
    exact this rs g h
  refine ⟨hs, fun hne => ?_⟩
  unfold linefitCuts groupHandle
  cases hg : goodOnes g' with
  | nil => exact absurd hg hne
  | cons p t =>
    have hmem : ∀ q ∈ p :: t, q ∈ goodOnes g' := fun q hq => by rw [hg]; exact hq
    dsimp only
    rw [if_pos]
    · dsimp only
      unfold histCuts
      rw [hg]
      congr 1
      apply List.map_congr_left
      intro q hq
      have := hs.2 p (hmem p List.mem_cons_self) q (hmem q hq)
      simp only [handleDefault, Option.getD_some, Option.getD_none, this]
    · rw [List.all_eq_true]
      intro q hq
      have h1 := hs.2 p (hmem p List.mem_cons_self) q (hmem q hq)
      simp only [handleDefault, Option.getD_none]
      rw [h1]
      exact (hs.1 q (hmem q hq)).2

/-- C111. A named cut that every good channel has is the one used, in both. -/
theorem group_named {g : Group V} {n : Name} (hg : goodOnes g ≠ []) (hk : ∀ p ∈ goodOnes g, known p.2.book n = true) :
    linefitCuts g (some n) = .ok ((goodOnes g).map (fun p => (p.1, n))) ∧ histCuts g (some n) = (goodOnes g).map (fun p => (p.1, n)) := by
  refine ⟨?_, rfl⟩
  unfold linefitCuts
  rw [groupHandle_some hg hk]
  rfl

theorem loadBooks_spec {g : Group V} {l : List (Nat × Book V)} (hin : ∀ e ∈ l, ∃ p ∈ g, p.1 = e.1) (hnd : (l.map Prod.fst).Nodup) :
    (loadBooks g l).1 = .ok () ∧
    (loadBooks g l).2 = g.map (fun p => match l.find? (fun e => e.1 == p.1) with
      | some e => (p.1, { p.2 with book := e.2 })
      | none => p) := by
  induction l generalizing g with
  | nil => simp [loadBooks]
  | cons e l ih =>
    obtain ⟨n, b⟩ := e
    unfold loadBooks
    obtain ⟨p, hp, hpe⟩ := hin (n, b) List.mem_cons_self
    rw [if_pos (List.any_eq_true.mpr ⟨p, hp, by simpa using hpe⟩)]
    rw [List.map_cons, List.nodup_cons] at hnd
    have hin' : ∀ e ∈ l, ∃ p ∈ setBook g n b, p.1 = e.1 := by
      intro e he
      obtain ⟨q, hq, hqe⟩ := hin e (List.mem_cons_of_mem _ he)
      unfold setBook
      by_cases hqn : q.1 = n
      · exact ⟨_, List.mem_map_of_mem hq, by rw [if_pos hqn]; exact hqe⟩
      · exact ⟨_, List.mem_map_of_mem hq, by rw [if_neg hqn]; exact hqe⟩
    obtain ⟨h1, h2⟩ := ih hin' hnd.2
    refine ⟨h1, ?_⟩
    rw [h2]
    unfold setBook
    rw [List.map_map]
    apply List.map_congr_left
    intro q hq
    simp only [Function.comp]
    by_cases hqn : q.1 = n
    · rw [if_pos hqn]
      have hnone : l.find? (fun e => e.1 == q.1) = none := by
        rw [List.find?_eq_none]
        intro e he hh
        exact hnd.1 (by rw [← hqn, ← (by simpa using hh : e.1 = q.1)]; exact List.mem_map_of_mem he)
      rw [hqn] at hnone
      simp only [List.find?_cons, hqn, hnone]
      simp
    · rw [if_neg hqn, List.find?_cons]
      have : (n == q.1) = false := by simpa using fun e => hqn e.symm
      simp only [this]

/-- C111. Recipe books saved by one group and loaded by another with the same channels: every channel that was good then has its book back; the others keep
theirs. Missing: the default cuts (`load_default_fails`). -/
theorem load_saved_partial {g g2 : Group V} (hnd : (g.map Prod.fst).Nodup) (hch : ∀ p ∈ g, ∃ q ∈ g2, q.1 = p.1) :
    (loadBooks g2 (saveBooks g)).1 = .ok () ∧
    (∀ q ∈ (loadBooks g2 (saveBooks g)).2, ∀ p ∈ g, p.1 = q.1 → p.2.bad = false → q.2.book = p.2.book) ∧
    (loadBooks g2 (saveBooks g)).2.map (fun q => (q.1, q.2.dflt, q.2.bad)) = g2.map (fun q => (q.1, q.2.dflt, q.2.bad)) := by
  have hkeys : (saveBooks g).map Prod.fst = (goodOnes g).map Prod.fst := by
    unfold saveBooks
    rw [List.map_map]
    rfl
  have hnd' : ((saveBooks g).map Prod.fst).Nodup := by
    rw [hkeys]
    exact hnd.sublist (List.Sublist.map _ List.filter_sublist)
  have hin : ∀ e ∈ saveBooks g, ∃ p ∈ g2, p.1 = e.1 := by
    intro e he
    obtain ⟨p, hp, rfl⟩ := List.mem_map.mp he
    exact hch p (mem_goodOnes.mp hp).1
  obtain ⟨h1, h2⟩ := loadBooks_spec hin hnd'
  refine ⟨h1, ?_, ?_⟩
  · intro q hq p hp hpq hb
    rw [h2] at hq
    obtain ⟨q0, _, e⟩ := List.mem_map.mp hq
    have hmem : (p.1, p.2.book) ∈ saveBooks g := List.mem_map.mpr ⟨p, mem_goodOnes.mpr ⟨hp, hb⟩, rfl⟩
    have hq0 : q0.1 = q.1 := by
      rw [← e]
      split <;> rfl
    cases hf : (saveBooks g).find? (fun e => e.1 == q0.1) with
    | none =>
      rw [List.find?_eq_none] at hf
      exact absurd (by simp [hpq, hq0]) (hf _ hmem)
    | some x =>
      rw [hf] at e
      dsimp only at e
      have hx := List.mem_of_find?_eq_some hf
      have hx1 : x.1 = q0.1 := by simpa using List.find?_some hf
      have : x = (p.1, p.2.book) := by
        have huniq : ∀ (l : List (Nat × Book V)), (l.map Prod.fst).Nodup → ∀ x ∈ l, ∀ y ∈ l, x.1 = y.1 → x = y := by
          intro l
          induction l with
          | nil => intro _ x hx; simp at hx
          | cons a l ih =>
            intro hn x hx y hy hxy
            rw [List.map_cons, List.nodup_cons] at hn
            rcases List.mem_cons.mp hx with rfl | hx' <;> rcases List.mem_cons.mp hy with rfl | hy'
            · rfl
            · exact absurd (by rw [hxy]; exact List.mem_map_of_mem hy') hn.1
            · exact absurd (by rw [← hxy]; exact List.mem_map_of_mem hx') hn.1
            · exact ih hn.2 x hx' y hy' hxy
        exact huniq _ hnd' x hx _ hmem (by rw [hx1, hq0, hpq])
      rw [← e, this]
  · rw [h2, List.map_map]
    apply List.map_congr_left
    intro q _
    simp only [Function.comp]
    split <;> rfl

/-- C111. A book of a channel that the group does not have is an error. -/
theorem load_unknown {g : Group V} {l : List (Nat × Book V)} {n : Nat} {b : Book V} (h : (n, b) ∈ l) (hn : ∀ p ∈ g, p.1 ≠ n) :
    (loadBooks g l).1 = .error .key := by
  induction l generalizing g with
  | nil => simp at h
  | cons e l ih =>
    obtain ⟨k, bk⟩ := e
    unfold loadBooks
    split
    · rename_i hk
      rcases List.mem_cons.mp h with he | he
      · cases he
        obtain ⟨p, hp, hpe⟩ := List.any_eq_true.mp hk
        exact absurd (by simpa using hpe) (hn p hp)
      · refine ih he ?_
        intro p hp
        obtain ⟨q, hq, rfl⟩ := List.mem_map.mp hp
        split
        · exact hn q hq
        · exact hn q hq
    · rfl

/-! ### examples and disagreements -/

/-- a function of one argument -/
def idFn : Fn Bool := ⟨["x".toList], fun l => match l with
  | [v] => .ok v
  | _ => .error .type⟩
/-- a function of two arguments -/
def twoFn : Fn Bool := ⟨["x".toList, "y".toList], fun l => match l with
  | [v, w] => .ok (v && w)
  | _ => .error .type⟩
/-- the fields of an OFF file -/
def exBase : List Name := ["unixnano".toList, "filtValue".toList, "derivativeLike".toList, "coefs".toList]
/-- the same with an additional field -/
def exBase2 : List Name := "extra".toList :: exBase
/-- a new channel -/
def exChan (base : List Name) : Chan Bool := (newChan base idFn twoFn idFn).2

example : (newChan exBase idFn twoFn idFn).1 = .ok () ∧ (exChan exBase).dflt = "cutNone".toList := by decide +kernel

example (ops : List (Op Bool)) (lnot : Bool → Bool) (src : Src Bool) : ∃ a,
    craft (run (exChan exBase) ops).book lnot (handleDefault (run (exChan exBase) ops) none) src 9 = call (run (exChan exBase) ops).book.heap src 9 a := by
  obtain ⟨a, _, h⟩ := default_usable (base := exBase) (f1 := idFn) (f2 := twoFn) (f3 := idFn) (by decide +kernel) ops lnot src 9
  exact ⟨a, h⟩

/-- a cut on the filtered value, made the default -/
def exCut : CutReq Bool := ⟨"cutBig".toList, idFn, some ["filtValue".toList], false, true⟩
/-- a cut on the additional field -/
def exCut2 : CutReq Bool := ⟨"cutExtra".toList, idFn, some ["extra".toList], false, true⟩

example : ((cutAdd (exChan exBase) exCut).2.dflt, (cutAdd (exChan exBase) exCut).1) = ("cutBig".toList, .ok ()) := by decide +kernel

/-- Disagreement (C111): `cutAdd` with `setDefault` and a name that does not start with "cut" raises, but the recipe has been added: the same call with another
function is refused because the name is taken. -/
theorem cutAdd_fails : ∃ (c : Chan Bool) (r : CutReq Bool), Usable c ∧ (cutAdd c r).1 = .error .assertion ∧
    known c.book r.name = false ∧ known (cutAdd c r).2.book r.name = true ∧
    (cutAdd c { r with setDefault := false }).1 = .ok () ∧ (cutAdd (cutAdd c r).2 { r with setDefault := false }).1 = .error .assertion :=
  ⟨exChan exBase, ⟨"good".toList, idFn, some ["filtValue".toList], false, true⟩, newChan_usable (by decide +kernel), by decide +kernel, by decide +kernel,
    by decide +kernel, by decide +kernel, by decide +kernel⟩

/-- Disagreement (C111): `cutSetDefault` of a group always raises and sets nothing: it looks for the recipes of the group, which has none. -/
theorem group_set_default_fails (g : Group V) (n : Name) : (groupSetDefault g n).1 ≠ .ok () ∧ (groupSetDefault g n).2 = g := by
  unfold groupSetDefault
  split <;> simp

/-- Disagreement (C111): after a channel that lacked the ingredients of a cut is marked good again, the histogram and the line fit of the group use different
cuts of the other channel. -/
theorem marked_good_fails : ∃ (g : Group Bool) (r : CutReq Bool), Same g ∧
    histCuts (markAllGood (groupCutAdd g r)) none = [(1, "cutNone".toList), (3, "cutExtra".toList)] ∧
    linefitCuts (markAllGood (groupCutAdd g r)) none = .ok [(1, "cutNone".toList), (3, "cutNone".toList)] := by
  refine ⟨[(1, exChan exBase), (3, exChan exBase2)], exCut2, ?_, by decide +kernel, by decide +kernel⟩
  have hu1 : Usable (exChan exBase) := newChan_usable (by decide +kernel)
  have hu2 : Usable (exChan exBase2) := newChan_usable (by decide +kernel)
  have hd1 : (exChan exBase).dflt = "cutNone".toList := by decide +kernel
  have hd2 : (exChan exBase2).dflt = "cutNone".toList := by decide +kernel
  have hm : ∀ p ∈ goodOnes ([(1, exChan exBase), (3, exChan exBase2)] : Group Bool), p.2 = exChan exBase ∨ p.2 = exChan exBase2 := by
    intro p hp
    have := (mem_goodOnes.mp hp).1
    simp only [List.mem_cons, List.not_mem_nil, or_false] at this
    rcases this with rfl | rfl
    · exact Or.inl rfl
    · exact Or.inr rfl
  constructor
  · intro p hp
    rcases hm p hp with h | h <;> rw [h]
    · exact hu1
    · exact hu2
  · intro p hp q hq
    rcases hm p hp with h | h <;> rcases hm q hq with h' | h' <;> rw [h, h'] <;> simp only [hd1, hd2]

/-- Disagreement (C111): recipe books do not remember the default cut: after saving and loading into a new group, all pulses are used again. And a book without
the present default may be loaded: then nothing can be read without naming a cut. -/
theorem load_default_fails :
    (∃ g : Group Bool, histCuts g none = [(1, "cutBig".toList)] ∧
      histCuts (loadBooks [(1, exChan exBase)] (saveBooks g)).2 none = [(1, "cutNone".toList)]) ∧
    ∃ (c : Chan Bool) (b : Book Bool), Usable c ∧
      ∀ p ∈ (loadBooks [(1, c)] [(1, b)]).2, ∀ src, craft p.2.book (!·) (handleDefault p.2 none) src 9 = some (.error .assertion) := by
  refine ⟨⟨[(1, (cutAdd (exChan exBase) exCut).2)], by decide +kernel, by decide +kernel⟩, (cutAdd (exChan exBase) exCut).2, (exChan exBase).book,
    cutAdd_usable (newChan_usable (by decide +kernel)) _, ?_⟩
  intro p hp src
  have hp' : p = (1, { (cutAdd (exChan exBase) exCut).2 with book := (exChan exBase).book }) := by
    simpa [loadBooks, setBook] using hp
  rw [hp']
  have hd : (cutAdd (exChan exBase) exCut).2.dflt = "cutBig".toList := by decide +kernel
  unfold handleDefault
  dsimp only
  rw [Option.getD_none, hd]
  have h1 : hasCut "cutBig".toList = true := by decide +kernel
  have h2 : ("cutBig".toList).dropWhile (· == '!') = "cutBig".toList := by decide +kernel
  have h3 : lookup (exChan exBase).book.crafted "cutBig".toList = none := by decide +kernel
  unfold craft craftCut
  dsimp only
  rw [if_pos h1, h2, h3]

/-- Disagreement (C111): a negated cut, which histograms accept and which can be evaluated, is refused by the line fit of a group. -/
theorem negated_fails : ∃ g : Group Bool, histCuts g (some "!cutBig".toList) = [(1, "!cutBig".toList)] ∧
    (∀ p ∈ g, ∀ v : Bool, craft p.2.book (!·) "!cutBig".toList ⟨fun _ => .ok v, .ok v⟩ 9 = some (.ok (!v))) ∧
    linefitCuts g (some "!cutBig".toList) = .error .assertion := by
  refine ⟨[(1, (cutAdd (exChan exBase) exCut).2)], by decide +kernel, ?_, by decide +kernel⟩
  intro p hp
  have hp' : p = (1, (cutAdd (exChan exBase) exCut).2) := by simpa using hp
  rw [hp']
  decide +kernel

end Mass.Recipe.Cuts
