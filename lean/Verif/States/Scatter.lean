import Verif.States.Export
import Verif.Stat.Hist
import Mathlib.Data.List.Infix
import Mathlib.Tactic.Ring
/-! C169: plots of one quantity of the pulses against another, state by state (mass/off/channels.py `plotAvsB`, `plotAvsB2d`, `plotCompareDriftCorrect`). Attributes and cuts
look at each record by itself. What is drawn before an exception is left out. -/
namespace Mass.States.Scatter
open Mass Mass.States Mass.States.Export
open Mass.Ljh (Bytes asc)
variable {R V : Type}

/-! ### model -/

/-- what may be given as the name of a cut (used for channels.py L475-503, L582-606): a text, a function, or True -/
inductive Cut (R : Type)
  | name (s : Bytes)
  | fn (f : List R → Except Exc (List Bool))
  | yes

/-- the book of recipes (used for util.py L103-138) -/
abbrev Book (R : Type) := Bytes → Option (List R → Except Exc (List Bool))

/-- util.py L128-138 `_craftCut` and L103-118 `craft` for cuts. `"cut" in True` is a TypeError. -/
def craft (book : Book R) : Cut R → List R → Except Exc (List Bool)
  | .fn f, r => f r
  | .yes, _ => .error .type
  | .name s, r =>
    if asc "cut" <:+: s then
      let base := s.dropWhile (fun b => (asc "!").contains b)
      match book base with
      | none => .error .assertion
      | some f => if (s.length - base.length) % 2 = 0 then f r else (f r).map (fun g => g.map not)
    else
      match book s with
      | none => .error .exception
      | some f => f r

/-- `f"!{cutRecipeName}"`, channels.py L502; `shown` is what Python makes of a function -/
def negated (shown : Bytes) : Cut R → Cut R
  | .name s => .name (asc "!" ++ s)
  | .fn _ => .name (asc "!" ++ shown)
  | .yes => .name (asc "!" ++ asc "True")

/-- one set of points: its label, whether it is drawn with crosses, and the points (used for channels.py L500, L503) -/
structure Curve (V : Type) where
  label : Bytes
  cross : Bool
  xy : List (V × V)
deriving DecidableEq

/-- what all the plots use of a channel (channels.py L197-207, L448-456): records, states, recipes, attributes, the default cut and the labels of states -/
structure Chan (R V : Type) where
  zero : R
  recs : List R
  d : SD
  book : Book R
  val : Bytes → Option (R → V)
  dflt : Cut R
  labels : List Bytes

/-- `getAttr([nameA, nameB], state, cut)`, channels.py L422-456: reads first, then looks up the attributes -/
def points (c : Chan R V) (cut : Cut R) (a b : Bytes) (states : List Bytes) : Except Exc (List (V × V)) :=
  match getRecs c.zero c.recs c.d (craft c.book cut) (some states) with
  | .error e => .error e
  | .ok rs =>
    match c.val a, c.val b with
    | some f, some g => .ok (rs.map (fun r => (f r, g r)))
    | _, _ => .error .exception

/-- channels.py L497-503 `_plotAvsB_single` -/
def single (c : Chan R V) (shown : Bytes) (cut : Cut R) (bad : Bool) (a b pre : Bytes) : List Bytes → Except Exc (List (Curve V))
  | [] => .ok []
  | s :: t =>
    match points c cut a b [s] with
    | .error e => .error e
    | .ok p =>
      match (if bad then (points c (negated shown cut) a b [s]).map (fun q => [(⟨pre ++ s ++ asc " bad", true, q⟩ : Curve V)]) else .ok []) with
      | .error e => .error e
      | .ok q =>
        match single c shown cut bad a b pre t with
        | .error e => .error e
        | .ok rest => .ok (⟨pre ++ s, false, p⟩ :: (q ++ rest))

/-- channels.py L492-495 `_plotAvsB_list` -/
def several (c : Chan R V) (shown : Bytes) (cut : Cut R) (bad : Bool) (a : Bytes) (states : List Bytes) : List Bytes → Except Exc (List (Curve V))
  | [] => .ok []
  | b :: t =>
    match single c shown cut bad a b b states with
    | .error e => .error e
    | .ok p =>
      match several c shown cut bad a states t with
      | .error e => .error e
      | .ok rest => .ok (p ++ rest)

/-- what is plotted against the first attribute: one or a list (used for channels.py L482-485) -/
inductive Second
  | one (b : Bytes)
  | list (bs : List Bytes)

/-- channels.py L475-490 `plotAvsB` -/
def plotAvsB (c : Chan R V) (shown : Bytes) (a : Bytes) (b : Second) (states : Option (List Bytes)) (bad : Bool) (cut : Option (Cut R)) : Except Exc (List (Curve V)) :=
  match b with
  | .one b => single c shown (cut.getD c.dflt) bad a b [] (states.getD c.labels)
  | .list bs => several c shown (cut.getD c.dflt) bad a (states.getD c.labels) bs

/-- channels.py L582-606 `plotCompareDriftCorrect`; `pm`, `fv` and `dc` name pretriggerMean, filtValue and filtValueDC. (The assertions L588-591 on the recipe are left out.) -/
def compare (c : Chan R V) (pm fv dc : Bytes) (bad : Bool) (cut : Option (Cut R)) : List Bytes → Except Exc (List (Curve V))
  | [] => .ok []
  | s :: t =>
    match points c (cut.getD c.dflt) pm fv [s] with
    | .error e => .error e
    | .ok p =>
      match points c (cut.getD c.dflt) pm dc [s] with
      | .error e => .error e
      | .ok q =>
        match (if bad then (points c .yes pm fv [s]).bind (fun p' => (points c .yes pm dc [s]).map
          (fun q' => [(⟨s ++ asc " bad", true, p'⟩ : Curve V), ⟨s ++ asc " bad DC", true, q'⟩])) else .ok []) with
        | .error e => .error e
        | .ok x =>
          match compare c pm fv dc bad cut t with
          | .error e => .error e
          | .ok rest => .ok (⟨s, false, p⟩ :: ⟨s ++ asc " DC", false, q⟩ :: (x ++ rest))

/-- a two-dimensional histogram as drawn (used for channels.py L465-470): the axes, centers of bins in both directions, rows of counts from bottom to top -/
structure Map2 (V : Type) where
  axes : Nat
  cx : List V
  cy : List V
  z : List (List Nat)
deriving DecidableEq

/-- `0.5 * (edges[1:] + edges[:-1])`, channels.py L467-468 -/
def centers [Field V] (es : List V) : List V := List.zipWith (fun a b => 1 / 2 * (a + b)) es.tail es

/-- np.histogram2d (used for channels.py L466): entry (i, j) counts the points in bin i of the first and bin j of the second quantity. ValueError if edges decrease. -/
def counts2 [LinearOrder V] (xy : List (V × V)) (ea eb : List V) : Except Exc (List (List Nat)) :=
  if Stat.Hist.monotone ea = false ∨ Stat.Hist.monotone eb = false then .error .value
  else .ok ((List.range (ea.length - 1)).map (fun i => (List.range (eb.length - 1)).map (fun j => xy.countP (fun p => decide (Stat.Hist.InBin ea i p.1) && decide (Stat.Hist.InBin eb j p.2)))))

/-- `counts.T` for `n` columns, channels.py L469 -/
def transpose (n : Nat) (c : List (List Nat)) : List (List Nat) := (List.range n).map (fun j => c.map (fun row => row.getD j 0))

/-- channels.py L458-473 `plotAvsB2d`. `cur` are the current axes, in which `plt.contourf` draws; without axes given new ones are made, and are current (here number cur + 1).
Contours need two bins in both directions (TypeError). -/
def plotAvsB2d [Field V] [LinearOrder V] (c : Chan R V) (cur : Nat) (axis : Option Nat) (a b : Bytes) (ea eb : List V) (states : Option (List Bytes)) (cut : Option (Cut R)) : Except Exc (Map2 V) :=
  let on := match axis with | none => cur + 1 | some _ => cur
  match points c (cut.getD c.dflt) a b (states.getD c.labels) with
  | .error e => .error e
  | .ok xy =>
    match counts2 xy ea eb with
    | .error e => .error e
    | .ok n => if ea.length < 3 ∨ eb.length < 3 then .error .type else .ok ⟨on, centers ea, centers eb, transpose (eb.length - 1) n⟩

/-! ### cuts -/

/-- the cut of this name looks at each record by itself, as `p` does; its name has "cut" in it and does not begin with "!" [specification] -/
structure Named (book : Book R) (s : Bytes) (p : R → Bool) : Prop where
  cut : asc "cut" <:+: s
  plain : s.head? ≠ some 33
  known : book s = some (pointwise p)

theorem bang : asc "!" = [33] := by decide

theorem craft_name {book : Book R} {s : Bytes} {p : R → Bool} (h : Named book s p) : craft book (.name s) = pointwise p ∧ craft book (.name (asc "!" ++ s)) = pointwise (fun r => !p r) := by
  have hb : s.dropWhile (fun b => (asc "!").contains b) = s := by
    rw [bang]
    cases hs : s with
    | nil => rfl
    | cons x t =>
      have : x ≠ 33 := by
        intro e
        exact h.plain (by rw [hs, e]; rfl)
      rw [List.dropWhile_cons_of_neg (by simpa using this)]
  constructor
  · funext r
    simp only [craft, if_pos h.cut, hb, h.known, Nat.sub_self, Nat.zero_mod, if_true]
  · funext r
    have hc : asc "cut" <:+: asc "!" ++ s := h.cut.trans (List.suffix_append _ _).isInfix
    have hb' : (asc "!" ++ s).dropWhile (fun b => (asc "!").contains b) = s := by
      conv_lhs => rw [bang, List.singleton_append]
      rw [List.dropWhile_cons_of_pos (by simp), ← bang]
      exact hb
    have hl : (asc "!" ++ s).length - s.length = 1 := by rw [bang]; simp
    simp only [craft, if_pos hc, hb', h.known, hl]
    simp [pointwise, Except.map]

/-! ### points by state -/

/-- the pulses in state `k` that pass `p`, as points [specification] -/
def inState (rd : Int → Int) (ef : EF) (excl : List Bytes) (al : Bytes → Bytes) (pulses : List Int) (recs : List R) (f g : R → V) (p : R → Bool) (k : Bytes) : List (V × V) :=
  (recs.zipIdx.filter (fun e => decide (inForce rd ef excl al (pulses.getD e.2 0) = some k) && p e.1)).map (fun e => (f e.1, g e.1))

/-- a channel whose states are those of a state file [specification] -/
structure Has (rd : Int → Int) (ef : EF) (excl : List Bytes) (dict : List (Bytes × Bytes)) (pulses : List Int) (c : Chan R V) : Prop where
  mono : Mono rd
  good : ef.Good excl
  times : Sorted ef.times
  sorted : Sorted pulses
  states : batch rd ef (aliasOf dict) pulses = .ok c.d
  len : c.recs.length = pulses.length
  labels : c.labels = labels ef dict

theorem points_states {rd : Int → Int} {ef : EF} {excl : List Bytes} {dict : List (Bytes × Bytes)} {pulses : List Int} {c : Chan R V} (h : Has rd ef excl dict pulses c) {cut : Cut R} {p : R → Bool}
    (hc : craft c.book cut = pointwise p) {a b : Bytes} {f g : R → V} (ha : c.val a = some f) (hb : c.val b = some g) {ks : List Bytes} (hne : ks ≠ []) (hk : ∀ k ∈ ks, k ∈ c.d.map Prod.fst) :
    points c cut a b ks = .ok (ks.flatMap (inState rd ef excl (aliasOf dict) pulses c.recs f g p)) := by
  have hs := select_states h.mono h.good h.times h.sorted h.states c.zero c.recs h.len p hne hk
  unfold points
  rw [hc]
  have : getRecs c.zero c.recs c.d (pointwise p) (some ks) = (stateSlices c.d ks).bind (indexPrealloc c.zero c.recs (pointwise p)) := by
    cases ks with
    | nil => exact absurd rfl hne
    | cons k t => rfl
  rw [this, hs]
  dsimp only
  rw [ha, hb]
  dsimp only
  rw [List.map_flatMap]
  congr 1
  refine List.flatMap_congr (fun k _ => ?_)
  unfold inState
  rw [List.map_map]
  rfl

/-- what is drawn for one state [specification] -/
def expected (good bads : Bytes → List (V × V)) (bad : Bool) (pre k : Bytes) : List (Curve V) :=
  ⟨pre ++ k, false, good k⟩ :: if bad then [⟨pre ++ k ++ asc " bad", true, bads k⟩] else []

theorem single_spec {rd : Int → Int} {ef : EF} {excl : List Bytes} {dict : List (Bytes × Bytes)} {pulses : List Int} {c : Chan R V} (h : Has rd ef excl dict pulses c) (shown : Bytes) {s : Bytes}
    {p : R → Bool} (hc : Named c.book s p) (bad : Bool) {a b : Bytes} {f g : R → V} (ha : c.val a = some f) (hb : c.val b = some g) (pre : Bytes) {ks : List Bytes} (hk : ∀ k ∈ ks, k ∈ c.d.map Prod.fst) :
    single c shown (.name s) bad a b pre ks =
      .ok (ks.flatMap (expected (inState rd ef excl (aliasOf dict) pulses c.recs f g p) (inState rd ef excl (aliasOf dict) pulses c.recs f g (fun r => !p r)) bad pre)) := by
  obtain ⟨c1, c2⟩ := craft_name hc
  induction ks with
  | nil => rfl
  | cons k t ih =>
    have k1 := points_states h c1 ha hb (ks := [k]) (by simp) (fun x hx => hk x (by simp at hx; simp [hx]))
    have k2 := points_states h c2 ha hb (ks := [k]) (by simp) (fun x hx => hk x (by simp at hx; simp [hx]))
    rw [List.flatMap_singleton] at k1 k2
    unfold single
    rw [k1]
    dsimp only [negated]
    rw [k2, ih (fun x hx => hk x (by simp [hx]))]
    cases bad <;> simp [expected, Except.map]

/-- C169. For every state asked for, in this order, the pulses of this state that pass the cut, and if so wanted, with crosses, those that do not pass it; in the order in which they were recorded. With a list
of attributes this is done for one after the other, and the labels begin with their names. -/
theorem scatter_states {rd : Int → Int} {ef : EF} {excl : List Bytes} {dict : List (Bytes × Bytes)} {pulses : List Int} {c : Chan R V} (h : Has rd ef excl dict pulses c) (shown : Bytes) {s : Bytes}
    {p : R → Bool} (hc : Named c.book s p) (bad : Bool) {a : Bytes} {f : R → V} (ha : c.val a = some f) {ks : List Bytes} (hk : ∀ k ∈ ks, k ∈ c.d.map Prod.fst) :
    (∀ b g, c.val b = some g → plotAvsB c shown a (.one b) (some ks) bad (some (.name s)) = .ok (ks.flatMap (fun k =>
      ⟨k, false, inState rd ef excl (aliasOf dict) pulses c.recs f g p k⟩ ::
        if bad then [⟨k ++ asc " bad", true, inState rd ef excl (aliasOf dict) pulses c.recs f g (fun r => !p r) k⟩] else []))) ∧
    ∀ bs : List (Bytes × (R → V)), (∀ b ∈ bs, c.val b.1 = some b.2) → plotAvsB c shown a (.list (bs.map Prod.fst)) (some ks) bad (some (.name s)) = .ok (bs.flatMap (fun b => ks.flatMap (fun k =>
      ⟨b.1 ++ k, false, inState rd ef excl (aliasOf dict) pulses c.recs f b.2 p k⟩ ::
        if bad then [⟨b.1 ++ k ++ asc " bad", true, inState rd ef excl (aliasOf dict) pulses c.recs f b.2 (fun r => !p r) k⟩] else []))) := by
  constructor
  · intro b g hb
    unfold plotAvsB
    dsimp only [Option.getD]
    rw [single_spec h shown hc bad ha hb [] hk]
    rfl
  · intro bs hbs
    unfold plotAvsB
    dsimp only [Option.getD]
    induction bs with
    | nil => rfl
    | cons b t ih =>
      rw [List.map_cons, several, single_spec h shown hc bad ha (hbs b (by simp)) b.1 hk]
      dsimp only
      rw [ih (fun x hx => hbs x (by simp [hx]))]
      rfl

/-- C169. Without states or a cut asked for: all labels, the default cut. With bad pulses shown, every pulse that is in a state which is not excluded is shown exactly once, if no two labels have the same
alias. -/
theorem every_pulse_once {rd : Int → Int} {ef : EF} {excl : List Bytes} {dict : List (Bytes × Bytes)} {pulses : List Int} {c : Chan R V} (h : Has rd ef excl dict pulses c) (shown : Bytes) {s : Bytes}
    {p : R → Bool} (hc : Named c.book s p) (hd : c.dflt = .name s) {a b : Bytes} {f g : R → V} (ha : c.val a = some f) (hb : c.val b = some g) (hn : c.labels.Nodup) :
    ∃ cs, plotAvsB c shown a (.one b) none true none = .ok cs ∧
      (cs.flatMap Curve.xy).Perm ((c.recs.zipIdx.filter (fun e => (inForce rd ef excl (aliasOf dict) (pulses.getD e.2 0)).isSome)).map (fun e => (f e.1, g e.1))) ∧
      (∀ w ∈ cs, w.cross = false → ∃ k ∈ c.labels, w.label = k ∧ ∀ q ∈ w.xy, ∃ r ∈ c.recs, p r = true ∧ q = (f r, g r)) ∧
      (∀ w ∈ cs, w.cross = true → ∃ k ∈ c.labels, w.label = k ++ asc " bad" ∧ ∀ q ∈ w.xy, ∃ r ∈ c.recs, p r = false ∧ q = (f r, g r)) := by
  have hk : ∀ k ∈ c.labels, k ∈ c.d.map Prod.fst := by
    intro k hk
    rw [h.labels] at hk
    exact labels_known h.mono h.good h.times h.states hk
  have hmem : ∀ (p : R → Bool) k, ∀ q ∈ inState rd ef excl (aliasOf dict) pulses c.recs f g p k, ∃ r ∈ c.recs, p r = true ∧ q = (f r, g r) := by
    intro p k q hq
    obtain ⟨e, he, rfl⟩ := List.mem_map.1 hq
    obtain ⟨h1, h2⟩ := List.mem_filter.1 he
    rw [Bool.and_eq_true] at h2
    exact ⟨e.1, List.fst_mem_of_mem_zipIdx h1, h2.2, rfl⟩
  refine ⟨c.labels.flatMap (expected (inState rd ef excl (aliasOf dict) pulses c.recs f g p) (inState rd ef excl (aliasOf dict) pulses c.recs f g (fun r => !p r)) true []), ?_, ?_, ?_, ?_⟩
  · unfold plotAvsB
    dsimp only [Option.getD]
    rw [hd]
    exact single_spec h shown hc true ha hb [] hk
  · rw [List.flatMap_assoc]
    have e1 : (c.labels.flatMap (fun k => (expected (inState rd ef excl (aliasOf dict) pulses c.recs f g p) (inState rd ef excl (aliasOf dict) pulses c.recs f g (fun r => !p r)) true [] k).flatMap Curve.xy)).Perm
        (c.labels.flatMap (inState rd ef excl (aliasOf dict) pulses c.recs f g (fun _ => true))) := by
      refine List.Perm.flatMap_left _ (fun k _ => ?_)
      simp only [expected, if_true, List.flatMap_cons, List.flatMap_nil, List.append_nil]
      unfold inState
      rw [← List.map_append]
      refine List.Perm.map _ ?_
      have := List.filter_append_perm (fun e : R × Nat => p e.1) (c.recs.zipIdx.filter (fun e => decide (inForce rd ef excl (aliasOf dict) (pulses.getD e.2 0) = some k)))
      rw [List.filter_filter, List.filter_filter] at this
      simp only [Bool.and_true]
      refine (List.Perm.of_eq ?_).trans this
      congr 1 <;> exact List.filter_congr (fun e _ => Bool.and_comm _ _)
    refine e1.trans ?_
    unfold inState
    rw [← List.map_flatMap]
    refine List.Perm.map _ ?_
    refine (select_perm (fun e : R × Nat => inForce rd ef excl (aliasOf dict) (pulses.getD e.2 0)) (fun _ => true) c.recs.zipIdx _ hn).trans (List.Perm.of_eq (List.filter_congr ?_))
    intro e _
    rw [Bool.and_true, Bool.eq_iff_iff, decide_eq_true_iff, Option.isSome_iff_exists]
    constructor
    · rintro ⟨k, _, hk⟩; exact ⟨k, hk⟩
    · rintro ⟨k, hk⟩; exact ⟨k, by rw [h.labels]; exact inForce_label h.good hk, hk⟩
  · intro w hw hx
    obtain ⟨k, hkl, hw⟩ := List.mem_flatMap.1 hw
    simp only [expected, if_true, List.mem_cons, List.not_mem_nil, or_false] at hw
    rcases hw with rfl | rfl
    · exact ⟨k, hkl, rfl, hmem p k⟩
    · cases hx
  · intro w hw hx
    obtain ⟨k, hkl, hw⟩ := List.mem_flatMap.1 hw
    simp only [expected, if_true, List.mem_cons, List.not_mem_nil, or_false] at hw
    rcases hw with rfl | rfl
    · cases hx
    · refine ⟨k, hkl, rfl, fun q hq => ?_⟩
      obtain ⟨r, h1, h2, h3⟩ := hmem (fun r => !p r) k q hq
      exact ⟨r, h1, by simpa using h2, h3⟩

/-- C169. Pulses before and after the drift correction are shown for each state, in the same order of pulses, over the pretrigger mean. -/
theorem compare_states {rd : Int → Int} {ef : EF} {excl : List Bytes} {dict : List (Bytes × Bytes)} {pulses : List Int} {c : Chan R V} (h : Has rd ef excl dict pulses c) {s : Bytes} {p : R → Bool}
    (hc : Named c.book s p) {pm fv dc : Bytes} {f g k : R → V} (hf : c.val pm = some f) (hg : c.val fv = some g) (hk : c.val dc = some k) {cut : Option (Cut R)} (hcut : cut.getD c.dflt = .name s)
    {ks : List Bytes} (hks : ∀ x ∈ ks, x ∈ c.d.map Prod.fst) :
    compare c pm fv dc false cut ks = .ok (ks.flatMap (fun x => [⟨x, false, inState rd ef excl (aliasOf dict) pulses c.recs f g p x⟩,
      ⟨x ++ asc " DC", false, inState rd ef excl (aliasOf dict) pulses c.recs f k p x⟩])) := by
  obtain ⟨c1, _⟩ := craft_name hc
  induction ks with
  | nil => rfl
  | cons x t ih =>
    have hx : ∀ y ∈ [x], y ∈ c.d.map Prod.fst := fun y hy => hks y (by simp at hy; simp [hy])
    have k1 := points_states h c1 hf hg (ks := [x]) (by simp) hx
    have k2 := points_states h c1 hf hk (ks := [x]) (by simp) hx
    rw [List.flatMap_singleton] at k1 k2
    unfold compare
    rw [hcut, k1]
    dsimp only
    rw [k2, ih (fun y hy => hks y (by simp [hy]))]
    rfl

/-! ### two-dimensional histograms -/

/-- C169. Bin `i` along the first and bin `j` along the second quantity is at its center and counts the pulses shown that are in both; the counts add up to the number of pulses within the ranges of the edges. -/
theorem map_spec [Field V] [LinearOrder V] [IsStrictOrderedRing V] {rd : Int → Int} {ef : EF} {excl : List Bytes} {dict : List (Bytes × Bytes)} {pulses : List Int} {c : Chan R V} (h : Has rd ef excl dict pulses c) {s : Bytes}
    {p : R → Bool} (hc : Named c.book s p) {a b : Bytes} {f g : R → V} (ha : c.val a = some f) (hb : c.val b = some g) (cur : Nat) (axis : Option Nat) {ea eb : List V} {ks : List Bytes} (hne : ks ≠ [])
    (hk : ∀ k ∈ ks, k ∈ c.d.map Prod.fst) {m : Map2 V} (hm : plotAvsB2d c cur axis a b ea eb (some ks) (some (.name s)) = .ok m) :
    let xy := ks.flatMap (inState rd ef excl (aliasOf dict) pulses c.recs f g p)
    m.cx.length + 1 = ea.length ∧ m.cy.length + 1 = eb.length ∧ (∀ i lo hi, ea[i]? = some lo → ea[i + 1]? = some hi → m.cx[i]? = some ((lo + hi) / 2)) ∧
      (∀ j lo hi, eb[j]? = some lo → eb[j + 1]? = some hi → m.cy[j]? = some ((lo + hi) / 2)) ∧ m.z.length = m.cy.length ∧
      (∀ i j, i < m.cx.length → j < m.cy.length → (m.z[j]?.bind (fun row => row[i]?)) = some (xy.countP (fun q => decide (Stat.Hist.InBin ea i q.1 ∧ Stat.Hist.InBin eb j q.2)))) ∧
      (∀ a0 a1 b0 b1, ea.head? = some a0 → ea.getLast? = some a1 → eb.head? = some b0 → eb.getLast? = some b1 →
        m.z.flatten.sum = xy.countP (fun q => decide ((a0 ≤ q.1 ∧ q.1 ≤ a1) ∧ b0 ≤ q.2 ∧ q.2 ≤ b1))) := by
  intro xy
  have hp := points_states h (craft_name hc).1 ha hb hne hk
  unfold plotAvsB2d at hm
  dsimp only [Option.getD] at hm
  rw [hp] at hm
  dsimp only at hm
  unfold counts2 at hm
  by_cases hmon : Stat.Hist.monotone ea = false ∨ Stat.Hist.monotone eb = false
  · rw [if_pos hmon] at hm
    cases hm
  rw [if_neg hmon] at hm
  dsimp only at hm
  by_cases hlen : ea.length < 3 ∨ eb.length < 3
  · rw [if_pos hlen] at hm
    cases hm
  rw [if_neg hlen] at hm
  have hm := (Except.ok.inj hm).symm
  push Not at hmon hlen
  have hcl : ∀ es : List V, (centers es).length = es.length - 1 := by intro es; simp [centers]
  have hcg : ∀ (es : List V) (i : Nat) (lo hi : V), es[i]? = some lo → es[i + 1]? = some hi → (centers es)[i]? = some ((lo + hi) / 2) := by
    intro es i lo hi h1 h2
    unfold centers
    rw [List.getElem?_zipWith_eq_some]
    exact ⟨hi, lo, by rw [List.getElem?_tail]; exact h2, h1, by ring⟩
  have hz : m.z = (List.range (eb.length - 1)).map (fun j => (List.range (ea.length - 1)).map (fun i => xy.countP (fun q => decide (Stat.Hist.InBin ea i q.1 ∧ Stat.Hist.InBin eb j q.2)))) := by
    rw [hm]
    dsimp only
    unfold transpose
    refine List.map_congr_left (fun j hj => ?_)
    rw [List.map_map]
    refine List.map_congr_left (fun i hi => ?_)
    dsimp only [Function.comp]
    rw [List.getD_eq_getElem?_getD, List.getElem?_map, List.getElem?_range (List.mem_range.1 hj)]
    simp only [Option.map_some, Option.getD_some, Bool.decide_and]
    rfl
  have hcx : m.cx = centers ea := by rw [hm]
  have hcy : m.cy = centers eb := by rw [hm]
  refine ⟨by rw [hcx, hcl]; omega, by rw [hcy, hcl]; omega, by rw [hcx]; exact hcg ea, by rw [hcy]; exact hcg eb, by rw [hz, hcy, hcl]; simp, ?_, ?_⟩
  · intro i j hi hj
    rw [hcx, hcl] at hi
    rw [hcy, hcl] at hj
    rw [hz]
    simp [hi, hj]
  · intro a0 a1 b0 b1 e1 e2 e3 e4
    have hlt : ∀ (es : List V) i v, Stat.Hist.InBin es i v → i < es.length - 1 := by
      rintro es i v ⟨x, y, _, k2, _⟩
      have := (List.getElem?_eq_some_iff.1 k2).1
      omega
    have hA := Stat.Hist.one_bin ea (by simpa using hmon.1) e1 e2 (by omega)
    have hB := Stat.Hist.one_bin eb (by simpa using hmon.2) e3 e4 (by omega)
    rw [hz, List.sum_flatten, List.map_map]
    rw [List.map_congr_left (g := fun j => xy.countP (fun q => decide ((a0 ≤ q.1 ∧ q.1 ≤ a1) ∧ Stat.Hist.InBin eb j q.2)))]
    · refine Stat.Hist.sum_countP xy (eb.length - 1) _ _ (fun v hv => ?_) (fun v hv j hj => ?_)
      · rw [decide_eq_true_iff] at hv
        obtain ⟨j, h1, h2⟩ := (hB v.2).1 hv.2
        exact ⟨j, hlt _ _ _ h1, by simpa using ⟨hv.1, h1⟩, fun k _ hk => h2 k (by simp at hk; exact hk.2)⟩
      · rw [decide_eq_false_iff_not] at hv ⊢
        rintro ⟨h1, h2⟩
        refine hv ⟨h1, ?_⟩
        by_contra hc
        exact (hB v.2).2 hc j h2
    · intro j hj
      dsimp only [Function.comp]
      refine Stat.Hist.sum_countP xy (ea.length - 1) _ _ (fun v hv => ?_) (fun v hv i hi => ?_)
      · rw [decide_eq_true_iff] at hv
        obtain ⟨i, h1, h2⟩ := (hA v.1).1 hv.1
        exact ⟨i, hlt _ _ _ h1, by simpa using ⟨h1, hv.2⟩, fun k _ hk => h2 k (by simp at hk; exact hk.1)⟩
      · rw [decide_eq_false_iff_not] at hv ⊢
        rintro ⟨h1, h2⟩
        refine hv ⟨?_, h2⟩
        by_contra hc
        exact (hA v.1).2 hc i h1

/-! ### disagreements -/

/-- no pulses are read with a cut that always fails -/
theorem getRecs_error (zero : R) (recs : List R) (d : SD) {cut : List R → Except Exc (List Bool)} {x : Exc} (hc : ∀ r, cut r = .error x) (k : Bytes) : ∃ e, getRecs zero recs d cut (some [k]) = .error e := by
  unfold getRecs
  dsimp only
  cases stateSlices d [k] with
  | error e => exact ⟨e, rfl⟩
  | ok sl =>
    dsimp only [Except.bind]
    unfold indexPrealloc
    split
    · exact ⟨_, rfl⟩
    · dsimp only
      split
      · exact ⟨_, rfl⟩
      · cases sl with
        | nil => contradiction
        | cons y t => exact ⟨x, by simp [fill, indexOne, hc, bind, Except.bind, Except.map]⟩

/-- Disagreement (C169): a comparison with and without drift correction that is to include bad pulses always fails: True is passed as the name of a cut. -/
theorem compare_bad_fails (c : Chan R V) (pm fv dc : Bytes) (cut : Option (Cut R)) (k : Bytes) (t : List Bytes) :
    ∃ e, compare c pm fv dc true cut (k :: t) = .error e := by
  have hy : ∃ e, points c .yes pm fv [k] = .error e := by
    have hg := getRecs_error c.zero c.recs c.d (cut := craft c.book .yes) (x := .type) (fun _ => rfl) k
    obtain ⟨e, he⟩ := hg
    exact ⟨e, by unfold points; rw [he]⟩
  obtain ⟨e, he⟩ := hy
  unfold compare
  cases points c (cut.getD c.dflt) pm fv [k] with
  | error x => exact ⟨x, rfl⟩
  | ok p =>
    dsimp only
    cases points c (cut.getD c.dflt) pm dc [k] with
    | error x => exact ⟨x, rfl⟩
    | ok q =>
      dsimp only
      rw [if_pos rfl, he]
      exact ⟨e, rfl⟩

/-- Disagreement (C169): axes given for a two-dimensional histogram are ignored: it is drawn in the current ones. -/
theorem map_axis_fails [Field V] [LinearOrder V] (c : Chan R V) {cur x : Nat} (hx : x ≠ cur) (a b : Bytes) (ea eb : List V) (states : Option (List Bytes)) (cut : Option (Cut R)) {m : Map2 V}
    (h : plotAvsB2d c cur (some x) a b ea eb states cut = .ok m) : m.axes ≠ x := by
  unfold plotAvsB2d at h
  dsimp only at h
  split at h
  · cases h
  · split at h
    · cases h
    · split at h
      · cases h
      · have h := (Except.ok.inj h).symm
        subst h
        exact hx.symm

/-- Disagreement (C169): cuts may be functions, but then bad pulses cannot be shown: "!" and the name of the function is taken for the name of a recipe. -/
theorem function_bad_fails (c : Chan R V) {shown : Bytes} (h1 : ¬ asc "cut" <:+: asc "!" ++ shown) (h2 : c.book (asc "!" ++ shown) = none) (f : List R → Except Exc (List Bool)) (a b pre k : Bytes)
    (t : List Bytes) : ∃ e, single c shown (.fn f) true a b pre (k :: t) = .error e := by
  have hc : craft c.book (negated shown (.fn f)) = fun _ => .error .exception := by
    funext r
    simp [negated, craft, h1, h2]
  have hy : ∃ e, points c (negated shown (.fn f)) a b [k] = .error e := by
    have hg := getRecs_error c.zero c.recs c.d (cut := craft c.book (negated shown (.fn f))) (x := .exception) (fun r => by rw [hc]) k
    obtain ⟨e, he⟩ := hg
    exact ⟨e, by unfold points; rw [he]⟩
  obtain ⟨e, he⟩ := hy
  unfold single
  cases points c (.fn f) a b [k] with
  | error x => exact ⟨x, rfl⟩
  | ok p =>
    dsimp only
    rw [if_pos rfl, he]
    exact ⟨e, rfl⟩

/-! ### instance -/

/-- five pulses, states A (twice) and B, a cut on small pulses [specification] -/
def chan0 : Chan Nat ℚ where
  zero := 0
  recs := [0, 1, 2, 3, 4]
  d := [(asc "A", .many [⟨0, 2⟩, ⟨4, 5⟩]), (asc "B", .one ⟨2, 4⟩)]
  book := fun s => if s = asc "cutSmall" then some (pointwise (fun r => decide (r < 4))) else none
  val := fun s => if s = asc "x" then some (fun r => (r : ℚ)) else if s = asc "y" then some (fun r => 10 * (r : ℚ)) else none
  dflt := .name (asc "cutSmall")
  labels := [asc "A", asc "B"]

example : plotAvsB chan0 [] (asc "x") (.one (asc "y")) none true none =
    .ok [⟨asc "A", false, [(0, 0), (1, 10)]⟩, ⟨asc "A bad", true, [(4, 40)]⟩, ⟨asc "B", false, [(2, 20), (3, 30)]⟩, ⟨asc "B bad", true, []⟩] := by decide +kernel

example : (plotAvsB2d chan0 0 none (asc "x") (asc "y") [0, 2, 4] [0, 15, 25, 35] none none).map (fun m => (m.axes, m.cx, m.cy, m.z)) =
    .ok (1, [1, 3], [15 / 2, 20, 30], [[2, 0], [0, 1], [0, 1]]) := by decide +kernel

/-- the channel above meets what the theorems ask for -/
example : (∃ excl, Has id (mkEF [asc "START"] [(asc "A", 0), (asc "B", 10), (asc "A", 20)]) excl [] [1, 5, 10, 15, 25] chan0) ∧
    Named chan0.book (asc "cutSmall") (fun r => decide (r < 4)) ∧ chan0.labels.Nodup := by
  refine ⟨?_, ⟨by decide +kernel, by decide +kernel, by simp [chan0]⟩, by decide +kernel⟩
  obtain ⟨ex, _, h⟩ := absorb_good (ef := newEF (some [asc "START"])) (new := [(0, asc "A"), (10, asc "B"), (20, asc "A")]) (p := 1) rfl
  exact ⟨ex, fun _ _ h => h, h, by unfold Sorted; decide +kernel, by unfold Sorted; decide +kernel, by decide +kernel, by decide +kernel, by decide +kernel⟩

end Mass.States.Scatter
