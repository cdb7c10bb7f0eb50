import Verif.Calc.TableThm
/-! C95: conversions always use the present points and settings. C96: converting does not change the calibration. C97: drop-one errors.
(mass/calibration/energy_calibration.py) -/
namespace Mass.Calc.Cal
open Mass
set_option linter.unusedSectionVars false

variable {K : Type} [Field K] [LinearOrder K] [IsStrictOrderedRing K]

/-- What a calibration curve is computed from: energy_calibration.py L454-531 (approximating; `kind` says whether by GPR) and L533-608 (exact). The power-law
index enters only for one point and curve type loglog (L548-549), the errors only for approximating curves. -/
structure Fit (K : Type) where
  curve : Nat
  kind : Option Bool
  ph : List K
  e : List K
  dph : List K
  de : List K
  nonlin : Option K
deriving DecidableEq

/-- `_ph2e`: the identity it starts as (energy_calibration.py L110, L125-129), or a fitted curve. -/
inductive Curve (K : Type) where
  | identity
  | fit (f : Fit K)
deriving DecidableEq

/-- An `EnergyCalibration` object, energy_calibration.py L108-123: table and settings, `_ph2e`, and `_uncertainty` (`none`: the attribute does not exist;
`some none`: zero everywhere). `_e2ph` is assigned together with `_ph2e`. -/
structure Obj (K : Type) where
  T : Tbl K
  cur : Curve K
  unc : Option (Option (Fit K))
deriving DecidableEq

/-- energy_calibration.py L461-470: errors that are not positive are replaced with the least positive one; without any, all are zero. -/
def fixErr (l : List K) : List K :=
  if l.any (fun x => x ≤ 0) then
    match argmin (l.filter (fun x => 0 < x)) with
    | some (_, m) => l.map (fun x => if x ≤ 0 then m else x)
    | none => l.map (fun _ => 0)
  else l

/-- the data of the exact curve, energy_calibration.py L533-608 -/
def exactFit (T : Tbl K) : Fit K := ⟨T.curve, none, T.ph, T.e, [], [], if T.npts = 1 ∧ T.curve = 0 then some T.nonlin else none⟩

/-- the data of the approximating curve, energy_calibration.py L454-531 -/
def approxFit (T : Tbl K) : Fit K := ⟨T.curve, some T.gpr, T.ph, T.e, T.dph, T.de, none⟩

/-- `_update_converters`, energy_calibration.py L422-452. `bad f`: making the curve from `f` or inverting it raises (root finding, linear algebra); it is only
known to depend on the data. -/
def update (bad : Fit K → Bool) (o : Obj K) : Obj K × Except Exc Unit :=
  match sortTbl o.T with
  | (T1, .error x) => ({ o with T := T1 }, .error x)
  | (T1, .ok ()) =>
    if T1.approx ∧ 3 ≤ T1.npts then
      let T2 := { T1 with dph := fixErr T1.dph, de := fixErr T1.de }
      let f := approxFit T2
      let u := some (if T2.gpr then some f else none)
      if bad f then (⟨{ T2 with stale := o.T.stale }, .fit f, u⟩, .error .exception) else (⟨T2, .fit f, u⟩, .ok ())
    else if T1.npts = 1 ∧ T1.curve ≠ 0 ∧ T1.curve ≠ 3 ∧ T1.curve ≠ 4 then ({ o with T := { T1 with stale := o.T.stale } }, .error .exception)
    else
      let f := exactFit T1
      if bad f then (⟨{ T1 with stale := o.T.stale }, .fit f, o.unc⟩, .error .exception) else (⟨T1, .fit f, o.unc⟩, .ok ())

/-- `ph2energy`, energy_calibration.py L134-156, `energy2ph` L158-174 and `ph2dedph` L206-210: the curve that is evaluated. -/
def convert (bad : Fit K → Bool) (o : Obj K) : Obj K × Except Exc (Curve K) :=
  if o.T.stale then
    match update bad o with
    | (o', .ok ()) => (o', .ok o'.cur)
    | (o', .error x) => (o', .error x)
  else (o, .ok o.cur)

/-- `ph2uncertainty`, energy_calibration.py L216-223: the uncertainty that is evaluated (`none`: zero everywhere). -/
def uncertainty (bad : Fit K → Bool) (o : Obj K) : Obj K × Except Exc (Option (Fit K)) :=
  if !o.T.approx then (o, .error .value)
  else
    match (if o.T.stale then update bad o else (o, .ok ())) with
    | (o', .error x) => (o', .error x)
    | (o', .ok ()) => match o'.unc with
      | some u => (o', .ok u)
      | none => (o', .error .attribute)

/-- `copy`, energy_calibration.py L280-293. -/
def copy (o : Obj K) : Obj K := { o with T := { o.T with stale := true } }

/-- the calls a user can make on a calibration [specification] -/
inductive Act (K : Type) where
  | add (pht : K) (en : EArg K) (name : String) (pe ee : Option K) (overwrite : Bool)
  | rmName (name : String)
  | rmPrefix (pre : String)
  | rmEnergy (energy de : K)
  | setCurve (c : CArg)
  | setNonlin (p : K)
  | setApprox (b : Bool)
  | setGpr (b : Bool)
  | convert
  | uncertainty
  | print
  | copy

/-- one call: the methods above, `set_curvetype` L262-275, `set_use_approximation` L249-255, `set_GPR` L257-260 and `__str__` L236-241 of energy_calibration.py -/
def act (bad : Fit K → Bool) (parse feat : String → Option K) (o : Obj K) : Act K → Obj K
  | .add pht en name pe ee ow => { o with T := (addPoint parse feat o.T pht en name pe ee ow).1 }
  | .rmName n => { o with T := (removeName o.T n).1 }
  | .rmPrefix p => { o with T := (removePrefix o.T p).1 }
  | .rmEnergy e de => { o with T := (removeEnergy o.T e de).1 }
  | .setCurve c => match curveIdx c with
    | .error _ => o
    | .ok i => if i ≠ o.T.curve then { o with T := { o.T with curve := i, stale := true } } else o
  | .setNonlin p => { o with T := setNonlin o.T p }
  | .setApprox b => if b ≠ o.T.approx then { o with T := { o.T with approx := b, stale := true } } else o
  | .setGpr b => if b ≠ o.T.gpr then { o with T := { o.T with gpr := b, stale := true } } else o
  | .convert => (convert bad o).1
  | .uncertainty => (uncertainty bad o).1
  | .print => (update bad o).1
  | .copy => copy o

/-- a new object, energy_calibration.py L94-123 -/
def newObj (nonlinearity : K) (curvetype : CArg) (approximate useGPR : Bool) : Except Exc (Obj K) :=
  (init nonlinearity curvetype approximate useGPR).map (fun T => ⟨T, .identity, none⟩)

/-- any sequence of calls on a new object; a call that raises leaves the object as it is at that point -/
inductive Reachable (bad : Fit K → Bool) (parse feat : String → Option K) : Obj K → Prop where
  | new {nl : K} {c : CArg} {ap g : Bool} {o : Obj K} (h : newObj nl c ap g = .ok o) : Reachable bad parse feat o
  | act {o : Obj K} (h : Reachable bad parse feat o) (a : Act K) : Reachable bad parse feat (act bad parse feat o a)

/-- the curve belonging to given points (in order of pulse height) and settings [specification]: identity without points is for new objects only -/
def wanted (T : Tbl K) (pts : List (Pt K)) : Fit K :=
  if T.approx ∧ 3 ≤ pts.length then ⟨T.curve, some T.gpr, pts.map Pt.ph, pts.map Pt.e, fixErr (pts.map Pt.dph), fixErr (pts.map Pt.de), none⟩
  else ⟨T.curve, none, pts.map Pt.ph, pts.map Pt.e, [], [], if pts.length = 1 ∧ T.curve = 0 then some T.nonlin else none⟩

theorem fixErr_idem (l : List K) : fixErr (fixErr l) = fixErr l := by
  unfold fixErr
  split
  · rename_i h
    split
    · rename_i i m hm
      have hpos : 0 < m := by
        have h1 := (argmin_spec (l.filter (fun x => 0 < x))).1 i m hm
        have := List.mem_of_getElem? h1.2.1
        simpa using (List.mem_filter.1 this).2
      rw [if_neg]
      intro hc
      obtain ⟨x, hx, hx'⟩ := List.any_eq_true.1 hc
      obtain ⟨y, -, rfl⟩ := List.mem_map.1 hx
      have hx' : (if y ≤ 0 then m else y) ≤ 0 := by simpa using hx'
      split at hx'
      · exact absurd hpos (not_lt.2 hx')
      · contradiction
    · have : (l.map (fun _ => (0 : K))).filter (fun x => 0 < x) = [] := by
        rw [List.filter_eq_nil_iff]
        intro x hx
        obtain ⟨y, -, rfl⟩ := List.mem_map.1 hx
        simp
      rw [this]
      split
      · show (l.map _).map _ = _
        rw [List.map_map]; rfl
      · rfl
  · rfl

theorem fixErr_length (l : List K) : (fixErr l).length = l.length := by
  unfold fixErr
  split
  · split <;> simp
  · rfl

/-- in order of pulse height already: sorting changes nothing -/
theorem argsort_sorted (l : List K) (h : l.Pairwise (· ≤ ·)) : argsort l = List.range l.length := by
  unfold argsort
  apply List.Pairwise.insertionSort_eq
  refine List.pairwise_lt_range.imp_of_mem fun {a b} ha hb hab => ?_
  have ha' := List.mem_range.1 ha
  have hb' := List.mem_range.1 hb
  rw [List.getD_eq_getElem?_getD, List.getD_eq_getElem?_getD, List.getElem?_eq_getElem ha', List.getElem?_eq_getElem hb']
  exact List.pairwise_iff_getElem.1 h a b ha' hb' hab

theorem argsort_pairwise (l : List K) : ((argsort l).map (l.getD · 0)).Pairwise (· ≤ ·) := by
  rw [List.pairwise_map]
  have : Std.Total (fun i j : Nat => l.getD i 0 ≤ l.getD j 0) := ⟨fun a b => le_total _ _⟩
  have : IsTrans Nat (fun i j : Nat => l.getD i 0 ≤ l.getD j 0) := ⟨fun a b c => le_trans⟩
  exact List.pairwise_insertionSort _ _

/-- points in order of pulse height [specification] -/
def inOrder (pts : List (Pt K)) : List (Pt K) := reorder pts (argsort (pts.map Pt.ph))

/-- with the errors replaced as an approximating curve needs them [specification] -/
def fixPts (pts : List (Pt K)) : List (Pt K) :=
  (pts.zip ((fixErr (pts.map Pt.dph)).zip (fixErr (pts.map Pt.de)))).map (fun q => { q.1 with dph := q.2.1, de := q.2.2 })

theorem fixPts_cols (pts : List (Pt K)) : (fixPts pts).map Pt.ph = pts.map Pt.ph ∧ (fixPts pts).map Pt.e = pts.map Pt.e ∧ (fixPts pts).map Pt.name = pts.map Pt.name ∧
    (fixPts pts).map Pt.dph = fixErr (pts.map Pt.dph) ∧ (fixPts pts).map Pt.de = fixErr (pts.map Pt.de) ∧ (fixPts pts).length = pts.length := by
  have h1 : (fixErr (pts.map Pt.dph)).length = pts.length := by rw [fixErr_length, List.length_map]
  have h2 : (fixErr (pts.map Pt.de)).length = pts.length := by rw [fixErr_length, List.length_map]
  have hz : ((fixErr (pts.map Pt.dph)).zip (fixErr (pts.map Pt.de))).length = pts.length := by rw [List.length_zip, h1, h2, min_self]
  have f1 : ∀ {β : Type} (f : Pt K → β), (pts.zip ((fixErr (pts.map Pt.dph)).zip (fixErr (pts.map Pt.de)))).map (fun q => f q.1) = pts.map f := by
    intro β f
    rw [show (fun q : Pt K × (K × K) => f q.1) = f ∘ Prod.fst from rfl, ← List.map_map, List.map_fst_zip (by omega)]
  have f2 : ∀ {β : Type} (f : K × K → β), (pts.zip ((fixErr (pts.map Pt.dph)).zip (fixErr (pts.map Pt.de)))).map (fun q => f q.2) = ((fixErr (pts.map Pt.dph)).zip (fixErr (pts.map Pt.de))).map f := by
    intro β f
    rw [show (fun q : Pt K × (K × K) => f q.2) = f ∘ Prod.snd from rfl, ← List.map_map, List.map_snd_zip (by omega)]
  unfold fixPts
  simp only [List.map_map]
  refine ⟨f1 Pt.ph, f1 Pt.e, f1 Pt.name, ?_, ?_, by simp [h1, h2]⟩
  · exact (f2 Prod.fst).trans (List.map_fst_zip (by omega))
  · exact (f2 Prod.snd).trans (List.map_snd_zip (by omega))

/-- one point suffices for three curve types only -/
def OnePointBad (curve n : Nat) : Prop := n = 1 ∧ curve ≠ 0 ∧ curve ≠ 3 ∧ curve ≠ 4

instance (c n : Nat) : Decidable (OnePointBad c n) := by unfold OnePointBad; infer_instance

theorem sort_settings (T : Tbl K) : (sortTbl T).1.curve = T.curve ∧ (sortTbl T).1.nonlin = T.nonlin ∧ (sortTbl T).1.approx = T.approx ∧ (sortTbl T).1.gpr = T.gpr ∧
    ((sortTbl T).2 = .ok () → (sortTbl T).1.stale = false) ∧ ((sortTbl T).2 ≠ .ok () → (sortTbl T).1.stale = T.stale) := by
  unfold sortTbl
  dsimp only
  split
  · split
    · simp
    · simp
  · simp

theorem aligned_fix {T : Tbl K} {pts : List (Pt K)} (h : Aligned T pts) : Aligned { T with dph := fixErr T.dph, de := fixErr T.de } (fixPts pts) := by
  obtain ⟨h1, h2, h3, h4, h5, h6⟩ := fixPts_cols pts
  refine ⟨by rw [h1]; exact h.ph, by rw [h2]; exact h.e, ?_, ?_, by rw [h3]; exact h.names, by rw [h6]; exact h.npts⟩
  · show fixErr T.dph = _
    rw [h4, h.dph]
  · show fixErr T.de = _
    rw [h5, h.de]

/-- what the table holds after the curve was computed [specification] -/
def after (T : Tbl K) (pts : List (Pt K)) : List (Pt K) := if T.approx ∧ 3 ≤ pts.length then fixPts (inOrder pts) else inOrder pts

theorem inOrder_perm {T : Tbl K} {pts : List (Pt K)} (h : Aligned T pts) : (inOrder pts).Perm pts := by
  unfold inOrder
  rw [← h.ph]
  exact reorder_perm h

theorem inOrder_sorted {T : Tbl K} {pts : List (Pt K)} (h : Aligned T pts) : ((inOrder pts).map Pt.ph).Pairwise (· ≤ ·) := by
  have := argsort_pairwise T.ph
  unfold inOrder reorder
  rw [List.map_map, ← h.ph]
  rw [show (argsort T.ph).map (Pt.ph ∘ fun i => pts.getD i ⟨0, 0, 0, 0, ""⟩) = (argsort T.ph).map (fun i => T.ph.getD i 0) from ?_]
  · exact this
  refine List.map_congr_left fun i hi => ?_
  have : i < pts.length := by
    have := (argsort_perm T.ph).mem_iff.1 hi
    rw [h.ph] at this
    simpa using this
  rw [h.ph]
  exact (getD_map' Pt.ph pts i 0 _ this).symm

theorem inOrder_self {T : Tbl K} {pts : List (Pt K)} (h : Aligned T pts) (hs : (pts.map Pt.ph).Pairwise (· ≤ ·)) : inOrder pts = pts := by
  unfold inOrder reorder
  rw [argsort_sorted _ hs, List.length_map]
  exact map_range_getD pts _

/-- the outcome of computing the curve -/
theorem update_spec (bad : Fit K → Bool) (o : Obj K) {pts : List (Pt K)} (h : Aligned o.T pts) (hne : pts ≠ []) :
    (update bad o).1.T.curve = o.T.curve ∧ (update bad o).1.T.nonlin = o.T.nonlin ∧ (update bad o).1.T.approx = o.T.approx ∧ (update bad o).1.T.gpr = o.T.gpr ∧
    Aligned (update bad o).1.T (after o.T pts) ∧
    (((OnePointBad o.T.curve pts.length ∨ bad (wanted o.T (inOrder pts)) = true) ∧ (update bad o).2 = .error .exception ∧ (update bad o).1.T.stale = o.T.stale) ∨
     (¬ OnePointBad o.T.curve pts.length ∧ bad (wanted o.T (inOrder pts)) = false ∧ (update bad o).2 = .ok () ∧ (update bad o).1.T.stale = false ∧
       (update bad o).1.cur = .fit (wanted o.T (inOrder pts)) ∧
       (o.T.approx = true ∧ 3 ≤ pts.length → (update bad o).1.unc = some (if o.T.gpr then some (wanted o.T (inOrder pts)) else none)))) := by
  obtain ⟨hA, hok⟩ := sort_aligned h
  have hok := hok.2 hne
  obtain ⟨hc, hn, ha, hg, hst, -⟩ := sort_settings o.T
  have hst := hst hok
  have hlen : (inOrder pts).length = pts.length := (inOrder_perm h).length_eq
  have hA : Aligned (sortTbl o.T).1 (inOrder pts) := by
    unfold inOrder
    rw [← h.ph]
    exact hA
  rcases hS : sortTbl o.T with ⟨T1, r⟩
  rw [hS] at hA hok hc hn ha hg hst
  dsimp only at hA hok hc hn ha hg hst
  subst hok
  have hnp : T1.npts = pts.length := by rw [hA.npts, hlen]
  unfold update
  rw [hS]
  dsimp only
  unfold after
  by_cases hap : T1.approx = true ∧ 3 ≤ T1.npts
  · have hap' : o.T.approx = true ∧ 3 ≤ pts.length := by rw [← ha, ← hnp]; exact hap
    have hap'' : o.T.approx = true ∧ 3 ≤ (inOrder pts).length := by rw [hlen]; exact hap'
    rw [if_pos hap, if_pos hap']
    have hf : approxFit { T1 with dph := fixErr T1.dph, de := fixErr T1.de } = wanted o.T (inOrder pts) := by
      unfold approxFit wanted
      rw [if_pos hap'']
      simp only [hc, hg, hA.ph, hA.e, hA.dph, hA.de]
    rw [hf]
    have hob : ¬ OnePointBad o.T.curve pts.length := fun hob => by have := hob.1; omega
    cases hb : bad (wanted o.T (inOrder pts)) with
    | true =>
      rw [if_pos rfl]
      exact ⟨hc, hn, ha, hg, aligned_stale (aligned_fix hA) _, .inl ⟨.inr rfl, rfl, rfl⟩⟩
    | false =>
      rw [if_neg (by simp)]
      exact ⟨hc, hn, ha, hg, aligned_fix hA, .inr ⟨hob, rfl, rfl, hst, rfl, fun _ => by dsimp only; rw [hg]⟩⟩
  · have hap' : ¬ (o.T.approx = true ∧ 3 ≤ pts.length) := by rw [← ha, ← hnp]; exact hap
    have hap'' : ¬ (o.T.approx = true ∧ 3 ≤ (inOrder pts).length) := by rw [hlen]; exact hap'
    rw [if_neg hap, if_neg hap']
    by_cases ho : T1.npts = 1 ∧ T1.curve ≠ 0 ∧ T1.curve ≠ 3 ∧ T1.curve ≠ 4
    · have ho' : OnePointBad o.T.curve pts.length := by rw [← hc, ← hnp]; exact ho
      rw [if_pos ho]
      exact ⟨hc, hn, ha, hg, aligned_stale hA _, .inl ⟨.inl ho', rfl, rfl⟩⟩
    · have ho' : ¬ OnePointBad o.T.curve pts.length := by rw [← hc, ← hnp]; exact ho
      rw [if_neg ho]
      have hf : exactFit T1 = wanted o.T (inOrder pts) := by
        unfold exactFit wanted
        rw [if_neg hap'']
        simp only [hc, hn, hA.ph, hA.e, hnp, hlen]
      rw [hf]
      cases hb : bad (wanted o.T (inOrder pts)) with
      | true =>
        rw [if_pos rfl]
        exact ⟨hc, hn, ha, hg, aligned_stale hA _, .inl ⟨.inr rfl, rfl, rfl⟩⟩
      | false =>
        rw [if_neg (by simp)]
        exact ⟨hc, hn, ha, hg, hA, .inr ⟨ho', rfl, rfl, hst, rfl, fun hc => absurd hc hap'⟩⟩

theorem update_empty (bad : Fit K → Bool) (o : Obj K) (h : Aligned o.T []) : (update bad o).2 = .error .value ∧ (update bad o).1.cur = o.cur ∧ (update bad o).1.unc = o.unc ∧
    (update bad o).1.T.stale = o.T.stale ∧ Aligned (update bad o).1.T [] := by
  have hr : argsort o.T.ph = [] := by rw [h.ph]; rfl
  have hs : sortTbl o.T = ({ o.T with ph := [], e := [], dph := [], de := [], names := [] }, .error .value) := by
    unfold sortTbl
    simp [hr, h.npts]
  unfold update
  rw [hs]
  exact ⟨rfl, rfl, rfl, rfl, ⟨rfl, rfl, rfl, rfl, rfl, h.npts⟩⟩

/-- nothing stale is ever believed -/
def Inv (bad : Fit K → Bool) (o : Obj K) : Prop :=
  ∃ pts, Aligned o.T pts ∧ (o.T.stale = false →
    (pts = [] ∧ o.cur = .identity ∧ o.unc = none) ∨
    (pts ≠ [] ∧ (pts.map Pt.ph).Pairwise (· ≤ ·) ∧ o.cur = .fit (wanted o.T pts) ∧ bad (wanted o.T pts) = false ∧ ¬ OnePointBad o.T.curve pts.length ∧
      (o.T.approx = true ∧ 3 ≤ pts.length → o.unc = some (if o.T.gpr then some (wanted o.T pts) else none))))

theorem wanted_after (T T' : Tbl K) (pts : List (Pt K)) (h : Aligned T pts) (h1 : T'.curve = T.curve) (h2 : T'.nonlin = T.nonlin) (h3 : T'.approx = T.approx) (h4 : T'.gpr = T.gpr) :
    wanted T' (after T pts) = wanted T (inOrder pts) ∧ ((after T pts).map Pt.ph).Pairwise (· ≤ ·) ∧ (after T pts).length = pts.length := by
  have hs := inOrder_sorted h
  have hlen : (inOrder pts).length = pts.length := (inOrder_perm h).length_eq
  unfold after
  by_cases ha : T.approx = true ∧ 3 ≤ pts.length
  · rw [if_pos ha]
    obtain ⟨c1, c2, c3, c4, c5, c6⟩ := fixPts_cols (inOrder pts)
    refine ⟨?_, by rw [c1]; exact hs, by rw [c6, hlen]⟩
    unfold wanted
    rw [h1, h2, h3, h4, c1, c2, c4, c5, c6, hlen, if_pos ha, if_pos ha, fixErr_idem, fixErr_idem]
  · rw [if_neg ha]
    refine ⟨?_, hs, hlen⟩
    unfold wanted
    rw [h1, h2, h3, h4]

theorem inv_update (bad : Fit K → Bool) (o : Obj K) (h : Inv bad o) : Inv bad (update bad o).1 := by
  obtain ⟨pts, hA, hinv⟩ := h
  by_cases hne : pts = []
  · subst hne
    obtain ⟨-, h2, h3, h4, h5⟩ := update_empty bad o hA
    refine ⟨[], h5, fun hs => .inl ⟨rfl, ?_⟩⟩
    rw [h4] at hs
    rw [h2, h3]
    rcases hinv hs with h | h
    · exact h.2
    · exact absurd rfl h.1
  · obtain ⟨s1, s2, s3, s4, hA', hcase⟩ := update_spec bad o hA hne
    obtain ⟨w1, w2, w3⟩ := wanted_after o.T (update bad o).1.T pts hA s1 s2 s3 s4
    have hne' : after o.T pts ≠ [] := by
      intro hc
      rw [hc] at w3
      exact hne (List.length_eq_zero_iff.1 w3.symm)
    refine ⟨_, hA', fun hs => .inr ⟨hne', w2, ?_⟩⟩
    rw [w1, w3, s1, s3, s4]
    rcases hcase with ⟨hbad, -, hst⟩ | ⟨h1, h2, -, -, h5, h6⟩
    · exfalso
      rw [hst] at hs
      rcases hinv hs with h | ⟨-, h2, -, h4, h5, -⟩
      · exact hne h.1
      · rw [inOrder_self hA h2] at hbad
        rcases hbad with hb | hb
        · exact h5 hb
        · rw [h4] at hb
          cases hb
    · exact ⟨h5, h2, h1, h6⟩

theorem removeIdx_stale (T : Tbl K) (i : Nat) : (removeIdx T i).1 = T ∨ (removeIdx T i).1.stale = true := by
  unfold removeIdx
  split
  · exact .inr rfl
  · exact .inl rfl

theorem removeName_stale (T : Tbl K) (n : String) : (removeName T n).1 = T ∨ (removeName T n).1.stale = true := by
  unfold removeName
  split
  · exact removeIdx_stale T _
  · exact .inl rfl

theorem idxLoop_stale (is : List Nat) : ∀ T : Tbl K, (idxLoop is T).1 = T ∨ (idxLoop is T).1.stale = true := by
  induction is with
  | nil => exact fun T => .inl rfl
  | cons i is ih =>
    intro T
    unfold idxLoop
    have hr := removeIdx_stale T i
    rcases hX : removeIdx T i with ⟨T', r⟩
    rw [hX] at hr
    cases r with
    | ok u =>
      rcases ih T' with h1 | h1
      · show (idxLoop is T').1 = T ∨ (idxLoop is T').1.stale = true
        rw [h1]; exact hr
      · exact .inr h1
    | error x => exact hr

theorem prefixLoop_stale (pre : String) (ns : List String) : ∀ T : Tbl K, (prefixLoop pre ns T).1 = T ∨ (prefixLoop pre ns T).1.stale = true := by
  induction ns with
  | nil => exact fun T => .inl rfl
  | cons n ns ih =>
    intro T
    unfold prefixLoop
    split
    · have hr := removeName_stale T n
      rcases hX : removeName T n with ⟨T', r⟩
      rw [hX] at hr
      cases r with
      | ok u =>
        rcases ih T' with h1 | h1
        · show (prefixLoop pre ns T').1 = T ∨ (prefixLoop pre ns T').1.stale = true
          rw [h1]; exact hr
        · exact .inr h1
      | error x => exact hr
    · exact ih T

theorem addPoint_stale (parse feat : String → Option K) (T : Tbl K) (pht : K) (en : EArg K) (name : String) (pe ee : Option K) (ow : Bool) :
    (addPoint parse feat T pht en name pe ee ow).1.stale = true := by
  unfold addPoint
  dsimp only
  split
  · rfl
  · split
    · rfl
    · rename_i idx _
      split <;> cases idx <;> rfl

/-- a table changed in a way that is marked keeps the invariant -/
theorem inv_table {bad : Fit K → Bool} {o : Obj K} (h : Inv bad o) (T' : Tbl K) (hA : ∃ pts, Aligned T' pts) (hs : T' = o.T ∨ T'.stale = true) : Inv bad { o with T := T' } := by
  rcases hs with rfl | hs
  · exact h
  · obtain ⟨pts, hA⟩ := hA
    exact ⟨pts, hA, fun hc => by rw [show ({ o with T := T' } : Obj K).T.stale = T'.stale from rfl, hs] at hc; cases hc⟩

theorem inv_act (bad : Fit K → Bool) (parse feat : String → Option K) (o : Obj K) (h : Inv bad o) (a : Act K) : Inv bad (act bad parse feat o a) := by
  have h0 := h
  obtain ⟨pts, hA, hinv⟩ := h
  cases a with
  | add pht en name pe ee ow => exact inv_table h0 _ (step_aligned parse feat hA (.add pht en name pe ee ow)) (.inr (addPoint_stale ..))
  | rmName n => exact inv_table h0 _ (step_aligned parse feat hA (.rmName n)) (removeName_stale ..)
  | rmPrefix p => exact inv_table h0 _ (step_aligned parse feat hA (.rmPrefix p)) (prefixLoop_stale ..)
  | rmEnergy e de => exact inv_table h0 _ (step_aligned parse feat hA (.rmEnergy e de)) (idxLoop_stale ..)
  | setCurve c =>
    unfold act
    dsimp only
    split
    · exact h0
    · split
      · exact inv_table h0 _ ⟨pts, ⟨hA.1, hA.2, hA.3, hA.4, hA.5, hA.6⟩⟩ (.inr rfl)
      · exact h0
  | setNonlin p =>
    refine ⟨pts, ⟨hA.1, hA.2, hA.3, hA.4, hA.5, hA.6⟩, fun hs => ?_⟩
    have hs : (o.T.stale || (decide (o.T.curve = 0) && decide (p ≠ o.T.nonlin))) = false := hs
    rw [Bool.or_eq_false_iff] at hs
    have hw : wanted (setNonlin o.T p) pts = wanted o.T pts := by
      unfold wanted setNonlin
      dsimp only
      split
      · rfl
      · congr 1
        by_cases hc : pts.length = 1 ∧ o.T.curve = 0
        · rw [if_pos hc, if_pos hc]
          have := hs.2
          simp only [hc.2, decide_true, Bool.true_and, decide_eq_false_iff_not, not_not] at this
          rw [this]
        · rw [if_neg hc, if_neg hc]
    show (_ ∧ _ ∧ _) ∨ (_ ∧ _ ∧ o.cur = .fit (wanted (setNonlin o.T p) pts) ∧ bad (wanted (setNonlin o.T p) pts) = false ∧ ¬ OnePointBad o.T.curve pts.length ∧
      (o.T.approx = true ∧ 3 ≤ pts.length → o.unc = some (if o.T.gpr then some (wanted (setNonlin o.T p) pts) else none)))
    rw [hw]
    exact hinv hs.1
  | setApprox b =>
    unfold act
    dsimp only
    split
    · exact inv_table h0 _ ⟨pts, ⟨hA.1, hA.2, hA.3, hA.4, hA.5, hA.6⟩⟩ (.inr rfl)
    · exact h0
  | setGpr b =>
    unfold act
    dsimp only
    split
    · exact inv_table h0 _ ⟨pts, ⟨hA.1, hA.2, hA.3, hA.4, hA.5, hA.6⟩⟩ (.inr rfl)
    · exact h0
  | convert =>
    show Inv bad (convert bad o).1
    unfold convert
    split
    · have := inv_update bad o h0
      rcases hu : update bad o with ⟨o', r⟩
      rw [hu] at this
      cases r <;> exact this
    · exact h0
  | uncertainty =>
    show Inv bad (uncertainty bad o).1
    unfold uncertainty
    split
    · exact h0
    · have h1 : Inv bad (if o.T.stale then update bad o else (o, .ok ())).1 := by
        split
        · exact inv_update bad o h0
        · exact h0
      rcases hu : (if o.T.stale then update bad o else (o, .ok ())) with ⟨o', r⟩
      rw [hu] at h1
      cases r with
      | error x => exact h1
      | ok u =>
        dsimp only
        split <;> exact h1
  | print => exact inv_update bad o h0
  | copy => exact inv_table h0 _ ⟨pts, aligned_stale hA true⟩ (.inr rfl)

theorem inv_reachable {bad : Fit K → Bool} {parse feat : String → Option K} {o : Obj K} (h : Reachable bad parse feat o) : Inv bad o := by
  induction h with
  | new h =>
    rename_i nl c ap g o
    unfold newObj init at h
    cases hc : curveIdx c with
    | error x => rw [hc] at h; exact absurd h (by simp [bind, Except.bind, Except.map])
    | ok i =>
      rw [hc] at h
      simp only [bind, Except.bind, Except.map, Except.ok.injEq] at h
      subst h
      exact ⟨[], ⟨rfl, rfl, rfl, rfl, rfl, rfl⟩, fun _ => .inl ⟨rfl, rfl, rfl⟩⟩
  | act _ a ih => exact inv_act bad parse feat _ ih a

/-- C95. Whatever calls were made before, in whatever order, a conversion uses the curve of the points and settings as they are now (or raises, also depending
on these alone). In particular a copy gives the same conversions. -/
theorem convert_current {bad : Fit K → Bool} {parse feat : String → Option K} {o : Obj K} (h : Reachable bad parse feat o) {pts : List (Pt K)} (hA : Aligned o.T pts) (hne : pts ≠ []) :
    (convert bad o).2 = (if OnePointBad o.T.curve pts.length ∨ bad (wanted o.T (inOrder pts)) = true then .error .exception else .ok (.fit (wanted o.T (inOrder pts)))) ∧
    (convert bad (copy o)).2 = (convert bad o).2 := by
  have hA2 : Aligned (copy o).T pts := aligned_stale hA true
  have key : ∀ o' : Obj K, Aligned o'.T pts → o'.T.stale = true →
      (convert bad o').2 = (if OnePointBad o'.T.curve pts.length ∨ bad (wanted o'.T (inOrder pts)) = true then .error .exception else .ok (.fit (wanted o'.T (inOrder pts)))) := by
    intro o' hA' hs
    obtain ⟨-, -, -, -, -, hcase⟩ := update_spec bad o' hA' hne
    unfold convert
    rw [if_pos hs]
    rcases hu : update bad o' with ⟨o'', r⟩
    rw [hu] at hcase
    dsimp only at hcase
    rcases hcase with ⟨h1, rfl, -⟩ | ⟨h1, h2, rfl, -, h5, -⟩
    · rw [if_pos h1]
    · rw [if_neg (by rintro (hc | hc); exact h1 hc; rw [h2] at hc; cases hc), ← h5]
  have hcopy := key (copy o) hA2 rfl
  have hmain : (convert bad o).2 = (if OnePointBad o.T.curve pts.length ∨ bad (wanted o.T (inOrder pts)) = true then .error .exception else .ok (.fit (wanted o.T (inOrder pts)))) := by
    cases hs : o.T.stale with
    | true => exact key o hA hs
    | false =>
      obtain ⟨pts', hA', hinv⟩ := inv_reachable h
      have := aligned_inj hA hA'
      subst this
      rcases hinv hs with hc | ⟨-, h2, h3, h4, h5, -⟩
      · exact absurd hc.1 hne
      · rw [inOrder_self hA h2, if_neg (by rintro (hc | hc); exact h5 hc; rw [h4] at hc; cases hc)]
        unfold convert
        rw [hs, if_neg (by simp), h3]
  exact ⟨hmain, hcopy.trans hmain.symm⟩

theorem convert_stale (bad : Fit K → Bool) (o : Obj K) (h : o.T.stale = true) : (convert bad o).2 = (update bad o).2.map (fun _ => (update bad o).1.cur) := by
  unfold convert
  rw [if_pos h]
  rcases update bad o with ⟨o', r⟩
  cases r <;> rfl

theorem convert_fresh (bad : Fit K → Bool) (o : Obj K) (h : o.T.stale = false) : (convert bad o).2 = .ok o.cur := by
  unfold convert
  rw [if_neg (by rw [h]; simp)]

/-- The uncertainty asked for after any history belongs to the curve in use, if there are at least three points. -/
theorem uncertainty_current {bad : Fit K → Bool} {parse feat : String → Option K} {o : Obj K} (h : Reachable bad parse feat o) {pts : List (Pt K)} (hA : Aligned o.T pts) (h3 : 3 ≤ pts.length)
    (ha : o.T.approx = true) : (uncertainty bad o).2 = (convert bad o).2.map (fun c => if o.T.gpr then match c with | .identity => none | .fit f => some f else none) := by
  have hne : pts ≠ [] := by rintro rfl; simp at h3
  have hc := (convert_current h hA hne).1
  unfold uncertainty
  rw [ha, if_neg (by simp)]
  cases hs : o.T.stale with
  | true =>
    obtain ⟨-, -, -, -, -, hcase⟩ := update_spec bad o hA hne
    rw [if_pos rfl, convert_stale bad o hs]
    rcases hu : update bad o with ⟨o', r⟩
    rw [hu] at hcase
    dsimp only at hcase
    rcases hcase with ⟨h1, rfl, -⟩ | ⟨h1, h2, rfl, -, h5, h6⟩
    · rfl
    · dsimp only
      rw [h6 ⟨ha, h3⟩, h5]
      rfl
  | false =>
    rw [if_neg (by simp)]
    obtain ⟨pts', hA', hinv⟩ := inv_reachable h
    have := aligned_inj hA hA'
    subst this
    rcases hinv hs with hc | ⟨-, h2, h3', h4, h5, h6⟩
    · exact absurd hc.1 hne
    · dsimp only
      rw [h6 ⟨ha, h3⟩, convert_fresh bad o hs, h3']
      rfl

/-- C96. A conversion leaves the settings alone and only reorders the points; their errors stay as given unless an approximating curve is made from at least three
points of which one has an error that is not positive. -/
theorem convert_keeps (bad : Fit K → Bool) (o : Obj K) {pts : List (Pt K)} (hA : Aligned o.T pts) :
    ∃ pts', Aligned (convert bad o).1.T pts' ∧ (convert bad o).1.T.curve = o.T.curve ∧ (convert bad o).1.T.nonlin = o.T.nonlin ∧ (convert bad o).1.T.approx = o.T.approx ∧
      (convert bad o).1.T.gpr = o.T.gpr ∧
      (pts'.map (fun p => (p.ph, p.e, p.name))).Perm (pts.map (fun p => (p.ph, p.e, p.name))) ∧
      ((¬ (o.T.approx = true ∧ 3 ≤ pts.length) ∨ ∀ p ∈ pts, 0 < p.dph ∧ 0 < p.de) → pts'.Perm pts) := by
  cases hs : o.T.stale with
  | false =>
    have : (convert bad o).1 = o := by unfold convert; rw [hs]; rfl
    rw [this]
    exact ⟨pts, hA, rfl, rfl, rfl, rfl, .rfl, fun _ => .rfl⟩
  | true =>
    have : (convert bad o).1 = (update bad o).1 := by
      unfold convert
      rw [hs, if_pos rfl]
      rcases update bad o with ⟨o', r⟩
      cases r <;> rfl
    rw [this]
    by_cases hne : pts = []
    · subst hne
      have h5 := (update_empty bad o hA).2.2.2.2
      have hset := sort_settings o.T
      have he : (update bad o).1.T = (sortTbl o.T).1 := by
        have hr := (sort_aligned hA).2
        unfold update
        rcases hS : sortTbl o.T with ⟨T1, r⟩
        rw [hS] at hr
        cases r with
        | error x => rfl
        | ok u => exact absurd rfl (hr.1 rfl)
      rw [he] at h5 ⊢
      exact ⟨[], h5, hset.1, hset.2.1, hset.2.2.1, hset.2.2.2.1, .rfl, fun _ => .rfl⟩
    · obtain ⟨s1, s2, s3, s4, hA', -⟩ := update_spec bad o hA hne
      have hp := inOrder_perm hA
      refine ⟨after o.T pts, hA', s1, s2, s3, s4, ?_, ?_⟩
      · refine .trans (.of_eq ?_) (hp.map _)
        unfold after
        split
        · obtain ⟨c1, c2, c3, -, -, c6⟩ := fixPts_cols (inOrder pts)
          refine List.ext_getElem (by simpa using c6) fun i h1 h2 => ?_
          have g : ∀ {β : Type} (f : Pt K → β), (fixPts (inOrder pts)).map f = (inOrder pts).map f → f ((fixPts (inOrder pts))[i]'(by simpa using h1)) = f ((inOrder pts)[i]'(by simpa using h2)) := by
            intro β f hf
            have := congrArg (fun l => l[i]?) hf
            simp only [List.getElem?_map] at this
            rw [List.getElem?_eq_getElem (by simpa using h1), List.getElem?_eq_getElem (by simpa using h2)] at this
            simpa using this
          simp only [List.getElem_map]
          rw [g Pt.ph c1, g Pt.e c2, g Pt.name c3]
        · rfl
      · intro hpos
        refine .trans (.of_eq ?_) hp
        unfold after
        split
        · rename_i ha
          rcases hpos with hpos | hpos
          · exact absurd ha hpos
          · have hpos' : ∀ p ∈ inOrder pts, 0 < p.dph ∧ 0 < p.de := fun p hpm => hpos p (hp.mem_iff.1 hpm)
            have k : ∀ f : Pt K → K, (∀ p ∈ inOrder pts, 0 < f p) → fixErr ((inOrder pts).map f) = (inOrder pts).map f := by
              intro f hf
              unfold fixErr
              rw [if_neg]
              intro hc
              obtain ⟨x, hx, hx'⟩ := List.any_eq_true.1 hc
              obtain ⟨y, hy, rfl⟩ := List.mem_map.1 hx
              exact absurd (hf y hy) (not_lt.2 (by simpa using hx'))
            have h1 := k Pt.dph (fun p hp => (hpos' p hp).1)
            have h2 := k Pt.de (fun p hp => (hpos' p hp).2)
            unfold fixPts
            rw [h1, h2]
            generalize inOrder pts = l
            induction l with
            | nil => rfl
            | cons a l ih => simp only [List.map_cons, List.zip_cons_cons]; rw [ih]
        · rfl

/-! ### Drop-one errors -/

/-- the body of the loop of `drop_one_errors`, energy_calibration.py L732-736. `ev c p`: curve `c` at pulse height `p`. -/
def dropOneAt (bad : Fit K → Bool) (ev : Curve K → K → K) (o : Obj K) (i : Nat) : Except Exc K :=
  match removeIdx (copy o).T i with
  | (_, .error x) => .error x
  | (T', .ok ()) => match (convert bad { copy o with T := T' }).2 with
    | .error x => .error x
    | .ok c => .ok (ev c (o.T.ph.getD i 0) - o.T.e.getD i 0)

/-- `drop_one_errors`, energy_calibration.py L726-739. The object itself is only read. -/
def dropOne (bad : Fit K → Bool) (ev : Curve K → K → K) (o : Obj K) : Except Exc (List K × List K) :=
  match (List.range o.T.npts).mapM (dropOneAt bad ev o) with
  | .error x => .error x
  | .ok diffs => .ok ((argsort o.T.e).map (o.T.e.getD · 0), (argsort o.T.e).map (diffs.getD · 0))

theorem dropOneAt_spec (bad : Fit K → Bool) (ev : Curve K → K → K) (o : Obj K) {pts : List (Pt K)} (hA : Aligned o.T pts) (h2 : 2 ≤ pts.length) (i : Nat) (hi : i < pts.length) :
    dropOneAt bad ev o i = (if OnePointBad o.T.curve (pts.length - 1) ∨ bad (wanted o.T (inOrder (pts.eraseIdx i))) = true then .error .exception
      else .ok (ev (.fit (wanted o.T (inOrder (pts.eraseIdx i)))) (pts[i]).ph - (pts[i]).e)) := by
  have hA2 : Aligned (copy o).T pts := aligned_stale hA true
  have hrm : Aligned (removeIdx (copy o).T i).1 (pts.eraseIdx i) ∧ (removeIdx (copy o).T i).2 = .ok () := by
    rcases removeIdx_aligned hA2 i with h | h
    · exact h.2
    · omega
  unfold dropOneAt
  have hx : removeIdx (copy o).T i = ((removeIdx (copy o).T i).1, .ok ()) := Prod.ext rfl hrm.2
  have hst : (removeIdx (copy o).T i).1.stale = true ∧ (removeIdx (copy o).T i).1.curve = o.T.curve ∧ (removeIdx (copy o).T i).1.approx = o.T.approx ∧ (removeIdx (copy o).T i).1.gpr = o.T.gpr ∧
      (removeIdx (copy o).T i).1.nonlin = o.T.nonlin := by
    have : i < (copy o).T.names.length := by rw [hA2.names]; simpa using hi
    unfold removeIdx
    rw [if_pos this]
    exact ⟨rfl, rfl, rfl, rfl, rfl⟩
  obtain ⟨k1, k2, k3, k4, k5⟩ := hst
  rw [hx]
  dsimp only
  generalize (removeIdx (copy o).T i).1 = T' at k1 k2 k3 k4 k5 hrm
  have hlen : (pts.eraseIdx i).length = pts.length - 1 := by rw [List.length_eraseIdx, if_pos hi]
  have hne : pts.eraseIdx i ≠ [] := by
    intro hc
    rw [hc] at hlen
    simp at hlen
    omega
  have hA3 : Aligned ({ copy o with T := T' } : Obj K).T (pts.eraseIdx i) := hrm.1
  obtain ⟨-, -, -, -, -, hcase⟩ := update_spec bad ({ copy o with T := T' } : Obj K) hA3 hne
  have hw : wanted T' (inOrder (pts.eraseIdx i)) = wanted o.T (inOrder (pts.eraseIdx i)) := by
    unfold wanted
    rw [k2, k3, k4, k5]
  rw [show ({ copy o with T := T' } : Obj K).T = T' from rfl, k2, hlen, hw] at hcase
  have hcv : (convert bad { copy o with T := T' }).2 = (match update bad { copy o with T := T' } with | (o', .ok ()) => .ok o'.cur | (_, .error x) => .error x) := by
    unfold convert
    rw [if_pos k1]
    rcases update bad { copy o with T := T' } with ⟨o', r⟩
    cases r <;> rfl
  rw [hcv]
  rcases hu : update bad { copy o with T := T' } with ⟨o'', r⟩
  rw [hu] at hcase
  dsimp only at hcase
  have g1 : o.T.ph.getD i 0 = (pts[i]).ph := by rw [hA.ph]; simp [List.getElem?_eq_getElem hi]
  have g2 : o.T.e.getD i 0 = (pts[i]).e := by rw [hA.e]; simp [List.getElem?_eq_getElem hi]
  rcases hcase with ⟨h1, rfl, -⟩ | ⟨h1, h2, rfl, -, h5, -⟩
  · rw [if_pos h1]
  · rw [if_neg (by rintro (hc | hc); exact h1 hc; rw [h2] at hc; cases hc), ← h5, ← g1, ← g2]

theorem mapM_ok {α β : Type} (f : α → Except Exc β) (g : α → β) (l : List α) (h : ∀ a ∈ l, f a = .ok (g a)) : l.mapM f = .ok (l.map g) := by
  induction l with
  | nil => rfl
  | cons a l ih =>
    rw [List.mapM_cons, h a List.mem_cons_self, ih (fun b hb => h b (List.mem_cons_of_mem _ hb))]
    rfl

/-- C97. With at least two points, and if no calibration without one of them fails: the energies come back in order, and with each the error the calibration
of all other points makes for it. -/
theorem drop_one (bad : Fit K → Bool) (ev : Curve K → K → K) (o : Obj K) {pts : List (Pt K)} (hA : Aligned o.T pts) (h2 : 2 ≤ pts.length) (h1 : ¬ OnePointBad o.T.curve (pts.length - 1))
    (hb : ∀ i < pts.length, bad (wanted o.T (inOrder (pts.eraseIdx i))) = false) :
    ∃ es ds, dropOne bad ev o = .ok (es, ds) ∧ es.Pairwise (· ≤ ·) ∧ es.length = pts.length ∧ ds.length = pts.length ∧
      (es.zip ds).Perm ((List.range pts.length).map (fun i => ((pts.getD i ⟨0, 0, 0, 0, ""⟩).e,
        ev (.fit (wanted o.T (inOrder (pts.eraseIdx i)))) (pts.getD i ⟨0, 0, 0, 0, ""⟩).ph - (pts.getD i ⟨0, 0, 0, 0, ""⟩).e))) := by
  let g : Nat → K := fun i => ev (.fit (wanted o.T (inOrder (pts.eraseIdx i)))) (pts.getD i ⟨0, 0, 0, 0, ""⟩).ph - (pts.getD i ⟨0, 0, 0, 0, ""⟩).e
  have hm : (List.range o.T.npts).mapM (dropOneAt bad ev o) = .ok ((List.range o.T.npts).map g) := by
    refine mapM_ok _ g _ fun i hi => ?_
    have hi : i < pts.length := by rw [hA.npts] at hi; simpa using hi
    rw [dropOneAt_spec bad ev o hA h2 i hi, if_neg (by rintro (hc | hc); exact h1 hc; rw [hb i hi] at hc; cases hc)]
    simp only [g, List.getD_eq_getElem?_getD, List.getElem?_eq_getElem hi, Option.getD_some]
  have hp : (argsort o.T.e).Perm (List.range pts.length) := by
    have := argsort_perm o.T.e
    rw [hA.e, List.length_map] at this
    rw [hA.e]
    exact this
  refine ⟨_, _, by unfold dropOne; rw [hm], argsort_pairwise o.T.e, by simpa using hp.length_eq, by simpa using hp.length_eq, ?_⟩
  rw [List.zip_map', hA.npts]
  refine .trans (.of_eq ?_) (hp.map _)
  refine List.map_congr_left fun i hi => ?_
  have hi : i < pts.length := List.mem_range.1 (hp.mem_iff.1 hi)
  have e1 : o.T.e.getD i 0 = (pts.getD i ⟨0, 0, 0, 0, ""⟩).e := by
    rw [hA.e]
    simp [List.getElem?_eq_getElem hi]
  have e2 : ((List.range pts.length).map g).getD i 0 = g i := by simp [hi]
  rw [e1, e2]

/-- C97, refuted for one point and for two: with one point nothing is left to calibrate with (ValueError); with two points and a curve type that cannot be
made from one point (linear, linear+0, loggain) it raises too. -/
theorem drop_one_few_fails (bad : Fit K → Bool) (ev : Curve K → K → K) (o : Obj K) {pts : List (Pt K)} (hA : Aligned o.T pts) :
    (pts.length = 1 → dropOne bad ev o = .error .value) ∧ (pts.length = 2 → o.T.curve ≠ 0 ∧ o.T.curve ≠ 3 ∧ o.T.curve ≠ 4 → dropOne bad ev o = .error .exception) := by
  constructor
  · intro h1
    have hz : dropOneAt bad ev o 0 = .error .value := by
      have hA2 : Aligned (copy o).T pts := aligned_stale hA true
      have hrm := removeIdx_aligned hA2 0
      have hst := removeIdx_stale (copy o).T 0
      unfold dropOneAt
      have hs : (removeIdx (copy o).T 0).1.stale = true := by
        rcases hst with h | h
        · rw [h]; rfl
        · exact h
      rcases hrm with hrm | hrm
      · have hx : removeIdx (copy o).T 0 = ((removeIdx (copy o).T 0).1, .ok ()) := Prod.ext rfl hrm.2.2
        rw [hx]
        dsimp only
        have he : pts.eraseIdx 0 = [] := by
          match pts, h1 with
          | [a], _ => rfl
        rw [he] at hrm
        rw [convert_stale bad ({ copy o with T := (removeIdx (copy o).T 0).1 } : Obj K) hs, (update_empty bad ({ copy o with T := (removeIdx (copy o).T 0).1 } : Obj K) hrm.2.1).1]
        rfl
      · omega
    unfold dropOne
    rw [hA.npts, h1]
    show (match (List.mapM (dropOneAt bad ev o) [0]) with | .error x => _ | .ok d => _) = _
    rw [List.mapM_cons, hz]
    rfl
  · intro h2 hc
    have hz := dropOneAt_spec bad ev o hA (by omega) 0 (by omega)
    rw [if_pos (.inl ⟨by omega, hc⟩)] at hz
    unfold dropOne
    rw [hA.npts, h2]
    show (match (List.mapM (dropOneAt bad ev o) [0, 1]) with | .error x => _ | .ok d => _) = _
    rw [List.mapM_cons, hz]
    rfl

/-- a sequence of calls -/
def acts (bad : Fit K → Bool) (parse feat : String → Option K) (o : Obj K) (as : List (Act K)) : Obj K := as.foldl (act bad parse feat) o

theorem acts_reachable {bad : Fit K → Bool} {parse feat : String → Option K} {o : Obj K} (h : Reachable bad parse feat o) (as : List (Act K)) : Reachable bad parse feat (acts bad parse feat o as) := by
  induction as generalizing o with
  | nil => exact h
  | cons a as ih => exact ih (.act h a)

/-- adding a point at pulse height and energy given, with errors [specification] -/
def addAct (ph e dph de : ℚ) (name : String) : Act ℚ := .add ph (.num e) name (some dph) (some de) true

/-- C95, refuted for uncertainties with fewer than three points: after points are removed from an approximating calibration of three, `ph2uncertainty` gives the
uncertainty of the former curve; a calibration that never had three raises AttributeError instead. -/
theorem uncertainty_stale_fails :
    ∃ o : Obj ℚ, Reachable (fun _ => false) (fun _ => none) (fun _ => none) o ∧ o.T.ph = [100, 200] ∧
      (convert (fun _ => false) o).2 = .ok (.fit ⟨1, none, [100, 200], [1000, 2000], [], [], none⟩) ∧
      (uncertainty (fun _ => false) o).2 = .ok (some ⟨1, some true, [100, 200, 300], [1000, 2000, 3000], [1, 1, 1], [1, 1, 1], none⟩) ∧
    ∃ o' : Obj ℚ, Reachable (fun _ => false) (fun _ => none) (fun _ => none) o' ∧ o'.T.ph = [100, 200] ∧ (uncertainty (fun _ => false) o').2 = .error .attribute := by
  have h0 : newObj (K := ℚ) (115 / 100) (.str "linear") true true = .ok ⟨⟨[], [], [], [], [], 0, 1, 115 / 100, true, true, false⟩, .identity, none⟩ := by decide +kernel
  refine ⟨acts _ _ _ _ [addAct 100 1000 1 1 "a", addAct 200 2000 1 1 "b", addAct 300 3000 1 1 "c", .convert, .rmName "c"], acts_reachable (.new h0) _, ?_, ?_, ?_,
    acts _ _ _ _ [addAct 100 1000 1 1 "a", addAct 200 2000 1 1 "b"], acts_reachable (.new h0) _, ?_, ?_⟩ <;> decide +kernel

/-- C96, refuted for approximating curves and errors that are not positive: converting once replaces such an error for good, so that a point added afterwards
leads to another curve than if nothing had been converted before. -/
theorem convert_changes_errors_fails :
    ∃ o : Obj ℚ, Reachable (fun _ => false) (fun _ => none) (fun _ => none) o ∧
      (convert (fun _ => false) (act (fun _ => false) (fun _ => none) (fun _ => none) o (addAct 400 4000 1 1 "d"))).2 =
        .ok (.fit ⟨1, some true, [100, 200, 300, 400], [1000, 2000, 3000, 4000], [1, 5, 5, 1], [1, 1, 1, 1], none⟩) ∧
      (convert (fun _ => false) (act (fun _ => false) (fun _ => none) (fun _ => none) (act (fun _ => false) (fun _ => none) (fun _ => none) o .convert) (addAct 400 4000 1 1 "d"))).2 =
        .ok (.fit ⟨1, some true, [100, 200, 300, 400], [1000, 2000, 3000, 4000], [5, 5, 5, 1], [1, 1, 1, 1], none⟩) := by
  have h0 : newObj (K := ℚ) (115 / 100) (.str "linear") true true = .ok ⟨⟨[], [], [], [], [], 0, 1, 115 / 100, true, true, false⟩, .identity, none⟩ := by decide +kernel
  refine ⟨acts _ _ _ _ [addAct 100 1000 0 1 "a", addAct 200 2000 5 1 "b", addAct 300 3000 5 1 "c"], acts_reachable (.new h0) _, ?_, ?_⟩ <;> decide +kernel

/-- C95: printing an object without points raises, and so does converting after a setting was changed. -/
theorem no_points_fails (bad : Fit ℚ → Bool) :
    ∃ o : Obj ℚ, Reachable bad (fun _ => none) (fun _ => none) o ∧ (convert bad o).2 = .ok .identity ∧ (update bad o).2 = .error .value ∧
      (convert bad (act bad (fun _ => none) (fun _ => none) o (.setGpr false))).2 = .error .value := by
  have h0 : newObj (K := ℚ) (115 / 100) (.str "linear") true true = .ok ⟨⟨[], [], [], [], [], 0, 1, 115 / 100, true, true, false⟩, .identity, none⟩ := by decide +kernel
  exact ⟨_, .new h0, rfl, (update_empty bad _ ⟨rfl, rfl, rfl, rfl, rfl, rfl⟩).1, by
    rw [convert_stale bad _ rfl, (update_empty bad _ ⟨rfl, rfl, rfl, rfl, rfl, rfl⟩).1]; rfl⟩

-- Points added out of order, one removed by name, the curve type changed after a conversion: the conversion uses what is there now.
example : (convert (fun _ => false) (acts (fun _ => false) (fun _ => none) (fun _ => none) (⟨⟨[], [], [], [], [], 0, 0, 115 / 100, false, true, false⟩, .identity, none⟩ : Obj ℚ)
    [addAct 300 3000 1 1 "c", addAct 100 1000 1 1 "a", .convert, addAct 200 2000 1 1 "b", .setCurve (.str "gain"), .convert, .rmName "a", .setNonlin 2])).2 =
      .ok (.fit ⟨3, none, [200, 300], [2000, 3000], [], [], none⟩) := by decide +kernel

-- A straight line through the two other points predicts the third.
example : dropOne (fun _ => false) (fun c p => match c with | .identity => p | .fit f => (f.e.getD 0 0) + (f.e.getD 1 0 - f.e.getD 0 0) / (f.ph.getD 1 0 - f.ph.getD 0 0) * (p - f.ph.getD 0 0))
    (⟨⟨[3, 1, 2], [33, 10, 20], [1, 1, 1], [1, 1, 1], ["c", "a", "b"], 3, 1, 1, false, false, true⟩, .identity, none⟩ : Obj ℚ) = .ok ([10, 20, 33], [-3, 3 / 2, -3]) := by decide +kernel

end Mass.Calc.Cal
