import Verif.Cut.PropsFresh
import Verif.Stat.Location
/-!
`MicrocalDataSet.apply_cuts` (mass/core/channel.py L1639-1693) with the controls of mass/core/controller.py: C101.
Numbers are exact rationals or NaN; the infinite first time difference is a number the caller chooses, larger than any limit.
-/
namespace Mass.Cut

/-- `AnalysisControl.cuts_prm`, mass/core/controller.py L27-41: for every kind of cut the limits or None. -/
abbrev Controls := String → Allowed

/-- the names in `cuts_prm`, mass/core/controller.py L27-41 -/
def cutNames : List String :=
  ["peak_value", "peak_time_ms", "rise_time_ms", "postpeak_deriv", "pretrigger_rms", "pretrigger_mean", "pulse_average",
   "min_value", "timestamp_sec", "pretrigger_mean_departure_from_median", "timestamp_diff_sec", "subframecount_diff_sec", "energy"]

/-- `AnalysisControl()`, mass/core/controller.py L27-41 -/
def noControls : Controls := fun _ => .none

/-- `set`, mass/core/param_dict_base.py L96-165, for the cuts: names not in `cuts_prm` raise (NameError, here `value`), those before them are set. The other
dictionary (`analysis_prm`, one unused entry) is left out. -/
def setControls : Controls → List (String × Allowed) → Except Err Controls
  | c, [] => .ok c
  | c, (n, a) :: r => if cutNames.contains n then setControls (fun m => if m = n then a else c m) r else .error .value

/-- the arguments in `standardControl`, mass/core/controller.py L54-71 -/
def standardArgs : List (String × Allowed) :=
  [("peak_time_ms", .pair (some (-1/2)) (some (1/2))), ("rise_time_ms", .pair (some 0) (some (1/5))),
   ("postpeak_deriv", .pair none (some 46)), ("pretrigger_rms", .pair none (some 12)), ("pretrigger_mean", .pair none none),
   ("pretrigger_mean_departure_from_median", .pair (some (-50)) (some 50)), ("pulse_average", .pair (some 0) none),
   ("peak_value", .pair (some 0) none), ("min_value", .pair (some (-50)) none)]

/-- `standardControl`, mass/core/controller.py L54-71 -/
def standardControl : Controls := match setControls noControls standardArgs with
  | .ok c => c
  | .error _ => noControls

/-- x - y, NaN if either is (used for mass/core/channel.py L1672-1683) -/
def F.sub (x y : F) : F := match x, y with
  | some x, some y => some (x - y)
  | _, _ => none

/-- The per-pulse quantities `apply_cuts` looks at, mass/core/channel.py L1661-1683; `inf` stands for np.inf. -/
structure Quant where
  energy : List F
  pretrigRms : List F
  pretrigMean : List F
  peakTime : List F
  riseTime : List F
  postpeakDeriv : List F
  pulseAverage : List F
  peakValue : List F
  minValue : List F
  timestamp : List F
  subframecount : List F
  subframeTimebase : Rat
  inf : Rat

/-- np.hstack((np.inf, np.diff(x))), mass/core/channel.py L1676-1681 -/
def diffs (inf : Rat) (x : List F) : List F := some inf :: List.zipWith F.sub (x.drop 1) x

/-- the calls of `cut_parameter` one after the other, mass/core/channel.py L1661-1681, for any list of (field, data, limits) -/
def runTests : List (String × List F × Allowed) → M Unit
  | [] => pure ()
  | (f, d, a) :: r => do
    cutParameter d a f
    runTests r

/-- x * 1e3 etc. (used for mass/core/channel.py L1665-1681) -/
def F.scale (k : Rat) (x : F) : F := x.map (k * ·)

/-- the first twelve cuts, mass/core/channel.py L1661-1681. The last two are guarded by `is not None`; `cut_parameter` with None does nothing anyway. -/
def tests (q : Quant) (c : Controls) : List (String × List F × Allowed) :=
  [("energy", q.energy, c "energy"),
   ("pretrigger_rms", q.pretrigRms, c "pretrigger_rms"),
   ("pretrigger_mean", q.pretrigMean, c "pretrigger_mean"),
   ("peak_time_ms", q.peakTime.map (F.scale 1000), c "peak_time_ms"),
   ("rise_time_ms", q.riseTime.map (F.scale 1000), c "rise_time_ms"),
   ("postpeak_deriv", q.postpeakDeriv, c "postpeak_deriv"),
   ("pulse_average", q.pulseAverage, c "pulse_average"),
   ("peak_value", q.peakValue, c "peak_value"),
   ("min_value", List.zipWith F.sub q.minValue q.pretrigMean, c "min_value"),
   ("timestamp_sec", q.timestamp, c "timestamp_sec"),
   ("timestamp_diff_sec", diffs q.inf q.timestamp, c "timestamp_diff_sec"),
   ("subframecount_diff_sec", diffs q.inf (q.subframecount.map (F.scale q.subframeTimebase)), c "subframecount_diff_sec")]

/-- np.median of floats: NaN if one is NaN (used for mass/core/channel.py L1683) -/
def medianF (l : List F) : F := if l.any (fun x => x.isNone) then none else some (Stat.FirstN.median (l.filterMap id))

/-- the last cut, mass/core/channel.py L1682-1687 -/
def departure (q : Quant) (al : Allowed) : M Unit := do
  match al with
  | .none => pure ()
  | al => do
    let s ← getS
    let g ← lift (good s [])
    if g.countP id > 0 then
      cutParameter (q.pretrigMean.map (fun x => F.sub x (medianF (Stat.FirstN.pick g q.pretrigMean)))) al
        "pretrigger_mean_departure_from_median"
    else pure ()

/-- `apply_cuts`, mass/core/channel.py L1639-1693; `forceNew` only decides about a log message. Clearing also forgets the saved automatic cuts (see `Chan`). -/
def applyCuts (q : Quant) (controls : Option Controls) (clear _forceNew : Bool) : M Unit := do
  let s ← getS
  if s.mask.length = 0 then pure ()
  else do
    if clear then clearCut [] else pure ()
    let c := controls.getD standardControl
    runTests (tests q c)
    departure q (c "pretrigger_mean_departure_from_median")

/-! ### vocabulary -/

/-- Pulse `i` is bad for the boolean field `n`. [specification] -/
def Bad (s : Sys) (n : String) (i : Nat) : Prop := ∃ v, bad s [n] = .ok v ∧ v[i]? = some true

/-- A value not allowed by the limits: (a, b) allows a < x < b, a list of pairs allows the closed intervals (or what is outside all, with "invert"); NaN passes a pair. [specification] -/
def Allowed.excludes : Allowed → F → Prop
  | .none, _ => False
  | .pair a b, x => violates x a b
  | .seq l, x => if Element.invert ∈ l then ∃ a b, Element.range a b ∈ l ∧ inClosed x a b
      else ¬ ∃ a b, Element.range a b ∈ l ∧ inClosed x a b

/-- Limits `cut_parameter` understands: sequences are not empty and their ranges have a limit. [specification] -/
def Allowed.Proper : Allowed → Prop
  | .seq l => l ≠ [] ∧ ∀ a b, Element.range a b ∈ l → a ≠ Option.none ∨ b ≠ Option.none
  | _ => True

/-- all the arrays have one entry per pulse [specification] -/
def Quant.Fits (q : Quant) (n : Nat) : Prop :=
  q.energy.length = n ∧ q.pretrigRms.length = n ∧ q.pretrigMean.length = n ∧ q.peakTime.length = n ∧ q.riseTime.length = n ∧
  q.postpeakDeriv.length = n ∧ q.pulseAverage.length = n ∧ q.peakValue.length = n ∧ q.minValue.length = n ∧ q.timestamp.length = n ∧
  q.subframecount.length = n

theorem bad_get {s : Sys} {n : String} {v : List Bool} (h : bad s [n] = .ok v) (i : Nat) : Bad s n i ↔ v[i]? = some true := by
  unfold Bad
  constructor
  · rintro ⟨w, h1, h2⟩
    rw [h] at h1
    injection h1 with h1
    rw [h1]; exact h2
  · intro h2
    exact ⟨v, h, h2⟩

theorem bad_exists {s : Sys} {n : String} (h : BoolField s n) : ∃ v, bad s [n] = .ok v := by
  obtain ⟨v, hv, _⟩ := (bad_ok_iff s [n]).mpr (by intro m hm; simp at hm; subst hm; exact h)
  exact ⟨v, hv⟩

theorem cutParameter_spec {s : Sys} (h : Reachable s) {f : String} (hF : BoolField s f) {data : List F}
    (hd : data.length = s.mask.length) {al : Allowed} (hal : al.Proper) :
    (cutParameter data al f s).1 = .ok () ∧ Reachable (cutParameter data al f s).2 ∧
    (cutParameter data al f s).2.grp = s.grp ∧ (cutParameter data al f s).2.mask.length = s.mask.length ∧
    (∀ i, Bad (cutParameter data al f s).2 f i ↔ Bad s f i ∨ ∃ x, data[i]? = some x ∧ al.excludes x) ∧
    (∀ n, n ≠ f → ∀ i, Bad (cutParameter data al f s).2 n i ↔ Bad s n i) ∧
    (∀ G, f ≠ G → categoryCodes (cutParameter data al f s).2 G = categoryCodes s G) := by
  obtain ⟨old, hold⟩ := bad_exists hF
  have ho := cutParameter_only s data al f
  have hmain : (cutParameter data al f s).1 = .ok () ∧
      (∀ i, Bad (cutParameter data al f s).2 f i ↔ Bad s f i ∨ ∃ x, data[i]? = some x ∧ al.excludes x) := by
    cases al with
    | none =>
      rw [(cut_parameter_none_unknown s data f).1]
      exact ⟨rfl, fun i => by simp [Allowed.excludes]⟩
    | pair a b =>
      obtain ⟨h1, new, h2, _, h3⟩ := cut_parameter_pair h hF hd a b hold
      exact ⟨h1, fun i => by rw [bad_get h2, bad_get hold]; exact h3 i⟩
    | seq l =>
      obtain ⟨h1, new, h2, _, h3⟩ := cut_parameter_ranges_partial h hF hd hal.1 hal.2 hold
      exact ⟨h1, fun i => by rw [bad_get h2, bad_get hold]; exact h3 i⟩
  refine ⟨hmain.1, h.step (.cutParameter data al f), ho.1, ho.2.length, hmain.2, ?_, ?_⟩
  · intro n hn i
    unfold Bad
    rw [(good_frame h.inv ho (names := [n]) (kw := []) (by simp) (by simpa using fun e => hn e.symm) (by simp)).2]
  · intro G hG
    exact (cut_other_frame h f [] data al ["energy" ++ f] [] G (by simp) (by
      simp only [List.mem_singleton]
      intro e
      have := congrArg String.length e
      rw [String.length_append] at this
      have h6 : "energy".length = 6 := by decide
      omega) (by simp) hG _ (Or.inr rfl)).2.2.2

theorem boolField_congr {s s' : Sys} (h : s'.grp = s.grp) (n : String) : BoolField s' n ↔ BoolField s n := by
  unfold BoolField; rw [h]

theorem runTests_spec (ts : List (String × List F × Allowed)) {s : Sys} (h : Reachable s) (hn : (ts.map (fun t => t.1)).Nodup)
    (ht : ∀ t ∈ ts, BoolField s t.1 ∧ t.2.1.length = s.mask.length ∧ t.2.2.Proper) :
    (runTests ts s).1 = .ok () ∧ Reachable (runTests ts s).2 ∧ (runTests ts s).2.grp = s.grp ∧
    (runTests ts s).2.mask.length = s.mask.length ∧
    (∀ t ∈ ts, ∀ i, Bad (runTests ts s).2 t.1 i ↔ Bad s t.1 i ∨ ∃ x, t.2.1[i]? = some x ∧ t.2.2.excludes x) ∧
    (∀ n, n ∉ ts.map (fun t => t.1) → ∀ i, Bad (runTests ts s).2 n i ↔ Bad s n i) ∧
    (∀ G, G ∉ ts.map (fun t => t.1) → categoryCodes (runTests ts s).2 G = categoryCodes s G) := by
  induction ts generalizing s with
  | nil => exact ⟨rfl, h, rfl, rfl, by simp, fun _ _ _ => Iff.rfl, fun _ _ => rfl⟩
  | cons t ts ih =>
    obtain ⟨f, d, al⟩ := t
    obtain ⟨h1, h2, h3, h4, h5, h6, h7⟩ := cutParameter_spec h (ht _ List.mem_cons_self).1 (ht _ List.mem_cons_self).2.1
      (ht _ List.mem_cons_self).2.2
    rw [List.map_cons, List.nodup_cons] at hn
    have hrun : runTests ((f, d, al) :: ts) s = runTests ts (cutParameter d al f s).2 := by
      show M.bind (cutParameter d al f) (fun _ => runTests ts) s = _
      unfold M.bind
      rw [show cutParameter d al f s = ((cutParameter d al f s).1, (cutParameter d al f s).2) from rfl, h1]
    obtain ⟨i1, i2, i3, i4, i5, i6, i7⟩ := ih h2 hn.2 (fun t ht' => by
      have := ht t (List.mem_cons_of_mem _ ht')
      exact ⟨(boolField_congr h3 _).mpr this.1, by rw [h4]; exact this.2.1, this.2.2⟩)
    rw [hrun]
    refine ⟨i1, i2, i3.trans h3, i4.trans h4, ?_, ?_, ?_⟩
    · intro t ht' i
      rcases List.mem_cons.mp ht' with rfl | ht'
      · rw [i6 _ hn.1, h5]
      · have hne : t.1 ≠ f := fun e => hn.1 (e ▸ List.mem_map_of_mem (f := fun t => t.1) ht')
        rw [i5 t ht', h6 _ hne]
    · intro n hn' i
      rw [List.map_cons, List.mem_cons, not_or] at hn'
      rw [i6 n hn'.2, h6 n hn'.1]
    · intro G hG
      rw [List.map_cons, List.mem_cons, not_or] at hG
      rw [i7 G hG.2, h7 G (fun e => hG.1 e.symm)]

/-- good() without names: no boolean field marks the pulse. -/
theorem good_all {s : Sys} (h : Reachable s) : ∃ g, good s [] = .ok g ∧ g.length = s.mask.length ∧
    ∀ i, g[i]? = some true ↔ i < s.mask.length ∧ ∀ n, BoolField s n → ¬ Bad s n i := by
  obtain ⟨bm, hbm⟩ := boolMask_ok (g := s.grp) (names := []) |>.mpr (by simp)
  refine ⟨s.mask.map (fun w => w &&& bm == 0#32), by unfold good; rw [hbm]; rfl, by simp, ?_⟩
  intro i
  rw [List.getElem?_map]
  have hi := h.inv
  rcases Nat.lt_or_ge i s.mask.length with hl | hl
  swap
  · rw [List.getElem?_eq_none hl]; simp; omega
  rw [List.getElem?_eq_getElem hl]
  simp only [Option.map_some, Option.some.injEq, beq_iff_eq, hl, true_and]
  rw [and_eq_zero_iff]
  have hgen : ∀ n, BoolField s n → ∃ bn, boolMask s.grp [n] = .ok bn ∧
      (Bad s n i ↔ ∃ j, (s.mask[i]'hl).getLsbD j = true ∧ bn.getLsbD j = true) := by
    intro n hn
    obtain ⟨bn, hb⟩ := boolMask_ok (g := s.grp) (names := [n]) |>.mpr (by intro m hm; simp at hm; subst hm; exact hn)
    refine ⟨bn, hb, ?_⟩
    rw [bad_get (v := s.mask.map (fun w => w &&& bn != 0#32)) (by unfold bad; rw [hb]; rfl), List.getElem?_map,
      List.getElem?_eq_getElem hl]
    simp only [Option.map_some, Option.some.injEq, bne_iff_ne]
    rw [ne_zero_iff]
    simp
  constructor
  · intro h0 n hn hb
    obtain ⟨bn, hb1, hb2⟩ := hgen n hn
    obtain ⟨j, hj1, hj2⟩ := hb2.mp hb
    obtain ⟨b, hb3, hb4, _⟩ := (boolMask_lsb hi hb1 j).mp hj2
    exact h0 j ⟨hj1, (boolMask_lsb hi hbm j).mpr ⟨b, hb3, hb4, Or.inl rfl⟩⟩
  · rintro hall j ⟨hj1, hj2⟩
    obtain ⟨b, hb3, hb4, _⟩ := (boolMask_lsb hi hbm j).mp hj2
    have hbf : BoolField s b.1 := ⟨hb4, List.mem_map_of_mem (List.mem_of_getElem? hb3)⟩
    obtain ⟨bn, hb1, hb2⟩ := hgen b.1 hbf
    exact hall b.1 hbf (hb2.mpr ⟨j, hj1, (boolMask_lsb hi hb1 j).mpr ⟨b, hb3, hb4, Or.inr (by simp)⟩⟩)

/-- The quantity the cut called `n` is about, for pulse `i`. [specification] -/
def Quant.value (q : Quant) (n : String) (i : Nat) : F :=
  let get (l : List F) (j : Nat) : F := (l[j]?).getD none
  if n = "energy" then get q.energy i
  else if n = "pretrigger_rms" then get q.pretrigRms i
  else if n = "pretrigger_mean" then get q.pretrigMean i
  else if n = "peak_time_ms" then (get q.peakTime i).map (fun x => 1000 * x)
  else if n = "rise_time_ms" then (get q.riseTime i).map (fun x => 1000 * x)
  else if n = "postpeak_deriv" then get q.postpeakDeriv i
  else if n = "pulse_average" then get q.pulseAverage i
  else if n = "peak_value" then get q.peakValue i
  else if n = "min_value" then (get q.minValue i).bind (fun x => (get q.pretrigMean i).map (fun y => x - y))
  else if n = "timestamp_sec" then get q.timestamp i
  else if n = "timestamp_diff_sec" then
    if i = 0 then some q.inf else (get q.timestamp i).bind (fun x => (get q.timestamp (i - 1)).map (fun y => x - y))
  else if n = "subframecount_diff_sec" then
    if i = 0 then some q.inf else (get q.subframecount i).bind (fun x => (get q.subframecount (i - 1)).map (fun y => q.subframeTimebase * (x - y)))
  else none

/-- the cut around the median [specification] -/
abbrev dep : String := "pretrigger_mean_departure_from_median"

theorem F.sub_eq (x y : F) : F.sub x y = x.bind (fun x => y.map (fun y => x - y)) := by
  cases x <;> cases y <;> rfl

theorem tests_get (q : Quant) (c : Controls) {n : Nat} (hq : q.Fits n) {i : Nat} (hi : i < n) :
    ∀ t ∈ tests q c, t.2.1.length = n ∧ t.2.1[i]? = some (q.value t.1 i) ∧ t.2.2 = c t.1 := by
  obtain ⟨h1, h2, h3, h4, h5, h6, h7, h8, h9, h10, h11⟩ := hq
  have hd : ∀ (x : List F), x.length = n → (diffs q.inf x).length = n ∧
      (diffs q.inf x)[i]? = some (if i = 0 then some q.inf else F.sub ((x[i]?).getD none) ((x[i-1]?).getD none)) := by
    intro x hx
    unfold diffs
    constructor
    · simp [hx]; omega
    · cases i with
      | zero => rfl
      | succ k =>
        rw [List.getElem?_cons_succ, List.getElem?_zipWith, List.getElem?_drop, Nat.add_comm 1 k,
          List.getElem?_eq_getElem (show k + 1 < x.length by omega), List.getElem?_eq_getElem (show k < x.length by omega)]
        simp [List.getElem?_eq_getElem (show k < x.length by omega)]
  have hg : ∀ (x : List F), x.length = n → x[i]? = some ((x[i]?).getD none) := by
    intro x hx
    rw [List.getElem?_eq_getElem (show i < x.length by omega)]; rfl
  intro t ht
  simp only [tests, List.mem_cons, List.not_mem_nil, or_false] at ht
  rcases ht with rfl | rfl | rfl | rfl | rfl | rfl | rfl | rfl | rfl | rfl | rfl | rfl
  · exact ⟨h1, hg _ h1, rfl⟩
  · exact ⟨h2, hg _ h2, rfl⟩
  · exact ⟨h3, hg _ h3, rfl⟩
  · refine ⟨by simpa using h4, ?_, rfl⟩
    show (q.peakTime.map (F.scale 1000))[i]? = _
    rw [List.getElem?_map, hg _ h4]; rfl
  · refine ⟨by simpa using h5, ?_, rfl⟩
    show (q.riseTime.map (F.scale 1000))[i]? = _
    rw [List.getElem?_map, hg _ h5]; rfl
  · exact ⟨h6, hg _ h6, rfl⟩
  · exact ⟨h7, hg _ h7, rfl⟩
  · exact ⟨h8, hg _ h8, rfl⟩
  · refine ⟨by simp [h9, h3], ?_, rfl⟩
    show (List.zipWith F.sub q.minValue q.pretrigMean)[i]? = _
    rw [List.getElem?_zipWith, hg _ h9, hg _ h3]
    show some (F.sub _ _) = _
    rw [F.sub_eq]; rfl
  · exact ⟨h10, hg _ h10, rfl⟩
  · refine ⟨(hd _ h10).1, ?_, rfl⟩
    show (diffs q.inf q.timestamp)[i]? = _
    rw [(hd _ h10).2, F.sub_eq]; rfl
  · refine ⟨(hd _ (by simpa using h11)).1, ?_, rfl⟩
    show (diffs q.inf (q.subframecount.map (F.scale q.subframeTimebase)))[i]? = _
    rw [(hd _ (by simpa using h11)).2]
    congr 1
    show _ = if i = 0 then some q.inf else ((q.subframecount[i]?).getD none).bind (fun x =>
      ((q.subframecount[i-1]?).getD none).map (fun y => q.subframeTimebase * (x - y)))
    by_cases h0 : i = 0
    · rw [if_pos h0, if_pos h0]
    · rw [if_neg h0, if_neg h0, List.getElem?_map, List.getElem?_map, List.getElem?_eq_getElem (show i < q.subframecount.length by omega),
        List.getElem?_eq_getElem (show i - 1 < q.subframecount.length by omega)]
      simp only [Option.map_some, Option.getD_some]
      cases q.subframecount[i] with
      | none => rfl
      | some x => cases q.subframecount[i-1] with
        | none => rfl
        | some y => simp [F.sub, F.scale, mul_sub]

theorem clear_bad {s : Sys} (h : Reachable s) : (clearCut [] s).1 = .ok () ∧ Reachable (clearCut [] s).2 ∧
    (clearCut [] s).2.grp = s.grp ∧ (clearCut [] s).2.mask.length = s.mask.length ∧
    (∀ n, BoolField s n → ∀ i, ¬ Bad (clearCut [] s).2 n i) ∧ (∀ G, categoryCodes (clearCut [] s).2 G = categoryCodes s G) := by
  obtain ⟨bm, hbm⟩ := boolMask_ok (g := s.grp) (names := []) |>.mpr (by simp)
  have ho := clearCut_only s [] hbm
  obtain ⟨h1, h2, h3⟩ := clear_cut_all h
  refine ⟨h1, h.step (.clearCut []), ho.1, ho.2.length, ?_, h3⟩
  rintro n hn i ⟨v, hv, hi⟩
  have := good_eq_not_bad (clearCut [] s).2 [n]
  rw [h2 n hn, hv] at this
  injection this with this
  have := congrArg (fun l => l[i]?) this
  simp only [List.getElem?_map, hi] at this
  cases hm : s.mask[i]? <;> simp [hm] at this

/-- C101: `apply_cuts`: every cut marks, besides the pulses already bad for it (none, when clearing), exactly the pulses whose quantity is outside its
limits; the cut around the median uses the pulses good by all the other cuts; nothing else changes. -/
theorem apply_cuts {s : Sys} (h : Reachable s) (hb : ∀ n ∈ cutNames, BoolField s n) {q : Quant} (hq : q.Fits s.mask.length)
    (h0 : s.mask.length ≠ 0) (controls : Option Controls) {c : Controls} (hc : c = controls.getD standardControl)
    (hp : ∀ n ∈ cutNames, (c n).Proper) (clear forceNew : Bool) {s' : Sys} (hs : s' = (applyCuts q controls clear forceNew s).2) :
    (applyCuts q controls clear forceNew s).1 = .ok () ∧ Reachable s' ∧ s'.grp = s.grp ∧ s'.mask.length = s.mask.length ∧
    (∀ n ∈ cutNames, n ≠ dep → ∀ i < s.mask.length, Bad s' n i ↔ (clear = false ∧ Bad s n i) ∨ (c n).excludes (q.value n i)) ∧
    (∃ L : List Nat, L.Pairwise (· < ·) ∧
      (∀ j, j ∈ L ↔ j < s.mask.length ∧ (∀ n, BoolField s n → n ≠ dep → ¬ Bad s' n j) ∧ ¬ (clear = false ∧ Bad s dep j)) ∧
      ∀ i < s.mask.length, Bad s' dep i ↔ (clear = false ∧ Bad s dep i) ∨ (L ≠ [] ∧
        (c dep).excludes (F.sub (q.value "pretrigger_mean" i) (medianF (L.map (q.value "pretrigger_mean")))))) ∧
    (∀ n, BoolField s n → n ∉ cutNames → ∀ i, Bad s' n i ↔ (clear = false ∧ Bad s n i)) ∧
    (∀ G, G ∉ cutNames → categoryCodes s' G = categoryCodes s G) := by
  -- after clearing
  obtain ⟨s1, hs1⟩ : ∃ s1, s1 = (if clear then (clearCut [] s).2 else s) := ⟨_, rfl⟩
  have hclr : Reachable s1 ∧ s1.grp = s.grp ∧ s1.mask.length = s.mask.length ∧
      (∀ n, BoolField s n → ∀ i, Bad s1 n i ↔ clear = false ∧ Bad s n i) ∧ (∀ G, categoryCodes s1 G = categoryCodes s G) := by
    subst hs1
    cases clear with
    | false => exact ⟨h, rfl, rfl, fun n _ i => by simp, fun _ => rfl⟩
    | true =>
      obtain ⟨_, c2, c3, c4, c5, c6⟩ := clear_bad h
      exact ⟨c2, c3, c4, fun n hn i => by simpa using c5 n hn i, c6⟩
  obtain ⟨r1, g1, l1, b1, k1⟩ := hclr
  have hnames : (tests q c).map (fun t => t.1) = ["energy", "pretrigger_rms", "pretrigger_mean", "peak_time_ms", "rise_time_ms",
      "postpeak_deriv", "pulse_average", "peak_value", "min_value", "timestamp_sec", "timestamp_diff_sec", "subframecount_diff_sec"] := rfl
  have hsub : ∀ n, n ∈ (tests q c).map (fun t => t.1) ↔ n ∈ cutNames ∧ n ≠ dep := by
    intro n
    rw [hnames]
    constructor
    · intro hn
      simp only [List.mem_cons, List.not_mem_nil, or_false] at hn
      rcases hn with rfl | rfl | rfl | rfl | rfl | rfl | rfl | rfl | rfl | rfl | rfl | rfl <;> decide
    · rintro ⟨hn, hd⟩
      simp only [cutNames, List.mem_cons, List.not_mem_nil, or_false] at hn
      rcases hn with rfl | rfl | rfl | rfl | rfl | rfl | rfl | rfl | rfl | rfl | rfl | rfl | rfl
      all_goals first | exact absurd rfl hd | decide
  have hpos : 0 < s.mask.length := Nat.pos_of_ne_zero h0
  obtain ⟨t1, t2, t3, t4, t5, t6, t7⟩ := runTests_spec (tests q c) r1 (by rw [hnames]; decide) (fun t ht => by
    have hm := (hsub t.1).mp (List.mem_map_of_mem ht)
    have hg := tests_get q c hq hpos t ht
    exact ⟨(boolField_congr g1 _).mpr (hb _ hm.1), by rw [l1]; exact hg.1, by rw [hg.2.2]; exact hp _ hm.1⟩)
  obtain ⟨s2, hs2⟩ : ∃ s2, s2 = (runTests (tests q c) s1).2 := ⟨_, rfl⟩
  rw [← hs2] at t2 t3 t4 t5 t6 t7
  have hrun : applyCuts q controls clear forceNew s = departure q (c dep) s2 := by
    unfold applyCuts
    show M.bind getS _ s = _
    unfold M.bind getS
    dsimp only
    rw [if_neg h0, ← hc]
    have e2 : M.bind (runTests (tests q c)) (fun _ => departure q (c dep)) s1 = departure q (c dep) s2 := by
      unfold M.bind
      rw [show runTests (tests q c) s1 = (.ok (), s2) from Prod.ext t1 hs2.symm]
    rw [← e2]
    cases clear with
    | false => subst hs1; rfl
    | true =>
      rw [if_pos rfl]
      show M.bind (clearCut []) _ s = _
      rw [if_pos rfl] at hs1
      unfold M.bind
      rw [show clearCut [] s = (.ok (), s1) from Prod.ext (clear_bad h).1 hs1.symm]
      rfl
  -- the sample of the median
  obtain ⟨g, hg, hgl, hgood⟩ := good_all t2
  have hgrp : s2.grp = s.grp := t3.trans g1
  have hlen : s2.mask.length = s.mask.length := t4.trans l1
  obtain ⟨L, hL⟩ : ∃ L, L = Stat.FirstN.nonzero g := ⟨_, rfl⟩
  have hLs := Stat.FirstN.nonzero_spec g
  rw [← hL] at hLs
  have hdep : ∀ i, Bad s2 dep i ↔ clear = false ∧ Bad s dep i := by
    intro i
    rw [t6 dep (fun hm => ((hsub dep).mp hm).2 rfl) i, b1 dep (hb dep (by decide)) i]
  have hpick : Stat.FirstN.pick g q.pretrigMean = L.map (q.value "pretrigger_mean") := by
    rw [Stat.FirstN.pick_nonzero _ _ (by rw [hgl, hlen]; exact hq.2.2.1.symm), ← hL]
    rw [show L.filterMap (fun i => q.pretrigMean[i]?) = L.filterMap (fun i => some (q.value "pretrigger_mean" i)) from ?_]
    · rw [show (fun i => some (q.value "pretrigger_mean" i)) = some ∘ (q.value "pretrigger_mean") from rfl, List.filterMap_eq_map]
    · apply List.filterMap_congr
      intro j hj
      have := (hLs.2 j).mp hj
      have hjl : j < q.pretrigMean.length := by
        have := ((hgood j).mp this).1
        rw [hq.2.2.1]; omega
      show q.pretrigMean[j]? = some ((q.pretrigMean[j]?).getD none)
      rw [List.getElem?_eq_getElem hjl]; rfl
  have hdl : (q.pretrigMean.map (fun x => F.sub x (medianF (Stat.FirstN.pick g q.pretrigMean)))).length = s2.mask.length := by
    rw [List.length_map, hlen]; exact hq.2.2.1
  have hsp := cutParameter_spec t2 ((boolField_congr hgrp dep).mpr (hb dep (by decide))) hdl (hp dep (by decide))
  have hcount : g.countP id > 0 ↔ L ≠ [] := by
    rw [← Stat.FirstN.nonzero_length, ← hL]
    exact List.length_pos_iff
  have hval : ∀ i < s.mask.length, (q.pretrigMean.map (fun x => F.sub x (medianF (Stat.FirstN.pick g q.pretrigMean))))[i]? =
      some (F.sub (q.value "pretrigger_mean" i) (medianF (L.map (q.value "pretrigger_mean")))) := by
    intro i hi
    rw [List.getElem?_map, hpick, List.getElem?_eq_getElem (by rw [hq.2.2.1]; exact hi)]
    show _ = some (F.sub ((q.pretrigMean[i]?).getD none) _)
    rw [List.getElem?_eq_getElem (by rw [hq.2.2.1]; exact hi)]
    rfl
  -- the effect of the last cut
  have hlast : (departure q (c dep) s2).1 = .ok () ∧ Reachable (departure q (c dep) s2).2 ∧ (departure q (c dep) s2).2.grp = s2.grp ∧
      (departure q (c dep) s2).2.mask.length = s2.mask.length ∧
      (∀ i < s.mask.length, Bad (departure q (c dep) s2).2 dep i ↔ Bad s2 dep i ∨ (L ≠ [] ∧
        (c dep).excludes (F.sub (q.value "pretrigger_mean" i) (medianF (L.map (q.value "pretrigger_mean")))))) ∧
      (∀ n, n ≠ dep → ∀ i, Bad (departure q (c dep) s2).2 n i ↔ Bad s2 n i) ∧
      (∀ G, dep ≠ G → categoryCodes (departure q (c dep) s2).2 G = categoryCodes s2 G) := by
    by_cases hnone : c dep = .none
    · rw [hnone]
      exact ⟨rfl, t2, rfl, rfl, fun i _ => by simp [departure, Allowed.excludes]; rfl, fun _ _ _ => Iff.rfl, fun _ _ => rfl⟩
    have hd : departure q (c dep) s2 = if g.countP id > 0 then cutParameter (q.pretrigMean.map (fun x => F.sub x
        (medianF (Stat.FirstN.pick g q.pretrigMean)))) (c dep) dep s2 else (.ok (), s2) := by
      unfold departure
      have hk : ∀ al : Allowed, (M.bind getS (fun s => M.bind (lift (good s [])) (fun g => if g.countP id > 0 then
          cutParameter (q.pretrigMean.map (fun x => F.sub x (medianF (Stat.FirstN.pick g q.pretrigMean)))) al dep else pure ()))) s2 =
          if g.countP id > 0 then cutParameter (q.pretrigMean.map (fun x => F.sub x
            (medianF (Stat.FirstN.pick g q.pretrigMean)))) al dep s2 else (.ok (), s2) := by
        intro al
        unfold M.bind getS lift
        dsimp only
        rw [hg]
        dsimp only
        split <;> rfl
      generalize c dep = al at hnone ⊢
      cases al with
      | none => exact absurd rfl hnone
      | pair a b => exact hk _
      | seq l => exact hk _
    rw [hd]
    by_cases hgc : g.countP id > 0
    · rw [if_pos hgc]
      obtain ⟨p1, p2, p3, p4, p5, p6, p7⟩ := hsp
      refine ⟨p1, p2, p3, p4, ?_, p6, p7⟩
      intro i hi
      rw [p5 i, hval i hi]
      simp [hcount.mp hgc]
    · rw [if_neg hgc]
      have hLn : ¬ L ≠ [] := fun e => hgc (hcount.mpr e)
      exact ⟨rfl, t2, rfl, rfl, fun i _ => by simp [hLn], fun _ _ _ => Iff.rfl, fun _ _ => rfl⟩
  obtain ⟨p1, p2, p3, p4, p5, p6, p7⟩ := hlast
  rw [hs, hrun]
  refine ⟨p1, p2, p3.trans hgrp, p4.trans hlen, ?_, ⟨L, hLs.1, ?_, ?_⟩, ?_, ?_⟩
  · intro n hn hnd i hi
    rw [p6 n hnd i]
    obtain ⟨t, ht, rfl⟩ := List.mem_map.mp ((hsub n).mpr ⟨hn, hnd⟩)
    have hgt := tests_get q c hq hi t ht
    rw [t5 t ht i, b1 _ (hb _ hn) i, hgt.2.1, hgt.2.2]
    simp
  · intro j
    rw [hLs.2 j, hgood j, hlen, ← hdep j]
    constructor
    · rintro ⟨h1, h2⟩
      exact ⟨h1, fun n hn hnd hbad => h2 n ((boolField_congr hgrp n).mpr hn) ((p6 n hnd j).mp hbad),
        h2 dep ((boolField_congr hgrp dep).mpr (hb dep (by decide)))⟩
    · rintro ⟨h1, h2, h3⟩
      refine ⟨h1, fun n hn hbad => ?_⟩
      by_cases hnd : n = dep
      · subst hnd; exact h3 hbad
      · exact h2 n ((boolField_congr hgrp n).mp hn) hnd ((p6 n hnd j).mpr hbad)
  · intro i hi
    rw [p5 i hi, hdep i]
  · intro n hn hnc i
    have hnd : n ≠ dep := fun e => hnc (by rw [e]; decide)
    rw [p6 n hnd i, t6 n (fun hm => hnc ((hsub n).mp hm).1) i, b1 n hn i]
  · intro G hG
    have hGd : dep ≠ G := fun e => hG (by rw [← e]; decide)
    rw [p7 G hGd, t7 G (fun hm => hG ((hsub G).mp hm).1), k1 G]

/-- C101: with no pulses nothing is done, not even clearing. -/
theorem apply_cuts_empty (s : Sys) (h0 : s.mask.length = 0) (q : Quant) (c : Option Controls) (clear forceNew : Bool) :
    applyCuts q c clear forceNew s = (.ok (), s) := by
  unfold applyCuts
  show M.bind getS _ s = _
  unfold M.bind getS
  dsimp only
  rw [if_pos h0]
  rfl

/-- C101: the median of floats: NaN if one is NaN, else at least half of the values are on either side. -/
theorem median_spec (l : List F) (hl : l ≠ []) :
    (none ∈ l → medianF l = none) ∧
    (∀ xs : List Rat, l = xs.map some → ∃ m, medianF l = some m ∧ l.length ≤ 2 * xs.countP (fun y => decide (y ≤ m)) ∧
      l.length ≤ 2 * xs.countP (fun y => decide (m ≤ y))) := by
  constructor
  · intro h
    unfold medianF
    rw [if_pos]
    rw [List.any_eq_true]
    exact ⟨none, h, rfl⟩
  · rintro xs rfl
    have hx : xs ≠ [] := by rintro rfl; exact hl rfl
    refine ⟨Stat.FirstN.median xs, ?_, ?_⟩
    · unfold medianF
      rw [if_neg (by simp), List.filterMap_map]
      simp
    · simpa using Stat.median_half hx

/-- C101: `standardControl()` sets nine cuts and leaves four open; names that are not cuts are refused. -/
theorem standard_control :
    setControls noControls standardArgs = .ok standardControl ∧
    (∀ n a, (n, a) ∈ standardArgs → standardControl n = a) ∧
    (∀ n, n ∉ standardArgs.map Prod.fst → standardControl n = .none) ∧
    (∀ n ∈ cutNames, (standardControl n).Proper) ∧
    standardControl "peak_time_ms" = .pair (some (-1/2)) (some (1/2)) ∧ standardControl "rise_time_ms" = .pair (some 0) (some (1/5)) ∧
    standardControl "postpeak_deriv" = .pair none (some 46) ∧ standardControl "pretrigger_rms" = .pair none (some 12) ∧
    standardControl "pretrigger_mean" = .pair none none ∧ standardControl "pretrigger_mean_departure_from_median" = .pair (some (-50)) (some 50) ∧
    standardControl "pulse_average" = .pair (some 0) none ∧ standardControl "peak_value" = .pair (some 0) none ∧
    standardControl "min_value" = .pair (some (-50)) none ∧
    (∀ c n a r, n ∉ cutNames → setControls c ((n, a) :: r) = .error .value) := by
  have e : setControls noControls standardArgs = .ok standardControl := rfl
  have hn : ∀ n, n ∉ standardArgs.map Prod.fst → standardControl n = .none := by
    intro n hn
    simp only [standardArgs, List.map_cons, List.map_nil, List.mem_cons, List.not_mem_nil, or_false, not_or] at hn
    obtain ⟨h1, h2, h3, h4, h5, h6, h7, h8, h9⟩ := hn
    show (if n = "min_value" then _ else if n = "peak_value" then _ else if n = "pulse_average" then _ else
      if n = "pretrigger_mean_departure_from_median" then _ else if n = "pretrigger_mean" then _ else if n = "pretrigger_rms" then _ else
      if n = "postpeak_deriv" then _ else if n = "rise_time_ms" then _ else if n = "peak_time_ms" then _ else Allowed.none) = _
    rw [if_neg h9, if_neg h8, if_neg h7, if_neg h6, if_neg h5, if_neg h4, if_neg h3, if_neg h2, if_neg h1]
  have hset : ∀ n a, (n, a) ∈ standardArgs → standardControl n = a := by
    intro n a h
    simp only [standardArgs, List.mem_cons, List.not_mem_nil, or_false, Prod.mk.injEq] at h
    rcases h with h | h | h | h | h | h | h | h | h <;> (obtain ⟨rfl, rfl⟩ := h; rfl)
  refine ⟨e, hset, hn, ?_, rfl, rfl, rfl, rfl, rfl, rfl, rfl, rfl, rfl, ?_⟩
  · intro n _
    by_cases h : n ∈ standardArgs.map Prod.fst
    · obtain ⟨⟨m, a⟩, h1, rfl⟩ := List.mem_map.mp h
      rw [hset _ _ h1]
      simp only [standardArgs, List.mem_cons, List.not_mem_nil, or_false, Prod.mk.injEq] at h1
      rcases h1 with h | h | h | h | h | h | h | h | h <;> (obtain ⟨rfl, rfl⟩ := h; trivial)
    · rw [hn n h]; trivial
  · intro c n a r h
    unfold setControls
    rw [if_neg (by simpa using h)]

/-- C101: the first pulse has no predecessor: its time difference counts as infinite, so it passes any lower limit and fails any upper one (below `inf`). -/
theorem first_pulse (q : Quant) (lo hi : Option Rat) (hlo : ∀ x, lo = some x → x < q.inf) :
    (∀ n, n = "timestamp_diff_sec" ∨ n = "subframecount_diff_sec" →
      ((Allowed.pair lo hi).excludes (q.value n 0) ↔ ∃ x, hi = some x ∧ x ≤ q.inf)) := by
  intro n hn
  have hv : q.value n 0 = some q.inf := by rcases hn with rfl | rfl <;> rfl
  rw [hv]
  simp only [Allowed.excludes, violates, Option.some.injEq, exists_eq_left']
  constructor
  · rintro (⟨x, hx, h⟩ | h)
    · exact absurd (hlo x hx) (not_lt.mpr h)
    · exact h
  · exact Or.inr

/-- C101: a cut whose field has been unregistered raises ValueError; the cuts before it stay. -/
theorem apply_unregistered (ts us : List (String × List F × Allowed)) {f : String} {d : List F} {al : Allowed} {s : Sys} (h : Reachable s)
    (hn : (ts.map (fun t => t.1)).Nodup) (ht : ∀ t ∈ ts, BoolField s t.1 ∧ t.2.1.length = s.mask.length ∧ t.2.2.Proper)
    (hf : f ∉ s.grp.bools.map Prod.fst) (hal : al ≠ .none) :
    runTests (ts ++ (f, d, al) :: us) s = (.error .value, (runTests ts s).2) := by
  induction ts generalizing s with
  | nil =>
    show M.bind (cutParameter d al f) (fun _ => runTests us) s = _
    have : cutParameter d al f s = (.error .value, s) := by
      cases al with
      | none => exact absurd rfl hal
      | pair a b => exact ((cut_parameter_none_unknown s d f).2 hf a b []).1
      | seq l => exact ((cut_parameter_none_unknown s d f).2 hf none none l).2
    unfold M.bind
    rw [this]
    rfl
  | cons t ts ih =>
    obtain ⟨f', d', al'⟩ := t
    obtain ⟨h1, h2, h3, h4, _⟩ := cutParameter_spec h (ht _ List.mem_cons_self).1 (ht _ List.mem_cons_self).2.1 (ht _ List.mem_cons_self).2.2
    rw [List.map_cons, List.nodup_cons] at hn
    have hb : ∀ r, runTests ((f', d', al') :: r) s = runTests r (cutParameter d' al' f' s).2 := by
      intro r
      show M.bind (cutParameter d' al' f') (fun _ => runTests r) s = _
      unfold M.bind
      rw [show cutParameter d' al' f' s = (.ok (), (cutParameter d' al' f' s).2) from Prod.ext h1 rfl]
    rw [List.cons_append, hb, hb]
    exact ih h2 hn.2 (fun t ht' => by
      have := ht t (List.mem_cons_of_mem _ ht')
      exact ⟨(boolField_congr h3 _).mpr this.1, by rw [h4]; exact this.2.1, this.2.2⟩) (by rw [h3]; exact hf)

/-- five pulses [specification] -/
def demoQ : Quant where
  energy := [some 0, some 0, some 0, some 0, some 0]
  pretrigRms := [some 5, some 20, some 5, none, some 5]
  pretrigMean := [some 1000, some 5000, some 1010, some 1020, some 1100]
  peakTime := [some (1/10000), some (1/10000), some (1/10000), some (1/10000), some (1/10000)]
  riseTime := [some (1/10000), some (1/10000), some (1/10000), some (1/10000), some (1/10000)]
  postpeakDeriv := [some 3, some 3, some 3, some 3, some 3]
  pulseAverage := [some 100, some 100, some 100, some 100, some 100]
  peakValue := [some 500, some 500, some 500, some 500, some 500]
  minValue := [some 990, some 4990, some 1000, some 1010, some 1090]
  timestamp := [some 0, some 1, some 2, some 4, some 5]
  subframecount := [some 0, some 100, some 200, some 400, some 500]
  subframeTimebase := 1/100
  inf := 1000000

-- pulse 1 is noisy; the median 1015 is that of the other four, and pulse 4 is 85 away from it. A NaN pretrigger rms passes.
example : (applyCuts demoQ none false true (initial 5)).1 = .ok () ∧
    bad (applyCuts demoQ none false true (initial 5)).2 ["pretrigger_rms"] = .ok [false, true, false, false, false] ∧
    bad (applyCuts demoQ none false true (initial 5)).2 [dep] = .ok [false, true, false, false, true] ∧
    good (applyCuts demoQ none false true (initial 5)).2 [] = .ok [true, false, true, true, false] := by decide +kernel

example : (∀ n ∈ cutNames, BoolField (initial 5) n) ∧ demoQ.Fits (initial 5).mask.length ∧ (initial 5).mask.length ≠ 0 := by
  refine ⟨?_, ?_, ?_⟩
  · intro n hn
    constructor
    · rintro rfl; revert hn; decide
    · revert n; decide +kernel
  · unfold Quant.Fits; decide +kernel
  · decide +kernel

/-- Disagreement (C101): the docstring says that without `forceNew` nothing is recomputed when cuts exist already, and the log says the cuts are skipped; they
are applied nevertheless. -/
theorem apply_force_fails :
    bad (applyCuts demoQ none false true (initial 5)).2 ["energy"] = .ok [false, false, false, false, false] ∧
    bad (applyCuts demoQ (some (fun n => if n = "energy" then .pair (some 0) none else .none)) false false
      (applyCuts demoQ none false true (initial 5)).2).2 ["energy"] = .ok [true, true, true, true, true] := by decide +kernel

/-- Disagreement (C101): applying the same cuts again may cut more: the second time the median is that of the pulses that survived the first time. -/
theorem apply_again_fails :
    let m : List F := [some 0, some 1, some 48, some 97, some 99]
    let q := { demoQ with pretrigRms := [some 5, some 5, some 5, some 5, some 5], pretrigMean := m, minValue := m }
    let s := (applyCuts q none false true (initial 5)).2
    good s [] = .ok [true, true, true, true, false] ∧
    good (applyCuts q none false true s).2 [] = .ok [true, true, true, false, false] := by
  decide +kernel

end Mass.Cut
