import Verif.Cut.AutoCuts
import Verif.Cut.PropsFresh
import Verif.Cut.PropsQuery
import Mathlib.Algebra.Order.Ring.Rat
import Mathlib.Algebra.Order.Group.Abs
import Mathlib.Tactic.Linarith
/-! C133: cuts by outliers ("smart cuts"), by the filter phase, and the table of cuts (mass/core/channel.py, mass/core/channel_group.py). Numbers are
rationals, or NaN (`F`); the robust covariance of scikit-learn is a parameter. -/
namespace Mass.Cut.Smart
open Mass.Cut

/-! ### model -/

/-- the four quantities of one pulse: pretrigger mean and rms, minimum, post-peak derivative (channel.py L2254-2256) -/
abbrev Row := Rat × Rat × Rat × Rat

/-- channel.py L2242-2264 `smart_cuts`; `fit` stands for `sklearn.covariance.MinCovDet().fit(mdata)` followed by `mahalanobis` (squared distances); it
may raise. The result says whether the cuts were computed. Quantities are finite numbers, `n_trainings` is not negative. -/
def smartCuts (fit : List Row → Except Exc (Row → Rat)) (rows : List Row) (threshold : Rat) (nTrainings : Nat) (forceNew : Bool) (s : Sys) :
    Except Exc Bool × Sys :=
  match good s ["smart_cuts"] with
  | .error e => (.error e.exc, s)
  | .ok g =>
    if g.all id || forceNew then
      match fit (rows.take nTrainings) with
      | .error e => (.error e, s)
      | .ok dist =>
        let flag := rows.map (fun r => decide (threshold ^ 2 < dist r))
        match cut "smart_cuts" (.bools flag) s with
        | (.error e, s') => (.error e.exc, s')
        | (.ok _, s') => (.ok true, s')
    else (.ok false, s)

/-- `np.abs(x) > 2`; False for NaN (channel_group.py L1183) -/
def phaseOff : F → Bool
  | some x => decide (2 < |x|)
  | none => false

/-- channel_group.py L1180-1183 `sanitize_p_filt_phase` for one channel: the field is registered (which does nothing if it is there), then cut. -/
def sanitize (phase : List F) : M Unit := do
  registerBool ["filt_phase"]
  cut "filt_phase" (.bools (phase.map phaseOff))

/-- `bad1.sum()` (used for channel.py L2128-2129) -/
def count (l : List Bool) : Nat := l.countP id

/-- One line of the table: pulses bad for both fields, for at least one, and the two names (channel.py L2130). -/
abbrev Line := Nat × Nat × String × String

/-- channel.py L2122-2130: all ordered pairs of different fields. The names are compared with `is`; registered names are taken to be different
strings. -/
def pairLines (s : Sys) (fields : List String) : Except Err (List Line) :=
  (fields.flatMap (fun c1 => (fields.filter (fun c2 => c1 != c2)).map (fun c2 => (c1, c2)))).mapM (fun c => do
    let b1 ← bad s [c.1]
    let b2 ← bad s [c.2]
    pure (count (List.zipWith (· && ·) b1 b2), count (List.zipWith (· || ·) b1 b2), c.1, c.2))

/-- channel.py L2132-2133: the second table. The string lacks its `f`, so its text is printed as it stands. -/
def fieldLines (fields : List String) : List String :=
  fields.map (fun _ => "{self.cuts.bad(cut_name).sum():6d} pulses cut by {cut_name.upper()}")

/-- channel.py L2119-2134 `cut_summary`: both tables and the number of pulses. -/
def summary (s : Sys) : Except Err (List Line × List String × Nat) :=
  let fields := (s.grp.bools.map Prod.fst).filter (· != "")
  match pairLines s fields with
  | .error e => .error e
  | .ok l => .ok (l, fieldLines fields, s.mask.length)

/-! ### lemmas -/

theorem cut_flags {s : Sys} (h : Reachable s) {f : String} (hF : BoolField s f) {m : List Bool} (hm : m.length = s.mask.length) :
    (cut f (.bools m) s).1 = .ok () ∧ Reachable (cut f (.bools m) s).2 ∧ (cut f (.bools m) s).2.grp = s.grp ∧
    (∀ i, Bad (cut f (.bools m) s).2 f i ↔ Bad s f i ∨ m[i]? = some true) ∧
    (∀ n, n ≠ f → ∀ i, Bad (cut f (.bools m) s).2 n i ↔ Bad s n i) ∧
    (∀ G, f ≠ G → categoryCodes (cut f (.bools m) s).2 G = categoryCodes s G) := by
  obtain ⟨old, hold⟩ := bad_exists hF
  obtain ⟨h1, h2⟩ := cut_bool_accumulates h hF hm hold
  have hl : old.length = m.length := by
    obtain ⟨v, hv, hvl⟩ := (bad_ok_iff s [f]).mpr (by intro m hm; simp at hm; subst hm; exact hF)
    rw [hold] at hv
    injection hv with hv
    rw [hv, hvl, hm]
  refine ⟨h1, h.step (.cut f (.bools m)), (cut_only s f _).1, ?_, ?_, ?_⟩
  · intro i
    rw [bad_get h2, bad_get hold, List.getElem?_zipWith]
    rcases Nat.lt_or_ge i old.length with hi | hi
    · rw [List.getElem?_eq_getElem hi, List.getElem?_eq_getElem (by omega)]
      simp
    · rw [List.getElem?_eq_none hi, List.getElem?_eq_none (by omega)]
      simp
  · intro n hn i
    unfold Bad
    rw [(cut_frame h f (.bools m) [n] [] (f ++ "x") (by simp) (by simpa using fun e => hn e.symm) (by simp) (by
      intro e
      have := congrArg String.length e
      rw [String.length_append] at this
      have : "x".length = 1 := by decide
      omega)).2.1]
  · intro G hG
    exact (cut_frame h f (.bools m) [f ++ "x"] [] G (by simp) (by
      rw [List.mem_singleton]
      intro e
      have := congrArg String.length e
      rw [String.length_append] at this
      have : "x".length = 1 := by decide
      omega) (by simp) hG).2.2.2

theorem regLoop_slots {ns : List String} {d : List (String × Word)} {f : Word} {r} (h : regLoop ns d f = .ok r) :
    ∀ (j : Nat) b, r.1[j]? = some b → d[j]? = some b ∨ b.1 ∈ ns := by
  induction ns generalizing d f with
  | nil =>
    unfold regLoop at h
    injection h with h
    subst h
    exact fun j b hb => Or.inl hb
  | cons n ns ih =>
    unfold regLoop at h
    cases hl : lowestAvail f with
    | error e => rw [hl] at h; cases h
    | ok i =>
      rw [hl] at h
      intro j b hb
      rcases ih h j b hb with h' | h'
      · rw [List.getElem?_set] at h'
        split at h'
        · split at h'
          · injection h' with h'
            subst h'
            right; simp
          · cases h'
        · exact Or.inl h'
      · exact Or.inr (List.mem_cons_of_mem _ h')

/-- Registering new fields changes for no pulse whether it is bad for a field that was there. -/
theorem register_keeps_bad {s : Sys} (h : Reachable s) (names : List String) (hok : (registerBool names s).1 = .ok ()) {f : String}
    (hF : BoolField s f) : bad (registerBool names s).2 [f] = bad s [f] := by
  obtain ⟨e1, e2, e3, e4, e5⟩ := register_boolean_effect h names hok
  have hi := h.inv
  have hi' : Inv (registerBool names s).2.grp := registerBool_inv (s := s) hi names
  have hF' : BoolField (registerBool names s).2 f := (e1 f).mpr (Or.inl hF)
  obtain ⟨b1, hb1⟩ := (boolMask_ok (names := [f]) (g := s.grp)).mpr (by intro n hn; rw [List.mem_singleton] at hn; subst hn; exact hF)
  obtain ⟨b2, hb2⟩ := (boolMask_ok (names := [f]) (g := (registerBool names s).2.grp)).mpr
    (by intro n hn; rw [List.mem_singleton] at hn; subst hn; exact hF')
  have : b2 = b1 := by
    apply ext_lsb
    intro j _
    rw [Bool.eq_iff_iff, boolMask_lsb hi hb1, boolMask_lsb hi' hb2]
    constructor
    · rintro ⟨b, h1, h2, h3⟩
      have h3 : b.1 = f := by simpa using h3
      rw [registerBool_run] at h1 hok
      cases hr : regLoop (newNames s.grp names) s.grp.bools s.grp.flags with
      | error e => rw [hr] at hok; cases hok
      | ok r =>
        rw [hr] at h1
        rcases regLoop_slots hr j b h1 with h' | h'
        · exact ⟨b, h', h2, by simp [h3]⟩
        · unfold newNames at h'
          rw [List.mem_filter] at h'
          have := h'.2
          rw [h3] at this
          have hm := hF.2
          simp only [Bool.not_eq_true', List.contains_eq_mem, decide_eq_false_iff_not] at this
          exact absurd hm this
    · rintro ⟨b, h1, h2, h3⟩
      exact ⟨b, e2 j b h1 h2, h2, h3⟩
  unfold bad
  rw [hb1, hb2, e5, this]
  rfl

theorem good_all_iff {s : Sys} {f : String} (hF : BoolField s f) :
    ∃ g, good s [f] = .ok g ∧ (g.all id = true ↔ ∀ i, ¬ Bad s f i) := by
  obtain ⟨v, hv⟩ := bad_exists hF
  refine ⟨v.map (fun b => !b), by rw [good_eq_not_bad, hv]; rfl, ?_⟩
  rw [List.all_eq_true]
  constructor
  · intro ha i hb
    rw [bad_get hv] at hb
    have := ha (!true) (List.mem_map.mpr ⟨true, List.mem_of_getElem? hb, rfl⟩)
    simp at this
  · intro ha x hx
    obtain ⟨y, hy, rfl⟩ := List.mem_map.mp hx
    obtain ⟨i, hi⟩ := List.getElem?_of_mem hy
    cases y with
    | false => rfl
    | true => exact absurd ((bad_get hv i).mpr hi) (ha i)

/-! ### smart cuts -/

/-- The first time, or with `forceNew`: with a row per pulse and a fit that succeeds on the first `nTrainings` pulses the call succeeds, exactly the
pulses whose squared distance is above the square of the threshold are added to the cut ones, and no other field changes. -/
theorem smart_run {fit : List Row → Except Exc (Row → Rat)} {rows : List Row} (threshold : Rat) {nTrainings : Nat} {forceNew : Bool} {s : Sys}
    (h : Reachable s) (hF : BoolField s "smart_cuts") (hr : rows.length = s.mask.length) {dist : Row → Rat}
    (hfit : fit (rows.take nTrainings) = .ok dist) (hrun : forceNew = true ∨ ∀ i, ¬ Bad s "smart_cuts" i) :
    let r := smartCuts fit rows threshold nTrainings forceNew s
    r.1 = .ok true ∧ Reachable r.2 ∧ r.2.grp = s.grp ∧
    (∀ i, Bad r.2 "smart_cuts" i ↔ Bad s "smart_cuts" i ∨ ∃ x, rows[i]? = some x ∧ threshold ^ 2 < dist x) ∧
    (∀ n, n ≠ "smart_cuts" → ∀ i, Bad r.2 n i ↔ Bad s n i) ∧
    (∀ G, "smart_cuts" ≠ G → categoryCodes r.2 G = categoryCodes s G) := by
  obtain ⟨g, hg, hall⟩ := good_all_iff hF
  have hc : (g.all id || forceNew) = true := by
    rcases hrun with h1 | h1
    · simp [h1]
    · rw [hall.mpr h1, Bool.true_or]
  have hlen : (rows.map (fun r => decide (threshold ^ 2 < dist r))).length = s.mask.length := by simp [hr]
  obtain ⟨k1, k2, k3, k4, k5, k6⟩ := cut_flags h hF hlen
  intro r
  have hr' : r = (.ok true, (cut "smart_cuts" (.bools (rows.map (fun r => decide (threshold ^ 2 < dist r)))) s).2) := by
    show smartCuts fit rows threshold nTrainings forceNew s = _
    unfold smartCuts
    rw [hg]
    dsimp only
    rw [if_pos hc, hfit]
    dsimp only
    rw [show cut "smart_cuts" (.bools (rows.map (fun r => decide (threshold ^ 2 < dist r)))) s =
      (.ok (), (cut "smart_cuts" (.bools (rows.map (fun r => decide (threshold ^ 2 < dist r)))) s).2) from Prod.ext k1 rfl]
  rw [hr']
  refine ⟨rfl, k2, k3, ?_, k5, k6⟩
  intro i
  rw [k4]
  apply or_congr Iff.rfl
  rw [List.getElem?_map]
  cases rows[i]? <;> simp

example : Reachable (initial 2) ∧ BoolField (initial 2) "smart_cuts" ∧
    ((bad (smartCuts (fun _ => .ok (fun r => r.1)) [(90, 0, 0, 0), (101, 0, 0, 0)] 10 2 false (initial 2)).2 ["smart_cuts"]).toOption = some [false, true]) := by
  refine ⟨.init 2, ?_, ?_⟩
  · constructor
    · decide
    · decide +kernel
  · decide +kernel

/-- Nothing is done if some pulse is already cut, unless a new computation is asked for. -/
theorem smart_done {fit : List Row → Except Exc (Row → Rat)} {rows : List Row} (threshold : Rat) {nTrainings : Nat} {s : Sys}
    (hF : BoolField s "smart_cuts") {i : Nat} (hi : Bad s "smart_cuts" i) : smartCuts fit rows threshold nTrainings false s = (.ok false, s) := by
  obtain ⟨g, hg, hall⟩ := good_all_iff hF
  unfold smartCuts
  rw [hg]
  dsimp only
  rw [if_neg]
  rw [Bool.or_false, hall]
  exact fun hc => hc i hi

example : (smartCuts (fun _ => .ok (fun r => r.1)) [(90, 0, 0, 0), (101, 0, 0, 0)] 10 2 false
    (Op.step (initial 2) (.cut "smart_cuts" (.bools [true, false])))).1 = .ok false := by decide +kernel

/-- Whatever happens - a fit that fails, arrays of another length, an unknown field - no pulse that was bad for any field becomes good, no other
field changes, and after an exception nothing has changed. -/
theorem smart_keeps {fit : List Row → Except Exc (Row → Rat)} {rows : List Row} (threshold : Rat) {nTrainings : Nat} {forceNew : Bool} {s : Sys}
    (h : Reachable s) :
    let r := smartCuts fit rows threshold nTrainings forceNew s
    Reachable r.2 ∧ (∀ n i, Bad s n i → Bad r.2 n i) ∧ (∀ n, n ≠ "smart_cuts" → ∀ i, Bad r.2 n i ↔ Bad s n i) ∧ (∀ e, r.1 = .error e → r.2 = s) := by
  intro r
  by_cases hF : BoolField s "smart_cuts"
  · obtain ⟨g, hg, hall⟩ := good_all_iff hF
    by_cases hrun : forceNew = true ∨ ∀ i, ¬ Bad s "smart_cuts" i
    · cases hfit : fit (rows.take nTrainings) with
      | error e =>
        have : r = (.error e, s) := by
          show smartCuts fit rows threshold nTrainings forceNew s = _
          unfold smartCuts
          rw [hg]
          dsimp only
          rw [if_pos, hfit]
          rcases hrun with h1 | h1
          · simp [h1]
          · rw [hall.mpr h1, Bool.true_or]
        rw [this]
        exact ⟨h, fun _ _ hb => hb, fun _ _ _ => Iff.rfl, fun _ _ => rfl⟩
      | ok dist =>
        by_cases hr : rows.length = s.mask.length
        · obtain ⟨k1, k2, k3, k4, k5, k6⟩ := smart_run threshold h hF hr hfit hrun
          refine ⟨k2, ?_, k5, fun e he => by rw [show r.1 = _ from k1] at he; cases he⟩
          intro n i hb
          by_cases hn : n = "smart_cuts"
          · subst hn
            exact (k4 i).mpr (Or.inl hb)
          · exact (k5 n hn i).mpr hb
        · have : r = (.error Err.assertion.exc, s) := by
            show smartCuts fit rows threshold nTrainings forceNew s = _
            unfold smartCuts
            rw [hg]
            dsimp only
            rw [if_pos, hfit]
            · dsimp only
              rw [cut_run]
              unfold cutWords
              rw [if_pos (by simpa [Arg.size] using hr)]
            · rcases hrun with h1 | h1
              · simp [h1]
              · rw [hall.mpr h1, Bool.true_or]
          rw [this]
          exact ⟨h, fun _ _ hb => hb, fun _ _ _ => Iff.rfl, fun _ _ => rfl⟩
    · push Not at hrun
      obtain ⟨i, hi⟩ := hrun.2
      have hfn : forceNew = false := by simpa using hrun.1
      have : r = (.ok false, s) := by
        show smartCuts fit rows threshold nTrainings forceNew s = _
        rw [hfn]
        exact smart_done threshold hF hi
      rw [this]
      exact ⟨h, fun _ _ hb => hb, fun _ _ _ => Iff.rfl, fun _ _ => rfl⟩
  · have : ∃ e, r = (.error e, s) := by
      show ∃ e, smartCuts fit rows threshold nTrainings forceNew s = _
      unfold smartCuts
      cases hg : good s ["smart_cuts"] with
      | error e => exact ⟨_, rfl⟩
      | ok g =>
        exfalso
        apply hF
        rw [good_eq_not_bad] at hg
        cases hb : bad s ["smart_cuts"] with
        | error e => rw [hb] at hg; cases hg
        | ok v =>
          have hl : v.length = s.mask.length := by
            unfold bad at hb
            cases hm : boolMask s.grp ["smart_cuts"] with
            | error e => rw [hm] at hb; cases hb
            | ok bm =>
              rw [hm] at hb
              injection hb with hb
              rw [← hb]
              simp
          exact (bad_ok_iff s ["smart_cuts"]).mp ⟨v, hb, hl⟩ "smart_cuts" (by simp)
    obtain ⟨e, he⟩ := this
    rw [he]
    exact ⟨h, fun _ _ hb => hb, fun _ _ _ => Iff.rfl, fun _ _ => rfl⟩

example : (smartCuts (fun _ => .error .value) [(90, 0, 0, 0), (101, 0, 0, 0)] 10 2 true (initial 2)).1 = .error .value := by decide +kernel

/-- Disagreement (C133): computing the cuts anew with a larger threshold should cut the pulses beyond the new threshold; pulses cut before stay cut. -/
theorem smart_force_fails :
    let fit : List Row → Except Exc (Row → Rat) := fun _ => .ok (fun r => r.1)
    let rows : List Row := [(90, 0, 0, 0), (101, 0, 0, 0)]
    let s1 := (smartCuts fit rows 10 2 false (initial 2)).2
    let s2 := (smartCuts fit rows 20 2 true s1).2
    (bad s2 ["smart_cuts"]).toOption = some [false, true] ∧
    (bad (smartCuts fit rows 20 2 true (initial 2)).2 ["smart_cuts"]).toOption = some [false, false] := by decide +kernel

/-- Disagreement (C133): cuts already computed should not be computed again unless asked for; cuts that found no outlier are. Here the second call
cuts a pulse that the first left. -/
theorem smart_again_fails :
    let fit : List Row → Except Exc (Row → Rat) := fun _ => .ok (fun r => r.1)
    let rows : List Row := [(90, 0, 0, 0), (101, 0, 0, 0)]
    let r1 := smartCuts fit rows 20 2 false (initial 2)
    let r2 := smartCuts fit rows 10 2 false r1.2
    r1.1 = .ok true ∧ r2.1 = .ok true ∧ (bad r1.2 ["smart_cuts"]).toOption = some [false, false] ∧
    (bad r2.2 ["smart_cuts"]).toOption = some [false, true] := by decide +kernel

/-! ### filter phase -/

/-- If the field is there or a bit is free the call succeeds and adds exactly the pulses with a phase beyond ±2; no other field changes. -/
theorem sanitize_spec {phase : List F} {s : Sys} (h : Reachable s) (hp : phase.length = s.mask.length)
    (hok : BoolField s "filt_phase" ∨ 1 ≤ freeBits s.grp) :
    (sanitize phase s).1 = .ok () ∧ Reachable (sanitize phase s).2 ∧ BoolField (sanitize phase s).2 "filt_phase" ∧
    (∀ i, Bad (sanitize phase s).2 "filt_phase" i ↔
      Bad (registerBool ["filt_phase"] s).2 "filt_phase" i ∨ ∃ x : Rat, phase[i]? = some (some x) ∧ (x < -2 ∨ 2 < x)) ∧
    (BoolField s "filt_phase" → ∀ i, Bad (registerBool ["filt_phase"] s).2 "filt_phase" i ↔ Bad s "filt_phase" i) ∧
    (∀ n, n ≠ "filt_phase" → BoolField s n → ∀ i, Bad (sanitize phase s).2 n i ↔ Bad s n i) ∧
    (∀ G, "filt_phase" ≠ G → categoryCodes (sanitize phase s).2 G = categoryCodes s G) := by
  have hreg : (registerBool ["filt_phase"] s).1 = .ok () := by
    rw [register_boolean_succeeds_iff h]
    rcases hok with hF | hb
    · have : (["filt_phase"].filter (fun n => decide (n ∉ s.grp.bools.map Prod.fst))) = [] := by
        rw [List.filter_eq_nil_iff]
        intro a ha
        rw [List.mem_singleton] at ha
        subst ha
        simpa using hF.2
      rw [this]
      simp
    · exact le_trans (List.length_filter_le _ _) hb
  obtain ⟨e1, e2, e3, e4, e5⟩ := register_boolean_effect h ["filt_phase"] hreg
  have hF' : BoolField (registerBool ["filt_phase"] s).2 "filt_phase" := (e1 _).mpr (Or.inr ⟨by decide, by simp⟩)
  have h' : Reachable (registerBool ["filt_phase"] s).2 := h.step (.regBool ["filt_phase"])
  have hlen : (phase.map phaseOff).length = (registerBool ["filt_phase"] s).2.mask.length := by rw [e5]; simp [hp]
  obtain ⟨k1, k2, k3, k4, k5, k6⟩ := cut_flags h' hF' hlen
  have hrun : sanitize phase s = cut "filt_phase" (.bools (phase.map phaseOff)) (registerBool ["filt_phase"] s).2 := by
    show M.bind (registerBool ["filt_phase"]) (fun _ => cut "filt_phase" (.bools (phase.map phaseOff))) s = _
    unfold M.bind
    rw [show registerBool ["filt_phase"] s = ((registerBool ["filt_phase"] s).1, (registerBool ["filt_phase"] s).2) from rfl, hreg]
  rw [hrun]
  refine ⟨k1, k2, ?_, ?_, ?_, ?_, ?_⟩
  · rw [boolField_congr k3]; exact hF'
  · intro i
    rw [k4, List.getElem?_map]
    apply or_congr Iff.rfl
    cases hx : phase[i]? with
    | none => simp
    | some x =>
      cases x with
      | none => simp [phaseOff]
      | some y =>
        simp only [Option.map_some, phaseOff, Option.some.injEq, decide_eq_true_eq]
        rw [lt_abs]
        constructor
        · rintro (h1 | h1)
          · exact ⟨y, rfl, Or.inr h1⟩
          · exact ⟨y, rfl, Or.inl (by linarith)⟩
        · rintro ⟨z, hz, h1⟩
          subst hz
          rcases h1 with h1 | h1
          · right; linarith
          · exact Or.inl h1
  · intro hF i
    unfold Bad
    rw [register_keeps_bad h _ hreg hF]
  · intro n hn hF i
    rw [k5 n hn]
    unfold Bad
    rw [register_keeps_bad h _ hreg hF]
  · intro G hG
    rw [k6 G hG]
    unfold categoryCodes
    rw [e3, e5]

example : Reachable (initial 3) ∧ 1 ≤ freeBits (initial 3).grp ∧
    (bad (sanitize [some 1, some (-5/2), none] (initial 3)).2 ["filt_phase"]).toOption = some [false, true, false] := by
  refine ⟨.init 3, ?_, ?_⟩ <;> decide +kernel

/-- On a new field of a group in which no used field was given up, exactly the pulses with a phase beyond ±2 are cut. -/
theorem sanitize_new {phase : List F} {s : Sys} (h : CleanReachable s) (hp : phase.length = s.mask.length) (hb : 1 ≤ freeBits s.grp)
    (hnew : ¬ BoolField s "filt_phase") (i : Nat) :
    Bad (sanitize phase s).2 "filt_phase" i ↔ ∃ x : Rat, phase[i]? = some (some x) ∧ (x < -2 ∨ 2 < x) := by
  have hreg : (registerBool ["filt_phase"] s).1 = .ok () := by
    rw [register_boolean_succeeds_iff h.reachable]
    exact le_trans (List.length_filter_le _ _) hb
  obtain ⟨-, -, -, k4, -⟩ := sanitize_spec h.reachable hp (Or.inr hb)
  rw [k4]
  have := (new_field_starts_good_partial h hreg (F := "filt_phase") (by simp) (by decide) hnew).2
  rw [bad_get this, List.getElem?_map]
  cases s.mask[i]? <;> simp

example : CleanReachable (initial 3) ∧ ¬ BoolField (initial 3) "filt_phase" := by
  refine ⟨.init 3, ?_⟩
  rintro ⟨_, h⟩
  revert h
  decide +kernel

/-- Disagreement (C133): after filtering anew the cut should be about the new phases; a pulse cut for its old phase stays cut. -/
theorem sanitize_again_fails :
    let s1 := (sanitize [some 1, some 3] (initial 2)).2
    (bad (sanitize [some 1, some 0] s1).2 ["filt_phase"]).toOption = some [false, true] ∧
    (bad (sanitize [some 1, some 0] (initial 2)).2 ["filt_phase"]).toOption = some [false, false] := by decide +kernel

/-- Disagreement (C133): a pulse whose phase is not a number should be cut; it is kept. -/
theorem sanitize_nan_fails (s : Sys) (h : Reachable s) (phase : List F) (hp : phase.length = s.mask.length)
    (hF : BoolField s "filt_phase") (i : Nat) (hi : phase[i]? = some none) (hg : ¬ Bad s "filt_phase" i) :
    ¬ Bad (sanitize phase s).2 "filt_phase" i := by
  obtain ⟨-, -, -, k4, k5, -⟩ := sanitize_spec h hp (Or.inl hF)
  rw [k4, k5 hF]
  rintro (h1 | ⟨x, h1, _⟩)
  · exact hg h1
  · rw [hi] at h1
    simp at h1

example : (bad (sanitize [some 1, none] (Op.step (initial 2) (.regBool ["filt_phase"]))).2 ["filt_phase"]).toOption = some [false, false] := by
  decide +kernel

/-! ### table of cuts -/

theorem count_and_or (a b : List Bool) (h : a.length = b.length) :
    count (List.zipWith (· && ·) a b) + count (List.zipWith (· || ·) a b) = count a + count b ∧
    count (List.zipWith (· && ·) a b) ≤ count a ∧ count (List.zipWith (· && ·) a b) ≤ count b ∧
    count a ≤ count (List.zipWith (· || ·) a b) ∧ count b ≤ count (List.zipWith (· || ·) a b) := by
  unfold count
  induction a generalizing b with
  | nil =>
    cases b with
    | nil => simp
    | cons y t => simp at h
  | cons x l ih =>
    cases b with
    | nil => simp at h
    | cons y t =>
      have := ih t (by simpa using h)
      simp only [List.zipWith_cons_cons, List.countP_cons, id]
      cases x <;> cases y <;> simp <;> omega

theorem mapM_ok {α β} {f : α → Except Err β} {l : List α} {r : List β} (h : l.mapM f = .ok r) :
    List.Forall₂ (fun a b => f a = .ok b) l r := by
  induction l generalizing r with
  | nil =>
    simp [List.mapM_nil, pure, Except.pure] at h
    subst h
    exact .nil
  | cons a l ih =>
    rw [List.mapM_cons] at h
    cases ha : f a with
    | error e => rw [ha] at h; cases h
    | ok b =>
      rw [ha] at h
      cases hl : l.mapM f with
      | error e => rw [hl] at h; cases h
      | ok r' =>
        rw [hl] at h
        injection h with h
        subst h
        exact .cons ha (ih hl)

theorem mapM_exists {α β} {f : α → Except Err β} {l : List α} (h : ∀ a ∈ l, ∃ b, f a = .ok b) : ∃ r, l.mapM f = .ok r := by
  induction l with
  | nil => exact ⟨[], rfl⟩
  | cons a l ih =>
    obtain ⟨b, hb⟩ := h a List.mem_cons_self
    obtain ⟨r, hr⟩ := ih (fun x hx => h x (List.mem_cons_of_mem _ hx))
    exact ⟨b :: r, by rw [List.mapM_cons, hb]; show (do let y ← l.mapM f; pure (b :: y)) = _; rw [hr]; rfl⟩

theorem forall2_right {α β} {R : α → β → Prop} {l : List α} {r : List β} (h : List.Forall₂ R l r) : ∀ b ∈ r, ∃ a ∈ l, R a b := by
  induction h with
  | nil => simp
  | cons h1 _ ih =>
    intro b hb
    rcases List.mem_cons.mp hb with rfl | hb
    · exact ⟨_, List.mem_cons_self, h1⟩
    · obtain ⟨a, ha, hr⟩ := ih b hb
      exact ⟨a, List.mem_cons_of_mem _ ha, hr⟩

theorem forall2_left {α β} {R : α → β → Prop} {l : List α} {r : List β} (h : List.Forall₂ R l r) : ∀ a ∈ l, ∃ b ∈ r, R a b := by
  induction h with
  | nil => simp
  | cons h1 _ ih =>
    intro b hb
    rcases List.mem_cons.mp hb with rfl | hb
    · exact ⟨_, List.mem_cons_self, h1⟩
    · obtain ⟨a, ha, hr⟩ := ih b hb
      exact ⟨a, List.mem_cons_of_mem _ ha, hr⟩

/-- The table always comes out; it has a line for every ordered pair of different fields, each line has the number of pulses bad for both and for
at least one of the two fields - together as many as are bad for either, counted for each field - and the last line has the number of pulses. -/
theorem summary_spec (s : Sys) :
    ∃ l t n, summary s = .ok (l, t, n) ∧ n = s.mask.length ∧
    (∀ c1 c2, (∃ a o, (a, o, c1, c2) ∈ l) ↔ BoolField s c1 ∧ BoolField s c2 ∧ c1 ≠ c2) ∧
    (∀ a o c1 c2, (a, o, c1, c2) ∈ l → ∃ b1 b2, bad s [c1] = .ok b1 ∧ bad s [c2] = .ok b2 ∧ b1.length = n ∧ b2.length = n ∧
      a = (List.range n).countP (fun i => b1[i]? == some true && b2[i]? == some true) ∧
      a + o = b1.count true + b2.count true ∧ a ≤ o ∧ o ≤ n) := by
  set fields := (s.grp.bools.map Prod.fst).filter (· != "") with hfields
  have hmem : ∀ c, c ∈ fields ↔ BoolField s c := by
    intro c
    rw [hfields, List.mem_filter]
    unfold BoolField
    simp [and_comm]
  have hbad : ∀ c, BoolField s c → ∃ v, bad s [c] = .ok v ∧ v.length = s.mask.length := by
    intro c hc
    exact (bad_ok_iff s [c]).mpr (by intro m hm; simp at hm; subst hm; exact hc)
  have hpairs : ∀ c1 c2, (c1, c2) ∈ fields.flatMap (fun c1 => (fields.filter (fun c2 => c1 != c2)).map (fun c2 => (c1, c2))) ↔
      BoolField s c1 ∧ BoolField s c2 ∧ c1 ≠ c2 := by
    intro c1 c2
    rw [List.mem_flatMap]
    constructor
    · rintro ⟨x, hx, hxy⟩
      obtain ⟨y, hy, he⟩ := List.mem_map.mp hxy
      rw [List.mem_filter] at hy
      injection he with h1 h2
      subst h1 h2
      exact ⟨(hmem _).mp hx, (hmem _).mp hy.1, by simpa using hy.2⟩
    · rintro ⟨h1, h2, h3⟩
      exact ⟨c1, (hmem _).mpr h1, List.mem_map.mpr ⟨c2, List.mem_filter.mpr ⟨(hmem _).mpr h2, by simpa using h3⟩, rfl⟩⟩
  have hline : ∀ c1 c2 b1 b2, bad s [c1] = .ok b1 → bad s [c2] = .ok b2 →
      (do
        let b1 ← bad s [c1]
        let b2 ← bad s [c2]
        pure (count (List.zipWith (· && ·) b1 b2), count (List.zipWith (· || ·) b1 b2), c1, c2) : Except Err Line) =
      .ok (count (List.zipWith (· && ·) b1 b2), count (List.zipWith (· || ·) b1 b2), c1, c2) := by
    intro c1 c2 b1 b2 h1 h2
    rw [h1, h2]
    rfl
  obtain ⟨l, hl⟩ : ∃ l, pairLines s fields = .ok l := by
    unfold pairLines
    apply mapM_exists
    rintro ⟨c1, c2⟩ hc
    obtain ⟨h1, h2, -⟩ := (hpairs c1 c2).mp hc
    obtain ⟨b1, hb1, -⟩ := hbad c1 h1
    obtain ⟨b2, hb2, -⟩ := hbad c2 h2
    exact ⟨_, hline c1 c2 b1 b2 hb1 hb2⟩
  have hf := mapM_ok (by unfold pairLines at hl; exact hl)
  have hshape : ∀ a o c1 c2, (a, o, c1, c2) ∈ l → BoolField s c1 ∧ BoolField s c2 ∧ c1 ≠ c2 ∧ ∃ b1 b2, bad s [c1] = .ok b1 ∧
      bad s [c2] = .ok b2 ∧ b1.length = s.mask.length ∧ b2.length = s.mask.length ∧ a = count (List.zipWith (· && ·) b1 b2) ∧
      o = count (List.zipWith (· || ·) b1 b2) := by
    intro a o c1 c2 hm
    obtain ⟨⟨d1, d2⟩, hd, hr⟩ := forall2_right hf _ hm
    obtain ⟨h1, h2, h3⟩ := (hpairs d1 d2).mp hd
    obtain ⟨b1, hb1, hl1⟩ := hbad d1 h1
    obtain ⟨b2, hb2, hl2⟩ := hbad d2 h2
    rw [hline d1 d2 b1 b2 hb1 hb2] at hr
    simp only [Except.ok.injEq, Prod.mk.injEq] at hr
    obtain ⟨r1, r2, r3, r4⟩ := hr
    subst r3 r4
    exact ⟨h1, h2, h3, b1, b2, hb1, hb2, hl1, hl2, r1.symm, r2.symm⟩
  refine ⟨l, fieldLines fields, s.mask.length, ?_, rfl, ?_, ?_⟩
  · unfold summary
    dsimp only
    rw [← hfields, hl]
  · intro c1 c2
    constructor
    · rintro ⟨a, o, hm⟩
      obtain ⟨h1, h2, h3, -⟩ := hshape a o c1 c2 hm
      exact ⟨h1, h2, h3⟩
    · intro hc
      obtain ⟨⟨a, o, d1, d2⟩, hm, hr⟩ := forall2_left hf _ ((hpairs c1 c2).mpr hc)
      obtain ⟨b1, hb1, hl1⟩ := hbad c1 hc.1
      obtain ⟨b2, hb2, hl2⟩ := hbad c2 hc.2.1
      rw [hline c1 c2 b1 b2 hb1 hb2] at hr
      simp only [Except.ok.injEq, Prod.mk.injEq] at hr
      obtain ⟨r1, r2, r3, r4⟩ := hr
      subst r3 r4
      exact ⟨a, o, hm⟩
  · intro a o c1 c2 hm
    obtain ⟨-, -, -, b1, b2, hb1, hb2, hl1, hl2, ha, ho⟩ := hshape a o c1 c2 hm
    obtain ⟨k1, k2, k3, k4, k5⟩ := count_and_or b1 b2 (by omega)
    refine ⟨b1, b2, hb1, hb2, hl1, hl2, ?_, ?_, ?_, ?_⟩
    · rw [ha]
      unfold count
      have : List.zipWith (· && ·) b1 b2 = (List.range s.mask.length).map (fun i => b1[i]? == some true && b2[i]? == some true) := by
        apply List.ext_getElem?
        intro i
        rw [List.getElem?_zipWith, List.getElem?_map]
        rcases Nat.lt_or_ge i s.mask.length with hi | hi
        · rw [List.getElem?_range hi, List.getElem?_eq_getElem (show i < b1.length by omega), List.getElem?_eq_getElem (show i < b2.length by omega)]
          simp only [Option.map_some, Option.some.injEq]
          rw [List.getElem?_eq_getElem (show i < b1.length by omega), List.getElem?_eq_getElem (show i < b2.length by omega)]
          cases b1[i] <;> cases b2[i] <;> rfl
        · rw [List.getElem?_eq_none (show b1.length ≤ i by omega), List.getElem?_eq_none (show (List.range s.mask.length).length ≤ i by simpa using hi)]
          rfl
      rw [this, List.countP_map]
      rfl
    · have hc : ∀ b : List Bool, count b = b.count true := by
        intro b
        unfold count
        rw [List.count]
        apply List.countP_congr
        intro x _
        cases x <;> simp
      rw [ha, ho, k1, hc, hc]
    · omega
    · rw [ho]
      unfold count
      refine le_trans List.countP_le_length ?_
      rw [List.length_zipWith]
      omega

example : (summary (Op.step (Op.step (initial 3) (.cut "energy" (.bools [true, true, false]))) (.cut "timing" (.bools [false, true, true])))).toOption.map
    (fun r => (r.1.filter (fun e : Line => e.1 != 0), r.1.length, r.2.2)) =
    some ([(1, 3, "energy", "timing"), (1, 3, "timing", "energy")], 240, 3) := by decide +kernel

/-- Disagreement (C133): the second table should give for each field the number of pulses it cuts; its text is the same for every state with as many
fields. -/
theorem summary_counts_fails (s s' : Sys) {l l' : List Line} {t t' : List String} {n n' : Nat} (h : summary s = .ok (l, t, n))
    (h' : summary s' = .ok (l', t', n')) (hf : s'.grp = s.grp) : t' = t ∧ ∀ x ∈ t, x = "{self.cuts.bad(cut_name).sum():6d} pulses cut by {cut_name.upper()}" := by
  have key : ∀ (s : Sys) {l t n}, summary s = .ok (l, t, n) → t = fieldLines ((s.grp.bools.map Prod.fst).filter (· != "")) := by
    intro s l t n h
    unfold summary at h
    dsimp only at h
    split at h
    · cases h
    · injection h with h
      injection h with h1 h2
      injection h2 with h2 h3
      exact h2.symm
  rw [key s h, key s' h', hf]
  refine ⟨rfl, ?_⟩
  intro x hx
  unfold fieldLines at hx
  obtain ⟨_, _, rfl⟩ := List.mem_map.mp hx
  rfl

example : ((summary (initial 1)).toOption.map (fun r => r.2.1.length)) = some 16 := by decide +kernel

end Mass.Cut.Smart
