import Verif.Py
import Verif.Cut.Apply
/-!
`MicrocalDataSet.auto_cuts`, how its result is stored and read back (mass/core/channel.py L2137-2239), and what uses it (L1382-1387): C102.
The standard deviations and maximum derivatives of the noise records, the usual peak sample and the percentile are inputs.
-/
namespace Mass.Cut

/-- An exception of cut.py as a Python exception (used for mass/core/channel.py L2216) -/
def Err.exc : Err → Exc
  | .value => .value
  | .key => .key
  | .assertion => .assertion
  | .index => .index

/-- the channel: the cut words, `saved_auto_cuts` (the controls, and the median and sigma of the noise's pretrigger rms if they are attributes) and the attributes of the
HDF5 group cuts/auto_cuts, mass/core/channel.py L82, L2219-2226 -/
structure Chan where
  sys : Sys
  saved : Option (Controls × Option (Rat × Rat))
  stored : Option (List (String × Rat))

/-- what `auto_cuts` computes its limits from, mass/core/channel.py L2178-2206: of every noise record the standard deviation of the pretrigger part and the maximum
derivative; `percentile` is the wanted percentile of the pretrigger rms, if asked for -/
structure AutoIn where
  peakSample : Int
  nPresamples : Int
  timebase : Rat
  noise : List (Rat × Rat)
  nsigmaRms : Rat
  nsigmaDeriv : Rat
  percentile : Option Rat

/-- np.median(...) + np.median(|...|)*1.4826*nsigma (used for mass/core/channel.py L2190-2196) -/
def robustLimit (x : List Rat) (nsigma : Rat) : Rat :=
  Stat.FirstN.median x + Stat.FirstN.median (x.map (fun y => |y - Stat.FirstN.median x|)) * (14826 / 10000) * nsigma

/-- the limits, mass/core/channel.py L2178-2214. `max_deriv` is computed after the loop, from the last record only; without records `data` is unbound. -/
def autoLimits (p : AutoIn) : Except Exc (Controls × (Rat × Rat)) :=
  let peakTime : Rat := ((3 + p.peakSample - p.nPresamples : Int) : Rat) * p.timebase * 1000
  match p.noise.getLast? with
  | none => .error .unbound
  | some last =>
    let maxDeriv := [last.2]
    let rms := p.noise.map Prod.fst
    let mdMax := robustLimit maxDeriv p.nsigmaDeriv
    let ptMax := max 0 (robustLimit rms p.nsigmaRms)
    let ptMax := match p.percentile with
      | none => ptMax
      | some x => max ptMax x
    .ok (fun n => if n = "peak_time_ms" then .pair (some 0) (some (peakTime * (5 / 4)))
          else if n = "rise_time_ms" then .pair (some 0) (some (peakTime * (11 / 10)))
          else if n = "pretrigger_rms" then .pair none (some ptMax)
          else if n = "postpeak_deriv" then .pair none (some mdMax)
          else .none,
        (Stat.FirstN.median rms, Stat.FirstN.median (rms.map (fun y => |y - Stat.FirstN.median rms|)) * (14826 / 10000)))

/-- the upper limit, `cuts.cuts_prm[attrname][1]` (used for mass/core/channel.py L2226) -/
def Allowed.upper : Allowed → Option Rat
  | .pair _ b => b
  | _ => Option.none

/-- `__save_auto_cuts`, mass/core/channel.py L2219-2226: the upper limits become HDF5 attributes -/
def saveAuto (ch : Chan) (c : Controls) (stats : Rat × Rat) : Chan :=
  { ch with saved := some (c, some stats),
            stored := some (["peak_time_ms", "rise_time_ms", "pretrigger_rms", "postpeak_deriv"].filterMap (fun n => (c n).upper.map (fun x => (n, x)))) }

/-- `__load_auto_cuts`, mass/core/channel.py L2228-2239, when a file is opened again: what is in memory is lost -/
def loadAuto (ch : Chan) : Chan :=
  { ch with saved := ch.stored.map (fun l => (fun n => match l.find? (fun e => e.1 == n) with
      | none => .none
      | some e => .pair none (some e.2), none)) }

/-- `clear_cuts`, mass/core/channel.py L1689-1693 -/
def clearCuts (ch : Chan) : Chan := { ch with sys := (clearCut [] ch.sys).2, saved := none }

/-- `auto_cuts`, mass/core/channel.py L2137-2217; the result is None if nothing was done -/
def autoCuts (ch : Chan) (q : Quant) (p : AutoIn) (forceNew clear : Bool) : Except Exc (Option Controls) × Chan :=
  if ch.saved.isSome && !forceNew then (.ok none, ch)
  else
    let ch := if clear then clearCuts ch else ch
    match autoLimits p with
    | .error e => (.error e, ch)
    | .ok (c, stats) =>
      match applyCuts q (some c) false true ch.sys with
      | (.error e, s) => (.error e.exc, { ch with sys := s })
      | (.ok _, s) => (.ok (some c), saveAuto { ch with sys := s } c stats)

/-- what the pulse model takes from the saved cuts, mass/core/channel.py L1382-1387: `saved_auto_cuts` always exists as an attribute, so the helpful message never appears -/
def modelStats (ch : Chan) : Except Exc (Rat × Rat) :=
  match ch.saved with
  | none => .error .attribute
  | some (_, none) => .error .attribute
  | some (_, some st) => .ok st

/-! ### theorems -/

/-- C102: when cuts are known and `forceNew` is not given nothing happens. -/
theorem auto_skip (ch : Chan) (h : ch.saved ≠ none) (q : Quant) (p : AutoIn) (clear : Bool) : autoCuts ch q p false clear = (.ok none, ch) := by
  unfold autoCuts
  rw [if_pos]
  cases hs : ch.saved with
  | none => exact absurd hs h
  | some _ => rfl

/-- C102: the limit for the pretrigger rms: `median + 1.4826 MAD nsigma` of the noise records, not below 0 nor the percentile. [specification] -/
def rmsLimit (p : AutoIn) : Rat :=
  let l := max 0 (Stat.FirstN.median (p.noise.map Prod.fst) + 1.4826 * Stat.mad (p.noise.map Prod.fst) * p.nsigmaRms)
  p.percentile.elim l (max l)

/-- the time in ms from the trigger to three samples after the usual peak [specification] -/
def peakMs (p : AutoIn) : Rat := 1000 * p.timebase * (p.peakSample + 3 - p.nPresamples)

theorem autoLimits_ok (p : AutoIn) (last : Rat × Rat) (hl : p.noise.getLast? = some last) :
    ∃ c st, autoLimits p = .ok (c, st) ∧ st.1 = Stat.FirstN.median (p.noise.map Prod.fst) ∧ st.2 = 1.4826 * Stat.mad (p.noise.map Prod.fst) ∧
      c "peak_time_ms" = .pair (some 0) (some (1.25 * peakMs p)) ∧ c "rise_time_ms" = .pair (some 0) (some (1.1 * peakMs p)) ∧
      c "pretrigger_rms" = .pair none (some (rmsLimit p)) ∧ c "postpeak_deriv" = .pair none (some last.2) ∧
      ∀ n, n ≠ "peak_time_ms" → n ≠ "rise_time_ms" → n ≠ "pretrigger_rms" → n ≠ "postpeak_deriv" → c n = .none := by
  unfold autoLimits
  rw [hl]
  refine ⟨_, _, rfl, rfl, ?_, ?_, ?_, ?_, ?_, ?_⟩
  · show Stat.mad _ * _ = _
    ring
  · rw [if_pos rfl]
    unfold peakMs
    congr 2
    push_cast
    ring
  · rw [if_neg (by decide), if_pos rfl]
    unfold peakMs
    congr 2
    push_cast
    ring
  · rw [if_neg (by decide), if_neg (by decide), if_pos rfl]
    have e : robustLimit (p.noise.map Prod.fst) p.nsigmaRms =
        Stat.FirstN.median (p.noise.map Prod.fst) + 1.4826 * Stat.mad (p.noise.map Prod.fst) * p.nsigmaRms := by
      unfold robustLimit Stat.mad
      ring
    rw [e]
    unfold rmsLimit
    cases p.percentile <;> rfl
  · rw [if_neg (by decide), if_neg (by decide), if_neg (by decide), if_pos rfl]
    have e : ∀ x : Rat, Stat.FirstN.median [x] = x := fun x => by simp [Stat.FirstN.median]
    unfold robustLimit
    simp only [List.map_cons, List.map_nil, e]
    simp
  · intro n h1 h2 h3 h4
    rw [if_neg h1, if_neg h2, if_neg h3, if_neg h4]

/-- the four cuts set automatically: the limits of the field `n` [specification] -/
def autoAllowed (p : AutoIn) (deriv : Rat) (n : String) (x : F) : Prop :=
  if n = "peak_time_ms" then violates x (some 0) (some (1.25 * peakMs p))
  else if n = "rise_time_ms" then violates x (some 0) (some (1.1 * peakMs p))
  else if n = "pretrigger_rms" then violates x none (some (rmsLimit p))
  else if n = "postpeak_deriv" then violates x none (some deriv)
  else False

/-- C102: `auto_cuts`: (after clearing, if wanted) a pulse is marked bad exactly where its peak time or rise time is not positive or 1.25 (1.1) times the usual one,
where its pretrigger rms reaches the limit from the noise records, or its derivative after the peak that of the last noise record. No other field changes; the
limits are remembered, so that calling again changes nothing. -/
theorem auto_cuts_partial {ch : Chan} (h : Reachable ch.sys) (hb : ∀ n ∈ cutNames, BoolField ch.sys n) {q : Quant} (hq : q.Fits ch.sys.mask.length)
    (h0 : ch.sys.mask.length ≠ 0) (p : AutoIn) {last : Rat × Rat} (hl : p.noise.getLast? = some last) (forceNew clear : Bool)
    (hf : ch.saved = none ∨ forceNew = true) {ch' : Chan} (hc : ch' = (autoCuts ch q p forceNew clear).2) :
    (∃ c, (autoCuts ch q p forceNew clear).1 = .ok (some c) ∧
      ch'.saved = some (c, some (Stat.FirstN.median (p.noise.map Prod.fst), 1.4826 * Stat.mad (p.noise.map Prod.fst)))) ∧
    ch'.stored = some [("peak_time_ms", 1.25 * peakMs p), ("rise_time_ms", 1.1 * peakMs p), ("pretrigger_rms", rmsLimit p), ("postpeak_deriv", last.2)] ∧
    (∀ n, BoolField ch.sys n → ∀ i < ch.sys.mask.length, Bad ch'.sys n i ↔ (clear = false ∧ Bad ch.sys n i) ∨ autoAllowed p last.2 n (q.value n i)) ∧
    modelStats ch' = .ok (Stat.FirstN.median (p.noise.map Prod.fst), 1.4826 * Stat.mad (p.noise.map Prod.fst)) ∧
    (∀ q' p' cl, autoCuts ch' q' p' false cl = (.ok none, ch')) := by
  obtain ⟨c, st, hlim, hs1, hs2, k1, k2, k3, k4, k5⟩ := autoLimits_ok p last hl
  obtain ⟨ch1, hch1⟩ : ∃ ch1, ch1 = if clear then clearCuts ch else ch := ⟨_, rfl⟩
  have hclr : Reachable ch1.sys ∧ ch1.sys.grp = ch.sys.grp ∧ ch1.sys.mask.length = ch.sys.mask.length ∧
      (∀ n, BoolField ch.sys n → ∀ i, Bad ch1.sys n i ↔ clear = false ∧ Bad ch.sys n i) := by
    subst hch1
    cases clear with
    | false => exact ⟨h, rfl, rfl, fun n _ i => by simp⟩
    | true =>
      obtain ⟨_, c2, c3, c4, c5, _⟩ := clear_bad h
      exact ⟨c2, c3, c4, fun n hn i => ⟨fun hb => absurd hb (c5 n hn i), fun hb => Bool.noConfusion hb.1⟩⟩
  obtain ⟨r1, g1, l1, b1⟩ := hclr
  have hprop : ∀ n ∈ cutNames, (c n).Proper := by
    intro n _
    by_cases e1 : n = "peak_time_ms"
    · rw [e1, k1]; trivial
    by_cases e2 : n = "rise_time_ms"
    · rw [e2, k2]; trivial
    by_cases e3 : n = "pretrigger_rms"
    · rw [e3, k3]; trivial
    by_cases e4 : n = "postpeak_deriv"
    · rw [e4, k4]; trivial
    rw [k5 n e1 e2 e3 e4]; trivial
  obtain ⟨a1, _, a3, a4, a5, ⟨L, _, _, a6⟩, a7, _⟩ := apply_cuts r1 (fun n hn => (boolField_congr g1 n).mpr (hb n hn)) (q := q) (by rw [l1]; exact hq)
    (by rw [l1]; exact h0) (some c) rfl hprop false true rfl
  have hrun : autoCuts ch q p forceNew clear = (.ok (some c), saveAuto { ch1 with sys := (applyCuts q (some c) false true ch1.sys).2 } c st) := by
    unfold autoCuts
    rw [if_neg (by rcases hf with hf | hf <;> simp [hf]), ← hch1]
    dsimp only
    rw [hlim]
    dsimp only
    rw [show applyCuts q (some c) false true ch1.sys = (.ok (), (applyCuts q (some c) false true ch1.sys).2) from Prod.ext a1 rfl]
  have hst : st = (Stat.FirstN.median (p.noise.map Prod.fst), 1.4826 * Stat.mad (p.noise.map Prod.fst)) := Prod.ext hs1 hs2
  rw [hrun] at hc ⊢
  refine ⟨⟨c, rfl, ?_⟩, ?_, ?_, ?_, ?_⟩
  · rw [hc, hst]; rfl
  · rw [hc]
    show some (List.filterMap _ _) = _
    simp only [List.filterMap_cons, List.filterMap_nil, k1, k2, k3, k4, Allowed.upper, Option.map_some]
  · intro n hn i hi
    have hsys : ch'.sys = (applyCuts q (some c) false true ch1.sys).2 := by rw [hc]; rfl
    rw [hsys]
    by_cases hcn : n ∈ cutNames
    · by_cases hd : n = dep
      · subst hd
        rw [a6 i (by rw [l1]; exact hi), b1 _ hn i]
        show _ ∨ (L ≠ [] ∧ (c dep).excludes _) ↔ _
        have hk : c dep = .none := k5 dep (by decide) (by decide) (by decide) (by decide)
        have hna : ¬ autoAllowed p last.2 dep (q.value dep i) := by
          unfold autoAllowed
          rw [if_neg (by decide), if_neg (by decide), if_neg (by decide), if_neg (by decide)]
          exact id
        rw [hk]
        simp [Allowed.excludes, hna]
      · rw [a5 n hcn hd i (by rw [l1]; exact hi), b1 _ hn i]
        show _ ∨ (c n).excludes _ ↔ _
        have : (c n).excludes (q.value n i) ↔ autoAllowed p last.2 n (q.value n i) := by
          unfold autoAllowed
          by_cases e1 : n = "peak_time_ms"
          · rw [if_pos e1, e1, k1]; rfl
          rw [if_neg e1]
          by_cases e2 : n = "rise_time_ms"
          · rw [if_pos e2, e2, k2]; rfl
          rw [if_neg e2]
          by_cases e3 : n = "pretrigger_rms"
          · rw [if_pos e3, e3, k3]; rfl
          rw [if_neg e3]
          by_cases e4 : n = "postpeak_deriv"
          · rw [if_pos e4, e4, k4]; rfl
          rw [if_neg e4, k5 n e1 e2 e3 e4]; rfl
        rw [this]
        simp
    · rw [a7 n ((boolField_congr g1 n).mpr hn) hcn i, b1 _ hn i]
      have : ¬ autoAllowed p last.2 n (q.value n i) := by
        unfold autoAllowed
        have hne : ∀ m, m ∈ cutNames → n ≠ m := fun m hm e => hcn (e ▸ hm)
        rw [if_neg (hne _ (by decide)), if_neg (hne _ (by decide)), if_neg (hne _ (by decide)), if_neg (hne _ (by decide))]
        exact id
      simp [this]
  · rw [hc, ← hst]; rfl
  · intro q' p' cl
    exact auto_skip ch' (by rw [hc]; simp [saveAuto]) q' p' cl

/-- C102: the limit for the pretrigger rms: never negative; for `nsigma ≥ 0` at least half of the noise records are at or below it; it grows with `nsigma`;
in other units (or with another gain) it changes as the noise does; the order of the noise records does not matter. -/
theorem rms_limit (p : AutoIn) (hn : p.noise ≠ []) :
    0 ≤ rmsLimit p ∧
    (0 ≤ p.nsigmaRms → p.noise.length ≤ 2 * p.noise.countP (fun r => decide (r.1 ≤ rmsLimit p))) ∧
    (∀ k, p.nsigmaRms ≤ k → rmsLimit p ≤ rmsLimit { p with nsigmaRms := k }) ∧
    (∀ g : Rat, 0 < g → rmsLimit { p with noise := p.noise.map (fun r => (g * r.1, r.2)), percentile := p.percentile.map (g * ·) } = g * rmsLimit p) ∧
    (∀ l, l.Perm p.noise → rmsLimit { p with noise := l } = rmsLimit p) ∧
    (∀ x, p.percentile = some x → x ≤ rmsLimit p) := by
  have hx : p.noise.map Prod.fst ≠ [] := by simpa using hn
  have hm := Stat.mad_half hx
  have hle : ∀ m : Rat, max 0 m ≤ p.percentile.elim (max 0 m) (max (max 0 m)) := by
    intro m
    cases p.percentile with
    | none => exact le_refl _
    | some x => exact le_max_left _ _
  refine ⟨?_, ?_, ?_, ?_, ?_, ?_⟩
  · exact le_trans (le_max_left 0 _) (hle _)
  · intro h0
    have hmed := (Stat.median_half hx).1
    rw [List.length_map, List.countP_map] at hmed
    refine le_trans hmed (Nat.mul_le_mul_left 2 (List.countP_mono_left ?_))
    intro r _ hr
    have hr' : r.1 ≤ Stat.FirstN.median (p.noise.map Prod.fst) := by simpa using hr
    have hs : (0 : Rat) ≤ 1.4826 * Stat.mad (p.noise.map Prod.fst) * p.nsigmaRms :=
      mul_nonneg (mul_nonneg (by norm_num) hm.2.2) h0
    have : r.1 ≤ rmsLimit p := by
      refine le_trans ?_ (hle _)
      refine le_trans ?_ (le_max_right _ _)
      linarith
    simpa using this
  · intro k hk
    unfold rmsLimit
    dsimp only
    have hmono : Stat.FirstN.median (p.noise.map Prod.fst) + 1.4826 * Stat.mad (p.noise.map Prod.fst) * p.nsigmaRms ≤
        Stat.FirstN.median (p.noise.map Prod.fst) + 1.4826 * Stat.mad (p.noise.map Prod.fst) * k := by
      have : 1.4826 * Stat.mad (p.noise.map Prod.fst) * p.nsigmaRms ≤ 1.4826 * Stat.mad (p.noise.map Prod.fst) * k :=
        mul_le_mul_of_nonneg_left hk (mul_nonneg (by norm_num) hm.2.2)
      linarith
    cases p.percentile with
    | none => exact max_le_max (le_refl _) hmono
    | some x => exact max_le_max (max_le_max (le_refl _) hmono) (le_refl _)
  · intro g hg
    unfold rmsLimit
    dsimp only
    have e : (p.noise.map (fun r => (g * r.1, r.2))).map Prod.fst = (p.noise.map Prod.fst).map (fun y => g * y + 0) := by
      rw [List.map_map, List.map_map]
      apply List.map_congr_left
      intro r _
      simp
    rw [e, Stat.median_affine (ne_of_gt hg) 0 hx, Stat.mad_affine (ne_of_gt hg) 0 hx, abs_of_pos hg]
    have e2 : ∀ a b : Rat, max 0 (g * a + 0 + 1.4826 * (g * b) * p.nsigmaRms) = g * max 0 (a + 1.4826 * b * p.nsigmaRms) := by
      intro a b
      rw [mul_max_of_nonneg _ _ hg.le, mul_zero]
      congr 1
      ring
    rw [e2]
    cases p.percentile with
    | none => rfl
    | some x => exact (mul_max_of_nonneg _ _ hg.le).symm
  · intro l hl
    unfold rmsLimit
    dsimp only
    rw [Stat.median_perm (hl.map _), Stat.mad_perm (hl.map _)]
  · intro x hxp
    unfold rmsLimit
    rw [hxp]
    exact le_max_right _ _

/-- two noise records, then pulses [specification] -/
def demoIn : AutoIn := { peakSample := 110, nPresamples := 100, timebase := 1/100000, noise := [(4, 9), (5, 40), (6, 2)], nsigmaRms := 8, nsigmaDeriv := 8, percentile := none }

example : rmsLimit demoIn = 5 + 1.4826 * 8 := by decide +kernel
example : rmsLimit { demoIn with percentile := some 30 } = 30 := by decide +kernel

/-- a new file with five pulses [specification] -/
def demoChan : Chan := { sys := initial 5, saved := none, stored := none }

/-- pulses of which the first peaks before the trigger, the second has a noisy start and the third a second peak [specification] -/
def demoP : Quant := { demoQ with peakTime := [some (-1/10000), some (1/10000), some (1/10000), some (1/10000), some (1/10000)],
                                  postpeakDeriv := [some 1, some 1, some 5, some 1, some 1] }

example : bad (autoCuts demoChan demoP demoIn false true).2.sys ["peak_time_ms"] = .ok [true, false, false, false, false] ∧
    bad (autoCuts demoChan demoP demoIn false true).2.sys ["pretrigger_rms"] = .ok [false, true, false, false, false] ∧
    bad (autoCuts demoChan demoP demoIn false true).2.sys ["postpeak_deriv"] = .ok [false, false, true, false, false] := by decide +kernel

/-- Disagreement (C102): the limit of the derivative is to be `nsigma_max_deriv` normalised median deviations above the median of the noise records; it is the maximum
derivative of the last noise record, whatever the others are and whatever `nsigma_max_deriv` is (the computation stands after the loop, not in it). -/
theorem auto_deriv_fails :
    (∀ p : AutoIn, ∀ last k, p.noise.getLast? = some last → ∃ c st, autoLimits { p with nsigmaDeriv := k } = .ok (c, st) ∧ c "postpeak_deriv" = .pair none (some last.2)) ∧
    robustLimit (demoIn.noise.map Prod.snd) 8 > 90 ∧ demoIn.noise.getLast? = some (6, 2) := by
  refine ⟨?_, by decide +kernel, rfl⟩
  intro p last k hl
  obtain ⟨c, st, h1, _, _, _, _, _, h2, _⟩ := autoLimits_ok { p with nsigmaDeriv := k } last hl
  exact ⟨c, st, h1, h2⟩

/-- Disagreement (C102): without noise records `auto_cuts` raises UnboundLocalError, after it has cleared the cuts. -/
theorem auto_no_noise_fails : (autoCuts demoChan demoP { demoIn with noise := [] } false true).1 = .error .unbound ∧
    (∀ ch : Chan, ∀ q p, p.noise = [] → (autoCuts ch q p true true) = (.error .unbound, clearCuts ch)) := by
  constructor
  · rfl
  · intro ch q p hp
    unfold autoCuts
    rw [if_neg (by simp)]
    unfold autoLimits
    rw [hp]
    rfl

/-- Disagreement (C102): only the upper limits are stored, so that after reopening the file the saved cuts no longer ask for positive peak and rise times: applied to the same
pulses they mark fewer. -/
theorem auto_reload_fails :
    let ch := (autoCuts demoChan demoP demoIn false true).2
    bad ch.sys ["peak_time_ms"] = .ok [true, false, false, false, false] ∧
    ∃ c st, (loadAuto ch).saved = some (c, st) ∧
      bad (applyCuts demoP (some c) true true ch.sys).2 ["peak_time_ms"] = .ok [false, false, false, false, false] :=
  ⟨by decide +kernel, _, _, rfl, by decide +kernel⟩

/-- Disagreement (C102): the median and sigma the pulse model needs are not stored: after reopening the file, or without `auto_cuts`, making one ends in AttributeError (the message that
tells to use auto_cuts cannot appear). -/
theorem auto_model_fails (ch : Chan) : modelStats (loadAuto ch) = .error .attribute ∧ (ch.saved = none → modelStats ch = .error .attribute) := by
  constructor
  · unfold modelStats loadAuto
    cases ch.stored <;> rfl
  · intro h
    unfold modelStats
    rw [h]

/-- Disagreement (C102): `clear_cuts` does not remove the stored cuts: when the file is opened again `auto_cuts` believes that its cuts exist and leaves all pulses good. -/
theorem auto_clear_reopen_fails :
    let ch := loadAuto (clearCuts (autoCuts demoChan demoP demoIn false true).2)
    (autoCuts ch demoP demoIn false true).1 = .ok none ∧ good (autoCuts ch demoP demoIn false true).2.sys [] = .ok [true, true, true, true, true] := by
  constructor
  · rfl
  · decide +kernel

/-- C102: after `clear_cuts` (in the same session) the automatic cuts are computed anew. -/
theorem auto_after_clear (ch : Chan) (q : Quant) (p : AutoIn) (cl : Bool) :
    autoCuts (clearCuts ch) q p false cl = autoCuts (clearCuts ch) q p true cl := by
  unfold autoCuts
  rfl

end Mass.Cut
