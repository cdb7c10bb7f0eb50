import Verif.Calc.FitRange
import Verif.Calc.TableThm
import Mathlib.Data.List.Pairwise
import Mathlib.Tactic.ByContra
import Mathlib.Tactic.Conv
/-! C119: automatic calibration (mass/calibration/algorithms.py, mass/core/channel.py). Exact arithmetic in an ordered field. The smoothed histogram, the
fits of single lines and the calibration curves are arbitrary functions. -/
namespace Mass.Calc.Auto
open Mass Mass.Calc.Fit Mass.Calc.Cal
set_option linter.unusedSectionVars false

variable {K : Type} [Field K] [LinearOrder K] [IsStrictOrderedRing K]

/-! ### model -/

/-- algorithms.py L60-61: the samples, as (position, value), that are above both their neighbours -/
def localMaxima : List (K × K) → List (K × K)
  | a :: b :: c :: t => (if a.2 < b.2 ∧ c.2 < b.2 then [b] else []) ++ localMaxima (b :: c :: t)
  | _ => []

/-- `find_local_maxima`, algorithms.py L37-64; `smooth` is the smeared histogram as pairs of bin center and value (L47-58). Ties may come in another
order. -/
def findLocalMaxima (smooth : List K → K → List (K × K)) (vals : List K) (fwhm : K) : Except Exc (List (K × K)) :=
  if vals = [] then .error .value else .ok ((localMaxima (smooth vals fwhm)).insertionSort (fun a b => b.2 ≤ a.2))

/-- algorithms.py L30-33: the lines with their energies -/
def pairs (feat : String → Option K) : List (Line K) → Except Exc (List (Line K × K))
  | [] => .ok []
  | l :: ls => match energyOf feat l with
    | .error x => .error x
    | .ok e => match pairs feat ls with
      | .error x => .error x
      | .ok ps => .ok ((l, e) :: ps)

/-- `line_names_and_energies`, algorithms.py L23-34 -/
def sortLines (feat : String → Option K) (ls : List (Line K)) : Except Exc (List (Line K × K)) :=
  match pairs feat ls with
  | .error x => .error x
  | .ok ps => .ok (ps.insertionSort (fun a b => a.2 ≤ b.2))

/-- bin sizes: one for all lines or one for each (used for algorithms.py L292-295) -/
inductive Bins (K : Type) where
  | one (b : K)
  | many (l : List K)

/-- what `guess_fit_params` stores, algorithms.py L289-306 -/
structure Params (K : Type) where
  lines : List (Line K)
  energies : List K
  phOpt : List K
  bins : List K
  loHi : List (K × K)
  slopes : List K

/-- one `add_cal_point(ph, e, name)` after the other (used for algorithms.py L298-299, L315-316) -/
def addAll (feat : String → Option K) : Tbl K → List (K × K × String) → Tbl K × Except Exc Unit
  | T, [] => (T, .ok ())
  | T, p :: ps => match addPoint (fun _ => none) feat T p.1 (.num p.2.1) p.2.2 none none true with
    | (T', .error x) => (T', .error x)
    | (T', .ok ()) => addAll feat T' ps

/-- the table of a new calibration (used for algorithms.py L297 and channel.py L1915) -/
def newTbl (curve : Nat) (approx : Bool) : Tbl K :=
  { ph := [], e := [], dph := [], de := [], names := [], npts := 0, curve := curve, nonlin := 115 / 100, approx := approx, gpr := true, stale := false }

/-- `guess_fit_params`, algorithms.py L278-306, after the peaks are found; `curves T` are `energy2ph` and `energy2dedph` of the calibration with table `T` -/
def guess (feat : String → Option K) (curves : Tbl K → (K → K) × (K → K)) (peaks : List K) (lines : List (Line K)) (width : K) (bins : Bins K)
    (nextra inc nextramax : Nat) (tol2 : K) : Except Exc (Params K) :=
  match sortLines feat lines with
  | .error x => .error x
  | .ok ps =>
    let es := ps.map Prod.snd
    match findOptAssignment peaks es nextra inc nextramax tol2 with
    | .error x => .error x
    | .ok a => match addAll feat (newTbl 0 false) ((a.zip es).map (fun p => (p.1, p.2, ""))) with
      | (_, .error x) => .error x
      | (T, .ok ()) => match buildFitRangesPh feat (curves T).1 (es.map Line.energy) [] width with
        | .error x => .error x
        | .ok (es', rs) =>
          .ok { lines := ps.map Prod.fst
                energies := es
                phOpt := a
                bins := (match bins with
                  | .one b => List.replicate es.length b
                  | .many l => l)
                loHi := rs
                slopes := es'.map (curves T).2 }

/-- the loop of `multifit` with `singlefit`, algorithms.py L221-228, L233-236. `fit ph line lo hi bin dP_dE` is the fit of one line: peak and resolution. -/
def fitAll (fit : List K → Line K → K → K → K → K → Except Exc (K × K)) (vals : List K) :
    List (Line K × K) → List (K × K) → List K → List K → Except Exc (List (K × K))
  | [], _, _, _ => .ok []
  | l :: ls, r :: rs, b :: bs, s :: ss =>
    if 5000 < (r.2 - r.1) / (b * (1 / s)) then .error .exception
    else match fit vals l.1 r.1 r.2 (b * (1 / s)) (1 / s) with
      | .error x => .error x
      | .ok f => match fitAll fit vals ls rs bs ss with
        | .error x => .error x
        | .ok fs => .ok (f :: fs)
  | _ :: _, _, _, _ => .error .index

/-- `fit_lines`, algorithms.py L308-322, with `multifit` L205-230; `shw` is `str`. The table is returned also when it raises. -/
def fitLines (feat : String → Option K) (shw : Line K → String) (fit : List K → Line K → K → K → K → K → Except Exc (K × K)) (vals : List K)
    (T : Tbl K) (A : Params K) : Tbl K × Except Exc (List (K × K)) :=
  match sortLines feat A.lines with
  | .error x => (T, .error x)
  | .ok ps => match fitAll fit vals ps A.loHi A.bins A.slopes with
    | .error x => (T, .error x)
    | .ok fs => match addAll feat T ((fs.zip ps).map (fun p => (p.1.1, p.2.2, shw p.2.1))) with
      | (T', .error x) => (T', .error x)
      | (T', .ok ()) => (T', .ok fs)

/-- what `calibrate` uses of the rest of the program (channel.py L1904-1951) -/
structure Env (K : Type) where
  /-- STANDARD_FEATURES, energy_calibration.py -/
  feat : String → Option K
  /-- `str` of a line, algorithms.py L316 -/
  shw : Line K → String
  /-- energy2ph and energy2dedph, energy_calibration.py -/
  curves : Tbl K → (K → K) × (K → K)
  /-- ph2energy, energy_calibration.py -/
  ph2e : Tbl K → K → K
  /-- the smeared histogram, algorithms.py L47-58 -/
  smooth : List K → K → List (K × K)
  /-- the fit of one line, algorithms.py L233-246 -/
  fit : List K → Line K → K → K → K → K → Except Exc (K × K)

/-- the parts of a channel that `calibrate` changes (channel.py L1904-1951): calibrations, saved calibrations, the energies and the calibration last used -/
structure Chan (K : Type) where
  cals : String → Option (Tbl K)
  h5 : String → Option (Saved K)
  energy : List K
  last : Option (Tbl K)

/-- the arguments of `calibrate`, channel.py L1904-1909; `excl` is a list of lines; the closure changes what was guessed -/
structure Args (K : Type) where
  attr : String
  lines : List (Line K)
  ext : String := ""
  fwhm : K
  width : K
  excl : List (Line K) := []
  bins : Bins K
  force : Bool := false
  tol2 : K
  nextra : Nat := 3
  adjust : Params K → Params K := id
  curve : CArg := .str "gain"
  approximate : Bool := false

/-- `convert_to_energy`, channel.py L1944-1951 -/
def convert (ph2e : Tbl K → K → K) (c : Chan K) (vals : List K) (calname : String) : Chan K × Except Exc Unit :=
  match c.cals calname with
  | none => (c, .error .value)
  | some T => ({ c with
      energy := vals.map (ph2e T)
      last := some T }, .ok ())

/-- `calibrate`, channel.py L1904-1941. `vals` is the attribute, `good` the selection. What is returned is the calibration found, or none. Simplified:
`anyfailed` is left out, as no fit ever is a FailedFit. -/
def calibrate (E : Env K) (c : Chan K) (vals : List K) (good : List Bool) (a : Args K) : Chan K × Except Exc (Option (Tbl K)) :=
  let calname := a.attr ++ a.ext
  match a.force, c.cals calname with
  | false, some T => (c, .ok (some T))
  | _, _ => match curveIdx a.curve with
    | .error x => (c, .error x)
    | .ok cv =>
      let sel := (vals.zip good).filterMap (fun p => if p.2 then some p.1 else none)
      match findLocalMaxima E.smooth sel a.fwhm with
      | .error x => (c, .error x)
      | .ok lm => match guess E.feat E.curves (lm.map Prod.fst) a.lines a.width a.bins a.nextra 2 8 a.tol2 with
        | .error x => (c, .error x)
        | .ok A => match fitLines E.feat E.shw E.fit sel (newTbl cv a.approximate) (a.adjust A) with
          | (_, .error x) => (c, .error x)
          | (T, .ok _) =>
            match convert E.ph2e { c with
                cals := fun n => if n = calname then some T else c.cals n
                h5 := fun n => if n = calname then some (save T) else c.h5 n } vals calname with
            | (c', .error x) => (c', .error x)
            | (c', .ok ()) => (c', .ok none)

/-! ### peaks -/

/-- C119. The peaks are exactly the inner samples of the smeared histogram that are above both neighbours. -/
theorem mem_localMaxima (l : List (K × K)) (p : K × K) :
    p ∈ localMaxima l ↔ ∃ i a c, l[i]? = some a ∧ l[i + 1]? = some p ∧ l[i + 2]? = some c ∧ a.2 < p.2 ∧ c.2 < p.2 := by
  fun_induction localMaxima l with
  | case1 a b c t ih =>
    rw [List.mem_append, ih]
    constructor
    · rintro (h | ⟨i, x, y, h1, h2, h3, h4⟩)
      · split at h
        · rename_i hc
          rw [List.mem_singleton] at h
          subst h
          exact ⟨0, a, c, rfl, rfl, rfl, hc⟩
        · simp at h
      · exact ⟨i + 1, x, y, h1, h2, h3, h4⟩
    · rintro ⟨i, x, y, h1, h2, h3, h4⟩
      cases i with
      | zero =>
        simp only [List.getElem?_cons_zero, List.getElem?_cons_succ, Option.some.injEq] at h1 h2 h3
        subst h1 h2 h3
        left
        rw [if_pos h4]
        simp
      | succ i => exact .inr ⟨i, x, y, h1, h2, h3, h4⟩
  | case2 l h =>
    simp only [List.not_mem_nil, false_iff]
    rintro ⟨i, x, y, h1, h2, h3, _⟩
    match l, h with
    | [], _ => simp at h1
    | [_], _ => simp at h3
    | [_, _], _ => simp at h3
    | a :: b :: c :: t, h => exact h a b c t rfl

/-- C119. The peaks found are those of the smeared histogram, the highest first. No pulses at all are refused. -/
theorem peaks_found (smooth : List K → K → List (K × K)) (vals : List K) (fwhm : K) :
    (vals = [] → findLocalMaxima smooth vals fwhm = .error .value) ∧
    (vals ≠ [] → ∃ lm, findLocalMaxima smooth vals fwhm = .ok lm ∧ lm.Pairwise (fun a b => b.2 ≤ a.2) ∧
      ∀ p, p ∈ lm ↔ ∃ i a c, (smooth vals fwhm)[i]? = some a ∧ (smooth vals fwhm)[i + 1]? = some p ∧ (smooth vals fwhm)[i + 2]? = some c ∧ a.2 < p.2 ∧ c.2 < p.2) := by
  unfold findLocalMaxima
  refine ⟨fun h => if_pos h, fun h => ?_⟩
  rw [if_neg h]
  haveI : Std.Total (fun a b : K × K => b.2 ≤ a.2) := ⟨fun a b => le_total _ _⟩
  haveI : IsTrans (K × K) (fun a b : K × K => b.2 ≤ a.2) := ⟨fun a b c h1 h2 => le_trans h2 h1⟩
  exact ⟨_, rfl, List.pairwise_insertionSort _ _, fun p => by rw [List.mem_insertionSort, mem_localMaxima]⟩

/-- Disagreement (C119): a peak whose two highest samples are equal is not found -/
theorem plateau_fails : localMaxima [((0 : ℚ), (0 : ℚ)), (1, 5), (2, 5), (3, 0)] = [] := by decide +kernel

/-! ### lines -/

theorem energyOf_error (feat : String → Option K) (l : Line K) (x : Exc) (h : energyOf feat l = .error x) : x = .type := by
  cases l with
  | name s =>
    cases hs : feat s with
    | none => simp only [energyOf, hs, Except.error.injEq] at h; exact h.symm
    | some e => simp [energyOf, hs] at h
  | energy e => exact absurd h (by simp [energyOf])

/-- the energy of a known line [specification] -/
def val (feat : String → Option K) (l : Line K) : K := match energyOf feat l with
  | .ok e => e
  | .error _ => 0

theorem pairs_spec (feat : String → Option K) (ls : List (Line K)) :
    (pairs feat ls = .ok (ls.map (fun l => (l, val feat l))) ∧ ∀ l ∈ ls, energyOf feat l = .ok (val feat l)) ∨
    (pairs feat ls = .error .type ∧ ∃ l ∈ ls, energyOf feat l = .error .type) := by
  induction ls with
  | nil => left; exact ⟨rfl, by simp⟩
  | cons l ls ih =>
    unfold pairs
    cases hl : energyOf feat l with
    | error x =>
      have := energyOf_error feat l x hl
      subst this
      right
      exact ⟨rfl, l, by simp, hl⟩
    | ok e =>
      have hv : val feat l = e := by simp [val, hl]
      dsimp only
      rcases ih with ⟨h1, h2⟩ | ⟨h1, l', h2, h3⟩
      · left
        rw [h1]
        refine ⟨by simp [hv], ?_⟩
        intro m hm
        rcases List.mem_cons.1 hm with rfl | hm
        · rw [hl, hv]
        · exact h2 m hm
      · right
        rw [h1]
        exact ⟨rfl, l', by simp [h2], h3⟩

/-- C119. Lines are sorted by energy, each with its own energy; one unknown name is an error. -/
theorem sort_lines (feat : String → Option K) (ls : List (Line K)) :
    (∃ ps, sortLines feat ls = .ok ps ∧ (ps.map Prod.fst).Perm ls ∧ (∀ p ∈ ps, energyOf feat p.1 = .ok p.2) ∧ ps.Pairwise (fun a b => a.2 ≤ b.2)) ∨
    (sortLines feat ls = .error .type ∧ ∃ l ∈ ls, energyOf feat l = .error .type) := by
  haveI : Std.Total (fun a b : Line K × K => a.2 ≤ b.2) := ⟨fun a b => le_total _ _⟩
  haveI : IsTrans (Line K × K) (fun a b : Line K × K => a.2 ≤ b.2) := ⟨fun a b c h1 h2 => le_trans h1 h2⟩
  unfold sortLines
  rcases pairs_spec feat ls with ⟨h1, h2⟩ | ⟨h1, h2⟩
  · left
    rw [h1]
    refine ⟨_, rfl, ?_, ?_, List.pairwise_insertionSort _ _⟩
    · refine ((List.perm_insertionSort _ _).map _).trans ?_
      rw [List.map_map]
      simp [Function.comp_def]
    · intro p hp
      rw [List.mem_insertionSort, List.mem_map] at hp
      obtain ⟨l, hl, rfl⟩ := hp
      exact h2 l hl
  · right
    rw [h1]
    exact ⟨rfl, h2⟩

/-- lines given in another order are the same, if no two have the same energy -/
theorem sort_lines_perm (feat : String → Option K) {ls ls' : List (Line K)} (hp : ls.Perm ls')
    (hd : ls.Pairwise (fun a b => ∀ e, energyOf feat a = .ok e → energyOf feat b ≠ .ok e)) : sortLines feat ls = sortLines feat ls' := by
  haveI : Std.Total (fun a b : Line K × K => a.2 ≤ b.2) := ⟨fun a b => le_total _ _⟩
  haveI : IsTrans (Line K × K) (fun a b : Line K × K => a.2 ≤ b.2) := ⟨fun a b c h1 h2 => le_trans h1 h2⟩
  unfold sortLines
  rcases pairs_spec feat ls with ⟨h1, h2⟩ | ⟨h1, l, h2, h3⟩
  · rcases pairs_spec feat ls' with ⟨g1, g2⟩ | ⟨g1, l', g2, g3⟩
    · rw [h1, g1]
      have hperm : ((ls.map (fun l => (l, val feat l))).insertionSort (fun a b => a.2 ≤ b.2)).Perm
          ((ls'.map (fun l => (l, val feat l))).insertionSort (fun a b => a.2 ≤ b.2)) :=
        (List.perm_insertionSort _ _).trans ((hp.map _).trans (List.perm_insertionSort _ _).symm)
      refine congrArg Except.ok (hperm.eq_of_pairwise ?_ (List.pairwise_insertionSort _ _) (List.pairwise_insertionSort _ _))
      intro a b ha hb hab hba
      have he := le_antisymm hab hba
      rw [List.mem_insertionSort, List.mem_map] at ha hb
      obtain ⟨x, hx, rfl⟩ := ha
      obtain ⟨y, hy, rfl⟩ := hb
      have hy' : y ∈ ls := hp.mem_iff.2 hy
      simp only at he
      by_cases hxy : x = y
      · rw [hxy]
      · exfalso
        haveI : Std.Symm (fun a b : Line K => ∀ e, energyOf feat a = .ok e → energyOf feat b ≠ .ok e) := ⟨fun a b h e h1 h2 => h e h2 h1⟩
        have := hd.forall hx hy' hxy (val feat x) (h2 x hx)
        exact this (he ▸ h2 y hy')
    · have := h2 l' (hp.mem_iff.2 g2)
      rw [g3] at this
      exact absurd this (by simp)
  · rcases pairs_spec feat ls' with ⟨g1, g2⟩ | ⟨g1, _⟩
    · have := g2 l (hp.mem_iff.1 h2)
      rw [h3] at this
      exact absurd this (by simp)
    · rw [h1, g1]

/-- sorting again changes nothing -/
theorem sort_lines_again (feat : String → Option K) {ls : List (Line K)} {ps : List (Line K × K)} (h : sortLines feat ls = .ok ps) :
    sortLines feat (ps.map Prod.fst) = .ok ps := by
  rcases sort_lines feat ls with ⟨ps', h1, h2, h3, h4⟩ | ⟨h1, _⟩
  · rw [h1] at h
    cases h
    have hm : (ps.map Prod.fst).map (fun l => (l, val feat l)) = ps := by
      rw [List.map_map]
      conv_rhs => rw [← List.map_id ps]
      apply List.map_congr_left
      intro p hp
      have := h3 p hp
      simp [val, this]
    unfold sortLines
    rcases pairs_spec feat (ps.map Prod.fst) with ⟨g1, g2⟩ | ⟨g1, l, g2, g3⟩
    · rw [g1, hm]
      show Except.ok (List.insertionSort _ ps) = _
      rw [List.Pairwise.insertionSort_eq h4]
    · rw [List.mem_map] at g2
      obtain ⟨p, hp, rfl⟩ := g2
      rw [h3 p hp] at g3
      exact absurd g3 (by simp)
  · rw [h1] at h
    exact absurd h (by simp)

/-! ### adding the points -/

theorem new_aligned (cv : Nat) (ap : Bool) : Aligned (newTbl cv ap : Tbl K) [] := by constructor <;> rfl

/-- the point that is added for a peak, an energy and a name [specification] -/
def pt (p : K × K × String) : Pt K := ⟨p.1, p.2.1, p.1 * (1 / 1000), 1 / 100, p.2.2⟩

/-- far enough from each other to be different points, with different names [specification] -/
def Apart (p q : K × K × String) : Prop := 1 / 100 < |q.2.1 - p.2.1| ∧ (q.2.2 ≠ "" → p.2.2 ≠ q.2.2)

theorem fst_ite {α β : Type} (b : Prop) [Decidable b] (t : α) (x y : β) : (if b then (t, x) else (t, y)).1 = t := by split_ifs <;> rfl

theorem addPoint_settings (parse feat : String → Option K) (T : Tbl K) (pht : K) (en : EArg K) (name : String) (pe ee : Option K) (ow : Bool) :
    (addPoint parse feat T pht en name pe ee ow).1.curve = T.curve ∧ (addPoint parse feat T pht en name pe ee ow).1.approx = T.approx := by
  unfold addPoint
  dsimp only
  cases resolve parse feat en name with
  | none => exact ⟨rfl, rfl⟩
  | some r =>
    obtain ⟨e, n⟩ := r
    dsimp only
    cases target { T with stale := true } n e (ee.getD (1 / 100)) ow with
    | error x => exact ⟨rfl, rfl⟩
    | ok i => cases i <;> (dsimp only; rw [fst_ite]; exact ⟨rfl, rfl⟩)

theorem addAll_spec (feat : String → Option K) (ps : List (K × K × String)) : ∀ (T : Tbl K) (done : List (K × K × String)) (T' : Tbl K),
    Aligned T (done.map pt) → (done ++ ps).Pairwise Apart → addAll feat T ps = (T', .ok ()) →
    Aligned T' ((done ++ ps).map pt) ∧ T'.curve = T.curve ∧ T'.approx = T.approx := by
  induction ps with
  | nil =>
    intro T done T' h _ hok
    simp only [addAll, Prod.mk.injEq, and_true] at hok
    subst hok
    exact ⟨by simpa using h, rfl, rfl⟩
  | cons p ps ih =>
    intro T done T' h hpw hok
    unfold addAll at hok
    cases hadd : addPoint (fun _ => none) feat T p.1 (.num p.2.1) p.2.2 none none true with
    | mk T1 r =>
      rw [hadd] at hok
      cases r with
      | error x => simp at hok
      | ok u =>
        dsimp only at hok
        obtain ⟨e, n, pts', h1, h2, h3⟩ := add_accepted h (fun _ => none) feat p.1 (.num p.2.1) p.2.2 none none true (by rw [hadd])
        simp only [resolve, Option.some.injEq, Prod.mk.injEq] at h1
        obtain ⟨rfl, rfl⟩ := h1
        have hset := addPoint_settings (fun _ => none) feat T p.1 (.num p.2.1) p.2.2 none none true
        rw [hadd] at h3 hset
        have hfar : ∀ q ∈ done, Apart q p := fun q hq => (List.pairwise_append.1 hpw).2.2 q hq p (by simp)
        have hpts : pts' = (done ++ [p]).map pt := by
          have hthe : thePoint p.1 p.2.1 p.2.2 none none = pt p := rfl
          rw [hthe] at h2
          rw [List.map_append]
          cases h2 with
          | name pre old post g1 g2 g3 g4 =>
            have : old ∈ done.map pt := by rw [g1]; simp
            rw [List.mem_map] at this
            obtain ⟨q, hq, rfl⟩ := this
            exact absurd g3 ((hfar q hq).2 g2)
          | near pre old post g1 g2 g3 g4 =>
            have : old ∈ done.map pt := by rw [g1]; simp
            rw [List.mem_map] at this
            obtain ⟨q, hq, rfl⟩ := this
            exact absurd g3 (not_le.2 (hfar q hq).1)
          | new g1 g2 => rfl
        rw [hpts] at h3
        obtain ⟨k1, k2, k3⟩ := ih T1 (done ++ [p]) T' h3 (by simpa using hpw) hok
        exact ⟨by simpa using k1, k2.trans hset.1, k3.trans hset.2⟩

/-- a table that was accepted is monotone -/
theorem addAll_monotone (feat : String → Option K) (ps : List (K × K × String)) : ∀ (T T' : Tbl K) (pts : List (Pt K)), Aligned T pts →
    (∀ p ∈ pts, ∀ q ∈ pts, p.ph < q.ph → p.e ≤ q.e) → addAll feat T ps = (T', .ok ()) →
    ∃ pts', Aligned T' pts' ∧ ∀ p ∈ pts', ∀ q ∈ pts', p.ph < q.ph → p.e ≤ q.e := by
  induction ps with
  | nil =>
    intro T T' pts h hm hok
    simp only [addAll, Prod.mk.injEq, and_true] at hok
    subst hok
    exact ⟨pts, h, hm⟩
  | cons p ps ih =>
    intro T T' pts h _ hok
    unfold addAll at hok
    cases hadd : addPoint (fun _ => none) feat T p.1 (.num p.2.1) p.2.2 none none true with
    | mk T1 r =>
      rw [hadd] at hok
      cases r with
      | error x => simp at hok
      | ok u =>
        obtain ⟨pts', h1, h2⟩ := accepted_monotone h (fun _ => none) feat p.1 (.num p.2.1) p.2.2 none none true (by rw [hadd])
        rw [hadd] at h1
        exact ih T1 T' pts' h1 h2 hok

/-! ### guessing -/

theorem buildFitRangesPh_energies (feat : String → Option K) (e2ph : K → K) {es : List K} (hs : es.Pairwise (· ≤ ·)) (w : K) {es' : List K} {rs : List (K × K)}
    (h : buildFitRangesPh feat e2ph (es.map Line.energy) [] w = .ok (es', rs)) :
    es' = es ∧ es.Pairwise (· < ·) ∧ rs = es.map (fun e => (e2ph (fitRange es w e).1, e2ph (fitRange es w e).2)) := by
  have hen : energiesOf feat (es.map Line.energy) = .ok es := by
    clear hs h
    induction es with
    | nil => rfl
    | cons e es ih => simp only [List.map_cons, energiesOf, energyOf, ih]
  have hle : lineEnergies feat (es.map Line.energy) = .ok es := by
    unfold lineEnergies
    rw [hen]
    show Except.ok (List.insertionSort _ es) = _
    rw [List.Pairwise.insertionSort_eq hs]
  unfold buildFitRangesPh buildFitRanges at h
  rw [hle] at h
  simp only [lineEnergies, energiesOf, List.insertionSort_nil, List.append_nil] at h
  rw [List.Pairwise.insertionSort_eq hs] at h
  by_cases hd : es.length = es.dedup.length
  · rw [if_pos hd] at h
    simp only [Except.ok.injEq, Prod.mk.injEq] at h
    obtain ⟨rfl, rfl⟩ := h
    have hn : es.Nodup := by
      rw [← List.dedup_eq_self]
      exact ((List.dedup_sublist es).eq_of_length hd.symm)
    refine ⟨rfl, ?_, by simp⟩
    exact (hs.and hn).imp (fun h => lt_of_le_of_ne h.1 h.2)
  · rw [if_neg hd] at h
    exact absurd h (by simp)

/-- C119. What is guessed: the lines in order of energy with their own energies, which are all different; as many peaks, in increasing order, chosen among
those found; for every line a range in pulse height that goes from and to the calibrated ends of its range in energy, its slope and its bin size. -/
theorem guess_spec (feat : String → Option K) (curves : Tbl K → (K → K) × (K → K)) (peaks : List K) (lines : List (Line K)) (width : K) (bins : Bins K)
    (nextra inc nextramax : Nat) (tol2 : K) {A : Params K} (h : guess feat curves peaks lines width bins nextra inc nextramax tol2 = .ok A) :
    A.lines.Perm lines ∧ List.Forall₂ (fun l e => energyOf feat l = .ok e) A.lines A.energies ∧ A.energies.Pairwise (· < ·) ∧
    findOptAssignment peaks A.energies nextra inc nextramax tol2 = .ok A.phOpt ∧ A.phOpt.Pairwise (· ≤ ·) ∧ A.phOpt.length = lines.length ∧
    (∀ x ∈ A.phOpt, x ∈ peaks) ∧
    (∃ T, addAll feat (newTbl 0 false) ((A.phOpt.zip A.energies).map (fun p => (p.1, p.2, ""))) = (T, .ok ()) ∧
      A.loHi = A.energies.map (fun e => ((curves T).1 (fitRange A.energies width e).1, (curves T).1 (fitRange A.energies width e).2)) ∧
      A.slopes = A.energies.map (curves T).2) ∧
    A.bins = (match bins with
      | .one b => List.replicate lines.length b
      | .many l => l) := by
  unfold guess at h
  rcases sort_lines feat lines with ⟨ps, h1, h2, h3, h4⟩ | ⟨h1, _⟩
  · rw [h1] at h
    dsimp only at h
    cases ha : findOptAssignment peaks (ps.map Prod.snd) nextra inc nextramax tol2 with
    | error x => rw [ha] at h; exact absurd h (by simp)
    | ok a =>
      rw [ha] at h
      dsimp only at h
      cases hT : addAll feat (newTbl 0 false) ((a.zip (ps.map Prod.snd)).map (fun p => (p.1, p.2, ""))) with
      | mk T r =>
        rw [hT] at h
        cases r with
        | error x => exact absurd h (by simp)
        | ok u =>
          dsimp only at h
          cases hb : buildFitRangesPh feat (curves T).1 ((ps.map Prod.snd).map Line.energy) [] width with
          | error x => rw [hb] at h; exact absurd h (by simp)
          | ok er =>
            obtain ⟨es', rs⟩ := er
            rw [hb] at h
            simp only [Except.ok.injEq] at h
            subst h
            have hs : (ps.map Prod.snd).Pairwise (· ≤ ·) := List.pairwise_map.2 h4
            obtain ⟨k1, k2, k3⟩ := buildFitRangesPh_energies feat (curves T).1 hs width hb
            obtain ⟨j, _, ⟨g1, cc, g2, g3, g4⟩, _⟩ := assignment_best peaks _ nextra inc nextramax tol2 ha
            have hlen : ps.length = lines.length := by simpa using h2.length_eq
            refine ⟨h2, ?_, k2, ha, g1, ?_, ?_, ⟨T, hT, k3, by rw [k1]⟩, ?_⟩
            · rw [List.forall₂_map_left_iff, List.forall₂_map_right_iff, List.forall₂_same]
              exact h3
            · rw [g4.length_eq, g3, List.length_map, hlen]
            · intro x hx
              exact List.mem_of_mem_take (g2.subset (g4.mem_iff.1 hx))
            · cases bins <;> simp [hlen]
  · rw [h1] at h
    exact absurd h (by simp)

/-- C119. The order in which lines are named does not matter, if no two have the same energy. -/
theorem guess_perm (feat : String → Option K) (curves : Tbl K → (K → K) × (K → K)) (peaks : List K) {lines lines' : List (Line K)} (hp : lines.Perm lines')
    (hd : lines.Pairwise (fun a b => ∀ e, energyOf feat a = .ok e → energyOf feat b ≠ .ok e)) (width : K) (bins : Bins K)
    (nextra inc nextramax : Nat) (tol2 : K) :
    guess feat curves peaks lines width bins nextra inc nextramax tol2 = guess feat curves peaks lines' width bins nextra inc nextramax tol2 := by
  unfold guess
  rw [sort_lines_perm feat hp hd]

/-! ### fitting -/

/-- C119. Every line is fitted in its own range, with its own bin size and slope, both in units of pulse height. -/
theorem fit_all (fit : List K → Line K → K → K → K → K → Except Exc (K × K)) (vals : List K) (ls : List (Line K × K)) :
    ∀ (rs : List (K × K)) (bs ss : List K) (fs : List (K × K)), fitAll fit vals ls rs bs ss = .ok fs →
    fs.length = ls.length ∧ ∀ (i : Nat) (l : Line K × K), ls[i]? = some l → ∃ (r : K × K) (b s : K) (f : K × K), rs[i]? = some r ∧ bs[i]? = some b ∧ ss[i]? = some s ∧ fs[i]? = some f ∧
      (r.2 - r.1) / (b / s) ≤ 5000 ∧ fit vals l.1 r.1 r.2 (b / s) (1 / s) = .ok f := by
  induction ls with
  | nil =>
    intro rs bs ss fs h
    simp only [fitAll, Except.ok.injEq] at h
    subst h
    simp
  | cons l ls ih =>
    intro rs bs ss fs h
    match rs, bs, ss with
    | [], _, _ => simp [fitAll] at h
    | _ :: _, [], _ => simp [fitAll] at h
    | _ :: _, _ :: _, [] => simp [fitAll] at h
    | r :: rs, b :: bs, s :: ss =>
      unfold fitAll at h
      split at h
      · exact absurd h (by simp)
      · rename_i hb
        cases hf : fit vals l.1 r.1 r.2 (b * (1 / s)) (1 / s) with
        | error x => rw [hf] at h; exact absurd h (by simp)
        | ok f =>
          rw [hf] at h
          dsimp only at h
          cases hr : fitAll fit vals ls rs bs ss with
          | error x => rw [hr] at h; exact absurd h (by simp)
          | ok fs' =>
            rw [hr] at h
            simp only [Except.ok.injEq] at h
            subst h
            obtain ⟨i1, i2⟩ := ih rs bs ss fs' hr
            refine ⟨by simp [i1], ?_⟩
            intro i l' hl'
            cases i with
            | zero =>
              simp only [List.getElem?_cons_zero, Option.some.injEq] at hl'
              subst hl'
              have hbs : b * (1 / s) = b / s := by ring
              rw [hbs] at hf hb
              exact ⟨r, b, s, f, rfl, rfl, rfl, rfl, not_lt.1 hb, hf⟩
            | succ i => exact i2 i l' hl'

/-- C119. Bins of more than 5000 in one range are refused. -/
theorem too_many_bins (fit : List K → Line K → K → K → K → K → Except Exc (K × K)) (vals : List K) (l : Line K × K) (ls : List (Line K × K)) (r : K × K)
    (rs : List (K × K)) (b s : K) (bs ss : List K) (h : 5000 < (r.2 - r.1) / (b / s)) : fitAll fit vals (l :: ls) (r :: rs) (b :: bs) (s :: ss) = .error .exception := by
  unfold fitAll
  rw [if_pos (by rwa [show b * (1 / s) = b / s by ring])]

/-- C119. Fitting adds one point for every line: the fitted peak, its energy and its name, if the names differ and no two energies are within 0.01 eV. -/
theorem fit_lines (feat : String → Option K) (shw : Line K → String) (fit : List K → Line K → K → K → K → K → Except Exc (K × K)) (vals : List K)
    (cv : Nat) (ap : Bool) (A : Params K) {T' : Tbl K} {fs : List (K × K)} {ps : List (Line K × K)} (hps : sortLines feat A.lines = .ok ps)
    (hfar : ps.Pairwise (fun a b => 1 / 100 < b.2 - a.2)) (hnames : (A.lines.map shw).Nodup)
    (h : fitLines feat shw fit vals (newTbl cv ap) A = (T', .ok fs)) :
    fitAll fit vals ps A.loHi A.bins A.slopes = .ok fs ∧
    Aligned T' ((fs.zip ps).map (fun p => (⟨p.1.1, p.2.2, p.1.1 * (1 / 1000), 1 / 100, shw p.2.1⟩ : Pt K))) ∧ T'.npts = A.lines.length ∧
    T'.curve = cv ∧ T'.approx = ap ∧ (∀ p ∈ fs.zip ps, ∀ q ∈ fs.zip ps, p.1.1 < q.1.1 → p.2.2 ≤ q.2.2) := by
  unfold fitLines at h
  rw [hps] at h
  dsimp only at h
  cases hf : fitAll fit vals ps A.loHi A.bins A.slopes with
  | error x => rw [hf] at h; simp at h
  | ok fs' =>
    rw [hf] at h
    dsimp only at h
    cases hT : addAll feat (newTbl cv ap) ((fs'.zip ps).map (fun p => (p.1.1, p.2.2, shw p.2.1))) with
    | mk T1 r =>
      rw [hT] at h
      cases r with
      | error x => simp at h
      | ok u =>
        simp only [Prod.mk.injEq, Except.ok.injEq] at h
        obtain ⟨rfl, rfl⟩ := h
        obtain ⟨hl, _⟩ := fit_all fit vals ps _ _ _ _ hf
        have hperm : (ps.map Prod.fst).Perm A.lines := by
          rcases sort_lines feat A.lines with ⟨ps', g1, g2, _, _⟩ | ⟨g1, _⟩
          · rw [g1] at hps
            cases hps
            exact g2
          · rw [g1] at hps
            exact absurd hps (by simp)
        have hnd : (ps.map (fun p => shw p.1)).Nodup := by
          have := (hperm.map shw).nodup_iff.2 hnames
          rwa [List.map_map] at this
        have hsnd : (fs'.zip ps).map Prod.snd = ps := by rw [List.map_snd_zip]; omega
        have hap : ((fs'.zip ps).map (fun p => (p.1.1, p.2.2, shw p.2.1))).Pairwise Apart := by
          rw [List.pairwise_map]
          have h1 : (fs'.zip ps).Pairwise (fun a b => 1 / 100 < b.2.2 - a.2.2) := by
            rw [← List.pairwise_map (f := Prod.snd) (R := fun a b : Line K × K => 1 / 100 < b.2 - a.2), hsnd]
            exact hfar
          have h2 : (fs'.zip ps).Pairwise (fun a b => shw a.2.1 ≠ shw b.2.1) := by
            have : ((fs'.zip ps).map Prod.snd).Pairwise (fun a b : Line K × K => shw a.1 ≠ shw b.1) := by
              rw [hsnd]
              exact List.pairwise_map.1 hnd
            rw [List.pairwise_map] at this
            exact this
          exact (h1.and h2).imp (fun {a b} h => ⟨lt_of_lt_of_le h.1 (le_abs_self _), fun _ => h.2⟩)
        obtain ⟨k1, k2, k3⟩ := addAll_spec feat _ (newTbl cv ap) [] T1 (new_aligned cv ap) (by simpa using hap) hT
        rw [List.nil_append, List.map_map] at k1
        obtain ⟨pts', m1, m2⟩ := addAll_monotone feat _ (newTbl cv ap) T1 [] (new_aligned cv ap) (by simp) hT
        have := aligned_inj m1 k1
        subst this
        refine ⟨rfl, k1, ?_, k2, k3, ?_⟩
        · rw [k1.npts, List.length_map, List.length_zip, hl, Nat.min_self, ← hperm.length_eq, List.length_map]
        · intro p hp q hq hlt
          exact m2 _ (List.mem_map_of_mem hp) _ (List.mem_map_of_mem hq) hlt

/-! ### calibrating a channel -/

/-- C119. A new calibration is made of the good pulses only, is stored and saved under its name, and then all pulses, good or not, get their energies by
it. Nothing else changes. -/
theorem calibrate_new (E : Env K) (c c' : Chan K) (vals : List K) (good : List Bool) (a : Args K) (h : calibrate E c vals good a = (c', .ok none)) :
    ∃ cv lm A T fs, curveIdx a.curve = .ok cv ∧
      findLocalMaxima E.smooth ((vals.zip good).filterMap (fun p => if p.2 then some p.1 else none)) a.fwhm = .ok lm ∧
      guess E.feat E.curves (lm.map Prod.fst) a.lines a.width a.bins a.nextra 2 8 a.tol2 = .ok A ∧
      fitLines E.feat E.shw E.fit ((vals.zip good).filterMap (fun p => if p.2 then some p.1 else none)) (newTbl cv a.approximate) (a.adjust A) = (T, .ok fs) ∧
      c'.energy = vals.map (E.ph2e T) ∧ c'.last = some T ∧ c'.cals (a.attr ++ a.ext) = some T ∧ c'.h5 (a.attr ++ a.ext) = some (save T) ∧
      ∀ n, n ≠ a.attr ++ a.ext → c'.cals n = c.cals n ∧ c'.h5 n = c.h5 n := by
  unfold calibrate at h
  dsimp only at h
  split at h
  · simp at h
  · cases hc : curveIdx a.curve with
    | error x => rw [hc] at h; simp at h
    | ok cv =>
      rw [hc] at h
      dsimp only at h
      cases hl : findLocalMaxima E.smooth ((vals.zip good).filterMap (fun p => if p.2 then some p.1 else none)) a.fwhm with
      | error x => rw [hl] at h; simp at h
      | ok lm =>
        rw [hl] at h
        dsimp only at h
        cases hg : guess E.feat E.curves (lm.map Prod.fst) a.lines a.width a.bins a.nextra 2 8 a.tol2 with
        | error x => rw [hg] at h; simp at h
        | ok A =>
          rw [hg] at h
          dsimp only at h
          cases hf : fitLines E.feat E.shw E.fit ((vals.zip good).filterMap (fun p => if p.2 then some p.1 else none)) (newTbl cv a.approximate) (a.adjust A) with
          | mk T r =>
            rw [hf] at h
            cases r with
            | error x => simp at h
            | ok fs =>
              simp only [convert, if_pos, Prod.mk.injEq, and_true] at h
              subst h
              refine ⟨cv, lm, A, T, fs, rfl, rfl, hg, hf, rfl, rfl, if_pos rfl, if_pos rfl, ?_⟩
              intro n hn
              exact ⟨if_neg hn, if_neg hn⟩

/-- C119. If anything fails the channel is as it was: no calibration, nothing saved, the energies as before. -/
theorem calibrate_failed (E : Env K) (c c' : Chan K) (vals : List K) (good : List Bool) (a : Args K) (x : Exc) (h : calibrate E c vals good a = (c', .error x)) :
    c' = c := by
  unfold calibrate at h
  dsimp only at h
  split at h
  · simp at h
  · cases hc : curveIdx a.curve with
    | error x => rw [hc] at h; simp only [Prod.mk.injEq] at h; exact h.1.symm
    | ok cv =>
      rw [hc] at h
      dsimp only at h
      cases hl : findLocalMaxima E.smooth ((vals.zip good).filterMap (fun p => if p.2 then some p.1 else none)) a.fwhm with
      | error x => rw [hl] at h; simp only [Prod.mk.injEq] at h; exact h.1.symm
      | ok lm =>
        rw [hl] at h
        dsimp only at h
        cases hg : guess E.feat E.curves (lm.map Prod.fst) a.lines a.width a.bins a.nextra 2 8 a.tol2 with
        | error x => rw [hg] at h; simp only [Prod.mk.injEq] at h; exact h.1.symm
        | ok A =>
          rw [hg] at h
          dsimp only at h
          cases hf : fitLines E.feat E.shw E.fit ((vals.zip good).filterMap (fun p => if p.2 then some p.1 else none)) (newTbl cv a.approximate) (a.adjust A) with
          | mk T r =>
            rw [hf] at h
            cases r with
            | error x => simp only [Prod.mk.injEq] at h; exact h.1.symm
            | ok fs => simp [convert] at h

/-- C119. A calibration of that name that is there already is returned and nothing is done, unless a new one is forced. -/
theorem calibrate_found (E : Env K) (c : Chan K) (vals : List K) (good : List Bool) (a : Args K) (T : Tbl K) (hf : a.force = false)
    (hT : c.cals (a.attr ++ a.ext) = some T) : calibrate E c vals good a = (c, .ok (some T)) := by
  unfold calibrate
  simp only [hf, hT]

/-- C119. A result is returned only for a calibration that was there and was not to be replaced. -/
theorem calibrate_found_only (E : Env K) (c c' : Chan K) (vals : List K) (good : List Bool) (a : Args K) (T : Tbl K)
    (h : calibrate E c vals good a = (c', .ok (some T))) : a.force = false ∧ c.cals (a.attr ++ a.ext) = some T ∧ c' = c := by
  cases hf : a.force with
  | false =>
    cases hT : c.cals (a.attr ++ a.ext) with
    | none =>
      exfalso
      unfold calibrate at h
      simp only [hf, hT] at h
      repeat' (split at h)
      all_goals simp at h
    | some T' =>
      rw [calibrate_found E c vals good a T' hf hT] at h
      simp only [Prod.mk.injEq, Except.ok.injEq, Option.some.injEq] at h
      exact ⟨rfl, by rw [h.2], h.1.symm⟩
  | true =>
    exfalso
    unfold calibrate at h
    simp only [hf] at h
    repeat' (split at h)
    all_goals simp at h

/-- C119. Whatever order the lines are named in, the channel is calibrated in the same way. -/
theorem calibrate_order (E : Env K) (c : Chan K) (vals : List K) (good : List Bool) (a : Args K) {lines' : List (Line K)} (hp : a.lines.Perm lines')
    (hd : a.lines.Pairwise (fun x y => ∀ e, energyOf E.feat x = .ok e → energyOf E.feat y ≠ .ok e)) :
    calibrate E c vals good { a with lines := lines' } = calibrate E c vals good a := by
  unfold calibrate
  simp only [guess_perm E.feat E.curves _ hp hd]

/-- C119. A new calibration has one point for every line, with the peak fitted to the good pulses, the energy of the line and its name, ordered in the same
way by pulse height and energy. -/
theorem calibrate_points (E : Env K) (c c' : Chan K) (vals : List K) (good : List Bool) (a : Args K) (h : calibrate E c vals good a = (c', .ok none))
    (ha : a.adjust = id) (hd : a.lines.Pairwise (fun x y => ∀ e e', energyOf E.feat x = .ok e → energyOf E.feat y = .ok e' → 1 / 100 < |e' - e|))
    (hn : (a.lines.map E.shw).Nodup) :
    ∃ T pts, c'.cals (a.attr ++ a.ext) = some T ∧ Aligned T pts ∧ (pts.map Pt.name).Perm (a.lines.map E.shw) ∧
      pts.Pairwise (fun p q => p.e < q.e ∧ p.ph ≤ q.ph) ∧
      ∀ p ∈ pts, ∃ l ∈ a.lines, energyOf E.feat l = .ok p.e ∧ p.name = E.shw l ∧
        ∃ lo hi bin slope fwhm, E.fit ((vals.zip good).filterMap (fun p => if p.2 then some p.1 else none)) l lo hi bin slope = .ok (p.ph, fwhm) := by
  obtain ⟨cv, lm, A, T, fs, h1, h2, h3, h4, h5, h6, h7, h8, h9⟩ := calibrate_new E c c' vals good a h
  rw [ha] at h4
  obtain ⟨g1, g2, g3, _⟩ := guess_spec _ _ _ _ _ _ _ _ _ _ h3
  rcases sort_lines E.feat A.lines with ⟨ps, k1, k2, k3, k4⟩ | ⟨k1, _⟩
  · have hperm := k2.trans g1
    have hfar0 : ps.Pairwise (fun p q => 1 / 100 < |q.2 - p.2|) := by
      have hs : ∀ x y : Line K, (∀ e e', energyOf E.feat x = .ok e → energyOf E.feat y = .ok e' → 1 / 100 < |e' - e|) →
          (∀ e e', energyOf E.feat y = .ok e → energyOf E.feat x = .ok e' → 1 / 100 < |e' - e|) := by
        intro x y hxy e e' he he'
        rw [abs_sub_comm]
        exact hxy e' e he' he
      have := (hperm.pairwise_iff (fun {x y} => hs x y)).2 hd
      rw [List.pairwise_map] at this
      exact this.imp_of_mem (fun {p q} hp hq hpq => hpq p.2 q.2 (k3 p hp) (k3 q hq))
    have hfar : ps.Pairwise (fun p q => 1 / 100 < q.2 - p.2) :=
      (hfar0.and k4).imp (fun {p q} hpq => by rw [abs_of_nonneg (sub_nonneg.2 hpq.2)] at hpq; exact hpq.1)
    obtain ⟨f1, f2, f3, f4, f5, f6⟩ := fit_lines E.feat E.shw E.fit _ cv a.approximate A k1 hfar ((g1.map E.shw).nodup_iff.2 hn) h4
    obtain ⟨l1, l2⟩ := fit_all _ _ _ _ _ _ _ f1
    have hsnd : (fs.zip ps).map Prod.snd = ps := by rw [List.map_snd_zip]; omega
    refine ⟨T, _, h7, f2, ?_, ?_, ?_⟩
    · rw [List.map_map]
      have : (fs.zip ps).map (Pt.name ∘ fun p => (⟨p.1.1, p.2.2, p.1.1 * (1 / 1000), 1 / 100, E.shw p.2.1⟩ : Pt K)) = (ps.map Prod.fst).map E.shw := by
        conv_rhs => rw [← hsnd, List.map_map, List.map_map]
        rfl
      rw [this]
      exact hperm.map _
    · rw [List.pairwise_map]
      have hlt : (fs.zip ps).Pairwise (fun p q => p.2.2 < q.2.2) := by
        have : ((fs.zip ps).map Prod.snd).Pairwise (fun p q : Line K × K => p.2 < q.2) := by
          rw [hsnd]
          exact hfar.imp (fun {p q} h => by have : (0 : K) < 1 / 100 := by norm_num
                                            linarith)
        rw [List.pairwise_map] at this
        exact this
      refine hlt.imp_of_mem (fun {p q} hp hq hpq => ⟨hpq, ?_⟩)
      by_contra hc
      exact absurd (f6 q hq p hp (not_le.1 hc)) (not_le.2 hpq)
    · intro p hp
      rw [List.mem_map] at hp
      obtain ⟨z, hz, rfl⟩ := hp
      obtain ⟨i, hi, hzi⟩ := List.getElem_of_mem hz
      have hi1 : i < fs.length := by rw [List.length_zip] at hi; omega
      have hi2 : i < ps.length := by rw [List.length_zip] at hi; omega
      rw [List.getElem_zip] at hzi
      have hps : ps[i]? = some z.2 := by rw [List.getElem?_eq_getElem hi2, ← hzi]
      obtain ⟨r, b, s, f, _, _, _, q4, _, q6⟩ := l2 i z.2 hps
      have hfz : f = z.1 := by
        rw [List.getElem?_eq_getElem hi1, Option.some.injEq] at q4
        rw [← q4, ← hzi]
      have hmem : z.2 ∈ ps := List.mem_of_getElem? hps
      refine ⟨z.2.1, hperm.mem_iff.1 (List.mem_map_of_mem hmem), k3 _ hmem, rfl, r.1, r.2, b / s, 1 / s, z.1.2, ?_⟩
      rw [q6, hfz]
  · exfalso
    unfold fitLines at h4
    rw [show (id A : Params K).lines = A.lines from rfl, k1] at h4
    simp at h4

/-- Disagreement (C119): lines to be kept out of the fit ranges can be given, but they are ignored -/
theorem excl_fails (E : Env K) (c : Chan K) (vals : List K) (good : List Bool) (a : Args K) (excl : List (Line K)) :
    calibrate E c vals good { a with excl := excl } = calibrate E c vals good a := rfl

/-- Disagreement (C119): after a calibration was found the energies may still be those of another: calibrating by a first attribute, converting by a second
one and asking for the first again leaves the energies of the second -/
theorem found_fails (E : Env K) (c : Chan K) (valsA valsB : List K) (good : List Bool) (a : Args K) (nb : String) (Ta Tb : Tbl K)
    (ha : c.cals (a.attr ++ a.ext) = some Ta) (hb : c.cals nb = some Tb) (hf : a.force = false) :
    (calibrate E (convert E.ph2e c valsB nb).1 valsA good a).1.energy = valsB.map (E.ph2e Tb) := by
  have h1 : (convert E.ph2e c valsB nb).1.cals (a.attr ++ a.ext) = some Ta := by
    unfold convert
    rw [hb]
    exact ha
  rw [calibrate_found E _ valsA good a Ta hf h1]
  unfold convert
  rw [hb]

/-- Disagreement (C119): bin sizes given one for each line are not sorted along with the lines: here the line at 200 was to have bins of 5 -/
theorem bins_fails : (guess (fun _ => none) (fun _ => (fun e => e, fun _ => 1)) [(200 : ℚ), 100] [.energy 200, .energy 100] 20 (.many [5, 1]) 2 2 8 (1 / 100)).map
    (fun A => (A.energies, A.bins, A.loHi)) = .ok ([100, 200], [5, 1], [(90, 110), (190, 210)]) := by decide +kernel

/-! ### an example -/

/-- a program whose fits give the middle of the range [specification] -/
def demo : Env ℚ :=
  { feat := fun s => if s = "A" then some 300 else none
    shw := fun l => match l with
      | .name s => s
      | .energy _ => "100"
    curves := fun _ => (fun e => 2 * e, fun _ => 1 / 2)
    ph2e := fun T x => x * T.e.getD 0 0 / T.ph.getD 0 1
    smooth := fun vals _ => [(0, 0)] ++ vals.flatMap (fun v => [(v, 1), (v + 1, 0)])
    fit := fun _ _ lo hi _ _ => .ok ((lo + hi) / 2, 1) }

/-- its channel before calibration [specification] -/
def chan0 : Chan ℚ := ⟨fun _ => none, fun _ => none, [], none⟩

example : (let r := calibrate demo chan0 [600, 5, 200] [true, false, true] { attr := "p", lines := [.name "A", .energy 100], fwhm := 1, width := 20, bins := .one 1, tol2 := 1 }
    (r.2.map (fun t => t.isNone), r.1.energy, (r.1.cals "p").map (fun T => (T.names, T.ph, T.e)))) =
    (.ok true, [300, 5 / 2, 100], some (["100", "A"], [200, 600], [100, 300])) := by decide +kernel

example : (let r := calibrate demo chan0 [600, 5, 200] [true, false, false] { attr := "p", lines := [.name "A", .energy 100], fwhm := 1, width := 20, bins := .one 1, tol2 := 1 }
    (r.2.map (fun t => t.isNone), r.1.energy)) = (.error .value, []) := by decide +kernel

end Mass.Calc.Auto
