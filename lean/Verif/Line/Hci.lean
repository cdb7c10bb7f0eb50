import Mathlib.Data.List.Induction
import Verif.Line.Asd
import Mathlib.Algebra.Order.Field.Basic
import Mathlib.Data.List.GetD
import Mathlib.Data.List.Nodup
import Mathlib.Data.Rat.Floor
import Mathlib.Tactic.FieldSimp
import Mathlib.Tactic.LinearCombination
import Mathlib.Tactic.Linarith
import Mathlib.Tactic.NormNum
import Mathlib.Tactic.Push
/-! C131: composite models of lines of highly charged ions (mass/calibration/hci_models.py).
A model is the list of its line components and the expressions that tie parameters together; lmfit keeps the expressions of parts in a sum. Strings are lists of characters. Exact arithmetic over an ordered field. -/
namespace Mass.Line.Hci
set_option linter.unusedSectionVars false
open Mass Mass.Line.Asd
variable {K : Type} [Field K] [LinearOrder K] [IsStrictOrderedRing K]

/-- str.replace('J=', ''), hci_models.py L26 -/
def dropJ : Str → Str
  | 'J' :: '=' :: t => dropJ t
  | c :: t => c :: dropJ t
  | [] => []

/-- replacement of single characters, hci_models.py L26: '/' by '_', '*' and '.' by nothing -/
def repl (c : Char) : Str := if c = '/' then ['_'] else if c = '*' ∨ c = '.' then [] else [c]

/-- the prefix made of the name of a line, hci_models.py L25-26, L90-93, L147-148 -/
def mkPrefix (name : Str) : Str := (dropJ ((name ++ ['_']).map (fun c => if c = ' ' then '_' else c))).flatMap repl

/-- a line component (hci_models.py L47-48, L57-58) -/
structure Comp (K : Type) where
  name : Str
  pre : Str
  energy : K
  deriving DecidableEq

/-- an expression for a parameter (hci_models.py L63, L66, L69, L105): another one, one displaced by a distance times a gain, or a product of two -/
inductive Expr (K : Type)
  | same (p : Str)
  | shift (s : K) (gain p : Str)
  | prod (p q : Str)
  deriving DecidableEq

/-- parameters with expressions (used for hci_models.py L62-70) -/
abbrev Hints (K : Type) := List (Str × Expr K)

/-- param_hints[name]["expr"], hci_models.py L62 -/
def look (h : Hints K) (n : Str) : Option (Expr K) := (h.find? (fun e => decide (e.1 = n))).map Prod.snd

/-- a model: its line components in order, expressions, and the peak component (hci_models.py L42-54) -/
structure Model (K : Type) where
  comps : List (Comp K)
  hints : Hints K
  peak : Option (Comp K) := none

/-- a single line, hci_models.py L15-29 -/
def lineModel (name : Str) (energy : K) : Model K := ⟨[⟨name, mkPrefix name, energy⟩], [], none⟩

/-- the name of the parameter of a component, hci_models.py L62, L65, L70 -/
def par (c : Comp K) (s : String) : Str := c.pre ++ s.toList

/-- the three expressions of a component, hci_models.py L61-70 -/
def tie (peak c : Comp K) (h : Hints K) : Hints K :=
  put (par c "peak_ph") (.shift (c.energy - peak.energy) (par peak "dph_de") (par peak "peak_ph"))
    (put (par c "dph_de") (.same (par peak "dph_de")) (put (par c "fwhm") (.same (par peak "fwhm")) h))

/-- `add_bg_model`, hci_models.py L138-154: line_models has no LinearBackgroundModel. -/
def addBg (_ : Model K) : Except Exc (Model K) := .error .attribute

/-- expressions of parts kept in the sum (lmfit); a later part replaces an earlier one of the same name. Used for hci_models.py L42. -/
def merge (ms : List (Model K)) : Hints K := (ms.flatMap (·.hints)).foldl (fun h e => put e.1 e.2 h) []

/-- `initialize_hci_composite_model`, hci_models.py L32-72. All components of the parts are lines. -/
def composite (ms : List (Model K)) (linearBackground : Bool) (peakName : Option Str) : Except Exc (Model K) :=
  let cs := ms.flatMap (·.comps)
  if linearBackground then addBg ⟨cs, merge ms, none⟩
  else
    match cs with
    | [] => .error .index
    | c0 :: _ =>
      let name := peakName.getD c0.name
      let k := cs.findIdx (fun c => decide (c.name = name))
      match cs[k]? with
      | none => .error .value
      | some peak => .ok ⟨cs, (List.range cs.length).foldl (fun h i => if i = k then h else match cs[i]? with | some c => tie peak c h | none => h) (merge ms), some peak⟩

/-- the names of the two lines, hci_models.py L88-89 -/
def hName (element : Str) (charge : Nat) (conf j : Str) : Str := lineName element charge (levelName conf "2P*".toList j)

/-- the name of the ratio, hci_models.py L103 -/
def ratioName (element : Str) (charge : Nat) (conf : Str) : Str := element ++ Nat.toDigits 10 charge ++ '_' :: conf ++ "_amp_ratio".toList

/-- `initialize_HLike_2P_model`, hci_models.py L75-106: `energyOf` gives the known lines (KeyError for others) -/
def hLike (energyOf : Str → Option K) (element : Str) (charge : Nat) (conf : Str) (linearBackground : Bool) : Except Exc (Model K) :=
  let n1 := hName element charge conf "1/2".toList
  let n3 := hName element charge conf "3/2".toList
  match energyOf n1, energyOf n3 with
  | some e1, some e3 =>
    match composite [lineModel n1 e1, lineModel n3 e3] linearBackground (some n3) with
    | .error x => .error x
    | .ok m => .ok { m with hints := put (mkPrefix n1 ++ "integral".toList) (.prod (mkPrefix n3 ++ "integral".toList) (ratioName element charge conf)) m.hints }
  | _, _ => .error .key

/-- the value of an expression (lmfit) [specification] -/
def Expr.eval (env : Str → K) : Expr K → K
  | .same p => env p
  | .shift s g p => s * env g + env p
  | .prod p q => env p * env q

/-- values of parameters that obey all expressions [specification] -/
def Obeys (env : Str → K) (h : Hints K) : Prop := ∀ n e, look h n = some e → env n = e.eval env

/-- the energy a component gives to a position x (line_models.py L257, L281) [specification] -/
def energyAt (env : Str → K) (c : Comp K) (x : K) : K := (x - env (par c "peak_ph")) / env (par c "dph_de") + c.energy

/-! ### Lemmas -/

theorem look_put (a b : Str) (v : Expr K) (h : Hints K) : look (put a v h) b = if a = b then some v else look h b := put_lookup a b v h

theorem par_ne (c d : Comp K) (s t : String) (h : s.toList.getLast? ≠ t.toList.getLast?) (hs : s.toList ≠ []) (ht : t.toList ≠ []) : par c s ≠ par d t := by
  intro e
  apply h
  have := congrArg List.getLast? e
  unfold par at this
  rw [List.getLast?_append_of_ne_nil _ hs, List.getLast?_append_of_ne_nil _ ht] at this
  exact this

theorem par_inj (c d : Comp K) (s : String) (h : par c s = par d s) : c.pre = d.pre := List.append_cancel_right h

theorem look_tie (peak c : Comp K) (h : Hints K) :
    look (tie peak c h) (par c "fwhm") = some (.same (par peak "fwhm")) ∧ look (tie peak c h) (par c "dph_de") = some (.same (par peak "dph_de")) ∧
    look (tie peak c h) (par c "peak_ph") = some (.shift (c.energy - peak.energy) (par peak "dph_de") (par peak "peak_ph")) := by
  have h1 : par c "peak_ph" ≠ par c "fwhm" := par_ne c c _ _ (by decide) (by decide) (by decide)
  have h2 : par c "dph_de" ≠ par c "fwhm" := par_ne c c _ _ (by decide) (by decide) (by decide)
  have h3 : par c "peak_ph" ≠ par c "dph_de" := par_ne c c _ _ (by decide) (by decide) (by decide)
  unfold tie
  refine ⟨?_, ?_, ?_⟩
  · rw [look_put, if_neg h1, look_put, if_neg h2, look_put, if_pos rfl]
  · rw [look_put, if_neg h3, look_put, if_pos rfl]
  · rw [look_put, if_pos rfl]

theorem look_tie_other (peak c : Comp K) (h : Hints K) (n : Str) (hn : n ≠ par c "fwhm" ∧ n ≠ par c "dph_de" ∧ n ≠ par c "peak_ph") : look (tie peak c h) n = look h n := by
  unfold tie
  rw [look_put, if_neg (Ne.symm hn.2.2), look_put, if_neg (Ne.symm hn.2.1), look_put, if_neg (Ne.symm hn.1)]

/-- the loop over components, with its index set [specification] -/
def tieAll (peak : Comp K) (k : Nat) (cs : List (Comp K)) (is : List Nat) (h : Hints K) : Hints K :=
  is.foldl (fun h i => if i = k then h else match cs[i]? with | some c => tie peak c h | none => h) h

theorem tieAll_other (peak : Comp K) (k : Nat) (cs : List (Comp K)) (n : Str) : ∀ (is : List Nat) (h : Hints K),
    (∀ i ∈ is, i ≠ k → ∀ c, cs[i]? = some c → n ≠ par c "fwhm" ∧ n ≠ par c "dph_de" ∧ n ≠ par c "peak_ph") → look (tieAll peak k cs is h) n = look h n := by
  intro is
  induction is with
  | nil => intro h _; rfl
  | cons i is ih =>
    intro h hn
    unfold tieAll
    rw [List.foldl_cons]
    have hn' : ∀ i ∈ is, i ≠ k → ∀ c, cs[i]? = some c → n ≠ par c "fwhm" ∧ n ≠ par c "dph_de" ∧ n ≠ par c "peak_ph" := fun j hj => hn j (by simp [hj])
    refine (ih _ hn').trans ?_
    by_cases hik : i = k
    · rw [if_pos hik]
    · rw [if_neg hik]
      cases hc : cs[i]? with
      | none => rfl
      | some c => exact look_tie_other peak c h n (hn i (by simp) hik c hc)

theorem tieAll_mem (peak : Comp K) (k : Nat) (cs : List (Comp K)) (hp : (cs.map (·.pre)).Nodup) (i : Nat) (c : Comp K) (hc : cs[i]? = some c) (hik : i ≠ k) :
    ∀ (is : List Nat) (_ : is.Nodup) (_ : i ∈ is) (h : Hints K),
    look (tieAll peak k cs is h) (par c "fwhm") = some (.same (par peak "fwhm")) ∧ look (tieAll peak k cs is h) (par c "dph_de") = some (.same (par peak "dph_de")) ∧
    look (tieAll peak k cs is h) (par c "peak_ph") = some (.shift (c.energy - peak.energy) (par peak "dph_de") (par peak "peak_ph")) := by
  have hdis : ∀ j d, cs[j]? = some d → j ≠ i → ∀ s t : String, s ∈ ["fwhm", "dph_de", "peak_ph"] → t ∈ ["fwhm", "dph_de", "peak_ph"] → par c s ≠ par d t := by
    intro j d hd hji s t hs ht e
    by_cases hst : s = t
    · subst hst
      have hpre := par_inj c d s e
      apply hji
      obtain ⟨h1, h1'⟩ := List.getElem?_eq_some_iff.1 hd
      obtain ⟨h2, h2'⟩ := List.getElem?_eq_some_iff.1 hc
      refine (List.Nodup.getElem_inj_iff hp (i := j) (hi := by simpa using h1) (j := i) (hj := by simpa using h2)).1 ?_
      simp [h1', h2', hpre]
    · refine par_ne c d s t ?_ ?_ ?_ e
      · simp only [List.mem_cons, List.not_mem_nil, or_false] at hs ht
        rcases hs with rfl | rfl | rfl <;> rcases ht with rfl | rfl | rfl <;> first | exact absurd rfl hst | decide
      · simp only [List.mem_cons, List.not_mem_nil, or_false] at hs
        rcases hs with rfl | rfl | rfl <;> decide
      · simp only [List.mem_cons, List.not_mem_nil, or_false] at ht
        rcases ht with rfl | rfl | rfl <;> decide
  intro is
  induction is with
  | nil => intro _ hi; simp at hi
  | cons j is ih =>
    intro hnd hi h
    rw [List.nodup_cons] at hnd
    by_cases hji : j = i
    · subst hji
      have hrest : ∀ s ∈ ["fwhm", "dph_de", "peak_ph"], ∀ h' : Hints K, look (tieAll peak k cs is h') (par c s) = look h' (par c s) := by
        intro s hs h'
        apply tieAll_other
        intro i' hi' _ d hd
        have hne : i' ≠ j := by rintro rfl; exact hnd.1 hi'
        exact ⟨hdis i' d hd hne s _ hs (by simp), hdis i' d hd hne s _ hs (by simp), hdis i' d hd hne s _ hs (by simp)⟩
      have e : tieAll peak k cs (j :: is) h = tieAll peak k cs is (tie peak c h) := by
        unfold tieAll
        rw [List.foldl_cons, if_neg hik, hc]
      rw [e, hrest _ (by simp), hrest _ (by simp), hrest _ (by simp)]
      exact look_tie peak c h
    · have hi' : i ∈ is := by simpa [Ne.symm hji] using hi
      exact ih hnd.2 hi' _

theorem composite_inv (ms : List (Model K)) (pn : Option Str) (m : Model K) (h : composite ms false pn = .ok m) :
    ∃ c0 t peak, ms.flatMap (·.comps) = c0 :: t ∧ (c0 :: t)[(c0 :: t).findIdx (fun c => decide (c.name = pn.getD c0.name))]? = some peak ∧
      m = ⟨c0 :: t, tieAll peak ((c0 :: t).findIdx (fun c => decide (c.name = pn.getD c0.name))) (c0 :: t) (List.range (c0 :: t).length) (merge ms), some peak⟩ := by
  unfold composite at h
  dsimp only at h
  rw [if_neg (by simp)] at h
  cases hcs : ms.flatMap (·.comps) with
  | nil => rw [hcs] at h; exact absurd h (by simp)
  | cons c0 t =>
    rw [hcs] at h
    dsimp only at h
    cases hk : (c0 :: t)[(c0 :: t).findIdx (fun c => decide (c.name = pn.getD c0.name))]? with
    | none => rw [hk] at h; exact absurd h (by simp)
    | some peak =>
      rw [hk] at h
      injection h with h
      exact ⟨c0, t, peak, rfl, hk, h.symm⟩

/-- C131. The components of a composite model share one scale: for all values of the parameters that obey its expressions, all lines have the same width and the same gain, their distances are those of their energies, and each position
has the same energy in all of them. -/
theorem composite_scale (ms : List (Model K)) (pn : Option Str) (m : Model K) (h : composite ms false pn = .ok m) (hp : (m.comps.map (·.pre)).Nodup) (env : Str → K) (ho : Obeys env m.hints) :
    ∀ c ∈ m.comps, ∀ d ∈ m.comps, env (par c "fwhm") = env (par d "fwhm") ∧ env (par c "dph_de") = env (par d "dph_de") ∧
      env (par c "peak_ph") - env (par d "peak_ph") = (c.energy - d.energy) * env (par c "dph_de") ∧
      (env (par c "dph_de") ≠ 0 → ∀ x, energyAt env c x = energyAt env d x) := by
  obtain ⟨c0, t, peak, hcs, hk, rfl⟩ := composite_inv ms pn m h
  dsimp only at hp ho ⊢
  set cs := c0 :: t with hcsdef
  set k := cs.findIdx (fun c => decide (c.name = pn.getD c0.name)) with hkdef
  have base : ∀ c ∈ cs, env (par c "fwhm") = env (par peak "fwhm") ∧ env (par c "dph_de") = env (par peak "dph_de") ∧
      env (par c "peak_ph") = (c.energy - peak.energy) * env (par peak "dph_de") + env (par peak "peak_ph") := by
    intro c hc
    obtain ⟨i, hi, hic⟩ := List.mem_iff_getElem.1 hc
    have hc? : cs[i]? = some c := by rw [List.getElem?_eq_getElem hi, hic]
    by_cases hik : i = k
    · rw [hik, hk] at hc?
      injection hc? with hc?
      subst hc?
      refine ⟨rfl, rfl, by ring⟩
    · obtain ⟨h1, h2, h3⟩ := tieAll_mem peak k cs hp i c hc? hik (List.range cs.length) List.nodup_range (List.mem_range.2 hi) (merge ms)
      exact ⟨ho _ _ h1, ho _ _ h2, ho _ _ h3⟩
  intro c hc d hd
  obtain ⟨a1, a2, a3⟩ := base c hc
  obtain ⟨b1, b2, b3⟩ := base d hd
  refine ⟨a1.trans b1.symm, a2.trans b2.symm, by rw [a3, b3, a2]; ring, ?_⟩
  intro hne x
  unfold energyAt
  rw [a2] at hne
  rw [a3, b3, a2, b2]
  field_simp
  ring

/-- C131. The peak component is the one asked for (the first of that name), or the first component; an unknown name is refused. -/
theorem composite_peak (ms : List (Model K)) (pn : Option Str) :
    (∀ m, composite ms false pn = .ok m → m.comps = ms.flatMap (·.comps) ∧ ∃ p, m.peak = some p ∧ p ∈ m.comps ∧ (∀ n, pn = some n → p.name = n) ∧ (pn = none → m.comps.head? = some p)) ∧
    (∀ n, pn = some n → ms.flatMap (·.comps) ≠ [] → (∀ c ∈ ms.flatMap (·.comps), c.name ≠ n) → composite ms false pn = .error .value) := by
  constructor
  · intro m h
    obtain ⟨c0, t, peak, hcs, hk, rfl⟩ := composite_inv ms pn m h
    obtain ⟨hlt, hget⟩ := List.getElem?_eq_some_iff.1 hk
    refine ⟨hcs.symm, peak, rfl, List.mem_of_getElem? hk, ?_, ?_⟩
    · rintro n rfl
      have := List.findIdx_getElem (xs := c0 :: t) (p := fun c => decide (c.name = (some n).getD c0.name)) (w := hlt)
      have := of_decide_eq_true this
      rw [hget] at this
      simpa using this
    · rintro rfl
      have hz : (c0 :: t).findIdx (fun c => decide (c.name = (none : Option Str).getD c0.name)) = 0 := by
        rw [List.findIdx_cons]
        simp
      rw [hz] at hk
      simpa using hk
  · rintro n rfl hne hno
    unfold composite
    dsimp only
    rw [if_neg (by simp)]
    cases hcs : ms.flatMap (·.comps) with
    | nil => exact absurd hcs hne
    | cons c0 t =>
      dsimp only
      have : (c0 :: t).findIdx (fun c => decide (c.name = (some n).getD c0.name)) = (c0 :: t).length := by
        rw [List.findIdx_eq_length]
        intro c hc
        rw [← hcs] at hc
        simpa using hno c hc
      rw [this, List.getElem?_eq_none (by simp)]

/-- C131. The parameters of the peak component get no expression, if the parts have none for them: they stay free. -/
theorem peak_free (ms : List (Model K)) (pn : Option Str) (m : Model K) (h : composite ms false pn = .ok m) (hp : (m.comps.map (·.pre)).Nodup) (p : Comp K) (hpk : m.peak = some p) (s : String)
    (hs : s ∈ ["fwhm", "dph_de", "peak_ph"]) : look m.hints (par p s) = look (merge ms) (par p s) := by
  obtain ⟨c0, t, peak, hcs, hk, rfl⟩ := composite_inv ms pn m h
  dsimp only at hp hpk ⊢
  injection hpk with hpk
  subst hpk
  refine tieAll_other peak _ (c0 :: t) _ _ _ ?_
  intro i hi hik c hc
  have hpre : peak.pre ≠ c.pre := by
    intro e
    apply hik
    obtain ⟨h1, h1'⟩ := List.getElem?_eq_some_iff.1 hc
    obtain ⟨h2, h2'⟩ := List.getElem?_eq_some_iff.1 hk
    refine (List.Nodup.getElem_inj_iff hp (i := i) (hi := by simpa using h1) (hj := by simpa using h2)).1 ?_
    rw [List.getElem_map, List.getElem_map, h1', h2', e]
  have aux : ∀ t : String, t ∈ ["fwhm", "dph_de", "peak_ph"] → par peak s ≠ par c t := by
    intro t ht e
    by_cases hst : s = t
    · subst hst
      exact hpre (par_inj _ _ _ e)
    · refine par_ne peak c s t ?_ ?_ ?_ e
      · simp only [List.mem_cons, List.not_mem_nil, or_false] at hs ht
        rcases hs with rfl | rfl | rfl <;> rcases ht with rfl | rfl | rfl <;> first | exact absurd rfl hst | decide
      · simp only [List.mem_cons, List.not_mem_nil, or_false] at hs
        rcases hs with rfl | rfl | rfl <;> decide
      · simp only [List.mem_cons, List.not_mem_nil, or_false] at ht
        rcases ht with rfl | rfl | rfl <;> decide
  exact ⟨aux _ (by simp), aux _ (by simp), aux _ (by simp)⟩

theorem look_foldl (l h : Hints K) (n : Str) : look (l.foldl (fun h e => put e.1 e.2 h) h) n = (look l.reverse n).or (look h n) := by
  induction l using List.reverseRecOn generalizing h with
  | nil => simp [look]
  | append_singleton l e ih =>
    rw [List.foldl_append, List.foldl_cons, List.foldl_nil, look_put, ih, List.reverse_append, List.reverse_singleton, List.singleton_append]
    unfold look
    rw [List.find?_cons]
    by_cases hn : e.1 = n <;> simp [hn]

/-- C131. A sum keeps the expressions of all its parts, if no other part has one of that name; and has no others. -/
theorem merge_keeps (ms : List (Model K)) (hn : ∀ m ∈ ms, (m.hints.map Prod.fst).Nodup) (n : Str) :
    (∀ m ∈ ms, ∀ e, look m.hints n = some e → (∀ m' ∈ ms, ∀ e', look m'.hints n = some e' → e' = e) → look (merge ms) n = some e) ∧ ((∀ m ∈ ms, look m.hints n = none) → look (merge ms) n = none) := by
  have hmem : ∀ (h : Hints K) e, look h n = some e → (n, e) ∈ h := by
    intro h e he
    unfold look at he
    obtain ⟨x, hx, rfl⟩ := Option.map_eq_some_iff.1 he
    have h1 := List.find?_some hx
    have h2 := List.mem_of_find?_eq_some hx
    have h3 : x.1 = n := by simpa using h1
    rw [← h3]
    exact h2
  have hsome : ∀ (h : Hints K) e, (n, e) ∈ h → ∃ e', look h n = some e' := by
    intro h e he
    unfold look
    cases hf : h.find? (fun e => decide (e.1 = n)) with
    | some x => exact ⟨_, rfl⟩
    | none =>
      have := List.find?_eq_none.1 hf _ he
      simp at this
  have hone : ∀ m ∈ ms, ∀ e e', (n, e) ∈ m.hints → look m.hints n = some e' → e = e' := by
    intro m hm e e' h1 h2
    have h3 := hmem _ _ h2
    have := List.inj_on_of_nodup_map (hn m hm) h1 h3 rfl
    exact congrArg Prod.snd this
  have hnil : look ([] : Hints K) n = none := rfl
  unfold merge
  rw [look_foldl, hnil, Option.or_none]
  constructor
  · intro m hm e he hu
    obtain ⟨e', he'⟩ := hsome (ms.flatMap (·.hints)).reverse e (List.mem_reverse.2 (List.mem_flatMap.2 ⟨m, hm, hmem _ _ he⟩))
    rw [he']
    obtain ⟨m', hm', h1⟩ := List.mem_flatMap.1 (List.mem_reverse.1 (hmem _ _ he'))
    obtain ⟨e'', h2⟩ := hsome _ _ h1
    have h3 := hone m' hm' _ _ h1 h2
    rw [h3, hu m' hm' _ h2]
  · intro hno
    cases hl : look (ms.flatMap (·.hints)).reverse n with
    | none => rfl
    | some e =>
      obtain ⟨m', hm', h1⟩ := List.mem_flatMap.1 (List.mem_reverse.1 (hmem _ _ hl))
      obtain ⟨e'', h2⟩ := hsome _ _ h1
      rw [hno m' hm'] at h2
      cases h2

/-! ### Prefixes -/

theorem dropJ_append (a b : Str) : dropJ (a ++ '_' :: b) = dropJ a ++ '_' :: dropJ b := by
  induction a using dropJ.induct with
  | case1 t ih => simp only [List.cons_append, dropJ]; exact ih
  | case2 c t hne ih =>
    have h1 : dropJ (c :: t) = c :: dropJ t := by
      rw [dropJ]
      exact hne
    have h2 : dropJ (c :: (t ++ '_' :: b)) = c :: dropJ (t ++ '_' :: b) := by
      rw [dropJ]
      intro t' hc ht
      cases t with
      | nil => simp at ht
      | cons x t =>
        rw [List.cons_append] at ht
        injection ht with hx ht
        exact hne t hc (by rw [hx])
    rw [List.cons_append, h2, h1, ih, List.cons_append]
  | case3 => simp [dropJ]

theorem mkPrefix_append (a b : Str) : mkPrefix (a ++ ' ' :: b) = mkPrefix a ++ mkPrefix b := by
  unfold mkPrefix
  have h : ∀ s : Str, (s ++ ['_']).map (fun c => if c = ' ' then '_' else c) = s.map (fun c => if c = ' ' then '_' else c) ++ '_' :: [] := by
    intro s
    rw [List.map_append]
    rfl
  have h2 : ((a ++ ' ' :: b) ++ ['_']).map (fun c => if c = ' ' then '_' else c) =
      a.map (fun c => if c = ' ' then '_' else c) ++ '_' :: ((b ++ ['_']).map (fun c => if c = ' ' then '_' else c)) := by
    rw [List.append_assoc, List.map_append, List.cons_append, List.map_cons]
    rfl
  rw [h2, h a, dropJ_append, dropJ_append]
  simp only [List.flatMap_append, List.flatMap_cons, dropJ]
  simp

/-- C131. A prefix is made word by word, so it is different for the two lines of an H-like doublet, whatever the element and the configuration. -/
theorem doublet_prefix (element : Str) (charge : Nat) (conf : Str) : mkPrefix (hName element charge conf "1/2".toList) ≠ mkPrefix (hName element charge conf "3/2".toList) := by
  unfold hName lineName levelName
  simp only [List.append_assoc, List.cons_append, mkPrefix_append]
  rw [← List.append_assoc element, ← List.append_assoc element, mkPrefix_append, mkPrefix_append, mkPrefix_append, mkPrefix_append, mkPrefix_append, mkPrefix_append]
  intro h
  have := List.append_cancel_left (List.append_cancel_left (List.append_cancel_left h))
  revert this
  decide

/-- C131. The H-like doublet: one width, one gain, the distance of the two levels, and the integral of J=1/2 is that of J=3/2 times the ratio. -/
theorem hLike_spec (energyOf : Str → Option K) (element : Str) (charge : Nat) (conf : Str) (m : Model K) (h : hLike energyOf element charge conf false = .ok m) (env : Str → K) (ho : Obeys env m.hints) :
    ∃ c1 c3, m.comps = [c1, c3] ∧ m.peak = some c3 ∧ c1.name = hName element charge conf "1/2".toList ∧ c3.name = hName element charge conf "3/2".toList ∧
      energyOf c1.name = some c1.energy ∧ energyOf c3.name = some c3.energy ∧
      env (par c1 "integral") = env (par c3 "integral") * env (ratioName element charge conf) ∧
      env (par c1 "fwhm") = env (par c3 "fwhm") ∧ env (par c1 "dph_de") = env (par c3 "dph_de") ∧
      env (par c1 "peak_ph") - env (par c3 "peak_ph") = (c1.energy - c3.energy) * env (par c3 "dph_de") := by
  unfold hLike at h
  dsimp only at h
  set n1 := hName element charge conf "1/2".toList with hn1
  set n3 := hName element charge conf "3/2".toList with hn3
  cases he1 : energyOf n1 with
  | none => rw [he1] at h; exact absurd h (by simp)
  | some e1 =>
    cases he3 : energyOf n3 with
    | none => rw [he1, he3] at h; exact absurd h (by simp)
    | some e3 =>
      rw [he1, he3] at h
      dsimp only at h
      split at h
      · exact absurd h (by simp)
      · rename_i m' hm'
        injection h with h
        subst h
        have hpre : mkPrefix n1 ≠ mkPrefix n3 := doublet_prefix element charge conf
        obtain ⟨hcomps, p, hpk, hpm, hpn, -⟩ := (composite_peak _ _).1 m' hm'
        have hname := hpn n3 rfl
        have hcs : m'.comps = [⟨n1, mkPrefix n1, e1⟩, ⟨n3, mkPrefix n3, e3⟩] := by rw [hcomps]; rfl
        have hne : n1 ≠ n3 := fun e => hpre (by rw [e])
        have hp3 : p = ⟨n3, mkPrefix n3, e3⟩ := by
          rw [hcs] at hpm
          simp only [List.mem_cons, List.not_mem_nil, or_false] at hpm
          rcases hpm with rfl | rfl
          · exact absurd hname hne
          · rfl
        have hnd : (m'.comps.map (·.pre)).Nodup := by
          rw [hcs]
          simpa using hpre
        have hl : ∀ (n : Str) (e : Expr K), look m'.hints n = some e → n ≠ mkPrefix n1 ++ "integral".toList → env n = e.eval env := by
          intro n e hle hnn
          refine ho n e ?_
          dsimp only
          rw [look_put, if_neg (Ne.symm hnn), hle]
        have hint := ho (mkPrefix n1 ++ "integral".toList) (.prod (mkPrefix n3 ++ "integral".toList) (ratioName element charge conf)) (by dsimp only; rw [look_put, if_pos rfl])
        have hcomp' : composite [lineModel n1 e1, lineModel n3 e3] false (some n3) = .ok m' := hm'
        unfold composite at hcomp'
        dsimp only at hcomp'
        rw [if_neg (by simp)] at hcomp'
        have hflat : [lineModel n1 e1, lineModel n3 e3].flatMap (·.comps) = [⟨n1, mkPrefix n1, e1⟩, ⟨n3, mkPrefix n3, e3⟩] := rfl
        rw [hflat] at hcomp'
        dsimp only at hcomp'
        have hk : ([⟨n1, mkPrefix n1, e1⟩, ⟨n3, mkPrefix n3, e3⟩] : List (Comp K)).findIdx (fun c => decide (c.name = (some n3).getD n1)) = 1 := by
          rw [List.findIdx_cons, List.findIdx_cons]
          simp [hne]
        rw [hk] at hcomp'
        injection hcomp' with hcomp'
        obtain ⟨h1, h2, h3⟩ := tieAll_mem ⟨n3, mkPrefix n3, e3⟩ 1 [⟨n1, mkPrefix n1, e1⟩, ⟨n3, mkPrefix n3, e3⟩] (by simpa using hpre) 0 ⟨n1, mkPrefix n1, e1⟩ rfl (by omega) (List.range 2)
          List.nodup_range (by simp) (merge [lineModel n1 e1, lineModel n3 e3])
        have hh : m'.hints = tieAll ⟨n3, mkPrefix n3, e3⟩ 1 [⟨n1, mkPrefix n1, e1⟩, ⟨n3, mkPrefix n3, e3⟩] (List.range 2) (merge [lineModel n1 e1, lineModel n3 e3]) := by
          rw [← hcomp']
          rfl
        rw [← hh] at h1 h2 h3
        have q : ∀ s : String, s ∈ ["fwhm", "dph_de", "peak_ph"] → par (⟨n1, mkPrefix n1, e1⟩ : Comp K) s ≠ mkPrefix n1 ++ "integral".toList := by
          intro s hs e
          have := List.append_cancel_left e
          simp only [List.mem_cons, List.not_mem_nil, or_false] at hs
          rcases hs with rfl | rfl | rfl <;> revert this <;> decide
        refine ⟨⟨n1, mkPrefix n1, e1⟩, ⟨n3, mkPrefix n3, e3⟩, hcs, by rw [hpk, hp3], rfl, rfl, he1, he3, hint, hl _ _ h1 (q _ (by simp)), hl _ _ h2 (q _ (by simp)), ?_⟩
        have h3' := hl _ _ h3 (q _ (by simp))
        rw [h3']
        simp only [Expr.eval]
        ring

/-! ### Examples -/

/-- values of parameters for the example: gain 2, both lines 3 wide, ratio 1/2 [specification] -/
def exampleEnv (s : Str) : ℚ :=
  if s = "Ne10_2p_2P_3_2_peak_ph".toList then 100
  else if s = "Ne10_2p_2P_1_2_peak_ph".toList then 96
  else if s = "Ne10_2p_2P_1_2_dph_de".toList ∨ s = "Ne10_2p_2P_3_2_dph_de".toList then 2
  else if s = "Ne10_2p_2P_1_2_fwhm".toList ∨ s = "Ne10_2p_2P_3_2_fwhm".toList then 3
  else if s = "Ne10_2p_2P_1_2_integral".toList then 50
  else if s = "Ne10_2p_2P_3_2_integral".toList then 100
  else if s = "Ne10_2p_amp_ratio".toList then 1 / 2 else 0

/-- known lines for the example [specification] -/
def exampleLines (s : Str) : Option ℚ := if s = "Ne10 2p 2P* J=1/2".toList then some 1020 else if s = "Ne10 2p 2P* J=3/2".toList then some 1022 else none

example : mkPrefix "Ne10 2p 2P* J=1/2".toList = "Ne10_2p_2P_1_2_".toList := by decide +kernel
example : (hLike exampleLines "Ne".toList 10 "2p".toList false).toOption.map (fun m => (m.comps.length, m.hints.map (fun e => decide (exampleEnv e.1 = e.2.eval exampleEnv)))) = some (2, [true, true, true, true]) := by decide +kernel

/-! ### Disagreements -/

/-- Disagreement (C131): no composite model can have a linear background: the model for it does not exist, and every request for one raises an AttributeError. -/
theorem background_fails (ms : List (Model K)) (pn : Option Str) (energyOf : Str → Option K) (element : Str) (charge : Nat) (conf : Str) (e1 e3 : K)
    (h1 : energyOf (hName element charge conf "1/2".toList) = some e1) (h3 : energyOf (hName element charge conf "3/2".toList) = some e3) :
    composite ms true pn = .error .attribute ∧ hLike energyOf element charge conf true = .error .attribute := by
  refine ⟨rfl, ?_⟩
  unfold hLike
  dsimp only
  rw [h1, h3]
  rfl

/-- Disagreement (C131): a composite of composites with another peak component: the positions of the two lines are then each expressed by the other, and neither is free. -/
theorem circular_fails :
    let a := lineModel "N7 2p 2P* J=1/2".toList (500 : ℚ)
    let b := lineModel "N7 2p 2P* J=3/2".toList (501 : ℚ)
    (composite [a, b] false (some "N7 2p 2P* J=3/2".toList)).toOption.bind (fun m => ((composite [m] false (some "N7 2p 2P* J=1/2".toList)).toOption.map
      (fun m' => (look m'.hints "N7_2p_2P_1_2_peak_ph".toList, look m'.hints "N7_2p_2P_3_2_peak_ph".toList)))) =
      some (some (.shift (-1) "N7_2p_2P_3_2_dph_de".toList "N7_2p_2P_3_2_peak_ph".toList), some (.shift 1 "N7_2p_2P_1_2_dph_de".toList "N7_2p_2P_1_2_peak_ph".toList)) := by decide +kernel

/-- Disagreement (C131): lines with parentheses in their configuration get a prefix that is not the beginning of a name of a parameter. -/
theorem parenthesis_fails : '(' ∈ mkPrefix "O6 1s.(2S).2s.2p 2P* J=1/2".toList := by decide +kernel

/-- Disagreement (C131): names that differ only in stars and dots have the same prefix. -/
theorem same_prefix_fails : mkPrefix "O6 2p 2P* J=1/2".toList = mkPrefix "O6 2p 2P J=1/2".toList ∧ mkPrefix "O7 1s.2p 1P* J=1".toList = mkPrefix "O7 1s2p 1P* J=1".toList := by decide +kernel

end Mass.Line.Hci
