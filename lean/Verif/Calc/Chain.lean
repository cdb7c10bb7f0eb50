import Verif.Calc.Correct
import Mathlib.Tactic.ByContra
/-! C123: the chain of corrections of a channel (mass/core/channel.py: filter_data, drift_correct, phase_correct, calibrate, convert_to_energy) over the sessions of one HDF5 file. What is learned (drift slope, phase
corrector, calibration) comes from arbitrary functions of the data they are given. -/
namespace Mass.Calc.Chain
open Mass

/-! ### The code -/

/-- what the steps use: `rd` is the storing of a number in a float32 data set (channel.py L703-708); `learnDrift` is `analysis_algorithms.drift_correct` (analysis_algorithms.pyx L293-337: median and slope);
`learnPhase`, `applyPhase`, `unif`, `savePC`, `loadPC` are phase_correct.py L83-142, L44-54, L22, L24-42 (the group may have existed before), L56-71; `autocal` is the calibration made at channel.py L1913-1933 from the chosen values;
`saveCal`, `loadCal`, `ph2e` are energy_calibration.py L740-753, L755-771 and `ph2energy` (elementwise; its exceptions are not modelled) -/
structure Tools (K P SP Cal SC A : Type) where
  rd : K → K
  learnDrift : List K → List K → Except Exc (K × K)
  learnPhase : List K → List K → Except Exc P
  applyPhase : P → List K → List K → Except Exc (List K)
  unif : P → K → K
  savePC : P → Option SP → SP
  loadPC : SP → Except Exc P
  autocal : List K → A → Except Exc Cal
  saveCal : Cal → SC
  loadCal : SC → Except Exc Cal
  ph2e : Cal → K → K

/-- a channel: the data sets of its HDF5 group (channel.py L684-729), the attributes of `filt_value_dc`, the stored phase correction and calibrations, and what is in memory (`phaseCorrector`, `calibration`, `last_used_calibration`) -/
structure Chan (K P SP Cal SC : Type) where
  ptm : List K
  phase : List K
  filt : List K
  dc : List K
  phc : List K
  phaseCorr : List K
  energy : List K
  dcAttrs : Option (K × K)
  pcFile : Option SP
  calFile : List (String × SC)
  pc : Option P
  cals : List (String × Cal)
  last : Option Cal
  deriving DecidableEq

/-- the quantities that can be given as `attr` (any attribute in the code: channel.py L1716, L1793, L1904) -/
inductive Attr
  | filt | dc | phc | energy
  deriving DecidableEq

/-- the names of the attributes (channel.py L717-719) -/
def Attr.name : Attr → String
  | filt => "p_filt_value"
  | dc => "p_filt_value_dc"
  | phc => "p_filt_value_phc"
  | energy => "p_energy"

variable {K P SP Cal SC A : Type} [Field K] [DecidableEq K]

/-- `getattr(self, attr)[:]` (channel.py L1725) -/
def Chan.get (c : Chan K P SP Cal SC) : Attr → List K
  | .filt => c.filt
  | .dc => c.dc
  | .phc => c.phc
  | .energy => c.energy

/-- `x[g]` for a boolean array of the same length (channel.py L1725-1726) -/
def sel (g : List Bool) (l : List K) : List K := ((l.zip g).filter Prod.snd).map Prod.fst

/-- a dictionary or the names in an HDF5 group: `d.get(k)` (channel.py L1911, L1947) -/
def look {α : Type} (k : String) (l : List (String × α)) : Option α := (l.find? fun e => e.1 == k).map Prod.snd

/-- `d[k] = v` (channel.py L1940; for the file energy_calibration.py L741-744: deleted and created anew) -/
def put {α : Type} (k : String) (v : α) (l : List (String × α)) : List (String × α) := (k, v) :: l.filter fun e => e.1 != k

/-- channel.py L1299-1329 `filter_data`: `res` is what the filtering gives (C109; data filled in part by a failing call are not modelled here) -/
def filterData (T : Tools K P SP Cal SC A) (res : Except Exc (List K × List K)) (force : Bool) (c : Chan K P SP Cal SC) : Chan K P SP Cal SC × Except Exc Unit :=
  if !(force || c.filt.all (· == 0)) then (c, .ok ())
  else match res with
    | .error e => (c, .error e)
    | .ok (v, p) => ({ c with filt := v.map T.rd, phase := p.map T.rd }, .ok ())

/-- channel.py L1733-1740 `_apply_drift_correction` -/
def applyDrift (T : Tools K P SP Cal SC A) (a : Attr) (c : Chan K P SP Cal SC) : Chan K P SP Cal SC × Except Exc Unit :=
  match c.dcAttrs with
  | none => (c, .error .key)
  | some (median, slope) => ({ c with dc := List.zipWith (fun x m => T.rd (Corr.driftLjh median slope m x)) (c.get a) c.ptm }, .ok ())

/-- channel.py L1716-1731 `drift_correct`; `g` is the answer of `self.cuts.good(**category)` at that time -/
def driftCorrect (T : Tools K P SP Cal SC A) (a : Attr) (force : Bool) (g : List Bool) (c : Chan K P SP Cal SC) : Chan K P SP Cal SC × Except Exc Unit :=
  let doesntExist := c.dc.all (· == 0) || c.dc == c.filt
  if !(force || doesntExist) then (c, .ok ())
  else match T.learnDrift (sel g c.ptm) (sel g (c.get a)) with
    | .error e => (c, .error e)
    | .ok info => applyDrift T a { c with dcAttrs := some info }

/-- channel.py L1793-1826 `phase_correct` -/
def phaseCorrect (T : Tools K P SP Cal SC A) (a : Attr) (force : Bool) (g : List Bool) (save : Bool) (c : Chan K P SP Cal SC) : Chan K P SP Cal SC × Except Exc (Option P) :=
  if !(force || c.pc.isNone) then (c, .ok none)
  else match T.learnPhase (sel g c.phase) (sel g (c.get a)) with
    | .error e => (c, .error e)
    | .ok p =>
      let c := { c with pc := some p, phaseCorr := c.phase.map fun x => T.rd (T.unif p x) }
      match T.applyPhase p c.phase (c.get a) with
      | .error e => (c, .error e)
      | .ok v =>
        let c := { c with phc := v.map T.rd }
        (if save then { c with pcFile := some (T.savePC p c.pcFile) } else c, .ok (some p))

/-- channel.py L1943-1951 `convert_to_energy` -/
def convert (T : Tools K P SP Cal SC A) (a : Attr) (calname : Option String) (c : Chan K P SP Cal SC) : Chan K P SP Cal SC × Except Exc Unit :=
  match look (calname.getD a.name) c.cals with
  | none => (c, .error .value)
  | some cal => ({ c with energy := (c.get a).map (fun x => T.rd (T.ph2e cal x)), last := some cal }, .ok ())

/-- channel.py L1904-1941 `calibrate` (without plots); `args` stands for the lines and settings -/
def calibrate (T : Tools K P SP Cal SC A) (a : Attr) (ext : String) (args : A) (force : Bool) (g : List Bool) (c : Chan K P SP Cal SC) : Chan K P SP Cal SC × Except Exc (Option Cal) :=
  let name := a.name ++ ext
  if !force && (look name c.cals).isSome then (c, .ok (look name c.cals))
  else match T.autocal (sel g (c.get a)) args with
    | .error e => (c, .error e)
    | .ok cal =>
      let c := { c with cals := put name cal c.cals, calFile := put name (T.saveCal cal) c.calFile }
      match convert T a (some name) c with
      | (c, .error e) => (c, .error e)
      | (c, .ok ()) => (c, .ok none)

/-- channel.py L800-810 `__load_cals_from_hdf5` into an empty dictionary -/
def loadCals (T : Tools K P SP Cal SC A) : List (String × SC) → Except Exc (List (String × Cal))
  | [] => .ok []
  | (k, s) :: l =>
    match T.loadCal s with
    | .error e => .error e
    | .ok cal =>
      match loadCals T l with
      | .error e => .error e
      | .ok r => .ok ((k, cal) :: r)

/-- channel.py L659-664 (constructor) with L800-818: opening the file in a new session -/
def reopen (T : Tools K P SP Cal SC A) (c : Chan K P SP Cal SC) : Except Exc (Chan K P SP Cal SC) :=
  match loadCals T c.calFile with
  | .error e => .error e
  | .ok cals =>
    match c.pcFile with
    | none => .ok { c with cals := cals, pc := none, last := none }
    | some s =>
      match T.loadPC s with
      | .error e => .error e
      | .ok p => .ok { c with cals := cals, pc := some p, last := none }

/-- the calls (channel.py L1299, L1716, L1793, L1904, L1943; a new session L659-664) -/
inductive Op (K A : Type)
  | filter (res : Except Exc (List K × List K)) (force : Bool)
  | drift (a : Attr) (force : Bool) (g : List Bool)
  | phase (a : Attr) (force : Bool) (g : List Bool) (save : Bool)
  | cal (a : Attr) (ext : String) (args : A) (force : Bool) (g : List Bool)
  | conv (a : Attr) (calname : Option String)
  | reopen

/-- the channel after a call (the caller catches exceptions; a file that cannot be opened leaves the session before as it was) (channel.py L659-664, L1299-1951) -/
def Op.step (T : Tools K P SP Cal SC A) (c : Chan K P SP Cal SC) : Op K A → Chan K P SP Cal SC
  | .filter res force => (filterData T res force c).1
  | .drift a force g => (driftCorrect T a force g c).1
  | .phase a force g save => (phaseCorrect T a force g save c).1
  | .cal a ext args force g => (calibrate T a ext args force g c).1
  | .conv a n => (convert T a n c).1
  | .reopen => match Chain.reopen T c with
    | .ok c' => c'
    | .error _ => c

/-- no call is forced [specification] -/
def Op.unforced : Op K A → Bool
  | .filter _ f => !f
  | .drift _ f _ => !f
  | .phase _ f _ _ => !f
  | .cal _ _ _ f _ => !f
  | _ => true

/-! ### Each step -/

/-- C123. `drift_correct`, when it does something: every pulse (good or not) is multiplied by a gain linear in its pretrigger mean, with the slope and the median learned from the good pulses only; these two are what is stored in the file;
nothing else changes. From what is stored the corrected values can be computed again. When it does nothing, nothing changes. -/
theorem drift_done {T : Tools K P SP Cal SC A} {a : Attr} {force : Bool} {g : List Bool} {c c' : Chan K P SP Cal SC} (h : driftCorrect T a force g c = (c', .ok ())) :
    (c' = c ∧ force = false ∧ (∃ x ∈ c.dc, x ≠ 0) ∧ c.dc ≠ c.filt) ∨
    ∃ m s, T.learnDrift (sel g c.ptm) (sel g (c.get a)) = .ok (m, s) ∧
      c' = { c with
        dcAttrs := some (m, s)
        dc := List.zipWith (fun x p => T.rd (x * (1 + (p - m) * s))) (c.get a) c.ptm } ∧
      (a ≠ .dc → applyDrift T a c' = (c', .ok ())) := by
  unfold driftCorrect at h
  dsimp only at h
  split at h
  · rename_i hs
    left
    injection h with h _
    simp only [Bool.not_eq_true', Bool.or_eq_false_iff, beq_eq_false_iff_ne, ne_eq] at hs
    refine ⟨h.symm, hs.1, ?_, hs.2.2⟩
    have := hs.2.1
    rw [← Bool.not_eq_true, List.all_eq_true] at this
    push Not at this
    obtain ⟨x, hx, hn⟩ := this
    exact ⟨x, hx, by simpa using hn⟩
  · right
    split at h
    · injection h with _ h; cases h
    · rename_i info hl
      obtain ⟨m, s⟩ := info
      refine ⟨m, s, hl, ?_⟩
      unfold applyDrift at h
      injection h with h _
      subst h
      refine ⟨by cases a <;> rfl, fun ha => ?_⟩
      unfold applyDrift
      cases a <;> first | rfl | exact absurd rfl ha

omit [DecidableEq K] in
/-- C123. `phase_correct`, when it does something and does not raise: every pulse is corrected by the corrector learned from the good pulses, and this corrector is kept, and stored if asked for. -/
theorem phase_done {T : Tools K P SP Cal SC A} {a : Attr} {force save : Bool} {g : List Bool} {c c' : Chan K P SP Cal SC} {r : Option P} (h : phaseCorrect T a force g save c = (c', .ok r)) :
    (c' = c ∧ force = false ∧ c.pc.isSome = true ∧ r = none) ∨
    ∃ p v, r = some p ∧ T.learnPhase (sel g c.phase) (sel g (c.get a)) = .ok p ∧ T.applyPhase p c.phase (c.get a) = .ok v ∧
      c' = { c with
        pc := some p
        phc := v.map T.rd
        phaseCorr := c.phase.map fun x => T.rd (T.unif p x)
        pcFile := if save then some (T.savePC p c.pcFile) else c.pcFile } := by
  unfold phaseCorrect at h
  split at h
  · rename_i hs
    left
    injection h with h h2
    injection h2 with h2
    simp only [Bool.not_eq_true', Bool.or_eq_false_iff] at hs
    refine ⟨h.symm, hs.1, ?_, h2.symm⟩
    cases hp : c.pc
    · rw [hp] at hs; simp at hs
    · rfl
  · right
    split at h
    · injection h with _ h; cases h
    · rename_i p hl
      dsimp only at h
      have e : ∀ pc' pcc, ({ c with pc := pc', phaseCorr := pcc } : Chan K P SP Cal SC).get a = c.get a := by intros; cases a <;> rfl
      rw [e] at h
      split at h
      · injection h with _ h; cases h
      · rename_i v hv
        injection h with h h2
        injection h2 with h2
        refine ⟨p, v, h2.symm, hl, hv, ?_⟩
        rw [← h]
        cases save <;> rfl

omit [DecidableEq K] in
theorem look_put {α : Type} (k k' : String) (v : α) (l : List (String × α)) : look k' (put k v l) = if k' = k then some v else look k' l := by
  unfold look put
  by_cases h : k' = k
  · subst h; simp
  · rw [if_neg h, List.find?_cons_of_neg (by simpa using fun e => h e.symm), List.find?_filter]
    congr 2
    funext e
    by_cases he : e.1 = k'
    · simp [he, h]
    · simp [he]

omit [DecidableEq K] in
/-- C123. `calibrate`, when it makes a calibration: it is learned from the good pulses, kept and stored under its name, and the energies of all pulses are those by this calibration. If it raises, nothing has changed. Calibrations of other names are
not touched. -/
theorem calibrate_done {T : Tools K P SP Cal SC A} {a : Attr} {ext : String} {args : A} {force : Bool} {g : List Bool} {c : Chan K P SP Cal SC} :
    (∀ c' e, calibrate T a ext args force g c = (c', .error e) → c' = c) ∧
    (∀ c', calibrate T a ext args force g c = (c', .ok none) → ∃ cal, T.autocal (sel g (c.get a)) args = .ok cal ∧ c'.energy = (c.get a).map (fun x => T.rd (T.ph2e cal x)) ∧ c'.last = some cal ∧
      look (a.name ++ ext) c'.cals = some cal ∧ look (a.name ++ ext) c'.calFile = some (T.saveCal cal) ∧
      (∀ k, k ≠ a.name ++ ext → look k c'.cals = look k c.cals ∧ look k c'.calFile = look k c.calFile) ∧
      c' = { c with energy := c'.energy, last := c'.last, cals := c'.cals, calFile := c'.calFile }) ∧
    (∀ c' cal, calibrate T a ext args force g c = (c', .ok (some cal)) → c' = c ∧ force = false ∧ look (a.name ++ ext) c.cals = some cal) := by
  unfold calibrate
  dsimp only
  split
  · rename_i hs
    rw [Bool.and_eq_true] at hs
    refine ⟨fun c' e h => (by injection h with _ h; cases h), fun c' h => ?_, fun c' cal h => ?_⟩
    · injection h with _ h
      injection h with h
      rw [h] at hs
      simp at hs
    · injection h with h1 h
      injection h with h
      exact ⟨h1.symm, by simpa using hs.1, h⟩
  · cases hc : T.autocal (sel g (c.get a)) args with
    | error e0 =>
      dsimp only
      exact ⟨fun c' e h => (by injection h with h _; exact h.symm), fun c' h => (by injection h with _ h; cases h), fun c' cal h => (by injection h with _ h; cases h)⟩
    | ok cal =>
      dsimp only
      unfold convert
      dsimp only
      rw [Option.getD_some, look_put, if_pos rfl]
      dsimp only
      refine ⟨fun c' e h => (by injection h with _ h; cases h), fun c' h => ?_, fun c' cal h => (by injection h with _ h; cases h)⟩
      injection h with h _
      subst h
      refine ⟨cal, rfl, by cases a <;> rfl, rfl, by rw [look_put, if_pos rfl], by rw [look_put, if_pos rfl], fun k hk => ⟨by rw [look_put, if_neg hk], by rw [look_put, if_neg hk]⟩, rfl⟩

omit [DecidableEq K] in
theorem loadCals_look {T : Tools K P SP Cal SC A} {l : List (String × SC)} {r : List (String × Cal)} (h : loadCals T l = .ok r) (k : String) (s : SC) (hk : look k l = some s) :
    ∃ cal, T.loadCal s = .ok cal ∧ look k r = some cal := by
  induction l generalizing r with
  | nil => simp [look] at hk
  | cons e l ih =>
    obtain ⟨k', s'⟩ := e
    unfold loadCals at h
    cases h1 : T.loadCal s' with
    | error x => rw [h1] at h; cases h
    | ok cal =>
      rw [h1] at h
      dsimp only at h
      cases h2 : loadCals T l with
      | error x => rw [h2] at h; cases h
      | ok r' =>
        rw [h2] at h
        injection h with h
        subst h
        by_cases e : k' = k
        · subst e
          simp only [look, List.find?_cons, beq_self_eq_true, Option.map_some, Option.some.injEq] at hk ⊢
          subst hk
          exact ⟨cal, h1, rfl⟩
        · have hn : (k' == k) = false := by simpa using e
          simp only [look, List.find?_cons, hn] at hk ⊢
          exact ih h2 hk

/-- C123. In a new session, `convert_to_energy` by the name of a calibration gives the energies that `calibrate` gave, if loading a saved calibration gives one with the same curve (C44). -/
theorem energy_again_partial {T : Tools K P SP Cal SC A} (hl : ∀ cal cal', T.loadCal (T.saveCal cal) = .ok cal' → T.ph2e cal' = T.ph2e cal) {a : Attr} (ha : a ≠ .energy) {ext : String} {args : A} {force : Bool} {g : List Bool}
    {c c' c2 : Chan K P SP Cal SC} (h : calibrate T a ext args force g c = (c', .ok none)) (ho : reopen T c' = .ok c2) :
    c2.energy = c'.energy ∧ ∃ c3, convert T a (some (a.name ++ ext)) c2 = (c3, .ok ()) ∧ c3.energy = c'.energy := by
  obtain ⟨cal, h1, h2, -, -, h5, -, h7⟩ := calibrate_done.2.1 c' h
  unfold reopen at ho
  cases hc : loadCals T c'.calFile with
  | error e => rw [hc] at ho; cases ho
  | ok cals =>
    rw [hc] at ho
    dsimp only at ho
    obtain ⟨cal', hcal, hlook⟩ := loadCals_look hc _ _ h5
    have key : c2.energy = c'.energy ∧ c2.cals = cals ∧ c2.get a = c'.get a := by
      cases hp : c'.pcFile with
      | none => rw [hp] at ho; injection ho with ho; subst ho; exact ⟨rfl, rfl, by cases a <;> rfl⟩
      | some s =>
        rw [hp] at ho
        dsimp only at ho
        cases hs : T.loadPC s with
        | error e => rw [hs] at ho; cases ho
        | ok p => rw [hs] at ho; injection ho with ho; subst ho; exact ⟨rfl, rfl, by cases a <;> rfl⟩
    refine ⟨key.1, ?_⟩
    unfold convert
    rw [Option.getD_some, key.2.1, hlook]
    refine ⟨_, rfl, ?_⟩
    dsimp only
    have hg : c'.get a = c.get a := by rw [h7]; cases a <;> first | rfl | exact absurd rfl ha
    rw [key.2.2, hg, hl _ _ hcal, h2]

/-! ### The chain -/

/-- C123. The whole chain in a new file: the four calls give the filtered values, their drift correction, its phase correction and the energies, each learned from the good pulses at that time and applied to all pulses of the step before. -/
theorem chain {T : Tools K P SP Cal SC A} {c : Chan K P SP Cal SC} (h0 : ∀ x ∈ c.filt, x = 0) (h1 : ∀ x ∈ c.dc, x = 0) (h2 : c.pc = none) (h3 : c.cals = []) {v ph : List K} {g1 g2 g3 : List Bool} {ext : String} {args : A} {save : Bool}
    {m s : K} (hd : T.learnDrift (sel g1 c.ptm) (sel g1 (v.map T.rd)) = .ok (m, s))
    {p : P} (hp : T.learnPhase (sel g2 (ph.map T.rd)) (sel g2 (List.zipWith (fun x q => T.rd (x * (1 + (q - m) * s))) (v.map T.rd) c.ptm)) = .ok p)
    {w : List K} (hw : T.applyPhase p (ph.map T.rd) (List.zipWith (fun x q => T.rd (x * (1 + (q - m) * s))) (v.map T.rd) c.ptm) = .ok w)
    {cal : Cal} (hc : T.autocal (sel g3 (w.map T.rd)) args = .ok cal) :
    let c' := [Op.filter (.ok (v, ph)) false, .drift .filt false g1, .phase .dc false g2 save, .cal .phc ext args false g3].foldl (Op.step T) c
    c'.filt = v.map T.rd ∧ c'.dc = List.zipWith (fun x q => T.rd (x * (1 + (q - m) * s))) (v.map T.rd) c.ptm ∧ c'.dcAttrs = some (m, s) ∧ c'.phc = w.map T.rd ∧ c'.pc = some p ∧
    c'.energy = (w.map T.rd).map (fun x => T.rd (T.ph2e cal x)) ∧ look ("p_filt_value_phc" ++ ext) c'.cals = some cal := by
  intro c'
  have a0 : c.filt.all (· == 0) = true := by rw [List.all_eq_true]; intro x hx; rw [h0 x hx]; simp
  have a1 : c.dc.all (· == 0) = true := by rw [List.all_eq_true]; intro x hx; rw [h1 x hx]; simp
  have e : c' = { c with
      filt := v.map T.rd
      phase := ph.map T.rd
      dcAttrs := some (m, s)
      dc := List.zipWith (fun x q => T.rd (x * (1 + (q - m) * s))) (v.map T.rd) c.ptm
      pc := some p
      phaseCorr := (ph.map T.rd).map fun x => T.rd (T.unif p x)
      phc := w.map T.rd
      pcFile := if save then some (T.savePC p c.pcFile) else c.pcFile
      cals := put ("p_filt_value_phc" ++ ext) cal c.cals
      calFile := put ("p_filt_value_phc" ++ ext) (T.saveCal cal) c.calFile
      energy := (w.map T.rd).map (fun x => T.rd (T.ph2e cal x))
      last := some cal } := by
    show [Op.filter (.ok (v, ph)) false, .drift .filt false g1, .phase .dc false g2 save, .cal .phc ext args false g3].foldl (Op.step T) c = _
    simp only [List.foldl_cons, List.foldl_nil, Op.step]
    have s1 : (filterData T (.ok (v, ph)) false c).1 = { c with filt := v.map T.rd, phase := ph.map T.rd } := by
      unfold filterData
      rw [a0]
      rfl
    rw [s1]
    have s2 : (driftCorrect T .filt false g1 { c with filt := v.map T.rd, phase := ph.map T.rd }).1 = { c with
        filt := v.map T.rd
        phase := ph.map T.rd
        dcAttrs := some (m, s)
        dc := List.zipWith (fun x q => T.rd (x * (1 + (q - m) * s))) (v.map T.rd) c.ptm } := by
      unfold driftCorrect
      simp only [a1, Bool.true_or, Bool.or_true, Bool.not_true, Bool.false_eq_true, if_false, Chan.get, hd]
      rfl
    rw [s2]
    have s3 : ∀ d : Chan K P SP Cal SC, d.pc = none → d.phase = ph.map T.rd → d.dc = List.zipWith (fun x q => T.rd (x * (1 + (q - m) * s))) (v.map T.rd) c.ptm →
        (phaseCorrect T .dc false g2 save d).1 = { d with
          pc := some p
          phc := w.map T.rd
          phaseCorr := (ph.map T.rd).map fun x => T.rd (T.unif p x)
          pcFile := if save then some (T.savePC p d.pcFile) else d.pcFile } := by
      intro d d1 d2 d3
      unfold phaseCorrect
      simp only [d1, Option.isNone_none, Bool.or_true, Bool.not_true, Bool.false_eq_true, if_false, Chan.get, d2, d3, hp, hw]
      cases save <;> simp [← d3]
    have s4 := s3 { c with
        filt := v.map T.rd
        phase := ph.map T.rd
        dcAttrs := some (m, s)
        dc := List.zipWith (fun x q => T.rd (x * (1 + (q - m) * s))) (v.map T.rd) c.ptm } h2 rfl rfl
    rw [s4]
    unfold calibrate
    simp only [h3, look, List.find?_nil, Option.map_none, Option.isSome_none, Bool.and_false, Bool.false_eq_true, if_false, Chan.get, hc]
    unfold convert
    simp only [Option.getD_some, Attr.name, look_put, if_true, Chan.get]
  rw [e]
  refine ⟨rfl, rfl, rfl, rfl, rfl, rfl, ?_⟩
  dsimp only
  rw [look_put, if_pos rfl]

/-- results are there, and the phase correction in the file can be loaded [specification] -/
def Settled (T : Tools K P SP Cal SC A) (c : Chan K P SP Cal SC) : Prop :=
  (∃ x ∈ c.filt, x ≠ 0) ∧ (∃ x ∈ c.dc, x ≠ 0) ∧ c.dc ≠ c.filt ∧ c.pc.isSome = true ∧ ∃ s, c.pcFile = some s

theorem unforced_step {T : Tools K P SP Cal SC A} {c : Chan K P SP Cal SC} (hs : Settled T c) (op : Op K A) (ho : op.unforced = true) :
    Settled T (op.step T c) ∧ (op.step T c).filt = c.filt ∧ (op.step T c).phase = c.phase ∧ (op.step T c).dc = c.dc ∧ (op.step T c).dcAttrs = c.dcAttrs ∧ (op.step T c).phc = c.phc ∧
    (op.step T c).phaseCorr = c.phaseCorr ∧ (op.step T c).pcFile = c.pcFile := by
  obtain ⟨⟨x, hx, hx0⟩, ⟨y, hy, hy0⟩, hne, hpc, hf⟩ := id hs
  have f0 : c.filt.all (· == 0) = false := by
    rw [← Bool.not_eq_true, List.all_eq_true]
    intro h; exact hx0 (by simpa using h x hx)
  have d0 : c.dc.all (· == 0) = false := by
    rw [← Bool.not_eq_true, List.all_eq_true]
    intro h; exact hy0 (by simpa using h y hy)
  have dn : (c.dc == c.filt) = false := by simpa using hne
  have pn : c.pc.isNone = false := by cases h : c.pc <;> simp_all
  cases op with
  | filter res f =>
    have : f = false := by simpa [Op.unforced] using ho
    subst this
    have e : (Op.filter res false : Op K A).step T c = c := by simp [Op.step, filterData, f0]
    rw [e]; exact ⟨hs, rfl, rfl, rfl, rfl, rfl, rfl, rfl⟩
  | drift a f g =>
    have : f = false := by simpa [Op.unforced] using ho
    subst this
    have e : (Op.drift a false g : Op K A).step T c = c := by simp [Op.step, driftCorrect, d0, dn]
    rw [e]; exact ⟨hs, rfl, rfl, rfl, rfl, rfl, rfl, rfl⟩
  | phase a f g save =>
    have : f = false := by simpa [Op.unforced] using ho
    subst this
    have e : (Op.phase a false g save : Op K A).step T c = c := by simp [Op.step, phaseCorrect, pn]
    rw [e]; exact ⟨hs, rfl, rfl, rfl, rfl, rfl, rfl, rfl⟩
  | cal a ext args f g =>
    show Settled T (calibrate T a ext args f g c).1 ∧ _
    cases hr : calibrate T a ext args f g c with
    | mk c' r =>
      have e : (Op.cal a ext args f g : Op K A).step T c = c' := by simp only [Op.step]; rw [hr]
      rw [e]
      dsimp only
      cases r with
      | error e' => rw [calibrate_done.1 c' e' hr]; exact ⟨hs, rfl, rfl, rfl, rfl, rfl, rfl, rfl⟩
      | ok r =>
        cases r with
        | some cal => rw [(calibrate_done.2.2 c' cal hr).1]; exact ⟨hs, rfl, rfl, rfl, rfl, rfl, rfl, rfl⟩
        | none =>
          obtain ⟨cal, -, -, -, -, -, -, h7⟩ := calibrate_done.2.1 c' hr
          rw [h7]
          exact ⟨hs, rfl, rfl, rfl, rfl, rfl, rfl, rfl⟩
  | conv a n =>
    simp only [Op.step]
    unfold convert
    split
    · exact ⟨hs, rfl, rfl, rfl, rfl, rfl, rfl, rfl⟩
    · exact ⟨hs, rfl, rfl, rfl, rfl, rfl, rfl, rfl⟩
  | reopen =>
    simp only [Op.step]
    cases hr : reopen T c with
    | error e => exact ⟨hs, rfl, rfl, rfl, rfl, rfl, rfl, rfl⟩
    | ok c' =>
      dsimp only
      obtain ⟨s, hsf⟩ := hf
      unfold reopen at hr
      split at hr
      · cases hr
      rw [hsf] at hr
      dsimp only at hr
      split at hr
      · cases hr
      · injection hr with hr
        subst hr
        exact ⟨⟨⟨x, hx, hx0⟩, ⟨y, hy, hy0⟩, hne, rfl, s, rfl⟩, rfl, rfl, rfl, rfl, rfl, rfl, hsf.symm⟩

/-- C123. Once there are results, no history of calls that are not forced, with any cuts, categories and settings, over any number of sessions, changes the filtered, drift-corrected and phase-corrected values or what is stored about the corrections. -/
theorem unforced_kept {T : Tools K P SP Cal SC A} {c : Chan K P SP Cal SC} (hs : Settled T c) (ops : List (Op K A)) (ho : ∀ op ∈ ops, op.unforced = true) :
    let c' := ops.foldl (Op.step T) c
    c'.filt = c.filt ∧ c'.phase = c.phase ∧ c'.dc = c.dc ∧ c'.dcAttrs = c.dcAttrs ∧ c'.phc = c.phc ∧ c'.phaseCorr = c.phaseCorr ∧ c'.pcFile = c.pcFile := by
  induction ops generalizing c with
  | nil => exact ⟨rfl, rfl, rfl, rfl, rfl, rfl, rfl⟩
  | cons op t ih =>
    obtain ⟨h0, h1, h2, h3, h4, h5, h6, h7⟩ := unforced_step hs op (ho op (by simp))
    obtain ⟨i1, i2, i3, i4, i5, i6, i7⟩ := ih h0 (fun o h => ho o (by simp [h]))
    exact ⟨i1.trans h1, i2.trans h2, i3.trans h3, i4.trans h4, i5.trans h5, i6.trans h6, i7.trans h7⟩

/-! ### Instances and disagreements -/

/-- learned numbers that depend on the data: the slope is 1/10, the median the first pretrigger mean; the phase correction subtracts phase times the first value; a calibration multiplies [specification] -/
def demo : Tools ℚ ℚ ℚ ℚ ℚ Unit where
  rd := id
  learnDrift := fun i _ => .ok (i.headD 0, 1 / 10)
  learnPhase := fun _ v => match v with
    | [] => .error .value
    | x :: _ => .ok x
  applyPhase := fun p ph v => .ok (List.zipWith (fun f x => x - f * p) ph v)
  unif := fun p x => p * x
  savePC := fun p _ => p
  loadPC := .ok
  autocal := fun v _ => match v with
    | [] => .error .value
    | x :: _ => .ok (1000 / x)
  saveCal := id
  loadCal := .ok
  ph2e := fun c x => c * x

/-- a new file with two pulses [specification] -/
def newChan : Chan ℚ ℚ ℚ ℚ ℚ := ⟨[1, 2], [0, 0], [0, 0], [0, 0], [0, 0], [0, 0], [0, 0], none, none, [], none, [], none⟩

/-- the chain on it [specification] -/
def done1 : Chan ℚ ℚ ℚ ℚ ℚ :=
  [Op.filter (.ok ([10, 20], [0, 1 / 10])) false, .drift .filt false [true, true], .phase .dc false [true, true] true, .cal .phc "" () false [true, true]].foldl (Op.step demo) newChan

/-- C123, instance -/
example : done1.dc = [10, 22] ∧ done1.phc = [10, 21] ∧ done1.energy = [1000, 2100] ∧ (Op.reopen.step demo done1).pc = some 10 ∧
    ((Op.cal .phc "" () false [false, true] : Op ℚ Unit).step demo (Op.reopen.step demo done1)).energy = [1000, 2100] := by decide +kernel

example : Settled demo done1 := by
  refine ⟨⟨10, by decide +kernel, by decide +kernel⟩, ⟨10, by decide +kernel, by decide +kernel⟩, by decide +kernel, by decide +kernel, 10, by decide +kernel⟩

/-- C123. Disagreement (C123): after the data were filtered anew (with another filter, forceNew), `drift_correct` is skipped without an error and leaves the corrected values of the old filter. -/
theorem stale_drift_fails : let c := [Op.filter (.ok ([30, 40], [0, 0])) true, .drift .filt false [true, true]].foldl (Op.step demo) done1
    c.filt = [30, 40] ∧ c.dc = [10, 22] ∧ (driftCorrect demo .filt false [true, true] c).2 = .ok () := by decide +kernel

/-- C123. Disagreement (C123): the same for `phase_correct` after a forced drift correction: the phase-corrected values remain those of the drift correction before. -/
theorem stale_phase_fails : let c := [Op.drift .filt true [false, true], .phase .dc false [true, true] true].foldl (Op.step demo) done1
    c.dc = [9, 20] ∧ c.phc = [10, 21] ∧ (phaseCorrect demo .dc false [true, true] true c).2 = .ok none := by decide +kernel

/-- C123. Disagreement (C123): a drift correction of another quantity is skipped if there is one already: `p_filt_value_dc` is then not what was asked for. -/
theorem other_quantity_fails : (Op.drift .phc false [true, true] : Op ℚ Unit).step demo done1 = done1 ∧ done1.dc ≠ List.zipWith (fun x m => x * (1 + (m - 1) * (1 / 10))) done1.phc done1.ptm := by decide +kernel

/-- C123. Disagreement (C123): `calibrate` for a calibration that exists does not convert: after calibrating by `p_filt_value_phc`, then by `p_filt_value_dc`, then by `p_filt_value_phc` again, the energies are those of `p_filt_value_dc`. -/
theorem calibrate_again_fails : let c := [Op.cal .dc "" () false [false, true], .cal .phc "" () false [true, true]].foldl (Op.step demo) done1
    c.energy = done1.dc.map (1000 / 22 * ·) ∧ c.energy ≠ done1.energy := by decide +kernel

/-- C123. Disagreement (C123): calibrations of different quantities can have the same name: `p_filt_value` with the extension "_dc" and `p_filt_value_dc`. The second is then never made, for all data. -/
theorem same_name_fails (T : Tools K P SP Cal SC A) (c : Chan K P SP Cal SC) (args args' : A) (g g' : List Bool) (c' : Chan K P SP Cal SC) (h : calibrate T .filt "_dc" args true g c = (c', .ok none)) :
    ∃ cal, calibrate T .dc "" args' false g' c' = (c', .ok (some cal)) ∧ T.autocal (sel g c.filt) args = .ok cal := by
  obtain ⟨cal, h1, -, -, h4, -⟩ := calibrate_done.2.1 c' h
  refine ⟨cal, ?_, h1⟩
  unfold calibrate
  have e : Attr.dc.name ++ "" = Attr.filt.name ++ "_dc" := by decide +kernel
  simp only [e, h4, Option.isSome_some, Bool.not_false, Bool.and_true, if_true]

/-- C123. Disagreement (C123): the corrector is kept before it is applied. If applying it raises, the channel has a corrector, and later calls are skipped without an error though there are no corrected values. -/
theorem failed_phase_fails (T : Tools K P SP Cal SC A) (c : Chan K P SP Cal SC) (a : Attr) (g : List Bool) (save : Bool) (p : P) (e : Exc) (h1 : T.learnPhase (sel g c.phase) (sel g (c.get a)) = .ok p)
    (h2 : T.applyPhase p c.phase (c.get a) = .error e) (h0 : c.pc = none) :
    (phaseCorrect T a false g save c).2 = .error e ∧ (phaseCorrect T a false g save c).1.phc = c.phc ∧
    ∀ a' g' save', phaseCorrect T a' false g' save' (phaseCorrect T a false g save c).1 = ((phaseCorrect T a false g save c).1, .ok none) := by
  have e2 : ∀ pc' pcc, ({ c with pc := pc', phaseCorr := pcc } : Chan K P SP Cal SC).get a = c.get a := by intros; cases a <;> rfl
  have key : phaseCorrect T a false g save c = ({ c with pc := some p, phaseCorr := c.phase.map fun x => T.rd (T.unif p x) }, .error e) := by
    unfold phaseCorrect
    simp only [h0, Option.isNone_none, Bool.or_true, Bool.not_true, Bool.false_eq_true, if_false, h1, e2, h2]
  rw [key]
  refine ⟨rfl, rfl, fun a' g' save' => ?_⟩
  simp [phaseCorrect]

/-- C123. Disagreement (C123): a forced drift correction that is interrupted between its two writes leaves in the file a slope and a median that do not belong to the corrected values. -/
theorem interrupted_drift_fails : let c := { done1 with dcAttrs := some ((2 : ℚ), (1 / 10 : ℚ)) }
    demo.learnDrift (sel [false, true] done1.ptm) (sel [false, true] done1.filt) = .ok (2, 1 / 10) ∧ applyDrift demo .filt c = (driftCorrect demo .filt true [false, true] done1) ∧ (applyDrift demo .filt c).1.dc ≠ c.dc := by decide +kernel

/-- the real phase correction: the uniformifier and one correction curve per peak (phase_correct.py L44-54) [specification] -/
def real : Tools ℚ ((ℚ → ℚ) × List (ℚ → ℚ)) Unit Unit Unit Unit where
  rd := id
  learnDrift := fun _ _ => .error .value
  learnPhase := fun _ _ => .ok (fun x => x / 100, [fun f => 10 - f])
  applyPhase := fun p => Corr.phaseCorrect p.1 p.2
  unif := fun p => p.1
  savePC := fun _ _ => ()
  loadPC := fun _ => .error .value
  autocal := fun _ _ => .error .value
  saveCal := id
  loadCal := .ok
  ph2e := fun _ x => x

/-- C123. Disagreement (C123): `p_filt_phase_corr` is not the phase that the correction uses. The curve that gives the typical phase at a pulse height is evaluated at the phase: a pulse with phase 1/5 and height 10, at which the typical phase is
1/10, is corrected as phase 1/10, but 1/500 is stored. -/
theorem phase_corr_fails : let c : Chan ℚ ((ℚ → ℚ) × List (ℚ → ℚ)) Unit Unit Unit := ⟨[0], [1 / 5], [10], [10], [0], [0], [0], none, none, [], none, [], none⟩
    let c' := (phaseCorrect real .dc false [true] false c).1
    c'.phc = [10 + 1 / 10] ∧ c'.phaseCorr = [1 / 500] := by decide +kernel

end Mass.Calc.Chain
