import Verif.Py
/-! C193: what happens to the files on disk when a group is made (mass/core/channel_group.py `TESGroup.__init__`: the HDF5 files for the results of pulses and of noise). -/
namespace Mass.Group.HdfFiles
open Mass
variable {P C B : Type} [DecidableEq P]

/-! ### model -/

/-- what a path holds: an HDF5 file with its contents, or a file that is none (any other file, or a damaged one), as seen by h5py.File in channel_group.py L186-188, L199-205 -/
inductive File (C B : Type)
  | hdf (contents : C)
  | other (bytes : B)
  deriving DecidableEq

/-- the disk, as used in channel_group.py L186-205: what each path holds, which paths this process has open for writing, and which it cannot open for writing (locked by another process, open
read-only, or not permitted) -/
structure Disk (P C B : Type) where
  file : P → Option (File C B)
  opened : List P
  held : P → Bool

/-- h5py.File(path, 'a'), channel_group.py L188, L200: an existing HDF5 file is kept, a missing one is made; OSError if the file is none or cannot be opened -/
def openA (empty : C) (p : P) (d : Disk P C B) : Except Exc (Disk P C B) :=
  if d.held p = true then .error .os
  else match d.file p with
    | none => .ok { d with file := fun q => if q = p then some (.hdf empty) else d.file q, opened := p :: d.opened }
    | some (.hdf _) => .ok { d with opened := p :: d.opened }
    | some (.other _) => .error .os

/-- h5py.File(path, 'w'), channel_group.py L186, L200, L205: any existing file is replaced by an empty one; OSError if it is open already or cannot be opened -/
def openW (empty : C) (p : P) (d : Disk P C B) : Except Exc (Disk P C B) :=
  if d.held p = true ∨ p ∈ d.opened then .error .os
  else .ok { d with file := fun q => if q = p then some (.hdf empty) else d.file q, opened := p :: d.opened }

/-- the arguments that matter: the paths of the two files (given or made from the names of the data files, channel_group.py L164-167), no pulse file for noise only, no noise file without noise -/
structure Args (P : Type) where
  pulse : Option P
  noise : Option P
  overwrite : Bool

/-- the file for the pulses, channel_group.py L170-188 -/
def openPulse (empty : C) (a : Args P) (d : Disk P C B) : Except Exc (Disk P C B) :=
  match a.pulse with
  | none => .ok d
  | some p => if a.overwrite then openW empty p d else openA empty p d

/-- the file for the noise, channel_group.py L194-205: after an OSError it is opened again with 'w' -/
def openNoise (empty : C) (a : Args P) (d : Disk P C B) : Except Exc (Disk P C B) :=
  match a.noise with
  | none => .ok d
  | some q => match (if a.overwrite then openW empty q d else openA empty q d) with
    | .ok d' => .ok d'
    | .error _ => openW empty q d

/-- the disk after `TESGroup.__init__` up to L208, and how it ended, channel_group.py L164-208 -/
def open2 (empty : C) (a : Args P) (d : Disk P C B) : Disk P C B × Except Exc Unit :=
  match openPulse empty a d with
  | .error e => (d, .error e)
  | .ok d1 => match openNoise empty a d1 with
    | .error e => (d1, .error e)
    | .ok d2 => (d2, .ok ())

/-! ### lemmas -/

theorem openA_spec (empty : C) (p : P) (d : Disk P C B) :
    (openA empty p d = .error .os ∧ (d.held p = true ∨ ∃ b, d.file p = some (.other b))) ∨
    (∃ d', openA empty p d = .ok d' ∧ d.held p = false ∧ (∀ b, d.file p ≠ some (.other b)) ∧ d'.held = d.held ∧ d'.opened = p :: d.opened ∧ (∃ c, d'.file p = some (.hdf c)) ∧
      (d.file p = none → d'.file p = some (.hdf empty)) ∧ (∀ q, d.file q ≠ none → d'.file q = d.file q) ∧ ∀ q, q ≠ p → d'.file q = d.file q) := by
  unfold openA
  split
  · exact Or.inl ⟨rfl, Or.inl ‹_›⟩
  · rename_i hh
    have hh' : d.held p = false := by simpa using hh
    cases hf : d.file p with
    | none =>
      refine Or.inr ⟨_, rfl, hh', by simp, rfl, rfl, ⟨empty, by simp⟩, by simp, fun q hq => ?_, fun q hq => by simp [hq]⟩
      have : q ≠ p := fun e => hq (e ▸ hf)
      simp [this]
    | some x =>
      cases x with
      | hdf c => exact Or.inr ⟨_, rfl, hh', by simp, rfl, rfl, ⟨c, hf⟩, by simp, fun q _ => rfl, fun q _ => rfl⟩
      | other b => exact Or.inl ⟨rfl, Or.inr ⟨b, rfl⟩⟩

theorem openW_spec (empty : C) (p : P) (d : Disk P C B) :
    (openW empty p d = .error .os ∧ (d.held p = true ∨ p ∈ d.opened)) ∨
    (∃ d', openW empty p d = .ok d' ∧ d.held p = false ∧ p ∉ d.opened ∧ d'.held = d.held ∧ d'.opened = p :: d.opened ∧ d'.file p = some (.hdf empty) ∧ ∀ q, q ≠ p → d'.file q = d.file q) := by
  unfold openW
  split
  · exact Or.inl ⟨rfl, ‹_›⟩
  · rename_i hh
    rw [not_or] at hh
    exact Or.inr ⟨_, rfl, by simpa using hh.1, hh.2, rfl, rfl, by simp, fun q hq => by simp [hq]⟩

/-! ### theorems -/

/-- C193: without `overwrite_hdf5_file`, whether the group is made or not: every HDF5 file keeps its contents, every other file is as before unless its path is the one for the noise, and no file other
than the two of the group appears. -/
theorem kept_partial (empty : C) (a : Args P) (ha : a.overwrite = false) (d : Disk P C B) :
    (∀ p c, d.file p = some (.hdf c) → (open2 empty a d).1.file p = some (.hdf c)) ∧
    (∀ p b, d.file p = some (.other b) → a.noise ≠ some p → (open2 empty a d).1.file p = some (.other b)) ∧
    (∀ p, d.file p = none → a.pulse ≠ some p → a.noise ≠ some p → (open2 empty a d).1.file p = none) := by
  -- after the file for the pulses
  have h1 : ∀ d1, openPulse empty a d = .ok d1 → (∀ p, d.file p ≠ none → d1.file p = d.file p) ∧ ∀ p, a.pulse ≠ some p → d1.file p = d.file p := by
    intro d1 h
    unfold openPulse at h
    cases hp : a.pulse with
    | none => rw [hp] at h; injection h with h; subst h; exact ⟨fun _ _ => rfl, fun _ _ => rfl⟩
    | some p0 =>
      rw [hp, ha] at h
      rcases openA_spec empty p0 d with ⟨e, _⟩ | ⟨d', e, _, _, _, _, _, _, k1, k2⟩
      · simp [e] at h
      · simp only [e, Bool.false_eq_true, if_false, Except.ok.injEq] at h
        subst h
        exact ⟨k1, fun p hne => k2 p (fun e => hne (by rw [e]))⟩
  -- after the file for the noise
  have h2 : ∀ d1 d2 : Disk P C B, openNoise empty a d1 = .ok d2 → (∀ p c, d1.file p = some (.hdf c) → d2.file p = some (.hdf c)) ∧ ∀ p, a.noise ≠ some p → d2.file p = d1.file p := by
    intro d1 d2 h
    unfold openNoise at h
    cases hq : a.noise with
    | none => rw [hq] at h; injection h with h; subst h; exact ⟨fun _ _ h => h, fun _ _ => rfl⟩
    | some q =>
      rw [hq, ha] at h
      rcases openA_spec empty q d1 with ⟨e, why⟩ | ⟨d', e, _, _, _, _, _, _, k1, k2⟩
      · simp only [e, Bool.false_eq_true, if_false] at h
        rcases openW_spec empty q d1 with ⟨e', _⟩ | ⟨d', e', hh, _, _, _, k1, k2⟩
        · rw [e'] at h; cases h
        · rw [e'] at h
          injection h with h
          subst h
          obtain ⟨b, hb⟩ : ∃ b, d1.file q = some (.other b) := by
            rcases why with w | w
            · rw [hh] at w; cases w
            · exact w
          refine ⟨fun p c hp => ?_, fun p hne => k2 p (fun e => hne (by rw [e]))⟩
          have : p ≠ q := by rintro rfl; rw [hb] at hp; cases hp
          rw [k2 p this, hp]
      · simp only [e, Bool.false_eq_true, if_false, Except.ok.injEq] at h
        subst h
        exact ⟨fun p c hp => by rw [k1 p (by rw [hp]; simp), hp], fun p hne => k2 p (fun e => hne (by rw [e]))⟩
  unfold open2
  cases e1 : openPulse empty a d with
  | error x => exact ⟨fun _ _ h => h, fun _ _ h _ => h, fun _ h _ _ => h⟩
  | ok d1 =>
    obtain ⟨a1, a2⟩ := h1 d1 e1
    dsimp only
    cases e2 : openNoise empty a d1 with
    | error x => exact ⟨fun p c h => by rw [a1 p (by rw [h]; simp), h], fun p b h _ => by rw [a1 p (by rw [h]; simp), h], fun p h hp _ => by rw [a2 p hp, h]⟩
    | ok d2 =>
      obtain ⟨b1, b2⟩ := h2 d1 d2 e2
      exact ⟨fun p c h => b1 p c (by rw [a1 p (by rw [h]; simp), h]), fun p b h hn => by rw [b2 p hn, a1 p (by rw [h]; simp), h], fun p h hp hn => by rw [b2 p hn, a2 p hp, h]⟩

/-- C193: if the group is made, both its files are HDF5 files that are open in this process; with `overwrite_hdf5_file` they are empty, and nothing else on the disk has changed. -/
theorem made (empty : C) (a : Args P) (d : Disk P C B) (h : (open2 empty a d).2 = .ok ()) :
    (∀ p, a.pulse = some p ∨ a.noise = some p → p ∈ (open2 empty a d).1.opened ∧ ∃ c, (open2 empty a d).1.file p = some (.hdf c) ∧ (a.overwrite = true ∨ d.file p = none → c = empty)) ∧
    (∀ p, a.pulse ≠ some p → a.noise ≠ some p → (open2 empty a d).1.file p = d.file p) := by
  have hP : ∀ d1, openPulse empty a d = .ok d1 → (∀ p, a.pulse = some p → p ∈ d1.opened ∧ ∃ c, d1.file p = some (.hdf c) ∧ (a.overwrite = true ∨ d.file p = none → c = empty)) ∧
      (∀ p, a.pulse ≠ some p → d1.file p = d.file p) := by
    intro d1 h
    unfold openPulse at h
    cases hp : a.pulse with
    | none => rw [hp] at h; injection h with h; subst h; exact ⟨by simp, fun _ _ => rfl⟩
    | some p0 =>
      rw [hp] at h
      dsimp only at h
      by_cases ho : a.overwrite = true
      · rw [if_pos ho] at h
        rcases openW_spec empty p0 d with ⟨e, _⟩ | ⟨d', e, _, _, _, k0, k1, k2⟩
        · rw [e] at h; cases h
        · rw [e] at h; injection h with h; subst h
          exact ⟨fun p hp' => by cases hp'; exact ⟨by rw [k0]; simp, empty, k1, fun _ => rfl⟩, fun p hne => k2 p (fun e => hne (by rw [e]))⟩
      · rw [if_neg ho] at h
        rcases openA_spec empty p0 d with ⟨e, _⟩ | ⟨d', e, _, _, _, k0, ⟨c, kc⟩, kn, k1, k2⟩
        · rw [e] at h; cases h
        · rw [e] at h; injection h with h; subst h
          refine ⟨fun p hp' => ?_, fun p hne => k2 p (fun e => hne (by rw [e]))⟩
          cases hp'
          refine ⟨by rw [k0]; simp, c, kc, fun hor => ?_⟩
          rcases hor with hor | hor
          · exact absurd hor ho
          · rw [kn hor] at kc; injection kc with kc; injection kc with kc; exact kc.symm
  have hN : ∀ d1 d2 : Disk P C B, openNoise empty a d1 = .ok d2 → (∀ p, a.noise = some p → p ∈ d2.opened ∧ ∃ c, d2.file p = some (.hdf c) ∧
        ((a.overwrite = true ∨ d1.file p = none → c = empty) ∧ (∀ c', d1.file p = some (.hdf c') → c = c' ∨ c = empty))) ∧
      (∀ p, p ∈ d1.opened → p ∈ d2.opened) ∧ (∀ p, a.noise ≠ some p → d2.file p = d1.file p) := by
    intro d1 d2 h
    unfold openNoise at h
    cases hp : a.noise with
    | none => rw [hp] at h; injection h with h; subst h; exact ⟨by simp, fun _ h => h, fun _ _ => rfl⟩
    | some q =>
      rw [hp] at h
      dsimp only at h
      have hW : openW empty q d1 = .ok d2 → (∀ p, some q = some p → p ∈ d2.opened ∧ ∃ c, d2.file p = some (.hdf c) ∧
          ((a.overwrite = true ∨ d1.file p = none → c = empty) ∧ (∀ c', d1.file p = some (.hdf c') → c = c' ∨ c = empty))) ∧
          (∀ p, p ∈ d1.opened → p ∈ d2.opened) ∧ (∀ p, some q ≠ some p → d2.file p = d1.file p) := by
        intro h
        rcases openW_spec empty q d1 with ⟨e, _⟩ | ⟨d', e, _, _, _, k0, k1, k2⟩
        · rw [e] at h; cases h
        · rw [e] at h; injection h with h; subst h
          exact ⟨fun p hp' => by cases hp'; exact ⟨by rw [k0]; simp, empty, k1, fun _ => rfl, fun _ _ => Or.inr rfl⟩, fun p hp => by rw [k0]; exact List.mem_cons_of_mem _ hp,
            fun p hne => k2 p (fun e => hne (by rw [e]))⟩
      by_cases ho : a.overwrite = true
      · rw [if_pos ho] at h
        cases e : openW empty q d1 with
        | ok x => rw [e] at h; exact hW (by rw [e]; exact h)
        | error x => rw [e] at h; cases h
      · rw [if_neg ho] at h
        rcases openA_spec empty q d1 with ⟨e, _⟩ | ⟨d', e, _, _, _, k0, ⟨c, kc⟩, kn, k1, k2⟩
        · rw [e] at h; exact hW h
        · rw [e] at h
          injection h with h; subst h
          refine ⟨fun p hp' => ?_, fun p hp => by rw [k0]; exact List.mem_cons_of_mem _ hp, fun p hne => k2 p (fun e => hne (by rw [e]))⟩
          cases hp'
          refine ⟨by rw [k0]; simp, c, kc, fun hor => ?_, fun c' hc' => ?_⟩
          · rcases hor with hor | hor
            · exact absurd hor ho
            · rw [kn hor] at kc; injection kc with kc; injection kc with kc; exact kc.symm
          · rw [k1 q (by rw [hc']; simp), hc'] at kc
            injection kc with kc; injection kc with kc; exact Or.inl kc.symm
  unfold open2 at h ⊢
  cases e1 : openPulse empty a d with
  | error x => rw [e1] at h; cases h
  | ok d1 =>
    rw [e1] at h
    dsimp only at h ⊢
    obtain ⟨p1, p2⟩ := hP d1 e1
    cases e2 : openNoise empty a d1 with
    | error x => rw [e2] at h; cases h
    | ok d2 =>
      dsimp only
      obtain ⟨n1, n2, n3⟩ := hN d1 d2 e2
      refine ⟨fun p hp => ?_, fun p h1 h2 => by rw [n3 p h2, p2 p h1]⟩
      by_cases hn : a.noise = some p
      · obtain ⟨m, c, hc, h1, h2⟩ := n1 p hn
        refine ⟨m, c, hc, fun hor => ?_⟩
        by_cases hp' : a.pulse = some p
        · obtain ⟨_, c', hc', h3⟩ := p1 p hp'
          rcases h2 c' hc' with e | e
          · rw [e]; exact h3 hor
          · exact e
        · apply h1
          rcases hor with hor | hor
          · exact Or.inl hor
          · exact Or.inr (by rw [p2 p hp', hor])
      · have hp' : a.pulse = some p := by rcases hp with hp | hp; exact hp; exact absurd hp hn
        obtain ⟨m, c, hc, h3⟩ := p1 p hp'
        exact ⟨n2 p m, c, by rw [n3 p hn, hc], h3⟩

/-- C193: made twice without `overwrite_hdf5_file` (each time in a new process), the second time finds the files as they were left: nothing on the disk changes any more. -/
theorem again (empty : C) (a : Args P) (ha : a.overwrite = false) (d : Disk P C B) (h : (open2 empty a d).2 = .ok ()) (x : List P) :
    let d' : Disk P C B := { (open2 empty a d).1 with opened := x }
    (∀ p, d'.held p = d.held p) → ∀ p, (open2 empty a d').1.file p = d'.file p := by
  intro d' _ p
  obtain ⟨m1, m2⟩ := made empty a d h
  obtain ⟨k1, k2, k3⟩ := kept_partial empty a ha d'
  by_cases hp : a.pulse = some p ∨ a.noise = some p
  · obtain ⟨_, c, hc, _⟩ := m1 p hp
    have hc' : d'.file p = some (.hdf c) := hc
    rw [hc']; exact k1 p c hc'
  · rw [not_or] at hp
    cases hf : d'.file p with
    | none => exact k3 p hf hp.1 hp.2
    | some x =>
      cases x with
      | hdf c => exact k1 p c hf
      | other b => exact k2 p b hf hp.2

/-- C193: when a group with different paths for pulses and noise is made, without `overwrite_hdf5_file`: exactly if both files can be opened for writing, that for the pulses is an HDF5 file or missing, and that
for the noise is not open already if it is no HDF5 file. -/
theorem made_iff (empty : C) (d : Disk P C B) (p q : P) (hne : p ≠ q) : (open2 empty ⟨some p, some q, false⟩ d).2 = .ok () ↔
    d.held p = false ∧ (∀ b, d.file p ≠ some (.other b)) ∧ d.held q = false ∧ ((∃ b, d.file q = some (.other b)) → q ∉ d.opened) := by
  have hne' : q ≠ p := fun h => hne h.symm
  cases hp : d.held p with
  | true => simp [open2, openPulse, openA, hp]
  | false =>
    cases hq : d.held q with
    | true =>
      have : ∀ d1 : Disk P C B, d1.held = d.held → openNoise empty ⟨some p, some q, false⟩ d1 = .error .os := by
        intro d1 h; simp [openNoise, openA, openW, h, hq]
      rcases openA_spec empty p d with ⟨e, _⟩ | ⟨d', e, _, _, k, _⟩
      · simp [open2, openPulse, e]
      · simp [open2, openPulse, e, this d' k]
    | false =>
      rcases openA_spec empty p d with ⟨e, w⟩ | ⟨d', e, _, k1, k2, k3, _, _, _, k4⟩
      · rcases w with w | ⟨b, w⟩
        · rw [hp] at w; cases w
        · simp [open2, openPulse, e, w]
      · have h4 : d'.file q = d.file q := k4 q hne'
        have hP : openPulse empty ⟨some p, some q, false⟩ d = .ok d' := by simp [openPulse, e]
        unfold open2
        rw [hP]
        cases hf : d.file q with
        | none => simp [openNoise, openA, k2, h4, hq, hf, k1]
        | some x =>
          cases x with
          | hdf c => simp [openNoise, openA, k2, h4, hq, hf, k1]
          | other b => by_cases ho : q ∈ d.opened <;> simp [openNoise, openA, openW, k2, k3, h4, hq, hf, k1, ho, hne']

/-- Disagreement (C193): a file that is not an HDF5 file (for example one of the data files, given as `hdf5_noisefilename` by mistake, or a damaged file that could be repaired) is replaced by an empty one
if its path is that for the noise, without `overwrite_hdf5_file`. At the path for the pulses it is kept and an OSError raised. -/
theorem clobber_fails (empty : C) (d : Disk P C B) (p q : P) (b : B) (hq : d.file q = some (.other b)) (hh : d.held q = false) (hp : d.held p = false) (hpf : ∃ c, d.file p = some (.hdf c)) (ho : q ∉ d.opened) :
    (open2 empty ⟨some p, some q, false⟩ d).2 = .ok () ∧ (open2 empty ⟨some p, some q, false⟩ d).1.file q = some (.hdf empty) ∧
    (open2 empty ⟨some q, some p, false⟩ d).2 = .error .os ∧ (open2 empty ⟨some q, some p, false⟩ d).1.file q = some (.other b) := by
  obtain ⟨c, hc⟩ := hpf
  have hne : q ≠ p := by rintro rfl; rw [hq] at hc; cases hc
  simp [open2, openPulse, openNoise, openA, openW, hq, hh, hp, hc, ho, hne]

/-- Disagreement (C193): with `overwrite_hdf5_file` the results of the pulses are gone even if making the group fails because the file for the noise cannot be opened, and also if both paths are the same. -/
theorem overwrite_fails (empty : C) (d : Disk P C B) (p q : P) (c : C) (hpf : d.file p = some (.hdf c)) (hp : d.held p = false) (hpo : p ∉ d.opened) (hq : d.held q = true ∨ q = p) :
    (open2 empty ⟨some p, some q, true⟩ d).2 = .error .os ∧ (open2 empty ⟨some p, some q, true⟩ d).1.file p = some (.hdf empty) := by
  rcases hq with hq | rfl
  · simp [open2, openPulse, openNoise, openW, hp, hq, hpo]
  · simp [open2, openPulse, openNoise, openW, hp, hpo]

/-! ### examples -/

/-- path 0 an HDF5 file with contents 7, path 1 another file, path 2 nothing, path 3 locked -/
def ex : Disk Nat Nat Nat := ⟨fun p => if p = 0 then some (.hdf 7) else if p = 1 then some (.other 9) else if p = 3 then some (.hdf 5) else none, [], fun p => decide (p = 3)⟩

example : let r := open2 0 ⟨some 0, some 2, false⟩ ex; (r.1.file 0, r.1.file 1, r.1.file 2, r.2.toOption) = (some (.hdf 7), some (.other 9), some (.hdf 0), some ()) := by decide +kernel
example : let r := open2 0 ⟨some 0, some 1, false⟩ ex; (r.1.file 1, r.2.toOption) = (some (.hdf 0), some ()) := by decide +kernel
example : let r := open2 0 ⟨some 0, some 3, true⟩ ex; (r.1.file 0, r.1.file 3, r.2.toOption) = (some (.hdf 0), some (.hdf 5), none) := by decide +kernel

end Mass.Group.HdfFiles
