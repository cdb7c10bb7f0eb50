import Verif.Group.Props
import Verif.Lin.FilterFile
import Verif.Names.Model
/-! Pulse models of a group and their file: `get_pulse_model` and `_pulse_model_to_hdf5` (mass/core/channel.py L1357-1406), the construction of a `PulseModel`
(mass/core/pulse_model.py L16-51), `pulse_model_to_hdf5` (mass/core/channel_group.py L567-594), C151. The average pulse, the 5-lag filter and the decomposition that
finds further components are arbitrary functions. Exceptions are their texts, as they go into the reason why a channel is bad. -/
namespace Mass.Group.ModelFile
open Mass Mass.Group Mass.Names

variable {K Cat N : Type}

/-- the arguments of `pulse_model_to_hdf5` passed on to the channels, channel_group.py L567-569 -/
structure Args (K Cat : Type) where
  nBasis : Nat := 6
  maxN : Nat := 4000
  extra : Nat := 0
  weight : Bool := true
  f3db : Option K := none
  cat : Cat

/-- a pulse model: projectors (rows), basis (columns), training pulses (columns) and the rest, pulse_model.py L21-51 -/
structure PMod (K N : Type) where
  P : List (List K)
  B : List (List K)
  nBasis : Nat
  training : List (List K)
  vdv : K
  rms : K × K
  file : Str
  extra : Nat
  f5 : List K
  avg : List K
  noise : N
  deriving DecidableEq

/-- what of a channel is used, channel.py L1357-1406: `avgOf` is `avg_pulses_auto_masks` for a largest number of pulses, `f5Of` `_compute_5lag_filter_no_mutation`
for an average pulse and a cutoff, `goodPulses` `first_n_good_pulses`, `rms` what `auto_cuts` saved -/
structure Ds (K Cat N : Type) where
  nSamples : Nat
  filter : Option (Mass.Lin.File.Fil K)
  rms : Option (K × K)
  invert : Bool
  file : Str
  avgOf : Nat → Except String (List K)
  f5Of : List K → Option K → Except String (List K)
  goodPulses : Nat → Cat → List (List K)
  noise : N
  model : Option (PMod K N) := none

/-- the decomposition `_additional_projectors_tsvd` (pulse_model.py L124-130): the projectors and basis vectors added to those given, so many, from training columns -/
abbrev Svd (K : Type) := List (List K) → List (List K) → Nat → List (List K) → Except String (List (List K) × List (List K))

/-- `_additional_projectors_tsvd`, pulse_model.py L103-136 -/
def more (svd : Svd K) (P B : List (List K)) (n : Nat) (T : List (List K)) : Except String (List (List K) × List (List K)) :=
  if n < P.length then .error ""
  else if n = P.length then .ok (P, B)
  else match svd P B (n - P.length) T with
    | .error e => .error e
    | .ok (p, b) => .ok (P ++ p, B ++ b)

/-- the five columns with the third projector displaced by 0 to 4 samples, its first and last two values left out, pulse_model.py L33-38 -/
def lagged [Zero K] (v : List K) : List (List K) :=
  let w := (v.drop 2).take (v.length - 4)
  (List.range 5).map (fun i => List.replicate i 0 ++ w ++ List.replicate (4 - i) 0)

/-- `PulseModel(...)` with three projectors so far, pulse_model.py L16-51: the projectors and the basis -/
def build [Zero K] (svd : Svd K) (P B : List (List K)) (nBasis extra : Nat) (T : List (List K)) (f5 : List K) : Except String (List (List K) × List (List K)) :=
  let start := if (P.length : Int) < (nBasis : Int) - extra then more svd P B (nBasis - extra) T
    else if (P.length : Int) = (nBasis : Int) - extra then .ok (P, B) else .error "n_basis-extra_n_basis_5lag"
  match start with
  | .error e => .error e
  | .ok (P1, B1) =>
    if 0 < extra then
      if f5.length ≠ (P.getD 2 []).length - 4 then .error "could not broadcast input array"
      else more svd P1 B1 nBasis (lagged (P.getD 2 []))
    else .ok (P1, B1)

/-- `get_pulse_model`, channel.py L1357-1393, with no training pulses given -/
def getModel [Zero K] [One K] (svd : Svd K) (a : Args K Cat) (d : Ds K Cat N) (avg f5 : List K) : Except String (PMod K N) :=
  if a.nBasis < 3 then .error ""
  else match d.filter with
    | none => .error "'NoneType' object has no attribute 'is_arrival_time_safe'"
    | some f =>
      if ¬ (f.lags = 1 ∧ f.dtValues.isSome) then .error "requires arrival-time-safe filter"
      else if a.weight = false then .error "basis not noise weighted is not implemented"
      else match f.signal, f.dtModel, f.constValues, f.dtValues with
        | some s, some dm, some c, some dv =>
          if s.length ≠ d.nSamples then .error "filter length and nSamples don't match"
          else if ¬ (c.length = s.length ∧ dv.length = s.length ∧ f.values.length = s.length ∧ dm.length = s.length) then .error "all the input array dimensions must match"
          else match d.rms with
            | none => .error "use autocuts when making projectors, so it can save more info about desired cuts"
            | some r =>
              let T := d.goodPulses a.maxN a.cat
              match build svd [c, dv, f.values] [List.replicate s.length 1, dm, s] a.nBasis a.extra T f5 with
              | .error e => .error e
              | .ok (P, B) => .ok ⟨P, B, a.nBasis, T, f.vdv, r, d.file, a.extra, f5, avg, d.noise⟩
        | _, _, _, _ => .error "object of type 'NoneType' has no len()"

/-- flipping all but the first, pulse_model.py L55-58: projectors and basis of data saved inverted -/
def flip [Neg K] (l : List (List K)) : List (List K) := l.take 1 ++ (l.drop 1).map (fun v => v.map (-·))

/-- what `toHDF5` writes for a channel (and what is in memory afterwards, pulse_model.py L53-76) -/
def saved [Neg K] (inv : Bool) (m : PMod K N) : PMod K N := if inv then { m with P := flip m.P, B := flip m.B } else m

/-- `_pulse_model_to_hdf5` of one channel, channel.py L1396-1406; the second component of the state is the group of the channel in the file (`create_group` refuses an
existing one). The state afterwards and the exception. -/
def oneChan [Zero K] [One K] [Neg K] (svd : Svd K) (a : Args K Cat) (st : Ds K Cat N × Option (PMod K N)) : (Ds K Cat N × Option (PMod K N)) × Except Err Unit :=
  match st.1.avgOf a.maxN with
  | .error e => (st, .error (.exc e))
  | .ok avg => match st.1.f5Of avg a.f3db with
    | .error e => (st, .error (.exc e))
    | .ok f5 => match getModel svd a st.1 avg f5 with
      | .error e => (st, .error (.exc e))
      | .ok m =>
        if st.2.isSome then (({ st.1 with model := some m }, st.2), .error (.exc "Unable to create group (name already exists)"))
        else (({ st.1 with model := some (saved st.1.invert m) }, some (saved st.1.invert m)), .ok ())

/-- the groups of an HDF5 file by channel number (used for channel.py L1405) -/
abbrev H5 (K N : Type) := Nat → Option (PMod K N)

/-- the loop of the group over its good channels, channel.py L1395, L530-546, on a file: data sets, marks, file, exception -/
def loop [Zero K] [One K] [Neg K] (svd : Svd K) (a : Args K Cat) (rethrow : Bool) (ds : List (Nat × Ds K Cat N)) (b : Books) (h : H5 K N) :
    List (Nat × Ds K Cat N) × Books × H5 K N × Except Err Unit :=
  let r := coreLoop rethrow ("failed _pulse_model_to_hdf5 with " ++ ·) (fun _ => oneChan svd a) (ds.map (fun x => (x.1, (x.2, h x.1)))) b
  (r.1.map (fun x => (x.1, x.2.1)), r.2.1, (fun c => match find r.1 c with | some x => x.2 | none => h c), r.2.2)

/-- `s.split("chan")` (channel_group.py L573): `cur` is the current piece, reversed -/
def splitChan : Nat → Str → Str → List Str
  | _, cur, [] => [cur.reverse]
  | skip + 1, cur, _ :: t => splitChan skip cur t
  | 0, cur, c :: t => if "chan".toList.isPrefixOf (c :: t) then cur.reverse :: splitChan 3 [] t else splitChan 0 (c :: cur) t

/-- the name of the model file, channel_group.py L573-574 -/
def modelName (file : Str) : Except Err Str :=
  match splitChan 0 [] file with
  | [b, _] => .ok (b ++ "model.hdf5".toList)
  | [_] => .error (.exc "not enough values to unpack (expected 2, got 1)")
  | _ => .error (.exc "too many values to unpack (expected 2)")

/-- what there is: data sets, marks, model files on disk (used for channel_group.py L567-594) -/
structure World (K Cat N : Type) where
  ds : List (Nat × Ds K Cat N)
  books : Books
  disk : Str → Option (H5 K N)

/-- `pulse_model_to_hdf5` without a file, channel_group.py L572-586: the file of this name is made anew -/
def toNewFile [Zero K] [One K] [Neg K] (svd : Svd K) (a : Args K Cat) (replace rethrow : Bool) (w : World K Cat N) : World K Cat N × Except Err Str :=
  match w.ds with
  | [] => (w, .error (.exc "tuple index out of range"))
  | x :: _ => match modelName x.2.file with
    | .error e => (w, .error e)
    | .ok name =>
      if (w.disk name).isSome ∧ replace = false then (w, .error (.exc ("file " ++ String.ofList name ++ " already exists, pass replace_output = True to overwrite")))
      else
        let r := loop svd a rethrow w.ds w.books (fun _ => none)
        (⟨r.1, r.2.1, fun p => if p = name then some r.2.2.1 else w.disk p⟩, r.2.2.2.map (fun _ => name))

/-- `pulse_model_to_hdf5` into an open file `name`, channel_group.py L587-594: noise weighting and `_rethrow` are not passed on (the default for `_rethrow` outside of tests) -/
def toFile [Zero K] [One K] [Neg K] (svd : Svd K) (a : Args K Cat) (_rethrow : Bool) (name : Str) (h : H5 K N) (w : World K Cat N) : World K Cat N × Except Err Str :=
  let r := loop svd { a with weight := true } false w.ds w.books h
  (⟨r.1, r.2.1, fun p => if p = name then some r.2.2.1 else w.disk p⟩, r.2.2.2.map (fun _ => name))

/-! ### The model of a channel -/

theorem more_spec {svd : Svd K} (hs : ∀ P B k T p b, svd P B k T = .ok (p, b) → p.length = k ∧ b.length = k) {P B : List (List K)} {n : Nat} {T P' B' : List (List K)} (hl : P.length = B.length)
    (h : more svd P B n T = .ok (P', B')) : P'.length = n ∧ B'.length = n ∧ P <+: P' ∧ B <+: B' := by
  unfold more at h
  split at h
  · cases h
  · split at h
    · rename_i hn
      obtain ⟨rfl, rfl⟩ := Prod.mk.inj (Except.ok.inj h)
      exact ⟨hn.symm, by omega, List.prefix_refl _, List.prefix_refl _⟩
    · split at h
      · cases h
      · rename_i hlt hne _ p b hsv
        obtain ⟨rfl, rfl⟩ := Prod.mk.inj (Except.ok.inj h)
        obtain ⟨h1, h2⟩ := hs _ _ _ _ _ _ hsv
        refine ⟨by rw [List.length_append, h1]; omega, by rw [List.length_append, h2]; omega, List.prefix_append _ _, List.prefix_append _ _⟩

theorem build_spec [Zero K] {svd : Svd K} (hs : ∀ P B k T p b, svd P B k T = .ok (p, b) → p.length = k ∧ b.length = k) {P B : List (List K)} {n extra : Nat} {T P' B' : List (List K)} {f5 : List K}
    (hl : P.length = B.length) (h : build svd P B n extra T f5 = .ok (P', B')) : P'.length = n ∧ B'.length = n ∧ P <+: P' ∧ B <+: B' ∧ P.length + extra ≤ n := by
  unfold build at h
  dsimp only at h
  split at h
  · cases h
  · rename_i P1 B1 hst
    have h1 : P1.length = n - extra ∧ B1.length = n - extra ∧ P <+: P1 ∧ B <+: B1 ∧ P.length + extra ≤ n := by
      split at hst
      · rename_i hlt
        obtain ⟨e1, e2, e3, e4⟩ := more_spec hs hl hst
        exact ⟨e1, e2, e3, e4, by omega⟩
      · split at hst
        · rename_i heq
          obtain ⟨rfl, rfl⟩ := Prod.mk.inj (Except.ok.inj hst)
          exact ⟨by omega, by omega, List.prefix_refl _, List.prefix_refl _, by omega⟩
        · cases hst
    obtain ⟨e1, e2, e3, e4, e5⟩ := h1
    split at h
    · split at h
      · cases h
      · obtain ⟨g1, g2, g3, g4⟩ := more_spec hs (by omega) h
        exact ⟨g1, g2, e3.trans g3, e4.trans g4, e5⟩
    · obtain ⟨rfl, rfl⟩ := Prod.mk.inj (Except.ok.inj h)
      exact ⟨by omega, by omega, e3, e4, e5⟩

/-- C151: a pulse model has the number of components asked for, no fewer than three and the extra ones; the first three projectors are the filters of the constant, the derivative and the
pulse, the first three basis vectors the constant 1, the derivative and the pulse they were made for, all as long as the records; the training pulses are the first good pulses of the category,
as many as asked for; and it needs the automatic cuts. -/
theorem model_spec [Zero K] [One K] {svd : Svd K} (hs : ∀ P B k T p b, svd P B k T = .ok (p, b) → p.length = k ∧ b.length = k) {a : Args K Cat} {d : Ds K Cat N} {avg f5 : List K} {m : PMod K N}
    (h : getModel svd a d avg f5 = .ok m) :
    3 + a.extra ≤ a.nBasis ∧ m.P.length = a.nBasis ∧ m.B.length = a.nBasis ∧ a.weight = true ∧
    (∃ f c dv dm s, d.filter = some f ∧ f.lags = 1 ∧ f.constValues = some c ∧ f.dtValues = some dv ∧ f.dtModel = some dm ∧ f.signal = some s ∧ m.vdv = f.vdv ∧
      m.P.take 3 = [c, dv, f.values] ∧ m.B.take 3 = [List.replicate d.nSamples 1, dm, s] ∧ ∀ v ∈ m.P.take 3 ++ m.B.take 3, v.length = d.nSamples) ∧
    m.training = d.goodPulses a.maxN a.cat ∧ d.rms = some m.rms ∧ m.f5 = f5 ∧ m.avg = avg ∧ m.file = d.file ∧ m.noise = d.noise ∧ m.extra = a.extra ∧ m.nBasis = a.nBasis := by
  unfold getModel at h
  split at h
  · cases h
  · rename_i hn
    split at h
    · cases h
    · rename_i f hf
      split at h
      · cases h
      · rename_i hats
        split at h
        · cases h
        · rename_i hw
          split at h
          · rename_i s dm c dv e1 e2 e3 e4
            split at h
            · cases h
            · rename_i hlen
              split at h
              · cases h
              · rename_i hl4
                split at h
                · cases h
                · rename_i r hr
                  dsimp only at h
                  split at h
                  · cases h
                  · rename_i P B hb
                    have e := Except.ok.inj h
                    subst e
                    obtain ⟨b1, b2, ⟨x, hx⟩, ⟨y, hy⟩, b5⟩ := build_spec hs (by simp) hb
                    have hlen' := not_not.mp hlen
                    have hl4' := not_not.mp hl4
                    have hats' := not_not.mp hats
                    have tP : P.take 3 = [c, dv, f.values] := by rw [← hx]; rfl
                    have tB : B.take 3 = [List.replicate d.nSamples 1, dm, s] := by rw [← hy, hlen']; rfl
                    refine ⟨by simpa using b5, b1, b2, by simpa using hw, ⟨f, c, dv, dm, s, hf, hats'.1, e3, e4, e2, e1, rfl, tP, tB, ?_⟩, rfl, hr, rfl, rfl, rfl, rfl, rfl, rfl⟩
                    dsimp only
                    rw [tP, tB]
                    intro v hv
                    simp only [List.mem_append, List.mem_cons, List.not_mem_nil, or_false] at hv
                    rcases hv with (rfl | rfl | rfl) | (rfl | rfl | rfl)
                    · omega
                    · omega
                    · omega
                    · simp
                    · omega
                    · omega
          · cases h

/-- C151: ... and a model is made whenever there is an arrival-time-safe filter as long as the records, the automatic cuts were made, the noise weighting is asked for, there are enough
components, and the decomposition works. -/
theorem model_made [Zero K] [One K] {svd : Svd K} (hs : ∀ P B k T, ∃ p b, svd P B k T = .ok (p, b) ∧ p.length = k ∧ b.length = k) (a : Args K Cat) (d : Ds K Cat N) (avg f5 : List K)
    (f : Mass.Lin.File.Fil K) (c dv dm s : List K) (r : K × K) (hf : d.filter = some f) (h1 : f.lags = 1) (h2 : f.constValues = some c) (h3 : f.dtValues = some dv) (h4 : f.dtModel = some dm)
    (h5 : f.signal = some s) (hl : ∀ v ∈ [c, dv, f.values, dm, s], v.length = d.nSamples) (hr : d.rms = some r) (hw : a.weight = true) (hn : 3 + a.extra ≤ a.nBasis)
    (hf5 : f5.length = d.nSamples - 4) : ∃ m, getModel svd a d avg f5 = .ok m := by
  have more_ok : ∀ P B n T, P.length ≤ n → ∃ P' B', more svd P B n T = .ok (P', B') ∧ P'.length = n := by
    intro P B n T hle
    unfold more
    rw [if_neg (by omega)]
    by_cases e : n = P.length
    · exact ⟨P, B, by rw [if_pos e], e.symm⟩
    · rw [if_neg e]
      obtain ⟨p, b, hp, hp1, _⟩ := hs P B (n - P.length) T
      exact ⟨P ++ p, B ++ b, by rw [hp], by rw [List.length_append, hp1]; omega⟩
  have hc := hl c (by simp)
  have hdv := hl dv (by simp)
  have hv := hl f.values (by simp)
  have hdm := hl dm (by simp)
  have hsl := hl s (by simp)
  unfold getModel
  rw [if_neg (by omega), hf]
  dsimp only
  rw [if_neg (by simp [h1, h3]), if_neg (by simp [hw]), h2, h3, h4, h5]
  dsimp only
  rw [if_neg (by omega), if_neg (by simp only [not_not]; omega), hr]
  dsimp only
  have hb : ∃ P B, build svd [c, dv, f.values] [List.replicate s.length 1, dm, s] a.nBasis a.extra (d.goodPulses a.maxN a.cat) f5 = .ok (P, B) := by
    unfold build
    dsimp only
    have hst : ∃ P1 B1, (if (([c, dv, f.values] : List (List K)).length : Int) < (a.nBasis : Int) - a.extra then more svd [c, dv, f.values] [List.replicate s.length 1, dm, s] (a.nBasis - a.extra) (d.goodPulses a.maxN a.cat)
        else if (([c, dv, f.values] : List (List K)).length : Int) = (a.nBasis : Int) - a.extra then .ok ([c, dv, f.values], [List.replicate s.length 1, dm, s]) else .error "n_basis-extra_n_basis_5lag") =
        .ok (P1, B1) ∧ P1.length = a.nBasis - a.extra := by
      by_cases hlt : (([c, dv, f.values] : List (List K)).length : Int) < (a.nBasis : Int) - a.extra
      · obtain ⟨P', B', g1, g2⟩ := more_ok [c, dv, f.values] [List.replicate s.length 1, dm, s] (a.nBasis - a.extra) (d.goodPulses a.maxN a.cat) (by simp only [List.length_cons, List.length_nil] at *; omega)
        exact ⟨P', B', by rw [if_pos hlt, g1], g2⟩
      · have heq : (([c, dv, f.values] : List (List K)).length : Int) = (a.nBasis : Int) - a.extra := by simp only [List.length_cons, List.length_nil] at *; omega
        exact ⟨_, _, by rw [if_neg hlt, if_pos heq], by simp only [List.length_cons, List.length_nil] at *; omega⟩
    obtain ⟨P1, B1, g1, g2⟩ := hst
    rw [g1]
    dsimp only
    split
    · have : ([c, dv, f.values] : List (List K)).getD 2 [] = f.values := rfl
      rw [this, if_neg (by omega)]
      obtain ⟨P', B', k1, _⟩ := more_ok P1 B1 a.nBasis (lagged f.values) (by omega)
      exact ⟨P', B', k1⟩
    · exact ⟨_, _, rfl⟩
  obtain ⟨P, B, hPB⟩ := hb
  rw [hPB]
  exact ⟨_, rfl⟩

/-- C151: the columns the extra components are found from are the pulse filter without its first and last two values, displaced by 0 to 4 samples, with zeros elsewhere. -/
theorem lagged_spec [Zero K] (v : List K) (hv : 4 ≤ v.length) (i : Nat) (hi : i < 5) : ∃ w, (lagged v)[i]? = some w ∧ w.length = v.length ∧
    ∀ j, w.getD j 0 = if i ≤ j ∧ j < i + (v.length - 4) then v.getD (j - i + 2) 0 else 0 := by
  refine ⟨List.replicate i 0 ++ (v.drop 2).take (v.length - 4) ++ List.replicate (4 - i) 0, ?_, ?_, ?_⟩
  · unfold lagged
    dsimp only
    rw [List.getElem?_map, List.getElem?_range hi]
    rfl
  · simp only [List.length_append, List.length_replicate, List.length_take, List.length_drop]
    omega
  · intro j
    rw [List.getD_eq_getElem?_getD, List.append_assoc, List.getElem?_append]
    simp only [List.length_replicate]
    by_cases h1 : j < i
    · rw [if_pos h1, if_neg (by omega), List.getElem?_replicate, if_pos h1]; rfl
    · rw [if_neg h1, List.getElem?_append]
      have hl : ((v.drop 2).take (v.length - 4)).length = v.length - 4 := by rw [List.length_take, List.length_drop]; omega
      rw [hl]
      by_cases h2 : j - i < v.length - 4
      · rw [if_pos h2, if_pos (by omega), List.getElem?_take, if_pos h2, List.getElem?_drop, List.getD_eq_getElem?_getD, Nat.add_comm]
      · rw [if_neg h2, if_neg (by omega), List.getElem?_replicate]
        split <;> rfl

/-- Disagreement (C151): the extra components meant to represent the 5-lag filter are found from the arrival-time-safe filter: whatever the 5-lag filter, the components are the same. -/
theorem extra_fails [Zero K] (svd : Svd K) (P B : List (List K)) (n extra : Nat) (T : List (List K)) (f5 f5' : List K) (h : f5.length = f5'.length) :
    build svd P B n extra T f5 = build svd P B n extra T f5' := by
  unfold build
  rw [h]

/-! ### The file -/

theorem oneChan_exc [Zero K] [One K] [Neg K] (svd : Svd K) (a : Args K Cat) : NoInterrupt (fun (_ : Nat) => oneChan (N := N) svd a) := by
  intro n s e h
  dsimp only at h
  unfold oneChan at h
  split at h
  · injection h with h; exact ⟨_, h.symm⟩
  · split at h
    · injection h with h; exact ⟨_, h.symm⟩
    · split at h
      · injection h with h; exact ⟨_, h.symm⟩
      · split at h
        · injection h with h; exact ⟨_, h.symm⟩
        · cases h

theorem find_map {α β : Type} (l : List (Nat × α)) (g : Nat × α → β) (c : Nat) : find (l.map (fun x => (x.1, g x))) c = (l.find? (fun e => e.1 == c)).map g := by
  unfold find
  rw [List.find?_map]
  simp only [Option.map_map]
  rfl

theorem loop_spec [Zero K] [One K] [Neg K] (svd : Svd K) (a : Args K Cat) {ds : List (Nat × Ds K Cat N)} (hnd : (ds.map Prod.fst).Nodup) {b : Books} {h5 : List Nat} {r : Nat → List String}
    (h : Says b h5 r) (hin : ∀ x ∈ ds, x.1 ∈ h5) (f : H5 K N) :
    ∃ b' r' f', loop svd a false ds b f = (ds.map (fun x => if r x.1 = [] then (x.1, (oneChan svd a (x.2, f x.1)).1.1) else x), b', f', .ok ()) ∧ Says b' h5 r' ∧
      (∀ x ∈ ds, r' x.1 = if r x.1 = [] then failReason ("failed _pulse_model_to_hdf5 with " ++ ·) (fun _ => oneChan svd a) x.1 (x.2, f x.1) else r x.1) ∧
      (∀ c, c ∉ ds.map Prod.fst → r' c = r c ∧ f' c = f c) ∧ ∀ x ∈ ds, f' x.1 = if r x.1 = [] then (oneChan svd a (x.2, f x.1)).1.2 else f x.1 := by
  have hnd' : ((ds.map (fun x => (x.1, (x.2, f x.1)))).map Prod.fst).Nodup := by rw [List.map_map]; exact hnd
  obtain ⟨b', r', h1, h2, h3, h4⟩ := core_loop_isolates (oneChan_exc (N := N) svd a) ("failed _pulse_model_to_hdf5 with " ++ ·) hnd' h (by
    intro x hx
    obtain ⟨y, hy, rfl⟩ := List.mem_map.mp hx
    exact hin y hy)
  have e2 : (ds.map (fun x => (x.1, (x.2, f x.1)))).map (fun x => if r x.1 = [] then (x.1, (oneChan svd a x.2).1) else x) =
      ds.map (fun x => (x.1, if r x.1 = [] then (oneChan svd a (x.2, f x.1)).1 else (x.2, f x.1))) := by
    rw [List.map_map]
    apply List.map_congr_left
    intro x _
    simp only [Function.comp]
    split <;> rfl
  refine ⟨b', r', (fun c => match find (ds.map (fun x => (x.1, if r x.1 = [] then (oneChan svd a (x.2, f x.1)).1 else (x.2, f x.1)))) c with | some x => x.2 | none => f c), ?_, h2, ?_, ?_, ?_⟩
  · unfold loop
    dsimp only
    rw [h1, e2]
    have e3 : (ds.map (fun x => (x.1, if r x.1 = [] then (oneChan svd a (x.2, f x.1)).1 else (x.2, f x.1)))).map (fun x => (x.1, x.2.1)) =
        ds.map (fun x => if r x.1 = [] then (x.1, (oneChan svd a (x.2, f x.1)).1.1) else x) := by
      rw [List.map_map]
      apply List.map_congr_left
      intro x _
      simp only [Function.comp]
      split <;> rfl
    rw [e3]
  · intro x hx
    have := h3 (x.1, (x.2, f x.1)) (List.mem_map.mpr ⟨x, hx, rfl⟩)
    exact this
  · intro c hc
    refine ⟨h4 c (by rw [List.map_map]; exact hc), ?_⟩
    dsimp only
    rw [find_map, List.find?_eq_none.mpr]
    · rfl
    · intro x hx hxe
      exact hc (List.mem_map.mpr ⟨x, hx, by simpa using hxe⟩)
  · intro x hx
    dsimp only
    rw [find_map]
    have : ds.find? (fun e => e.1 == x.1) = some x := by
      clear h1 e2 h3 h4 hnd' hin
      induction ds with
      | nil => cases hx
      | cons y t ih =>
        rw [List.map_cons, List.nodup_cons] at hnd
        rcases List.mem_cons.mp hx with rfl | hx'
        · simp
        · rw [List.find?_cons_of_neg]
          · exact ih hnd.2 hx'
          · simp only [beq_iff_eq]
            intro e
            exact hnd.1 (List.mem_map.mpr ⟨x, hx', e.symm⟩)
    rw [this]
    dsimp only [Option.map]
    split <;> rfl

/-- what a channel contributes to a new file: the model of its data, if every step works [specification] -/
def Makes [Zero K] [One K] (svd : Svd K) (a : Args K Cat) (d : Ds K Cat N) (m : PMod K N) : Prop :=
  ∃ avg f5, d.avgOf a.maxN = .ok avg ∧ d.f5Of avg a.f3db = .ok f5 ∧ getModel svd a d avg f5 = .ok m

theorem oneChan_new [Zero K] [One K] [Neg K] (svd : Svd K) (a : Args K Cat) (d : Ds K Cat N) :
    (∃ m, Makes svd a d m ∧ oneChan svd a (d, none) = (({ d with model := some (saved d.invert m) }, some (saved d.invert m)), .ok ())) ∨
    ((∀ m, ¬ Makes svd a d m) ∧ ∃ e, oneChan svd a (d, none) = ((d, none), .error (.exc e))) := by
  unfold oneChan
  dsimp only
  cases h1 : d.avgOf a.maxN with
  | error e => exact Or.inr ⟨(by rintro m ⟨_, _, g, _⟩; rw [h1] at g; cases g), e, rfl⟩
  | ok avg =>
    dsimp only
    cases h2 : d.f5Of avg a.f3db with
    | error e =>
      refine Or.inr ⟨?_, e, rfl⟩
      rintro m ⟨_, _, g, g2, _⟩
      rw [h1] at g
      cases g
      rw [h2] at g2
      cases g2
    | ok f5 =>
      dsimp only
      cases h3 : getModel svd a d avg f5 with
      | error e =>
        refine Or.inr ⟨?_, e, rfl⟩
        rintro m ⟨_, _, g, g2, g3⟩
        rw [h1] at g
        cases g
        rw [h2] at g2
        cases g2
        rw [h3] at g3
        cases g3
      | ok m => exact Or.inl ⟨m, ⟨avg, f5, h1, h2, h3⟩, rfl⟩

theorem makes_unique [Zero K] [One K] {svd : Svd K} {a : Args K Cat} {d : Ds K Cat N} {m m' : PMod K N} (h : Makes svd a d m) (h' : Makes svd a d m') : m = m' := by
  obtain ⟨x, y, h1, h2, h3⟩ := h
  obtain ⟨x', y', h1', h2', h3'⟩ := h'
  rw [h1] at h1'
  cases h1'
  rw [h2] at h2'
  cases h2'
  rw [h3] at h3'
  exact Except.ok.inj h3'

/-- C151: the model file of a group has one entry for each good channel whose model can be made, under its number, and no other; it replaces a file of that name, and no other file changes.
A good channel whose model cannot be made is marked bad with a reason; the marks of all others stay. -/
theorem file_spec [Zero K] [One K] [Neg K] (svd : Svd K) (a : Args K Cat) (replace : Bool) {w : World K Cat N} (hnd : (w.ds.map Prod.fst).Nodup) {h5 : List Nat} {r : Nat → List String}
    (h : Says w.books h5 r) (hin : ∀ x ∈ w.ds, x.1 ∈ h5) {x0 : Nat × Ds K Cat N} {t : List (Nat × Ds K Cat N)} (h0 : w.ds = x0 :: t) {name : Str} (hname : modelName x0.2.file = .ok name)
    (hr : w.disk name = none ∨ replace = true) :
    ∃ w' r' f, toNewFile svd a replace false w = (w', .ok name) ∧ w'.disk name = some f ∧ (∀ p, p ≠ name → w'.disk p = w.disk p) ∧
      (∀ ch m, f ch = some m ↔ ∃ d m0, (ch, d) ∈ w.ds ∧ r ch = [] ∧ Makes svd a d m0 ∧ m = saved d.invert m0) ∧
      Says w'.books h5 r' ∧ (∀ x ∈ w.ds, r' x.1 = [] ↔ r x.1 = [] ∧ ∃ m, Makes svd a x.2 m) ∧ (∀ c, r c ≠ [] → r' c = r c) ∧ w'.ds.map Prod.fst = w.ds.map Prod.fst := by
  obtain ⟨b', r', f', e1, e2, e3, e4, e5⟩ := loop_spec svd a hnd h hin (fun _ => none)
  refine ⟨⟨w.ds.map (fun x => if r x.1 = [] then (x.1, (oneChan svd a (x.2, (none : Option (PMod K N)))).1.1) else x), b', fun p => if p = name then some f' else w.disk p⟩, r', f', ?_, ?_, ?_, ?_, e2, ?_, ?_, ?_⟩
  · unfold toNewFile
    rw [h0]
    dsimp only
    rw [hname]
    dsimp only
    rw [if_neg, ← h0, e1]
    · rfl
    · rintro ⟨g1, g2⟩
      rcases hr with hr | hr
      · rw [hr] at g1; cases g1
      · rw [hr] at g2; cases g2
  · simp
  · intro p hp
    simp [hp]
  · intro ch m
    constructor
    · intro hf
      by_cases hc : ch ∈ w.ds.map Prod.fst
      · obtain ⟨x, hx, rfl⟩ := List.mem_map.mp hc
        rw [e5 x hx] at hf
        split at hf
        · rename_i hg
          rcases oneChan_new svd a x.2 with ⟨m0, hm, hone⟩ | ⟨_, e, hone⟩
          · rw [hone] at hf
            exact ⟨x.2, m0, hx, hg, hm, (Option.some.inj hf).symm⟩
          · rw [hone] at hf; cases hf
        · cases hf
      · rw [(e4 ch hc).2] at hf; cases hf
    · rintro ⟨d, m0, hx, hg, hm, rfl⟩
      rw [e5 _ hx, if_pos hg]
      rcases oneChan_new svd a d with ⟨m1, hm1, hone⟩ | ⟨hno, _⟩
      · rw [hone, makes_unique hm hm1]
      · exact absurd hm (hno m0)
  · intro x hx
    rw [e3 x hx]
    by_cases hg : r x.1 = []
    · rw [if_pos hg]
      unfold failReason
      dsimp only
      rcases oneChan_new svd a x.2 with ⟨m0, hm, hone⟩ | ⟨hno, e, hone⟩
      · rw [hone]
        simp only [hg, true_and, true_iff]
        exact ⟨m0, hm⟩
      · rw [hone]
        simp only [hg, true_and]
        constructor
        · intro h; cases h
        · rintro ⟨m, hm⟩; exact absurd hm (hno m)
    · rw [if_neg hg]
      simp [hg]
  · intro c hc
    by_cases hcm : c ∈ w.ds.map Prod.fst
    · obtain ⟨x, hx, rfl⟩ := List.mem_map.mp hcm
      rw [e3 x hx, if_neg hc]
    · exact (e4 c hcm).1
  · dsimp only
    rw [List.map_map]
    apply List.map_congr_left
    intro x _
    simp only [Function.comp]
    split <;> rfl

/-- C151: a model file that exists is not touched without `replace_output`, nor is anything else. -/
theorem keeps_existing [Zero K] [One K] [Neg K] (svd : Svd K) (a : Args K Cat) (rethrow : Bool) {w : World K Cat N} {x0 : Nat × Ds K Cat N} {t : List (Nat × Ds K Cat N)}
    (h0 : w.ds = x0 :: t) {name : Str} (hname : modelName x0.2.file = .ok name) {f : H5 K N} (hf : w.disk name = some f) :
    ∃ e, toNewFile svd a false rethrow w = (w, .error (.exc e)) := by
  unfold toNewFile
  rw [h0]
  dsimp only
  rw [hname]
  dsimp only
  rw [if_pos ⟨by rw [hf]; rfl, rfl⟩]
  exact ⟨_, rfl⟩

theorem coreLoop_raises {S : Type} {m : Nat → S → S × Except Err Unit} (hm : NoInterrupt m) (msg : String → String) (b : Books) (ds : List (Nat × S)) :
    (∃ x ∈ ds, find b.bad x.1 = none ∧ ∃ e, (m x.1 x.2).2 = .error e) → ∃ ds' e, coreLoop true msg m ds b = (ds', b, .error (.exc e)) := by
  induction ds with
  | nil => rintro ⟨x, hx, _⟩; cases hx
  | cons y t ih =>
    obtain ⟨ch, s⟩ := y
    rintro ⟨x, hx, hg, e, he⟩
    unfold coreLoop
    by_cases hb : (find b.bad ch).isSome = true
    · rw [if_pos hb]
      rcases List.mem_cons.mp hx with rfl | hx'
      · rw [hg] at hb; cases hb
      · obtain ⟨ds', e', h'⟩ := ih ⟨x, hx', hg, e, he⟩
        exact ⟨(ch, s) :: ds', e', by dsimp only; rw [h']⟩
    · rw [if_neg hb]
      cases hr : m ch s with
      | mk s' res =>
        cases res with
        | ok z =>
          rcases List.mem_cons.mp hx with rfl | hx'
          · dsimp only at he
            rw [hr] at he; cases he
          · obtain ⟨ds', e', h'⟩ := ih ⟨x, hx', hg, e, he⟩
            exact ⟨(ch, s') :: ds', e', by dsimp only; rw [h']⟩
        | error e2 =>
          obtain ⟨txt, rfl⟩ := hm ch s e2 (by rw [hr])
          exact ⟨(ch, s') :: t, txt, by simp⟩

/-- C151: with `_rethrow`, if the model of any good channel cannot be made the exception is raised, and no channel is marked. -/
theorem rethrow_raises [Zero K] [One K] [Neg K] (svd : Svd K) (a : Args K Cat) (replace : Bool) {w : World K Cat N} {x0 : Nat × Ds K Cat N} {t : List (Nat × Ds K Cat N)} (h0 : w.ds = x0 :: t)
    {name : Str} (hname : modelName x0.2.file = .ok name) (hr : w.disk name = none ∨ replace = true) {x : Nat × Ds K Cat N} (hx : x ∈ w.ds) (hg : find w.books.bad x.1 = none)
    (hno : ∀ m, ¬ Makes svd a x.2 m) : ∃ w' e, toNewFile svd a replace true w = (w', .error (.exc e)) ∧ w'.books = w.books := by
  obtain ⟨ds', e, hl⟩ := coreLoop_raises (oneChan_exc (N := N) svd a) ("failed _pulse_model_to_hdf5 with " ++ ·) w.books (w.ds.map (fun x => (x.1, (x.2, (none : Option (PMod K N))))))
    ⟨(x.1, (x.2, none)), List.mem_map.mpr ⟨x, hx, rfl⟩, hg, by
      rcases oneChan_new svd a x.2 with ⟨m, hm, _⟩ | ⟨_, e, hone⟩
      · exact absurd hm (hno m)
      · exact ⟨.exc e, by dsimp only; rw [hone]⟩⟩
  unfold toNewFile
  rw [h0]
  dsimp only
  rw [hname]
  dsimp only
  rw [if_neg, ← h0]
  · unfold loop
    dsimp only
    rw [hl]
    exact ⟨_, e, rfl, rfl⟩
  · rintro ⟨g1, g2⟩
    rcases hr with hr | hr
    · rw [hr] at g1; cases g1
    · rw [hr] at g2; cases g2

/-- Disagreement (C151): replacing the model file when no model can be made (say because the noise weighting is switched off, which is not implemented) destroys it: an empty file takes its place, and every channel is bad. -/
theorem replaced_lost_fails [Zero K] [One K] [Neg K] (svd : Svd K) (a : Args K Cat) (ha : a.weight = false) {w : World K Cat N} (hnd : (w.ds.map Prod.fst).Nodup) {h5 : List Nat} {r : Nat → List String}
    (h : Says w.books h5 r) (hin : ∀ x ∈ w.ds, x.1 ∈ h5) {x0 : Nat × Ds K Cat N} {t : List (Nat × Ds K Cat N)} (h0 : w.ds = x0 :: t) {name : Str} (hname : modelName x0.2.file = .ok name) :
    ∃ w' r', toNewFile svd a true false w = (w', .ok name) ∧ w'.disk name = some (fun _ => none) ∧ Says w'.books h5 r' ∧ ∀ x ∈ w.ds, r' x.1 ≠ [] := by
  have no : ∀ (d : Ds K Cat N) m, ¬ Makes svd a d m := by
    rintro d m ⟨avg, f5, _, _, hm⟩
    unfold getModel at hm
    split at hm
    · cases hm
    · split at hm
      · cases hm
      · split at hm
        · cases hm
        · cases hm
  obtain ⟨w', r', f, e1, e2, _, e4, e5, e6, _, _⟩ := file_spec svd a true hnd h hin h0 hname (Or.inr rfl)
  refine ⟨w', r', e1, ?_, e5, ?_⟩
  · rw [e2]
    congr 1
    funext ch
    cases hf : f ch with
    | none => rfl
    | some m =>
      obtain ⟨d, m0, _, _, hm, _⟩ := (e4 ch m).mp hf
      exact absurd hm (no d m0)
  · intro x hx he
    obtain ⟨_, m, hm⟩ := (e6 x hx).mp he
    exact no _ _ hm

/-- Disagreement (C151): given an open file, neither noise_weight_basis=False nor _rethrow=True has any effect. -/
theorem given_file_fails [Zero K] [One K] [Neg K] (svd : Svd K) (a : Args K Cat) (name : Str) (f : H5 K N) (w : World K Cat N) :
    toFile svd { a with weight := false } true name f w = toFile svd { a with weight := true } false name f w := rfl

/-- C151: given an open file without entries of these channels, the result is that of a new file of that name, with the weighting. -/
theorem given_new [Zero K] [One K] [Neg K] (svd : Svd K) (a : Args K Cat) (ha : a.weight = true) (rt : Bool) {w : World K Cat N} {x0 : Nat × Ds K Cat N} {t : List (Nat × Ds K Cat N)}
    (h0 : w.ds = x0 :: t) {name : Str} (hname : modelName x0.2.file = .ok name) : toFile svd a rt name (fun _ => none) w = toNewFile svd a true false w := by
  have ea : ({ a with weight := true } : Args K Cat) = a := by cases a; simp_all
  unfold toFile toNewFile
  rw [ea, h0]
  dsimp only
  rw [hname]
  dsimp only
  rw [if_neg (by simp)]

/-- Disagreement (C151): writing the models a second time into the same open file marks every channel bad. -/
theorem twice_fails [Zero K] [One K] [Neg K] (svd : Svd K) (a : Args K Cat) (ha : a.weight = true) (name : Str) {w : World K Cat N} (hnd : (w.ds.map Prod.fst).Nodup) {h5 : List Nat}
    {r : Nat → List String} (h : Says w.books h5 r) (hin : ∀ x ∈ w.ds, x.1 ∈ h5) :
    ∃ w1 f1 w2 r2, toFile svd a false name (fun _ => none) w = (w1, .ok name) ∧ w1.disk name = some f1 ∧ toFile svd a false name f1 w1 = (w2, .ok name) ∧ w2.disk name = some f1 ∧
      Says w2.books h5 r2 ∧ ∀ x ∈ w.ds, r2 x.1 ≠ [] := by
  have ea : ({ a with weight := true } : Args K Cat) = a := by cases a; simp_all
  obtain ⟨b', r', f', e1, e2, e3, e4, e5⟩ := loop_spec svd a hnd h hin (fun _ => none)
  have hfst : ((w.ds.map (fun x => if r x.1 = [] then (x.1, (oneChan svd a (x.2, (none : Option (PMod K N)))).1.1) else x)).map Prod.fst) = w.ds.map Prod.fst := by
    rw [List.map_map]
    apply List.map_congr_left
    intro x _
    simp only [Function.comp]
    split <;> rfl
  have hmem : ∀ y ∈ w.ds.map (fun x => if r x.1 = [] then (x.1, (oneChan svd a (x.2, (none : Option (PMod K N)))).1.1) else x), ∃ x ∈ w.ds, x.1 = y.1 := by
    intro y hy
    obtain ⟨x, hx, rfl⟩ := List.mem_map.mp hy
    exact ⟨x, hx, by split <;> rfl⟩
  obtain ⟨b2, r2, f2, g1, g2, g3, g4, g5⟩ := loop_spec svd a (ds := w.ds.map (fun x => if r x.1 = [] then (x.1, (oneChan svd a (x.2, (none : Option (PMod K N)))).1.1) else x))
    (by rw [hfst]; exact hnd) e2 (by intro y hy; obtain ⟨x, hx, e⟩ := hmem y hy; rw [← e]; exact hin x hx) f'
  have full : ∀ y ∈ w.ds, r' y.1 = [] → (f' y.1).isSome = true := by
    intro x hx he
    rw [e3 x hx] at he
    rw [e5 x hx]
    split at he
    · rename_i hg
      rw [if_pos hg]
      unfold failReason at he
      dsimp only at he
      rcases oneChan_new svd a x.2 with ⟨m0, hm, hone⟩ | ⟨hno, e, hone⟩
      · rw [hone]; rfl
      · rw [hone] at he; cases he
    · rename_i hg
      exact absurd he hg
  have bad : ∀ (d : Ds K Cat N) (m : PMod K N), (∃ e, (oneChan svd a (d, some m)).2 = .error (.exc e)) ∧ (oneChan svd a (d, some m)).1.2 = some m := by
    intro d m
    unfold oneChan
    dsimp only
    split
    · exact ⟨⟨_, rfl⟩, rfl⟩
    · split
      · exact ⟨⟨_, rfl⟩, rfl⟩
      · split
        · exact ⟨⟨_, rfl⟩, rfl⟩
        · exact ⟨⟨_, rfl⟩, rfl⟩
  have hff : f2 = f' := by
    funext c
    by_cases hc : c ∈ w.ds.map Prod.fst
    · rw [← hfst] at hc
      obtain ⟨y, hy, rfl⟩ := List.mem_map.mp hc
      rw [g5 y hy]
      split
      · rename_i hg
        obtain ⟨x, hx, e⟩ := hmem y hy
        have := full x hx (by rw [e]; exact hg)
        rw [e] at this
        obtain ⟨m, hm⟩ := Option.isSome_iff_exists.mp this
        rw [hm, (bad y.2 m).2]
      · rfl
    · exact (g4 c (by rw [hfst]; exact hc)).2
  refine ⟨⟨w.ds.map (fun x => if r x.1 = [] then (x.1, (oneChan svd a (x.2, (none : Option (PMod K N)))).1.1) else x), b', fun p => if p = name then some f' else w.disk p⟩, f', ⟨(w.ds.map (fun x => if r x.1 = [] then (x.1, (oneChan svd a (x.2, (none : Option (PMod K N)))).1.1) else x)).map (fun x => if r' x.1 = [] then (x.1, (oneChan svd a (x.2, f' x.1)).1.1) else x), b2, fun p => if p = name then some f2 else if p = name then some f' else w.disk p⟩, r2, ?_, by simp, ?_, by simp [hff], g2, ?_⟩
  · unfold toFile
    dsimp only
    rw [ea, e1]
    rfl
  · unfold toFile
    dsimp only
    rw [ea, g1]
    rfl
  · intro x hx
    have hy : (if r x.1 = [] then (x.1, (oneChan svd a (x.2, (none : Option (PMod K N)))).1.1) else x) ∈ w.ds.map (fun x => if r x.1 = [] then (x.1, (oneChan svd a (x.2, (none : Option (PMod K N)))).1.1) else x) :=
      List.mem_map.mpr ⟨x, hx, rfl⟩
    have hyx : (if r x.1 = [] then (x.1, (oneChan svd a (x.2, (none : Option (PMod K N)))).1.1) else x).1 = x.1 := by split <;> rfl
    have := g3 _ hy
    rw [hyx] at this
    rw [this]
    split
    · rename_i hg
      obtain ⟨m, hm⟩ := Option.isSome_iff_exists.mp (full x hx hg)
      unfold failReason
      dsimp only
      rw [hm]
      obtain ⟨e, he⟩ := (bad (if r x.1 = [] then (x.1, (oneChan svd a (x.2, (none : Option (PMod K N)))).1.1) else x).2 m).1
      rw [he]
      simp
    · rename_i hg
      exact hg

/-! ### The name of the file -/

theorem splitChan_none (s cur : Str) (h : ∀ i, ¬ "chan".toList.isPrefixOf (s.drop i) = true) : splitChan 0 cur s = [cur.reverse ++ s] := by
  induction s generalizing cur with
  | nil => simp [splitChan]
  | cons c t ih =>
    unfold splitChan
    rw [if_neg (by simpa only [List.drop_zero] using h 0), ih _ (fun i => by simpa only [List.drop_succ_cons] using h (i + 1))]
    simp

theorem splitChan_one (b s cur : Str) (h : ∀ i, i < b.length → ¬ "chan".toList.isPrefixOf ((b ++ "chan".toList ++ s).drop i) = true) :
    splitChan 0 cur (b ++ "chan".toList ++ s) = (cur.reverse ++ b) :: splitChan 0 [] s := by
  induction b generalizing cur with
  | nil =>
    simp [splitChan]
  | cons c t ih =>
    rw [List.cons_append, List.cons_append]
    conv_lhs => unfold splitChan
    rw [if_neg (by simpa only [List.drop_zero, List.cons_append] using h 0 (by simp)), ih _ (fun i hi => by simpa only [List.drop_succ_cons, List.cons_append] using h (i + 1) (by simpa using hi))]
    simp

/-- C151: the model file of files named ..._chan1.ljh is ..._model.hdf5, if "chan" is found only once. -/
theorem name_spec (b s : Str) (h1 : ∀ i, i < b.length → ¬ "chan".toList.isPrefixOf ((b ++ "chan".toList ++ s).drop i) = true) (h2 : ∀ i, ¬ "chan".toList.isPrefixOf (s.drop i) = true) :
    modelName (b ++ "chan".toList ++ s) = .ok (b ++ "model.hdf5".toList) := by
  unfold modelName
  rw [splitChan_one b s [] h1, splitChan_none s [] h2]
  rfl

/-- Disagreement (C151): files in a directory with "chan" in its name cannot have a model file made (without naming it). -/
theorem name_fails : modelName "/data/channels/run1_chan1.ljh".toList = .error (.exc "too many values to unpack (expected 2)") := by decide +kernel

example : modelName "/data/run1_chan1.ljh".toList = .ok "/data/run1_model.hdf5".toList := by decide +kernel

/-- an arrival-time-safe filter for records of six samples [specification] -/
def exFil : Mass.Lin.File.Fil Int :=
  ⟨[0, 0, 1, 2, 3, 0], 1, 1, 5, some [0, 0, 0, 1, 0, 0], some [1, 0, 0, 0, 0, 0], some [0, 0, 1, 2, 1, 0], some [0, 1, 0, 0, 0, 0], 1, none, none, 0, 0, "ats"⟩

/-- a channel with this filter; the second has none [specification] -/
def exDs (f : Option (Mass.Lin.File.Fil Int)) (inv : Bool) : Ds Int Unit Unit :=
  ⟨6, f, some (1, 2), inv, "/data/run1_chan1.ljh".toList, fun _ => .ok [0, 0, 5, 9, 4, 1], fun _ _ => .ok [3, 4], fun n _ => [[1, 2, 3, 4, 5, 6], [6, 5, 4, 3, 2, 1]].take n, (), none⟩

/-- added components that are numbered [specification] -/
def exSvd : Svd Int := fun P _ k _ => .ok ((List.range k).map (fun i => [(P.length + i : Int)]), (List.range k).map (fun i => [(P.length + i : Int)]))

/-- three channels, the second without filter, the third marked bad [specification] -/
def exWorld : World Int Unit Unit := ⟨[(1, exDs (some exFil) true), (3, exDs none false), (5, exDs (some exFil) false)], ⟨[(5, ["noisy"])], [(1, none), (3, none), (5, some ["noisy"])]⟩, fun _ => none⟩

example : (match toNewFile exSvd { nBasis := 4, cat := () } false false exWorld with
    | (w, .ok n) => (n = "/data/run1_model.hdf5".toList && decide (w.books.bad = [(5, ["noisy"]), (3, ["failed _pulse_model_to_hdf5 with 'NoneType' object has no attribute 'is_arrival_time_safe'"])]) &&
        match w.disk n with
        | none => false
        | some f => decide ((f 1).map (·.P) = some [[1, 0, 0, 0, 0, 0], [0, 0, 0, -1, 0, 0], [0, 0, -1, -2, -3, 0], [-3]]) && decide ((f 1).map (·.training.length) = some 2) && (f 3).isNone && (f 5).isNone)
    | _ => false) = true := by decide +kernel

example : lagged ([1, 2, 3, 4, 5, 6] : List Int) = [[3, 4, 0, 0, 0, 0], [0, 3, 4, 0, 0, 0], [0, 0, 3, 4, 0, 0], [0, 0, 0, 3, 4, 0], [0, 0, 0, 0, 3, 4]] := by decide +kernel

end Mass.Group.ModelFile
