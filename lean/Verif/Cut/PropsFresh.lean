import Verif.Cut.PropsCat
/-! Property theorems C07 (a new field starts uncut) and C08 (cut_parameter). -/
namespace Mass.Cut

/-! ### C07 -/

/-- Disagreement (C07): unregistering a field leaves its bits set in the pulse words, and the next
registration recycles the bit, so a brand-new field starts with the old field's bad pulses. -/
theorem new_field_starts_good_fails :
    let s := [Op.cut "energy" (.bools [true, false]), .unregBool ["energy"], .regBool ["mine"]].foldl
      Op.step (initial 2)
    Reachable s ∧ BoolField s "mine" ∧ bad s ["mine"] = .ok [true, false] := by
  refine ⟨reachable_foldl (.init 2) _, ?_⟩
  decide +kernel

/-- The same for a categorical field: new pulses should read as the default category. -/
theorem new_category_starts_default_fails :
    let s := [Op.cut "pretrigger_rms" (.bools [true, false]), .unregBool ["pretrigger_rms"],
      .regCat "st" ["A", "B"] "A"].foldl Op.step (initial 2)
    Reachable s ∧ defaultCategory s "st" = some "A" ∧
      selectCategory s [("st", "A")] = .ok [false, true] := by
  refine ⟨reachable_foldl (.init 2) _, ?_⟩
  decide +kernel

/-- A field is unregistered only while no pulse is marked in it. [specification] -/
def UnregClear (s : Sys) : Op → Prop
  | .unregBool names => ∀ n ∈ names, ∀ v, bad s [n] = .ok v → ∀ b ∈ v, b = false
  | .unregCat n => ∀ v, categoryCodes s n = .ok v → ∀ c ∈ v, c = 0#32
  | _ => True

/-- States reached by histories that obey `UnregClear`. [specification] -/
inductive CleanReachable : Sys → Prop
  | init (n : Nat) : CleanReachable (initial n)
  | step {s} (op : Op) : CleanReachable s → UnregClear s op → CleanReachable (op.step s)

theorem CleanReachable.reachable {s} (h : CleanReachable s) : Reachable s := by
  induction h with
  | init n => exact .init n
  | step op _ _ ih => exact .step op ih

/-- no pulse word has a bit that no field owns [specification] -/
def Clean (s : Sys) : Prop := ∀ w ∈ s.mask, ∀ j, w.getLsbD j = true → s.grp.flags.getLsbD j = true

theorem clean_of_only {s s' : Sys} {bm : Word} (ho : OnlyBits bm s s') (hc : Clean s)
    (hb : ∀ j, bm.getLsbD j = true → s.grp.flags.getLsbD j = true) : Clean s' := by
  intro w hw j hj
  rw [ho.1]
  cases hbj : bm.getLsbD j with
  | true => exact hb j hbj
  | false =>
    obtain ⟨i, hi⟩ := List.getElem?_of_mem hw
    have := congrArg (fun l => l[i]?) ho.2
    simp only [List.getElem?_map, hi, Option.map_some] at this
    cases hm : s.mask[i]? with
    | none => rw [hm] at this; cases this
    | some w0 =>
      rw [hm] at this
      simp only [Option.map_some, Option.some.injEq] at this
      have h2 := congrArg (fun (x : Word) => x.getLsbD j) this
      simp only [and_not_lsb, hbj, hj] at h2
      exact hc w0 (List.mem_of_getElem? hm) j (by simpa using h2.symm)

theorem maskOf_flags {g : Group} (h : Inv g) (F : String) (j : Nat)
    (hj : (maskOf g F).getLsbD j = true) : g.flags.getLsbD j = true := by
  have hj32 := lsb_lt hj
  rw [h.slots.flags j hj32]
  rcases maskOf_lsb h hj with ⟨b, hb, hbF, hne⟩ | ⟨c, hc, _, hcj⟩
  · exact Or.inl ⟨b, hb, hbF ▸ hne⟩
  · exact Or.inr ⟨c, hc, hcj⟩

theorem exists_least {P : Nat → Prop} {n : Nat} (h : P n) : ∃ p, P p ∧ ∀ j, j < p → ¬ P j := by
  induction n using Nat.strongRecOn with
  | ind n ih =>
    by_cases hx : ∃ j, j < n ∧ P j
    · obtain ⟨j, hj, hp⟩ := hx; exact ih j hj hp
    · exact ⟨n, h, fun j hj hp => hx ⟨j, hj, hp⟩⟩

theorem bitPos_le {m : Word} {j : Nat} (h : m.getLsbD j = true) : bitPos m ≤ j := by
  obtain ⟨p, hp, hmin⟩ := exists_least (P := fun j => m.getLsbD j = true) h
  rw [bitPos_eq hp (fun i hi => by simpa using hmin i hi)]
  apply Classical.byContradiction
  intro hlt
  exact hmin j (by omega) h

theorem step_clean {s : Sys} (hi : Inv s.grp) (hc : Clean s) (op : Op) (hu : UnregClear s op) :
    Clean (op.step s) := by
  cases op with
  | regBool ns =>
    show Clean (registerBool ns s).2
    have hinv := registerBool_inv (s := s) hi ns
    rw [registerBool_run] at hinv ⊢
    cases hr : regLoop (newNames s.grp ns) s.grp.bools s.grp.flags with
    | error e => exact hc
    | ok r =>
      rw [hr] at hinv
      obtain ⟨k1, _, _⟩ := regLoop_keeps hi.slots (newNames_ne hi hr) hr
      intro w hw j hj
      have hf := hc w hw j hj
      have hj32 := lsb_lt hj
      rw [hi.slots.flags j hj32] at hf
      rw [hinv.slots.flags j hj32]
      rcases hf with ⟨b, hb, hbn⟩ | hf
      · exact Or.inl ⟨b, k1 j b hb hbn, hbn⟩
      · exact Or.inr hf
  | unregBool ns =>
    show Clean (unregisterBool ns s).2
    rw [unregisterBool_run]
    split
    · rename_i ha
      intro w hw j hj
      have hf := hc w hw j hj
      simp only [and_not_lsb, hf, Bool.true_and]
      cases hcl : (clearBits ns s.grp.bools).getLsbD j with
      | false => rfl
      | true =>
        exfalso
        obtain ⟨b, hb, hbn⟩ := (clearBits_lsb hi.slots (allBool_ne ha) j).mp hcl
        have hbne : b.1 ≠ "" := fun e => allBool_ne ha (e ▸ hbn)
        have hreg : ∀ n ∈ [b.1], n ≠ "" ∧ n ∈ s.grp.bools.map Prod.fst := by
          intro n hn
          rw [List.mem_singleton] at hn
          subst hn
          exact ⟨hbne, List.mem_map_of_mem (List.mem_of_getElem? hb)⟩
        obtain ⟨bm, hbm⟩ := boolMask_ok.mpr hreg
        have hbad : bad s [b.1] = .ok (s.mask.map (fun w => w &&& bm != 0#32)) := by
          unfold bad; rw [hbm]; rfl
        have h0 := hu b.1 hbn _ hbad (w &&& bm != 0#32) (List.mem_map_of_mem hw)
        have : w &&& bm = 0#32 := by simpa using h0
        exact and_eq_zero_iff.mp this j ⟨hj, (boolMask_lsb hi hbm j).mpr ⟨b, hb, hbne, Or.inr (by simp)⟩⟩
    · exact hc
  | regCat n cs d =>
    show Clean (registerCat n cs d s).2
    rw [registerCat_run]
    split
    · exact hc
    · cases hr : allocLoop s.grp.flags (numBits (categoryList cs d).length) 0#32 31 [] with
      | error e => exact hc
      | ok r =>
        intro w hw j hj
        have hf := hc w hw j hj
        simp only [BitVec.getLsbD_or, hf, Bool.true_or]
  | unregCat n =>
    show Clean (unregisterCat n s).2
    rw [unregisterCat_run]
    cases hf : s.grp.cats.find? (fun c => c.1 == n) with
    | none => exact hc
    | some c =>
      intro w hw j hj
      have hfl := hc w hw j hj
      simp only [and_not_lsb, hfl, Bool.true_and]
      cases hcj : c.2.getLsbD j with
      | false => rfl
      | true =>
        exfalso
        have hcc : categoryCodes s n = .ok (s.mask.map (fun w => (w &&& c.2) >>> bitPos c.2)) := by
          unfold categoryCodes; rw [hf]
        have h0 := hu _ hcc ((w &&& c.2) >>> bitPos c.2) (List.mem_map_of_mem (f := fun (w : Word) => (w &&& c.2) >>> bitPos c.2) hw)
        have h1 := congrArg (fun (x : Word) => x.getLsbD (j - bitPos c.2)) h0
        have hle := bitPos_le hcj
        simp only [BitVec.getLsbD_ushiftRight, BitVec.getLsbD_and, BitVec.getLsbD_zero] at h1
        rw [show bitPos c.2 + (j - bitPos c.2) = j by omega, hj, hcj] at h1
        cases h1
  | cut n a => exact clean_of_only (cut_only s n a) hc (maskOf_flags hi n)
  | cutInt n a =>
    refine clean_of_only (cutInt_only s n a) hc ?_
    intro j hj
    cases hb : s.grp.bools[n.toNat]? with
    | none => rw [hb] at hj; simp at hj
    | some b =>
      rw [hb] at hj
      simp only [Option.map_some, Option.getD_some] at hj
      have hj32 := lsb_lt hj
      rw [hi.slots.flags j hj32]
      rcases hi.slots.slot _ b hb with e | ⟨hne, e⟩
      · rw [e] at hj; simp at hj
      · rw [e, bit_lsb] at hj
        simp at hj
        left
        exact ⟨b, by rw [hj.2]; exact hb, hne⟩
  | cutCategorical f d => exact clean_of_only (cutCategorical_only s f d) hc (maskOf_flags hi f)
  | cutParameter d a c => exact clean_of_only (cutParameter_only s d a c) hc (maskOf_flags hi c)
  | clearCut ns =>
    show Clean (clearCut ns s).2
    cases hb : boolMask s.grp ns with
    | error e => rw [clearCut_run, hb]; exact hc
    | ok bm =>
      refine clean_of_only (clearCut_only s ns hb) hc ?_
      intro j hj
      have hj32 := lsb_lt hj
      rw [hi.slots.flags j hj32]
      obtain ⟨b, hb1, hb2, _⟩ := (boolMask_lsb hi hb j).mp hj
      exact Or.inl ⟨b, hb1, hb2⟩

theorem CleanReachable.clean {s} (h : CleanReachable s) : Clean s := by
  induction h with
  | init n =>
    unfold initial
    have h0 : Clean (empty n) := by
      intro w hw j hj
      simp only [empty, List.mem_replicate] at hw
      rw [hw.2] at hj
      simp at hj
    exact step_clean (step_inv (empty_inv n) _)
      (step_clean (empty_inv n) h0 (.regBool builtinBool) trivial) (.regCat _ _ _) trivial
  | step op h hu ih => exact step_clean h.reachable.inv ih op hu

/-- C07 (partial: only for histories in which a field is unregistered while no pulse is marked in it;
without that, `new_field_starts_good_fails`): a newly registered boolean field reads all-good. -/
theorem new_field_starts_good_partial {s : Sys} (h : CleanReachable s) {names : List String}
    (hok : (registerBool names s).1 = .ok ()) {F : String} (hF : F ∈ names) (hne : F ≠ "")
    (hnew : ¬ BoolField s F) :
    good (registerBool names s).2 [F] = .ok (s.mask.map (fun _ => true)) ∧
    bad (registerBool names s).2 [F] = .ok (s.mask.map (fun _ => false)) := by
  have hi := h.reachable.inv
  obtain ⟨e1, e2, e3, e4, e5⟩ := register_boolean_effect h.reachable names hok
  have hi' : Inv (registerBool names s).2.grp := registerBool_inv (s := s) hi names
  have hreg : BoolField (registerBool names s).2 F := (e1 F).mpr (Or.inr ⟨hne, hF⟩)
  obtain ⟨bm, hbm⟩ := (boolMask_ok (names := [F]) (g := (registerBool names s).2.grp)).mpr
    (by intro n hn; rw [List.mem_singleton] at hn; subst hn; exact hreg)
  have hz : ∀ w ∈ s.mask, w &&& bm = 0#32 := by
    intro w hw
    rw [and_eq_zero_iff]
    rintro j ⟨hj, hbj⟩
    obtain ⟨b, hb1, hb2, hb3⟩ := (boolMask_lsb hi' hbm j).mp hbj
    have hbF : b.1 = F := by simpa using hb3
    have hf := h.clean w hw j hj
    rw [hi.slots.flags j (lsb_lt hj)] at hf
    rcases hf with ⟨b', hb', hbn'⟩ | hf
    · have := e2 j b' hb' hbn'
      rw [hb1] at this
      injection this with this
      subst this
      exact hnew ⟨hne, hbF ▸ List.mem_map_of_mem (List.mem_of_getElem? hb')⟩
    · have : catBit (registerBool names s).2.grp.cats j := by rw [e3]; exact hf
      exact hi'.slots.disj j b hb1 hb2 this
  have hbad : bad (registerBool names s).2 [F] = .ok (s.mask.map (fun _ => false)) := by
    unfold bad
    rw [hbm, e5]
    show Except.ok _ = _
    congr 1
    apply List.map_congr_left
    intro w hw
    simp [hz w hw]
  refine ⟨?_, hbad⟩
  rw [good_eq_not_bad, hbad]
  simp [Except.map, Function.comp_def]

/-- C07 (partial, same restriction): in a newly registered categorical field every pulse has code 0,
the code of the default category. -/
theorem new_category_starts_default_partial {s : Sys} (h : CleanReachable s) {name : String}
    {cs : List String} {d : String} (hnew : ¬ CatField s name)
    (hok : (registerCat name cs d s).1 = .ok ()) :
    categoryCodes (registerCat name cs d s).2 name = .ok (s.mask.map (fun _ => 0#32)) ∧
    selectCategory (registerCat name cs d s).2 [(name, d)] = .ok (s.mask.map (fun _ => true)) := by
  have hi := h.reachable.inv
  have hi' : Inv (registerCat name cs d s).2.grp := registerCat_inv (s := s) hi name cs d
  obtain ⟨r1, ⟨rows, hrows, hrows2⟩, ⟨m, hm⟩, _, hmask⟩ := register_categorical_effect name cs d hnew hok
  obtain ⟨c, hfind, hc, hcn⟩ := catField_get r1
  have hcm : c = (name, m) := by
    rw [hm] at hc
    rcases List.mem_append.mp hc with hc | hc
    · exact absurd (hcn ▸ List.mem_map_of_mem hc) hnew
    · simpa using hc
  have hz : ∀ w ∈ s.mask, w &&& m = 0#32 := by
    intro w hw
    rw [and_eq_zero_iff]
    rintro j ⟨hj, hmj⟩
    have hf := h.clean w hw j hj
    have hj32 := lsb_lt hj
    rw [hi.slots.flags j hj32] at hf
    rcases hf with ⟨b', hb', hbn'⟩ | ⟨c', hc', hcj'⟩
    · have hd := hi'.slots.disj j b' (by
        rw [registerCat_run] at hm ⊢
        split at hm
        · rename_i hx; exact absurd (List.contains_iff_mem.mp hx) hnew
        · rename_i hx
          rw [if_neg hx]
          revert hm
          generalize allocLoop s.grp.flags (numBits (categoryList cs d).length) 0#32 31 [] = x
          cases x with
          | error e => intro _; exact hb'
          | ok r => intro _; exact hb') hbn'
      exact hd ⟨(name, m), by rw [hm]; simp, hmj⟩
    · have := hi'.catDisj
      rw [hm, List.pairwise_append] at this
      have hd := this.2.2 c' hc' (name, m) (by simp)
      exact and_eq_zero_iff.mp hd j ⟨hcj', hmj⟩
  have hdflt : defaultCategory (registerCat name cs d s).2 name = some d := by
    unfold defaultCategory
    rw [hrows, List.filter_append]
    have hnone : s.grp.catList.filter (fun e => e.1 == name) = [] := by
      rw [List.filter_eq_nil_iff]
      intro e he hen
      exact hnew ((show e.1 = name by simpa using hen) ▸ hi.listed e he)
    rw [hnone, List.nil_append]
    cases rows with
    | nil => simp [categoryList] at hrows2
    | cons e es =>
      simp only [categoryList, List.map_cons, List.cons.injEq, Prod.mk.injEq] at hrows2
      simp [hrows2.1.1, hrows2.1.2]
  have hl := default_code hi' hdflt
  constructor
  · unfold categoryCodes
    rw [hfind, hcm, hmask]
    simp only []
    congr 1
    apply List.map_congr_left
    intro w hw
    rw [hz w hw]; simp
  · unfold selectCategory
    simp only [selectLoop, hfind, find_listed hi' hl, hcm, hmask]
    congr 1
    apply List.map_congr_left
    intro w hw
    have : (0#32 ||| m) = m := by simp
    rw [this, hz w hw]; simp

-- a clean history that unregisters a cleared field and registers a new one in its place
example : CleanReachable ([Op.cut "energy" (.bools [true, false]), .clearCut ["energy"],
    .unregBool ["energy"]].foldl Op.step (initial 2)) := by
  refine .step _ (.step _ (.step _ (.init 2) trivial) trivial) ?_
  intro n hn v hv
  rw [List.mem_singleton] at hn
  subst hn
  have : bad ([Op.cut "energy" (.bools [true, false]), .clearCut ["energy"]].foldl Op.step (initial 2))
      ["energy"] = .ok [false, false] := by decide +kernel
  have hv := this.symm.trans hv
  injection hv with hv
  subst hv
  simp

/-! ### C08 -/

/-- Value `x` (`none` = NaN) violates the open interval `(a, b)`; a missing limit never excludes. [specification] -/
def violates (x : Option Rat) (a b : Option Rat) : Prop :=
  ∃ r, x = some r ∧ ((∃ lo, a = some lo ∧ r ≤ lo) ∨ (∃ hi, b = some hi ∧ hi ≤ r))

/-- Value `x` lies in the closed interval `[a, b]`; a missing limit is infinite; NaN is in none. [specification] -/
def inClosed (x : Option Rat) (a b : Option Rat) : Prop :=
  ∃ r, x = some r ∧ (∀ lo, a = some lo → lo ≤ r) ∧ (∀ hi, b = some hi → r ≤ hi)

theorem pairVec_spec (data : List (Option Rat)) (a b : Option Rat) (i : Nat) :
    (pairVec data a b)[i]? = some true ↔ ∃ x, data[i]? = some x ∧ violates x a b := by
  unfold pairVec violates
  rw [List.getElem?_map]
  cases data[i]? with
  | none => simp
  | some x =>
    cases x with
    | none => cases a <;> cases b <;> simp [F.le, F.ge]
    | some r => cases a <;> cases b <;> simp [F.le, F.ge]

theorem zipOr_get {old m : List Bool} (h : old.length = m.length) (i : Nat) :
    (List.zipWith (· || ·) old m)[i]? = some true ↔ (old[i]? = some true ∨ m[i]? = some true) := by
  rw [List.getElem?_zipWith]
  rcases Nat.lt_or_ge i old.length with hi | hi
  · rw [List.getElem?_eq_getElem hi, List.getElem?_eq_getElem (by omega : i < m.length)]
    simp
  · rw [List.getElem?_eq_none hi, List.getElem?_eq_none (by omega)]; simp

theorem bad_length {s : Sys} {names v} (h : bad s names = .ok v) : v.length = s.mask.length := by
  unfold bad at h
  cases hb : boolMask s.grp names with
  | error e => rw [hb] at h; cases h
  | ok bm => rw [hb] at h; injection h with h; subst h; simp

/-- C08: `cut_parameter(data, (a, b), F)` marks exactly the pulses with `x <= a` or `x >= b` in
addition to those already bad for `F`. -/
theorem cut_parameter_pair {s : Sys} (h : Reachable s) {F : String} (hF : BoolField s F)
    {data : List (Option Rat)} (hd : data.length = s.mask.length) (a b : Option Rat)
    {old : List Bool} (hold : bad s [F] = .ok old) :
    (cutParameter data (.pair a b) F s).1 = .ok () ∧
    ∃ new, bad (cutParameter data (.pair a b) F s).2 [F] = .ok new ∧ new.length = old.length ∧
      ∀ i : Nat, new[i]? = some true ↔
        (old[i]? = some true ∨ ∃ x, data[i]? = some x ∧ violates x a b) := by
  rw [cutParameter_pair, if_pos hF.2]
  have hol := bad_length hold
  by_cases hab : a = none ∧ b = none
  · rw [if_pos hab]
    refine ⟨rfl, old, hold, rfl, ?_⟩
    intro i
    rw [hab.1, hab.2]
    simp [violates]
  · rw [if_neg hab]
    have hlen : (pairVec data a b).length = s.mask.length := by simp [pairVec, hd]
    obtain ⟨r1, r2⟩ := cut_bool_accumulates h hF hlen hold
    refine ⟨r1, _, r2, by simp [hol, hlen], ?_⟩
    intro i
    rw [zipOr_get (by rw [hol, hlen]), pairVec_spec]

theorem rangesLoop_spec {data : List (Option Rat)} {l : List Element} {ix : Option (List Bool)} {cv : List Bool}
    {inv : Bool} (hcv : cv.length = data.length)
    (hl : ∀ a b, Element.range a b ∈ l → a ≠ none ∨ b ≠ none) :
    ∃ cv', rangesLoop data l ix cv inv = .ok (cv', inv || decide (Element.invert ∈ l)) ∧
      cv'.length = data.length ∧
      ∀ i : Nat, cv'[i]? = some true ↔ (cv[i]? = some true ∧ ∀ x, data[i]? = some x →
        ¬ ∃ a b, Element.range a b ∈ l ∧ inClosed x a b) := by
  induction l generalizing ix cv inv with
  | nil => exact ⟨cv, by simp [rangesLoop], hcv, fun i => by simp⟩
  | cons e es ih =>
    cases e with
    | invert =>
      obtain ⟨cv', h1, h2, h3⟩ := ih (ix := ix) (inv := true) hcv (fun a b hab => hl a b (by simp [hab]))
      refine ⟨cv', by simp only [rangesLoop]; rw [h1]; simp, h2, ?_⟩
      intro i
      rw [h3 i]
      simp
    | range a b =>
      have hne := hl a b (by simp)
      have hix : ∃ v, rangeIndex data ix a b = some v ∧ v.length = data.length ∧
          ∀ i : Nat, v[i]? = some true ↔ ∃ x, data[i]? = some x ∧ inClosed x a b := by
        cases a with
        | none =>
          cases b with
          | none => simp at hne
          | some b =>
            refine ⟨_, rfl, by simp, fun i => ?_⟩
            rw [List.getElem?_map]
            cases data[i]? with
            | none => simp
            | some x => cases x <;> simp [F.le, inClosed]
        | some a =>
          cases b with
          | none =>
            refine ⟨_, rfl, by simp, fun i => ?_⟩
            rw [List.getElem?_map]
            cases data[i]? with
            | none => simp
            | some x => cases x <;> simp [F.ge, inClosed]
          | some b =>
            refine ⟨_, rfl, by simp, fun i => ?_⟩
            rw [List.getElem?_map]
            cases data[i]? with
            | none => simp
            | some x => cases x <;> simp [F.ge, F.le, inClosed]
      obtain ⟨v, hv1, hv2, hv3⟩ := hix
      simp only [rangesLoop, hv1]
      obtain ⟨cv', h1, h2, h3⟩ := ih (ix := some v)
        (cv := List.zipWith (fun c (i : Bool) => if i then false else c) cv v) (inv := inv)
        (by simp [hcv, hv2]) (fun a b hab => hl a b (by simp [hab]))
      refine ⟨cv', by rw [h1]; simp, h2, ?_⟩
      intro i
      rw [h3 i]
      have hz : (List.zipWith (fun c (i : Bool) => if i then false else c) cv v)[i]? = some true ↔
          (cv[i]? = some true ∧ v[i]? ≠ some true) := by
        rw [List.getElem?_zipWith]
        rcases Nat.lt_or_ge i cv.length with hi | hi
        · rw [List.getElem?_eq_getElem hi, List.getElem?_eq_getElem (by omega : i < v.length)]
          cases cv[i] <;> cases v[i] <;> simp
        · rw [List.getElem?_eq_none hi, List.getElem?_eq_none (by omega)]; simp
      rw [hz, Ne, hv3 i]
      constructor
      · rintro ⟨⟨q1, q2⟩, q3⟩
        refine ⟨q1, ?_⟩
        rintro x hx ⟨a', b', hm, hin⟩
        rcases List.mem_cons.mp hm with he | hm
        · injection he with e1 e2
          subst e1 e2
          exact q2 ⟨x, hx, hin⟩
        · exact q3 x hx ⟨a', b', hm, hin⟩
      · rintro ⟨q1, q2⟩
        refine ⟨⟨q1, ?_⟩, ?_⟩
        · rintro ⟨x, hx, hin⟩
          exact q2 x hx ⟨a, b, by simp, hin⟩
        · rintro x hx ⟨a', b', hm, hin⟩
          exact q2 x hx ⟨a', b', by simp [hm], hin⟩

/-- C08 (partial: every range must have at least one limit; see `cut_parameter_open_range_fails`):
the sequence form marks exactly the pulses lying in none of the closed ranges – or, with 'invert' in
the sequence, those lying in at least one. -/
theorem cut_parameter_ranges_partial {s : Sys} (h : Reachable s) {F : String} (hF : BoolField s F)
    {data : List (Option Rat)} (hd : data.length = s.mask.length) {l : List Element} (hne : l ≠ [])
    (hl : ∀ a b, Element.range a b ∈ l → a ≠ none ∨ b ≠ none)
    {old : List Bool} (hold : bad s [F] = .ok old) :
    (cutParameter data (.seq l) F s).1 = .ok () ∧
    ∃ new, bad (cutParameter data (.seq l) F s).2 [F] = .ok new ∧ new.length = old.length ∧
      ∀ i : Nat, new[i]? = some true ↔ (old[i]? = some true ∨ ∃ x, data[i]? = some x ∧
        (if Element.invert ∈ l then ∃ a b, Element.range a b ∈ l ∧ inClosed x a b
         else ¬ ∃ a b, Element.range a b ∈ l ∧ inClosed x a b)) := by
  rw [cutParameter_seq, if_pos hF.2, if_neg hne]
  have hol := bad_length hold
  obtain ⟨cv, h1, h2, h3⟩ := rangesLoop_spec (data := data) (l := l) (ix := none)
    (cv := data.map (fun _ => true)) (inv := false) (by simp) hl
  rw [h1]
  simp only [Bool.false_or, decide_eq_true_eq]
  have hlen : (if Element.invert ∈ l then cv.map (fun b => !b) else cv).length = s.mask.length := by
    split <;> simp [h2, hd]
  obtain ⟨r1, r2⟩ := cut_bool_accumulates h hF hlen hold
  refine ⟨r1, _, r2, by simp [hol, hlen], ?_⟩
  intro i
  rw [zipOr_get (by rw [hol, hlen])]
  apply or_congr_right
  have hcv : cv[i]? = some true ↔ ∃ x, data[i]? = some x ∧
      ¬ ∃ a b, Element.range a b ∈ l ∧ inClosed x a b := by
    rw [h3 i, List.getElem?_map]
    cases data[i]? with
    | none => simp
    | some x => simp
  by_cases hinv : Element.invert ∈ l
  · simp only [if_pos hinv]
    rw [List.getElem?_map]
    rcases Nat.lt_or_ge i data.length with hi | hi
    · rw [List.getElem?_eq_getElem hi] at hcv ⊢
      rw [List.getElem?_eq_getElem (by omega : i < cv.length)] at hcv ⊢
      simp only [Option.map_some, Option.some.injEq, exists_eq_left'] at hcv ⊢
      cases hc : cv[i] with
      | true => rw [hc] at hcv; have := hcv.mp rfl; simp; simpa using this
      | false =>
        rw [hc] at hcv
        simp only [Bool.not_false, true_iff]
        apply Classical.byContradiction
        intro hno
        exact absurd (hcv.mpr hno) (by simp)
    · rw [List.getElem?_eq_none hi, List.getElem?_eq_none (by omega)]; simp
  · simp only [if_neg hinv]
    exact hcv

/-- C08: `cut_parameter(..., allowed=None, ...)` does nothing, and an unknown cut name raises. -/
theorem cut_parameter_none_unknown (s : Sys) (data : List (Option Rat)) (F : String) :
    cutParameter data .none F s = (.ok (), s) ∧
    (F ∉ s.grp.bools.map Prod.fst → ∀ a b l,
      cutParameter data (.pair a b) F s = (.error .value, s) ∧
      cutParameter data (.seq l) F s = (.error .value, s)) := by
  refine ⟨rfl, fun hF a b l => ?_⟩
  rw [cutParameter_pair, cutParameter_seq, if_neg hF, if_neg hF]
  exact ⟨rfl, rfl⟩

/-- Disagreement (C08): in a sequence, a range with both limits None reuses the previous range's test
instead of allowing everything: value 5 lies in (None, None) but is marked bad. -/
theorem cut_parameter_open_range_fails :
    bad (cutParameter [some 5] (.seq [.range (some 0) (some 1), .range none none]) "energy" (initial 1)).2
      ["energy"] = .ok [true] ∧ inClosed (some 5) none none := by
  constructor
  · decide +kernel
  · exact ⟨5, rfl, by simp, by simp⟩

-- limit 0 (falsy in Python) and NaN are handled as stated
example : bad (cutParameter [some (-1), some 0, some 1, none, some 7] (.pair (some 0) (some 7)) "energy"
    (initial 5)).2 ["energy"] = .ok [true, true, false, false, true] := by decide +kernel
example : bad (cutParameter [some 0, some 3, some 5, none]
    (.seq [.range (some 0) (some 1), .range (some 4) none]) "energy" (initial 4)).2
    ["energy"] = .ok [false, true, false, true] ∧ bad (cutParameter [some 0, some 3, some 5, none]
    (.seq [.range (some 0) (some 1), .invert, .range (some 4) none]) "energy" (initial 4)).2
    ["energy"] = .ok [true, false, true, false] := by decide +kernel
example (n : Nat) : Reachable (initial n) := .init n

end Mass.Cut
