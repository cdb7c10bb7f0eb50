import Verif.Cut.Inv
/-! Effects of the `Cuts` methods on the words (helper file). -/
namespace Mass.Cut

theorem map_const_of_length {α β γ} (c : γ) {l : List α} {l' : List β} (h : l.length = l'.length) :
    l.map (fun _ => c) = l'.map (fun _ => c) := by
  rw [List.map_const', List.map_const', h]

/-- `l'` differs from `l` at most in the bits of `bm`. [specification] -/
def AgreeOff (bm : Word) (l l' : List Word) : Prop :=
  l'.map (fun w => w &&& ~~~ bm) = l.map (fun w => w &&& ~~~ bm)

theorem AgreeOff.refl (bm : Word) (l : List Word) : AgreeOff bm l l := rfl

theorem AgreeOff.length {bm l l'} (h : AgreeOff bm l l') : l'.length = l.length := by
  have := congrArg List.length h
  simpa using this

theorem AgreeOff.trans {bm l l' l''} (h : AgreeOff bm l l') (h' : AgreeOff bm l' l'') :
    AgreeOff bm l l'' := by unfold AgreeOff at *; rw [h', h]

theorem and_and_not_of_disj {w q bm : Word} (h : q &&& bm = 0#32) :
    w &&& q = (w &&& ~~~ bm) &&& q := by
  apply ext_lsb
  intro i hi
  rw [BitVec.getLsbD_and, BitVec.getLsbD_and, and_not_lsb]
  have := and_eq_zero_iff.mp h i
  cases hq : q.getLsbD i <;> cases hb : bm.getLsbD i <;> simp_all

theorem AgreeOff.query {α} {bm q : Word} {l l' : List Word} (h : AgreeOff bm l l')
    (hq : q &&& bm = 0#32) (F : Word → α) :
    l'.map (fun w => F (w &&& q)) = l.map (fun w => F (w &&& q)) := by
  have key : ∀ l : List Word, l.map (fun w => F (w &&& q))
      = (l.map (fun w => w &&& ~~~ bm)).map (fun w => F (w &&& q)) := by
    intro l
    rw [List.map_map]
    apply List.map_congr_left
    intro w _
    show F (w &&& q) = F ((w &&& ~~~ bm) &&& q)
    rw [and_and_not_of_disj hq]
  rw [key l', key l, h]

theorem agree_of_get {bm : Word} {l l' : List Word} (hlen : l'.length = l.length)
    (h : ∀ (i : Nat) (w w' : Word), l[i]? = some w → l'[i]? = some w' → w' &&& ~~~ bm = w &&& ~~~ bm) :
    AgreeOff bm l l' := by
  unfold AgreeOff
  apply List.ext_getElem?
  intro i
  rw [List.getElem?_map, List.getElem?_map]
  rcases Nat.lt_or_ge i l.length with hi | hi
  · have hi' : i < l'.length := by omega
    rw [List.getElem?_eq_getElem hi, List.getElem?_eq_getElem hi']
    simp only [Option.map_some]
    rw [h i _ _ (List.getElem?_eq_getElem hi) (List.getElem?_eq_getElem hi')]
  · rw [List.getElem?_eq_none hi, List.getElem?_eq_none (by omega)]
    
theorem or_and_not (w bm : Word) : (w ||| bm) &&& ~~~ bm = w &&& ~~~ bm := by
  apply ext_lsb
  intro i hi
  rw [and_not_lsb, and_not_lsb, BitVec.getLsbD_or]
  cases w.getLsbD i <;> cases bm.getLsbD i <;> rfl

theorem orAt_agree {l a bm l'} (hlen : a.size = l.length) (h : orAt l a bm = .ok l') :
    AgreeOff bm l l' := by
  unfold orAt at h
  cases a with
  | bools m =>
    simp only [Except.ok.injEq] at h
    subst h
    simp only [Arg.size] at hlen
    apply agree_of_get
    · simp; omega
    · intro i w w' hw hw'
      rw [List.getElem?_zipWith] at hw'
      rw [hw] at hw'
      cases hm : m[i]? with
      | none => simp [hm] at hw'
      | some b =>
        rw [hm] at hw'
        simp at hw'
        subst hw'
        cases b
        · rfl
        · exact or_and_not w bm
  | codes m =>
    simp only [] at h
    split at h
    · simp only [Except.ok.injEq] at h
      subst h
      apply agree_of_get
      · simp
      · intro i w w' hw hw'
        rw [List.getElem?_map, List.getElem?_zipIdx, hw] at hw'
        simp only [Option.map_some, Option.some.injEq] at hw'
        subst hw'
        split
        · exact or_and_not w bm
        · rfl
    · cases h

/-- The mask that `cut name` may touch. [specification] -/
def maskOf (g : Group) (name : String) : Word :=
  match g.bools.find? (fun b => b.1 == name) with
  | some b => b.2
  | none => match g.cats.find? (fun c => c.1 == name) with
    | some c => c.2
    | none => 0#32

/-- Result words of `cut`. [specification] -/
def cutWords (g : Group) (l : List Word) (name : String) (a : Arg) : Except Err (List Word) :=
  if a.size ≠ l.length then .error .assertion
  else match g.bools.find? (fun b => b.1 == name) with
    | some b => orAt l a b.2
    | none => match g.cats.find? (fun c => c.1 == name) with
      | some c => .ok (List.zipWith (fun t v => t ||| (v &&& c.2)) (l.map (fun w => w &&& ~~~ c.2))
          (a.toCodes.map (fun (v : Word) => v <<< bitPos c.2)))
      | none => .error .value

theorem cut_run (s : Sys) (name : String) (a : Arg) :
    cut name a s = match cutWords s.grp s.mask name a with
      | .error e => (.error e, s)
      | .ok l => (.ok (), { s with mask := l }) := by
  unfold cut cutWords
  simp only [bind_def, getS]
  split
  · rfl
  · cases s.grp.bools.find? (fun b => b.1 == name) with
    | some b =>
      simp only [bind_def, lift]
      generalize orAt _ _ _ = x
      cases x <;> rfl
    | none =>
      simp only []
      cases s.grp.cats.find? (fun c => c.1 == name) <;> rfl

theorem toCodes_length (a : Arg) : a.toCodes.length = a.size := by cases a <;> simp [Arg.toCodes, Arg.size]

theorem cutWords_agree {g l name a l'} (h : cutWords g l name a = .ok l') :
    AgreeOff (maskOf g name) l l' := by
  unfold cutWords at h
  unfold maskOf
  split at h
  · cases h
  · rename_i hs
    have hs : a.size = l.length := by simpa using hs
    cases hb : g.bools.find? (fun b => b.1 == name) with
    | some b =>
      rw [hb] at h
      exact orAt_agree hs h
    | none =>
      rw [hb] at h
      simp only [] at h ⊢
      cases hc : g.cats.find? (fun c => c.1 == name) with
      | none => rw [hc] at h; cases h
      | some c =>
        rw [hc] at h
        simp only [Except.ok.injEq] at h
        subst h
        apply agree_of_get
        · simp [toCodes_length, hs]
        · intro i w w' hw hw'
          rw [List.getElem?_zipWith, List.getElem?_map, hw] at hw'
          simp only [Option.map_some] at hw'
          cases hv : (a.toCodes.map (fun (v : Word) => v <<< bitPos c.2))[i]? with
          | none => rw [hv] at hw'; simp at hw'
          | some v =>
            rw [hv] at hw'
            simp only [Option.some.injEq] at hw'
            subst hw'
            apply ext_lsb
            intro j hj
            rw [and_not_lsb, and_not_lsb, BitVec.getLsbD_or, and_not_lsb, BitVec.getLsbD_and]
            cases w.getLsbD j <;> cases c.2.getLsbD j <;> cases v.getLsbD j <;> rfl

/-- State transformer "only words changed, only in the bits `bm`". [specification] -/
def OnlyBits (bm : Word) (s s' : Sys) : Prop := s'.grp = s.grp ∧ AgreeOff bm s.mask s'.mask

theorem OnlyBits.refl (bm s) : OnlyBits bm s s := ⟨rfl, AgreeOff.refl _ _⟩
theorem OnlyBits.trans {bm s s' s''} (h : OnlyBits bm s s') (h' : OnlyBits bm s' s'') :
    OnlyBits bm s s'' := ⟨h'.1.trans h.1, h.2.trans h'.2⟩

theorem cut_only (s : Sys) (name : String) (a : Arg) :
    OnlyBits (maskOf s.grp name) s (cut name a s).2 := by
  rw [cut_run]
  cases h : cutWords s.grp s.mask name a with
  | error e => exact OnlyBits.refl _ _
  | ok l => exact ⟨rfl, cutWords_agree h⟩

theorem cutCategorical_run (s : Sys) (field : String) (d : List (String × List Bool)) :
    cutCategorical field d s =
      match labelLoop s.grp field d (List.replicate s.mask.length 0#32) with
      | .error e => (.error e, s)
      | .ok ls => if labelsConsistent s.grp field d ls then cut field (.codes ls) s
        else (.error .value, s) := by
  unfold cutCategorical
  simp only [bind_def, getS, lift]
  generalize labelLoop _ _ _ _ = x
  cases x with
  | error e => rfl
  | ok ls =>
    simp only []
    cases labelsConsistent s.grp field d ls <;> rfl

theorem cutCategorical_only (s : Sys) (field : String) (d : List (String × List Bool)) :
    OnlyBits (maskOf s.grp field) s (cutCategorical field d s).2 := by
  rw [cutCategorical_run]
  split
  · exact OnlyBits.refl _ _
  · split
    · exact cut_only s field _
    · exact OnlyBits.refl _ _

theorem cutInt_run (s : Sys) (n : Int) (a : Arg) :
    cutInt n a s =
      if a.size ≠ s.mask.length then (.error .assertion, s)
      else if n < 0 ∨ n > 31 then (.error .value, s)
      else match s.grp.bools[n.toNat]? with
        | none => (.error .index, s)
        | some b => if b.1 = "" then (.error .value, s) else
          match orAt s.mask a b.2 with
          | .error e => (.error e, s)
          | .ok l => (.ok (), { s with mask := l }) := by
  unfold cutInt
  simp only [bind_def, getS]
  split
  · rfl
  · split
    · rfl
    · cases s.grp.bools[n.toNat]? with
      | none => rfl
      | some b =>
        simp only []
        split
        · rfl
        · simp only [bind_def, lift]
          generalize orAt _ _ _ = x
          cases x <;> rfl

theorem cutInt_only (s : Sys) (n : Int) (a : Arg) :
    OnlyBits (((s.grp.bools[n.toNat]?).map Prod.snd).getD 0#32) s (cutInt n a s).2 := by
  rw [cutInt_run]
  split
  · exact OnlyBits.refl _ _
  · rename_i hs
    have hs : a.size = s.mask.length := by simpa using hs
    split
    · exact OnlyBits.refl _ _
    · cases hb : s.grp.bools[n.toNat]? with
      | none => exact OnlyBits.refl _ _
      | some b =>
        simp only []
        split
        · exact OnlyBits.refl _ _
        · cases ho : orAt s.mask a b.2 with
          | error e => exact OnlyBits.refl _ _
          | ok l => exact ⟨rfl, orAt_agree hs ho⟩

/-! ### cut_parameter -/

/-- the plain (a,b) form as a single boolean vector [specification] -/
def pairVec (data : List F) (a b : Option Rat) : List Bool :=
  data.map (fun x => (match a with | some a => x.le a | none => false) ||
    (match b with | some b => x.ge b | none => false))

theorem bind_run {α β} (m : M α) (f : α → M β) (s : Sys) :
    M.bind m f s = match m s with
      | (.error e, s') => (.error e, s')
      | (.ok a, s') => f a s' := rfl

/-- two boolean cuts in a row on the same field are one cut with the OR -/
theorem cut_cut (s : Sys) (name : String) (v w : List Bool) (hv : v.length = w.length)
    (hb : name ∈ s.grp.bools.map Prod.fst) :
    (do cut name (.bools v); cut name (.bools w)) s
      = cut name (.bools (List.zipWith (· || ·) v w)) s := by
  rw [bind_def, cut_run, cut_run]
  unfold cutWords
  simp only [Arg.size, List.length_zipWith]
  have hmin : min v.length w.length = v.length := by omega
  rw [hmin]
  by_cases hs : v.length = s.mask.length
  · have hne : ¬ (v.length ≠ s.mask.length) := by simp [hs]
    simp only [hne, if_false]
    cases hf : s.grp.bools.find? (fun b => b.1 == name) with
    | none =>
      rw [List.find?_eq_none] at hf
      obtain ⟨b, hb1, hb2⟩ := List.mem_map.mp hb
      have := hf b hb1
      simp [hb2] at this
    | some b =>
      simp only [orAt]
      rw [cut_run]
      unfold cutWords
      simp only [Arg.size, hf, List.length_zipWith]
      have h1 : min s.mask.length v.length = w.length := by omega
      simp only [h1, ne_eq, not_true, if_false, orAt]
      congr 1
      simp only [Sys.mk.injEq, true_and]
      apply List.ext_getElem?
      intro i
      simp only [List.getElem?_zipWith]
      cases h1 : s.mask[i]? <;> cases h2 : v[i]? <;> cases h3 : w[i]? <;> simp
      rename_i x y z
      cases y <;> cases z <;> simp [BitVec.or_assoc]
  · simp [hs]

theorem map_or {data : List F} {f g : F → Bool} :
    data.map (fun x => f x || g x) = List.zipWith (· || ·) (data.map f) (data.map g) := by
  induction data with
  | nil => rfl
  | cons x xs ih => rw [List.map_cons, List.map_cons, List.map_cons, List.zipWith_cons_cons, ih]

theorem cutParameter_pair (s : Sys) (data : List F) (a b : Option Rat) (name : String) :
    cutParameter data (.pair a b) name s =
      if name ∈ s.grp.bools.map Prod.fst then
        (if a = none ∧ b = none then (.ok (), s) else cut name (.bools (pairVec data a b)) s)
      else (.error .value, s) := by
  unfold cutParameter pairVec
  simp only [bind_def, getS]
  by_cases hm : name ∈ s.grp.bools.map Prod.fst
  · simp only [List.contains_iff_mem.mpr hm, Bool.not_true, Bool.false_eq_true, if_false, hm, if_true]
    cases a with
    | none =>
      cases b with
      | none => simp [truthy, pure_def]
      | some b => simp [truthy, bind_def, pure_def]
    | some a =>
      cases b with
      | none =>
        simp [truthy, bind_def]
        generalize cut name (Arg.bools (data.map fun x => x.le a)) s = x
        rcases x with ⟨r, s'⟩
        cases r <;> rfl
      | some b =>
        simp only [truthy]
        cases h : (a != 0) && (b != 0) with
        | true => simp
        | false =>
          simp only [reduceCtorEq, false_and, if_false]
          rw [map_or, ← cut_cut s name _ _ (by simp) hm]
  · have : (s.grp.bools.map Prod.fst).contains name = false := by
      cases hc : (s.grp.bools.map Prod.fst).contains name with
      | false => rfl
      | true => exact absurd (List.contains_iff_mem.mp hc) hm
    simp only [this, Bool.not_false, if_true, hm, if_false]
    rfl

theorem cutParameter_seq (s : Sys) (data : List F) (l : List Element) (name : String) :
    cutParameter data (.seq l) name s =
      if name ∈ s.grp.bools.map Prod.fst then
        (if l = [] then (.error .index, s) else
          match rangesLoop data l none (data.map (fun _ => true)) false with
          | .error e => (.error e, s)
          | .ok r => cut name (.bools (if r.2 then r.1.map (fun b => !b) else r.1)) s)
      else (.error .value, s) := by
  unfold cutParameter
  simp only [bind_def, getS]
  by_cases hm : name ∈ s.grp.bools.map Prod.fst
  · simp only [List.contains_iff_mem.mpr hm, Bool.not_true, Bool.false_eq_true, if_false, hm, if_true]
    split
    · rfl
    · simp only [bind_def, lift]
      generalize rangesLoop _ _ _ _ _ = x
      cases x <;> rfl
  · have : (s.grp.bools.map Prod.fst).contains name = false := by
      cases hc : (s.grp.bools.map Prod.fst).contains name with
      | false => rfl
      | true => exact absurd (List.contains_iff_mem.mp hc) hm
    simp only [this, Bool.not_false, if_true, hm, if_false]
    rfl

theorem cutParameter_only (s : Sys) (data : List F) (al : Allowed) (name : String) :
    OnlyBits (maskOf s.grp name) s (cutParameter data al name s).2 := by
  cases al with
  | none => exact OnlyBits.refl _ _
  | pair a b =>
    rw [cutParameter_pair]
    split
    · split
      · exact OnlyBits.refl _ _
      · exact cut_only ..
    · exact OnlyBits.refl _ _
  | seq l =>
    rw [cutParameter_seq]
    split
    · split
      · exact OnlyBits.refl _ _
      · split
        · exact OnlyBits.refl _ _
        · exact cut_only ..
    · exact OnlyBits.refl _ _

theorem clearCut_run (s : Sys) (names : List String) :
    clearCut names s = match boolMask s.grp names with
      | .error e => (.error e, s)
      | .ok bm => (.ok (), { s with mask := s.mask.map (fun w => w &&& ~~~ bm) }) := by
  unfold clearCut
  simp only [bind_def, getS, lift]
  generalize boolMask _ _ = x
  cases x <;> rfl

theorem clearCut_only (s : Sys) (names : List String) {bm} (h : boolMask s.grp names = .ok bm) :
    OnlyBits bm s (clearCut names s).2 := by
  rw [clearCut_run, h]
  refine ⟨rfl, ?_⟩
  apply agree_of_get
  · simp
  · intro i w w' hw hw'
    simp only [List.getElem?_map, hw, Option.map_some, Option.some.injEq] at hw'
    subst hw'
    apply ext_lsb; intro j hj
    simp only [and_not_lsb]
    cases w.getLsbD j <;> cases bm.getLsbD j <;> rfl

theorem empty_inv (n : Nat) : Inv (empty n).grp := by
  refine ⟨⟨by simp [empty], ?_, ?_, ?_⟩, by simp [empty], by simp [empty], by simp [empty],
    by simp [empty], by simp [empty]⟩
  · intro i b hb
    left
    exact List.eq_of_mem_replicate (List.mem_of_getElem? hb)
  · intro i hi
    constructor
    · intro h; simp [empty] at h
    · rintro (⟨b, hb, hbn⟩ | ⟨c, hc, _⟩)
      · exact absurd (by rw [List.eq_of_mem_replicate (List.mem_of_getElem? hb)]) hbn
      · simp [empty] at hc
  · intro i b hb hbn
    exact absurd (by rw [List.eq_of_mem_replicate (List.mem_of_getElem? hb)]) hbn

theorem step_inv {s : Sys} (h : Inv s.grp) (op : Op) : Inv (op.step s).grp := by
  unfold Op.step
  cases op with
  | regBool ns => exact registerBool_inv h ns
  | unregBool ns => exact unregisterBool_inv h ns
  | regCat n cs d => exact registerCat_inv h n cs d
  | unregCat n => exact unregisterCat_inv h n
  | cut n a => show Inv (cut n a s).2.grp; rw [(cut_only s n a).1]; exact h
  | cutInt n a => show Inv (cutInt n a s).2.grp; rw [(cutInt_only s n a).1]; exact h
  | cutCategorical f d =>
    show Inv (cutCategorical f d s).2.grp; rw [(cutCategorical_only s f d).1]; exact h
  | cutParameter d a c =>
    show Inv (cutParameter d a c s).2.grp; rw [(cutParameter_only s d a c).1]; exact h
  | clearCut ns =>
    show Inv (clearCut ns s).2.grp
    rw [clearCut_run]
    split <;> exact h

end Mass.Cut
