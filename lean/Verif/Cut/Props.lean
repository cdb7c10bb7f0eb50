import Verif.Cut.Query
/-!
Property theorems about cut fields and cut words: C01 - C06.

Vocabulary used in the statements:
* `Reachable s` – `s` results from a fresh file by any sequence of API calls;
* the model's `good`, `bad`, `categoryCodes`, `selectCategory` are the public queries;
* `ownedMasks` lists the masks of all registered fields.
-/
namespace Mass.Cut

/-- States reachable from a fresh file by API calls (each call may raise; the caller goes on). [specification] -/
inductive Reachable : Sys → Prop
  | init (n : Nat) : Reachable (initial n)
  | step {s} (op : Op) : Reachable s → Reachable (op.step s)

theorem Reachable.inv {s} (h : Reachable s) : Inv s.grp := by
  induction h with
  | init n => exact step_inv (step_inv (empty_inv n) _) _
  | step op _ ih => exact step_inv ih op

theorem reachable_foldl {s} (h : Reachable s) (ops : List Op) : Reachable (ops.foldl Op.step s) := by
  induction ops generalizing s with
  | nil => exact h
  | cons op ops ih => exact ih (h.step op)

/-- masks of all registered fields: named boolean slots and categorical fields [specification] -/
def ownedMasks (g : Group) : List Word :=
  (g.bools.filter (fun b => b.1 != "")).map Prod.snd ++ g.cats.map Prod.snd

/-- A registered boolean field. [specification] -/
def BoolField (s : Sys) (F : String) : Prop := F ≠ "" ∧ F ∈ s.grp.bools.map Prod.fst
/-- A registered categorical field. [specification] -/
def CatField (s : Sys) (F : String) : Prop := F ∈ s.grp.cats.map Prod.fst

instance (s F) : Decidable (BoolField s F) := by unfold BoolField; infer_instance
instance (s F) : Decidable (CatField s F) := by unfold CatField; infer_instance

/-! ### C01 -/

theorem slot_pairwise {d : List (String × Word)} {f P} (h : SlotInv d f P) :
    ((d.filter (fun b => b.1 != "")).map Prod.snd).Pairwise (fun a b => a &&& b = 0#32) := by
  have key : d.Pairwise (fun a b => a.1 ≠ "" → b.1 ≠ "" → a.2 &&& b.2 = 0#32) := by
    rw [List.pairwise_iff_getElem]
    intro i j hi hj hij ha hb
    rcases h.slot i _ (List.getElem?_eq_getElem hi) with e | ⟨_, e⟩
    · rw [e] at ha; exact absurd rfl ha
    · rcases h.slot j _ (List.getElem?_eq_getElem hj) with e' | ⟨_, e'⟩
      · rw [e'] at hb; exact absurd rfl hb
      · rw [e, e', and_eq_zero_iff]
        rintro k ⟨h1, h2⟩
        rw [bit_lsb] at h1 h2
        simp at h1 h2
        omega
  rw [List.pairwise_map]
  have := key.filter (fun b => b.1 != "")
  refine this.imp_of_mem ?_
  intro a b ha hb hab
  exact hab (by simpa using (List.mem_filter.mp ha).2) (by simpa using (List.mem_filter.mp hb).2)

/-- C01: in every reachable state the registered fields own pairwise disjoint, non-empty sets of
bits, and the "used" flags are exactly the union of the owned bits. -/
theorem fields_own_disjoint_bits {s : Sys} (h : Reachable s) :
    (ownedMasks s.grp).Pairwise (fun a b => a &&& b = 0#32) ∧
    (∀ m ∈ ownedMasks s.grp, m ≠ 0#32) ∧
    s.grp.flags = (ownedMasks s.grp).foldl (· ||| ·) 0#32 := by
  have hi := h.inv
  unfold ownedMasks
  refine ⟨?_, ?_, ?_⟩
  · rw [List.pairwise_append]
    refine ⟨slot_pairwise hi.slots, ?_, ?_⟩
    · rw [List.pairwise_map]; exact hi.catDisj
    · intro a ha b hb
      obtain ⟨x, hx, rfl⟩ := List.mem_map.mp ha
      obtain ⟨c, hc, rfl⟩ := List.mem_map.mp hb
      rw [List.mem_filter] at hx
      obtain ⟨i, hxi⟩ := List.getElem?_of_mem hx.1
      have hxn : x.1 ≠ "" := by simpa using hx.2
      rcases hi.slots.slot i x hxi with e | ⟨_, e⟩
      · rw [e] at hxn; exact absurd rfl hxn
      · rw [e, and_eq_zero_iff]
        rintro j ⟨h1, h2⟩
        rw [bit_lsb] at h1
        simp at h1
        rw [h1.2] at h2
        exact hi.slots.disj i x hxi hxn ⟨c, hc, h2⟩
  · intro m hm
    rw [List.mem_append] at hm
    rcases hm with hm | hm
    · obtain ⟨x, hx, rfl⟩ := List.mem_map.mp hm
      rw [List.mem_filter] at hx
      obtain ⟨i, hxi⟩ := List.getElem?_of_mem hx.1
      have hxn : x.1 ≠ "" := by simpa using hx.2
      rcases hi.slots.slot i x hxi with e | ⟨_, e⟩
      · rw [e] at hxn; exact absurd rfl hxn
      · rw [e, ne_zero_iff]
        have := (List.getElem?_eq_some_iff.mp hxi).1
        rw [hi.slots.len] at this
        exact ⟨i, by rw [bit_lsb]; simp [this]⟩
    · obtain ⟨c, hc, rfl⟩ := List.mem_map.mp hm
      exact hi.catNe c hc
  · apply ext_lsb
    intro j hj
    rw [foldl_or_lsb, Bool.eq_iff_iff, hi.slots.flags j hj]
    simp only [BitVec.getLsbD_zero, Bool.false_or, List.any_append, Bool.or_eq_true, List.any_map,
      List.any_eq_true, List.mem_filter, Function.comp, catBit]
    constructor
    · rintro (⟨b, hb, hbn⟩ | ⟨c, hc, hcj⟩)
      · left
        refine ⟨b, ⟨List.mem_of_getElem? hb, by simpa using hbn⟩, ?_⟩
        rcases hi.slots.slot j b hb with e | ⟨_, e⟩
        · rw [e] at hbn; exact absurd rfl hbn
        · rw [e, bit_lsb]; simp [hj]
      · exact Or.inr ⟨c, hc, hcj⟩
    · rintro (⟨b, ⟨hb, hbn⟩, hbj⟩ | ⟨c, hc, hcj⟩)
      · left
        obtain ⟨i, hbi⟩ := List.getElem?_of_mem hb
        rcases hi.slots.slot i b hbi with e | ⟨_, e⟩
        · rw [e] at hbj; simp at hbj
        · rw [e, bit_lsb] at hbj
          simp at hbj
          rw [hbj.2]
          exact ⟨b, hbi, by simpa using hbn⟩
      · exact Or.inr ⟨c, hc, hcj⟩

/-- A history with registrations, removals and a failing call, leaving a scattered categorical field. [specification] -/
def demoOps : List Op :=
  [.unregBool ["pretrigger_mean", "timing"], .unregBool ["nosuch"], .regCat "state" ["A", "B", "C"] "none",
   .regBool ["mine"]]
/-- [specification or instance] -/
def demo (n : Nat) : Sys := demoOps.foldl Op.step (initial n)
theorem demo_reachable (n : Nat) : Reachable (demo n) := reachable_foldl (.init n) _

-- non-vacuity of C01: the demo state owns 18 fields; "state" uses bits 1 and 13 (not adjacent)
example : (ownedMasks (demo 2).grp).length = 17 ∧ (demo 2).grp.cats = [("calibration", 65536#32), ("state", 8194#32)] := by
  decide +kernel

/-! ### C02 -/

/-- C02: `cut(F, ...)` – with any argument, whether it succeeds or raises – changes no answer about
any other field or combination of other fields. -/
theorem cut_frame {s : Sys} (h : Reachable s) (F : String) (a : Arg)
    (names : List String) (kw : List (String × String)) (G : String)
    (hne : names ≠ []) (hn : F ∉ names) (hk : F ∉ kw.map Prod.fst) (hG : F ≠ G) :
    good (cut F a s).2 names kw = good s names kw ∧
    bad (cut F a s).2 names kw = bad s names kw ∧
    selectCategory (cut F a s).2 kw = selectCategory s kw ∧
    categoryCodes (cut F a s).2 G = categoryCodes s G := by
  have ho := cut_only s F a
  exact ⟨(good_frame h.inv ho hne hn hk).1, (good_frame h.inv ho hne hn hk).2,
    select_frame h.inv ho hk, codes_frame h.inv ho hG⟩

/-- C02 for the other writers of a named field: `cut_categorical` and `cut_parameter`. -/
theorem cut_other_frame {s : Sys} (h : Reachable s) (F : String)
    (d : List (String × List Bool)) (data : List (Option Rat)) (al : Allowed)
    (names : List String) (kw : List (String × String)) (G : String)
    (hne : names ≠ []) (hn : F ∉ names) (hk : F ∉ kw.map Prod.fst) (hG : F ≠ G)
    (s' : Sys) (hs' : s' = (cutCategorical F d s).2 ∨ s' = (cutParameter data al F s).2) :
    good s' names kw = good s names kw ∧ bad s' names kw = bad s names kw ∧
    selectCategory s' kw = selectCategory s kw ∧ categoryCodes s' G = categoryCodes s G := by
  have ho : OnlyBits (maskOf s.grp F) s s' := by
    rcases hs' with rfl | rfl
    · exact cutCategorical_only s F d
    · exact cutParameter_only s data al F
  exact ⟨(good_frame h.inv ho hne hn hk).1, (good_frame h.inv ho hne hn hk).2,
    select_frame h.inv ho hk, codes_frame h.inv ho hG⟩

/-- first slot with a given name, when the slot number is given and the name is not repeated -/
theorem cutInt_frame_aux {s : Sys} (h : Inv s.grp) {n : Int} {b : String × Word}
    (hb : s.grp.bools[n.toNat]? = some b) (a : Arg) {names : List String}
    (hne : names ≠ []) (hn : b.1 ∉ names) (kw : List (String × String)) (G : String) :
    good (cutInt n a s).2 names kw = good s names kw ∧
    bad (cutInt n a s).2 names kw = bad s names kw ∧
    selectCategory (cutInt n a s).2 kw = selectCategory s kw ∧
    categoryCodes (cutInt n a s).2 G = categoryCodes s G := by
  have ho := cutInt_only s n a
  rw [hb] at ho
  simp only [Option.map_some, Option.getD_some] at ho
  have hslot : ∀ j, b.2.getLsbD j = true → j = n.toNat ∧ b.1 ≠ "" := by
    intro j hj
    rcases h.slots.slot _ b hb with e | ⟨hbn, e⟩
    · rw [e] at hj; simp at hj
    · rw [e, bit_lsb] at hj; simp at hj; exact ⟨hj.2, hbn⟩
  have hcat : ∀ c ∈ s.grp.cats, c.2 &&& b.2 = 0#32 := by
    intro c hc
    rw [and_eq_zero_iff]
    rintro j ⟨h1, h2⟩
    obtain ⟨rfl, hbn⟩ := hslot j h2
    exact h.slots.disj _ b hb hbn ⟨c, hc, h1⟩
  have hsel : selectCategory (cutInt n a s).2 kw = selectCategory s kw := by
    unfold selectCategory
    rw [ho.1]
    cases hl : selectLoop s.grp kw 0#32 0#32 with
    | error e => rfl
    | ok r =>
      obtain ⟨bm, tg⟩ := r
      simp only []
      congr 1
      apply ho.2.query (F := fun w => w == tg)
      rw [and_eq_zero_iff]
      rintro j ⟨h1, h2⟩
      rcases selectLoop_bits hl j h1 with h' | ⟨c, hc, _, hcj⟩
      · simp at h'
      · exact and_eq_zero_iff.mp (hcat c hc) j ⟨hcj, h2⟩
  have hdis : ∀ bm, boolMask s.grp names = .ok bm → bm &&& b.2 = 0#32 := by
    intro bm hbm
    rw [and_eq_zero_iff]
    rintro j ⟨h1, h2⟩
    obtain ⟨rfl, _⟩ := hslot j h2
    rw [boolMask_lsb h hbm] at h1
    obtain ⟨b', hb', _, hx | hx⟩ := h1
    · exact hne hx
    · rw [hb] at hb'; injection hb' with e; subst e; exact hn hx
  refine ⟨?_, ?_, hsel, ?_⟩
  · unfold good
    rw [hsel, ho.1]
    cases hbm : boolMask s.grp names with
    | error e => rfl
    | ok bm => simp only []; rw [ho.2.query (hdis bm hbm) (F := fun w => w == 0#32)]
  · unfold bad
    rw [hsel, ho.1]
    cases hbm : boolMask s.grp names with
    | error e => rfl
    | ok bm => simp only []; rw [ho.2.query (hdis bm hbm) (F := fun w => w != 0#32)]
  · unfold categoryCodes
    rw [ho.1]
    cases hl : s.grp.cats.find? (fun c => c.1 == G) with
    | none => rfl
    | some c =>
      simp only []
      congr 1
      exact ho.2.query (hcat c (List.mem_of_find?_eq_some hl)) (F := fun w => w >>> bitPos c.2)

/-- C02 for cutting by bit number: only the boolean field in that slot is affected. -/
theorem cutInt_frame {s : Sys} (h : Reachable s) (n : Int) (b : String × Word)
    (hb : s.grp.bools[n.toNat]? = some b) (a : Arg) (names : List String)
    (hne : names ≠ []) (hn : b.1 ∉ names) (kw : List (String × String)) (G : String) :
    good (cutInt n a s).2 names kw = good s names kw ∧
    bad (cutInt n a s).2 names kw = bad s names kw ∧
    selectCategory (cutInt n a s).2 kw = selectCategory s kw ∧
    categoryCodes (cutInt n a s).2 G = categoryCodes s G :=
  cutInt_frame_aux h.inv hb a hne hn kw G

-- a cut really happens and another field keeps a non-trivial answer
/-- [specification or instance] -/
def demo2 : Sys := Op.step (Op.step (demo 3) (.cut "energy" (.bools [true, false, true])))
  (.cut "state" (.codes [4096#32, 1#32, 0#32]))
example : bad demo2 ["energy"] = .ok [true, false, true] ∧
    categoryCodes demo2 "state" = .ok [4096#32, 1#32, 0#32] ∧
    bad (cut "mine" (.bools [true, true, false]) demo2).2 ["energy"] = .ok [true, false, true] ∧
    bad (cut "mine" (.bools [true, true, false]) demo2).2 ["mine"] = .ok [true, true, false] := by
  decide +kernel
example : (demo 3).grp.bools[(12 : Int).toNat]? = some ("energy", 4096#32) := by decide +kernel

/-! ### C03 -/

/-- C03: `good` is the pointwise negation of `bad`, for every list of names (and both raise for
the same inputs). -/
theorem good_eq_not_bad (s : Sys) (names : List String) :
    good s names = (bad s names).map (fun v => v.map (fun b => !b)) := by
  unfold good bad
  cases boolMask s.grp names with
  | error e => rfl
  | ok bm => simp [Except.map, Function.comp_def, bne]

/-- C03: queries succeed exactly on registered names, with one answer per pulse. -/
theorem bad_ok_iff (s : Sys) (names : List String) :
    (∃ v, bad s names = .ok v ∧ v.length = s.mask.length) ↔ ∀ n ∈ names, BoolField s n := by
  rw [show (∀ n ∈ names, BoolField s n) ↔ _ from boolMask_ok.symm]
  unfold bad
  cases boolMask s.grp names with
  | error e => simp
  | ok bm => simp

/-- C03: a pulse is bad for a set of fields iff it is bad for one of them. -/
theorem bad_iff_exists {s : Sys} (h : Reachable s) {names : List String} (hne : names ≠ [])
    {v : List Bool} (hv : bad s names = .ok v) (i : Nat) :
    v[i]? = some true ↔ ∃ n ∈ names, ∃ vn, bad s [n] = .ok vn ∧ vn[i]? = some true := by
  have hi := h.inv
  have hgen : ∀ (ns : List String) (bm : Word), boolMask s.grp ns = .ok bm →
      bad s ns = .ok (s.mask.map (fun w => w &&& bm != 0#32)) := by
    intro ns bm hb; unfold bad; rw [hb]; rfl
  have hex : ∃ bm, boolMask s.grp names = .ok bm := by
    unfold bad at hv
    cases hb : boolMask s.grp names with
    | error e => rw [hb] at hv; cases hv
    | ok bm => exact ⟨bm, rfl⟩
  obtain ⟨bm, hb⟩ := hex
  rw [hgen names bm hb] at hv
  injection hv with hv
  subst hv
  have hreg := boolMask_ok.mp ⟨bm, hb⟩
  have hget : ∀ m : Word, (s.mask.map (fun w => w &&& m != 0#32))[i]? = some true ↔
      ∃ w, s.mask[i]? = some w ∧ ∃ j, w.getLsbD j = true ∧ m.getLsbD j = true := by
    intro m
    rw [List.getElem?_map]
    cases s.mask[i]? with
    | none => simp
    | some w =>
      simp only [Option.map_some, Option.some.injEq, bne_iff_ne, exists_eq_left']
      rw [ne_zero_iff]
      simp
  rw [hget]
  constructor
  · rintro ⟨w, hw, j, h1, h2⟩
    rw [boolMask_lsb hi hb] at h2
    obtain ⟨b, hb1, hb2, hb3⟩ := h2
    have hb3 : b.1 ∈ names := by rcases hb3 with h' | h'; exact absurd h' hne; exact h'
    obtain ⟨bm', hb'⟩ := boolMask_ok (g := s.grp) (names := [b.1]) |>.mpr (by
      intro n hn; simp at hn; subst hn; exact hreg _ hb3)
    refine ⟨b.1, hb3, _, hgen _ _ hb', ?_⟩
    rw [hget]
    exact ⟨w, hw, j, h1, (boolMask_lsb hi hb' j).mpr ⟨b, hb1, hb2, Or.inr (by simp)⟩⟩
  · rintro ⟨n, hn, vn, hvn, hi'⟩
    obtain ⟨bm', hb'⟩ := boolMask_ok (g := s.grp) (names := [n]) |>.mpr (by
      intro m hm; simp at hm; subst hm; exact hreg _ hn)
    rw [hgen _ _ hb'] at hvn
    injection hvn with hvn
    subst hvn
    rw [hget] at hi'
    obtain ⟨w, hw, j, h1, h2⟩ := hi'
    refine ⟨w, hw, j, h1, ?_⟩
    rw [boolMask_lsb hi hb'] at h2
    obtain ⟨b, hb1, hb2, hb3⟩ := h2
    refine (boolMask_lsb hi hb j).mpr ⟨b, hb1, hb2, Or.inr ?_⟩
    simp at hb3
    rw [hb3]; exact hn

theorem maskOf_sub_boolMask {g : Group} (hi : Inv g) {F : String} {bm : Word}
    (hm : boolMask g [F] = .ok bm) : ∀ j, (maskOf g F).getLsbD j = true → bm.getLsbD j = true := by
  have hF := boolMask_ok.mp ⟨bm, hm⟩ F (by simp)
  intro j hj
  rw [boolMask_lsb hi hm]
  rcases maskOf_lsb hi hj with ⟨b, hb, hbF, hne⟩ | ⟨c, hc, hcF, hcj⟩
  · exact ⟨b, hb, hbF ▸ hne, Or.inr (by simp [hbF])⟩
  · exfalso
    obtain ⟨i, b, hb, hbF⟩ := mem_map_fst_iff.mp hF.2
    unfold maskOf at hj
    cases hf : g.bools.find? (fun b => b.1 == F) with
    | none =>
      rw [List.find?_eq_none] at hf
      have := hf b (List.mem_of_getElem? hb)
      simp [hbF] at this
    | some b' =>
      rw [hf] at hj
      have hb'F : b'.1 = F := by simpa using List.find?_some hf
      obtain ⟨i', hi'⟩ := List.getElem?_of_mem (List.mem_of_find?_eq_some hf)
      rcases hi.slots.slot i' b' hi' with e | ⟨hbn, e⟩
      · rw [e] at hj; simp at hj
      · simp only [] at hj
        rw [e, bit_lsb] at hj
        simp at hj
        rw [hj.2] at hcj
        exact hi.slots.disj i' b' hi' hbn ⟨c, hc, hcj⟩

theorem maskOf_ne_zero {g : Group} (hi : Inv g) {F : String} (hne : F ≠ "")
    (hF : F ∈ g.bools.map Prod.fst) : maskOf g F ≠ 0#32 := by
  obtain ⟨i, b, hb, hbF⟩ := mem_map_fst_iff.mp hF
  unfold maskOf
  cases hf : g.bools.find? (fun b => b.1 == F) with
  | none =>
    rw [List.find?_eq_none] at hf
    have := hf b (List.mem_of_getElem? hb)
    simp [hbF] at this
  | some b' =>
    simp only []
    have hb'F : b'.1 = F := by simpa using List.find?_some hf
    obtain ⟨i', hi'⟩ := List.getElem?_of_mem (List.mem_of_find?_eq_some hf)
    rcases hi.slots.slot i' b' hi' with e | ⟨hbn, e⟩
    · rw [e] at hb'F; exact absurd hb'F.symm hne
    · rw [e, ne_zero_iff]
      have := (List.getElem?_eq_some_iff.mp hi').1
      rw [hi.slots.len] at this
      exact ⟨i', by rw [bit_lsb]; simp [this]⟩

theorem cut_bool_run {s : Sys} {F : String} {m : List Bool} (hF : F ∈ s.grp.bools.map Prod.fst)
    (hm : m.length = s.mask.length) :
    cut F (.bools m) s = (.ok (), Sys.mk s.grp
      (List.zipWith (fun w (b : Bool) => if b then w ||| maskOf s.grp F else w) s.mask m)) := by
  rw [cut_run]
  unfold cutWords
  have : ¬ ((Arg.bools m).size ≠ s.mask.length) := by simp [Arg.size, hm]
  simp only [this, if_false]
  cases hf : s.grp.bools.find? (fun b => b.1 == F) with
  | none =>
    rw [List.find?_eq_none] at hf
    obtain ⟨b, hb1, hb2⟩ := List.mem_map.mp hF
    have := hf b hb1
    simp [hb2] at this
  | some b =>
    simp only [orAt]
    unfold maskOf
    rw [hf]

/-- C03: cutting a boolean field ORs the given vector into `bad(F)`, pulse by pulse. -/
theorem cut_bool_accumulates {s : Sys} (h : Reachable s) {F : String} (hF : BoolField s F)
    {m : List Bool} (hm : m.length = s.mask.length) {old : List Bool} (hold : bad s [F] = .ok old) :
    (cut F (.bools m) s).1 = .ok () ∧
    bad (cut F (.bools m) s).2 [F] = .ok (List.zipWith (· || ·) old m) := by
  have hi := h.inv
  rw [cut_bool_run hF.2 hm]
  refine ⟨rfl, ?_⟩
  unfold bad at hold ⊢
  cases hb : boolMask s.grp [F] with
  | error e => rw [hb] at hold; cases hold
  | ok bm =>
    rw [hb] at hold
    simp only [if_true] at hold
    injection hold with hold
    subst hold
    simp only [if_true, hb]
    congr 1
    have hsub := maskOf_sub_boolMask hi hb
    have hnz := maskOf_ne_zero hi hF.1 hF.2
    apply List.ext_getElem?
    intro i
    simp only [List.getElem?_map, List.getElem?_zipWith]
    cases s.mask[i]? with
    | none => cases m[i]? <;> simp
    | some w =>
      cases m[i]? with
      | none => simp
      | some b =>
        simp only [Option.map_some]
        congr 1
        cases b with
        | false => simp
        | true =>
          simp only [if_true, Bool.or_true, bne_iff_ne]
          rw [ne_zero_iff]
          obtain ⟨j, hj⟩ := ne_zero_iff.mp hnz
          exact ⟨j, by rw [BitVec.getLsbD_and, BitVec.getLsbD_or, hj, hsub j hj]; simp⟩

-- the hypotheses hold for a state that already has some pulses cut
example : BoolField demo2 "energy" ∧ bad demo2 ["energy"] = .ok [true, false, true] ∧
    bad (cut "energy" (.bools [false, true, true]) demo2).2 ["energy"] = .ok [true, true, true] ∧
    good demo2 ["energy", "mine"] = .ok [false, true, false] := by decide +kernel

/-! ### C04 -/

/-- C04: `clear_cut(names)` makes every pulse good for each named field, and leaves every field not
named, and every categorical field, as it was. -/
theorem clear_cut_exact {s : Sys} (h : Reachable s) {names : List String} (hne : names ≠ [])
    (hreg : ∀ n ∈ names, BoolField s n) :
    (clearCut names s).1 = .ok () ∧
    (∀ n ∈ names, good (clearCut names s).2 [n] = .ok (s.mask.map (fun _ => true))) ∧
    (∀ G, G ∉ names → bad (clearCut names s).2 [G] = bad s [G]) ∧
    (∀ G, categoryCodes (clearCut names s).2 G = categoryCodes s G) ∧
    (∀ kw, selectCategory (clearCut names s).2 kw = selectCategory s kw) := by
  have hi := h.inv
  obtain ⟨bm, hbm⟩ := boolMask_ok.mpr hreg
  have ho := clearCut_only s names hbm
  have hcat : ∀ c ∈ s.grp.cats, c.2 &&& bm = 0#32 := by
    intro c hc
    rw [and_eq_zero_iff]
    rintro j ⟨h1, h2⟩
    rw [boolMask_lsb hi hbm] at h2
    obtain ⟨b, hb1, hb2, _⟩ := h2
    exact hi.slots.disj j b hb1 hb2 ⟨c, hc, h1⟩
  refine ⟨by rw [clearCut_run, hbm], ?_, ?_, ?_, ?_⟩
  · intro n hn
    obtain ⟨bn, hbn⟩ := boolMask_ok (g := s.grp) (names := [n]) |>.mpr (by
      intro m hm; simp at hm; subst hm; exact hreg _ hn)
    unfold good
    rw [ho.1, hbn]
    simp only [if_true]
    congr 1
    rw [clearCut_run, hbm]
    simp only [List.map_map]
    apply List.map_congr_left
    intro w _
    simp only [Function.comp, beq_iff_eq]
    rw [and_eq_zero_iff]
    rintro j ⟨h1, h2⟩
    rw [boolMask_lsb hi hbn] at h2
    obtain ⟨b, hb1, hb2, hb3⟩ := h2
    have : bm.getLsbD j = true := (boolMask_lsb hi hbm j).mpr ⟨b, hb1, hb2, Or.inr (by
      simp at hb3; rw [hb3]; exact hn)⟩
    rw [and_not_lsb, this] at h1
    simp at h1
  · intro G hG
    unfold bad
    rw [ho.1]
    cases hb : boolMask s.grp [G] with
    | error e => rfl
    | ok bg =>
      simp only [if_true]
      congr 1
      apply ho.2.query (F := fun w => w != 0#32)
      rw [and_eq_zero_iff]
      rintro j ⟨h1, h2⟩
      rw [boolMask_lsb hi hb] at h1
      rw [boolMask_lsb hi hbm] at h2
      obtain ⟨b, hb1, hb2, hb3⟩ := h1
      obtain ⟨b', hb1', hb2', hb3'⟩ := h2
      rw [hb1] at hb1'
      injection hb1' with e
      subst e
      simp at hb3
      rcases hb3' with h' | h'
      · exact hne h'
      · exact hG (hb3 ▸ h')
  · intro G
    unfold categoryCodes
    rw [ho.1]
    cases hl : s.grp.cats.find? (fun c => c.1 == G) with
    | none => rfl
    | some c =>
      simp only []
      congr 1
      exact ho.2.query (hcat c (List.mem_of_find?_eq_some hl)) (F := fun w => w >>> bitPos c.2)
  · intro kw
    unfold selectCategory
    rw [ho.1]
    cases hl : selectLoop s.grp kw 0#32 0#32 with
    | error e => rfl
    | ok r =>
      obtain ⟨b, tg⟩ := r
      simp only []
      congr 1
      apply ho.2.query (F := fun w => w == tg)
      rw [and_eq_zero_iff]
      rintro j ⟨h1, h2⟩
      rcases selectLoop_bits hl j h1 with h' | ⟨c, hc, _, hcj⟩
      · simp at h'
      · exact and_eq_zero_iff.mp (hcat c hc) j ⟨hcj, h2⟩

/-- C04: `clear_cut()` clears every boolean field and touches no categorical field; an unknown name
raises and changes nothing. -/
theorem clear_cut_all {s : Sys} (h : Reachable s) :
    (clearCut [] s).1 = .ok () ∧
    (∀ n, BoolField s n → good (clearCut [] s).2 [n] = .ok (s.mask.map (fun _ => true))) ∧
    (∀ G, categoryCodes (clearCut [] s).2 G = categoryCodes s G) := by
  have hi := h.inv
  obtain ⟨bm, hbm⟩ := boolMask_ok (g := s.grp) (names := []) |>.mpr (by simp)
  have ho := clearCut_only s [] hbm
  refine ⟨by rw [clearCut_run, hbm], ?_, ?_⟩
  · intro n hn
    obtain ⟨bn, hbn⟩ := boolMask_ok (g := s.grp) (names := [n]) |>.mpr (by
      intro m hm; simp at hm; subst hm; exact hn)
    unfold good
    rw [ho.1, hbn]
    simp only [if_true]
    congr 1
    rw [clearCut_run, hbm]
    simp only [List.map_map]
    apply List.map_congr_left
    intro w _
    simp only [Function.comp, beq_iff_eq]
    rw [and_eq_zero_iff]
    rintro j ⟨h1, h2⟩
    rw [boolMask_lsb hi hbn] at h2
    obtain ⟨b, hb1, hb2, hb3⟩ := h2
    have : bm.getLsbD j = true := (boolMask_lsb hi hbm j).mpr ⟨b, hb1, hb2, Or.inl rfl⟩
    rw [and_not_lsb, this] at h1
    simp at h1
  · intro G
    unfold categoryCodes
    rw [ho.1]
    cases hl : s.grp.cats.find? (fun c => c.1 == G) with
    | none => rfl
    | some c =>
      simp only []
      congr 1
      refine ho.2.query (q := c.2) ?_ (F := fun w => w >>> bitPos c.2)
      rw [and_eq_zero_iff]
      rintro j ⟨h1, h2⟩
      rw [boolMask_lsb hi hbm] at h2
      obtain ⟨b, hb1, hb2, _⟩ := h2
      exact hi.slots.disj j b hb1 hb2 ⟨c, List.mem_of_find?_eq_some hl, h1⟩

/-- C04: with an unregistered name `clear_cut` raises ValueError and changes nothing. -/
theorem clear_cut_unknown (s : Sys) {names : List String} (h : ∃ n ∈ names, ¬ BoolField s n) :
    clearCut names s = (.error .value, s) := by
  rw [clearCut_run]
  cases hb : boolMask s.grp names with
  | error e => rw [boolMask_err hb]
  | ok bm =>
    obtain ⟨n, hn, hnot⟩ := h
    exact absurd (boolMask_ok.mp ⟨bm, hb⟩ n hn) hnot

example : (clearCut ["energy"] demo2).1 = .ok () ∧ good (clearCut ["energy"] demo2).2 ["energy"] = .ok [true, true, true]
    ∧ categoryCodes (clearCut ["energy"] demo2).2 "state" = .ok [4096#32, 1#32, 0#32] := by decide +kernel
example : clearCut ["energy", "zz"] demo2 = (.error .value, demo2) := by decide +kernel

end Mass.Cut
