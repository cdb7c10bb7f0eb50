import Verif.Cut.Props
/-! Property theorems C05 (categorical round trip), C06 (atomic failure, success conditions),
C07 (fresh fields), C08 (cut_parameter). -/
namespace Mass.Cut

/-! ### C05 helpers -/

theorem nodup_fst_inj {α β} {l : List (α × β)} (h : (l.map Prod.fst).Nodup) {a b : α × β}
    (ha : a ∈ l) (hb : b ∈ l) (hab : a.1 = b.1) : a = b := by
  induction l with
  | nil => simp at ha
  | cons x xs ih =>
    simp only [List.map_cons, List.nodup_cons] at h
    rcases List.mem_cons.mp ha with rfl | ha' <;> rcases List.mem_cons.mp hb with rfl | hb'
    · rfl
    · exact absurd (hab ▸ List.mem_map_of_mem hb') h.1
    · exact absurd (hab ▸ List.mem_map_of_mem ha') h.1
    · exact ih h.2 ha' hb'

theorem nodup_snd_inj {α β} {l : List (α × β)} (h : (l.map Prod.snd).Nodup) {a b : α × β}
    (ha : a ∈ l) (hb : b ∈ l) (hab : a.2 = b.2) : a = b := by
  induction l with
  | nil => simp at ha
  | cons x xs ih =>
    simp only [List.map_cons, List.nodup_cons] at h
    rcases List.mem_cons.mp ha with rfl | ha' <;> rcases List.mem_cons.mp hb with rfl | hb'
    · rfl
    · exact absurd (hab ▸ List.mem_map_of_mem hb') h.1
    · exact absurd (hab ▸ List.mem_map_of_mem ha') h.1
    · exact ih h.2 ha' hb'

theorem mem_entries {g : Group} {F c : String} {k : Word} :
    (c, k) ∈ entries g F ↔ (F, c, k) ∈ g.catList := by
  unfold entries
  simp only [List.mem_map, List.mem_filter, beq_iff_eq]
  constructor
  · rintro ⟨⟨f, e⟩, ⟨h1, rfl⟩, rfl⟩; exact h1
  · intro h; exact ⟨(F, c, k), ⟨h, rfl⟩, rfl⟩

theorem catField_get {g : Group} {F : String} (h : F ∈ g.cats.map Prod.fst) :
    ∃ c, g.cats.find? (fun c => c.1 == F) = some c ∧ c ∈ g.cats ∧ c.1 = F := by
  cases hf : g.cats.find? (fun c => c.1 == F) with
  | none =>
    rw [List.find?_eq_none] at hf
    obtain ⟨c, hc, hcF⟩ := List.mem_map.mp h
    have := hf c hc
    simp [hcF] at this
  | some c => exact ⟨c, rfl, List.mem_of_find?_eq_some hf, by simpa using List.find?_some hf⟩

theorem listed_unique {g : Group} (h : Inv g) {F c : String} {k k' : Word}
    (h1 : (F, c, k) ∈ g.catList) (h2 : (F, c, k') ∈ g.catList) : k = k' := by
  have hF : F ∈ g.cats.map Prod.fst := h.listed _ h1
  obtain ⟨f, _, hf, rfl⟩ := catField_get hF
  have := nodup_fst_inj (h.field f hf).catNodup (mem_entries.mpr h1) (mem_entries.mpr h2) rfl
  injection this

theorem fieldCode_eq {g : Group} (h : Inv g) {F c : String} {k : Word} :
    fieldCode g F c = some k ↔ (F, c, k) ∈ g.catList := by
  unfold fieldCode
  constructor
  · intro hh
    cases hl : (g.catList.filter (fun e => e.1 == F && e.2.1 == c)).getLast? with
    | none => rw [hl] at hh; cases hh
    | some e =>
      rw [hl] at hh
      simp only [Option.map_some, Option.some.injEq] at hh
      have := List.mem_of_getLast? hl
      rw [List.mem_filter] at this
      obtain ⟨h1, h2⟩ := this
      simp only [Bool.and_eq_true, beq_iff_eq] at h2
      obtain ⟨e1, e2, e3⟩ := e
      simp only at h2 hh
      rw [← h2.1, ← h2.2, ← hh]; exact h1
  · intro hm
    cases hl : (g.catList.filter (fun e => e.1 == F && e.2.1 == c)).getLast? with
    | none =>
      rw [List.getLast?_eq_none_iff, List.filter_eq_nil_iff] at hl
      have := hl _ hm
      simp at this
    | some e =>
      have := List.mem_of_getLast? hl
      rw [List.mem_filter] at this
      obtain ⟨h1, h2⟩ := this
      simp only [Bool.and_eq_true, beq_iff_eq] at h2
      obtain ⟨e1, e2, e3⟩ := e
      simp only at h2
      obtain ⟨rfl, rfl⟩ := h2
      simp [listed_unique h h1 hm]

theorem find_listed {g : Group} (h : Inv g) {F c : String} {k : Word} (hm : (F, c, k) ∈ g.catList) :
    g.catList.find? (fun e => e.1 == F && e.2.1 == c) = some (F, c, k) := by
  cases hl : g.catList.find? (fun e => e.1 == F && e.2.1 == c) with
  | none =>
    rw [List.find?_eq_none] at hl
    have := hl _ hm
    simp at this
  | some e =>
    have h1 := List.mem_of_find?_eq_some hl
    have h2 := List.find?_some hl
    simp only [Bool.and_eq_true, beq_iff_eq] at h2
    obtain ⟨e1, e2, e3⟩ := e
    simp only at h2
    obtain ⟨rfl, rfl⟩ := h2
    rw [listed_unique h h1 hm]

theorem labelLoop_spec {g : Group} {F : String} {n : Nat} {d : List (String × List Bool)}
    (hlen : ∀ cb ∈ d, cb.2.length = n) (hcat : ∀ cb ∈ d, ∃ k, fieldCode g F cb.1 = some k)
    {ls0 : List Word} (h0 : ls0.length = n) :
    ∃ ls, labelLoop g F d ls0 = .ok ls ∧ ls.length = n ∧
      ∀ i, i < n → (((∀ cb ∈ d, cb.2[i]? ≠ some true) ∧ ls[i]? = ls0[i]?) ∨
        ∃ cb ∈ d, cb.2[i]? = some true ∧ ls[i]? = fieldCode g F cb.1) := by
  induction d generalizing ls0 with
  | nil => exact ⟨ls0, rfl, h0, fun i _ => Or.inl ⟨by simp, rfl⟩⟩
  | cons x xs ih =>
    obtain ⟨c, b⟩ := x
    obtain ⟨k, hk⟩ := hcat (c, b) (by simp)
    have hb : b.length = n := hlen (c, b) (by simp)
    simp only [labelLoop, hk, assignLabels]
    simp only [] at hk
    rw [if_pos (by rw [hb, h0])]
    simp only []
    obtain ⟨ls, h1, h2, h3⟩ := ih (fun cb hcb => hlen cb (by simp [hcb]))
      (fun cb hcb => hcat cb (by simp [hcb]))
      (ls0 := List.zipWith (fun l (x : Bool) => if x then k else l) ls0 b) (by simp [h0, hb])
    refine ⟨ls, h1, h2, fun i hi => ?_⟩
    rcases h3 i hi with ⟨h4, h5⟩ | ⟨cb, hcb, h4, h5⟩
    · rw [List.getElem?_zipWith] at h5
      have hbi : b[i]? = some b[i] := List.getElem?_eq_getElem (by omega)
      have hli : ls0[i]? = some ls0[i] := List.getElem?_eq_getElem (by omega)
      rw [hbi, hli] at h5
      cases hbv : b[i] with
      | true =>
        right
        exact ⟨(c, b), by simp, by rw [hbi, hbv], by rw [h5, hk, hbv]; rfl⟩
      | false =>
        left
        refine ⟨?_, by rw [h5, hli, hbv]; rfl⟩
        intro cb hcb
        rcases List.mem_cons.mp hcb with rfl | hcb
        · simp only [hbi, hbv]; simp
        · exact h4 cb hcb
    · exact Or.inr ⟨cb, by simp [hcb], h4, h5⟩

theorem labelsConsistent_iff {g : Group} {F : String} {n : Nat} {d : List (String × List Bool)}
    (hlen : ∀ cb ∈ d, cb.2.length = n) (hcat : ∀ cb ∈ d, ∃ k, fieldCode g F cb.1 = some k)
    {ls : List Word} (h0 : ls.length = n) :
    labelsConsistent g F d ls = true ↔
      ∀ cb ∈ d, ∀ i : Nat, cb.2[i]? = some true → ls[i]? = fieldCode g F cb.1 := by
  unfold labelsConsistent
  rw [List.all_eq_true]
  apply forall_congr'; intro cb
  apply imp_congr_right; intro hcb
  obtain ⟨k, hk⟩ := hcat cb hcb
  have hb := hlen cb hcb
  rw [hk]
  simp only [List.all_eq_true, List.mem_iff_getElem?, id]
  constructor
  · intro h i hi
    have hi' : i < ls.length := by
      have := (List.getElem?_eq_some_iff.mp hi).1; omega
    have := h (!true || ls[i] == k) ⟨i, by
      rw [List.getElem?_zipWith, List.getElem?_eq_getElem hi', hi]⟩
    simp at this
    rw [List.getElem?_eq_getElem hi', this]
  · rintro h v ⟨i, hv⟩
    rw [List.getElem?_zipWith] at hv
    cases hl : ls[i]? with
    | none => rw [hl] at hv; simp at hv
    | some l =>
      cases hx : cb.2[i]? with
      | none => rw [hl, hx] at hv; simp at hv
      | some x =>
        rw [hl, hx] at hv
        simp only [Option.some.injEq] at hv
        subst hv
        cases x with
        | false => rfl
        | true =>
          have := h i hx
          rw [hl] at this
          simp at this
          simp [this]

/-! ### C05 statements -/

/-- `c` is a category of field `F` with code `k` (a row of the public `cut_category_list`). [specification] -/
def Listed (s : Sys) (F c : String) (k : Word) : Prop := (F, c, k) ∈ s.grp.catList
instance (s F c k) : Decidable (Listed s F c k) := by unfold Listed; infer_instance

/-- first category listed for the field [specification] -/
def defaultCategory (s : Sys) (F : String) : Option String :=
  ((s.grp.catList.filter (fun e => e.1 == F)).head?).map (fun e => e.2.1)

/-- The category that a dict of boolean vectors gives to pulse `i`: the key whose vector flags it,
otherwise the default. [specification] -/
def assigned (d : List (String × List Bool)) (dflt : String) (i : Nat) : String :=
  match d.find? (fun cb => cb.2[i]? == some true) with
  | some cb => cb.1
  | none => dflt

/-- C05: within a field, every category has one code and different categories have different codes;
the default category has code 0. -/
theorem category_codes_injective {s : Sys} (h : Reachable s) {F c c' : String} {k k' : Word}
    (h1 : Listed s F c k) (h2 : Listed s F c' k') : k = k' ↔ c = c' := by
  have hi := h.inv
  constructor
  · rintro rfl
    have hF : F ∈ s.grp.cats.map Prod.fst := hi.listed _ h1
    obtain ⟨f, _, hf, rfl⟩ := catField_get hF
    have := nodup_snd_inj (hi.field f hf).codeNodup (mem_entries.mpr h1) (mem_entries.mpr h2) rfl
    injection this
  · rintro rfl
    exact listed_unique hi h1 h2

theorem default_code {s : Sys} (h : Inv s.grp) {F dflt : String}
    (hd : defaultCategory s F = some dflt) : Listed s F dflt 0#32 := by
  unfold defaultCategory at hd
  cases hh : (s.grp.catList.filter (fun e => e.1 == F)).head? with
  | none => rw [hh] at hd; cases hd
  | some e =>
    rw [hh] at hd
    simp only [Option.map_some, Option.some.injEq] at hd
    have hm := List.mem_of_head? hh
    rw [List.mem_filter] at hm
    have heF : e.1 = F := by simpa using hm.2
    have hF : F ∈ s.grp.cats.map Prod.fst := heF ▸ h.listed _ hm.1
    obtain ⟨f, _, hf, rfl⟩ := catField_get hF
    have h0 := (h.field f hf).dflt
    unfold entries at h0
    rw [List.head?_map, hh] at h0
    simp at h0
    obtain ⟨e1, e2, e3⟩ := e
    simp only at h0 hd heF hm
    subst hd heF h0
    exact hm.1

/-- C05: every registered categorical field has a default category, whose code is 0. -/
theorem default_category_code {s : Sys} (h : Reachable s) {F : String} (hF : CatField s F) :
    ∃ dflt, defaultCategory s F = some dflt ∧ Listed s F dflt 0#32 := by
  obtain ⟨f, _, hf, rfl⟩ := catField_get hF
  have h0 := (h.inv.field f hf).dflt
  unfold entries at h0
  rw [List.head?_map] at h0
  cases hh : (s.grp.catList.filter (fun e => e.1 == f.1)).head? with
  | none => rw [hh] at h0; simp at h0
  | some e =>
    have : defaultCategory s f.1 = some e.2.1 := by unfold defaultCategory; rw [hh]; rfl
    exact ⟨_, this, default_code h.inv this⟩

/-- Code vector after writing labels to a categorical field. -/
theorem cut_codes_run {s : Sys} (h : Inv s.grp) {F : String} {ls : List Word}
    (hF : F ∈ s.grp.cats.map Prod.fst) (hnb : F ∉ s.grp.bools.map Prod.fst)
    (hlen : ls.length = s.mask.length) (hls : ∀ k ∈ ls, ∃ c, (F, c, k) ∈ s.grp.catList) :
    (cut F (.codes ls) s).1 = .ok () ∧
    categoryCodes (cut F (.codes ls) s).2 F = .ok ls ∧
    ∀ c k, (F, c, k) ∈ s.grp.catList →
      selectCategory (cut F (.codes ls) s).2 [(F, c)] = .ok (ls.map (fun l => l == k)) := by
  obtain ⟨f, hfind, hf, rfl⟩ := catField_get hF
  have hfo := h.field f hf
  have hb : s.grp.bools.find? (fun b => b.1 == f.1) = none := by
    rw [List.find?_eq_none]
    intro b hb hbF
    exact hnb (List.mem_map.mpr ⟨b, hb, by simpa using hbF⟩)
  have hrun : cut f.1 (.codes ls) s = (.ok (), Sys.mk s.grp
      (List.zipWith (fun t v => t ||| (v &&& f.2)) (s.mask.map (fun w => w &&& ~~~ f.2))
          (ls.map (fun (v : Word) => v <<< bitPos f.2)))) := by
    rw [cut_run]
    unfold cutWords
    have : ¬ ((Arg.codes ls).size ≠ s.mask.length) := by simp [Arg.size, hlen]
    simp only [this, if_false, hb, hfind, Arg.toCodes]
  -- the field bits of the new words
  have hword : ∀ (G : Word → Bool) , (List.zipWith (fun t v => t ||| (v &&& f.2))
      (s.mask.map (fun w => w &&& ~~~ f.2)) (ls.map (fun (v : Word) => v <<< bitPos f.2))).map
        (fun w => w &&& f.2) = ls.map (fun (v : Word) => v <<< bitPos f.2) := by
    intro _
    apply List.ext_getElem?
    intro i
    rw [List.getElem?_map, List.getElem?_zipWith, List.getElem?_map, List.getElem?_map]
    rcases Nat.lt_or_ge i ls.length with hi | hi
    · rw [List.getElem?_eq_getElem hi, List.getElem?_eq_getElem (by omega : i < s.mask.length)]
      simp only [Option.map_some]
      congr 1
      obtain ⟨c, hc⟩ := hls ls[i] (List.getElem_mem hi)
      have hfit := hfo.fits _ (mem_entries.mpr hc)
      simp only at hfit
      rw [hfit]
      apply ext_lsb
      intro j hj
      rw [BitVec.getLsbD_and, BitVec.getLsbD_or, and_not_lsb]
      have hj2 : (ls[i] <<< bitPos f.2).getLsbD j
          = ((ls[i] <<< bitPos f.2).getLsbD j && f.2.getLsbD j) := by
        rw [← BitVec.getLsbD_and, hfit]
      rw [hj2]
      cases f.2.getLsbD j <;> simp
    · rw [List.getElem?_eq_none hi, List.getElem?_eq_none (by omega)]; rfl
  have hback : ∀ k ∈ ls, (k <<< bitPos f.2) >>> bitPos f.2 = k := by
    intro k hk
    obtain ⟨c, hc⟩ := hls k hk
    exact hfo.back _ (mem_entries.mpr hc)
  rw [hrun]
  refine ⟨rfl, ?_, ?_⟩
  · unfold categoryCodes
    simp only [hfind]
    congr 1
    have := congrArg (fun (l : List Word) => l.map (fun (w : Word) => w >>> bitPos f.2)) (hword (fun _ => true))
    simp only [List.map_map] at this
    have h2 : (ls.map ((fun (w : Word) => w >>> bitPos f.2) ∘ (fun (v : Word) => v <<< bitPos f.2))) = ls := by
      conv => rhs; rw [← List.map_id ls]
      apply List.map_congr_left
      intro k hk
      exact hback k hk
    rw [h2] at this
    exact this
  · intro c k hk
    unfold selectCategory
    simp only [selectLoop, hfind, find_listed h hk]
    congr 1
    have hz : ∀ x : Word, 0#32 ||| x = x := by intro x; simp
    rw [hz, hz]
    have := congrArg (fun (l : List Word) => l.map (fun (w : Word) => w == k <<< bitPos f.2)) (hword (fun _ => true))
    simp only [List.map_map] at this
    refine Eq.trans this ?_
    apply List.map_congr_left
    intro l hl
    simp only [Function.comp]
    rw [Bool.eq_iff_iff, beq_iff_eq, beq_iff_eq]
    constructor
    · intro e
      have : (l <<< bitPos f.2) >>> bitPos f.2 = (k <<< bitPos f.2) >>> bitPos f.2 :=
        congrArg (fun (w : Word) => w >>> bitPos f.2) e
      rw [hback l hl, hfo.back _ (mem_entries.mpr hk)] at this
      exact this
    · rintro rfl; rfl

/-- C05: a boolean vector given to `cut` for a categorical field puts the flagged pulses into the category of code 1 and all others into the
category of code 0 (the default). -/
theorem cut_bools_category {s : Sys} (h : Reachable s) {F : String} (hF : CatField s F) (hnb : F ∉ s.grp.bools.map Prod.fst)
    {b : List Bool} (hlen : b.length = s.mask.length) {c0 c1 : String} (h0 : Listed s F c0 0#32) (h1 : Listed s F c1 1#32) :
    (cut F (.bools b) s).1 = .ok () ∧ selectCategory (cut F (.bools b) s).2 [(F, c1)] = .ok b ∧
    selectCategory (cut F (.bools b) s).2 [(F, c0)] = .ok (b.map (fun x => !x)) := by
  have hb : s.grp.bools.find? (fun b => b.1 == F) = none := by
    rw [List.find?_eq_none]
    intro b hb hbF
    exact hnb (List.mem_map.mpr ⟨b, hb, by simpa using hbF⟩)
  have he : cut F (.bools b) s = cut F (.codes (b.map (fun x => if x then 1#32 else 0#32))) s := by
    rw [cut_run, cut_run]
    unfold cutWords
    simp only [hb, Arg.toCodes, Arg.size, List.length_map]
  rw [he]
  obtain ⟨r1, -, r3⟩ := cut_codes_run h.inv (F := F) (ls := b.map (fun x => if x then 1#32 else 0#32)) hF hnb (by simpa using hlen)
    (by
      intro k hk
      obtain ⟨x, -, rfl⟩ := List.mem_map.mp hk
      cases x
      · exact ⟨c0, h0⟩
      · exact ⟨c1, h1⟩)
  refine ⟨r1, ?_, ?_⟩
  · rw [r3 c1 _ h1, List.map_map]
    congr 1
    conv => rhs; rw [← List.map_id b]
    apply List.map_congr_left
    intro x _
    cases x <;> decide
  · rw [r3 c0 _ h0, List.map_map]
    congr 1
    apply List.map_congr_left
    intro x _
    cases x <;> decide

example :
    let s := Op.step (initial 3) (.regCat "x" ["a", "b"] "a")
    Reachable s ∧ CatField s "x" ∧ Listed s "x" "a" 0#32 ∧ Listed s "x" "b" 1#32 ∧
    selectCategory (cut "x" (.bools [true, false, true]) s).2 [("x", "b")] = .ok [true, false, true] := by
  refine ⟨.step _ (.init 3), ?_⟩
  decide +kernel

/-- C05: after `cut_categorical(F, d)` with known categories, right lengths and no pulse in two
different categories, `select_category(F=c)` returns exactly the pulses assigned to `c` (default
category for pulses flagged by no key) and `category_codes(F)` gives the listed code of each pulse's
category. (A boolean field with the same name must not exist; see `cut_categorical_shadowed_fails`.) -/
theorem cut_categorical_roundtrip {s : Sys} (h : Reachable s) {F dflt : String}
    (hF : CatField s F) (hnb : F ∉ s.grp.bools.map Prod.fst)
    (hd : defaultCategory s F = some dflt) {d : List (String × List Bool)}
    (hlen : ∀ cb ∈ d, cb.2.length = s.mask.length)
    (hcat : ∀ cb ∈ d, ∃ k, Listed s F cb.1 k)
    (hdisj : ∀ cb ∈ d, ∀ cb' ∈ d, ∀ i : Nat, cb.2[i]? = some true → cb'.2[i]? = some true → cb.1 = cb'.1) :
    (cutCategorical F d s).1 = .ok () ∧
    (∀ c k, Listed s F c k → selectCategory (cutCategorical F d s).2 [(F, c)] =
      .ok ((List.range s.mask.length).map (fun i => decide (assigned d dflt i = c)))) ∧
    (∃ codes, categoryCodes (cutCategorical F d s).2 F = .ok codes ∧ codes.length = s.mask.length ∧
      ∀ (i : Nat) k, codes[i]? = some k → Listed s F (assigned d dflt i) k) := by
  have hi := h.inv
  have hcat' : ∀ cb ∈ d, ∃ k, fieldCode s.grp F cb.1 = some k := by
    intro cb hcb
    obtain ⟨k, hk⟩ := hcat cb hcb
    exact ⟨k, (fieldCode_eq hi).mpr hk⟩
  obtain ⟨ls, hl1, hl2, hl3⟩ := labelLoop_spec hlen hcat'
    (ls0 := List.replicate s.mask.length 0#32) (by simp)
  have hdf := default_code hi hd
  -- every label is the code of the assigned category
  have hlab : ∀ i, i < s.mask.length → ∃ k, ls[i]? = some k ∧ Listed s F (assigned d dflt i) k := by
    intro i hin
    unfold assigned
    rcases hl3 i hin with ⟨h1, h2⟩ | ⟨cb, hcb, h1, h2⟩
    · have : d.find? (fun cb => cb.2[i]? == some true) = none := by
        rw [List.find?_eq_none]
        intro cb hcb hx
        exact h1 cb hcb (by simpa using hx)
      rw [this]
      refine ⟨0#32, ?_, hdf⟩
      rw [h2, List.getElem?_replicate, if_pos hin]
    · obtain ⟨k, hk⟩ := hcat' cb hcb
      refine ⟨k, by rw [h2, hk], ?_⟩
      cases hfnd : d.find? (fun cb => cb.2[i]? == some true) with
      | none =>
        rw [List.find?_eq_none] at hfnd
        exact absurd (by simp [h1]) (hfnd cb hcb)
      | some cb' =>
        have hcb' := List.mem_of_find?_eq_some hfnd
        have hx := List.find?_some hfnd
        have hx : cb'.2[i]? = some true := by simpa using hx
        simp only []
        rw [← hdisj cb hcb cb' hcb' i h1 hx]
        exact (fieldCode_eq hi).mp hk
  have hcons : labelsConsistent s.grp F d ls = true := by
    rw [labelsConsistent_iff hlen hcat' hl2]
    intro cb hcb i hx
    have hin : i < s.mask.length := by
      have := (List.getElem?_eq_some_iff.mp hx).1
      rw [hlen cb hcb] at this; exact this
    rcases hl3 i hin with ⟨h1, _⟩ | ⟨cb', hcb', h1, h2⟩
    · exact absurd hx (h1 cb hcb)
    · rw [h2, hdisj cb hcb cb' hcb' i hx h1]
  have hrun : cutCategorical F d s = cut F (.codes ls) s := by
    rw [cutCategorical_run, hl1]
    simp only [hcons, if_true]
  have hls : ∀ k ∈ ls, ∃ c, (F, c, k) ∈ s.grp.catList := by
    intro k hk
    obtain ⟨i, hik⟩ := List.getElem?_of_mem hk
    have hin : i < s.mask.length := by
      have := (List.getElem?_eq_some_iff.mp hik).1; omega
    obtain ⟨k', h1, h2⟩ := hlab i hin
    rw [hik] at h1
    injection h1 with e
    subst e
    exact ⟨_, h2⟩
  obtain ⟨r1, r2, r3⟩ := cut_codes_run hi hF hnb hl2 hls
  rw [hrun]
  refine ⟨r1, ?_, ls, r2, hl2, ?_⟩
  · intro c k hck
    rw [r3 c k hck]
    congr 1
    apply List.ext_getElem?
    intro i
    rw [List.getElem?_map, List.getElem?_map]
    rcases Nat.lt_or_ge i s.mask.length with hin | hin
    · obtain ⟨k', h1, h2⟩ := hlab i hin
      rw [h1, List.getElem?_range hin]
      simp only [Option.map_some, Option.some.injEq]
      rw [Bool.eq_iff_iff, beq_iff_eq, decide_eq_true_iff]
      exact category_codes_injective h h2 hck
    · rw [List.getElem?_eq_none (by omega), List.getElem?_eq_none (by simpa using hin)]; rfl
  · intro i k hik
    have hin : i < s.mask.length := by
      have := (List.getElem?_eq_some_iff.mp hik).1; omega
    obtain ⟨k', h1, h2⟩ := hlab i hin
    rw [hik] at h1
    injection h1 with e
    subst e
    exact h2

/-- C05: if some pulse is assigned to two different categories, `cut_categorical` raises ValueError
and changes nothing. -/
theorem cut_categorical_conflict {s : Sys} (h : Reachable s) {F : String}
    {d : List (String × List Bool)}
    (hlen : ∀ cb ∈ d, cb.2.length = s.mask.length)
    (hcat : ∀ cb ∈ d, ∃ k, Listed s F cb.1 k)
    (hconf : ∃ cb ∈ d, ∃ cb' ∈ d, ∃ i : Nat, cb.2[i]? = some true ∧ cb'.2[i]? = some true ∧ cb.1 ≠ cb'.1) :
    cutCategorical F d s = (.error .value, s) := by
  have hi := h.inv
  have hcat' : ∀ cb ∈ d, ∃ k, fieldCode s.grp F cb.1 = some k := by
    intro cb hcb
    obtain ⟨k, hk⟩ := hcat cb hcb
    exact ⟨k, (fieldCode_eq hi).mpr hk⟩
  obtain ⟨ls, hl1, hl2, hl3⟩ := labelLoop_spec hlen hcat'
    (ls0 := List.replicate s.mask.length 0#32) (by simp)
  rw [cutCategorical_run, hl1]
  simp only []
  have : ¬ (labelsConsistent s.grp F d ls = true) := by
    rw [labelsConsistent_iff hlen hcat' hl2]
    intro hall
    obtain ⟨cb, hcb, cb', hcb', i, h1, h2, h3⟩ := hconf
    have e1 := hall cb hcb i h1
    have e2 := hall cb' hcb' i h2
    obtain ⟨k, hk⟩ := hcat' cb hcb
    rw [e1, hk] at e2
    exact h3 ((category_codes_injective h ((fieldCode_eq hi).mp hk) ((fieldCode_eq hi).mp e2.symm)).mp rfl)
  simp [this]

/-- C05: `cut_categorical` with a category that is not listed for the field raises (KeyError or, for a
wrong vector length met earlier, IndexError) and changes nothing. -/
theorem cut_categorical_unknown {s : Sys} (h : Reachable s) {F : String}
    {d : List (String × List Bool)} (hx : ∃ cb ∈ d, ∀ k, ¬ Listed s F cb.1 k) :
    ∃ e, cutCategorical F d s = (.error e, s) := by
  have hi := h.inv
  have : ∀ ls, ∃ e, labelLoop s.grp F d ls = .error e := by
    obtain ⟨cb, hcb, hno⟩ := hx
    have hnone : fieldCode s.grp F cb.1 = none := by
      cases hc : fieldCode s.grp F cb.1 with
      | none => rfl
      | some k => exact absurd ((fieldCode_eq hi).mp hc) (hno k)
    clear hno
    induction d with
    | nil => simp at hcb
    | cons x xs ih =>
      intro ls
      obtain ⟨c, b⟩ := x
      rcases List.mem_cons.mp hcb with rfl | hcb
      · simp only at hnone
        exact ⟨.key, by simp only [labelLoop, hnone]⟩
      · simp only [labelLoop]
        split
        · exact ⟨_, rfl⟩
        · split
          · exact ⟨_, rfl⟩
          · exact ih hcb _
  obtain ⟨e, he⟩ := this (List.replicate s.mask.length 0#32)
  exact ⟨e, by rw [cutCategorical_run, he]⟩

/-- [specification or instance] -/
def demoDict : List (String × List Bool) := [("A", [true, false, false]), ("C", [false, false, true])]
-- hypotheses of the round trip on the scattered field "state" (bits 1 and 13)
example : CatField (demo 3) "state" ∧ "state" ∉ (demo 3).grp.bools.map Prod.fst ∧
    defaultCategory (demo 3) "state" = some "none" ∧ Listed (demo 3) "state" "C" 4097#32 := by
  decide +kernel
example : selectCategory (cutCategorical "state" demoDict (demo 3)).2 [("state", "C")] = .ok [false, false, true] ∧
    selectCategory (cutCategorical "state" demoDict (demo 3)).2 [("state", "none")] = .ok [false, true, false] ∧
    categoryCodes (cutCategorical "state" demoDict (demo 3)).2 "state" = .ok [1#32, 0#32, 4097#32] := by
  decide +kernel
example : cutCategorical "state" [("A", [true, false, false]), ("B", [true, false, true])] (demo 3)
    = (.error .value, demo 3) := by decide +kernel

/-- Disagreement (C05): if a boolean field has the same name as the categorical field, the categorical
assignment goes to the boolean field (with the codes misread as pulse indices) and the categories are
not stored: here every pulse was assigned category "b" yet all read as the default "a". -/
theorem cut_categorical_shadowed_fails :
    let s := Op.step (Op.step (initial 3) (.regCat "x" ["a", "b"] "a")) (.regBool ["x"])
    Reachable s ∧ CatField s "x" ∧ (cutCategorical "x" [("b", [true, true, true])] s).1 = .ok () ∧
    selectCategory (cutCategorical "x" [("b", [true, true, true])] s).2 [("x", "b")]
      = .ok [false, false, false] ∧
    bad (cutCategorical "x" [("b", [true, true, true])] s).2 ["x"] = .ok [false, true, false] := by
  refine ⟨.step _ (.step _ (.init 3)), ?_⟩
  decide +kernel

/-! ### C06 -/

/-- C06: any API call that raises leaves tables and words exactly as they were. -/
theorem failed_call_changes_nothing (s : Sys) (op : Op) (e : Err) (h : (op.run s).1 = .error e) :
    (op.run s).2 = s := by
  have hcut : ∀ n a, (Cut.cut n a s).1 = .error e → (Cut.cut n a s).2 = s := by
    intro n a
    rw [cut_run]
    cases cutWords s.grp s.mask n a with
    | error _ => intro _; rfl
    | ok l => intro h; cases h
  cases op with
  | regBool ns =>
    show (registerBool ns s).2 = s
    have h : (registerBool ns s).1 = .error e := h
    rw [registerBool_run] at h ⊢
    cases hr : regLoop (newNames s.grp ns) s.grp.bools s.grp.flags with
    | error _ => rfl
    | ok r => rw [hr] at h; cases h
  | unregBool ns =>
    show (unregisterBool ns s).2 = s
    have h : (unregisterBool ns s).1 = .error e := h
    rw [unregisterBool_run] at h ⊢
    split at h
    · cases h
    · rename_i hx; simp only [hx]; rfl
  | regCat n cs d =>
    show (registerCat n cs d s).2 = s
    have h : (registerCat n cs d s).1 = .error e := h
    rw [registerCat_run] at h ⊢
    split at h
    · cases h
    · rename_i hx
      simp only [hx]
      cases hr : allocLoop s.grp.flags (numBits (categoryList cs d).length) 0#32 31 [] with
      | error _ => rfl
      | ok r => rw [hr] at h; cases h
  | unregCat n =>
    show (unregisterCat n s).2 = s
    have h : (unregisterCat n s).1 = .error e := h
    rw [unregisterCat_run] at h ⊢
    split at h
    · rename_i hx; simp only [hx]
    · cases h
  | cut n a => exact hcut n a h
  | cutInt n a =>
    show (cutInt n a s).2 = s
    have h : (cutInt n a s).1 = .error e := h
    rw [cutInt_run] at h ⊢
    by_cases h1 : a.size ≠ s.mask.length
    · simp only [if_pos h1]
    · simp only [if_neg h1] at h ⊢
      by_cases h2 : n < 0 ∨ n > 31
      · simp only [if_pos h2]
      · simp only [if_neg h2] at h ⊢
        cases hb : s.grp.bools[n.toNat]? with
        | none => simp only []
        | some b =>
          rw [hb] at h
          simp only [] at h ⊢
          by_cases h3 : b.1 = ""
          · simp only [if_pos h3]
          · simp only [if_neg h3] at h ⊢
            cases ho : orAt s.mask a b.2 with
            | error _ => rfl
            | ok l => rw [ho] at h; cases h
  | cutCategorical f d =>
    show (cutCategorical f d s).2 = s
    have h : (cutCategorical f d s).1 = .error e := h
    rw [cutCategorical_run] at h ⊢
    cases hl : labelLoop s.grp f d (List.replicate s.mask.length 0#32) with
    | error _ => rfl
    | ok ls =>
      rw [hl] at h
      simp only [] at h ⊢
      by_cases hc : labelsConsistent s.grp f d ls = true
      · simp only [if_pos hc] at h ⊢; exact hcut _ _ h
      · simp only [if_neg hc]
  | cutParameter d a c =>
    show (cutParameter d a c s).2 = s
    have h : (cutParameter d a c s).1 = .error e := h
    cases a with
    | none => cases h
    | pair a b =>
      rw [cutParameter_pair] at h ⊢
      by_cases hm : c ∈ s.grp.bools.map Prod.fst
      · simp only [if_pos hm] at h ⊢
        by_cases hab : a = none ∧ b = none
        · simp only [if_pos hab]
        · simp only [if_neg hab] at h ⊢; exact hcut _ _ h
      · simp only [if_neg hm]
    | seq l =>
      rw [cutParameter_seq] at h ⊢
      by_cases hm : c ∈ s.grp.bools.map Prod.fst
      · simp only [if_pos hm] at h ⊢
        by_cases hl : l = []
        · simp only [if_pos hl]
        · simp only [if_neg hl] at h ⊢
          cases hr : rangesLoop d l none (d.map (fun _ => true)) false with
          | error _ => rfl
          | ok r => rw [hr] at h; exact hcut _ _ h
      · simp only [if_neg hm]
  | clearCut ns =>
    show (clearCut ns s).2 = s
    have h : (clearCut ns s).1 = .error e := h
    rw [clearCut_run] at h ⊢
    cases hb : boolMask s.grp ns with
    | error _ => rfl
    | ok bm => rw [hb] at h; cases h

/-- number of bits owned by no registered field [specification] -/
def freeBits (g : Group) : Nat :=
  (List.range 32).countP (fun i => !(ownedMasks g).any (fun m => m.getLsbD i))

theorem free_eq {s : Sys} (h : Reachable s) : free s.grp.flags = freeBits s.grp := by
  unfold free freeBits
  rw [(fields_own_disjoint_bits h).2.2]
  apply List.countP_congr
  intro i _
  rw [foldl_or_lsb]; simp

/-- C06: registering boolean fields succeeds exactly when there are enough free bits for the
requested names that are not yet registered (a repeated new name counts repeatedly). -/
theorem register_boolean_succeeds_iff {s : Sys} (h : Reachable s) (names : List String) :
    (registerBool names s).1 = .ok () ↔
      (names.filter (fun n => decide (n ∉ s.grp.bools.map Prod.fst))).length ≤ freeBits s.grp := by
  have hnew : newNames s.grp names = names.filter (fun n => decide (n ∉ s.grp.bools.map Prod.fst)) := by
    unfold newNames
    congr 1
    funext n
    rw [Bool.eq_iff_iff]
    simp
  rw [← hnew, ← free_eq h, ← regLoop_ok_iff (d := s.grp.bools), registerBool_run]
  cases regLoop (newNames s.grp names) s.grp.bools s.grp.flags <;> simp

theorem regLoop_keeps {ns d f P r} (h : SlotInv d f P) (hn : ∀ n ∈ ns, n ≠ "")
    (hr : regLoop ns d f = .ok r) :
    (∀ (i : Nat) b, d[i]? = some b → b.1 ≠ "" → r.1[i]? = some b) ∧
    (∀ n ∈ ns, n ∈ r.1.map Prod.fst) ∧
    (∀ n, n ≠ "" → n ∈ r.1.map Prod.fst → n ∈ d.map Prod.fst ∨ n ∈ ns) := by
  induction ns generalizing d f with
  | nil => simp [regLoop] at hr; subst hr; exact ⟨fun i b hb _ => hb, by simp, fun n _ hn => Or.inl hn⟩
  | cons n ns ih =>
    simp only [regLoop] at hr
    split at hr
    · cases hr
    · rename_i i hi
      have hstep := regStep h (hn n (by simp)) hi
      obtain ⟨k1, k2, k3⟩ := ih hstep (fun m hm => hn m (by simp [hm])) hr
      obtain ⟨hi1, hi2, _⟩ := lowestAvail_ok hi
      have hd : i < d.length := by rw [h.len]; exact hi1
      have hfree : ∀ b, d[i]? = some b → b.1 = "" := by
        intro b hb
        apply Classical.byContradiction
        intro hne
        have := (h.flags i hi1).mpr (Or.inl ⟨b, hb, hne⟩)
        rw [hi2] at this; cases this
      refine ⟨?_, ?_, ?_⟩
      · intro j b hb hbn
        apply k1 j b _ hbn
        rw [List.getElem?_set]
        by_cases hij : i = j
        · subst hij; exact absurd (hfree b hb) hbn
        · simp [hij, hb]
      · intro m hm
        rcases List.mem_cons.mp hm with rfl | hm
        · have : r.1[i]? = some (m, bit i) := k1 i _ (by rw [List.getElem?_set]; simp [hd]) (hn m (by simp))
          exact mem_map_fst_iff.mpr ⟨i, _, this, rfl⟩
        · exact k2 m hm
      · intro m hmn hm
        rcases k3 m hmn hm with h' | h'
        · obtain ⟨j, b, hb, rfl⟩ := mem_map_fst_iff.mp h'
          rw [List.getElem?_set] at hb
          by_cases hij : i = j
          · subst hij
            simp [hd] at hb
            subst hb
            exact Or.inr (by simp)
          · simp [hij] at hb
            exact Or.inl (mem_map_fst_iff.mpr ⟨j, b, hb, rfl⟩)
        · exact Or.inr (by simp [h'])

/-- C06: on success all requested (non-empty) names are registered, no other name appears, every
field registered before keeps its slot and bit, and no pulse word changes. -/
theorem register_boolean_effect {s : Sys} (h : Reachable s) (names : List String)
    (hok : (registerBool names s).1 = .ok ()) :
    (∀ F, BoolField (registerBool names s).2 F ↔ BoolField s F ∨ (F ≠ "" ∧ F ∈ names)) ∧
    (∀ (i : Nat) b, s.grp.bools[i]? = some b → b.1 ≠ "" →
      (registerBool names s).2.grp.bools[i]? = some b) ∧
    (registerBool names s).2.grp.cats = s.grp.cats ∧
    (registerBool names s).2.grp.catList = s.grp.catList ∧
    (registerBool names s).2.mask = s.mask := by
  have hi := h.inv
  rw [registerBool_run] at hok ⊢
  cases hr : regLoop (newNames s.grp names) s.grp.bools s.grp.flags with
  | error e => rw [hr] at hok; cases hok
  | ok r =>
    obtain ⟨k1, k2, k3⟩ := regLoop_keeps hi.slots (newNames_ne hi hr) hr
    refine ⟨?_, k1, rfl, rfl, rfl⟩
    intro F
    unfold BoolField
    simp only []
    constructor
    · rintro ⟨hne, hF⟩
      rcases k3 F hne hF with h' | h'
      · exact Or.inl ⟨hne, h'⟩
      · exact Or.inr ⟨hne, (List.mem_filter.mp h').1⟩
    · rintro (⟨hne, hF⟩ | ⟨hne, hF⟩)
      · obtain ⟨i, b, hb, rfl⟩ := mem_map_fst_iff.mp hF
        exact ⟨hne, mem_map_fst_iff.mpr ⟨i, b, k1 i b hb hne, rfl⟩⟩
      · refine ⟨hne, ?_⟩
        by_cases hF' : F ∈ s.grp.bools.map Prod.fst
        · obtain ⟨i, b, hb, rfl⟩ := mem_map_fst_iff.mp hF'
          exact mem_map_fst_iff.mpr ⟨i, b, k1 i b hb hne, rfl⟩
        · apply k2 F
          unfold newNames
          rw [List.mem_filter]
          exact ⟨hF, by simpa using hF'⟩

/-- C06: the category table built for a new categorical field: default first, every requested
category once. -/
theorem categoryList_spec (cs : List String) (d : String) :
    (categoryList cs d).head? = some d ∧ (categoryList cs d).Nodup ∧
    ∀ c, c ∈ categoryList cs d ↔ c = d ∨ c ∈ cs :=
  ⟨rfl, categoryList_nodup cs d, mem_categoryList cs d⟩

/-- C06: registering a new categorical field with `k` categories (default included) succeeds exactly
when `nb` bits are free, `nb ≥ 1` being the least number with `k ≤ 2^nb`. -/
theorem register_categorical_succeeds_iff {s : Sys} (h : Reachable s) (name : String)
    (cs : List String) (d : String) (hnew : ¬ CatField s name) :
    (registerCat name cs d s).1 = .ok () ↔
      ∃ nb, 1 ≤ nb ∧ (categoryList cs d).length ≤ 2 ^ nb ∧ nb ≤ freeBits s.grp := by
  have hc : (s.grp.cats.map Prod.fst).contains name = false := by
    cases hc : (s.grp.cats.map Prod.fst).contains name with
    | false => rfl
    | true => exact absurd (List.contains_iff_mem.mp hc) hnew
  rw [registerCat_run, hc]
  simp only [Bool.false_eq_true, if_false]
  have key : (∃ r, allocLoop s.grp.flags (numBits (categoryList cs d).length) 0#32 31 [] = .ok r) ↔
      numBits (categoryList cs d).length ≤ freeBits s.grp := by
    rw [alloc_ok_iff]
    have : s.grp.flags ||| 0#32 = s.grp.flags := by simp
    rw [this, free_eq h]
  obtain ⟨n1, n2, n3⟩ := numBits_spec (categoryList cs d).length
  have hmin : (∃ nb, 1 ≤ nb ∧ (categoryList cs d).length ≤ 2 ^ nb ∧ nb ≤ freeBits s.grp) ↔
      numBits (categoryList cs d).length ≤ freeBits s.grp := by
    constructor
    · rintro ⟨nb, h1, h2, h3⟩
      rcases n3 with n3 | n3
      · omega
      · apply Classical.byContradiction
        intro hlt
        have : 2 ^ nb ≤ 2 ^ (numBits (categoryList cs d).length - 1) :=
          Nat.pow_le_pow_right (by omega) (by omega)
        omega
    · intro hle; exact ⟨_, n1, n2, hle⟩
  rw [hmin, ← key]
  cases allocLoop s.grp.flags (numBits (categoryList cs d).length) 0#32 31 [] <;> simp

/-- C06: effect of a successful registration of a new categorical field: its categories are listed in
order, every earlier field and row is kept, words unchanged. -/
theorem register_categorical_effect {s : Sys} (name : String)
    (cs : List String) (d : String) (hnew : ¬ CatField s name)
    (hok : (registerCat name cs d s).1 = .ok ()) :
    CatField (registerCat name cs d s).2 name ∧
    (∃ rows, (registerCat name cs d s).2.grp.catList = s.grp.catList ++ rows ∧
      rows.map (fun e => (e.1, e.2.1)) = (categoryList cs d).map (fun c => (name, c))) ∧
    (∃ m, (registerCat name cs d s).2.grp.cats = s.grp.cats ++ [(name, m)]) ∧
    (registerCat name cs d s).2.grp.bools = s.grp.bools ∧
    (registerCat name cs d s).2.mask = s.mask := by
  have hc : (s.grp.cats.map Prod.fst).contains name = false := by
    cases hc : (s.grp.cats.map Prod.fst).contains name with
    | false => rfl
    | true => exact absurd (List.contains_iff_mem.mp hc) hnew
  rw [registerCat_run, hc] at hok ⊢
  simp only [Bool.false_eq_true, if_false] at hok ⊢
  cases hr : allocLoop s.grp.flags (numBits (categoryList cs d).length) 0#32 31 [] with
  | error e => rw [hr] at hok; cases hok
  | ok r =>
    refine ⟨by simp [CatField], ⟨_, rfl, ?_⟩, ⟨r.1, rfl⟩, rfl, rfl⟩
    unfold newEntries
    simp only [List.map_map, Function.comp_def]
    have : ∀ (l : List String) k, (l.zipIdx k).map (fun x => (name, x.1)) = l.map (fun c => (name, c)) := by
      intro l
      induction l with
      | nil => intro k; rfl
      | cons x xs ih => intro k; simp [ih]
    exact this _ _

-- a state with exactly 2 free bits: three new names fail and change nothing, two succeed
/-- [specification or instance] -/
def nearlyFull : Sys := Op.step (initial 1) (.regBool ["a","b","c","d","e","f","g","h","i","j","k","l","m"])
example : freeBits nearlyFull.grp = 2 ∧ (registerBool ["x", "energy", "y"] nearlyFull).1 = .ok () ∧
    registerBool ["x", "y", "z"] nearlyFull = (.error .value, nearlyFull) ∧
    registerCat "st" ["1", "2", "3", "4"] "0" nearlyFull = (.error .value, nearlyFull) ∧
    (registerCat "st" ["1", "2", "3"] "0" nearlyFull).1 = .ok () := by decide +kernel

/-- Disagreement (C06): a new name repeated within one call consumes two bits (the "already exists"
test is made once, before the loop), so after `register_boolean_cut_fields("a","a")` the same name
sits in two slots. -/
theorem register_duplicate_names_fails :
    (registerBool ["a", "a"] (initial 1)).1 = .ok () ∧
    ((registerBool ["a", "a"] (initial 1)).2.grp.bools.filter (fun b => b.1 == "a")).length = 2 ∧
    freeBits (registerBool ["a", "a"] (initial 1)).2.grp + 2 = freeBits (initial 1).grp := by
  decide +kernel

end Mass.Cut
