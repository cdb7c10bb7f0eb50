import Verif.Cut.PropsFresh
/-! Queries that combine boolean fields and categories (more of C03, C05). -/
namespace Mass.Cut

/-- C03: `good(*names, F=c, ...)` / `bad(*names, F=c, ...)` are the pulses that are good / bad for the
names and also selected by the categories. -/
theorem good_bad_with_categories {s : Sys} {names : List String} {kw : List (String × String)}
    (hk : kw ≠ []) {g b sel : List Bool} (hg : good s names = .ok g) (hb : bad s names = .ok b)
    (hs : selectCategory s kw = .ok sel) :
    ∃ g' b', good s names kw = .ok g' ∧ bad s names kw = .ok b' ∧
      g'.length = s.mask.length ∧ b'.length = s.mask.length ∧
      ∀ i : Nat, (g'[i]? = some true ↔ g[i]? = some true ∧ sel[i]? = some true) ∧
        (b'[i]? = some true ↔ b[i]? = some true ∧ sel[i]? = some true) := by
  have hand : ∀ (x y : List Bool), x.length = y.length → ∀ i : Nat,
      (List.zipWith (· && ·) x y)[i]? = some true ↔ x[i]? = some true ∧ y[i]? = some true := by
    intro x y hxy i
    rw [List.getElem?_zipWith]
    rcases Nat.lt_or_ge i x.length with hi | hi
    · rw [List.getElem?_eq_getElem hi, List.getElem?_eq_getElem (by omega : i < y.length)]; simp
    · rw [List.getElem?_eq_none hi, List.getElem?_eq_none (by omega)]; simp
  have hsl : sel.length = s.mask.length := by
    unfold selectCategory at hs
    cases hl : selectLoop s.grp kw 0#32 0#32 with
    | error e => rw [hl] at hs; cases hs
    | ok r => rw [hl] at hs; injection hs with hs; subst hs; simp
  unfold good at hg ⊢
  unfold bad at hb ⊢
  cases hm : boolMask s.grp names with
  | error e => rw [hm] at hg; cases hg
  | ok bm =>
    rw [hm] at hg hb
    simp only [if_true, Except.ok.injEq] at hg hb
    simp only [if_neg hk, hs]
    refine ⟨_, _, rfl, rfl, by simp [hsl], by simp [hsl], fun i => ?_⟩
    rw [hand _ _ (by simp [hsl]), hand _ _ (by simp [hsl]), hg, hb]
    exact ⟨Iff.rfl, Iff.rfl⟩

theorem selectLoop_split {g : Group} (h : Inv g) {kw : List (String × String)} {bm0 tg0 : Word}
    (hnd : (kw.map Prod.fst).Nodup)
    (hsub : ∀ j, tg0.getLsbD j = true → bm0.getLsbD j = true)
    (hdis : ∀ c ∈ g.cats, c.1 ∈ kw.map Prod.fst → c.2 &&& bm0 = 0#32)
    {r} (hr : selectLoop g kw bm0 tg0 = .ok r) (w : Word) :
    w &&& r.1 = r.2 ↔ (w &&& bm0 = tg0 ∧ ∀ nc ∈ kw, ∃ m, selectLoop g [nc] 0#32 0#32 = .ok m ∧ w &&& m.1 = m.2) := by
  induction kw generalizing bm0 tg0 with
  | nil => simp [selectLoop] at hr; subst hr; simp
  | cons x xs ih =>
    obtain ⟨n, c⟩ := x
    simp only [selectLoop] at hr
    cases hf : g.cats.find? (fun x => x.1 == n) with
    | none => rw [hf] at hr; cases hr
    | some f =>
      rw [hf] at hr
      cases he : g.catList.find? (fun e => e.1 == n && e.2.1 == c) with
      | none => rw [he] at hr; cases hr
      | some e =>
        rw [he] at hr
        simp only [] at hr
        have hfm := List.mem_of_find?_eq_some hf
        have hfn : f.1 = n := by simpa using List.find?_some hf
        have hem := List.mem_of_find?_eq_some he
        have hen := List.find?_some he
        simp only [Bool.and_eq_true, beq_iff_eq] at hen
        obtain ⟨e1, e2, e3⟩ := e
        simp only at hen
        obtain ⟨rfl, rfl⟩ := hen
        subst hfn
        have hfit := (h.field f hfm).fits _ (mem_entries.mpr hem)
        simp only at hfit
        have hfb : ∀ j, f.2.getLsbD j = true → bm0.getLsbD j = false := by
          intro j hj
          cases hb : bm0.getLsbD j with
          | false => rfl
          | true => exact absurd ⟨hj, hb⟩ (and_eq_zero_iff.mp (hdis f hfm (by simp)) j)
        have htsub : ∀ j, (e3 <<< bitPos f.2).getLsbD j = true → f.2.getLsbD j = true := by
          intro j hj
          rw [← hfit, BitVec.getLsbD_and] at hj
          simp at hj
          exact hj.2
        simp only [List.map_cons, List.nodup_cons] at hnd
        rw [ih hnd.2 ?_ ?_ hr]
        · have hsingle : selectLoop g [(f.1, e2)] 0#32 0#32
              = .ok (0#32 ||| f.2, 0#32 ||| (e3 <<< bitPos f.2)) := by
            simp only [selectLoop, hf, he]
          simp only [List.forall_mem_cons, hsingle]
          rw [← and_assoc]
          apply and_congr_left
          intro _
          constructor
          · intro hw
            constructor
            · apply ext_lsb; intro j hj
              have := congrArg (fun (x : Word) => x.getLsbD j) hw
              simp only [BitVec.getLsbD_and, BitVec.getLsbD_or] at this
              rw [BitVec.getLsbD_and]
              cases hb : bm0.getLsbD j with
              | true =>
                have hnf : f.2.getLsbD j = false := by
                  cases hx : f.2.getLsbD j with
                  | false => rfl
                  | true => rw [hfb j hx] at hb; cases hb
                have hnt : (e3 <<< bitPos f.2).getLsbD j = false := by
                  cases hx : (e3 <<< bitPos f.2).getLsbD j with
                  | false => rfl
                  | true => rw [htsub j hx] at hnf; cases hnf
                rw [hb, hnt] at this
                simpa using this
              | false =>
                cases ht : tg0.getLsbD j with
                | false => simp
                | true => rw [hsub j ht] at hb; cases hb
            · refine ⟨_, rfl, ?_⟩
              apply ext_lsb; intro j hj
              have := congrArg (fun (x : Word) => x.getLsbD j) hw
              simp only [BitVec.getLsbD_and, BitVec.getLsbD_or] at this
              simp only [BitVec.getLsbD_and, BitVec.getLsbD_or, BitVec.getLsbD_zero, Bool.false_or]
              cases hb : f.2.getLsbD j with
              | true =>
                have hnb := hfb j hb
                have hnt : tg0.getLsbD j = false := by
                  cases hx : tg0.getLsbD j with
                  | false => rfl
                  | true => rw [hsub j hx] at hnb; cases hnb
                rw [hb, hnb, hnt] at this
                simpa using this
              | false =>
                cases ht : (e3 <<< bitPos f.2).getLsbD j with
                | false => simp
                | true => rw [htsub j ht] at hb; cases hb
          · rintro ⟨h1, m, hm, h2⟩
            injection hm with hm
            subst hm
            apply ext_lsb; intro j hj
            have e1 := congrArg (fun (x : Word) => x.getLsbD j) h1
            have e2 := congrArg (fun (x : Word) => x.getLsbD j) h2
            simp only [BitVec.getLsbD_and, BitVec.getLsbD_or, BitVec.getLsbD_zero, Bool.false_or] at e1 e2
            simp only [BitVec.getLsbD_and, BitVec.getLsbD_or, ← e1, ← e2]
            cases w.getLsbD j <;> simp
        · intro j hj
          rw [BitVec.getLsbD_or] at hj ⊢
          simp only [Bool.or_eq_true] at hj ⊢
          rcases hj with hj | hj
          · exact Or.inl (hsub j hj)
          · exact Or.inr (htsub j hj)
        · intro c' hc' hcn'
          rw [and_eq_zero_iff]
          rintro j ⟨hj1, hj2⟩
          rw [BitVec.getLsbD_or, Bool.or_eq_true] at hj2
          rcases hj2 with hj2 | hj2
          · exact and_eq_zero_iff.mp (hdis c' hc' (by simp at hcn' ⊢; exact Or.inr hcn')) j ⟨hj1, hj2⟩
          · have hne : c' ≠ f := by rintro rfl; exact hnd.1 hcn'
            exact and_eq_zero_iff.mp (cats_disj h hc' hfm hne) j ⟨hj1, hj2⟩

/-- C05: selecting by several fields at once is the conjunction of selecting by each. -/
theorem select_several {s : Sys} (h : Reachable s) {kw : List (String × String)}
    (hnd : (kw.map Prod.fst).Nodup) {sel : List Bool} (hs : selectCategory s kw = .ok sel) (i : Nat) :
    sel[i]? = some true ↔ (i < s.mask.length ∧
      ∀ nc ∈ kw, ∃ v, selectCategory s [nc] = .ok v ∧ v[i]? = some true) := by
  unfold selectCategory at hs
  cases hl : selectLoop s.grp kw 0#32 0#32 with
  | error e => rw [hl] at hs; cases hs
  | ok r =>
    rw [hl] at hs
    injection hs with hs
    subst hs
    rw [List.getElem?_map]
    rcases Nat.lt_or_ge i s.mask.length with hi | hi
    · rw [List.getElem?_eq_getElem hi]
      simp only [Option.map_some, Option.some.injEq, beq_iff_eq, hi, true_and]
      rw [selectLoop_split h.inv hnd (by simp) (by intros; simp) hl]
      simp only [BitVec.and_zero, true_and]
      apply forall_congr'; intro nc
      apply imp_congr_right; intro _
      unfold selectCategory
      cases selectLoop s.grp [nc] 0#32 0#32 with
      | error e => simp
      | ok m => simp [List.getElem?_map, List.getElem?_eq_getElem hi]
    · rw [List.getElem?_eq_none hi]
      simp; omega

theorem mapM_pair_mem {α} {f : String → Except Err α} {l : List String} {r : List (String × α)}
    (h : l.mapM (fun n => do let g ← f n; pure (n, g)) = .ok r) :
    r.map Prod.fst = l ∧ ∀ x ∈ r, f x.1 = .ok x.2 := by
  induction l generalizing r with
  | nil => simp [List.mapM_nil, pure, Except.pure] at h; subst h; simp
  | cons n ns ih =>
    rw [List.mapM_cons] at h
    cases hf : f n with
    | error e => simp [hf, bind, Except.bind] at h
    | ok g =>
      simp only [hf, bind, Except.bind, pure, Except.pure] at h
      cases hm : ns.mapM (fun n => do let g ← f n; pure (n, g)) with
      | error e => simp only [bind, Except.bind, pure, Except.pure] at hm; rw [hm] at h; simp at h
      | ok r' =>
        obtain ⟨h1, h2⟩ := ih hm
        simp only [bind, Except.bind, pure, Except.pure] at hm
        rw [hm] at h
        simp at h
        subst h
        refine ⟨by simp [h1], ?_⟩
        intro x hx
        rcases List.mem_cons.mp hx with rfl | hx
        · exact hf
        · exact h2 x hx

/-- C03/C05: `cut_mask(*fields)` has exactly one column for each requested field (all registered
fields when called without arguments); a boolean column holds `good(name)`, a categorical one
`category_codes(name)`. -/
theorem cut_mask_columns {s : Sys} {fields : List String} {cols : List (String × Column)}
    (h : cutMask s fields = .ok cols) :
    (cols.map Prod.fst).Nodup ∧
    (∀ n, n ∈ cols.map Prod.fst ↔ ((n ∈ s.grp.bools.map Prod.fst ∨ CatField s n) ∧
      (if fields = [] then n ≠ "" ∨ CatField s n else n ∈ fields))) ∧
    (∀ n l, (n, Column.flag l) ∈ cols → good s [n] = .ok l) ∧
    (∀ n l, (n, Column.code l) ∈ cols → categoryCodes s n = .ok l) := by
  unfold cutMask at h
  simp only [] at h
  generalize hbn : (if fields = [] then (s.grp.bools.map Prod.fst).filter (· != "")
            else (s.grp.bools.map Prod.fst).filter (fun n => fields.contains n)) = bn at h
  generalize hcn : (if fields = [] then s.grp.cats.map Prod.fst
            else (s.grp.cats.map Prod.fst).filter (fun n => fields.contains n)) = cn at h
  split at h
  · cases h
  · split at h
    · cases h
    · rename_i hnd
      have hnd : (bn ++ cn).Nodup := Classical.byContradiction hnd
      cases hB : bn.mapM (fun n => do let g ← (good s [n]).map Column.flag; pure (n, g)) with
      | error e =>
        have : bn.mapM (fun n => do let g ← good s [n]; pure (n, Column.flag g)) = .error e := by
          rw [← hB]; congr 1; funext n; cases good s [n] <;> rfl
        rw [this] at h; cases h
      | ok B =>
        have hB' : bn.mapM (fun n => do let g ← good s [n]; pure (n, Column.flag g)) = .ok B := by
          rw [← hB]; congr 1; funext n; cases good s [n] <;> rfl
        rw [hB'] at h
        cases hC : cn.mapM (fun n => do let g ← (categoryCodes s n).map Column.code; pure (n, g)) with
        | error e =>
          have : cn.mapM (fun n => do let c ← categoryCodes s n; pure (n, Column.code c)) = .error e := by
            rw [← hC]; congr 1; funext n; cases categoryCodes s n <;> rfl
          rw [this] at h; cases h
        | ok C =>
          have hC' : cn.mapM (fun n => do let c ← categoryCodes s n; pure (n, Column.code c)) = .ok C := by
            rw [← hC]; congr 1; funext n; cases categoryCodes s n <;> rfl
          rw [hC'] at h
          simp only [bind, Except.bind, pure, Except.pure, Except.ok.injEq] at h
          subst h
          obtain ⟨b1, b2⟩ := mapM_pair_mem hB
          obtain ⟨c1, c2⟩ := mapM_pair_mem hC
          refine ⟨by rw [List.map_append, b1, c1]; exact hnd, ?_, ?_, ?_⟩
          · intro n
            rw [List.map_append, b1, c1, List.mem_append, ← hbn, ← hcn]
            unfold CatField
            by_cases hf : fields = []
            · simp only [if_pos hf, List.mem_filter, bne_iff_ne]
              constructor
              · rintro (⟨h1, h2⟩ | h1)
                · exact ⟨Or.inl h1, Or.inl h2⟩
                · exact ⟨Or.inr h1, Or.inr h1⟩
              · rintro ⟨h1 | h1, h2 | h2⟩
                · exact Or.inl ⟨h1, h2⟩
                · exact Or.inr h2
                · exact Or.inr h1
                · exact Or.inr h1
            · simp only [if_neg hf, List.mem_filter, List.contains_iff_mem]
              constructor
              · rintro (⟨h1, h2⟩ | ⟨h1, h2⟩)
                · exact ⟨Or.inl h1, h2⟩
                · exact ⟨Or.inr h1, h2⟩
              · rintro ⟨h1 | h1, h2⟩
                · exact Or.inl ⟨h1, h2⟩
                · exact Or.inr ⟨h1, h2⟩
          · intro n l hn
            rcases List.mem_append.mp hn with hn | hn
            · have := b2 _ hn
              simp only at this
              cases hg : good s [n] with
              | error e => rw [hg] at this; cases this
              | ok v => rw [hg] at this; injection this with this; injection this with this; rw [this]
            · have := c2 _ hn
              simp only at this
              cases hg : categoryCodes s n with
              | error e => rw [hg] at this; cases this
              | ok v => rw [hg] at this; injection this with this; cases this
          · intro n l hn
            rcases List.mem_append.mp hn with hn | hn
            · have := b2 _ hn
              simp only at this
              cases hg : good s [n] with
              | error e => rw [hg] at this; cases this
              | ok v => rw [hg] at this; injection this with this; cases this
            · have := c2 _ hn
              simp only at this
              cases hg : categoryCodes s n with
              | error e => rw [hg] at this; cases this
              | ok v => rw [hg] at this; injection this with this; injection this with this; rw [this]

example : cutMask demo2 ["energy", "state"] = .ok [("energy", .flag [false, true, false]),
    ("state", .code [4096#32, 1#32, 0#32])] := by decide +kernel
example : selectCategory demo2 [("calibration", "in"), ("state", "A")] = .ok [false, true, false] ∧
    good demo2 ["energy"] [("calibration", "in"), ("state", "A")] = .ok [false, true, false] ∧
    bad demo2 ["energy"] [("state", "A")] = .ok [false, false, false] := by decide +kernel

end Mass.Cut
