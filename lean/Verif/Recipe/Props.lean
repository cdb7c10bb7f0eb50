import Verif.Recipe.Model
import Mathlib.Tactic.Conv
/-! C25, C26: recipe books. -/
namespace Mass.Recipe
variable {V : Type}

/-! ### specification -/

/-- what each name means: a function of the data -/
abbrev Env (V : Type) := Name → Option (Src V → Except Exc V)

/-- evaluate the arguments in order, stopping at the first exception [specification] -/
def evalAll : List (Src V → Except Exc V) → Src V → Except Exc (List V)
  | [], _ => .ok []
  | g :: t, src =>
    match g src with
    | .error e => .error e
    | .ok v => match evalAll t src with
      | .error e => .error e
      | .ok vs => .ok (v :: vs)

/-- the meaning of an ingredient when a recipe is added: the recipe of that name at that time, else the data itself [specification] -/
def Env.ing (env : Env V) (k : Name) : Src V → Except Exc V :=
  match env k with
  | some g => g
  | none => fun src => if k = "coefs".toList then src.coefs else src.get k

/-- the meaning of a recipe: its function applied to the meanings its ingredients have now [specification] -/
def Env.compose (env : Env V) (f : Fn V) (l : List Name) : Src V → Except Exc V := fun src =>
  match evalAll (l.map env.ing) src with
  | .error e => .error e
  | .ok vs => f.call vs

/-- the names of the ingredients asked for [specification] -/
def Req.names (r : Req V) : List Name := r.ingredients.getD r.f.params

/-- the request is acceptable: every ingredient is known, not more ingredients than parameters, and the name is free or may be overwritten [specification] -/
def Req.Acceptable (r : Req V) (base : List Name) (env : Env V) : Prop :=
  (∀ k ∈ r.names, k ∈ base ∨ (env k).isSome) ∧ r.names.length ≤ r.f.params.length ∧ ((env r.name).isSome → r.overwrite = true) ∧
  r.name.head? ≠ some '!' ∧ r.name ≠ "__temp__".toList

open Classical in
/-- the meaning of all names after a history of requests [specification] -/
noncomputable def meaning (base : List Name) : List (Req V) → Env V → Env V
  | [], env => env
  | r :: t, env => meaning base t
      (if r.Acceptable base env then fun k => if k = r.name then some (env.compose r.f r.names) else env k else env)

/-! ### lemmas -/

theorem lookup_store_self (d : List (Name × Nat)) (k : Name) (a : Nat) : lookup (store d k a) k = some a := by
  unfold store lookup
  split
  · rename_i h
    rw [List.contains_iff_mem] at h
    induction d with
    | nil => simp at h
    | cons e t ih =>
      by_cases hk : e.1 = k
      · simp [hk]
      · rw [List.map_cons, List.find?_cons]
        have : k ∈ t.map Prod.fst := by
          rw [List.map_cons, List.mem_cons] at h
          exact h.resolve_left (fun e => hk e.symm)
        simp only [if_neg hk]
        rw [show (e.1 == k) = false by simpa using hk]
        exact ih this
  · rename_i h
    rw [List.contains_iff_mem] at h
    rw [List.find?_append, List.find?_eq_none.2]
    · simp
    · intro e he h'
      exact h (by rw [← (by simpa using h' : e.1 = k)]; exact List.mem_map_of_mem he)

theorem lookup_store_ne (d : List (Name × Nat)) {k k' : Name} (a : Nat) (h : k' ≠ k) : lookup (store d k a) k' = lookup d k' := by
  unfold store lookup
  split
  · congr 1
    rename_i hc
    clear hc
    induction d with
    | nil => rfl
    | cons e t ih =>
      rw [List.map_cons, List.find?_cons, List.find?_cons, ih]
      by_cases hk : e.1 = k
      · rw [if_pos hk]
        rw [show (e.1 == k') = false by rw [hk]; simpa using Ne.symm h, show ((k, a).1 == k') = false by simpa using Ne.symm h]
      · rw [if_neg hk]
  · rw [List.find?_append]
    have : List.find? (fun e => e.1 == k') [(k, a)] = none := by simp [Ne.symm h]
    rw [this, Option.or_none]

/-- references point to older objects [specification] -/
def WF (heap : List (Obj V)) : Prop := ∀ (n : Nat) (h : n < heap.length), ∀ e ∈ heap[n].i2a, ∀ a, e.2 = some a → a < n

theorem collect_congr {ev ev' : Nat → Option (Except Exc V)} {src : Src V} {l : List (Name × Option Nat)}
    (h : ∀ e ∈ l, ∀ a, e.2 = some a → ev a = ev' a) : collect ev src l = collect ev' src l := by
  induction l with
  | nil => rfl
  | cons x t ih =>
    obtain ⟨k, r⟩ := x
    unfold collect
    rw [ih (fun e he => h e (by simp [he]))]
    cases r with
    | none => rfl
    | some a => simp only [ingVal, h (k, some a) (by simp) a rfl]

theorem call_append {heap : List (Obj V)} (hw : WF heap) (ext : List (Obj V)) (src : Src V) (fuel : Nat) {a : Nat} (ha : a < heap.length) :
    call (heap ++ ext) src fuel a = call heap src fuel a := by
  induction fuel generalizing a with
  | zero => rfl
  | succ fuel ih =>
    unfold call
    rw [List.getElem?_append_left ha, List.getElem?_eq_getElem ha]
    dsimp only
    rw [collect_congr (ev' := call heap src fuel)]
    intro e he b hb
    have := hw a ha e he b hb
    exact ih (by omega)

/-- address `a` computes `g`, with enough fuel to cover the older objects [specification] -/
def Den (heap : List (Obj V)) (a : Nat) (g : Src V → Except Exc V) : Prop :=
  a < heap.length ∧ ∀ src fuel, a < fuel → call heap src fuel a = some (g src)

theorem Den.append {heap : List (Obj V)} {a : Nat} {g : Src V → Except Exc V} (hw : WF heap) (h : Den heap a g) (ext : List (Obj V)) :
    Den (heap ++ ext) a g :=
  ⟨by have := h.1; rw [List.length_append]; omega, fun src fuel hf => by rw [call_append hw ext src fuel h.1]; exact h.2 src fuel hf⟩

theorem collect_den {ev : Nat → Option (Except Exc V)} {src : Src V} {l : List (Name × Option Nat)} {gs : List (Src V → Except Exc V)}
    (hlen : gs.length = l.length)
    (h : ∀ (i : Nat) (hi : i < l.length), ingVal ev src (l[i]).1 (l[i]).2 = some (gs[i] src)) :
    collect ev src l = some (evalAll gs src) := by
  induction l generalizing gs with
  | nil =>
    cases gs with
    | nil => rfl
    | cons g t => simp at hlen
  | cons x t ih =>
    cases gs with
    | nil => simp at hlen
    | cons g gs =>
      obtain ⟨k, r⟩ := x
      have h0 := h 0 (by simp)
      have ih := ih (gs := gs) (by simpa using hlen) (fun i hi => by
        have := h (i + 1) (by simpa using hi)
        simpa only [List.getElem_cons_succ] using this)
      simp only [List.getElem_cons_zero] at h0
      unfold collect
      unfold evalAll
      rw [ih, h0]
      cases g src with
      | error e => rfl
      | ok v =>
        cases evalAll gs src <;> rfl

theorem dictKeys_nodup {l seen : List Name} (h : l.Nodup) (hd : ∀ k ∈ l, k ∉ seen) : dictKeys seen l = seen ++ l := by
  induction l generalizing seen with
  | nil => simp [dictKeys]
  | cons k t ih =>
    rw [List.nodup_cons] at h
    unfold dictKeys
    rw [if_neg (by simpa using hd k (by simp)), ih h.2]
    · simp
    · intro x hx
      rw [List.mem_append, List.mem_singleton]
      rintro (h1 | rfl)
      · exact hd x (by simp [hx]) h1
      · exact h.1 hx

theorem mem_dictKeys {l seen : List Name} {k : Name} : k ∈ dictKeys seen l ↔ k ∈ seen ∨ k ∈ l := by
  induction l generalizing seen with
  | nil => simp [dictKeys]
  | cons x t ih =>
    unfold dictKeys
    split
    · rename_i h
      rw [List.contains_iff_mem] at h
      rw [ih, List.mem_cons]
      constructor
      · rintro (h1 | h1)
        · exact .inl h1
        · exact .inr (.inr h1)
      · rintro (h1 | rfl | h1)
        · exact .inl h1
        · exact .inl h
        · exact .inr h1
    · rw [ih, List.mem_append, List.mem_singleton, List.mem_cons]
      constructor
      · rintro ((h1 | h1) | h1)
        · exact .inl h1
        · exact .inr (.inl h1)
        · exact .inr (.inr h1)
      · rintro (h1 | h1 | h1)
        · exact .inl (.inl h1)
        · exact .inl (.inr h1)
        · exact .inr h1

/-- the book agrees with the meaning [specification] -/
structure Inv (b : Book V) (env : Env V) : Prop where
  wf : WF b.heap
  bound : ∀ k a, lookup b.crafted k = some a → a < b.heap.length
  none : ∀ k, lookup b.crafted k = none → env k = none
  some : ∀ k a, lookup b.crafted k = some a → ∃ g, env k = some g ∧ Den b.heap a g

/-- well-formed, without reference to meaning [specification] -/
structure Ok (b : Book V) : Prop where
  wf : WF b.heap
  bound : ∀ k a, lookup b.crafted k = Option.some a → a < b.heap.length

theorem newObj_wf {b : Book V} (h : Ok b) (f : Fn V) (l : List Name) : WF (b.heap ++ [newObj b f l]) := by
  intro n hn e he a ha
  rw [List.length_append, List.length_singleton] at hn
  by_cases hlt : n < b.heap.length
  · rw [List.getElem_append_left hlt] at he
    exact h.wf n hlt e he a ha
  · have : n = b.heap.length := by omega
    subst this
    rw [List.getElem_append_right (Nat.le_refl _)] at he
    simp only [Nat.sub_self, List.getElem_cons_zero, newObj, List.mem_map] at he
    obtain ⟨k, -, rfl⟩ := he
    exact h.bound k a ha

theorem add_cases (b : Book V) (name : Name) (f : Fn V) (ing : Option (List Name)) (ow : Bool) :
    (∃ e, add b name f ing ow = (.error e, b)) ∨
    (∃ l, ingredientList b f ing = .ok l ∧ name = tempName ∧
      add b name f ing ow = (.ok b.heap.length, { b with heap := b.heap ++ [newObj b f l] })) ∨
    (∃ l, ingredientList b f ing = .ok l ∧ name ≠ tempName ∧ name.head? ≠ some '!' ∧
      ((lookup b.crafted name).isSome → ow = true) ∧
      add b name f ing ow = (.ok b.heap.length,
        { b with heap := b.heap ++ [newObj b f l], crafted := store b.crafted name b.heap.length })) := by
  unfold add
  cases h : ingredientList b f ing with
  | error e => exact .inl ⟨e, rfl⟩
  | ok l =>
    dsimp only
    split
    · rename_i ht
      exact .inr (.inl ⟨l, rfl, ht, rfl⟩)
    · rename_i ht
      split
      · exact .inl ⟨_, rfl⟩
      · rename_i ho
        split
        · exact .inl ⟨_, rfl⟩
        · rename_i hb
          refine .inr (.inr ⟨l, rfl, ht, hb, ?_, rfl⟩)
          intro hs
          cases ow with
          | true => rfl
          | false => exact absurd ⟨hs, rfl⟩ ho

theorem add_ok {b : Book V} (h : Ok b) (name : Name) (f : Fn V) (ing : Option (List Name)) (ow : Bool) :
    Ok (add b name f ing ow).2 ∧ ∃ ext, (add b name f ing ow).2.heap = b.heap ++ ext := by
  rcases add_cases b name f ing ow with ⟨e, h1⟩ | ⟨l, -, -, h1⟩ | ⟨l, -, -, -, -, h1⟩ <;> rw [h1]
  · exact ⟨h, [], by simp⟩
  · refine ⟨⟨newObj_wf h f l, ?_⟩, _, rfl⟩
    intro k a hk
    have := h.bound k a hk
    dsimp only
    rw [List.length_append]; omega
  · refine ⟨⟨newObj_wf h f l, ?_⟩, _, rfl⟩
    intro k a hk
    dsimp only at hk ⊢
    rw [List.length_append, List.length_singleton]
    by_cases he : k = name
    · subst he
      rw [lookup_store_self] at hk
      injection hk with hk
      omega
    · rw [lookup_store_ne _ _ he] at hk
      have := h.bound k a hk
      omega

theorem runAdds_ok {b : Book V} (h : Ok b) (rs : List (Req V)) : Ok (runAdds b rs) ∧ ∃ ext, (runAdds b rs).heap = b.heap ++ ext := by
  induction rs generalizing b with
  | nil => exact ⟨h, [], by simp [runAdds]⟩
  | cons r t ih =>
    obtain ⟨h1, e1, he1⟩ := add_ok h r.name r.f r.ingredients r.overwrite
    obtain ⟨h2, e2, he2⟩ := ih h1
    refine ⟨h2, e1 ++ e2, ?_⟩
    rw [← List.append_assoc, ← he1]
    exact he2

theorem newBook_ok (base : List Name) : Ok (newBook V base) :=
  ⟨fun n hn => absurd hn (by simp [newBook]), fun k a h => by simp [newBook, lookup] at h⟩

theorem runAdds_base (b : Book V) (rs : List (Req V)) : (runAdds b rs).base = b.base := by
  induction rs generalizing b with
  | nil => rfl
  | cons r t ih =>
    show (runAdds (add b r.name r.f r.ingredients r.overwrite).2 t).base = _
    rw [ih]
    rcases add_cases b r.name r.f r.ingredients r.overwrite with ⟨e, h1⟩ | ⟨l, -, -, h1⟩ | ⟨l, -, -, -, -, h1⟩ <;> rw [h1]

/-! ### C25 -/

theorem newObj_den {b : Book V} {env : Env V} (h : Inv b env) (f : Fn V) {l : List Name} (hnd : l.Nodup) :
    Den (b.heap ++ [newObj b f l]) b.heap.length (env.compose f l) := by
  refine ⟨by simp, ?_⟩
  intro src fuel hf
  cases fuel with
  | zero => omega
  | succ fuel =>
    unfold call
    rw [List.getElem?_append_right (Nat.le_refl _)]
    simp only [Nat.sub_self, List.getElem?_cons_zero]
    have hkeys : dictKeys [] l = l := by rw [dictKeys_nodup hnd (by simp)]; rfl
    have hc : collect (call (b.heap ++ [newObj b f l]) src fuel) src (newObj b f l).i2a = some (evalAll (l.map env.ing) src) := by
      unfold newObj
      dsimp only
      rw [hkeys]
      refine collect_den (by simp) ?_
      intro i hi
      rw [List.length_map] at hi
      simp only [List.getElem_map]
      unfold Env.ing
      cases hk : lookup b.crafted l[i] with
      | none => rw [h.none _ hk]; rfl
      | some a =>
        obtain ⟨g, hg, hd⟩ := h.some _ a hk
        rw [hg]
        dsimp only
        have hd' := (hd.append h.wf [newObj b f l]).2 src fuel (by have := hd.1; omega)
        rw [show b.heap ++ [newObj b f l] = b.heap ++ [⟨f.call, (dictKeys [] l).map (fun k => (k, lookup b.crafted k))⟩]
          from rfl, hkeys] at hd'
        exact hd'
    rw [hc]
    unfold Env.compose
    cases evalAll (l.map env.ing) src <;> rfl

theorem add_inv {b : Book V} {env : Env V} (h : Inv b env) {r : Req V} (hnd : r.names.Nodup) :
    Inv (add b r.name r.f r.ingredients r.overwrite).2
      (meaning b.base [r] env) := by
  have hok : Ok b := ⟨h.wf, h.bound⟩
  have hknown : ∀ k, (lookup b.crafted k).isSome = (env k).isSome := by
    intro k
    cases hk : lookup b.crafted k with
    | none => rw [h.none k hk]; rfl
    | some a => obtain ⟨g, hg, -⟩ := h.some k a hk; rw [hg]; rfl
  have hlist : ∀ l, ingredientList b r.f r.ingredients = .ok l ↔
      l = r.names ∧ (∀ k ∈ r.names, k ∈ b.base ∨ (env k).isSome) ∧ r.names.length ≤ r.f.params.length := by
    intro l
    have hall : ∀ L : List Name, (L.all (fun k => b.base.contains k || (lookup b.crafted k).isSome)) = true ↔
        ∀ k ∈ L, k ∈ b.base ∨ (env k).isSome := by
      intro L
      simp [List.all_eq_true, hknown]
    unfold ingredientList Req.names
    cases hi : r.ingredients with
    | none =>
      dsimp only [Option.getD]
      split
      · rename_i hh
        rw [hall] at hh
        simp only [Except.ok.injEq]
        exact ⟨fun e => ⟨e.symm, hh, Nat.le_refl _⟩, fun e => e.1.symm⟩
      · rename_i hh
        rw [hall] at hh
        simp only [reduceCtorEq, false_iff]
        exact fun e => hh e.2.1
    | some L =>
      dsimp only [Option.getD]
      split
      · rename_i hlt
        simp only [reduceCtorEq, false_iff]
        exact fun e => by omega
      · rename_i hlt
        split
        · rename_i hh
          rw [hall] at hh
          simp only [Except.ok.injEq]
          exact ⟨fun e => ⟨e.symm, hh, by omega⟩, fun e => e.1.symm⟩
        · rename_i hh
          rw [hall] at hh
          simp only [reduceCtorEq, false_iff]
          exact fun e => hh e.2.1
  have hm : meaning b.base [r] env =
      (open Classical in if r.Acceptable b.base env then fun k => if k = r.name then some (env.compose r.f r.names) else env k else env) := rfl
  rcases add_cases b r.name r.f r.ingredients r.overwrite with ⟨e, h1⟩ | ⟨l, hl, ht, h1⟩ | ⟨l, hl, ht, hb, ho, h1⟩
  · have hna : ¬ r.Acceptable b.base env := by
      rintro ⟨a1, a2, a3, a4, a5⟩
      have hl := (hlist r.names).2 ⟨rfl, a1, a2⟩
      unfold add at h1
      rw [hl] at h1
      dsimp only at h1
      rw [if_neg (show r.name ≠ tempName from a5), if_neg, if_neg a4] at h1
      · simp at h1
      · rw [hknown]
        rintro ⟨x1, x2⟩
        rw [a3 x1] at x2
        exact absurd x2 (by simp)
    rw [hm, if_neg hna, h1]
    exact h
  · have hna : ¬ r.Acceptable b.base env := fun hh => hh.2.2.2.2 ht
    rw [hm, if_neg hna, h1]
    obtain ⟨k1, -⟩ := add_ok hok r.name r.f r.ingredients r.overwrite
    rw [h1] at k1
    exact ⟨k1.wf, k1.bound, h.none, fun k a hk => by
      obtain ⟨g, hg, hd⟩ := h.some k a hk
      exact ⟨g, hg, hd.append h.wf _⟩⟩
  · obtain ⟨rfl, a1, a2⟩ := (hlist l).1 hl
    have ha : r.Acceptable b.base env := ⟨a1, a2, by rw [← hknown]; exact ho, hb, ht⟩
    rw [hm, if_pos ha]
    obtain ⟨k1, -⟩ := add_ok hok r.name r.f r.ingredients r.overwrite
    rw [h1] at k1 ⊢
    refine ⟨k1.wf, k1.bound, ?_, ?_⟩
    · intro k hk
      dsimp only at hk ⊢
      by_cases he : k = r.name
      · subst he; rw [lookup_store_self] at hk; exact absurd hk (by simp)
      · rw [lookup_store_ne _ _ he] at hk
        rw [if_neg he]
        exact h.none k hk
    · intro k a hk
      dsimp only at hk ⊢
      by_cases he : k = r.name
      · subst he
        rw [lookup_store_self] at hk
        injection hk with hk
        subst hk
        exact ⟨_, if_pos rfl, newObj_den h r.f hnd⟩
      · rw [lookup_store_ne _ _ he] at hk
        obtain ⟨g, hg, hd⟩ := h.some k a hk
        exact ⟨g, by rw [if_neg he]; exact hg, hd.append h.wf _⟩

theorem runAdds_inv {b : Book V} {env : Env V} (h : Inv b env) {rs : List (Req V)} (hnd : ∀ r ∈ rs, r.names.Nodup) :
    Inv (runAdds b rs) (meaning b.base rs env) := by
  induction rs generalizing b env with
  | nil => exact h
  | cons r t ih =>
    have h1 := add_inv h (hnd r (by simp))
    have h2 := ih h1 (fun r hr => hnd r (by simp [hr]))
    have hb : (add b r.name r.f r.ingredients r.overwrite).2.base = b.base := runAdds_base b [r]
    rw [hb] at h2
    exact h2

/-- C25, for requests that do not repeat an ingredient. After any history of `add` calls (some of them refused), crafting a name ends, and
returns the composition of the functions that were bound when the recipes were added. -/
theorem craft_meaning_partial (base : List Name) {rs : List (Req V)} (hnd : ∀ r ∈ rs, r.names.Nodup) (lnot : V → V) (name : Name)
    (hb : name.head? ≠ some '!') (src : Src V) :
    ∃ n, ∀ fuel, n ≤ fuel → craft (runAdds (newBook V base) rs) lnot name src fuel =
      some (match meaning base rs (fun _ => none) name with
        | some g => g src
        | none => .error (if hasCut name then .assertion else .exception)) := by
  have h := runAdds_inv (b := newBook V base) (env := fun _ => none) ⟨(newBook_ok base).wf, (newBook_ok base).bound, fun _ _ => rfl,
    fun k a hk => by simp [newBook, lookup] at hk⟩ hnd
  have hstrip : name.dropWhile (· == '!') = name := by
    cases name with
    | nil => rfl
    | cons c t =>
      have : c ≠ '!' := by simpa using hb
      rw [List.dropWhile_cons, if_neg (by simpa using this)]
  refine ⟨(runAdds (newBook V base) rs).heap.length, fun fuel hf => ?_⟩
  unfold craft craftCut
  rw [hstrip]
  dsimp only
  rw [Nat.sub_self]
  cases hk : lookup (runAdds (newBook V base) rs).crafted name with
  | none =>
    rw [show meaning base rs (fun _ => none) name = none from h.none name hk]
    dsimp only
    split <;> rfl
  | some a =>
    obtain ⟨g, hg, hd⟩ := h.some name a hk
    rw [show meaning base rs (fun _ => none) name = some g from hg]
    have := hd.2 src fuel (Nat.lt_of_lt_of_le hd.1 hf)
    dsimp only
    split
    · rw [if_pos rfl]; exact this
    · exact this

theorem craft_mono {b b' : Book V} (h : Ok b) (hh : ∃ ext, b'.heap = b.heap ++ ext) (lnot : V → V) {name : Name}
    (hl : lookup b'.crafted name = lookup b.crafted name)
    (hl' : lookup b'.crafted (name.dropWhile (· == '!')) = lookup b.crafted (name.dropWhile (· == '!'))) (src : Src V) (fuel : Nat) :
    craft b' lnot name src fuel = craft b lnot name src fuel := by
  obtain ⟨ext, he⟩ := hh
  unfold craft craftCut
  dsimp only
  rw [hl, hl', he]
  split
  · cases hk : lookup b.crafted (name.dropWhile (· == '!')) with
    | none => rfl
    | some a => dsimp only; rw [call_append h.wf ext src fuel (h.bound _ a hk)]
  · cases hk : lookup b.crafted name with
    | none => rfl
    | some a => dsimp only; rw [call_append h.wf ext src fuel (h.bound _ a hk)]

/-- C25. Whatever is added or overwritten later under other names never changes what a recipe (or its negation) returns. -/
theorem later_adds_harmless (base : List Name) (rs more : List (Req V)) (lnot : V → V) (name : Name)
    (hne : ∀ r ∈ more, r.name ≠ name.dropWhile (· == '!')) (src : Src V) (fuel : Nat) :
    craft (runAdds (newBook V base) (rs ++ more)) lnot name src fuel = craft (runAdds (newBook V base) rs) lnot name src fuel := by
  have h0 := (runAdds_ok (newBook_ok (V := V) base) rs).1
  have happ : runAdds (newBook V base) (rs ++ more) = runAdds (runAdds (newBook V base) rs) more := by
    unfold runAdds; rw [List.foldl_append]
  rw [happ]
  generalize runAdds (newBook V base) rs = b at h0
  have hlk : ∀ (more : List (Req V)) (b : Book V) (k : Name), (∀ r ∈ more, r.name ≠ k ∨ k.head? = some '!') →
      lookup (runAdds b more).crafted k = lookup b.crafted k := by
    intro more
    induction more with
    | nil => intro b k _; rfl
    | cons r t ih =>
      intro b k hk
      show lookup (runAdds (add b r.name r.f r.ingredients r.overwrite).2 t).crafted k = _
      rw [ih _ _ (fun r hr => hk r (by simp [hr]))]
      rcases add_cases b r.name r.f r.ingredients r.overwrite with ⟨e, h1⟩ | ⟨l, -, -, h1⟩ | ⟨l, -, -, hb, -, h1⟩ <;> rw [h1]
      refine lookup_store_ne _ _ ?_
      rcases hk r (by simp) with h | h
      · exact fun e => h e.symm
      · rintro rfl; exact hb h
  refine craft_mono h0 (runAdds_ok h0 more).2 lnot (hlk _ _ _ ?_) (hlk _ _ _ ?_) src fuel
  · intro r hr
    cases hn : name with
    | nil => rw [hn] at hne; exact .inl (hne r hr)
    | cons c t =>
      by_cases hc : c = '!'
      · right; simp [hc]
      · left
        have := hne r hr
        rw [hn, List.dropWhile_cons, if_neg (by simpa using hc)] at this
        exact this
  · intro r hr; exact .inl (hne r hr)

/-- C25. Crafting with a function gives the function applied to the present meaning of its ingredients. -/
theorem craft_function_value (base : List Name) {rs : List (Req V)} (hnd : ∀ r ∈ rs, r.names.Nodup) (f : Fn V) (hf : f.params.Nodup)
    (hk : ∀ k ∈ f.params, k ∈ base ∨ (meaning base rs (fun _ => none) k).isSome) (src : Src V) :
    ∃ n, ∀ fuel, n ≤ fuel → (craftFn (runAdds (newBook V base) rs) f none src fuel).1 =
      some ((meaning base rs (fun _ => none)).compose f f.params src) := by
  have h := runAdds_inv (b := newBook V base) (env := fun _ => none) ⟨(newBook_ok base).wf, (newBook_ok base).bound, fun _ _ => rfl,
    fun k a hk => by simp [newBook, lookup] at hk⟩ hnd
  rw [show (newBook V base).base = base from rfl] at h
  have hb := runAdds_base (newBook V base) rs
  rw [show (newBook V base).base = base from rfl] at hb
  generalize meaning base rs (fun _ => none) = env at *
  generalize runAdds (newBook V base) rs = b at *
  refine ⟨b.heap.length + 1, fun fuel hfuel => ?_⟩
  have hl : ingredientList b f none = .ok f.params := by
    unfold ingredientList
    dsimp only
    rw [if_pos]
    rw [List.all_eq_true]
    intro k hkk
    rcases hk k hkk with h1 | h1
    · simp [hb, h1]
    · cases hlk : lookup b.crafted k with
      | none => rw [h.none k hlk] at h1; simp at h1
      | some a => simp
  unfold craftFn add
  rw [hl]
  dsimp only
  rw [if_pos rfl]
  exact (newObj_den h f hf).2 src fuel hfuel

/-- C25. Crafting with a function leaves every named recipe as it was. -/
theorem craft_function {b : Book V} {env : Env V} (h : Inv b env) (f : Fn V) (ing : Option (List Name)) (src : Src V) (fuel : Nat)
    (lnot : V → V) (name : Name) (fuel' : Nat) :
    craft (craftFn b f ing src fuel).2 lnot name src fuel' = craft b lnot name src fuel' := by
  have hok : Ok b := ⟨h.wf, h.bound⟩
  unfold craftFn
  obtain ⟨h1, h2⟩ := add_ok hok tempName f ing false
  have hc : ∀ k, lookup (add b tempName f ing false).2.crafted k = lookup b.crafted k := by
    intro k
    rcases add_cases b tempName f ing false with ⟨e, h1⟩ | ⟨l, -, -, h1⟩ | ⟨l, -, ht, -, -, h1⟩ <;> rw [h1]
    exact absurd rfl ht
  cases ha : add b tempName f ing false with
  | mk r b' =>
    rw [ha] at h2 hc
    cases r <;> exact craft_mono hok h2 lnot (hc _) (hc _) src fuel'

/-! ### C26 -/

theorem hasCut_bang (t : Name) : hasCut ('!' :: t) = hasCut t := by
  conv_lhs => unfold hasCut
  simp [List.isPrefixOf]

theorem hasCut_bangs (k : Nat) (t : Name) : hasCut (List.replicate k '!' ++ t) = hasCut t := by
  induction k with
  | zero => rfl
  | succ k ih => rw [List.replicate_succ, List.cons_append, hasCut_bang, ih]

theorem strip_bangs (k : Nat) {t : Name} (h : t.head? ≠ some '!') : (List.replicate k '!' ++ t).dropWhile (· == '!') = t := by
  induction k with
  | zero =>
    cases t with
    | nil => rfl
    | cons c t =>
      have : c ≠ '!' := by simpa using h
      rw [List.replicate_zero, List.nil_append, List.dropWhile_cons, if_neg (by simpa using this)]
  | succ k ih => rw [List.replicate_succ, List.cons_append, List.dropWhile_cons, if_pos (by simp), ih]

/-- C26. `'!'*k` before a cut's name gives the cut for even `k` and its negation for odd `k`, for every book and data. -/
theorem cut_bang_parity (b : Book V) (lnot : V → V) {name : Name} (hc : hasCut name = true) (hb : name.head? ≠ some '!') (k : Nat)
    (src : Src V) (fuel : Nat) :
    craft b lnot (List.replicate k '!' ++ name) src fuel =
      if k % 2 = 0 then craft b lnot name src fuel else (craft b lnot name src fuel).map (fun r => r.map lnot) := by
  have h1 : craft b lnot name src fuel = match lookup b.crafted name with
      | none => some (.error .assertion)
      | some a => call b.heap src fuel a := by
    unfold craft craftCut
    rw [if_pos hc]
    dsimp only
    rw [strip_bangs 0 hb |> fun h => (by simpa using h : name.dropWhile (· == '!') = name), Nat.sub_self]
    rfl
  rw [h1]
  unfold craft craftCut
  rw [hasCut_bangs, if_pos hc]
  dsimp only
  rw [strip_bangs k hb, List.length_append, List.length_replicate, show k + name.length - name.length = k by omega]
  cases lookup b.crafted name with
  | none => dsimp only; split <;> rfl
  | some a => rfl

/-- C26, the other names: `'!'` before a name without "cut" is refused. -/
theorem bang_other_refused {base : List Name} (rs : List (Req V)) (lnot : V → V) {name : Name} (hc : hasCut name = false) (k : Nat)
    (src : Src V) (fuel : Nat) :
    craft (runAdds (newBook V base) rs) lnot (List.replicate (k + 1) '!' ++ name) src fuel = some (.error .exception) := by
  have : ∀ (rs : List (Req V)) (b : Book V) (n : Name), n.head? = some '!' → lookup b.crafted n = none → lookup (runAdds b rs).crafted n = none := by
    intro rs
    induction rs with
    | nil => intro b n _ h; exact h
    | cons r t ih =>
      intro b n hn h
      refine ih _ n hn ?_
      dsimp only
      rcases add_cases b r.name r.f r.ingredients r.overwrite with ⟨e, h1⟩ | ⟨l, -, -, h1⟩ | ⟨l, -, -, hb, -, h1⟩ <;> rw [h1]
      · exact h
      · exact h
      · show lookup (store _ _ _) n = none
        rw [lookup_store_ne _ _ (fun e => by rw [e] at hn; exact hb hn)]
        exact h
  unfold craft
  rw [hasCut_bangs, if_neg (by simp [hc]), this rs _ _ (by rw [List.replicate_succ]; rfl) (by simp [newBook, lookup])]

/-! ### instances -/

/-- data: `x = 5`, nothing else [specification] -/
def src5 : Src Int := ⟨fun k => if k = "x".toList then .ok 5 else .error .key, .error .key⟩
/-- a function of exactly one argument [specification] -/
def fn1 (p : String) (g : Int → Int) : Fn Int := ⟨[p.toList], fun l => match l with | [x] => .ok (g x) | _ => .error .type⟩
/-- a function of exactly two arguments [specification] -/
def fn2 (p q : String) (g : Int → Int → Int) : Fn Int := ⟨[p.toList, q.toList], fun l => match l with | [x, y] => .ok (g x y) | _ => .error .type⟩
/-- y = x+1; z = x*y; then y is overwritten using the old y [specification] -/
def hist : List (Req Int) :=
  [⟨"y".toList, fn1 "x" (· + 1), none, false⟩, ⟨"z".toList, fn2 "x" "y" (· * ·), none, false⟩, ⟨"y".toList, fn1 "y" (· + 100), none, true⟩,
   ⟨"y".toList, fn1 "y" (· + 1000), none, false⟩, ⟨"cutz".toList, fn1 "z" (fun z => if z = 30 then 1 else 0), none, false⟩]

/-- C25, C26, instance -/
example :
    craft (runAdds (newBook Int ["x".toList]) hist) (1 - ·) "z".toList src5 9 = some (.ok 30) ∧
    craft (runAdds (newBook Int ["x".toList]) hist) (1 - ·) "y".toList src5 9 = some (.ok 106) ∧
    craft (runAdds (newBook Int ["x".toList]) hist) (1 - ·) "cutz".toList src5 9 = some (.ok 1) ∧
    craft (runAdds (newBook Int ["x".toList]) hist) (1 - ·) "!!!cutz".toList src5 9 = some (.ok 0) ∧
    craft (runAdds (newBook Int ["x".toList]) hist) (1 - ·) "!z".toList src5 9 = some (.error .exception) := by decide +kernel

/-- C25 is false when an ingredient is listed twice: the function is called with one argument instead of two. -/
theorem repeated_ingredient_fails :
    craft (runAdds (newBook Int ["x".toList]) [⟨"s".toList, fn2 "p" "q" (· + ·), some ["x".toList, "x".toList], false⟩]) (1 - ·) "s".toList src5 9 =
      some (.error .type) := by decide +kernel

end Mass.Recipe
