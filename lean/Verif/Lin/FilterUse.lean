import Verif.Lin.FilterFile
import Mathlib.Data.List.Induction

/-!
# Choosing a filter by name, and the filter that is applied

`compute_filters` of a group chooses between the two kinds of filter by a name; `filter_data`
applies the filter of a channel, and decides by another attribute which way of filtering to use.
Here: which way is used with which weights, after any history of calls.
-/

namespace Mass.Lin.File

variable {K : Type} [Zero K] [DecidableEq K]

/-- Arguments of `compute_filters` for one channel (mass/core/channel_group.py L548): the name, low
pass settings, cuts, is a category given, `forceNew`; besides the noise spectrum and the pulse model
found in the data (see `compute5lagFilter` and `computeAtsFilter`). -/
structure Ask (K : Type) where
  kind : String
  fmax : Option K := none
  f3db : Option K := none
  cutPre : Int := 0
  cutPost : Int := 0
  category : Bool := false
  force : Bool := false
  spec : List K := []
  model : Except Exc (List K × List K × K)

/-- `compute_filters`, mass/core/channel_group.py L548-565, for a group of one channel; a failure is
the exception of the channel (the loop of the group marks the channel bad and goes on). The check for
an outdated attribute (L554-557) is left out. -/
def computeFilters (C : Calc K) (nan : K → Bool) (c : Chan K) (a : Ask K) : Chan K × Except Exc (Option (Fil K)) :=
  if a.kind = "ats" then computeAtsFilter C nan a.model c a.fmax a.f3db a.cutPre a.cutPost a.force
  else if a.kind = "5lag" then
    compute5lagFilter C c a.spec a.fmax a.f3db a.cutPre a.cutPost a.category a.force
  else (c, .error .exception)

/-- The ways of filtering (mass/core/channel.py L1322, L1335, L1339, L1342). -/
inductive Way where
  | fiveCython | atsShift | atsPlain | five
  deriving DecidableEq

/-- The start of `filter_data`, mass/core/channel.py L1311-1345, for records of `n` samples and at
least one segment: the way of filtering, the weights, and the weights for the arrival time. -/
def useFilter (c : Chan K) (n : Nat) (cython : Option Bool) : Except Exc (Way × List K × Option (List K)) :=
  let cy := cython.getD (decide (c.ftype = "5lag"))
  let vals : Except Exc (List K) := match c.filter with
    | some f => .ok f.values
    | none => match c.file.filters with
      | none => .error .key
      | some g => match g.values with
        | none => .error .key
        | some v => .ok v
  match vals with
  | .error e => .error e
  | .ok v =>
    if cy then
      if c.ftype = "ats" then .error .value else .ok (.fiveCython, v, none)
    else if c.ftype = "ats" then
      match c.filter with
      | none => .error .attribute
      | some f =>
        if v.length + 1 = n then .ok (.atsShift, v, f.dtValues)
        else if v.length = n then .ok (.atsPlain, v, f.dtValues)
        else .error .unbound
    else if c.ftype = "5lag" then .ok (.five, v, none)
    else .error .value

/-- Filters are named after their kind, and arrival-time-safe ones have weights for the arrival time
(mass/core/optimal_filtering.py L424, L589), and no NaN occurs. [specification] -/
def Named (C : Calc K) (nan : K → Bool) : Prop :=
  (∀ S a b p q f, C.five S a b p q = .ok f → f.ftype = "5lag") ∧
  ∀ S a b p q f, C.ats S a b p q = .ok f →
    f.ftype = "ats" ∧ f.dtValues.isSome = true ∧ f.values.any nan = false ∧ (f.dtValues.getD []).any nan = false

/-- [specification] What a user relies on: the way of filtering is the one the filter is for, and
memory and file have the same filter. -/
def Fits (c : Chan K) : Prop :=
  ∀ f, c.filter = some f → f.ftype = c.ftype ∧ (f.ftype = "ats" ∨ f.ftype = "5lag") ∧ c.file.filters = some (stored f)

omit [Zero K] [DecidableEq K] in
theorem save_ok {f : Fil K} (h : f.ftype = "ats" → f.dtValues.isSome = true) (h5 : H5 K) :
    save f h5 = .ok { h5 with filters := some (stored f) } := by
  unfold save
  rw [if_neg, savePrefix_all]
  rintro ⟨h1, h2⟩
  have h3 := h h1
  rw [h2] at h3
  exact absurd h3 (by simp)

/-- Each call does one of three things: nothing (with an answer None or an exception), or it puts a
new filter of the kind asked for in memory and file. -/
theorem ask_cases {C : Calc K} {nan : K → Bool} (hC : Named C nan) (c : Chan K) (a : Ask K) :
    (computeFilters C nan c a = (c, .ok none) ∧ c.file.filters.isSome = true ∧ a.force = false) ∨
    (∃ e, computeFilters C nan c a = (c, .error e)) ∨
    ∃ f, f.ftype = a.kind ∧ (a.kind = "ats" ∨ a.kind = "5lag") ∧
      computeFilters C nan c a =
        ({ c with filter := some f, ftype := a.kind, file := { c.file with filters := some (stored f) } }, .ok (some f)) := by
  unfold computeFilters
  by_cases h1 : a.kind = "ats"
  · rw [if_pos h1]
    unfold computeAtsFilter
    split
    · rename_i h; exact .inl ⟨rfl, h⟩
    right
    split
    · exact .inl ⟨_, rfl⟩
    cases hm : a.model with
    | error e => exact .inl ⟨e, rfl⟩
    | ok m =>
      obtain ⟨s, d, pk⟩ := m
      dsimp only
      cases hf : C.ats ⟨s, c.geo.nPre, c.file.noise, none, some d, pk⟩ a.fmax a.f3db a.cutPre a.cutPost with
      | error e => exact .inl ⟨e, rfl⟩
      | ok f =>
        obtain ⟨e1, e2, e3, e4⟩ := hC.2 _ _ _ _ _ _ hf
        right
        refine ⟨f, by rw [e1, h1], .inl h1, ?_⟩
        dsimp only
        rw [if_neg (by rw [e3, e4]; simp), save_ok fun _ => e2]
        simp [e1, h1]
  · rw [if_neg h1]
    by_cases h2 : a.kind = "5lag"
    · rw [if_pos h2]
      unfold compute5lagFilter
      split
      · rename_i h; exact .inl ⟨rfl, h⟩
      right
      split
      · exact .inl ⟨_, rfl⟩
      split
      · exact .inl ⟨_, rfl⟩
      split
      · exact .inl ⟨_, rfl⟩
      cases hf : C.five ⟨c.file.avgPulse, c.geo.nPre - c.ignore, c.file.noise, some a.spec, none, 0⟩ a.fmax a.f3db a.cutPre a.cutPost with
      | error e => exact .inl ⟨e, rfl⟩
      | ok f =>
        have e1 := hC.1 _ _ _ _ _ _ hf
        right
        refine ⟨f, by rw [e1, h2], .inr h2, ?_⟩
        dsimp only
        rw [save_ok fun h => by rw [e1] at h; exact absurd h (by decide)]
        simp [h2]
    · rw [if_neg h2]
      exact .inr (.inl ⟨_, rfl⟩)

/-- C201. If a call computes a filter, it is of the kind asked for, and filtering then uses its
weights in the way of that kind. -/
theorem asked_used {C : Calc K} {nan : K → Bool} (hC : Named C nan) (c : Chan K) (a : Ask K) (f : Fil K) (n : Nat)
    (h : (computeFilters C nan c a).2 = .ok (some f)) :
    f.ftype = a.kind ∧
    (a.kind = "5lag" → useFilter (computeFilters C nan c a).1 n none = .ok (.fiveCython, f.values, none) ∧
      useFilter (computeFilters C nan c a).1 n (some false) = .ok (.five, f.values, none)) ∧
    (a.kind = "ats" → (f.values.length + 1 = n → useFilter (computeFilters C nan c a).1 n none = .ok (.atsShift, f.values, f.dtValues)) ∧
      (f.values.length = n → useFilter (computeFilters C nan c a).1 n none = .ok (.atsPlain, f.values, f.dtValues)) ∧
      useFilter (computeFilters C nan c a).1 n (some true) = .error .value) := by
  rcases ask_cases hC c a with ⟨e, -⟩ | ⟨x, e⟩ | ⟨g, h1, -, e⟩
  · rw [e] at h; simp at h
  · rw [e] at h; simp at h
  · rw [e] at h ⊢
    simp only [Except.ok.injEq, Option.some.injEq] at h
    subst h
    refine ⟨h1, fun hk => ?_, fun hk => ⟨fun hl => ?_, fun hl => ?_, ?_⟩⟩
    · simp [useFilter, hk]
    · simp [useFilter, hk, hl]
    · simp [useFilter, hk, hl]
    · simp [useFilter, hk]

/-- C201. After any history of calls, of any kinds, successful or not, the way of filtering is the one
the filter is for, and file and memory have the same filter. -/
theorem fits_history {C : Calc K} {nan : K → Bool} (hC : Named C nan) (l : List (Ask K)) : ∀ c : Chan K, Fits c →
    Fits (l.foldl (fun c a => (computeFilters C nan c a).1) c) := by
  induction l with
  | nil => exact fun c h => h
  | cons a t ih =>
    intro c h
    rw [List.foldl_cons]
    apply ih
    rcases ask_cases hC c a with ⟨e, -⟩ | ⟨x, e⟩ | ⟨g, h1, h2, e⟩
    · rw [e]; exact h
    · rw [e]; exact h
    · rw [e]
      intro f hf
      simp only [Option.some.injEq] at hf
      subst hf
      exact ⟨h1, by rw [h1]; exact h2, rfl⟩

/-- C201. A name that is neither "ats" nor "5lag" raises, and nothing changes, even with
`forceNew`. -/
theorem unknown_kind (C : Calc K) (nan : K → Bool) (c : Chan K) (a : Ask K) (h1 : a.kind ≠ "ats") (h2 : a.kind ≠ "5lag") :
    computeFilters C nan c a = (c, .error .exception) := by
  unfold computeFilters
  rw [if_neg h1, if_neg h2]

/-- Disagreement (C201): asking for the other kind of filter without `forceNew`, when a channel has a
filter already, raises nothing and leaves the old kind in use. -/
theorem other_kind_fails (C : Calc K) (nan : K → Bool) (c : Chan K) (f : Fil K) (a : Ask K) (hf : c.filter = some f)
    (hc : Fits c) (hk : a.kind = "ats" ∧ f.ftype = "5lag" ∨ a.kind = "5lag" ∧ f.ftype = "ats") (ha : a.force = false) (n : Nat) :
    (computeFilters C nan c a).2 = .ok none ∧ (computeFilters C nan c a).1.ftype ≠ a.kind ∧
    useFilter (computeFilters C nan c a).1 n none = useFilter c n none := by
  obtain ⟨h1, -, h3⟩ := hc f hf
  have hs : c.file.filters.isSome = true := by rw [h3]; rfl
  have key : computeFilters C nan c a = (c, .ok none) := by
    unfold computeFilters
    rw [ha]
    rcases hk with ⟨k, -⟩ | ⟨k, -⟩
    · rw [if_pos k]
      exact (existing_kept C nan a.model c hs a.spec a.fmax a.f3db a.cutPre a.cutPost a.category).2
    · rw [if_neg (by rw [k]; decide), if_pos k]
      exact (existing_kept C nan a.model c hs a.spec a.fmax a.f3db a.cutPre a.cutPost a.category).1
  rw [key]
  refine ⟨rfl, ?_, rfl⟩
  rcases hk with ⟨k, l⟩ | ⟨k, l⟩ <;> rw [k, ← h1, l] <;> decide

/-- Disagreement (C201): if an arrival-time-safe filter comes out with NaN in a channel with a five-lag
filter, the call raises, and filtering then applies the weights with NaN in the five-lag way. -/
theorem nan_used_fails {C : Calc K} {nan : K → Bool} {s d : List K} {pk : K} {c : Chan K} {f : Fil K} (ht : c.ftype = "5lag")
    (hn : c.file.noise.all (· = 0) = false) (hf : C.ats ⟨s, c.geo.nPre, c.file.noise, none, some d, pk⟩ none none 0 0 = .ok f)
    (hbad : f.values.any nan = true) (n : Nat) :
    let r := computeFilters C nan c { kind := "ats", force := true, model := .ok (s, d, pk) }
    r.2 = .error .exception ∧ useFilter r.1 n none = .ok (.fiveCython, f.values, none) := by
  have h : computeFilters C nan c { kind := "ats", force := true, model := .ok (s, d, pk) } =
      ({ c with filter := some f }, .error .exception) := by
    unfold computeFilters
    rw [if_pos rfl]
    exact nan_filter_fails hn hf hbad
  rw [h]
  refine ⟨rfl, ?_⟩
  simp [useFilter, ht]

/-- `filter_data`, mass/core/channel.py L1299-1355: the filtered values kept afterwards. `apply` filters
all records in a given way (C109). If it raises, the values are as before. -/
def filterData (apply : Way × List K × Option (List K) → List K) (n : Nat) (c : Chan K) (out : List K) (cython : Option Bool) (force : Bool) :
    Except Exc Unit × List K :=
  if ¬ (force = true ∨ out.all (· = 0)) then (.ok (), out)
  else match useFilter c n cython with
    | .error e => (.error e, out)
    | .ok u => (.ok (), apply u)

/-- What a user does: ask for a filter (mass/core/channel_group.py L548-565), or filter the data
(mass/core/channel.py L1299-1355). -/
inductive Act (K : Type) where
  | ask (a : Ask K)
  | filter (cython : Option Bool) (force : Bool)

/-- One act, on a channel and its filtered values (mass/core/channel_group.py L548-565,
mass/core/channel.py L1299-1355). -/
def act (C : Calc K) (nan : K → Bool) (apply : Way × List K × Option (List K) → List K) (n : Nat) (s : Chan K × List K) : Act K → Chan K × List K
  | .ask a => ((computeFilters C nan s.1 a).1, s.2)
  | .filter cy force => (s.1, (filterData apply n s.1 s.2 cy force).2)

/-- C201. After any history the filtered values are those at the beginning, or all come from one call,
with the filter the channel had then, in the way that filter is for: never a mixture. -/
theorem filtered_history {C : Calc K} {nan : K → Bool} (hC : Named C nan) (apply : Way × List K × Option (List K) → List K) (n : Nat)
    (s : Chan K × List K) (hs : Fits s.1) (h : List (Act K)) :
    Fits (h.foldl (act C nan apply n) s).1 ∧
    ((h.foldl (act C nan apply n) s).2 = s.2 ∨
      ∃ pre cy force post u, h = pre ++ Act.filter cy force :: post ∧ Fits (pre.foldl (act C nan apply n) s).1 ∧
        useFilter (pre.foldl (act C nan apply n) s).1 n cy = .ok u ∧ (h.foldl (act C nan apply n) s).2 = apply u) := by
  induction h using List.reverseRecOn with
  | nil => exact ⟨hs, .inl rfl⟩
  | append_singleton t e ih =>
    obtain ⟨i1, i2⟩ := ih
    have hr : (t ++ [e]).foldl (act C nan apply n) s = act C nan apply n (t.foldl (act C nan apply n) s) e := by
      simp [List.foldl_append]
    have keep : (act C nan apply n (t.foldl (act C nan apply n) s) e).2 = (t.foldl (act C nan apply n) s).2 →
        ((t ++ [e]).foldl (act C nan apply n) s).2 = s.2 ∨
        ∃ pre cy force post u, t ++ [e] = pre ++ Act.filter cy force :: post ∧ Fits (pre.foldl (act C nan apply n) s).1 ∧
          useFilter (pre.foldl (act C nan apply n) s).1 n cy = .ok u ∧ ((t ++ [e]).foldl (act C nan apply n) s).2 = apply u := by
      intro hk
      rcases i2 with i2 | ⟨pre, cy, force, post, u, j1, j2, j3, j4⟩
      · exact .inl (by rw [hr, hk, i2])
      · exact .inr ⟨pre, cy, force, post ++ [e], u, by simp [j1], j2, j3, by rw [hr, hk, j4]⟩
    cases e with
    | ask a =>
      refine ⟨?_, keep rfl⟩
      rw [hr]
      exact fits_history hC [a] _ i1
    | filter cy force =>
      refine ⟨by rw [hr]; exact i1, ?_⟩
      by_cases hd : ¬ (force = true ∨ (t.foldl (act C nan apply n) s).2.all (· = 0))
      · exact keep (by simp only [act, filterData]; rw [if_pos hd])
      · cases hu : useFilter (t.foldl (act C nan apply n) s).1 n cy with
        | error e => exact keep (by simp only [act, filterData]; rw [if_neg hd, hu])
        | ok u =>
          refine .inr ⟨t, cy, force, [], u, rfl, i1, hu, ?_⟩
          rw [hr]
          simp only [act, filterData]
          rw [if_neg hd, hu]

/-- C201. With `forceNew` the filtered values are those of the filter the channel has now. -/
theorem filtered_new (apply : Way × List K × Option (List K) → List K) (n : Nat) (c : Chan K) (out : List K) (cy : Option Bool)
    (u : Way × List K × Option (List K)) (h : useFilter c n cy = .ok u) : filterData apply n c out cy true = (.ok (), apply u) := by
  unfold filterData
  rw [if_neg (by simp), h]

/-- Disagreement (C201): after a new filter is computed, `filter_data()` without `forceNew` keeps the
values of the old one. -/
theorem filtered_stale_fails (C : Calc K) (nan : K → Bool) (apply : Way × List K × Option (List K) → List K) (n : Nat) (c : Chan K) (out : List K)
    (a : Ask K) (cy : Option Bool) (hn : ∃ x ∈ out, x ≠ 0) (u : Way × List K × Option (List K))
    (hu : useFilter (computeFilters C nan c a).1 n cy = .ok u) (hd : apply u ≠ out) :
    (filterData apply n (computeFilters C nan c a).1 out cy false).1 = .ok () ∧
    (filterData apply n (computeFilters C nan c a).1 out cy false).2 = out ∧
    (filterData apply n (computeFilters C nan c a).1 out cy true).2 ≠ out := by
  have h1 : ¬ (false = true ∨ out.all (· = 0)) := by
    obtain ⟨x, hx, h0⟩ := hn
    rintro (h | h)
    · simp at h
    · rw [List.all_eq_true] at h
      exact h0 (by simpa using h x hx)
  refine ⟨?_, ?_, ?_⟩
  · unfold filterData; rw [if_pos h1]
  · unfold filterData; rw [if_pos h1]
  · rw [filtered_new apply n _ out cy u hu]; exact hd

/-- Filters for the examples: the signal as weights. [specification] -/
def plainCalc : Calc ℚ :=
  ⟨fun S a b p q => .ok ⟨S.signal, 1, 1, 1, some (S.dt.getD []), none, none, none, 1, a, b, p, q, "ats"⟩,
   fun S a b p q => .ok ⟨S.signal, 1, 1, 1, none, none, none, none, 5, a, b, p, q, "5lag"⟩,
   fun _ _ _ _ _ => .error .exception⟩

/-- The hypothesis `Named` can be met. -/
example : Named plainCalc (fun _ => false) := by
  refine ⟨fun S a b p q f h => ?_, fun S a b p q f h => ?_⟩
  · injection h with h; rw [← h]
  · injection h with h; rw [← h]; simp

/-- A channel with records of three samples. [specification] -/
def plainChan : Chan ℚ := ⟨⟨1⟩, ⟨none, [0, 2, 1], [1, 0, 0], [1, 1]⟩, none, "ats", 0⟩

example :
    let c1 := (computeFilters plainCalc (fun _ => false) plainChan { kind := "5lag", model := .ok ([3, 4], [1, 1], 9) }).1
    let c2 := (computeFilters plainCalc (fun _ => false) c1 { kind := "ats", model := .ok ([3, 4], [1, 1], 9) }).1
    let c3 := (computeFilters plainCalc (fun _ => false) c2 { kind := "ats", force := true, model := .ok ([3, 4], [1, 1], 9) }).1
    useFilter c1 3 none = .ok (.fiveCython, [0, 2, 1], none) ∧ useFilter c2 3 none = useFilter c1 3 none ∧
    useFilter c3 3 none = .ok (.atsShift, [3, 4], some [1, 1]) := by
  decide +kernel

/-- The values of the five-lag filter stay when an arrival-time-safe one is computed. -/
example :
    (([.ask { kind := "5lag", model := .error .exception }, .filter none false,
      .ask { kind := "ats", force := true, model := .ok ([3, 4], [1, 1], 9) }, .filter none false] : List (Act ℚ)).foldl
      (act plainCalc (fun _ => false) (fun u => u.2.1) 3) (plainChan, [0])).2 = [0, 2, 1] ∧
    (([.ask { kind := "5lag", model := .error .exception }, .filter none false,
      .ask { kind := "ats", force := true, model := .ok ([3, 4], [1, 1], 9) }, .filter none true] : List (Act ℚ)).foldl
      (act plainCalc (fun _ => false) (fun u => u.2.1) 3) (plainChan, [0])).2 = [3, 4] := by
  decide +kernel

end Mass.Lin.File
