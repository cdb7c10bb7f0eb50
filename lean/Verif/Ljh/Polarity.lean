import Verif.Ljh.Inverted
import Mathlib.Data.List.Induction

/-!
# Results and the polarity of the data

Summaries and average pulses are kept in the HDF5 file and computed again only if asked with
`forceNew` or if they are all zero.  Here: which reading of the data (inverted or not, see C198)
the kept results belong to, after any history of settings, of opening the files again and of
computing.
-/

namespace Mass.Ljh.Polarity

open Mass Mass.Ljh.Inverted

/-- What is computed, as any functions: `sums` gives one row of summaries for each record
(mass/core/channel.py L935-984), `avg` an average pulse (L1088-1092). `α` and `μ` are the other
arguments of the calls. `mean` is the pretrigger mean of a row. Calls that raise are left out, and so
is what else they read from the channel (the number of presamples and the like, fixed here). -/
structure Tools (S α μ : Type) where
  sums : α → List Rec → List S
  avg : μ → List Rec → List Int
  mean : S → Int

/-- A channel: is the data inverted when read, and the results in the HDF5 file
(mass/core/channel.py L578-582, L684-729). -/
structure Chan (S : Type) where
  inv : Bool
  rows : List S
  pulse : List Int

/-- What a user does (mass/core/channel.py L578-582, L898-984, L1071-1092; `reopen` is making the
group again with `invert_data`, mass/core/channel_group.py L233-241). -/
inductive Ev (α μ : Type) where
  | set (b : Bool)
  | reopen (b : Bool)
  | summarize (a : α) (force : Bool)
  | average (m : μ) (force : Bool)

variable {S α μ : Type}

/-- `summarize_data` (mass/core/channel.py L926-929 decide, L950-971 compute). -/
def summarize (T : Tools S α μ) (raw : List Rec) (a : α) (force : Bool) (c : Chan S) : Chan S :=
  if !(c.rows.all (fun r => T.mean r == 0) || force) then c
  else { c with rows := T.sums a (raw.map (seen c.inv)) }

/-- `compute_average_pulse` (mass/core/channel.py L1083-1092). -/
def average (T : Tools S α μ) (raw : List Rec) (m : μ) (force : Bool) (c : Chan S) : Chan S :=
  if c.pulse.any (· != 0) && !force then c
  else { c with pulse := T.avg m (raw.map (seen c.inv)) }

/-- One step of a user (mass/core/channel.py L578-582, L898-984, L1071-1092). A group made again
finds the results in the file (channel.py L684-729). -/
def step (T : Tools S α μ) (raw : List Rec) (c : Chan S) : Ev α μ → Chan S
  | .set b => { c with inv := b }
  | .reopen b => { c with inv := b }
  | .summarize a force => summarize T raw a force c
  | .average m force => average T raw m force c

/-- Any history (mass/core/channel.py L578-582, L898-984, L1071-1092). -/
def run (T : Tools S α μ) (raw : List Rec) (c : Chan S) (h : List (Ev α μ)) : Chan S :=
  h.foldl (step T raw) c

/-- [specification] The setting an event makes. -/
def Ev.setting : Ev α μ → Option Bool
  | .set b => some b
  | .reopen b => some b
  | _ => none

/-- [specification] The setting after a history: the last one made. -/
def polarity (b : Bool) (h : List (Ev α μ)) : Bool := ((h.filterMap Ev.setting).getLast?).getD b

theorem step_inv (T : Tools S α μ) (raw : List Rec) (c : Chan S) (e : Ev α μ) :
    (step T raw c e).inv = e.setting.getD c.inv := by
  cases e <;> simp only [step, Ev.setting, Option.getD_some, Option.getD_none]
  · unfold summarize; split <;> rfl
  · unfold average; split <;> rfl

/-- Computing never changes how the data are read: the setting is the last one made. -/
theorem run_inv (T : Tools S α μ) (raw : List Rec) (h : List (Ev α μ)) : ∀ c : Chan S,
    (run T raw c h).inv = polarity c.inv h := by
  induction h with
  | nil => intro c; rfl
  | cons e t ih =>
    intro c
    have h1 := ih (step T raw c e)
    simp only [run, List.foldl_cons] at h1 ⊢
    rw [h1, step_inv]
    unfold polarity
    cases he : e.setting with
    | none => simp [List.filterMap_cons, he]
    | some b =>
      simp only [List.filterMap_cons, he, Option.getD_some]
      cases hl : t.filterMap Ev.setting with
      | nil => simp
      | cons x l => simp [List.getLast?_cons_cons, List.getLast?_eq_some_getLast]

theorem run_append (T : Tools S α μ) (raw : List Rec) (c : Chan S) (g h : List (Ev α μ)) :
    run T raw c (g ++ h) = run T raw (run T raw c g) h := by
  simp [run, List.foldl_append]

/-- Never a mixture: after any history the summaries are those of the file at the beginning, or
all of them are from one call, from the data as they were read at that call; no call after it
asked for new ones. -/
theorem one_reading (T : Tools S α μ) (raw : List Rec) (c : Chan S) (h : List (Ev α μ)) :
    ((run T raw c h).rows = c.rows ∧ ∀ a, Ev.summarize a true ∉ h) ∨
    ∃ pre a force post, h = pre ++ Ev.summarize a force :: post ∧
      (run T raw c h).rows = T.sums a (raw.map (seen (polarity c.inv pre))) ∧
      ∀ a', Ev.summarize a' true ∉ post := by
  induction h using List.reverseRecOn with
  | nil => left; simp [run]
  | append_singleton t e ih =>
    have hr : run T raw c (t ++ [e]) = step T raw (run T raw c t) e := by
      simp [run, List.foldl_append]
    have keep : (step T raw (run T raw c t) e).rows = (run T raw c t).rows →
        (∀ a, e ≠ Ev.summarize a true) →
        ((run T raw c (t ++ [e])).rows = c.rows ∧ ∀ a, Ev.summarize a true ∉ t ++ [e]) ∨
        ∃ pre a force post, t ++ [e] = pre ++ Ev.summarize a force :: post ∧
          (run T raw c (t ++ [e])).rows = T.sums a (raw.map (seen (polarity c.inv pre))) ∧
          ∀ a', Ev.summarize a' true ∉ post := by
      intro h1 h2
      rcases ih with ⟨i1, i2⟩ | ⟨pre, a, force, post, i1, i2, i3⟩
      · left
        refine ⟨by rw [hr, h1, i1], fun a ha => ?_⟩
        rcases List.mem_append.1 ha with ha | ha
        · exact i2 a ha
        · exact h2 a (List.mem_singleton.1 ha).symm
      · right
        refine ⟨pre, a, force, post ++ [e], by simp [i1], by rw [hr, h1, i2], fun a' ha => ?_⟩
        rcases List.mem_append.1 ha with ha | ha
        · exact i3 a' ha
        · exact h2 a' (List.mem_singleton.1 ha).symm
    cases e with
    | set b => exact keep rfl (by simp)
    | reopen b => exact keep rfl (by simp)
    | average m force =>
      refine keep ?_ (by simp)
      simp only [step, average]; split <;> rfl
    | summarize a force =>
      by_cases hd : (!((run T raw c t).rows.all (fun r => T.mean r == 0) || force)) = true
      · refine keep (by simp only [step, summarize, hd, if_true]) ?_
        intro a' ha
        injection ha with _ hf
        simp [hf] at hd
      · right
        refine ⟨t, a, force, [], rfl, ?_, by simp⟩
        rw [hr]
        simp only [step, summarize]
        rw [if_neg hd, run_inv]

/-- The summaries asked for with `forceNew` stay as long as none are asked for again, whatever is
set meanwhile. -/
theorem kept (T : Tools S α μ) (raw : List Rec) (c : Chan S) (pre post : List (Ev α μ)) (a : α)
    (hn : ∃ r ∈ T.sums a (raw.map (seen (polarity c.inv pre))), T.mean r ≠ 0)
    (hp : ∀ a', Ev.summarize a' true ∉ post) :
    (run T raw c (pre ++ Ev.summarize a true :: post)).rows =
      T.sums a (raw.map (seen (polarity c.inv pre))) := by
  induction post using List.reverseRecOn with
  | nil => simp [run, List.foldl_append, step, summarize, ← run_inv T raw pre c]
  | append_singleton t e ih =>
    have ih := ih fun a' ha => hp a' (List.mem_append_left _ ha)
    have hr : run T raw c (pre ++ Ev.summarize a true :: (t ++ [e])) =
        step T raw (run T raw c (pre ++ Ev.summarize a true :: t)) e := by
      rw [show pre ++ Ev.summarize a true :: (t ++ [e]) =
        (pre ++ Ev.summarize a true :: t) ++ [e] by simp, run_append]
      rfl
    rw [hr]
    cases e with
    | set b => exact ih
    | reopen b => exact ih
    | average m force =>
      rw [← ih]; simp only [step, average]; split <;> rfl
    | summarize a' force =>
      cases force with
      | true => exact absurd (by simp) (hp a')
      | false =>
        obtain ⟨r, h1, h2⟩ := hn
        have : (run T raw c (pre ++ Ev.summarize a true :: t)).rows.all
            (fun r => T.mean r == 0) = false := by
          rw [ih, List.all_eq_false]
          exact ⟨r, h1, by simpa using h2⟩
        simp only [step, summarize, this, Bool.or_self, Bool.not_false, if_true]
        exact ih

/-- C200, as far as it is true: summaries asked for with `forceNew` belong to the data as they are
read now, if the polarity was not set differently since. -/
theorem fresh_partial (T : Tools S α μ) (raw : List Rec) (c : Chan S) (pre post : List (Ev α μ))
    (a : α) (hn : ∃ r ∈ T.sums a (raw.map (seen (polarity c.inv pre))), T.mean r ≠ 0)
    (hp : ∀ a', Ev.summarize a' true ∉ post)
    (hs : ∀ e ∈ post, ∀ b, e.setting = some b → b = polarity c.inv pre) :
    (run T raw c (pre ++ Ev.summarize a true :: post)).rows =
      T.sums a (raw.map (seen (run T raw c (pre ++ Ev.summarize a true :: post)).inv)) := by
  rw [kept T raw c pre post a hn hp, run_append, run_inv, run_inv]
  congr 3
  unfold polarity at hs ⊢
  simp only [List.filterMap_cons, Ev.setting]
  cases hl : (post.filterMap Ev.setting).getLast? with
  | none => rfl
  | some b =>
    obtain ⟨e, he, hb⟩ := List.mem_filterMap.1 (List.mem_of_getLast? hl)
    simp [hs e he b hb]

/-- The average pulse stays too: a nonzero one is kept until asked for with `forceNew`, whatever is
set, opened again or summarized meanwhile. -/
theorem pulse_kept (T : Tools S α μ) (raw : List Rec) (c : Chan S) (hn : ∃ x ∈ c.pulse, x ≠ 0)
    (h : List (Ev α μ)) (hp : ∀ m, Ev.average m true ∉ h) : (run T raw c h).pulse = c.pulse := by
  induction h using List.reverseRecOn with
  | nil => rfl
  | append_singleton t e ih =>
    have ih := ih fun m hm => hp m (List.mem_append_left _ hm)
    have hr : run T raw c (t ++ [e]) = step T raw (run T raw c t) e := by
      simp [run, List.foldl_append]
    rw [hr]
    cases e with
    | set b => exact ih
    | reopen b => exact ih
    | summarize a force =>
      rw [← ih]; simp only [step, summarize]; split <;> rfl
    | average m force =>
      cases force with
      | true => exact absurd (by simp) (hp m)
      | false =>
        obtain ⟨x, h1, h2⟩ := hn
        have : (run T raw c t).pulse.any (· != 0) = true := by
          rw [ih, List.any_eq_true]
          exact ⟨x, h1, by simpa using h2⟩
        simp only [step, average, this, Bool.not_false, Bool.and_self, if_true]
        exact ih

/-- An average pulse asked for with `forceNew` is that of the data as they are read then. -/
theorem pulse_new (T : Tools S α μ) (raw : List Rec) (c : Chan S) (h : List (Ev α μ)) (m : μ) :
    (run T raw c (h ++ [Ev.average m true])).pulse =
      T.avg m (raw.map (seen (polarity c.inv h))) := by
  rw [run_append, ← run_inv T raw h c]
  simp [run, step, average]

/-- Disagreement (C200): if the polarity is changed, or the files are opened again with another
polarity, then `summarize_data()` leaves the summaries of the old polarity in place, though they
differ from those of the data as read now; only `forceNew` helps. -/
theorem stale_fails (T : Tools S α μ) (raw : List Rec) (c : Chan S) (a : α) (e : Ev α μ)
    (he : e.setting = some (!c.inv))
    (hn : ∃ r ∈ T.sums a (raw.map (seen c.inv)), T.mean r ≠ 0)
    (hd : T.sums a (raw.map (seen c.inv)) ≠ T.sums a (raw.map (seen (!c.inv)))) :
    let d := run T raw c [Ev.summarize a true, e, Ev.summarize a false]
    d.inv = !c.inv ∧ d.rows = T.sums a (raw.map (seen c.inv)) ∧
    d.rows ≠ T.sums a (raw.map (seen d.inv)) := by
  have h1 := kept T raw c [] [e, Ev.summarize a false] a hn (by
    intro a' ha
    rcases List.mem_cons.1 ha with h | h
    · rw [← h] at he; simp [Ev.setting] at he
    · simp at h)
  have h2 := run_inv T raw [Ev.summarize a true, e, Ev.summarize a false] c
  have h3 : polarity c.inv [Ev.summarize a true, e, Ev.summarize a false] = !c.inv := by
    have s1 : ∀ f, (Ev.summarize a f : Ev α μ).setting = none := fun _ => rfl
    simp only [polarity, List.filterMap_cons, s1, he, List.filterMap_nil, List.getLast?_singleton, Option.getD_some]
  rw [h3] at h2
  refine ⟨h2, h1, ?_⟩
  rw [h2]
  exact fun h => hd (h1.symm.trans h)

/-- Tools for the examples: the first sample as the pretrigger mean, the first record as the
average pulse. [specification] -/
def tools : Tools Int Unit Unit :=
  ⟨fun _ l => l.map fun r => ((r.headD 0).toNat : Int),
   fun _ l => (l.headD []).map fun x => (x.toNat : Int), id⟩

example : (run tools [[5, 3], [6, 2]] ⟨false, [0, 0], [0, 0]⟩
    [.summarize () false, .set true, .summarize () false, .average () false]).rows = [5, 6] ∧
    (run tools [[5, 3], [6, 2]] ⟨false, [0, 0], [0, 0]⟩
    [.summarize () false, .set true, .summarize () true]).rows = [65530, 65529] ∧
    (run tools [[5, 3], [6, 2]] ⟨false, [0, 0], [0, 0]⟩
    [.reopen true, .average () false, .set false, .average () false]).pulse = [65530, 65532] := by
  decide +kernel

/-- The hypotheses of `stale_fails` and `kept` are met. -/
example : (∃ r ∈ tools.sums () ([[5, 3], [6, 2]].map (seen false)), tools.mean r ≠ 0) ∧
    tools.sums () ([[5, 3], [6, 2]].map (seen false)) ≠
      tools.sums () ([[5, 3], [6, 2]].map (seen true)) :=
  ⟨⟨5, by decide +kernel, by decide +kernel⟩, by decide +kernel⟩

end Mass.Ljh.Polarity
