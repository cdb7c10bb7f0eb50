import Verif.Group.Model
/-! C27, C28, C53: channel groups. -/
namespace Mass.Group

/-! ### C27, off-style groups -/
section off
variable {S R : Type}

/-- the method fails with an ordinary exception, or not at all [specification] -/
def NoInterrupt {S R : Type} (m : Nat → S → S × Except Err R) : Prop := ∀ n s e, (m n s).2 = .error e → ∃ t, e = .exc t

/-- what a channel becomes [specification] -/
def after (inc : Bool) (mname : String) (m : Nat → S → S × Except Err R) (c : Chan S) : Chan S :=
  if inc = false ∧ c.bad.isSome then c
  else match (m c.num c.st).2 with
    | .ok _ => ⟨c.num, (m c.num c.st).1, c.bad⟩
    | .error (.exc e) => ⟨c.num, (m c.num c.st).1, some (e ++ " during " ++ mname)⟩
    | .error _ => ⟨c.num, (m c.num c.st).1, c.bad⟩

/-- the channel is skipped or its call succeeds [specification] -/
def fine (inc : Bool) (m : Nat → S → S × Except Err R) (c : Chan S) : Prop := (inc = false ∧ c.bad.isSome) ∨ ∃ z, (m c.num c.st).2 = .ok z

/-- the results of the channels that ran without an exception [specification] -/
def results (inc : Bool) (m : Nat → S → S × Except Err R) (cs : List (Chan S)) : List (Nat × R) :=
  cs.filterMap (fun c => if inc = false ∧ c.bad.isSome then none else match (m c.num c.st).2 with | .ok z => some (c.num, z) | .error _ => none)

/-- C27. The looped method runs exactly once on every channel that was good (each channel ends in the state one call makes from its own
state), failing channels are marked bad with the exception's text, the others keep their mark, previously bad channels are as
they were, and the results are those of the calls that succeeded, in order. -/
theorem off_loop_isolates {m : Nat → S → S × Except Err R} (hm : NoInterrupt m) (inc : Bool) (mname : String) (cs : List (Chan S)) :
    offLoop inc false mname m cs = (cs.map (after inc mname m), .ok (results inc m cs)) := by
  induction cs with
  | nil => rfl
  | cons c t ih =>
    unfold offLoop
    rw [ih]
    unfold results
    rw [List.map_cons, List.filterMap_cons]
    by_cases hb : inc = false ∧ c.bad.isSome
    · rw [if_pos hb, if_pos hb]
      simp [after, hb]
    · rw [if_neg hb, if_neg hb]
      cases hr : m c.num c.st with
      | mk s r =>
        have h := hm c.num c.st
        rw [hr] at h
        cases r with
        | ok z => simp only [after, if_neg hb, hr, Except.map, results]
        | error e =>
          obtain ⟨x, rfl⟩ := h e rfl
          simp only [after, if_neg hb, hr, results]
          rfl

/-- C27. With rethrow, or on KeyboardInterrupt, the first failing channel stops the loop with its exception; later channels are untouched. -/
theorem off_loop_stops {m : Nat → S → S × Except Err R} (inc rethrow : Bool) (mname : String) (pre post : List (Chan S)) (c : Chan S)
    (hpre : ∀ x ∈ pre, fine inc m x) (hc : ¬ (inc = false ∧ c.bad.isSome)) {e : Err} (he : (m c.num c.st).2 = .error e)
    (hr : rethrow = true ∨ ∀ t, e ≠ .exc t) :
    offLoop inc rethrow mname m (pre ++ c :: post) = (pre.map (after inc mname m) ++ after inc mname m c :: post, .error e) := by
  induction pre with
  | nil =>
    rw [List.nil_append]
    unfold offLoop
    rw [if_neg hc]
    cases hm : m c.num c.st with
    | mk s r =>
      rw [hm] at he
      dsimp only at he
      subst he
      cases e with
      | exc t =>
        rcases hr with hr | hr
        · subst hr; simp [after, hc, hm]
        · exact absurd rfl (hr t)
      | interrupt => simp [after, hc, hm]
      | key => simp [after, hc, hm]
      | type => simp [after, hc, hm]
  | cons x t ih =>
    have ih := ih (fun y hy => hpre y (by simp [hy]))
    rw [List.cons_append]
    unfold offLoop
    rw [ih, List.map_cons]
    rcases hpre x (by simp) with hx | ⟨z, hz⟩
    · rw [if_pos hx]; simp [after, hx]
    · by_cases hx : inc = false ∧ x.bad.isSome
      · rw [if_pos hx]; simp [after, hx]
      · rw [if_neg hx]
        cases hm : m x.num x.st with
        | mk s r =>
          rw [hm] at hz
          dsimp only at hz
          subst hz
          simp [after, hx, hm, Except.map]

/-- C27, instance: channel 3 fails, channel 2 was bad before -/
example : offLoop false false "f" (fun n s => (s + n, if n = 3 then .error (.exc "boom") else .ok (10 * s)))
      [⟨1, 0, none⟩, ⟨2, 0, some "old"⟩, ⟨3, 0, none⟩, ⟨4, 1, none⟩] =
    ([⟨1, 1, none⟩, ⟨2, 0, some "old"⟩, ⟨3, 3, some "boom during f"⟩, ⟨4, 5, none⟩], .ok [(1, 0), (4, 10)]) := by decide +kernel
end off

/-! ### dictionaries -/

theorem find_assign_self {α : Type} (d : List (Nat × α)) (k : Nat) (v : α) : find (assign d k v) k = some v := by
  unfold assign
  split
  · rename_i h
    induction d with
    | nil => simp [find] at h
    | cons e t ih =>
      unfold find at *
      by_cases he : e.1 = k
      · simp [he]
      · have h' : (e.1 == k) = false := by simpa using he
        rw [List.find?_cons, h'] at h
        rw [List.map_cons, if_neg he, List.find?_cons, h']
        exact ih h
  · rename_i h
    unfold find at *
    rw [List.find?_append]
    cases hf : List.find? (fun e => e.1 == k) d with
    | some x => rw [hf] at h; simp at h
    | none => simp

theorem find_map_ne {α : Type} (d : List (Nat × α)) {k k' : Nat} (v : α) (h : k' ≠ k) :
    find (d.map (fun e => if e.1 = k then (k, v) else e)) k' = find d k' := by
  unfold find
  congr 1
  induction d with
  | nil => rfl
  | cons e t ih =>
    rw [List.map_cons, List.find?_cons, List.find?_cons, ih]
    by_cases hk : e.1 = k
    · rw [if_pos hk]
      rw [show (e.1 == k') = false by rw [hk]; simpa using Ne.symm h, show ((k, v).1 == k') = false by simpa using Ne.symm h]
    · rw [if_neg hk]

theorem find_assign_ne {α : Type} (d : List (Nat × α)) {k k' : Nat} (v : α) (h : k' ≠ k) : find (assign d k v) k' = find d k' := by
  unfold assign
  split
  · exact find_map_ne d v h
  · unfold find
    rw [List.find?_append]
    have : List.find? (fun e => e.1 == k') [(k, v)] = none := by simp [Ne.symm h]
    rw [this, Option.or_none]

theorem find_assign {α : Type} (d : List (Nat × α)) (k k' : Nat) (v : α) : find (assign d k v) k' = if k' = k then some v else find d k' := by
  split
  · rename_i h; subst h; exact find_assign_self d _ v
  · rename_i h; exact find_assign_ne d v h

theorem find_erase {α : Type} (d : List (Nat × α)) (k k' : Nat) : find (erase d k) k' = if k' = k then none else find d k' := by
  unfold find erase
  induction d with
  | nil => simp
  | cons e t ih =>
    rw [List.filter_cons]
    by_cases he : e.1 = k
    · rw [if_neg (by simpa using he), ih]
      by_cases hk : k' = k
      · rw [if_pos hk]; simp [hk]
      · rw [if_neg hk, if_neg hk, List.find?_cons, show (e.1 == k') = false by rw [he]; simpa using Ne.symm hk]
    · rw [if_pos (by simpa using he), List.find?_cons, List.find?_cons]
      by_cases hk : e.1 = k'
      · have hkk : k' ≠ k := fun h => he (hk.trans h)
        rw [if_neg hkk, show (e.1 == k') = true by simpa using hk]
      · rw [show (e.1 == k') = false by simpa using hk]; exact ih

theorem find_isSome {α : Type} (d : List (Nat × α)) (k : Nat) : (find d k).isSome = true ↔ k ∈ d.map Prod.fst := by
  unfold find
  rw [Option.isSome_map, List.find?_isSome, List.mem_map]
  constructor
  · rintro ⟨e, he, hk⟩; exact ⟨e, he, by simpa using hk⟩
  · rintro ⟨e, he, hk⟩; exact ⟨e, he, by simpa using hk⟩

theorem assign_keys {α : Type} (d : List (Nat × α)) (k : Nat) (v : α) :
    (assign d k v).map Prod.fst = if k ∈ d.map Prod.fst then d.map Prod.fst else d.map Prod.fst ++ [k] := by
  unfold assign
  by_cases h : k ∈ d.map Prod.fst
  · rw [if_pos h, if_pos ((find_isSome d k).2 h), List.map_map]
    apply List.map_congr_left
    intro e _
    simp only [Function.comp]
    split
    · rename_i h; exact h.symm
    · rfl
  · rw [if_neg h, if_neg (fun h' => h ((find_isSome d k).1 h'))]
    simp

/-! ### C53 -/

/-- a bookkeeping call [specification] -/
inductive Op
  | bad (chs : List Nat) (comment : String)
  | good (chs : List Nat)
  | allGood

/-- the call, and what is left if it raises [specification] -/
def apply (b : Books) : Op → Books × Except Err Unit
  | .bad chs c => setChanBad chs c b
  | .good chs => setChanGood chs b
  | .allGood => setAllGood b

/-- the books after a history of calls [specification] -/
def runOps (b : Books) (ops : List Op) : Books := ops.foldl (fun b o => (apply b o).1) b

/-- the comments given for a channel since it was last good [specification] -/
def comments (ch : Nat) : List String → List Op → List String
  | r, [] => r
  | r, .bad chs c :: t => comments ch (if ch ∈ chs then r ++ [c] else r) t
  | r, .good chs :: t => comments ch (if ch ∈ chs then [] else r) t
  | _, .allGood :: t => comments ch [] t

/-- the channels named by a call: distinct (python sets) and present in the HDF5 file [specification] -/
def Op.Legal (h5 : List Nat) : Op → Prop
  | .bad chs _ => chs.Nodup ∧ ∀ c ∈ chs, c ∈ h5
  | .good chs => chs.Nodup
  | .allGood => True

/-- the books say that the bad channels are those with comments, in memory and in the file [specification] -/
structure Says (b : Books) (h5 : List Nat) (r : Nat → List String) : Prop where
  groups : ∀ c, (find b.h5 c).isSome = true ↔ c ∈ h5
  bad : ∀ c, find b.bad c = if r c = [] then none else some (r c)
  stored : ∀ c ∈ h5, find b.h5 c = some (if r c = [] then none else some (r c))
  inFile : ∀ c, r c ≠ [] → c ∈ h5
  nodup : (b.bad.map Prod.fst).Nodup

theorem badOne_says {b : Books} {h5 : List Nat} {r : Nat → List String} (h : Says b h5 r) {ch : Nat} (hc : ch ∈ h5) (c : String) :
    ∃ b', badOne b ch c = (b', .ok ()) ∧ Says b' h5 (fun x => if x = ch then r x ++ [c] else r x) := by
  have hnew : (find b.bad ch).getD [] ++ [c] = r ch ++ [c] := by
    rw [h.bad ch]
    split
    · rename_i h0; simp [h0]
    · rfl
  unfold badOne
  dsimp only
  rw [if_pos ((h.groups ch).2 hc), hnew]
  refine ⟨_, rfl, ?_, ?_, ?_, ?_, ?_⟩
  · intro x
    dsimp only
    rw [find_assign]
    split
    · rename_i he; subst he; simp [hc]
    · exact h.groups x
  · intro x
    dsimp only
    rw [find_assign]
    split
    · rename_i he; subst he; simp
    · exact h.bad x
  · intro x hx
    dsimp only
    rw [find_assign]
    split
    · rename_i he; subst he; simp
    · exact h.stored x hx
  · intro x hx
    split at hx
    · rename_i he; subst he; exact hc
    · exact h.inFile x hx
  · rw [assign_keys]
    split
    · exact h.nodup
    · rename_i hn
      rw [List.nodup_append]
      refine ⟨h.nodup, by simp, ?_⟩
      rintro x hx y hy rfl
      rw [List.mem_singleton] at hy
      subst hy
      exact hn hx

theorem goodOne_says {b : Books} {h5 : List Nat} {r : Nat → List String} (h : Says b h5 r) (ch : Nat) :
    ∃ b', goodOne b ch = (b', .ok ()) ∧ Says b' h5 (fun x => if x = ch then [] else r x) := by
  unfold goodOne
  by_cases h0 : r ch = []
  · rw [h.bad ch, if_pos h0, if_neg (by simp)]
    refine ⟨b, rfl, ?_⟩
    have : (fun x => if x = ch then [] else r x) = r := by
      funext x; split
      · rename_i he; subst he; exact h0.symm
      · rfl
    rw [this]; exact h
  · have hin := h.inFile ch h0
    rw [h.bad ch, if_neg h0, if_pos (by simp), h.stored ch hin, if_neg h0]
    refine ⟨_, rfl, ?_, ?_, ?_, ?_, ?_⟩
    · intro x
      dsimp only
      rw [find_assign]
      split
      · rename_i he; subst he; simp [hin]
      · exact h.groups x
    · intro x
      dsimp only
      rw [find_erase]
      split
      · simp
      · exact h.bad x
    · intro x hx
      dsimp only
      rw [find_assign]
      split
      · simp
      · exact h.stored x hx
    · intro x hx
      split at hx
      · exact absurd rfl hx
      · exact h.inFile x hx
    · exact h.nodup.sublist (List.Sublist.map _ (List.filter_sublist))

theorem each_says {f : Books → Nat → Books × Except Err Unit} {g : List String → List String} {h5 : List Nat} {chs : List Nat}
    (hf : ∀ b r ch, ch ∈ chs → Says b h5 r → ∃ b', f b ch = (b', .ok ()) ∧ Says b' h5 (fun x => if x = ch then g (r x) else r x))
    (hnd : chs.Nodup) {b : Books} {r : Nat → List String} (h : Says b h5 r) :
    ∃ b', each f chs b = (b', .ok ()) ∧ Says b' h5 (fun x => if x ∈ chs then g (r x) else r x) := by
  induction chs generalizing b r with
  | nil => exact ⟨b, rfl, by simpa using h⟩
  | cons c t ih =>
    rw [List.nodup_cons] at hnd
    obtain ⟨b1, h1, h2⟩ := hf b r c (by simp) h
    obtain ⟨b2, h3, h4⟩ := ih (fun b r ch hc => hf b r ch (by simp [hc])) hnd.2 h2
    refine ⟨b2, ?_, ?_⟩
    · unfold each
      rw [h1]
      exact h3
    · have : (fun x => if x ∈ c :: t then g (r x) else r x) =
          fun x => if x ∈ t then g (if x = c then g (r x) else r x) else if x = c then g (r x) else r x := by
        funext x
        by_cases hx : x = c
        · subst hx; simp [hnd.1]
        · simp [hx]
      rw [this]; exact h4

theorem apply_says {b : Books} {h5 : List Nat} {r : Nat → List String} (h : Says b h5 r) {o : Op} (ho : o.Legal h5) :
    ∃ b', apply b o = (b', .ok ()) ∧ Says b' h5 (fun x => comments x (r x) [o]) := by
  cases o with
  | bad chs c =>
    obtain ⟨b', h1, h2⟩ := each_says (f := fun b x => badOne b x c) (g := fun l => l ++ [c]) (chs := chs)
      (fun b r ch hc hs => badOne_says hs (ho.2 ch hc) c) ho.1 h
    exact ⟨b', h1, h2⟩
  | good chs =>
    obtain ⟨b', h1, h2⟩ := each_says (f := goodOne) (g := fun _ => []) (chs := chs) (fun b r ch hc hs => goodOne_says hs ch) ho h
    exact ⟨b', h1, h2⟩
  | allGood =>
    obtain ⟨b', h1, h2⟩ := each_says (f := goodOne) (g := fun _ => []) (chs := b.bad.map Prod.fst) (fun b r ch hc hs => goodOne_says hs ch)
      h.nodup h
    refine ⟨b', h1, ?_⟩
    have : (fun x => comments x (r x) [Op.allGood]) = fun x => if x ∈ b.bad.map Prod.fst then [] else r x := by
      funext x
      simp only [comments]
      split
      · rfl
      · rename_i hn
        rw [← find_isSome, h.bad x] at hn
        split at hn
        · rename_i h0; exact h0.symm
        · simp at hn
    rw [this]; exact h2

theorem runOps_says {b : Books} {h5 : List Nat} {r : Nat → List String} (h : Says b h5 r) {ops : List Op} (ho : ∀ o ∈ ops, o.Legal h5) :
    Says (runOps b ops) h5 (fun x => comments x (r x) ops) := by
  induction ops generalizing b r with
  | nil => exact h
  | cons o t ih =>
    obtain ⟨b', h1, h2⟩ := apply_says h (ho o (by simp))
    have h3 := ih h2 (fun o ho' => ho o (by simp [ho']))
    have e1 : runOps b (o :: t) = runOps b' t := by
      show runOps (apply b o).1 t = _
      rw [h1]
    rw [e1]
    have e2 : (fun x => comments x (r x) (o :: t)) = fun x => comments x (comments x (r x) [o]) t := by
      funext x
      cases o <;> rfl
    rw [e2]; exact h3

/-- a new group: its HDF5 file has a group for each of the channels `h5`, none of them marked [specification] -/
def fresh (h5 : List Nat) : Books := ⟨[], h5.map (fun c => (c, none))⟩

theorem fresh_says (h5 : List Nat) : Says (fresh h5) h5 (fun _ => []) := by
  have hs : ∀ c, c ∈ h5 → find (fresh h5).h5 c = some none := by
    intro c hc
    unfold find fresh
    dsimp only
    induction h5 with
    | nil => simp at hc
    | cons x t ih =>
      rw [List.map_cons, List.find?_cons]
      by_cases hx : x = c
      · simp [hx]
      · rw [show ((x, (none : Option (List String))).1 == c) = false by simpa using hx]
        exact ih ((List.mem_cons.1 hc).resolve_left (fun e => hx e.symm))
  refine ⟨?_, fun c => rfl, hs, fun c h => absurd rfl h, by simp [fresh]⟩
  intro c
  rw [find_isSome]
  simp [fresh]

/-- C53, for calls naming only channels of the file: after any sequence of calls, none of which raises, the good channels are exactly the data sets
without a comment since they were last good; the bad channels are the others, each with exactly those comments, and the file stores the
same comments; the two counts partition the data sets. -/
theorem bookkeeping {h5 ds : List Nat} {ops : List Op} (ho : ∀ o ∈ ops, o.Legal h5) :
    goodChannels ds (runOps (fresh h5) ops) = ds.filter (fun c => decide (comments c [] ops = [])) ∧
    (∀ c, find (runOps (fresh h5) ops).bad c = if comments c [] ops = [] then none else some (comments c [] ops)) ∧
    (∀ c ∈ h5, find (runOps (fresh h5) ops).h5 c = some (if comments c [] ops = [] then none else some (comments c [] ops))) ∧
    numGood ds (runOps (fresh h5) ops) + (ds.filter (fun c => (find (runOps (fresh h5) ops).bad c).isSome)).length = ds.length := by
  have h := runOps_says (fresh_says h5) ho
  refine ⟨?_, h.bad, h.stored, ?_⟩
  · unfold goodChannels
    apply List.filter_congr
    intro c _
    rw [h.bad c]
    split
    · rename_i h0; simp [h0]
    · rename_i h0; simp [h0]
  · unfold numGood goodChannels
    have : ∀ (p : Nat → Bool) (l : List Nat), (l.filter (fun c => !p c)).length + (l.filter p).length = l.length := by
      intro p l
      induction l with
      | nil => rfl
      | cons x t ih =>
        rw [List.filter_cons, List.filter_cons]
        cases p x <;> simp <;> omega
    have h2 := this (fun c => (find (runOps (fresh h5) ops).bad c).isSome) ds
    simpa [Option.not_isSome] using h2

theorem each_ok {b : Books} {h5 : List Nat} {r : Nat → List String} (h : Says b h5 r) {o : Op} (ho : o.Legal h5) : (apply b o).2 = .ok () := by
  obtain ⟨b', h1, -⟩ := apply_says h ho
  rw [h1]

/-- C53. No legal call raises, whatever was called before. -/
theorem legal_calls_succeed {h5 : List Nat} {ops : List Op} (ho : ∀ o ∈ ops, o.Legal h5) {o : Op} (h : o.Legal h5) :
    (apply (runOps (fresh h5) ops) o).2 = .ok () := each_ok (runOps_says (fresh_says h5) ho) h

/-- C53. `n_good_channels` is the number of good channels when every file given became a data set and only data sets were named. -/
theorem n_good_partial {ds : List Nat} (hnd : ds.Nodup) {ops : List Op} (ho : ∀ o ∈ ops, o.Legal ds) :
    nGood ds.length (runOps (fresh ds) ops) = numGood ds (runOps (fresh ds) ops) := by
  have h := runOps_says (fresh_says ds) ho
  obtain ⟨-, -, -, hc⟩ := bookkeeping (ds := ds) ho
  unfold nGood
  have hlen : (runOps (fresh ds) ops).bad.length = (ds.filter (fun c => (find (runOps (fresh ds) ops).bad c).isSome)).length := by
    rw [← List.length_map (f := Prod.fst) (as := (runOps (fresh ds) ops).bad)]
    apply List.Perm.length_eq
    rw [List.perm_ext_iff_of_nodup h.nodup (hnd.sublist List.filter_sublist)]
    intro c
    rw [List.mem_filter, ← find_isSome]
    constructor
    · intro hc
      refine ⟨?_, hc⟩
      rw [h.bad c] at hc
      split at hc
      · simp at hc
      · rename_i h0; exact h.inFile c h0
    · exact fun hc => hc.2
  rw [hlen]
  omega

/-- C53, instance -/
example : let b := runOps (fresh [1, 3, 5]) [.bad [3, 1] "x", .good [1], .bad [3] "y", .allGood, .bad [5] "z", .bad [5] "w"]
    b.bad = [(5, ["z", "w"])] ∧ goodChannels [1, 3, 5] b = [1, 3] ∧ find b.h5 5 = some (some ["z", "w"]) ∧ find b.h5 3 = some none := by
  decide +kernel

/-- C53 is false for `n_good_channels` when a file has no pulses: the file is skipped but counted. -/
theorem n_good_skipped_fails : nGood 3 (fresh [1, 3]) = 3 ∧ numGood [1, 3] (fresh [1, 3]) = 2 := by decide +kernel

/-- C53 is false when an unknown channel is marked bad: the call raises KeyError but the channel stays in the list of bad channels, and can not
be removed by a call that succeeds. -/
theorem unknown_channel_fails :
    setChanBad [7] "x" (fresh [1, 3]) = (⟨[(7, ["x"])], (fresh [1, 3]).h5⟩, .error .key) ∧
    nGood 2 (setChanBad [7] "x" (fresh [1, 3])).1 = 1 ∧ numGood [1, 3] (setChanBad [7] "x" (fresh [1, 3])).1 = 2 ∧
    (setAllGood (setChanBad [7] "x" (fresh [1, 3])).1).2 = .error .key := by decide +kernel

/-! ### C27, core groups -/
section core
variable {S : Type}

/-- the comment a failing call leaves [specification] -/
def failReason (msg : String → String) (m : Nat → S → S × Except Err Unit) (ch : Nat) (s : S) : List String :=
  match (m ch s).2 with
  | .error (.exc e) => [msg e]
  | _ => []

/-- C27 for TESGroup: the looped method runs exactly once on every good data set, each on its own; failing ones get the comment, the others'
comments do not change, and bad data sets are as they were. -/
theorem core_loop_isolates {m : Nat → S → S × Except Err Unit} (hm : NoInterrupt m) (msg : String → String) {ds : List (Nat × S)}
    (hnd : (ds.map Prod.fst).Nodup) {b : Books} {h5 : List Nat} {r : Nat → List String} (h : Says b h5 r) (hin : ∀ x ∈ ds, x.1 ∈ h5) :
    ∃ b' r', coreLoop false msg m ds b = (ds.map (fun x => if r x.1 = [] then (x.1, (m x.1 x.2).1) else x), b', .ok ()) ∧
      Says b' h5 r' ∧ (∀ x ∈ ds, r' x.1 = if r x.1 = [] then failReason msg m x.1 x.2 else r x.1) ∧
      ∀ c, c ∉ ds.map Prod.fst → r' c = r c := by
  induction ds generalizing b r with
  | nil => exact ⟨b, r, rfl, h, by simp, fun _ _ => rfl⟩
  | cons x t ih =>
    obtain ⟨ch, s⟩ := x
    rw [List.map_cons, List.nodup_cons] at hnd
    have hnt : ∀ y ∈ t, y.1 ≠ ch := fun y hy e => hnd.1 (List.mem_map.2 ⟨y, hy, e⟩)
    have hint : ∀ x ∈ t, x.1 ∈ h5 := fun x hx => hin x (by simp [hx])
    -- the rest of the loop, from books that differ only in the comments of `ch`
    have key : ∀ (b1 : Books) (r1 : Nat → List String), Says b1 h5 r1 → (∀ c, c ≠ ch → r1 c = r c) →
        ∃ b' r', coreLoop false msg m t b1 = (t.map (fun x => if r x.1 = [] then (x.1, (m x.1 x.2).1) else x), b', .ok ()) ∧
          Says b' h5 r' ∧ (∀ x ∈ t, r' x.1 = if r x.1 = [] then failReason msg m x.1 x.2 else r x.1) ∧ r' ch = r1 ch ∧
          ∀ c, c ≠ ch → c ∉ t.map Prod.fst → r' c = r c := by
      intro b1 r1 hs hr
      obtain ⟨b', r', h1, h2, h3, h4⟩ := ih hnd.2 hs hint
      refine ⟨b', r', ?_, h2, ?_, h4 ch hnd.1, ?_⟩
      · rw [h1]
        congr 1
        apply List.map_congr_left
        intro y hy
        rw [hr _ (hnt y hy)]
      · intro y hy
        rw [h3 y hy, hr _ (hnt y hy)]
      · intro c hc hct
        rw [h4 c hct, hr c hc]
    have fin : ∀ (b' : Books) (r' : Nat → List String),
        (∀ x ∈ t, r' x.1 = if r x.1 = [] then failReason msg m x.1 x.2 else r x.1) →
        (r' ch = if r ch = [] then failReason msg m ch s else r ch) → (∀ c, c ≠ ch → c ∉ t.map Prod.fst → r' c = r c) →
        (∀ x ∈ (ch, s) :: t, r' x.1 = if r x.1 = [] then failReason msg m x.1 x.2 else r x.1) ∧
          ∀ c, c ∉ ((ch, s) :: t).map Prod.fst → r' c = r c := by
      intro b' r' h1 h2 h3
      refine ⟨?_, ?_⟩
      · intro y hy
        rcases List.mem_cons.1 hy with rfl | hy
        · exact h2
        · exact h1 y hy
      · intro c hc
        rw [List.map_cons, List.mem_cons, not_or] at hc
        exact h3 c hc.1 hc.2
    unfold coreLoop
    by_cases h0 : r ch = []
    · rw [h.bad ch, if_pos h0, if_neg (by simp), List.map_cons, if_pos h0]
      cases hr : m ch s with
      | mk s' res =>
        cases res with
        | ok z =>
          obtain ⟨b', r', h1, h2, h3, h4, h5⟩ := key b r h (fun _ _ => rfl)
          refine ⟨b', r', by dsimp only; rw [h1], h2, fin b' r' h3 ?_ h5⟩
          rw [h4, if_pos h0, h0]
          simp [failReason, hr]
        | error e =>
          obtain ⟨x, rfl⟩ := hm ch s e (by rw [hr])
          dsimp only
          rw [if_neg (by simp)]
          obtain ⟨b1, g1, g2⟩ := badOne_says h (hin (ch, s) (by simp)) (msg x)
          rw [g1]
          obtain ⟨b', r', h1, h2, h3, h4, h5⟩ := key b1 _ g2 (fun c hc => if_neg hc)
          refine ⟨b', r', by dsimp only; rw [h1], h2, fin b' r' h3 ?_ h5⟩
          rw [h4, if_pos h0, if_pos rfl, h0]
          simp [failReason, hr]
    · rw [h.bad ch, if_neg h0, if_pos (by simp), List.map_cons, if_neg h0]
      obtain ⟨b', r', h1, h2, h3, h4, h5⟩ := key b r h (fun _ _ => rfl)
      refine ⟨b', r', by dsimp only; rw [h1], h2, fin b' r' h3 ?_ h5⟩
      rw [h4, if_neg h0]

/-- C27 for TESGroup: with rethrow, or on KeyboardInterrupt, the first failing data set stops the loop; later ones are untouched and nothing
is marked. -/
theorem core_loop_stops {m : Nat → S → S × Except Err Unit} (rethrow : Bool) (msg : String → String) {pre post : List (Nat × S)} {ch : Nat} {s : S}
    {b : Books} (hpre : ∀ x ∈ pre, (find b.bad x.1).isSome ∨ (m x.1 x.2).2 = .ok ()) (hc : find b.bad ch = none) {e : Err}
    (he : (m ch s).2 = .error e) (hr : rethrow = true ∨ ∀ t, e ≠ .exc t) :
    coreLoop rethrow msg m (pre ++ (ch, s) :: post) b =
      (pre.map (fun x => if (find b.bad x.1).isSome then x else (x.1, (m x.1 x.2).1)) ++ (ch, (m ch s).1) :: post, b, .error e) := by
  induction pre with
  | nil =>
    rw [List.nil_append]
    unfold coreLoop
    rw [hc, if_neg (by simp)]
    cases hm : m ch s with
    | mk s' res =>
      rw [hm] at he
      dsimp only at he
      subst he
      cases e with
      | exc t =>
        rcases hr with hr | hr
        · subst hr; simp
        · exact absurd rfl (hr t)
      | interrupt => simp
      | key => simp
      | type => simp
  | cons x t ih =>
    obtain ⟨c, u⟩ := x
    have ih := ih (fun y hy => hpre y (by simp [hy]))
    rw [List.cons_append]
    unfold coreLoop
    rw [ih, List.map_cons]
    by_cases hx : (find b.bad c).isSome = true
    · rw [if_pos hx, if_pos hx]; rfl
    · rw [if_neg hx, if_neg hx]
      have hz := (hpre (c, u) (by simp)).resolve_left hx
      dsimp only at hz
      cases hm : m c u with
      | mk s' res =>
        rw [hm] at hz
        dsimp only at hz
        subst hz
        rfl

/-- C27, instance: data set 3 fails, 2 was bad -/
example : coreLoop false (fun e => "failed f with " ++ e) (fun n s => (s + n, if n = 3 then .error (.exc "boom") else .ok ()))
      [(1, 0), (2, 0), (3, 0), (4, 1)] (runOps (fresh [1, 2, 3, 4]) [.bad [2] "old"]) =
    ([(1, 1), (2, 0), (3, 3), (4, 5)], runOps (fresh [1, 2, 3, 4]) [.bad [2] "old", .bad [3] "failed f with boom"], .ok ()) := by decide +kernel
end core

/-! ### C28 -/

/-- what each command should show, given the enclosing blocks (innermost first) and the marks [specification] -/
def specIB : List Bool → List (Nat × Option String) → List Cmd → List Out
  | _, _, [] => []
  | st, ch, .enter x :: t => .nothing :: specIB (x :: st) ch t
  | st, ch, .exit :: t => .nothing :: specIB st.tail ch t
  | st, ch, .iter :: t => .chans ((if st.headD false then ch else ch.filter (fun c => c.2 = none)).map Prod.fst) :: specIB st ch t
  | st, ch, .why :: t => .reasons (ch.filterMap (fun c => c.2.map (fun r => (c.1, r)))) :: specIB st ch t
  | st, ch, .markAllGood :: t => .nothing :: specIB st (ch.map (fun c => (c.1, none))) t
  | st, ch, .markBad n r :: t => .nothing :: specIB st (ch.map (fun c => if c.1 = n then (c.1, some r) else c)) t

/-- blocks are not nested, and nothing inside a block uses includeBad itself [specification] -/
def Plain : Bool → List Cmd → Prop
  | _, [] => True
  | false, .enter _ :: t => Plain true t
  | true, .exit :: t => Plain false t
  | d, .iter :: t => Plain d t
  | d, .markBad _ _ :: t => Plain d t
  | false, .why :: t => Plain false t
  | false, .markAllGood :: t => Plain false t
  | _, _ :: _ => False

theorem run_plain (cmds : List Cmd) : ∀ (s : IB) (x : Bool), (Plain true cmds → s.inc = x → runIB s cmds = specIB [x] s.chans cmds) ∧
    (Plain false cmds → s.inc = false → runIB s cmds = specIB [] s.chans cmds) := by
  have hiter : ∀ (s : IB), iterate s = (if s.inc then s.chans else s.chans.filter (fun c => c.2 = none)).map Prod.fst := by
    intro s
    unfold iterate
    cases s.inc
    · simp only [Bool.false_or, Bool.false_eq_true, if_false]
      congr 1
      apply List.filter_congr
      intro c _
      cases c.2 <;> simp
    · simp only [Bool.true_or, if_true]
      rw [List.filter_eq_self.2 (fun _ _ => rfl)]
  induction cmds with
  | nil => intro s x; exact ⟨fun _ _ => rfl, fun _ _ => rfl⟩
  | cons c t ih =>
    intro s x
    constructor
    · intro hp hi
      cases c with
      | enter y => exact absurd hp (by simp [Plain])
      | exit =>
        simp only [runIB, specIB, stepIB, List.tail_cons]
        rw [(ih (exit s) x).2 hp rfl]; rfl
      | iter =>
        simp only [runIB, specIB, stepIB, List.headD_cons]
        rw [(ih s x).1 hp hi, hiter, hi]; congr
      | why => exact absurd hp (by simp [Plain])
      | markAllGood => exact absurd hp (by simp [Plain])
      | markBad n r =>
        simp only [runIB, specIB, stepIB]
        exact congrArg _ ((ih ⟨s.inc, s.desired, s.chans.map (fun c => if c.1 = n then (c.1, some r) else c)⟩ x).1 hp hi)
    · intro hp hi
      cases c with
      | enter y =>
        simp only [runIB, specIB, stepIB]
        rw [(ih (enter s y) y).1 hp rfl]; rfl
      | exit => exact absurd hp (by simp [Plain])
      | iter =>
        simp only [runIB, specIB, stepIB, List.headD_nil]
        rw [(ih s x).2 hp hi, hiter, hi]; congr
      | why =>
        simp only [runIB, specIB, stepIB]
        rw [(ih _ x).2 hp rfl]
        simp only [exit, enter, Bool.true_or]
        rw [List.filter_eq_self.2 (fun _ _ => rfl)]
      | markAllGood =>
        simp only [runIB, specIB, stepIB]
        rw [(ih _ x).2 hp rfl]
        simp [exit, enter]
      | markBad n r =>
        simp only [runIB, specIB, stepIB]
        exact congrArg _ ((ih ⟨s.inc, s.desired, s.chans.map (fun c => if c.1 = n then (c.1, some r) else c)⟩ x).2 hp hi)

/-- C28, for programs whose includeBad blocks are not nested and use nothing that works with includeBad itself: iteration inside a block covers all
channels, outside only the good ones. -/
theorem include_bad_partial {cmds : List Cmd} (h : Plain false cmds) (chans : List (Nat × Option String)) :
    runIB ⟨false, false, chans⟩ cmds = specIB [] chans cmds := (run_plain cmds _ false).2 h rfl

/-- C28, instance -/
example : Plain false [.iter, .enter true, .iter, .markBad 3 "x", .iter, .exit, .iter, .why] ∧
    runIB ⟨false, false, [(1, none), (2, some "old"), (3, none)]⟩ [.iter, .enter true, .iter, .markBad 3 "x", .iter, .exit, .iter, .why] =
    [.chans [1, 3], .nothing, .chans [1, 2, 3], .nothing, .chans [1, 2, 3], .nothing, .chans [1], .reasons [(2, "old"), (3, "x")]] := by
  refine ⟨trivial, by decide +kernel⟩

/-- C28 is false when `whyChanBad` is read inside the block: from then on only good channels are iterated. -/
theorem include_bad_why_fails :
    runIB ⟨false, false, [(1, none), (2, some "old")]⟩ [.enter true, .why, .iter, .exit] = [.nothing, .reasons [(2, "old")], .chans [1], .nothing] ∧
    specIB [] [(1, none), (2, some "old")] [.enter true, .why, .iter, .exit] = [.nothing, .reasons [(2, "old")], .chans [1, 2], .nothing] := by
  decide +kernel

/-- C28 is false for nested blocks: the end of the inner one ends both. -/
theorem include_bad_nested_fails :
    runIB ⟨false, false, [(1, none), (2, some "old")]⟩ [.enter true, .enter true, .exit, .iter, .exit] ≠
    specIB [] [(1, none), (2, some "old")] [.enter true, .enter true, .exit, .iter, .exit] := by decide +kernel

/-- Whatever the flags, `whyChanBad` lists all bad channels with their reasons. -/
theorem why_always_right (s : IB) : (stepIB s .why).2 = .reasons (s.chans.filterMap (fun c => c.2.map (fun r => (c.1, r)))) := by
  simp only [stepIB, enter, Bool.true_or]
  rw [List.filter_eq_self.2 (fun _ _ => rfl)]

end Mass.Group
