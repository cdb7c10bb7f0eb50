import Verif.Group.Props
import Verif.Group.Restore
import Mathlib.Data.Rat.Defs
import Mathlib.Tactic.Linarith
import Mathlib.Tactic.Ring
import Mathlib.Tactic.FieldSimp
import Mathlib.Tactic.Positivity
import Mathlib.Tactic.NormNum
import Mathlib.Algebra.Order.Field.Rat
/-! Group-wide summaries, counts and reports, noise-only groups and noise files: mass/core/channel_group.py L128-165, L332-371, L466-546, L1024-1033,
mass/core/channel.py L106-134, L211-229 and mass/core/utilities.py L113-128: C147. -/
namespace Mass.Group.Sums
open Mass Mass.Group Mass.Names

variable {S : Type}

/-! #### `summarize_data` of a group -/

/-- The loop of `TESGroup.summarize_data`, mass/core/channel_group.py L534-546, from channel index `i` on: data sets, books, the progress values yielded
(L543; shown by mass/core/utilities.py L124-125), and how it ended. `nchan` is fixed before the loop (L531-532). `hdf5_file.flush()` (L544) is taken to succeed. -/
def sumLoop (inc : Bool) (nchan : ℚ) (m : Nat → S → S × Except Err Unit) : Nat → List (Nat × S) → Books → List (Nat × S) × Books × List ℚ × Except Err Unit
  | _, [], b => ([], b, [], .ok ())
  | i, (ch, s) :: t, b =>
    if inc = false ∧ (find b.bad ch).isSome then
      let r := sumLoop inc nchan m i t b
      ((ch, s) :: r.1, r.2)
    else
      match m ch s with
      | (s', .ok _) =>
        let r := sumLoop inc nchan m (i + 1) t b
        ((ch, s') :: r.1, r.2.1, ((i : ℚ) + 1) / nchan :: r.2.2.1, r.2.2.2)
      | (s', .error (.exc e)) =>
        match badOne b ch ("summarize_data failed with " ++ e) with
        | (b', .ok _) =>
          let r := sumLoop inc nchan m (i + 1) t b'
          ((ch, s') :: r.1, r.2)
        | (b', .error k) => ((ch, s') :: t, b', [], .error k)
      | (s', .error e) => ((ch, s') :: t, b, [], .error e)

/-- `TESGroup.summarize_data`, mass/core/channel_group.py L521-546: `channel` is a dictionary by channel number (L474-476), so its length is the number of different numbers. -/
def summarize (inc : Bool) (m : Nat → S → S × Except Err Unit) (ds : List (Nat × S)) (b : Books) : List (Nat × S) × Books × List ℚ × Except Err Unit :=
  let n := if inc then (ds.map Prod.fst).dedup.length else numGood (ds.map Prod.fst) b
  sumLoop inc n m 0 ds b

/-- the channels the loop visits, judged before it starts [specification] -/
def visited (inc : Bool) (r : Nat → List String) (ds : List (Nat × S)) : List (Nat × S) := ds.filter (fun x => inc || (r x.1).isEmpty)

/-- whether the channel's own summary succeeds [specification] -/
def succeeds (m : Nat → S → S × Except Err Unit) (x : Nat × S) : Bool := (m x.1 x.2).2.toOption.isSome

/-- the progress values for visited channels, counted from `i` [specification] -/
def shown (m : Nat → S → S × Except Err Unit) (n : ℚ) : Nat → List (Nat × S) → List ℚ
  | _, [] => []
  | i, x :: t => if succeeds m x then ((i : ℚ) + 1) / n :: shown m n (i + 1) t else shown m n (i + 1) t

theorem sumLoop_spec {m : Nat → S → S × Except Err Unit} (hm : NoInterrupt m) (inc : Bool) (n : ℚ) (i : Nat) {ds : List (Nat × S)}
    (hnd : (ds.map Prod.fst).Nodup) {b : Books} {h5 : List Nat} {r : Nat → List String} (h : Says b h5 r) (hin : ∀ x ∈ ds, x.1 ∈ h5) :
    ∃ b' r', sumLoop inc n m i ds b = (ds.map (fun x => if inc = true ∨ r x.1 = [] then (x.1, (m x.1 x.2).1) else x), b', shown m n i (visited inc r ds), .ok ()) ∧
      Says b' h5 r' ∧ (∀ x ∈ ds, r' x.1 = if inc = true ∨ r x.1 = [] then r x.1 ++ failReason ("summarize_data failed with " ++ ·) m x.1 x.2 else r x.1) ∧
      ∀ c, c ∉ ds.map Prod.fst → r' c = r c := by
  induction ds generalizing b r i with
  | nil => exact ⟨b, r, rfl, h, by simp, fun _ _ => rfl⟩
  | cons x t ih =>
    obtain ⟨ch, s⟩ := x
    rw [List.map_cons, List.nodup_cons] at hnd
    have hnt : ∀ y ∈ t, y.1 ≠ ch := fun y hy e => hnd.1 (List.mem_map.2 ⟨y, hy, e⟩)
    have hint : ∀ x ∈ t, x.1 ∈ h5 := fun x hx => hin x (by simp [hx])
    have key : ∀ (i : Nat) (b1 : Books) (r1 : Nat → List String), Says b1 h5 r1 → (∀ c, c ≠ ch → r1 c = r c) →
        ∃ b' r', sumLoop inc n m i t b1 = (t.map (fun x => if inc = true ∨ r x.1 = [] then (x.1, (m x.1 x.2).1) else x), b', shown m n i (visited inc r t), .ok ()) ∧
          Says b' h5 r' ∧ (∀ x ∈ t, r' x.1 = if inc = true ∨ r x.1 = [] then r x.1 ++ failReason ("summarize_data failed with " ++ ·) m x.1 x.2 else r x.1) ∧ r' ch = r1 ch ∧
          ∀ c, c ≠ ch → c ∉ t.map Prod.fst → r' c = r c := by
      intro i b1 r1 hs hr
      obtain ⟨b', r', h1, h2, h3, h4⟩ := ih i hnd.2 hs hint
      refine ⟨b', r', ?_, h2, ?_, h4 ch hnd.1, ?_⟩
      · rw [h1]
        have e1 : t.map (fun x => if inc = true ∨ r1 x.1 = [] then (x.1, (m x.1 x.2).1) else x) = t.map (fun x => if inc = true ∨ r x.1 = [] then (x.1, (m x.1 x.2).1) else x) := by
          apply List.map_congr_left
          intro y hy
          rw [hr _ (hnt y hy)]
        have e2 : visited inc r1 t = visited inc r t := by
          unfold visited
          apply List.filter_congr
          intro y hy
          rw [hr _ (hnt y hy)]
        rw [e1, e2]
      · intro y hy
        rw [h3 y hy, hr _ (hnt y hy)]
      · intro c hc hct
        rw [h4 c hct, hr c hc]
    have fin : ∀ (r' : Nat → List String),
        (∀ x ∈ t, r' x.1 = if inc = true ∨ r x.1 = [] then r x.1 ++ failReason ("summarize_data failed with " ++ ·) m x.1 x.2 else r x.1) →
        (r' ch = if inc = true ∨ r ch = [] then r ch ++ failReason ("summarize_data failed with " ++ ·) m ch s else r ch) → (∀ c, c ≠ ch → c ∉ t.map Prod.fst → r' c = r c) →
        (∀ x ∈ (ch, s) :: t, r' x.1 = if inc = true ∨ r x.1 = [] then r x.1 ++ failReason ("summarize_data failed with " ++ ·) m x.1 x.2 else r x.1) ∧
          ∀ c, c ∉ ((ch, s) :: t).map Prod.fst → r' c = r c := by
      intro r' h1 h2 h3
      refine ⟨?_, ?_⟩
      · intro y hy
        rcases List.mem_cons.1 hy with rfl | hy
        · exact h2
        · exact h1 y hy
      · intro c hc
        rw [List.map_cons, List.mem_cons, not_or] at hc
        exact h3 c hc.1 hc.2
    unfold sumLoop
    by_cases h0 : inc = true ∨ r ch = []
    · have hv : visited inc r ((ch, s) :: t) = (ch, s) :: visited inc r t := by
        unfold visited
        rw [List.filter_cons_of_pos]
        rcases h0 with h0 | h0 <;> simp [h0]
      have hc : ¬ (inc = false ∧ (find b.bad ch).isSome = true) := by
        rintro ⟨h1, h2⟩
        rcases h0 with h0 | h0
        · rw [h0] at h1; cases h1
        · rw [h.bad ch, if_pos h0] at h2; cases h2
      rw [if_neg hc, List.map_cons, if_pos h0, hv]
      cases hr : m ch s with
      | mk s' res =>
        cases res with
        | ok z =>
          obtain ⟨b', r', h1, h2, h3, h4, h5⟩ := key (i + 1) b r h (fun _ _ => rfl)
          refine ⟨b', r', ?_, h2, fin r' h3 ?_ h5⟩
          · dsimp only
            rw [h1]
            conv_rhs => unfold shown
            rw [if_pos (by simp [succeeds, hr, Except.toOption])]
          rw [h4, if_pos h0]
          simp [failReason, hr]
        | error e =>
          obtain ⟨x, rfl⟩ := hm ch s e (by rw [hr])
          dsimp only
          obtain ⟨b1, g1, g2⟩ := badOne_says h (hin (ch, s) (by simp)) ("summarize_data failed with " ++ x)
          rw [g1]
          obtain ⟨b', r', h1, h2, h3, h4, h5⟩ := key (i + 1) b1 _ g2 (fun c hc => if_neg hc)
          refine ⟨b', r', ?_, h2, fin r' h3 ?_ h5⟩
          · dsimp only
            rw [h1]
            conv_rhs => unfold shown
            rw [if_neg (by simp [succeeds, hr, Except.toOption])]
          rw [h4, if_pos h0, if_pos rfl]
          simp [failReason, hr]
    · have hv : visited inc r ((ch, s) :: t) = visited inc r t := by
        unfold visited
        rw [List.filter_cons_of_neg]
        rw [not_or] at h0
        simpa using h0
      have hc : inc = false ∧ (find b.bad ch).isSome = true := by
        rw [not_or] at h0
        exact ⟨by simpa using h0.1, by rw [h.bad ch, if_neg h0.2]; rfl⟩
      rw [if_pos hc, List.map_cons, if_neg h0, hv]
      obtain ⟨b', r', h1, h2, h3, h4, h5⟩ := key i b r h (fun _ _ => rfl)
      refine ⟨b', r', by dsimp only; rw [h1], h2, fin r' h3 ?_ h5⟩
      rw [h4, if_neg h0]

/-- C147: summarizing a group runs every good channel (with include_badchan: every channel) exactly once on its own data; a channel whose summary fails
gets the comment "summarize_data failed with ..." and the others go on; channels not visited and channels that succeed keep their comments. -/
theorem summarize_spec {m : Nat → S → S × Except Err Unit} (hm : NoInterrupt m) (inc : Bool) {ds : List (Nat × S)}
    (hnd : (ds.map Prod.fst).Nodup) {b : Books} {h5 : List Nat} {r : Nat → List String} (h : Says b h5 r) (hin : ∀ x ∈ ds, x.1 ∈ h5) :
    ∃ b' r' p, summarize inc m ds b = (ds.map (fun x => if inc = true ∨ r x.1 = [] then (x.1, (m x.1 x.2).1) else x), b', p, .ok ()) ∧
      Says b' h5 r' ∧ (∀ x ∈ ds, r' x.1 = if inc = true ∨ r x.1 = [] then r x.1 ++ failReason ("summarize_data failed with " ++ ·) m x.1 x.2 else r x.1) ∧
      ∀ c, c ∉ ds.map Prod.fst → r' c = r c := by
  obtain ⟨b', r', h1, h2⟩ := sumLoop_spec hm inc ((if inc then (ds.map Prod.fst).dedup.length else numGood (ds.map Prod.fst) b : Nat) : ℚ) 0 hnd h hin
  exact ⟨b', r', _, h1, h2⟩

theorem shown_bounds (m : Nat → S → S × Except Err Unit) {n : Nat} (hn : 0 < n) (ds : List (Nat × S)) (i : Nat) (hi : i + ds.length = n) :
    (shown m n i ds).length = (ds.filter (succeeds m)).length ∧ (∀ q ∈ shown m n i ds, (i : ℚ) / n < q ∧ q ≤ 1) ∧ (shown m n i ds).Pairwise (· < ·) ∧
      ((1 : ℚ) ∈ shown m n i ds ↔ ∃ x, ds.getLast? = some x ∧ succeeds m x = true) := by
  have hq : (0 : ℚ) < n := by exact_mod_cast hn
  induction ds generalizing i with
  | nil => simp [shown]
  | cons x t ih =>
    obtain ⟨h1, h2, h3, h4⟩ := ih (i + 1) (by simp at hi; omega)
    have hlt : (i : ℚ) / n < ((i : ℚ) + 1) / n := by
      rw [div_lt_div_iff_of_pos_right hq]; linarith
    have hle : ((i : ℚ) + 1) / n ≤ 1 := by
      rw [div_le_one hq]
      have : i + 1 ≤ n := by simp at hi; omega
      exact_mod_cast this
    have hc : (((i + 1 : Nat) : ℚ)) / n = ((i : ℚ) + 1) / n := by push_cast; rfl
    have hlast : ∀ P : Prop, (t = [] → (((1 : ℚ) ∈ shown m n i (x :: t)) ↔ succeeds m x = true)) → (t ≠ [] → (((1 : ℚ) ∈ shown m n i (x :: t)) ↔ (1 : ℚ) ∈ shown m n (i + 1) t)) →
        ((1 : ℚ) ∈ shown m n i (x :: t) ↔ ∃ y, (x :: t).getLast? = some y ∧ succeeds m y = true) := by
      intro _ ha hb
      cases t with
      | nil => rw [ha rfl]; simp
      | cons y u =>
        rw [hb (by simp), h4]
        simp [List.getLast?_cons_cons]
    have hone : t ≠ [] → ((i : ℚ) + 1) / n ≠ 1 := by
      intro ht e
      rw [div_eq_one_iff_eq hq.ne'] at e
      have : i + 1 = n := by exact_mod_cast e
      have := List.length_pos_of_ne_nil ht
      simp at hi; omega
    have hone' : t = [] → ((i : ℚ) + 1) / n = 1 := by
      rintro rfl
      rw [div_eq_one_iff_eq hq.ne']
      simp at hi
      exact_mod_cast hi
    by_cases hs : succeeds m x = true
    · have e : shown m n i (x :: t) = ((i : ℚ) + 1) / n :: shown m n (i + 1) t := by
        conv_lhs => unfold shown
        rw [if_pos hs]
      refine ⟨?_, ?_, ?_, hlast True ?_ ?_⟩
      · rw [e, List.filter_cons_of_pos hs]; simp [h1]
      · rw [e]
        intro q hqm
        rcases List.mem_cons.1 hqm with rfl | hqm
        · exact ⟨hlt, hle⟩
        · obtain ⟨a, b⟩ := h2 q hqm
          rw [hc] at a
          exact ⟨hlt.trans a, b⟩
      · rw [e, List.pairwise_cons]
        exact ⟨fun q hqm => by have := (h2 q hqm).1; rwa [hc] at this, h3⟩
      · intro ht
        rw [e, hone' ht]
        simp [hs]
      · intro ht
        rw [e, List.mem_cons]
        exact or_iff_right (fun h => hone ht h.symm)
    · have e : shown m n i (x :: t) = shown m n (i + 1) t := by
        conv_lhs => unfold shown
        rw [if_neg hs]
      refine ⟨?_, ?_, ?_, hlast True ?_ ?_⟩
      · rw [e, List.filter_cons_of_neg hs]; exact h1
      · rw [e]
        intro q hqm
        obtain ⟨a, b⟩ := h2 q hqm
        rw [hc] at a
        exact ⟨hlt.trans a, b⟩
      · rw [e]; exact h3
      · rintro rfl
        rw [e]
        simp [shown, hs]
      · intro _; rw [e]

/-- C147: the progress shown while a group is summarized: one value in (0, 1] per channel that succeeds, increasing; it reaches 1 exactly if the last
visited channel succeeds. -/
theorem progress_spec {m : Nat → S → S × Except Err Unit} (hm : NoInterrupt m) (inc : Bool) {ds : List (Nat × S)}
    (hnd : (ds.map Prod.fst).Nodup) {b : Books} {h5 : List Nat} {r : Nat → List String} (h : Says b h5 r) (hin : ∀ x ∈ ds, x.1 ∈ h5) :
    (summarize inc m ds b).2.2.1.length = ((visited inc r ds).filter (succeeds m)).length ∧
      (∀ q ∈ (summarize inc m ds b).2.2.1, 0 < q ∧ q ≤ 1) ∧ (summarize inc m ds b).2.2.1.Pairwise (· < ·) ∧
      ((1 : ℚ) ∈ (summarize inc m ds b).2.2.1 ↔ ∃ x, (visited inc r ds).getLast? = some x ∧ succeeds m x = true) := by
  have hlen : (if inc then (ds.map Prod.fst).dedup.length else numGood (ds.map Prod.fst) b) = (visited inc r ds).length := by
    cases inc with
    | true =>
      rw [List.dedup_eq_self.2 hnd]
      simp [visited]
    | false =>
      simp only [Bool.false_eq_true, if_false, numGood, goodChannels, visited]
      rw [List.filter_map, List.length_map]
      congr 1
      apply List.filter_congr
      intro x _
      simp only [Function.comp]
      rw [h.bad x.1]
      by_cases h0 : r x.1 = [] <;> simp [h0]
  have e : (summarize inc m ds b).2.2.1 = shown m ((visited inc r ds).length : Nat) 0 (visited inc r ds) := by
    unfold summarize
    dsimp only
    rw [hlen]
    obtain ⟨b', r', h1, -⟩ := sumLoop_spec hm inc ((visited inc r ds).length : ℚ) 0 hnd h hin
    rw [h1]
  rw [e]
  by_cases hz : visited inc r ds = []
  · rw [hz]; simp [shown]
  · have := shown_bounds m (List.length_pos_of_ne_nil hz) (visited inc r ds) 0 (by omega)
    simpa using this

/-- three channels, one bad from before, one failing: half of the good ones, and the last one succeeds -/
example : summarize false (fun c s => if c = 3 then (s + 100, .error (.exc "no data")) else (s + 1, .ok ())) [(1, 10), (3, 20), (5, 30), (7, 40)]
      ⟨[(1, ["old"])], [(1, some ["old"]), (3, none), (5, none), (7, none)]⟩ =
    ([(1, 10), (3, 120), (5, 31), (7, 41)], ⟨[(1, ["old"]), (3, ["summarize_data failed with no data"])],
      [(1, some ["old"]), (3, some ["summarize_data failed with no data"]), (5, none), (7, none)]⟩, [2 / 3, 1], .ok ()) := by decide +kernel

/-- two files with the same channel number, include_badchan: the progress goes beyond 1 (why the channel numbers have to differ in `progress_spec`) -/
example : (summarize true (fun _ (s : Nat) => (s, .ok ())) [(1, 0), (1, 0)] ⟨[], [(1, none)]⟩).2.2.1 = [1, 2] := by decide +kernel

/-! #### `compute_noise_spectra` -/

/-- `TESGroup.compute_noise_spectra`, mass/core/channel_group.py L496-502: no try -/
def noiseSpectra (m : Nat → S → S × Except Err Unit) : List (Nat × S) → Books → List (Nat × S) × Except Err Unit
  | [], _ => ([], .ok ())
  | (ch, s) :: t, b =>
    if (find b.bad ch).isSome then
      let r := noiseSpectra m t b
      ((ch, s) :: r.1, r.2)
    else
      match m ch s with
      | (s', .ok _) =>
        let r := noiseSpectra m t b
        ((ch, s') :: r.1, r.2)
      | (s', .error e) => ((ch, s') :: t, .error e)

/-- C147: as long as no good channel fails, `compute_noise_spectra` does what `compute_noise` does. -/
theorem noise_spectra_partial {m : Nat → S → S × Except Err Unit} (msg : String → String) {ds : List (Nat × S)} {b : Books}
    (hok : ∀ x ∈ ds, (find b.bad x.1).isSome = false → (m x.1 x.2).2 = .ok ()) :
    coreLoop false msg m ds b = ((noiseSpectra m ds b).1, b, (noiseSpectra m ds b).2) ∧ (noiseSpectra m ds b).2 = .ok () := by
  induction ds with
  | nil => exact ⟨rfl, rfl⟩
  | cons x t ih =>
    obtain ⟨ch, s⟩ := x
    obtain ⟨h1, h2⟩ := ih (fun x hx => hok x (by simp [hx]))
    unfold coreLoop noiseSpectra
    by_cases hb : (find b.bad ch).isSome = true
    · rw [if_pos hb, if_pos hb, h1]
      exact ⟨rfl, h2⟩
    · have hs := hok (ch, s) (by simp) (by simpa using hb)
      dsimp only at hs
      rw [if_neg hb, if_neg hb]
      cases hr : m ch s with
      | mk s' res =>
        rw [hr] at hs
        dsimp only at hs
        subst hs
        dsimp only
        rw [h1]
        exact ⟨rfl, h2⟩

/-- Disagreement (C147): `compute_noise_spectra` is documented as equivalent to `compute_noise`, but one channel without usable noise ends it with that exception:
the later channels get no noise, and the failing one is not marked bad. -/
theorem noise_spectra_fails (m : Nat → S → S × Except Err Unit) (pre post : List (Nat × S)) (ch : Nat) (s : S) (b : Books) (e : String)
    (hgood : find b.bad ch = none) (he : (m ch s).2 = .error (.exc e)) (hok : ∀ x ∈ pre, (m x.1 x.2).2 = .ok ()) :
    ∃ pre', pre'.length = pre.length ∧ noiseSpectra m (pre ++ (ch, s) :: post) b = (pre' ++ (ch, (m ch s).1) :: post, .error (.exc e)) := by
  induction pre with
  | nil =>
    refine ⟨[], rfl, ?_⟩
    rw [List.nil_append]
    unfold noiseSpectra
    rw [hgood, if_neg (by simp)]
    cases hr : m ch s with
    | mk s' res =>
      rw [hr] at he
      dsimp only at he
      subst he
      rfl
  | cons x t ih =>
    obtain ⟨c, u⟩ := x
    obtain ⟨p, hl, hp⟩ := ih (fun x hx => hok x (by simp [hx]))
    rw [List.cons_append]
    unfold noiseSpectra
    rw [hp]
    by_cases hb : (find b.bad c).isSome = true
    · exact ⟨(c, u) :: p, by simp [hl], by rw [if_pos hb]; rfl⟩
    · have hs := hok (c, u) (by simp)
      dsimp only at hs
      cases hr : m c u with
      | mk s' res =>
        rw [hr] at hs
        dsimp only at hs
        subst hs
        exact ⟨(c, s') :: p, by simp [hl], by rw [if_neg hb]; rfl⟩

/-- the same channels with both methods -/
example : let m : Nat → Nat → Nat × Except Err Unit := fun c s => if c = 1 then (s, .error (.exc "no noise")) else (s + 1, .ok ())
    noiseSpectra m [(1, 0), (3, 0)] ⟨[], [(1, none), (3, none)]⟩ = ([(1, 0), (3, 0)], .error (.exc "no noise")) ∧
    coreLoop false id m [(1, 0), (3, 0)] ⟨[], [(1, none), (3, none)]⟩ =
      ([(1, 0), (3, 1)], ⟨[(1, ["no noise"])], [(1, some ["no noise"]), (3, none)]⟩, .ok ()) := by decide +kernel

/-! #### `timestamp_offset` -/

/-- `TESGroup.timestamp_offset`, mass/core/channel_group.py L466-471, of (channel number, offset) -/
def timestampOffset (ds : List (Nat × ℚ)) (b : Books) : Option ℚ :=
  match (((ds.filter (fun x => (find b.bad x.1).isNone)).map Prod.snd).dedup) with
  | [t] => some t
  | _ => none

/-- C147: the group has a timestamp offset exactly if there is a good channel and all good ones agree; bad channels do not matter. -/
theorem timestamp_offset_iff (ds : List (Nat × ℚ)) (b : Books) (t : ℚ) :
    timestampOffset ds b = some t ↔ (∃ x ∈ ds, x.1 ∉ b.bad.map Prod.fst) ∧ ∀ x ∈ ds, x.1 ∉ b.bad.map Prod.fst → x.2 = t := by
  have hmem : ∀ q, q ∈ ((ds.filter (fun x => (find b.bad x.1).isNone)).map Prod.snd).dedup ↔ ∃ x ∈ ds, x.1 ∉ b.bad.map Prod.fst ∧ x.2 = q := by
    intro q
    rw [List.mem_dedup, List.mem_map]
    constructor
    · rintro ⟨x, hx, rfl⟩
      rw [List.mem_filter] at hx
      refine ⟨x, hx.1, ?_, rfl⟩
      rw [← find_isSome]
      have := hx.2
      cases hf : find b.bad x.1 with
      | none => simp
      | some y => rw [hf] at this; simp at this
    · rintro ⟨x, hx, h1, rfl⟩
      refine ⟨x, ?_, rfl⟩
      rw [List.mem_filter]
      refine ⟨hx, ?_⟩
      rw [← find_isSome] at h1
      cases hf : find b.bad x.1 with
      | none => rfl
      | some y => rw [hf] at h1; simp at h1
  have hnd := List.nodup_dedup ((ds.filter (fun x => (find b.bad x.1).isNone)).map Prod.snd)
  unfold timestampOffset
  generalize ((ds.filter (fun x => (find b.bad x.1).isNone)).map Prod.snd).dedup = l at hmem hnd
  match l, hmem, hnd with
  | [], hmem, _ =>
    simp only [List.not_mem_nil, false_iff, not_exists, not_and] at hmem
    constructor
    · intro h; cases h
    · rintro ⟨⟨x, hx, h1⟩, -⟩
      exact absurd rfl (hmem x.2 x hx h1)
  | [q], hmem, _ =>
    simp only [List.mem_singleton] at hmem
    constructor
    · rintro ⟨⟩
      obtain ⟨x, hx, h1, -⟩ := (hmem _).1 rfl
      exact ⟨⟨x, hx, h1⟩, fun y hy h2 => (hmem y.2).2 ⟨y, hy, h2, rfl⟩⟩
    · rintro ⟨⟨x, hx, h1⟩, h2⟩
      have := (hmem x.2).2 ⟨x, hx, h1, rfl⟩
      rw [← this, h2 x hx h1]
  | p :: q :: l, hmem, hnd =>
    constructor
    · intro h; cases h
    · rintro ⟨-, h2⟩
      obtain ⟨x, hx, hx1, hx2⟩ := (hmem p).1 (by simp)
      obtain ⟨y, hy, hy1, hy2⟩ := (hmem q).1 (by simp)
      have : p = q := by rw [← hx2, ← hy2, h2 x hx hx1, h2 y hy hy1]
      rw [this] at hnd
      simp at hnd

/-- a bad channel with another offset -/
example : timestampOffset [(1, 5), (3, 7), (5, 5)] ⟨[(3, ["x"])], []⟩ = some 5 ∧ timestampOffset [(1, 5), (3, 7), (5, 5)] ⟨[], []⟩ = none := by decide +kernel

/-! #### `report` -/

/-- what `report` prints of a channel: pulses from the first to the last good one, rate (none: not a number or infinite, as numpy divides by 0), seconds, percentage (used for mass/core/channel_group.py L1026-1033) -/
structure Line where
  npulse : Int
  rate : Option ℚ
  dt : ℚ
  percent : ℚ
  deriving DecidableEq

/-- np.arange(len(good))[good] (used for mass/core/channel_group.py L1030) -/
def goodIdx (good : List Bool) : List Nat := (List.range good.length).filter (fun i => good.getD i false)
/-- bool array `argmax`: the first True, else 0 (used for mass/core/channel_group.py L1030) -/
def argmaxBool (good : List Bool) : Nat := if good.any id then good.findIdx id else 0

/-- the body of the loop of `report`, mass/core/channel_group.py L1027-1033, for the good flags and the timestamps of a channel -/
def reportOne (good : List Bool) (time : List ℚ) : Except Exc Line :=
  let ng := (good.filter id).length
  let tg := (goodIdx good).map (fun i => time.getD i 0)
  match tg.getLast?, tg.head? with
  | some l, some f =>
    let dt := l - f
    match (goodIdx good).getLast? with
    | none => .error .index
    | some last =>
      let np : Int := (last : Int) - argmaxBool good + 1
      .ok ⟨np, if dt = 0 then none else some (((np : ℚ) - 1) / dt), dt, 100 * ng / np⟩
  | _, _ => .error .index

/-- `report`, mass/core/channel_group.py L1024-1033: all data sets, bad ones too: the lines printed and how it ended -/
def report : List (List Bool × List ℚ) → List Line × Except Exc Unit
  | [] => ([], .ok ())
  | c :: t =>
    match reportOne c.1 c.2 with
    | .error e => ([], .error e)
    | .ok l => let r := report t; (l :: r.1, r.2)

theorem goodIdx_length (good : List Bool) : (goodIdx good).length = (good.filter id).length := by
  induction good with
  | nil => rfl
  | cons a l ih =>
    unfold goodIdx at ih ⊢
    rw [List.length_cons, List.range_succ_eq_map, List.filter_cons, List.filter_map, List.filter_cons]
    have e : ((List.range l.length).filter ((fun i => (a :: l).getD i false) ∘ Nat.succ)) = (List.range l.length).filter (fun i => l.getD i false) := by
      apply List.filter_congr
      intro i _
      simp
    rw [e]
    cases a <;> simpa using ih

theorem mem_goodIdx (good : List Bool) (i : Nat) : i ∈ goodIdx good ↔ good[i]? = some true := by
  unfold goodIdx
  rw [List.mem_filter, List.mem_range, List.getD_eq_getElem?_getD]
  constructor
  · rintro ⟨h1, h2⟩
    rw [List.getElem?_eq_getElem h1] at h2 ⊢
    simpa using h2
  · intro h
    obtain ⟨h1, -⟩ := List.getElem?_eq_some_iff.1 h
    exact ⟨h1, by rw [h]; rfl⟩

theorem goodIdx_sorted (good : List Bool) : (goodIdx good).Pairwise (· < ·) := List.Pairwise.filter _ List.pairwise_lt_range

/-- a strictly increasing list of naturals takes at least as much room as it is long, and exactly that much if and only if it has no gaps -/
theorem sorted_room (l : List Nat) (hs : l.Pairwise (· < ·)) {f g : Nat} (hf : l.head? = some f) (hg : l.getLast? = some g) :
    f ≤ g ∧ l.length ≤ g - f + 1 ∧ (l.length = g - f + 1 ↔ ∀ i, f ≤ i → i ≤ g → i ∈ l) ∧ ∀ i ∈ l, f ≤ i ∧ i ≤ g := by
  induction l generalizing f with
  | nil => simp at hf
  | cons a t ih =>
    simp at hf
    subst hf
    cases t with
    | nil =>
      simp at hg
      subst hg
      refine ⟨le_refl _, by simp, ?_, by simp⟩
      simp
      intro i h1 h2; omega
    | cons b u =>
      rw [List.pairwise_cons] at hs
      obtain ⟨h1, h2, h3, h4⟩ := ih hs.2 (f := b) (by simp) (by simpa [List.getLast?_cons_cons] using hg)
      have hab := hs.1 b (by simp)
      refine ⟨by omega, by rw [List.length_cons]; omega, ?_, ?_⟩
      · constructor
        · intro hl i hi1 hi2
          rw [List.length_cons] at hl
          by_cases hia : i = a
          · simp [hia]
          · exact List.mem_cons_of_mem _ (h3.1 (by omega) i (by omega) hi2)
        · intro hall
          have hb : b = a + 1 := by
            by_contra hne
            have hm := hall (a + 1) (by omega) (by omega)
            rcases List.mem_cons.1 hm with h | h
            · omega
            · have := (h4 _ h).1; omega
          have := h3.2 (fun i hi1 hi2 => by
            rcases List.mem_cons.1 (hall i (by omega) hi2) with h | h
            · omega
            · exact h)
          rw [List.length_cons]; omega
      · intro i hi
        rcases List.mem_cons.1 hi with rfl | hi
        · exact ⟨le_refl _, by omega⟩
        · have := h4 i hi; omega

theorem argmax_head (good : List Bool) {f : Nat} (hf : (goodIdx good).head? = some f) : argmaxBool good = f := by
  have hmem : f ∈ goodIdx good := List.mem_of_mem_head? hf
  rw [mem_goodIdx] at hmem
  obtain ⟨hlt, hv⟩ := List.getElem?_eq_some_iff.1 hmem
  have hany : good.any id = true := List.any_eq_true.2 ⟨true, by rw [← hv]; exact List.getElem_mem hlt, rfl⟩
  unfold argmaxBool
  rw [if_pos hany]
  have hle : good.findIdx id ≤ f := by
    by_contra hc
    have := List.not_of_lt_findIdx (p := id) (xs := good) (i := f) (by omega)
    rw [hv] at this
    cases this
  have hlt' : good.findIdx id < good.length := by omega
  have hg : good.findIdx id ∈ goodIdx good := by
    rw [mem_goodIdx, List.getElem?_eq_getElem hlt']
    have := List.findIdx_getElem (w := hlt')
    simpa using this
  have hs := goodIdx_sorted good
  cases hl : goodIdx good with
  | nil => rw [hl] at hf; simp at hf
  | cons a t =>
    rw [hl] at hf hg hs
    simp at hf
    subst hf
    rcases List.mem_cons.1 hg with h | h
    · exact h
    · have := (List.pairwise_cons.1 hs).1 _ h; omega

/-- C147: a channel with good pulses, the first of them at `f` and the last at `g`: the report gives the number of pulses from one to the other, the time
between them, and a percentage in (0, 100] that is 100 exactly if all pulses in between are good. -/
theorem report_line (good : List Bool) (time : List ℚ) {f g : Nat} (hf : good[f]? = some true) (hg : good[g]? = some true)
    (hfirst : ∀ i, good[i]? = some true → f ≤ i) (hlast : ∀ i, good[i]? = some true → i ≤ g) :
    ∃ L, reportOne good time = .ok L ∧ L.npulse = (g : Int) - f + 1 ∧ L.dt = time.getD g 0 - time.getD f 0 ∧ (L.rate = none ↔ L.dt = 0) ∧
      (∀ q, L.rate = some q → q * L.dt = (g : ℚ) - f) ∧ 0 < L.percent ∧ L.percent ≤ 100 ∧ (L.percent = 100 ↔ ∀ i, f ≤ i → i ≤ g → good[i]? = some true) := by
  have hs := goodIdx_sorted good
  have hne : goodIdx good ≠ [] := List.ne_nil_of_mem ((mem_goodIdx good f).2 hf)
  have hh : (goodIdx good).head? = some f := by
    cases hl : goodIdx good with
    | nil => exact absurd hl hne
    | cons a t =>
      have h1 := hfirst a ((mem_goodIdx good a).1 (by rw [hl]; simp))
      have h2 : f ∈ goodIdx good := (mem_goodIdx good f).2 hf
      rw [hl] at h2 hs
      rcases List.mem_cons.1 h2 with h | h
      · simp [h]
      · have := (List.pairwise_cons.1 hs).1 _ h; omega
  have hl : (goodIdx good).getLast? = some g := by
    obtain ⟨x, hx⟩ := List.getLast?_isSome.2 hne |> Option.isSome_iff_exists.1
    obtain ⟨-, -, -, h4⟩ := sorted_room _ hs hh hx
    have h1 := (h4 g ((mem_goodIdx good g).2 hg)).2
    have h2 := hlast x ((mem_goodIdx good x).1 (List.mem_of_getLast? hx))
    rw [hx]
    congr 1; omega
  obtain ⟨r1, r2, r3, -⟩ := sorted_room _ hs hh hl
  rw [goodIdx_length] at r2 r3
  have hpos : 0 < (good.filter id).length := by rw [← goodIdx_length]; exact List.length_pos_of_ne_nil hne
  have hq : (((g : Int) - f + 1 : Int) : ℚ) = ((g - f + 1 : Nat) : ℚ) := by
    push_cast [Nat.cast_sub r1]; ring
  have hqp : (0 : ℚ) < ((g - f + 1 : Nat) : ℚ) := by positivity
  refine ⟨⟨(g : Int) - f + 1, if time.getD g 0 - time.getD f 0 = 0 then none else some (((((g : Int) - f + 1 : Int) : ℚ) - 1) / (time.getD g 0 - time.getD f 0)),
    time.getD g 0 - time.getD f 0, 100 * (good.filter id).length / (((g : Int) - f + 1 : Int) : ℚ)⟩, ?_, rfl, rfl, ?_, ?_, ?_, ?_, ?_⟩
  · unfold reportOne
    simp only [List.getLast?_map, List.head?_map, hh, hl, Option.map_some, argmax_head good hh]
  · dsimp only
    split <;> simp_all
  · dsimp only
    intro q hq'
    split at hq'
    · cases hq'
    · rename_i hz
      rw [← Option.some.inj hq']
      rw [div_mul_cancel₀ _ hz]
      push_cast; ring
  · dsimp only
    rw [hq]
    have : (0 : ℚ) < (good.filter id).length := by exact_mod_cast hpos
    positivity
  · dsimp only
    rw [hq, div_le_iff₀ hqp]
    have : ((good.filter id).length : ℚ) ≤ ((g - f + 1 : Nat) : ℚ) := by exact_mod_cast r2
    linarith
  · dsimp only
    rw [hq, div_eq_iff hqp.ne']
    have e : (100 * ((good.filter id).length : ℚ) = 100 * ((g - f + 1 : Nat) : ℚ)) ↔ (good.filter id).length = g - f + 1 := by
      constructor
      · intro h
        have : ((good.filter id).length : ℚ) = ((g - f + 1 : Nat) : ℚ) := by linarith
        exact_mod_cast this
      · intro h; rw [h]
    rw [e, r3]
    constructor
    · intro h i h1 h2; exact (mem_goodIdx good i).1 (h i h1 h2)
    · intro h i h1 h2; exact (mem_goodIdx good i).2 (h i h1 h2)

/-- five pulses, the first and the fourth good: 4 pulses, half of them good, 3 intervals in 6 s -/
example : reportOne [true, false, false, true, false] [1, 2, 3, 7, 8] = .ok ⟨4, some (1 / 2), 6, 50⟩ ∧ reportOne [false, true] [1, 2] = .ok ⟨1, none, 0, 100⟩ := by decide +kernel

/-- Disagreement (C147): a channel without good pulses (a dead channel, marked bad or not) ends the report of the whole group with an IndexError; the channels
after it are not reported. -/
theorem report_fails (pre post : List (List Bool × List ℚ)) (good : List Bool) (time : List ℚ) (hbad : ∀ x ∈ good, x = false)
    (hpre : ∀ c ∈ pre, ∃ L, reportOne c.1 c.2 = .ok L) :
    (report (pre ++ (good, time) :: post)).2 = .error .index ∧ (report (pre ++ (good, time) :: post)).1.length = pre.length := by
  induction pre with
  | nil =>
    have hnil : goodIdx good = [] := by
      rw [List.eq_nil_iff_forall_not_mem]
      intro i hi
      rw [mem_goodIdx] at hi
      have := hbad true (List.mem_of_getElem? hi)
      cases this
    have e : reportOne good time = .error .index := by
      unfold reportOne
      simp [hnil]
    rw [List.nil_append]
    unfold report
    dsimp only
    rw [e]
    exact ⟨rfl, rfl⟩
  | cons c t ih =>
    obtain ⟨L, hL⟩ := hpre c (by simp)
    obtain ⟨h1, h2⟩ := ih (fun c hc => hpre c (by simp [hc]))
    rw [List.cons_append]
    unfold report
    rw [hL]
    dsimp only
    exact ⟨h1, by simp [h2]⟩

/-- the second of three channels is dead -/
example : report [([true, true], [1, 2]), ([false], [1]), ([true], [3])] = ([⟨2, some 1, 1, 100⟩], .error .index) := by decide +kernel

/-! #### Noise-only groups -/

/-- which noise files a group made with noise_only=True uses, mass/core/channel_group.py L128-165 (lists, or patterns expanded already). `h5` tells if hdf5_noisefilename was given; if not, the first noise file's name is used (L164-165).
(`_generate_hdf5_filename(filenames[0])` is not asked for, L162.) -/
def chooseNoise (ch : Str → Option Nat) (ord : List (Option Nat) → List (Option Nat)) (files : List Str) (noise : Option (List Str)) (never only : Option (List (Option Nat)))
    (maxc : Option Nat) (h5 : Bool) : Except Exc (List Str) :=
  let noise := if noise = some [] then none else noise
  let (files, noise) := match noise with
    | none => (([] : List Str), files)
    | some n => (files, n)
  if noise = [] then .error .value
  else
    let r := removeUnpaired ch ord files noise never only
    let noise := match maxc with
      | none => r.2
      | some m => r.2.take (min m r.1.length)
    if h5 then .ok noise
    else match noise with
      | [] => .error .index
      | n => .ok n

/-- C147: without max_chans a noise-only group uses all the noise files it is given, whichever argument they are given in. -/
theorem noise_only_files (ch : Str → Option Nat) (ord : List (Option Nat) → List (Option Nat)) (files : List Str) (hne : files ≠ []) (h5 : Bool) :
    chooseNoise ch ord files none none none none h5 = .ok files ∧ chooseNoise ch ord [] (some files) none none none h5 = .ok files := by
  have h1 : ∀ n o, removeUnpaired ch ord [] files n o = ([], files) := fun n o => by unfold removeUnpaired; rw [if_pos rfl]
  unfold chooseNoise
  simp only [Option.some.injEq, hne, if_false, h1, reduceCtorEq]
  cases files with
  | nil => exact absurd rfl hne
  | cons a t => cases h5 <;> simp

/-- Disagreement (C147): the channel lists never_use and use_only have no effect in a noise-only group. -/
theorem noise_only_lists_fails (ch : Str → Option Nat) (ord : List (Option Nat) → List (Option Nat)) (files : List Str) (hne : files ≠ []) (never only : Option (List (Option Nat))) (h5 : Bool) :
    chooseNoise ch ord files none never only none h5 = .ok files := by
  have h1 : ∀ n o, removeUnpaired ch ord [] files n o = ([], files) := fun n o => by unfold removeUnpaired; rw [if_pos rfl]
  unfold chooseNoise
  simp only [hne, if_false, h1, reduceCtorEq]
  cases files with
  | nil => exact absurd rfl hne
  | cons a t => cases h5 <;> simp

/-- Disagreement (C147): any max_chans (even one larger than the number of files) makes a noise-only group impossible: IndexError, or, if the name of the noise
HDF5 file is given, a group without channels. -/
theorem noise_only_max_fails (ch : Str → Option Nat) (ord : List (Option Nat) → List (Option Nat)) (files : List Str) (hne : files ≠ []) (never only : Option (List (Option Nat))) (m : Nat) :
    chooseNoise ch ord files none never only (some m) false = .error .index ∧ chooseNoise ch ord files none never only (some m) true = .ok [] := by
  have h1 : ∀ n o, removeUnpaired ch ord [] files n o = ([], files) := fun n o => by unfold removeUnpaired; rw [if_pos rfl]
  unfold chooseNoise
  simp [hne, h1]

/-- with pulse files as well, the pairing does apply -/
example : let ch : Str → Option Nat := fun s => some s.length
    chooseNoise ch id ["ab".toList, "abc".toList] (some ["xyz".toList, "pqrs".toList]) none none none false = .ok ["xyz".toList] ∧
    chooseNoise ch id ["ab".toList, "abc".toList] none (some [some 2]) none none false = .ok ["ab".toList, "abc".toList] := by decide +kernel

/-- what the set-up of a noise-only group looks at in a file: number of segments, and (nSamples, nPresamples, timebase) (used for mass/core/channel_group.py L349-358) -/
structure NFile where
  nseg : Nat
  npulses : Nat
  attrs : Nat × Int × ℚ
  deriving DecidableEq

/-- number of segments of a file of `size` bytes of data in segments of `seg` bytes, mass/core/files.py L305 (python's floor division) -/
def nSegments (size seg : Nat) : Int := 1 + ((size : Int) - 1) / seg

/-- the checks in the loop of `_setup_per_channel_objects_noiseonly`, mass/core/channel_group.py L349-359: the group's n_segments, nPulses, attributes -/
def noiseSetup : List NFile → Nat × Nat × (Nat × Int × ℚ) → Except Exc (Nat × Nat × (Nat × Int × ℚ))
  | [], g => .ok g
  | f :: t, (n, p, a) =>
    if n = 0 then noiseSetup t (max n f.nseg, max p f.npulses, f.attrs)
    else if a ≠ f.attrs then .error .value
    else noiseSetup t (max n f.nseg, max p f.npulses, a)

theorem noiseSetup_aux (fs : List NFile) (n p : Nat) (a : Nat × Int × ℚ) (hn : 0 < n) :
    ((∀ f ∈ fs, f.attrs = a) → ∃ n' p', noiseSetup fs (n, p, a) = .ok (n', p', a) ∧ 0 < n' ∧ p ≤ p' ∧ (∀ f ∈ fs, f.npulses ≤ p') ∧ (p' = p ∨ ∃ f ∈ fs, f.npulses = p')) ∧
      ((∃ f ∈ fs, f.attrs ≠ a) → noiseSetup fs (n, p, a) = .error .value) := by
  induction fs generalizing n p with
  | nil => exact ⟨fun _ => ⟨n, p, rfl, hn, le_refl _, by simp, .inl rfl⟩, by simp⟩
  | cons f t ih =>
    unfold noiseSetup
    rw [if_neg (by omega)]
    constructor
    · intro h
      rw [if_neg (by simp [h f (by simp)])]
      obtain ⟨n', p', h1, h2, h3, h4, h5⟩ := (ih (max n f.nseg) (max p f.npulses) (by omega)).1 (fun f hf => h f (by simp [hf]))
      refine ⟨n', p', h1, h2, by omega, ?_, ?_⟩
      · intro g hg
        rcases List.mem_cons.1 hg with rfl | hg
        · omega
        · exact h4 g hg
      · rcases h5 with h5 | ⟨g, hg, h5⟩
        · rcases le_total p f.npulses with hle | hle
          · exact .inr ⟨f, by simp, by omega⟩
          · exact .inl (by omega)
        · exact .inr ⟨g, by simp [hg], h5⟩
    · rintro ⟨g, hg, hne⟩
      by_cases hf : a ≠ f.attrs
      · rw [if_pos hf]
      · rw [if_neg hf]
        rcases List.mem_cons.1 hg with rfl | hg
        · exact absurd (fun h => hne h.symm) hf
        · exact (ih _ _ (by omega)).2 ⟨g, hg, hne⟩

/-- C147: a noise-only group whose first file has data is made exactly if all files agree about record length, presamples and sample time; the group then has these, and the largest number of records. -/
theorem noise_attrs_partial (f : NFile) (fs : List NFile) (a0 : Nat × Int × ℚ) (hf : 0 < f.nseg) :
    ((∀ g ∈ fs, g.attrs = f.attrs) → ∃ n p, noiseSetup (f :: fs) (0, 0, a0) = .ok (n, p, f.attrs) ∧ (∀ g ∈ f :: fs, g.npulses ≤ p) ∧ ∃ g ∈ f :: fs, g.npulses = p) ∧
      ((∃ g ∈ fs, g.attrs ≠ f.attrs) → noiseSetup (f :: fs) (0, 0, a0) = .error .value) := by
  have e : noiseSetup (f :: fs) (0, 0, a0) = noiseSetup fs (f.nseg, f.npulses, f.attrs) := by
    conv_lhs => unfold noiseSetup
    simp
  rw [e]
  obtain ⟨h1, h2⟩ := noiseSetup_aux fs f.nseg f.npulses f.attrs hf
  refine ⟨fun h => ?_, h2⟩
  obtain ⟨n, p, q1, -, q3, q4, q5⟩ := h1 h
  refine ⟨n, p, q1, ?_, ?_⟩
  · intro g hg
    rcases List.mem_cons.1 hg with rfl | hg
    · exact q3
    · exact q4 g hg
  · rcases q5 with h | ⟨g, hg, h⟩
    · exact ⟨f, by simp, h.symm⟩
    · exact ⟨g, by simp [hg], h⟩

/-- a file with data has at least one segment, an empty one none -/
theorem segments_spec (size seg : Nat) (hseg : 0 < seg) : (nSegments size seg = 0 ↔ size = 0) ∧ 0 ≤ nSegments size seg ∧
    (0 < size → (nSegments size seg - 1) * seg < size ∧ (size : Int) ≤ nSegments size seg * seg) := by
  unfold nSegments
  have hs : (0 : Int) < seg := by exact_mod_cast hseg
  rcases Nat.eq_zero_or_pos size with rfl | hp
  · have : ((0 : Nat) : Int) - 1 = -1 := rfl
    rw [this]
    have e : (-1 : Int) / seg = -1 := Int.ediv_eq_neg_one_of_neg_of_le (by omega) (by omega)
    rw [e]
    simp
  · have hd : 0 ≤ ((size : Int) - 1) / seg := Int.ediv_nonneg (by omega) (by omega)
    have h1 := Int.mul_ediv_add_emod ((size : Int) - 1) seg
    have h2 := Int.emod_nonneg ((size : Int) - 1) hs.ne'
    have h3 := Int.emod_lt_of_pos ((size : Int) - 1) hs
    refine ⟨by omega, by omega, fun _ => ?_⟩
    constructor
    · have e : (1 + ((size : Int) - 1) / seg - 1) * seg = seg * (((size : Int) - 1) / seg) := by ring
      rw [e]; omega
    · have e : (1 + ((size : Int) - 1) / seg) * seg = seg + seg * (((size : Int) - 1) / seg) := by ring
      rw [e]; omega

/-- Disagreement (C147): if the first file of a noise-only group is empty, a file with a different record length is accepted; and if all are empty, nothing is compared at all. -/
theorem noise_attrs_fails : noiseSetup [⟨0, 0, (1000, 500, 1)⟩, ⟨1, 10, (2000, 1000, 1)⟩] (0, 0, (0, 0, 0)) = .ok (1, 10, (2000, 1000, 1)) ∧
    noiseSetup [⟨1, 10, (2000, 1000, 1)⟩, ⟨0, 0, (1000, 500, 1)⟩] (0, 0, (0, 0, 0)) = .error .value := by decide +kernel

/-- the books of a noise-only group just made from files whose HDF5 groups exist already, mass/core/channel_group.py L230, L332-371: `why_bad` is not read (a group with pulse files reads it, L270-272) -/
def reopenNoise (b : Books) : Books := ⟨[], b.h5⟩

/-- Disagreement (C147): reopening a noise-only group forgets which channels were marked bad, while the reasons stay in the HDF5 file; marking such a channel good then changes
nothing there, and marking it bad again replaces the old reasons. -/
theorem noise_marks_fails (b : Books) (ch : Nat) (old : List String) (why : String) (h : find b.h5 ch = some (some old)) :
    find (reopenNoise b).bad ch = none ∧ goodOne (reopenNoise b) ch = (reopenNoise b, .ok ()) ∧ find (goodOne (reopenNoise b) ch).1.h5 ch = some (some old) ∧
      find (badOne (reopenNoise b) ch why).1.h5 ch = some (some [why]) := by
  have hb : find (reopenNoise b).bad ch = none := rfl
  have hg : goodOne (reopenNoise b) ch = (reopenNoise b, .ok ()) := by
    unfold goodOne
    rw [hb]
    rfl
  refine ⟨hb, hg, by rw [hg]; exact h, ?_⟩
  unfold badOne
  have h' : find (reopenNoise b).h5 ch = some (some old) := h
  rw [hb, h']
  simp only [Option.isSome_some, if_true, Option.getD_none, List.nil_append]
  exact find_assign_self _ _ _

/-- channel 3, marked twice -/
example : find (reopenNoise ⟨[(3, ["a", "b"])], [(1, none), (3, some ["a", "b"])]⟩).bad 3 = none ∧
    (badOne (reopenNoise ⟨[(3, ["a", "b"])], [(1, none), (3, some ["a", "b"])]⟩) 3 "c").1 = ⟨[(3, ["c"])], [(1, none), (3, some ["c"])]⟩ := by decide +kernel

/-! #### NoiseRecords: use_records, and segments for the fancy spectra -/

/-- the argument use_records (mass/core/channel.py L60-62: None, or "a sequence (first,end)"; a number is what the code expects) -/
inductive Use
  | none
  | num (n : Int)
  | seq (first last : Int)
  deriving DecidableEq

/-- the number of records and of segments of the file object after opening, mass/core/channel.py L128-134; `rps` records per segment. `data` (all records) is not touched. -/
def useRecords (nP : Nat) (nseg : Int) (rps : Nat) : Use → Except Exc (Int × Int)
  | .none => .ok (nP, nseg)
  | .num n => if n < nP then (if rps = 0 then .error .zeroDiv else .ok (n, n / rps)) else .ok (nP, nseg)
  | .seq _ _ => .error .type

/-- C147: use_records=n limits the file to min(n, available) records; segments are only counted while whole: all records used lie in them up to a remainder smaller than a segment. -/
theorem use_records_partial (nP rps n : Nat) (nseg : Int) (hr : 0 < rps) :
    ∃ s, useRecords nP nseg rps (.num n) = .ok ((min n nP : Nat), s) ∧ (nP ≤ n → s = nseg) ∧ (n < nP → s * rps ≤ n ∧ (n : Int) < (s + 1) * rps) := by
  unfold useRecords
  dsimp only
  by_cases h : (n : Int) < nP
  · have h' : n < nP := by exact_mod_cast h
    rw [if_pos h, if_neg (by omega)]
    refine ⟨(n : Int) / rps, by rw [Nat.min_eq_left h'.le], fun h2 => by omega, fun _ => ?_⟩
    have hs : (0 : Int) < rps := by exact_mod_cast hr
    have h1 := Int.mul_ediv_add_emod (n : Int) rps
    have h2 := Int.emod_nonneg (n : Int) hs.ne'
    have h3 := Int.emod_lt_of_pos (n : Int) hs
    constructor
    · have e : (n : Int) / rps * rps = rps * ((n : Int) / rps) := by ring
      rw [e]; omega
    · have e : ((n : Int) / rps + 1) * rps = rps * ((n : Int) / rps) + rps := by ring
      rw [e]; omega
  · have h' : nP ≤ n := by
      have := not_lt.1 h
      exact_mod_cast this
    rw [if_neg h]
    exact ⟨nseg, by rw [Nat.min_eq_right h'], fun _ => rfl, fun h2 => by omega⟩

/-- Disagreement (C147): the documented form of use_records, a sequence (first, end), is a TypeError; a number smaller than the records of one segment leaves no segment; a negative one a negative number of records. -/
theorem use_records_fails : (∀ nP nseg rps first last, useRecords nP nseg rps (.seq first last) = .error .type) ∧
    useRecords 5000 2 4000 (.num 100) = .ok (100, 0) ∧ useRecords 5000 2 4000 (.num (-3)) = .ok (-3, -1) :=
  ⟨fun _ _ _ _ _ => rfl, by decide +kernel, by decide +kernel⟩

example : useRecords 5000 2 2000 (.num 4500) = .ok (4500, 2) ∧ useRecords 5000 2 2000 (.num 7000) = .ok (5000, 2) := by decide +kernel

/-- doubling while at most n // 16 (mass/core/channel.py L219-221) -/
def longest (lim k : Nat) : Nat := if h : 0 < k ∧ k ≤ lim then longest lim (2 * k) else k
termination_by lim + 1 - k
decreasing_by omega

/-- a quarter of the last one while that is above 256 (mass/core/channel.py L222-224) -/
def quarters (k : Nat) : List Nat := if 256 < k then k :: quarters (k / 4) else [k]
termination_by k
decreasing_by omega

/-- the segment lengths of `compute_fancy_power_spectra`, mass/core/channel.py L216-224, for `n` samples; `n = none`: the file object has no array `data` (LJH files keep None there, files.py L50) -/
def segLengths : Option Nat → Except Exc (List Nat)
  | none => .error .attribute
  | some n => .ok (quarters (longest (n / 16) 1))

theorem longest_spec (lim : Nat) : ∀ k, 0 < k → ∃ j, longest lim k = k * 2 ^ j ∧ lim < longest lim k ∧ (j = 0 ∨ longest lim k ≤ 2 * lim) := by
  intro k hk
  induction k using longest.induct (lim := lim) with
  | case1 k h ih =>
    obtain ⟨j, h1, h2, h3⟩ := ih (by omega)
    have e : longest lim k = longest lim (2 * k) := by
      conv_lhs => unfold longest
      rw [dif_pos h]
    rw [e]
    refine ⟨j + 1, by rw [h1]; ring, h2, .inr ?_⟩
    rcases h3 with h3 | h3
    · rw [h1, h3]; omega
    · exact h3
  | case2 k h =>
    have e : longest lim k = k := by
      unfold longest
      rw [dif_neg h]
    rw [e]
    exact ⟨0, by simp, by omega, .inl rfl⟩

theorem quarters_spec : ∀ k : Nat, (quarters k).head? = some k ∧ (∀ x ∈ quarters k, x = k ∨ 64 ≤ x) ∧ (∃ x, (quarters k).getLast? = some x ∧ x ≤ 256) ∧
    (quarters k).IsChain (fun a b => 256 < a ∧ b = a / 4) ∧ ∀ j, k = 2 ^ j → ∀ x ∈ quarters k, ∃ i, x = 2 ^ i := by
  intro k
  induction k using quarters.induct with
  | case1 k h ih =>
    obtain ⟨h1, h2, h3, h4, h5⟩ := ih
    have e : quarters k = k :: quarters (k / 4) := by
      conv_lhs => unfold quarters
      rw [if_pos h]
    rw [e]
    refine ⟨rfl, ?_, ?_, ?_, ?_⟩
    · intro x hx
      rcases List.mem_cons.1 hx with rfl | hx
      · exact .inl rfl
      · right
        rcases h2 x hx with rfl | h
        · omega
        · exact h
    · obtain ⟨x, hx, hle⟩ := h3
      refine ⟨x, ?_, hle⟩
      cases hq : quarters (k / 4) with
      | nil => rw [hq] at hx; simp at hx
      | cons a t => rw [List.getLast?_cons_cons, ← hq]; exact hx
    · cases hq : quarters (k / 4) with
      | nil => simp
      | cons a t =>
        rw [hq] at h1 h4
        simp at h1
        subst h1
        exact List.isChain_cons_cons.2 ⟨⟨h, rfl⟩, h4⟩
    · intro j hj x hx
      rcases List.mem_cons.1 hx with rfl | hx
      · exact ⟨j, hj⟩
      · have hj2 : 2 ≤ j := by
          by_contra hc
          have : j = 0 ∨ j = 1 := by omega
          rcases this with rfl | rfl <;> simp at hj <;> omega
        obtain ⟨i, rfl⟩ := Nat.exists_eq_add_of_le hj2
        exact h5 i (by rw [hj, pow_add]; omega) x hx
  | case2 k h =>
    have e : quarters k = [k] := by
      unfold quarters
      rw [if_neg h]
    rw [e]
    refine ⟨rfl, by simp, ⟨k, rfl, by omega⟩, by simp, ?_⟩
    intro j hj x hx
    exact ⟨j, by simp at hx; omega⟩

/-- C147: the segment lengths for the fancy noise spectra of `n` samples: all powers of two, each a quarter of the one before, the first one above n // 16 (and at most twice that),
the last one at most 256. -/
theorem seg_lengths (n : Nat) : ∃ l, segLengths (some n) = .ok l ∧ (∀ x ∈ l, ∃ i, x = 2 ^ i) ∧ l.IsChain (fun a b => 256 < a ∧ b = a / 4) ∧
    (∃ x, l.getLast? = some x ∧ x ≤ 256) ∧ ∃ x, l.head? = some x ∧ n / 16 < x ∧ (16 ≤ n → x ≤ 2 * (n / 16)) := by
  obtain ⟨j, h1, h2, h3⟩ := longest_spec (n / 16) 1 (by omega)
  obtain ⟨q1, -, q3, q4, q5⟩ := quarters_spec (longest (n / 16) 1)
  refine ⟨_, rfl, q5 j (by rw [h1]; simp), q4, q3, _, q1, h2, fun h => ?_⟩
  rcases h3 with h3 | h3
  · rw [h1, h3] at h2
    simp at h2
    omega
  · exact h3

/-- 100 records of 1000 samples -/
example : segLengths (some 100000) = .ok [8192, 2048, 512, 128] := by decide +kernel

/-- Disagreement (C147): for noise read from LJH files `compute_fancy_power_spectra` raises an AttributeError: it looks at an array that only in-memory files have. -/
theorem fancy_fails : segLengths none = .error .attribute := rfl

end Mass.Group.Sums
