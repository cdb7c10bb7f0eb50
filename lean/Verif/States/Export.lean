import Verif.States.Select
import Mathlib.Data.List.Nodup
import Mathlib.Tactic.ByContra
/-! C116: aliased state names and the export of histograms and pulse lists to HDF5 (mass/off/channels.py, mass/off/experiment_state.py). -/
namespace Mass.States.Export
open Mass.States
open Mass.Ljh (Bytes asc)
variable {R V : Type}

/-! ### model -/

/-- experiment_state.py L28-30: the aliases given so far, the latest first, and whether the states have been calculated -/
structure Aliases where
  dict : List (Bytes × Bytes)
  prevented : Bool

/-- experiment_state.py L147 and L187: `labelAliasesDict.get(label, label)` -/
def aliasOf (dict : List (Bytes × Bytes)) (l : Bytes) : Bytes := ((dict.find? (fun e => e.1 == l)).map Prod.snd).getD l

/-- experiment_state.py L173-183 `aliasState` for a list of labels, or for one label (a list of one) -/
def aliasState (a : Aliases) (us : List Bytes) (name : Bytes) : Except Exc Aliases :=
  if a.prevented then .error .exception
  else .ok { a with dict := us.foldl (fun d u => (u, name) :: d) a.dict }

/-- experiment_state.py L185-187 `labels` (channels.py L80-82 `stateLabels`) -/
def labels (ef : EF) (dict : List (Bytes × Bytes)) : List Bytes := ef.unaliased.map (aliasOf dict)

/-- channels.py L422-440 `getAttr` for states, up to reading the records: no state given, or a list (one name is a list of one). The first entry of
the list is looked at before anything else (L431). -/
def getRecs (zero : R) (recs : List R) (d : SD) (cut : List R → Except Exc (List Bool)) : Option (List Bytes) → Except Exc (List R)
  | none => indexPrealloc zero recs cut [⟨0, recs.length⟩]
  | some [] => .error .index
  | some (k :: t) => (stateSlices d (k :: t)).bind (indexPrealloc zero recs cut)

/-- channels.py L505-520 `hist` without calibration: `val` is the attribute, `H` is `np.histogram` for the bins given -/
def hist (zero : R) (recs : List R) (d : SD) (cut : List R → Except Exc (List Bool)) (val : R → V) (H : List V → List Nat)
    (states : Option (List Bytes)) : Except Exc (List Nat) :=
  (getRecs zero recs d cut states).map (fun rs => H (rs.map val))

/-- channels.py L95-100: the coadded histogram that `plotHist` draws; without states, all state labels -/
def plotHist (zero : R) (recs : List R) (d : SD) (cut : List R → Except Exc (List Bool)) (val : R → V) (H : List V → List Nat)
    (ls : List Bytes) (states : Option (List Bytes)) : Except Exc (List Nat) :=
  hist zero recs d cut val H (some (states.getD ls))

/-- what is stored under one name of an HDF5 file: bin centers, counts, values or a text (used for channels.py L760-798). Simplified: the bin centers
depend on the bin edges only and are not spelled out. -/
inductive Data (V : Type)
  | centers
  | counts (c : List Nat)
  | values (v : List V)
  | text (b : Bytes)
  deriving DecidableEq

/-- an HDF5 file: its datasets by path (used for channels.py L760-798). Simplified: names contain no `/`, and empty groups are not recorded. -/
abbrev File (V : Type) := List (List Bytes × Data V)

/-- two paths that cannot both be datasets: one is the other, or a group on the way to the other (used for channels.py L764-770) -/
def clash (p q : List Bytes) : Bool := p.isPrefixOf q || q.isPrefixOf p

/-- consecutive assignments `grp[name] = value` (channels.py L764-770): a value that cannot be computed ends them, and so does a name already in use
(h5py raises) -/
def writeAll : File V → List (List Bytes × Except Exc (Data V)) → File V × Option Exc
  | f, [] => (f, none)
  | f, (_, .error e) :: _ => (f, some e)
  | f, (p, .ok v) :: t => if f.any (fun e => clash p e.1) then (f, some .os) else writeAll (f ++ [(p, v)]) t

/-- channels.py L759-770 `Channel.histsToHDF5`: the assignments. `h` is `hist` for the bins, attribute and cut given. -/
def histWrites (ch attr : Bytes) (ls : List Bytes) (h : Option (List Bytes) → Except Exc (List Nat)) :
    List (List Bytes × Except Exc (Data V)) :=
  ls.flatMap (fun st =>
    [([ch, st, asc "bin_centers"], (h (some [st])).map (fun _ => .centers)),
     ([ch, st, asc "counts"], (h (some [st])).map .counts)]) ++
  [([ch, asc "bin_centers_ev"], (h none).map (fun _ => .centers)),
   ([ch, asc "counts"], (h none).map .counts),
   ([ch, asc "name_of_energy_indicator"], .ok (.text attr))]

/-- channels.py L1222-1237: the histogram of a group is the sum over its channels, from zeros -/
def sumHists (nb : Nat) (st : Option (List Bytes)) : List (Option (List Bytes) → Except Exc (List Nat)) → Except Exc (List Nat)
  | [] => .ok (List.replicate nb 0)
  | h :: t => do
    let c ← h st
    let r ← sumHists nb st t
    pure (List.zipWith (· + ·) c r)

/-- channels.py L1308-1320: what the group writes after its channels -/
def groupTail (nb : Nat) (off attr cutName : Bytes) (ls : List Bytes) (hs : List (Option (List Bytes) → Except Exc (List Nat))) :
    List (List Bytes × Except Exc (Data V)) :=
  let all := asc "all_channels"
  ls.flatMap (fun st =>
    [([all, st, asc "bin_centers"], (sumHists nb (some [st]) hs).map (fun _ => .centers)),
     ([all, st, asc "counts"], (sumHists nb (some [st]) hs).map .counts)]) ++
  [([all, asc "off_filename"], (sumHists nb none hs).map (fun _ => .text off)),
   ([all, asc "attr"], .ok (.text attr)),
   ([all, asc "used_cut_recipe_name"], .ok (.text cutName)),
   ([all, asc "bin_centers_ev"], (sumHists nb none hs).map (fun _ => .centers)),
   ([all, asc "counts"], (sumHists nb none hs).map .counts),
   ([all, asc "name_of_energy_indicator"], .ok (.text attr))]

/-- channels.py L1304-1320 `ChannelGroup.histsToHDF5` for the usable channels `chans`. The cut name is only set inside the loop (L1306). -/
def groupExport (nb : Nat) (off attr cutName : Bytes) (ls : List Bytes) (f : File V)
    (chans : List (Bytes × (Option (List Bytes) → Except Exc (List Nat)))) : File V × Option Exc :=
  if chans = [] then (f, some .unbound)
  else writeAll f (chans.flatMap (fun c => histWrites c.1 attr ls c.2) ++ groupTail nb off attr cutName ls (chans.map Prod.snd))

/-- channels.py L781-791: `arr[tuple(slices)][mask]` for an array with one dimension: more than one slice is an IndexError -/
def triggerValues (arr : List V) (slices : List Slice) (mask : List Bool) : Except Exc (List V) :=
  match slices with
  | [] => maskBy arr mask
  | [s] => maskBy (sliceOf arr s) mask
  | _ :: _ :: _ => .error .index

/-- channels.py L778-791: the assignments for one state. `ext` are the external trigger arrays the channel has, `en` and `tm` the energy and the time. -/
def stateWrites (zero : R) (recs : List R) (d : SD) (cut : List R → Except Exc (List Bool)) (en tm : R → V) (ext : List (Bytes × List V))
    (ch st : Bytes) : List (List Bytes × Except Exc (Data V)) :=
  let rs := getRecs zero recs d cut (some [st])
  [([ch, st, asc "energy"], rs.map (fun l => .values (l.map en))),
   ([ch, st, asc "unixnano"], rs.map (fun l => .values (l.map tm)))] ++
  ext.map (fun x => ([ch, st, x.1], do
    let sl ← stateSlices d [st]
    let all ← getRecs zero recs d (fun r => .ok (r.map (fun _ => true))) (some [st])
    let mask ← cut all
    let v ← triggerValues x.2 sl mask
    pure (.values v)))

/-- channels.py L772-798 `energyTimestampLabelToHDF5`: without states, the name `state` is used although no loop has set it (L795) -/
def labelExport (zero : R) (recs : List R) (d : SD) (cut : List R → Except Exc (List Bool)) (en tm : R → V) (ext : List (Bytes × List V))
    (ls : List Bytes) (ch off cutName : Bytes) (f : File V) : File V × Option Exc :=
  if ls = [] then (f, some .unbound)
  else writeAll f (ls.flatMap (stateWrites zero recs d cut en tm ext ch) ++
    [([ch, asc "off_filename"], .ok (.text off)), ([ch, asc "used_cut_recipe_name"], .ok (.text cutName))])

/-! ### aliases -/

theorem aliasOf_foldl (us : List Bytes) (d : List (Bytes × Bytes)) (name l : Bytes) :
    aliasOf (us.foldl (fun d u => (u, name) :: d) d) l = if l ∈ us then name else aliasOf d l := by
  induction us generalizing d with
  | nil => simp
  | cons u t ih =>
    rw [List.foldl_cons, ih]
    by_cases ht : l ∈ t
    · simp [ht]
    · rw [if_neg ht]
      by_cases hu : l = u
      · subst hu; simp [aliasOf]
      · have : (u == l) = false := by simpa using fun h => hu h.symm
        simp [aliasOf, List.find?_cons, this, ht, hu]

/-- C116. Giving an alias is refused once the states have been calculated; before that, exactly the labels named get it, also if they had another. -/
theorem alias_spec (a : Aliases) (us : List Bytes) (name : Bytes) :
    (a.prevented = true → aliasState a us name = .error .exception) ∧
      (a.prevented = false → ∃ a', aliasState a us name = .ok a' ∧ a'.prevented = false ∧
        (∀ l ∈ us, aliasOf a'.dict l = name) ∧ ∀ l, l ∉ us → aliasOf a'.dict l = aliasOf a.dict l) := by
  constructor
  · intro h; simp [aliasState, h]
  · intro h
    refine ⟨{ a with dict := us.foldl (fun d u => (u, name) :: d) a.dict }, by simp [aliasState, h], h, ?_, ?_⟩
    · intro l hl; rw [aliasOf_foldl, if_pos hl]
    · intro l hl; rw [aliasOf_foldl, if_neg hl]

/-- C116. The state labels are all different exactly if no two labels in use have the same alias (or one is aliased to another). -/
theorem labels_nodup_iff (ef : EF) (hn : ef.unaliased.Nodup) (dict : List (Bytes × Bytes)) :
    (labels ef dict).Nodup ↔ ∀ a ∈ ef.unaliased, ∀ b ∈ ef.unaliased, aliasOf dict a = aliasOf dict b → a = b := by
  unfold labels
  rw [List.nodup_map_iff_inj_on hn]

theorem uniqueKept_nodup (excl r all : List Bytes) (h : r.Nodup) : (uniqueKept excl r all).Nodup := by
  induction all generalizing r with
  | nil => simpa [uniqueKept] using h
  | cons l t ih =>
    unfold uniqueKept
    split
    · exact ih r h
    · rename_i hc
      refine ih _ ?_
      rw [List.nodup_append]
      refine ⟨h, by simp, ?_⟩
      intro a ha b hb
      rw [List.mem_singleton] at hb
      subst hb
      rintro rfl
      apply hc
      simp [ha]

/-- C116: after any parse the labels before aliasing are all different. -/
theorem absorb_nodup (ef : EF) (new : List (Int × Bytes)) (e : Nat) : (absorb ef new e).unaliased.Nodup :=
  uniqueKept_nodup _ _ _ (by simp)

/-! ### which pulses a default plot counts -/

theorem all_recs (zero : R) (recs : List R) (d : SD) (p : R → Bool) :
    getRecs zero recs d (pointwise p) none = .ok (recs.filter p) := by
  unfold getRecs
  have hfits : Fits (pointwise p) := fun r => ⟨_, rfl, by simp⟩
  rw [(index_methods_agree hfits zero recs (by simp) (by simp)).1]
  simp [passing_pointwise, sliceOf]

/-- the state of each label in use is in the dictionary -/
theorem labels_known {rd : Int → Int} (hrd : Mono rd) {ef : EF} {excl : List Bytes} (hef : ef.Good excl) {dict : List (Bytes × Bytes)}
    {pulses : List Int} (ht : Sorted ef.times) {d : SD} (h : batch rd ef (aliasOf dict) pulses = .ok d) {k : Bytes} (hk : k ∈ labels ef dict) :
    k ∈ d.map Prod.fst := by
  have _ := batch_bounds hrd hef ht h
  obtain ⟨l, hl, rfl⟩ := List.mem_map.1 hk
  rw [batch_eq] at h
  injection h with h
  by_contra hn
  have h0 : slicesOf d (aliasOf dict l) = [] := by
    unfold slicesOf
    cases hg : get d (aliasOf dict l) with
    | none => rfl
    | some v => exact absurd (List.mem_map.2 ⟨_, get_some hg, rfl⟩) hn
  rw [← h, slicesOf_loop] at h0
  have hin : ∀ (xs : List (Bytes × Nat)) (n : Nat), l ∈ xs.map Prod.fst →
      ∃ s, (aliasOf dict l, s) ∈ raw (fun l => ef.unaliased.contains l) (aliasOf dict) n xs := by
    intro xs n hx
    induction xs with
    | nil => simp at hx
    | cons x t ih =>
      obtain ⟨a, i⟩ := x
      rw [List.map_cons, List.mem_cons] at hx
      unfold raw
      rcases hx with hx | hx
      · dsimp only at hx
        subst hx
        rw [if_pos (by simpa using hl)]
        exact ⟨_, List.mem_append_left _ List.mem_cons_self⟩
      · obtain ⟨s, hs⟩ := ih hx
        exact ⟨s, List.mem_append_right _ hs⟩
  have hz : l ∈ (ef.allLabels.zip (ef.times.map (fun t => searchsorted (pulses.map rd) (rd t)))).map Prod.fst := by
    rw [List.map_fst_zip (by rw [List.length_map, hef.1]; exact Nat.le_refl _)]
    exact ((hef.2 l).1 hl).1
  obtain ⟨s, hs⟩ := hin _ pulses.length hz
  rw [List.append_eq_nil_iff, List.map_eq_nil_iff] at h0
  have := List.mem_filter (p := fun x : Bytes × Slice => x.1 == aliasOf dict l) |>.2 ⟨hs, by simp⟩
  rw [h0.2] at this
  simp at this

theorem select_perm {E : Type} (g : E → Option Bytes) (q : E → Bool) (xs : List E) (ks : List Bytes) (hk : ks.Nodup) :
    (ks.flatMap (fun k => xs.filter (fun e => decide (g e = some k) && q e))).Perm
      (xs.filter (fun e => decide (∃ k ∈ ks, g e = some k) && q e)) := by
  induction ks with
  | nil => simp
  | cons k t ih =>
    rw [List.nodup_cons] at hk
    rw [List.flatMap_cons]
    refine ((ih hk.2).append_left _).trans ?_
    have hp := List.filter_append_perm (fun e => decide (g e = some k)) (xs.filter (fun e => decide (∃ a ∈ k :: t, g e = some a) && q e))
    refine (List.Perm.of_eq ?_).trans hp
    rw [List.filter_filter, List.filter_filter]
    congr 1
    · apply List.filter_congr
      intro e _
      by_cases h : g e = some k <;> simp [h]
    · apply List.filter_congr
      intro e _
      by_cases h : g e = some k
      · have : ¬ ∃ a ∈ t, some k = some a := by
          rintro ⟨a, ha, e⟩
          injection e with e
          exact hk.1 (e ▸ ha)
        simp only [h, this]
        simp
      · have : (∃ a ∈ k :: t, g e = some a) ↔ ∃ a ∈ t, g e = some a := by
          constructor
          · rintro ⟨a, ha, e2⟩
            rcases List.mem_cons.1 ha with rfl | ha
            · exact absurd e2 h
            · exact ⟨a, ha, e2⟩
          · rintro ⟨a, ha, e2⟩
            exact ⟨a, List.mem_cons_of_mem _ ha, e2⟩
        simp only [this, h]
        simp

/-- the state in force is always one of the labels -/
theorem inForce_label {rd : Int → Int} {ef : EF} {excl : List Bytes} (hef : ef.Good excl) {dict : List (Bytes × Bytes)} {t : Int} {k : Bytes}
    (h : inForce rd ef excl (aliasOf dict) t = some k) : k ∈ labels ef dict := by
  unfold inForce at h
  cases hl : ((ef.allLabels.zip ef.times).filter (fun e => decide (rd e.2 ≤ rd t))).getLast? with
  | none => rw [hl] at h; simp at h
  | some e =>
    rw [hl] at h
    dsimp only at h
    split at h
    · simp at h
    · rename_i hx
      injection h with h
      have := List.mem_of_getLast? hl
      have := (List.mem_filter.1 this).1
      have := List.of_mem_zip this
      exact List.mem_map.2 ⟨e.1, (hef.2 _).2 ⟨this.1, hx⟩, h⟩

/-- C116. A histogram for which no states are asked counts every pulse that passes the cut, also before the first state and in excluded states. -/
theorem hist_default (zero : R) (recs : List R) (d : SD) (p : R → Bool) (val : R → V) (H : List V → List Nat) :
    hist zero recs d (pointwise p) val H none = .ok (H ((recs.filter p).map val)) := by
  unfold hist
  rw [all_recs]
  rfl

/-- C116. A plot for which no states are asked counts once each pulse that passes the cut and is in a state that is not excluded, provided no two
labels have the same alias. -/
theorem plot_default_partial {rd : Int → Int} (hrd : Mono rd) {ef : EF} {excl : List Bytes} (hef : ef.Good excl) {dict : List (Bytes × Bytes)}
    {pulses : List Int} (ht : Sorted ef.times) (hp : Sorted pulses) {d : SD} (h : batch rd ef (aliasOf dict) pulses = .ok d)
    (zero : R) (recs : List R) (hlen : recs.length = pulses.length) (p : R → Bool) (val : R → V) {H : List V → List Nat}
    (hH : ∀ a b, a.Perm b → H a = H b) (hne : labels ef dict ≠ []) (hd : (labels ef dict).Nodup) :
    plotHist zero recs d (pointwise p) val H (labels ef dict) none =
      .ok (H (((recs.zipIdx.filter (fun e => (inForce rd ef excl (aliasOf dict) (pulses.getD e.2 0)).isSome && p e.1)).map Prod.fst).map val)) := by
  have hs := select_states hrd hef ht hp h zero recs hlen p hne (fun k hk => labels_known hrd hef ht h hk)
  unfold plotHist hist
  have hg : getRecs zero recs d (pointwise p) (some ((none : Option (List Bytes)).getD (labels ef dict))) =
      (stateSlices d (labels ef dict)).bind (indexPrealloc zero recs (pointwise p)) := by
    cases hl : labels ef dict with
    | nil => exact absurd hl hne
    | cons k t => rfl
  rw [hg, hs]
  show Except.ok _ = _
  congr 1
  apply hH
  apply List.Perm.map
  rw [← List.map_flatMap]
  apply List.Perm.map
  refine (select_perm (fun e : R × Nat => inForce rd ef excl (aliasOf dict) (pulses.getD e.2 0)) (fun e => p e.1) recs.zipIdx _ hd).trans
    (List.Perm.of_eq (List.filter_congr ?_))
  intro e _
  congr 1
  rw [Bool.eq_iff_iff, decide_eq_true_iff, Option.isSome_iff_exists]
  constructor
  · rintro ⟨k, _, hk⟩; exact ⟨k, hk⟩
  · rintro ⟨k, hk⟩; exact ⟨k, inForce_label hef hk, hk⟩

/-- a state file with states A, B and C, of which B and C are given the name W [specification] -/
def merged : EF := mkEF [asc "START"] [(asc "START", 0), (asc "A", 10), (asc "B", 20), (asc "C", 30)]

/-- Disagreement (C116): two labels given the same name, which `aliasState` offers, both stay in the list of labels, and a plot for which no states are
asked counts their pulses twice: here pulses 3, 4 and 5 are in the merged state. -/
theorem merged_plot_fails : ∃ d, batch id merged (aliasOf [(asc "B", asc "W"), (asc "C", asc "W")]) [5, 10, 15, 20, 29, 30] = .ok d ∧
    labels merged [(asc "B", asc "W"), (asc "C", asc "W")] = [asc "A", asc "W", asc "W"] ∧
    plotHist 0 [0, 1, 2, 3, 4, 5] d (pointwise (fun _ => true)) id (fun l => [l.length])
      (labels merged [(asc "B", asc "W"), (asc "C", asc "W")]) none = .ok [8] := by
  refine ⟨_, rfl, ?_, ?_⟩ <;> decide +kernel

/-- C116, instance: with different names the 5 pulses after START are counted once -/
example : ∃ d, batch id merged (aliasOf [(asc "B", asc "W"), (asc "C", asc "X")]) [5, 10, 15, 20, 29, 30] = .ok d ∧
    plotHist 0 [0, 1, 2, 3, 4, 5] d (pointwise (fun _ => true)) id (fun l => [l.length])
      (labels merged [(asc "B", asc "W"), (asc "C", asc "X")]) none = .ok [5] ∧
    hist 0 [0, 1, 2, 3, 4, 5] d (pointwise (fun _ => true)) id (fun l => [l.length]) none = .ok [6] := by
  refine ⟨_, rfl, ?_, ?_⟩ <;> decide +kernel

/-- Disagreement (C116): if every state is excluded, so that there are no labels, a plot for which no states are asked raises an IndexError instead of
being empty. -/
theorem plot_no_states_fails (zero : R) (recs : List R) (d : SD) (cut : List R → Except Exc (List Bool)) (val : R → V) (H : List V → List Nat) :
    plotHist zero recs d cut val H [] none = .error .index := rfl

/-! ### writing -/

/-- no two of the paths can be in the way of each other [specification] -/
def Apart (ps : List (List Bytes)) : Prop := ps.Pairwise (fun p q => ¬ p <+: q ∧ ¬ q <+: p)

theorem clash_iff (p q : List Bytes) : clash p q = true ↔ p <+: q ∨ q <+: p := by
  simp [clash]

theorem writeAll_ok (f : File V) (ws : List (List Bytes × Data V)) (h : Apart ((f ++ ws).map Prod.fst)) :
    writeAll f (ws.map (fun e => (e.1, .ok e.2))) = (f ++ ws, none) := by
  induction ws generalizing f with
  | nil => simp [writeAll]
  | cons w t ih =>
    rw [List.map_cons]
    unfold writeAll
    have hno : f.any (fun e => clash w.1 e.1) = false := by
      rw [Bool.eq_false_iff, Ne, List.any_eq_true]
      rintro ⟨e, he, hc⟩
      rw [Apart, List.map_append, List.pairwise_append] at h
      have := h.2.2 e.1 (List.mem_map_of_mem he) w.1 (by simp)
      rcases (clash_iff _ _).1 hc with hc | hc
      · exact this.2 hc
      · exact this.1 hc
    rw [hno]
    have := ih (f ++ [(w.1, w.2)]) (by simpa using h)
    simpa using this

/-- what a file holds stays, whatever is written and however the writing ends -/
theorem writeAll_prefix (f : File V) (ws : List (List Bytes × Except Exc (Data V))) : f <+: (writeAll f ws).1 := by
  induction ws generalizing f with
  | nil => exact List.prefix_rfl
  | cons w t ih =>
    obtain ⟨p, v⟩ := w
    cases v with
    | error e => exact List.prefix_rfl
    | ok v =>
      unfold writeAll
      split
      · exact List.prefix_rfl
      · exact (List.prefix_append f _).trans (ih _)

/-- the datasets below one name: for each state some, and some directly below the name [specification] -/
def block (ch : Bytes) (ls : List Bytes) (leaves : Bytes → List (Bytes × Data V)) (tops : List (Bytes × Data V)) : List (List Bytes × Data V) :=
  ls.flatMap (fun st => (leaves st).map (fun x => ([ch, st, x.1], x.2))) ++ tops.map (fun x => ([ch, x.1], x.2))

theorem block_head {ch : Bytes} {ls : List Bytes} {leaves : Bytes → List (Bytes × Data V)} {tops : List (Bytes × Data V)}
    {e : List Bytes × Data V} (h : e ∈ block ch ls leaves tops) : e.1.head? = some ch := by
  unfold block at h
  rcases List.mem_append.1 h with h | h
  · obtain ⟨st, _, h⟩ := List.mem_flatMap.1 h
    obtain ⟨x, _, rfl⟩ := List.mem_map.1 h
    rfl
  · obtain ⟨x, _, rfl⟩ := List.mem_map.1 h
    rfl

theorem apart_of_head {p q : List Bytes} {a b : Bytes} (hp : p.head? = some a) (hq : q.head? = some b) (h : a ≠ b) :
    ¬ p <+: q ∧ ¬ q <+: p := by
  cases p with
  | nil => simp at hp
  | cons x p =>
    cases q with
    | nil => simp at hq
    | cons y q =>
      simp only [List.head?_cons, Option.some.injEq] at hp hq
      subst hp hq
      constructor
      · intro hh; exact h (List.cons_prefix_cons.1 hh).1
      · intro hh; exact h (List.cons_prefix_cons.1 hh).1.symm

theorem block_apart (ch : Bytes) {ls : List Bytes} {leaves : Bytes → List (Bytes × Data V)} {tops : List (Bytes × Data V)} (h1 : ls.Nodup)
    (h2 : ∀ st ∈ ls, ((leaves st).map Prod.fst).Nodup) (h3 : (tops.map Prod.fst).Nodup) (h4 : ∀ st ∈ ls, st ∉ tops.map Prod.fst) :
    Apart ((block ch ls leaves tops).map Prod.fst) := by
  unfold Apart block
  rw [List.map_append, List.pairwise_append]
  refine ⟨?_, ?_, ?_⟩
  · rw [List.map_flatMap, List.pairwise_flatMap]
    refine ⟨?_, ?_⟩
    · intro st hst
      rw [List.map_map, List.pairwise_map]
      have := h2 st hst
      rw [List.Nodup, List.pairwise_map] at this
      refine this.imp ?_
      intro a b hab
      simp [Function.comp, List.cons_prefix_cons, hab, Ne.symm hab]
    · refine h1.imp ?_
      intro a b hab x hx y hy
      simp only [List.map_map, List.mem_map, Function.comp] at hx hy
      obtain ⟨x, _, rfl⟩ := hx
      obtain ⟨y, _, rfl⟩ := hy
      simp [List.cons_prefix_cons, hab, Ne.symm hab]
  · rw [List.map_map, List.pairwise_map]
    rw [List.Nodup, List.pairwise_map] at h3
    refine h3.imp ?_
    intro a b hab
    simp [Function.comp, List.cons_prefix_cons, hab, Ne.symm hab]
  · intro x hx y hy
    simp only [List.map_flatMap, List.mem_flatMap, List.map_map, List.mem_map, Function.comp] at hx hy
    obtain ⟨st, hst, x, _, rfl⟩ := hx
    obtain ⟨y, hy, rfl⟩ := hy
    have : st ≠ y.1 := fun e => h4 st hst (e ▸ List.mem_map_of_mem hy)
    simp [List.cons_prefix_cons, this, Ne.symm this]

/-- nothing in the file is called `ch` or below it [specification] -/
def Free (f : File V) (ch : Bytes) : Prop := ∀ e ∈ f, ∃ a, e.1.head? = some a ∧ a ≠ ch

theorem write_block {f : File V} (hf : Apart (f.map Prod.fst)) {ch : Bytes} (hfree : Free f ch) {ls : List Bytes}
    {leaves : Bytes → List (Bytes × Data V)} {tops : List (Bytes × Data V)} (h1 : ls.Nodup)
    (h2 : ∀ st ∈ ls, ((leaves st).map Prod.fst).Nodup) (h3 : (tops.map Prod.fst).Nodup) (h4 : ∀ st ∈ ls, st ∉ tops.map Prod.fst) :
    Apart ((f ++ block ch ls leaves tops).map Prod.fst) := by
  unfold Apart
  rw [List.map_append, List.pairwise_append]
  refine ⟨hf, block_apart ch h1 h2 h3 h4, ?_⟩
  intro x hx y hy
  obtain ⟨e, he, rfl⟩ := List.mem_map.1 hx
  obtain ⟨e', he', rfl⟩ := List.mem_map.1 hy
  obtain ⟨a, ha, hne⟩ := hfree e he
  exact apart_of_head ha (block_head he') hne

/-- the datasets of a channel with histogram counts `c` [specification] -/
def histBlock (ch attr : Bytes) (ls : List Bytes) (c : Option (List Bytes) → List Nat) : List (List Bytes × Data V) :=
  block ch ls (fun st => [(asc "bin_centers", .centers), (asc "counts", .counts (c (some [st])))])
    [(asc "bin_centers_ev", .centers), (asc "counts", .counts (c none)), (asc "name_of_energy_indicator", .text attr)]

theorem histWrites_eq (ch attr : Bytes) (ls : List Bytes) {h : Option (List Bytes) → Except Exc (List Nat)} {c : Option (List Bytes) → List Nat}
    (hs : ∀ st ∈ ls, h (some [st]) = .ok (c (some [st]))) (hn : h none = .ok (c none)) :
    (histWrites ch attr ls h : List (List Bytes × Except Exc (Data V))) = (histBlock ch attr ls c).map (fun e => (e.1, .ok e.2)) := by
  unfold histWrites histBlock block
  rw [List.map_append, List.map_flatMap, hn]
  congr 1
  rw [List.flatMap_def, List.flatMap_def]
  congr 1
  apply List.map_congr_left
  intro st hst
  rw [hs st hst]
  rfl

/-- C116. Exporting the histograms of a channel to a file with nothing of that channel in it: if the state labels are all different and none of them
is one of the three names used for the summary, the export succeeds; what was in the file stays; for every state the counts stored are those of that
state, and the summary holds those of all pulses; nothing else is added. -/
theorem hists_export_partial {f : File V} (hf : Apart (f.map Prod.fst)) {ch : Bytes} (hfree : Free f ch) (attr : Bytes) {ls : List Bytes}
    (hls : ls.Nodup) (hres : ∀ st ∈ ls, st ∉ [asc "bin_centers_ev", asc "counts", asc "name_of_energy_indicator"])
    {h : Option (List Bytes) → Except Exc (List Nat)} {c : Option (List Bytes) → List Nat}
    (hs : ∀ st ∈ ls, h (some [st]) = .ok (c (some [st]))) (hn : h none = .ok (c none)) :
    ∃ f', writeAll f (histWrites ch attr ls h) = (f', none) ∧ f <+: f' ∧ Apart (f'.map Prod.fst) ∧
      (∀ st ∈ ls, ([ch, st, asc "bin_centers"], Data.centers) ∈ f' ∧ ([ch, st, asc "counts"], Data.counts (c (some [st]))) ∈ f') ∧
      ([ch, asc "counts"], Data.counts (c none)) ∈ f' ∧ ([ch, asc "name_of_energy_indicator"], Data.text attr) ∈ f' ∧
      f'.length = f.length + 2 * ls.length + 3 := by
  have ha : Apart ((f ++ histBlock ch attr ls c).map Prod.fst) := by
    refine write_block hf hfree hls ?_ ?_ ?_
    · intro st _
      show [asc "bin_centers", asc "counts"].Nodup
      decide +kernel
    · show [asc "bin_centers_ev", asc "counts", asc "name_of_energy_indicator"].Nodup
      decide +kernel
    · exact hres
  refine ⟨f ++ histBlock ch attr ls c, ?_, List.prefix_append _ _, ha, ?_, ?_, ?_, ?_⟩
  · rw [histWrites_eq ch attr ls hs hn, writeAll_ok f _ ha]
  · intro st hst
    unfold histBlock block
    constructor
    · exact List.mem_append_right _ (List.mem_append_left _ (List.mem_flatMap.2 ⟨st, hst, by simp⟩))
    · exact List.mem_append_right _ (List.mem_append_left _ (List.mem_flatMap.2 ⟨st, hst, by simp⟩))
  · unfold histBlock block
    exact List.mem_append_right _ (List.mem_append_right _ (by simp))
  · unfold histBlock block
    exact List.mem_append_right _ (List.mem_append_right _ (by simp))
  · unfold histBlock block
    simp only [List.length_append, List.length_flatMap, List.length_map, List.length_cons, List.length_nil]
    have : (ls.map (fun _ => 0 + 1 + 1)).sum = 2 * ls.length := by
      rw [List.map_const', List.sum_replicate_nat]
      omega
    rw [this]
    omega

/-- C116. The counts stored for a state are those of exactly the pulses that pass the cut and are in that state. -/
theorem export_counts {rd : Int → Int} (hrd : Mono rd) {ef : EF} {excl : List Bytes} (hef : ef.Good excl) {dict : List (Bytes × Bytes)}
    {pulses : List Int} (ht : Sorted ef.times) (hp : Sorted pulses) {d : SD} (h : batch rd ef (aliasOf dict) pulses = .ok d)
    (zero : R) (recs : List R) (hlen : recs.length = pulses.length) (p : R → Bool) (val : R → V) (H : List V → List Nat)
    {f : File V} (hf : Apart (f.map Prod.fst)) {ch : Bytes} (hfree : Free f ch) (attr : Bytes)
    (hls : (labels ef dict).Nodup) (hres : ∀ st ∈ labels ef dict, st ∉ [asc "bin_centers_ev", asc "counts", asc "name_of_energy_indicator"]) :
    ∃ f', writeAll f (histWrites ch attr (labels ef dict) (hist zero recs d (pointwise p) val H)) = (f', none) ∧
      (∀ st ∈ labels ef dict, ([ch, st, asc "counts"], Data.counts (H (((recs.zipIdx.filter (fun e =>
        decide (inForce rd ef excl (aliasOf dict) (pulses.getD e.2 0) = some st) && p e.1)).map Prod.fst).map val))) ∈ f') ∧
      ([ch, asc "counts"], Data.counts (H ((recs.filter p).map val))) ∈ f' := by
  have hsel : ∀ st ∈ labels ef dict, hist zero recs d (pointwise p) val H (some [st]) =
      .ok (H (((recs.zipIdx.filter (fun e =>
        decide (inForce rd ef excl (aliasOf dict) (pulses.getD e.2 0) = some st) && p e.1)).map Prod.fst).map val)) := by
    intro st hst
    obtain ⟨sl, h1, h2⟩ := select_state hrd hef ht hp h zero recs hlen p (labels_known hrd hef ht h hst)
    have hg : getRecs zero recs d (pointwise p) (some [st]) = (stateSlices d [st]).bind (indexPrealloc zero recs (pointwise p)) := rfl
    unfold hist
    rw [hg, h1]
    dsimp only [Except.bind]
    rw [h2]
    rfl
  obtain ⟨f', h1, _, _, h2, h3, _⟩ := hists_export_partial hf hfree attr hls hres
    (c := fun o => match o with
      | none => H ((recs.filter p).map val)
      | some [] => []
      | some (st :: _) => H (((recs.zipIdx.filter (fun e =>
        decide (inForce rd ef excl (aliasOf dict) (pulses.getD e.2 0) = some st) && p e.1)).map Prod.fst).map val))
    hsel (hist_default zero recs d p val H)
  exact ⟨f', h1, fun st hst => (h2 st hst).2, h3⟩

/-- a series of assignments that succeeds has written all its names, and none is in the way of another -/
theorem writeAll_none {f f' : File V} (hf : Apart (f.map Prod.fst)) {ws : List (List Bytes × Except Exc (Data V))}
    (h : writeAll f ws = (f', none)) : Apart (f'.map Prod.fst) ∧ f'.map Prod.fst = f.map Prod.fst ++ ws.map Prod.fst := by
  induction ws generalizing f with
  | nil =>
    simp only [writeAll, Prod.mk.injEq, and_true] at h
    subst h
    exact ⟨hf, by simp⟩
  | cons w t ih =>
    obtain ⟨p, v⟩ := w
    cases v with
    | error e => simp [writeAll] at h
    | ok v =>
      unfold writeAll at h
      split at h
      · simp at h
      · rename_i hc
        have := ih (f := f ++ [(p, v)]) ?_ h
        · refine ⟨this.1, ?_⟩
          rw [this.2]
          simp
        · unfold Apart
          rw [List.map_append, List.pairwise_append]
          refine ⟨hf, by simp, ?_⟩
          intro x hx y hy
          simp only [List.map_cons, List.map_nil, List.mem_singleton] at hy
          subst hy
          obtain ⟨e, he, rfl⟩ := List.mem_map.1 hx
          rw [List.any_eq_true] at hc
          constructor
          · intro hh; exact hc ⟨e, he, (clash_iff _ _).2 (.inr hh)⟩
          · intro hh; exact hc ⟨e, he, (clash_iff _ _).2 (.inl hh)⟩

/-- C116. The conditions are needed: an export that succeeds had labels that are all different and not among the names of the summary. So two labels
given the same name make it fail, whatever the data. -/
theorem hists_export_only {f f' : File V} (hf : Apart (f.map Prod.fst)) {ch attr : Bytes} {ls : List Bytes}
    {h : Option (List Bytes) → Except Exc (List Nat)} (hw : writeAll f (histWrites ch attr ls h) = (f', none)) :
    ls.Nodup ∧ ∀ st ∈ ls, st ∉ [asc "bin_centers_ev", asc "counts", asc "name_of_energy_indicator"] := by
  obtain ⟨ha, he⟩ := writeAll_none hf hw
  rw [he] at ha
  have ha := (List.pairwise_append.1 ha).2.1
  unfold histWrites at ha
  rw [List.map_append, List.map_flatMap, List.pairwise_append, List.pairwise_flatMap] at ha
  constructor
  · refine ha.1.2.imp ?_
    intro a b hab e
    subst e
    have := hab [ch, a, asc "counts"] (by simp) [ch, a, asc "counts"] (by simp)
    exact this.1 List.prefix_rfl
  · intro st hst hr
    have hin : [ch, st, asc "counts"] ∈ ls.flatMap (fun a => List.map Prod.fst
        [([ch, a, asc "bin_centers"], (h (some [a])).map (fun _ => (Data.centers : Data V))),
         ([ch, a, asc "counts"], (h (some [a])).map Data.counts)]) := List.mem_flatMap.2 ⟨st, hst, by simp⟩
    refine (ha.2.2 _ hin [ch, st] ?_).2 ⟨[asc "counts"], rfl⟩
    simp only [List.mem_cons, List.not_mem_nil, or_false] at hr
    rcases hr with rfl | rfl | rfl <;> simp

/-- Disagreement (C116): with two labels given the same name, the export of the histograms ends with an error after the merged state has been written
once: the summary of the channel is missing. -/
theorem merged_export_fails : ∃ d f', batch id merged (aliasOf [(asc "B", asc "W"), (asc "C", asc "W")]) [5, 10, 15, 20, 29, 30] = .ok d ∧
    writeAll ([] : File Nat) (histWrites (asc "1") (asc "energy") (labels merged [(asc "B", asc "W"), (asc "C", asc "W")])
      (hist 0 [0, 1, 2, 3, 4, 5] d (pointwise (fun _ => true)) id (fun l => [l.length]))) = (f', some .os) ∧
    f' = [([asc "1", asc "A", asc "bin_centers"], .centers), ([asc "1", asc "A", asc "counts"], .counts [2]),
      ([asc "1", asc "W", asc "bin_centers"], .centers), ([asc "1", asc "W", asc "counts"], .counts [3])] := by
  refine ⟨_, _, rfl, ?_, rfl⟩
  decide +kernel

/-- Disagreement (C116): a state may be called "counts", but then its histograms cannot be exported. -/
theorem reserved_name_fails (f : File V) (ch attr : Bytes) (h : Option (List Bytes) → Except Exc (List Nat)) (hf : Apart (f.map Prod.fst)) :
    (writeAll f (histWrites ch attr [asc "A", asc "counts"] h)).2 ≠ none := by
  intro hn
  have := (hists_export_only (f' := (writeAll f (histWrites ch attr [asc "A", asc "counts"] h)).1) hf (Prod.ext rfl hn)).2 (asc "counts") (by simp)
  simp at this

/-- C116. Exporting the same channel again to the same file fails and changes nothing in the file. -/
theorem export_twice {f f' : File V} (hf : Apart (f.map Prod.fst)) {ch attr attr' : Bytes} {ls : List Bytes}
    {h h' : Option (List Bytes) → Except Exc (List Nat)} (hw : writeAll f (histWrites ch attr ls h) = (f', none)) :
    (writeAll f' (histWrites ch attr' ls h')).1 = f' ∧ (writeAll f' (histWrites ch attr' ls h')).2 ≠ none := by
  obtain ⟨_, he⟩ := writeAll_none hf hw
  have key : ∀ (p : List Bytes) (v : Except Exc (Data V)) (t : List (List Bytes × Except Exc (Data V))),
      p ∈ (histWrites (V := V) ch attr ls h).map Prod.fst →
      (writeAll f' ((p, v) :: t)).1 = f' ∧ (writeAll f' ((p, v) :: t)).2 ≠ none := by
    intro p v t hp
    cases v with
    | error e => simp [writeAll]
    | ok v =>
      have : p ∈ f'.map Prod.fst := by rw [he]; exact List.mem_append_right _ hp
      obtain ⟨e, he, rfl⟩ := List.mem_map.1 this
      have : f'.any (fun x => clash e.1 x.1) = true := List.any_eq_true.2 ⟨e, he, (clash_iff _ _).2 (.inl List.prefix_rfl)⟩
      simp [writeAll, this]
  cases ls with
  | nil => exact key _ _ _ (by simp [histWrites])
  | cons st t => exact key _ _ _ (by simp [histWrites])

/-- C116, instance: a channel with two states -/
example : (writeAll ([] : File Nat) (histWrites (asc "1") (asc "energy") [asc "A", asc "B"] (fun o => .ok [o.elim 9 List.length]))).1.length = 7 ∧
    (writeAll ([] : File Nat) (histWrites (asc "1") (asc "energy") [asc "A", asc "B"] (fun o => .ok [o.elim 9 List.length]))).2 = none := by
  decide +kernel

/-! ### groups -/

/-- the counts of a group: bin by bin the sum over the channels [specification] -/
theorem sumHists_spec (nb : Nat) (st : Option (List Bytes)) (hs : List ((Option (List Bytes) → Except Exc (List Nat)) × List Nat))
    (hok : ∀ x ∈ hs, x.1 st = .ok x.2 ∧ x.2.length = nb) :
    ∃ c, sumHists nb st (hs.map Prod.fst) = .ok c ∧ c.length = nb ∧ ∀ i < nb, c.getD i 0 = (hs.map (fun x => x.2.getD i 0)).sum := by
  induction hs with
  | nil =>
    refine ⟨_, rfl, by simp, ?_⟩
    intro i hi
    simp [List.getD, hi]
  | cons x t ih =>
    obtain ⟨c, h1, h2, h3⟩ := ih (fun y hy => hok y (List.mem_cons_of_mem _ hy))
    obtain ⟨h4, h5⟩ := hok x (by simp)
    refine ⟨List.zipWith (· + ·) x.2 c, ?_, ?_, ?_⟩
    · rw [List.map_cons]
      unfold sumHists
      rw [h4, h1]
      rfl
    · rw [List.length_zipWith, h5, h2]; simp
    · intro i hi
      rw [List.map_cons, List.sum_cons, ← h3 i hi]
      have hi1 : i < x.2.length := by omega
      have hi2 : i < c.length := by omega
      simp [List.getD, List.getElem?_zipWith, hi1, hi2]

/-- the datasets of a whole group with counts `g` [specification] -/
def groupBlock (off attr cutName : Bytes) (ls : List Bytes) (g : Option (List Bytes) → List Nat) : List (List Bytes × Data V) :=
  block (asc "all_channels") ls (fun st => [(asc "bin_centers", .centers), (asc "counts", .counts (g (some [st])))])
    [(asc "off_filename", .text off), (asc "attr", .text attr), (asc "used_cut_recipe_name", .text cutName), (asc "bin_centers_ev", .centers),
     (asc "counts", .counts (g none)), (asc "name_of_energy_indicator", .text attr)]

theorem groupTail_eq (nb : Nat) (off attr cutName : Bytes) (ls : List Bytes) {hs : List (Option (List Bytes) → Except Exc (List Nat))}
    {g : Option (List Bytes) → List Nat} (h1 : ∀ st ∈ ls, sumHists nb (some [st]) hs = .ok (g (some [st]))) (h2 : sumHists nb none hs = .ok (g none)) :
    (groupTail nb off attr cutName ls hs : List (List Bytes × Except Exc (Data V))) =
      (groupBlock off attr cutName ls g).map (fun e => (e.1, .ok e.2)) := by
  unfold groupTail groupBlock block
  dsimp only
  rw [List.map_append, List.map_flatMap, h2]
  congr 1
  rw [List.flatMap_def, List.flatMap_def]
  congr 1
  apply List.map_congr_left
  intro st hst
  rw [h1 st hst]
  rfl

/-- C116. Exporting the histograms of a group with at least one usable channel to an empty file, with labels that are all different and none of the
names used for summaries: it succeeds, the counts of each channel and state are stored below the number of the channel, and below "all_channels" the
sums over the channels, for each state and for all pulses. -/
theorem group_export_partial {nb : Nat} (off attr cutName : Bytes) {ls : List Bytes} (hls : ls.Nodup)
    (hres : ∀ st ∈ ls, st ∉ [asc "off_filename", asc "attr", asc "used_cut_recipe_name", asc "bin_centers_ev", asc "counts",
      asc "name_of_energy_indicator"])
    {chans : List (Bytes × (Option (List Bytes) → Except Exc (List Nat)))} (hne : chans ≠ []) (hnd : (chans.map Prod.fst).Nodup)
    (hall : asc "all_channels" ∉ chans.map Prod.fst) {c : Bytes → Option (List Bytes) → List Nat}
    (hs : ∀ x ∈ chans, ∀ st ∈ ls, x.2 (some [st]) = .ok (c x.1 (some [st])) ∧ (c x.1 (some [st])).length = nb)
    (hn : ∀ x ∈ chans, x.2 none = .ok (c x.1 none) ∧ (c x.1 none).length = nb) :
    ∃ (f' : File V) (g : Option (List Bytes) → List Nat), groupExport nb off attr cutName ls [] chans = (f', none) ∧ Apart (f'.map Prod.fst) ∧
      (∀ x ∈ chans, (∀ st ∈ ls, ([x.1, st, asc "counts"], Data.counts (c x.1 (some [st]))) ∈ f') ∧
        ([x.1, asc "counts"], Data.counts (c x.1 none)) ∈ f') ∧
      (∀ st ∈ ls, ([asc "all_channels", st, asc "counts"], Data.counts (g (some [st]))) ∈ f' ∧
        ∀ i < nb, (g (some [st])).getD i 0 = (chans.map (fun x => (c x.1 (some [st])).getD i 0)).sum) ∧
      ([asc "all_channels", asc "counts"], Data.counts (g none)) ∈ f' ∧
      (∀ i < nb, (g none).getD i 0 = (chans.map (fun x => (c x.1 none).getD i 0)).sum) ∧
      ([asc "all_channels", asc "used_cut_recipe_name"], Data.text cutName) ∈ f' := by
  have hsum : ∀ st : Option (List Bytes), (∀ x ∈ chans, x.2 st = .ok (c x.1 st) ∧ (c x.1 st).length = nb) →
      ∃ g, sumHists nb st (chans.map Prod.snd) = .ok g ∧ ∀ i < nb, g.getD i 0 = (chans.map (fun x => (c x.1 st).getD i 0)).sum := by
    intro st hst
    obtain ⟨g, h1, _, h3⟩ := sumHists_spec nb st (chans.map (fun x => (x.2, c x.1 st))) (by
      intro y hy
      obtain ⟨x, hx, rfl⟩ := List.mem_map.1 hy
      exact hst x hx)
    rw [List.map_map] at h1
    refine ⟨g, h1, ?_⟩
    intro i hi
    rw [h3 i hi, List.map_map]
    rfl
  have hex : ∀ st : Option (List Bytes), ∃ g, (∀ x ∈ chans, x.2 st = .ok (c x.1 st) ∧ (c x.1 st).length = nb) →
      sumHists nb st (chans.map Prod.snd) = .ok g ∧ ∀ i < nb, g.getD i 0 = (chans.map (fun x => (c x.1 st).getD i 0)).sum := by
    intro st
    by_cases h : ∀ x ∈ chans, x.2 st = .ok (c x.1 st) ∧ (c x.1 st).length = nb
    · obtain ⟨g, hg⟩ := hsum st h
      exact ⟨g, fun _ => hg⟩
    · exact ⟨[], fun h' => absurd h' h⟩
  choose g hg using hex
  have hgn := hg none hn
  have hgs := fun st (hst : st ∈ ls) => hg (some [st]) (fun x hx => hs x hx st hst)
  let ws : List (List Bytes × Data V) := chans.flatMap (fun x => histBlock x.1 attr ls (c x.1)) ++ groupBlock off attr cutName ls g
  have hws : (chans.flatMap (fun x => histWrites x.1 attr ls x.2) ++ groupTail nb off attr cutName ls (chans.map Prod.snd) :
      List (List Bytes × Except Exc (Data V))) = ws.map (fun e => (e.1, .ok e.2)) := by
    show _ = (chans.flatMap _ ++ _).map _
    rw [List.map_append, List.map_flatMap, groupTail_eq nb off attr cutName ls (fun st hst => (hgs st hst).1) hgn.1]
    congr 1
    rw [List.flatMap_def, List.flatMap_def]
    congr 1
    apply List.map_congr_left
    intro x hx
    exact histWrites_eq x.1 attr ls (fun st hst => (hs x hx st hst).1) (hn x hx).1
  have hsub : ∀ st ∈ ls, st ∉ [asc "bin_centers_ev", asc "counts", asc "name_of_energy_indicator"] := by
    intro st hst hr
    apply hres st hst
    simp only [List.mem_cons, List.not_mem_nil, or_false] at hr ⊢
    tauto
  have hap : Apart (ws.map Prod.fst) := by
    show ((chans.flatMap _ ++ _).map Prod.fst).Pairwise _
    rw [List.map_append, List.pairwise_append]
    refine ⟨?_, ?_, ?_⟩
    · rw [List.map_flatMap, List.pairwise_flatMap]
      refine ⟨?_, ?_⟩
      · intro x _
        refine block_apart x.1 hls ?_ ?_ hsub
        · intro st _
          show [asc "bin_centers", asc "counts"].Nodup
          decide +kernel
        · show [asc "bin_centers_ev", asc "counts", asc "name_of_energy_indicator"].Nodup
          decide +kernel
      · rw [List.Nodup, List.pairwise_map] at hnd
        refine hnd.imp ?_
        intro a b hab x hx y hy
        obtain ⟨e, he, rfl⟩ := List.mem_map.1 hx
        obtain ⟨e', he', rfl⟩ := List.mem_map.1 hy
        exact apart_of_head (block_head he) (block_head he') hab
    · refine block_apart _ hls ?_ ?_ hres
      · intro st _
        show [asc "bin_centers", asc "counts"].Nodup
        decide +kernel
      · show [asc "off_filename", asc "attr", asc "used_cut_recipe_name", asc "bin_centers_ev", asc "counts",
          asc "name_of_energy_indicator"].Nodup
        decide +kernel
    · intro x hx y hy
      rw [List.map_flatMap] at hx
      obtain ⟨ch, hch, hx⟩ := List.mem_flatMap.1 hx
      obtain ⟨e, he, rfl⟩ := List.mem_map.1 hx
      obtain ⟨e', he', rfl⟩ := List.mem_map.1 hy
      exact apart_of_head (block_head he) (block_head he') (fun h => hall (h ▸ List.mem_map_of_mem hch))
  have hin : ∀ x ∈ chans, ∀ e ∈ (histBlock x.1 attr ls (c x.1) : List (List Bytes × Data V)), e ∈ ws :=
    fun x hx e he => List.mem_append_left _ (List.mem_flatMap.2 ⟨x, hx, he⟩)
  refine ⟨ws, g, ?_, hap, ?_, ?_, ?_, hgn.2, ?_⟩
  · unfold groupExport
    rw [if_neg hne, hws, writeAll_ok [] ws hap]
    rfl
  · intro x hx
    refine ⟨fun st hst => hin x hx _ ?_, hin x hx _ ?_⟩
    · exact List.mem_append_left _ (List.mem_flatMap.2 ⟨st, hst, by simp⟩)
    · exact List.mem_append_right _ (by simp)
  · intro st hst
    exact ⟨List.mem_append_right _ (List.mem_append_left _ (List.mem_flatMap.2 ⟨st, hst, by simp⟩)), (hgs st hst).2⟩
  · exact List.mem_append_right _ (List.mem_append_right _ (by simp))
  · exact List.mem_append_right _ (List.mem_append_right _ (by simp))

/-- Disagreement (C116): a group without a usable channel cannot be exported at all: the name of the cut is only set while looping over the channels. -/
theorem no_channels_fails (nb : Nat) (off attr cutName : Bytes) (ls : List Bytes) (f : File V) :
    groupExport nb off attr cutName ls f [] = (f, some .unbound) := rfl

/-- C116, instance: two channels, one state -/
example : ([asc "all_channels", asc "A", asc "counts"], Data.counts [4, 6]) ∈ (groupExport (V := Nat) 2 (asc "f.off") (asc "energy") (asc "cutNone")
    [asc "A"] [] [(asc "1", fun _ => .ok [1, 2]), (asc "3", fun _ => .ok [3, 4])]).1 := by
  decide +kernel

/-! ### lists of pulses -/

theorem maskBy_map {W : Type} (l : List R) (g : R → W) (p : R → Bool) : maskBy (l.map g) (l.map p) = .ok ((l.filter p).map g) := by
  unfold maskBy
  rw [if_pos (by simp)]
  congr 1
  induction l with
  | nil => rfl
  | cons x t ih =>
    simp only [List.map_cons, List.zip_cons_cons, List.filterMap_cons, List.filter_cons]
    cases hp : p x <;> simp [ih]

theorem sliceOf_map {W : Type} (l : List R) (g : R → W) (s : Slice) : sliceOf (l.map g) s = (sliceOf l s).map g := by
  simp [sliceOf, List.map_take, List.map_drop]

/-- C116. Exporting the energies and times of a channel by state: if there is at least one label, the labels are all different and none is one of the
two names used for the summary, and, should the channel have external trigger times, every state has been visited only once, then the export succeeds;
for each state the energies, times and trigger times stored are those of exactly the pulses that pass the cut and are in that state, row by row. -/
theorem label_export_partial {rd : Int → Int} (hrd : Mono rd) {ef : EF} {excl : List Bytes} (hef : ef.Good excl) {dict : List (Bytes × Bytes)}
    {pulses : List Int} (ht : Sorted ef.times) (hp : Sorted pulses) {d : SD} (h : batch rd ef (aliasOf dict) pulses = .ok d)
    (zero : R) (recs : List R) (hlen : recs.length = pulses.length) (p : R → Bool) (en tm : R → V) {ext : List (Bytes × (R → V))}
    (hext : (asc "energy" :: asc "unixnano" :: ext.map Prod.fst).Nodup)
    (hone : ext ≠ [] → ∀ st ∈ labels ef dict, ∃ s, stateSlices d [st] = .ok [s])
    {f : File V} (hf : Apart (f.map Prod.fst)) {ch : Bytes} (hfree : Free f ch) (off cutName : Bytes)
    (hne : labels ef dict ≠ []) (hls : (labels ef dict).Nodup)
    (hres : ∀ st ∈ labels ef dict, st ∉ [asc "off_filename", asc "used_cut_recipe_name"]) :
    ∃ f', labelExport zero recs d (pointwise p) en tm (ext.map (fun x => (x.1, recs.map x.2))) (labels ef dict) ch off cutName f = (f', none) ∧
      f <+: f' ∧ Apart (f'.map Prod.fst) ∧
      ∀ st ∈ labels ef dict, ∀ x ∈ (asc "energy", en) :: (asc "unixnano", tm) :: ext,
        ([ch, st, x.1], Data.values (((recs.zipIdx.filter (fun e =>
          decide (inForce rd ef excl (aliasOf dict) (pulses.getD e.2 0) = some st) && p e.1)).map Prod.fst).map x.2)) ∈ f' := by
  let sel : Bytes → List R := fun st => (recs.zipIdx.filter (fun e =>
          decide (inForce rd ef excl (aliasOf dict) (pulses.getD e.2 0) = some st) && p e.1)).map Prod.fst
  have hsel : ∀ st ∈ labels ef dict, getRecs zero recs d (pointwise p) (some [st]) = .ok (sel st) := by
    intro st hst
    obtain ⟨sl, h1, h2⟩ := select_state hrd hef ht hp h zero recs hlen p (labels_known hrd hef ht h hst)
    have hg : getRecs zero recs d (pointwise p) (some [st]) = (stateSlices d [st]).bind (indexPrealloc zero recs (pointwise p)) := rfl
    rw [hg, h1]
    exact h2
  have hb := batch_bounds hrd hef ht h
  let leaves : Bytes → List (Bytes × Data V) := fun st => ((asc "energy", en) :: (asc "unixnano", tm) :: ext).map
    (fun x => (x.1, Data.values ((sel st).map x.2)))
  let tops : List (Bytes × Data V) := [(asc "off_filename", .text off), (asc "used_cut_recipe_name", .text cutName)]
  have hw : ∀ st ∈ labels ef dict, stateWrites zero recs d (pointwise p) en tm (ext.map (fun x => (x.1, recs.map x.2))) ch st =
      (((leaves st).map (fun x => ([ch, st, x.1], x.2))).map (fun e => (e.1, .ok e.2)) : List (List Bytes × Except Exc (Data V))) := by
    intro st hst
    unfold stateWrites
    dsimp only
    rw [hsel st hst]
    show _ :: _ :: _ = _ :: _ :: _
    refine congrArg (List.cons _) (congrArg (List.cons _) ?_)
    simp only [List.map_map, Function.comp_def, List.nil_append]
    apply List.map_congr_left
    intro x hx
    obtain ⟨s, hs⟩ := hone (by rintro rfl; simp at hx) st hst
    have hle : s.start ≤ s.stop := by
      have hk := labels_known hrd hef ht h hst
      rw [stateSlices_eq [st] (by simpa using hk)] at hs
      simp only [List.flatMap_cons, List.flatMap_nil, List.append_nil] at hs
      injection hs with hs
      refine (hb.2 (st, s) ?_).1
      unfold slicesOf at hs
      cases hg : get d st with
      | none => rw [hg] at hs; simp at hs
      | some v =>
        rw [hg] at hs
        dsimp only at hs
        exact List.mem_flatMap.2 ⟨(st, v), get_some hg, List.mem_map.2 ⟨s, by rw [hs]; simp, rfl⟩⟩
    have hrec : ∀ q : R → Bool, getRecs zero recs d (pointwise q) (some [st]) = .ok ((sliceOf recs s).filter q) := by
      intro q
      have hg : getRecs zero recs d (pointwise q) (some [st]) = (stateSlices d [st]).bind (indexPrealloc zero recs (pointwise q)) := rfl
      have hfits : Fits (pointwise q) := fun r => ⟨_, rfl, by simp⟩
      rw [hg, hs]
      dsimp only [Except.bind]
      rw [(index_methods_agree hfits zero recs (by simp) (by simpa using hle)).1]
      simp [passing_pointwise]
    have hall : getRecs zero recs d (fun r => .ok (r.map (fun _ => true))) (some [st]) = .ok (sliceOf recs s) := by
      have := hrec (fun _ => true)
      rw [List.filter_eq_self.2 (by simp)] at this
      exact this
    have hse : sel st = (sliceOf recs s).filter p := by
      have h1 := hsel st hst
      rw [hrec p] at h1
      injection h1 with h1
      exact h1.symm
    rw [hall, hs, hse]
    simp only [bind, Except.bind, pure, Except.pure, pointwise, triggerValues, sliceOf_map, maskBy_map]
  have hws : ((labels ef dict).flatMap (stateWrites zero recs d (pointwise p) en tm (ext.map (fun x => (x.1, recs.map x.2))) ch) ++
      [([ch, asc "off_filename"], .ok (.text off)), ([ch, asc "used_cut_recipe_name"], .ok (.text cutName))] :
      List (List Bytes × Except Exc (Data V))) = (block ch (labels ef dict) leaves tops).map (fun e => (e.1, .ok e.2)) := by
    unfold block
    rw [List.map_append, List.map_flatMap]
    congr 1
    rw [List.flatMap_def, List.flatMap_def]
    congr 1
    exact List.map_congr_left hw
  have ha : Apart ((f ++ block ch (labels ef dict) leaves tops).map Prod.fst) := by
    refine write_block hf hfree hls ?_ ?_ hres
    · intro st _
      show ((((asc "energy", en) :: (asc "unixnano", tm) :: ext).map (fun x => (x.1, Data.values ((sel st).map x.2)))).map Prod.fst).Nodup
      rw [List.map_map]
      exact hext
    · show [asc "off_filename", asc "used_cut_recipe_name"].Nodup
      decide +kernel
  refine ⟨f ++ block ch (labels ef dict) leaves tops, ?_, List.prefix_append _ _, ha, ?_⟩
  · unfold labelExport
    rw [if_neg hne, hws, writeAll_ok f _ ha]
  · intro st hst x hx
    refine List.mem_append_right _ (List.mem_append_left _ (List.mem_flatMap.2 ⟨st, hst, ?_⟩))
    exact List.mem_map.2 ⟨(x.1, Data.values ((sel st).map x.2)), List.mem_map.2 ⟨x, hx, rfl⟩, rfl⟩

/-- Disagreement (C116): without any state label the export of energies and times, which has a branch for this case, uses the name of a state that was
never set. -/
theorem no_states_fails (zero : R) (recs : List R) (d : SD) (cut : List R → Except Exc (List Bool)) (en tm : R → V) (ext : List (Bytes × List V))
    (ch off cutName : Bytes) (f : File V) : labelExport zero recs d cut en tm ext [] ch off cutName f = (f, some .unbound) := rfl

/-- Disagreement (C116): if the channel has external trigger times, a state that was visited twice makes the export fail with an IndexError, after its
energies and times have been written. -/
theorem revisited_fails : ∃ d f', batch id (mkEF [asc "START"] [(asc "A", 0), (asc "B", 10), (asc "A", 20)]) id [5, 15, 25] = .ok d ∧
    labelExport 0 [7, 8, 9] d (pointwise (fun _ => true)) id id [(asc "seconds_after_last_external_trigger", [1, 2, 3])] [asc "A", asc "B"] (asc "1")
      (asc "f.off") (asc "cutNone") [] = (f', some .index) ∧
    f' = [([asc "1", asc "A", asc "energy"], .values [7, 9]), ([asc "1", asc "A", asc "unixnano"], .values [7, 9])] := by
  refine ⟨_, _, rfl, ?_, rfl⟩
  decide +kernel

/-- Disagreement (C116): the same even if there are no pulses in the second visit. -/
theorem revisited_empty_fails : ∃ d f', batch id (mkEF [asc "START"] [(asc "A", 0), (asc "B", 10), (asc "A", 20)]) id [5, 15] = .ok d ∧
    labelExport 0 [7, 8] d (pointwise (fun _ => true)) id id [(asc "seconds_after_last_external_trigger", [1, 2])] [asc "A", asc "B"] (asc "1")
      (asc "f.off") (asc "cutNone") [] = (f', some .index) ∧
    f' = [([asc "1", asc "A", asc "energy"], .values [7]), ([asc "1", asc "A", asc "unixnano"], .values [7])] := by
  refine ⟨_, _, rfl, ?_, rfl⟩
  decide +kernel

/-- C116, instance: with each state visited once the trigger times go with the pulses -/
example : ∃ d, batch id (mkEF [asc "START"] [(asc "A", 0), (asc "B", 10)]) id [5, 15, 25] = .ok d ∧
    ([asc "1", asc "B", asc "seconds_after_last_external_trigger"], Data.values [3]) ∈
      (labelExport 0 [7, 8, 9] d (pointwise (fun x => x % 2 == 1)) id id [(asc "seconds_after_last_external_trigger", [1, 2, 3])] [asc "A", asc "B"]
        (asc "1") (asc "f.off") (asc "cutNone") []).1 := by
  refine ⟨_, rfl, ?_⟩
  decide +kernel

end Mass.States.Export
