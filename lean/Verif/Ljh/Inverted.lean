import Verif.Py
import Mathlib.Data.List.Basic
import Mathlib.Data.List.Nodup

/-!
# Reading inverted data

`ds.invert_data` says whether the raw data of a channel are inverted on reading (for pulses that
go down).  The channel keeps the setting, and so does the object of its data file, which does the
inverting.  Here: what is read, by any way of reading, after any history of settings, copies and
assignments.
-/

namespace Mass.Ljh.Inverted

open Mass

/-- A record: samples of type uint16 (mass/core/files.py L358, L421). -/
abbrev Rec := List (BitVec 16)

/-- A channel: its own setting, and the file object its records come from, if any
(mass/core/channel.py L604, L634). -/
structure Chan where
  flag : Bool
  file : Option Nat
  deriving DecidableEq

/-- The file objects with their settings (mass/core/files.py L51), and the channels. -/
structure World where
  inv : Nat → Bool
  chans : List Chan

/-- `ds.invert_data = b` for one channel (mass/core/channel.py L578-582). -/
def setChan (b : Bool) (c : Chan) (inv : Nat → Bool) : Chan × (Nat → Bool) :=
  match c.file with
  | some f => ({ c with flag := b }, fun g => if g = f then b else inv g)
  | none => ({ c with flag := b }, inv)

/-- `ds.invert_data = b` for the channel number `i` (mass/core/channel.py L578-582). -/
def set (w : World) (i : Nat) (b : Bool) : World :=
  match w.chans[i]? with
  | none => w
  | some c => ⟨(setChan b c w.inv).2, w.chans.set i (setChan b c w.inv).1⟩

/-- `ds.copy()`: the new channel has all attributes of the old one, hence the same file object
(mass/core/channel.py L877-884). -/
def copy (w : World) (i : Nat) : World :=
  match w.chans[i]? with
  | none => w
  | some c => { w with chans := w.chans ++ [c] }

/-- `MicrocalDataSet(..., invert_data=b)`: a channel without records yet (mass/core/channel.py
L592, L604, L634). -/
def new (w : World) (b : Bool) : World := { w with chans := w.chans ++ [⟨b, none⟩] }

/-- `ds.pulse_records = records` (mass/core/channel_group.py L323-324 for the channels of a
group). -/
def attach (w : World) (i f : Nat) : World :=
  { w with chans := w.chans.modify i fun c => { c with file := some f } }

/-- Making a group with `invert_data=b` from `n` new file objects, numbered from `k`: channels are
made and get their records, and last all are set (mass/core/channel_group.py L255-324 in short,
L240-241). The other channels of the world are kept. -/
def made (w : World) (k n : Nat) : World :=
  ⟨fun f => if k ≤ f ∧ f < k + n then false else w.inv f,
    w.chans ++ (List.range n).map fun i => ⟨false, some (k + i)⟩⟩

/-- Setting several channels one after the other (mass/core/channel_group.py L240-241, or by the
user). -/
def sets (w : World) (l : List (Nat × Bool)) : World := l.foldl (fun w p => set w p.1 p.2) w

/-- `TESGroup(..., invert_data=b)` (mass/core/channel_group.py L233-241). -/
def group (w : World) (k n : Nat) (b : Bool) : World :=
  sets (made w k n) ((List.range n).map fun i => (w.chans.length + i, b))

/-- `~d` if the file object says so (mass/core/files.py L321-324, L329-332). -/
def seen (inv : Bool) (r : Rec) : Rec := if inv then r.map (~~~ ·) else r

/-- `ds.alldata` (mass/core/channel.py L588-590, files.py L318-324): all records of the file are
taken and inverted. `raw` are the records on disk. -/
def alldata (raw : Nat → List Rec) (w : World) (i : Nat) : Except Exc (List Rec) :=
  match w.chans[i]? with
  | none => .error .index
  | some c =>
    match c.file with
    | none => .error .attribute
    | some f => .ok ((raw f).map (seen (w.inv f)))

/-- `ds.data[key]` (mass/core/channel.py L584-586, files.py L326-332): the records of the key are
taken first and inverted then. `key` gives the places of the records in order. -/
def data (raw : Nat → List Rec) (w : World) (i : Nat) (key : List Nat) : Except Exc (List Rec) :=
  match w.chans[i]? with
  | none => .error .index
  | some c =>
    match c.file with
    | none => .error .attribute
    | some f =>
      match key.mapM fun k => (raw f)[k]? with
      | none => .error .index
      | some rs => .ok (rs.map (seen (w.inv f)))

/-- [specification] What the channel should give: its raw records, inverted if the channel says
so. -/
def Agrees (w : World) (c : Chan) : Prop := ∀ f, c.file = some f → w.inv f = c.flag

/-- [specification] No two channels have the same file object. -/
def Apart (w : World) : Prop :=
  ∀ (i j : Nat) (c d : Chan) (f : Nat), w.chans[i]? = some c → w.chans[j]? = some d →
    c.file = some f → d.file = some f → i = j

/-- [specification] All channels agree with their files. -/
def Good (w : World) : Prop := (∀ c ∈ w.chans, Agrees w c) ∧ Apart w

/-- [specification] The setting of a channel after several: that of the last one for it. -/
def last (l : List (Nat × Bool)) (i : Nat) (b : Bool) : Bool :=
  ((l.filter fun p => p.1 == i).getLast?.map Prod.snd).getD b

theorem setChan_file (b : Bool) (c : Chan) (inv : Nat → Bool) :
    (setChan b c inv).1 = { c with flag := b } := by
  unfold setChan
  cases hc : c.file <;> simp

theorem set_get (w : World) (i j : Nat) (b : Bool) :
    (set w i b).chans[j]? = (w.chans[j]?).map fun c => if i = j then { c with flag := b } else c := by
  unfold set
  cases h : w.chans[i]? with
  | none =>
    by_cases hij : i = j
    · subst hij; simp [h]
    · simp [hij]
  | some c =>
    simp only [setChan_file, List.getElem?_set]
    by_cases hij : i = j
    · subst hij
      have hl := (List.getElem?_eq_some_iff.1 h).1
      simp only [hl, if_true, h, Option.map_some]
    · simp [hij]

theorem set_length (w : World) (i : Nat) (b : Bool) :
    (set w i b).chans.length = w.chans.length := by
  unfold set
  cases h : w.chans[i]? <;> simp

theorem set_inv (w : World) (i : Nat) (b : Bool) (c : Chan) (h : w.chans[i]? = some c) (f : Nat) :
    (set w i b).inv f = if c.file = some f then b else w.inv f := by
  unfold set
  simp only [h, setChan]
  cases hc : c.file with
  | none => simp
  | some g =>
    simp only [Option.some.injEq, eq_comm]

theorem set_good (w : World) (h : Good w) (i : Nat) (b : Bool) : Good (set w i b) := by
  cases hi : w.chans[i]? with
  | none =>
    have : set w i b = w := by unfold set; simp [hi]
    rw [this]; exact h
  | some c =>
    constructor
    · intro d hd f hf
      obtain ⟨j, hj⟩ := List.mem_iff_getElem?.1 hd
      rw [set_get] at hj
      rw [set_inv w i b c hi]
      cases he : w.chans[j]? with
      | none => simp [he] at hj
      | some e =>
        simp only [he, Option.map_some, Option.some.injEq] at hj
        by_cases hij : i = j
        · subst hij
          rw [hi] at he
          cases he
          simp only [if_true] at hj
          subst hj
          simp only at hf
          simp [hf]
        · simp only [hij, if_false] at hj
          subst hj
          have hne : c.file ≠ some f := fun hc => hij (h.2 i j c e f hi he hc hf)
          simp only [hne, if_false]
          exact h.1 e (List.mem_of_getElem? he) f hf
    · intro a a' d d' f ha ha' hd hd'
      rw [set_get] at ha ha'
      cases he : w.chans[a]? with
      | none => simp [he] at ha
      | some e =>
        cases he' : w.chans[a']? with
        | none => simp [he'] at ha'
        | some e' =>
          simp only [he, he', Option.map_some, Option.some.injEq] at ha ha'
          refine h.2 a a' e e' f he he' ?_ ?_
          · subst ha; revert hd; split <;> simp
          · subst ha'; revert hd'; split <;> simp

theorem sets_good (w : World) (h : Good w) (l : List (Nat × Bool)) : Good (sets w l) := by
  induction l generalizing w with
  | nil => exact h
  | cons p t ih => exact ih (set w p.1 p.2) (set_good w h p.1 p.2)

theorem sets_get (l : List (Nat × Bool)) : ∀ (w : World) (i : Nat),
    (sets w l).chans[i]? = (w.chans[i]?).map fun c => { c with flag := last l i c.flag } := by
  induction l with
  | nil =>
    intro w i
    simp [sets, last]
  | cons p t ih =>
    intro w i
    have e : sets w (p :: t) = sets (set w p.1 p.2) t := rfl
    rw [e, ih, set_get, Option.map_map]
    congr 1
    funext c
    simp only [Function.comp]
    by_cases hp : p.1 = i
    · simp only [hp, if_true, last, List.filter_cons, beq_self_eq_true]
      cases ht : (t.filter fun p => p.1 == i) with
      | nil => simp
      | cons a s => rw [List.getLast?_cons_cons]; simp [List.getLast?_eq_some_getLast]
    · simp [hp, last, List.filter_cons]

/-- Channels of a group that is made agree with their files, and the others are not changed. -/
theorem made_good (w : World) (h : Good w) (k n : Nat)
    (hk : ∀ c ∈ w.chans, ∀ f, c.file = some f → f < k) : Good (made w k n) := by
  constructor
  · intro c hc f hf
    simp only [made, List.mem_append, List.mem_map, List.mem_range] at hc
    rcases hc with hc | ⟨i, hi, rfl⟩
    · have := hk c hc f hf
      have h0 : ¬ (k ≤ f ∧ f < k + n) := by omega
      simp only [made, h0, if_false]
      exact h.1 c hc f hf
    · simp only [Option.some.injEq] at hf
      subst hf
      simp [made, hi]
  · intro i j c d f hc hd hcf hdf
    simp only [made, List.getElem?_append] at hc hd
    by_cases hi : i < w.chans.length <;> by_cases hj : j < w.chans.length
    · simp only [hi, hj, if_true] at hc hd
      exact h.2 i j c d f hc hd hcf hdf
    · simp only [hi, hj, if_true, if_false, List.getElem?_map, Option.map_eq_some_iff] at hc hd
      obtain ⟨a, ha, rfl⟩ := hd
      have := hk c (List.mem_of_getElem? hc) f hcf
      simp only [Option.some.injEq] at hdf
      omega
    · simp only [hi, hj, if_true, if_false, List.getElem?_map, Option.map_eq_some_iff] at hc hd
      obtain ⟨a, ha, rfl⟩ := hc
      have := hk d (List.mem_of_getElem? hd) f hdf
      simp only [Option.some.injEq] at hcf
      omega
    · simp only [hi, hj, if_false, List.getElem?_map, Option.map_eq_some_iff] at hc hd
      obtain ⟨a, ha, rfl⟩ := hc
      obtain ⟨a', ha', rfl⟩ := hd
      simp only [Option.some.injEq] at hcf hdf
      have e1 := List.getElem?_eq_some_iff.1 ha
      have e2 := List.getElem?_eq_some_iff.1 ha'
      obtain ⟨_, e1⟩ := e1
      obtain ⟨_, e2⟩ := e2
      simp only [List.getElem_range] at e1 e2
      omega

/-- What is read from a channel of a good world: all records, inverted exactly if the channel says
so; by a key the same records of these. -/
theorem good_reads (raw : Nat → List Rec) (w : World) (h : Good w) (i : Nat) (c : Chan) (f : Nat)
    (hc : w.chans[i]? = some c) (hf : c.file = some f) :
    alldata raw w i = .ok ((raw f).map (seen c.flag)) ∧
      ∀ key : List Nat, (∀ k ∈ key, k < (raw f).length) →
        ∃ rs : List Rec, data raw w i key = .ok rs ∧ rs.length = key.length ∧
          ∀ j k : Nat, key[j]? = some k → rs[j]? = ((raw f).map (seen c.flag))[k]? := by
  have ha := h.1 c (List.mem_of_getElem? hc) f hf
  refine ⟨by simp [alldata, hc, hf, ha], fun key hkey => ?_⟩
  have hm : key.mapM (fun k => (raw f)[k]?) = some (key.map fun k => (raw f).getD k []) := by
    clear ha
    induction key with
    | nil => rfl
    | cons a t ih =>
      have h1 : (raw f)[a]? = some ((raw f).getD a []) := by
        have := hkey a (by simp)
        simp [List.getElem?_eq_getElem this]
      rw [List.mapM_cons, h1, ih fun k hk => hkey k (by simp [hk])]
      rfl
  refine ⟨(key.map fun k => (raw f).getD k []).map (seen c.flag), ?_, by simp, ?_⟩
  · simp [data, hc, hf, hm, ha]
  · intro j k hk
    have := hkey k (List.mem_of_getElem? hk)
    simp [hk, List.getElem?_eq_getElem this]

/-- After making a group with `invert_data=b`, and any settings of its channels and of the others,
each channel of the group says what was set last, `b` if nothing, and what is read from it is the
raw data of its own file, inverted exactly if it says so. -/
theorem history_partial (raw : Nat → List Rec) (w : World) (h : Good w) (k n : Nat)
    (hk : ∀ c ∈ w.chans, ∀ f, c.file = some f → f < k) (b : Bool) (l : List (Nat × Bool)) (i : Nat)
    (hi : i < n) :
    (sets (group w k n b) l).chans[w.chans.length + i]? =
        some ⟨last l (w.chans.length + i) b, some (k + i)⟩ ∧
      alldata raw (sets (group w k n b) l) (w.chans.length + i) =
        .ok ((raw (k + i)).map (seen (last l (w.chans.length + i) b))) := by
  have hg : Good (sets (group w k n b) l) := sets_good _ (sets_good _ (made_good w h k n hk) _) l
  have h1 : (made w k n).chans[w.chans.length + i]? = some ⟨false, some (k + i)⟩ := by
    simp [made, List.getElem?_append, hi]
  have h2 : last ((List.range n).map fun i => (w.chans.length + i, b)) (w.chans.length + i) false
      = b := by
    unfold last
    have hmem : (w.chans.length + i, b) ∈
        ((List.range n).map fun i => (w.chans.length + i, b)).filter
          (fun p => p.1 == w.chans.length + i) := by
      simp [hi]
    cases hg : (((List.range n).map fun i => (w.chans.length + i, b)).filter
          (fun p => p.1 == w.chans.length + i)).getLast? with
    | none => rw [List.getLast?_eq_none_iff] at hg; rw [hg] at hmem; simp at hmem
    | some p =>
      have := List.mem_of_getLast? hg
      simp only [List.mem_filter, List.mem_map, List.mem_range] at this
      obtain ⟨⟨a, _, rfl⟩, _⟩ := this
      simp
  have h3 : (sets (group w k n b) l).chans[w.chans.length + i]? =
      some ⟨last l (w.chans.length + i) b, some (k + i)⟩ := by
    rw [sets_get, group, sets_get, h1]
    simp [h2]
  exact ⟨h3, (good_reads raw _ hg _ _ (k + i) h3 rfl).1⟩

/-- What a user does: make a group of `n` files with `invert_data=b`, or set one channel
(mass/core/channel_group.py L233-241, mass/core/channel.py L578-582). -/
inductive Op where
  | group (n : Nat) (b : Bool)
  | set (i : Nat) (b : Bool)

/-- One step; the number is that of the next file object (Python objects are not reused while they
live; mass/core/channel_group.py L233-241, mass/core/channel.py L578-582). -/
def step (s : World × Nat) : Op → World × Nat
  | .group n b => (group s.1 s.2 n b, s.2 + n)
  | .set i b => (set s.1 i b, s.2)

theorem sets_file (l : List (Nat × Bool)) (w : World) (c : Chan) (hc : c ∈ (sets w l).chans) :
    ∃ c0 ∈ w.chans, c0.file = c.file := by
  obtain ⟨i, hi⟩ := List.mem_iff_getElem?.1 hc
  rw [sets_get] at hi
  cases h : w.chans[i]? with
  | none => simp [h] at hi
  | some c0 =>
    simp only [h, Option.map_some, Option.some.injEq] at hi
    exact ⟨c0, List.mem_of_getElem? h, by rw [← hi]⟩

/-- After any history of making groups and setting channels, in any order and from any number of
groups, each channel gives the raw data of its file, inverted exactly if it says so, and all
channels have different file objects. -/
theorem any_history_partial (raw : Nat → List Rec) (ops : List Op) :
    let w := (ops.foldl step (⟨fun _ => false, []⟩, 0)).1
    Good w ∧ ∀ (i : Nat) (c : Chan), w.chans[i]? = some c →
      ∃ f, c.file = some f ∧ alldata raw w i = .ok ((raw f).map (seen c.flag)) := by
  have key : ∀ (ops : List Op) (s : World × Nat),
      (Good s.1 ∧ ∀ c ∈ s.1.chans, ∃ f, c.file = some f ∧ f < s.2) →
        Good (ops.foldl step s).1 ∧
          ∀ c ∈ (ops.foldl step s).1.chans, ∃ f, c.file = some f ∧ f < (ops.foldl step s).2 := by
    intro ops
    induction ops with
    | nil => intro s h; exact h
    | cons o t ih =>
      intro s h
      refine ih (step s o) ?_
      cases o with
      | set i b =>
        refine ⟨set_good s.1 h.1 i b, fun c hc => ?_⟩
        obtain ⟨c0, h0, e⟩ := sets_file [(i, b)] s.1 c hc
        rw [← e]; exact h.2 c0 h0
      | group n b =>
        have hk : ∀ c ∈ s.1.chans, ∀ f, c.file = some f → f < s.2 := by
          intro c hc f hf
          obtain ⟨g, hg, hlt⟩ := h.2 c hc
          rw [hf] at hg
          cases hg
          exact hlt
        refine ⟨sets_good _ (made_good s.1 h.1 s.2 n hk) _, fun c hc => ?_⟩
        obtain ⟨c0, h0, e⟩ := sets_file _ _ c hc
        rw [← e]
        simp only [made, List.mem_append, List.mem_map, List.mem_range] at h0
        rcases h0 with h0 | ⟨i, hi, rfl⟩
        · obtain ⟨f, hf, hlt⟩ := h.2 c0 h0
          exact ⟨f, hf, Nat.lt_of_lt_of_le hlt (Nat.le_add_right _ _)⟩
        · exact ⟨_, rfl, by show s.2 + i < s.2 + n; omega⟩
  have h := key ops (⟨fun _ => false, []⟩, 0)
    ⟨⟨by simp, by intro i j c d f h; simp at h⟩, by simp⟩
  refine ⟨h.1, fun i c hc => ?_⟩
  obtain ⟨f, hf, _⟩ := h.2 c (List.mem_of_getElem? hc)
  exact ⟨f, hf, (good_reads raw _ h.1 i c f hc hf).1⟩

/-- Inverting twice gives the raw record back; an inverted sample is 65535 less the raw one, so
differences between samples change their signs. -/
theorem seen_spec (r : Rec) :
    seen true (seen true r) = r ∧ seen false r = r ∧ (seen true r).length = r.length ∧
      ∀ (j : Nat) (x : BitVec 16), r[j]? = some x →
        ∃ y, (seen true r)[j]? = some y ∧ y.toNat + x.toNat = 65535 := by
  refine ⟨?_, rfl, by simp [seen], fun j x hx => ?_⟩
  · simp [seen, Function.comp_def]
  · refine ⟨~~~ x, by simp [seen, hx], ?_⟩
    have := x.isLt
    rw [BitVec.toNat_not]
    omega

/-- The largest sample of an inverted record is where the smallest of the raw record is. -/
theorem peak_trough (r : Rec) (j : Nat) (x y : BitVec 16) (hx : r[j]? = some x)
    (hy : (seen true r)[j]? = some y) :
    (∀ z ∈ seen true r, z.toNat ≤ y.toNat) ↔ ∀ z ∈ r, x.toNat ≤ z.toNat := by
  obtain ⟨y', hy', e⟩ := (seen_spec r).2.2.2 j x hx
  rw [hy] at hy'
  cases hy'
  simp only [seen, if_true, List.mem_map, forall_exists_index, and_imp, forall_apply_eq_imp_iff₂,
    BitVec.toNat_not]
  refine forall_congr' fun z => forall_congr' fun _ => ?_
  have := z.isLt
  omega

/-- Disagreement (C198): a copy of a channel, said to be deep, has the same file object: setting
the copy changes what is read from the original, whose own setting stays. -/
theorem copy_fails (raw : Nat → List Rec) (w : World) (i : Nat) (c : Chan) (f : Nat)
    (hc : w.chans[i]? = some c) (hf : c.file = some f) (b : Bool) :
    (set (copy w i) w.chans.length b).chans[i]? = some c ∧
      alldata raw (set (copy w i) w.chans.length b) i = .ok ((raw f).map (seen b)) := by
  have hl := (List.getElem?_eq_some_iff.1 hc).1
  have e : copy w i = { w with chans := w.chans ++ [c] } := by simp [copy, hc]
  have h1 : (copy w i).chans[w.chans.length]? = some c := by simp [e]
  have h2 : (copy w i).chans[i]? = some c := by
    rw [e]; simp only [List.getElem?_append, hl, if_true, hc]
  have h3 : (set (copy w i) w.chans.length b).chans[i]? = some c := by
    rw [set_get, h2]
    have : w.chans.length ≠ i := by omega
    simp [this]
  refine ⟨h3, ?_⟩
  simp [alldata, h3, hf, set_inv _ _ b c h1]

/-- Disagreement (C198): a channel made with `invert_data=True`, or set before it has records, gives
raw data when records are assigned, though it says that they are inverted. -/
theorem early_fails (raw : Nat → List Rec) (w : World) (f : Nat) (h : w.inv f = false) :
    (attach (new w true) w.chans.length f).chans[w.chans.length]? = some ⟨true, some f⟩ ∧
      alldata raw (attach (new w true) w.chans.length f) w.chans.length = .ok (raw f) := by
  have h1 : (attach (new w true) w.chans.length f).chans[w.chans.length]? = some ⟨true, some f⟩ := by
    simp [attach, new]
  refine ⟨h1, ?_⟩
  simp only [alldata, h1]
  have : (attach (new w true) w.chans.length f).inv f = false := h
  rw [this]
  have e : seen false = id := by funext r; rfl
  simp [e]

/-- A group of two channels, the second set back: the first is inverted, the second raw. -/
example : alldata (fun f => if f = 0 then [[1, 2]] else [[5, 7]])
      (sets (group ⟨fun _ => false, []⟩ 0 2 true) [(1, false)]) 0 = .ok [[65534, 65533]] ∧
    alldata (fun f => if f = 0 then [[1, 2]] else [[5, 7]])
      (sets (group ⟨fun _ => false, []⟩ 0 2 true) [(1, false)]) 1 = .ok [[5, 7]] := by
  decide +kernel

example : Good ⟨fun _ => false, []⟩ := ⟨by simp, by intro i j c d f h; simp at h⟩

end Mass.Ljh.Inverted
