import Verif.Ljh.Model
import Verif.Algo.Flux
import Mathlib.Tactic.Linarith
import Mathlib.Tactic.NormNum
import Mathlib.Data.List.Nodup
/-! C137: opening a group of files, its segments, its traces and its flux-jump correction (mass/core/channel_group.py TESGroup L295-330, L385-400, L474-512, L649-695, L1082-1089, L1160-1178;
mass/core/channel.py L487-492, L1695-1713). Numbers of the flux-jump correction are exact. -/
namespace Mass.Group.Seg
open Mass

/-- one channel with its file: channel number; number of samples, of presamples and sample time (compared only); bytes of a record and of all records; pulses for each segment and number of segments
(channel.py L474-477, files.py L303-305) -/
structure Chan where
  num : Nat
  shape : Nat × Nat × Nat
  ps : Nat
  bin : Nat
  pps : Int
  nseg : Int
  deriving DecidableEq, Repr

/-- number of pulses in a file, files.py L267 -/
def Chan.nPulses (c : Chan) : Nat := c.bin / c.ps

/-- PulseRecords.set_segment_size, channel.py L487-492 -/
def setChan (c : Chan) (seg : Int) : Except Exc Chan :=
  match Ljh.setSegmentSize c.ps c.bin seg with
  | .ok (_, p, n) => .ok { c with pps := p, nseg := n }
  | .error e => .error e

/-- a group: number of segments, of pulses, the common shape, pulses for each segment, the data sets and the numbers of the bad channels (channel_group.py L222-231) -/
structure Grp where
  nSeg : Int
  nPulses : Nat
  shape : Option (Nat × Nat × Nat)
  pps : Option Int
  chans : List Chan
  bad : List Nat
  deriving DecidableEq, Repr

/-- one turn of the loop over the files, channel_group.py L298-310 (without the noise files) -/
def openOne (g : Grp) (c : Chan) : Except Exc Grp :=
  if g.nSeg = 0 then .ok { g with shape := some c.shape, nSeg := max g.nSeg c.nseg, nPulses := max g.nPulses c.nPulses, chans := g.chans ++ [c] }
  else if g.shape = some c.shape then .ok { g with nSeg := max g.nSeg c.nseg, nPulses := max g.nPulses c.nPulses, chans := g.chans ++ [c] }
  else .error .value

/-- channel_group.py L222-231 and L295-330: the group of the files `cs` (opened already, with their own segments) -/
def openGroup (cs : List Chan) : Except Exc Grp :=
  match cs.foldlM openOne ⟨0, 0, none, none, [], []⟩ with
  | .ok g => .ok { g with pps := cs.head?.map Chan.pps }
  | .error e => .error e

/-- the good channels, channel_group.py L385-400 -/
def goods (cs : List Chan) (bad : List Nat) : List Chan := cs.filter (fun c => c.num ∉ bad)

/-- `self.channel[n]`, channel_group.py L474-475: the last data set of that number -/
def lookup (cs : List Chan) (n : Nat) : Option Chan := cs.reverse.find? (fun c => c.num == n)

/-- first_good_dataset, channel_group.py L486-489 -/
def firstGood (cs : List Chan) (bad : List Nat) : Option Chan := (goods cs bad).head?.bind (fun c => lookup cs c.num)

/-- the first loop of set_segment_size, channel_group.py L1083-1086: channels, `n_segments`, and the exception if any -/
def setLoop (bad : List Nat) (seg : Int) : List Chan → Int → List Chan × Int × Option Exc
  | [], n => ([], n, none)
  | c :: t, n =>
    if c.num ∈ bad then let r := setLoop bad seg t n; (c :: r.1, r.2)
    else match setChan c seg with
      | .ok c' => let r := setLoop bad seg t (max n c'.pps); (c' :: r.1, r.2)
      | .error e => (c :: t, n, some e)

/-- TESGroup.set_segment_size, channel_group.py L1082-1089 -/
def setGroup (g : Grp) (seg : Int) : Grp × Except Exc Unit :=
  let r := setLoop g.bad seg g.chans 0
  let g1 : Grp := { g with chans := r.1, nSeg := r.2.1 }
  match r.2.2 with
  | some e => (g1, .error e)
  | none =>
    match firstGood g1.chans g1.bad with
    | none => (g1, .error .index)
    | some c =>
      let g2 : Grp := { g1 with pps := some c.pps }
      if ∀ d ∈ goods g2.chans g2.bad, d.pps = c.pps then (g2, .ok ()) else (g2, .error .assertion)

/-- sample2segnum, channel_group.py L503-507; no pulses for each segment (None): TypeError -/
def sample2segnum (g : Grp) (s : Int) : Except Exc Int :=
  let s := if s ≥ g.nPulses then (g.nPulses : Int) - 1 else s
  match g.pps with
  | some p => .ok (s / p)
  | none => .error .type

/-- segnum2sample_range, channel_group.py L509-512 -/
def segRange (g : Grp) (k : Int) : Except Exc (Int × Int) :=
  match g.pps with
  | some p => .ok (k * p, (k + 1) * p)
  | none => .error .type

/-- indexing a tuple (used for channel_group.py L661) -/
def pyIndex (cs : List Chan) (i : Int) : Option Chan := if 0 ≤ i then cs[i.toNat]? else if 0 ≤ i + cs.length then cs[(i + cs.length).toNat]? else none

/-- the data set which read_trace reads, channel_group.py L649-662 -/
def readFrom (cs : List Chan) (dn : Int) (channum : Option Nat) : Except Exc Chan :=
  match pyIndex cs dn with
  | none => .error .index
  | some d => .ok ((channum.bind (lookup cs)).getD d)

/-- the data set which plot_traces shows, channel_group.py L688-694 -/
def plotFrom (cs : List Chan) (dn : Int) (channum : Option Nat) : Except Exc Chan :=
  match channum.bind (lookup cs) with
  | some c => .ok c
  | none => match pyIndex cs dn with
    | none => .error .index
    | some d => .ok d

/-! ### opening -/

/-- [specification] the channel is as its file is after opening: segments of at most 2^24 bytes -/
def Fresh (c : Chan) : Prop := 0 < c.ps ∧ setChan c (2 ^ 24) = .ok c

theorem setChan_spec {c c' : Chan} {seg : Int} (hp : 0 < c.ps) (h : setChan c seg = .ok c') :
    (c.ps : Int) ≤ seg ∧ c'.num = c.num ∧ c'.shape = c.shape ∧ c'.ps = c.ps ∧ c'.bin = c.bin ∧ c'.pps = seg / c.ps ∧ 1 ≤ c'.pps ∧ c'.nseg = 1 + ((c.bin : Int) - 1) / (seg / c.ps * c.ps) := by
  unfold setChan Ljh.setSegmentSize at h
  dsimp only at h
  have hp' : (0 : Int) < c.ps := by exact_mod_cast hp
  by_cases hm : seg / (c.ps : Int) < 1
  · rw [if_pos hm] at h; cases h
  · rw [if_neg hm] at h
    have h' := Except.ok.inj h
    subst h'
    have e : seg / (c.ps : Int) * c.ps / c.ps = seg / c.ps := Int.mul_ediv_cancel _ hp'.ne'
    refine ⟨?_, rfl, rfl, rfl, rfl, e, ?_, rfl⟩
    · have := (Int.le_ediv_iff_mul_le hp').1 (not_lt.1 hm)
      linarith
    · show 1 ≤ seg / (c.ps : Int) * c.ps / c.ps
      rw [e]
      exact not_lt.1 hm

theorem setChan_refused {c : Chan} {seg : Int} (hp : 0 < c.ps) (h : seg < c.ps) : setChan c seg = .error .value := by
  unfold setChan Ljh.setSegmentSize
  dsimp only
  rw [if_pos]
  exact Int.ediv_lt_of_lt_mul (by exact_mod_cast hp) (by linarith)

theorem nseg_nonneg {c : Chan} (h : Fresh c) : 0 ≤ c.nseg ∧ (0 < c.bin → 0 < c.nseg) := by
  obtain ⟨hp, hf⟩ := h
  obtain ⟨_, _, _, _, _, h5, h6, h7⟩ := setChan_spec hp hf
  have hp' : (0 : Int) < c.ps := by exact_mod_cast hp
  have hd : 0 < (2 : Int) ^ 24 / c.ps * c.ps := mul_pos (by rw [← h5]; linarith) hp'
  rw [h7]
  constructor
  · have : -1 ≤ ((c.bin : Int) - 1) / (2 ^ 24 / c.ps * c.ps) := by
      rw [Int.le_ediv_iff_mul_le hd]
      have : (0 : Int) ≤ c.bin := Int.natCast_nonneg _
      linarith
    linarith
  · intro hb
    have hb' : (0 : Int) < c.bin := by exact_mod_cast hb
    have : 0 ≤ ((c.bin : Int) - 1) / (2 ^ 24 / c.ps * c.ps) := Int.ediv_nonneg (by linarith) hd.le
    linarith

theorem openOne_spec {g g' : Grp} {c : Chan} (h : openOne g c = .ok g') :
    g'.chans = g.chans ++ [c] ∧ g'.nSeg = max g.nSeg c.nseg ∧ g'.nPulses = max g.nPulses c.nPulses ∧ g'.bad = g.bad ∧ g'.shape = some c.shape ∧ (g.nSeg ≠ 0 → g.shape = some c.shape) := by
  unfold openOne at h
  split at h
  · rename_i h0
    cases h
    exact ⟨rfl, rfl, rfl, rfl, rfl, fun h => absurd h0 h⟩
  · split at h
    · rename_i h1
      cases h
      exact ⟨rfl, rfl, rfl, rfl, h1, fun _ => h1⟩
    · cases h

theorem open_fold {cs : List Chan} : ∀ {g g' : Grp}, cs.foldlM openOne g = .ok g' →
    g'.chans = g.chans ++ cs ∧ g'.bad = g.bad ∧ (∀ c ∈ cs, c.nseg ≤ g'.nSeg ∧ c.nPulses ≤ g'.nPulses) ∧ g.nSeg ≤ g'.nSeg ∧ g.nPulses ≤ g'.nPulses ∧
      (g'.nPulses = g.nPulses ∨ ∃ c ∈ cs, g'.nPulses = c.nPulses) ∧ (g'.nSeg = g.nSeg ∨ ∃ c ∈ cs, g'.nSeg = c.nseg) := by
  induction cs with
  | nil =>
    intro g g' h
    have h' : g = g' := Except.ok.inj h
    subst h'
    simp
  | cons c t ih =>
    intro g g' h
    rw [List.foldlM_cons] at h
    cases h1 : openOne g c with
    | error e => rw [h1] at h; cases h
    | ok g1 =>
      rw [h1] at h
      have h2 : t.foldlM openOne g1 = .ok g' := h
      obtain ⟨a1, a2, a3, a4, a5, a6, a7⟩ := ih h2
      obtain ⟨b1, b2, b3, b4, _, _⟩ := openOne_spec h1
      refine ⟨by rw [a1, b1, List.append_assoc]; rfl, by rw [a2, b4], ?_, ?_, ?_, ?_, ?_⟩
      · intro d hd
        rcases List.mem_cons.1 hd with rfl | hd
        · rw [b2] at a4
          rw [b3] at a5
          exact ⟨le_trans (le_max_right _ _) a4, le_trans (le_max_right _ _) a5⟩
        · exact a3 d hd
      · rw [b2] at a4; exact le_trans (le_max_left _ _) a4
      · rw [b3] at a5; exact le_trans (le_max_left _ _) a5
      · rcases a6 with h | ⟨d, hd, h⟩
        · rw [b3] at h
          rcases le_total g.nPulses c.nPulses with hle | hle
          · exact Or.inr ⟨c, List.mem_cons_self, by rw [h, max_eq_right hle]⟩
          · exact Or.inl (by rw [h, max_eq_left hle])
        · exact Or.inr ⟨d, List.mem_cons_of_mem _ hd, h⟩
      · rcases a7 with h | ⟨d, hd, h⟩
        · rw [b2] at h
          rcases le_total g.nSeg c.nseg with hle | hle
          · exact Or.inr ⟨c, List.mem_cons_self, by rw [h, max_eq_right hle]⟩
          · exact Or.inl (by rw [h, max_eq_left hle])
        · exact Or.inr ⟨d, List.mem_cons_of_mem _ hd, h⟩

theorem openGroup_fold {cs : List Chan} {g : Grp} (h : openGroup cs = .ok g) :
    ∃ g0, cs.foldlM openOne ⟨0, 0, none, none, [], []⟩ = .ok g0 ∧ g = { g0 with pps := cs.head?.map Chan.pps } := by
  unfold openGroup at h
  cases h1 : cs.foldlM openOne ⟨0, 0, none, none, [], []⟩ with
  | error e => rw [h1] at h; cases h
  | ok g0 => rw [h1] at h; exact ⟨g0, rfl, (Except.ok.inj h).symm⟩

/-- C137. A group has all the files in their order, none of them bad; its number of pulses and of segments are the greatest of the files. -/
theorem open_spec {cs : List Chan} (hc : ∀ c ∈ cs, Fresh c) {g : Grp} (h : openGroup cs = .ok g) :
    g.chans = cs ∧ g.bad = [] ∧ (∀ c ∈ cs, c.nseg ≤ g.nSeg ∧ c.nPulses ≤ g.nPulses) ∧ (cs ≠ [] → (∃ c ∈ cs, g.nPulses = c.nPulses) ∧ ∃ c ∈ cs, g.nSeg = c.nseg) := by
  obtain ⟨g0, h1, rfl⟩ := openGroup_fold h
  obtain ⟨a1, a2, a3, a4, a5, a6, a7⟩ := open_fold h1
  refine ⟨by simpa using a1, a2, a3, fun hne => ⟨?_, ?_⟩⟩
  · rcases a6 with h | h
    · obtain ⟨c, hcm⟩ := List.exists_mem_of_ne_nil _ hne
      have := (a3 c hcm).2
      exact ⟨c, hcm, by simp only at h ⊢; omega⟩
    · exact h
  · rcases a7 with h | h
    · obtain ⟨c, hcm⟩ := List.exists_mem_of_ne_nil _ hne
      have h1 := (a3 c hcm).1
      have h2 := (nseg_nonneg (hc c hcm)).1
      exact ⟨c, hcm, by simp only at h ⊢; omega⟩
    · exact h

theorem shape_fold {cs : List Chan} (hc : ∀ c ∈ cs, Fresh c) : ∀ {g g' : Grp} {s : Nat × Nat × Nat}, g.nSeg > 0 → g.shape = some s → cs.foldlM openOne g = .ok g' →
    (∀ c ∈ cs, c.shape = s) ∧ g'.shape = some s := by
  induction cs with
  | nil =>
    intro g g' s _ hs h
    have h' : g = g' := Except.ok.inj h
    subst h'
    exact ⟨by simp, hs⟩
  | cons c t ih =>
    intro g g' s hn hs h
    rw [List.foldlM_cons] at h
    cases h1 : openOne g c with
    | error e => rw [h1] at h; cases h
    | ok g1 =>
      rw [h1] at h
      have h2 : t.foldlM openOne g1 = .ok g' := h
      obtain ⟨_, b2, _, _, b5, b6⟩ := openOne_spec h1
      have e : c.shape = s := by
        have := b6 (by omega)
        rw [hs] at this
        exact (Option.some.inj this).symm
      have hn1 : g1.nSeg > 0 := by
        have := le_max_left g.nSeg c.nseg
        omega
      obtain ⟨c1, c2⟩ := ih (fun d hd => hc d (List.mem_cons_of_mem _ hd)) hn1 (by rw [b5, e]) h2
      exact ⟨fun d hd => by rcases List.mem_cons.1 hd with rfl | hd; exact e; exact c1 d hd, c2⟩

/-- C137. If the first file has data, a group which opens has files of one shape only: the same number of samples, of presamples and the same sample time. -/
theorem open_shape_partial {c : Chan} {t : List Chan} (hc : ∀ d ∈ c :: t, Fresh d) (hb : 0 < c.bin) {g : Grp} (h : openGroup (c :: t) = .ok g) :
    g.shape = some c.shape ∧ ∀ d ∈ c :: t, d.shape = c.shape := by
  obtain ⟨g0, h1, rfl⟩ := openGroup_fold h
  rw [List.foldlM_cons] at h1
  cases h2 : openOne ⟨0, 0, none, none, [], []⟩ c with
  | error e => rw [h2] at h1; cases h1
  | ok g1 =>
    rw [h2] at h1
    have h3 : t.foldlM openOne g1 = .ok g0 := h1
    obtain ⟨_, b2, _, _, b5, _⟩ := openOne_spec h2
    have hn : g1.nSeg > 0 := by
      have h4 := (nseg_nonneg (hc c List.mem_cons_self)).2 hb
      have := le_max_right (0 : Int) c.nseg
      simp only at b2
      omega
    obtain ⟨c1, c2⟩ := shape_fold (fun d hd => hc d (List.mem_cons_of_mem _ hd)) hn b5 h3
    exact ⟨c2, fun d hd => by rcases List.mem_cons.1 hd with rfl | hd; rfl; exact c1 d hd⟩

/-- C137. If all records have the same length, each sample number of the group is in one of its segments: the segments from 0 to n_segments - 1 cover the data. -/
theorem open_cover_partial {c : Chan} {t : List Chan} (hc : ∀ d ∈ c :: t, Fresh d) (hps : ∀ d ∈ t, d.ps = c.ps) {g : Grp} (h : openGroup (c :: t) = .ok g) (s : Nat) (hs : s < g.nPulses) :
    ∃ k, sample2segnum g s = .ok k ∧ 0 ≤ k ∧ k < g.nSeg := by
  obtain ⟨_, _, a3, a4⟩ := open_spec hc h
  obtain ⟨⟨d, hd, hdn⟩, _⟩ := a4 (by simp)
  obtain ⟨g0, _, hg⟩ := openGroup_fold h
  have hpps : g.pps = some c.pps := by rw [hg]; rfl
  have hdps : d.ps = c.ps := by
    rcases List.mem_cons.1 hd with rfl | hd'
    · rfl
    · exact hps d hd'
  obtain ⟨hp, hf⟩ := hc d hd
  obtain ⟨hp2, hf2⟩ := hc c List.mem_cons_self
  obtain ⟨_, _, _, _, _, e5, e6, e7⟩ := setChan_spec hp hf
  obtain ⟨_, _, _, _, _, k5, _, _⟩ := setChan_spec hp2 hf2
  have hpe : c.pps = d.pps := by rw [k5, e5, hdps]
  have hp' : (0 : Int) < d.ps := by exact_mod_cast hp
  refine ⟨(s : Int) / c.pps, ?_, Int.ediv_nonneg (Int.natCast_nonneg _) (by omega), ?_⟩
  · unfold sample2segnum
    rw [hpps, if_neg (by omega)]
  · refine lt_of_lt_of_le ?_ (a3 d hd).1
    rw [e7, hpe, ← e5]
    have hle : (s : Int) / d.pps ≤ ((d.bin : Int) - 1) / (d.pps * d.ps) := by
      rw [Int.le_ediv_iff_mul_le (mul_pos (by omega) hp')]
      have h1 : (s : Int) / d.pps * d.pps ≤ s := Int.ediv_mul_le _ (by omega)
      have h2 : ((s : Int) + 1) * d.ps ≤ d.bin := by
        have h3 : d.nPulses * d.ps ≤ d.bin := Nat.div_mul_le_self _ _
        have h4 : (s + 1) * d.ps ≤ d.nPulses * d.ps := Nat.mul_le_mul_right _ (by omega)
        exact_mod_cast h4.trans h3
      have h5 := mul_le_mul_of_nonneg_right h1 hp'.le
      nlinarith
    linarith

/-! ### segments and samples -/

/-- C137. For at least one pulse in each segment: a sample number of the data lies in the range of its segment, and in that of no other; the ranges follow each other without gap; a number beyond the data
gets the segment of the last sample. -/
theorem segment_of_sample {g : Grp} {p : Int} (hp : g.pps = some p) (h1 : 1 ≤ p) (s : Int) :
    (s < g.nPulses → ∃ k, sample2segnum g s = .ok k ∧ ∀ j a b, segRange g j = .ok (a, b) → (j = k ↔ a ≤ s ∧ s < b)) ∧
    (g.nPulses ≤ s → sample2segnum g s = sample2segnum g ((g.nPulses : Int) - 1)) ∧ (∀ k a b c d, segRange g k = .ok (a, b) → segRange g (k + 1) = .ok (c, d) → b = c ∧ b - a = p) := by
  refine ⟨fun hs => ⟨s / p, ?_, ?_⟩, fun hs => ?_, ?_⟩
  · unfold sample2segnum
    rw [hp, if_neg (not_le.2 hs)]
  · intro j a b h
    unfold segRange at h
    rw [hp] at h
    simp only [Except.ok.injEq, Prod.mk.injEq] at h
    rw [← h.1, ← h.2]
    constructor
    · rintro rfl
      refine ⟨Int.ediv_mul_le _ (by omega), Int.lt_ediv_add_one_mul_self _ (by omega)⟩
    · rintro ⟨ha, hb⟩
      refine le_antisymm ((Int.le_ediv_iff_mul_le (by omega)).2 ha) ?_
      have := (Int.ediv_lt_iff_lt_mul (a := s) (b := j + 1) (c := p) (by omega)).2 hb
      omega
  · unfold sample2segnum
    rw [hp]
    dsimp only
    rw [if_pos hs, if_neg (by omega)]
  · intro k a b c d h h'
    unfold segRange at h h'
    rw [hp] at h h'
    simp only [Except.ok.injEq, Prod.mk.injEq] at h h'
    rw [← h.1, ← h.2, ← h'.1]
    exact ⟨rfl, by ring⟩

/-! ### a new segment size -/

theorem setLoop_spec (bad : List Nat) (seg : Int) : ∀ (cs : List Chan) (n : Int), (∀ c ∈ cs, 0 < c.ps) → (∀ c ∈ cs, c.num ∉ bad → (c.ps : Int) ≤ seg) →
    (setLoop bad seg cs n).2.2 = none ∧ List.Forall₂ (fun c d => if c.num ∈ bad then d = c else setChan c seg = .ok d) cs (setLoop bad seg cs n).1 ∧
      (setLoop bad seg cs n).2.1 = ((goods (setLoop bad seg cs n).1 bad).map Chan.pps).foldl max n := by
  intro cs
  induction cs with
  | nil => intro n _ _; exact ⟨rfl, .nil, rfl⟩
  | cons c t ih =>
    intro n hp hs
    have hp' : ∀ d ∈ t, 0 < d.ps := fun d hd => hp d (List.mem_cons_of_mem _ hd)
    have hs' : ∀ d ∈ t, d.num ∉ bad → (d.ps : Int) ≤ seg := fun d hd => hs d (List.mem_cons_of_mem _ hd)
    unfold setLoop
    by_cases hb : c.num ∈ bad
    · rw [if_pos hb]
      obtain ⟨a1, a2, a3⟩ := ih n hp' hs'
      refine ⟨a1, .cons (by rw [if_pos hb]) a2, ?_⟩
      unfold goods at a3 ⊢
      rw [List.filter_cons_of_neg (by simpa using hb)]
      exact a3
    · rw [if_neg hb]
      have hle := hs c List.mem_cons_self hb
      have hcp := hp c List.mem_cons_self
      cases h1 : setChan c seg with
      | error e =>
        unfold setChan Ljh.setSegmentSize at h1
        dsimp only at h1
        rw [if_neg (not_lt.2 ((Int.le_ediv_iff_mul_le (by exact_mod_cast hcp)).2 (by linarith)))] at h1
        cases h1
      | ok d =>
        obtain ⟨a1, a2, a3⟩ := ih (max n d.pps) hp' hs'
        refine ⟨a1, .cons (by rw [if_neg hb]; exact h1) a2, ?_⟩
        have hd : d.num = c.num := (setChan_spec hcp h1).2.1
        unfold goods at a3 ⊢
        rw [List.filter_cons_of_pos (by simpa [hd] using hb), List.map_cons, List.foldl_cons]
        exact a3

theorem lookup_head {cs : List Chan} (hn : (cs.map Chan.num).Nodup) {c : Chan} (hc : c ∈ cs) : lookup cs c.num = some c := by
  unfold lookup
  have hn' : (cs.reverse.map Chan.num).Nodup := by rw [List.map_reverse]; exact List.nodup_reverse.2 hn
  have hc' : c ∈ cs.reverse := List.mem_reverse.2 hc
  generalize cs.reverse = l at *
  induction l with
  | nil => simp at hc'
  | cons d t ih =>
    rw [List.map_cons, List.nodup_cons] at hn'
    rcases List.mem_cons.1 hc' with rfl | h
    · simp
    · have hne : d.num ≠ c.num := fun e => hn'.1 (e ▸ List.mem_map.2 ⟨c, h, rfl⟩)
      rw [List.find?_cons_of_neg (by simpa using hne)]
      exact ih hn'.2 h

theorem forall2_num {bad : List Nat} {seg : Int} : ∀ {cs ds : List Chan}, (∀ c ∈ cs, 0 < c.ps) → List.Forall₂ (fun c d => if c.num ∈ bad then d = c else setChan c seg = .ok d) cs ds →
    ds.map Chan.num = cs.map Chan.num := by
  intro cs ds hp h
  induction h with
  | nil => rfl
  | cons h _ ih =>
    rename_i c d cs ds _
    rw [List.map_cons, List.map_cons, ih (fun e he => hp e (List.mem_cons_of_mem _ he))]
    congr 1
    split at h
    · rw [h]
    · exact (setChan_spec (hp c List.mem_cons_self) h).2.1

theorem foldl_max_const {l : List Int} {p : Int} (h : ∀ x ∈ l, x = p) (hp : 0 ≤ p) (hne : l ≠ []) : l.foldl max 0 = p := by
  have key : ∀ (l : List Int), (∀ x ∈ l, x = p) → l.foldl max p = p := by
    intro l
    induction l with
    | nil => intro _; rfl
    | cons a t ih =>
      intro h
      rw [List.foldl_cons, h a List.mem_cons_self, max_self]
      exact ih (fun x hx => h x (List.mem_cons_of_mem _ hx))
  match l, hne with
  | a :: t, _ =>
    rw [List.foldl_cons, h a List.mem_cons_self, max_eq_right hp]
    exact key t (fun x hx => h x (List.mem_cons_of_mem _ hx))

theorem setGroup_run {g : Grp} (hn : (g.chans.map Chan.num).Nodup) {ps : Nat} (hp : 0 < ps) (hps : ∀ c ∈ g.chans, c.ps = ps) (hgood : goods g.chans g.bad ≠ []) {seg : Int} (hs : (ps : Int) ≤ seg) :
    (setGroup g seg).2 = .ok () ∧ (setGroup g seg).1.pps = some (seg / ps) ∧ (setGroup g seg).1.nSeg = seg / ps ∧ (setGroup g seg).1.nPulses = g.nPulses ∧ (setGroup g seg).1.bad = g.bad ∧
      List.Forall₂ (fun c d => if c.num ∈ g.bad then d = c else setChan c seg = .ok d) g.chans (setGroup g seg).1.chans := by
  have hpos : ∀ c ∈ g.chans, 0 < c.ps := fun c hc => by rw [hps c hc]; exact hp
  obtain ⟨a1, a2, a3⟩ := setLoop_spec g.bad seg g.chans 0 hpos (fun c hc _ => by rw [hps c hc]; exact hs)
  have hnum := forall2_num hpos a2
  generalize hr : setLoop g.bad seg g.chans 0 = r at *
  have hq : 1 ≤ seg / (ps : Int) := (Int.le_ediv_iff_mul_le (by exact_mod_cast hp)).2 (by linarith)
  have hall : ∀ d ∈ goods r.1 g.bad, d.pps = seg / ps := by
    intro d hd
    unfold goods at hd
    rw [List.mem_filter] at hd
    obtain ⟨i, hi, hid⟩ := List.mem_iff_getElem.1 hd.1
    have hlen := a2.length_eq
    have hrel := (List.forall₂_iff_get.1 a2).2 i (by omega) hi
    simp only [List.get_eq_getElem] at hrel
    rw [hid] at hrel
    have hnb : d.num ∉ g.bad := by simpa using hd.2
    have hmem : g.chans[i]'(by omega) ∈ g.chans := List.getElem_mem _
    split at hrel
    · rename_i hb
      rw [hrel] at hnb
      exact absurd hb hnb
    · rw [(setChan_spec (hpos _ hmem) hrel).2.2.2.2.2.1, hps _ hmem]
  have hne : goods r.1 g.bad ≠ [] := by
    intro h0
    obtain ⟨c, hc⟩ := List.exists_mem_of_ne_nil _ hgood
    unfold goods at hc h0
    rw [List.mem_filter] at hc
    have : c.num ∈ r.1.map Chan.num := by rw [hnum]; exact List.mem_map.2 ⟨c, hc.1, rfl⟩
    obtain ⟨d, hd, hdn⟩ := List.mem_map.1 this
    have : d ∈ r.1.filter (fun c => c.num ∉ g.bad) := List.mem_filter.2 ⟨hd, by rw [hdn]; exact hc.2⟩
    rw [h0] at this
    simp at this
  obtain ⟨f, hf⟩ : ∃ f, firstGood r.1 g.bad = some f ∧ f ∈ goods r.1 g.bad := by
    unfold firstGood
    match hg : goods r.1 g.bad, hne with
    | f :: t, _ =>
      refine ⟨f, ?_, List.mem_cons_self⟩
      have hm : f ∈ r.1 := by
        have : f ∈ goods r.1 g.bad := by rw [hg]; exact List.mem_cons_self
        unfold goods at this
        exact (List.mem_filter.1 this).1
      exact lookup_head (by rw [hnum]; exact hn) hm
  have hrun : setGroup g seg = ({ g with chans := r.1, nSeg := r.2.1, pps := some f.pps }, .ok ()) := by
    unfold setGroup
    dsimp only
    rw [hr, a1]
    dsimp only
    rw [hf.1]
    dsimp only
    rw [if_pos (fun d hd => by rw [hall d hd, hall f hf.2])]
  rw [hrun]
  refine ⟨rfl, by rw [hall f hf.2], ?_, rfl, rfl, a2⟩
  show r.2.1 = _
  rw [a3]
  refine foldl_max_const (fun x hx => ?_) (by omega) (by simpa using hne)
  obtain ⟨d, hd, rfl⟩ := List.mem_map.1 hx
  exact hall d hd

/-- C137. A new segment size in a group of files with records of one length: as many pulses for each segment as fit, in the group and in each good channel; each good channel counts its segments anew, so that they
cover its data; bad channels keep theirs. -/
theorem set_spec {g : Grp} (hn : (g.chans.map Chan.num).Nodup) {ps : Nat} (hp : 0 < ps) (hps : ∀ c ∈ g.chans, c.ps = ps) (hgood : goods g.chans g.bad ≠ []) {seg : Int} (hs : (ps : Int) ≤ seg) :
    (setGroup g seg).2 = .ok () ∧ (setGroup g seg).1.pps = some (seg / ps) ∧
      List.Forall₂ (fun c d => d.num = c.num ∧ d.bin = c.bin ∧ (c.num ∈ g.bad → d = c) ∧
        (c.num ∉ g.bad → d.pps = seg / ps ∧ (d.nseg - 1) * d.pps * (ps : Int) < (c.bin : Int) ∧ (c.bin : Int) ≤ d.nseg * d.pps * ps)) g.chans (setGroup g seg).1.chans := by
  obtain ⟨h1, h2, _, _, _, h6⟩ := setGroup_run hn hp hps hgood hs
  refine ⟨h1, h2, ?_⟩
  have hp' : (0 : Int) < ps := by exact_mod_cast hp
  have hq : 1 ≤ seg / (ps : Int) := (Int.le_ediv_iff_mul_le hp').2 (by linarith)
  refine List.forall₂_iff_get.2 ⟨h6.length_eq, fun i hi hi' => ?_⟩
  have hrel := (List.forall₂_iff_get.1 h6).2 i hi hi'
  have hmem : g.chans.get ⟨i, hi⟩ ∈ g.chans := List.get_mem _ _
  have hcp := hps _ hmem
  generalize g.chans.get ⟨i, hi⟩ = c at *
  generalize (setGroup g seg).1.chans.get ⟨i, hi'⟩ = d at *
  split at hrel
  · rename_i hb
    subst hrel
    exact ⟨rfl, rfl, fun _ => rfl, fun h => absurd hb h⟩
  · rename_i hb
    obtain ⟨_, e1, _, _, e4, e5, _, e7⟩ := setChan_spec (by rw [hcp]; exact hp) hrel
    rw [hcp] at e5 e7
    refine ⟨e1, e4, fun h => absurd h hb, fun _ => ⟨e5, ?_, ?_⟩⟩
    · rw [e5, e7, mul_assoc]
      have := Int.ediv_mul_le ((c.bin : Int) - 1) (b := seg / ps * ps) (mul_pos (by omega) hp').ne'
      have e : (1 + ((c.bin : Int) - 1) / (seg / ps * ps) - 1) = ((c.bin : Int) - 1) / (seg / ps * ps) := by ring
      rw [e]
      linarith
    · rw [e5, e7, mul_assoc]
      have := Int.lt_ediv_add_one_mul_self ((c.bin : Int) - 1) (b := seg / ps * ps) (mul_pos (by omega) hp')
      have e : (1 + ((c.bin : Int) - 1) / (seg / ps * ps)) = ((c.bin : Int) - 1) / (seg / ps * ps) + 1 := by ring
      rw [e]
      linarith

/-! ### traces -/

theorem lookup_none {cs : List Chan} {n : Nat} (h : ∀ c ∈ cs, c.num ≠ n) : lookup cs n = none := by
  unfold lookup
  rw [List.find?_eq_none]
  intro c hc
  simpa using h c (List.mem_reverse.1 hc)

/-- C137. With different channel numbers, a channel number of the group selects its data set, good or bad, for traces and plots (for traces: if the data set number exists too); no channel number: the data set
number counts, from the end if negative. -/
theorem trace_spec {cs : List Chan} (hn : (cs.map Chan.num).Nodup) :
    (∀ c ∈ cs, ∀ dn : Int, -cs.length ≤ dn → dn < cs.length → readFrom cs dn (some c.num) = .ok c) ∧ (∀ c ∈ cs, ∀ dn : Int, plotFrom cs dn (some c.num) = .ok c) ∧
    (∀ i (hi : i < cs.length), readFrom cs i none = .ok cs[i] ∧ plotFrom cs i none = .ok cs[i] ∧ readFrom cs (-(i : Int) - 1) none = .ok (cs[cs.length - 1 - i]'(by omega))) := by
  have hidx : ∀ dn : Int, -cs.length ≤ dn → dn < cs.length → ∃ d, pyIndex cs dn = some d := by
    intro dn h1 h2
    unfold pyIndex
    by_cases h0 : 0 ≤ dn
    · rw [if_pos h0]
      exact ⟨_, List.getElem?_eq_getElem (by omega)⟩
    · rw [if_neg h0, if_pos (by omega)]
      exact ⟨_, List.getElem?_eq_getElem (by omega)⟩
  refine ⟨fun c hc dn h1 h2 => ?_, fun c hc dn => ?_, fun i hi => ?_⟩
  · obtain ⟨d, hd⟩ := hidx dn h1 h2
    unfold readFrom
    rw [hd]
    show Except.ok ((lookup cs c.num).getD d) = _
    rw [lookup_head hn hc]
    rfl
  · unfold plotFrom
    show (match lookup cs c.num with | some c => _ | none => _) = _
    rw [lookup_head hn hc]
  · have e1 : pyIndex cs i = some cs[i] := by
      unfold pyIndex
      rw [if_pos (by omega)]
      exact List.getElem?_eq_getElem _
    have e2 : pyIndex cs (-(i : Int) - 1) = some (cs[cs.length - 1 - i]'(by omega)) := by
      unfold pyIndex
      rw [if_neg (by omega), if_pos (by omega)]
      have : (-(i : Int) - 1 + cs.length).toNat = cs.length - 1 - i := by omega
      rw [this]
      exact List.getElem?_eq_getElem _
    refine ⟨?_, ?_, ?_⟩
    · unfold readFrom; rw [e1]; rfl
    · unfold plotFrom; simp only [Option.bind_none, e1]
    · unfold readFrom; rw [e2]; rfl

/-! ### flux jumps in a group -/

section Flux
variable {K : Type} [Field K] [LinearOrder K] [IsStrictOrderedRing K] [FloorRing K]

/-- what correct_flux_jumps uses of a channel: number, p_pretrig_mean, p_pretrig_mean_orig if any, good() (channel.py L1710-1713) -/
structure FChan (K : Type) where
  num : Nat
  p : List K
  orig : Option (List K)
  mask : List Bool

/-- MicrocalDataSet.correct_flux_jumps, channel.py L1709-1713 -/
def fluxOne (q : K) (c : FChan K) : FChan K × Except Exc Unit :=
  match Algo.fluxCorrect c.p c.mask q with
  | .ok r => ({ c with orig := some c.p, p := r }, .ok ())
  | .error e => ({ c with orig := some c.p }, .error e)

/-- TESGroup.correct_flux_jumps, channel_group.py L1174-1178: channels and numbers of the bad channels. Simplified: the reasons and their copy in the HDF5 file are left out (C53). -/
def fluxGroup (q : K) : List (FChan K) → List Nat → List (FChan K) × List Nat
  | [], bad => ([], bad)
  | c :: t, bad =>
    if c.num ∈ bad then let r := fluxGroup q t bad; (c :: r.1, r.2)
    else match fluxOne q c with
      | (c', .ok _) => let r := fluxGroup q t bad; (c' :: r.1, r.2)
      | (c', .error _) => let r := fluxGroup q t (bad ++ [c.num]); (c' :: r.1, r.2)

/-- [specification] what the correction of the group must do to one channel -/
def FluxDone (q : K) (bad bad' : List Nat) (c c' : FChan K) : Prop :=
  (c.num ∈ bad → c' = c) ∧ (c.num ∉ bad → c'.num = c.num ∧ c'.mask = c.mask ∧ c'.orig = some c.p ∧
    (∀ r, Algo.fluxCorrect c.p c.mask q = .ok r → c'.p = r ∧ c.num ∉ bad') ∧ (∀ e, Algo.fluxCorrect c.p c.mask q = .error e → c'.p = c.p ∧ c.num ∈ bad'))

theorem fluxGroup_bad (q : K) : ∀ (cs : List (FChan K)) (bad : List Nat), (∀ n ∈ bad, n ∈ (fluxGroup q cs bad).2) ∧ ∀ n ∈ (fluxGroup q cs bad).2, n ∈ bad ∨ ∃ c ∈ cs, c.num = n := by
  intro cs
  induction cs with
  | nil => intro bad; exact ⟨fun n h => h, fun n h => Or.inl h⟩
  | cons c t ih =>
    intro bad
    unfold fluxGroup
    split
    · obtain ⟨h1, h2⟩ := ih bad
      refine ⟨h1, fun n hn => ?_⟩
      rcases h2 n hn with h | ⟨d, hd, h⟩
      · exact Or.inl h
      · exact Or.inr ⟨d, List.mem_cons_of_mem _ hd, h⟩
    · split
      · obtain ⟨h1, h2⟩ := ih bad
        refine ⟨h1, fun n hn => ?_⟩
        rcases h2 n hn with h | ⟨d, hd, h⟩
        · exact Or.inl h
        · exact Or.inr ⟨d, List.mem_cons_of_mem _ hd, h⟩
      · obtain ⟨h1, h2⟩ := ih (bad ++ [c.num])
        refine ⟨fun n hn => h1 n (List.mem_append_left _ hn), fun n hn => ?_⟩
        rcases h2 n hn with h | ⟨d, hd, h⟩
        · rcases List.mem_append.1 h with h | h
          · exact Or.inl h
          · exact Or.inr ⟨c, List.mem_cons_self, (List.mem_singleton.1 h).symm⟩
        · exact Or.inr ⟨d, List.mem_cons_of_mem _ hd, h⟩

/-- C137. With different channel numbers, the group's correction gives each good channel the correction of its own values alone and remembers the values from before; a channel where that fails keeps its values and
becomes bad, and no other; bad channels are not touched. -/
theorem flux_group (q : K) : ∀ (cs : List (FChan K)) (bad : List Nat), (cs.map FChan.num).Nodup →
    List.Forall₂ (FluxDone q bad (fluxGroup q cs bad).2) cs (fluxGroup q cs bad).1 := by
  intro cs
  induction cs with
  | nil => intro bad _; exact .nil
  | cons c t ih =>
    intro bad hn
    rw [List.map_cons, List.nodup_cons] at hn
    have hct : ∀ d ∈ t, d.num ≠ c.num := fun d hd e => hn.1 (e ▸ List.mem_map.2 ⟨d, hd, rfl⟩)
    have hbad := fluxGroup_bad q t
    unfold fluxGroup
    by_cases hb : c.num ∈ bad
    · rw [if_pos hb]
      exact .cons ⟨fun _ => rfl, fun h => absurd hb h⟩ (ih bad hn.2)
    · rw [if_neg hb]
      cases hf : Algo.fluxCorrect c.p c.mask q with
      | ok r =>
        have e : fluxOne q c = ({ c with orig := some c.p, p := r }, .ok ()) := by unfold fluxOne; rw [hf]
        rw [e]
        refine .cons ⟨fun h => absurd h hb, fun _ => ⟨rfl, rfl, rfl, fun r' hr => ?_, fun e he => ?_⟩⟩ (ih bad hn.2)
        · rw [hf] at hr
          refine ⟨Except.ok.inj hr, fun hm => ?_⟩
          rcases (hbad bad).2 _ hm with h | ⟨d, hd, h⟩
          · exact hb h
          · exact hct d hd h
        · rw [hf] at he; cases he
      | error x =>
        have e : fluxOne q c = ({ c with orig := some c.p }, .error x) := by unfold fluxOne; rw [hf]
        rw [e]
        refine .cons ⟨fun h => absurd h hb, fun _ => ⟨rfl, rfl, rfl, fun r' hr => ?_, fun e he => ⟨rfl, ?_⟩⟩⟩ ?_
        · rw [hf] at hr; cases hr
        · exact (hbad (bad ++ [c.num])).1 _ (by simp)
        · have h2 := ih (bad ++ [c.num]) hn.2
          refine List.forall₂_iff_get.2 ⟨h2.length_eq, fun i hi hi' => ?_⟩
          have hrel := (List.forall₂_iff_get.1 h2).2 i hi hi'
          have hmem : t.get ⟨i, hi⟩ ∈ t := List.get_mem _ _
          have hne := hct _ hmem
          refine ⟨fun h => hrel.1 (List.mem_append_left _ h), fun h => hrel.2 (fun h' => ?_)⟩
          rcases List.mem_append.1 h' with h' | h'
          · exact h h'
          · exact hne (List.mem_singleton.1 h')

/-- C137. Correcting again changes nothing: the corrected values span less than a quantum. -/
theorem flux_idempotent {vals : List K} {g : List Bool} {q : K} (hq : 0 < q) {r : List K} (h : Algo.fluxCorrect vals g q = .ok r) (g' : List Bool) : Algo.fluxCorrect r g' q = .ok r := by
  obtain ⟨hh, w, hw⟩ := Algo.flux_whole_quanta hq h
  have hin : ∀ x ∈ r, w ≤ x ∧ x < w + q := by
    intro x hx
    obtain ⟨i, hi, hix⟩ := List.mem_iff_getElem.1 hx
    have hrel := (List.forall₂_iff_get.1 hw).2 i (by rw [hw.length_eq]; exact hi) hi
    simp only [List.get_eq_getElem] at hrel
    rw [hix] at hrel
    exact ⟨hrel.2.1, hrel.2.2.1⟩
  match r, vals with
  | [], [] => cases h
  | [], v :: t => simp at hh
  | a :: t, _ =>
    unfold Algo.fluxCorrect
    dsimp only
    rw [if_neg]
    have h1 := hin _ (Algo.amax_mem a t)
    have h2 := hin _ (Algo.amin_mem a t)
    rw [not_le]
    linarith

/-- Disagreement (C137): the values "remembered just in case" are overwritten by a second call of correct_flux_jumps, which changes nothing else: after two calls, both copies are the corrected values and the original ones
are lost. -/
theorem flux_twice_fails {q : K} (hq : 0 < q) (c : FChan K) {r : List K} (h : Algo.fluxCorrect c.p c.mask q = .ok r) :
    (fluxOne q c).1.orig = some c.p ∧ (fluxOne q (fluxOne q c).1).1.p = r ∧ (fluxOne q (fluxOne q c).1).1.orig = some r := by
  have e1 : fluxOne q c = ({ c with orig := some c.p, p := r }, .ok ()) := by unfold fluxOne; rw [h]
  have e2 : fluxOne q ({ c with orig := some c.p, p := r }) = ({ c with orig := some r, p := r }, .ok ()) := by
    unfold fluxOne
    dsimp only
    rw [flux_idempotent hq h c.mask]
  rw [e1]
  dsimp only
  rw [e2]
  exact ⟨rfl, rfl, rfl⟩

end Flux

/-! ### where the code differs -/

/-- Disagreement (C137): after set_segment_size the group's number of segments is its number of pulses for each segment. So its segments cover the data exactly if there are at most pulses_per_seg squared of them. -/
theorem set_count_fails {g : Grp} (hn : (g.chans.map Chan.num).Nodup) {ps : Nat} (hp : 0 < ps) (hps : ∀ c ∈ g.chans, c.ps = ps) (hgood : goods g.chans g.bad ≠ []) {seg : Int} (hs : (ps : Int) ≤ seg) :
    (setGroup g seg).1.nSeg = seg / ps ∧
      ((∀ s : Nat, s < g.nPulses → ∃ k, sample2segnum (setGroup g seg).1 s = .ok k ∧ k < (setGroup g seg).1.nSeg) ↔ (g.nPulses : Int) ≤ seg / ps * (seg / ps)) := by
  obtain ⟨_, h2, h3, h4, _, _⟩ := setGroup_run hn hp hps hgood hs
  refine ⟨h3, ?_⟩
  have hq : 1 ≤ seg / (ps : Int) := (Int.le_ediv_iff_mul_le (by exact_mod_cast hp)).2 (by linarith)
  have hv : ∀ s : Nat, s < g.nPulses → sample2segnum (setGroup g seg).1 s = .ok ((s : Int) / (seg / ps)) := by
    intro s hs
    unfold sample2segnum
    rw [h2, h4, if_neg (by omega)]
  rw [h3]
  generalize seg / (ps : Int) = p at *
  constructor
  · intro h
    by_contra hc
    have hc := not_le.1 hc
    obtain ⟨k, hk, hlt⟩ := h (g.nPulses - 1) (by
      have : 0 < p * p := by nlinarith
      omega)
    rw [hv _ (by
      have : 0 < p * p := by nlinarith
      omega)] at hk
    have hk' := Except.ok.inj hk
    rw [← hk', Int.ediv_lt_iff_lt_mul (by omega)] at hlt
    have : 0 < p * p := by nlinarith
    omega
  · intro h s hs
    refine ⟨_, hv s hs, ?_⟩
    rw [Int.ediv_lt_iff_lt_mul (by omega)]
    omega

/-- Disagreement (C137): a segment size below the record length is refused with ValueError, but the group then has no segments at all, although the files and their segments are as before. -/
theorem set_refused_fails {g : Grp} {c : Chan} {t : List Chan} (hg : g.chans = c :: t) (hb : c.num ∉ g.bad) (hp : 0 < c.ps) {seg : Int} (hs : seg < c.ps) :
    setGroup g seg = ({ g with nSeg := 0 }, .error .value) := by
  have e : setLoop g.bad seg g.chans 0 = (g.chans, 0, some .value) := by
    rw [hg]
    unfold setLoop
    rw [if_neg hb, setChan_refused hp hs]
  unfold setGroup
  dsimp only
  rw [e]

/-- Disagreement (C137): if the first file has no records, the next one is not compared with it, and files of different record length make one group. -/
theorem empty_first_fails (c d : Chan) (hc : Fresh c) (h0 : c.bin = 0) : ∃ g, openGroup [c, d] = .ok g ∧ g.chans = [c, d] ∧ g.shape = some d.shape := by
  have hn : c.nseg = 0 := by
    obtain ⟨hp, hf⟩ := hc
    obtain ⟨_, _, _, _, _, h5, h6, h7⟩ := setChan_spec hp hf
    have hp' : (1 : Int) ≤ c.ps := by exact_mod_cast hp
    rw [h7, h0]
    have hd : 1 ≤ (2 : Int) ^ 24 / c.ps * c.ps := by nlinarith
    have : (((0 : Nat) : Int) - 1) / (2 ^ 24 / c.ps * c.ps) = -1 := by
      generalize (2 : Int) ^ 24 / c.ps * c.ps = m at *
      refine le_antisymm ?_ ?_
      · have := (Int.ediv_lt_iff_lt_mul (a := ((0 : Nat) : Int) - 1) (b := 0) (c := m) (by omega)).2 (by simp)
        omega
      · rw [Int.le_ediv_iff_mul_le (by omega)]
        simp
        omega
    rw [this]
    rfl
  have e1 : openOne ⟨0, 0, none, none, [], []⟩ c = .ok ⟨0, max 0 c.nPulses, some c.shape, none, [c], []⟩ := by
    unfold openOne
    rw [if_pos rfl, hn]
    rfl
  have e2 : openOne ⟨0, max 0 c.nPulses, some c.shape, none, [c], []⟩ d = .ok ⟨max 0 d.nseg, max (max 0 c.nPulses) d.nPulses, some d.shape, none, [c, d], []⟩ := by
    unfold openOne
    rw [if_pos rfl]
    rfl
  have e3 : [c, d].foldlM openOne ⟨0, 0, none, none, [], []⟩ = .ok ⟨max 0 d.nseg, max (max 0 c.nPulses) d.nPulses, some d.shape, none, [c, d], []⟩ := by
    rw [List.foldlM_cons, e1]
    have e4 : [d].foldlM openOne ⟨0, max 0 c.nPulses, some c.shape, none, [c], []⟩ = .ok ⟨max 0 d.nseg, max (max 0 c.nPulses) d.nPulses, some d.shape, none, [c, d], []⟩ := by
      rw [List.foldlM_cons, e2]
      rfl
    exact e4
  unfold openGroup
  rw [e3]
  exact ⟨_, rfl, rfl, rfl⟩

/-- Disagreement (C137): files of versions 2.1 and 2.2 have records of different length (6 or 16 bytes more than the samples) but one shape, and the group takes the pulses for each segment of its first file: the
sample 2000000 is then in segment 2 of a group with one segment; and a new segment size fails with AssertionError. -/
theorem versions_fails : ∃ c d g, setChan ⟨1, (1, 0, 1), 18, 18, 0, 0⟩ (2 ^ 24) = .ok c ∧ setChan ⟨3, (1, 0, 1), 8, 8 * 2097152, 0, 0⟩ (2 ^ 24) = .ok d ∧ openGroup [c, d] = .ok g ∧
    g.nPulses = 2097152 ∧ g.nSeg = 1 ∧ sample2segnum g 2000000 = .ok 2 ∧ (setGroup g 1000).2 = .error .assertion :=
  ⟨⟨1, (1, 0, 1), 18, 18, 932067, 1⟩, ⟨3, (1, 0, 1), 8, 8 * 2097152, 2097152, 1⟩,
    ⟨1, 2097152, some (1, 0, 1), some 932067, [⟨1, (1, 0, 1), 18, 18, 932067, 1⟩, ⟨3, (1, 0, 1), 8, 8 * 2097152, 2097152, 1⟩], []⟩, by decide +kernel⟩

/-- Disagreement (C137): a channel number which is not in the group is no error for read_trace: it returns the record of the first data set (or the one numbered), of another channel. -/
theorem unknown_channel_fails (c : Chan) (t : List Chan) (n : Nat) (h : ∀ d ∈ c :: t, d.num ≠ n) : readFrom (c :: t) 0 (some n) = .ok c ∧ c.num ≠ n := by
  refine ⟨?_, h c List.mem_cons_self⟩
  have e : pyIndex (c :: t) 0 = some c := rfl
  unfold readFrom
  rw [e]
  show Except.ok ((lookup (c :: t) n).getD c) = _
  rw [lookup_none h]
  rfl

/-! ### examples -/

-- two files of 100 and 40 records of 10 bytes
example : ∃ g, openGroup [⟨1, (2, 1, 5), 10, 1000, 1677721, 1⟩, ⟨3, (2, 1, 5), 10, 405, 1677721, 1⟩] = .ok g ∧ g.nPulses = 100 ∧ (setGroup g 45).2 = .ok () ∧ (setGroup g 45).1.pps = some 4 ∧
    (setGroup g 45).1.nSeg = 4 ∧ (setGroup g 45).1.chans.map Chan.nseg = [25, 11] :=
  ⟨⟨1, 100, some (2, 1, 5), some 1677721, [⟨1, (2, 1, 5), 10, 1000, 1677721, 1⟩, ⟨3, (2, 1, 5), 10, 405, 1677721, 1⟩], []⟩, by decide +kernel⟩
example : Fresh ⟨1, (2, 1, 5), 10, 1000, 1677721, 1⟩ := ⟨by decide, by decide +kernel⟩
example : Fresh ⟨1, (2, 1, 5), 10, 0, 1677721, 0⟩ := ⟨by decide, by decide +kernel⟩
example : openGroup [⟨1, (2, 1, 5), 10, 1000, 1677721, 1⟩, ⟨3, (3, 1, 5), 12, 405, 1398101, 1⟩] = .error .value := by decide +kernel
example : Algo.fluxCorrect [1, 21, 2] [true, true, true] (10 : ℚ) = .ok [1, 1, 2] := by decide +kernel

end Mass.Group.Seg
