import Verif.States.Export
import Verif.Cut.PropsCat
/-! C122: experiment states as categories of pulses (mass/core/channel_group.py L203-218, mass/core/channel.py L1046-1069 `__parse_expt_states`), on top of C05 (categorical
cuts) and C22 (which state is in force). `dec` turns a label into a string. The times of the pulses are the values `p_timestamp*1e9` (float64). -/
namespace Mass.States.Cat
open Mass.Cut Mass.States
open Mass.States.Export (aliasOf labels)
open Mass.Ljh (Bytes asc)

/-! ### The code -/

/-- channel_group.py L216-218 (`TESGroup.__init__`): the labels of the state file become the categories of the field "state" -/
def registerStates (dec : Bytes → String) (ef : EF) (dict : List (Bytes × Bytes)) : M Unit :=
  registerCat "state" ((labels ef dict).map dec) "uncategorized"

/-- channel.py L1066-1067: `state_codes[slice.start:slice.stop] = w` -/
def setRange (l : List Word) (s : Slice) (w : Word) : List Word := l.mapIdx fun i x => if s.start ≤ i ∧ i < s.stop then w else x

/-- channel.py L1057-1067: the loop over the states, with `id` counting from 0 -/
def codeLoop : Nat → SD → List Word → List Word
  | _, [], l => l
  | id, (_, v) :: rest, l => codeLoop (id + 1) rest (v.slices.foldl (fun l s => setRange l s (BitVec.ofNat 32 (id + 1))) l)

/-- channel.py L1046-1069 `__parse_expt_states` for a group with a state file; `calcStatesDict` from nothing never raises (`batch_eq`) -/
def parseStates (rd : Int → Int) (ef : EF) (dict : List (Bytes × Bytes)) (nano : List Int) : M Unit :=
  match batch rd ef (aliasOf dict) nano with
  | .error _ => raise .value
  | .ok d => Cut.cut "state" (.codes (codeLoop 0 d (List.replicate nano.length 0#32)))

/-! ### The codes are the numbers of the states -/

theorem setRange_get (l : List Word) (s : Slice) (w : Word) (i : Nat) (hi : i < l.length) :
    (setRange l s w)[i]? = if s.has i then some w else l[i]? := by
  unfold setRange Slice.has
  rw [List.getElem?_mapIdx, List.getElem?_eq_getElem hi]
  simp only [Option.map_some, Bool.and_eq_true, decide_eq_true_eq]
  split <;> rfl

theorem setRange_length (l : List Word) (s : Slice) (w : Word) : (setRange l s w).length = l.length := by simp [setRange]

theorem foldRange_length (ss : List Slice) (w : Word) (l : List Word) : (ss.foldl (fun l s => setRange l s w) l).length = l.length := by
  induction ss generalizing l with
  | nil => rfl
  | cons s t ih => rw [List.foldl_cons, ih, setRange_length]

theorem foldRange_get (ss : List Slice) (w : Word) (l : List Word) (i : Nat) (hi : i < l.length) :
    (ss.foldl (fun l s => setRange l s w) l)[i]? = if ss.any (fun s => s.has i) then some w else l[i]? := by
  induction ss generalizing l with
  | nil => simp
  | cons s t ih =>
    rw [List.foldl_cons, ih _ (by rw [setRange_length]; exact hi), setRange_get _ _ _ _ hi, List.any_cons]
    cases s.has i <;> cases t.any (fun s => s.has i) <;> simp

theorem codeLoop_length (id : Nat) (d : SD) (l : List Word) : (codeLoop id d l).length = l.length := by
  induction d generalizing id l with
  | nil => rfl
  | cons e t ih =>
    obtain ⟨k, v⟩ := e
    unfold codeLoop
    rw [ih, foldRange_length]

theorem statesAt_cons (k : Bytes) (v : Val) (t : SD) (i : Nat) :
    statesAt ((k, v) :: t) i = (v.slices.filter (fun s => s.has i)).map (fun _ => k) ++ statesAt t i := by
  unfold statesAt pieces
  rw [List.flatMap_cons, List.filter_append, List.map_append, List.filter_map, List.map_map]
  rfl

/-- a pulse in no state keeps code 0 (what it had), one in exactly one state gets the number of that state, counted from 1 -/
theorem codeLoop_get (d : SD) (hd : (d.map Prod.fst).Nodup) (id : Nat) (l : List Word) (i : Nat) (hi : i < l.length) :
    (statesAt d i = [] → (codeLoop id d l)[i]? = l[i]?) ∧
    ∀ k, statesAt d i = [k] → ∃ j : Nat, (d.map Prod.fst)[j]? = some k ∧ (codeLoop id d l)[i]? = some (BitVec.ofNat 32 (id + j + 1)) := by
  induction d generalizing id l with
  | nil => exact ⟨fun _ => rfl, fun k h => by simp [statesAt, pieces] at h⟩
  | cons e t ih =>
    obtain ⟨k0, v⟩ := e
    rw [List.map_cons, List.nodup_cons] at hd
    have hl : i < (v.slices.foldl (fun l s => setRange l s (BitVec.ofNat 32 (id + 1))) l).length := by rw [foldRange_length]; exact hi
    obtain ⟨ih1, ih2⟩ := ih hd.2 (id + 1) _ hl
    rw [statesAt_cons]
    unfold codeLoop
    constructor
    · intro h
      obtain ⟨h1, h2⟩ := List.append_eq_nil_iff.1 h
      rw [ih1 h2, foldRange_get _ _ _ _ hi, if_neg]
      rw [List.map_eq_nil_iff, List.filter_eq_nil_iff] at h1
      rw [List.any_eq_true]
      rintro ⟨s, hs, hh⟩
      exact h1 s hs hh
    · intro k h
      rcases List.append_eq_singleton_iff.1 h with ⟨h1, h2⟩ | ⟨h1, h2⟩
      · obtain ⟨j, hj, he⟩ := ih2 k h2
        exact ⟨j + 1, by rw [List.map_cons, List.getElem?_cons_succ]; exact hj, by rw [he]; congr 2; omega⟩
      · rw [ih1 h2, foldRange_get _ _ _ _ hi]
        have hk : k0 = k := by
          have : k ∈ (v.slices.filter (fun s => s.has i)).map (fun _ => k0) := by rw [h1]; simp
          obtain ⟨_, _, e⟩ := List.mem_map.1 this
          exact e
        refine ⟨0, by simp [hk], ?_⟩
        rw [if_pos]
        · rw [List.any_eq_true]
          cases hf : v.slices.filter (fun s => s.has i) with
          | nil => rw [hf] at h1; simp at h1
          | cons s r =>
            have : s ∈ v.slices.filter (fun s => s.has i) := by rw [hf]; simp
            rw [List.mem_filter] at this
            exact ⟨s, this.1, this.2⟩

/-- the states of the dictionary come in the order in which they first appear, like the labels -/
theorem stateLoop_order (excl : List Bytes) (keep : Bytes → Bool) (n : Nat) (xs : List (Bytes × Nat)) (d : SD) (hk : ∀ x ∈ xs, keep x.1 = !excl.contains x.1) :
    (stateLoop keep id n xs d).map Prod.fst = uniqueKept excl (d.map Prod.fst) (xs.map Prod.fst) := by
  induction xs generalizing d with
  | nil => rfl
  | cons x t ih =>
    obtain ⟨l, i⟩ := x
    have h1 := hk (l, i) (by simp)
    have ih' := fun d => ih d (fun x hx => hk x (List.mem_cons_of_mem _ hx))
    dsimp only at h1
    rw [stateLoop_cons, h1, List.map_cons]
    unfold uniqueKept
    cases hc : excl.contains l with
    | true => simp only [Bool.not_true, Bool.true_or, if_true]; rw [if_neg (by simp), ih']
    | false =>
      simp only [Bool.not_false, if_true, Bool.false_or]
      rw [ih', addPiece_keys]
      by_cases hm : l ∈ d.map Prod.fst
      · rw [if_pos (by simpa using hm), if_pos (by simpa using hm)]
      · rw [if_neg (by simpa using hm), if_neg (by simpa using hm)]
        rfl

/-! ### The codes of the categories -/

/-- `uncategorized` and then the given labels are the categories of "state", numbered from 0 [specification] -/
def Tabled (s : Sys) (ls : List String) : Prop := ∀ (i : Nat) (c : String), ("uncategorized" :: ls)[i]? = some c → Listed s "state" c (BitVec.ofNat 32 i)

theorem alloc_contig {used : Word} {n : Nat} {bm : Word} {lo : Nat} {ms : List Word} {r : Word × Nat × List Word} {q : Nat}
    (hq : ∀ j, j < 32 → (used ||| bm).getLsbD j = decide (j < q)) (h : allocLoop used n bm lo ms = .ok r) :
    r.2.1 = (if n = 0 then lo else min q lo) ∧ r.2.2 = ((List.range' q n).map bit).reverse ++ ms ∧ (n = 0 ∨ q + n ≤ 32) := by
  induction n generalizing bm lo ms q with
  | zero =>
    simp only [allocLoop] at h
    injection h with h
    subst h
    simp
  | succ n ih =>
    unfold allocLoop at h
    cases hl : lowestAvail (used ||| bm) with
    | error e => rw [hl] at h; cases h
    | ok i =>
      rw [hl] at h
      dsimp only at h
      obtain ⟨h1, h2, h3⟩ := lowestAvail_ok hl
      have hiq : i = q := by
        rw [hq i h1] at h2
        have : ¬ i < q := by simpa using h2
        rcases Nat.lt_or_ge q i with hlt | hge
        · have := h3 q hlt
          rw [hq q (by omega)] at this
          simp at this
        · omega
      subst hiq
      have hq2 : ∀ j, j < 32 → (used ||| (bm ||| bit i)).getLsbD j = decide (j < i + 1) := by
        intro j hj
        have := hq j hj
        rw [BitVec.getLsbD_or] at this
        rw [BitVec.getLsbD_or, BitVec.getLsbD_or, bit_lsb, ← Bool.or_assoc, this]
        simp only [hj, decide_true, Bool.true_and]
        rw [Bool.eq_iff_iff]
        simp only [Bool.or_eq_true, decide_eq_true_eq]
        omega
      obtain ⟨r1, r2, r3⟩ := ih hq2 h
      refine ⟨?_, ?_, .inr ?_⟩
      · by_cases h0 : n = 0
        · rw [r1, if_pos h0, if_neg (by omega)]
        · rw [r1, if_neg h0, if_neg (by omega)]; omega
      · rw [r2, List.range'_succ, List.map_cons, List.reverse_cons, List.append_assoc]
        rfl
      · rcases r3 with r3 | r3 <;> omega

theorem code_contig {q n i : Nat} (hn : q + n ≤ 32) (hi : i < 2 ^ n) : catCode ((List.range' q n).map bit).reverse q n i = BitVec.ofNat 32 i := by
  have := catCode_eq i (List.range' q n) q
  rw [List.length_range'] at this
  rw [this]
  apply ext_lsb
  intro j hj
  rw [BitVec.getLsbD_ushiftRight, BitVec.getLsbD_ofNat]
  have hd := deposit_lsb (i := i) (ps := List.range' q n) (List.nodup_range' ..) (by intro p hp; rw [List.mem_range'_1] at hp; omega) 0 (q + j)
  rw [Bool.eq_iff_iff, hd]
  simp only [hj, decide_true, Bool.true_and, Nat.zero_add]
  constructor
  · rintro ⟨m, hm, ht⟩
    obtain ⟨hm1, hm2⟩ := List.getElem?_eq_some_iff.1 hm
    rw [List.getElem_range'] at hm2
    have : m = j := by omega
    subst this
    exact ht
  · intro ht
    have hjn : j < n := by
      rcases Nat.lt_or_ge j n with h | h
      · exact h
      · rw [Nat.testBit_lt_two_pow (Nat.lt_of_lt_of_le hi (Nat.pow_le_pow_right (by omega) h))] at ht
        cases ht
    exact ⟨j, by rw [List.getElem?_eq_getElem (by simpa using hjn), List.getElem_range']; simp, ht⟩

theorem dedup_of_nodup (cs : List String) (h : cs.Nodup) : dedup cs = cs := by
  have key : ∀ (cs acc : List String), (acc ++ cs).Nodup → cs.foldl (fun acc c => if acc.contains c then acc else acc ++ [c]) acc = acc ++ cs := by
    intro cs
    induction cs with
    | nil => intro acc _; simp
    | cons x t ih =>
      intro acc hn
      have hx : acc.contains x = false := by
        rw [Bool.eq_false_iff]
        intro hc
        rw [List.nodup_append] at hn
        exact hn.2.2 x (List.contains_iff_mem.1 hc) x (by simp) rfl
      rw [List.foldl_cons, hx]
      simp only [Bool.false_eq_true, if_false]
      rw [ih _ (by rw [List.append_assoc]; exact hn), List.append_assoc]
      rfl
  exact key cs [] h

/-- C122. In a file whose cut bits in use are the lowest ones (as in a new file), registering the states gives every state the code of its place in the list of labels. -/
theorem register_tabled {s : Sys} (hnew : ¬ CatField s "state") (hc : ∀ i j, i < j → s.grp.flags.getLsbD j = true → s.grp.flags.getLsbD i = true)
    {dec : Bytes → String} {ef : EF} {dict : List (Bytes × Bytes)} (hn : ((labels ef dict).map dec).Nodup) (hu : "uncategorized" ∉ (labels ef dict).map dec)
    (hok : (registerStates dec ef dict s).1 = .ok ()) :
    CatField (registerStates dec ef dict s).2 "state" ∧ Tabled (registerStates dec ef dict s).2 ((labels ef dict).map dec) ∧
    (registerStates dec ef dict s).2.grp.bools = s.grp.bools ∧ (registerStates dec ef dict s).2.mask = s.mask ∧ ((labels ef dict).map dec).length < 2 ^ 32 := by
  unfold registerStates at hok ⊢
  have hcn : (s.grp.cats.map Prod.fst).contains "state" = false := by
    rw [Bool.eq_false_iff]
    intro h
    exact hnew (List.contains_iff_mem.1 h)
  generalize (labels ef dict).map dec = ls at hn hu hok ⊢
  have hcl : categoryList ls "uncategorized" = "uncategorized" :: ls := by
    unfold categoryList
    rw [dedup_of_nodup ls hn, List.erase_of_not_mem hu]
  rw [registerCat_run, hcn, hcl] at hok ⊢
  simp only [Bool.false_eq_true, if_false] at hok ⊢
  obtain ⟨n1, n2, -⟩ := numBits_spec ("uncategorized" :: ls).length
  generalize hnb : numBits ("uncategorized" :: ls).length = nb at *
  cases hr : allocLoop s.grp.flags nb 0#32 31 [] with
  | error e => rw [hr] at hok; cases hok
  | ok r =>
    dsimp only
    obtain ⟨m, hm⟩ : ∃ m, nb = m + 1 := ⟨nb - 1, by omega⟩
    have hq : ∃ q, q ≤ 31 ∧ ∀ j, j < 32 → (s.grp.flags ||| 0#32).getLsbD j = decide (j < q) := by
      have hr2 := hr
      rw [hm] at hr2
      unfold allocLoop at hr2
      cases hl : lowestAvail (s.grp.flags ||| 0#32) with
      | error e => rw [hl] at hr2; cases hr2
      | ok q =>
        obtain ⟨h1, h2, h3⟩ := lowestAvail_ok hl
        refine ⟨q, by omega, fun j hj => ?_⟩
        by_cases hjq : j < q
        · rw [h3 j hjq]; simp [hjq]
        · rw [decide_eq_false hjq]
          have e : s.grp.flags ||| 0#32 = s.grp.flags := by simp
          rw [e] at h2 ⊢
          rcases Nat.lt_or_ge q j with h | h
          · rw [Bool.eq_false_iff]
            intro ht
            rw [hc q j h ht] at h2
            cases h2
          · have : j = q := by omega
            subst this
            exact h2
    obtain ⟨q, hq31, hq⟩ := hq
    obtain ⟨r1, r2, r3⟩ := alloc_contig hq hr
    have r3 : q + nb ≤ 32 := by rcases r3 with r3 | r3 <;> omega
    rw [if_neg (by omega)] at r1
    have r1 : r.2.1 = q := by rw [r1]; omega
    rw [List.append_nil] at r2
    have hlen : ls.length + 1 ≤ 2 ^ nb := by simpa using n2
    refine ⟨by simp [CatField], ?_, rfl, rfl, ?_⟩
    · intro i c hi
      unfold Listed
      rw [List.mem_append]
      right
      rw [List.mem_map]
      have hilt : i < ("uncategorized" :: ls).length := (List.getElem?_eq_some_iff.1 hi).1
      refine ⟨(c, BitVec.ofNat 32 i), ?_, rfl⟩
      unfold newEntries
      rw [List.mem_map]
      refine ⟨(c, i), List.mk_mem_zipIdx_iff_getElem?.2 hi, ?_⟩
      rw [r1, r2, code_contig r3 (by rw [List.length_cons] at hilt; omega)]
    · have : 2 ^ nb ≤ 2 ^ 32 := Nat.pow_le_pow_right (by omega) (by omega)
      omega

/-! ### Every pulse gets the state in force at its time -/

/-- the object is as parsing leaves it [specification] -/
def Parsed (ef : EF) (excl : List Bytes) : Prop := ef.times.length = ef.allLabels.length ∧ ef.unaliased = uniqueKept excl [] ef.allLabels

theorem Parsed.good {ef : EF} {excl : List Bytes} (h : Parsed ef excl) : ef.Good excl :=
  ⟨h.1, fun l => by rw [h.2, mem_uniqueKept]; simp⟩

/-- a state file that is read gives such an object -/
theorem parse_parsed {excl : Option (List Bytes)} {f : Bytes} {ef : EF} (h : parse (newEF excl) f = .ok ef) : ∃ ex, ef.excl = some ex ∧ Parsed ef ex := by
  unfold parse at h
  dsimp only at h
  rw [if_pos (show (newEF excl).parseStart = 0 from rfl)] at h
  split at h
  · cases h
  split at h
  · cases h
  split at h
  · cases h
  cases hp : parseLines ‹List Bytes› with
  | error e => rw [hp] at h; cases h
  | ok new =>
    rw [hp] at h
    simp only [Except.map] at h
    injection h with h
    subst h
    exact ⟨_, rfl, by simp [absorb, newEF], rfl⟩

theorem aliasOf_nil : aliasOf [] = id := by
  funext l
  simp [aliasOf]

theorem labels_nil (ef : EF) : labels ef [] = ef.unaliased := by
  unfold labels
  rw [aliasOf_nil]
  simp

/-- C122. After the states have been read (`summarize_data`), with the labels of the state file as the categories of "state": selecting a state selects exactly the pulses at whose time that state was in force, and
"uncategorized" exactly the pulses before the first state or in an excluded one, whatever had been stored before. -/
theorem states_selected {s : Sys} (h : Reachable s) (hF : CatField s "state") (hnb : "state" ∉ s.grp.bools.map Prod.fst) {dec : Bytes → String} {ef : EF} {excl : List Bytes} (hp : Parsed ef excl)
    (htab : Tabled s (ef.unaliased.map dec)) (hlen : ef.unaliased.length < 2 ^ 32) {rd : Int → Int} (hrd : Mono rd) (ht : Sorted ef.times) {nano : List Int} (hs : Sorted nano) (hm : nano.length = s.mask.length) :
    (parseStates rd ef [] nano s).1 = .ok () ∧
    (∀ k ∈ ef.unaliased, selectCategory (parseStates rd ef [] nano s).2 [("state", dec k)] = .ok (nano.map fun t => decide (inForce rd ef excl id t = some k))) ∧
    selectCategory (parseStates rd ef [] nano s).2 [("state", "uncategorized")] = .ok (nano.map fun t => decide (inForce rd ef excl id t = none)) := by
  unfold parseStates
  rw [aliasOf_nil]
  obtain ⟨d, hd, hat⟩ := batch_assigns_partial hrd hp.good («alias» := id) ht hs
  have hkeys : d.map Prod.fst = ef.unaliased := by
    rw [batch_eq] at hd
    injection hd with hd
    rw [← hd, stateLoop_order excl, List.map_fst_zip (by rw [List.length_map, hp.1]; exact Nat.le_refl _)]
    · exact hp.2.symm
    · intro x hx
      have : x.1 ∈ ef.allLabels := (List.of_mem_zip (by exact hx : (x.1, x.2) ∈ _)).1
      rw [Bool.eq_iff_iff]
      simp [hp.good.2, this]
  have hnd : (d.map Prod.fst).Nodup := by rw [hkeys, hp.2]; exact Export.uniqueKept_nodup _ _ _ (by simp)
  rw [hd]
  dsimp only
  generalize hc : codeLoop 0 d (List.replicate nano.length 0#32) = ls
  have hll : ls.length = nano.length := by rw [← hc, codeLoop_length, List.length_replicate]
  -- the code of each pulse
  have hcode : ∀ i (hi : i < nano.length), match inForce rd ef excl id nano[i] with
      | none => ls[i]? = some 0#32
      | some k => ∃ j : Nat, ef.unaliased[j]? = some k ∧ ls[i]? = some (BitVec.ofNat 32 (j + 1)) := by
    intro i hi
    have ha := hat i hi
    obtain ⟨c1, c2⟩ := codeLoop_get d hnd 0 (List.replicate nano.length 0#32) i (by simpa using hi)
    rw [hc] at c1 c2
    have hz : (List.replicate nano.length 0#32)[i]? = some 0#32 := by rw [List.getElem?_replicate, if_pos hi]
    unfold inForce
    cases hl : ((ef.allLabels.zip ef.times).filter (fun e => decide (rd e.2 ≤ rd nano[i]))).getLast? with
    | none =>
      rw [hl] at ha
      rw [c1 ha, hz]
    | some e =>
      rw [hl] at ha
      dsimp only at ha ⊢
      by_cases hx : e.1 ∈ excl
      · rw [if_pos hx] at ha ⊢
        dsimp only
        rw [c1 ha, hz]
      · rw [if_neg hx] at ha ⊢
        obtain ⟨j, hj, hcj⟩ := c2 _ ha
        rw [hkeys] at hj
        exact ⟨j, hj, by rw [hcj]; congr 2; omega⟩
  have hlisted : ∀ k ∈ ls, ∃ c, ("state", c, k) ∈ s.grp.catList := by
    intro w hw
    obtain ⟨i, hi, rfl⟩ := List.getElem_of_mem hw
    have hcd := hcode i (by omega)
    rw [List.getElem?_eq_getElem hi] at hcd
    split at hcd
    · injection hcd with hcd
      exact ⟨"uncategorized", by rw [hcd]; exact htab 0 _ rfl⟩
    · obtain ⟨j, hj, e⟩ := hcd
      injection e with e
      refine ⟨dec ‹Bytes›, ?_⟩
      rw [e]
      exact htab (j + 1) _ (by rw [List.getElem?_cons_succ, List.getElem?_map, hj]; rfl)
  obtain ⟨g1, -, g3⟩ := cut_codes_run h.inv hF hnb (hll.trans hm) hlisted
  have hju : ∀ {j : Nat} {k : Bytes}, ef.unaliased[j]? = some k → j + 1 < 2 ^ 32 := by
    intro j k hj
    have := (List.getElem?_eq_some_iff.1 hj).1
    omega
  have hnu : ef.unaliased.Nodup := hkeys ▸ hnd
  refine ⟨g1, ?_, ?_⟩
  · intro k hk
    obtain ⟨j0, hj0, hk0⟩ := List.getElem_of_mem hk
    have hj0' : ef.unaliased[j0]? = some k := by rw [List.getElem?_eq_getElem hj0, hk0]
    rw [g3 (dec k) (BitVec.ofNat 32 (j0 + 1)) (htab (j0 + 1) _ (by rw [List.getElem?_cons_succ, List.getElem?_map, hj0']; rfl))]
    congr 1
    refine List.ext_getElem (by simp [hll]) fun i hi1 hi2 => ?_
    rw [List.length_map] at hi1 hi2
    rw [List.getElem_map, List.getElem_map]
    have hcd := hcode i hi2
    rw [List.getElem?_eq_getElem hi1] at hcd
    rw [Bool.eq_iff_iff, beq_iff_eq, decide_eq_true_iff]
    split at hcd
    · rename_i hn
      injection hcd with hcd
      rw [hcd, hn]
      constructor
      · intro e
        have := congrArg BitVec.toNat e
        rw [BitVec.toNat_ofNat, BitVec.toNat_ofNat, Nat.mod_eq_of_lt (hju hj0')] at this
        omega
      · intro e; cases e
    · rename_i k' hn
      obtain ⟨j, hj, e⟩ := hcd
      injection e with e
      rw [e, hn]
      constructor
      · intro e2
        have := congrArg BitVec.toNat e2
        rw [BitVec.toNat_ofNat, BitVec.toNat_ofNat, Nat.mod_eq_of_lt (hju hj0'), Nat.mod_eq_of_lt (hju hj)] at this
        have : j = j0 := by omega
        subst this
        rw [← hj, hj0']
      · intro e2
        injection e2 with e2
        subst e2
        obtain ⟨a1, a2⟩ := List.getElem?_eq_some_iff.1 hj
        obtain ⟨b1, b2⟩ := List.getElem?_eq_some_iff.1 hj0'
        have := (List.Nodup.getElem_inj_iff hnu (hi := a1) (hj := b1)).1 (a2.trans b2.symm)
        rw [this]
  · rw [g3 "uncategorized" 0#32 (htab 0 _ rfl)]
    congr 1
    refine List.ext_getElem (by simp [hll]) fun i hi1 hi2 => ?_
    rw [List.length_map] at hi1 hi2
    rw [List.getElem_map, List.getElem_map]
    have hcd := hcode i hi2
    rw [List.getElem?_eq_getElem hi1] at hcd
    rw [Bool.eq_iff_iff, beq_iff_eq, decide_eq_true_iff]
    split at hcd
    · rename_i hn
      injection hcd with hcd
      exact ⟨fun _ => hn, fun _ => hcd⟩
    · rename_i k' hn
      obtain ⟨j, hj, e⟩ := hcd
      injection e with e
      rw [e, hn]
      constructor
      · intro e2
        have := congrArg BitVec.toNat e2
        rw [BitVec.toNat_ofNat, BitVec.toNat_ofNat, Nat.mod_eq_of_lt (hju hj)] at this
        omega
      · intro e2; cases e2

theorem registerBool_congr {s t : Sys} (h : s.grp = t.grp) (names : List String) :
    (registerBool names s).2.grp = (registerBool names t).2.grp ∧ (registerBool names s).2.mask = s.mask := by
  rw [registerBool_run, registerBool_run, h]
  cases regLoop (newNames t.grp names) t.grp.bools t.grp.flags <;> exact ⟨by first | exact h | rfl, rfl⟩

theorem registerCat_congr {s t : Sys} (h : s.grp = t.grp) (name : String) (cs : List String) (d : String) :
    (registerCat name cs d s).2.grp = (registerCat name cs d t).2.grp ∧ (registerCat name cs d s).2.mask = s.mask := by
  rw [registerCat_run, registerCat_run, h]
  cases (t.grp.cats.map Prod.fst).contains name
  · simp only [Bool.false_eq_true, if_false]
    cases allocLoop t.grp.flags (numBits (categoryList cs d).length) 0#32 31 [] <;> exact ⟨by first | exact h | rfl, rfl⟩
  · exact ⟨h, rfl⟩

/-- the fields of a new file do not depend on the number of pulses, and no pulse is cut -/
theorem initial_eq (n : Nat) : (initial n).grp = (initial 0).grp ∧ (initial n).mask = List.replicate n 0#32 := by
  have b := registerBool_congr (s := empty n) (t := empty 0) rfl builtinBool
  have c := registerCat_congr b.1 "calibration" ["in", "out"] "in"
  exact ⟨c.1, c.2.trans b.2⟩

/-- C122. From the file to the selection, in a new HDF5 file with `n` pulses: if the state file can be read, no state is called "uncategorized", the labels are different strings and there are at most 32767 of them, then after opening the
group and summarising the pulses, selecting a state selects exactly the pulses in that state. -/
theorem states_new_file_partial {excl : Option (List Bytes)} {f : Bytes} {ef : EF} (hf : parse (newEF excl) f = .ok ef) {dec : Bytes → String} (hn : (ef.unaliased.map dec).Nodup) (hu : "uncategorized" ∉ ef.unaliased.map dec)
    (hl : ef.unaliased.length < 2 ^ 15) {rd : Int → Int} (hrd : Mono rd) (ht : Sorted ef.times) {nano : List Int} (hs : Sorted nano) :
    ∃ ex, ef.excl = some ex ∧ (registerStates dec ef [] (initial nano.length)).1 = .ok () ∧
    let s := (parseStates rd ef [] nano (registerStates dec ef [] (initial nano.length)).2)
    s.1 = .ok () ∧ (∀ k ∈ ef.unaliased, selectCategory s.2 [("state", dec k)] = .ok (nano.map fun t => decide (inForce rd ef ex id t = some k))) ∧
    selectCategory s.2 [("state", "uncategorized")] = .ok (nano.map fun t => decide (inForce rd ef ex id t = none)) := by
  obtain ⟨ex, he, hp⟩ := parse_parsed hf
  have hg : ∀ n, (initial n).grp = (initial 0).grp := fun n => (initial_eq n).1
  have hr0 : Reachable (initial nano.length) := .init _
  have hnew : ¬ CatField (initial nano.length) "state" := by
    unfold CatField
    rw [hg]
    decide +kernel
  have hb : "state" ∉ (initial nano.length).grp.bools.map Prod.fst := by
    rw [hg]
    decide +kernel
  have hc : ∀ i j, i < j → (initial nano.length).grp.flags.getLsbD j = true → (initial nano.length).grp.flags.getLsbD i = true := by
    rw [hg]
    intro i j hij hj
    have key : ∀ j < 32, ∀ i < j, (initial 0).grp.flags.getLsbD j = true → (initial 0).grp.flags.getLsbD i = true := by decide +kernel
    exact key j (lsb_lt hj) i hij hj
  have hmask : (initial nano.length).mask.length = nano.length := by
    rw [(initial_eq _).2, List.length_replicate]
  have hok : (registerStates dec ef [] (initial nano.length)).1 = .ok () := by
    unfold registerStates
    rw [register_categorical_succeeds_iff hr0 "state" _ _ hnew, labels_nil]
    refine ⟨15, by omega, ?_, ?_⟩
    · unfold categoryList
      rw [dedup_of_nodup _ hn, List.erase_of_not_mem hu, List.length_cons, List.length_map]
      omega
    · rw [hg]
      decide +kernel
  obtain ⟨t1, t2, t3, t4, -⟩ := register_tabled hnew hc (dec := dec) (ef := ef) (dict := []) (by rw [labels_nil]; exact hn) (by rw [labels_nil]; exact hu) hok
  rw [labels_nil] at t2
  refine ⟨ex, he, hok, ?_⟩
  have hreach : Reachable (registerStates dec ef [] (initial nano.length)).2 := by
    exact .step (.regCat "state" ((labels ef []).map dec) "uncategorized") hr0
  exact states_selected hreach t1 (by rw [t3]; exact hb) hp t2 (by omega) hrd ht hs (by rw [t4, hmask])

/-- C122. Opening the file again leaves the categories alone, and reading the states again (the state file may have grown, by states that were known) again selects exactly the pulses in each state. -/
theorem states_again {s : Sys} (h : Reachable s) (hF : CatField s "state") (hnb : "state" ∉ s.grp.bools.map Prod.fst) {dec : Bytes → String} {ef ef' : EF} {excl excl' : List Bytes} (hp : Parsed ef excl) (hp' : Parsed ef' excl')
    (hsame : ef'.unaliased = ef.unaliased) (htab : Tabled s (ef.unaliased.map dec)) (hlen : ef.unaliased.length < 2 ^ 32) {rd : Int → Int} (hrd : Mono rd) (ht' : Sorted ef'.times)
    {nano : List Int} (hs : Sorted nano) (hm : nano.length = s.mask.length) :
    let s1 := (parseStates rd ef [] nano s).2
    registerStates dec ef' [] s1 = (.ok (), s1) ∧ (parseStates rd ef' [] nano s1).1 = .ok () ∧
    (∀ k ∈ ef'.unaliased, selectCategory (parseStates rd ef' [] nano s1).2 [("state", dec k)] = .ok (nano.map fun t => decide (inForce rd ef' excl' id t = some k))) ∧
    selectCategory (parseStates rd ef' [] nano s1).2 [("state", "uncategorized")] = .ok (nano.map fun t => decide (inForce rd ef' excl' id t = none)) := by
  intro s1
  have key : Reachable s1 ∧ s1.grp = s.grp ∧ s1.mask.length = s.mask.length := by
    obtain ⟨d, hd⟩ : ∃ d, batch rd ef (aliasOf []) nano = .ok d := ⟨_, batch_eq ..⟩
    have e : s1 = (Op.cut "state" (.codes (codeLoop 0 d (List.replicate nano.length 0#32)))).step s := by
      show (parseStates rd ef [] nano s).2 = _
      unfold parseStates
      rw [hd]
      rfl
    rw [e]
    exact ⟨.step _ h, (cut_only s "state" _).1, (cut_only s "state" _).2.length⟩
  obtain ⟨k1, k2, k3⟩ := key
  have hF1 : CatField s1 "state" := by unfold CatField; rw [k2]; exact hF
  refine ⟨?_, states_selected k1 hF1 (by rw [k2]; exact hnb) hp' (by rw [hsame]; intro i c hi; unfold Listed; rw [k2]; exact htab i c hi) (by rw [hsame]; exact hlen) hrd ht' hs (by rw [k3]; exact hm)⟩
  unfold registerStates
  rw [registerCat_run, if_pos (List.contains_iff_mem.2 hF1)]

/-! ### Instances and disagreements -/

/-- the ASCII characters as a string [specification] -/
def decA (b : Bytes) : String := String.ofList (b.map fun x => Char.ofNat x.toNat)

/-- open a group with one state file, then summarise the pulses with another (or the same), and select a state [specification] -/
def run (ef1 ef2 : EF) (dict : List (Bytes × Bytes)) (nano : List Int) (s : Sys) (k : String) : Except Err (List Bool) :=
  selectCategory (parseStates id ef2 dict nano (registerStates decA ef1 [] s).2).2 [("state", k)]

/-- states A, B and A again, START excluded [specification] -/
def efAB : EF := mkEF [asc "START"] [(asc "START", 0), (asc "A", 10), (asc "B", 20), (asc "A", 30)]

/-- C122, instance -/
example : run efAB efAB [] [5, 10, 20, 35] (initial 4) "A" = .ok [false, true, false, true] ∧ run efAB efAB [] [5, 10, 20, 35] (initial 4) "B" = .ok [false, false, true, false] ∧
    run efAB efAB [] [5, 10, 20, 35] (initial 4) "uncategorized" = .ok [true, false, false, false] := by decide +kernel

/-- the state file when first opened: only A [specification] -/
def efA : EF := mkEF [] [(asc "A", 0)]
/-- and when opened again: A, B and C [specification] -/
def efABC : EF := mkEF [] [(asc "A", 0), (asc "B", 10), (asc "C", 20)]

/-- C122. Disagreement (C122): the categories are registered once per HDF5 file. If the state file has grown when the data are opened again, new states are given numbers that do not exist or belong to others: the pulse in state C is selected as state A,
the one in B as uncategorized, and B and C cannot be selected. -/
theorem grown_fails : run efA efABC [] [5, 15, 25] (initial 3) "A" = .ok [true, false, true] ∧ run efA efABC [] [5, 15, 25] (initial 3) "uncategorized" = .ok [false, true, false] ∧
    run efA efABC [] [5, 15, 25] (initial 3) "C" = .error .value := by decide +kernel

/-- C122. Disagreement (C122): the automatic exclusions make it worse: if at first there was only START (which is then not excluded), pulses in state A are later selected as START. -/
theorem auto_exclude_fails : run (absorb (newEF none) [(0, asc "START")] 1) (absorb (newEF none) [(0, asc "START"), (10, asc "A")] 1) [] [5, 15] (initial 2) "START" = .ok [false, true] := by decide +kernel

/-- C122. Disagreement (C122): aliases (which can only be given after the group was opened) shift the numbers: with A and B merged to W, the pulse in C is selected as B, and W cannot be selected. -/
theorem alias_fails : run efABC efABC [(asc "A", asc "W"), (asc "B", asc "W")] [5, 15, 25] (initial 3) "B" = .ok [false, false, true] ∧
    run efABC efABC [(asc "A", asc "W"), (asc "B", asc "W")] [5, 15, 25] (initial 3) "W" = .error .value := by decide +kernel

/-- C122. Disagreement (C122): a state that is called "uncategorized" is moved to the front of the categories, and the states after it are confused: the pulse in the state "uncategorized" is selected as B. -/
theorem uncategorized_fails : let ef := mkEF [] [(asc "A", 0), (asc "uncategorized", 10), (asc "B", 20)]
    run ef ef [] [5, 15, 25] (initial 3) "B" = .ok [false, true, false] ∧ run ef ef [] [5, 15, 25] (initial 3) "uncategorized" = .ok [false, false, false] := by decide +kernel

/-- C122. Disagreement (C122): if cut fields were removed before the states were registered, their bits are not next to each other, and the plain numbers written by the summary are not the codes of the categories: B is selected as uncategorized and C as A. -/
theorem gap_fails : let s := Op.step (Op.step (initial 3) (.regBool ["x", "y"])) (.unregBool ["x"])
    run efABC efABC [] [5, 15, 25] s "A" = .ok [true, false, true] ∧ run efABC efABC [] [5, 15, 25] s "uncategorized" = .ok [false, true, false] := by decide +kernel

end Mass.States.Cat
