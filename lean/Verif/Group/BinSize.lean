import Verif.Py
import Mathlib.Data.List.Induction
/-! C194: the default bin size of fits (mass/off/channels.py `setDefaultBinsize` of channels and groups, `_handleDefaultBinsize`), for every history of calls. -/
namespace Mass.Group.BinSize
open Mass
variable {K : Type}

/-! ### model -/

/-- a group: the flag of `includeBad`, its own default, and its channels (number, marked bad, own default), channels.py L179-185, L1268-1300, L1401-1407 -/
structure Grp (K : Type) where
  inc : Bool
  dflt : K
  chans : List (Nat × Bool × K)

/-- a group of new channels, channels.py L181: the default of the class -/
def fresh (one : K) (ns : List Nat) : Grp K := ⟨false, one, ns.map (fun n => (n, false, one))⟩

/-- what a program does: set the default of the group or of a channel, mark a channel, enter and leave `includeBad`, channels.py L183-185, L1286-1300, L1401-1407 -/
inductive Op (K : Type)
  | setGroup (b : K)
  | setChan (n : Nat) (b : K)
  | mark (n : Nat) (bad : Bool)
  | enter
  | leave

/-- ChannelGroup.setDefaultBinsize, channels.py L1401-1407: for the channels that the iteration gives while bad ones are included; leaving that block clears the flag (L1298-1300) -/
def setGroup (g : Grp K) (b : K) : Grp K :=
  let inc := true
  ⟨false, b, g.chans.map (fun c => if inc || !c.2.1 then (c.1, c.2.1, b) else c)⟩

/-- one step, channels.py L183-185 (`setDefaultBinsize` of a channel), L1296-1300 -/
def step (g : Grp K) : Op K → Grp K
  | .setGroup b => setGroup g b
  | .setChan n b => { g with chans := g.chans.map (fun c => if c.1 = n then (c.1, c.2.1, b) else c) }
  | .mark n bad => { g with chans := g.chans.map (fun c => if c.1 = n then (c.1, bad, c.2.2) else c) }
  | .enter => { g with inc := true }
  | .leave => { g with inc := false }

/-- a history of calls (a sequence of `step`) -/
def run (g : Grp K) (ops : List (Op K)) : Grp K := ops.foldl step g

/-- _handleDefaultBinsize, channels.py L187-191 -/
def handle (dflt : K) : Option K → K
  | none => dflt
  | some b => b

/-- the bin size of a fit of a channel, channels.py L145; `none` for a channel that is not in the group -/
def used (g : Grp K) (n : Nat) (arg : Option K) : Option K := (g.chans.find? (fun c => decide (c.1 = n))).map (fun c => handle c.2.2 arg)

/-- the bin size of a fit of the whole group, channels.py L145 -/
def usedAll (g : Grp K) (arg : Option K) : K := handle g.dflt arg

/-! ### specification -/

/-- the bin size that a call sets for channel n, if it does [specification] -/
def sets (n : Nat) : Op K → Option K
  | .setGroup b => some b
  | .setChan m b => if m = n then some b else none
  | _ => none

/-- the bin size that a call sets for the group, if it does [specification] -/
def setsAll : Op K → Option K
  | .setGroup b => some b
  | _ => none

/-- the last size set, or the first one if there is none [specification] -/
def lastSet (one : K) (f : Op K → Option K) (ops : List (Op K)) : K := ((ops.filterMap f).getLast?).getD one

/-! ### lemmas -/

theorem lastSet_snoc (one : K) (f : Op K → Option K) (ops : List (Op K)) (o : Op K) : lastSet one f (ops ++ [o]) = (f o).getD (lastSet one f ops) := by
  unfold lastSet
  rw [List.filterMap_append]
  cases h : f o <;> simp [h, List.filterMap_cons]

theorem state (one : K) (ns : List Nat) (ops : List (Op K)) :
    (run (fresh one ns) ops).dflt = lastSet one setsAll ops ∧ ((run (fresh one ns) ops).chans.map (fun c => (c.1, c.2.2))) = ns.map (fun n => (n, lastSet one (sets n) ops)) := by
  induction ops using List.reverseRecOn with
  | nil => simp [run, fresh, lastSet]
  | append_singleton ops o ih =>
    obtain ⟨h1, h2⟩ := ih
    have hr : run (fresh one ns) (ops ++ [o]) = step (run (fresh one ns) ops) o := by simp [run, List.foldl_append]
    rw [hr, lastSet_snoc]
    have h3 : (ns.map (fun n => (n, lastSet one (sets n) (ops ++ [o])))) = (ns.map (fun n => (n, lastSet one (sets n) ops))).map (fun p => (p.1, (sets p.1 o).getD p.2)) := by
      rw [List.map_map]
      apply List.map_congr_left
      intro n _
      simp [lastSet_snoc]
    rw [h3, ← h2, List.map_map]
    cases o with
    | setGroup b => exact ⟨rfl, by simp [step, setGroup, List.map_map, sets, Function.comp_def]⟩
    | setChan n b =>
      refine ⟨h1, ?_⟩
      simp only [step, List.map_map]
      apply List.map_congr_left
      intro c _
      by_cases h : c.1 = n
      · simp [sets, h]
      · have h' : ¬ n = c.1 := fun e => h e.symm
        simp [sets, h, h']
    | mark n bad =>
      refine ⟨h1, ?_⟩
      simp only [step, List.map_map]
      apply List.map_congr_left
      intro c _
      by_cases h : c.1 = n <;> simp [sets, h]
    | enter => exact ⟨h1, by simp [step, sets, Function.comp_def]⟩
    | leave => exact ⟨h1, by simp [step, sets, Function.comp_def]⟩

/-! ### theorems -/

/-- C194: after any history of calls, a fit of a channel uses the bin size it is given; without one, the size set last for this channel or for the whole group, whichever came later (1 if there was
none). Channels marked bad at any time, and whether bad channels are included at the moment, make no difference. -/
theorem channel_size (one : K) (ns : List Nat) (ops : List (Op K)) (n : Nat) (hn : n ∈ ns) (arg : Option K) :
    used (run (fresh one ns) ops) n arg = some (arg.getD (lastSet one (sets n) ops)) := by
  have h := (state one ns ops).2
  have key : ∀ (l : List (Nat × Bool × K)) (ns : List Nat), l.map (fun c => (c.1, c.2.2)) = ns.map (fun n => (n, lastSet one (sets n) ops)) → n ∈ ns →
      (l.find? (fun c => decide (c.1 = n))).map (fun c => handle c.2.2 arg) = some (arg.getD (lastSet one (sets n) ops)) := by
    intro l
    induction l with
    | nil => intro ns h hn; cases ns with | nil => cases hn | cons => cases h
    | cons c l ih =>
      intro ns h hn
      cases ns with
      | nil => cases hn
      | cons m ns =>
        simp only [List.map_cons, List.cons.injEq, Prod.mk.injEq] at h
        obtain ⟨⟨e1, e2⟩, e3⟩ := h
        by_cases hm : m = n
        · subst hm
          rw [List.find?_cons_of_pos (by simp [e1])]
          simp only [Option.map_some, e2]
          cases arg <;> rfl
        · rw [List.find?_cons_of_neg (by simp [e1, hm])]
          exact ih ns e3 (by rcases List.mem_cons.mp hn with h | h; exact absurd h.symm hm; exact h)
  exact key _ ns h hn

/-- C194: a fit of the whole group uses the size it is given, otherwise the one set last for the group; sizes set for single channels do not matter. -/
theorem group_size (one : K) (ns : List Nat) (ops : List (Op K)) (arg : Option K) : usedAll (run (fresh one ns) ops) arg = arg.getD (lastSet one setsAll ops) := by
  unfold usedAll
  rw [(state one ns ops).1]
  cases arg <;> rfl

/-- C194: right after the size of the group was set, all its channels, good or bad, and the group use it. (That nothing else changes is false: block_fails.) -/
theorem set_for_all_partial (one : K) (ns : List Nat) (ops : List (Op K)) (b : K) : usedAll (run (fresh one ns) (ops ++ [.setGroup b])) none = b ∧ ∀ n ∈ ns, used (run (fresh one ns) (ops ++ [.setGroup b])) n none = some b := by
  refine ⟨by rw [group_size, lastSet_snoc]; rfl, fun n hn => ?_⟩
  rw [channel_size one ns _ n hn, lastSet_snoc]
  rfl

/-- Disagreement (C194): setting the size of the group within `with data.includeBad():` ends the inclusion of bad channels, before the block is left. -/
theorem block_fails (one : K) (ns : List Nat) (ops : List (Op K)) (b : K) : (run (fresh one ns) (ops ++ [.enter])).inc = true ∧ (run (fresh one ns) (ops ++ [.enter, .setGroup b])).inc = false := by
  constructor
  · simp [run, List.foldl_append, step]
  · simp [run, List.foldl_append, step, setGroup]

/-! ### examples -/

example : let g := run (fresh 1 [1, 3]) [.mark 3 true, .setGroup 5, .setChan 1 2, .mark 3 false]; (used g 1 none, used g 3 none, used g 3 (some 7), usedAll g none, used g 2 none) = ((some 2, some 5, some 7, 5, none) : Option Nat × _) := by
  decide +kernel

end Mass.Group.BinSize
