import Verif.Py
/-! Model of the channel groups: mass/off/channels.py ChannelGroup and mass/off/util.py add_group_loop; mass/core/channel_group.py
TESGroup and mass/core/channel.py _add_group_loop. -/
namespace Mass.Group

/-- what a channel's method can raise: KeyboardInterrupt, another exception with its text, or a KeyError from the HDF5 file (used for mass/off/util.py L243-259) -/
inductive Err
  | interrupt
  | exc (msg : String)
  | key
  | type
  deriving DecidableEq, Repr

/-- a channel of an off-style group: number, whatever the method reads and writes, and the reason it was marked bad
(mass/off/channels.py L684-697). -/
structure Chan (S : Type) where
  num : Nat
  st : S
  bad : Option String
  deriving DecidableEq

/-- mass/off/util.py L243-259 `wrapper`, on the channels in order. `inc` is `self._includeBad`. Simplified: the list of channels is fixed before the
loop (L248, channels.py L1280); as a method changes only its own channel, the goodness of a later channel is the same
when it is reached. -/
def offLoop {S R : Type} (inc rethrow : Bool) (mname : String) (m : Nat → S → S × Except Err R) :
    List (Chan S) → List (Chan S) × Except Err (List (Nat × R))
  | [] => ([], .ok [])
  | c :: t =>
    if inc = false ∧ c.bad.isSome then
      let r := offLoop inc rethrow mname m t
      (c :: r.1, r.2)
    else
      match m c.num c.st with
      | (s, .ok z) =>
        let r := offLoop inc rethrow mname m t
        (⟨c.num, s, c.bad⟩ :: r.1, r.2.map (fun l => (c.num, z) :: l))
      | (s, .error (.exc e)) =>
        if rethrow then (⟨c.num, s, some (e ++ " during " ++ mname)⟩ :: t, .error (.exc e))
        else
          let r := offLoop inc rethrow mname m t
          (⟨c.num, s, some (e ++ " during " ++ mname)⟩ :: r.1, r.2)
      | (s, .error e) => (⟨c.num, s, c.bad⟩ :: t, .error e)

/-- mass/core/channel_group.py L231, L270-272: the bad channels with their comments, and for each channel group of the HDF5 file the stored
comments (attribute `why_bad`), if any -/
structure Books where
  bad : List (Nat × List String)
  h5 : List (Nat × Option (List String))
  deriving DecidableEq

/-- dictionary lookup (used for channel_group.py L448-453) -/
def find {α : Type} (d : List (Nat × α)) (k : Nat) : Option α := (d.find? (fun e => e.1 == k)).map Prod.snd
/-- dictionary assignment (used for channel_group.py L448-453) -/
def assign {α : Type} (d : List (Nat × α)) (k : Nat) (v : α) : List (Nat × α) :=
  if (find d k).isSome then d.map (fun e => if e.1 = k then (k, v) else e) else d ++ [(k, v)]
/-- dictionary `pop` (used for channel_group.py L424-429) -/
def erase {α : Type} (d : List (Nat × α)) (k : Nat) : List (Nat × α) := d.filter (fun e => e.1 != k)

/-- channel_group.py L448-453: one turn of the loop in `set_chan_bad` -/
def badOne (b : Books) (ch : Nat) (comment : String) : Books × Except Err Unit :=
  let new := (find b.bad ch).getD [] ++ [comment]
  let b1 : Books := ⟨assign b.bad ch new, b.h5⟩
  if (find b.h5 ch).isSome then (⟨b1.bad, assign b1.h5 ch (some new)⟩, .ok ()) else (b1, .error .key)

/-- channel_group.py L424-429: one turn of the loop in `set_chan_good` -/
def goodOne (b : Books) (ch : Nat) : Books × Except Err Unit :=
  if (find b.bad ch).isSome then
    let b1 : Books := ⟨erase b.bad ch, b.h5⟩
    match find b.h5 ch with
    | some (some _) => (⟨b1.bad, assign b1.h5 ch none⟩, .ok ())
    | _ => (b1, .error .key)
  else (b, .ok ())

/-- a loop that stops at the first exception (used for channel_group.py L431-453) -/
def each (f : Books → Nat → Books × Except Err Unit) : List Nat → Books → Books × Except Err Unit
  | [], b => (b, .ok ())
  | c :: t, b => match f b c with
    | (b', .ok _) => each f t b'
    | (b', .error e) => (b', .error e)

/-- channel_group.py L431-453 `set_chan_bad(*args)`: the channels in the iteration order of the python set, and the last string given -/
def setChanBad (chs : List Nat) (comment : String) (b : Books) : Books × Except Err Unit := each (fun b c => badOne b c comment) chs b
/-- channel_group.py L412-429 `set_chan_good(*args)` -/
def setChanGood (chs : List Nat) (b : Books) : Books × Except Err Unit := each goodOne chs b
/-- channel_group.py L455-461 `set_all_chan_good` -/
def setAllGood (b : Books) : Books × Except Err Unit := setChanGood (b.bad.map Prod.fst) b

/-- channel_group.py L389-400, L476-480 `iter_channels` / `good_channels` -/
def goodChannels (ds : List Nat) (b : Books) : List Nat := ds.filter (fun c => (find b.bad c).isNone)
/-- channel_group.py L482-484 -/
def numGood (ds : List Nat) (b : Books) : Nat := (goodChannels ds b).length
/-- channel_group.py L463-464 `n_good_channels`; `n` is the number of files given (L209) -/
def nGood (n : Nat) (b : Books) : Int := (n : Int) - (b.bad.length : Int)

/-- mass/core/channel.py L530-546 `wrapper`: the data sets (number, whatever the method reads and writes). The message of `set_chan_bad` is
given by `msg`; the traceback text is not modelled. -/
def coreLoop {S : Type} (rethrow : Bool) (msg : String → String) (m : Nat → S → S × Except Err Unit) :
    List (Nat × S) → Books → List (Nat × S) × Books × Except Err Unit
  | [], b => ([], b, .ok ())
  | (ch, s) :: t, b =>
    if (find b.bad ch).isSome then
      let r := coreLoop rethrow msg m t b
      ((ch, s) :: r.1, r.2)
    else
      match m ch s with
      | (s', .ok _) =>
        let r := coreLoop rethrow msg m t b
        ((ch, s') :: r.1, r.2)
      | (s', .error (.exc e)) =>
        if rethrow then ((ch, s') :: t, b, .error (.exc e))
        else match badOne b ch (msg e) with
          | (b', .ok _) =>
            let r := coreLoop rethrow msg m t b'
            ((ch, s') :: r.1, r.2)
          | (b', .error k) => ((ch, s') :: t, b', .error k)
      | (s', .error e) => ((ch, s') :: t, b, .error e)

/-! #### `with data.includeBad()` (mass/off/channels.py L1239-1304) -/

/-- the two flags and the channels' marks (used for channels.py L1268-1272) -/
structure IB where
  inc : Bool
  desired : Bool
  chans : List (Nat × Option String)
  deriving DecidableEq

/-- what a program does with the group (reading a channel list, entering and leaving `includeBad`, marking: channels.py L1239-1310) -/
inductive Cmd
  | enter (x : Bool)
  | exit
  | iter
  | why
  | markAllGood
  | markBad (ch : Nat) (reason : String)
  deriving DecidableEq

/-- channels.py L1268-1272 `__iter__` (also `keys`, `len`) -/
def iterate (s : IB) : List Nat := (s.chans.filter (fun c => s.inc || c.2.isNone)).map Prod.fst
/-- channels.py L1286-1296 `includeBad(x)` followed by `__enter__` -/
def enter (s : IB) (x : Bool) : IB := ⟨x, x, s.chans⟩
/-- channels.py L1298-1300 `__exit__` -/
def exit (s : IB) : IB := ⟨false, false, s.chans⟩

/-- the visible result of a command (results of the calls modelled by `stepIB`) -/
inductive Out
  | chans (l : List Nat)
  | reasons (l : List (Nat × String))
  | nothing
  deriving DecidableEq

/-- one command (dispatches to the definitions above, which cite the code) -/
def stepIB (s : IB) : Cmd → IB × Out
  | .enter x => (enter s x, .nothing)
  | .exit => (exit s, .nothing)
  | .iter => (s, .chans (iterate s))
  | .why =>
    let s1 := enter s true
    let vis := s1.chans.filter (fun c => s1.inc || c.2.isNone)
    (exit s1, .reasons (vis.filterMap (fun c => c.2.map (fun r => (c.1, r)))))
  | .markAllGood =>
    let s1 := enter s true
    (exit ⟨s1.inc, s1.desired, s1.chans.map (fun c => if s1.inc || c.2.isNone then (c.1, none) else c)⟩, .nothing)
  | .markBad ch r => (⟨s.inc, s.desired, s.chans.map (fun c => if c.1 = ch then (c.1, some r) else c)⟩, .nothing)

/-- a run (a sequence of `stepIB`) -/
def runIB : IB → List Cmd → List Out
  | _, [] => []
  | s, c :: t => (stepIB s c).2 :: runIB (stepIB s c).1 t

end Mass.Group
