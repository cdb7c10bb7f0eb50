import Verif.Ljh.Model
/-! Model of mass/off/experiment_state.py (ExperimentStateFile) and of its use in mass/off/channels.py. Text is
modelled as bytes. Time stamps are integers; the code stores the state times as float64 (experiment_state.py L28, L64),
so both sides of every comparison go through a rounding function `rd` (see `toDouble`). -/
namespace Mass.States
open Mass.Ljh (Bytes asc splitLines strip pyIntB)

/-- half-open range of record numbers, `slice(start, stop)` (used for experiment_state.py L142-165) -/
structure Slice where
  start : Nat
  stop : Nat
  deriving DecidableEq

/-- a value of the state dictionary: a slice, or a list of slices for a repeated state (used for experiment_state.py L142-165) -/
inductive Val
  | one (s : Slice)
  | many (l : List Slice)
  deriving DecidableEq

/-- `collections.OrderedDict` from state name to value -/
abbrev SD := List (Bytes × Val)

/-- `statesDict.get(k)` (used for experiment_state.py L142-165) -/
def get (d : SD) (k : Bytes) : Option Val := (d.find? (fun e => e.1 == k)).map Prod.snd
/-- `statesDict[k] = v` for a key that is present (used for experiment_state.py L142-165) -/
def setv (d : SD) (k : Bytes) (v : Val) : SD := d.map (fun e => if e.1 = k then (k, v) else e)

/-- The state file object: attributes of `ExperimentStateFile` (experiment_state.py L8-31). `excl = none` is "auto". -/
structure EF where
  excl : Option (List Bytes)
  parseStart : Nat
  allLabels : List Bytes
  times : List Int
  unaliased : List Bytes
  deriving DecidableEq

/-- experiment_state.py L8-31: a new object, before parsing -/
def newEF (excl : Option (List Bytes)) : EF := ⟨excl, 0, [], [], []⟩

/-- experiment_state.py L75 `normally_ignore` -/
def normallyIgnore : List Bytes := [asc "START", asc "STOP", asc "END", asc "IGNORE"]

/-- experiment_state.py L67-79 `calculateAutoExcludes` -/
def autoExcludes (all : List Bytes) : List Bytes :=
  if all.all (normallyIgnore.contains ·) then [asc "IGNORE"] else normallyIgnore

/-- experiment_state.py L88-93: the loop of `applyExcludesToLabels` -/
def uniqueKept (excl : List Bytes) : List Bytes → List Bytes → List Bytes
  | r, [] => r
  | r, l :: t => if excl.contains l || r.contains l then uniqueKept excl r t else uniqueKept excl (r ++ [l]) t

/-- experiment_state.py L51-60: one line `unixnano, label` -/
def parseLine (line : Bytes) : Except Exc (Int × Bytes) :=
  if line.count 44 ≠ 1 then .error .value
  else do
    let n ← pyIntB (strip (line.takeWhile (· != 44)))
    pure (n, strip ((line.dropWhile (· != 44)).drop 1))

/-- all lines (used for experiment_state.py L37-65) -/
def parseLines : List Bytes → Except Exc (List (Int × Bytes))
  | [] => .ok []
  | l :: t => do
    let x ← parseLine l
    let xs ← parseLines t
    pure (x :: xs)

/-- experiment_state.py L61-65: what a successful parse does to the object. `applyExcludesToLabels` replaces an "auto"
exclusion list by the list computed from the labels seen so far (L86-87). -/
def absorb (ef : EF) (new : List (Int × Bytes)) (parseEnd : Nat) : EF :=
  let all := ef.allLabels ++ new.map Prod.snd
  let excl := ef.excl.getD (autoExcludes all)
  ⟨some excl, parseEnd, all, ef.times ++ new.map Prod.fst, uniqueKept excl [] all⟩

/-- experiment_state.py L37-65 `parse` when the file holds `f`. Simplified: `\n` is the only line end. -/
def parse (ef : EF) (f : Bytes) : Except Exc EF :=
  let lines := splitLines (f.drop ef.parseStart)
  if ef.parseStart = 0 then
    match lines with
    | [] => .error .index
    | h :: rest =>
      if h.head? ≠ some 35 then .error .exception
      else if rest = [] then .error .exception
      else (parseLines rest).map (fun new => absorb ef new f.length)
  else if lines = [] then .ok ef
  else (parseLines lines).map (fun new => absorb ef new f.length)

/-- `np.searchsorted(pulses, t)` (left) on sorted data: how many pulses are before `t` (used for experiment_state.py L95-168) -/
def searchsorted (pulses : List Int) (t : Int) : Nat := (pulses.takeWhile (fun p => decide (p < t))).length

/-- experiment_state.py L142-165: the loop over labels; each label comes with its index `inds[i]`, `n` is the total number
of pulses. -/
def stateLoop (keep : Bytes → Bool) (alias : Bytes → Bytes) (n : Nat) : List (Bytes × Nat) → SD → SD
  | [], d => d
  | (label, i) :: rest, d =>
    if keep label then
      let s : Slice := ⟨i, match rest with | [] => n | (_, j) :: _ => j⟩
      let a := alias label
      stateLoop keep alias n rest (match get d a with
        | none => d ++ [(a, .one s)]
        | some (.one v) => setv d a (.many [v, s])
        | some (.many l) => setv d a (.many (l ++ [s])))
    else stateLoop keep alias n rest d

/-- experiment_state.py L112-127: no new labels; extend the last state to the new end -/
def extendLast (d : SD) (stop : Nat) : SD :=
  match d.getLast? with
  | none => d
  | some (k, .one s) => setv d k (.one ⟨s.start, stop⟩)
  | some (k, .many l) => setv d k (.many (match l.getLast? with
    | none => l
    | some s => l.dropLast ++ [⟨s.start, stop⟩]))

/-- experiment_state.py L135-141: close the last state where the first new one begins. A list of slices has no `start`. -/
def closeLast (d : SD) (stop : Nat) : Except Exc SD :=
  match d.getLast? with
  | none => .ok d
  | some (k, .one s) => .ok (setv d k (.one ⟨s.start, stop⟩))
  | some (_, .many _) => .error .attribute

/-- experiment_state.py L95-168 `calcStatesDict(unixnanos, statesDict, i0_allLabels, i0_unixnanos)` -/
def calcStates (rd : Int → Int) (ef : EF) (alias : Bytes → Bytes) (pulses : List Int) (d : SD) (i0L i0U : Nat) : Except Exc SD :=
  let newLabels := ef.allLabels.drop i0L
  let n := i0U + pulses.length
  if d ≠ [] ∧ newLabels = [] then
    if i0L > 0 then .ok (extendLast d n) else .error .assertion
  else
    let inds := (ef.times.drop i0L).map (fun t => searchsorted (pulses.map rd) (rd t) + i0U)
    if d ≠ [] ∧ i0L = 0 then .error .assertion
    else
      match (if d ≠ [] then closeLast d (inds.headD 0) else .ok d) with
      | .error e => .error e
      | .ok d => .ok (stateLoop (fun l => ef.unaliased.contains l) alias n (newLabels.zip inds) d)

/-- channels.py L332-338 `Channel.statesDict` when first used: everything in one batch -/
def batch (rd : Int → Int) (ef : EF) (alias : Bytes → Bytes) (pulses : List Int) : Except Exc SD :=
  calcStates rd ef alias pulses [] 0 0

/-- an integer converted to float64: rounded to 53 significant bits, ties to even (numpy's int64 to float64) (the conversion made by numpy in experiment_state.py L24, L63 and where L134 compares times) -/
def toDouble (n : Int) : Int :=
  let a := n.natAbs
  let e := Nat.log2 a - 52
  let q := a / 2 ^ e
  let r := a % 2 ^ e
  let q' := if 2 * r < 2 ^ e then q else if 2 ^ e < 2 * r then q + 1 else q + q % 2
  let m : Int := ((q' * 2 ^ e : Nat) : Int)
  if n < 0 then -m else m

/-- channels.py L1192-1209 `refreshFromFiles`, for one channel: parse the state file (now `f`), see the longer pulse list `pulses` and
update the dictionary. `sd = none` is a channel whose dictionary was not used before: reading `ds.statesDict`
computes it from the new labels and pulses. `nOld` is the number of pulses seen before. -/
def refresh (rd : Int → Int) (ef : EF) (alias : Bytes → Bytes) (f : Bytes) (sd : Option SD) (nOld : Nat) (pulses : List Int) :
    Except Exc (EF × SD) := do
  let i0L := ef.allLabels.length
  let ef' ← parse ef f
  let d ← match sd with
    | some d => .ok d
    | none => batch rd ef' alias pulses
  let d' ← calcStates rd ef' alias (pulses.drop nOld) d i0L nOld
  pure (ef', d')

end Mass.States
