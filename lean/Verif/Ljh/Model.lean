import Verif.Py
import Verif.Names.Model
/-! Model of LJH files: mass/core/files.py, mass/core/ljh_modify.py and the record loop of mass/core/ljh2off.py.

A file is a list of bytes; a file system maps path names to inodes and inodes to bytes (so that two names
of one file are the same file). Simplifications throughout: floats are exact rationals, and the text-to-float
and float-to-text conversions are arbitrary parameters (`pf`, `ff`); integers are written and read in
native little-endian order; permission errors, directories and a full disk are not modelled; writes reach
the file at once (Python's buffering is not modelled). -/
namespace Mass.Ljh
open Mass.Names (Str)

abbrev Bytes := List UInt8

/-- a byte string literal `b"..."` (ASCII) (used for files.py L147) -/
def asc (s : String) : Bytes := s.toList.map (fun c => UInt8.ofNat c.toNat)
/-- bytes seen as characters (`decode()`; only ASCII text is meaningful) (used for files.py L240-245) -/
def toStr (b : Bytes) : Str := b.map (fun x => Char.ofNat x.toNat)
/-- text seen as bytes (`encode()`; only ASCII text is meaningful) (used for files.py L442-485) -/
def ofStr (s : Str) : Bytes := s.map (fun c => UInt8.ofNat c.toNat)

/-- whitespace of `bytes.strip()`: space, \t, \n, \v, \f, \r (used for files.py L155-160) -/
def isSpaceB (b : UInt8) : Bool := b == 32 || (9 ≤ b && b ≤ 13)
/-- Python `bytes.strip()` (used for files.py L155-160) -/
def strip (s : Bytes) : Bytes := ((s.dropWhile isSpaceB).reverse.dropWhile isSpaceB).reverse

/-- the successive results of `fp.readline()` (files.py L146) until end of file: each line keeps its
newline; the last may lack one. -/
def splitLines : Bytes → List Bytes
  | [] => []
  | b :: t =>
    if b = 10 then [10] :: splitLines t
    else match splitLines t with
      | [] => [[b]]
      | l :: ls => (b :: l) :: ls

/-- an insertion-ordered dictionary of byte strings (`collections.OrderedDict`, files.py L141) -/
abbrev Dict := List (Bytes × Bytes)
/-- `header_dict[k] = v`: replace the value in place, or append a new entry. (files.py L160) -/
def dictSet (d : Dict) (k v : Bytes) : Dict :=
  if (d.map Prod.fst).contains k then d.map (fun e => if e.1 = k then (k, v) else e) else d ++ [(k, v)]
/-- `header_dict.get(k)` (used for files.py L249) -/
def dictGet (d : Dict) (k : Bytes) : Option Bytes := (d.find? (fun e => e.1 == k)).map Prod.snd

/-- the end-of-header marker (files.py L147) -/
def endMark : Bytes := asc "#End of Header"

/-- files.py L155-160: the effect of one header line on the dictionary. -/
def headerLine (d : Dict) (line : Bytes) : Dict :=
  if line.contains 58 then
    dictSet d (strip (line.takeWhile (· != 58))) (strip ((line.dropWhile (· != 58)).drop 1))
  else d

/-- files.py L144-163: the loop over header lines; `i` lines and `pos` bytes were read before. -/
def headerLoop : Nat → Nat → Dict → List Bytes → Except Exc (Dict × Nat)
  | _, _, _, [] => .error .exception
  | i, pos, d, line :: rest =>
    if endMark.isPrefixOf line then .ok (d, pos + line.length)
    else if i + 1 > 256 then .error .os
    else headerLoop (i + 1) (pos + line.length) (headerLine d line) rest

/-- files.py L130-165 `read_ljh_header` on the bytes of the file. -/
def readHeader (f : Bytes) : Except Exc (Dict × Nat) := headerLoop 0 0 [] (splitLines f)

/-- `int(b"...")` (used for files.py L240-245) -/
def pyIntB (b : Bytes) : Except Exc Int := Names.pyInt (toStr b)

/-- the parts of a release number `N.N.N` (packaging.version; files.py L193). Simplified: only plain
release numbers are accepted; epochs, pre-, post-, dev- and local parts are rejected here. `cur` is the
number being read, if any. -/
def verParts : Option Nat → Bytes → Option (List Nat)
  | none, [] => none
  | some a, [] => some [a]
  | cur, b :: t =>
    if 48 ≤ b ∧ b ≤ 57 then verParts (some (10 * cur.getD 0 + (b.toNat - 48))) t
    else if b = 46 then
      match cur with
      | none => none
      | some a => (verParts none t).map (a :: ·)
    else none

/-- `Version(s) < Version("2.2.0")` (files.py L193; ljh_modify.py L198); InvalidVersion is a ValueError. -/
def below220 (s : Bytes) : Except Exc Bool :=
  match verParts none s with
  | none => .error .value
  | some l => .ok (decide (l.getD 0 0 < 2 ∨ (l.getD 0 0 = 2 ∧ l.getD 1 0 < 2)))

/-- An open LJH file: attributes set by `_parse_header` and `__init__` (files.py L198-287), plus the
inode it is mapped from. -/
structure Ljh where
  v22 : Bool
  dict : Dict
  headerSize : Nat
  channum : Int
  timebase : Rat
  nSamples : Nat
  nPresamples : Int
  subDiv : Int
  subOff : Int
  binarySize : Nat
  deriving DecidableEq

/-- files.py L363-365 and L425-427 `pulse_size_bytes` -/
def Ljh.pulseSize (l : Ljh) : Nat := (if l.v22 then 16 else 6) + 2 * l.nSamples
/-- files.py L267 `nPulses` -/
def Ljh.nPulses (l : Ljh) : Nat := l.binarySize / l.pulseSize

/-- `header_dict[k]` (used for files.py L192-264) -/
def reqKey (d : Dict) (k : Bytes) : Except Exc Bytes :=
  match dictGet d k with
  | none => .error .key
  | some v => .ok v
/-- `float(b"...")` (used for files.py L249) -/
def toFloat (pf : Bytes → Option Rat) (v : Bytes) : Except Exc Rat :=
  match pf v with
  | none => .error .value
  | some x => .ok x
/-- files.py L249: `float(header_dict.get(b"Timestamp offset (s)", b"-1"))` -/
def tsOffset (pf : Bytes → Option Rat) (d : Dict) : Except Exc Rat :=
  match dictGet d (asc "Timestamp offset (s)") with
  | none => .ok (-1)
  | some v => toFloat pf v
/-- `int(header_dict[k])` (used for files.py L192-264) -/
def reqInt (d : Dict) (k : Bytes) : Except Exc Int :=
  match dictGet d k with
  | none => .error .key
  | some v => pyIntB v
/-- `int(header_dict.get(k, default))` (used for files.py L192-264) -/
def getIntD (d : Dict) (k : Bytes) (dflt : Int) : Except Exc Int :=
  match dictGet d k with
  | none => .ok dflt
  | some v => pyIntB v
/-- files.py L240-245: the first key with this prefix -/
def prefixInt (d : Dict) (p : Bytes) (dflt : Int) : Except Exc Int :=
  match d.find? (fun e => p.isPrefixOf e.1) with
  | none => .ok dflt
  | some e => pyIntB e.2
/-- `needle in hay` for byte strings (used for files.py L254-264) -/
def containsB (needle : Bytes) : Bytes → Bool
  | [] => needle.isEmpty
  | b :: t => needle.isPrefixOf (b :: t) || containsB needle t

/-- files.py L254-264: default subframe (divisions, offset). Simplified: `source` (files.py L311-316) is
searched for "Abaco" as bytes, without the UnicodeDecodeError of a non-UTF-8 data source. -/
def subframeDefaults (d : Dict) (rowNumber nRows : Int) : Int × Int :=
  if (match dictGet d (asc "Data source") with | none => false | some s => containsB (asc "Abaco") s) then (64, 0)
  else (if nRows ≤ 0 then 1 else nRows, rowNumber)

/-- files.py L246, L274: was the file written by DASTARD? -/
def isDastard (d : Dict) : Bool :=
  match dictGet d (asc "Software Version") with
  | none => false
  | some s => containsB (asc "DASTARD") s

/-- what `_parse_header` extracts from the header dictionary (used for files.py L192-264) -/
structure Fields where
  old : Bool
  ch : Int
  tb : Rat
  ns : Int
  np : Int
  sd : Int
  so : Int

/-- files.py L192-264: version, channel number (from the file name) and the header fields, in the order of the code.
`pf` is Python's text-to-float conversion. -/
def parseFields (pf : Bytes → Option Rat) (fname : Str) (d : Dict) : Except Exc Fields := do
  let ver ← reqKey d (asc "Save File Format Version")
  let old ← below220 ver
  let ch ← Names.fileChannum fname
  let tbs ← reqKey d (asc "Timebase")
  let tb ← toFloat pf tbs
  let ns ← reqInt d (asc "Total Samples")
  let np ← reqInt d (asc "Presamples")
  let row ← prefixInt d (asc "Row number") 0
  let _ ← prefixInt d (asc "Column number") 0
  let _ ← getIntD d (asc "Number of columns") 1
  let nr ← getIntD d (asc "Number of rows") 1
  let _ ← tsOffset pf d
  let sd ← getIntD d (asc "Subframe divisions") (subframeDefaults d row nr).1
  let so ← getIntD d (asc "Subframe offset") (subframeDefaults d row nr).2
  pure ⟨old, ch, tb, ns, np, sd, so⟩

/-- record size from version and sample count (used for files.py L266-305) -/
def recSize (old : Bool) (n : Nat) : Nat := (if old then 6 else 16) + 2 * n

/-- files.py L266-305: the rest of `_parse_header` and the first `set_segment_size()`. A negative sample count is rejected
(numpy refuses the record type; files.py L354-359, L418-422 — ZeroDivisionError if the record size comes out 0), and
so is a record larger than the default segment size (files.py L217, L297-302). -/
def finishOpen (d : Dict) (hs binSize : Nat) (p : Fields) : Except Exc Ljh :=
  if p.ns < 0 then .error (if (if p.old then (6 : Int) else 16) + 2 * p.ns = 0 then .zeroDiv else .value)
  else if recSize p.old p.ns.toNat > 2 ^ 24 then .error .value
  else
    .ok { v22 := !p.old, dict := d, headerSize := hs, channum := p.ch, timebase := p.tb, nSamples := p.ns.toNat,
          nPresamples := if isDastard d then p.np else p.np + 3, subDiv := p.sd, subOff := p.so,
          binarySize := binSize }

/-- files.py L192-287 `LJHFile.open` after the header scan: `__init__` and `_parse_header`, given the file name, the
header dictionary, the header size and the size of the rest of the file. -/
def parseHeader (pf : Bytes → Option Rat) (fname : Str) (d : Dict) (hs binSize : Nat) : Except Exc Ljh := do
  let p ← parseFields pf fname d
  finishOpen d hs binSize p

/-- files.py L181-196 `LJHFile.open` on the bytes of the file. -/
def openBytes (pf : Bytes → Option Rat) (fname : Str) (f : Bytes) : Except Exc Ljh := do
  let (d, hs) ← readHeader f
  parseHeader pf fname d hs (f.length - hs)

/-- files.py L289-305 `set_segment_size`: (segmentsize, pulses_per_seg, n_segments) -/
def setSegmentSize (pulseSize binarySize : Nat) (segmentsize : Int) : Except Exc (Int × Int × Int) :=
  let maxitems := segmentsize / (pulseSize : Int)
  if maxitems < 1 then .error .value
  else
    let seg := maxitems * pulseSize
    .ok (seg, seg / (pulseSize : Int), 1 + ((binarySize : Int) - 1) / seg)

/-- channel.py L954-957, L975-979, L1347-1352: the pulse numbers visited in segment `segnum` -/
def segmentSlice (pps : Nat) (nPulses segnum : Nat) : List Nat :=
  let first := segnum * pps
  let last := min (first + pps) nPulses
  (List.range (last - first)).map (first + ·)

/-! ### records -/

/-- `k` bytes of an unsigned integer, least significant first (`struct.pack('<Q', ..)`, `tofile`) (used for ljh_modify.py L104-110) -/
def le : Nat → Nat → Bytes
  | 0, _ => []
  | k + 1, v => UInt8.ofNat (v % 256) :: le k (v / 256)
/-- the unsigned integer in little-endian bytes (used for files.py L418-422) -/
def leNat : Bytes → Nat
  | [] => 0
  | b :: t => b.toNat + 256 * leNat t
/-- `n` little-endian 16-bit words (used for files.py L418-422) -/
def words : Nat → Bytes → List (BitVec 16)
  | 0, _ => []
  | n + 1, b => BitVec.ofNat 16 (leNat (b.take 2)) :: words n (b.drop 2)

/-- One record as returned by `read_trace_with_timing` (files.py L338-341). -/
structure Rec where
  sub : BitVec 64
  usec : BitVec 64
  data : List (BitVec 16)
  deriving DecidableEq

/-- files.py L418-422: the version 2.2 record type (int64, int64, uint16[nSamples]) -/
def decode22 (n : Nat) (b : Bytes) : Rec :=
  ⟨BitVec.ofNat 64 (leNat (b.take 8)), BitVec.ofNat 64 (leNat ((b.drop 8).take 8)), words n (b.drop 16)⟩

/-- files.py L376-383 `_parse_times`: frame number from the 4 µs ticks and ms of a version 2.1 record -/
def frameCount21 (nsPerFrame : Int) (us ms : Nat) : Int :=
  4 + ((4000 * (us : Int) + 1000000 * (ms : Int)) - 1) / nsPerFrame

/-- files.py L354-359, L376-404: a version 2.1 record (uint8, uint8, uint32, uint16[nSamples]) with its subframe
count and its time in µs. Floats as rationals: `np.int64(timebase * 1e9)` and `dtype=int` truncate. -/
def decode21 (l : Ljh) (b : Bytes) : Rec :=
  let us := leNat (b.take 1)
  let ms := leNat ((b.drop 2).take 4)
  let x := l.timebase * 1000000000
  let frame := frameCount21 (x.num.tdiv x.den) us ms
  let t := ((frame : Rat) + (l.subOff : Rat) / (l.subDiv : Rat)) * l.timebase * 1000000 + 1 / 2
  ⟨BitVec.ofInt 64 (frame * l.subDiv + l.subOff), BitVec.ofInt 64 (t.num.tdiv t.den), words l.nSamples (b.drop 6)⟩

/-- files.py L318-332: the sample as seen by the user; `~d` on uint16 when `invert_data` is set -/
def sample (invert : Bool) (s : BitVec 16) : BitVec 16 := if invert then ~~~s else s

/-- Python/numpy index: negative counts from the end; out of range is an IndexError (used for files.py L307-309, L334-341) -/
def normIdx (n : Nat) (i : Int) : Option Nat :=
  if 0 ≤ i ∧ i < n then some i.toNat
  else if i < 0 ∧ -(n : Int) ≤ i then some (i + n).toNat
  else none

/-- files.py L307-309, L334-341: record `i` of the mapped file `f`. Reading a mapping beyond the current end of the file
(a file shortened after it was opened) kills the process by SIGBUS; here that is the error `.os`. A version 2.1
file whose header says 0 subframe divisions raises ZeroDivisionError (files.py L400). -/
def readRec (l : Ljh) (f : Bytes) (i : Int) : Except Exc Rec :=
  match normIdx l.nPulses i with
  | none => .error .index
  | some k =>
    let b := (f.drop (l.headerSize + k * l.pulseSize)).take l.pulseSize
    if b.length < l.pulseSize then .error .os
    else if l.v22 then .ok (decode22 l.nSamples b)
    else if l.subDiv = 0 then .error .zeroDiv
    else .ok (decode21 l b)

/-- All records of the file `f`, in order. (files.py L307-309 `__getitem__` for every index) -/
def records (l : Ljh) (f : Bytes) : List (Except Exc Rec) := (List.range l.nPulses).map (fun (i : Nat) => readRec l f i)

/-! ### file system -/

/-- [specification or instance] -/
structure Fs where
  ino : Str → Option Nat
  data : Nat → Bytes
  next : Nat

/-- the bytes behind a name (the operating system, below files.py L266-305) -/
def Fs.read (fs : Fs) (p : Str) : Option Bytes := (fs.ino p).map fs.data
/-- `write` at the end of the file (used for ljh_modify.py L104-110) -/
def Fs.append (fs : Fs) (i : Nat) (b : Bytes) : Fs :=
  { fs with data := fun j => if j = i then fs.data i ++ b else fs.data j }
/-- `open(p, "wb")`: truncate, or create with a new inode (used for ljh_modify.py L113-141) -/
def Fs.openW (fs : Fs) (p : Str) : Fs × Nat :=
  match fs.ino p with
  | some i => ({ fs with data := fun j => if j = i then [] else fs.data j }, i)
  | none => (⟨fun q => if q = p then some fs.next else fs.ino q,
              fun j => if j = fs.next then [] else fs.data j, fs.next + 1⟩, fs.next)
/-- `open(p, "ab")`: keep the contents, or create with a new inode (used for ljh_modify.py L144-161) -/
def Fs.openA (fs : Fs) (p : Str) : Fs × Nat :=
  match fs.ino p with
  | some i => (fs, i)
  | none => (⟨fun q => if q = p then some fs.next else fs.ino q,
              fun j => if j = fs.next then [] else fs.data j, fs.next + 1⟩, fs.next)

/-- `LJHFile.open(path)`; FileNotFoundError is an OSError (used for ljh_modify.py L113-141) -/
def openFile (pf : Bytes → Option Rat) (fs : Fs) (p : Str) : Except Exc (Ljh × Nat) :=
  match fs.ino p with
  | none => .error .os
  | some i => (openBytes pf p (fs.data i)).map (fun l => (l, i))

/-! ### ljh_modify.py -/

/-- `trace.tofile(f)`: 16-bit words, little-endian (used for ljh_modify.py L104-110) -/
def encData (d : List (BitVec 16)) : Bytes := d.flatMap (fun s => le 2 s.toNat)

/-- ljh_modify.py L104-110 `helper_write_pulse` for each pulse number in turn (L140-141, L160-161). `struct.pack('<Q', ..)` refuses a
negative count or time, in the latter case after the count was written. -/
def writeLoop (l : Ljh) (src dst : Nat) : Fs → List Int → Fs × Option Exc
  | fs, [] => (fs, none)
  | fs, i :: t =>
    match readRec l (fs.data src) i with
    | .error e => (fs, some e)
    | .ok r =>
      if r.sub.toInt < 0 then (fs, some .struct)
      else
        let fs1 := fs.append dst (le 8 r.sub.toNat)
        if r.usec.toInt < 0 then (fs1, some .struct)
        else writeLoop l src dst ((fs1.append dst (le 8 r.usec.toNat)).append dst (encData r.data)) t

/-- decimal form of an int (used for files.py L442-485) -/
def decInt (n : Int) : Bytes := if n < 0 then 45 :: ofStr (Names.decimal n.natAbs) else ofStr (Names.decimal n.natAbs)

/-- files.py L442-485 `make_ljh_header`. `ver` = mass version, `asctime` = the clock, `ff` = the `.4e` format. -/
def makeHeader (ff : Rat → Bytes) (ver asctime : Bytes) (l : Ljh) : Bytes :=
  [ asc "#LJH Memorial File Format",
    asc "Save File Format Version: 2.2.0",
    asc "Software Version: MASS-generated LJH file, MASS version " ++ ver,
    asc "Software Driver Version: n/a",
    asc "Date: " ++ (asctime ++ asc " GMT"),
    asc "Acquisition Mode: 0",
    asc "Digitized Word Size in bytes: 2",
    asc "Operator: Unknown",
    asc "SYSTEM DESCRIPTION OF THIS FILE:",
    asc "USER DESCRIPTION OF THIS FILE:",
    asc "#End of description",
    asc "Number of Digitizers: 1",
    asc "Number of Active Channels: 1",
    asc "Timestamp offset (s): 1000000000.000000",
    asc "Digitizer: 1",
    asc "Master: Yes",
    asc "Bits: 16",
    asc "Timebase: " ++ ff l.timebase,
    asc "Number of samples per point: 1",
    asc "Presamples: " ++ decInt l.nPresamples,
    asc "Total Samples: " ++ decInt l.nSamples,
    asc "Channel: 1.0",
    asc "Description: A (Voltage)",
    asc "Range: 0.500000",
    asc "Offset: -0.000122",
    asc "Inverted: No",
    asc "#End of Header" ].flatMap (· ++ [10])

/-- ljh_modify.py L113-141 `ljh_copy_traces`: the file system afterwards and the exception, if any. -/
def copyTraces (pf : Bytes → Option Rat) (ff : Rat → Bytes) (ver asctime : Bytes) (fs : Fs) (src dst : Str)
    (pulses : List Int) (overwrite : Bool) : Fs × Option Exc :=
  if (fs.ino dst).isSome && !overwrite then (fs, some .os)
  else match openFile pf fs src with
    | .error e => (fs, some e)
    | .ok (l, si) =>
      let fs1 := (fs.openW dst).1
      let di := (fs.openW dst).2
      writeLoop l si di (fs1.append di (makeHeader ff ver asctime l)) pulses

/-- ljh_modify.py L144-161 `ljh_append_traces`; `none` means all pulses. -/
def appendTraces (pf : Bytes → Option Rat) (fs : Fs) (src dst : Str) (pulses : Option (List Int)) : Fs × Option Exc :=
  match openFile pf fs src with
  | .error e => (fs, some e)
  | .ok (l, si) =>
    let ps := match pulses with
      | none => (List.range l.nPulses).map (fun (i : Nat) => (i : Int))
      | some ps => ps
    writeLoop l si (fs.openA dst).2 (fs.openA dst).1 ps

/-- ljh_modify.py L203-205: the header written by `ljh_truncate` -/
def dictBytes (d : Dict) : Bytes := d.flatMap (fun e => e.1 ++ (asc ": " ++ (e.2 ++ asc "\r\n"))) ++ asc "#End of Header\r\n"

/-- ljh_modify.py L210-218: the loop writing records, starting at pulse `i`, `n` to go. -/
def truncLoop (l : Ljh) (src dst : Nat) (late : Rec → Bool) : Nat → Nat → Fs → Fs × Option Exc
  | _, 0, fs => (fs, none)
  | i, n + 1, fs =>
    match readRec l (fs.data src) (i : Int) with
    | .error e => (fs, some e)
    | .ok r =>
      if late r then (fs, none)
      else truncLoop l src dst late (i + 1) n
        (((fs.append dst (le 8 r.sub.toNat)).append dst (le 8 r.usec.toNat)).append dst (encData r.data))

/-- ljh_modify.py L195-196: `infile.set_segment_size(segmentsize)`, which may raise -/
def segErr (l : Ljh) (segmentsize : Option Int) : Option Exc :=
  match segmentsize with
  | none => none
  | some s => match setSegmentSize l.pulseSize l.binarySize s with
    | .error e => some e
    | .ok _ => none

/-- ljh_modify.py L208-210: the number of turns of the loop -/
def nKeep (l : Ljh) (nPulses : Option Int) : Nat :=
  match nPulses with
  | none => l.nPulses
  | some n => n.toNat

/-- ljh_modify.py L211: `timestamp is not None and infile.datatimes_float[i] > timestamp`, over the rationals, with
`datatimes_float = posix_usec / 1e6` (files.py L438-439) -/
def lateThan (timestamp : Option Rat) (r : Rec) : Bool :=
  match timestamp with
  | none => false
  | some t => decide (t < (r.usec.toInt : Rat) / 1000000)

/-- ljh_modify.py L164-218 `ljh_truncate`. -/
def truncate (pf : Bytes → Option Rat) (fs : Fs) (inp out : Str) (nPulses : Option Int) (timestamp : Option Rat)
    (segmentsize : Option Int) : Fs × Option Exc :=
  if nPulses.isSome == timestamp.isSome then (fs, some .exception)
  else if (fs.ino out).isSome && (fs.ino inp).isNone then (fs, some .os)
  else if (fs.ino out).isSome && fs.ino inp == fs.ino out then (fs, some .value)
  else match openFile pf fs inp with
    | .error e => (fs, some e)
    | .ok (l, si) =>
      match segErr l segmentsize with
      | some e => (fs, some e)
      | none =>
        if !l.v22 then (fs, some .exception)
        else truncLoop l si (fs.openW out).2 (lateThan timestamp) 0 (nKeep l nPulses)
          ((fs.openW out).1.append (fs.openW out).2 (dictBytes l.dict))

/-! ### ljh2off.py -/

/-- ljh2off.py L93: `np.arange(0, n, step)` for `step ≥ 1`: the segment starts -/
def segStarts (n step : Nat) : List Nat := (List.range ((n + step - 1) / step)).map (· * step)

/-- ljh2off.py L83-126 `ljh_records_to_off`: the OFF records written and their claimed number. `conv` turns one LJH
record into one OFF record: the linear algebra of L106-124 works column by column (each LJH record is
one column of `data.T`), so each record is converted on its own. `binary_size = 0` divides by zero. -/
def recordsToOff {α β} (conv : α → β) (binarySize : Nat) (recs : List α) : Except Exc (List β × Nat) :=
  if binarySize = 0 then .error .zeroDiv
  else
    let step := max (2 ^ 21 / binarySize) 1
    .ok ((segStarts recs.length step).flatMap (fun lo => ((recs.drop lo).take step).map conv),
         ((segStarts recs.length step).map (fun lo => min (lo + step) recs.length - lo)).sum)

/-- ljh2off.py L66-80 `multi_ljh2off`: the record part of the OFF file for a list of LJH files. -/
def multiToOff {α β} (conv : α → β) : List (Nat × List α) → Except Exc (List β)
  | [] => .ok []
  | (bs, recs) :: t => do
    let (o, n) ← recordsToOff conv bs recs
    if n ≠ recs.length then .error .assertion
    else
      let rest ← multiToOff conv t
      pure (o ++ rest)

end Mass.Ljh
