import Verif.Ljh.Model
/-! Model of OFF files: mass/off/off.py. Files are lists of bytes (as in the LJH model). -/
namespace Mass.Off
open Mass.Ljh (Bytes asc splitLines)

/-! ### record layout -/

/-- off.py L27-36: the fields before the coefficients -/
def headFields (ver : String) : Except Exc (List (String × Nat)) :=
  if ver = "0.1.0" ∨ ver = "0.2.0" then
    .ok [("recordSamples", 4), ("recordPreSamples", 4), ("framecount", 8), ("unixnano", 8), ("pretriggerMean", 4),
         ("residualStdDev", 4)]
  else if ver = "0.3.0" then
    .ok [("recordSamples", 4), ("recordPreSamples", 4), ("framecount", 8), ("unixnano", 8), ("pretriggerMean", 4),
         ("pretriggerDelta", 4), ("residualStdDev", 4)]
  else .error .exception

/-- off.py L38-44: the coefficient fields -/
def coefFields (nBasis : Nat) (desc : Bool) : List (String × Nat) :=
  if desc then
    [("pulseMean", 4), ("derivativeLike", 4), ("filtValue", 4)] ++
      if 3 < nBasis then [("extraCoefs", 4 * (nBasis - 3))] else []
  else [("coefs", 4 * nBasis)]

/-- off.py L20-44 `recordDtype`: the record's fields in order, each with its size in bytes (numpy packs them without gaps). `desc` is
`descriptive_coefs_names`. -/
def recordFields (ver : String) (nBasis : Nat) (desc : Bool) : Except Exc (List (String × Nat)) := do
  let hd ← headFields ver
  pure (hd ++ coefFields nBasis desc)

/-- `dtype.itemsize` of a packed record (used for off.py L73-95) -/
def itemsize (fs : List (String × Nat)) : Nat := (fs.map Prod.snd).sum

/-- `dtype.fields[name]`: (offset, size) of a field of a packed record that starts at byte `at` (used for off.py L191-197) -/
def fieldAt (name : String) : Nat → List (String × Nat) → Option (Nat × Nat)
  | _, [] => none
  | pos, (n, s) :: t => if n = name then some (pos, s) else fieldAt name (pos + s) t

/-! ### the file -/

/-- what is used of the JSON header (off.py L80-86, L100-102, L130-176) -/
structure Hdr where
  fileFormat : String
  version : String
  nBases : Nat
  base64 : Bool
  pRows : Nat
  pCols : Nat
  bRows : Nat
  bCols : Nat

/-- off.py L47-58 `readJsonString`: everything up to and including the first line that is exactly `}` -/
def jsonLines : List Bytes → Option Bytes
  | [] => none
  | l :: t => if l = asc "}\n" then some l else (jsonLines t).map (l ++ ·)

/-- the number of characters of UTF-8 text: bytes that do not continue a character (used for off.py L73-95) -/
def charCount (b : Bytes) : Nat := (b.filter (fun x => decide (x < 128 ∨ 192 ≤ x))).length

/-- An open OFF file: attributes set by `__init__`. (used for off.py L104-116) -/
structure OffFile where
  /-- `headerStringLength` -/
  headerLen : Nat
  /-- `afterHeaderPos` -/
  after : Nat
  /-- `dtype.itemsize` -/
  size : Nat
  nRecords : Nat
  deriving DecidableEq

/-- off.py L104-116 `_updateMmap()` when the file holds `f`. A file shorter than its header gives a negative
number of records, which `np.memmap` refuses. -/
def refresh (o : OffFile) (f : Bytes) : Except Exc OffFile :=
  if f.length < o.after then .error .value
  else .ok { o with nRecords := (f.length - o.after) / o.size }

/-- off.py L130-176: `afterHeaderPos`, given the header string's length -/
def afterHeader (h : Hdr) (hl : Nat) : Nat := if h.base64 then hl else hl + 2 * (h.bCols * h.bRows * 8)

/-- off.py L73-95 `OffFile(filename)`. `js` is `json.loads` followed by the look-ups of L80-86. Simplified: the contents of
projectors and basis are not modelled, only the space they take; invalid UTF-8 and invalid base64 are not modelled;
which error is raised for projectors of the wrong shape may differ (numpy may complain first). -/
def openOff (js : Bytes → Option Hdr) (f : Bytes) : Except Exc OffFile :=
  match jsonLines (splitLines f) with
  | none => .error .exception
  | some hb =>
    match js hb with
    | none => .error .value
    | some h =>
      match recordFields h.version h.nBases true, recordFields h.version h.nBases false with
      | .error e, _ => .error e
      | _, .error e => .error e
      | .ok fs, .ok _ =>
        let hl := charCount hb
        -- L97-102 validateHeader
        if (splitLines (f.drop (hl - 2))).head? ≠ some (asc "}\n") then .error .exception
        else if h.fileFormat ≠ "OFF" then .error .exception
        -- L130-176 _decodeModelInfo
        else if h.bRows ≠ h.pCols ∨ h.bCols ≠ h.pRows ∨ h.nBases ≠ h.pRows then .error .exception
        else refresh ⟨hl, afterHeader h hl, itemsize fs, 0⟩ f

/-- off.py L118-120 `off[i]` for `0 ≤ i`: the bytes of record `i` of the mapping. Reading a mapping beyond the end of a file that
was shortened kills the process; here that is the error `.os`. -/
def record (o : OffFile) (f : Bytes) (i : Nat) : Except Exc Bytes :=
  if i < o.nRecords then
    let b := (f.drop (o.after + i * o.size)).take o.size
    if b.length < o.size then .error .os else .ok b
  else .error .index

/-- off.py L191-197 `_mmap_with_coefs[i]["coefs"][k]`: where coefficient `k` of a record lies, as (offset, size), when the record is seen
with the plain layout. numpy refuses a view whose item size differs. -/
def coefView (ver : String) (nBasis k : Nat) : Except Exc (Nat × Nat) := do
  let d ← recordFields ver nBasis true
  let p ← recordFields ver nBasis false
  if itemsize d ≠ itemsize p then .error .value
  else match fieldAt "coefs" 0 p with
    | none => .error .value
    | some (off, sz) => if 4 * k + 4 ≤ sz then .ok (off + 4 * k, 4) else .error .index

end Mass.Off
