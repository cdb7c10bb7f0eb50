import Verif.Off.Open
import Verif.Ljh.Props
import Verif.Ljh.Copy
/-! OFF files written from LJH files (mass/core/ljh2off.py L23-126), at any crash point, and read back (mass/off/off.py). -/
namespace Mass.Off.Write
open Mass.Ljh (Bytes asc splitLines IsLine decInt le leNat segStarts)

/-! ### the header: json.dumps(d, indent=4) -/

mutual
/-- the values in the header dictionary: whole numbers, a float (as the text Python prints for it), strings, dictionaries (ljh2off.py L24-54) -/
inductive J
  | int (n : Int)
  | flt (t : Bytes)
  | str (s : String)
  | obj (fs : Fs)
/-- an ordered dictionary (ljh2off.py L24-54) -/
inductive Fs
  | nil
  | cons (k : String) (v : J) (t : Fs)
end

/-- a hexadecimal digit (json library; ljh2off.py L59) -/
def hexDigit (k : Nat) : UInt8 := if k < 10 then UInt8.ofNat (48 + k) else UInt8.ofNat (87 + k)

/-- `'\\u{0:04x}'` (json library; ljh2off.py L59) -/
def hex4 (n : Nat) : Bytes := [92, 117, hexDigit (n / 4096 % 16), hexDigit (n / 256 % 16), hexDigit (n / 16 % 16), hexDigit (n % 16)]

/-- one character of a string in ASCII JSON: quotes, backslashes and whatever is not printable ASCII are escaped, the latter as one or two
UTF-16 units (json library with ensure_ascii, its default; ljh2off.py L59) -/
def escChar (c : Char) : Bytes :=
  let n := c.toNat
  if n = 34 then [92, 34] else if n = 92 then [92, 92] else if n = 8 then [92, 98] else if n = 9 then [92, 116]
  else if n = 10 then [92, 110] else if n = 12 then [92, 102] else if n = 13 then [92, 114]
  else if 32 ≤ n ∧ n ≤ 126 then [UInt8.ofNat n]
  else if n < 65536 then hex4 n
  else hex4 (55296 + (n - 65536) / 1024) ++ hex4 (56320 + (n - 65536) % 1024)

/-- a string in JSON (json library; ljh2off.py L59) -/
def jstr (s : String) : Bytes := 34 :: (s.toList.flatMap escChar ++ [34])

/-- four blanks per level (`indent=4`, ljh2off.py L59) -/
def blanks (lvl : Nat) : Bytes := List.replicate (4 * lvl) 32

mutual
/-- the lines of a value, the first after `pre`, the last followed by `suf` (`json.dumps(d, indent=4)`, ljh2off.py L59). Simplified: an empty
dictionary would be written `{}`; the header has none. -/
def J.lines (lvl : Nat) (pre suf : Bytes) : J → List Bytes
  | .int n => [pre ++ (decInt n ++ suf)]
  | .flt t => [pre ++ (t ++ suf)]
  | .str s => [pre ++ (jstr s ++ suf)]
  | .obj fs => (pre ++ asc "{\n") :: (fs.lines (lvl + 1) ++ [blanks lvl ++ (asc "}" ++ suf)])
/-- the lines of the entries of a dictionary (ljh2off.py L59) -/
def Fs.lines (lvl : Nat) : Fs → List Bytes
  | .nil => []
  | .cons k v .nil => v.lines lvl (blanks lvl ++ (jstr k ++ asc ": ")) (asc "\n")
  | .cons k v (.cons k' v' t) => v.lines lvl (blanks lvl ++ (jstr k ++ asc ": ")) (asc ",\n") ++ (Fs.cons k' v' t).lines lvl
end

/-- an array as written by `tofile`: shape, bytes per element, bytes (ljh2off.py L73-74) -/
structure Mat where
  rows : Nat
  cols : Nat
  width : Nat
  bytes : Bytes

/-- what ljh2off uses of an open LJH file; `recs` are its records (ljh2off.py L83-126) -/
structure In (α : Type) where
  tb : Bytes
  filename : String
  col : Int
  row : Int
  nCols : Int
  nRows : Int
  nSamples : Nat
  nPre : Int
  binSize : Nat
  recs : List α

/-- ljh2off.py L29-31 -/
def savedMsg : String :=
  "row-major float64 binary data after header and before records. projectors first then basis, nbytes = rows*cols*8 for each projectors and basis"

/-- ljh2off.py L32-41: shape of projectors or basis -/
def matInfo (m : Mat) : J := .obj (.cons "Rows" (.int m.rows) (.cons "Cols" (.int m.cols) (.cons "SavedAs" (.str savedMsg) .nil)))

/-- ljh2off.py L23-55 `off_header_dict_from_ljhfile` -/
def headerDict {α} (i : In α) (P B : Mat) (h5 : String) : Fs :=
  .cons "FileFormatVersion" (.str "0.3.0") <| .cons "FramePeriodSeconds" (.flt i.tb) <| .cons "NumberOfBases" (.int P.rows) <|
  .cons "FileFormat" (.str "OFF") <|
  .cons "ModelInfo" (.obj (.cons "Projectors" (matInfo P) <| .cons "Basis" (matInfo B) <| .cons "ModelFile" (.str h5) .nil)) <|
  .cons "PulseFile" (.str i.filename) <|
  .cons "ReadoutInfo" (.obj (.cons "ColumnsNum" (.int i.col) <| .cons "RowNum" (.int i.row) <| .cons "NumberOfColumns" (.int i.nCols) <|
    .cons "NumberOfRows" (.int i.nRows) .nil)) <|
  .cons "CreationInfo" (.obj (.cons "SourceName" (.str "ljh2off.py") .nil)) .nil

/-- ljh2off.py L57-59 `off_header_string_from_ljhfile`, as bytes -/
def headerText (fs : Fs) : Bytes := ((J.obj fs).lines 0 [] (asc "\n")).flatten

/-! ### what OffFile looks up in the header -/

/-- `header[k]` (off.py L80-86) -/
def Fs.get (k : String) : Fs → Option J
  | .nil => none
  | .cons k' v t => if k' = k then some v else t.get k

/-- `header[k]` for a dictionary (off.py L80-86, L130-176) -/
def J.get (k : String) : J → Option J
  | .obj fs => fs.get k
  | _ => none

/-- a string (off.py L80-102) -/
def J.asStr : J → Option String
  | .str s => some s
  | _ => none

/-- a whole number that is not negative (off.py L80-176) -/
def J.asNat : J → Option Nat
  | .int n => if 0 ≤ n then some n.toNat else none
  | _ => none

/-- the look-ups of OffFile, off.py L80-86, L97-102, L130-176 -/
def hdrOf (j : J) : Option Hdr := do
  let ff ← (← j.get "FileFormat").asStr
  let ver ← (← j.get "FileFormatVersion").asStr
  let nb ← (← j.get "NumberOfBases").asNat
  let m ← j.get "ModelInfo"
  let p ← m.get "Projectors"
  let b ← m.get "Basis"
  let pr ← (← p.get "Rows").asNat
  let pc ← (← p.get "Cols").asNat
  let br ← (← b.get "Rows").asNat
  let bc ← (← b.get "Cols").asNat
  pure ⟨ff, ver, nb, (p.get "RowMajorFloat64ValuesBase64").isSome && (b.get "RowMajorFloat64ValuesBase64").isSome, pr, pc, br, bc⟩

/-! ### the records -/

/-- one OFF record; floats are given by their bits (ljh2off.py L117-124) -/
structure OffRec where
  samples : BitVec 32
  pre : BitVec 32
  frame : BitVec 64
  nano : BitVec 64
  ptMean : BitVec 32
  ptDelta : BitVec 32
  resid : BitVec 32
  coefs : List (BitVec 32)

/-- the bytes of a record of version 0.3.0 (`offdata.tofile(f)`, ljh2off.py L125; off.py L31-44) -/
def enc (r : OffRec) : Bytes :=
  le 4 r.samples.toNat ++ (le 4 r.pre.toNat ++ (le 8 r.frame.toNat ++ (le 8 r.nano.toNat ++ (le 4 r.ptMean.toNat ++ (le 4 r.ptDelta.toNat ++
    (le 4 r.resid.toNat ++ r.coefs.flatMap (fun c => le 4 c.toNat)))))))

/-- ljh2off.py L101-123: what can go wrong for the records of one segment: records of another length than the projectors; a basis which does not
fit (numpy repeats a single sample); no pretrigger samples to fit a line to, or more than the record has; a version without the field pretriggerDelta -/
def segCheck {α} (P B : Mat) (ign : Int) (fields : List (String × Nat)) (i : In α) : Option Exc :=
  if P.cols ≠ i.nSamples then some .assertion
  else if B.cols ≠ P.rows then some .value
  else if ¬ (B.rows = i.nSamples ∨ B.rows = 1 ∨ i.nSamples = 1) then some .value
  else if i.nPre - ign ≤ 0 ∨ (i.nSamples : Int) < i.nPre - ign then some .type
  else if "pretriggerDelta" ∈ fields.map Prod.fst then none
  else some .value

/-- ljh2off.py L93-125: the loop over the segments; the bytes written, and the exception that ended it, if any -/
def segLoop {α} (check : Option Exc) (conv : α → OffRec) (step : Nat) (recs : List α) : List Nat → Bytes × Option Exc
  | [] => ([], none)
  | lo :: t =>
    match check with
    | some e => ([], some e)
    | none =>
      let r := segLoop check conv step recs t
      (((recs.drop lo).take step).flatMap (fun x => enc (conv x)) ++ r.1, r.2)

/-- ljh2off.py L83-126 with the assertion of L76, L80 on the number of records. `conv` is the conversion of one record (C21). -/
def convertFile {α} (P B : Mat) (ign : Int) (fields : List (String × Nat)) (conv : In α → α → OffRec) (i : In α) : Bytes × Option Exc :=
  if i.binSize = 0 then ([], some .zeroDiv)
  else
    let step := max (2 ^ 21 / i.binSize) 1
    let starts := segStarts i.recs.length step
    let r := segLoop (segCheck P B ign fields i) (conv i) step i.recs starts
    if r.2 = none ∧ (starts.map (fun lo => min (lo + step) i.recs.length - lo)).sum ≠ i.recs.length then (r.1, some .assertion) else r

/-- ljh2off.py L75-80: all LJH files, each opened when its turn comes -/
def fileLoop {α} (P B : Mat) (ign : Int) (fields : List (String × Nat)) (conv : In α → α → OffRec) :
    List (Except Exc (In α)) → Bytes × Option Exc
  | [] => ([], none)
  | .error e :: _ => ([], some e)
  | .ok i :: t =>
    match convertFile P B ign fields conv i with
    | (b, some e) => (b, some e)
    | (b, none) => let r := fileLoop P B ign fields conv t; (b ++ r.1, r.2)

/-- ljh2off.py L66-80 `multi_ljh2off`: the contents of the OFF file (`none`: it was not touched), and the exception, if any -/
def multiLjh2off {α} (ver : String) (P B : Mat) (ign : Int) (h5 : String) (conv : In α → α → OffRec) :
    List (Except Exc (In α)) → Option Bytes × Option Exc
  | [] => (none, some .index)
  | .error e :: _ => (none, some e)
  | .ok i :: t =>
    match recordFields ver P.rows false with
    | .error e => (none, some e)
    | .ok fs =>
      let r := fileLoop P B ign fs conv (.ok i :: t)
      (some (headerText (headerDict i P B h5) ++ (P.bytes ++ (B.bytes ++ r.1))), r.2)

/-! ### the text of the header -/

/-- printable ASCII [specification] -/
def Printable (l : Bytes) : Prop := ∀ b ∈ l, 32 ≤ b ∧ b ≤ 126

mutual
/-- the texts of floats are printable [specification] -/
def J.Plain : J → Prop
  | .flt t => Printable t
  | .obj fs => fs.Plain
  | _ => True
/-- the texts of floats are printable [specification] -/
def Fs.Plain : Fs → Prop
  | .nil => True
  | .cons _ v t => v.Plain ∧ t.Plain
end

/-- an indented line: printable ASCII, a blank first, a newline last [specification] -/
def Line (l : Bytes) : Prop := ∃ s, Printable s ∧ l = 32 :: (s ++ [10])

theorem Printable.append {a b : Bytes} (ha : Printable a) (hb : Printable b) : Printable (a ++ b) := by
  intro x hx
  rcases List.mem_append.1 hx with h | h
  · exact ha x h
  · exact hb x h

theorem hex_printable (k : Nat) : 32 ≤ hexDigit (k % 16) ∧ hexDigit (k % 16) ≤ 126 := by
  have h : ∀ j : Fin 16, 32 ≤ hexDigit j ∧ hexDigit j ≤ 126 := by decide +kernel
  exact h ⟨k % 16, Nat.mod_lt _ (by decide)⟩

theorem hex4_printable (n : Nat) : Printable (hex4 n) := by
  intro b hb
  unfold hex4 at hb
  simp only [List.mem_cons, List.not_mem_nil, or_false] at hb
  rcases hb with h | h | h | h | h | h
  · subst h; decide
  · subst h; decide
  all_goals subst h; exact hex_printable _

theorem esc_printable (c : Char) : Printable (escChar c) := by
  unfold escChar
  dsimp only
  repeat' split
  all_goals first
    | exact hex4_printable _
    | exact (hex4_printable _).append (hex4_printable _)
    | skip
  all_goals try (intro b hb; revert hb b; decide)
  intro b hb
  rename_i h
  rw [List.mem_singleton] at hb
  subst hb
  have h1 : (UInt8.ofNat c.toNat).toNat = c.toNat := by
    rw [UInt8.toNat_ofNat']; omega
  constructor
  · rw [UInt8.le_iff_toNat_le, h1]; exact h.1
  · rw [UInt8.le_iff_toNat_le, h1]; exact h.2

theorem jstr_printable (s : String) : Printable (jstr s) := by
  intro b hb
  unfold jstr at hb
  rcases List.mem_cons.1 hb with h | h
  · subst h; decide
  · rcases List.mem_append.1 h with h | h
    · obtain ⟨c, -, hc⟩ := List.mem_flatMap.1 h
      exact esc_printable c b hc
    · rw [List.mem_singleton] at h; subst h; decide

theorem decInt_printable (n : Int) : Printable (decInt n) := by
  have h : ∀ m : Nat, Printable (decInt m) := by
    intro m b hb
    have := Ljh.decInt_digit (n := (m : Int)) (by omega) b hb
    simp only [UInt8.le_iff_toNat_le] at this ⊢
    simp at this ⊢
    omega
  by_cases hn : n < 0
  · have h1 : decInt n = 45 :: decInt (n.natAbs : Int) := by
      unfold decInt
      rw [if_pos hn, if_neg (by omega), Int.natAbs_natCast]
    rw [h1]
    intro b hb
    rcases List.mem_cons.1 hb with h' | h'
    · subst h'; decide
    · exact h _ b h'
  · have : n = (n.natAbs : Int) := by omega
    rw [this]; exact h _

theorem line_of {p s : Bytes} (hp : Printable p) (hs : Printable s) (hsp : p.head? = some 32) {suf : Bytes} (hsuf : suf = asc "\n" ∨ suf = asc ",\n") :
    Line (p ++ (s ++ suf)) := by
  cases p with
  | nil => cases hsp
  | cons a t =>
    cases hsp
    have ht : Printable t := fun b hb => hp b (by simp [hb])
    rcases hsuf with rfl | rfl
    · exact ⟨t ++ s, ht.append hs, by rw [show asc "\n" = [10] by decide +kernel]; simp⟩
    · refine ⟨t ++ (s ++ [44]), ht.append (hs.append (by intro b hb; rw [List.mem_singleton] at hb; subst hb; decide)), ?_⟩
      rw [show asc ",\n" = [44, 10] by decide +kernel]; simp

theorem blanks_printable (k : Nat) : Printable (blanks k) := by
  intro b hb
  rw [List.eq_of_mem_replicate hb]; decide

theorem blanks_head {k : Nat} (hk : 0 < k) (l : Bytes) : (blanks k ++ l).head? = some 32 := by
  obtain ⟨m, rfl⟩ : ∃ m, k = m + 1 := ⟨k - 1, by omega⟩
  unfold blanks
  rw [show 4 * (m + 1) = (4 * m + 3) + 1 by omega, List.replicate_succ]
  rfl

mutual
theorem J.lines_ok {lvl : Nat} (hl : 0 < lvl) {pre suf : Bytes} (hp : Printable pre) (hsp : pre.head? = some 32)
    (hsuf : suf = asc "\n" ∨ suf = asc ",\n") : ∀ (j : J), j.Plain → ∀ l ∈ j.lines lvl pre suf, Line l
  | .int n, _, l, h => by
    rw [J.lines, List.mem_singleton] at h
    rw [h]; exact line_of hp (decInt_printable n) hsp hsuf
  | .flt t, hj, l, h => by
    rw [J.lines, List.mem_singleton] at h
    rw [J.Plain] at hj
    rw [h]; exact line_of hp hj hsp hsuf
  | .str s, _, l, h => by
    rw [J.lines, List.mem_singleton] at h
    rw [h]; exact line_of hp (jstr_printable s) hsp hsuf
  | .obj fs, hj, l, h => by
    rw [J.lines, List.mem_cons, List.mem_append, List.mem_singleton] at h
    rw [J.Plain] at hj
    rcases h with h | h | h
    · rw [h]
      have := line_of hp (s := [123]) (by intro b hb; rw [List.mem_singleton] at hb; subst hb; decide) hsp (suf := asc "\n") (.inl rfl)
      rw [show [123] ++ asc "\n" = asc "{\n" by decide +kernel] at this
      exact this
    · exact Fs.lines_ok (lvl := lvl + 1) (by omega) fs hj l h
    · rw [h]
      exact line_of (blanks_printable lvl) (s := asc "}") (by unfold Printable; decide +kernel) (by have := blanks_head hl []; simpa using this) hsuf
theorem Fs.lines_ok {lvl : Nat} (hl : 0 < lvl) : ∀ (fs : Fs), fs.Plain → ∀ l ∈ fs.lines lvl, Line l
  | .nil, _, l, h => by rw [Fs.lines] at h; cases h
  | .cons k v .nil, hj, l, h => by
    rw [Fs.lines] at h
    rw [Fs.Plain] at hj
    exact J.lines_ok hl ((blanks_printable lvl).append ((jstr_printable k).append (by unfold Printable; decide +kernel))) (blanks_head hl _) (.inl rfl) v hj.1 l h
  | .cons k v (.cons k' v' t), hj, l, h => by
    rw [Fs.lines, List.mem_append] at h
    rw [Fs.Plain] at hj
    rcases h with h | h
    · exact J.lines_ok hl ((blanks_printable lvl).append ((jstr_printable k).append (by unfold Printable; decide +kernel))) (blanks_head hl _) (.inr rfl) v hj.1 l h
    · exact Fs.lines_ok hl (.cons k' v' t) hj.2 l h
end


/-- C158. The header that is written, whatever the names of the files, is lines of ASCII text none of which is `}` alone, and then that line. -/
theorem header_lines (fs : Fs) (h : fs.Plain) : ∃ pre : List Bytes, (∀ l ∈ pre, IsLine l ∧ l ≠ asc "}\n" ∧ ∀ b ∈ l, b < 128) ∧
    headerText fs = pre.flatten ++ asc "}\n" := by
  refine ⟨asc "{\n" :: fs.lines 1, ?_, ?_⟩
  · intro l hl
    rcases List.mem_cons.1 hl with h' | h'
    · rw [h']
      exact ⟨⟨asc "{", by decide +kernel, by decide +kernel⟩, by decide +kernel, by decide +kernel⟩
    · obtain ⟨s, hs, rfl⟩ := Fs.lines_ok (lvl := 1) (by omega) fs h l h'
      have hp : ∀ b ∈ s, b ≠ 10 ∧ b < 128 := by
        intro b hb
        have := hs b hb
        simp only [UInt8.le_iff_toNat_le, UInt8.lt_iff_toNat_lt, ne_eq, ← UInt8.toNat_inj] at this ⊢
        simp at this ⊢
        omega
      refine ⟨⟨32 :: s, rfl, ?_⟩, ?_, ?_⟩
      · intro hm
        rcases List.mem_cons.1 hm with hm | hm
        · cases hm
        · exact (hp _ hm).1 rfl
      · rw [show asc "}\n" = [125, 10] by decide +kernel]
        intro hc
        injection hc with hc _
        exact absurd hc (by decide)
      · intro b hb
        rcases List.mem_cons.1 hb with h | h
        · subst h; decide
        · rcases List.mem_append.1 h with h | h
          · exact (hp b h).2
          · rw [List.mem_singleton] at h; subst h; decide
  · unfold headerText
    rw [J.lines, List.nil_append, show asc "}" ++ asc "\n" = asc "}\n" by decide +kernel, List.flatten_cons, List.flatten_append, List.flatten_cons]
    simp [blanks]

/-- C158. What a reader looks up in the header is what was given to the writer. -/
theorem header_content {α} (i : In α) (P B : Mat) (h5 : String) :
    hdrOf (.obj (headerDict i P B h5)) = some ⟨"OFF", "0.3.0", P.rows, false, P.rows, P.cols, B.rows, B.cols⟩ := by
  have hp : ∀ n : Nat, (J.int (n : Int)).asNat = some n := by
    intro n; unfold J.asNat; dsimp only; rw [if_pos (Int.natCast_nonneg n), Int.toNat_natCast]
  have hm : ∀ m : Mat, (matInfo m).get "Rows" = some (.int m.rows) ∧ (matInfo m).get "Cols" = some (.int m.cols) ∧
      (matInfo m).get "RowMajorFloat64ValuesBase64" = none := fun m => ⟨rfl, rfl, rfl⟩
  have h1 : (J.obj (headerDict i P B h5)).get "FileFormat" = some (.str "OFF") := rfl
  have h2 : (J.obj (headerDict i P B h5)).get "FileFormatVersion" = some (.str "0.3.0") := rfl
  have h3 : (J.obj (headerDict i P B h5)).get "NumberOfBases" = some (.int P.rows) := rfl
  have h4 : (J.obj (headerDict i P B h5)).get "ModelInfo" =
      some (.obj (.cons "Projectors" (matInfo P) <| .cons "Basis" (matInfo B) <| .cons "ModelFile" (.str h5) .nil)) := rfl
  have h5' : (J.obj (.cons "Projectors" (matInfo P) <| .cons "Basis" (matInfo B) <| .cons "ModelFile" (.str h5) .nil)).get "Projectors" = some (matInfo P) := rfl
  have h6 : (J.obj (.cons "Projectors" (matInfo P) <| .cons "Basis" (matInfo B) <| .cons "ModelFile" (.str h5) .nil)).get "Basis" = some (matInfo B) := rfl
  unfold hdrOf
  rw [h1, h2, h3, h4]
  simp only [bind, Option.bind, J.asStr, hp, h5', h6, (hm P).1, (hm P).2.1, (hm P).2.2, (hm B).1, (hm B).2.1, Option.isSome_none, Bool.false_and, pure]

/-! ### the records -/

theorem enc_length {r : OffRec} : (enc r).length = 36 + 4 * r.coefs.length := by
  have : ∀ cs : List (BitVec 32), (cs.flatMap (fun c => le 4 c.toNat)).length = 4 * cs.length := by
    intro cs
    induction cs with
    | nil => rfl
    | cons a t ih => rw [List.flatMap_cons, List.length_append, ih, Ljh.le_length, List.length_cons]; omega
  unfold enc
  simp only [List.length_append, Ljh.le_length, this]
  omega

theorem flat_get {β} (f : β → Bytes) {s : Nat} : ∀ (l : List β) (_ : ∀ x ∈ l, (f x).length = s) (i : Nat) (hi : i < l.length) (tl : Bytes),
    (((l.flatMap f) ++ tl).drop (i * s)).take s = f l[i]
  | [], _, i, hi, _ => by simp at hi
  | a :: t, hs, 0, _, tl => by
    rw [Nat.zero_mul, List.drop_zero, List.flatMap_cons, List.append_assoc, List.take_left' (hs a (by simp))]
    rfl
  | a :: t, hs, i + 1, hi, tl => by
    rw [List.flatMap_cons, Nat.add_mul, Nat.one_mul, Nat.add_comm, List.append_assoc, ← List.drop_drop, List.drop_left' (hs a (by simp)),
      flat_get f t (fun x hx => hs x (by simp [hx])) i (by simpa using hi) tl]
    rfl

theorem flat_length {β} (f : β → Bytes) {s : Nat} : ∀ (l : List β) (_ : ∀ x ∈ l, (f x).length = s), (l.flatMap f).length = l.length * s
  | [], _ => by simp
  | a :: t, hs => by
    rw [List.flatMap_cons, List.length_append, hs a (by simp), flat_length f t (fun x hx => hs x (by simp [hx])), List.length_cons, Nat.add_mul]
    omega

theorem segLoop_none {α} (conv : α → OffRec) (step : Nat) (recs : List α) : ∀ ss : List Nat,
    segLoop none conv step recs ss = (ss.flatMap (fun lo => ((recs.drop lo).take step).flatMap (fun x => enc (conv x))), none)
  | [] => rfl
  | lo :: t => by rw [segLoop, segLoop_none conv step recs t]; rfl

/-- C158. One LJH file with data: nothing is written if its records cannot be converted; otherwise one record for each of its records, in order. -/
theorem convert_eq {α} (P B : Mat) (ign : Int) (fields : List (String × Nat)) (conv : In α → α → OffRec) (i : In α) :
    convertFile P B ign fields conv i =
      if i.binSize = 0 then ([], some .zeroDiv)
      else if i.recs = [] then ([], none)
      else match segCheck P B ign fields i with
        | some e => ([], some e)
        | none => (i.recs.flatMap (fun x => enc (conv i x)), none) := by
  unfold convertFile
  by_cases hb : i.binSize = 0
  · rw [if_pos hb, if_pos hb]
  rw [if_neg hb, if_neg hb]
  have h := Ljh.off_covers_once (conv i) (by omega : 0 < i.binSize) i.recs
  unfold Ljh.recordsToOff at h
  rw [if_neg hb] at h
  dsimp only at h ⊢
  injection h with h
  obtain ⟨h1, h2⟩ := Prod.mk.inj h
  rw [h2, if_neg (by simp)]
  cases hc : segCheck P B ign fields i with
  | none =>
    rw [segLoop_none]
    have : (i.recs.map (conv i)).flatMap enc = i.recs.flatMap (fun x => enc (conv i x)) := by rw [List.flatMap_map]
    rw [← h1, List.flatMap_assoc] at this
    simp only [List.flatMap_map] at this
    rw [this]
    split
    · rename_i hr; rw [hr]; rfl
    · rfl
  | some e =>
    split
    · rename_i hr
      have h0 : segStarts 0 (max (2 ^ 21 / i.binSize) 1) = [] := by
        have : 0 < max (2 ^ 21 / i.binSize) 1 := Nat.lt_of_lt_of_le (by decide) (Nat.le_max_right _ _)
        generalize max (2 ^ 21 / i.binSize) 1 = step at this
        unfold segStarts
        rw [Nat.div_eq_of_lt (by omega)]; rfl
      rw [hr, List.length_nil, h0]; rfl
    · rename_i hr
      have : segStarts i.recs.length (max (2 ^ 21 / i.binSize) 1) ≠ [] := by
        intro h0
        rw [h0] at h1
        simp at h1
        exact hr h1
      cases hs : segStarts i.recs.length (max (2 ^ 21 / i.binSize) 1) with
      | nil => exact absurd hs this
      | cons a t => rfl

/-- C158. A file is converted to the end only if its records are as long as the projectors expect, the projectors and basis fit together and the part of the pretrigger that is used is within
the record and not empty; otherwise nothing is written for it. The first two problems raise AssertionError and ValueError. -/
theorem convert_refuses {α} (P B : Mat) (ign : Int) (fields : List (String × Nat)) (conv : In α → α → OffRec) (i : In α) (hb : 0 < i.binSize) (hr : i.recs ≠ []) :
    ((convertFile P B ign fields conv i).2 = none ↔ P.cols = i.nSamples ∧ B.cols = P.rows ∧ (B.rows = i.nSamples ∨ B.rows = 1 ∨ i.nSamples = 1) ∧ ign < i.nPre ∧ i.nPre - ign ≤ i.nSamples ∧
      "pretriggerDelta" ∈ fields.map Prod.fst) ∧ ((convertFile P B ign fields conv i).2 ≠ none → (convertFile P B ign fields conv i).1 = []) ∧
      (P.cols ≠ i.nSamples → (convertFile P B ign fields conv i).2 = some .assertion) ∧ (P.cols = i.nSamples → B.cols ≠ P.rows → (convertFile P B ign fields conv i).2 = some .value) := by
  rw [convert_eq, if_neg (by omega), if_neg hr]
  have hs : (segCheck P B ign fields i = none ↔ P.cols = i.nSamples ∧ B.cols = P.rows ∧ (B.rows = i.nSamples ∨ B.rows = 1 ∨ i.nSamples = 1) ∧ ign < i.nPre ∧ i.nPre - ign ≤ i.nSamples ∧
      "pretriggerDelta" ∈ fields.map Prod.fst) ∧ (P.cols ≠ i.nSamples → segCheck P B ign fields i = some .assertion) ∧
      (P.cols = i.nSamples → B.cols ≠ P.rows → segCheck P B ign fields i = some .value) := by
    unfold segCheck
    refine ⟨?_, fun h => if_pos h, fun h h' => by rw [if_neg (by simpa using h), if_pos h']⟩
    split_ifs with h1 h2 h3 h4 h5
    · exact ⟨fun h => by simp at h, fun h => absurd h.1 h1⟩
    · exact ⟨fun h => by simp at h, fun h => absurd h.2.1 h2⟩
    · exact ⟨fun h => by simp at h, fun h => by have := h.2.2.2; omega⟩
    · exact ⟨fun _ => ⟨by omega, by omega, h3, by omega, by omega, h5⟩, fun _ => rfl⟩
    · exact ⟨fun h => by simp at h, fun h => absurd h.2.2.2.2.2 h5⟩
    · exact ⟨fun h => by simp at h, fun h => absurd h.2.2.1 h3⟩
  cases hc : segCheck P B ign fields i with
  | none => rw [hc] at hs; exact ⟨by simpa using hs.1, by simp, fun h => by simpa using hs.2.1 h, fun h h' => by simpa using hs.2.2 h h'⟩
  | some e => rw [hc] at hs; exact ⟨by simpa using hs.1, by simp, fun h => by simpa using hs.2.1 h, fun h h' => by simpa using hs.2.2 h h'⟩

/-- an LJH file can be converted to the end [specification] -/
def Good {α} (P B : Mat) (ign : Int) (fields : List (String × Nat)) (i : In α) : Prop :=
  0 < i.binSize ∧ (i.recs = [] ∨ segCheck P B ign fields i = none)

/-- an LJH file ends the conversion with this exception [specification] -/
def Bad {α} (P B : Mat) (ign : Int) (fields : List (String × Nat)) (e : Exc) : Except Exc (In α) → Prop
  | .error e' => e' = e
  | .ok i => (i.binSize = 0 ∧ e = .zeroDiv) ∨ (0 < i.binSize ∧ i.recs ≠ [] ∧ segCheck P B ign fields i = some e)

/-- the records for a list of LJH files: all of the first, then all of the second, ... [specification] -/
def allRecs {α} (conv : In α → α → OffRec) (l : List (In α)) : List OffRec := l.flatMap (fun i => i.recs.map (conv i))

/-- C158. Several LJH files: the records of the files before the first which cannot be opened or converted are written, in order, and nothing of that one or of those after it. -/
theorem loop_spec {α} (P B : Mat) (ign : Int) (fields : List (String × Nat)) (conv : In α → α → OffRec) : ∀ inputs : List (Except Exc (In α)),
    ∃ good rest, inputs = good.map .ok ++ rest ∧ (∀ i ∈ good, Good P B ign fields i) ∧
      (fileLoop P B ign fields conv inputs).1 = (allRecs conv good).flatMap enc ∧
      ((fileLoop P B ign fields conv inputs).2 = none ∧ rest = [] ∨
        ∃ e x t, (fileLoop P B ign fields conv inputs).2 = some e ∧ rest = x :: t ∧ Bad P B ign fields e x)
  | [] => ⟨[], [], rfl, by simp, rfl, .inl ⟨rfl, rfl⟩⟩
  | .error e :: t => ⟨[], .error e :: t, rfl, by simp, rfl, .inr ⟨e, .error e, t, rfl, rfl, rfl⟩⟩
  | .ok i :: t => by
    have hgo : Good P B ign fields i → convertFile P B ign fields conv i = (i.recs.flatMap (fun x => enc (conv i x)), none) := by
      rintro ⟨hb, hr⟩
      rw [convert_eq, if_neg (by omega)]
      rcases hr with hr | hr
      · rw [if_pos hr, hr]; rfl
      · split
        · rename_i h0; rw [h0]; rfl
        · rw [hr]
    by_cases hg : Good P B ign fields i
    · obtain ⟨good, rest, h1, h2, h3, h4⟩ := loop_spec P B ign fields conv t
      have hf : fileLoop P B ign fields conv (.ok i :: t) =
          (i.recs.flatMap (fun x => enc (conv i x)) ++ (fileLoop P B ign fields conv t).1, (fileLoop P B ign fields conv t).2) := by
        rw [fileLoop, hgo hg]
      refine ⟨i :: good, rest, by rw [h1]; rfl, ?_, ?_, ?_⟩
      · intro j hj
        rcases List.mem_cons.1 hj with h | h
        · rw [h]; exact hg
        · exact h2 j h
      · rw [hf, h3]
        unfold allRecs
        rw [List.flatMap_cons, List.flatMap_append, List.flatMap_map]
      · rw [hf]; exact h4
    · have : ∃ e, convertFile P B ign fields conv i = ([], some e) ∧ Bad P B ign fields e (.ok i) := by
        rw [convert_eq]
        by_cases hb : i.binSize = 0
        · exact ⟨.zeroDiv, by rw [if_pos hb], .inl ⟨hb, rfl⟩⟩
        · rw [if_neg hb]
          by_cases hr : i.recs = []
          · exact absurd ⟨by omega, .inl hr⟩ hg
          · rw [if_neg hr]
            cases hc : segCheck P B ign fields i with
            | none => exact absurd ⟨by omega, .inr hc⟩ hg
            | some e => exact ⟨e, rfl, .inr ⟨by omega, hr, hc⟩⟩
      obtain ⟨e, he, hbad⟩ := this
      have hf : fileLoop P B ign fields conv (.ok i :: t) = ([], some e) := by rw [fileLoop, he]
      exact ⟨[], .ok i :: t, rfl, by simp, by rw [hf]; rfl, .inr ⟨e, .ok i, t, by rw [hf], rfl, hbad⟩⟩

/-! ### opening what was written -/

/-- projectors and basis fit together, and are arrays of float64 [specification] -/
def Fit (P B : Mat) : Prop :=
  B.rows = P.cols ∧ B.cols = P.rows ∧ P.bytes.length = 8 * (P.rows * P.cols) ∧ B.bytes.length = 8 * (P.rows * P.cols)

/-- `OffFile`'s reading of the header, for any `json.loads` (off.py L79-86) -/
def reader (loads : Bytes → Option J) (b : Bytes) : Option Hdr := (loads b).bind hdrOf

/-- `json.loads` gives back the dictionary whose text was written [specification] -/
def Loads {α} (loads : Bytes → Option J) (i : In α) (P B : Mat) (h5 : String) : Prop :=
  loads (headerText (headerDict i P B h5)) = some (.obj (headerDict i P B h5))

theorem open_text {α} {loads : Bytes → Option J} {i : In α} {P B : Mat} {h5 : String} (hl : Loads loads i P B h5) (htb : Printable i.tb)
    (h1 : B.rows = P.cols) (h2 : B.cols = P.rows) (body : Bytes) :
    ((∃ o, openOff (reader loads) (headerText (headerDict i P B h5) ++ body) = .ok o) ↔ 16 * (P.rows * P.cols) ≤ body.length) ∧
    (∀ o, openOff (reader loads) (headerText (headerDict i P B h5) ++ body) = .ok o →
      o.size = 36 + 4 * max P.rows 3 ∧ o.after = (headerText (headerDict i P B h5)).length + 16 * (P.rows * P.cols) ∧
      o.nRecords = (body.length - 16 * (P.rows * P.cols)) / o.size) := by
  obtain ⟨pre, hpre, ht⟩ := header_lines (headerDict i P B h5) (by simp [headerDict, matInfo, Fs.Plain, J.Plain, htb])
  have hj : reader loads (pre.flatten ++ asc "}\n") = some ⟨"OFF", "0.3.0", P.rows, false, P.rows, P.cols, B.rows, B.cols⟩ := by
    unfold reader
    unfold Loads at hl
    rw [← ht, hl]
    exact header_content i P B h5
  have h := open_iff (body := body) hpre hj
  have ho := fun o => header_offset_partial (body := body) (o := o) hpre hj
  rw [ht]
  rw [List.append_assoc]
  have hsz : 2 * (8 * B.rows * B.cols) = 16 * (P.rows * P.cols) := by
    rw [h1, h2, Nat.mul_assoc, Nat.mul_comm P.cols]; omega
  simp only [Bool.false_eq_true, if_false, hsz] at h ho
  refine ⟨h.1.trans ⟨fun x => x.2, fun x => ⟨⟨rfl, .inr (.inr rfl), h1, h2, rfl⟩, x⟩⟩, fun o hoo => ?_⟩
  obtain ⟨a, b⟩ := h.2 o hoo
  exact ⟨a, ho o hoo, b⟩

theorem take_header {pre : List Bytes} (hpre : ∀ l ∈ pre, IsLine l ∧ l ≠ asc "}\n") : ∀ {k : Nat}, k < (pre.flatten ++ asc "}\n").length →
    asc "}\n" ∉ splitLines ((pre.flatten ++ asc "}\n").take k) := by
  induction pre with
  | nil =>
    intro k hk
    rw [List.flatten_nil, List.nil_append] at hk ⊢
    rw [show asc "}\n" = [125, 10] by decide +kernel] at hk ⊢
    rcases k with _ | _ | k
    · decide
    · decide
    · simp only [List.length_cons, List.length_nil] at hk; omega
  | cons a t ih =>
    intro k hk
    rw [List.flatten_cons, List.append_assoc] at hk ⊢
    by_cases hka : k < a.length
    · rw [List.take_append_of_le_length (by omega)]
      obtain ⟨s, rfl, hs⟩ := (hpre a (by simp)).1
      rw [List.length_append, List.length_singleton] at hka
      rw [List.take_append_of_le_length (by omega)]
      intro hm
      have h10 : ∀ (g l : Bytes), (10 : UInt8) ∉ g → l ∈ splitLines g → (10 : UInt8) ∉ l := by
        intro g
        induction g with
        | nil => intro l _ h; rw [splitLines] at h; cases h
        | cons x g ihg =>
          intro l hx h
          rw [splitLines, if_neg (fun hc => hx (by simp [hc]))] at h
          have hg : (10 : UInt8) ∉ g := fun hc => hx (by simp [hc])
          cases hsp : splitLines g with
          | nil =>
            rw [hsp] at h
            rw [List.mem_singleton] at h
            subst h
            intro hc
            rw [List.mem_singleton] at hc
            exact hx (by simp [hc])
          | cons l' ls =>
            rw [hsp] at h
            rcases List.mem_cons.1 h with h | h
            · subst h
              intro hc
              rcases List.mem_cons.1 hc with hc | hc
              · exact hx (by simp [hc])
              · exact ihg l' hg (by rw [hsp]; simp) hc
            · exact ihg l hg (by rw [hsp]; simp [h])
      refine h10 (s.take k) _ (fun hc => hs (List.mem_of_mem_take hc)) hm ?_
      decide +kernel
    · obtain ⟨j, rfl⟩ : ∃ j, k = a.length + j := ⟨k - a.length, by omega⟩
      rw [List.take_length_add_append, Ljh.splitLines_line (hpre a (by simp)).1]
      intro hm
      rcases List.mem_cons.1 hm with hm | hm
      · exact (hpre a (by simp)).2 hm.symm
      · refine ih (fun l hl => hpre l (by simp [hl])) ?_ hm
        simp only [List.length_append] at hk ⊢
        omega

/-- what `multi_ljh2off` leaves on disk: header, projectors, basis, and the records of the LJH files before the first bad one -/
theorem file_spec {α} {ver : String} {P B : Mat} {ign : Int} {h5 : String} {conv : In α → α → OffRec} {inputs : List (Except Exc (In α))} {f : Bytes} {err : Option Exc}
    (h : multiLjh2off ver P B ign h5 conv inputs = (some f, err)) :
    ∃ i0 good rest fs, inputs.head? = some (.ok i0) ∧ recordFields ver P.rows false = .ok fs ∧ inputs = good.map .ok ++ rest ∧ (∀ i ∈ good, Good P B ign fs i) ∧
      f = headerText (headerDict i0 P B h5) ++ (P.bytes ++ (B.bytes ++ (allRecs conv good).flatMap enc)) ∧
      (err = none ∧ rest = [] ∨ ∃ e x t, err = some e ∧ rest = x :: t ∧ Bad P B ign fs e x) := by
  cases inputs with
  | nil => rw [multiLjh2off] at h; cases h
  | cons x t =>
    cases x with
    | error e => rw [multiLjh2off] at h; cases h
    | ok i =>
      rw [multiLjh2off] at h
      cases hr : recordFields ver P.rows false with
      | error e => rw [hr] at h; cases h
      | ok fs =>
        rw [hr] at h
        dsimp only at h
        obtain ⟨h1, h2⟩ := Prod.mk.inj h
        injection h1 with h1
        obtain ⟨good, rest, g1, g2, g3, g4⟩ := loop_spec P B ign fs conv (.ok i :: t)
        refine ⟨i, good, rest, fs, rfl, rfl, g1, g2, ?_, ?_⟩
        · rw [← h1, g3]
        · rw [← h2]; exact g4

/-- C158. Wherever the writing stops — at the end, with an exception, or cut after any number of bytes — the file is refused as long as the projectors and the basis are not
complete, and otherwise opens with exactly the complete records of what was written, each as it was written. -/
theorem crash {α} {P B : Mat} {ign : Int} {h5 : String} {conv : In α → α → OffRec} {inputs : List (Except Exc (In α))} {f : Bytes} {err : Option Exc}
    (h : multiLjh2off "0.3.0" P B ign h5 conv inputs = (some f, err)) (hc : ∀ i x, (conv i x).coefs.length = P.rows) (hn : 3 ≤ P.rows) (hfit : Fit P B)
    {loads : Bytes → Option J} (hl : ∀ i : In α, inputs.head? = some (.ok i) → Loads loads i P B h5 ∧ Printable i.tb) (k : Nat) :
    ∃ good rest start, inputs = good.map .ok ++ rest ∧ (err = none → rest = []) ∧ start ≤ f.length ∧ f.length = start + (allRecs conv good).length * (36 + 4 * P.rows) ∧
      (k < start → ∃ e, openOff (reader loads) (f.take k) = .error e) ∧
      (start ≤ k → ∃ o, openOff (reader loads) (f.take k) = .ok o ∧ o.nRecords = min (allRecs conv good).length ((k - start) / (36 + 4 * P.rows)) ∧
        ∀ j (hj : j < (allRecs conv good).length), j < o.nRecords → record o (f.take k) j = .ok (enc (allRecs conv good)[j])) := by
  obtain ⟨i0, good, rest, fs, hi0, -, g1, -, hf, g3⟩ := file_spec h
  obtain ⟨hload, htb⟩ := hl i0 hi0
  obtain ⟨f1, f2, f3, f4⟩ := hfit
  obtain ⟨pre, hpre, ht⟩ := header_lines (headerDict i0 P B h5) (by simp [headerDict, matInfo, Fs.Plain, J.Plain, htb])
  have hot := open_text hload htb f1 f2
  have hlen : ∀ r ∈ allRecs conv good, (enc r).length = 36 + 4 * P.rows := by
    intro r hr
    unfold allRecs at hr
    obtain ⟨i, -, hr⟩ := List.mem_flatMap.1 hr
    obtain ⟨x, -, rfl⟩ := List.mem_map.1 hr
    rw [enc_length, hc]
  have hfl := flat_length enc _ hlen
  generalize hH : headerText (headerDict i0 P B h5) = H at hf hot ht
  obtain ⟨R, hR⟩ : ∃ R, R = allRecs conv good := ⟨_, rfl⟩
  rw [← hR] at hf hlen hfl
  have hmax : max P.rows 3 = P.rows := by omega
  rw [hmax] at hot
  generalize hS : 36 + 4 * P.rows = S at hlen hfl hot ⊢
  have hSpos : 0 < S := by omega
  generalize hM : P.rows * P.cols = M at f3 f4 hot
  have hflen : f.length = H.length + 16 * M + R.length * S := by
    rw [hf]; simp only [List.length_append, f3, f4, hfl]; omega
  subst hR
  refine ⟨good, rest, H.length + 16 * M, g1, ?_, by omega, hflen, ?_, ?_⟩
  · intro he
    rcases g3 with ⟨-, h⟩ | ⟨e, x, t, h, -⟩
    · exact h
    · rw [he] at h; cases h
  · intro hk
    by_cases hkH : k < H.length
    · refine ⟨.exception, open_no_header ?_⟩
      rw [hf, List.take_append_of_le_length (by omega)]
      rw [ht] at hkH ⊢
      exact take_header (fun l hl => ⟨(hpre l hl).1, (hpre l hl).2.1⟩) hkH
    · obtain ⟨j, rfl⟩ : ∃ j, k = H.length + j := ⟨k - H.length, by omega⟩
      rw [hf, List.take_length_add_append]
      cases ho : openOff (reader loads) (H ++ (P.bytes ++ (B.bytes ++ (allRecs conv good).flatMap enc)).take j) with
      | error e => exact ⟨e, rfl⟩
      | ok o =>
        have := (hot _).1.1 ⟨o, ho⟩
        rw [List.length_take] at this
        omega
  · intro hk
    obtain ⟨j, rfl⟩ : ∃ j, k = H.length + 16 * M + j := ⟨k - (H.length + 16 * M), by omega⟩
    have htake : f.take (H.length + 16 * M + j) = H ++ (P.bytes ++ (B.bytes ++ ((allRecs conv good).flatMap enc).take j)) := by
      rw [hf, Nat.add_assoc, List.take_length_add_append, show 16 * M + j = P.bytes.length + (B.bytes.length + j) by rw [f3, f4]; omega,
        List.take_length_add_append, List.take_length_add_append]
    have hbl : (P.bytes ++ (B.bytes ++ ((allRecs conv good).flatMap enc).take j)).length = 16 * M + min j ((allRecs conv good).length * S) := by
      simp only [List.length_append, List.length_take, f3, f4, hfl]; omega
    rw [htake]
    obtain ⟨o, ho⟩ := (hot (P.bytes ++ (B.bytes ++ ((allRecs conv good).flatMap enc).take j))).1.2 (by rw [hbl]; omega)
    obtain ⟨o1, o2, o3⟩ := (hot _).2 o ho
    rw [hbl, o1, Nat.add_sub_cancel_left] at o3
    have hnr : o.nRecords = min (allRecs conv good).length (j / S) := by
      rw [o3]
      by_cases hjs : j ≤ (allRecs conv good).length * S
      · rw [Nat.min_eq_left hjs]
        have := Nat.div_le_div_right (c := S) hjs
        rw [Nat.mul_div_cancel _ hSpos] at this
        omega
      · rw [Nat.min_eq_right (by omega), Nat.mul_div_cancel _ hSpos]
        have := Nat.div_le_div_right (c := S) (show (allRecs conv good).length * S ≤ j by omega)
        rw [Nat.mul_div_cancel _ hSpos] at this
        omega
    refine ⟨o, ho, by rw [hnr, Nat.add_sub_cancel_left], ?_⟩
    intro q hq hqo
    have hqS : (q + 1) * S ≤ min j ((allRecs conv good).length * S) := by
      have h1 : q + 1 ≤ min j ((allRecs conv good).length * S) / S := by rw [← o3]; omega
      calc (q + 1) * S ≤ min j ((allRecs conv good).length * S) / S * S := Nat.mul_le_mul_right _ h1
        _ ≤ _ := Nat.div_mul_le_self _ _
    have hfits : Fits o (H ++ (P.bytes ++ (B.bytes ++ ((allRecs conv good).flatMap enc).take j))) := by
      unfold Fits
      rw [o1, o2, o3, List.length_append, hbl]
      have := Nat.div_mul_le_self (min j ((allRecs conv good).length * S)) S
      omega
    rw [record_ok hfits hqo, o1, o2]
    congr 1
    rw [Nat.add_assoc, ← List.drop_drop, List.drop_left, show 16 * M + q * S = P.bytes.length + (B.bytes.length + q * S) by rw [f3, f4]; omega,
      ← List.drop_drop, List.drop_left, ← List.drop_drop, List.drop_left, List.drop_take, List.take_take]
    rw [Nat.add_mul, Nat.one_mul] at hqS
    rw [Nat.min_eq_left (by omega)]
    have := flat_get enc _ hlen q hq []
    rw [List.append_nil] at this
    exact this

/-- C158. A conversion without exception gives a file that opens and has one record for each record of all the LJH files, in order. -/
theorem written_opens {α} {P B : Mat} {ign : Int} {h5 : String} {conv : In α → α → OffRec} (inputs : List (In α)) (hne : inputs ≠ [])
    (hgood : ∀ i ∈ inputs, 0 < i.binSize ∧ i.nSamples = P.cols ∧ 0 < i.nPre - ign ∧ i.nPre - ign ≤ i.nSamples)
    (hc : ∀ i x, (conv i x).coefs.length = P.rows) (hn : 3 ≤ P.rows) (hfit : Fit P B)
    {loads : Bytes → Option J} (hl : ∀ i ∈ inputs, Loads loads i P B h5 ∧ Printable i.tb) :
    ∃ f o, multiLjh2off "0.3.0" P B ign h5 conv (inputs.map .ok) = (some f, none) ∧ openOff (reader loads) f = .ok o ∧
      o.nRecords = (allRecs conv inputs).length ∧ ∀ j (hj : j < (allRecs conv inputs).length), record o f j = .ok (enc (allRecs conv inputs)[j]) := by
  cases inputs with
  | nil => exact absurd rfl hne
  | cons i0 t =>
    obtain ⟨fs, hfs⟩ : ∃ fs, recordFields "0.3.0" P.rows false = .ok fs := ⟨_, rfl⟩
    have hmem : "pretriggerDelta" ∈ fs.map Prod.fst := by
      have : recordFields "0.3.0" P.rows false = .ok ([("recordSamples", 4), ("recordPreSamples", 4), ("framecount", 8), ("unixnano", 8),
        ("pretriggerMean", 4), ("pretriggerDelta", 4), ("residualStdDev", 4)] ++ coefFields P.rows false) := rfl
      rw [this] at hfs
      injection hfs with hfs
      rw [← hfs]; simp
    have hck : ∀ i ∈ i0 :: t, segCheck P B ign fs i = none := by
      intro i hi
      obtain ⟨-, a, b, c⟩ := hgood i hi
      unfold segCheck
      rw [if_neg (by omega), if_neg (by rw [hfit.2.1]; simp), if_neg (by rw [hfit.1, a]; simp), if_neg (by omega), if_pos hmem]
    have hfin : ∃ f, multiLjh2off "0.3.0" P B ign h5 conv ((i0 :: t).map .ok) = (some f, none) := by
      rw [List.map_cons, multiLjh2off, hfs]
      dsimp only
      obtain ⟨good, rest, g1, -, -, g4⟩ := loop_spec P B ign fs conv (.ok i0 :: t.map .ok)
      rcases g4 with ⟨h, -⟩ | ⟨e, x, t', -, hr, hb⟩
      · rw [h]; exact ⟨_, rfl⟩
      · exfalso
        have hx : x ∈ (i0 :: t).map Except.ok := by
          rw [List.map_cons, g1, hr]; simp
        obtain ⟨i, hi, rfl⟩ := List.mem_map.1 hx
        rcases hb with ⟨h0, -⟩ | ⟨-, -, h⟩
        · have := (hgood i hi).1; omega
        · rw [hck i hi] at h; cases h
    obtain ⟨f, hf⟩ := hfin
    obtain ⟨good, rest, start, g1, g2, g3, g4, -, g6⟩ := crash hf hc hn hfit (loads := loads) (fun i hi => by
      rw [List.map_cons, List.head?_cons] at hi
      cases hi
      exact hl i0 (by simp)) f.length
    have : good = i0 :: t := by
      rw [g2 rfl, List.append_nil] at g1
      exact (List.map_injective_iff.2 (fun a b h => by cases h; rfl) g1).symm
    subst this
    obtain ⟨o, h1, h2, h3⟩ := g6 g3
    rw [List.take_length] at h1 h3
    have hnr : o.nRecords = (allRecs conv (i0 :: t)).length := by
      rw [h2, g4, Nat.add_sub_cancel_left, Nat.mul_div_cancel _ (by omega)]; omega
    exact ⟨f, o, hf, h1, hnr, fun j hj => h3 j hj (by omega)⟩

theorem mid (a b c : Bytes) {n k : Nat} (ha : a.length = n) (hb : b.length = k) : ((a ++ (b ++ c)).drop n).take k = b := by
  subst ha hb
  rw [List.drop_left, List.take_left]

/-- off.py L153-168 `_decodeModelInfoMmap`: the bytes mapped as projectors and as basis -/
def modelArrays (h : Hdr) (headerLen : Nat) (f : Bytes) : Bytes × Bytes :=
  let nBytes := h.bCols * h.bRows * 8
  let basisPos := headerLen + nBytes
  ((f.drop headerLen).take nBytes, (f.drop basisPos).take nBytes)

/-- C158. The projectors and the basis read back are those given, whatever happened to the records. -/
theorem arrays_read {α} {ver : String} {P B : Mat} {ign : Int} {h5 : String} {conv : In α → α → OffRec} {inputs : List (Except Exc (In α))} {f : Bytes} {err : Option Exc}
    (h : multiLjh2off ver P B ign h5 conv inputs = (some f, err)) (hfit : Fit P B) (hd : Hdr)
    (hh : ∀ i : In α, inputs.head? = some (.ok i) → hdrOf (.obj (headerDict i P B h5)) = some hd) :
    ∃ i, inputs.head? = some (.ok i) ∧ modelArrays hd (headerText (headerDict i P B h5)).length f = (P.bytes, B.bytes) := by
  obtain ⟨i0, good, rest, fs, hi0, -, -, -, hf, -⟩ := file_spec h
  refine ⟨i0, hi0, ?_⟩
  have := hh i0 hi0
  rw [header_content] at this
  cases this
  obtain ⟨f1, f2, f3, f4⟩ := hfit
  have hn : B.cols * B.rows * 8 = 8 * (P.rows * P.cols) := by rw [f1, f2]; omega
  unfold modelArrays
  dsimp only
  rw [hn, hf, mid _ _ _ rfl f3, ← List.drop_drop, List.drop_left, mid _ _ _ f3 f4]

/-! ### reading the fields of a record -/

/-- a field of a record as a number, or its bits if it is a float (`off[i][name]`, off.py L118-120) -/
def field (fs : List (String × Nat)) (name : String) (b : Bytes) : Option Nat := (fieldAt name 0 fs).map (fun p => leNat ((b.drop p.1).take p.2))

/-- C158. Every field read by its name from a record that was written has the value written: the first three coefficients by their names, the others in order. -/
theorem fields_read (r : OffRec) (hn : 3 ≤ r.coefs.length) : ∃ fs, recordFields "0.3.0" r.coefs.length true = .ok fs ∧
    field fs "recordSamples" (enc r) = some r.samples.toNat ∧ field fs "recordPreSamples" (enc r) = some r.pre.toNat ∧
    field fs "framecount" (enc r) = some r.frame.toNat ∧ field fs "unixnano" (enc r) = some r.nano.toNat ∧
    field fs "pretriggerMean" (enc r) = some r.ptMean.toNat ∧ field fs "pretriggerDelta" (enc r) = some r.ptDelta.toNat ∧
    field fs "residualStdDev" (enc r) = some r.resid.toNat ∧
    field fs "pulseMean" (enc r) = some (r.coefs[0]).toNat ∧ field fs "derivativeLike" (enc r) = some (r.coefs[1]).toNat ∧
    field fs "filtValue" (enc r) = some (r.coefs[2]).toNat ∧
    ∀ k (hk : k + 3 < r.coefs.length), ∃ p, fieldAt "extraCoefs" 0 fs = some p ∧ 4 * k + 4 ≤ p.2 ∧
      leNat (((enc r).drop (p.1 + 4 * k)).take 4) = (r.coefs[k + 3]).toNat := by
  have h4 : ∀ v : BitVec 32, leNat (le 4 v.toNat) = v.toNat := by
    intro v; rw [Ljh.leNat_le]; exact Nat.mod_eq_of_lt (by have := v.isLt; omega)
  have h8 : ∀ v : BitVec 64, leNat (le 8 v.toNat) = v.toNat := by
    intro v; rw [Ljh.leNat_le]; exact Nat.mod_eq_of_lt (by have := v.isLt; omega)
  have hco : ∀ k (hk : k < r.coefs.length), leNat (((enc r).drop (36 + 4 * k)).take 4) = (r.coefs[k]).toNat := by
    intro k hk
    have hd : (enc r).drop (36 + 4 * k) = ((r.coefs.flatMap (fun c : BitVec 32 => le 4 c.toNat)) ++ []).drop (k * 4) := by
      have : enc r = (le 4 r.samples.toNat ++ (le 4 r.pre.toNat ++ (le 8 r.frame.toNat ++ (le 8 r.nano.toNat ++ (le 4 r.ptMean.toNat ++ (le 4 r.ptDelta.toNat ++
          le 4 r.resid.toNat)))))) ++ r.coefs.flatMap (fun c => le 4 c.toNat) := by
        unfold enc; simp only [List.append_assoc]
      rw [this, List.append_nil, ← List.drop_drop, List.drop_left' (by simp only [List.length_append, Ljh.le_length]), Nat.mul_comm]
    rw [hd, flat_get (fun c : BitVec 32 => le 4 c.toNat) r.coefs (fun x _ => Ljh.le_length 4 _) k hk [], h4]
  refine ⟨_, rfl, ?_, ?_, ?_, ?_, ?_, ?_, ?_, ?_, ?_, ?_, ?_⟩
  · show some (leNat (((enc r).drop 0).take 4)) = _
    have := mid [] (le 4 r.samples.toNat) (le 4 r.pre.toNat ++ (le 8 r.frame.toNat ++ (le 8 r.nano.toNat ++ (le 4 r.ptMean.toNat ++ (le 4 r.ptDelta.toNat ++
      (le 4 r.resid.toNat ++ r.coefs.flatMap (fun c => le 4 c.toNat))))))) (n := 0) (k := 4) rfl (Ljh.le_length _ _)
    rw [List.nil_append] at this
    unfold enc
    rw [this, h4]
  · show some (leNat (((enc r).drop 4).take 4)) = _
    have := mid (le 4 r.samples.toNat) (le 4 r.pre.toNat) (le 8 r.frame.toNat ++ (le 8 r.nano.toNat ++ (le 4 r.ptMean.toNat ++ (le 4 r.ptDelta.toNat ++
      (le 4 r.resid.toNat ++ r.coefs.flatMap (fun c => le 4 c.toNat)))))) (n := 4) (k := 4) (Ljh.le_length _ _) (Ljh.le_length _ _)
    unfold enc
    rw [this, h4]
  · show some (leNat (((enc r).drop 8).take 8)) = _
    have := mid (le 4 r.samples.toNat ++ le 4 r.pre.toNat) (le 8 r.frame.toNat) (le 8 r.nano.toNat ++ (le 4 r.ptMean.toNat ++ (le 4 r.ptDelta.toNat ++
      (le 4 r.resid.toNat ++ r.coefs.flatMap (fun c => le 4 c.toNat))))) (n := 8) (k := 8) (by simp only [List.length_append, Ljh.le_length]) (Ljh.le_length _ _)
    simp only [List.append_assoc] at this
    unfold enc
    rw [this, h8]
  · show some (leNat (((enc r).drop 16).take 8)) = _
    have := mid (le 4 r.samples.toNat ++ (le 4 r.pre.toNat ++ le 8 r.frame.toNat)) (le 8 r.nano.toNat) (le 4 r.ptMean.toNat ++ (le 4 r.ptDelta.toNat ++
      (le 4 r.resid.toNat ++ r.coefs.flatMap (fun c => le 4 c.toNat)))) (n := 16) (k := 8) (by simp only [List.length_append, Ljh.le_length]) (Ljh.le_length _ _)
    simp only [List.append_assoc] at this
    unfold enc
    rw [this, h8]
  · show some (leNat (((enc r).drop 24).take 4)) = _
    have := mid (le 4 r.samples.toNat ++ (le 4 r.pre.toNat ++ (le 8 r.frame.toNat ++ le 8 r.nano.toNat))) (le 4 r.ptMean.toNat) (le 4 r.ptDelta.toNat ++
      (le 4 r.resid.toNat ++ r.coefs.flatMap (fun c => le 4 c.toNat))) (n := 24) (k := 4) (by simp only [List.length_append, Ljh.le_length]) (Ljh.le_length _ _)
    simp only [List.append_assoc] at this
    unfold enc
    rw [this, h4]
  · show some (leNat (((enc r).drop 28).take 4)) = _
    have := mid (le 4 r.samples.toNat ++ (le 4 r.pre.toNat ++ (le 8 r.frame.toNat ++ (le 8 r.nano.toNat ++ le 4 r.ptMean.toNat)))) (le 4 r.ptDelta.toNat)
      (le 4 r.resid.toNat ++ r.coefs.flatMap (fun c => le 4 c.toNat)) (n := 28) (k := 4) (by simp only [List.length_append, Ljh.le_length]) (Ljh.le_length _ _)
    simp only [List.append_assoc] at this
    unfold enc
    rw [this, h4]
  · show some (leNat (((enc r).drop 32).take 4)) = _
    have := mid (le 4 r.samples.toNat ++ (le 4 r.pre.toNat ++ (le 8 r.frame.toNat ++ (le 8 r.nano.toNat ++ (le 4 r.ptMean.toNat ++ le 4 r.ptDelta.toNat)))))
      (le 4 r.resid.toNat) (r.coefs.flatMap (fun c => le 4 c.toNat)) (n := 32) (k := 4) (by simp only [List.length_append, Ljh.le_length]) (Ljh.le_length _ _)
    simp only [List.append_assoc] at this
    unfold enc
    rw [this, h4]
  · show some (leNat (((enc r).drop 36).take 4)) = _
    rw [hco 0 (by omega)]
  · show some (leNat (((enc r).drop 40).take 4)) = _
    rw [hco 1 (by omega)]
  · show some (leNat (((enc r).drop 44).take 4)) = _
    rw [hco 2 (by omega)]
  · intro k hk
    refine ⟨(48, 4 * (r.coefs.length - 3)), ?_, by dsimp only; omega, ?_⟩
    · show fieldAt "extraCoefs" 36 (coefFields r.coefs.length true) = _
      unfold coefFields
      rw [if_pos rfl, if_pos (by omega)]
      rfl
    · have := hco (k + 3) hk
      rw [show 36 + 4 * (k + 3) = 48 + 4 * k by omega] at this
      exact this

/-! ### where it goes wrong -/

/-- Disagreement (C158): `multi_ljh2off` takes the version of the OFF file to write, but only 0.3.0 works: with 0.1.0 or 0.2.0 the first record raises ValueError (the layout has no field
pretriggerDelta), and what is left on disk is a file of version 0.3.0 without records. -/
theorem old_version_fails {α} {ver : String} (hv : ver = "0.1.0" ∨ ver = "0.2.0") {P B : Mat} (ign : Int) (h5 : String) (conv : In α → α → OffRec) (i : In α) (t : List (Except Exc (In α)))
    (hi : 0 < i.binSize ∧ i.nSamples = P.cols ∧ 0 < i.nPre - ign ∧ i.nPre - ign ≤ i.nSamples) (hr : i.recs ≠ []) (hfit : Fit P B) :
    multiLjh2off ver P B ign h5 conv (.ok i :: t) = (some (headerText (headerDict i P B h5) ++ (P.bytes ++ B.bytes)), some .value) := by
  obtain ⟨fs, hfs, hm⟩ : ∃ fs, recordFields ver P.rows false = .ok fs ∧ "pretriggerDelta" ∉ fs.map Prod.fst := by
    rcases hv with rfl | rfl <;> exact ⟨_, rfl, by simp [coefFields]⟩
  obtain ⟨a, b, c, d⟩ := hi
  have hck : segCheck P B ign fs i = some .value := by
    unfold segCheck
    rw [if_neg (by omega), if_neg (by rw [hfit.2.1]; simp), if_neg (by rw [hfit.1, b]; simp), if_neg (by omega), if_neg hm]
  have hcv : convertFile P B ign fs conv i = ([], some .value) := by
    rw [convert_eq, if_neg (by omega), if_neg hr, hck]
  rw [multiLjh2off, hfs]
  dsimp only
  rw [fileLoop, hcv, List.append_nil]

/-- Disagreement (C158): the header always says that projectors and basis are float64, but they are written as they are; with float32 arrays the file is refused, or has fewer records than
were written. -/
theorem float32_fails {α} {P B : Mat} {ign : Int} {h5 : String} {conv : In α → α → OffRec} {inputs : List (In α)} {f : Bytes}
    (h : multiLjh2off "0.3.0" P B ign h5 conv (inputs.map .ok) = (some f, none)) (hc : ∀ i x, (conv i x).coefs.length = P.rows) (hn : 3 ≤ P.rows)
    (h1 : B.rows = P.cols) (h2 : B.cols = P.rows) (hpos : 0 < P.cols) (h3 : P.bytes.length = 4 * (P.rows * P.cols)) (h4 : B.bytes.length = 4 * (P.rows * P.cols))
    (hr : allRecs conv inputs ≠ []) {loads : Bytes → Option J} (hl : ∀ i ∈ inputs, Loads loads i P B h5 ∧ Printable i.tb) (o : OffFile)
    (ho : openOff (reader loads) f = .ok o) : o.nRecords < (allRecs conv inputs).length := by
  obtain ⟨i0, good, rest, fs, hi0, -, g1, -, hf, g3⟩ := file_spec h
  have hrest : rest = [] := by
    rcases g3 with ⟨-, h⟩ | ⟨e, x, t, h, -⟩
    · exact h
    · cases h
  have hgood : good = inputs := by
    rw [hrest, List.append_nil] at g1
    exact (List.map_injective_iff.2 (fun a b h => by cases h; rfl) g1).symm
  subst hgood
  obtain ⟨hload, htb⟩ := hl i0 (by
    cases good with
    | nil => cases hi0
    | cons a t => rw [List.map_cons, List.head?_cons] at hi0; cases hi0; simp)
  have hlen : ∀ r ∈ allRecs conv good, (enc r).length = 36 + 4 * P.rows := by
    intro r hr
    unfold allRecs at hr
    obtain ⟨i, -, hr⟩ := List.mem_flatMap.1 hr
    obtain ⟨x, -, rfl⟩ := List.mem_map.1 hr
    rw [enc_length, hc]
  have hfl := flat_length enc _ hlen
  rw [hf] at ho
  obtain ⟨o1, -, o3⟩ := (open_text hload htb h1 h2 _).2 o ho
  have hmax : max P.rows 3 = P.rows := by omega
  rw [hmax] at o1
  have hM : 0 < P.rows * P.cols := Nat.mul_pos (by omega) hpos
  have hR : 0 < (allRecs conv good).length := List.length_pos_iff.2 hr
  rw [o3, o1, Nat.div_lt_iff_lt_mul (by omega)]
  simp only [List.length_append, h3, h4, hfl]
  have : 0 < (allRecs conv good).length * (36 + 4 * P.rows) := Nat.mul_pos hR (by omega)
  omega

/-- Disagreement (C158): with fewer than three basis elements the file has fewer records than were written (their size is read as that of three coefficients). -/
theorem few_bases_fails {α} {P B : Mat} {ign : Int} {h5 : String} {conv : In α → α → OffRec} {inputs : List (In α)} {f : Bytes}
    (h : multiLjh2off "0.3.0" P B ign h5 conv (inputs.map .ok) = (some f, none)) (hc : ∀ i x, (conv i x).coefs.length = P.rows) (hn : P.rows < 3) (hfit : Fit P B)
    (hr : allRecs conv inputs ≠ []) {loads : Bytes → Option J} (hl : ∀ i ∈ inputs, Loads loads i P B h5 ∧ Printable i.tb) (o : OffFile)
    (ho : openOff (reader loads) f = .ok o) : o.nRecords < (allRecs conv inputs).length := by
  obtain ⟨i0, good, rest, fs, hi0, -, g1, -, hf, g3⟩ := file_spec h
  have hrest : rest = [] := by
    rcases g3 with ⟨-, h⟩ | ⟨e, x, t, h, -⟩
    · exact h
    · cases h
  have hgood : good = inputs := by
    rw [hrest, List.append_nil] at g1
    exact (List.map_injective_iff.2 (fun a b h => by cases h; rfl) g1).symm
  subst hgood
  obtain ⟨hload, htb⟩ := hl i0 (by
    cases good with
    | nil => cases hi0
    | cons a t => rw [List.map_cons, List.head?_cons] at hi0; cases hi0; simp)
  have hlen : ∀ r ∈ allRecs conv good, (enc r).length = 36 + 4 * P.rows := by
    intro r hr
    unfold allRecs at hr
    obtain ⟨i, -, hr⟩ := List.mem_flatMap.1 hr
    obtain ⟨x, -, rfl⟩ := List.mem_map.1 hr
    rw [enc_length, hc]
  have hfl := flat_length enc _ hlen
  rw [hf] at ho
  obtain ⟨h1, h2, h3, h4⟩ := hfit
  obtain ⟨o1, -, o3⟩ := (open_text hload htb h1 h2 _).2 o ho
  have hmax : max P.rows 3 = 3 := by omega
  rw [hmax] at o1
  have hR : 0 < (allRecs conv good).length := List.length_pos_iff.2 hr
  rw [o3, o1, Nat.div_lt_iff_lt_mul (by omega)]
  simp only [List.length_append, h3, h4, hfl]
  have h5 : (allRecs conv good).length * (36 + 4 * P.rows) ≤ (allRecs conv good).length * 44 := Nat.mul_le_mul_left _ (by omega)
  omega

/-! ### instances -/

/-- projectors and a basis of three elements for records of two samples (example data, cites no lines) [specification] -/
def demoP : Mat := ⟨3, 2, 8, List.replicate 48 7⟩
/-- the basis (example data, cites no lines) [specification] -/
def demoB : Mat := ⟨2, 3, 8, List.replicate 48 9⟩
/-- an LJH file with these records (example data, cites no lines) [specification] -/
def demoIn (recs : List Nat) : In Nat := ⟨asc "0.01", "a\"\n}\nµ_chan1.ljh", 0, -1, 1, 8, 2, 2, 40, recs⟩
/-- a conversion (example data, cites no lines) [specification] -/
def demoConv (_ : In Nat) (x : Nat) : OffRec := ⟨2, 2, BitVec.ofNat 64 x, 5, 1, 2, 3, [BitVec.ofNat 32 (10 * x), 20, 30]⟩

/-- number of records, then frame count and first coefficient of record `j` (example data, cites no lines) [specification] -/
def demoShow (f : Bytes) (j : Nat) : Option (List Nat) :=
  match openOff (fun _ => hdrOf (.obj (headerDict (demoIn [4, 5]) demoP demoB "m.hdf5"))) f, recordFields "0.3.0" 3 true with
  | .ok o, .ok fs =>
    match record o f j with
    | .ok b => some [o.nRecords, (field fs "framecount" b).getD 0, (field fs "pulseMean" b).getD 0]
    | .error _ => none
  | _, _ => none

/-- `written_opens`, instance: two files, with a name that needs escapes; three records come back, each with its fields -/
example : ((multiLjh2off "0.3.0" demoP demoB 1 "m.hdf5" demoConv [.ok (demoIn [4, 5]), .ok (demoIn [6])]).1.map (fun f => (List.range 4).map (demoShow f))) =
    some [some [3, 4, 40], some [3, 5, 50], some [3, 6, 60], none] := by decide +kernel

/-- `header_lines`, instance: the escaped name -/
example : jstr "a\"\n}\nµ" = asc "\"a\\\"\\n}\\n\\u00b5\"" := by decide +kernel

/-- `loop_spec` and `crash`, instances: the second file has no data; what was written before stays -/
example : (multiLjh2off "0.3.0" demoP demoB 1 "m.hdf5" demoConv [.ok (demoIn [4, 5]), .ok { demoIn [] with binSize := 0 }, .ok (demoIn [6])]).2 = some .zeroDiv ∧
    (multiLjh2off "0.3.0" demoP demoB 1 "m.hdf5" demoConv [.ok (demoIn [4, 5]), .ok { demoIn [] with binSize := 0 }, .ok (demoIn [6])]).1 =
      (multiLjh2off "0.3.0" demoP demoB 1 "m.hdf5" demoConv [.ok (demoIn [4, 5])]).1 := by decide +kernel

/-- `old_version_fails`, instance -/
example : (multiLjh2off "0.2.0" demoP demoB 1 "m.hdf5" demoConv [.ok (demoIn [4, 5])]).2 = some .value := by decide +kernel

/-- the hypothesis on json.loads can be met [specification] -/
example : ∃ loads : Bytes → Option J, Loads loads (demoIn [4, 5]) demoP demoB "m.hdf5" ∧ Printable (demoIn [4, 5]).tb ∧ Fit demoP demoB :=
  ⟨fun _ => some (.obj (headerDict (demoIn [4, 5]) demoP demoB "m.hdf5")), rfl, by unfold Printable; decide +kernel, by unfold Fit; decide +kernel⟩

end Mass.Off.Write
