import Verif.Py
/-! Model of file-name handling: mass/core/ljh_util.py and the channel number of mass/core/files.py.

A path is a list of characters. Simplification throughout: `\d`, `int()` and `str.isdigit` know only the
ASCII digits (Python also accepts other Unicode decimal digits). -/
namespace Mass.Names

abbrev Str := List Char

/-- the literal "_chan" (used for ljh_util.py L53) -/
def chanTag : Str := ['_', 'c', 'h', 'a', 'n']

/-- ljh_util.py L53: does the regular expression `_chan\d+` match here? Result: the (greedy) digits. -/
def matchAt (l : Str) : Option Str :=
  if chanTag.isPrefixOf l then
    let ds := (l.drop 5).takeWhile Char.isDigit
    if ds = [] then none else some ds
  else none

/-- ljh_util.py L53 `re.finditer(r"_chan\d+", fname)`: (start, digits) of the non-overlapping matches from
left to right. `skip` characters are still inside the previous match. -/
def finditer : Nat → Nat → Str → List (Nat × Str)
  | _, _, [] => []
  | skip + 1, pos, _ :: t => finditer skip (pos + 1) t
  | 0, pos, c :: t =>
    match matchAt (c :: t) with
    | some ds => (pos, ds) :: finditer (4 + ds.length) (pos + 1) t
    | none => finditer 0 (pos + 1) t

/-- `int(s)` of a non-empty string of ASCII digits (used for ljh_util.py L53-63) -/
def intOfDigits (ds : Str) : Nat := ds.foldl (fun a c => 10 * a + (c.toNat - '0'.toNat)) 0

/-- posixpath: the part after the last '/' (used for ljh_util.py L58, L73) -/
def tailPart (p : Str) : Str := (p.reverse.takeWhile (· != '/')).reverse
/-- posixpath: the part up to and including the last '/' (used for ljh_util.py L58, L73) -/
def headPart (p : Str) : Str := p.take (p.length - (tailPart p).length)

/-- `os.path.splitext` (Python library, posixpath; used at ljh_util.py L58, L73). -/
def splitext (p : Str) : Str × Str :=
  let after := (tailPart p).reverse.takeWhile (· != '.')
  match (tailPart p).reverse.drop after.length with
  | [] => (p, [])
  | _ :: revBefore =>
    if revBefore.any (· != '.') then (headPart p ++ revBefore.reverse, '.' :: after.reverse)
    else (p, [])

/-- `os.path.split` (Python library; ljh_util.py L51). -/
def pathSplit (p : Str) : Str × Str :=
  let h := headPart p
  (if h.all (· == '/') then h else (h.reverse.dropWhile (· == '/')).reverse, tailPart p)

/-- `os.path.join(a, b)` (Python library; ljh_util.py L52). -/
def pathJoin (a b : Str) : Str :=
  if b.head? = some '/' then b
  else if a = [] ∨ a.getLast? = some '/' then a ++ b
  else a ++ '/' :: b

/-- ljh_util.py L49-50: strip trailing slashes; IndexError when nothing is left. -/
def stripSlashes (p : Str) : Except Exc Str :=
  let q := (p.reverse.dropWhile (· == '/')).reverse
  if q = [] then .error .index else .ok q

/-- ljh_util.py L53-63: the parse itself. -/
def parseName (fname : Str) : Str × Option Nat :=
  match (finditer 0 0 fname).getLast? with
  | none => ((splitext fname).1, none)
  | some (start, ds) => (fname.take start, some (intOfDigits ds))

/-- ljh_util.py L37-63 `ljh_basename_channum`; `isdir` is the file system's answer to `path.isdir`. -/
def basenameChannum (isdir : Str → Bool) (fname : Str) : Except Exc (Str × Option Nat) :=
  if isdir fname then do
    let f ← stripSlashes fname
    let (b, d) := pathSplit f
    pure (parseName (pathJoin (pathJoin b d) d))
  else .ok (parseName fname)

/-- ljh_util.py L66-68 `ljh_channum` -/
def channum (isdir : Str → Bool) (fname : Str) : Except Exc (Option Nat) := do
  let r ← basenameChannum isdir fname
  pure r.2

/-- `f"{chan}"` for a non-negative int (CPython prints the decimal digits without leading zeros). (used for ljh_util.py L71-74) -/
def decimal (n : Nat) : Str := Nat.toDigits 10 n

/-- ljh_util.py L71-74 `ljh_chan_names` -/
def chanNames (isdir : Str → Bool) (fname : Str) (chans : List Nat) : Except Exc (List Str) := do
  let (b, _) ← basenameChannum isdir fname
  let ext := (splitext fname).2
  pure (chans.map (fun c => b ++ (chanTag ++ (decimal c ++ ext))))

/-- `s.split("_chan")` (Python library; files.py L205): `cur` is the current piece, reversed. -/
def splitTag : Nat → Str → Str → List Str
  | _, cur, [] => [cur.reverse]
  | skip + 1, cur, _ :: t => splitTag skip cur t
  | 0, cur, c :: t =>
    if chanTag.isPrefixOf (c :: t) then cur.reverse :: splitTag 4 [] t
    else splitTag 0 (c :: cur) t

/-- Python's ASCII whitespace for `int()` (used for files.py L205) -/
def isSpace (c : Char) : Bool := c = ' ' || c = '\t' || c = '\n' || c = '\r' || c = '\x0b' || c = '\x0c'

/-- digits with single underscores between digits, as `int()` accepts; `prev` = previous char was a digit (used for files.py L205) -/
def intBody : Bool → Nat → Str → Option Nat
  | prev, a, [] => if prev then some a else none
  | prev, a, c :: t =>
    if c.isDigit then intBody true (10 * a + (c.toNat - '0'.toNat)) t
    else if c = '_' ∧ prev then intBody false a t
    else none

/-- Python `int(s)` on a string: optional whitespace, sign, digits with underscores; else ValueError. (used for files.py L205) -/
def pyInt (s : Str) : Except Exc Int :=
  let s := ((s.dropWhile isSpace).reverse.dropWhile isSpace).reverse
  let r := match s with
    | '-' :: t => (intBody false 0 t).map (fun n => -(n : Int))
    | '+' :: t => (intBody false 0 t).map (fun n => (n : Int))
    | t => (intBody false 0 t).map (fun n => (n : Int))
  match r with
  | some n => .ok n
  | none => .error .value

/-- files.py L205 `int(filename.split("_chan")[1].split(".")[0])` -/
def fileChannum (fname : Str) : Except Exc Int :=
  match (splitTag 0 [] fname)[1]? with
  | none => .error .index
  | some piece => pyInt (piece.takeWhile (· != '.'))

/-- one of the dicts `{ljh_channum(f): f for f in filenames}` (ljh_util.py L130, L142) looked up at `c`:
the last file with that channel wins. `ch` is `ljh_channum`. -/
def nameOf (ch : Str → Option Nat) (files : List Str) (c : Option Nat) : Option Str :=
  (files.filter (fun f => ch f == c)).getLast?

/-- ljh_util.py L153-156: `for c in order: filenames.remove(names[c])`. -/
def removeLoop (ch : Str → Option Nat) (files : List Str) : List (Option Nat) → List Str → List Str
  | [], l => l
  | c :: cs, l => removeLoop ch files cs (match nameOf ch files c with | some f => l.erase f | none => l)

/-- ljh_util.py L147-150: is channel `c` valid? -/
def validChan (ch : Str → Option Nat) (f1 f2 : List Str) (never only : Option (List (Option Nat)))
    (c : Option Nat) : Bool :=
  (f1.map ch).contains c && (f2.isEmpty || (f2.map ch).contains c) &&
  (match never with | none => true | some l => !l.contains c) &&
  (match only with | none => true | some l => l.contains c)

/-- distinct elements, in order of first occurrence: the members of `set(...)` (used for ljh_util.py L107-156) -/
def distinct (l : List (Option Nat)) : List (Option Nat) :=
  l.foldl (fun acc c => if acc.contains c then acc else acc ++ [c]) []

/-- ljh_util.py L107-156 `remove_unpaired_channel_files`: the two lists afterwards. Python iterates the sets
`cnum - valid_cnum` (L153, L155) in an unspecified order; `ord` is that (arbitrary) reordering.
(The channel numbers of the file names, `ch`, are total here: the IndexError of `ljh_channum("/")` is
not modelled at this level.) -/
def removeUnpaired (ch : Str → Option Nat) (ord : List (Option Nat) → List (Option Nat))
    (f1 f2 : List Str) (never only : Option (List (Option Nat))) : List Str × List Str :=
  if f1 = [] then (f1, f2)
  else
    let invalid := fun c => !validChan ch f1 f2 never only c
    (removeLoop ch f1 (ord ((distinct (f1.map ch)).filter invalid)) f1,
     removeLoop ch f2 (ord ((distinct (f2.map ch)).filter invalid)) f2)

/-- code-point order on names, as Python compares strings (used for ljh_util.py L159-184) -/
def strLe : Str → Str → Bool
  | [], _ => true
  | _ :: _, [] => false
  | a :: s, b :: t => if a = b then strLe s t else decide (a.toNat < b.toNat)

/-- insertion into a sorted list, before the first element that is not smaller (used for ljh_util.py L159-184) -/
def insertBy {α} (le : α → α → Bool) (x : α) : List α → List α
  | [] => [x]
  | y :: ys => if le x y then x :: y :: ys else y :: insertBy le x ys

/-- A stable sort (the output of a stable sort does not depend on the algorithm; Python uses timsort). (used for ljh_util.py L159-184) -/
def stableSort {α} (le : α → α → Bool) (l : List α) : List α := l.foldr (insertBy le) []

/-- ljh_util.py L159-184 `ljh_sort_filenames_numerically`. The first component of the result is `None` when the
input is empty. With an inclusion list, `filter(...)` returns an iterator without a `sort` method
(AttributeError, L183). Sorting by `ljh_channum` raises TypeError when two names are compared and one
has no channel number. -/
def sortNames (ch : Str → Option Nat) (fnames : List Str) (inclusion : Option (List Nat)) :
    Except Exc (Option (List Str)) :=
  if fnames = [] then .ok none
  else match inclusion with
    | some _ => .error .attribute
    | none =>
      let s := stableSort strLe fnames
      if s.length ≥ 2 ∧ s.any (fun f => (ch f).isNone) then .error .type
      else .ok (some (stableSort (fun a b => decide ((ch a).getD 0 ≤ (ch b).getD 0)) s))

end Mass.Names
