import Verif.Ljh.PropsModify
import Verif.Names.Props
/-! C177: the script bin/ljh_merge, on top of the models of `LJHFile.open`, `ljh_append_traces` and the names of files. Printing is left out. -/
namespace Mass.Ljh.Merge
open Mass.Names (Str pathJoin pathSplit decimal chanTag sortNames strLe fileChannum)

/-- `shutil.copy(src, dst)` to the name of a file (Python library; bin/ljh_merge L25): the same file twice is refused (SameFileError, an
OSError), a source that does not exist is found out before the destination is opened -/
def copyFile (fs : Fs) (src dst : Str) : Fs × Option Exc :=
  if (fs.ino dst).isSome && fs.ino src == fs.ino dst then (fs, some .os)
  else match fs.ino src with
    | none => (fs, some .os)
    | some si => ((fs.openW dst).1.append (fs.openW dst).2 (fs.data si), none)

/-- bin/ljh_merge L31-36: the loop over the files after the first; RuntimeError is `.exception` -/
def mergeLoop (pf : Bytes → Option Rat) (chan : Int) (out : Str) : Fs → List Str → Fs × Option Exc
  | fs, [] => (fs, none)
  | fs, p :: t =>
    match openFile pf fs p with
    | .error e => (fs, some e)
    | .ok (l, _) =>
      if l.channum ≠ chan then (fs, some .exception)
      else match appendTraces pf fs p out none with
        | (fs', some e) => (fs', some e)
        | (fs', none) => mergeLoop pf chan out fs' t

/-- bin/ljh_merge L22-39 `merge` -/
def merge (pf : Bytes → Option Rat) (fs : Fs) (out : Str) (files : List Str) (overwrite : Bool) : Fs × Option Exc :=
  if !overwrite && (fs.ino out).isSome then (fs, some .os)
  else match files with
    | [] => (fs, some .index)
    | p :: t => match copyFile fs p out with
      | (fs1, some e) => (fs1, some e)
      | (fs1, none) => match openFile pf fs1 out with
        | .error e => (fs1, some e)
        | .ok (l, _) => mergeLoop pf l.channum out fs1 t

/-- `f"{n}"` of an int (bin/ljh_merge L88) -/
def intStr (n : Int) : Str := if n < 0 then '-' :: decimal n.natAbs else decimal n.natAbs

/-- bin/ljh_merge L71-73: the patterns expanded one after the other. `glob` is `glob.glob`, in whatever order; `ch` is `ljh_channum`. A pattern
that matches nothing is expanded to None (ljh_util.py L187-201), and `list.extend(None)` raises TypeError. -/
def expandAll (glob : Str → List Str) (ch : Str → Option Nat) : List Str → Except Exc (List Str)
  | [] => .ok []
  | p :: t => match sortNames ch (glob p) none with
    | .error e => .error e
    | .ok none => .error .type
    | .ok (some l) => match expandAll glob ch t with
      | .error e => .error e
      | .ok r => .ok (l ++ r)

/-- bin/ljh_merge L85-88: the name of the output -/
def outPath (outdir first : Str) (channum : Int) : Str :=
  pathJoin (if outdir = [] then (pathSplit first).1 else outdir) ("merged_chan".toList ++ (intStr channum ++ ".ljh".toList))

/-- bin/ljh_merge L42-90 `main`, after the arguments are parsed -/
def main (pf : Bytes → Option Rat) (glob : Str → List Str) (ch : Str → Option Nat) (fs : Fs) (patterns : List Str) (outdir : Str)
    (force dry : Bool) : Fs × Option Exc :=
  match expandAll glob ch patterns with
  | .error e => (fs, some e)
  | .ok [] => (fs, some .assertion)
  | .ok (p :: t) =>
    if dry then (fs, none)
    else match openFile pf fs p with
      | .error e => (fs, some e)
      | .ok (l, _) => merge pf fs (outPath outdir p l.channum) (p :: t) force

/-! ### files -/

/-- the name `p` is a version 2.2 file, inode `i`, with exactly the records `recs` and nothing after them [specification] -/
structure Holds (pf : Bytes → Option Rat) (fs : Fs) (p : Str) (l : Ljh) (i : Nat) (recs : List Rec) : Prop where
  opens : openFile pf fs p = .ok (l, i)
  v22 : l.v22 = true
  whole : l.binarySize % l.pulseSize = 0
  newline : ((fs.data i).take l.headerSize).getLast? = some 10
  holds : records l (fs.data i) = recs.map .ok

/-- the name `p` is an LJH file (of any version) with channel number `c` and the records `recs`, of `n` samples each, at counts and times
that are not negative [specification] -/
def Source (pf : Bytes → Option Rat) (fs : Fs) (c : Int) (n di : Nat) (p : Str) (recs : List Rec) : Prop :=
  ∃ l i, openFile pf fs p = .ok (l, i) ∧ i ≠ di ∧ l.channum = c ∧ l.nSamples = n ∧ records l (fs.data i) = recs.map .ok ∧ ∀ r ∈ recs, Writable r

theorem append_all {pf : Bytes → Option Rat} {fs : Fs} (src dst : Str) {l : Ljh} {i : Nat} (h : openFile pf fs src = .ok (l, i)) :
    appendTraces pf fs src dst none = appendTraces pf fs src dst (some ((List.range l.nPulses).map (fun (i : Nat) => (i : Int)))) := by
  unfold appendTraces
  rw [h]

theorem forall₂_of {α β : Type} {R : α → β → Prop} : ∀ {a : List α} {b : List β}, a.length = b.length →
    (∀ k (h1 : k < a.length) (h2 : k < b.length), R a[k] b[k]) → List.Forall₂ R a b
  | [], [], _, _ => .nil
  | [], _ :: _, h, _ => by simp at h
  | _ :: _, [], h, _ => by simp at h
  | x :: a, y :: b, h, hr => .cons (hr 0 (by simp) (by simp)) (forall₂_of (by simpa using h) (fun k h1 h2 => by
      have := hr (k + 1) (by simpa using h1) (by simpa using h2)
      simpa using this))

theorem records_forall {l : Ljh} {f : Bytes} {recs : List Rec} (h : records l f = recs.map .ok) (hw : ∀ r ∈ recs, Writable r) :
    List.Forall₂ (fun i r => readRec l f i = .ok r ∧ Writable r) ((List.range l.nPulses).map (fun (i : Nat) => (i : Int))) recs := by
  have hlen : l.nPulses = recs.length := by simpa [records] using congrArg List.length h
  refine forall₂_of (by simp [hlen]) (fun k h1 h2 => ⟨?_, hw _ (List.getElem_mem h2)⟩)
  have e : (records l f)[k]? = some (readRec l f (k : Int)) := by
    unfold records
    rw [List.getElem?_map, List.getElem?_range (by omega)]; rfl
  rw [h, List.getElem?_map, List.getElem?_eq_getElem h2] at e
  simpa using e.symm

/-- appending a whole file to a whole file -/
theorem append_step {pf : Bytes → Option Rat} {fs : Fs} (hw : fs.WF) {src dst : Str} {l ld : Ljh} {si di : Nat} {old rs : List Rec}
    (hd : Holds pf fs dst ld di old) (ho : openFile pf fs src = .ok (l, si)) (hns : l.nSamples = ld.nSamples)
    (hr : records l (fs.data si) = rs.map .ok) (hwr : ∀ r ∈ rs, Writable r) :
    appendTraces pf fs src dst none = (fs.append di (rs.flatMap encRec), none) ∧
    Holds pf (fs.append di (rs.flatMap encRec)) dst { ld with binarySize := (old ++ rs).length * ld.pulseSize } di (old ++ rs) := by
  obtain ⟨old', l', h1, h2, h3, h4, h5⟩ := append_full hw ho hd.opens hd.v22 hns.symm hd.whole hd.newline (records_forall hr hwr)
  have : old' = old := by
    rw [hd.holds] at h1
    exact (List.map_inj_right (fun _ _ h => by injection h)).1 h1.symm
  subst this
  refine ⟨by rw [append_all _ _ ho, h2], by rw [← h4]; exact h3, hd.v22, ?_, ?_, by rw [← h4]; exact h5⟩
  · show _ * ld.pulseSize % ld.pulseSize = 0
    exact Nat.mul_mod_left _ _
  · rw [append_data_self]
    obtain ⟨-, hb⟩ := openFile_ok hd.opens
    obtain ⟨-, hle, -⟩ := openBytes_header hb
    rw [List.take_append_of_le_length hle]
    exact hd.newline

theorem source_append {pf : Bytes → Option Rat} {fs : Fs} {c : Int} {n di : Nat} {p : Str} {recs : List Rec} (b : Bytes)
    (h : Source pf fs c n di p recs) : Source pf (fs.append di b) c n di p recs := by
  obtain ⟨l, i, h1, h2, h3, h4, h5, h6⟩ := h
  obtain ⟨a1, a2⟩ := openFile_ok h1
  refine ⟨l, i, ?_, h2, h3, h4, ?_, h6⟩
  · unfold openFile
    rw [append_ino, a1]
    dsimp only
    rw [append_data_ne _ _ h2, a2]; rfl
  · rw [append_data_ne _ _ h2]; exact h5

theorem wf_append {fs : Fs} (hw : fs.WF) (i : Nat) (b : Bytes) : (fs.append i b).WF := hw

/-- the loop appends the records of file after file -/
theorem mergeLoop_ok {pf : Bytes → Option Rat} {c : Int} {out : Str} {di : Nat} {files : List Str} {rss : List (List Rec)} :
    ∀ {fs : Fs} {ld : Ljh} {old : List Rec}, fs.WF → Holds pf fs out ld di old → List.Forall₂ (Source pf fs c ld.nSamples di) files rss →
    ∀ rest : List Str, ∃ b ld', mergeLoop pf c out fs (files ++ rest) = mergeLoop pf c out (fs.append di b) rest ∧
      Holds pf (fs.append di b) out ld' di (old ++ rss.flatten) ∧ ld' = { ld with binarySize := ld'.binarySize } := by
  induction files generalizing rss with
  | nil =>
    intro fs ld old hw hd hs rest
    cases hs
    exact ⟨[], ld, by rw [append_nil]; rfl, by rw [append_nil]; simpa using hd, rfl⟩
  | cons p t ih =>
    intro fs ld old hw hd hs rest
    cases hs with
    | @cons _ rs _ rss' h ht =>
    obtain ⟨l, i, h1, h2, h3, h4, h5, h6⟩ := h
    obtain ⟨g1, g2⟩ := append_step hw hd h1 h4 h5 h6
    obtain ⟨b, ld', k1, k2, k3⟩ := ih (rss := rss') (wf_append hw di _) g2
      (ht.imp (fun _ _ h => source_append _ h)) rest
    refine ⟨rs.flatMap encRec ++ b, ld', ?_, ?_, k3.trans (by rfl)⟩
    · rw [List.cons_append, mergeLoop, h1]
      dsimp only
      rw [if_neg (by simp [h3]), g1]
      dsimp only
      rw [k1, append_append]
    · rw [← append_append]
      simpa using k2

theorem copy_ok {pf : Bytes → Option Rat} {fs : Fs} (hw : fs.WF) {p out : Str} {l : Ljh} {s0 : Nat} {recs : List Rec}
    (h : Holds pf fs p l s0 recs) (hne : fs.ino out ≠ some s0) (hc : fileChannum out = .ok l.channum) :
    ∃ fs1 di, copyFile fs p out = (fs1, none) ∧ fs1.WF ∧ Holds pf fs1 out l di recs ∧
      ∀ q i, fs.ino q = some i → fs.ino out ≠ some i → i ≠ di ∧ fs1.ino q = some i ∧ fs1.data i = fs.data i := by
  obtain ⟨hi, hb⟩ := openFile_ok h.opens
  obtain ⟨hrd, hle, hbs⟩ := openBytes_header hb
  obtain ⟨s1, s2, s3, s4, s5⟩ := openW_spec hw hi hne
  have hdat : (((fs.openW out).1.append (fs.openW out).2 (fs.data s0)).data (fs.openW out).2) = fs.data s0 := by
    rw [append_data_self, s2]; rfl
  have hop : openBytes pf out (fs.data s0) = .ok l := by
    have e : fs.data s0 = (fs.data s0).take l.headerSize ++ (fs.data s0).drop l.headerSize := (List.take_append_drop _ _).symm
    have hl : ((fs.data s0).take l.headerSize).length = l.headerSize := by rw [List.length_take]; omega
    have := openBytes_new (q := out) (hd := (fs.data s0).take l.headerSize) (b := (fs.data s0).drop l.headerSize) hb hc
      (by rw [← e, hl]; exact hrd)
    rw [← e, hl] at this
    rw [this]
    congr 1
    have hbin : ((fs.data s0).drop l.headerSize).length = l.binarySize := by rw [List.length_drop]; omega
    rw [hbin]
  refine ⟨(fs.openW out).1.append (fs.openW out).2 (fs.data s0), (fs.openW out).2, ?_, ?_, ⟨?_, h.v22, h.whole, ?_, ?_⟩, ?_⟩
  · unfold copyFile
    rw [if_neg (by rw [hi]; simpa using fun _ => Ne.symm hne), hi]
  · intro q i
    rw [append_ino]
    show (fs.openW out).1.ino q = some i → i < (fs.openW out).1.next
    unfold Fs.openW
    split
    · exact hw q i
    · dsimp only
      split
      · intro e; injection e with e; omega
      · intro e; have := hw q i e; omega
  · unfold openFile
    rw [append_ino, s1]
    dsimp only
    rw [hdat, hop]; rfl
  · rw [hdat]; exact h.newline
  · rw [hdat]; exact h.holds
  · intro q i hq hqo
    obtain ⟨-, -, t3, t4, t5⟩ := openW_spec hw hq hqo
    exact ⟨Ne.symm t3, by rw [append_ino, t5], by rw [append_data_ne _ _ (Ne.symm t3), t4]⟩


theorem source_of {pf : Bytes → Option Rat} {fs fs1 : Fs} {c : Int} {n di : Nat} {out : Str} {recs : List Rec}
    (hsame : ∀ q i, fs.ino q = some i → fs.ino out ≠ some i → i ≠ di ∧ fs1.ino q = some i ∧ fs1.data i = fs.data i) {p : Str} {l : Ljh} {i : Nat}
    (h1 : openFile pf fs p = .ok (l, i)) (h2 : fs.ino out ≠ some i) (h3 : l.channum = c) (h4 : l.nSamples = n)
    (h5 : records l (fs.data i) = recs.map .ok) (h6 : ∀ r ∈ recs, Writable r) : Source pf fs1 c n di p recs := by
  obtain ⟨a1, a2⟩ := openFile_ok h1
  obtain ⟨b1, b2, b3⟩ := hsame p i a1 h2
  refine ⟨l, i, ?_, b1, h3, h4, by rw [b3]; exact h5, h6⟩
  unfold openFile
  rw [b2]
  dsimp only
  rw [b3, a2]; rfl

/-- a file to be merged after the first: any LJH version, channel `c`, records `recs` of `n` samples, counts and times not negative, and not
the output file itself [specification] -/
def Input (pf : Bytes → Option Rat) (fs : Fs) (out : Str) (c : Int) (n : Nat) (p : Str) (recs : List Rec) : Prop :=
  ∃ l i, openFile pf fs p = .ok (l, i) ∧ fs.ino out ≠ some i ∧ l.channum = c ∧ l.nSamples = n ∧ records l (fs.data i) = recs.map .ok ∧
    ∀ r ∈ recs, Writable r

/-- the output `out` can be opened, with the description of the first file, and has exactly the records `recs` [specification] -/
def Merged (pf : Bytes → Option Rat) (fs' : Fs) (out : Str) (l : Ljh) (recs : List Rec) : Prop :=
  ∃ l' i, openFile pf fs' out = .ok (l', i) ∧ l'.dict = l.dict ∧ l'.v22 = true ∧ l'.nSamples = l.nSamples ∧ l'.nPresamples = l.nPresamples ∧
    l'.timebase = l.timebase ∧ l'.subDiv = l.subDiv ∧ l'.subOff = l.subOff ∧ l'.channum = l.channum ∧ records l' (fs'.data i) = recs.map .ok

theorem merged_of {pf : Bytes → Option Rat} {fs : Fs} {out : Str} {l l' : Ljh} {i : Nat} {recs : List Rec} (h : Holds pf fs out l' i recs)
    (e : l' = { l with binarySize := l'.binarySize }) : Merged pf fs out l recs :=
  ⟨l', i, h.opens, by rw [e], h.v22, by rw [e], by rw [e], by rw [e], by rw [e], by rw [e], by rw [e], h.holds⟩

/-- what a merge comes to after the first file and the inputs `files`, with more to come -/
theorem merge_run {pf : Bytes → Option Rat} {fs : Fs} (hw : fs.WF) {out p : Str} {files : List Str} {l : Ljh} {s0 : Nat} {recs : List Rec}
    {rss : List (List Rec)} {force : Bool} (h0 : Holds pf fs p l s0 recs) (hne : fs.ino out ≠ some s0) (hc : fileChannum out = .ok l.channum)
    (hin : List.Forall₂ (Input pf fs out l.channum l.nSamples) files rss) (hforce : force = true ∨ fs.ino out = none) (rest : List Str) :
    ∃ fs2 l' di, merge pf fs out (p :: (files ++ rest)) force = mergeLoop pf l.channum out fs2 rest ∧ fs2.WF ∧
      Holds pf fs2 out l' di (recs ++ rss.flatten) ∧ l' = { l with binarySize := l'.binarySize } ∧
      ∀ q i, fs.ino q = some i → fs.ino out ≠ some i → i ≠ di ∧ fs2.ino q = some i ∧ fs2.data i = fs.data i := by
  obtain ⟨fs1, di, c1, c2, c3, c4⟩ := copy_ok hw h0 hne hc
  have hin' : List.Forall₂ (Source pf fs1 l.channum l.nSamples di) files rss :=
    hin.imp (fun _ _ ⟨_, _, h1, h2, h3, h4, h5, h6⟩ => source_of c4 h1 h2 h3 h4 h5 h6)
  obtain ⟨b, l', k1, k2, k3⟩ := mergeLoop_ok c2 c3 hin' rest
  refine ⟨fs1.append di b, l', di, ?_, wf_append c2 di b, k2, k3, ?_⟩
  · unfold merge
    rw [if_neg (by rcases hforce with h | h <;> simp [h]), ]
    dsimp only
    rw [c1]
    dsimp only
    rw [c3.opens]
    dsimp only
    exact k1
  · intro q i hq hqo
    obtain ⟨b1, b2, b3⟩ := c4 q i hq hqo
    exact ⟨b1, by rw [append_ino]; exact b2, by rw [append_data_ne _ _ b1]; exact b3⟩

theorem read_same {fs fs2 : Fs} {out : Str} {di : Nat}
    (h : ∀ q i, fs.ino q = some i → fs.ino out ≠ some i → i ≠ di ∧ fs2.ino q = some i ∧ fs2.data i = fs.data i) (q : Str) (i : Nat)
    (hq : fs.ino q = some i) (hqo : fs.ino out ≠ some i) : fs2.read q = fs.read q := by
  obtain ⟨-, b2, b3⟩ := h q i hq hqo
  unfold Fs.read
  rw [b2, hq]
  simp [b3]

/-- C177: merging files of one channel, the first of version 2.2 and whole, and all with records of the same length, leaves an output with the
records of all of them, in the order of the files, described as the first file was; no other file changes. -/
theorem merge_spec_partial {pf : Bytes → Option Rat} {fs : Fs} (hw : fs.WF) {out p : Str} {files : List Str} {l : Ljh} {s0 : Nat} {recs : List Rec}
    {rss : List (List Rec)} {force : Bool} (h0 : Holds pf fs p l s0 recs) (hne : fs.ino out ≠ some s0) (hc : fileChannum out = .ok l.channum)
    (hin : List.Forall₂ (Input pf fs out l.channum l.nSamples) files rss) (hforce : force = true ∨ fs.ino out = none) :
    ∃ fs', merge pf fs out (p :: files) force = (fs', none) ∧ Merged pf fs' out l (recs ++ rss.flatten) ∧
      ∀ q i, fs.ino q = some i → fs.ino out ≠ some i → fs'.read q = fs.read q := by
  obtain ⟨fs2, l', di, g1, -, g3, g4, g5⟩ := merge_run hw h0 hne hc hin hforce []
  rw [List.append_nil] at g1
  exact ⟨fs2, by rw [g1]; rfl, merged_of g3 g4, read_same g5⟩

/-- C177: a file of another channel stops the merge with RuntimeError. The output that is left has the records of the files before it. -/
theorem merge_wrong_channel {pf : Bytes → Option Rat} {fs : Fs} (hw : fs.WF) {out p bad : Str} {files more : List Str} {l lb : Ljh} {s0 sb : Nat}
    {recs : List Rec} {rss : List (List Rec)} {force : Bool} (h0 : Holds pf fs p l s0 recs) (hne : fs.ino out ≠ some s0)
    (hc : fileChannum out = .ok l.channum) (hin : List.Forall₂ (Input pf fs out l.channum l.nSamples) files rss)
    (hforce : force = true ∨ fs.ino out = none) (hb : openFile pf fs bad = .ok (lb, sb)) (hbo : fs.ino out ≠ some sb)
    (hbc : lb.channum ≠ l.channum) :
    ∃ fs', merge pf fs out (p :: (files ++ bad :: more)) force = (fs', some .exception) ∧ Merged pf fs' out l (recs ++ rss.flatten) := by
  obtain ⟨fs2, l', di, g1, -, g3, g4, g5⟩ := merge_run hw h0 hne hc hin hforce (bad :: more)
  refine ⟨fs2, ?_, merged_of g3 g4⟩
  obtain ⟨a1, a2⟩ := openFile_ok hb
  obtain ⟨-, b2, b3⟩ := g5 bad sb a1 hbo
  have : openFile pf fs2 bad = .ok (lb, sb) := by
    unfold openFile
    rw [b2]
    dsimp only
    rw [b3, a2]; rfl
  rw [g1, mergeLoop, this]
  dsimp only
  rw [if_pos hbc]

/-- C177, the script run again: when the pattern also matches the output of an earlier run, which comes after the other names, `--force` makes a
file with every record twice. -/
theorem merge_again {pf : Bytes → Option Rat} {fs : Fs} (hw : fs.WF) {out p : Str} {files : List Str} {l : Ljh} {s0 : Nat} {recs : List Rec}
    {rss : List (List Rec)} (h0 : Holds pf fs p l s0 recs) (hwr : ∀ r ∈ recs, Writable r) (hne : fs.ino out ≠ some s0)
    (hc : fileChannum out = .ok l.channum) (hin : List.Forall₂ (Input pf fs out l.channum l.nSamples) files rss) :
    ∃ fs', merge pf fs out (p :: (files ++ [out])) true = (fs', none) ∧
      Merged pf fs' out l ((recs ++ rss.flatten) ++ (recs ++ rss.flatten)) := by
  obtain ⟨fs2, l', di, g1, g2, g3, g4, g5⟩ := merge_run hw h0 hne hc hin (.inl rfl) [out]
  have hall : ∀ r ∈ recs ++ rss.flatten, Writable r := by
    intro r hr
    rcases List.mem_append.1 hr with hx | hx
    · exact hwr r hx
    · obtain ⟨rs, h1, h2⟩ := List.mem_flatten.1 hx
      clear g1 g2 g3 g4 g5 hx hr
      induction hin with
      | nil => simp at h1
      | cons h _ ih =>
        rcases List.mem_cons.1 h1 with rfl | h1
        · obtain ⟨_, _, _, _, _, _, _, h6⟩ := h
          exact h6 r h2
        · exact ih h1
  obtain ⟨k1, k2⟩ := append_step g2 g3 g3.opens rfl g3.holds hall
  refine ⟨_, ?_, merged_of k2 (by rw [g4])⟩
  rw [g1, mergeLoop, g3.opens]
  dsimp only
  rw [if_neg (by rw [g4]; simp), k1]
  rfl

/-! ### whatever happens -/

/-- only inode `di` may have other contents [specification] -/
def Only (di : Nat) (fs fs' : Fs) : Prop := fs'.ino = fs.ino ∧ ∀ j, j ≠ di → fs'.data j = fs.data j

theorem only_append (di : Nat) (fs : Fs) (b : Bytes) : Only di fs (fs.append di b) := ⟨rfl, fun _ h => append_data_ne _ _ h⟩
theorem Only.trans {di : Nat} {a b c : Fs} (h1 : Only di a b) (h2 : Only di b c) : Only di a c :=
  ⟨h2.1.trans h1.1, fun j h => (h2.2 j h).trans (h1.2 j h)⟩

theorem writeLoop_only (l : Ljh) (src di : Nat) (fs : Fs) (ps : List Int) : Only di fs (writeLoop l src di fs ps).1 := by
  induction ps generalizing fs with
  | nil => exact ⟨rfl, fun _ _ => rfl⟩
  | cons i t ih =>
    unfold writeLoop
    split
    · exact ⟨rfl, fun _ _ => rfl⟩
    · rename_i r _
      split
      · exact ⟨rfl, fun _ _ => rfl⟩
      · dsimp only
        split
        · exact only_append _ _ _
        · exact ((only_append _ _ _).trans ((only_append _ _ _).trans (only_append _ _ _))).trans (ih _)

theorem append_only {pf : Bytes → Option Rat} {fs : Fs} {src dst : Str} {di : Nat} {ps : Option (List Int)} (h : fs.ino dst = some di) :
    Only di fs (appendTraces pf fs src dst ps).1 := by
  unfold appendTraces
  split
  · exact ⟨rfl, fun _ _ => rfl⟩
  · have e : fs.openA dst = (fs, di) := by unfold Fs.openA; rw [h]
    rw [e]
    exact writeLoop_only _ _ _ _ _

theorem mergeLoop_only {pf : Bytes → Option Rat} {c : Int} {out : Str} {di : Nat} (files : List Str) :
    ∀ fs : Fs, fs.ino out = some di → Only di fs (mergeLoop pf c out fs files).1 := by
  induction files with
  | nil => intro fs _; exact ⟨rfl, fun _ _ => rfl⟩
  | cons p t ih =>
    intro fs h
    unfold mergeLoop
    split
    · exact ⟨rfl, fun _ _ => rfl⟩
    · split
      · exact ⟨rfl, fun _ _ => rfl⟩
      · have g := append_only (pf := pf) (src := p) (ps := none) h
        split
        · rename_i fs' e he
          rw [he] at g; exact g
        · rename_i fs' he
          rw [he] at g
          exact g.trans (ih fs' (by rw [g.1]; exact h))

/-- C177: whatever the files are, and whether or not the merge succeeds, no file but the output changes; and without `--force` an output that
exists does not change either. -/
theorem merge_frame {pf : Bytes → Option Rat} {fs : Fs} (hw : fs.WF) (out : Str) (files : List Str) (force : Bool) :
    (∀ q i, fs.ino q = some i → fs.ino out ≠ some i → (merge pf fs out files force).1.read q = fs.read q) ∧
    (force = false → (fs.ino out).isSome → merge pf fs out files force = (fs, some .os)) := by
  constructor
  · intro q i hq hqo
    unfold merge
    split
    · rfl
    · split
      · rfl
      · rename_i p t
        unfold copyFile
        split
        · rename_i hx
          split at hx
          · injection hx with hx _; rw [← hx]
          · split at hx
            · injection hx with hx _; rw [← hx]
            · simp at hx
        · rename_i fs1 hx
          split at hx
          · simp at hx
          · split at hx
            · simp at hx
            · rename_i s0 hs0
              injection hx with hx _
              subst hx
              obtain ⟨t1, -, t3, t4, t5⟩ := openW_spec hw hq hqo
              have base : ((fs.openW out).1.append (fs.openW out).2 (fs.data s0)).read q = fs.read q := by
                unfold Fs.read
                rw [append_ino, t5, hq]
                simp only [Option.map_some]
                rw [append_data_ne _ _ (Ne.symm t3), t4]
              split
              · exact base
              · rename_i lo _ _
                have g := mergeLoop_only (pf := pf) (di := (fs.openW out).2) (c := lo.channum) (out := out) t
                  ((fs.openW out).1.append (fs.openW out).2 (fs.data s0)) t1
                rw [← base]
                unfold Fs.read
                rw [g.1, append_ino, t5]
                simp only [Option.map_some]
                rw [g.2 i (Ne.symm t3)]
  · intro h1 h2
    unfold merge
    rw [if_pos (by simp [h1, h2])]

/-! ### the whole script -/

/-- C177: the files are taken pattern by pattern and, for each pattern, by channel number and then by name, whatever order they are found in. -/
theorem expand_spec (glob : Str → List Str) (ch : Str → Option Nat) (patterns : List Str)
    (h : ∀ p ∈ patterns, glob p ≠ [] ∧ ∀ f ∈ glob p, (ch f).isSome = true) :
    ∃ parts, expandAll glob ch patterns = .ok parts.flatten ∧
      List.Forall₂ (fun p r => r.Perm (glob p) ∧ r.Pairwise (Names.ChanLe ch)) patterns parts := by
  induction patterns with
  | nil => exact ⟨[], rfl, .nil⟩
  | cons p t ih =>
    obtain ⟨r, h1, h2, h3⟩ := Names.sort_names_spec (h p (by simp)).1 (h p (by simp)).2
    obtain ⟨parts, k1, k2⟩ := ih (fun q hq => h q (by simp [hq]))
    exact ⟨r :: parts, by rw [expandAll, h1]; dsimp only; rw [k1]; rfl, .cons ⟨h2, h3⟩ k2⟩

/-- a directory without "_chan" in its path [specification] -/
def Plain (d : Str) : Prop := ¬ Names.HasTag d

theorem noTag_append {d x : Str} (hd : Plain d) (hx : ∀ c ∈ x, c ≠ '_') (h1 : ∀ c t, x = c :: t → c ≠ 'c' ∧ c ≠ 'h' ∧ c ≠ 'a' ∧ c ≠ 'n') :
    Plain (d ++ x) := by
  rintro ⟨a, b, h⟩
  rw [List.append_eq_append_iff] at h
  rcases h with ⟨a', -, h2⟩ | ⟨c', h3, h4⟩
  · exact hx '_' (by rw [h2]; simp [chanTag]) rfl
  · have key : ∀ c t, c ∈ ['c', 'h', 'a', 'n'] → x ≠ c :: t := by
      intro c t hc hxe
      have := h1 c t hxe
      simp at hc
      rcases hc with rfl | rfl | rfl | rfl <;> simp at this
    rcases c' with _ | ⟨c1, _ | ⟨c2, _ | ⟨c3, _ | ⟨c4, _ | ⟨c5, r⟩⟩⟩⟩⟩
    · exact hx '_' (by rw [show x = chanTag ++ b by simpa using h4.symm]; simp [chanTag]) rfl
    all_goals simp only [chanTag, List.cons_append, List.nil_append, List.cons.injEq] at h4
    · exact key 'c' _ (by simp) h4.2.symm
    · exact key 'h' _ (by simp) h4.2.2.symm
    · exact key 'a' _ (by simp) h4.2.2.2.symm
    · exact key 'n' _ (by simp) h4.2.2.2.2.symm
    · obtain ⟨rfl, rfl, rfl, rfl, rfl, rfl⟩ := h4
      exact hd ⟨a, r, by rw [h3]; rfl⟩

/-- C177: the channel number read from the name of the output is that of the first file. -/
theorem outPath_channum (outdir first : Str) (n : Nat) (h : Plain (if outdir = [] then (pathSplit first).1 else outdir)) :
    fileChannum (outPath outdir first n) = .ok (n : Int) := by
  unfold outPath
  generalize (if outdir = [] then (pathSplit first).1 else outdir) = d at h
  have e1 : intStr (n : Int) = decimal n := by
    unfold intStr
    rw [if_neg (by omega)]
    simp
  have e2 : "merged_chan".toList = "merged".toList ++ chanTag := by decide +kernel
  have hm : ∀ c ∈ "merged".toList, c ≠ '_' := by decide +kernel
  have hext : ¬ Names.HasTag ".ljh".toList := by
    rintro ⟨a, b, hab⟩
    have : '_' ∈ ".ljh".toList := by rw [hab]; simp [chanTag]
    revert this; decide +kernel
  have fin : ∀ base, Plain base → fileChannum (base ++ (chanTag ++ (decimal n ++ ".ljh".toList))) = .ok (n : Int) := fun base hb =>
    (Names.file_channum_agrees_partial (fun _ => false) base _ n rfl hb hext (.inr ⟨_, rfl⟩)).1
  unfold pathJoin
  rw [e1, if_neg (by rw [e2]; simp)]
  split
  · have := fin (d ++ "merged".toList) (noTag_append h hm (by
      intro c t hc; have := congrArg List.head? hc; simp at this; subst this; decide))
    rw [e2]
    simpa using this
  · have := fin (d ++ '/' :: "merged".toList) (noTag_append h (by
      intro c hc; rcases List.mem_cons.1 hc with rfl | hc
      · decide
      · exact hm c hc) (by intro c t hc; injection hc with hc _; subst hc; decide))
    rw [e2]
    simpa using this

/-- C177: the script, on files of one channel as in `merge_spec_partial`: the merged file is written next to the first one (or in the directory
given), with the records of all files in order, and no other file changes. With `--dry-run` nothing changes at all. -/
theorem main_spec_partial {pf : Bytes → Option Rat} {glob : Str → List Str} {ch : Str → Option Nat} {fs : Fs} (hw : fs.WF) {patterns : List Str}
    {outdir p : Str} {files : List Str} {l : Ljh} {s0 n : Nat} {recs : List Rec} {rss : List (List Rec)} {force : Bool}
    (he : expandAll glob ch patterns = .ok (p :: files)) (h0 : Holds pf fs p l s0 recs) (hn : l.channum = n)
    (hplain : Plain (if outdir = [] then (pathSplit p).1 else outdir)) (hne : fs.ino (outPath outdir p n) ≠ some s0)
    (hin : List.Forall₂ (Input pf fs (outPath outdir p n) n l.nSamples) files rss) (hforce : force = true ∨ fs.ino (outPath outdir p n) = none) :
    main pf glob ch fs patterns outdir force true = (fs, none) ∧
    ∃ fs', main pf glob ch fs patterns outdir force false = (fs', none) ∧ Merged pf fs' (outPath outdir p n) l (recs ++ rss.flatten) ∧
      ∀ q i, fs.ino q = some i → fs.ino (outPath outdir p n) ≠ some i → fs'.read q = fs.read q := by
  constructor
  · unfold main
    rw [he]
    rfl
  · obtain ⟨fs', g1, g2⟩ := merge_spec_partial hw h0 hne (by rw [hn]; exact outPath_channum outdir p n hplain) (by rw [hn]; exact hin) hforce
    refine ⟨fs', ?_, g2⟩
    unfold main
    rw [he]
    dsimp only
    rw [if_neg (by simp), h0.opens]
    dsimp only
    rw [hn]
    exact g1

/-- Disagreement (C177): a pattern that matches no file is expanded to None, so that the script ends with a TypeError instead of the assertion that
files were found, also when other patterns do match. -/
theorem main_no_match_fails (pf : Bytes → Option Rat) (glob : Str → List Str) (ch : Str → Option Nat) (fs : Fs) (patterns : List Str) (outdir p : Str)
    (force dry : Bool) (h : glob p = []) (hall : ∀ q ∈ patterns, glob q ≠ [] ∧ ∀ f ∈ glob q, (ch f).isSome = true) :
    main pf glob ch fs (patterns ++ [p]) outdir force dry = (fs, some .type) := by
  have : expandAll glob ch (patterns ++ [p]) = .error .type := by
    induction patterns with
    | nil => simp [expandAll, h, sortNames]
    | cons q t ih =>
      obtain ⟨r, h1, -, -⟩ := Names.sort_names_spec (hall q (by simp)).1 (hall q (by simp)).2
      rw [List.cons_append, expandAll, h1]
      dsimp only
      rw [ih (fun x hx => hall x (by simp [hx]))]
  unfold main
  rw [this]

/-! ### instances -/

/-- a small file system, for the instances below [specification] -/
def disk (l : List (String × Bytes)) : Fs :=
  ⟨fun q => (l.map (fun e => e.1.toList)).findIdx? (· == q), fun i => ((l[i]?).map (·.2)).getD [], l.length⟩

/-- a version 2.2 file with records of `n` samples [specification] -/
def ljh22 (n : String) (recs : List Rec) : Bytes :=
  asc "Save File Format Version: 2.2.0\nTimebase: 1e-5\nTotal Samples: " ++ (asc n ++ (asc "\nPresamples: 1\n#End of Header\n" ++ recs.flatMap encRec))

/-- the records that can be read from the name `p` [specification] -/
def contents (fs : Fs) (p : String) : Except Exc (List (Except Exc Rec)) := (openFile pf1 fs p.toList).map (fun x => records x.1 (fs.data x.2))

/-- two files of channel 1 [specification] -/
def twoFiles : Fs := disk [("a_chan1.ljh", ljh22 "2" [⟨5, 1000, [1, 2]⟩, ⟨6, 2000, [3, 4]⟩]), ("b_chan1.ljh", ljh22 "2" [⟨9, 3000, [5, 6]⟩])]

example :
    let r := main pf1 (fun _ => ["b_chan1.ljh".toList, "a_chan1.ljh".toList]) Names.chOf twoFiles ["*_chan1.ljh".toList] [] false false
    r.2 = none ∧ contents r.1 "merged_chan1.ljh" = .ok [.ok ⟨5, 1000, [1, 2]⟩, .ok ⟨6, 2000, [3, 4]⟩, .ok ⟨9, 3000, [5, 6]⟩] ∧
    contents r.1 "a_chan1.ljh" = contents twoFiles "a_chan1.ljh" := by decide +kernel

/-- Disagreement (C177): the script run a second time with the same pattern and `--force`: the pattern now matches the merged file too, and
every record is in the result twice. -/
theorem merge_again_fails :
    let r := main pf1 (fun _ => ["b_chan1.ljh".toList, "a_chan1.ljh".toList]) Names.chOf twoFiles ["*_chan1.ljh".toList] [] false false
    let r2 := main pf1 (fun _ => ["merged_chan1.ljh".toList, "b_chan1.ljh".toList, "a_chan1.ljh".toList]) Names.chOf r.1 ["*_chan1.ljh".toList] [] true false
    r2.2 = none ∧ contents r2.1 "merged_chan1.ljh" = .ok [.ok ⟨5, 1000, [1, 2]⟩, .ok ⟨6, 2000, [3, 4]⟩, .ok ⟨9, 3000, [5, 6]⟩,
      .ok ⟨5, 1000, [1, 2]⟩, .ok ⟨6, 2000, [3, 4]⟩, .ok ⟨9, 3000, [5, 6]⟩] := by decide +kernel

/-- Disagreement (C177): files with records of different lengths are merged without complaint, and the records after the first file are misread. -/
theorem merge_lengths_fails :
    let fs := disk [("a_chan1.ljh", ljh22 "2" [⟨5, 1000, [1, 2]⟩]), ("b_chan1.ljh", ljh22 "3" [⟨9, 3000, [5, 6, 7]⟩, ⟨10, 4000, [8, 9, 10]⟩])]
    let r := merge pf1 fs "merged_chan1.ljh".toList ["a_chan1.ljh".toList, "b_chan1.ljh".toList] false
    r.2 = none ∧ contents r.1 "merged_chan1.ljh" = .ok [.ok ⟨5, 1000, [1, 2]⟩, .ok ⟨9, 3000, [5, 6]⟩, .ok ⟨655367, 262144000, [0, 8]⟩] := by
  decide +kernel

/-- Disagreement (C177): a first file of an older version is copied as it is, and the records of the others are appended in the new format; they are
misread. -/
theorem merge_old_version_fails :
    let old := asc "Save File Format Version: 2.1.0\nTimebase: 1e-5\nTotal Samples: 2\nPresamples: 1\nNumber of rows: 1\nRow number (from 0-0 inclusive): 0\n#End of Header\n" ++
      [1, 0, 2, 0, 0, 0, 11, 0, 12, 0]
    let fs := disk [("a_chan1.ljh", old), ("b_chan1.ljh", ljh22 "2" [⟨9, 3000, [5, 6]⟩])]
    let r := merge pf1 fs "merged_chan1.ljh".toList ["a_chan1.ljh".toList, "b_chan1.ljh".toList] false
    r.2 = none ∧ (contents fs "a_chan1.ljh").map List.length = .ok 1 ∧ (contents r.1 "merged_chan1.ljh").map List.length = .ok 3 := by decide +kernel

/-- Disagreement (C177): when the first file ends within a record, the records of the other files are misread. -/
theorem merge_incomplete_fails :
    let fs := disk [("a_chan1.ljh", ljh22 "2" [⟨5, 1000, [1, 2]⟩] ++ [7]), ("b_chan1.ljh", ljh22 "2" [⟨9, 3000, [5, 6]⟩])]
    let r := merge pf1 fs "merged_chan1.ljh".toList ["a_chan1.ljh".toList, "b_chan1.ljh".toList] false
    r.2 = none ∧ contents r.1 "merged_chan1.ljh" = .ok [.ok ⟨5, 1000, [1, 2]⟩, .ok ⟨2311, 768000, [1280, 1536]⟩] := by decide +kernel

/-- C177, instance: a file of another channel. -/
example :
    let fs := disk [("a_chan1.ljh", ljh22 "2" [⟨5, 1000, [1, 2]⟩]), ("b_chan3.ljh", ljh22 "2" [⟨9, 3000, [5, 6]⟩])]
    let r := merge pf1 fs "merged_chan1.ljh".toList ["a_chan1.ljh".toList, "b_chan3.ljh".toList] false
    r.2 = some .exception ∧ contents r.1 "merged_chan1.ljh" = .ok [.ok ⟨5, 1000, [1, 2]⟩] := by decide +kernel

end Mass.Ljh.Merge
