import Verif.Ljh.Merge
/-! C178: the script bin/ljh_truncate, on top of the model of `ljh_truncate`. -/
namespace Mass.Ljh.TruncScript
open Mass.Names (Str sortNames fileChannum)
open Mass.Ljh.Merge (Only only_append disk ljh22 contents)

/-- bin/ljh_truncate L36: does `chan(\d+)\.ljh` match here? Result: the digits. (ASCII digits only.) -/
def tagHere (s : Str) : Option Str :=
  if "chan".toList.isPrefixOf s then
    if (s.drop 4).takeWhile Char.isDigit ≠ [] ∧ ".ljh".toList.isPrefixOf ((s.drop 4).dropWhile Char.isDigit) then
      some ((s.drop 4).takeWhile Char.isDigit)
    else none
  else none

/-- bin/ljh_truncate L36: `re.search(r"chan(\d+)\.ljh", in_fname)`, the first match from the left -/
def search : Str → Option Str
  | [] => none
  | c :: t => match tagHere (c :: t) with
    | some ds => some ds
    | none => search t

/-- bin/ljh_truncate L37: `f"{args.pattern}_{args.out}_chan{ch}.ljh"` -/
def outName (pattern out ds : Str) : Str := pattern ++ ('_' :: (out ++ ("_chan".toList ++ (ds ++ ".ljh".toList))))

/-- bin/ljh_truncate L35-39: the loop over the files; no match is an AttributeError -/
def loop (pf : Bytes → Option Rat) (pattern out : Str) (np : Option Int) (ts : Option Rat) : Fs → List Str → Fs × Option Exc
  | fs, [] => (fs, none)
  | fs, p :: t => match search p with
    | none => (fs, some .attribute)
    | some ds => match truncate pf fs p (outName pattern out ds) np ts none with
      | (fs', some e) => (fs', some e)
      | (fs', none) => loop pf pattern out np ts fs' t

/-- bin/ljh_truncate L31-39 `main`, after the arguments are parsed: `argparse` sees to it that exactly one of `--npulses` and `--timestamp` is given.
`glob` is `glob.glob` and `ch` is `ljh_channum`; no match gives None (ljh_util.py L176-177), and a loop over None is a TypeError. -/
def main (pf : Bytes → Option Rat) (glob : Str → List Str) (ch : Str → Option Nat) (fs : Fs) (pattern out : Str) (np : Option Int) (ts : Option Rat) :
    Fs × Option Exc :=
  match sortNames ch (glob (pattern ++ "_chan*.ljh".toList)) none with
  | .error e => (fs, some e)
  | .ok none => (fs, some .type)
  | .ok (some files) => loop pf pattern out np ts fs files

/-! ### names -/

theorem takeWhile_stop (s r : Str) : (s ++ '_' :: r).takeWhile Char.isDigit = s.takeWhile Char.isDigit := by
  induction s with
  | nil => simp [show Char.isDigit '_' = false by decide]
  | cons c t ih =>
    simp only [List.cons_append, List.takeWhile_cons, ih]

theorem dropWhile_stop (s r : Str) : (s ++ '_' :: r).dropWhile Char.isDigit = s.dropWhile Char.isDigit ++ '_' :: r := by
  induction s with
  | nil => simp [show Char.isDigit '_' = false by decide]
  | cons c t ih =>
    simp only [List.cons_append, List.dropWhile_cons]
    split
    · exact ih
    · rfl

theorem prefix_stop (w s r : Str) (hw : '_' ∉ w) : w.isPrefixOf (s ++ '_' :: r) = w.isPrefixOf s := by
  induction w generalizing s with
  | nil => simp
  | cons a w ih =>
    cases s with
    | nil =>
      have : ¬ a = '_' := fun e => hw (by simp [e])
      rw [List.nil_append, List.isPrefixOf_cons₂]
      simp [this]
    | cons c t =>
      rw [List.cons_append, List.isPrefixOf_cons₂, List.isPrefixOf_cons₂, ih t (fun h => hw (by simp [h]))]

theorem tagHere_stop (s r : Str) : tagHere (s ++ '_' :: r) = tagHere s := by
  unfold tagHere
  rw [prefix_stop _ s r (by decide)]
  by_cases h : "chan".toList.isPrefixOf s = true
  · rw [if_pos h, if_pos h]
    obtain ⟨u, rfl⟩ := List.isPrefixOf_iff_prefix.1 h
    have : ("chan".toList ++ u ++ '_' :: r).drop 4 = u ++ '_' :: r := by simp
    rw [this]
    have : ("chan".toList ++ u).drop 4 = u := by simp
    rw [this, takeWhile_stop, dropWhile_stop, prefix_stop _ _ r (by decide)]
  · rw [if_neg h, if_neg h]

/-- C178: the channel taken from a name `base_chanN.ljh` is `N`, digit by digit, when no directory or earlier part of the name looks like the end of a
name of a file. -/
theorem search_spec (base ds : Str) (hb : search base = none) (hne : ds ≠ []) (hd : ∀ c ∈ ds, Char.isDigit c = true) :
    search (base ++ ('_' :: ("chan".toList ++ (ds ++ ".ljh".toList)))) = some ds := by
  induction base with
  | nil =>
    have h1 : tagHere ('_' :: ("chan".toList ++ (ds ++ ".ljh".toList))) = none := tagHere_stop [] _
    have hd1 : ∀ t : Str, (ds ++ '.' :: t).takeWhile Char.isDigit = ds := by
      intro t
      rw [List.takeWhile_append_of_pos (by simpa using hd)]
      simp [show Char.isDigit '.' = false by decide]
    have hd2 : ∀ t : Str, (ds ++ '.' :: t).dropWhile Char.isDigit = '.' :: t := by
      intro t
      rw [List.dropWhile_append_of_pos (by simpa using hd)]
      simp [show Char.isDigit '.' = false by decide]
    have h2 : tagHere ("chan".toList ++ (ds ++ ".ljh".toList)) = some ds := by
      have e : ("chan".toList ++ (ds ++ ".ljh".toList)).drop 4 = ds ++ ".ljh".toList := by simp
      unfold tagHere
      rw [if_pos (List.isPrefixOf_iff_prefix.2 ⟨_, rfl⟩), e, show ".ljh".toList = '.' :: "ljh".toList by decide, hd1, hd2,
        if_pos ⟨hne, by simp⟩]
    rw [List.nil_append, search, h1]
    dsimp only
    rw [show "chan".toList ++ (ds ++ ".ljh".toList) = 'c' :: ("han".toList ++ (ds ++ ".ljh".toList)) from rfl] at h2 ⊢
    rw [search, h2]
  | cons c t ih =>
    rw [search] at hb
    have h0 : tagHere (c :: t) = none := by
      cases h : tagHere (c :: t) with
      | none => rfl
      | some d => rw [h] at hb; cases hb
    rw [h0] at hb
    rw [List.cons_append, search, ← List.cons_append, tagHere_stop, h0]
    exact ih hb

/-- C178: files with different channels go to different outputs. -/
theorem outName_inj (pattern out a b : Str) (h : outName pattern out a = outName pattern out b) : a = b := by
  unfold outName at h
  simpa using h

/-! ### the loop -/

/-- what is kept of the records of one file [specification] -/
def Keeps (np : Option Int) (ts : Option Rat) (recs kept : List Rec) : Prop :=
  (∃ n, np = some n ∧ ts = none ∧ n ≤ recs.length ∧ kept = recs.take n.toNat) ∨
  (∃ t, np = none ∧ ts = some t ∧ kept = recs.takeWhile (fun r => decide ((r.usec.toInt : Rat) / 1000000 ≤ t)))

/-- a file that can be truncated, to the records `kept`: version 2.2, header as in `truncate_n_partial` [specification] -/
def Ready (pf : Bytes → Option Rat) (fs : Fs) (np : Option Int) (ts : Option Rat) (p : Str) (l : Ljh) (kept : List Rec) : Prop :=
  ∃ si recs, openFile pf fs p = .ok (l, si) ∧ l.v22 = true ∧ (∀ e ∈ l.dict, ¬ endMark <+: e.1) ∧ records l (fs.data si) = recs.map .ok ∧
    Keeps np ts recs kept

theorem truncate_step {pf : Bytes → Option Rat} {fs : Fs} (hw : fs.WF) {np : Option Int} {ts : Option Rat} {p o : Str} {l : Ljh} {kept : List Rec} {c : Int}
    (h : Ready pf fs np ts p l kept) (hne : fs.ino p ≠ fs.ino o) (hc : fileChannum o = .ok c) :
    ∃ fs', truncate pf fs p o np ts none = (fs', none) ∧ Truncated pf fs fs' p o l kept := by
  obtain ⟨si, recs, h1, h2, h3, h4, h5⟩ := h
  obtain ⟨hi, hb⟩ := openFile_ok h1
  have hne' : fs.ino o ≠ some si := fun e => hne (by rw [hi, e])
  have hlen : l.nPulses = recs.length := by simpa [records] using congrArg List.length h4
  have hseg : SegOk l none := by intro s hs; cases hs
  rcases h5 with ⟨n, rfl, rfl, h6, rfl⟩ | ⟨t, rfl, rfl, rfl⟩
  · obtain ⟨recs', fs', k1, k2, k3⟩ := truncate_n_partial hw h1 h2 hne' hc h3 hseg (n := n) (by rw [hlen]; exact h6)
    have : recs' = recs := (List.map_inj_right (fun _ _ h => by injection h)).1 (k1.symm.trans h4)
    exact ⟨fs', k2, this ▸ k3⟩
  · obtain ⟨recs', fs', k1, k2, k3⟩ := truncate_time_partial hw h1 h2 hne' hc h3 hseg (t := t)
    have : recs' = recs := (List.map_inj_right (fun _ _ h => by injection h)).1 (k1.symm.trans h4)
    exact ⟨fs', k2, this ▸ k3⟩

theorem truncLoop_only (l : Ljh) (src di : Nat) (late : Rec → Bool) (i n : Nat) (fs : Fs) :
    Only di fs (truncLoop l src di late i n fs).1 ∧ (truncLoop l src di late i n fs).1.next = fs.next := by
  induction n generalizing i fs with
  | zero => exact ⟨⟨rfl, fun _ _ => rfl⟩, rfl⟩
  | succ n ih =>
    unfold truncLoop
    split
    · exact ⟨⟨rfl, fun _ _ => rfl⟩, rfl⟩
    · split
      · exact ⟨⟨rfl, fun _ _ => rfl⟩, rfl⟩
      · obtain ⟨a, b⟩ := ih (i + 1) _
        exact ⟨((only_append _ _ _).trans ((only_append _ _ _).trans (only_append _ _ _))).trans a, b⟩

/-- only the name `o` may come to stand for something else, in its own inode or in a new one [specification] -/
structure Step (o : Str) (fs fs' : Fs) : Prop where
  wf : fs'.WF
  names : ∀ q, q ≠ o → fs'.ino q = fs.ino q
  own : fs'.ino o = fs.ino o ∨ (fs.ino o = none ∧ fs'.ino o = some fs.next)
  rest : ∀ i, i < fs.next → fs.ino o ≠ some i → fs'.data i = fs.data i
  more : fs.next ≤ fs'.next

theorem openW_step {fs : Fs} (hw : fs.WF) (o : Str) :
    Step o fs (fs.openW o).1 ∧ ∀ i, i < fs.next → fs.ino o ≠ some i → i ≠ (fs.openW o).2 := by
  unfold Fs.openW
  cases h : fs.ino o with
  | some d =>
    refine ⟨⟨hw, fun _ _ => rfl, .inl rfl, ?_, Nat.le_refl _⟩, ?_⟩
    · intro i _ hi
      have : i ≠ d := fun e => hi (by rw [h, e])
      simp [this]
    · intro i _ hi e
      exact hi (by rw [e])
  | none =>
    refine ⟨⟨?_, ?_, .inr ⟨h, by simp⟩, ?_, Nat.le_succ _⟩, ?_⟩
    · intro q i hq
      dsimp only at hq ⊢
      split at hq
      · injection hq with hq; omega
      · have := hw q i hq; omega
    · intro q hq; simp [hq]
    · intro i hi _
      have : i ≠ fs.next := by omega
      simp [this]
    · intro i hi _
      show i ≠ fs.next
      omega

theorem truncate_frame {pf : Bytes → Option Rat} {fs : Fs} (hw : fs.WF) (p o : Str) (np : Option Int) (ts : Option Rat) (seg : Option Int) :
    Step o fs (truncate pf fs p o np ts seg).1 := by
  have same : Step o fs fs := ⟨hw, fun _ _ => rfl, .inl rfl, fun _ _ _ => rfl, Nat.le_refl _⟩
  unfold truncate
  split
  · exact same
  split
  · exact same
  split
  · exact same
  split
  · exact same
  · rename_i l si ho
    split
    · exact same
    split
    · exact same
    obtain ⟨w, wne⟩ := openW_step hw o
    obtain ⟨g, gn⟩ := truncLoop_only l si (fs.openW o).2 (lateThan ts) 0 (nKeep l np) ((fs.openW o).1.append (fs.openW o).2 (dictBytes l.dict))
    have gi : (truncLoop l si (fs.openW o).2 (lateThan ts) 0 (nKeep l np) ((fs.openW o).1.append (fs.openW o).2 (dictBytes l.dict))).1.ino = (fs.openW o).1.ino := g.1
    have gn' : (truncLoop l si (fs.openW o).2 (lateThan ts) 0 (nKeep l np) ((fs.openW o).1.append (fs.openW o).2 (dictBytes l.dict))).1.next = (fs.openW o).1.next := gn
    refine ⟨?_, ?_, ?_, ?_, by rw [gn']; exact w.more⟩
    · intro q i
      rw [gi, gn']
      exact w.wf q i
    · rw [gi]; exact w.names
    · rw [gi]; exact w.own
    · intro i h1 h2
      rw [g.2 i (wne i h1 h2), append_data_ne _ _ (wne i h1 h2), w.rest i h1 h2]

/-- the outputs: no two are the same file, also not by links [specification] -/
def Apart (fs : Fs) (a b : Str) : Prop := a ≠ b ∧ (fs.ino a = fs.ino b → fs.ino a = none)

/-- the output `o` can be opened, with the description of the file `l`, and has exactly the records `kept` [specification] -/
def Shortened (pf : Bytes → Option Rat) (fs' : Fs) (o : Str) (l : Ljh) (kept : List Rec) : Prop :=
  ∃ l' di, openFile pf fs' o = .ok (l', di) ∧ l'.dict = l.dict ∧ l'.v22 = true ∧ l'.nSamples = l.nSamples ∧
    l'.nPresamples = l.nPresamples ∧ l'.timebase = l.timebase ∧ l'.subDiv = l.subDiv ∧ l'.subOff = l.subOff ∧
    records l' (fs'.data di) = kept.map .ok

/-- one file of the loop: its name, the digits of its channel, its description, and the records to be kept [specification] -/
structure Job where
  name : Str
  ds : Str
  ljh : Ljh
  kept : List Rec

theorem ready_step {pf : Bytes → Option Rat} {fs fs' : Fs} {np : Option Int} {ts : Option Rat} {p o : Str} {l : Ljh} {kept : List Rec} (hw : fs.WF)
    (hs : Step o fs fs') (hp : p ≠ o) (hne : fs.ino p ≠ fs.ino o) (h : Ready pf fs np ts p l kept) : Ready pf fs' np ts p l kept := by
  obtain ⟨si, recs, h1, h2, h3, h4, h5⟩ := h
  obtain ⟨hi, hb⟩ := openFile_ok h1
  have hd : fs'.data si = fs.data si := hs.rest si (hw p si hi) (fun e => hne (by rw [hi, e]))
  refine ⟨si, recs, ?_, h2, h3, by rw [hd]; exact h4, h5⟩
  unfold openFile
  rw [hs.names p hp, hi]
  dsimp only
  rw [hd, hb]; rfl

/-- C178: when every file found can be truncated, and no output is an input or another output, every one of them is truncated, under the name with its own
channel, and no other file changes. -/
theorem loop_spec_partial {pf : Bytes → Option Rat} {pattern out : Str} {np : Option Int} {ts : Option Rat} :
    ∀ {fs : Fs} {jobs : List Job}, fs.WF →
      (∀ j ∈ jobs, search j.name = some j.ds ∧ Ready pf fs np ts j.name j.ljh j.kept ∧ ∃ c, fileChannum (outName pattern out j.ds) = .ok c) →
      (∀ j ∈ jobs, ∀ k ∈ jobs, fs.ino j.name ≠ fs.ino (outName pattern out k.ds)) →
      jobs.Pairwise (fun j k => Apart fs (outName pattern out j.ds) (outName pattern out k.ds)) →
      ∃ fs', loop pf pattern out np ts fs (jobs.map (·.name)) = (fs', none) ∧
        (∀ j ∈ jobs, Shortened pf fs' (outName pattern out j.ds) j.ljh j.kept) ∧
        (∀ q i, fs.ino q = some i → (∀ j ∈ jobs, q ≠ outName pattern out j.ds ∧ fs.ino (outName pattern out j.ds) ≠ some i) →
          fs'.ino q = some i ∧ fs'.data i = fs.data i) := by
  intro fs jobs
  induction jobs generalizing fs with
  | nil => intro _ _ _ _; exact ⟨fs, rfl, by simp, fun q i hq _ => ⟨hq, rfl⟩⟩
  | cons j t ih =>
    intro hw hr hio hap
    obtain ⟨hse, hre, c, hc⟩ := hr j (by simp)
    obtain ⟨fs1, g1, -, l', di, g2, g3⟩ := truncate_step hw hre (hio j (by simp) j (by simp)) hc
    have hs : Step (outName pattern out j.ds) fs fs1 := by
      have := truncate_frame (pf := pf) hw j.name (outName pattern out j.ds) np ts none
      rw [g1] at this; exact this
    rw [List.pairwise_cons] at hap
    obtain ⟨ap1, ap2⟩ := hap
    -- names of outputs of the rest
    have hout : ∀ k ∈ t, fs1.ino (outName pattern out k.ds) = fs.ino (outName pattern out k.ds) := fun k hk =>
      hs.names _ (Ne.symm (ap1 k hk).1)
    have hnm : ∀ k ∈ t, k.name ≠ outName pattern out j.ds := by
      intro k hk e
      exact hio k (by simp [hk]) j (by simp) (by rw [e])
    have hin : ∀ k ∈ t, fs1.ino k.name = fs.ino k.name := fun k hk => hs.names _ (hnm k hk)
    obtain ⟨fs', k1, k2, k3⟩ := ih (fs := fs1) hs.wf
      (fun k hk => ⟨(hr k (by simp [hk])).1, ready_step hw hs (hnm k hk) (hio k (by simp [hk]) j (by simp)) (hr k (by simp [hk])).2.1,
        (hr k (by simp [hk])).2.2⟩)
      (fun a ha b hb => by rw [hin a ha, hout b hb]; exact hio a (by simp [ha]) b (by simp [hb]))
      (by
        refine ap2.imp_of_mem ?_
        intro a b ha hb h
        refine ⟨h.1, ?_⟩
        rw [hout a ha, hout b hb]
        exact h.2)
    refine ⟨fs', ?_, ?_, ?_⟩
    · rw [List.map_cons, loop, hse]
      dsimp only
      rw [g1]
      exact k1
    · intro k hk
      rcases List.mem_cons.1 hk with rfl | hk
      · obtain ⟨hi, hb⟩ := openFile_ok g2
        obtain ⟨e1, e2⟩ := k3 _ di hi (by
          intro m hm
          refine ⟨(ap1 m hm).1, ?_⟩
          rw [hout m hm]
          intro e
          rcases hs.own with h | ⟨h1, h2⟩
          · rw [hi] at h
            have := (ap1 m hm).2 (by rw [← h, e])
            rw [this] at h; cases h
          · rw [hi] at h2
            injection h2 with h2
            have := hw _ _ e
            omega)
        refine ⟨l', di, ?_, ?_⟩
        · unfold openFile
          rw [e1]
          dsimp only
          rw [e2, hb]; rfl
        · rw [e2]; exact g3
      · exact k2 k hk
    · intro q i hq hne
      have hq1 : fs1.ino q = some i := by rw [hs.names q (hne j (by simp)).1]; exact hq
      obtain ⟨e1, e2⟩ := k3 q i hq1 (fun k hk => ⟨(hne k (by simp [hk])).1, by rw [hout k hk]; exact (hne k (by simp [hk])).2⟩)
      exact ⟨e1, by rw [e2]; exact hs.rest i (hw q i hq) (hne j (by simp)).2⟩

/-- C178: whatever the files are, and whether or not the script
succeeds, no file changes but those with names made of the pattern and the word given. -/
theorem loop_frame {pf : Bytes → Option Rat} (pattern out : Str) (np : Option Int) (ts : Option Rat) (files : List Str) :
    ∀ {fs : Fs}, fs.WF → ∀ q i, fs.ino q = some i → (∀ ds, fs.ino (outName pattern out ds) ≠ some i) →
      (loop pf pattern out np ts fs files).1.ino q = some i ∧ (loop pf pattern out np ts fs files).1.data i = fs.data i := by
  induction files with
  | nil => intro fs _ q i hq _; exact ⟨hq, rfl⟩
  | cons p t ih =>
    intro fs hw q i hq hne
    unfold loop
    split
    · exact ⟨hq, rfl⟩
    · rename_i ds _
      have hs := truncate_frame (pf := pf) hw p (outName pattern out ds) np ts none
      have hqo : q ≠ outName pattern out ds := fun e => hne ds (by rw [← e]; exact hq)
      split
      · rename_i fs' e he
        rw [he] at hs
        exact ⟨by rw [hs.names q hqo]; exact hq, hs.rest i (hw q i hq) (hne ds)⟩
      · rename_i fs' he
        rw [he] at hs
        obtain ⟨e1, e2⟩ := ih hs.wf q i (by rw [hs.names q hqo]; exact hq) (by
          intro d e
          by_cases hd : outName pattern out d = outName pattern out ds
          · rw [hd] at e
            rcases hs.own with h | ⟨h1, h2⟩
            · exact hne ds (by rw [← h]; exact e)
            · rw [h2] at e
              injection e with e
              have := hw q i hq
              omega
          · rw [hs.names _ hd] at e
            exact hne d e)
        exact ⟨e1, by rw [e2]; exact hs.rest i (hw q i hq) (hne ds)⟩

/-- C178, the whole script for a basename without wildcard characters: the files found are those of the channels, here in any order. -/
theorem main_spec_partial {pf : Bytes → Option Rat} {glob : Str → List Str} {ch : Str → Option Nat} {fs : Fs} {pattern out : Str} {np : Option Int}
    {ts : Option Rat} {jobs : List Job} (hw : fs.WF) (hglob : glob (pattern ++ "_chan*.ljh".toList) = jobs.map (·.name)) (hj : jobs ≠ [])
    (hch : ∀ j ∈ jobs, (ch j.name).isSome = true)
    (hr : ∀ j ∈ jobs, search j.name = some j.ds ∧ Ready pf fs np ts j.name j.ljh j.kept ∧ ∃ c, fileChannum (outName pattern out j.ds) = .ok c)
    (hio : ∀ j ∈ jobs, ∀ k ∈ jobs, fs.ino j.name ≠ fs.ino (outName pattern out k.ds))
    (hap : jobs.Pairwise (fun j k => Apart fs (outName pattern out j.ds) (outName pattern out k.ds))) :
    ∃ fs', main pf glob ch fs pattern out np ts = (fs', none) ∧ ∀ j ∈ jobs, Shortened pf fs' (outName pattern out j.ds) j.ljh j.kept := by
  obtain ⟨r, h1, h2, -⟩ := Names.sort_names_spec (ch := ch) (fnames := jobs.map (·.name)) (by simpa using hj) (by simpa using hch)
  obtain ⟨jobs', h3, h4⟩ : ∃ jobs', jobs'.map (·.name) = r ∧ List.Perm jobs' jobs := by
    clear h1 hglob hj hch hr hio hap
    generalize hx : jobs.map (·.name) = x at h2
    induction h2 generalizing jobs with
    | nil => exact ⟨[], rfl, by rw [List.map_eq_nil_iff.1 hx]⟩
    | cons a _ ih =>
      cases jobs with
      | nil => simp at hx
      | cons j js =>
        simp only [List.map_cons, List.cons.injEq] at hx
        obtain ⟨js', e1, e2⟩ := ih hx.2
        exact ⟨j :: js', by simp [e1, hx.1], e2.cons j⟩
    | swap a b l =>
      match jobs, hx with
      | [], hx => simp at hx
      | [_], hx => simp at hx
      | j :: k :: js, hx =>
        simp only [List.map_cons, List.cons.injEq] at hx
        exact ⟨k :: j :: js, by simp [hx.1, hx.2.1, hx.2.2], List.Perm.swap _ _ _⟩
    | trans _ _ ih1 ih2 =>
      obtain ⟨js1, e1, e2⟩ := ih2 hx
      obtain ⟨js2, e3, e4⟩ := ih1 e1
      exact ⟨js2, e3, e4.trans e2⟩
  have hap' : jobs'.Pairwise (fun j k => Apart fs (outName pattern out j.ds) (outName pattern out k.ds)) :=
    (h4.pairwise_iff (fun {a b} h => ⟨Ne.symm h.1, fun e => by rw [e]; exact h.2 e.symm⟩)).2 hap
  obtain ⟨fs', k1, k2, -⟩ := loop_spec_partial (pf := pf) (pattern := pattern) (out := out) (np := np) (ts := ts) hw (jobs := jobs')
    (fun j hj => hr j (h4.mem_iff.1 hj)) (fun j hj k hk => hio j (h4.mem_iff.1 hj) k (h4.mem_iff.1 hk)) hap'
  refine ⟨fs', ?_, fun j hj => k2 j (h4.mem_iff.2 hj)⟩
  unfold main
  rw [hglob, h1]
  dsimp only
  rw [← h3]
  exact k1

/-- C178: a file with fewer records than asked for stops the script with IndexError; the files after it are not looked at. -/
theorem loop_short {pf : Bytes → Option Rat} {fs : Fs} (hw : fs.WF) {pattern out p ds : Str} {n : Int} {l : Ljh} {si : Nat} (more more' : List Str)
    (h0 : search p = some ds) (ho : openFile pf fs p = .ok (l, si)) (hv : l.v22 = true) (hne : fs.ino (outName pattern out ds) ≠ some si)
    (hn : (l.nPulses : Int) < n) :
    (loop pf pattern out (some n) none fs (p :: more)).2 = some .index ∧
    loop pf pattern out (some n) none fs (p :: more) = loop pf pattern out (some n) none fs (p :: more') := by
  obtain ⟨fs', h1, -⟩ := truncate_too_many (seg := none) hw ho hv hne (by intro s hs; cases hs) hn
  simp only [loop, h0, h1, and_self]

/-! ### instances -/

/-- two channels [specification] -/
def twoChans : Fs := disk [("20_chan1.ljh", ljh22 "2" [⟨5, 1000, [1, 2]⟩, ⟨6, 2000, [3, 4]⟩]), ("20_chan3.ljh", ljh22 "2" [⟨9, 3000, [5, 6]⟩, ⟨10, 4000, [7, 8]⟩])]

/-- `glob` for the two channels [specification] -/
def globTwo : Str → List Str := fun _ => ["20_chan3.ljh".toList, "20_chan1.ljh".toList]

example :
    let r := main pf1 globTwo Names.chOf twoChans "20".toList "short".toList (some 1) none
    r.2 = none ∧ contents r.1 "20_short_chan1.ljh" = .ok [.ok ⟨5, 1000, [1, 2]⟩] ∧ contents r.1 "20_short_chan3.ljh" = .ok [.ok ⟨9, 3000, [5, 6]⟩] ∧
    contents r.1 "20_chan1.ljh" = contents twoChans "20_chan1.ljh" := by decide +kernel

/-- Disagreement (C178): to keep at most 2 records per channel where the first channel has only one: the script stops with IndexError, and the second channel
is not truncated. -/
theorem short_channel_fails :
    let fs := disk [("20_chan1.ljh", ljh22 "2" [⟨5, 1000, [1, 2]⟩]), ("20_chan3.ljh", ljh22 "2" [⟨9, 3000, [5, 6]⟩, ⟨10, 4000, [7, 8]⟩, ⟨11, 5000, [7, 8]⟩])]
    let r := main pf1 globTwo Names.chOf fs "20".toList "short".toList (some 2) none
    r.2 = some .index ∧ r.1.ino "20_short_chan3.ljh".toList = none := by decide +kernel

/-- Disagreement (C178): with a pattern that matches the files of two runs, the output of the second run replaces that of the first, in a file with the pattern
itself in its name. -/
theorem wildcard_fails :
    let fs := disk [("20a_chan1.ljh", ljh22 "2" [⟨5, 1000, [1, 2]⟩]), ("20b_chan1.ljh", ljh22 "2" [⟨9, 3000, [5, 6]⟩])]
    let r := main pf1 (fun _ => ["20a_chan1.ljh".toList, "20b_chan1.ljh".toList]) Names.chOf fs "20*".toList "short".toList (some 1) none
    r.2 = none ∧ contents r.1 "20*_short_chan1.ljh" = .ok [.ok ⟨9, 3000, [5, 6]⟩] ∧ r.1.next = 3 := by decide +kernel

/-- Disagreement (C178): in a directory with a name like that of a file, all channels are written to the same output, one over the other. -/
theorem directory_fails :
    search "chan7.ljh/20_chan1.ljh".toList = some ['7'] ∧ search "chan7.ljh/20_chan3.ljh".toList = some ['7'] ∧
    search "20_chan13.ljh".toList = some ['1', '3'] := by decide +kernel

/-- Disagreement (C178): when no file matches, the script ends with a TypeError. -/
theorem no_match_fails (pf : Bytes → Option Rat) (glob : Str → List Str) (ch : Str → Option Nat) (fs : Fs) (pattern out : Str) (np : Option Int) (ts : Option Rat)
    (h : glob (pattern ++ "_chan*.ljh".toList) = []) : main pf glob ch fs pattern out np ts = (fs, some .type) := by
  unfold main
  rw [h]
  rfl

end Mass.Ljh.TruncScript
