import Verif.Ljh.Modify
/-! C16 (ljh_truncate), C17 (ljh_copy_traces), C59 (ljh_append_traces). -/
namespace Mass.Ljh
open Mass.Names (Str)

theorem openFile_ok {pf : Bytes → Option Rat} {fs : Fs} {p : Str} {l : Ljh} {i : Nat}
    (h : openFile pf fs p = .ok (l, i)) : fs.ino p = some i ∧ openBytes pf p (fs.data i) = .ok l := by
  unfold openFile at h
  split at h
  · cases h
  · rename_i j hj
    cases hb : openBytes pf p (fs.data j) with
    | error e => rw [hb] at h; cases h
    | ok l' =>
      rw [hb] at h
      simp only [Except.map, Except.ok.injEq, Prod.mk.injEq] at h
      obtain ⟨rfl, rfl⟩ := h
      exact ⟨hj, hb⟩

theorem readRec_ok {pf : Bytes → Option Rat} {p : Str} {f : Bytes} {l : Ljh} (h : openBytes pf p f = .ok l)
    (hv : l.v22 = true) {k : Nat} (hk : k < l.nPulses) : ∃ r, readRec l f (k : Int) = .ok r := by
  obtain ⟨-, hle, hb⟩ := openBytes_header h
  have hi : normIdx l.nPulses (k : Int) = some k := by
    unfold normIdx; rw [if_pos ⟨by omega, by exact_mod_cast hk⟩]; simp
  unfold readRec
  rw [hi]
  dsimp only
  have : (k + 1) * l.pulseSize ≤ l.binarySize :=
    Nat.le_trans (Nat.mul_le_mul_right _ hk) (Nat.div_mul_le_self _ _)
  rw [Nat.add_mul] at this
  rw [if_neg (by rw [List.length_take, List.length_drop]; omega), if_pos hv]
  exact ⟨_, rfl⟩

theorem records_ok {pf : Bytes → Option Rat} {p : Str} {f : Bytes} {l : Ljh} (h : openBytes pf p f = .ok l)
    (hv : l.v22 = true) : ∃ recs : List Rec, l.nPulses = recs.length ∧ records l f = recs.map .ok ∧
      (∀ k (hk : k < recs.length), readRec l f (k : Int) = .ok recs[k]) ∧ ∀ r ∈ recs, r.data.length = l.nSamples := by
  have key : ∀ n ≤ l.nPulses, ∃ recs : List Rec, n = recs.length ∧
      ∀ k (hk : k < recs.length), readRec l f (k : Int) = .ok recs[k] := by
    intro n
    induction n with
    | zero => intro _; exact ⟨[], rfl, by simp⟩
    | succ n ih =>
      intro hn
      obtain ⟨recs, h1, h2⟩ := ih (by omega)
      obtain ⟨r, hr⟩ := readRec_ok h hv (k := n) (by omega)
      refine ⟨recs ++ [r], by simp [h1], ?_⟩
      intro k hk
      by_cases hkn : k < recs.length
      · rw [List.getElem_append_left hkn]; exact h2 k hkn
      · have : k = n := by simp at hk; omega
        subst this
        rw [hr]; congr 1
        simp [h1]
  obtain ⟨recs, h1, h2⟩ := key l.nPulses (Nat.le_refl _)
  refine ⟨recs, h1, ?_, h2, ?_⟩
  · unfold records
    apply List.ext_getElem
    · simp [h1]
    · intro k hk1 hk2
      simp only [List.getElem_map, List.getElem_range]
      exact h2 k (by simpa using hk2)
  · intro r hr
    obtain ⟨k, hk, rfl⟩ := List.getElem_of_mem hr
    exact readRec_data_length (h2 k hk)

theorem openBytes_new {pf : Bytes → Option Rat} {p q : Str} {f hd b : Bytes} {l : Ljh} {c : Int}
    (h : openBytes pf p f = .ok l) (hc : Names.fileChannum q = .ok c)
    (hr : readHeader (hd ++ b) = .ok (l.dict, hd.length)) :
    openBytes pf q (hd ++ b) = .ok { l with headerSize := hd.length, binarySize := b.length, channum := c } := by
  obtain ⟨h1, -, h2⟩ := openBytes_header h
  rw [openBytes_eq h1] at h
  rw [openBytes_eq hr]
  obtain ⟨p0, hp, hfin⟩ := bind_ok h
  unfold parseHeader
  rw [parseFields_name hp hc]
  simp only [bind, Except.bind]
  unfold finishOpen at hfin ⊢
  split at hfin
  · exact absurd hfin (by simp)
  · rename_i g1
    rw [if_neg g1]
    split at hfin
    · exact absurd hfin (by simp)
    · rename_i g2
      rw [if_neg g2]
      injection hfin with hfin
      have e1 := congrArg Ljh.v22 hfin
      have e2 := congrArg Ljh.timebase hfin
      have e3 := congrArg Ljh.nSamples hfin
      have e4 := congrArg Ljh.nPresamples hfin
      have e5 := congrArg Ljh.subDiv hfin
      have e6 := congrArg Ljh.subOff hfin
      dsimp only at e1 e2 e3 e4 e5 e6
      simp [e1, e2, e3, e4, e5, e6]

/-! ### C16 -/

/-- the segment size given to `ljh_truncate`, if any, holds at least one record [specification] -/
def SegOk (l : Ljh) (seg : Option Int) : Prop := ∀ s, seg = some s → (l.pulseSize : Int) ≤ s

theorem truncate_run {pf : Bytes → Option Rat} {fs : Fs} {inp out : Str} {np : Option Int} {ts : Option Rat}
    {seg : Option Int} {l : Ljh} {si : Nat} (hx : np.isSome ≠ ts.isSome)
    (ho : openFile pf fs inp = .ok (l, si)) (hv : l.v22 = true) (hne : fs.ino out ≠ some si) (hseg : SegOk l seg) :
    truncate pf fs inp out np ts seg =
      truncLoop l si (fs.openW out).2 (lateThan ts) 0 (nKeep l np)
        ((fs.openW out).1.append (fs.openW out).2 (dictBytes l.dict)) := by
  obtain ⟨hi, hb⟩ := openFile_ok ho
  have hps : 0 < l.pulseSize := by unfold Ljh.pulseSize; split <;> omega
  unfold truncate
  rw [if_neg (by simpa using hx), if_neg (by simp [hi]), if_neg (by rw [hi]; simpa using fun _ => Ne.symm hne), ho]
  dsimp only
  have : segErr l seg = none := by
    unfold segErr
    cases seg with
    | none => rfl
    | some s =>
      obtain ⟨r, hr⟩ := (segment_size_ok_iff (b := l.binarySize) hps).2 (hseg s rfl)
      simp only [hr]
  rw [this]
  dsimp only
  rw [if_neg (by simp [hv])]

/-- what a successful `ljh_truncate` leaves behind: the input untouched, and an output file with the same header entries that
holds exactly the records `kept` [specification] -/
def Truncated (pf : Bytes → Option Rat) (fs fs' : Fs) (inp out : Str) (l : Ljh) (kept : List Rec) : Prop :=
  fs'.read inp = fs.read inp ∧
  ∃ l' di, openFile pf fs' out = .ok (l', di) ∧ l'.dict = l.dict ∧ l'.v22 = true ∧ l'.nSamples = l.nSamples ∧
    l'.nPresamples = l.nPresamples ∧ l'.timebase = l.timebase ∧ l'.subDiv = l.subDiv ∧ l'.subOff = l.subOff ∧
    records l' (fs'.data di) = kept.map .ok

theorem truncated_of {pf : Bytes → Option Rat} {fs : Fs} (hw : fs.WF) {inp out : Str} {l : Ljh} {si : Nat} {c : Int}
    (ho : openFile pf fs inp = .ok (l, si)) (hv : l.v22 = true) (hne : fs.ino out ≠ some si)
    (hc : Names.fileChannum out = .ok c) (hno : ∀ e ∈ l.dict, ¬ endMark <+: e.1) {kept : List Rec}
    (hk : ∀ r ∈ kept, r.data.length = l.nSamples) :
    Truncated pf fs (((fs.openW out).1.append (fs.openW out).2 (dictBytes l.dict)).append (fs.openW out).2
      (kept.flatMap encRec)) inp out l kept := by
  obtain ⟨hi, hb⟩ := openFile_ok ho
  obtain ⟨h1, -, -⟩ := openBytes_header hb
  obtain ⟨hwf, h256⟩ := readHeader_wf h1
  obtain ⟨s1, s2, s3, s4, s5⟩ := openW_spec hw hi hne
  generalize (fs.openW out).1 = fs1 at *
  generalize (fs.openW out).2 = di at *
  rw [append_append]
  refine ⟨?_, ?_⟩
  · unfold Fs.read
    rw [append_ino, s5, hi]
    simp only [Option.map_some]
    rw [append_data_ne _ _ (Ne.symm s3), s4]
  · have hdat : (fs1.append di (dictBytes l.dict ++ kept.flatMap encRec)).data di = dictBytes l.dict ++ kept.flatMap encRec := by
      rw [append_data_self, s2]; rfl
    have hop := openBytes_new (b := kept.flatMap encRec) hb hc (readHeader_dictBytes hwf h256 hno _)
    refine ⟨{ l with headerSize := (dictBytes l.dict).length, binarySize := (kept.flatMap encRec).length, channum := c }, di, ?_, rfl, hv, rfl, rfl, rfl, rfl, rfl, ?_⟩
    · unfold openFile
      rw [append_ino, s1]
      dsimp only
      rw [hdat, hop]; rfl
    · rw [hdat]
      generalize hl' : ({ l with headerSize := (dictBytes l.dict).length, binarySize := (kept.flatMap encRec).length, channum := c } : Ljh) = l'
      have hv' : l'.v22 = true := by rw [← hl']; exact hv
      have hk' : ∀ r ∈ kept, r.data.length = l'.nSamples := by rw [← hl']; exact hk
      have hb' : l'.binarySize = kept.length * (16 + 2 * l'.nSamples) + 0 := by
        rw [← hl']; simpa using flat_length kept hk
      have := records_of (l := l') (h := dictBytes l.dict) (tl := []) (recs := kept)
        hv' (by rw [← hl']) hk' (nPulses_of hv' hb' (by omega))
      rw [List.append_nil] at this
      exact this

theorem takeWhile_all {α : Type} (l : List α) : l.takeWhile (fun _ => true) = l := by
  induction l with
  | nil => rfl
  | cons a t ih => rw [List.takeWhile_cons, if_pos rfl, ih]

/-- C16. `ljh_truncate(in, out, n_pulses=n)` with `n ≤ nPulses` keeps exactly the first `n` records and the header. (The header of the
input must have no key starting with the end-of-header marker; see `truncate_header_fails`.) -/
theorem truncate_n_partial {pf : Bytes → Option Rat} {fs : Fs} (hw : fs.WF) {inp out : Str} {n : Int} {seg : Option Int} {l : Ljh}
    {si : Nat} {c : Int} (ho : openFile pf fs inp = .ok (l, si)) (hv : l.v22 = true) (hne : fs.ino out ≠ some si)
    (hc : Names.fileChannum out = .ok c) (hno : ∀ e ∈ l.dict, ¬ endMark <+: e.1) (hseg : SegOk l seg)
    (hn : n ≤ l.nPulses) :
    ∃ (recs : List Rec) (fs' : Fs), records l (fs.data si) = recs.map .ok ∧ truncate pf fs inp out (some n) none seg = (fs', none) ∧
      Truncated pf fs fs' inp out l (recs.take n.toNat) := by
  obtain ⟨hi, hb⟩ := openFile_ok ho
  obtain ⟨recs, r1, r2, r3, r4⟩ := records_ok hb hv
  refine ⟨recs, _, r2, ?_, truncated_of hw ho hv hne hc hno (fun r hr => r4 r (List.mem_of_mem_take hr))⟩
  rw [truncate_run (by simp) ho hv hne hseg]
  obtain ⟨-, -, s3, s4, -⟩ := openW_spec hw hi hne
  rw [truncLoop_eq r1]
  · rw [List.drop_zero]
    have h0 : (fun r : Rec => !lateThan none r) = fun _ => true := rfl
    have : (recs.take n.toNat).takeWhile (fun r : Rec => !lateThan none r) = recs.take n.toNat := by
      rw [h0]; exact takeWhile_all _
    rw [show nKeep l (some n) = n.toNat from rfl, this, if_neg (by rw [List.length_take]; omega)]
  · intro k hk
    rw [append_data_ne _ _ (Ne.symm s3), s4]
    exact r3 k hk

/-- C16. `ljh_truncate(in, out, timestamp=t)` keeps exactly the records before the first one later than `t`. -/
theorem truncate_time_partial {pf : Bytes → Option Rat} {fs : Fs} (hw : fs.WF) {inp out : Str} {t : Rat} {seg : Option Int} {l : Ljh}
    {si : Nat} {c : Int} (ho : openFile pf fs inp = .ok (l, si)) (hv : l.v22 = true) (hne : fs.ino out ≠ some si)
    (hc : Names.fileChannum out = .ok c) (hno : ∀ e ∈ l.dict, ¬ endMark <+: e.1) (hseg : SegOk l seg) :
    ∃ (recs : List Rec) (fs' : Fs), records l (fs.data si) = recs.map .ok ∧ truncate pf fs inp out none (some t) seg = (fs', none) ∧
      Truncated pf fs fs' inp out l (recs.takeWhile (fun r => decide ((r.usec.toInt : Rat) / 1000000 ≤ t))) := by
  obtain ⟨hi, hb⟩ := openFile_ok ho
  obtain ⟨recs, r1, r2, r3, r4⟩ := records_ok hb hv
  refine ⟨recs, _, r2, ?_, truncated_of hw ho hv hne hc hno (fun r hr => r4 r ((List.takeWhile_sublist _).mem hr))⟩
  rw [truncate_run (by simp) ho hv hne hseg]
  obtain ⟨-, -, s3, s4, -⟩ := openW_spec hw hi hne
  rw [truncLoop_eq r1]
  · have e : (fun r : Rec => !lateThan (some t) r) =
        fun r => decide ((r.usec.toInt : Rat) / 1000000 ≤ t) := by
      funext r
      rw [Bool.eq_iff_iff]
      simp [lateThan]
    rw [show nKeep l none = recs.length from r1, e]
    simp only [List.drop_zero, List.take_length]
    rw [if_neg (by omega)]
  · intro k hk
    rw [append_data_ne _ _ (Ne.symm s3), s4]
    exact r3 k hk

/-- C16. Asking for more pulses than there are is an IndexError, after every record was copied; the input is untouched. -/
theorem truncate_too_many {pf : Bytes → Option Rat} {fs : Fs} (hw : fs.WF) {inp out : Str} {n : Int} {seg : Option Int} {l : Ljh}
    {si : Nat} (ho : openFile pf fs inp = .ok (l, si)) (hv : l.v22 = true) (hne : fs.ino out ≠ some si)
    (hseg : SegOk l seg) (hn : (l.nPulses : Int) < n) :
    ∃ fs', truncate pf fs inp out (some n) none seg = (fs', some .index) ∧ fs'.read inp = fs.read inp := by
  obtain ⟨hi, hb⟩ := openFile_ok ho
  obtain ⟨recs, r1, r2, r3, r4⟩ := records_ok hb hv
  obtain ⟨s1, s2, s3, s4, s5⟩ := openW_spec hw hi hne
  refine ⟨((fs.openW out).1.append (fs.openW out).2 (dictBytes l.dict)).append (fs.openW out).2 ((recs.take n.toNat).flatMap encRec), ?_, ?_⟩
  · rw [truncate_run (by simp) ho hv hne hseg]
    rw [truncLoop_eq r1]
    · have h0 : (fun r : Rec => !lateThan none r) = fun _ => true := rfl
      rw [show nKeep l (some n) = n.toNat from rfl, h0]
      rw [List.drop_zero, if_pos ⟨by simp, by rw [List.length_take]; omega⟩]
      rw [takeWhile_all]
    · intro k hk
      rw [append_data_ne _ _ (Ne.symm s3), s4]
      exact r3 k hk
  · unfold Fs.read
    rw [append_ino, append_ino, s5, hi]
    simp only [Option.map_some]
    rw [append_data_ne _ _ (Ne.symm s3), append_data_ne _ _ (Ne.symm s3), s4]

/-- C16. Every refusal leaves all files as they were: not exactly one limit, the same file under any name, an input that does not
open, a version below 2.2.0, or a segment smaller than a record. -/
theorem truncate_refused {pf : Bytes → Option Rat} {fs : Fs} {inp out : Str} {np : Option Int} {ts : Option Rat} {seg : Option Int}
    (h : np.isSome = ts.isSome ∨ (fs.ino inp = fs.ino out) ∨ (∃ e, openFile pf fs inp = .error e) ∨
      (∃ l si, openFile pf fs inp = .ok (l, si) ∧ (l.v22 = false ∨ ¬ SegOk l seg))) :
    ∃ e, truncate pf fs inp out np ts seg = (fs, some e) := by
  unfold truncate
  split
  · exact ⟨_, rfl⟩
  · rename_i hx
    split
    · exact ⟨_, rfl⟩
    · split
      · exact ⟨_, rfl⟩
      · rename_i hsame
        split
        · exact ⟨_, rfl⟩
        · rename_i l si ho
          obtain ⟨hi, hb⟩ := openFile_ok ho
          rcases h with h | h | ⟨e, h⟩ | ⟨l', si', h, hbad⟩
          · exact absurd (by simpa using h) hx
          · exfalso; apply hsame; rw [← h, hi]; simp
          · rw [ho] at h; cases h
          · rw [ho] at h; cases h
            split
            · exact ⟨_, rfl⟩
            · rename_i hs
              rcases hbad with hbad | hbad
              · rw [if_pos (by simp [hbad])]; exact ⟨_, rfl⟩
              · exfalso
                apply hbad
                intro s hse
                subst hse
                dsimp only [segErr] at hs
                have hps : 0 < l.pulseSize := by unfold Ljh.pulseSize; split <;> omega
                rw [← segment_size_ok_iff (b := l.binarySize) hps]
                split at hs
                · cases hs
                · rename_i r hr; exact ⟨_, hr⟩

/-- a small file system with one file, for the instances below [specification] -/
def oneFile (p : Str) (b : Bytes) : Fs := ⟨fun q => if q = p then some 0 else none, fun _ => b, 1⟩
/-- a stand-in for Python's text-to-float conversion [specification] -/
def pf1 (_ : Bytes) : Option Rat := some (1 / 100000)

/-- a version 2.2 file with 2 samples per record and two records (and one stray byte at the end) [specification] -/
def sampleFile : Bytes :=
  asc "Save File Format Version: 2.2.0\nSoftware Version: DASTARD 1\nTimebase: 1e-5\nTotal Samples: 2\nPresamples: 1\n#End of Header\n" ++
    (encRec ⟨5, 1000000, [1, 2]⟩ ++ (encRec ⟨9, 3000000, [3, 65535]⟩ ++ [7]))

/-- C14/C16, instance: the file opens, and truncating it to one record, or to 2 s, keeps the first record. -/
example : (openFile pf1 (oneFile "a_chan1.ljh".toList sampleFile) "a_chan1.ljh".toList).map
    (fun x => (x.1.nPulses, x.1.nPresamples, records x.1 sampleFile)) =
    .ok (2, 1, [.ok ⟨5, 1000000, [1, 2]⟩, .ok ⟨9, 3000000, [3, 65535]⟩]) := by decide +kernel
example :
    let r := truncate pf1 (oneFile "a_chan1.ljh".toList sampleFile) "a_chan1.ljh".toList "b_chan2.ljh".toList none (some 2) none
    r.2 = none ∧ r.1.data 0 = sampleFile ∧
    (openFile pf1 r.1 "b_chan2.ljh".toList).map (fun x => (x.1.nPresamples, records x.1 (r.1.data x.2))) =
      .ok (1, [.ok ⟨5, 1000000, [1, 2]⟩]) := by decide +kernel

/-- C16 is false when an indented header line looks like the end marker: the key is written back without the
indentation, so the copy's header ends there and the later entries and records are misread. -/
theorem truncate_header_fails :
    let f := asc ("Save File Format Version: 2.2.0\nTimebase: 1\nTotal Samples: 2\nPresamples: 1\n" ++
      " #End of Header: no\nNote: 12345678901\n#End of Header\n") ++ encRec ⟨5, 1000000, [1, 2]⟩
    let fs := oneFile "a_chan1.ljh".toList f
    let r := truncate pf1 fs "a_chan1.ljh".toList "b_chan1.ljh".toList (some 1) none none
    r.2 = none ∧
    (openFile pf1 fs "a_chan1.ljh".toList).map (fun x => (x.1.nPulses, dictGet x.1.dict (asc "Note"))) =
      .ok (1, some (asc "12345678901")) ∧
    (openFile pf1 r.1 "b_chan1.ljh".toList).map (fun x => (x.1.nPulses, dictGet x.1.dict (asc "Note"))) =
      .ok (2, none) := by decide +kernel

/-! ### C59 -/

theorem openBytes_chan {pf : Bytes → Option Rat} {p : Str} {f : Bytes} {l : Ljh} (h : openBytes pf p f = .ok l) :
    Names.fileChannum p = .ok l.channum := by
  obtain ⟨⟨d, hs⟩, -, h⟩ := bind_ok h
  obtain ⟨p0, hp, hfin⟩ := bind_ok h
  have hch : l.channum = p0.ch := by
    unfold finishOpen at hfin
    split at hfin
    · exact absurd hfin (by simp)
    · split at hfin
      · exact absurd hfin (by simp)
      · injection hfin with hfin; rw [← hfin]
  unfold parseFields at hp
  obtain ⟨_, -, hp⟩ := bind_ok hp
  obtain ⟨_, -, hp⟩ := bind_ok hp
  obtain ⟨ch, hc, hp⟩ := bind_ok hp
  iterate 11 obtain ⟨_, -, hp⟩ := bind_ok hp
  simp only [pure, Except.pure, Except.ok.injEq] at hp
  rw [hch, hc, ← hp]

/-- a version 2.2 file is its header, its records, and less than one record of remainder -/
theorem file_bytes {pf : Bytes → Option Rat} {p : Str} {f : Bytes} {l : Ljh} (h : openBytes pf p f = .ok l)
    (hv : l.v22 = true) {recs : List Rec} (hr : records l f = recs.map .ok) :
    f = f.take l.headerSize ++ (recs.flatMap encRec ++ f.drop (l.headerSize + l.nPulses * l.pulseSize)) := by
  have hps : l.pulseSize = 16 + 2 * l.nSamples := by simp [Ljh.pulseSize, hv]
  obtain ⟨-, hle, hb⟩ := openBytes_header h
  have hlen : l.nPulses = recs.length := by
    have := congrArg List.length hr
    simpa [records] using this
  have key : ∀ n ≤ recs.length, f.drop l.headerSize =
      (recs.take n).flatMap encRec ++ f.drop (l.headerSize + n * l.pulseSize) := by
    intro n
    induction n with
    | zero => intro _; simp
    | succ n ih =>
      intro hn
      rw [ih (by omega)]
      have hk : readRec l f (n : Int) = .ok recs[n] := by
        have h1 : (records l f)[n]? = some (readRec l f (n : Int)) := by
          unfold records
          rw [List.getElem?_map, List.getElem?_range (by omega)]; rfl
        rw [hr, List.getElem?_map, List.getElem?_eq_getElem (by omega)] at h1
        simpa using h1.symm
      have hsz : (n + 1) * l.pulseSize ≤ l.binarySize :=
        Nat.le_trans (Nat.mul_le_mul_right _ (show n + 1 ≤ l.nPulses by omega)) (Nat.div_mul_le_self _ _)
      rw [Nat.add_mul, Nat.one_mul] at hsz
      have hbl : ((f.drop (l.headerSize + n * l.pulseSize)).take l.pulseSize).length = l.pulseSize := by
        rw [List.length_take, List.length_drop]; omega
      have hdec : encRec recs[n] = (f.drop (l.headerSize + n * l.pulseSize)).take l.pulseSize := by
        unfold readRec at hk
        have hi : normIdx l.nPulses (n : Int) = some n := by
          unfold normIdx; rw [if_pos ⟨by omega, by omega⟩]; simp
        rw [hi] at hk
        dsimp only at hk
        rw [if_neg (by omega), if_pos hv] at hk
        injection hk with hk
        rw [← hk]
        exact encRec_decode _ _ (by rw [hbl, hps])
      rw [List.take_succ_eq_append_getElem (by omega), List.flatMap_append, List.append_assoc]
      congr 1
      simp only [List.flatMap_cons, List.flatMap_nil, List.append_nil]
      rw [hdec, Nat.add_mul, Nat.one_mul, ← Nat.add_assoc, ← List.drop_drop (i := l.pulseSize), List.take_append_drop]
  have := key recs.length (Nat.le_refl _)
  rw [List.take_length] at this
  rw [hlen, ← this, List.take_append_drop]

/-- C17, C59. The record a (Python) index stands for: `records[i]` from the front, `records[n + i]` for negative `i`, IndexError outside. -/
theorem readRec_index (l : Ljh) (f : Bytes) (i : Int) :
    (∀ k : Nat, i = k → k < l.nPulses → (records l f)[k]? = some (readRec l f i)) ∧
    (∀ k : Nat, i = (k : Int) - l.nPulses → k < l.nPulses → (records l f)[k]? = some (readRec l f i)) ∧
    (i < -(l.nPulses : Int) ∨ (l.nPulses : Int) ≤ i → readRec l f i = .error .index) := by
  have hget : ∀ k : Nat, k < l.nPulses → (records l f)[k]? = some (readRec l f (k : Int)) := by
    intro k hk
    unfold records
    rw [List.getElem?_map, List.getElem?_range hk]
    rfl
  refine ⟨?_, ?_, ?_⟩
  · rintro k rfl hk; exact hget k hk
  · rintro k rfl hk
    rw [hget k hk]
    congr 1
    have e1 : normIdx l.nPulses ((k : Int) - l.nPulses) = some k := by
      unfold normIdx
      rw [if_neg (by omega), if_pos (by omega)]
      congr 1
      omega
    have e2 : normIdx l.nPulses (k : Int) = some k := by
      unfold normIdx; rw [if_pos ⟨by omega, by omega⟩]; simp
    unfold readRec
    rw [e1, e2]
  · intro h
    have : normIdx l.nPulses i = none := by
      unfold normIdx
      rw [if_neg (by omega), if_neg (by omega)]
    unfold readRec
    rw [this]

/-- as `append_partial`, with the bytes written and the new state of the destination in full -/
theorem append_full {pf : Bytes → Option Rat} {fs : Fs} (hw : fs.WF) {src dst : Str} {l ld : Ljh} {si di : Nat}
    (ho : openFile pf fs src = .ok (l, si)) (hd : openFile pf fs dst = .ok (ld, di)) (hv : ld.v22 = true)
    (hns : ld.nSamples = l.nSamples) (hbound : ld.binarySize % ld.pulseSize = 0)
    (hnl : ((fs.data di).take ld.headerSize).getLast? = some 10)
    {pulses : List Int} {rs : List Rec}
    (hrs : List.Forall₂ (fun i r => readRec l (fs.data si) i = .ok r ∧ Writable r) pulses rs) :
    ∃ (old : List Rec) (l' : Ljh), records ld (fs.data di) = old.map .ok ∧
      appendTraces pf fs src dst (some pulses) = (fs.append di (rs.flatMap encRec), none) ∧
      openFile pf (fs.append di (rs.flatMap encRec)) dst = .ok (l', di) ∧
      l' = { ld with binarySize := (old ++ rs).length * ld.pulseSize } ∧
      records l' ((fs.append di (rs.flatMap encRec)).data di) = (old ++ rs).map .ok := by
  obtain ⟨hsi, hsb⟩ := openFile_ok ho
  obtain ⟨hdi, hdb⟩ := openFile_ok hd
  obtain ⟨old, o1, o2, -, o4⟩ := records_ok hdb hv
  have hps : ld.pulseSize = 16 + 2 * ld.nSamples := by simp [Ljh.pulseSize, hv]
  have hA : fs.openA dst = (fs, di) := by unfold Fs.openA; rw [hdi]
  have hbytes := file_bytes hdb hv o2
  obtain ⟨hrd, hle, hbs⟩ := openBytes_header hdb
  have hend : (fs.data di).drop (ld.headerSize + ld.nPulses * ld.pulseSize) = [] := by
    apply List.drop_of_length_le
    have : ld.nPulses * ld.pulseSize = ld.binarySize := by
      have := Nat.div_add_mod ld.binarySize ld.pulseSize
      rw [hbound, Nat.mul_comm] at this
      unfold Ljh.nPulses; omega
    omega
  rw [hend, List.append_nil] at hbytes
  generalize hhd : (fs.data di).take ld.headerSize = hdr at *
  have hhl : hdr.length = ld.headerSize := by rw [← hhd, List.length_take]; omega
  have hrsn : ∀ r ∈ rs, r.data.length = ld.nSamples := by
    clear hA
    intro r hr
    rw [hns]
    induction hrs with
    | nil => simp at hr
    | cons h _ ih =>
      rcases List.mem_cons.1 hr with rfl | hr
      · exact readRec_data_length h.1
      · exact ih hr
  have halln : ∀ r ∈ old ++ rs, r.data.length = ld.nSamples := by
    intro r hr
    rcases List.mem_append.1 hr with hr | hr
    · exact o4 r hr
    · exact hrsn r hr
  -- the header of the new file
  have hr2 : readHeader (hdr ++ (old ++ rs).flatMap encRec) = .ok (ld.dict, hdr.length) := by
    obtain ⟨pre, endl, body, ⟨hf, hpre, hend', hlast⟩, hlen, hn⟩ := header_scan_only hrd
    have e1 : hdr = pre.flatten ++ endl := by
      rw [← hhd, hn, hf, ← List.append_assoc, List.take_left]
    have hline : IsLine endl := by
      rcases hlast with h | ⟨h, -⟩
      · exact h
      · exfalso
        rw [e1, List.getLast?_append] at hnl
        have : endl ≠ [] := by rintro rfl; exact endMark_ne (List.prefix_nil.1 hend')
        cases he : endl.getLast? with
        | none => exact this (List.getLast?_eq_none_iff.1 he)
        | some x => rw [he] at hnl; simp at hnl; subst hnl; exact h (List.mem_of_getLast? he)
    have g1 := readHeader_run ⟨hf, hpre, hend', hlast⟩ hlen
    rw [hrd] at g1; injection g1 with g1; injection g1 with g1 g2
    rw [readHeader_run (pre := pre) (endl := endl) (body := (old ++ rs).flatMap encRec)
      ⟨by rw [e1]; simp, hpre, hend', .inl hline⟩ hlen, g1, hhl, g2]
  have hop := openBytes_new hdb (openBytes_chan hdb) hr2
  refine ⟨old, { ld with headerSize := hdr.length, binarySize := ((old ++ rs).flatMap encRec).length, channum := ld.channum }, o2, ?_, ?_, by rw [hhl, flat_length _ halln, hps], ?_⟩
  rotate_left 2
  · rw [append_data_self, hbytes, List.append_assoc, ← List.flatMap_append]
    generalize hl' : ({ ld with headerSize := hdr.length, binarySize := ((old ++ rs).flatMap encRec).length, channum := ld.channum } : Ljh) = l'
    have hv' : l'.v22 = true := by rw [← hl']; exact hv
    have hk' : ∀ r ∈ old ++ rs, r.data.length = l'.nSamples := by rw [← hl']; exact halln
    have hb' : l'.binarySize = (old ++ rs).length * (16 + 2 * l'.nSamples) + 0 := by
      rw [← hl', Nat.add_zero]; exact flat_length _ halln
    have := records_of (l := l') (h := hdr) (tl := []) (recs := old ++ rs) hv' (by rw [← hl']) hk'
      (nPulses_of hv' hb' (by omega))
    rw [List.append_nil] at this
    exact this
  · unfold appendTraces
    rw [ho]
    dsimp only
    rw [hA]
    exact writeLoop_ok hrs
  · unfold openFile
    rw [append_ino, hdi]
    dsimp only
    rw [append_data_self, hbytes, List.append_assoc, ← List.flatMap_append, hop]; rfl

/-- C59. Appending records to a version 2.2 file that ends on a record boundary: afterwards it holds its old records followed by
the chosen ones, in the order given (also when source and destination are the same file). -/
theorem append_partial {pf : Bytes → Option Rat} {fs : Fs} (hw : fs.WF) {src dst : Str} {l ld : Ljh} {si di : Nat}
    (ho : openFile pf fs src = .ok (l, si)) (hd : openFile pf fs dst = .ok (ld, di)) (hv : ld.v22 = true)
    (hns : ld.nSamples = l.nSamples) (hbound : ld.binarySize % ld.pulseSize = 0)
    (hnl : ((fs.data di).take ld.headerSize).getLast? = some 10)
    {pulses : List Int} {rs : List Rec}
    (hrs : List.Forall₂ (fun i r => readRec l (fs.data si) i = .ok r ∧ Writable r) pulses rs) :
    ∃ (old : List Rec) (fs' : Fs) (l' : Ljh), records ld (fs.data di) = old.map .ok ∧
      appendTraces pf fs src dst (some pulses) = (fs', none) ∧ openFile pf fs' dst = .ok (l', di) ∧
      l'.nSamples = ld.nSamples ∧ l'.nPresamples = ld.nPresamples ∧
      records l' (fs'.data di) = (old ++ rs).map .ok := by
  obtain ⟨old, l', h1, h2, h3, h4, h5⟩ := append_full hw ho hd hv hns hbound hnl hrs
  exact ⟨old, _, l', h1, h2, h3, by rw [h4], by rw [h4], h5⟩

/-- C59 is false for a file left with an incomplete record by a crash: the appended record is read from the wrong offset. -/
theorem append_after_crash_fails :
    let fs := oneFile "a_chan1.ljh".toList sampleFile
    let r := appendTraces pf1 fs "a_chan1.ljh".toList "a_chan1.ljh".toList (some [0])
    r.2 = none ∧ (openFile pf1 r.1 "a_chan1.ljh".toList).map (fun x => (records x.1 (r.1.data 0)).getLast?) =
      .ok (some (.ok ⟨0x507, 256000000, [0x100, 0x200]⟩)) := by decide +kernel

/-- C59, instance: without the stray byte. -/
example :
    let f := sampleFile.dropLast
    let fs := oneFile "a_chan1.ljh".toList f
    let r := appendTraces pf1 fs "a_chan1.ljh".toList "a_chan1.ljh".toList (some [-1, 0])
    r.2 = none ∧ (openFile pf1 r.1 "a_chan1.ljh".toList).map (fun x => records x.1 (r.1.data 0)) =
      .ok [.ok ⟨5, 1000000, [1, 2]⟩, .ok ⟨9, 3000000, [3, 65535]⟩, .ok ⟨9, 3000000, [3, 65535]⟩, .ok ⟨5, 1000000, [1, 2]⟩] := by
  decide +kernel

end Mass.Ljh
