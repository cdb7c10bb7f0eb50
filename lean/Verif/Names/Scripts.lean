import Verif.Names.Props
import Mathlib.Data.List.Sort
import Mathlib.Data.List.Nodup
import Mathlib.Data.List.Dedup
import Mathlib.Data.List.TakeWhile
/-! C143: which files the command-line conversions work on (mass/core/ljh2off.py L129-237, mass/core/projectors_script.py L84-129), the helpers which find channels and output names
(mass/core/ljh_util.py L20-35, L84-104, L211-227) and the modification of LJH files (mass/core/ljh_modify.py L16-71). -/
namespace Mass.Names.Scr
open Mass Mass.Names

/-- sorted(…) of whole numbers (used for ljh_util.py L30, L34, ljh2off.py L190) -/
def srt (l : List Nat) : List Nat := l.insertionSort (· ≤ ·)

/-! ### finding channels -/

/-- a directory's entries and whether each is a regular file; `none`: no such directory. os.listdir('') is an error (ljh_util.py L24-26). -/
abbrev Listing := Str → Option (List (Str × Bool))

/-- the loop of ljh_get_channels, ljh_util.py L24-29 -/
def chansIn (isdir : Str → Bool) (name : Str) : List (Str × Bool) → Except Exc (List Nat)
  | [] => .ok []
  | (f, isfile) :: t =>
    if !isfile then chansIn isdir name t
    else match basenameChannum isdir f with
      | .error e => .error e
      | .ok (b, c) => match chansIn isdir name t with
        | .error e => .error e
        | .ok r => match c with
          | some n => .ok (if b = name then n :: r else r)
          | none => .ok r

/-- ljh_get_channels, ljh_util.py L20-30 -/
def getChannels (isdir : Str → Bool) (ls : Listing) (fname : Str) : Except Exc (List Nat) :=
  match basenameChannum isdir fname with
  | .error e => .error e
  | .ok (base, _) =>
    let (dir, name) := pathSplit base
    if dir = [] then .error .os
    else match ls dir with
      | none => .error .os
      | some es => match chansIn isdir name es with
        | .error e => .error e
        | .ok r => .ok (srt r)

/-- ljh_get_channels_both, ljh_util.py L33-34 -/
def getBoth (isdir : Str → Bool) (ls : Listing) (f g : Str) : Except Exc (List Nat) :=
  match getChannels isdir ls f with
  | .error e => .error e
  | .ok a => match getChannels isdir ls g with
    | .error e => .error e
    | .ok b => .ok (srt ((a.filter (fun c => decide (c ∈ b))).dedup))

/-! ### output names -/

/-- output_basename_from_ljh_fname, ljh_util.py L84-93: the name; `raise` of a text is a TypeError -/
def outputBase (isdir : Str → Bool) (ljh : Str) : Except Exc Str :=
  match basenameChannum isdir ljh with
  | .error e => .error e
  | .ok (base, _) =>
    let (dir, fname) := pathSplit base
    if !isdir dir then .error .type else .ok (pathJoin (pathJoin dir "mass_output".toList) fname)

/-- mass_folder_from_ljh_fname, ljh_util.py L96-104 -/
def massFolder (isdir : Str → Bool) (ljh filename : Str) : Except Exc Str :=
  match basenameChannum isdir ljh with
  | .error e => .error e
  | .ok (base, _) =>
    let (dir, _) := pathSplit base
    if !isdir dir then .error .value else .ok (pathJoin (pathJoin dir "mass".toList) filename)

/-- load_aux_file, ljh_util.py L220-226 for the words of the file (none: no file): the new shape has `len(raw) / 2`, which is not an int. -/
def loadAux (words : Option (List Nat)) : Except Exc (List Nat × List Nat) :=
  match words with
  | none => .error .os
  | some _ => .error .type

/-! ### ljh2off -/

/-- `f'{base}_chan{channum}.ext'`, ljh2off.py L139-140, projectors_script.py L104-105 -/
def chanFile (base : Str) (c : Nat) (ext : String) : Str := base ++ (chanTag ++ (decimal c ++ ext.toList))

/-- the loop of multi_ljh2off_loop, ljh2off.py L138-153: what was converted (names of LJH files and OFF file) and the exception which ended it, if any. A file which does not exist cannot be opened (L67, L78). -/
def offLoop (bases : List Str) (off : Str) (exist : Str → Bool) (max : Int) : Nat → List Nat → List (List Str × Str) × Option Exc
  | _, [] => ([], none)
  | h, c :: cs =>
    let paths := bases.map (fun b => chanFile b c ".ljh")
    if !paths.any exist then offLoop bases off exist max h cs
    else if !paths.all exist then ([], some .os)
    else if ((h + 1 : Nat) : Int) = max then ([(paths, chanFile off c ".off")], none)
    else
      let r := offLoop bases off exist max (h + 1) cs
      ((paths, chanFile off c ".off") :: r.1, r.2)

/-- multi_ljh2off_loop for the channels of the model file, ljh2off.py L129-156 (load_pulse_models L187-194 sorts the channels; the number of coefficients, records etc. are C14's) -/
def multiLoop (bases : List Str) (off : Str) (exist : Str → Bool) (max : Int) (models : List Nat) : List (List Str × Str) × Option Exc :=
  offLoop bases off exist max 0 (srt models)

/-- text files: their contents (used for ljh2off.py L168-180) -/
abbrev Texts := Str → Option Str

/-- reading in text mode: any end of line is read as newline (Python library; ljh2off.py L171-174) -/
def universal : Str → Str
  | [] => []
  | '\r' :: '\n' :: t => '\n' :: universal t
  | '\r' :: t => '\n' :: universal t
  | c :: t => c :: universal t

/-- the experiment state file of ljh2off_loop, ljh2off.py L166-182 -/
def copyState (fs : Texts) (src snk : Str) (require : Bool) : Except Exc Texts :=
  match fs src with
  | some t => if src ≠ snk then .ok (fun p => if p = snk then some (universal t) else fs p) else .ok fs
  | none => if require then .error .exception else .ok fs

/-- ljh2off_loop, ljh2off.py L157-184: what was converted, and the text files or the exception -/
def ljh2offLoop (isdir : Str → Bool) (fs : Texts) (exist : Str → Bool) (ljhpath outdir : Str) (max : Int) (models : List Nat) (require : Bool) :
    List (List Str × Str) × Except Exc Texts :=
  match basenameChannum isdir ljhpath with
  | .error e => ([], .error e)
  | .ok (base, _) =>
    let off := pathJoin outdir (pathSplit base).2
    let r := multiLoop [base] off exist max models
    match r.2 with
    | some e => (r.1, .error e)
    | none => (r.1, copyState fs (base ++ "_experiment_state.txt".toList) (off ++ "_experiment_state.txt".toList) require)

/-- the end of main, ljh2off.py L232-235: the name printed -/
def ljh2offMain (r : List (List Str × Str) × Except Exc Texts) : Except Exc Str :=
  match r.2 with
  | .error e => .error e
  | .ok _ => match r.1 with
    | [] => .error .index
    | (_, o) :: _ => .ok o

/-- the attributes of an LJH file made from its header: row_number, column_number, col_number (files.py L208-209, L239-245) -/
structure Attrs where
  row : Int
  column : Int
  col : Option Int

/-- LJHFile.__init__ and _parse_header, files.py L208-209, L239-245 -/
def parseHdr (row col : Option Int) : Attrs := ⟨row.getD 0, 0, col⟩

/-- ReadoutInfo of the OFF header: ColumnsNum and RowNum, ljh2off.py L45-50 -/
def readout (a : Attrs) : Int × Int := (a.column, a.row)

/-! ### make_projectors -/

/-- what is asked for (projectors_script.py L32-81) -/
structure Args where
  pulse : Str
  noise : Str
  output : Option Str
  replace : Bool
  max : Int
  weight : Bool

/-- `channums[:n]` (Python slicing; projectors_script.py L96) -/
def upTo (l : List Nat) (n : Int) : List Nat := if 0 ≤ n then l.take n.toNat else l.take (l.length - (-n).toNat)

/-- what make_projectors is called with: pulse files, noise files, noise weighting (projectors_script.py L117-125) -/
structure Job where
  pulses : List Str
  noises : List Str
  weight : Bool
  deriving DecidableEq

/-- main, projectors_script.py L84-129, for HDF5 files `fs` and the work `mk`: the files afterwards and the exception. sys.exit is an exception here. -/
def projMain {α : Type} (isdir : Str → Bool) (ls : Listing) (mk : Job → Except Exc α) (empty : α) (fs : Str → Option α) (a : Args) :
    (Str → Option α) × Except Exc Unit :=
  match getBoth isdir ls a.pulse a.noise with
  | .error e => (fs, .error e)
  | .ok cs =>
    let cs := if a.max < cs.length then upTo cs a.max else cs
    if cs = [] then (fs, .error .exception)
    else match basenameChannum isdir a.pulse, basenameChannum isdir a.noise with
      | .ok (pb, _), .ok (nb, _) =>
        let out := a.output.getD (pb ++ "_model.hdf5".toList)
        if (fs out).isSome && !a.replace then (fs, .error .exception)
        else match mk ⟨cs.map (fun c => chanFile pb c ".ljh"), cs.map (fun c => chanFile nb c ".ljh"), true⟩ with
          | .error e => (fun p => if p = out then some empty else fs p, .error e)
          | .ok x => (fun p => if p = out then some x else fs p, .ok ())
      | _, _ => (fs, .error .index)

/-! ### LJHModify -/

/-- LJHModify, ljh_modify.py L34-47: the files afterwards and the outcome. The LJH object has no `header_lines`; the output file has been opened (emptied) by then. -/
def modify {α : Type} (same : Str → Str → Bool) (valid : α → Bool) (empty : α) (fs : Str → Option α) (inp out : Str) (overwrite : Bool) :
    (Str → Option α) × Except Exc Unit :=
  if (fs out).isSome && same inp out then (fs, .error .value)
  else if (fs out).isSome && !overwrite then (fs, .error .value)
  else match fs inp with
    | none => (fs, .error .os)
    | some x => if !valid x then (fs, .error .exception)
      else (fun p => if p = out then some empty else fs p, .error .attribute)

/-! ### proofs -/

theorem srt_perm (l : List Nat) : (srt l).Perm l := List.perm_insertionSort _ l
theorem srt_sorted (l : List Nat) : (srt l).Pairwise (· ≤ ·) := List.pairwise_insertionSort _ l

theorem chansIn_ok (isdir : Str → Bool) (name : Str) : ∀ (es : List (Str × Bool)), (∀ e ∈ es, isdir e.1 = false) →
    ∃ r, chansIn isdir name es = .ok r ∧ ∀ c, c ∈ r ↔ ∃ f, (f, true) ∈ es ∧ parseName f = (name, some c)
  | [], _ => ⟨[], rfl, by simp⟩
  | (f, b) :: t, h => by
    obtain ⟨r, hr, hm⟩ := chansIn_ok isdir name t (fun e he => h e (List.mem_cons_of_mem _ he))
    unfold chansIn
    cases b with
    | false =>
      refine ⟨r, hr, fun c => ?_⟩
      rw [hm]
      simp
    | true =>
      have hf : isdir f = false := h (f, true) List.mem_cons_self
      have hb : basenameChannum isdir f = .ok (parseName f) := by
        unfold basenameChannum
        rw [hf]; rfl
      rw [hb, hr]
      rcases hp : parseName f with ⟨b, _ | n⟩
      · refine ⟨r, rfl, fun c => ?_⟩
        rw [hm]
        constructor
        · rintro ⟨g, hg, hpg⟩
          exact ⟨g, List.mem_cons_of_mem _ hg, hpg⟩
        · rintro ⟨g, hg, hpg⟩
          rcases List.mem_cons.1 hg with hg | hg
          · obtain ⟨rfl, _⟩ := Prod.mk.injEq .. ▸ hg
            rw [hp] at hpg
            simp at hpg
          · exact ⟨g, hg, hpg⟩
      · refine ⟨if b = name then n :: r else r, rfl, fun c => ?_⟩
        have key : c ∈ (if b = name then n :: r else r) ↔ (b = name ∧ c = n) ∨ c ∈ r := by
          split <;> rename_i hbn
          · simp [hbn]
          · simp [hbn]
        rw [key, hm]
        constructor
        · rintro (⟨h1, h2⟩ | ⟨g, hg, hpg⟩)
          · exact ⟨f, List.mem_cons_self, by rw [hp, h1, h2]⟩
          · exact ⟨g, List.mem_cons_of_mem _ hg, hpg⟩
        · rintro ⟨g, hg, hpg⟩
          rcases List.mem_cons.1 hg with hg | hg
          · obtain ⟨rfl, _⟩ := Prod.mk.injEq .. ▸ hg
            rw [hp] at hpg
            simp only [Prod.mk.injEq, Option.some.injEq] at hpg
            exact .inl ⟨hpg.1, hpg.2.symm⟩
          · exact .inr ⟨g, hg, hpg⟩

/-- C143: the channels found for a file in a directory are, in order, those of the regular files there with the same base name. -/
theorem channels_partial (isdir : Str → Bool) (ls : Listing) (fname dir name : Str) (es : List (Str × Bool))
    (hf : isdir fname = false) (hs : pathSplit (parseName fname).1 = (dir, name)) (hd : dir ≠ []) (hl : ls dir = some es)
    (he : ∀ e ∈ es, isdir e.1 = false) :
    ∃ r, getChannels isdir ls fname = .ok r ∧ r.Pairwise (· ≤ ·) ∧ ∀ c, c ∈ r ↔ ∃ f, (f, true) ∈ es ∧ parseName f = (name, some c) := by
  obtain ⟨r, hr, hm⟩ := chansIn_ok isdir name es he
  refine ⟨srt r, ?_, srt_sorted r, fun c => ?_⟩
  · unfold getChannels basenameChannum
    rw [hf]
    simp only [Bool.false_eq_true, if_false]
    rw [hs]
    dsimp only
    rw [if_neg hd, hl]
    dsimp only
    rw [hr]
  · rw [(srt_perm r).mem_iff, hm]

/-- C143: the channels found for two files are, in order and once each, those found for both. -/
theorem both_ok (isdir : Str → Bool) (ls : Listing) (f g : Str) (r : List Nat) (h : getBoth isdir ls f g = .ok r) :
    ∃ a b, getChannels isdir ls f = .ok a ∧ getChannels isdir ls g = .ok b ∧ r.Pairwise (· < ·) ∧ ∀ c, c ∈ r ↔ c ∈ a ∧ c ∈ b := by
  unfold getBoth at h
  cases ha : getChannels isdir ls f with
  | error e => rw [ha] at h; cases h
  | ok a =>
    rw [ha] at h
    cases hb : getChannels isdir ls g with
    | error e => rw [hb] at h; cases h
    | ok b =>
      rw [hb] at h
      injection h with h
      subst h
      refine ⟨a, b, rfl, rfl, ?_, fun c => ?_⟩
      · have hn : (srt ((a.filter (fun c => decide (c ∈ b))).dedup)).Nodup := (srt_perm _).nodup_iff.2 (List.nodup_dedup _)
        exact (List.Pairwise.and (srt_sorted _) hn).imp (fun h => lt_of_le_of_ne h.1 h.2)
      · rw [(srt_perm _).mem_iff, List.mem_dedup, List.mem_filter, decide_eq_true_iff]

/-- Disagreement (C143): for a file named without a directory (a file in the current directory) no channels can be found: the empty directory name cannot be listed. -/
theorem here_fails (isdir : Str → Bool) (ls : Listing) (fname : Str) (hf : isdir fname = false) (h : '/' ∉ fname) :
    getChannels isdir ls fname = .error .os := by
  have hb : '/' ∉ (parseName fname).1 := by
    unfold parseName
    rcases (finditer 0 0 fname).getLast? with _ | ⟨i, ds⟩
    · intro hm
      apply h
      unfold splitext at hm
      dsimp only at hm
      have ht : ∀ x, x ∈ tailPart fname → x ∈ fname := by
        intro x hx
        unfold tailPart at hx
        rw [List.mem_reverse] at hx
        exact List.mem_reverse.1 ((List.takeWhile_sublist _).mem hx)
      split at hm
      · exact hm
      · rename_i y ys hdr
        split at hm
        · rcases List.mem_append.1 hm with hm | hm
          · exact List.mem_of_mem_take hm
          · have h1 : '/' ∈ (tailPart fname).reverse.drop ((tailPart fname).reverse.takeWhile (· != '.')).length := by
              rw [hdr]; exact List.mem_cons_of_mem _ (List.mem_reverse.1 hm)
            exact ht _ (List.mem_reverse.1 (List.mem_of_mem_drop h1))
        · exact hm
    · exact fun hm => h (List.mem_of_mem_take hm)
  have hd : (pathSplit (parseName fname).1).1 = [] := by
    generalize (parseName fname).1 = p at hb
    have ht : tailPart p = p := by
      unfold tailPart
      rw [List.takeWhile_eq_self_iff.2, List.reverse_reverse]
      intro x hx
      rw [List.mem_reverse] at hx
      simp only [bne_iff_ne, ne_eq]
      rintro rfl
      exact hb hx
    have hh : headPart p = [] := by
      unfold headPart
      rw [ht]; simp
    unfold pathSplit
    rw [hh]; rfl
  unfold getChannels basenameChannum
  rw [hf]
  simp only [Bool.false_eq_true, if_false]
  rw [if_pos hd]

/-- Disagreement (C143): channels are given twice if there are two files of the channel, and files which are no LJH files count: x_chan1.ljh and x_chan1.off make channels [1, 1]. -/
theorem twice_fails : (match getChannels (fun p => p = "d".toList) (fun _ => some [("x_chan1.ljh".toList, true), ("x_chan1.off".toList, true)]) "d/x_chan1.ljh".toList with
    | .ok r => r | .error _ => []) = [1, 1] := by decide +kernel

/-- C143: output names of a file in a directory: inside its mass_output or mass folder; no such directory is an error. -/
theorem output_partial (isdir : Str → Bool) (ljh fn dir name : Str) (hf : isdir ljh = false) (hs : pathSplit (parseName ljh).1 = (dir, name)) :
    (isdir dir = true → outputBase isdir ljh = .ok (pathJoin (pathJoin dir "mass_output".toList) name) ∧
      massFolder isdir ljh fn = .ok (pathJoin (pathJoin dir "mass".toList) fn)) ∧
    (isdir dir = false → massFolder isdir ljh fn = .error .value) := by
  have hb : basenameChannum isdir ljh = .ok (parseName ljh) := by
    unfold basenameChannum
    rw [hf]; rfl
  refine ⟨fun hd => ⟨?_, ?_⟩, fun hd => ?_⟩
  · unfold outputBase; rw [hb]; dsimp only; rw [hs]; dsimp only; rw [hd]; rfl
  · unfold massFolder; rw [hb]; dsimp only; rw [hs]; dsimp only; rw [hd]; rfl
  · unfold massFolder; rw [hb]; dsimp only; rw [hs]; dsimp only; rw [hd]; rfl

/-- Disagreement (C143): a missing directory is reported by `output_basename_from_ljh_fname` as a TypeError (a text is raised), not as the ValueError it is meant to be. -/
theorem output_fails (isdir : Str → Bool) (ljh dir name : Str) (hf : isdir ljh = false) (hs : pathSplit (parseName ljh).1 = (dir, name))
    (hd : isdir dir = false) : outputBase isdir ljh = .error .type := by
  have hb : basenameChannum isdir ljh = .ok (parseName ljh) := by
    unfold basenameChannum
    rw [hf]; rfl
  unfold outputBase; rw [hb]; dsimp only; rw [hs]; dsimp only; rw [hd]; rfl

/-- Disagreement (C143): no timing file can ever be loaded (`len(raw) / 2` is not an int). -/
theorem aux_fails (words : Option (List Nat)) : ∀ r, loadAux words ≠ .ok r := by
  intro r
  cases words <;> (unfold loadAux; intro h; cases h)

/-- [specification] LJH and OFF files of a channel -/
def names (bases : List Str) (off : Str) (c : Nat) : List Str × Str := (bases.map (fun b => chanFile b c ".ljh"), chanFile off c ".off")

/-- [specification] all files of the channel are there -/
def there (bases : List Str) (exist : Str → Bool) (c : Nat) : Bool := (names bases [] c).1.all exist

theorem offLoop_all (bases : List Str) (off : Str) (exist : Str → Bool) (max : Int) (hb : bases ≠ []) : ∀ (cs : List Nat) (h : Nat),
    (∀ c ∈ cs, there bases exist c = true ∨ (names bases off c).1.any exist = false) → (h : Int) < max →
    offLoop bases off exist max h cs = (((cs.filter (there bases exist)).take (max.toNat - h)).map (names bases off), none)
  | [], h, _, _ => by simp [offLoop]
  | c :: cs, h, hc, hm => by
    have ih := fun h' => offLoop_all bases off exist max hb cs h' (fun x hx => hc x (List.mem_cons_of_mem _ hx))
    have hh := hc c List.mem_cons_self
    unfold offLoop
    dsimp only
    rcases hh with ht | hn
    · have ht' : (bases.map (fun b => chanFile b c ".ljh")).all exist = true := ht
      have han : (bases.map (fun b => chanFile b c ".ljh")).any exist = true := by
        cases bases with
        | nil => exact absurd rfl hb
        | cons b bs =>
          simp only [List.map_cons, List.all_cons, Bool.and_eq_true] at ht'
          simp only [List.map_cons, List.any_cons, ht'.1, Bool.true_or]
      rw [han, ht']
      simp only [Bool.not_true, Bool.false_eq_true, if_false]
      rw [List.filter_cons, if_pos ht]
      by_cases hx : ((h + 1 : Nat) : Int) = max
      · rw [if_pos hx]
        have : max.toNat - h = 1 := by omega
        rw [this]
        rfl
      · rw [if_neg hx, ih (h + 1) (by omega)]
        have : max.toNat - h = (max.toNat - (h + 1)) + 1 := by omega
        rw [this, List.take_succ_cons]
        rfl
    · have hn' : (bases.map (fun b => chanFile b c ".ljh")).any exist = false := hn
      have ht : there bases exist c = false := by
        cases bases with
        | nil => exact absurd rfl hb
        | cons b bs =>
          simp only [List.map_cons, List.any_cons, Bool.or_eq_false_iff] at hn'
          simp only [there, names, List.map_cons, List.all_cons, hn'.1, Bool.false_and]
      rw [hn']
      simp only [Bool.not_false, if_true]
      rw [ih h hm, List.filter_cons, ht]
      simp

/-- C143: converting takes, by channel number, the first `max` channels of the model file whose LJH files are there, and names LJH and OFF file of each by its channel, if each channel has all of its files or none. -/
theorem convert_partial (bases : List Str) (off : Str) (exist : Str → Bool) (max : Nat) (models : List Nat) (hb : bases ≠ []) (hm : 1 ≤ max)
    (hc : ∀ c ∈ models, there bases exist c = true ∨ (names bases off c).1.any exist = false) :
    multiLoop bases off exist max models = ((((srt models).filter (there bases exist)).take max).map (names bases off), none) ∧
    (srt models).Perm models ∧ (srt models).Pairwise (· ≤ ·) := by
  refine ⟨?_, srt_perm models, srt_sorted models⟩
  have := offLoop_all bases off exist max hb (srt models) 0 (fun c h => hc c ((srt_perm models).mem_iff.1 h)) (by omega)
  unfold multiLoop
  rw [this]
  simp

theorem offLoop_neg (bases : List Str) (off : Str) (exist : Str → Bool) (max max' : Int) : ∀ (cs : List Nat) (h : Nat), max ≤ h → (h + cs.length : Nat) < max' →
    offLoop bases off exist max h cs = offLoop bases off exist max' h cs
  | [], _, _, _ => rfl
  | c :: cs, h, hm, hm' => by
    have hl : (h + (cs.length + 1) : Nat) < max' := hm'
    unfold offLoop
    dsimp only
    rw [offLoop_neg bases off exist max max' cs h hm (by omega), offLoop_neg bases off exist max max' cs (h + 1) (by omega) (by omega)]
    have e1 : ¬ ((h + 1 : Nat) : Int) = max := by omega
    have e2 : ¬ ((h + 1 : Nat) : Int) = max' := by omega
    rw [if_neg e1, if_neg e2]

/-- Disagreement (C143): asking for at most zero channels (or a negative number) converts all of them. -/
theorem max_fails (bases : List Str) (off : Str) (exist : Str → Bool) (max : Int) (models : List Nat) (hm : max ≤ 0) :
    multiLoop bases off exist max models = multiLoop bases off exist (models.length + 1 : Nat) models := by
  unfold multiLoop
  apply offLoop_neg
  · omega
  · have : (srt models).length = models.length := (srt_perm models).length_eq
    rw [this]; omega

theorem offLoop_missing (bases : List Str) (off : Str) (exist : Str → Bool) (c : Nat) (hs : (names bases off c).1.any exist = true)
    (hn : (names bases off c).1.all exist = false) : ∀ (pre rest : List Nat) (max : Int) (h : Nat), (h + pre.length : Nat) < max →
      (∀ x ∈ pre, there bases exist x = true ∧ (names bases off x).1.any exist = true) →
      offLoop bases off exist max h (pre ++ c :: rest) = (pre.map (names bases off), some .os)
  | [], rest, max, h, _, _ => by
    have hs' : (bases.map (fun b => chanFile b c ".ljh")).any exist = true := hs
    have hn' : (bases.map (fun b => chanFile b c ".ljh")).all exist = false := hn
    rw [List.nil_append]
    unfold offLoop
    dsimp only
    rw [hs', hn']; rfl
  | x :: pre, rest, max, h, hm, hp => by
    have hl : (h + (pre.length + 1) : Nat) < max := hm
    have hx := hp x List.mem_cons_self
    have h1 : (bases.map (fun b => chanFile b x ".ljh")).any exist = true := hx.2
    have h2 : (bases.map (fun b => chanFile b x ".ljh")).all exist = true := hx.1
    have e1 : ¬ ((h + 1 : Nat) : Int) = max := by omega
    rw [List.cons_append]
    unfold offLoop
    dsimp only
    rw [h1, h2]
    simp only [Bool.not_true, Bool.false_eq_true, if_false]
    rw [if_neg e1, offLoop_missing bases off exist c hs hn pre rest max (h + 1) (by omega) (fun y hy => hp y (List.mem_cons_of_mem _ hy))]
    rfl

/-- Disagreement (C143): converting several runs into one, a channel which has a file in one run but not in another ends everything with an error: the channels after it are not converted (while a channel without any file is passed over). -/
theorem missing_fails (bases : List Str) (off : Str) (exist : Str → Bool) (pre rest : List Nat) (c : Nat) (models : List Nat)
    (hsrt : srt models = pre ++ c :: rest) (hs : (names bases off c).1.any exist = true) (hn : (names bases off c).1.all exist = false)
    (hp : ∀ x ∈ pre, there bases exist x = true ∧ (names bases off x).1.any exist = true) (max : Int) (hm : (pre.length : Int) < max) :
    multiLoop bases off exist max models = (pre.map (names bases off), some .os) := by
  unfold multiLoop
  rw [hsrt]
  exact offLoop_missing bases off exist c hs hn pre rest max 0 (by omega) hp

theorem universal_id : ∀ t : Str, '\r' ∉ t → universal t = t
  | [], _ => rfl
  | c :: t, h => by
    have hc : c ≠ '\r' := fun e => h (e ▸ List.mem_cons_self)
    have ih := universal_id t (fun hm => h (List.mem_cons_of_mem _ hm))
    unfold universal
    split
    · rename_i heq; cases heq
    · rename_i heq; injection heq with h1 h2; exact absurd h1 hc
    · rename_i heq; injection heq with h1 h2; exact absurd h1 hc
    · rename_i heq; injection heq with h1 h2; subst h1; subst h2; rw [ih]

/-- C143: the experiment state file is copied (if it has no carriage returns) and stays what it was; without one, and none asked for, nothing changes; without one, but asked for, an exception. Nothing else changes. -/
theorem state_ok (fs : Texts) (src snk : Str) (t : Str) :
    (fs src = some t → '\r' ∉ t → ∀ req, ∃ fs', copyState fs src snk req = .ok fs' ∧ fs' snk = some t ∧ fs' src = some t ∧ ∀ p, p ≠ snk → fs' p = fs p) ∧
    (fs src = none → copyState fs src snk false = .ok fs ∧ copyState fs src snk true = .error .exception) := by
  refine ⟨fun h hr req => ?_, fun h => ?_⟩
  · unfold copyState
    rw [h]
    dsimp only
    by_cases he : src = snk
    · rw [if_neg (by simpa using he)]
      exact ⟨fs, rfl, he ▸ h, h, fun _ _ => rfl⟩
    · rw [if_pos he]
      refine ⟨_, rfl, ?_, ?_, ?_⟩
      · rw [if_pos rfl, universal_id t hr]
      · rw [if_neg he, h]
      · intro p hp
        exact if_neg hp
  · unfold copyState
    rw [h]
    exact ⟨rfl, rfl⟩

/-- Disagreement (C143): a missing experiment state is only noticed at the end: the exception comes when all OFF files have been written. -/
theorem state_late_fails (isdir : Str → Bool) (fs : Texts) (exist : Str → Bool) (ljhpath outdir : Str) (max : Int) (models : List Nat)
    (hf : isdir ljhpath = false) (hs : fs ((parseName ljhpath).1 ++ "_experiment_state.txt".toList) = none)
    (hr : (multiLoop [(parseName ljhpath).1] (pathJoin outdir (pathSplit (parseName ljhpath).1).2) exist max models).2 = none) :
    ljh2offLoop isdir fs exist ljhpath outdir max models true =
      ((multiLoop [(parseName ljhpath).1] (pathJoin outdir (pathSplit (parseName ljhpath).1).2) exist max models).1, .error .exception) := by
  have hb : basenameChannum isdir ljhpath = .ok (parseName ljhpath) := by
    unfold basenameChannum
    rw [hf]; rfl
  unfold ljh2offLoop
  rw [hb]
  dsimp only
  rw [hr]
  unfold copyState
  rw [hs]
  rfl

/-- Disagreement (C143): if no channel of the model file has an LJH file the conversion itself succeeds but the script ends with an IndexError. -/
theorem none_fails (fs : Texts) : ljh2offMain ([], .ok fs) = .error .index := rfl

/-- Disagreement (C143): the column number of the LJH header is lost: an OFF file says column 0 whatever the LJH file says (the row is right), since the header's value is kept under another name. -/
theorem column_fails (row col : Int) : readout (parseHdr (some row) (some col)) = (0, row) := rfl

theorem getD_some_isSome {α : Type} {o : Option α} (h : o = none) : o.isSome = false := by rw [h]; rfl

/-- C143: making projectors takes pulse and noise files of the same channels, the first `max` of those with both, in order; the result goes to the output file and nothing else changes. -/
theorem projectors_partial {α : Type} (isdir : Str → Bool) (ls : Listing) (mk : Job → Except Exc α) (empty x : α) (fs : Str → Option α) (a : Args)
    (cs : List Nat) (n : Nat) (hmax : a.max = n) (hn : 1 ≤ n) (hb : getBoth isdir ls a.pulse a.noise = .ok cs) (hne : cs ≠ [])
    (hp : isdir a.pulse = false) (hq : isdir a.noise = false)
    (hout : fs (a.output.getD ((parseName a.pulse).1 ++ "_model.hdf5".toList)) = none ∨ a.replace = true)
    (hmk : mk ⟨(cs.take n).map (fun c => chanFile (parseName a.pulse).1 c ".ljh"), (cs.take n).map (fun c => chanFile (parseName a.noise).1 c ".ljh"), true⟩ = .ok x) :
    projMain isdir ls mk empty fs a =
      (fun p => if p = a.output.getD ((parseName a.pulse).1 ++ "_model.hdf5".toList) then some x else fs p, .ok ()) := by
  have hcs : (if a.max < cs.length then upTo cs a.max else cs) = cs.take n := by
    split <;> rename_i hl
    · unfold upTo
      rw [if_pos (by omega), hmax]; simp
    · rw [List.take_of_length_le (by omega)]
  have hne' : cs.take n ≠ [] := by
    cases cs with
    | nil => exact absurd rfl hne
    | cons c t => cases n with
      | zero => omega
      | succ n => simp
  have hb1 : basenameChannum isdir a.pulse = .ok (parseName a.pulse) := by
    unfold basenameChannum
    rw [hp]; rfl
  have hb2 : basenameChannum isdir a.noise = .ok (parseName a.noise) := by
    unfold basenameChannum
    rw [hq]; rfl
  unfold projMain
  rw [hb]
  dsimp only
  rw [hcs, if_neg hne', hb1, hb2]
  dsimp only
  have hc : ((fs (a.output.getD ((parseName a.pulse).1 ++ "_model.hdf5".toList))).isSome && !a.replace) = false := by
    rcases hout with h | h
    · rw [h]; rfl
    · rw [h]; simp
  rw [hc, hmk]
  rfl

/-- C143: an output file which is there is not touched without `replace`. -/
theorem projectors_keep {α : Type} (isdir : Str → Bool) (ls : Listing) (mk : Job → Except Exc α) (empty : α) (fs : Str → Option α) (a : Args)
    (hp : isdir a.pulse = false) (hr : a.replace = false)
    (hout : (fs (a.output.getD ((parseName a.pulse).1 ++ "_model.hdf5".toList))).isSome = true) :
    (projMain isdir ls mk empty fs a).1 = fs ∧ ∃ e, (projMain isdir ls mk empty fs a).2 = .error e := by
  have hb1 : basenameChannum isdir a.pulse = .ok (parseName a.pulse) := by
    unfold basenameChannum
    rw [hp]; rfl
  unfold projMain
  rw [hb1]
  cases getBoth isdir ls a.pulse a.noise with
  | error e => exact ⟨rfl, e, rfl⟩
  | ok cs =>
    dsimp only
    generalize (if a.max < (cs.length : Int) then upTo cs a.max else cs) = cs'
    by_cases hcs : cs' = []
    · rw [if_pos hcs]
      exact ⟨rfl, _, rfl⟩
    · rw [if_neg hcs]
      cases basenameChannum isdir a.noise with
      | error e => exact ⟨rfl, _, rfl⟩
      | ok nb =>
        dsimp only
        rw [hout, hr]
        exact ⟨rfl, _, rfl⟩

/-- Disagreement (C143): replacing an output file loses it if making the projectors fails: the file is emptied before they are made. -/
theorem projectors_lost_fails {α : Type} (isdir : Str → Bool) (ls : Listing) (mk : Job → Except Exc α) (empty : α) (fs : Str → Option α) (a : Args)
    (cs : List Nat) (hmax : (cs.length : Int) ≤ a.max) (hb : getBoth isdir ls a.pulse a.noise = .ok cs) (hne : cs ≠ [])
    (hp : isdir a.pulse = false) (hq : isdir a.noise = false) (hr : a.replace = true) (hmk : ∀ j, ∃ e, mk j = .error e) :
    (projMain isdir ls mk empty fs a).1 (a.output.getD ((parseName a.pulse).1 ++ "_model.hdf5".toList)) = some empty := by
  have hb1 : basenameChannum isdir a.pulse = .ok (parseName a.pulse) := by
    unfold basenameChannum
    rw [hp]; rfl
  have hb2 : basenameChannum isdir a.noise = .ok (parseName a.noise) := by
    unfold basenameChannum
    rw [hq]; rfl
  unfold projMain
  rw [hb]
  dsimp only
  have hm : ¬ a.max < (cs.length : Int) := by omega
  rw [if_neg hm, if_neg hne, hb1, hb2]
  dsimp only
  rw [hr]
  obtain ⟨e, he⟩ := hmk ⟨cs.map (fun c => chanFile (parseName a.pulse).1 c ".ljh"), cs.map (fun c => chanFile (parseName a.noise).1 c ".ljh"), true⟩
  simp only [Bool.not_true, Bool.and_false, Bool.false_eq_true, if_false]
  rw [he]
  exact if_pos rfl

/-- Disagreement (C143): the option `noise_weight_basis` has no effect. -/
theorem weight_fails {α : Type} (isdir : Str → Bool) (ls : Listing) (mk : Job → Except Exc α) (empty : α) (fs : Str → Option α) (a : Args) (w : Bool) :
    projMain isdir ls mk empty fs { a with weight := w } = projMain isdir ls mk empty fs a := rfl

/-- [specification] two channels with pulse files `p` and noise files `n` of the ending given -/
def lsExample (ext : String) : Listing := fun _ => some
  [(("p_chan1" ++ ".ljh").toList, true), (("p_chan2" ++ ".ljh").toList, true), (("n_chan1" ++ ext).toList, true), (("n_chan2" ++ ext).toList, true)]

/-- [specification] the work seen by `make_projectors`: its job is recorded -/
def record (e : String) (max : Int) : Option Job :=
  (projMain (α := Job) (fun p => decide (p = "d".toList)) (lsExample e) (fun j => .ok j) ⟨[], [], false⟩ (fun _ => none)
    ⟨"d/p_chan1.ljh".toList, ("d/n_chan1" ++ e).toList, none, false, max, true⟩).1 "d/p_model.hdf5".toList

example : record ".ljh" 1 = some ⟨["d/p_chan1.ljh".toList], ["d/n_chan1.ljh".toList], true⟩ := by decide +kernel

/-- Disagreement (C143): noise files with another ending are found, but then looked for with the ending .ljh. -/
theorem ending_fails : record ".noi" 1 = some ⟨["d/p_chan1.ljh".toList], ["d/n_chan1.ljh".toList], true⟩ := by decide +kernel

/-- Disagreement (C143): a negative greatest number of channels takes all but the last ones. -/
theorem negative_fails : record ".ljh" (-1) = some ⟨["d/p_chan1.ljh".toList], ["d/n_chan1.ljh".toList], true⟩ := by decide +kernel

/-- Disagreement (C143): LJHModify never succeeds, whatever the files and the callback. -/
theorem modify_fails {α : Type} (same : Str → Str → Bool) (valid : α → Bool) (empty : α) (fs : Str → Option α) (inp out : Str) (ow : Bool) :
    ∃ e, (modify same valid empty fs inp out ow).2 = .error e := by
  unfold modify
  split
  · exact ⟨_, rfl⟩
  split
  · exact ⟨_, rfl⟩
  split
  · exact ⟨_, rfl⟩
  split
  · exact ⟨_, rfl⟩
  · exact ⟨_, rfl⟩

/-- C143: LJHModify touches no file but the output, and not that if it is the input or is there and not to be overwritten. -/
theorem modify_partial {α : Type} (same : Str → Str → Bool) (valid : α → Bool) (empty : α) (fs : Str → Option α) (inp out : Str) (ow : Bool)
    (hs : (fs inp).isSome = true → same inp inp = true) :
    (∀ p, p ≠ out → (modify same valid empty fs inp out ow).1 p = fs p) ∧ (modify same valid empty fs inp out ow).1 inp = fs inp ∧
    ((fs out).isSome = true → ow = false → (modify same valid empty fs inp out ow) = (fs, .error .value)) := by
  have h1 : ∀ p, p ≠ out → (modify same valid empty fs inp out ow).1 p = fs p := by
    intro p hp
    unfold modify
    split
    · rfl
    split
    · rfl
    split
    · rfl
    split
    · rfl
    · exact if_neg hp
  refine ⟨h1, ?_, ?_⟩
  · by_cases he : inp = out
    · subst he
      cases hf : fs inp with
      | none => unfold modify; rw [hf]; exact hf
      | some x =>
        have := hs (by rw [hf]; rfl)
        unfold modify
        rw [this, hf]
        exact hf
    · exact h1 inp he
  · intro ho how
    unfold modify
    rw [ho, how]
    split
    · rfl
    · rfl

/-- Disagreement (C143): with `overwrite`, LJHModify destroys the old output: the file is left empty. -/
theorem modify_lost_fails {α : Type} (same : Str → Str → Bool) (valid : α → Bool) (empty x : α) (fs : Str → Option α) (inp out : Str)
    (hd : same inp out = false) (hi : fs inp = some x) (hv : valid x = true) :
    (modify same valid empty fs inp out true).1 out = some empty := by
  unfold modify
  rw [hd, hi]
  simp [hv]

/-! ### examples -/

example : multiLoop ["r".toList] "o".toList (fun p => p ≠ "r_chan2.ljh".toList) 2 [3, 2, 1, 4] =
    ([(["r_chan1.ljh".toList], "o_chan1.off".toList), (["r_chan3.ljh".toList], "o_chan3.off".toList)], none) := by decide +kernel
example : (multiLoop ["r".toList] "o".toList (fun _ => true) 0 [3, 2, 1, 4]).1.length = 4 := by decide +kernel
example : (multiLoop ["r".toList, "s".toList] "o".toList (fun p => p ≠ "s_chan2.ljh".toList) 9 [3, 2, 1, 4]) =
    ([(["r_chan1.ljh".toList, "s_chan1.ljh".toList], "o_chan1.off".toList)], some .os) := by decide +kernel

end Mass.Names.Scr
