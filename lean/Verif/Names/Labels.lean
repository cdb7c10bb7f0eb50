import Verif.Names.Props
import Verif.Names.Paths

/-!
# Labels of channels and groups

Figures are labelled by the short name of a channel (file name with channel number) or of a group
(name of the run with the number of good channels).  Here: what these labels say for files
`dir/run_chan<n>.ext`.
-/

namespace Mass.Names.Labels

open Mass Mass.Names

/-- `f"{n:g}"` of a channel number: the digits below a million; from there on `sci` stands for the
text with six figures (Python library; used at mass/core/channel.py L1147). -/
def fmtG (sci : Nat → Str) (n : Nat) : Str := if n < 1000000 then decimal n else sci n

/-- `a in s` for texts (Python library; used at mass/core/channel.py L1148). -/
def isIn (a : Str) : Str → Bool
  | [] => a.isPrefixOf []
  | c :: t => a.isPrefixOf (c :: t) || isIn a t

/-- `MicrocalDataSet.shortname` (mass/core/channel.py L1143-1150). -/
def chanLabel (sci : Nat → Str) (fname : Str) (n : Nat) : Str :=
  let s := (pathSplit fname).2
  let chanstr := ['c', 'h', 'a', 'n'] ++ fmtG sci n
  if isIn chanstr s then s else s ++ chanstr

/-- `TESGroup.shortname` (mass/core/channel_group.py L514-518); `good` is the number of good
channels, `first` the file name of the first channel. -/
def groupLabel (isdir : Str → Bool) (first : Str) (good : Nat) : Except Exc Str := do
  let r ← basenameChannum isdir (pathSplit first).2
  pure (r.1 ++ ([',', ' '] ++ (decimal good ++ [' ', 'c', 'h', 'a', 'n', 's'])))

/-- The group of OFF files: the names of its files, what it has as `channum`, and the number of good
channels (mass/off/channels.py L1123-1148 in short). -/
structure OffGroup where
  files : List Str
  channum : Option (Option Nat)
  good : Nat
  deriving DecidableEq

/-- `ChannelGroup.shortName`: the label, and the group afterwards (mass/off/channels.py
L1157-1160). -/
def offLabel (isdir : Str → Bool) (g : OffGroup) : Except Exc (Str × OffGroup) :=
  match g.files with
  | [] => .error .index
  | f :: _ => do
    let r ← basenameChannum isdir f
    pure ((pathSplit r.1).2 ++ (' ' :: (decimal g.good ++ [' ', 'c', 'h', 'a', 'n', 's'])),
      { g with channum := some r.2 })

/-- [specification] The file of the channel `n` of the run `x`, in the folder `dir` (empty, or
ending with a slash). -/
def fileOf (dir x ext : Str) (n : Nat) : Str := dir ++ (x ++ (chanTag ++ (decimal n ++ ext)))

/-- [specification] A folder, empty or ending with a slash. -/
def Folder (dir : Str) : Prop := dir = [] ∨ dir.getLast? = some '/'

theorem isIn_iff (a s : Str) : isIn a s = true ↔ ∃ p q, s = p ++ (a ++ q) := by
  induction s with
  | nil =>
    simp only [isIn, List.isPrefixOf_iff_prefix, List.prefix_nil]
    constructor
    · rintro rfl; exact ⟨[], [], rfl⟩
    · rintro ⟨p, q, h⟩
      have := (List.append_eq_nil_iff.1 h.symm).2
      exact (List.append_eq_nil_iff.1 this).1
  | cons c t ih =>
    simp only [isIn, Bool.or_eq_true, ih, List.isPrefixOf_iff_prefix]
    constructor
    · rintro (⟨q, h⟩ | ⟨p, q, h⟩)
      · exact ⟨[], q, h.symm⟩
      · exact ⟨c :: p, q, by rw [h]; rfl⟩
    · rintro ⟨p, q, h⟩
      cases p with
      | nil => exact Or.inl ⟨q, h.symm⟩
      | cons d p =>
        simp only [List.cons_append, List.cons.injEq] at h
        exact Or.inr ⟨p, q, h.2⟩

theorem tail_of (dir t : Str) (hd : Folder dir) (ht : '/' ∉ t) : (pathSplit (dir ++ t)).2 = t := by
  show tailPart (dir ++ t) = t
  unfold tailPart
  have h1 : ∀ c ∈ t.reverse, (c != '/') = true := by
    intro c hc
    have : c ∈ t := by simpa using hc
    simp only [bne_iff_ne, ne_eq]
    rintro rfl
    exact ht this
  rw [List.reverse_append, List.takeWhile_append_of_pos h1]
  have h2 : dir.reverse.takeWhile (· != '/') = [] := by
    rcases hd with rfl | hd
    · rfl
    · cases hr : dir.reverse with
      | nil => rfl
      | cons c r =>
        have : dir = r.reverse ++ [c] := by
          have := congrArg List.reverse hr
          simpa using this
        rw [this] at hd
        simp at hd
        subst hd
        simp
  rw [h2]; simp

theorem no_slash {x ext : Str} (hx : '/' ∉ x) (he : '/' ∉ ext) (n : Nat) :
    '/' ∉ x ++ (chanTag ++ (decimal n ++ ext)) := by
  have h1 : '/' ∉ decimal n := fun h => by simpa using decimal_isDigit h
  simp [hx, he, h1, chanTag]

/-- The label of a channel below number one million is the name of its file, without the folder. -/
theorem chan_label (sci : Nat → Str) (dir x ext : Str) (n : Nat) (hd : Folder dir) (hx : '/' ∉ x)
    (he : '/' ∉ ext) (hn : n < 1000000) :
    chanLabel sci (fileOf dir x ext n) n = x ++ (chanTag ++ (decimal n ++ ext)) := by
  unfold chanLabel fileOf
  rw [tail_of dir _ hd (no_slash hx he n)]
  have : isIn (['c', 'h', 'a', 'n'] ++ fmtG sci n) (x ++ (chanTag ++ (decimal n ++ ext))) = true := by
    rw [isIn_iff]
    exact ⟨x ++ ['_'], ext, by simp [chanTag, fmtG, hn]⟩
  simp only [this, if_true]

/-- Any label of a channel begins with the name of the file and has the channel number in it. -/
theorem chan_says (sci : Nat → Str) (fname : Str) (n : Nat) :
    (pathSplit fname).2 <+: chanLabel sci fname n ∧
      ∃ p q, chanLabel sci fname n = p ++ ((['c', 'h', 'a', 'n'] ++ fmtG sci n) ++ q) := by
  unfold chanLabel
  by_cases h : isIn (['c', 'h', 'a', 'n'] ++ fmtG sci n) (pathSplit fname).2 = true
  · simp only [h, if_true]
    exact ⟨List.prefix_refl _, (isIn_iff _ _).1 h⟩
  · simp only [h, Bool.false_eq_true, if_false]
    exact ⟨List.prefix_append _ _, (pathSplit fname).2, [], by simp⟩

/-- Channels of one run have different labels. -/
theorem chan_distinct_partial (sci : Nat → Str) (dir dir' x ext : Str) (n m : Nat) (hd : Folder dir)
    (hd' : Folder dir') (hx : '/' ∉ x) (he : '/' ∉ ext) (hn : n < 1000000) (hm : m < 1000000)
    (h : chanLabel sci (fileOf dir x ext n) n = chanLabel sci (fileOf dir' x ext m) m) : n = m := by
  rw [chan_label sci dir x ext n hd hx he hn, chan_label sci dir' x ext m hd' hx he hm] at h
  have h1 := List.append_cancel_left (List.append_cancel_left h)
  have h2 := List.append_cancel_right h1
  rw [← intOfDigits_decimal n, h2, intOfDigits_decimal]

/-- The label of a group of LJH files: the name of the run, and how many channels are good. -/
theorem group_label (isdir : Str → Bool) (dir x ext : Str) (n good : Nat) (hd : Folder dir)
    (hx : '/' ∉ x) (he : '/' ∉ ext) (hdig : ∀ c t, ext = c :: t → c.isDigit = false)
    (hext : ¬ HasChan ext)
    (hdir : isdir (x ++ (chanTag ++ (decimal n ++ ext))) = false) :
    groupLabel isdir (fileOf dir x ext n) good =
      .ok (x ++ ([',', ' '] ++ (decimal good ++ [' ', 'c', 'h', 'a', 'n', 's']))) := by
  unfold groupLabel fileOf
  rw [tail_of dir _ hd (no_slash hx he n), basename_channum_roundtrip isdir x ext n hdir hdig hext]
  rfl

/-- The label of a group of OFF files is the same but for the comma. -/
theorem off_label (isdir : Str → Bool) (dir x ext : Str) (n : Nat) (g : OffGroup) (t : List Str)
    (hf : g.files = fileOf dir x ext n :: t) (hd : Folder dir) (hx : '/' ∉ x)
    (hdig : ∀ c t, ext = c :: t → c.isDigit = false) (hext : ¬ HasChan ext)
    (hdir : isdir (fileOf dir x ext n) = false) :
    offLabel isdir g =
      .ok (x ++ (' ' :: (decimal g.good ++ [' ', 'c', 'h', 'a', 'n', 's'])),
        { g with channum := some (some n) }) := by
  unfold offLabel
  rw [hf]
  have e : fileOf dir x ext n = (dir ++ x) ++ (chanTag ++ (decimal n ++ ext)) := by
    simp [fileOf]
  have h := basename_channum_roundtrip isdir (dir ++ x) ext n (by rw [← e]; exact hdir) hdig hext
  rw [← e] at h
  simp only [h]
  show Except.ok _ = _
  simp only [tail_of dir x hd hx]

/-- Reading a label again gives the same label, and changes nothing further. -/
theorem off_again (isdir : Str → Bool) (g g' : OffGroup) (s : Str)
    (h : offLabel isdir g = .ok (s, g')) : offLabel isdir g' = .ok (s, g') := by
  unfold offLabel at h
  cases hf : g.files with
  | nil => rw [hf] at h; cases h
  | cons f t =>
    rw [hf] at h
    cases hr : basenameChannum isdir f with
    | error e => simp only [hr] at h; cases h
    | ok r =>
      simp only [hr] at h
      have h : (Except.ok (_, _) : Except Exc (Str × OffGroup)) = .ok (s, g') := h
      simp only [Except.ok.injEq, Prod.mk.injEq] at h
      obtain ⟨hs, hg⟩ := h
      unfold offLabel
      subst hg
      simp only [hf, hr]
      show Except.ok _ = _
      rw [← hs]

/-- Disagreement (C199): files of the same name in different folders have the same label. -/
theorem folder_fails (sci : Nat → Str) (dir dir' x ext : Str) (n : Nat) (hd : Folder dir)
    (hd' : Folder dir') (hx : '/' ∉ x) (he : '/' ∉ ext) (hn : n < 1000000) :
    chanLabel sci (fileOf dir x ext n) n = chanLabel sci (fileOf dir' x ext n) n := by
  rw [chan_label sci dir x ext n hd hx he hn, chan_label sci dir' x ext n hd' hx he hn]

/-- Disagreement (C199): reading the label of a group of OFF files gives the group a channel number,
that of its first file. -/
theorem off_reads_fails :
    ∃ (g g' : OffGroup) (s : Str), offLabel (fun _ => false) g = .ok (s, g') ∧ g.channum = none ∧
      g'.channum = some (some 3) :=
  ⟨⟨["a_chan3.off".toList], none, 1⟩, ⟨["a_chan3.off".toList], some (some 3), 1⟩,
    "a 1 chans".toList, by decide +kernel, rfl, rfl⟩

/-- Disagreement (C199): if the folder one works in has a folder named like the file of a channel,
the label of the group is made from a file name with that name twice. -/
theorem isdir_fails :
    groupLabel (fun p => p == "a_chan3.ljh".toList) "d/a_chan3.ljh".toList 2 =
      .ok "a_chan3.ljh/a, 2 chans".toList := by decide +kernel

/-- A channel with leading zeros in its file name has the number added. -/
example : chanLabel (fun _ => []) "d/a_chan003.ljh".toList 3 = "a_chan003.ljhchan3".toList := by
  decide +kernel

example : groupLabel (fun _ => false) "d/a_chan3.ljh".toList 2 = .ok "a, 2 chans".toList := by
  decide +kernel

example : Folder "d/".toList := Or.inr (by decide +kernel)

end Mass.Names.Labels
