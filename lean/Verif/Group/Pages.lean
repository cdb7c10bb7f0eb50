import Verif.Names.Props
import Verif.Group.Plots
import Mathlib.Data.List.Sort
import Mathlib.Data.List.Lex
import Mathlib.Data.Char
/-! C159: the files of plots on many pages, put together into one (mass/core/utilities.py L129-171, mass/core/channel_group.py L1248-1250, L1327-1329), and the progress
shown by loops (utilities.py L57-126). -/
namespace Mass.Group.Pages
open Mass.Names (Str decimal)

/-! ### names of pages -/

/-- `%03d` and the like: the digits between `%` and `d` are the width, a leading zero pads with zeros (Python's `%`; utilities.py L148) -/
def padNum (ds : Str) (n : Nat) : Str :=
  List.replicate (Names.intOfDigits ds - (decimal n).length) (if ds.head? = some '0' then '0' else ' ') ++ decimal n

/-- `template % n` for one number (Python; utilities.py L148, L157): `%%` is a percent sign; a number left over, or missing, is a TypeError. `used`: the number was used already.
Simplified: only the conversion `d`. The first argument bounds the recursion (the length of the template). -/
def fmtGo (n : Nat) : Nat → Bool → Str → Except Exc Str
  | 0, _, _ => .error .value
  | fuel + 1, used, s =>
    match s with
    | [] => if used then .ok [] else .error .type
    | c :: t =>
      if c = '%' then
        if t.head? = some '%' then (fmtGo n fuel used t.tail).map ('%' :: ·)
        else
          match t.dropWhile Char.isDigit with
          | 'd' :: r => if used then .error .type else (fmtGo n fuel true r).map (padNum (t.takeWhile Char.isDigit) n ++ ·)
          | _ => .error .value
      else (fmtGo n fuel used t).map (c :: ·)

/-- `template % n` (utilities.py L148, L157) -/
def fmt (tpl : Str) (n : Nat) : Except Exc Str := fmtGo n (tpl.length + 1) false tpl

/-- the names of the pages saved, up to the first that fails (utilities.py L148, L157) -/
def names (tpl : Str) : List Nat → List Str × Option Exc
  | [] => ([], none)
  | p :: t => match fmt tpl p with
    | .error e => ([], some e)
    | .ok f => (f :: (names tpl t).1, (names tpl t).2)

/-! ### one file of them -/

/-- `glob` for a pattern `pre[0-9][0-9][0-9]suf` (utilities.py L164; channel_group.py L1249, L1328). Simplified: `pre` and `suf` have no special characters. -/
def threeDigits (pre suf f : Str) : Bool :=
  f.take pre.length == pre && (((f.drop pre.length).take 3).length == 3 && (((f.drop pre.length).take 3).all Char.isDigit && f.drop (pre.length + 3) == suf))

/-- utilities.py L163-171: the pages put together by `convert`: what it is called with, and the files left. `ret` is its return value. -/
def combine (pre suf one : Str) (ret : Int) (disk : List Str) : Option (List Str) × List Str :=
  let found := disk.filter (threeDigits pre suf)
  if found.length > 0 then
    let files := found.insertionSort (fun a b => a ≤ b)
    (some (files ++ [one]), if ret = 0 then disk.filter (fun f => !files.contains f) else disk)
  else (none, disk)

/-- a file saved again replaces the old one (used for utilities.py L148) -/
def saveAll (disk new : List Str) : List Str := disk.filter (fun f => !new.contains f) ++ new

/-- utilities.py L129-171 `plot_multipage` for a format other than PDF, with one_file: the pages saved (`Plots.multipage`), the call of `convert`, and the files in the end.
`pre[0-9][0-9][0-9]suf` is the pattern. Simplified: an unwritable page is not modelled. -/
def oneFile {α} (mn : Nat) (tpl pre suf one : Str) (ret : Int) (chans : List α) (disk : List Str) : Option (List Str) × List Str × Option Exc :=
  match Plots.multipage mn chans with
  | .error e => (none, disk, some e)
  | .ok ps =>
    match names tpl (ps.map Prod.fst) with
    | (fs, some e) => (none, saveAll disk fs, some e)
    | (fs, none) => ((combine pre suf one ret (saveAll disk fs)).1, (combine pre suf one ret (saveAll disk fs)).2, none)

/-! ### progress -/

/-- utilities.py L57-64: an updater: its start, and whether messages are suppressed (effective level of the logger at least WARNING, 30) -/
structure Updater where
  start : Rat
  level : Nat

/-- what is printed: a line with the fraction done and the minutes left (`none`: '?'), or that it is finished, with the minutes it took (utilities.py L66-73) -/
inductive Msg
  | done (frac : Rat) (left : Option Rat)
  | finished (took : Rat)
  deriving DecidableEq

/-- utilities.py L75-84 `timeRemaining`, exact arithmetic for floats -/
def timeRemaining (elapsed frac : Rat) : Rat :=
  if elapsed > 1 ∧ frac > 0 then (if frac / elapsed = 0 then -1 else (1 - frac) / (frac / elapsed)) else -1

/-- utilities.py L87-93 `timeRemainingStr`: minutes, or '?' -/
def timeLeft (elapsed frac : Rat) : Option Rat :=
  if timeRemaining elapsed frac = -1 then none else some (timeRemaining elapsed frac / 60)

/-- utilities.py L66-73 `update`, at the time `now`. Simplified: the clock does not advance while a line is printed. -/
def update (u : Updater) (now frac : Rat) : List Msg :=
  if u.level ≥ 30 then []
  else .done frac (timeLeft (now - u.start) frac) :: if frac ≥ 1 then [.finished ((now - u.start) / 60)] else []

/-- a generator function as show_progress sees it: steps, each yielding a fraction at some time after some work, or raising; then the work after the last step
and a value (utilities.py L119) [specification] -/
inductive Gen (σ ρ : Type)
  | yield (f : σ → σ) (now frac : Rat) (rest : Gen σ ρ)
  | raise (f : σ → σ) (e : Exc)
  | ret (f : σ → σ) (v : ρ)

/-- which updater is used (utilities.py L113-117): none (NullUpdater) in Sphinx or if `self.updater` is not callable, the object's own otherwise; other exceptions pass -/
def chooseUpdater (sphinx : Bool) (mk : Except Exc Updater) : Except Exc (Option Updater) :=
  if sphinx then .ok none
  else match mk with
    | .ok u => .ok (some u)
    | .error .type => .ok none
    | .error e => .error e

/-- utilities.py L119-120: the loop; the value of the generator is dropped -/
def drain {σ ρ} (u : Option Updater) : Gen σ ρ → σ → List Msg × σ × Except Exc Unit
  | .yield f now frac rest, s =>
    let r := drain u rest (f s)
    ((match u with | none => [] | some u => update u now frac) ++ r.1, r.2)
  | .raise f e, s => ([], f s, .error e)
  | .ret f _, s => ([], f s, .ok ())

/-- utilities.py L109-126 `show_progress(name)(func)` -/
def work {σ ρ} (sphinx : Bool) (mk : Except Exc Updater) (g : Gen σ ρ) (s : σ) : List Msg × σ × Except Exc Unit :=
  match chooseUpdater sphinx mk with
  | .error e => ([], s, .error e)
  | .ok u => drain u g s

/-- the fractions yielded by the summary of a channel (channel.py L973, L981): after each segment -/
def summaryFracs (segs : Nat) : List Rat := (List.range segs).map (fun (s : Nat) => ((s : Rat) + 1) / (segs : Rat))

/-- the fractions yielded by the summary of a group (channel_group.py L532-546): after each channel whose summary did not raise; `oks` says which -/
def groupFracs (oks : List Bool) : List Rat := (oks.zipIdx.filter Prod.fst).map (fun x => ((x.2 : Rat) + 1) / (oks.length : Rat))

/-- the fractions yielded while filtering `n` pulses in segments of `per` (channel.py L1347-1353) -/
def filterFracs (n per segs : Nat) : List Rat := (List.range segs).map (fun (s : Nat) => (((min n (s * per + per) : Nat) : Rat) + 1) / (n : Rat))

/-! ### names: proofs -/

theorem fmtGo_plain (n fuel : Nat) (used : Bool) (a t : Str) (h : '%' ∉ a) :
    fmtGo n (a.length + fuel) used (a ++ t) = (fmtGo n fuel used t).map (a ++ ·) := by
  induction a with
  | nil =>
    simp only [List.length_nil, Nat.zero_add, List.nil_append]
    cases fmtGo n fuel used t <;> rfl
  | cons c a ih =>
    have hc : ¬ c = '%' := fun e => h (by simp [e])
    have ha : '%' ∉ a := fun e => h (by simp [e])
    rw [List.length_cons, Nat.add_right_comm, List.cons_append, fmtGo, if_neg hc, ih ha]
    cases fmtGo n fuel used t <;> rfl

/-- the name of a page: the template with the number in place of `%03d` -/
theorem fmt_spec (pre suf : Str) (hp : '%' ∉ pre) (hs : '%' ∉ suf) (n : Nat) :
    fmt (pre ++ "%03d".toList ++ suf) n = .ok (pre ++ List.replicate (3 - (decimal n).length) '0' ++ decimal n ++ suf) := by
  unfold fmt
  have e : (pre ++ "%03d".toList ++ suf).length + 1 = pre.length + (suf.length + 5) := by
    simp; omega
  rw [e, List.append_assoc, fmtGo_plain n _ false pre _ hp]
  have h1 : fmtGo n (suf.length + 5) false ("%03d".toList ++ suf) = (fmtGo n (suf.length + 4) true suf).map (padNum "03".toList n ++ ·) := by
    rw [show "%03d".toList ++ suf = '%' :: '0' :: '3' :: 'd' :: suf from rfl, fmtGo]
    rfl
  have h2 : fmtGo n (suf.length + 4) true suf = .ok suf := by
    have := fmtGo_plain n 4 true suf [] hs
    rw [List.append_nil] at this
    rw [this]
    show Except.ok (suf ++ []) = _
    rw [List.append_nil]
  rw [h1, h2]
  show Except.ok _ = _
  rw [show padNum "03".toList n = List.replicate (3 - (decimal n).length) '0' ++ decimal n from rfl]
  simp [List.append_assoc]

example : fmt "pulse_rms.vs.peak-2017-%03d.png".toList 7 = .ok "pulse_rms.vs.peak-2017-007.png".toList ∧
    fmt "a-%d.png".toList 12 = .ok "a-12.png".toList ∧ fmt "a-%3d".toList 12 = .ok "a- 12".toList := by decide +kernel

/-- three digits of a number below 1000 -/
theorem pad3 : ∀ n : Fin 1000, List.replicate (3 - (decimal n.1).length) '0' ++ decimal n.1 =
    [Nat.digitChar (n.1 / 100), Nat.digitChar (n.1 / 10 % 10), Nat.digitChar (n.1 % 10)] := by
  decide +kernel

theorem digit_lt : ∀ a b : Fin 10, a < b → Nat.digitChar a.1 < Nat.digitChar b.1 := by decide +kernel
theorem digit_isDigit : ∀ a : Fin 10, (Nat.digitChar a.1).isDigit = true := by decide +kernel

/-- the name of page `n`: at least three digits [specification] -/
def nameOf (pre suf : Str) (n : Nat) : Str := pre ++ (List.replicate (3 - (decimal n).length) '0' ++ decimal n) ++ suf

theorem nameOf_small (pre suf : Str) {n : Nat} (h : n < 1000) :
    nameOf pre suf n = pre ++ ([Nat.digitChar (n / 100), Nat.digitChar (n / 10 % 10), Nat.digitChar (n % 10)] ++ suf) := by
  unfold nameOf
  rw [pad3 ⟨n, h⟩, List.append_assoc]

theorem append_lt (pre : Str) {a b : Str} (h : a < b) : pre ++ a < pre ++ b := by
  induction pre with
  | nil => exact h
  | cons c t ih => rw [List.cons_append, List.cons_append, List.cons_lt_cons_iff]; exact Or.inr ⟨rfl, ih⟩

theorem nameOf_lt (pre suf : Str) {a b : Nat} (hab : a < b) (hb : b < 1000) : nameOf pre suf a < nameOf pre suf b := by
  rw [nameOf_small pre suf (by omega), nameOf_small pre suf hb]
  apply append_lt
  have hd : ∀ x y : Nat, x < y → y < 10 → Nat.digitChar x < Nat.digitChar y := fun x y h1 h2 => digit_lt ⟨x, by omega⟩ ⟨y, h2⟩ h1
  simp only [List.cons_append, List.nil_append, List.cons_lt_cons_iff]
  rcases Nat.lt_or_ge (a / 100) (b / 100) with h | h
  · exact Or.inl (hd _ _ h (by omega))
  · have e : a / 100 = b / 100 := by omega
    refine Or.inr ⟨by rw [e], ?_⟩
    rcases Nat.lt_or_ge (a / 10 % 10) (b / 10 % 10) with h | h
    · exact Or.inl (hd _ _ h (by omega))
    · have e' : a / 10 % 10 = b / 10 % 10 := by omega
      exact Or.inr ⟨by rw [e'], Or.inl (hd _ _ (by omega) (by omega))⟩

theorem threeDigits_iff (pre suf f : Str) : threeDigits pre suf f = true ↔ ∃ a b c : Char, a.isDigit = true ∧ b.isDigit = true ∧ c.isDigit = true ∧ f = pre ++ a :: b :: c :: suf := by
  unfold threeDigits
  constructor
  · intro h
    simp only [Bool.and_eq_true, beq_iff_eq] at h
    obtain ⟨h1, h2, h3, h4⟩ := h
    have hf : f = pre ++ f.drop pre.length := by conv_lhs => rw [← List.take_append_drop pre.length f, h1]
    rw [← List.drop_drop] at h4
    generalize f.drop pre.length = g at *
    match g, h2, h3, h4 with
    | a :: b :: c :: t, _, h3, h4 =>
      simp at h3 h4
      exact ⟨a, b, c, h3.1, h3.2.1, h3.2.2, by rw [hf, h4]⟩
  · rintro ⟨a, b, c, ha, hb, hc, rfl⟩
    have e : (pre ++ a :: b :: c :: suf).drop (pre.length + 3) = suf := by
      rw [← List.drop_drop, List.drop_left]; rfl
    simp [ha, hb, hc, e]

theorem nameOf_matches (pre suf : Str) {n : Nat} (h : n < 1000) : threeDigits pre suf (nameOf pre suf n) = true := by
  rw [threeDigits_iff, nameOf_small pre suf h]
  exact ⟨_, _, _, digit_isDigit ⟨n / 100, by omega⟩, digit_isDigit ⟨n / 10 % 10, by omega⟩, digit_isDigit ⟨n % 10, by omega⟩, rfl⟩

theorem digits_bound (ds : Str) (h : ∀ c ∈ ds, c.isDigit = true) (a : Nat) :
    ds.foldl (fun a c => 10 * a + (c.toNat - '0'.toNat)) a < (a + 1) * 10 ^ ds.length := by
  induction ds generalizing a with
  | nil => simp
  | cons c t ih =>
    rw [List.foldl_cons, List.length_cons]
    have hc : c.toNat - '0'.toNat ≤ 9 := by
      have := h c (by simp)
      simp only [Char.isDigit, Bool.and_eq_true, decide_eq_true_eq] at this
      have h2 := this.2
      rw [UInt32.le_iff_toNat_le] at h2
      have h3 : c.toNat ≤ 57 := h2
      have h4 : '0'.toNat = 48 := rfl
      omega
    refine lt_of_lt_of_le (ih (fun c hc => h c (by simp [hc])) _) ?_
    rw [pow_succ, Nat.mul_comm (10 ^ t.length) 10, ← Nat.mul_assoc]
    exact Nat.mul_le_mul_right _ (by omega)

theorem decimal_long {n : Nat} (h : 1000 ≤ n) : 4 ≤ (decimal n).length := by
  by_contra hc
  have h1 := digits_bound (decimal n) (fun c hc => Names.decimal_isDigit hc) 0
  have h2 := Names.intOfDigits_decimal n
  unfold Names.intOfDigits at h2
  rw [h2, Nat.zero_add, Nat.one_mul] at h1
  have h3 : 10 ^ (decimal n).length ≤ 10 ^ 3 := Nat.pow_le_pow_right (by omega) (by omega)
  omega

theorem names_ok (pre suf : Str) (hp : '%' ∉ pre) (hs : '%' ∉ suf) (ps : List Nat) : names (pre ++ "%03d".toList ++ suf) ps = (ps.map (nameOf pre suf), none) := by
  induction ps with
  | nil => rfl
  | cons p t ih =>
    rw [names, fmt_spec pre suf hp hs, ih]
    simp [nameOf, List.append_assoc]

/-- C159: putting pages together: `convert` is called with exactly the files that fit the pattern, sorted, and the common file; no other file is touched, and nothing is
removed unless it succeeded. -/
theorem combine_spec (pre suf one : Str) (ret : Int) (disk : List Str) :
    ((combine pre suf one ret disk).1 = none ↔ ∀ f ∈ disk, ¬ threeDigits pre suf f = true) ∧
    (∀ l, (combine pre suf one ret disk).1 = some l → ∃ files, l = files ++ [one] ∧ files.Pairwise (· ≤ ·) ∧ files.Perm (disk.filter (threeDigits pre suf))) ∧
    (∀ f, f ∈ (combine pre suf one ret disk).2 ↔ f ∈ disk ∧ (threeDigits pre suf f = true → ret ≠ 0)) := by
  have hperm := List.perm_insertionSort (fun a b : Str => a ≤ b) (disk.filter (threeDigits pre suf))
  unfold combine
  dsimp only
  by_cases h : (disk.filter (threeDigits pre suf)).length > 0
  · rw [if_pos h]
    have hex : ∃ f ∈ disk, threeDigits pre suf f = true := by
      obtain ⟨f, hf⟩ := List.exists_mem_of_length_pos h
      exact ⟨f, (List.mem_filter.mp hf).1, (List.mem_filter.mp hf).2⟩
    refine ⟨⟨fun h => by simp at h, fun hn => ?_⟩, ?_, ?_⟩
    · obtain ⟨f, h1, h2⟩ := hex
      exact absurd h2 (hn f h1)
    · intro l hl
      injection hl with hl
      exact ⟨_, hl.symm, List.pairwise_insertionSort (r := fun a b : Str => a ≤ b) _, hperm⟩
    · intro f
      dsimp only
      by_cases hr : ret = 0
      · rw [if_pos hr, List.mem_filter]
        simp only [Bool.not_eq_true', List.contains_eq_mem, decide_eq_false_iff_not, hperm.mem_iff, List.mem_filter, not_and]
        exact ⟨fun ⟨h1, h2⟩ => ⟨h1, fun h3 => absurd h3 (h2 h1)⟩, fun ⟨h1, h2⟩ => ⟨h1, fun _ h3 => absurd hr (h2 h3)⟩⟩
      · rw [if_neg hr]
        exact ⟨fun h => ⟨h, fun _ => hr⟩, fun h => h.1⟩
  · rw [if_neg h]
    have hn : ∀ f ∈ disk, ¬ threeDigits pre suf f = true := by
      intro f hf ht
      exact h (List.length_pos_of_mem (List.mem_filter.mpr ⟨hf, ht⟩))
    refine ⟨⟨fun _ => hn, fun _ => rfl⟩, fun l hl => by simp at hl, fun f => ⟨fun hf => ⟨hf, fun ht => absurd ht (hn f hf)⟩, fun h => h.1⟩⟩

/-- C159: with a template `…%03d…` and the pattern that belongs to it, up to 999 pages, and none of an earlier run: the pages are put together in their order, all of them
and nothing else, and removed if that succeeded; other files stay. -/
theorem one_file_spec {α} (mn : Nat) (hm : 0 < mn) (pre suf one : Str) (hp : '%' ∉ pre) (hs : '%' ∉ suf) (ret : Int) (chans : List α) (hc : chans ≠ [])
    (hl : chans.length ≤ 999 * mn) (disk : List Str) (hd : ∀ f ∈ disk, ¬ threeDigits pre suf f = true) :
    oneFile mn (pre ++ "%03d".toList ++ suf) pre suf one ret chans disk =
      (some ((List.range ((chans.length + mn - 1) / mn)).map (fun p => nameOf pre suf (p + 1)) ++ [one]),
        (if ret = 0 then disk else disk ++ (List.range ((chans.length + mn - 1) / mn)).map (fun p => nameOf pre suf (p + 1))), none) := by
  have hP : (chans.length + mn - 1) / mn < 1000 := by
    rw [Nat.div_lt_iff_lt_mul hm]; omega
  have hP0 : 0 < (chans.length + mn - 1) / mn := by
    have := List.length_pos_iff.mpr hc
    exact Nat.div_pos (by omega) hm
  unfold oneFile
  rw [Plots.multipage_spec mn hm chans hc]
  dsimp only
  rw [List.map_map, names_ok pre suf hp hs, List.map_map]
  dsimp only
  have eF : (List.range ((chans.length + mn - 1) / mn)).map (nameOf pre suf ∘ (Prod.fst ∘ fun p => (p + 1, (((chans.drop (p * mn)).take mn).zipIdx 1).map Prod.swap))) =
      (List.range ((chans.length + mn - 1) / mn)).map (fun p => nameOf pre suf (p + 1)) := rfl
  rw [eF]
  generalize (chans.length + mn - 1) / mn = P at *
  obtain ⟨fs, hfs⟩ : ∃ fs, (List.range P).map (fun p => nameOf pre suf (p + 1)) = fs := ⟨_, rfl⟩
  rw [hfs]
  have hin : ∀ f ∈ fs, threeDigits pre suf f = true := by
    intro f hf
    rw [← hfs, List.mem_map] at hf
    obtain ⟨p, hp, rfl⟩ := hf
    exact nameOf_matches pre suf (by have := List.mem_range.mp hp; omega)
  have hsorted : fs.Pairwise (· ≤ ·) := by
    rw [← hfs, List.pairwise_map]
    refine (List.pairwise_lt_range (n := P)).imp_of_mem ?_
    intro a b ha hb hab
    exact le_of_lt (nameOf_lt pre suf (by omega) (by have := List.mem_range.mp hb; omega))
  have e1 : saveAll disk fs = disk ++ fs := by
    unfold saveAll
    rw [List.filter_eq_self.mpr]
    intro f hf
    simp only [Bool.not_eq_true', List.contains_eq_mem, decide_eq_false_iff_not]
    exact fun h => hd f hf (hin f h)
  have e2 : (disk ++ fs).filter (threeDigits pre suf) = fs := by
    rw [List.filter_append, List.filter_eq_nil_iff.mpr hd, List.filter_eq_self.mpr hin, List.nil_append]
  have e3 : fs.insertionSort (fun a b => a ≤ b) = fs := List.Pairwise.insertionSort_eq hsorted
  have e4 : (disk ++ fs).filter (fun f => !fs.contains f) = disk := by
    rw [List.filter_append, List.filter_eq_self.mpr, List.filter_eq_nil_iff.mpr, List.append_nil]
    · intro f hf; simp [hf]
    · intro f hf
      simp only [Bool.not_eq_true', List.contains_eq_mem, decide_eq_false_iff_not]
      exact fun h => hd f hf (hin f h)
  have hlen : fs.length > 0 := by rw [← hfs]; simpa using hP0
  rw [e1]
  unfold combine
  dsimp only
  rw [e2, if_pos hlen, e3, e4]

example : oneFile 2 "a-%03d.png".toList "a-".toList ".png".toList "a.pdf".toList 0 [1, 2, 3] ["x.png".toList, "a-1.png".toList] =
    (some ["a-001.png".toList, "a-002.png".toList, "a.pdf".toList], ["x.png".toList, "a-1.png".toList], none) := by decide +kernel

/-- Disagreement (C159): pages left by an earlier run with more channels are put into the common file too, after those of this run or among them, and then removed. -/
theorem stale_fails {α} (mn : Nat) (hm : 0 < mn) (pre suf one : Str) (hp : '%' ∉ pre) (hs : '%' ∉ suf) (chans : List α) (hc : chans ≠ [])
    (disk : List Str) (f : Str) (hf : f ∈ disk) (h3 : threeDigits pre suf f = true) (ret : Int) :
    (∃ l, (oneFile mn (pre ++ "%03d".toList ++ suf) pre suf one ret chans disk).1 = some l ∧ f ∈ l) ∧
    (ret = 0 → f ∉ (oneFile mn (pre ++ "%03d".toList ++ suf) pre suf one ret chans disk).2.1) := by
  unfold oneFile
  rw [Plots.multipage_spec mn hm chans hc]
  dsimp only
  rw [names_ok pre suf hp hs]
  dsimp only
  generalize (List.map (nameOf pre suf) _) = fs
  have hmem : f ∈ saveAll disk fs := by
    unfold saveAll
    rw [List.mem_append, List.mem_filter]
    by_cases h : f ∈ fs
    · exact Or.inr h
    · exact Or.inl ⟨hf, by simp [h]⟩
  obtain ⟨c1, c2, c3⟩ := combine_spec pre suf one ret (saveAll disk fs)
  constructor
  · cases hx : (combine pre suf one ret (saveAll disk fs)).1 with
    | none => exact absurd h3 (c1.mp hx f hmem)
    | some l =>
      obtain ⟨files, rfl, -, hperm⟩ := c2 l hx
      exact ⟨_, rfl, List.mem_append_left _ (hperm.mem_iff.mpr (List.mem_filter.mpr ⟨hmem, h3⟩))⟩
  · intro hr hin
    exact ((c3 f).mp hin).2 h3 hr

example : oneFile 2 "a-%03d.png".toList "a-".toList ".png".toList "a.pdf".toList 0 [1] ["a-002.png".toList] =
    (some ["a-001.png".toList, "a-002.png".toList, "a.pdf".toList], [], none) := by decide +kernel

/-- Disagreement (C159): the pages from the thousandth on are not put into the common file: their names have four digits. -/
theorem thousand_fails (pre suf one : Str) (n : Nat) (h : 1000 ≤ n) (ret : Int) (disk : List Str) (ho : one ≠ nameOf pre suf n) :
    ∀ l, (combine pre suf one ret disk).1 = some l → nameOf pre suf n ∉ l := by
  intro l hl hin
  obtain ⟨files, rfl, -, hperm⟩ := (combine_spec pre suf one ret disk).2.1 l hl
  rw [List.mem_append, List.mem_singleton] at hin
  rcases hin with hin | hin
  · have := (List.mem_filter.mp (hperm.mem_iff.mp hin)).2
    rw [threeDigits_iff] at this
    obtain ⟨a, b, c, -, -, -, he⟩ := this
    have hlen := congrArg List.length he
    have := decimal_long h
    unfold nameOf at hlen
    simp at hlen
    omega
  · exact ho hin.symm

/-- Disagreement (C159): the template given by plot_histogram_pages and plot_summary_pages has `%%03d`, in which no number fits: the first page raises a TypeError and no
file is ever saved. -/
theorem template_fails {α} (mn : Nat) (hm : 0 < mn) (pre suf one : Str) (hp : '%' ∉ pre) (hs : '%' ∉ suf) (ret : Int) (chans : List α) (hc : chans ≠ []) (disk : List Str) :
    oneFile mn (pre ++ "%%03d".toList ++ suf) pre suf one ret chans disk = (none, disk, some .type) := by
  have hf : ∀ n, fmt (pre ++ "%%03d".toList ++ suf) n = .error .type := by
    intro n
    unfold fmt
    have e : (pre ++ "%%03d".toList ++ suf).length + 1 = pre.length + (suf.length + 6) := by simp; try omega
    rw [e, List.append_assoc, fmtGo_plain n _ false pre _ hp]
    have h1 : fmtGo n (suf.length + 6) false ("%%03d".toList ++ suf) = (fmtGo n (suf.length + 5) false ("03d".toList ++ suf)).map ('%' :: ·) := by
      rw [show "%%03d".toList ++ suf = '%' :: '%' :: '0' :: '3' :: 'd' :: suf from rfl, fmtGo]
      rfl
    have h2 : fmtGo n (suf.length + 5) false ("03d".toList ++ suf) = .error .type := by
      have := fmtGo_plain n 2 false ("03d".toList ++ suf) [] (by simp [hs])
      rw [List.append_nil] at this
      rw [show suf.length + 5 = ("03d".toList ++ suf).length + 2 by simp, this]
      rfl
    rw [h1, h2]
    rfl
  have hP0 : 0 < (chans.length + mn - 1) / mn := by
    have := List.length_pos_iff.mpr hc
    exact Nat.div_pos (by omega) hm
  obtain ⟨P, hP⟩ := Nat.exists_eq_succ_of_ne_zero hP0.ne'
  unfold oneFile
  rw [Plots.multipage_spec mn hm chans hc, hP, List.range_succ_eq_map, List.map_cons]
  dsimp only
  rw [List.map_cons, names, hf]
  dsimp only
  rw [show saveAll disk [] = disk by simp [saveAll]]

/-! ### progress: proofs -/

/-- C159: nothing is shown at log level WARNING or above; below, every step prints one line, and one more when all is done. -/
theorem update_spec (u : Updater) (now frac : Rat) :
    (30 ≤ u.level → update u now frac = []) ∧
    (u.level < 30 → frac < 1 → update u now frac = [.done frac (timeLeft (now - u.start) frac)]) ∧
    (u.level < 30 → 1 ≤ frac → update u now frac = [.done frac (timeLeft (now - u.start) frac), .finished ((now - u.start) / 60)]) := by
  unfold update
  refine ⟨fun h => if_pos h, fun h1 h2 => ?_, fun h1 h2 => ?_⟩
  · rw [if_neg (by omega), if_neg (not_le.mpr h2)]
  · rw [if_neg (by omega), if_pos h2]

/-- C159: work done at a constant rate that takes `T` seconds in all: after the first second the time left that is shown is the time left; before, and as long as nothing
is done, there is none. -/
theorem time_left_spec (T elapsed : Rat) (hT : 0 < T) :
    (1 < elapsed → elapsed ≤ T → timeLeft elapsed (elapsed / T) = some ((T - elapsed) / 60)) ∧
    (∀ frac, elapsed ≤ 1 ∨ frac ≤ 0 → timeLeft elapsed frac = none) := by
  constructor
  · intro h1 h2
    have he : (0 : Rat) < elapsed := by linarith
    have h3 : timeRemaining elapsed (elapsed / T) = T - elapsed := by
      unfold timeRemaining
      rw [if_pos ⟨h1, by positivity⟩, if_neg (by positivity)]
      field_simp
    unfold timeLeft
    rw [h3, if_neg (by intro h; linarith)]
  · intro frac h
    have h3 : timeRemaining elapsed frac = -1 := by
      unfold timeRemaining
      rw [if_neg (by rintro ⟨h1, h2⟩; rcases h with h | h <;> linarith)]
    unfold timeLeft
    rw [h3, if_pos rfl]

example : timeLeft 60 (1 / 4) = some 3 ∧ timeLeft (1 / 2) (1 / 4) = none := by decide +kernel

/-- what a generator does when run to its end: the state, and whether it raised [specification] -/
def Gen.run {σ ρ} : Gen σ ρ → σ → σ × Except Exc Unit
  | .yield f _ _ rest, s => rest.run (f s)
  | .raise f e, s => (f s, .error e)
  | .ret f _, s => (f s, .ok ())

/-- the times and fractions it yields before it ends or raises [specification] -/
def Gen.steps {σ ρ} : Gen σ ρ → List (Rat × Rat)
  | .yield _ now frac rest => (now, frac) :: rest.steps
  | _ => []

theorem drain_spec {σ ρ} (u : Option Updater) (g : Gen σ ρ) (s : σ) :
    (drain u g s).2 = g.run s ∧ (drain u g s).1 = g.steps.flatMap (fun x => match u with | none => [] | some u => update u x.1 x.2) := by
  induction g generalizing s with
  | yield f now frac rest ih =>
    obtain ⟨h1, h2⟩ := ih (f s)
    constructor
    · rw [Gen.run]; exact h1
    · rw [Gen.steps, List.flatMap_cons, ← h2]
      rfl
  | raise f e => exact ⟨rfl, rfl⟩
  | ret f v => exact ⟨rfl, rfl⟩

/-- C159: showing progress changes nothing: a decorated method does all the work of the generator, in order, to its end or its first exception, which is passed on, whatever
the updater; what is shown are the updates for the fractions yielded, and nothing if there is no updater to call. -/
theorem work_spec {σ ρ} (sphinx : Bool) (mk : Except Exc Updater) (g : Gen σ ρ) (s : σ) :
    ((sphinx = true ∨ (∃ u, mk = .ok u) ∨ mk = .error .type) → (work sphinx mk g s).2 = g.run s) ∧
    ((sphinx = true ∨ mk = .error .type) → (work sphinx mk g s).1 = []) ∧
    (∀ u, sphinx = false → mk = .ok u → (work sphinx mk g s).1 = g.steps.flatMap (fun x => update u x.1 x.2)) ∧
    (∀ e, sphinx = false → mk = .error e → e ≠ .type → work sphinx mk g s = ([], s, .error e)) := by
  have hnone : ((drain none g s).1 = []) := by
    rw [(drain_spec none g s).2]; simp
  refine ⟨?_, ?_, ?_, ?_⟩
  · rintro (rfl | ⟨u, rfl⟩ | rfl)
    · exact (drain_spec none g s).1
    · cases sphinx
      · exact (drain_spec (some u) g s).1
      · exact (drain_spec none g s).1
    · cases sphinx <;> exact (drain_spec none g s).1
  · rintro (rfl | rfl)
    · exact hnone
    · cases sphinx <;> exact hnone
  · rintro u rfl rfl
    exact (drain_spec (some u) g s).2
  · rintro e rfl rfl he
    unfold work chooseUpdater
    cases e <;> first | rfl | exact absurd rfl he

/-- C159: the progress of a channel's summary rises from step to step and ends with exactly 1, which it reaches once: that it is finished is said once. -/
theorem summary_progress (segs : Nat) :
    (summaryFracs segs).Pairwise (· < ·) ∧ (∀ x ∈ summaryFracs segs, 0 < x ∧ x ≤ 1) ∧
    (0 < segs → (summaryFracs segs).getLast? = some 1 ∧ (summaryFracs segs).filter (fun x => decide (1 ≤ x)) = [1]) := by
  unfold summaryFracs
  refine ⟨?_, ?_, ?_⟩
  · rw [List.pairwise_map]
    refine (List.pairwise_lt_range (n := segs)).imp_of_mem ?_
    intro a b ha hb hab
    have hs : (0 : Rat) < segs := by exact_mod_cast (Nat.zero_lt_of_lt (List.mem_range.mp hb))
    have : (a : Rat) < b := by exact_mod_cast hab
    exact div_lt_div_of_pos_right (by linarith) hs
  · intro x hx
    obtain ⟨s, hs, rfl⟩ := List.mem_map.mp hx
    have h1 := List.mem_range.mp hs
    have hs : (0 : Rat) < segs := by exact_mod_cast (Nat.zero_lt_of_lt h1)
    have h2 : ((s : Rat) + 1) ≤ segs := by exact_mod_cast h1
    refine ⟨by positivity, (div_le_one hs).mpr h2⟩
  · intro h0
    obtain ⟨k, rfl⟩ := Nat.exists_eq_succ_of_ne_zero h0.ne'
    have hk : (0 : Rat) < ((k + 1 : Nat) : Rat) := by exact_mod_cast h0
    have hlast : (((k : Nat) : Rat) + 1) / ((k.succ : Nat) : Rat) = 1 := by
      rw [Nat.succ_eq_add_one, div_eq_one_iff_eq hk.ne']
      push_cast; rfl
    rw [List.range_succ, List.map_append, List.map_cons, List.map_nil, hlast]
    refine ⟨by simp, ?_⟩
    rw [List.filter_append, List.filter_eq_nil_iff.mpr, List.nil_append]
    · rfl
    · intro x hx
      obtain ⟨s, hs, rfl⟩ := List.mem_map.mp hx
      have h1 : ((s : Rat) + 1) < ((k + 1 : Nat) : Rat) := by
        have := List.mem_range.mp hs
        exact_mod_cast Nat.add_lt_add_right this 1
      simp only [decide_eq_true_eq, not_le, Nat.succ_eq_add_one]
      exact (div_lt_one hk).mpr h1

example : summaryFracs 4 = [1 / 4, 1 / 2, 3 / 4, 1] := by decide +kernel

theorem mem_groupFracs (oks : List Bool) (x : Rat) : x ∈ groupFracs oks ↔ ∃ i : Nat, oks[i]? = some true ∧ x = ((i : Rat) + 1) / (oks.length : Rat) := by
  unfold groupFracs
  rw [List.mem_map]
  constructor
  · rintro ⟨⟨b, i⟩, h, rfl⟩
    obtain ⟨h1, h2⟩ := List.mem_filter.mp h
    have := List.mem_zipIdx_iff_getElem?.mp h1
    dsimp only at this h2
    rw [h2] at this
    exact ⟨i, this, rfl⟩
  · rintro ⟨i, h, rfl⟩
    exact ⟨(true, i), List.mem_filter.mpr ⟨List.mem_zipIdx_iff_getElem?.mpr h, rfl⟩, rfl⟩

/-- C159, partial: the progress of a group's summary lies between 0 and 1, and reaches 1 if the last channel's summary works. Missing: that it is reached if that channel
fails and is set bad (see `group_progress_fails`). -/
theorem group_progress_partial (oks : List Bool) : (∀ x ∈ groupFracs oks, 0 < x ∧ x ≤ 1) ∧ (1 ∈ groupFracs oks ↔ oks.getLast? = some true) := by
  constructor
  · intro x hx
    obtain ⟨i, h, rfl⟩ := (mem_groupFracs oks x).mp hx
    obtain ⟨hi, -⟩ := List.getElem?_eq_some_iff.mp h
    have hs : (0 : Rat) < oks.length := by exact_mod_cast (Nat.zero_lt_of_lt hi)
    have h2 : ((i : Rat) + 1) ≤ oks.length := by exact_mod_cast hi
    exact ⟨by positivity, (div_le_one hs).mpr h2⟩
  · rw [mem_groupFracs, List.getLast?_eq_getElem?]
    constructor
    · rintro ⟨i, h, he⟩
      obtain ⟨hi, -⟩ := List.getElem?_eq_some_iff.mp h
      have hs : (0 : Rat) < oks.length := by exact_mod_cast (Nat.zero_lt_of_lt hi)
      have := (div_eq_one_iff_eq hs.ne').mp he.symm
      have : i + 1 = oks.length := by exact_mod_cast this
      rw [show oks.length - 1 = i by omega, h]
    · intro h
      obtain ⟨hi, -⟩ := List.getElem?_eq_some_iff.mp h
      refine ⟨_, h, ?_⟩
      have hs : (0 : Rat) < oks.length := by exact_mod_cast (Nat.zero_lt_of_lt hi)
      rw [eq_comm, div_eq_one_iff_eq hs.ne']
      have : oks.length - 1 + 1 = oks.length := by omega
      exact_mod_cast this

/-- Disagreement (C159): if the summary of the last channel fails, the progress of the group's summary never reaches 1, and it is never said to be finished. -/
theorem group_progress_fails (oks : List Bool) (u : Updater) (now : Rat → Rat) :
    ∀ m ∈ (groupFracs (oks ++ [false])).flatMap (fun x => update u (now x) x), ∃ frac left, m = .done frac left ∧ frac < 1 := by
  intro m hm
  obtain ⟨x, hx, hm⟩ := List.mem_flatMap.mp hm
  have h1 := ((group_progress_partial (oks ++ [false])).1 x hx).2
  have h2 : x < 1 := by
    refine lt_of_le_of_ne h1 (fun e => ?_)
    rw [e] at hx
    have := (group_progress_partial (oks ++ [false])).2.mp hx
    simp at this
  obtain ⟨u1, u2, -⟩ := update_spec u (now x) x
  rcases Nat.lt_or_ge u.level 30 with h | h
  · rw [u2 h h2, List.mem_singleton] at hm
    exact ⟨x, _, hm, h2⟩
  · rw [u1 h] at hm
    simp at hm

example : groupFracs [true, true, false] = [1 / 3, 2 / 3] := by decide +kernel

/-- Disagreement (C159): the progress of filtering passes 1: in the end (n + 1)/n is shown as done, with a negative time left; and it can be said twice that it is finished. -/
theorem filter_progress_fails (n per segs : Nat) (hn : 0 < n) (h : n ≤ segs * per) :
    (filterFracs n per segs).getLast? = some (((n : Rat) + 1) / n) ∧ 1 < ((n : Rat) + 1) / n ∧
    (∀ elapsed : Rat, 1 < elapsed → elapsed ≠ n + 1 → ∃ m : Rat, timeLeft elapsed (((n : Rat) + 1) / n) = some m ∧ m < 0) ∧
    (filterFracs 5 4 2).filter (fun x => decide (1 ≤ x)) = [1, 6 / 5] := by
  have hn' : (0 : Rat) < n := by exact_mod_cast hn
  refine ⟨?_, ?_, ?_, by decide +kernel⟩
  · obtain ⟨k, rfl⟩ := Nat.exists_eq_succ_of_ne_zero (n := segs) (by rintro rfl; omega)
    unfold filterFracs
    rw [List.range_succ, List.map_append, List.map_cons, List.map_nil, List.getLast?_append]
    have : min n (k * per + per) = n := by rw [Nat.succ_mul] at h; omega
    rw [this]
    rfl
  · rw [lt_div_iff₀ hn']; linarith
  · intro e he hne
    have he0 : (0 : Rat) < e := by linarith
    have h3 : timeRemaining e (((n : Rat) + 1) / n) = - (e / (n + 1)) := by
      unfold timeRemaining
      rw [if_pos ⟨he, by positivity⟩, if_neg (by positivity)]
      field_simp
      ring
    refine ⟨- (e / (n + 1)) / 60, ?_, ?_⟩
    · unfold timeLeft
      rw [h3, if_neg]
      intro hh
      have : e / ((n : Rat) + 1) = 1 := by linarith
      rw [div_eq_one_iff_eq (by positivity)] at this
      exact hne this
    · have : 0 < e / ((n : Rat) + 1) := by positivity
      linarith

end Mass.Group.Pages
