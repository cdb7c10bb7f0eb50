import Verif.Algo.Rounding
import Verif.States.Props
import Mathlib.Tactic.GCongr
/-! Times of records in float64: seconds, nanoseconds, differences, times since the start, states (C154) -/
namespace Mass.Algo.Times
open Mass.Fl Mass.States Mass.Ljh

/-- seconds of a record whose file says `n` microseconds since 1970: mass/core/files.py L438-439 `datatimes_float` (`datatimes_raw / 1e6`), kept as `ds.times` (channel_group.py L325)
and as `p_timestamp` (mass/core/channel.py L950, L996, stored as float64 by L703) -/
def secs (n : Int) : ℚ := fl 53 (fl 53 n / 10 ^ 6)

/-- nanoseconds compared with the state file: mass/core/channel.py L1054 -/
def nano (n : Int) : ℚ := fl 53 (secs n * 10 ^ 9)

/-- nanoseconds written to an OFF file: mass/core/ljh2off.py L99, L120 (a float64 array stored into an int64 field, truncated) -/
def unixnano (n : Int) : Int := ⌊nano n⌋

/-- seconds of a record of a file made by other programs, with microseconds as integers: mass/core/channel_group_hdf5_only.py L91-98 -/
def usecSecs (n : Int) : ℚ := fl 53 (fl 53 n * fl 53 (1 / 10 ^ 6))

/-- time since the first record: mass/off/channels.py L211-213 `relTimeSec`, with mass/off/recipe_classes.py L44-49. The difference is of int64 numbers. -/
def relTime (t0 u : Int) : ℚ := fl 53 (fl 53 (1 / 10 ^ 9) * fl 53 ((u - t0 : Int) : ℚ))

/-- difference of the times of two records, as cut by `timestamp_diff_sec`: mass/core/channel.py L1674-1676 -/
def timeDiff (a b : Int) : ℚ := fl 53 (secs b - secs a)

/-- a computed quantity as it is stored, in float32: mass/core/channel.py L704-717 -/
def store (x : ℚ) : ℚ := fl 24 x

/-! ### whole numbers -/

theorem rnd_fl (a : Nat) : ((rnd a : Nat) : ℚ) = fl 53 (a : ℚ) := by
  by_cases h0 : a = 0
  · subst h0; simp [rnd, fl_zero]
  by_cases hs : Nat.log2 a < 52
  · have h1 : a < 2 ^ 52 := (Nat.log2_lt h0).1 hs
    have h2 := fl_int 53 (by norm_num) (a : Int) (by rw [abs_of_nonneg (by omega)]; omega)
    push_cast at h2
    rw [h2]
    have : Nat.log2 a - 52 = 0 := by omega
    unfold rnd
    rw [this]
    simp [Nat.mod_one]
  · have ha : (a : ℚ) ≠ 0 := by exact_mod_cast h0
    unfold fl
    rw [if_neg ha, abs_of_nonneg (Nat.cast_nonneg a), Int.log_natCast, ← Nat.log2_eq_log_two]
    obtain ⟨e, he⟩ : ∃ e, Nat.log2 a = e + 52 := ⟨Nat.log2 a - 52, by omega⟩
    have hz : ((Nat.log2 a : Nat) : Int) + 1 - (53 : Nat) = (e : Nat) := by rw [he]; push_cast; ring
    rw [hz, zpow_natCast]
    unfold rnd
    rw [show Nat.log2 a - 52 = e by omega]
    push_cast
    congr 1
    have hp : (0 : ℚ) < 2 ^ e := by positivity
    have hfl : ⌊(a : ℚ) / 2 ^ e⌋ = ((a / 2 ^ e : Nat) : Int) := by
      have := Rat.floor_intCast_div_natCast (a : Int) (2 ^ e)
      push_cast at this
      rw [this]
      norm_cast
    have hrem : (a : ℚ) / 2 ^ e - ((a / 2 ^ e : Nat) : ℚ) = ((a % 2 ^ e : Nat) : ℚ) / 2 ^ e := by
      have h := Nat.div_add_mod a (2 ^ e)
      have : (a : ℚ) = 2 ^ e * ((a / 2 ^ e : Nat) : ℚ) + ((a % 2 ^ e : Nat) : ℚ) := by exact_mod_cast h.symm
      rw [eq_div_iff hp.ne', sub_mul, div_mul_cancel₀ _ hp.ne']
      linarith
    unfold rne
    rw [hfl]
    rw [show (((a / 2 ^ e : Nat) : Int) : ℚ) = ((a / 2 ^ e : Nat) : ℚ) from Int.cast_natCast _, hrem]
    generalize a / 2 ^ e = q
    generalize a % 2 ^ e = r
    have hlt : 2 * ((r : ℚ) / 2 ^ e) < 1 ↔ 2 * r < 2 ^ e := by
      rw [← mul_div_assoc, div_lt_one hp]
      exact_mod_cast Iff.rfl
    have hgt : 1 < 2 * ((r : ℚ) / 2 ^ e) ↔ 2 ^ e < 2 * r := by
      rw [← mul_div_assoc, one_lt_div hp]
      exact_mod_cast Iff.rfl
    by_cases c1 : 2 * r < 2 ^ e
    · rw [if_pos c1, if_pos (hlt.2 c1)]; simp
    · rw [if_neg c1, if_neg (fun h => c1 (hlt.1 h))]
      by_cases c2 : 2 ^ e < 2 * r
      · rw [if_pos c2, if_pos (hgt.2 c2)]; push_cast; rfl
      · rw [if_neg c2, if_neg (fun h => c2 (hgt.1 h))]; push_cast; rfl

/-- the conversion of whole numbers to float64 used for the states is the rounding used here -/
theorem toDouble_fl (n : Int) : (toDouble n : ℚ) = fl 53 (n : ℚ) := by
  rw [toDouble_eq]
  split
  · rename_i h
    push_cast
    rw [rnd_fl, ← fl_neg]
    congr 1
    have : ((n.natAbs : Int) : ℚ) = ((-n : Int) : ℚ) := by congr 1; omega
    push_cast at this
    simpa using congrArg Neg.neg this
  · rename_i h
    push_cast
    rw [rnd_fl]
    congr 1
    have : ((n.natAbs : Int) : ℚ) = ((n : Int) : ℚ) := by congr 1; omega
    simpa using this

/-! ### errors -/

theorem fl_err' (p : Nat) {x b : ℚ} (h : |x| ≤ b) : |fl p x - x| ≤ b / 2 ^ p := (fl_err p x).trans (by gcongr)

theorem fl_usec {n : Int} (h : |n| ≤ 2 ^ 53) : fl 53 (n : ℚ) = n := fl_int 53 (by norm_num) n h

theorem secs_err {n : Int} (h0 : 0 ≤ n) (h : n ≤ 2 ^ 53) : |secs n * 10 ^ 6 - n| ≤ (n : ℚ) / 2 ^ 53 := by
  have hn : (0 : ℚ) ≤ n := by exact_mod_cast h0
  unfold secs
  rw [fl_usec (by rw [abs_of_nonneg h0]; exact h)]
  have h1 := fl_err 53 ((n : ℚ) / 10 ^ 6)
  rw [abs_of_nonneg (show (0 : ℚ) ≤ (n : ℚ) / 10 ^ 6 by positivity)] at h1
  rw [abs_le] at h1 ⊢
  constructor <;> [have := h1.1; have := h1.2] <;> linarith

theorem nano_err {n : Int} (h0 : 0 ≤ n) (h : n < 2 * 10 ^ 15) : |nano n - 1000 * n| ≤ 445 := by
  have hn : (0 : ℚ) ≤ n := by exact_mod_cast h0
  have hn' : (n : ℚ) < 2 * 10 ^ 15 := by exact_mod_cast h
  have h1 := secs_err h0 (by omega)
  have hs : (n : ℚ) / 2 ^ 53 ≤ 2 * 10 ^ 15 / 2 ^ 53 := by gcongr
  have h2 : |secs n * 10 ^ 9 - 1000 * n| ≤ 2 * 10 ^ 18 / 2 ^ 53 := by
    have := h1.trans hs
    rw [abs_le] at this ⊢
    constructor <;> linarith [this.1, this.2]
  have h3 : |secs n * 10 ^ 9| ≤ 2 * 10 ^ 18 + 300 := by
    rw [abs_le] at h2 ⊢
    norm_num at h2 ⊢
    constructor <;> linarith [h2.1, h2.2]
  have h4 := fl_err' 53 h3
  unfold nano
  rw [abs_le] at h2 h4 ⊢
  norm_num at h2 h4 ⊢
  constructor <;> linarith [h2.1, h2.2, h4.1, h4.2]

/-- C154: the seconds of a record are within half a unit of the last bit; later records have later times, and the microseconds can be found again, until the year 2041. -/
theorem secs_spec {n : Int} (h0 : 0 ≤ n) (h : n < 2 ^ 51) :
    |secs n - n / 10 ^ 6| ≤ (n : ℚ) / 10 ^ 6 / 2 ^ 53 ∧ (∀ m : Int, 0 ≤ m → m < n → secs m < secs n) ∧ |fl 53 (secs n * 10 ^ 6) - n| < 1 / 2 := by
  have hn : (0 : ℚ) ≤ n := by exact_mod_cast h0
  have h1 := secs_err h0 (by omega)
  refine ⟨?_, ?_, ?_⟩
  · rw [abs_le] at h1 ⊢
    constructor <;> linarith [h1.1, h1.2]
  · intro m hm hmn
    have hm0 : (0 : ℚ) ≤ m := by exact_mod_cast hm
    have h2 := secs_err hm (by omega)
    have h3 : (m : ℚ) + 1 ≤ n := by exact_mod_cast hmn
    have h4 : (n : ℚ) ≤ 2 ^ 51 := by exact_mod_cast h.le
    rw [abs_le] at h1 h2
    norm_num at h1 h2 h4
    linarith [h1.1, h2.2]
  · have h4 : (n : ℚ) + 1 ≤ 2 ^ 51 := by exact_mod_cast h
    have h3 : |secs n * 10 ^ 6| ≤ (n : ℚ) + n / 2 ^ 53 := by
      rw [abs_le] at h1 ⊢
      constructor
      · have : (0 : ℚ) ≤ n / 2 ^ 53 := by positivity
        linarith [h1.1]
      · linarith [h1.2]
    have h5 := fl_err' 53 h3
    rw [abs_le] at h1 h5
    rw [abs_lt]
    norm_num at h1 h5 h4 ⊢
    constructor <;> linarith [h1.1, h1.2, h5.1, h5.2]

example : secs 1700000000000002 = 7130316800000008 / 2 ^ 22 := by decide +kernel

/-- C154: the nanoseconds written to an OFF file are the record's microsecond to within 500 ns (until the year 2033): rounding to the nearest microsecond gives it back, and later records have
later nanoseconds. -/
theorem unixnano_spec {n : Int} (h0 : 0 ≤ n) (h : n < 2 * 10 ^ 15) :
    |unixnano n - 1000 * n| < 500 ∧ (unixnano n + 500) / 1000 = n ∧ ∀ m : Int, 0 ≤ m → m < n → unixnano m < unixnano n := by
  have key : ∀ k : Int, 0 ≤ k → k < 2 * 10 ^ 15 → |unixnano k - 1000 * k| < 500 := by
    intro k hk hk'
    have h1 := nano_err hk hk'
    have h2 := Int.floor_le (nano k)
    have h3 := Int.lt_floor_add_one (nano k)
    have : |((unixnano k - 1000 * k : Int) : ℚ)| < 500 := by
      unfold unixnano
      push_cast
      rw [abs_le] at h1
      rw [abs_lt]
      constructor <;> linarith [h1.1, h1.2]
    exact_mod_cast this
  have h1 := key n h0 h
  refine ⟨h1, ?_, ?_⟩
  · rw [abs_lt] at h1
    omega
  · intro m hm hmn
    have h2 := key m hm (by omega)
    rw [abs_lt] at h1 h2
    omega

/-- Disagreement (C154): the nanoseconds in an OFF file made from an LJH file are not the record's microseconds times 1000, and dividing them by 1000 can give the microsecond before. -/
theorem unixnano_fails : unixnano 1700000000000002 = 1700000000000001792 ∧ unixnano 1700000000000002 / 1000 = 1700000000000001 := by decide +kernel

/-- C154: from April 1970 on, the nanoseconds compared with the state file are whole float64 numbers, the ones written to an OFF file -/
theorem nano_eq {n : Int} (h0 : 10 ^ 13 ≤ n) (h : n < 2 * 10 ^ 15) : nano n = unixnano n ∧ toDouble (unixnano n) = unixnano n := by
  have h1 := nano_err (n := n) (by omega) h
  have hn : (10 : ℚ) ^ 13 ≤ n := by exact_mod_cast h0
  have hs : (2 : ℚ) ^ (53 - 1) ≤ |secs n * 10 ^ 9| := by
    have h2 := secs_err (n := n) (by omega) (by omega)
    rw [abs_le] at h2
    refine le_trans ?_ (le_abs_self _)
    have h3 : (n : ℚ) ≤ 2 * 10 ^ 15 := by exact_mod_cast h.le
    norm_num at h2 hn h3 ⊢
    linarith [h2.1]
  obtain ⟨z, hz⟩ := fl_integral (p := 53) (by norm_num) hs
  have hz' : nano n = z := hz
  have hu : unixnano n = z := by unfold unixnano; rw [hz']; exact Int.floor_intCast z
  refine ⟨by rw [hu, hz'], ?_⟩
  have : (toDouble (unixnano n) : ℚ) = (unixnano n : ℚ) := by
    rw [toDouble_fl, hu, ← hz]
    exact fl_idem 53 (by norm_num) _
  exact_mod_cast this

/-- C154: comparing a record with an entry of the state file that is at least 750 ns away from it gives the right answer -/
theorem before_entry {n t : Int} (h0 : 10 ^ 13 ≤ n) (h : n < 2 * 10 ^ 15) (hf : 750 ≤ |t - 1000 * n|) :
    toDouble t ≤ toDouble (unixnano n) ↔ t ≤ 1000 * n := by
  have h1 := (unixnano_spec (n := n) (by omega) h).1
  rw [(nano_eq h0 h).2]
  have herr : ∀ s : Int, 0 ≤ s → s ≤ 2 * 10 ^ 18 → |toDouble s - s| ≤ 223 := by
    intro s hs hs'
    have hs0 : (0 : ℚ) ≤ s := by exact_mod_cast hs
    have hs1 : (s : ℚ) ≤ 2 * 10 ^ 18 := by exact_mod_cast hs'
    have h2 := fl_err' 53 (x := (s : ℚ)) (b := 2 * 10 ^ 18) (by rwa [abs_of_nonneg hs0])
    rw [← toDouble_fl] at h2
    have h3 : |((toDouble s - s : Int) : ℚ)| ≤ 223 := by
      push_cast
      refine h2.trans ?_
      norm_num
    exact_mod_cast h3
  rw [abs_lt] at h1
  constructor
  · intro hle
    by_contra hc
    have hge : 1000 * n + 750 ≤ t := by
      rw [abs_of_nonneg (by omega)] at hf
      omega
    have h2 := toDouble_mono _ _ hge
    have h3 := herr (1000 * n + 750) (by omega) (by omega)
    rw [abs_le] at h3
    omega
  · intro hle
    have hge : t ≤ 1000 * n - 750 := by
      rw [abs_of_nonpos (by omega)] at hf
      omega
    have h2 := toDouble_mono _ _ hge
    have h3 := herr (1000 * n - 750) (by omega) (by omega)
    rw [abs_le] at h3
    omega

/-- the state dictionary of a channel of an LJH file: mass/core/channel.py L1054-1055 (the float64 nanoseconds are whole numbers, `nano_eq`), with aliases not used -/
def ljhStates (ef : EF) (ns : List Int) : Except Exc SD := batch toDouble ef id (ns.map unixnano)

/-- C154: when no entry of the state file lies within 750 ns of a record, every record of an LJH file is given the state of the last entry at or before its own microsecond: the roundings of
its time to seconds and back to nanoseconds and of the entries do not matter. -/
theorem states_spec {ef : EF} {excl : List Bytes} (hef : ef.Good excl) (ht : Sorted ef.times) {ns : List Int} (hns : Sorted ns) (hr : ∀ n ∈ ns, 10 ^ 13 ≤ n ∧ n < 2 * 10 ^ 15)
    (hfar : ∀ n ∈ ns, ∀ t ∈ ef.times, 750 ≤ |t - 1000 * n|) :
    ∃ d, ljhStates ef ns = .ok d ∧ ∀ i (hi : i < ns.length),
      statesAt d i = match ((ef.allLabels.zip ef.times).filter (fun e => decide (e.2 ≤ 1000 * ns[i]))).getLast? with
        | none => []
        | some e => if e.1 ∈ excl then [] else [e.1] := by
  have hp : Sorted (ns.map unixnano) := by
    unfold Sorted at *
    rw [List.pairwise_map]
    refine hns.imp_of_mem (fun {a b} ha hb h => ?_)
    rcases lt_or_eq_of_le h with hlt | he
    · exact ((unixnano_spec (n := b) (by have := hr b hb; omega) (hr b hb).2).2.2 a (by have := hr a ha; omega) hlt).le
    · rw [he]
  obtain ⟨d, hd, hat⟩ := batch_assigns_partial toDouble_mono hef («alias» := id) ht hp
  refine ⟨d, hd, ?_⟩
  intro i hi
  have hm : ns[i] ∈ ns := List.getElem_mem hi
  rw [hat i (by simpa using hi)]
  have hfe : (ef.allLabels.zip ef.times).filter (fun e => decide (toDouble e.2 ≤ toDouble ((ns.map unixnano)[i]'(by simpa using hi)))) =
      (ef.allLabels.zip ef.times).filter (fun e => decide (e.2 ≤ 1000 * ns[i])) := by
    refine List.filter_congr ?_
    intro e he
    have ht' : e.2 ∈ ef.times := (List.of_mem_zip he).2
    rw [List.getElem_map]
    exact decide_eq_decide.2 (before_entry (hr _ hm).1 (hr _ hm).2 (hfar _ hm _ ht'))
  rw [hfe]
  rfl

example : ljhStates (mkEF [asc "START"] [(asc "START", 0), (asc "A", 1700000000000000000), (asc "B", 1700000001000000000)]) [1699999999000000, 1700000000000002, 1700000001000003] =
    .ok [(asc "A", .one ⟨1, 2⟩), (asc "B", .one ⟨2, 3⟩)] := by decide +kernel

/-- Disagreement (C154): a record at the very microsecond of a state-file entry can be given the state before it, as its time is rounded down. -/
theorem states_fails : ljhStates (mkEF [] [(asc "A", 0), (asc "B", 1000 * 1700000000000002)]) [1700000000000002] = .ok [(asc "A", .one ⟨0, 1⟩), (asc "B", .one ⟨1, 1⟩)] := by decide +kernel

/-- C154: seconds from microseconds in a file made by other programs are within half a microsecond, and later records have later times -/
theorem usecSecs_spec {n : Int} (h0 : 0 ≤ n) (h : n < 2 * 10 ^ 15) :
    |usecSecs n * 10 ^ 6 - n| < 1 / 2 ∧ |usecSecs n - secs n| * 10 ^ 6 < 1 ∧ ∀ m : Int, 0 ≤ m → m < n → usecSecs m < usecSecs n := by
  have key : ∀ k : Int, 0 ≤ k → k < 2 * 10 ^ 15 → |usecSecs k * 10 ^ 6 - k| < 1 / 2 := by
    intro k hk hk'
    have hn : (0 : ℚ) ≤ k := by exact_mod_cast hk
    have hn' : (k : ℚ) < 2 * 10 ^ 15 := by exact_mod_cast hk'
    unfold usecSecs
    rw [fl_usec (by rw [abs_of_nonneg hk]; omega)]
    generalize hs : fl 53 (1 / 10 ^ 6) = s
    have h1 : |s - 1 / 10 ^ 6| ≤ 1 / 10 ^ 6 / 2 ^ 53 := by
      rw [← hs]
      have := fl_err 53 (1 / 10 ^ 6)
      rwa [abs_of_pos (show (0 : ℚ) < 1 / 10 ^ 6 by norm_num)] at this
    have h2 : |(k : ℚ) * s - k / 10 ^ 6| ≤ 2 * 10 ^ 15 * (1 / 10 ^ 6 / 2 ^ 53) := by
      rw [show (k : ℚ) * s - k / 10 ^ 6 = k * (s - 1 / 10 ^ 6) by ring, abs_mul, abs_of_nonneg hn]
      gcongr
    have h3 : |(k : ℚ) * s| ≤ 2 * 10 ^ 9 + 1 := by
      rw [abs_le] at h2 ⊢
      norm_num at h2 ⊢
      constructor <;> linarith [h2.1, h2.2]
    have h4 := fl_err' 53 h3
    rw [abs_le] at h2 h4
    rw [abs_lt]
    norm_num at h2 h4 ⊢
    constructor <;> linarith [h2.1, h2.2, h4.1, h4.2]
  have h1 := key n h0 h
  refine ⟨h1, ?_, ?_⟩
  · have h2 := secs_err h0 (by omega)
    have hs : (n : ℚ) / 2 ^ 53 ≤ 2 * 10 ^ 15 / 2 ^ 53 := by
      have hn' : (n : ℚ) < 2 * 10 ^ 15 := by exact_mod_cast h
      gcongr
    have h3 := h2.trans hs
    have : |usecSecs n - secs n| * 10 ^ 6 = |(usecSecs n * 10 ^ 6 - n) - (secs n * 10 ^ 6 - n)| := by
      rw [show (usecSecs n * 10 ^ 6 - n) - (secs n * 10 ^ 6 - n) = (usecSecs n - secs n) * 10 ^ 6 by ring, abs_mul, abs_of_pos (show (0 : ℚ) < 10 ^ 6 by norm_num)]
    rw [this]
    rw [abs_lt] at h1 ⊢
    rw [abs_le] at h3
    norm_num at h1 h3 ⊢
    constructor <;> linarith [h1.1, h1.2, h3.1, h3.2]
  · intro m hm hmn
    have h2 := key m hm (by omega)
    have h3 : (m : ℚ) + 1 ≤ n := by exact_mod_cast hmn
    rw [abs_lt] at h1 h2
    linarith [h1.1, h2.2]

/-- Disagreement (C154): the same record has one time when read from an LJH file and another when its microseconds are read from an HDF5 file. -/
theorem usecSecs_fails : usecSecs 1700000000000003 ≠ secs 1700000000000003 := by decide +kernel

/-- C154: the time between two records is right to the nearest microsecond, and positive for a later record -/
theorem timeDiff_spec {a b : Int} (h0 : 0 ≤ a) (hab : a ≤ b) (h : b < 2 * 10 ^ 15) :
    |timeDiff a b * 10 ^ 6 - (b - a)| < 1 / 2 ∧ 0 ≤ timeDiff a b ∧ (a < b → 0 < timeDiff a b) := by
  have ha : (0 : ℚ) ≤ a := by exact_mod_cast h0
  have hab' : (a : ℚ) ≤ b := by exact_mod_cast hab
  have hb' : (b : ℚ) + 1 ≤ 2 * 10 ^ 15 := by exact_mod_cast h
  have h1 := secs_err h0 (by omega)
  have h2 := secs_err (h0.trans hab) (by omega)
  have h3 : |secs b - secs a| ≤ (b - a) / 10 ^ 6 + 1 / 10 ^ 6 := by
    rw [abs_le] at h1 h2 ⊢
    norm_num at h1 h2 hb' ⊢
    constructor <;> linarith [h1.1, h1.2, h2.1, h2.2]
  have h4 := fl_err' 53 h3
  have key : |timeDiff a b * 10 ^ 6 - (b - a)| < 1 / 2 := by
    unfold timeDiff
    rw [abs_le] at h1 h2 h4
    rw [abs_lt]
    norm_num at h1 h2 h4 hb' ⊢
    constructor <;> linarith [h1.1, h1.2, h2.1, h2.2, h4.1, h4.2]
  refine ⟨key, ?_, ?_⟩
  · unfold timeDiff
    refine fl_nonneg ?_
    rcases lt_or_eq_of_le hab with hlt | he
    · have := (secs_spec (n := b) (by omega) (by omega)).2.1 a h0 hlt
      linarith
    · rw [he]; simp
  · intro hlt
    have h5 : (a : ℚ) + 1 ≤ b := by exact_mod_cast hlt
    rw [abs_lt] at key
    linarith [key.1]

example : timeDiff 1700000000000000 1700000000000500 = 2097 / 2 ^ 22 := by decide +kernel

/-- C154: the time since the first record is zero for it, keeps the order, is relatively accurate to four units, and gives back the nanoseconds for runs of up to 13 days. -/
theorem relTime_spec (t0 u : Int) :
    relTime t0 t0 = 0 ∧ (∀ v, u ≤ v → relTime t0 u ≤ relTime t0 v) ∧ |relTime t0 u - (u - t0) / 10 ^ 9| ≤ |((u : ℚ) - t0)| / 10 ^ 9 / 2 ^ 51 ∧
    (|u - t0| < 2 ^ 50 → |relTime t0 u * 10 ^ 9 - (u - t0)| < 1 / 2) := by
  have hs0 : 0 ≤ fl 53 (1 / 10 ^ 9) := fl_nonneg (by norm_num)
  have h1 : |fl 53 (1 / 10 ^ 9) - 1 / 10 ^ 9| ≤ 1 / 10 ^ 9 / 2 ^ 53 := by
    have := fl_err 53 (1 / 10 ^ 9)
    rwa [abs_of_pos (show (0 : ℚ) < 1 / 10 ^ 9 by norm_num)] at this
  have key : |relTime t0 u - (u - t0) / 10 ^ 9| ≤ |((u : ℚ) - t0)| / 10 ^ 9 / 2 ^ 51 := by
    unfold relTime
    generalize fl 53 (1 / 10 ^ 9) = s at *
    push_cast
    generalize hd : (u : ℚ) - t0 = d
    have h2 := fl_err 53 d
    generalize fl 53 d = e at *
    have hsb : |s| ≤ 1 / 10 ^ 9 * (1 + 1 / 2 ^ 53) := by
      rw [abs_le] at h1 ⊢
      norm_num at h1 ⊢
      constructor <;> linarith [h1.1, h1.2]
    have h3 : |s * e - d / 10 ^ 9| ≤ |d| / 10 ^ 9 * ((1 + 1 / 2 ^ 53) * (1 / 2 ^ 53) + 1 / 2 ^ 53) := by
      rw [show s * e - d / 10 ^ 9 = s * (e - d) + (s - 1 / 10 ^ 9) * d by ring]
      refine (abs_add_le _ _).trans ?_
      rw [abs_mul, abs_mul]
      have a1 := mul_le_mul hsb h2 (abs_nonneg _) (by positivity)
      have a2 := mul_le_mul_of_nonneg_right h1 (abs_nonneg d)
      refine (add_le_add a1 a2).trans (le_of_eq ?_)
      ring
    have h4 : |s * e| ≤ |d| / 10 ^ 9 * (1 + ((1 + 1 / 2 ^ 53) * (1 / 2 ^ 53) + 1 / 2 ^ 53)) := by
      have : |s * e| ≤ |s * e - d / 10 ^ 9| + |d / 10 ^ 9| := by
        have := abs_add_le (s * e - d / 10 ^ 9) (d / 10 ^ 9)
        simpa using this
      rw [abs_div, abs_of_pos (show (0 : ℚ) < 10 ^ 9 by norm_num)] at this
      linarith
    have h5 := fl_err' 53 h4
    have h6 : |fl 53 (s * e) - d / 10 ^ 9| ≤ |fl 53 (s * e) - s * e| + |s * e - d / 10 ^ 9| := by
      have := abs_add_le (fl 53 (s * e) - s * e) (s * e - d / 10 ^ 9)
      simpa using this
    have hdn := abs_nonneg d
    refine h6.trans ((add_le_add h5 h3).trans ?_)
    generalize |d| = D at hdn
    norm_num
    linarith
  refine ⟨?_, ?_, key, ?_⟩
  · simp [relTime, fl_zero]
  · intro v huv
    unfold relTime
    refine fl_mono (by norm_num) (mul_le_mul_of_nonneg_left (fl_mono (by norm_num) ?_) hs0)
    exact_mod_cast sub_le_sub_right huv t0
  · intro h
    have h' : |((u : ℚ) - t0)| + 1 ≤ 2 ^ 50 := by exact_mod_cast h
    have hD : |relTime t0 u * 10 ^ 9 - (u - t0)| ≤ |((u : ℚ) - t0)| / 2 ^ 51 := by
      rw [show relTime t0 u * 10 ^ 9 - ((u : ℚ) - t0) = (relTime t0 u - (u - t0) / 10 ^ 9) * 10 ^ 9 by ring, abs_mul, abs_of_pos (show (0 : ℚ) < 10 ^ 9 by norm_num)]
      linarith
    generalize |((u : ℚ) - t0)| = D at *
    refine lt_of_le_of_lt hD ?_
    norm_num at h' ⊢
    linarith

example : relTime 1700000000000000000 1700000000001000000 = fl 53 (1 / 1000) := by decide +kernel

/-- C154: the times since the first record of an OFF file made from an LJH file are those of the LJH file to within a microsecond, for runs of up to 13 days -/
theorem relTime_ljh {a b : Int} (h0 : 0 ≤ a) (hab : a ≤ b) (h : b < 2 * 10 ^ 15) (hr : b - a < 10 ^ 12) :
    |relTime (unixnano a) (unixnano b) * 10 ^ 6 - (b - a)| < 1 := by
  have h1 := (unixnano_spec h0 (by omega)).1
  have h2 := (unixnano_spec (h0.trans hab) h).1
  have h3 := (relTime_spec (unixnano a) (unixnano b)).2.2.2 (by rw [abs_lt] at *; omega)
  rw [abs_lt] at h1 h2
  have h1a : (-499 : ℚ) ≤ unixnano a - 1000 * a := by exact_mod_cast (show (-499 : Int) ≤ unixnano a - 1000 * a by omega)
  have h1b : (unixnano a : ℚ) - 1000 * a ≤ 499 := by exact_mod_cast (show unixnano a - 1000 * a ≤ 499 by omega)
  have h2a : (-499 : ℚ) ≤ unixnano b - 1000 * b := by exact_mod_cast (show (-499 : Int) ≤ unixnano b - 1000 * b by omega)
  have h2b : (unixnano b : ℚ) - 1000 * b ≤ 499 := by exact_mod_cast (show unixnano b - 1000 * b ≤ 499 by omega)
  rw [abs_lt] at h3 ⊢
  constructor <;> linarith [h3.1, h3.2]

/-- C154: storing in float32 keeps the order, has relative error at most 2^-24, and keeps whole numbers up to 2^24 -/
theorem store_spec (x y : ℚ) : (x ≤ y → store x ≤ store y) ∧ |store x - x| ≤ |x| / 2 ^ 24 ∧ (∀ z : Int, |z| ≤ 2 ^ 24 → store z = z) ∧ store (store x) = store x :=
  ⟨fun h => fl_mono (by norm_num) h, fl_err 24 x, fun z hz => fl_int 24 (by norm_num) z hz, fl_idem 24 (by norm_num) x⟩

/-- Disagreement (C154): two pulses with different values can have the same stored value, and a whole number above 2^24 is not kept. -/
theorem store_fails : store (58987 / 10 + 1 / 5000) = store (58987 / 10) ∧ store 16777217 = 16777216 := by decide +kernel

end Mass.Algo.Times
