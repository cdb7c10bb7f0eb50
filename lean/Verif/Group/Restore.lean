import Verif.Names.Props
import Mathlib.Data.List.Nodup
import Mathlib.Data.List.Pairwise
import Mathlib.Data.List.Forall2
/-! C140: opening a group from lists of pulse and noise files, and restoring it from its HDF5 summary file (mass/core/channel_group.py L33-90, L128-171, L250-312). Only which files belong together and what is written about
that in the HDF5 files is modelled. -/
namespace Mass.Group.Restore
open Mass Mass.Names

/-- re.split(r"_chan\d+", rawname)[0]: what is before the first match, channel_group.py L38-39 -/
def beforeTag (raw : Str) : Str :=
  match finditer 0 0 raw with
  | [] => raw
  | (i, _) :: _ => raw.take i

/-- _generate_hdf5_filename, channel_group.py L33-42 -/
def generate (raw : Str) : Str :=
  beforeTag raw ++ (if "noi".toList.isSuffixOf raw then "_noise".toList else []) ++ "_mass.hdf5".toList

/-- the attributes of a channel's group in an HDF5 file: filename, noise_filename, npulses, channum (channel_group.py L264-288, channel.py L649-657) -/
structure Attrs where
  file : Option Str
  noise : Option Str
  npulses : Option Nat
  chan : Option Nat
  deriving DecidableEq

/-- the groups `chan<n>` of all HDF5 files, by file and channel number (channel_group.py L263, L283) -/
abbrev Store := List ((Str × Nat) × Attrs)

/-- require_group and setting attributes, channel_group.py L263-264, L280-284 -/
def upd (s : Store) (k : Str × Nat) (f : Attrs → Attrs) : Store :=
  if k ∈ s.map Prod.fst then s.map (fun e => if e.1 = k then (k, f e.2) else e) else s ++ [(k, f ⟨none, none, none, none⟩)]

/-- the attributes of a group (used for channel_group.py L66-85) -/
def find (s : Store) (k : Str × Nat) : Option Attrs := (s.find? (fun e => decide (e.1 = k))).map Prod.snd

/-- a data set: its channel, pulse file and noise file (channel_group.py L266-293) -/
structure DS where
  num : Nat
  file : Str
  noise : Option Str
  deriving DecidableEq

/-- what the files say: number of records and channel number of pulse files, channel number of noise files (channel_group.py L257-262, L287) -/
structure Env where
  np : Str → Nat
  num : Str → Nat
  nnum : Str → Nat

/-- one file which has records, channel_group.py L263-297: HDF5 groups afterwards and the data set if it is kept. `nf` is the name of the noise file (none: no noise). -/
def openOne (e : Env) (hp hn : Str) (s : Store) (f : Str) (nf : Option Str) : Except Exc (Store × List DS) :=
  let c := e.num f
  let s1 := upd s (hp, c) (fun g => { g with file := some f })
  if ((find s1 (hp, c)).bind Attrs.npulses).getD (e.np f) = e.np f then
    let s2 := upd s1 (hp, c) (fun g => { g with npulses := some (e.np f), chan := some c })
    match nf with
    | none => .ok (s2, [⟨c, f, none⟩])
    | some nf =>
      let s3 := upd s2 (hp, c) (fun g => { g with noise := some nf })
      let s4 := upd s3 (hn, c) (fun g => { g with file := some nf })
      .ok (s4, if e.nnum nf = c then [⟨c, f, some nf⟩] else [])
  else .error .assertion

/-- the loop over the files, channel_group.py L255-297; noise files go along with the pulse files (`noise_filenames[i]`). On an exception the HDF5 files keep what was written; that is not kept here. -/
def openLoop (e : Env) (hp hn : Str) : List Str → Option (List Str) → Store → Except Exc (Store × List DS)
  | [], _, s => .ok (s, [])
  | f :: t, ns, s =>
    if e.np f = 0 then openLoop e hp hn t (ns.map List.tail) s
    else match ns with
      | some [] => .error .index
      | _ =>
        match openOne e hp hn s f (ns.bind List.head?) with
        | .error x => .error x
        | .ok (s1, d) =>
          match openLoop e hp hn t (ns.map List.tail) s1 with
          | .error x => .error x
          | .ok (s2, ds) => .ok (s2, d ++ ds)

/-- which files a group uses, channel_group.py L128-159 (not noise_only; lists, or patterns expanded already): pairing, then max_chans. Exceptions: no pulse files ValueError; max_chans without noise files TypeError. -/
def choose (ch : Str → Option Nat) (ord : List (Option Nat) → List (Option Nat)) (files : List Str) (noise : Option (List Str)) (never only : Option (List (Option Nat))) (maxc : Option Nat) :
    Except Exc (List Str × Option (List Str)) :=
  let noise := if noise = some [] then none else noise
  if files = [] then .error .value
  else
    let r := removeUnpaired ch ord files (noise.getD []) never only
    let noise := noise.map (fun _ => r.2)
    match maxc with
    | none => .ok (r.1, noise)
    | some m =>
      match noise with
      | none => .error .type
      | some n => .ok (r.1.take (min m r.1.length), some (n.take (min m r.1.length)))

/-- the channel groups of an HDF5 file in the order of h5py: by name (used for channel_group.py L61) -/
def items (s : Store) (hp : Str) : List (Nat × Attrs) :=
  stableSort (fun a b => strLe (decimal a.1) (decimal b.1)) ((s.filter (fun e => decide (e.1.1 = hp))).map (fun e => (e.1.2, e.2)))

/-- the first loop of RestoreTESGroup, channel_group.py L61-78: pulse files, channels, noise files, name of the noise HDF5 file. `given`: hdf5noisename was given. RuntimeError is `exception`. -/
def restoreLoop (given : Bool) : List (Nat × Attrs) → Option Str → Except Exc (List Str × List Nat × List Str × Option Str)
  | [], g => .ok ([], [], [], g)
  | (_, a) :: t, g =>
    match a.file, a.chan with
    | some f, some c =>
      if given then
        match restoreLoop given t g with
        | .error x => .error x
        | .ok (p, cs, n, g) => .ok (f :: p, c :: cs, n, g)
      else
        match a.noise with
        | none => .error .key
        | some nf =>
          if g.getD (generate nf) = generate nf then
            match restoreLoop given t (some (generate nf)) with
            | .error x => .error x
            | .ok (p, cs, n, g) => .ok (f :: p, c :: cs, nf :: n, g)
          else .error .exception
    | _, _ => .error .key

/-- the noise files from the noise HDF5 file, channel_group.py L81-85 -/
def noiseOf (s : Store) (hn : Str) : List Nat → Except Exc (List Str)
  | [] => .ok []
  | c :: t =>
    match (find s (hn, c)).bind Attrs.file with
    | none => .error .key
    | some f =>
      match noiseOf s hn t with
      | .error x => .error x
      | .ok l => .ok (f :: l)

/-- RestoreTESGroup, channel_group.py L45-90: the arguments of the new group: pulse files, noise files, name of the noise HDF5 file -/
def restore (s : Store) (hp : Str) (hn : Option Str) : Except Exc (List Str × List Str × Option Str) :=
  match restoreLoop hn.isSome (items s hp) none with
  | .error x => .error x
  | .ok (p, cs, n, g) =>
    match hn with
    | none => .ok (p, n, g)
    | some h =>
      match noiseOf s h cs with
      | .error x => .error x
      | .ok n => .ok (p, n, some h)

/-! ### names -/

theorem scan_first {base r : Str} {d : Char} (h : ¬ HasChan base) (hd : d.isDigit = true) (pos : Nat) :
    ∃ ds X, scan pos (base ++ (chanTag ++ d :: r)) = (pos + base.length, ds) :: X := by
  induction base generalizing pos with
  | nil =>
    have e1 : chanTag ++ d :: r = '_' :: (['c', 'h', 'a', 'n'] ++ d :: r) := rfl
    have hm : ∃ ds, matchAt (chanTag ++ d :: r) = some ds := by
      unfold matchAt
      rw [if_pos (by rw [List.isPrefixOf_iff_prefix]; exact ⟨_, rfl⟩)]
      have h2 : (chanTag ++ d :: r).drop 5 = d :: r := rfl
      simp only [h2, List.takeWhile_cons, hd, if_true]
      exact ⟨_, if_neg (by simp)⟩
    obtain ⟨ds, hm⟩ := hm
    rw [List.nil_append, e1, scan, ← e1, hm]
    exact ⟨_, _, rfl⟩
  | cons c t ih =>
    have ht : ¬ HasChan t := by
      rintro ⟨a, x, b, hx, rfl⟩
      exact h ⟨c :: a, x, b, hx, rfl⟩
    rw [List.cons_append, scan]
    have hm : matchAt (c :: (t ++ (chanTag ++ d :: r))) = none := by
      cases hm : matchAt (c :: (t ++ (chanTag ++ d :: r))) with
      | none => rfl
      | some ds =>
        exfalso
        obtain ⟨q, hl, hne, hds, _⟩ := matchAt_some hm
        match ds, hne, hds with
        | x :: ds', _, hds =>
          have hx := hds x (by simp)
          rw [← List.cons_append] at hl
          simp only [chanTag] at hl
          have hus : x ≠ '_' := isDigit_ne hx
          match t with
          | [] => simp at hl
          | [a] => simp at hl
          | [a, b] => simp at hl
          | [a, b, a1] => simp at hl
          | [a, b, a1, a2] => simp at hl; exact hus hl.2.2.2.2.2.1.symm
          | a :: b :: a1 :: a2 :: a3 :: t' =>
            simp at hl
            obtain ⟨r1, r2, r3, r4, r5, r6, -⟩ := hl
            subst r1 r2 r3 r4 r5 r6
            exact h ⟨[], a3, t', hx, rfl⟩
    rw [hm]
    obtain ⟨ds, X, hX⟩ := ih ht (pos + 1)
    refine ⟨ds, X, ?_⟩
    simp only [hX, List.length_cons]
    congr 2
    omega

theorem decimal_cons (n : Nat) : ∃ d r, decimal n = d :: r ∧ d.isDigit = true := by
  match h : decimal n, decimal_ne n with
  | d :: r, _ => exact ⟨d, r, rfl, decimal_isDigit (n := n) (by rw [h]; simp)⟩

/-- C140. The summary file of `base_chan<n>.<ext>` is `base_mass.hdf5`, or `base_noise_mass.hdf5` for names which end in "noi": the same for all channels, if `base` (with its directories) has no `_chan<digit>` itself. -/
theorem generate_name {base ext : Str} (n : Nat) (h : ¬ HasChan base) (he : 3 ≤ ext.length) :
    generate (base ++ (chanTag ++ (decimal n ++ ext))) = base ++ (if "noi".toList <:+ ext then "_noise".toList else []) ++ "_mass.hdf5".toList := by
  obtain ⟨d, r, hd, hdig⟩ := decimal_cons n
  have hb : beforeTag (base ++ (chanTag ++ (decimal n ++ ext))) = base := by
    unfold beforeTag
    rw [finditer_scan, hd, List.cons_append]
    obtain ⟨ds, X, hX⟩ := scan_first (r := r ++ ext) h hdig 0
    rw [hX]
    simp
  have hs : ("noi".toList <:+ base ++ (chanTag ++ (decimal n ++ ext))) ↔ "noi".toList <:+ ext := by
    have h1 : ext <:+ base ++ (chanTag ++ (decimal n ++ ext)) := ⟨base ++ (chanTag ++ decimal n), by simp⟩
    exact ⟨fun hx => List.suffix_of_suffix_length_le hx h1 (by simpa using he), fun hx => hx.trans h1⟩
  unfold generate
  rw [hb]
  congr 2
  by_cases hc : "noi".toList <:+ ext
  · rw [if_pos hc, if_pos (List.isSuffixOf_iff_suffix.2 (hs.2 hc))]
  · rw [if_neg hc, if_neg (fun hx => hc (hs.1 (List.isSuffixOf_iff_suffix.1 hx)))]

/-- Disagreement (C140): in a directory whose name has `_chan<digit>`, all data, pulses and noise alike, share one summary file outside that directory. -/
theorem generate_fails : generate "/d/run_chan5/a_chan1.ljh".toList = "/d/run_mass.hdf5".toList ∧ generate "/d/run_chan5/b_chan1.ljh".toList = "/d/run_mass.hdf5".toList := by decide +kernel

/-! ### pairing -/

theorem sorted_filter_eq {a b : List Nat} (ha : a.Pairwise (· < ·)) (hb : b.Pairwise (· < ·)) (h : ∀ x, x ∈ a ↔ x ∈ b) : a = b := by
  induction a generalizing b with
  | nil =>
    cases b with
    | nil => rfl
    | cons y t => exact absurd ((h y).2 List.mem_cons_self) (by simp)
  | cons x s ih =>
    cases b with
    | nil => exact absurd ((h x).1 List.mem_cons_self) (by simp)
    | cons y t =>
      rw [List.pairwise_cons] at ha hb
      have hxy : x = y := by
        rcases List.mem_cons.1 ((h x).1 List.mem_cons_self) with h1 | h1
        · exact h1
        · rcases List.mem_cons.1 ((h y).2 List.mem_cons_self) with h2 | h2
          · exact h2.symm
          · have := ha.1 y h2; have := hb.1 x h1; omega
      subst hxy
      congr 1
      refine ih ha.2 hb.2 (fun z => ⟨fun hz => ?_, fun hz => ?_⟩)
      · rcases List.mem_cons.1 ((h z).1 (List.mem_cons_of_mem _ hz)) with h1 | h1
        · have := ha.1 z hz; omega
        · exact h1
      · rcases List.mem_cons.1 ((h z).2 (List.mem_cons_of_mem _ hz)) with h1 | h1
        · have := hb.1 z hz; omega
        · exact h1

theorem chan_strict {ch : Str → Option Nat} {l : List Str} (h : l.Pairwise (ChanLe ch)) (hn : (l.map ch).Nodup) (hs : ∀ f ∈ l, (ch f).isSome = true) :
    (l.map (fun f => (ch f).getD 0)).Pairwise (· < ·) := by
  rw [List.pairwise_map]
  unfold List.Nodup at hn
  rw [List.pairwise_map] at hn
  refine (h.and hn).imp_of_mem ?_
  rintro a b ha hb ⟨h1, h2⟩
  obtain ⟨x, hx⟩ := Option.isSome_iff_exists.1 (hs a ha)
  obtain ⟨y, hy⟩ := Option.isSome_iff_exists.1 (hs b hb)
  rcases h1 with h1 | ⟨h1, -⟩
  · exact h1
  · exfalso
    apply h2
    rw [hx, hy] at h1 ⊢
    simpa using h1

/-- C140. Pulse and noise files found by patterns (any order of the directory), each with a channel number and no channel twice in a list: after never_use, use_only and max_chans, every pulse file is beside the noise file of its
own channel; the channels are the first max_chans of those allowed and present in both. -/
theorem glob_pairs {ch : Str → Option Nat} {ord : List (Option Nat) → List (Option Nat)} (hord : ∀ l, (ord l).Perm l) {g1 g2 : List Str} (h1 : g1 ≠ []) (h2 : g2 ≠ [])
    (hs1 : ∀ f ∈ g1, (ch f).isSome = true) (hs2 : ∀ f ∈ g2, (ch f).isSome = true) (hd1 : (g1.map ch).Nodup) (hd2 : (g2.map ch).Nodup) (never only : Option (List (Option Nat))) (maxc : Option Nat) :
    ∃ p n p' n', sortNames ch g1 none = .ok (some p) ∧ sortNames ch g2 none = .ok (some n) ∧ choose ch ord p (some n) never only maxc = .ok (p', some n') ∧ p'.map ch = n'.map ch ∧
      (∀ f ∈ p', f ∈ g1 ∧ Valid ch g1 g2 never only (ch f)) ∧ (∀ f ∈ n', f ∈ g2) ∧ (maxc = none → ∀ f ∈ g1, Valid ch g1 g2 never only (ch f) → f ∈ p') ∧ (∀ m, maxc = some m → p'.length ≤ m) := by
  obtain ⟨p, hp, pp, ps⟩ := sort_names_spec h1 hs1
  obtain ⟨n, hn, pn, ns⟩ := sort_names_spec h2 hs2
  have hpne : p ≠ [] := by rintro rfl; exact h1 (by simpa using pp.symm)
  have hnne : n ≠ [] := by rintro rfl; exact h2 (by simpa using pn.symm)
  have hval : ∀ c, Valid ch p n never only c ↔ Valid ch g1 g2 never only c := by
    intro c
    unfold Valid
    simp only [hnne, h2, false_or, pp.mem_iff, pn.mem_iff]
  have hex : removeUnpaired ch ord p n never only = (p.filter (fun f => validChan ch p n never only (ch f)), n.filter (fun f => validChan ch p n never only (ch f))) :=
    remove_unpaired_exact_partial hord hpne ((pp.map ch).nodup_iff.2 hd1) ((pn.map ch).nodup_iff.2 hd2) (fun c => validChan_iff)
  set P := p.filter (fun f => validChan ch p n never only (ch f)) with hP
  set N := n.filter (fun f => validChan ch p n never only (ch f)) with hN
  have sP : ∀ f ∈ P, (ch f).isSome = true := fun f hf => hs1 f (pp.mem_iff.1 (List.mem_filter.1 hf).1)
  have sN : ∀ f ∈ N, (ch f).isSome = true := fun f hf => hs2 f (pn.mem_iff.1 (List.mem_filter.1 hf).1)
  have dP : (P.map ch).Nodup := (((pp.map ch).nodup_iff.2 hd1)).sublist (List.filter_sublist.map ch)
  have dN : (N.map ch).Nodup := (((pn.map ch).nodup_iff.2 hd2)).sublist (List.filter_sublist.map ch)
  have cP := chan_strict (ps.sublist List.filter_sublist) dP sP
  have cN := chan_strict (ns.sublist List.filter_sublist) dN sN
  have hch : P.map ch = N.map ch := by
    have key : P.map (fun f => (ch f).getD 0) = N.map (fun f => (ch f).getD 0) := by
      refine sorted_filter_eq cP cN (fun x => ?_)
      simp only [List.mem_map]
      constructor
      · rintro ⟨f, hf, rfl⟩
        have hv := validChan_iff.1 (List.mem_filter.1 hf).2
        obtain ⟨g, hg, hgf⟩ := hv.2.1.resolve_left hnne
        exact ⟨g, List.mem_filter.2 ⟨hg, by rw [hgf]; exact (List.mem_filter.1 hf).2⟩, by rw [hgf]⟩
      · rintro ⟨f, hf, rfl⟩
        have hv := validChan_iff.1 (List.mem_filter.1 hf).2
        obtain ⟨g, hg, hgf⟩ := hv.1
        exact ⟨g, List.mem_filter.2 ⟨hg, by rw [hgf]; exact (List.mem_filter.1 hf).2⟩, by rw [hgf]⟩
    have hback : ∀ l : List Str, (∀ f ∈ l, (ch f).isSome = true) → l.map ch = (l.map (fun f => (ch f).getD 0)).map some := by
      intro l hl
      rw [List.map_map]
      refine List.map_congr_left (fun f hf => ?_)
      obtain ⟨x, hx⟩ := Option.isSome_iff_exists.1 (hl f hf)
      simp [hx]
    rw [hback P sP, hback N sN, key]
  have hin : ∀ f ∈ P, f ∈ g1 ∧ Valid ch g1 g2 never only (ch f) := fun f hf =>
    ⟨pp.mem_iff.1 (List.mem_filter.1 hf).1, (hval _).1 (validChan_iff.1 (List.mem_filter.1 hf).2)⟩
  have hin2 : ∀ f ∈ N, f ∈ g2 := fun f hf => pn.mem_iff.1 (List.mem_filter.1 hf).1
  have hnn : ¬ (some n = some []) := by simpa using hnne
  have hc : choose ch ord p (some n) never only maxc = match maxc with
      | none => .ok (P, some N)
      | some m => .ok (P.take (min m P.length), some (N.take (min m P.length))) := by
    unfold choose
    simp only [if_neg hnn, if_neg hpne, Option.getD_some, hex, Option.map_some]
  cases maxc with
  | none =>
    refine ⟨p, n, P, N, hp, hn, hc, hch, hin, hin2, fun _ f hf hv => List.mem_filter.2 ⟨pp.mem_iff.2 hf, validChan_iff.2 ((hval _).2 hv)⟩, by simp⟩
  | some m =>
    refine ⟨p, n, _, _, hp, hn, hc, ?_, fun f hf => hin f (List.mem_of_mem_take hf), fun f hf => hin2 f (List.mem_of_mem_take hf), by simp, ?_⟩
    · rw [List.map_take, List.map_take, hch]
    · intro k hk
      have := Option.some.inj hk
      subst this
      rw [List.length_take]
      omega

/-- Disagreement (C140): max_chans without noise files raises TypeError. -/
theorem max_chans_fails (ch : Str → Option Nat) (ord : List (Option Nat) → List (Option Nat)) {files : List Str} (h : files ≠ []) (never only : Option (List (Option Nat))) (m : Nat) :
    choose ch ord files none never only (some m) = .error .type := by
  unfold choose
  simp [h]

/-! ### opening -/

theorem upd_new {s : Store} {k : Str × Nat} {f : Attrs → Attrs} (h : k ∉ s.map Prod.fst) : upd s k f = s ++ [(k, f ⟨none, none, none, none⟩)] := by
  unfold upd; rw [if_neg h]

theorem map_notin {s : Store} {k : Str × Nat} {f : Attrs → Attrs} (h : k ∉ s.map Prod.fst) : s.map (fun e => if e.1 = k then (k, f e.2) else e) = s := by
  conv_rhs => rw [← List.map_id s]
  refine List.map_congr_left (fun e he => ?_)
  rw [if_neg (fun hk => h (List.mem_map.2 ⟨e, he, hk⟩))]
  rfl

theorem upd_last {s : Store} {k : Str × Nat} {g : Attrs} {f : Attrs → Attrs} (h : k ∉ s.map Prod.fst) : upd (s ++ [(k, g)]) k f = s ++ [(k, f g)] := by
  unfold upd
  rw [if_pos (by simp), List.map_append, map_notin h]
  simp

theorem find_last {s : Store} {k : Str × Nat} {g : Attrs} (h : k ∉ s.map Prod.fst) : find (s ++ [(k, g)]) k = some g := by
  unfold find
  rw [List.find?_append, List.find?_eq_none.2 (fun e he => by
    have : e.1 ≠ k := fun hk => h (List.mem_map.2 ⟨e, he, hk⟩)
    simpa using this)]
  simp

/-- what is written for a data set with noise -/
theorem openOne_new {e : Env} {hp hn : Str} {s : Store} {f nf : Str} (hpn : hp ≠ hn) (h1 : (hp, e.num f) ∉ s.map Prod.fst) (h2 : (hn, e.num f) ∉ s.map Prod.fst) :
    openOne e hp hn s f (some nf) = .ok (s ++ [((hp, e.num f), ⟨some f, some nf, some (e.np f), some (e.num f)⟩), ((hn, e.num f), ⟨some nf, none, none, none⟩)],
      if e.nnum nf = e.num f then [⟨e.num f, f, some nf⟩] else []) := by
  unfold openOne
  simp only [upd_new h1, find_last h1, upd_last h1]
  rw [upd_new]
  · simp
  · rw [List.map_append, List.mem_append]
    rintro (h | h)
    · exact h2 h
    · simp only [List.map_cons, List.map_nil, List.mem_singleton, Prod.mk.injEq] at h
      exact hpn h.1.symm

/-- [specification] what the HDF5 files hold about the data sets `l` (pulse file, noise file) -/
def written (e : Env) (hp hn : Str) (l : List (Str × Str)) : Store :=
  l.flatMap (fun x => [((hp, e.num x.1), ⟨some x.1, some x.2, some (e.np x.1), some (e.num x.1)⟩), ((hn, e.num x.1), ⟨some x.2, none, none, none⟩)])

theorem mem_written {e : Env} {hp hn : Str} {l : List (Str × Str)} {k : Str × Nat} (h : k ∈ (written e hp hn l).map Prod.fst) : ∃ x ∈ l, k.2 = e.num x.1 := by
  obtain ⟨y, hy, rfl⟩ := List.mem_map.1 h
  obtain ⟨x, hx, hxy⟩ := List.mem_flatMap.1 hy
  refine ⟨x, hx, ?_⟩
  rcases List.mem_cons.1 hxy with rfl | hxy
  · rfl
  · rw [List.mem_singleton.1 hxy]

theorem openLoop_new {e : Env} {hp hn : Str} (hpn : hp ≠ hn) : ∀ (l done : List (Str × Str)), (∀ x ∈ l, e.nnum x.2 = e.num x.1) →
    ((l.filter (fun x => decide (e.np x.1 ≠ 0))).map (fun x => e.num x.1)).Nodup →
    (∀ x ∈ l, e.np x.1 ≠ 0 → ∀ y ∈ done, e.num x.1 ≠ e.num y.1) →
    openLoop e hp hn (l.map Prod.fst) (some (l.map Prod.snd)) (written e hp hn done) =
      .ok (written e hp hn (done ++ l.filter (fun x => decide (e.np x.1 ≠ 0))), (l.filter (fun x => decide (e.np x.1 ≠ 0))).map (fun x => ⟨e.num x.1, x.1, some x.2⟩)) := by
  intro l
  induction l with
  | nil => intro done _ _ _; simp [openLoop]
  | cons x t ih =>
    intro done hnum hnd hdone
    simp only [List.map_cons]
    unfold openLoop
    by_cases h0 : e.np x.1 = 0
    · rw [if_pos h0]
      have hf : (x :: t).filter (fun x => decide (e.np x.1 ≠ 0)) = t.filter (fun x => decide (e.np x.1 ≠ 0)) := by simp [h0]
      rw [hf] at hnd ⊢
      simp only [Option.map_some, List.tail_cons]
      exact ih done (fun y hy => hnum y (List.mem_cons_of_mem _ hy)) hnd (fun y hy => hdone y (List.mem_cons_of_mem _ hy))
    · rw [if_neg h0]
      have hf : (x :: t).filter (fun x => decide (e.np x.1 ≠ 0)) = x :: t.filter (fun x => decide (e.np x.1 ≠ 0)) := by simp [h0]
      rw [hf] at hnd ⊢
      rw [List.map_cons, List.nodup_cons] at hnd
      have hx1 : ∀ h : Str, (h, e.num x.1) ∉ (written e hp hn done).map Prod.fst := by
        intro h hm
        obtain ⟨y, hy, hyx⟩ := mem_written hm
        exact hdone x List.mem_cons_self h0 y hy hyx
      simp only [Option.bind_some, List.head?_cons, openOne_new hpn (hx1 hp) (hx1 hn), hnum x List.mem_cons_self, if_true, Option.map_some, List.tail_cons]
      have hw : written e hp hn done ++ [((hp, e.num x.1), ⟨some x.1, some x.2, some (e.np x.1), some (e.num x.1)⟩), ((hn, e.num x.1), ⟨some x.2, none, none, none⟩)] = written e hp hn (done ++ [x]) := by
        simp [written]
      rw [hw, ih (done ++ [x]) (fun y hy => hnum y (List.mem_cons_of_mem _ hy)) hnd.2]
      · simp
      · intro y hy hy0 z hz
        rcases List.mem_append.1 hz with hz | hz
        · exact hdone y (List.mem_cons_of_mem _ hy) hy0 z hz
        · rw [List.mem_singleton] at hz
          subst hz
          intro h
          exact hnd.1 (List.mem_map.2 ⟨y, List.mem_filter.2 ⟨hy, by simpa using hy0⟩, h⟩)

/-- C140. A new group of paired files has one data set for every pair whose pulse file has records, in order, each with its own noise file, and both HDF5 files say so. -/
theorem open_new {e : Env} {hp hn : Str} (hpn : hp ≠ hn) {l : List (Str × Str)} (hnum : ∀ x ∈ l, e.nnum x.2 = e.num x.1) (hnd : ((l.filter (fun x => decide (e.np x.1 ≠ 0))).map (fun x => e.num x.1)).Nodup) :
    openLoop e hp hn (l.map Prod.fst) (some (l.map Prod.snd)) [] =
      .ok (written e hp hn (l.filter (fun x => decide (e.np x.1 ≠ 0))), (l.filter (fun x => decide (e.np x.1 ≠ 0))).map (fun x => ⟨e.num x.1, x.1, some x.2⟩)) := by
  have := openLoop_new hpn l [] hnum hnd (by simp)
  simpa [written] using this

/-! ### restoring -/

theorem items_written {e : Env} {hp hn : Str} (hpn : hp ≠ hn) (l : List (Str × Str)) :
    ∃ l' : List (Str × Str), l'.Perm l ∧ items (written e hp hn l) hp = l'.map (fun x => (e.num x.1, ⟨some x.1, some x.2, some (e.np x.1), some (e.num x.1)⟩)) := by
  have h1 : ((written e hp hn l).filter (fun y => decide (y.1.1 = hp))).map (fun y => (y.1.2, y.2)) =
      l.map (fun x => (e.num x.1, (⟨some x.1, some x.2, some (e.np x.1), some (e.num x.1)⟩ : Attrs))) := by
    induction l with
    | nil => rfl
    | cons x t ih =>
      have : written e hp hn (x :: t) = [((hp, e.num x.1), ⟨some x.1, some x.2, some (e.np x.1), some (e.num x.1)⟩), ((hn, e.num x.1), ⟨some x.2, none, none, none⟩)] ++ written e hp hn t := rfl
      rw [this, List.filter_append, List.map_append, ih]
      simp [hpn.symm]
  unfold items
  rw [h1]
  have hperm := stableSort_perm (fun a b : Nat × Attrs => strLe (decimal a.1) (decimal b.1)) (l.map (fun x => (e.num x.1, (⟨some x.1, some x.2, some (e.np x.1), some (e.num x.1)⟩ : Attrs))))
  set S := stableSort (fun a b : Nat × Attrs => strLe (decimal a.1) (decimal b.1)) (l.map (fun x => (e.num x.1, (⟨some x.1, some x.2, some (e.np x.1), some (e.num x.1)⟩ : Attrs)))) with hS
  refine ⟨S.map (fun y => (y.2.file.getD [], y.2.noise.getD [])), ?_, ?_⟩
  · have := hperm.map (fun y => (y.2.file.getD [], y.2.noise.getD []))
    rw [List.map_map] at this
    refine this.trans (List.Perm.of_eq ?_)
    conv_rhs => rw [← List.map_id l]
    exact List.map_congr_left (fun x _ => rfl)
  · rw [List.map_map]
    conv_lhs => rw [← List.map_id S]
    refine List.map_congr_left (fun y hy => ?_)
    obtain ⟨x, -, rfl⟩ := List.mem_map.1 (hperm.mem_iff.1 hy)
    rfl

theorem restoreLoop_none {e : Env} : ∀ (l : List (Str × Str)) (g : Option Str) (x : Str), (∀ y ∈ l, generate y.2 = x) → (g = none ∨ g = some x) →
    restoreLoop false (l.map (fun y => (e.num y.1, ⟨some y.1, some y.2, some (e.np y.1), some (e.num y.1)⟩))) g =
      .ok (l.map Prod.fst, l.map (fun y => e.num y.1), l.map Prod.snd, if l = [] then g else some x) := by
  intro l
  induction l with
  | nil => intro g x _ _; simp [restoreLoop]
  | cons y t ih =>
    intro g x h hg
    simp only [List.map_cons]
    unfold restoreLoop
    have hy := h y List.mem_cons_self
    simp only [hy, Bool.false_eq_true, if_false]
    rw [if_pos (by rcases hg with rfl | rfl <;> rfl), ih (some x) x (fun z hz => h z (List.mem_cons_of_mem _ hz)) (Or.inr rfl)]
    simp

theorem restoreLoop_given {e : Env} : ∀ (l : List (Str × Str)) (g : Option Str),
    restoreLoop true (l.map (fun y => (e.num y.1, ⟨some y.1, some y.2, some (e.np y.1), some (e.num y.1)⟩))) g = .ok (l.map Prod.fst, l.map (fun y => e.num y.1), [], g) := by
  intro l
  induction l with
  | nil => intro g; simp [restoreLoop]
  | cons y t ih =>
    intro g
    simp only [List.map_cons]
    unfold restoreLoop
    simp only [if_true, ih]

theorem written_nodup {e : Env} {hp hn : Str} (hpn : hp ≠ hn) : ∀ {l : List (Str × Str)}, (l.map (fun x => e.num x.1)).Nodup → ((written e hp hn l).map Prod.fst).Nodup := by
  intro l
  induction l with
  | nil => intro _; simp [written]
  | cons x t ih =>
    intro h
    rw [List.map_cons, List.nodup_cons] at h
    have e1 : (written e hp hn (x :: t)).map Prod.fst = (hp, e.num x.1) :: (hn, e.num x.1) :: (written e hp hn t).map Prod.fst := rfl
    have hno : ∀ k : Str, (k, e.num x.1) ∉ (written e hp hn t).map Prod.fst := by
      intro k hk
      obtain ⟨y, hy, hyx⟩ := mem_written hk
      exact h.1 (List.mem_map.2 ⟨y, hy, hyx.symm⟩)
    rw [e1, List.nodup_cons, List.nodup_cons]
    refine ⟨?_, hno hn, ih h.2⟩
    rw [List.mem_cons]
    rintro (hc | hc)
    · exact hpn (Prod.mk.inj hc).1
    · exact hno hp hc

theorem find_mem {s : Store} (hs : (s.map Prod.fst).Nodup) {k : Str × Nat} {g : Attrs} (h : (k, g) ∈ s) : find s k = some g := by
  unfold find
  induction s with
  | nil => cases h
  | cons y t ih =>
    rw [List.map_cons, List.nodup_cons] at hs
    rw [List.find?_cons]
    rcases List.mem_cons.1 h with rfl | h
    · simp
    · have : y.1 ≠ k := by
        rintro rfl
        exact hs.1 (List.mem_map.2 ⟨_, h, rfl⟩)
      simp only [this, decide_false]
      exact ih hs.2 h

theorem upd_same {s : Store} (hs : (s.map Prod.fst).Nodup) {k : Str × Nat} {g : Attrs} (h : (k, g) ∈ s) {f : Attrs → Attrs} (hf : f g = g) : upd s k f = s := by
  unfold upd
  rw [if_pos (List.mem_map.2 ⟨_, h, rfl⟩)]
  conv_rhs => rw [← List.map_id s]
  refine List.map_congr_left (fun y hy => ?_)
  by_cases hk : y.1 = k
  · have h1 := find_mem hs h
    have h2 := find_mem hs (k := y.1) (g := y.2) hy
    rw [hk, h1] at h2
    have h3 := Option.some.inj h2
    rw [if_pos hk, ← h3, hf]
    show (k, g) = y
    rw [← hk, h3]
  · rw [if_neg hk]; rfl

theorem noiseOf_written {e : Env} {hp hn : Str} {l : List (Str × Str)} (hs : ((written e hp hn l).map Prod.fst).Nodup) : ∀ t : List (Str × Str), (∀ x ∈ t, x ∈ l) →
    noiseOf (written e hp hn l) hn (t.map (fun x => e.num x.1)) = .ok (t.map Prod.snd) := by
  intro t
  induction t with
  | nil => intro _; rfl
  | cons x t ih =>
    intro h
    have hm : ((hn, e.num x.1), (⟨some x.2, none, none, none⟩ : Attrs)) ∈ written e hp hn l := List.mem_flatMap.2 ⟨x, h x List.mem_cons_self, by simp⟩
    simp only [List.map_cons]
    unfold noiseOf
    rw [find_mem hs hm]
    simp only [Option.bind_some, ih (fun y hy => h y (List.mem_cons_of_mem _ hy))]

theorem openLoop_again {e : Env} {hp hn : Str} {l : List (Str × Str)} (hs : ((written e hp hn l).map Prod.fst).Nodup) (h0 : ∀ x ∈ l, e.np x.1 ≠ 0) (hnum : ∀ x ∈ l, e.nnum x.2 = e.num x.1) :
    ∀ t : List (Str × Str), (∀ x ∈ t, x ∈ l) → openLoop e hp hn (t.map Prod.fst) (some (t.map Prod.snd)) (written e hp hn l) = .ok (written e hp hn l, t.map (fun x => ⟨e.num x.1, x.1, some x.2⟩)) := by
  intro t
  induction t with
  | nil => intro _; simp [openLoop]
  | cons x t ih =>
    intro h
    have hx := h x List.mem_cons_self
    have hm1 : ((hp, e.num x.1), (⟨some x.1, some x.2, some (e.np x.1), some (e.num x.1)⟩ : Attrs)) ∈ written e hp hn l := List.mem_flatMap.2 ⟨x, hx, by simp⟩
    have hm2 : ((hn, e.num x.1), (⟨some x.2, none, none, none⟩ : Attrs)) ∈ written e hp hn l := List.mem_flatMap.2 ⟨x, hx, by simp⟩
    have ho : openOne e hp hn (written e hp hn l) x.1 (some x.2) = .ok (written e hp hn l, [⟨e.num x.1, x.1, some x.2⟩]) := by
      unfold openOne
      simp only []
      rw [upd_same hs hm1 rfl, find_mem hs hm1]
      simp only [Option.bind_some, Option.getD_some, if_true]
      rw [upd_same hs hm1 rfl, upd_same hs hm1 rfl, upd_same hs hm2 rfl, if_pos (hnum x hx)]
    simp only [List.map_cons]
    unfold openLoop
    rw [if_neg (h0 x hx)]
    simp only [Option.bind_some, List.head?_cons, ho, Option.map_some, List.tail_cons, ih (fun y hy => h y (List.mem_cons_of_mem _ hy)), List.singleton_append]

/-- C140, partial: a group of paired files with its own two HDF5 files, opened once, is restored from the pulse HDF5 file: the same pulse files, each beside its own noise file; opened again they make the same data sets and
change nothing in the HDF5 files. The noise HDF5 file may be named, or is found if all noise files imply its name. Missing: the order (by name, see `order_fails`) and HDF5 files used before (see `stale_fails`, `mismatch_fails`). -/
theorem restore_partial {e : Env} {hp hn : Str} (hpn : hp ≠ hn) {l : List (Str × Str)} (hnum : ∀ x ∈ l, e.nnum x.2 = e.num x.1) (hne : ∃ x ∈ l, e.np x.1 ≠ 0)
    (hnd : ((l.filter (fun x => decide (e.np x.1 ≠ 0))).map (fun x => e.num x.1)).Nodup) :
    ∃ s ds p n, openLoop e hp hn (l.map Prod.fst) (some (l.map Prod.snd)) [] = .ok (s, ds) ∧ restore s hp (some hn) = .ok (p, n, some hn) ∧
      ((∀ x ∈ l, generate x.2 = hn) → restore s hp none = .ok (p, n, some hn)) ∧
      ∃ ds', openLoop e hp hn p (some n) s = .ok (s, ds') ∧ ds'.Perm ds ∧ (∀ d, d ∈ ds ↔ ∃ x ∈ l, e.np x.1 ≠ 0 ∧ d = ⟨e.num x.1, x.1, some x.2⟩) := by
  set L := l.filter (fun x => decide (e.np x.1 ≠ 0)) with hL
  have hin : ∀ x ∈ L, x ∈ l ∧ e.np x.1 ≠ 0 := fun x hx => by
    have := List.mem_filter.1 hx
    exact ⟨this.1, by simpa using this.2⟩
  have hs := written_nodup hpn hnd
  obtain ⟨l', hl', hit⟩ := items_written (e := e) (hn := hn) hpn L
  have hmem : ∀ x ∈ l', x ∈ L := fun x hx => hl'.mem_iff.1 hx
  refine ⟨written e hp hn L, _, l'.map Prod.fst, l'.map Prod.snd, open_new hpn hnum hnd, ?_, ?_, ?_⟩
  · unfold restore
    rw [hit]
    simp only [Option.isSome_some, restoreLoop_given, noiseOf_written hs l' hmem]
  · intro hg
    unfold restore
    rw [hit]
    simp only [Option.isSome_none]
    rw [restoreLoop_none l' none hn (fun y hy => hg y (hin y (hmem y hy)).1) (Or.inl rfl)]
    have : l' ≠ [] := by
      rintro rfl
      obtain ⟨x, hx, hx0⟩ := hne
      have hxL : x ∈ L := List.mem_filter.2 ⟨hx, by simpa using hx0⟩
      exact absurd (hl'.mem_iff.2 hxL) (by simp)
    simp only [if_neg this]
  · refine ⟨l'.map (fun x => ⟨e.num x.1, x.1, some x.2⟩), openLoop_again hs (fun x hx => (hin x hx).2) (fun x hx => hnum x (hin x hx).1) l' hmem, hl'.map _, fun d => ?_⟩
    rw [List.mem_map]
    constructor
    · rintro ⟨x, hx, rfl⟩
      exact ⟨x, (hin x hx).1, (hin x hx).2, rfl⟩
    · rintro ⟨x, hx, hx0, rfl⟩
      exact ⟨x, List.mem_filter.2 ⟨hx, by simpa using hx0⟩, rfl⟩

/-! ### disagreements and examples -/

/-- files of the examples: pulse files p_chan<n>, noise files n_chan<n>, ten records each [specification] -/
def exEnv : Env := ⟨fun _ => 10, fun f => ((parseName f).2).getD 0, fun f => ((parseName f).2).getD 0⟩
/-- [specification] -/
def pf (n : Nat) : Str := "p_chan".toList ++ decimal n ++ ".ljh".toList
/-- [specification] -/
def nf (n : Nat) : Str := "n_chan".toList ++ decimal n ++ ".ljh".toList

/-- Disagreement (C140): a group opened without noise files cannot be restored without naming a noise file. -/
theorem no_noise_fails : (openLoop exEnv "h".toList "k".toList [pf 1] none []).bind (fun r => restore r.1 "h".toList none) = .error .key := by decide +kernel

/-- Disagreement (C140): the channels are restored in the order of their names, 1, 11, 3, not of their numbers. -/
theorem order_fails : (openLoop exEnv "h".toList "k".toList [pf 1, pf 3, pf 11] (some [nf 1, nf 3, nf 11]) []).bind (fun r => (restore r.1 "h".toList none).map Prod.fst) = .ok [pf 1, pf 11, pf 3] := by decide +kernel

/-- Disagreement (C140): an HDF5 file used before keeps its channels: a group opened with channel 1 only is restored with channels 1 and 3. -/
theorem stale_fails : ((openLoop exEnv "h".toList "k".toList [pf 1, pf 3] (some [nf 1, nf 3]) []).bind (fun r => openLoop exEnv "h".toList "k".toList [pf 1] (some [nf 1]) r.1)).bind
    (fun r => (restore r.1 "h".toList none).map (fun a => (r.2.length, a.1))) = .ok (1, [pf 1, pf 3]) := by decide +kernel

/-- Disagreement (C140): lists of files in different orders: the channels are left out, but the HDF5 files now name the wrong noise files; a group restored from them, which was right before, has no channels. -/
theorem mismatch_fails : ((openLoop exEnv "h".toList "k".toList [pf 1, pf 3] (some [nf 1, nf 3]) []).bind (fun r => openLoop exEnv "h".toList "k".toList [pf 1, pf 3] (some [nf 3, nf 1]) r.1)).bind
    (fun r => (restore r.1 "h".toList none).bind (fun a => (openLoop exEnv "h".toList "k".toList a.1 (some a.2.1) r.1).map (fun q => (r.2, a.2.1, q.2)))) = .ok ([], [nf 3, nf 1], []) := by decide +kernel

/-- Disagreement (C140): if pulses and noise share one HDF5 file (see `generate_fails`), the name of the pulse file is replaced by that of the noise file, and the noise is restored as pulses. -/
theorem one_file_fails : (openLoop exEnv "h".toList "h".toList [pf 1] (some [nf 1]) []).bind (fun r => (restore r.1 "h".toList none).map Prod.fst) = .ok [nf 1] := by decide +kernel

example : generate (pf 33) = "p_mass.hdf5".toList ∧ generate "d/x_chan2.noi".toList = "d/x_noise_mass.hdf5".toList := by decide +kernel
example : choose chOf id [pf 1, pf 2, pf 3] (some [nf 2, nf 3, nf 4]) (some [some 3]) none (some 5) = .ok ([pf 2], some [nf 2]) := by decide +kernel
example : (openLoop exEnv "h".toList "n_mass.hdf5".toList [pf 2, pf 3] (some [nf 2, nf 3]) []).bind (fun r => restore r.1 "h".toList none) = .ok ([pf 2, pf 3], [nf 2, nf 3], some "n_mass.hdf5".toList) := by decide +kernel

end Mass.Group.Restore
