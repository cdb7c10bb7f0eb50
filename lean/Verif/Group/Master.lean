import Verif.Group.Restore
import Mathlib.Data.List.Sort
/-! C144: groups read from HDF5 files only, through a master file of links (mass/core/channel_group_hdf5_only.py L12-98). A file of one channel is what these functions look at; what else is set up for a channel is C141's. -/
namespace Mass.Group.Master
open Mass Mass.Names

/-- hdf5jl_name_from_ljh_name, channel_group_hdf5_only.py L12-14 -/
def jlName (ljh : Str) : Str := (splitext ljh).1 ++ "_jl.hdf5".toList

/-- an HDF5 file of one channel: the attribute channum, a clean end, the number of filt_value (none: no such dataset), time stamps in microseconds if there are any, and samples per record (channel_group_hdf5_only.py L30-46, L70-76, L96) -/
structure Single where
  chan : Option Int
  clean : Bool
  npulse : Option Nat
  usec : Option (List Int)
  nsamp : Nat
  deriving DecidableEq

/-- the master file: samples per record (one of the three attributes of L30-32) and links by channel (L47) -/
structure Mst where
  nsamp : Option Nat
  links : List (Int × Str)
  deriving DecidableEq

/-- all files (channel_group_hdf5_only.py L19-33) -/
structure World where
  single : Str → Option Single
  master : Str → Option Mst

/-- `h5fname.find("_chan")`, channel_group_hdf5_only.py L34 -/
def findTag : Nat → Str → Int
  | _, [] => -1
  | k, c :: t => if chanTag.isPrefixOf (c :: t) then (k : Int) else findTag (k + 1) t

/-- `int(h5fname[i + 5:-8])`, channel_group_hdf5_only.py L35 -/
def chanOf (h : Str) : Except Exc Int := pyInt ((h.take (h.length - 8)).drop (findTag 0 h + 5).toNat)

/-- setting a file's content (used for channel_group_hdf5_only.py L40-46) -/
def putS (w : World) (p : Str) (s : Single) : World := { w with single := fun q => if q = p then some s else w.single q }

/-- setting the master file's content (used for channel_group_hdf5_only.py L27-47) -/
def putM (w : World) (p : Str) (m : Option Mst) : World := { w with master := fun q => if q = p then m else w.master q }

/-- one file of the loop, channel_group_hdf5_only.py L34-49: files afterwards and the exception which ends the loop; KeyError is caught. A link of this name which is there already is an error. -/
def linkOne (req : Bool) (mn : Str) (w : World) (h : Str) : World × Except Exc Unit :=
  match chanOf h with
  | .error e => (w, .error e)
  | .ok c => match w.single h with
    | none => (w, .error .os)
    | some s =>
      if s.clean || !req then
        match s.npulse with
        | none => (w, .ok ())
        | some n =>
          let s' := if 1 < n then { s with chan := some (s.chan.getD c) } else s
          let w' := putS w h s'
          match w'.master mn with
          | none => (w', .error .os)
          | some m => if c ∈ m.links.map Prod.fst then (w', .error .value) else (putM w' mn (some { m with links := m.links ++ [(c, h)] }), .ok ())
      else match w.master mn with
        | none => (w, .error .os)
        | some m => if c ∈ m.links.map Prod.fst then (w, .error .value) else (putM w mn (some { m with links := m.links ++ [(c, h)] }), .ok ())

/-- the loop over files, channel_group_hdf5_only.py L33-49 -/
def linkAll (req : Bool) (mn : Str) : World → List Str → World × Except Exc Unit
  | w, [] => (w, .ok ())
  | w, h :: t => match linkOne req mn w h with
    | (w', .error e) => (w', .error e)
    | (w', .ok ()) => linkAll req mn w' t

/-- make_or_get_master_hdf5_from_julia_hdf5_file, channel_group_hdf5_only.py L17-51. `dot`: the h5py installed still has `Dataset.value` (before version 3). -/
def make (dot : Bool) (force req : Bool) (w : World) (hs : List Str) : World × Except Exc Str :=
  match hs with
  | [] => (w, .error .index)
  | h0 :: _ =>
    let mn := Restore.generate h0
    if (w.master mn).isSome && !force then (w, .ok mn)
    else
      let w1 := putM w mn (some ⟨none, []⟩)
      match w1.single h0 with
      | none => (w1, .error .os)
      | some s =>
        if !dot then (w1, .error .attribute)
        else
          match linkAll req mn (putM w1 mn (some ⟨some s.nsamp, []⟩)) hs with
          | (w2, .error e) => (w2, .error e)
          | (w2, .ok ()) => (w2, .ok mn)

/-- a channel of the group: its number, number of pulses, time stamps in microseconds if they are taken from the file (TESGroupHDF5 multiplies them by 1e-6), channel_group_hdf5_only.py L70-79, L91-97 -/
structure Chan where
  num : Int
  npulse : Nat
  usec : Option (List Int)
  deriving DecidableEq

/-- the loop over the links, channel_group_hdf5_only.py L66-79. A link to a file which is not there is a KeyError. -/
def chansOf (w : World) : List (Int × Str) → Except Exc (List Chan)
  | [] => .ok []
  | (_, h) :: t => match w.single h with
    | none => .error .key
    | some s => match s.npulse with
      | none => .error .key
      | some n => match s.chan with
        | none => .error .key
        | some c => match chansOf w t with
          | .error e => .error e
          | .ok r => .ok (⟨c, n, s.usec⟩ :: r)

/-- TESGroupHDF5.__init__, channel_group_hdf5_only.py L56-87; the keys of the master are visited in the order `ord` puts them in -/
def openMaster (w : World) (ord : List (Int × Str) → List (Int × Str)) (mn : Str) : Except Exc (Nat × List Chan) :=
  match w.master mn with
  | none => .error .exception
  | some m => match m.nsamp with
    | none => .error .key
    | some ns => match chansOf w (ord m.links) with
      | .error e => .error e
      | .ok r => .ok (ns, r.insertionSort (fun a b => a.num ≤ b.num))

/-! ### proofs -/

theorem findTag_base (base rest : Str) (h : ¬ HasTag base) : ∀ k, findTag k (base ++ (chanTag ++ rest)) = ((k + base.length : Nat) : Int) := by
  have hj := no_straddle (rest := rest) h
  clear h
  induction base with
  | nil =>
    intro k
    rfl
  | cons c t ih =>
    intro k
    have hp : chanTag.isPrefixOf (c :: (t ++ (chanTag ++ rest))) = false := by
      cases hx : chanTag.isPrefixOf (c :: (t ++ (chanTag ++ rest))) with
      | false => rfl
      | true =>
        rw [List.isPrefixOf_iff_prefix] at hx
        exact absurd hx (hj [] (c :: t) rfl (by simp))
    rw [List.cons_append, findTag, hp]
    simp only [Bool.false_eq_true, if_false]
    rw [ih (fun a b hab hne => hj (c :: a) b (by rw [hab]; rfl) hne)]
    simp only [List.length_cons]
    omega

/-- [specification] the name of a channel's file -/
def fileOf (base : Str) (n : Nat) : Str := base ++ (chanTag ++ (decimal n ++ "_jl.hdf5".toList))

/-- C144: the channel number is the one in the file's name, if nothing before contains _chan. -/
theorem chanOf_name (base : Str) (n : Nat) (h : ¬ HasTag base) : chanOf (fileOf base n) = .ok (n : Int) := by
  unfold chanOf fileOf
  rw [findTag_base base _ h]
  have h1 : (base ++ (chanTag ++ (decimal n ++ "_jl.hdf5".toList))).length - 8 = (base ++ (chanTag ++ decimal n)).length := by
    have : ("_jl.hdf5".toList).length = 8 := by decide
    simp only [List.length_append]
    omega
  have h2 : base ++ (chanTag ++ (decimal n ++ "_jl.hdf5".toList)) = (base ++ (chanTag ++ decimal n)) ++ "_jl.hdf5".toList := by
    simp only [List.append_assoc]
  have h3 : (((0 + base.length : Nat) : Int) + 5).toNat = (base ++ chanTag).length := by
    have : chanTag.length = 5 := rfl
    simp only [List.length_append]
    omega
  rw [h1, h2, List.take_left, h3, ← List.append_assoc, List.drop_left, pyInt_digits (decimal_ne n) (fun c hc => decimal_isDigit hc), intOfDigits_decimal]

theorem takeWhile_end {α : Type} (q : α → Bool) (a : List α) (x : α) (b : List α) (ha : ∀ y ∈ a, q y = true) (hx : q x = false) : (a ++ x :: b).takeWhile q = a := by
  induction a with
  | nil => simp [hx]
  | cons y t ih => rw [List.cons_append, List.takeWhile_cons, if_pos (ha y (by simp)), ih (fun z hz => ha z (by simp [hz]))]

theorem splitext_stem (s e : Str) (c : Char) (hc : c ≠ '/') (hd : c ≠ '.') (he : ∀ x ∈ e, x ≠ '/' ∧ x ≠ '.') :
    splitext (s ++ c :: '.' :: e) = (s ++ [c], '.' :: e) := by
  have hR : (tailPart (s ++ c :: '.' :: e)).reverse = e.reverse ++ '.' :: c :: s.reverse.takeWhile (· != '/') := by
    unfold tailPart
    rw [List.reverse_reverse]
    have : (s ++ c :: '.' :: e).reverse = (e.reverse ++ ['.', c]) ++ s.reverse := by simp
    rw [this, List.takeWhile_append_of_pos]
    · simp
    · intro x hx
      simp only [List.mem_append, List.mem_reverse, List.mem_cons, List.not_mem_nil, or_false] at hx
      rcases hx with hx | rfl | rfl
      · simpa using (he x hx).1
      · decide
      · simpa using hc
  have hH : headPart (s ++ c :: '.' :: e) ++ (s.reverse.takeWhile (· != '/')).reverse = s := by
    unfold headPart
    have hl : (tailPart (s ++ c :: '.' :: e)).length = e.length + 2 + (s.reverse.takeWhile (· != '/')).length := by
      rw [← List.length_reverse, hR]
      simp
      omega
    have hs : s = (s.reverse.dropWhile (· != '/')).reverse ++ (s.reverse.takeWhile (· != '/')).reverse := by
      rw [← List.reverse_append, List.takeWhile_append_dropWhile, List.reverse_reverse]
    have hls := congrArg List.length hs
    simp only [List.length_append, List.length_reverse] at hls
    have h1 : (s ++ c :: '.' :: e).length - (tailPart (s ++ c :: '.' :: e)).length = (s.reverse.dropWhile (· != '/')).reverse.length := by
      rw [hl]
      simp only [List.length_append, List.length_cons, List.length_reverse]
      omega
    rw [h1]
    conv_lhs => rw [show s ++ c :: '.' :: e = (s.reverse.dropWhile (· != '/')).reverse ++ ((s.reverse.takeWhile (· != '/')).reverse ++ c :: '.' :: e) by
      rw [← List.append_assoc, ← hs]]
    rw [List.take_left, ← hs]
  unfold splitext
  simp only [hR]
  rw [takeWhile_end _ _ _ _ (fun x hx => by simpa using (he x (List.mem_reverse.1 hx)).2) (by decide), List.drop_left]
  simp only []
  rw [if_pos (by simp [hd])]
  rw [List.reverse_cons, ← List.append_assoc, hH, List.reverse_reverse]

/-- C144: the HDF5 file made for a channel's LJH file has the name expected. -/
theorem jlName_chan (base : Str) (n : Nat) : jlName (base ++ (chanTag ++ (decimal n ++ ".ljh".toList))) = fileOf base n := by
  obtain ⟨d, c, hdc⟩ : ∃ d c, decimal n = d ++ [c] := by
    obtain h | ⟨d, c, h⟩ := List.eq_nil_or_concat (decimal n)
    · exact absurd h (decimal_ne n)
    · exact ⟨d, c, by simpa using h⟩
  have hcd : c.isDigit = true := decimal_isDigit (n := n) (by rw [hdc]; simp)
  have e : base ++ (chanTag ++ (decimal n ++ ".ljh".toList)) = (base ++ (chanTag ++ d)) ++ c :: '.' :: "ljh".toList := by
    rw [hdc]
    simp
  unfold jlName fileOf
  rw [e, splitext_stem _ _ _ (by rintro rfl; exact absurd hcd (by decide)) (by rintro rfl; exact absurd hcd (by decide)) (by decide), hdc]
  simp

example : jlName "d.x/r_chan12.ljh".toList = "d.x/r_chan12_jl.hdf5".toList := by decide +kernel

/-- [specification] what the master file should say for the channels `ns` -/
def linksOf (base : Str) (ns : List Nat) : List (Int × Str) := ns.map (fun n : Nat => ((n : Int), fileOf base n))

theorem fileOf_inj (base : Str) {a b : Nat} (h : fileOf base a = fileOf base b) : a = b := by
  unfold fileOf at h
  have h1 := List.append_cancel_left h
  have h2 := List.append_cancel_left h1
  have h3 := List.append_cancel_right h2
  have := congrArg intOfDigits h3
  rwa [intOfDigits_decimal, intOfDigits_decimal] at this

/-- [specification] a file is complete: cleanly ended, with at least two pulses, its attribute channum missing or right -/
def complete (s : Single) (n : Nat) : Prop := s.clean = true ∧ (∃ k, s.npulse = some k ∧ 1 < k) ∧ (s.chan = none ∨ s.chan = some (n : Int))

theorem linkAll_ok (base : Str) (hb : ¬ HasTag base) (req : Bool) (mn : Str) (ns0 : Nat) : ∀ (todo done : List Nat) (w : World),
    (done ++ todo).Nodup → w.master mn = some ⟨some ns0, linksOf base done⟩ →
    (∀ n ∈ todo, ∃ s, w.single (fileOf base n) = some s ∧ complete s n) →
    ∃ w', linkAll req mn w (todo.map (fileOf base)) = (w', .ok ()) ∧ w'.master mn = some ⟨some ns0, linksOf base (done ++ todo)⟩ ∧
      (∀ n ∈ todo, w'.single (fileOf base n) = (w.single (fileOf base n)).map (fun s => { s with chan := some (n : Int) })) ∧
      (∀ p, (∀ n ∈ todo, p ≠ fileOf base n) → w'.single p = w.single p)
  | [], done, w, _, hm, _ => ⟨w, rfl, by rw [List.append_nil]; exact hm, by simp, fun _ _ => rfl⟩
  | n :: todo, done, w, hn, hm, hs => by
    obtain ⟨s, hsn, hcl, ⟨k, hk, hk1⟩, hch⟩ := hs n List.mem_cons_self
    have hnot : (n : Int) ∉ (linksOf base done).map Prod.fst := by
      intro hin
      unfold linksOf at hin
      rw [List.map_map] at hin
      obtain ⟨m, hm1, hm2⟩ := List.mem_map.1 hin
      have : m = n := by
        have : (m : Int) = n := hm2
        omega
      subst this
      exact (List.nodup_append.1 hn).2.2 m hm1 m List.mem_cons_self rfl
    have hc : some (s.chan.getD (n : Int)) = some (n : Int) := by
      rcases hch with h | h <;> rw [h] <;> rfl
    let s' : Single := { s with chan := some (n : Int) }
    let w1 : World := putM (putS w (fileOf base n) s') mn (some ⟨some ns0, linksOf base (done ++ [n])⟩)
    have hone : linkOne req mn w (fileOf base n) = (w1, .ok ()) := by
      unfold linkOne
      rw [chanOf_name base n hb]
      dsimp only
      rw [hsn]
      dsimp only
      have hcl' : (s.clean || !req) = true := by rw [hcl]; rfl
      rw [if_pos hcl']
      have hmk : ∀ (o : Option Nat) (A : World × Except Exc Unit) (B : Nat → World × Except Exc Unit), o = some k → (match o with | none => A | some n => B n) = B k := by
        intro o A B h; rw [h]
      rw [hmk _ _ _ hk, if_pos hk1, hc]
      have : (putS w (fileOf base n) s').master mn = some ⟨some ns0, linksOf base done⟩ := hm
      rw [this]
      dsimp only
      rw [if_neg hnot]
      have : linksOf base done ++ [((n : Int), fileOf base n)] = linksOf base (done ++ [n]) := by
        unfold linksOf; rw [List.map_append]; rfl
      rw [this]
    have hn' : ((done ++ [n]) ++ todo).Nodup := by rw [List.append_assoc]; exact hn
    have hnd : n ∉ todo := by
      have := (List.nodup_append.1 hn).2.1
      exact (List.nodup_cons.1 this).1
    have hother : ∀ p, p ≠ fileOf base n → w1.single p = w.single p := fun p hp => if_neg hp
    obtain ⟨w', h1, h2, h3, h4⟩ := linkAll_ok base hb req mn ns0 todo (done ++ [n]) w1 hn' (if_pos rfl) (by
      intro m hmem
      obtain ⟨t, ht, htc⟩ := hs m (List.mem_cons_of_mem _ hmem)
      refine ⟨t, ?_, htc⟩
      rw [hother, ht]
      intro he
      have := fileOf_inj base he
      subst this
      exact hnd hmem)
    refine ⟨w', ?_, ?_, ?_, ?_⟩
    · rw [List.map_cons, linkAll, hone]
      exact h1
    · rw [h2, List.append_assoc]; rfl
    · intro m hmem
      rcases List.mem_cons.1 hmem with rfl | hmt
      · rw [h4 _ (fun k hk he => hnd (by have := fileOf_inj base he; rw [this]; exact hk))]
        have : w1.single (fileOf base m) = some s' := if_pos rfl
        rw [this, hsn]; rfl
      · rw [h3 m hmt, hother]
        intro he
        have := fileOf_inj base he
        subst this
        exact hnd hmt
    · intro p hp
      rw [h4 p (fun k hk => hp k (List.mem_cons_of_mem _ hk)), hother p (hp n List.mem_cons_self)]

/-- [specification] a channel as its file has it -/
def chanIn (w : World) (base : Str) (n : Nat) : Option Chan :=
  (w.single (fileOf base n)).bind (fun s => s.npulse.map (fun k => ⟨(n : Int), k, s.usec⟩))

theorem chansOf_ok (base : Str) (w : World) : ∀ (l : List (Int × Str)) (ns : List Nat), l = linksOf base ns →
    (∀ n ∈ ns, ∃ s, w.single (fileOf base n) = some s ∧ s.chan = some (n : Int) ∧ ∃ k, s.npulse = some k) →
    ∃ r, chansOf w l = .ok r ∧ r.map some = ns.map (chanIn w base)
  | [], [], _, _ => ⟨[], rfl, rfl⟩
  | [], _ :: _, h, _ => by cases h
  | _ :: _, [], h, _ => by cases h
  | x :: l, n :: ns, h, hs => by
    have hx : x = ((n : Int), fileOf base n) ∧ l = linksOf base ns := by
      unfold linksOf at h ⊢
      rw [List.map_cons] at h
      injection h with h1 h2
      exact ⟨h1, h2⟩
    obtain ⟨r, hr, hm⟩ := chansOf_ok base w l ns hx.2 (fun m hm => hs m (List.mem_cons_of_mem _ hm))
    obtain ⟨s, h1, h2, k, h3⟩ := hs n List.mem_cons_self
    refine ⟨⟨(n : Int), k, s.usec⟩ :: r, ?_, ?_⟩
    · rw [hx.1]
      unfold chansOf
      rw [h1]
      dsimp only
      rw [h3]
      dsimp only
      rw [h2]
      dsimp only
      rw [hr]
    · rw [List.map_cons, List.map_cons, hm]
      have : chanIn w base n = some ⟨(n : Int), k, s.usec⟩ := by unfold chanIn; rw [h1]; simp [h3]
      rw [this]

/-- C144 (with an h5py which has `.value`): making a new master file from complete channel files and opening it gives a group of exactly these channels, in order of channel number, with the pulses and time stamps of their files; no file of another channel is changed. The order
in which h5py lists the links does not matter. -/
theorem master_partial (base : Str) (hb : ¬ HasTag base) (force req : Bool) (w : World) (n0 : Nat) (ns : List Nat) (s0 : Single)
    (hnd : (n0 :: ns).Nodup) (hfresh : w.master (Restore.generate (fileOf base n0)) = none ∨ force = true)
    (h0 : w.single (fileOf base n0) = some s0)
    (hs : ∀ n ∈ n0 :: ns, ∃ s, w.single (fileOf base n) = some s ∧ complete s n)
    (ord : List (Int × Str) → List (Int × Str)) (hord : ∀ l, (ord l).Perm l) :
    ∃ w', make true force req w ((n0 :: ns).map (fileOf base)) = (w', .ok (Restore.generate (fileOf base n0))) ∧
      (∀ p, (∀ n ∈ n0 :: ns, p ≠ fileOf base n) → w'.single p = w.single p) ∧
      ∃ r, openMaster w' ord (Restore.generate (fileOf base n0)) = .ok (s0.nsamp, r) ∧ r.Pairwise (fun a b => a.num ≤ b.num) ∧
        (r.map some).Perm ((n0 :: ns).map (chanIn w base)) := by
  let mn := Restore.generate (fileOf base n0)
  let w1 : World := putM (putM w mn (some ⟨none, []⟩)) mn (some ⟨some s0.nsamp, []⟩)
  have hw1 : w1.single = w.single := rfl
  obtain ⟨w', h1, h2, h3, h4⟩ := linkAll_ok base hb req mn s0.nsamp (n0 :: ns) [] w1 hnd (if_pos rfl) (by rw [hw1]; exact hs)
  refine ⟨w', ?_, h4, ?_⟩
  · have hcond : ((w.master mn).isSome && !force) = false := by
      rcases hfresh with h | h
      · rw [h]; rfl
      · rw [h]; simp
    rw [List.map_cons]
    unfold make
    dsimp only
    rw [hcond]
    simp only [Bool.false_eq_true, if_false]
    have : (putM w mn (some ⟨none, []⟩)).single (fileOf base n0) = some s0 := h0
    rw [this]
    dsimp only
    rw [← List.map_cons, h1]
    rfl
  · have hcomp : ∀ n ∈ n0 :: ns, ∃ s, w'.single (fileOf base n) = some s ∧ s.chan = some (n : Int) ∧ ∃ k, s.npulse = some k := by
      intro n hn
      obtain ⟨s, hsn, _, ⟨k, hk, _⟩, _⟩ := hs n hn
      refine ⟨{ s with chan := some (n : Int) }, ?_, rfl, k, hk⟩
      rw [h3 n hn]
      have : w1.single (fileOf base n) = some s := hsn
      rw [this]; rfl
    have hperm := hord (linksOf base (n0 :: ns))
    obtain ⟨ns', hns', hp'⟩ : ∃ ns', ord (linksOf base (n0 :: ns)) = linksOf base ns' ∧ ns'.Perm (n0 :: ns) := by
      unfold linksOf at hperm ⊢
      generalize ord (List.map (fun n : Nat => ((n : Int), fileOf base n)) (n0 :: ns)) = l at hperm
      refine ⟨l.map (fun x => x.1.toNat), ?_, ?_⟩
      · rw [List.map_map]
        symm
        have : ∀ x ∈ l, ((fun n : Nat => ((n : Int), fileOf base n)) ∘ fun x : Int × Str => x.1.toNat) x = x := by
          intro x hx
          obtain ⟨n, _, rfl⟩ := List.mem_map.1 (hperm.mem_iff.1 hx)
          rfl
        conv_rhs => rw [← List.map_id l]
        exact List.map_congr_left (fun x hx => by rw [this x hx]; rfl)
      · have := hperm.map (fun x : Int × Str => x.1.toNat)
        rw [List.map_map] at this
        have e : ((fun x : Int × Str => x.1.toNat) ∘ fun n : Nat => ((n : Int), fileOf base n)) = id := by
          funext n; rfl
        rwa [e, List.map_id] at this
    obtain ⟨r, hr, hrm⟩ := chansOf_ok base w' _ ns' hns' (fun n hn => hcomp n (hp'.mem_iff.1 hn))
    refine ⟨r.insertionSort (fun a b => a.num ≤ b.num), ?_, ?_, ?_⟩
    · unfold openMaster
      have : w'.master mn = some ⟨some s0.nsamp, linksOf base (n0 :: ns)⟩ := h2
      rw [this]
      dsimp only
      rw [hr]
    · haveI : Std.Total (fun a b : Chan => a.num ≤ b.num) := ⟨fun a b => le_total a.num b.num⟩
      haveI : IsTrans Chan (fun a b : Chan => a.num ≤ b.num) := ⟨fun a b c h1 h2 => le_trans h1 h2⟩
      exact List.pairwise_insertionSort _ r
    · refine ((List.perm_insertionSort _ r).map some).trans ?_
      rw [hrm]
      refine (hp'.map _).trans ?_
      have : ∀ n ∈ n0 :: ns, chanIn w' base n = chanIn w base n := by
        intro n hn
        unfold chanIn
        rw [h3 n hn, hw1]
        cases w.single (fileOf base n) <;> rfl
      rw [List.map_congr_left this]

/-- C144: a master file which is there is used as it is, unless a new one is forced. -/
theorem reuse (dot req : Bool) (w : World) (h0 : Str) (t : List Str) (h : (w.master (Restore.generate h0)).isSome = true) :
    make dot false req w (h0 :: t) = (w, .ok (Restore.generate h0)) := by
  unfold make
  dsimp only
  rw [h]; rfl

/-- Disagreement (C144): with h5py 3 (allowed by the package) no master file can be made: AttributeError. The file is left behind without its attributes; the next call takes it for a good one, and the group made from it is a KeyError. -/
theorem value_fails (force req : Bool) (w : World) (h0 : Str) (t : List Str) (s : Single) (hs : w.single h0 = some s)
    (hf : w.master (Restore.generate h0) = none ∨ force = true) (ord : List (Int × Str) → List (Int × Str)) :
    ∃ w', make false force req w (h0 :: t) = (w', .error .attribute) ∧
      make false false req w' (h0 :: t) = (w', .ok (Restore.generate h0)) ∧
      openMaster w' ord (Restore.generate h0) = .error .key := by
  let mn := Restore.generate h0
  refine ⟨putM w mn (some ⟨none, []⟩), ?_, ?_, ?_⟩
  · have hcond : ((w.master mn).isSome && !force) = false := by
      rcases hf with h | h
      · rw [h]; rfl
      · rw [h]; simp
    unfold make
    dsimp only
    rw [hcond]
    simp only [Bool.false_eq_true, if_false]
    have : (putM w mn (some ⟨none, []⟩)).single h0 = some s := hs
    rw [this]
    rfl
  · apply reuse
    have : (putM w mn (some ⟨none, []⟩)).master mn = some ⟨none, []⟩ := if_pos rfl
    rw [this]; rfl
  · unfold openMaster
    have : (putM w mn (some ⟨none, []⟩)).master mn = some ⟨none, []⟩ := if_pos rfl
    rw [this]

/-! ### examples and disagreements on a small world -/

/-- [specification] channels 2 and 10 complete, channel 3 not cleanly ended -/
def world : World :=
  ⟨fun p => if p = fileOf "d/r".toList 2 then some ⟨none, true, some 5, some [1000000, 2500000], 100⟩
    else if p = fileOf "d/r".toList 10 then some ⟨some 10, true, some 7, none, 100⟩
    else if p = fileOf "d/r".toList 3 then some ⟨none, false, some 9, none, 100⟩
    else if p = fileOf "x_chan/r".toList 2 then some ⟨none, true, some 5, none, 100⟩ else none, fun _ => none⟩

/-- [specification] the group made of the channels given -/
def groupOf (w : World) (ns : List Nat) : Except Exc (Nat × List Chan) :=
  match make true false true w (ns.map (fileOf "d/r".toList)) with
  | (w', .ok m) => openMaster w' (fun l => l.reverse) m
  | (_, .error e) => .error e

example : groupOf world [10, 2] = .ok (100, [⟨2, 5, some [1000000, 2500000]⟩, ⟨10, 7, none⟩]) := by decide +kernel

/-- Disagreement (C144): a file which did not end cleanly is not left out though a clean end is required: it is linked all the same, but without its channel number, and the whole group cannot be opened (KeyError). -/
theorem unclean_fails : groupOf world [2, 3] = .error .key ∧ (match groupOf world [2] with | .ok (_, r) => r.length | _ => 0) = 1 := by decide +kernel

/-- Disagreement (C144): a master file is used again though other files are asked for: after channel 2, asking for channels 2 and 10 gives channel 2 only. -/
theorem stale_fails : (let w1 := (make true false true world [fileOf "d/r".toList 2]).1
    match groupOf w1 [2, 10] with | .ok (_, r) => r.map Chan.num | _ => []) = [2] := by decide +kernel

/-- Disagreement (C144): a missing file ends the making with an exception, but leaves a master file with the links made so far, which the next call takes for good: channels after the missing one are silently left out. -/
theorem partial_fails : (let r := make true false true world ([2, 7, 10].map (fileOf "d/r".toList))
    (match r.2 with | .error .os => true | _ => false) = true ∧
    (match groupOf r.1 [2, 7, 10] with | .ok (_, c) => c.map Chan.num | _ => []) = [2]) := by decide +kernel

/-- Disagreement (C144): in a directory whose name contains _chan the channel number is looked for at the first _chan: ValueError. -/
theorem directory_fails : (match chanOf (fileOf "x_chan/r".toList 2) with | .error .value => true | _ => false) = true ∧
    parseName (fileOf "x_chan/r".toList 2) = ("x_chan/r".toList, some 2) := by decide +kernel

end Mass.Group.Master
