import Verif.Names.Props
import Verif.Algo.FiveLag
/-! The OFF files of a run, their channels, and five-lag values of OFF records, mass/off/channels.py, mass/off/fivelag.py, mass/core/ljh_util.py: C153 -/
namespace Mass.Off.Runs
open Mass Mass.Names

/-! ### The files of a run -/

/-- the set of a glob pattern up to its closing bracket, and the rest; a bracket that comes first is part of the set (Python's fnmatch, used for mass/core/ljh_util.py L202) -/
def setPart : Str → Option (Str × Str)
  | [] => none
  | ']' :: t => some ([], t)
  | c :: t => (setPart t).map (fun p => (c :: p.1, p.2))

/-- a character belongs to the set of a glob pattern: single characters and ranges (Python's fnmatch, used for mass/core/ljh_util.py L202) -/
def inSet (x : Char) : Str → Bool
  | a :: '-' :: b :: t => (decide (a.toNat ≤ x.toNat) && decide (x.toNat ≤ b.toNat)) || inSet x t
  | a :: t => a == x || inSet x t
  | [] => false

/-- one bracket expression: (the answer for a character, the rest of the pattern), or none if there is no closing bracket (Python's fnmatch, used for mass/core/ljh_util.py L202) -/
def bracket (p : Str) : Option ((Char → Bool) × Str) :=
  match p with
  | '!' :: ']' :: t => (setPart t).map (fun q => ((fun x => !inSet x (']' :: q.1)), q.2))
  | '!' :: t => (setPart t).map (fun q => ((fun x => !inSet x q.1), q.2))
  | ']' :: t => (setPart t).map (fun q => ((fun x => inSet x (']' :: q.1)), q.2))
  | t => (setPart t).map (fun q => ((fun x => inSet x q.1), q.2))

/-- what follows a star in a glob pattern fits some end of the name that is reached without a slash (Python's glob, used for mass/core/ljh_util.py L202) -/
def star (rest : Str → Bool) : Str → Bool
  | [] => rest []
  | c :: t => rest (c :: t) || (c != '/' && star rest t)

/-- `glob.glob(pattern)` for one name, mass/core/ljh_util.py L202: wildcards stay inside one part of the path. Simplified: names beginning with a dot are not special; the file system gives the
names in the form of the pattern. `fuel` is more than the length of the pattern. -/
def globMatch : Nat → Str → Str → Bool
  | 0, _, _ => false
  | n + 1, p, s => match p, s with
    | [], [] => true
    | [], _ :: _ => false
    | '*' :: p, s => star (globMatch n p) s
    | '?' :: p, c :: t => c != '/' && globMatch n p t
    | '[' :: p, c :: t => match bracket p with
      | some (ok, rest) => c != '/' && ok c && globMatch n rest t
      | none => c == '[' && globMatch n p t
    | a :: p, c :: t => a == c && globMatch n p t
    | _ :: _, [] => false

/-- Python's `z[:k]` (used for mass/off/channels.py L1104) -/
def upTo {α : Type} (k : Int) (z : List α) : List α := if 0 ≤ k then z.take k.toNat else z.take (z.length - (-k).toNat)

/-- the text after the base name in the pattern (mass/off/channels.py L1100) -/
def pat : Str := "_chan*.off".toList

/-- `getOffFileListFromOneFile`, mass/off/channels.py L1098-1105, for the names `disk` that exist -/
def offFiles (isdir : Str → Bool) (disk : List Str) (filename : Str) (maxChans : Option Int) : Except Exc (List Str) :=
  match basenameChannum isdir filename with
  | .error x => .error x
  | .ok (base, _) =>
    match sortNames (fun f => (parseName f).2) (disk.filter (fun f => globMatch ((base ++ pat).length + 1) (base ++ pat) f)) none with
    | .error x => .error x
    | .ok none => .error .exception
    | .ok (some z) => .ok (match maxChans with | none => z | some m => upTo (min m z.length) z)

/-- `d[k] = v` for an ordered dictionary: a key keeps its place (used for mass/off/channels.py L1177-1178) -/
def put {κ V : Type} [DecidableEq κ] (d : List (κ × V)) (k : κ) (v : V) : List (κ × V) :=
  if d.any (fun p => p.1 == k) then d.map (fun p => if p.1 == k then (k, v) else p) else d ++ [(k, v)]

/-- `loadChannels`, mass/off/channels.py L1173-1181: the dictionary of channels by the number in the file name (possibly None); `openOff` opens one file -/
def loadChannels {C : Type} (openOff : Str → Except Exc C) : List Str → List (Option Nat × C) → Except Exc (List (Option Nat × C))
  | [], d => .ok d
  | f :: fs, d => match openOff f with
    | .error x => .error x
    | .ok c => loadChannels openOff fs (put d (parseName f).2 c)

/-- `shortName` and `outputHDF5Filename` of a group, mass/off/channels.py L1157-1160, L1362-1365: the number of channels is cut off again at the first blank -/
def outputName (isdir : Str → Bool) (first : Str) (nchan : Nat) (dir add : Str) : Except Exc Str :=
  match basenameChannum isdir first with
  | .error x => .error x
  | .ok (base, _) => let short := (pathSplit base).2 ++ ' ' :: decimal nchan ++ " chans".toList
    .ok (pathJoin dir (short.takeWhile (· != ' ') ++ '_' :: add ++ ".hdf5".toList))

/-! ### Five-lag values -/
section
variable {K : Type} [Field K] [DecidableEq K]

/-- row `i` of `filter_5lag_fit_in_basis`, mass/off/fivelag.py L14-18: the parabola through the five products of one basis vector -/
def fitInBasis {b : Nat} (filter : List K) (basis : List (Fin b → K)) (i : Fin b) : K × K × K :=
  Algo.parabola ⟨Algo.lagInBasis filter basis 0 i, Algo.lagInBasis filter basis 1 i, Algo.lagInBasis filter basis 2 i, Algo.lagInBasis filter basis 3 i, Algo.lagInBasis filter basis 4 i⟩

/-- the recipe cba5Lag for one record, mass/off/channels.py L845-848, mass/off/recipe_classes.py L28-32: coefs @ filter_5lag_fit_in_basis -/
def cba {b : Nat} (filter : List K) (basis : List (Fin b → K)) (coefs : Fin b → K) : K × K × K :=
  (∑ i, coefs i * (fitInBasis filter basis i).1, ∑ i, coefs i * (fitInBasis filter basis i).2.1, ∑ i, coefs i * (fitInBasis filter basis i).2.2)

/-- a recipe: the numbers it gives for the coefficients of one record (used for mass/off/channels.py L844-850) -/
abbrev Rcp (K : Type) (b : Nat) := (Fin b → K) → List K

/-- a channel of OFF records: number, mark, basis, recipes by name (used for mass/off/channels.py L844-850, L1162-1171) -/
structure Chan (K : Type) (b : Nat) where
  channum : Nat
  bad : Bool
  basis : List (Fin b → K)
  recipes : List (String × Rcp K b)

/-- `recipes.add` without overwrite, mass/off/util.py L85-88: AssertionError for a name in use -/
def addRecipe {b : Nat} (c : Chan K b) (name : String) (r : Rcp K b) : Except Exc (Chan K b) :=
  if c.recipes.any (fun p => p.1 == name) then .error .assertion else .ok { c with recipes := c.recipes ++ [(name, r)] }

/-- `add5LagRecipes` of a channel, mass/off/channels.py L844-850: the channel afterwards and whether it raised; matmul raises ValueError if the filter does not have four values fewer than
the basis -/
def addFive {b : Nat} (c : Chan K b) (f : List K) : Chan K b × Option Exc :=
  if c.basis.length ≠ f.length + 4 then (c, some .value)
  else match addRecipe c "cba5Lag" (fun x => [(cba f c.basis x).1, (cba f c.basis x).2.1, (cba f c.basis x).2.2]) with
    | .error x => (c, some x)
    | .ok c1 => match addRecipe c1 "filtValue5Lag" (fun x => [Algo.peakY (cba f c.basis x)]) with
      | .error x => (c1, some x)
      | .ok c2 => match addRecipe c2 "peakX5Lag" (fun x => [Algo.peakX (cba f c.basis x)]) with
        | .error x => (c2, some x)
        | .ok c3 => (c3, none)

/-- the dictionary of models of a file, mass/off/channels.py L1163-1164: ValueError for a name that is no number; here the filter of each model -/
def readModels : List (Str × List K) → List (Int × List K) → Except Exc (List (Int × List K))
  | [], d => .ok d
  | (k, f) :: t, d => match pyInt k with
    | .error x => .error x
    | .ok n => readModels t (put d n f)

/-- the loop of `add5LagRecipes` of a group, mass/off/channels.py L1165-1170: good channels in order, KeyError for a channel without model -/
def fiveLoop {b : Nat} (models : List (Int × List K)) : List (Chan K b) → List (Chan K b) × Option Exc
  | [] => ([], none)
  | c :: cs =>
    if c.bad then ((c :: (fiveLoop models cs).1), (fiveLoop models cs).2)
    else match models.find? (fun p => p.1 == (c.channum : Int)) with
      | none => (c :: cs, some .key)
      | some p => match addFive c p.2 with
        | (c', some x) => (c' :: cs, some x)
        | (c', none) => ((c' :: (fiveLoop models cs).1), (fiveLoop models cs).2)

/-- `add5LagRecipes` of a group, mass/off/channels.py L1162-1171 -/
def addFiveGroup {b : Nat} (file : List (Str × List K)) (g : List (Chan K b)) : List (Chan K b) × Option Exc :=
  match readModels file [] with
  | .error x => (g, some x)
  | .ok models => fiveLoop models g

/-- the basis as saved by `toHDF5` for inverted data, mass/core/pulse_model.py L56-59: every component but the first is negated -/
def inverted {b : Nat} (basis : List (Fin (b + 1) → K)) : List (Fin (b + 1) → K) := basis.map (fun r i => if i = 0 then r i else -r i)

end

/-! ### Which files belong to a run -/

/-- no character with a meaning in glob patterns [specification] -/
def Plain (s : Str) : Prop := ∀ c ∈ s, c ≠ '*' ∧ c ≠ '?' ∧ c ≠ '['

theorem glob_plain {p : Str} (hp : Plain p) (q s : Str) (n : Nat) : globMatch (n + p.length) (p ++ q) s = true ↔ ∃ t, s = p ++ t ∧ globMatch n q t = true := by
  induction p generalizing s n with
  | nil => simp
  | cons a p ih =>
    obtain ⟨h1, h2, h3⟩ := hp a (by simp)
    have hp' : Plain p := fun c hc => hp c (by simp [hc])
    rw [List.length_cons, ← Nat.add_assoc]
    cases s with
    | nil => simp [globMatch, h1]
    | cons c t =>
      have : globMatch (n + p.length + 1) (a :: (p ++ q)) (c :: t) = (a == c && globMatch (n + p.length) (p ++ q) t) := by
        rw [globMatch] <;> simp [h1, h2, h3]
      rw [List.cons_append, this, Bool.and_eq_true, ih hp' t n]
      constructor
      · rintro ⟨e, u, rfl, hu⟩
        have e' : a = c := by simpa using e
        exact ⟨u, by simp [e'], hu⟩
      · rintro ⟨u, e, hu⟩
        simp only [List.cons_append, List.cons.injEq] at e
        exact ⟨by simp [e.1], u, e.2, hu⟩

theorem glob_literal {p : Str} (hp : Plain p) (s : Str) (n : Nat) (hn : p.length < n) : globMatch n p s = true ↔ s = p := by
  have h := glob_plain hp [] s (n - p.length)
  rw [List.append_nil, Nat.sub_add_cancel hn.le] at h
  rw [h]
  obtain ⟨m, hm⟩ : ∃ m, n - p.length = m + 1 := ⟨n - p.length - 1, by omega⟩
  rw [hm]
  constructor
  · rintro ⟨t, rfl, ht⟩
    cases t with
    | nil => simp
    | cons c t => simp [globMatch] at ht
  · rintro rfl
    exact ⟨[], by simp, by simp [globMatch]⟩

theorem star_literal {p : Str} (hp : Plain p) (s : Str) (n : Nat) (hn : p.length < n) : star (globMatch n p) s = true ↔ ∃ w, s = w ++ p ∧ '/' ∉ w := by
  induction s with
  | nil =>
    rw [star, glob_literal hp _ _ hn]
    constructor
    · rintro h; exact ⟨[], by simp [← h], by simp⟩
    · rintro ⟨w, h, -⟩
      have := congrArg List.length h
      simp only [List.length_nil, List.length_append] at this
      exact (List.length_eq_zero_iff.1 (by omega : p.length = 0)).symm
  | cons c t ih =>
    rw [star, Bool.or_eq_true, Bool.and_eq_true, glob_literal hp _ _ hn, ih]
    constructor
    · rintro (h | ⟨h1, w, rfl, h2⟩)
      · exact ⟨[], by simp [h], by simp⟩
      · exact ⟨c :: w, by simp, by simp only [List.mem_cons, not_or]; exact ⟨fun e => by simp [← e] at h1, h2⟩⟩
    · rintro ⟨w, h1, h2⟩
      cases w with
      | nil => exact .inl (by simpa using h1)
      | cons d w =>
        simp only [List.cons_append, List.cons.injEq] at h1
        simp only [List.mem_cons, not_or] at h2
        refine .inr ⟨?_, w, h1.2, h2.2⟩
        rw [h1.1]
        simp only [bne_iff_ne, ne_eq]
        exact fun e => h2.1 e.symm

/-- the names that the pattern of a run fits: the base name, "_chan", anything without a slash, ".off" -/
theorem glob_run {base : Str} (hb : Plain base) (f : Str) : globMatch ((base ++ pat).length + 1) (base ++ pat) f = true ↔ ∃ w, f = base ++ "_chan".toList ++ w ++ ".off".toList ∧ '/' ∉ w := by
  have hpat : pat = "_chan".toList ++ ('*' :: ".off".toList) := by decide
  have h5 : Plain (base ++ "_chan".toList) := by
    intro c hc
    rcases List.mem_append.1 hc with h | h
    · exact hb c h
    · have : Plain "_chan".toList := by unfold Plain; decide
      exact this c h
  have hlen : (base ++ pat).length + 1 = 6 + (base ++ "_chan".toList).length := by
    have e1 : "_chan".toList.length = 5 := by decide
    have e2 : pat.length = 10 := by decide
    rw [List.length_append, List.length_append, e1, e2]
    omega
  rw [hlen, hpat, ← List.append_assoc, glob_plain h5]
  have hoff : Plain ".off".toList := by unfold Plain; decide
  have hs : ∀ t, globMatch 6 ('*' :: ".off".toList) t = true ↔ ∃ w, t = w ++ ".off".toList ∧ '/' ∉ w := by
    intro t
    have h4 : (".off".toList).length < 5 := by decide
    rw [← star_literal hoff t 5 h4, globMatch]
  constructor
  · rintro ⟨t, rfl, ht⟩
    obtain ⟨w, rfl, hw⟩ := (hs t).1 ht
    exact ⟨w, by simp, hw⟩
  · rintro ⟨w, rfl, hw⟩
    exact ⟨w ++ ".off".toList, by simp, (hs _).2 ⟨w, rfl, hw⟩⟩

/-- C153. Opening a run by one of its files: all files with the base name of that file, "_chan" and ".off" and no others, by increasing channel number; with maxChans the first of them.
Without any there is an exception. For base names without characters special to glob, and if all these files have a channel number. -/
theorem files_spec {isdir : Str → Bool} {filename base : Str} {ch : Option Nat} (hb : basenameChannum isdir filename = .ok (base, ch)) (hp : Plain base) (disk : List Str)
    (hch : ∀ f ∈ disk, (∃ w, f = base ++ "_chan".toList ++ w ++ ".off".toList ∧ '/' ∉ w) → (parseName f).2.isSome) :
    ((¬ ∃ f ∈ disk, ∃ w, f = base ++ "_chan".toList ++ w ++ ".off".toList ∧ '/' ∉ w) → ∀ m, offFiles isdir disk filename m = .error .exception) ∧
    ((∃ f ∈ disk, ∃ w, f = base ++ "_chan".toList ++ w ++ ".off".toList ∧ '/' ∉ w) →
      ∃ z, offFiles isdir disk filename none = .ok z ∧ (∀ f, f ∈ z ↔ f ∈ disk ∧ ∃ w, f = base ++ "_chan".toList ++ w ++ ".off".toList ∧ '/' ∉ w) ∧
        (∀ f, z.count f ≤ disk.count f) ∧ z.Pairwise (ChanLe (fun f => (parseName f).2)) ∧ ∀ m : Nat, offFiles isdir disk filename (some m) = .ok (z.take m)) := by
  have hmem : ∀ f, f ∈ disk.filter (fun f => globMatch ((base ++ pat).length + 1) (base ++ pat) f) ↔ f ∈ disk ∧ ∃ w, f = base ++ "_chan".toList ++ w ++ ".off".toList ∧ '/' ∉ w := by
    intro f
    rw [List.mem_filter, glob_run hp]
  constructor
  · intro h m
    have : disk.filter (fun f => globMatch ((base ++ pat).length + 1) (base ++ pat) f) = [] := by
      rw [List.eq_nil_iff_forall_not_mem]
      intro f hf
      exact h ⟨f, (hmem f).1 hf⟩
    unfold offFiles
    rw [hb]
    dsimp only
    rw [this, (sort_names_other _ [] none).1]
  · rintro ⟨f, hf, hw⟩
    have hne : disk.filter (fun f => globMatch ((base ++ pat).length + 1) (base ++ pat) f) ≠ [] := by
      intro h
      have := (hmem f).2 ⟨hf, hw⟩
      rw [h] at this
      cases this
    obtain ⟨z, h1, h2, h3⟩ := sort_names_spec (ch := fun f => (parseName f).2) hne (fun g hg => hch g ((hmem g).1 hg).1 ((hmem g).1 hg).2)
    refine ⟨z, ?_, fun g => ?_, fun g => ?_, h3, fun m => ?_⟩
    · unfold offFiles
      rw [hb]
      dsimp only
      rw [h1]
    · rw [h2.mem_iff, hmem]
    · rw [h2.count_eq]
      exact List.Sublist.count_le g List.filter_sublist
    · unfold offFiles
      rw [hb]
      dsimp only
      rw [h1]
      dsimp only
      congr 1
      unfold upTo
      rw [if_pos (by omega)]
      rcases Nat.le_total m z.length with h | h
      · rw [show (min (m : Int) z.length).toNat = m by omega]
      · rw [show (min (m : Int) z.length).toNat = z.length by omega, List.take_length, List.take_of_length_le h]

theorem mem_put {κ V : Type} [DecidableEq κ] (d : List (κ × V)) (k : κ) (v : V) (k' : κ) (v' : V) (hd : (d.map Prod.fst).Nodup) :
    ((k', v') ∈ put d k v ↔ (k' = k ∧ v' = v) ∨ (k' ≠ k ∧ (k', v') ∈ d)) ∧ ((put d k v).map Prod.fst).Nodup ∧ (k ∈ d.map Prod.fst → (put d k v).map Prod.fst = d.map Prod.fst) ∧
      (k ∉ d.map Prod.fst → put d k v = d ++ [(k, v)]) := by
  unfold put
  by_cases h : d.any (fun p => p.1 == k) = true
  · rw [if_pos h]
    obtain ⟨p, hp, hk⟩ := List.any_eq_true.1 h
    have hk' : p.1 = k := by simpa using hk
    have hkeys : (d.map (fun p => if p.1 == k then (k, v) else p)).map Prod.fst = d.map Prod.fst := by
      rw [List.map_map]
      refine List.map_congr_left (fun q _ => ?_)
      by_cases hq : q.1 = k <;> simp [hq]
    refine ⟨?_, by rw [hkeys]; exact hd, fun _ => hkeys, fun hn => absurd (List.mem_map.2 ⟨p, hp, hk'⟩) hn⟩
    rw [List.mem_map]
    constructor
    · rintro ⟨q, hq, he⟩
      by_cases hqk : q.1 = k
      · rw [if_pos (by simp [hqk])] at he
        cases he
        exact .inl ⟨rfl, rfl⟩
      · rw [if_neg (by simp [hqk])] at he
        subst he
        exact .inr ⟨hqk, hq⟩
    · rintro (⟨rfl, rfl⟩ | ⟨hn, hq⟩)
      · exact ⟨p, hp, by rw [if_pos hk]⟩
      · exact ⟨(k', v'), hq, by rw [if_neg (by simp [hn])]⟩
  · rw [if_neg h]
    have hn : k ∉ d.map Prod.fst := by
      intro hm
      obtain ⟨p, hp, he⟩ := List.mem_map.1 hm
      exact h (List.any_eq_true.2 ⟨p, hp, by simp [he]⟩)
    refine ⟨?_, ?_, fun hm => absurd hm hn, fun _ => rfl⟩
    · simp only [List.mem_append, List.mem_singleton, Prod.mk.injEq]
      constructor
      · rintro (hq | hq)
        · exact .inr ⟨fun e => hn (e ▸ List.mem_map.2 ⟨_, hq, rfl⟩), hq⟩
        · exact .inl hq
      · rintro (hq | ⟨-, hq⟩)
        · exact .inr hq
        · exact .inl hq
    · rw [List.map_append, List.map_cons, List.map_nil, List.nodup_append]
      refine ⟨hd, by simp, ?_⟩
      intro a ha b hb
      simp only [List.mem_singleton] at hb
      subst hb
      exact fun e => hn (e ▸ ha)

theorem load_general {C : Type} (openOff : Str → Except Exc C) (fs : List Str) (d0 d : List (Option Nat × C)) (hd : (d0.map Prod.fst).Nodup) (h : loadChannels openOff fs d0 = .ok d) :
    (d.map Prod.fst).Nodup ∧ ∀ k c, (k, c) ∈ d ↔ (∃ pre f post, fs = pre ++ f :: post ∧ (parseName f).2 = k ∧ openOff f = .ok c ∧ ∀ g ∈ post, (parseName g).2 ≠ k) ∨
      ((k, c) ∈ d0 ∧ ∀ g ∈ fs, (parseName g).2 ≠ k) := by
  induction fs generalizing d0 with
  | nil =>
    simp only [loadChannels, Except.ok.injEq] at h
    subst h
    exact ⟨hd, fun k c => by simp⟩
  | cons f fs ih =>
    unfold loadChannels at h
    cases ho : openOff f with
    | error x => rw [ho] at h; cases h
    | ok a =>
      rw [ho] at h
      dsimp only at h
      obtain ⟨h1, h2⟩ := ih _ (mem_put d0 (parseName f).2 a none a hd).2.1 h
      refine ⟨h1, fun k c => ?_⟩
      rw [h2, (mem_put d0 (parseName f).2 a k c hd).1]
      constructor
      · rintro (⟨pre, g, post, rfl, e1, e2, e3⟩ | ⟨⟨rfl, rfl⟩ | ⟨hn, hm⟩, hall⟩)
        · exact .inl ⟨f :: pre, g, post, rfl, e1, e2, e3⟩
        · exact .inl ⟨[], f, fs, rfl, rfl, ho, hall⟩
        · refine .inr ⟨hm, fun g hg => ?_⟩
          rcases List.mem_cons.1 hg with rfl | hg
          · exact fun e => hn e.symm
          · exact hall g hg
      · rintro (⟨pre, g, post, e0, e1, e2, e3⟩ | ⟨hm, hall⟩)
        · cases pre with
          | nil =>
            simp only [List.nil_append, List.cons.injEq] at e0
            obtain ⟨rfl, rfl⟩ := e0
            rw [ho] at e2
            cases e2
            exact .inr ⟨.inl ⟨e1.symm, rfl⟩, e3⟩
          | cons p pre =>
            simp only [List.cons_append, List.cons.injEq] at e0
            exact .inl ⟨pre, g, post, e0.2, e1, e2, e3⟩
        · exact .inr ⟨.inr ⟨fun e => hall f (by simp) e.symm, hm⟩, fun g hg => hall g (by simp [hg])⟩

/-- C153. A group has one channel for each channel number among its files, made from the last file with that number. -/
theorem load_spec {C : Type} (openOff : Str → Except Exc C) (fs : List Str) (d : List (Option Nat × C)) (h : loadChannels openOff fs [] = .ok d) :
    (d.map Prod.fst).Nodup ∧ ∀ k c, (k, c) ∈ d ↔ ∃ pre f post, fs = pre ++ f :: post ∧ (parseName f).2 = k ∧ openOff f = .ok c ∧ ∀ g ∈ post, (parseName g).2 ≠ k := by
  obtain ⟨h1, h2⟩ := load_general openOff fs [] d (by simp) h
  exact ⟨h1, fun k c => by rw [h2]; simp⟩

/-- C153. If the files have different channel numbers, no file is lost and the channels are in the order of the files. -/
theorem load_distinct {C : Type} (openOff : Str → Except Exc C) (fs : List Str) (hd : (fs.map (fun f => (parseName f).2)).Nodup) (cs : List C) (ho : fs.map openOff = cs.map .ok) :
    loadChannels openOff fs [] = .ok ((fs.map (fun f => (parseName f).2)).zip cs) := by
  have : ∀ (fs : List Str) (cs : List C) (d : List (Option Nat × C)), (d.map Prod.fst ++ fs.map (fun f => (parseName f).2)).Nodup → fs.map openOff = cs.map .ok →
      loadChannels openOff fs d = .ok (d ++ (fs.map (fun f => (parseName f).2)).zip cs) := by
    intro fs
    induction fs with
    | nil => intro cs d _ _; simp [loadChannels]
    | cons f fs ih =>
      intro cs d hn ho
      cases cs with
      | nil => simp at ho
      | cons c cs =>
        simp only [List.map_cons, List.cons.injEq] at ho
        unfold loadChannels
        rw [ho.1]
        dsimp only
        have hdn : (d.map Prod.fst).Nodup := (List.nodup_append.1 hn).1
        have hk : (parseName f).2 ∉ d.map Prod.fst := by
          intro hm
          exact (List.nodup_append.1 hn).2.2 _ hm _ (by simp) rfl
        rw [(mem_put d _ c none c hdn).2.2.2 hk, ih cs _ (by simpa using hn) ho.2]
        simp
  simpa using this fs cs [] (by simpa using hd) ho

/-! ### Five-lag values of OFF records -/
section
variable {K : Type} [Field K] [DecidableEq K]

theorem cba_eq {b : Nat} {filter : List K} {basis : List (Fin b → K)} (x : Fin b → K) : cba filter basis x = Algo.parabola (Algo.lagFromCoefs filter basis x) := by
  unfold cba fitInBasis Algo.parabola Algo.lagFromCoefs
  simp only [Finset.sum_mul, ← Finset.sum_add_distrib]
  refine Prod.ext ?_ (Prod.ext ?_ ?_) <;> dsimp only <;> refine Finset.sum_congr rfl (fun i _ => ?_) <;> ring

/-- C153. The recipes added for a filter: the parabola, its height and place are those that the five-lag filter of data sets (C32) finds in the record modelled by the coefficients. -/
theorem five_spec {b : Nat} (c : Chan K b) (f : List K) (hl : c.basis.length = f.length + 4) (hnew : ∀ p ∈ c.recipes, p.1 ≠ "cba5Lag" ∧ p.1 ≠ "filtValue5Lag" ∧ p.1 ≠ "peakX5Lag") :
    ∃ r1 r2 r3, addFive c f = ({ c with recipes := c.recipes ++ [("cba5Lag", r1), ("filtValue5Lag", r2), ("peakX5Lag", r3)] }, none) ∧
      ∀ x, ∃ v, Algo.lagDirect f (Algo.modelled c.basis x) = .ok v ∧ r1 x = [(Algo.parabola v).1, (Algo.parabola v).2.1, (Algo.parabola v).2.2] ∧
        r2 x = [Algo.peakY (Algo.parabola v)] ∧ r3 x = [Algo.peakX (Algo.parabola v)] := by
  have hfree : ∀ n : String, (∀ p ∈ c.recipes, p.1 ≠ n) → c.recipes.any (fun p => p.1 == n) = false := by
    intro n hn
    rw [List.any_eq_false]
    intro p hp
    simpa using hn p hp
  refine ⟨fun x => [(cba f c.basis x).1, (cba f c.basis x).2.1, (cba f c.basis x).2.2], fun x => [Algo.peakY (cba f c.basis x)], fun x => [Algo.peakX (cba f c.basis x)], ?_, fun x => ?_⟩
  · unfold addFive
    rw [if_neg (by simp [hl])]
    unfold addRecipe
    rw [if_neg (by rw [hfree _ (fun p hp => (hnew p hp).1)]; decide)]
    dsimp only
    rw [if_neg (by rw [List.any_append, hfree _ (fun p hp => (hnew p hp).2.1)]; simp)]
    dsimp only
    rw [if_neg (by rw [List.any_append, List.any_append, hfree _ (fun p hp => (hnew p hp).2.2)]; simp)]
    simp
  · have hm : (Algo.modelled c.basis x).length = f.length + 4 := by simp [Algo.modelled, hl]
    refine ⟨_, Algo.direct_eq_lags hm, ?_, ?_, ?_⟩ <;> dsimp only <;> rw [cba_eq, Algo.coefs_eq_lags x hl]

/-- C153. Disagreement (C153): five-lag recipes cannot be made again: a channel that has them refuses, with another filter as well. -/
theorem again_fails {b : Nat} (c : Chan K b) (f : List K) (hl : c.basis.length = f.length + 4) (h : ∃ p ∈ c.recipes, p.1 = "cba5Lag") : addFive c f = (c, some .assertion) := by
  unfold addFive addRecipe
  rw [if_neg (by simp [hl]), if_pos]
  obtain ⟨p, hp, he⟩ := h
  exact List.any_eq_true.2 ⟨p, hp, by simp [he]⟩

theorem read_models (ns : List Nat) (f : Nat → List K) (d : List (Int × List K)) (hn : (d.map Prod.fst ++ ns.map (fun n : Nat => (n : Int))).Nodup) :
    readModels (ns.map (fun n => (decimal n, f n))) d = .ok (d ++ ns.map (fun n : Nat => ((n : Int), f n))) := by
  induction ns generalizing d with
  | nil => simp [readModels]
  | cons n ns ih =>
    rw [List.map_cons]
    unfold readModels
    rw [pyInt_digits (decimal_ne n) (fun c hc => decimal_isDigit hc), intOfDigits_decimal]
    dsimp only
    have hdn : (d.map Prod.fst).Nodup := (List.nodup_append.1 hn).1
    have hk : (n : Int) ∉ d.map Prod.fst := by
      intro hm
      exact (List.nodup_append.1 hn).2.2 _ hm _ (by simp) rfl
    rw [(mem_put d _ (f n) 0 [] hdn).2.2.2 hk, ih _ (by simpa using hn)]
    simp

theorem find_model (ns : List Nat) (f : Nat → List K) (k : Nat) :
    (ns.map (fun n : Nat => ((n : Int), f n))).find? (fun p => p.1 == (k : Int)) = if k ∈ ns then some ((k : Int), f k) else none := by
  induction ns with
  | nil => simp
  | cons n ns ih =>
    rw [List.map_cons, List.find?_cons]
    by_cases h : n = k
    · subst h; simp
    · have h1 : ((n : Int) == (k : Int)) = false := by simpa using h
      dsimp only
      rw [h1]
      dsimp only
      rw [ih]
      simp [Ne.symm h]

/-- C153. Five-lag recipes of a group from a file of models by channel number: each good channel gets those of the filter of its own number, bad ones stay as they are. -/
theorem group_five {b : Nat} (ns : List Nat) (hns : ns.Nodup) (f : Nat → List K) (g : List (Chan K b))
    (hg : ∀ c ∈ g, c.bad = false → c.channum ∈ ns ∧ c.basis.length = (f c.channum).length + 4 ∧ ∀ p ∈ c.recipes, p.1 ≠ "cba5Lag" ∧ p.1 ≠ "filtValue5Lag" ∧ p.1 ≠ "peakX5Lag") :
    addFiveGroup (ns.map (fun n => (decimal n, f n))) g = (g.map (fun c => if c.bad then c else (addFive c (f c.channum)).1), none) := by
  unfold addFiveGroup
  rw [read_models ns f [] (by simpa using hns.map (fun a b h => by simpa using h))]
  dsimp only
  rw [List.nil_append]
  induction g with
  | nil => rfl
  | cons c g ih =>
    have ih' := ih (fun c hc => hg c (by simp [hc]))
    unfold fiveLoop
    rw [ih']
    cases hb : c.bad with
    | true => simp [hb]
    | false =>
      obtain ⟨h1, h2, h3⟩ := hg c (by simp) hb
      obtain ⟨r1, r2, r3, h4, -⟩ := five_spec c (f c.channum) h2 h3
      rw [find_model, if_pos h1]
      simp [hb, h4]

/-- C153. Disagreement (C153): one good channel without model ends the call with KeyError; the channels before it have their recipes, those after it have none. -/
theorem missing_fails {b : Nat} (ns : List Nat) (hns : ns.Nodup) (f : Nat → List K) (pre post : List (Chan K b)) (c : Chan K b) (hc : c.bad = false) (hm : c.channum ∉ ns)
    (hg : ∀ c ∈ pre, c.bad = false → c.channum ∈ ns ∧ c.basis.length = (f c.channum).length + 4 ∧ ∀ p ∈ c.recipes, p.1 ≠ "cba5Lag" ∧ p.1 ≠ "filtValue5Lag" ∧ p.1 ≠ "peakX5Lag") :
    addFiveGroup (ns.map (fun n => (decimal n, f n))) (pre ++ c :: post) = (pre.map (fun c => if c.bad then c else (addFive c (f c.channum)).1) ++ c :: post, some .key) := by
  unfold addFiveGroup
  rw [read_models ns f [] (by simpa using hns.map (fun a b h => by simpa using h))]
  dsimp only
  rw [List.nil_append]
  induction pre with
  | nil =>
    rw [List.nil_append]
    unfold fiveLoop
    rw [find_model, if_neg hm]
    simp [hc]
  | cons d pre ih =>
    have ih' := ih (fun c hc => hg c (by simp [hc]))
    rw [List.cons_append]
    unfold fiveLoop
    rw [ih']
    cases hb : d.bad with
    | true => simp [hb]
    | false =>
      obtain ⟨h1, h2, h3⟩ := hg d (by simp) hb
      obtain ⟨r1, r2, r3, h4, -⟩ := five_spec d (f d.channum) h2 h3
      rw [find_model, if_pos h1]
      simp [hb, h4]

theorem lag_linear {b : Nat} (filter : List K) (basis : List (Fin b → K)) (x : Fin b → K) (j : Nat) :
    Algo.lag filter (Algo.modelled basis x) j = ∑ k : Fin filter.length, filter[k] * ((basis[(k : Nat) + j]?).map (fun r => ∑ i, r i * x i)).getD 0 := by
  unfold Algo.lag Algo.modelled
  simp

/-- C153. Disagreement (C153): for models saved from inverted data (C49) all pulse heights come out negative: with the basis saved and the same coefficients, the height is the negative of the
right one, for every filter blind to constants and a basis whose first vector is constant. -/
theorem inverted_fails {b : Nat} (f : List K) (basis : List (Fin (b + 1) → K)) (hl : basis.length = f.length + 4) (hsum : f.sum = 0) (hc : ∀ r ∈ basis, r 0 = 1) (x : Fin (b + 1) → K) :
    Algo.peakY (cba f (inverted basis) x) = -Algo.peakY (cba f basis x) ∧ Algo.peakX (cba f (inverted basis) x) = Algo.peakX (cba f basis x) := by
  have hl' : (inverted basis).length = f.length + 4 := by simp [inverted, hl]
  have hlag : ∀ j, j ≤ 4 → Algo.lag f (Algo.modelled (inverted basis) x) j = -Algo.lag f (Algo.modelled basis x) j := by
    intro j hj
    rw [lag_linear, lag_linear]
    have hs : ∑ k : Fin f.length, f[k] = 0 := by rw [← hsum]; exact Fin.sum_univ_getElem f
    have : ∀ k : Fin f.length, f[k] * (((inverted basis)[(k : Nat) + j]?).map (fun r => ∑ i, r i * x i)).getD 0 =
        -(f[k] * ((basis[(k : Nat) + j]?).map (fun r => ∑ i, r i * x i)).getD 0) + f[k] * (2 * x 0) := by
      intro k
      have hk : (k : Nat) + j < basis.length := by omega
      have e1 : (inverted basis)[(k : Nat) + j]? = some (fun i => if i = 0 then basis[(k : Nat) + j] i else -basis[(k : Nat) + j] i) := by
        unfold inverted
        rw [List.getElem?_map, List.getElem?_eq_getElem hk]
        rfl
      rw [e1, List.getElem?_eq_getElem hk]
      simp only [Option.map_some, Option.getD_some]
      rw [Fin.sum_univ_succ, Fin.sum_univ_succ (fun i => basis[(k : Nat) + j] i * x i)]
      simp only [if_true, Fin.succ_ne_zero, if_false, neg_mul, Finset.sum_neg_distrib, hc _ (List.getElem_mem hk)]
      ring
    rw [Finset.sum_congr rfl (fun k _ => this k), Finset.sum_add_distrib, ← Finset.sum_mul, hs, Finset.sum_neg_distrib]
    ring
  rw [cba_eq, cba_eq, Algo.coefs_eq_lags x hl, Algo.coefs_eq_lags x hl', hlag 0 (by omega), hlag 1 (by omega), hlag 2 (by omega), hlag 3 (by omega), hlag 4 (by omega)]
  generalize Algo.lag f (Algo.modelled basis x) 0 = l0
  generalize Algo.lag f (Algo.modelled basis x) 1 = l1
  generalize Algo.lag f (Algo.modelled basis x) 2 = l2
  generalize Algo.lag f (Algo.modelled basis x) 3 = l3
  generalize Algo.lag f (Algo.modelled basis x) 4 = l4
  have hp : Algo.parabola (⟨-l0, -l1, -l2, -l3, -l4⟩ : Algo.Conv K) = (-(Algo.parabola ⟨l0, l1, l2, l3, l4⟩).1, -(Algo.parabola ⟨l0, l1, l2, l3, l4⟩).2.1, -(Algo.parabola ⟨l0, l1, l2, l3, l4⟩).2.2) := by
    unfold Algo.parabola
    refine Prod.ext ?_ (Prod.ext ?_ ?_) <;> dsimp only <;> ring
  rw [hp]
  unfold Algo.peakY Algo.peakX
  dsimp only
  constructor
  · rw [neg_sq, div_neg]; ring
  · rw [mul_neg, neg_div_neg_eq]

end

/-! ### The name of an output file -/

theorem takeWhile_plain {a b : Str} (h : ' ' ∉ a) : (a ++ ' ' :: b).takeWhile (· != ' ') = a := by
  induction a with
  | nil => simp
  | cons c a ih =>
    simp only [List.mem_cons, not_or] at h
    rw [List.cons_append, List.takeWhile_cons, if_pos (by simpa using fun e => h.1 e.symm), ih h.2]

/-- C153. The output file is called after the run, in the directory given, however many channels there are. -/
theorem out_name {isdir : Str → Bool} {first base : Str} {ch : Option Nat} (hb : basenameChannum isdir first = .ok (base, ch)) (hs : ' ' ∉ tailPart base) (n : Nat) (dir add : Str) :
    outputName isdir first n dir add = .ok (pathJoin dir (tailPart base ++ '_' :: add ++ ".hdf5".toList)) := by
  unfold outputName
  rw [hb]
  dsimp only
  have : (pathSplit base).2 = tailPart base := rfl
  rw [this, List.append_assoc, List.cons_append, List.append_assoc (tailPart base), List.cons_append, takeWhile_plain hs]
  simp

/-! ### Disagreements and examples -/

/-- C153. Disagreement (C153): a run whose name has a bracket cannot be opened by one of its files: no file is found, though it is there. -/
theorem bracket_fails : offFiles (fun _ => false) ["/d/run[5]_chan1.off".toList] "/d/run[5]_chan1.off".toList none = .error .exception := by decide +kernel

/-- C153. Disagreement (C153): other files that begin like the run are taken as its channels, and replace them: of a file and its backup copy only the copy is opened. -/
theorem copy_fails : offFiles (fun _ => false) ["r_chan1.off".toList, "r_chan1_old.off".toList, "r_chan2.off".toList] "r_chan2.off".toList none =
      .ok ["r_chan1.off".toList, "r_chan1_old.off".toList, "r_chan2.off".toList] ∧
    loadChannels (fun f => .ok f) ["r_chan1.off".toList, "r_chan1_old.off".toList, "r_chan2.off".toList] [] = .ok [(some 1, "r_chan1_old.off".toList), (some 2, "r_chan2.off".toList)] := by
  decide +kernel

/-- C153. Disagreement (C153): runs whose names agree up to a blank get the same output file. -/
theorem blank_fails : outputName (fun _ => false) "/d/my run1_chan1.off".toList 4 "/out".toList "a".toList = .ok "/out/my_a.hdf5".toList ∧
    outputName (fun _ => false) "/d/my run2_chan1.off".toList 4 "/out".toList "a".toList = .ok "/out/my_a.hdf5".toList := by decide +kernel

example : offFiles (fun _ => false) ["/d/r_chan10.off".toList, "/d/r_chan2.off".toList, "/d/r_chan2.ljh".toList, "/d/rr_chan3.off".toList, "/d/r_chan1.off".toList] "/d/r_chan2.off".toList (some 2) =
    .ok ["/d/r_chan1.off".toList, "/d/r_chan2.off".toList] := by decide +kernel
example : globMatch 20 "run[3-5!]_*.off".toList "run4_x.off".toList = true ∧ globMatch 20 "run[!3-5]_*.off".toList "run4_x.off".toList = false ∧
    globMatch 20 "a?c[".toList "abc[".toList = true ∧ globMatch 20 "a*c".toList "a/c".toList = false := by decide +kernel
example : outputName (fun _ => false) "/d/run1_chan1.off".toList 4 "/out".toList "a".toList = .ok "/out/run1_a.hdf5".toList := by decide +kernel
/-- a group of three channels, one bad and without model; the values of the first for one record -/
example : let c := fun n bad => (⟨n, bad, [![1, 0], ![1, 1], ![1, 4], ![1, 9], ![1, 16]], []⟩ : Chan ℚ 2)
    let r := addFiveGroup [("1".toList, [2]), ("7".toList, [3])] [c 1 false, c 3 true, c 7 false]
    (r.1.map (fun d => d.recipes.map (fun p => (p.1, p.2 ![1, 1]))), r.2) =
      ([[("cba5Lag", [10, 8, 2]), ("filtValue5Lag", [2]), ("peakX5Lag", [-2])], [], [("cba5Lag", [15, 12, 3]), ("filtValue5Lag", [3]), ("peakX5Lag", [-2])]], none) := by decide +kernel

end Mass.Off.Runs
