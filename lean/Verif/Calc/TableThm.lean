import Verif.Calc.Table
/-! C41-C44, C65: theorems about the calibration table. -/
namespace Mass.Calc.Cal
open Mass
set_option linter.unusedSectionVars false

variable {K : Type} [Field K] [LinearOrder K] [IsStrictOrderedRing K]

/-! ### Histories -/

/-- the calls a user can make on a calibration (`use` stands for any evaluation, which sorts the points first) [specification] -/
inductive Op (K : Type) where
  | add (pht : K) (en : EArg K) (name : String) (pe ee : Option K) (overwrite : Bool)
  | rmName (name : String)
  | rmPrefix (pre : String)
  | rmEnergy (energy de : K)
  | use

/-- one call [specification] -/
def step (parse feat : String → Option K) (T : Tbl K) : Op K → Tbl K × Except Exc Unit
  | .add pht en name pe ee ow => addPoint parse feat T pht en name pe ee ow
  | .rmName n => removeName T n
  | .rmPrefix p => removePrefix T p
  | .rmEnergy e de => removeEnergy T e de
  | .use => sortTbl T

/-- a sequence of calls; one that raises leaves the state as it was at that point, and the next call goes on from there [specification] -/
def run (parse feat : String → Option K) (T : Tbl K) (ops : List (Op K)) : Tbl K := ops.foldl (fun T op => (step parse feat T op).1) T

theorem idxLoop_aligned (is : List Nat) : ∀ (T : Tbl K) (pts : List (Pt K)), Aligned T pts → ∃ pts', Aligned (idxLoop is T).1 pts' ∧ pts'.Sublist pts := by
  induction is with
  | nil => exact fun T pts h => ⟨pts, h, List.Sublist.refl _⟩
  | cons i is ih =>
    intro T pts h
    unfold idxLoop
    rcases removeIdx_aligned h i with ⟨_, hA, hok⟩ | ⟨_, he⟩
    · cases hR : removeIdx T i with
      | mk T' r =>
        rw [hR] at hA hok
        dsimp only at hA hok
        subst hok
        obtain ⟨p', h1, h2⟩ := ih T' _ hA
        exact ⟨p', h1, h2.trans (List.eraseIdx_sublist _ _)⟩
    · rw [he]
      exact ⟨pts, h, List.Sublist.refl _⟩

theorem step_aligned (parse feat : String → Option K) {T : Tbl K} {pts : List (Pt K)} (h : Aligned T pts) (op : Op K) : ∃ pts', Aligned (step parse feat T op).1 pts' := by
  cases op with
  | add pht en name pe ee ow =>
    rcases addPoint_spec h parse feat pht en name pe ee ow with ⟨_, hA, _⟩ | ⟨_, _, pts', _, _, hA, _⟩
    · exact ⟨_, hA⟩
    · exact ⟨_, hA⟩
  | rmName n =>
    rcases removeName_spec h n with ⟨_, _, _, _, _, _, hA, _⟩ | ⟨_, he⟩
    · exact ⟨_, hA⟩
    · exact ⟨pts, by show Aligned (removeName T n).1 _; rw [he]; exact h⟩
  | rmPrefix p =>
    have := prefixLoop_spec p pts [] T (by simpa using h) (by simp)
    rw [← h.names] at this
    exact ⟨_, this.1⟩
  | rmEnergy e de =>
    obtain ⟨p', h1, _⟩ := idxLoop_aligned _ T pts h
    exact ⟨p', h1⟩
  | use => exact ⟨_, (sort_aligned h).1⟩

/-- C41. After any sequence of calls whatever, raising or not, the five arrays have the length of the count and are the columns of one list of points. -/
theorem table_aligned (parse feat : String → Option K) (nl : K) (c : CArg) (ap g : Bool) (T : Tbl K) (h : init nl c ap g = .ok T) (ops : List (Op K)) :
    ∃ pts, Aligned (run parse feat T ops) pts := by
  have h0 : Aligned T ([] : List (Pt K)) := by
    unfold init at h
    cases hc : curveIdx c with
    | error x => rw [hc] at h; exact absurd h (by simp [bind, Except.bind])
    | ok i =>
      rw [hc] at h
      simp only [bind, Except.bind, Except.ok.injEq] at h
      subst h
      constructor <;> rfl
  unfold run
  clear h
  suffices ∀ (ops : List (Op K)) (T : Tbl K) pts, Aligned T pts → ∃ pts', Aligned (ops.foldl (fun T op => (step parse feat T op).1) T) pts' from this ops T [] h0
  intro ops
  induction ops with
  | nil => exact fun T pts h => ⟨pts, h⟩
  | cons op ops ih =>
    intro T pts h
    obtain ⟨p', h'⟩ := step_aligned parse feat h op
    exact ih _ p' h'

/-- C41. What an accepted call of `add_cal_point` does: the first point of the same name gets the new values; otherwise the point nearest in energy, if within the energy error,
gets them (and keeps its name); otherwise the point is added at the end. All other points stay as they are, in particular re-adding never duplicates. -/
theorem add_accepted {T : Tbl K} {pts : List (Pt K)} (h : Aligned T pts) (parse feat : String → Option K) (pht : K) (en : EArg K) (name : String) (pe ee : Option K) (ow : Bool)
    (hok : (addPoint parse feat T pht en name pe ee ow).2 = .ok ()) :
    ∃ e n pts', resolve parse feat en name = some (e, n) ∧ Goes pts (thePoint pht e n pe ee) pts' ∧ Aligned (addPoint parse feat T pht en name pe ee ow).1 pts' := by
  rcases addPoint_spec h parse feat pht en name pe ee ow with ⟨he, _, _⟩ | ⟨e, n, pts', h1, h2, h3, _⟩
  · rw [hok] at he; exact absurd he (by simp)
  · exact ⟨e, n, pts', h1, h2, h3⟩

/-- C65. After every accepted call the table is monotone: a point with a larger pulse height does not have a smaller energy. -/
theorem accepted_monotone {T : Tbl K} {pts : List (Pt K)} (h : Aligned T pts) (parse feat : String → Option K) (pht : K) (en : EArg K) (name : String) (pe ee : Option K) (ow : Bool)
    (hok : (addPoint parse feat T pht en name pe ee ow).2 = .ok ()) :
    ∃ pts', Aligned (addPoint parse feat T pht en name pe ee ow).1 pts' ∧ ∀ p ∈ pts', ∀ q ∈ pts', p.ph < q.ph → p.e ≤ q.e := by
  rcases addPoint_spec h parse feat pht en name pe ee ow with ⟨he, _, _⟩ | ⟨e, n, pts', h1, h2, h3, h4⟩
  · rw [hok] at he; exact absurd he (by simp)
  · rcases h4 with ⟨_, h4⟩ | ⟨h4, _⟩
    · exact ⟨pts', h3, mono_of_argsort h4⟩
    · rw [hok] at h4; exact absurd h4 (by simp)

/-- C65. A new point is accepted whenever the table with it is strictly ordered the same way by pulse height and by energy, and overwriting is allowed. -/
theorem consistent_accepted {T : Tbl K} {pts pts' : List (Pt K)} (h : Aligned T pts) (parse feat : String → Option K) (pht e : K) (name n : String) (en : EArg K) (pe ee : Option K)
    (hr : resolve parse feat en name = some (e, n)) (hA : Aligned (addPoint parse feat T pht en name pe ee true).1 pts')
    (hc : ∀ p ∈ pts', ∀ q ∈ pts', p.ph < q.ph ↔ p.e < q.e) : (addPoint parse feat T pht en name pe ee true).2 = .ok () := by
  rcases addPoint_spec h parse feat pht en name pe ee true with ⟨_, _, h3⟩ | ⟨e', n', p', h1, h2, h3, h4⟩
  · rcases h3 with h3 | ⟨h3, _⟩
    · rw [hr] at h3; exact absurd h3 (by simp)
    · exact absurd h3 (by simp)
  · rcases h4 with ⟨h4, _⟩ | ⟨_, h4⟩
    · exact h4
    · have := aligned_inj hA h3
      subst this
      exact absurd (argsort_of_consistent hc) h4

/-! ### Names -/

/-- what a user believes about names: each name has the pulse height and energy last given for it [specification] -/
def believe (parse feat : String → Option K) (S : String → Option (K × K)) : Op K → String → Option (K × K)
  | .add pht en name _ _ _ => match resolve parse feat en name with
    | some (e, n) => fun m => if m = n then some (pht, e) else S m
    | none => S
  | .rmName n => fun m => if m = n then none else S m
  | .rmPrefix p => fun m => if startsWith p m then none else S m
  | _ => S

/-- the table agrees with the belief, and no name occurs twice [specification] -/
def Agrees (pts : List (Pt K)) (S : String → Option (K × K)) : Prop :=
  (∀ n, n ≠ "" → ∀ v, S n = some v ↔ ∃ p ∈ pts, p.name = n ∧ (p.ph, p.e) = v) ∧ pts.Pairwise (fun p q => p.name ≠ "" → p.name ≠ q.name)

/-- a call covered by `names_partial`: it does not remove by energy, and a point added under a new name (or none) is further than its error from every existing point [specification] -/
def Clean (parse feat : String → Option K) (pts : List (Pt K)) : Op K → Prop
  | .add pht en name pe ee _ => ∀ e n, resolve parse feat en name = some (e, n) →
      (n ≠ "" ∧ ∃ q ∈ pts, q.name = n) ∨ ∀ q ∈ pts, (thePoint pht e n pe ee).de < |e - q.e|
  | .rmEnergy _ _ => False
  | _ => True

theorem agrees_perm {pts pts' : List (Pt K)} {S : String → Option (K × K)} (hp : pts'.Perm pts) (h : Agrees pts S) : Agrees pts' S := by
  refine ⟨fun n hn v => ?_, ?_⟩
  · rw [h.1 n hn v]
    exact ⟨fun ⟨p, h1, h2⟩ => ⟨p, hp.mem_iff.2 h1, h2⟩, fun ⟨p, h1, h2⟩ => ⟨p, hp.mem_iff.1 h1, h2⟩⟩
  · refine hp.symm.pairwise h.2 (fun {p q} hpq hq he => ?_)
    exact hpq (he ▸ hq) he.symm

/-- C41 (partial: false when a point under another name comes within the energy error, `names_fails`). One accepted clean call keeps the table in agreement with what the user believes. -/
theorem names_step_partial (parse feat : String → Option K) {T : Tbl K} {pts : List (Pt K)} {S : String → Option (K × K)} (h : Aligned T pts) (hS : Agrees pts S) (op : Op K)
    (hc : Clean parse feat pts op) (hok : (step parse feat T op).2 = .ok ()) :
    ∃ pts', Aligned (step parse feat T op).1 pts' ∧ Agrees pts' (believe parse feat S op) := by
  cases op with
  | add pht en name pe ee ow =>
    obtain ⟨e, n, pts', hr, hg, hA⟩ := add_accepted h parse feat pht en name pe ee ow hok
    refine ⟨pts', hA, ?_⟩
    unfold believe
    dsimp only
    rw [hr]
    dsimp only
    have hc' := hc e n hr
    generalize hP : thePoint pht e n pe ee = P at hg hc'
    have hPn : P.name = n := by rw [← hP]; rfl
    have hPv : (P.ph, P.e) = (pht, e) := by rw [← hP]; rfl
    have hPe : P.e = e := by rw [← hP]; rfl
    cases hg with
    | name pre old post h1 h2 h3 h4 =>
      subst h1
      rw [hPn] at h2 h3 h4
      have hpw := hS.2
      rw [List.pairwise_append, List.pairwise_cons] at hpw
      obtain ⟨w1, ⟨w2, w3⟩, w4⟩ := hpw
      refine ⟨fun m hm v => ?_, ?_⟩
      · dsimp only
        by_cases hmn : m = n
        · subst hmn
          rw [if_pos rfl]
          constructor
          · intro hv
            injection hv with hv
            exact ⟨P, by simp, hPn, by rw [hPv, hv]⟩
          · rintro ⟨p, hp, hpn, hpv⟩
            rcases List.mem_append.1 hp with hp | hp
            · exact absurd hpn (h4 p hp)
            · rcases List.mem_cons.1 hp with rfl | hp
              · rw [← hpv, hPv]
              · exact absurd (h3.trans hpn.symm) (w2 p hp (by rw [h3]; exact hm))
        · rw [if_neg hmn, hS.1 m hm v]
          constructor
          · rintro ⟨p, hp, hpn, hpv⟩
            rcases List.mem_append.1 hp with hp | hp
            · exact ⟨p, by simp [hp], hpn, hpv⟩
            · rcases List.mem_cons.1 hp with rfl | hp
              · exact absurd (hpn.symm.trans h3) hmn
              · exact ⟨p, by simp [hp], hpn, hpv⟩
          · rintro ⟨p, hp, hpn, hpv⟩
            rcases List.mem_append.1 hp with hp | hp
            · exact ⟨p, by simp [hp], hpn, hpv⟩
            · rcases List.mem_cons.1 hp with rfl | hp
              · exact absurd (hpn.symm.trans hPn) hmn
              · exact ⟨p, by simp [hp], hpn, hpv⟩
      · rw [List.pairwise_append, List.pairwise_cons]
        refine ⟨w1, ⟨fun q hq hne => ?_, w3⟩, fun p hp q hq hne => ?_⟩
        · rw [hPn, ← h3]; exact w2 q hq (by rw [h3]; exact h2)
        · rcases List.mem_cons.1 hq with rfl | hq
          · rw [hPn]; exact h4 p hp
          · exact w4 p hp q (List.mem_cons_of_mem _ hq) hne
    | near pre old post h1 h2 h3 h4 =>
      subst h1
      rw [hPn] at h2
      exfalso
      rcases hc' with ⟨hne, q, hq, hqn⟩ | hfar
      · exact h2 hne q hq hqn
      · have := hfar old (by simp)
        rw [hPe] at h3
        exact absurd h3 (not_le.2 this)
    | new h1 h2 =>
      rw [hPn] at h1
      refine ⟨fun m hm v => ?_, ?_⟩
      · dsimp only
        by_cases hmn : m = n
        · subst hmn
          rw [if_pos rfl]
          constructor
          · intro hv
            injection hv with hv
            exact ⟨P, by simp, hPn, by rw [hPv, hv]⟩
          · rintro ⟨p, hp, hpn, hpv⟩
            rcases List.mem_append.1 hp with hp | hp
            · exact absurd hpn (h1 hm p hp)
            · rw [List.mem_singleton.1 hp] at hpv
              rw [← hpv, hPv]
        · rw [if_neg hmn, hS.1 m hm v]
          constructor
          · rintro ⟨p, hp, hpn, hpv⟩
            exact ⟨p, by simp [hp], hpn, hpv⟩
          · rintro ⟨p, hp, hpn, hpv⟩
            rcases List.mem_append.1 hp with hp | hp
            · exact ⟨p, hp, hpn, hpv⟩
            · rw [List.mem_singleton.1 hp] at hpn
              exact absurd (hpn.symm.trans hPn) hmn
      · rw [List.pairwise_append]
        refine ⟨hS.2, by simp, fun p hp q hq hne => ?_⟩
        rw [List.mem_singleton.1 hq, hPn]
        intro he
        exact h1 (he ▸ hne) p hp he
  | rmName n =>
    rcases removeName_spec h n with ⟨pre, old, post, h1, h2, h3, hA, _⟩ | ⟨_, he⟩
    · subst h1
      refine ⟨_, hA, ?_⟩
      have hpw := hS.2
      rw [List.pairwise_append, List.pairwise_cons] at hpw
      obtain ⟨w1, ⟨w2, w3⟩, w4⟩ := hpw
      refine ⟨fun m hm v => ?_, ?_⟩
      · unfold believe
        dsimp only
        by_cases hmn : m = n
        · subst hmn
          rw [if_pos rfl]
          refine ⟨by simp, ?_⟩
          rintro ⟨p, hp, hpn, _⟩
          rcases List.mem_append.1 hp with hp | hp
          · exact absurd hpn (h3 p hp)
          · exact absurd (h2.trans hpn.symm) (w2 p hp (by rw [h2]; exact hm))
        · rw [if_neg hmn, hS.1 m hm v]
          constructor
          · rintro ⟨p, hp, hpn, hpv⟩
            rcases List.mem_append.1 hp with hp | hp
            · exact ⟨p, by simp [hp], hpn, hpv⟩
            · rcases List.mem_cons.1 hp with rfl | hp
              · exact absurd (hpn.symm.trans h2) hmn
              · exact ⟨p, by simp [hp], hpn, hpv⟩
          · rintro ⟨p, hp, hpn, hpv⟩
            rcases List.mem_append.1 hp with hp | hp
            · exact ⟨p, by simp [hp], hpn, hpv⟩
            · exact ⟨p, by simp [hp], hpn, hpv⟩
      · rw [List.pairwise_append]
        exact ⟨w1, w3, fun p hp q hq => w4 p hp q (List.mem_cons_of_mem _ hq)⟩
    · have : (step parse feat T (.rmName n)).2 = .error .value := by show (removeName T n).2 = _; rw [he]
      rw [this] at hok
      exact absurd hok (by simp)
  | rmPrefix pre =>
    have hA := prefixLoop_spec pre pts [] T (by simpa using h) (by simp)
    rw [← h.names] at hA
    refine ⟨_, hA.1, ?_, ?_⟩
    · intro m hm v
      unfold believe
      dsimp only
      by_cases hs : startsWith pre m = true
      · rw [if_pos hs]
        refine ⟨by simp, ?_⟩
        rintro ⟨p, hp, hpn, _⟩
        rw [List.nil_append] at hp
        have := (List.mem_filter.1 hp).2
        rw [hpn, hs] at this
        exact absurd this (by simp)
      · rw [if_neg hs, hS.1 m hm v, List.nil_append]
        constructor
        · rintro ⟨p, hp, hpn, hpv⟩
          exact ⟨p, List.mem_filter.2 ⟨hp, by rw [hpn]; simpa using hs⟩, hpn, hpv⟩
        · rintro ⟨p, hp, hpn, hpv⟩
          exact ⟨p, (List.mem_filter.1 hp).1, hpn, hpv⟩
    · rw [List.nil_append]
      exact hS.2.sublist List.filter_sublist
  | rmEnergy e de => exact hc.elim
  | use => exact ⟨_, (sort_aligned h).1, agrees_perm (reorder_perm h) hS⟩

/-- a history in which every call is clean and accepted [specification] -/
def CleanRun (parse feat : String → Option K) : Tbl K → List (Op K) → Prop
  | _, [] => True
  | T, op :: ops => (∀ pts, Aligned T pts → Clean parse feat pts op) ∧ (step parse feat T op).2 = .ok () ∧ CleanRun parse feat (step parse feat T op).1 ops

/-- C41 (partial, as above). After every history of clean accepted calls on a new calibration, each name is in the table exactly when it was given and not removed since,
exactly once, with the pulse height and energy last given for it. -/
theorem names_partial (parse feat : String → Option K) (ops : List (Op K)) : ∀ (T : Tbl K) (pts : List (Pt K)) (S : String → Option (K × K)), Aligned T pts → Agrees pts S →
    CleanRun parse feat T ops → ∃ pts', Aligned (run parse feat T ops) pts' ∧ Agrees pts' (ops.foldl (believe parse feat) S) := by
  induction ops with
  | nil => exact fun T pts S h hS _ => ⟨pts, h, hS⟩
  | cons op ops ih =>
    intro T pts S h hS hrun
    obtain ⟨h1, h2, h3⟩ := hrun
    obtain ⟨pts', hA, hS'⟩ := names_step_partial parse feat h hS op (h1 pts h) h2
    exact ih _ pts' _ hA hS' h3

/-- the state of a calibration with these points (loglog curve) [specification] -/
def tblOf (pts : List (Pt K)) : Tbl K :=
  { ph := pts.map Pt.ph, e := pts.map Pt.e, dph := pts.map Pt.dph, de := pts.map Pt.de, names := pts.map Pt.name, npts := pts.length, curve := 0, nonlin := 115 / 100, approx := false, gpr := true, stale := true }

theorem tblOf_aligned (pts : List (Pt K)) : Aligned (tblOf pts) pts := by constructor <;> rfl

/-- no standard features, no strings that are numbers [specification] -/
def noNames : String → Option ℚ := fun _ => none

/-- C41 is false as stated: giving a point under a new name within the energy error of another point changes that other point; the new name is not in the table
and the old name has the new point's pulse height. -/
theorem names_fails :
    let T := tblOf [(⟨10, 1000, 1, 1, "A"⟩ : Pt ℚ)]
    let R := addPoint noNames noNames T 20 (.num 1000) "B" (some 1) (some 1) true
    R.2 = .ok () ∧ R.1.names = ["A"] ∧ R.1.ph = [20] := by decide +kernel

/-- C41, instance: a history with an addition, a replacement by name, a use and a removal -/
example : (run noNames noNames (tblOf []) [.add 30 (.num 3000) "C" none none true, .add 10 (.num 1000) "A" none none true, .use, .add (12 : ℚ) (.num 1100) "A" none none true,
    .add 20 (.num 2000) "" none none true, .rmName "C"]).names = ["A", ""] := by decide +kernel

/-! ### C42 -/

/-- C42. Removing by prefix removes exactly the points whose name starts with the prefix, and always succeeds. -/
theorem remove_prefix {T : Tbl K} {pts : List (Pt K)} (h : Aligned T pts) (pre : String) :
    Aligned (removePrefix T pre).1 (pts.filter (fun p => !startsWith pre p.name)) ∧ (removePrefix T pre).2 = .ok () := by
  have := prefixLoop_spec pre pts [] T (by simpa using h) (by simp)
  rw [← h.names, List.nil_append] at this
  exact this

example : (removePrefix (tblOf [(⟨1, 1, 0, 0, "MnKAlpha"⟩ : Pt ℚ), ⟨2, 2, 0, 0, "CuKAlpha"⟩, ⟨3, 3, 0, 0, "MnKBeta"⟩]) "Mn").1.names = ["CuKAlpha"] := by decide +kernel

theorem match_idx {T : Tbl K} {pts : List (Pt K)} (h : Aligned T pts) (energy de : K) :
    (List.range T.e.length).filter (fun i => decide (|T.e.getD i 0 - energy| < de)) = (List.range pts.length).filter (fun i => decide (|(pts.getD i ⟨0, 0, 0, 0, ""⟩).e - energy| < de)) := by
  rw [h.e, List.length_map]
  refine List.filter_congr (fun i hi => ?_)
  rw [getD_map' Pt.e pts i 0 ⟨0, 0, 0, 0, ""⟩ (by simpa using hi)]

theorem filter_eraseIdx_of_unique {α : Type} (l : List α) (f : α → Bool) (i : Nat) (hi : i < l.length) (hf : f l[i] = true) (hu : ∀ j (hj : j < l.length), f l[j] = true → j = i) :
    l.eraseIdx i = l.filter (fun x => !f x) := by
  induction l generalizing i with
  | nil => exact absurd hi (by simp)
  | cons x xs ih =>
    cases i with
    | zero =>
      have hx : f x = true := hf
      rw [List.eraseIdx_cons_zero, List.filter_cons, if_neg (by simp [hx])]
      refine (List.filter_eq_self.2 (fun y hy => ?_)).symm
      obtain ⟨k, hk, rfl⟩ := List.getElem_of_mem hy
      by_contra hc
      have := hu (k + 1) (by simpa using hk) (by simpa using hc)
      omega
    | succ i =>
      have hx : f x = false := by
        by_contra hc
        have := hu 0 (by simp) (by simpa using hc)
        omega
      rw [List.eraseIdx_cons_succ, List.filter_cons, if_pos (by simp [hx])]
      rw [ih i (by simpa using hi) (by simpa using hf) (fun j hj hfj => by
        have := hu (j + 1) (by simpa using hj) (by simpa using hfj)
        omega)]

/-- C42 (partial: false when two or more points match, `remove_energy_fails`). If at most one point lies within `de` of the energy, then removal succeeds and
removes exactly the matching points. -/
theorem remove_energy_partial {T : Tbl K} {pts : List (Pt K)} (h : Aligned T pts) (energy de : K)
    (hu : ∀ i j (hi : i < pts.length) (hj : j < pts.length), |pts[i].e - energy| < de → |pts[j].e - energy| < de → i = j) :
    Aligned (removeEnergy T energy de).1 (pts.filter (fun p => !decide (|p.e - energy| < de))) ∧ (removeEnergy T energy de).2 = .ok () := by
  unfold removeEnergy
  rw [match_idx h]
  have key : ∀ i (hi : i < pts.length), (pts.getD i ⟨0, 0, 0, 0, ""⟩) = pts[i] := fun i hi => by
    rw [List.getD_eq_getElem?_getD, List.getElem?_eq_getElem hi]; rfl
  by_cases hex : ∃ i, ∃ hi : i < pts.length, |pts[i].e - energy| < de
  · obtain ⟨i, hi, hm⟩ := hex
    have hfil : (List.range pts.length).filter (fun i => decide (|(pts.getD i ⟨0, 0, 0, 0, ""⟩).e - energy| < de)) = [i] := by
      have h1 : (List.range pts.length).filter (fun i => decide (|(pts.getD i ⟨0, 0, 0, 0, ""⟩).e - energy| < de)) = (List.range pts.length).filter (fun j => j == i) := by
        refine List.filter_congr (fun j hj => ?_)
        have hj : j < pts.length := by simpa using hj
        rw [key j hj]
        by_cases hji : j = i
        · subst hji; simp [hm]
        · have : ¬ |pts[j].e - energy| < de := fun hc => hji (hu j i hj hi hc hm)
          rw [decide_eq_false this]; simp [hji]
      rw [h1, List.filter_beq, List.count_eq_one_of_mem List.nodup_range (by simpa using hi)]
      rfl
    rw [hfil]
    unfold idxLoop idxLoop
    rcases removeIdx_aligned h i with ⟨_, hA, hok⟩ | ⟨hge, _⟩
    · rw [filter_eraseIdx_of_unique pts (fun p => decide (|p.e - energy| < de)) i hi (by simpa using hm) (fun j hj hf => hu j i hj hi (by simpa using hf) hm)] at hA
      cases hR : removeIdx T i with
      | mk T' r =>
        rw [hR] at hA hok
        dsimp only at hA hok
        subst hok
        exact ⟨hA, rfl⟩
    · omega
  · have hno : ∀ p ∈ pts, ¬ |p.e - energy| < de := fun p hp hm => by
      obtain ⟨k, hk, rfl⟩ := List.getElem_of_mem hp
      exact hex ⟨k, hk, hm⟩
    have hfil : (List.range pts.length).filter (fun i => decide (|(pts.getD i ⟨0, 0, 0, 0, ""⟩).e - energy| < de)) = [] := by
      refine List.filter_eq_nil_iff.2 (fun j hj => ?_)
      have hj : j < pts.length := by simpa using hj
      rw [key j hj]
      simpa using not_lt.1 (hno _ (List.getElem_mem hj))
    rw [hfil, List.filter_eq_self.2 (fun p hp => by simpa using hno p hp)]
    exact ⟨h, rfl⟩

/-- C42 is false as stated: with two matching points the second removal uses the old index, so that of the points at 100, 101, 5000 the call remove_cal_point_energy(100, 5)
leaves 101 and removes 5000; and when the last point matches it raises IndexError after having removed one. -/
theorem remove_energy_fails :
    (removeEnergy (tblOf [(⟨1, 100, 0, 0, "A"⟩ : Pt ℚ), ⟨2, 101, 0, 0, "B"⟩, ⟨3, 5000, 0, 0, "C"⟩]) 100 5).1.names = ["B"] ∧
    (removeEnergy (tblOf [(⟨1, 100, 0, 0, "A"⟩ : Pt ℚ), ⟨2, 101, 0, 0, "B"⟩]) 100 5).2 = .error .index := by decide +kernel

example : (removeEnergy (tblOf [(⟨1, 100, 0, 0, "A"⟩ : Pt ℚ), ⟨2, 110, 0, 0, "B"⟩, ⟨3, 5000, 0, 0, "C"⟩]) 111 5).1.names = ["A", "C"] := by decide +kernel

/-! ### C43 -/

/-- C43 (partial: false for a point that would make the table non-monotone, `rejected_fails`). A call refused because the energy is neither a number nor a known name, or because
overwriting was not allowed, leaves the points exactly as they were. -/
theorem rejected_partial {T : Tbl K} {pts : List (Pt K)} (h : Aligned T pts) (parse feat : String → Option K) (pht : K) (en : EArg K) (name : String) (pe ee : Option K) (ow : Bool)
    (he : (addPoint parse feat T pht en name pe ee ow).2 = .error .value) : Aligned (addPoint parse feat T pht en name pe ee ow).1 pts := by
  rcases addPoint_spec h parse feat pht en name pe ee ow with ⟨_, hA, _⟩ | ⟨e, n, pts', _, _, _, h4⟩
  · exact hA
  · rcases h4 with ⟨h4, _⟩ | ⟨h4, _⟩
    · rw [he] at h4; exact absurd h4 (by simp)
    · rw [he] at h4; exact absurd h4 (by simp)

/-- C43. With overwrite=False an existing name or an energy within the error of an existing point is always refused, so existing points never change. -/
theorem no_overwrite {T : Tbl K} {pts : List (Pt K)} (h : Aligned T pts) (parse feat : String → Option K) (pht : K) (en : EArg K) (name : String) (pe ee : Option K) :
    ∃ pts', Aligned (addPoint parse feat T pht en name pe ee false).1 pts' ∧ (pts' = pts ∨ ∃ p, pts' = pts ++ [p]) := by
  unfold addPoint
  dsimp only
  have hs := aligned_stale h true
  cases hr : resolve parse feat en name with
  | none => exact ⟨pts, hs, .inl rfl⟩
  | some r =>
    obtain ⟨e, n⟩ := r
    dsimp only
    cases ht : target { T with stale := true } n e (ee.getD (1 / 100)) false with
    | error x => exact ⟨pts, hs, .inl rfl⟩
    | ok i =>
      have hi : i = none := by
        unfold target at ht
        simp only [Bool.false_eq_true, if_false] at ht
        split at ht
        · exact absurd ht (by simp)
        · split at ht
          · split at ht
            · exact absurd ht (by simp)
            · injection ht with ht; exact ht.symm
          · injection ht with ht; exact ht.symm
      subst hi
      have hA := store_aligned hs (thePoint pht e n pe ee) none
      refine ⟨pts ++ [thePoint pht e n pe ee], ?_, .inr ⟨_, rfl⟩⟩
      dsimp only
      split
      · exact hA
      · exact hA

/-- C43 is false as stated: the point is stored before the check, so a refused point (here a larger pulse height with a smaller energy) stays in the table. -/
theorem rejected_fails :
    let T := tblOf [(⟨10, 1000, 1, 1, "A"⟩ : Pt ℚ)]
    let R := addPoint noNames noNames T 20 (.num 500) "B" none none true
    R.2 = .error .exception ∧ R.1.names = ["A", "B"] ∧ R.1.ph = [10, 20] ∧ R.1.e = [1000, 500] := by decide +kernel

example : let R := addPoint noNames noNames (tblOf [(⟨10, 1000, 1, 1, "A"⟩ : Pt ℚ)]) 20 (.num 500) "A" none none false
    R.2 = .error .value ∧ R.1.ph = [10] := by decide +kernel

/-! ### C44 -/

/-- what is stored in the HDF5 group, `save_to_hdf5` energy_calibration.py L740-753 -/
structure Saved (K : Type) where
  names : List String
  ph : List K
  e : List K
  dph : List K
  de : List K
  nonlin : K
  curve : String
  approx : Bool

/-- `save_to_hdf5`, energy_calibration.py L740-753 (names are encoded to bytes and decoded again, which is the identity) -/
def save (T : Tbl K) : Saved K := { names := T.names, ph := T.ph, e := T.e, dph := T.dph, de := T.de, nonlin := T.nonlin, curve := CURVETYPE.getD T.curve "", approx := T.approx }

/-- the loop of `load_from_hdf5`, energy_calibration.py L768-769, over the zipped columns -/
def loadLoop (parse feat : String → Option K) : List String → List K → List K → List K → List K → Tbl K → Except Exc (Tbl K)
  | n :: ns, p :: ps, e :: es, dp :: dps, d :: ds, T =>
    match addPoint parse feat T p (.num e) n (some dp) (some d) true with
    | (T', .ok ()) => loadLoop parse feat ns ps es dps ds T'
    | (_, .error x) => .error x
  | _, _, _, _, _, T => .ok T

/-- `load_from_hdf5`, energy_calibration.py L755-771 -/
def load (parse feat : String → Option K) (s : Saved K) : Except Exc (Tbl K) := do
  let T ← init s.nonlin (.str s.curve) s.approx true
  loadLoop parse feat s.names s.ph s.e s.dph s.de T

/-- C44. The curve type, the approximation flag and the GPR flag given to the constructor take effect; an unknown curve name raises ValueError, a number out of range AssertionError. -/
theorem constructor_settings (nl : K) (c : CArg) (ap g : Bool) :
    (∀ T, init nl c ap g = .ok T → T.approx = ap ∧ T.gpr = g ∧ curveIdx c = .ok T.curve ∧ Aligned T ([] : List (Pt K))) ∧
    (∀ i : Nat, i < 6 → ∃ T : Tbl K, init nl (.str (CURVETYPE.getD i "")) ap g = .ok T ∧ T.curve = i) ∧
    (∀ i : Int, (∃ T : Tbl K, init nl (.int i) ap g = .ok T ∧ (T.curve : Int) = i) ↔ 0 ≤ i ∧ i < 6) := by
  refine ⟨fun T h => ?_, fun i hi => ?_, fun i => ?_⟩
  · unfold init at h
    cases hc : curveIdx c with
    | error x => rw [hc] at h; exact absurd h (by simp [bind, Except.bind])
    | ok i =>
      rw [hc] at h
      simp only [bind, Except.bind, Except.ok.injEq] at h
      subst h
      exact ⟨rfl, rfl, rfl, by constructor <;> rfl⟩
  · have : curveIdx (.str (CURVETYPE.getD i "")) = .ok i := by
      have : i = 0 ∨ i = 1 ∨ i = 2 ∨ i = 3 ∨ i = 4 ∨ i = 5 := by omega
      rcases this with rfl | rfl | rfl | rfl | rfl | rfl <;> decide +kernel
    unfold init
    rw [this]
    exact ⟨_, rfl, rfl⟩
  · constructor
    · rintro ⟨T, h, hi⟩
      by_contra hc
      unfold init curveIdx at h
      dsimp only at h
      rw [if_neg hc] at h
      exact absurd h (by simp [bind, Except.bind])
    · intro hc
      unfold init curveIdx
      dsimp only
      rw [if_pos hc]
      exact ⟨_, rfl, Int.toNat_of_nonneg hc.1⟩

/-- C44 is false as stated: whatever nonlinearity the constructor is given, the calibration has 1.15. -/
theorem constructor_nonlinearity_fails (nl : K) (c : CArg) (ap g : Bool) (T : Tbl K) (h : init nl c ap g = .ok T) : T.nonlin = 115 / 100 := by
  unfold init at h
  cases hc : curveIdx c with
  | error x => rw [hc] at h; exact absurd h (by simp [bind, Except.bind])
  | ok i =>
    rw [hc] at h
    simp only [bind, Except.bind, Except.ok.injEq] at h
    rw [← h]
    rfl

theorem loadLoop_ok (parse feat : String → Option K) (rest : List (Pt K)) : ∀ (done : List (Pt K)) (T : Tbl K), Aligned T done →
    (done ++ rest).Pairwise (fun p q => q.de < |q.e - p.e| ∧ (q.name ≠ "" → p.name ≠ q.name)) → (∀ p ∈ done ++ rest, ∀ q ∈ done ++ rest, p.ph < q.ph ↔ p.e < q.e) →
    ∃ T', loadLoop parse feat (rest.map Pt.name) (rest.map Pt.ph) (rest.map Pt.e) (rest.map Pt.dph) (rest.map Pt.de) T = .ok T' ∧ Aligned T' (done ++ rest) ∧
      T'.curve = T.curve ∧ T'.approx = T.approx ∧ T'.gpr = T.gpr ∧ T'.nonlin = T.nonlin := by
  induction rest with
  | nil => exact fun done T h _ _ => ⟨T, rfl, by simpa using h, rfl, rfl, rfl, rfl⟩
  | cons p rest ih =>
    intro done T h hpw hc
    simp only [List.map_cons]
    unfold loadLoop
    have hw := List.pairwise_append.1 hpw
    have hfar : ∀ q ∈ done, p.de < |p.e - q.e| ∧ (p.name ≠ "" → q.name ≠ p.name) := fun q hq => hw.2.2 q hq p (by simp)
    have hs := aligned_stale h true
    have hT : ∃ T', addPoint parse feat T p.ph (.num p.e) p.name (some p.dph) (some p.de) true = (T', .ok ()) ∧ Aligned T' (done ++ [p]) ∧
        T'.curve = T.curve ∧ T'.approx = T.approx ∧ T'.gpr = T.gpr ∧ T'.nonlin = T.nonlin := by
      unfold addPoint resolve
      dsimp only
      simp only [Option.getD_some]
      have ht := target_spec hs p true
      obtain ⟨i, hi⟩ := ht.2.2 rfl
      have hg := ht.1 i hi
      have hA := store_aligned hs p i
      rw [hi]
      dsimp only
      have hput : put done p i = done ++ [p] := by
        generalize hr : put done p i = r at hg
        cases hg with
        | name pre old post h1 h2 h3 h4 => exact absurd h3 ((hfar old (by rw [h1]; simp)).2 h2)
        | near pre old post h1 h2 h3 h4 => exact absurd h3 (not_le.2 (hfar old (by rw [h1]; simp)).1)
        | new h1 h2 => rfl
      rw [hput] at hA
      have hcond : argsort (store { T with stale := true } p i).ph = argsort (store { T with stale := true } p i).e := by
        rw [hA.ph, hA.e]
        refine argsort_of_consistent (fun a ha b hb => hc a ?_ b ?_)
        · rcases List.mem_append.1 ha with ha | ha
          · simp [ha]
          · simp [List.mem_singleton.1 ha]
        · rcases List.mem_append.1 hb with hb | hb
          · simp [hb]
          · simp [List.mem_singleton.1 hb]
      refine ⟨store { T with stale := true } p i, if_pos hcond, hA, ?_, ?_, ?_, ?_⟩ <;> cases i <;> rfl
    obtain ⟨T', h1, h2, h3, h4, h5, h6⟩ := hT
    rw [h1]
    dsimp only
    obtain ⟨T'', g1, g2, g3, g4, g5, g6⟩ := ih (done ++ [p]) T' h2 (by simpa using hpw) (by simpa using hc)
    exact ⟨T'', g1, by simpa using g2, g3.trans h3, g4.trans h4, g5.trans h5, g6.trans h6⟩

/-- C44 (partial: false in general, see `load_fails`, `constructor_nonlinearity_fails`). Saving and loading restores every point with its errors and name, in order, the curve type and the
approximation flag, if names are distinct, energies are ordered like pulse heights and no two energies are within a later point's error. The nonlinearity restored is always 1.15. -/
theorem load_partial (parse feat : String → Option K) {T : Tbl K} {pts : List (Pt K)} (h : Aligned T pts) (hcv : T.curve < 6)
    (hpw : pts.Pairwise (fun p q => q.de < |q.e - p.e| ∧ (q.name ≠ "" → p.name ≠ q.name))) (hc : ∀ p ∈ pts, ∀ q ∈ pts, p.ph < q.ph ↔ p.e < q.e) :
    ∃ T', load parse feat (save T) = .ok T' ∧ Aligned T' pts ∧ T'.curve = T.curve ∧ T'.approx = T.approx ∧ T'.nonlin = 115 / 100 := by
  obtain ⟨T0, h0, hcurve⟩ := (constructor_settings (K := K) T.nonlin (.str (CURVETYPE.getD T.curve "")) T.approx true).2.1 T.curve hcv
  have hset := (constructor_settings (K := K) T.nonlin (.str (CURVETYPE.getD T.curve "")) T.approx true).1 T0 h0
  obtain ⟨T', g1, g2, g3, g4, g5, g6⟩ := loadLoop_ok parse feat pts [] T0 hset.2.2.2 (by simpa using hpw) (by simpa using hc)
  refine ⟨T', ?_, by simpa using g2, g3.trans hcurve, g4.trans hset.1, g6.trans (constructor_nonlinearity_fails _ _ _ _ T0 h0)⟩
  unfold load save
  dsimp only
  rw [h0, h.names, h.ph, h.e, h.dph, h.de]
  exact g1

/-- C44 is false as stated: a table that the calibration itself accepted (a point with a small error added within a large error of an existing one) loses a point when saved, in
sorted order, and loaded. -/
theorem load_fails :
    let T0 := tblOf ([] : List (Pt ℚ))
    let T1 := (addPoint noNames noNames T0 20 (.num 105) "A" (some 1) (some 10) true).1
    let T2 := (addPoint noNames noNames T1 10 (.num 100) "B" (some 1) (some (1 / 100)) true).1
    let T3 := (sortTbl T2).1
    T3.names = ["B", "A"] ∧ T3.ph = [10, 20] ∧ (load noNames noNames (save T3)).map (fun T => (T.names, T.ph)) = .ok (["B"], [20]) := by decide +kernel

example : (load noNames noNames (save { tblOf [(⟨1, 10, 1, 1, "A"⟩ : Pt ℚ), ⟨2, 20, 1, 1, "B"⟩, ⟨3, 25, 1, 1, ""⟩] with curve := 3, approx := true })).map
    (fun T => (T.names, T.ph, T.e, T.curve, T.approx)) = .ok (["A", "B", ""], [1, 2, 3], [10, 20, 25], 3, true) := by decide +kernel

end Mass.Calc.Cal
