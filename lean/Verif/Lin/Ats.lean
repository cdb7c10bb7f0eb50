import Verif.Lin.Filter
import Mathlib.Tactic.Conv
/-! C64: the arrival-time-safe optimal filter (mass/core/optimal_filtering.py `compute_ats`), in exact arithmetic over an ordered field. -/
namespace Mass.Lin
set_option linter.unusedSectionVars false
variable {K : Type} [Field K] [LinearOrder K] [IsStrictOrderedRing K]

/-- np.dot of two vectors of length n (used for optimal_filtering.py L553-570) -/
def ip (n : Nat) (a b : List K) : K := ∑ i ∈ Finset.range n, a.getD i 0 * b.getD i 0

/-- np.linalg.inv of a 3x3 matrix: LinAlgError when singular (used for optimal_filtering.py L553-570) -/
def inv3 (A : Matrix (Fin 3) (Fin 3) K) : Except Exc (Matrix (Fin 3) (Fin 3) K) :=
  if A.det = 0 then .error .exception else .ok (A.det⁻¹ • A.adjugate)

/-- np.dot(Ainv, X.T): row a is the combination of the three columns of X (used for optimal_filtering.py L553-570) -/
def combine (n : Nat) (Ainv : Matrix (Fin 3) (Fin 3) K) (X : Fin 3 → List K) (a : Fin 3) : List K :=
  (List.range n).map fun i => ∑ b : Fin 3, Ainv a b * (X b).getD i 0

/-- run a function on the three rows, stopping at the first exception (used for optimal_filtering.py L553-570) -/
def mapM3 (f : List K → Except Exc (List K)) (M : Fin 3 → List K) : Except Exc (Fin 3 → List K) :=
  match f (M 0) with
  | .error e => .error e
  | .ok a => match f (M 1) with
    | .error e => .error e
    | .ok b => match f (M 2) with
      | .error e => .error e
      | .ok c => .ok ![a, b, c]

/-- optimal_filtering.py L553-570: the three filters before padding. Whitener: WM, A = WM' WM, filt = Ainv (W'WM)'. Autocorrelation: RinvM, A = M RinvM,
filt = Ainv RinvM'. -/
def atsFilters (m : Maker K) (noise sig dt : List K) : Except Exc (Fin 3 → List K) :=
  let ns := sig.length
  let MT : Fin 3 → List K := ![sig, dt, List.replicate ns 1]
  match m.whitener with
  | some (θ, φ) =>
    match mapM3 (whiten θ φ) MT with
    | .error e => .error e
    | .ok WM =>
      match inv3 (Matrix.of fun a b => ip ns (WM a) (WM b)) with
      | .error e => .error e
      | .ok Ainv =>
        match mapM3 (applyWT θ φ) WM with
        | .error e => .error e
        | .ok X => .ok (combine ns Ainv X)
  | none =>
    if noise.length < ns then .error .assertion
    else
      match mkSym (noise.take ns) with
      | .error e => .error e
      | .ok S =>
        match mapM3 (solveSym S) MT with
        | .error e => .error e
        | .ok X =>
          match inv3 (Matrix.of fun a b => ip ns (MT a) (X b)) with
          | .error e => .error e
          | .ok Ainv => .ok (combine ns Ainv X)

/-- optimal_filtering.py L509-589 `compute_ats` with fmax = f_3db = None. `bracketR(filt, self.noise_autocorr)` raises TypeError when there is no
autocorrelation. -/
def computeAts (m : Maker K) (cutPre cutPost : Int) : Except Exc (Filt K) :=
  if m.autocorr.isNone ∧ m.whitener.isNone then .error .value
  else if m.dtModel.isNone then .error .value
  else
    let noise := computeAutocorr m cutPre cutPost
    match normalizeSignal m cutPre cutPost with
    | .error e => .error e
    | .ok (sig, peak, dt) =>
      if sig.length ≠ dt.length then .error .assertion
      else
        let ns := sig.length
        if (ns : Int) ≤ cutPre + cutPost then .error .value
        else
          match atsFilters m noise sig dt with
          | .error e => .error e
          | .ok filt =>
            let pad := fun l => padded cutPre.toNat l cutPost.toNat
            match m.autocorr with
            | none => .error .type
            | some l =>
              match bracketR (pad (filt 0)) l with
              | .error e => .error e
              | .ok v => .ok ⟨pad (filt 0), peak, v, pad (filt 1), pad (filt 2), sig, dt⟩

/-! ### Lemmas -/

theorem mapM3_ok {f : List K → Except Exc (List K)} {M X : Fin 3 → List K} (h : mapM3 f M = .ok X) : ∀ a, f (M a) = .ok (X a) := by
  unfold mapM3 at h
  cases h0 : f (M 0) with
  | error e => rw [h0] at h; exact absurd h (by simp)
  | ok x0 =>
    rw [h0] at h; dsimp only at h
    cases h1 : f (M 1) with
    | error e => rw [h1] at h; exact absurd h (by simp)
    | ok x1 =>
      rw [h1] at h; dsimp only at h
      cases h2 : f (M 2) with
      | error e => rw [h2] at h; exact absurd h (by simp)
      | ok x2 =>
        rw [h2] at h; dsimp only at h
        injection h with h
        intro a
        rw [← h]
        fin_cases a
        · exact h0
        · exact h1
        · exact h2

theorem inv3_ok {A B : Matrix (Fin 3) (Fin 3) K} (h : inv3 A = .ok B) : B * A = 1 := by
  unfold inv3 at h
  split at h
  · exact absurd h (by simp)
  · rename_i hd
    injection h with h
    rw [← h, Matrix.smul_mul, Matrix.adjugate_mul, smul_smul, inv_mul_cancel₀ hd, one_smul]

theorem ip_comm (n : Nat) (a b : List K) : ip n a b = ip n b a := Finset.sum_congr rfl fun _ _ => mul_comm _ _

theorem ip_combine (n : Nat) (Ainv : Matrix (Fin 3) (Fin 3) K) (X : Fin 3 → List K) (a : Fin 3) (w : List K) :
    ip n (combine n Ainv X a) w = ∑ b : Fin 3, Ainv a b * ip n (X b) w := by
  unfold ip
  simp only [Finset.mul_sum]
  rw [Finset.sum_comm]
  refine Finset.sum_congr rfl fun i hi => ?_
  unfold combine
  rw [getD_map_range _ _ _ (Finset.mem_range.1 hi), Finset.sum_mul]
  exact Finset.sum_congr rfl fun b _ => by ring

theorem combine_dual (n : Nat) {A Ainv : Matrix (Fin 3) (Fin 3) K} (X M : Fin 3 → List K) (hinv : Ainv * A = 1) (hA : ∀ b c, ip n (X b) (M c) = A b c) (a c : Fin 3) :
    ip n (combine n Ainv X a) (M c) = if a = c then 1 else 0 := by
  rw [ip_combine]
  have : ∑ b : Fin 3, Ainv a b * ip n (X b) (M c) = (Ainv * A) a c := by
    rw [Matrix.mul_apply]
    exact Finset.sum_congr rfl fun b _ => by rw [hA]
  rw [this, hinv, Matrix.one_apply]

theorem solve_symm {T : List K} {n : Nat} {x y s t : List K}
    (hx : ∀ i : Nat, i < n → ∑ j ∈ Finset.range n, T.getD ((i : Int) - j).natAbs 0 * x.getD j 0 = s.getD i 0)
    (hy : ∀ i : Nat, i < n → ∑ j ∈ Finset.range n, T.getD ((i : Int) - j).natAbs 0 * y.getD j 0 = t.getD i 0) :
    ip n x t = ip n y s := by
  have e1 := bil_solve T n (fun i => x.getD i 0) (fun i => y.getD i 0) (fun i => t.getD i 0) hy
  have e2 := bil_solve T n (fun i => y.getD i 0) (fun i => x.getD i 0) (fun i => s.getD i 0) hx
  unfold ip
  rw [← e1, ← e2, bil_comm]

/-- The conditions under which the two computations are proved right: with a whitener, leading coefficients not zero and moving-average order at least 1;
otherwise, a positive definite noise matrix. [specification] -/
def AtsOK (m : Maker K) (noise : List K) (ns : Nat) : Prop :=
  match m.whitener with
  | some (θ, φ) => θ.getD 0 0 ≠ 0 ∧ φ ≠ [] ∧ 2 ≤ θ.length
  | none => PosDef (noise.take ns)

theorem ats_dual {m : Maker K} {noise sig dt : List K} {filt : Fin 3 → List K} (h : atsFilters m noise sig dt = .ok filt) (hdt : dt.length = sig.length)
    (hs : sig ≠ []) (hok : AtsOK m noise sig.length) (a c : Fin 3) :
    (filt a).length = sig.length ∧ ip sig.length (filt a) ((![sig, dt, List.replicate sig.length 1] : Fin 3 → List K) c) = if a = c then 1 else 0 := by
  unfold atsFilters at h
  unfold AtsOK at hok
  dsimp only at h
  set M : Fin 3 → List K := ![sig, dt, List.replicate sig.length 1] with hM
  have hMl : ∀ a, (M a).length = sig.length := by intro a; fin_cases a <;> simp [hM, hdt]
  have hns : 0 < sig.length := List.length_pos_iff.2 hs
  have hMne : ∀ a, M a ≠ [] := by intro a ha; have := hMl a; rw [ha] at this; simp at this; omega
  cases hw : m.whitener with
  | some w =>
    obtain ⟨θ, φ⟩ := w
    rw [hw] at h hok
    dsimp only at h hok
    cases hWM : mapM3 (whiten θ φ) M with
    | error e => rw [hWM] at h; exact absurd h (by simp)
    | ok WM =>
      rw [hWM] at h; dsimp only at h
      cases hA : inv3 (Matrix.of fun a b => ip sig.length (WM a) (WM b)) with
      | error e => rw [hA] at h; exact absurd h (by simp)
      | ok Ainv =>
        rw [hA] at h; dsimp only at h
        cases hX : mapM3 (applyWT θ φ) WM with
        | error e => rw [hX] at h; exact absurd h (by simp)
        | ok X =>
          rw [hX] at h; dsimp only at h
          injection h with h
          rw [← h]
          refine ⟨by simp [combine], ?_⟩
          have hWM' := mapM3_ok hWM
          have hX' := mapM3_ok hX
          refine combine_dual sig.length X M (inv3_ok hA) ?_ a c
          intro b c
          have hbl : (WM b).length = sig.length := by
            obtain ⟨w, h1, h2, -⟩ := whiten_entries (θ := θ) (φ := φ) (v := M b) hok.1 hok.2.1 (hMne b) (.inl hok.2.2)
            rw [hWM' b] at h1
            injection h1 with h1
            rw [h1, h2, hMl]
          have hbne : WM b ≠ [] := by intro hb; rw [hb] at hbl; simp at hbl; omega
          obtain ⟨p, q, hp, hq, hpq⟩ := applyWT_transpose_partial (θ := θ) (φ := φ) (u := M c) (v := WM b) hok.1 hok.2.1 hbne (by rw [hMl, hbl]) (.inl hok.2.2)
          rw [hWM' c] at hp
          injection hp with hp
          rw [hX' b] at hq
          injection hq with hq
          rw [hbl, ← hp, ← hq] at hpq
          rw [Matrix.of_apply, ip_comm]
          unfold ip
          rw [← hpq]
          exact Finset.sum_congr rfl fun i _ => mul_comm _ _
  | none =>
    rw [hw] at h hok
    dsimp only at h hok
    split at h
    · exact absurd h (by simp)
    · rename_i hlen
      cases hS : mkSym (noise.take sig.length) with
      | error e => rw [hS] at h; exact absurd h (by simp)
      | ok S =>
        rw [hS] at h; dsimp only at h
        cases hX : mapM3 (solveSym S) M with
        | error e => rw [hX] at h; exact absurd h (by simp)
        | ok X =>
          rw [hX] at h; dsimp only at h
          cases hA : inv3 (Matrix.of fun a b => ip sig.length (M a) (X b)) with
          | error e => rw [hA] at h; exact absurd h (by simp)
          | ok Ainv =>
            rw [hA] at h; dsimp only at h
            injection h with h
            rw [← h]
            refine ⟨by simp [combine], ?_⟩
            have hX' := mapM3_ok hX
            have hTl : (noise.take sig.length).length = sig.length := by rw [List.length_take]; omega
            refine combine_dual sig.length X M (inv3_ok hA) ?_ a c
            intro b c
            have e1 := posdef_solve hS hok (hX' b)
            have e2 := posdef_solve hS hok (hX' c)
            rw [hTl] at e1 e2
            rw [Matrix.of_apply, ip_comm sig.length (M b) (X c)]
            exact solve_symm e1 e2

/-- What a successful `compute_ats` has done -/
theorem computeAts_inv {m : Maker K} {cutPre cutPost : Int} {F : Filt K} (h : computeAts m cutPre cutPost = .ok F) :
    ∃ (filt : Fin 3 → List K) (l : List K), 0 ≤ cutPre ∧ 0 ≤ cutPost ∧ F.signal.length + cutPre.toNat + cutPost.toNat = m.signal.length ∧ F.dtModel.length = F.signal.length ∧
      F.signal ≠ [] ∧ atsFilters m (computeAutocorr m cutPre cutPost) F.signal F.dtModel = .ok filt ∧
      m.autocorr = some l ∧ bracketR F.values l = .ok F.variance ∧
      F.values = padded cutPre.toNat (filt 0) cutPost.toNat ∧ F.dtValues = padded cutPre.toNat (filt 1) cutPost.toNat ∧
      F.constValues = padded cutPre.toNat (filt 2) cutPost.toNat := by
  unfold computeAts at h
  split at h
  · exact absurd h (by simp)
  split at h
  · exact absurd h (by simp)
  dsimp only at h
  cases hn : normalizeSignal m cutPre cutPost with
  | error e => rw [hn] at h; exact absurd h (by simp)
  | ok r =>
    obtain ⟨sig, peak, dt⟩ := r
    rw [hn] at h
    dsimp only at h
    have hnl := normalize_length hn
    split at h
    · exact absurd h (by simp)
    rename_i hdt
    split at h
    · exact absurd h (by simp)
    rename_i hcut
    cases hf : atsFilters m (computeAutocorr m cutPre cutPost) sig dt with
    | error e => rw [hf] at h; exact absurd h (by simp)
    | ok filt =>
      rw [hf] at h
      dsimp only at h
      cases hl : m.autocorr with
      | none => rw [hl] at h; exact absurd h (by simp)
      | some l =>
        rw [hl] at h
        dsimp only at h
        cases hb : bracketR (padded cutPre.toNat (filt 0) cutPost.toNat) l with
        | error e => rw [hb] at h; exact absurd h (by simp)
        | ok v =>
          rw [hb] at h
          dsimp only at h
          injection h with h
          rw [← h]
          refine ⟨filt, l, hnl.1, hnl.2.1, hnl.2.2, by dsimp only; omega, ?_, hf, rfl, hb, rfl, rfl, rfl⟩
          intro h0
          dsimp only at h0
          rw [h0] at hcut
          simp at hcut
          omega

/-- C64. A record that is, outside the cut windows, a constant b plus c times the model signal plus d times the arrival-time model gives exactly c, d and b
in the three filters, and the filters have zero weight in the cut windows. -/
theorem ats_response_partial {m : Maker K} {cutPre cutPost : Int} {F : Filt K} (h : computeAts m cutPre cutPost = .ok F)
    (hok : AtsOK m (computeAutocorr m cutPre cutPost) F.signal.length) (rec : List K) (b c d : K)
    (hrec : ∀ i : Nat, i < F.signal.length → rec.getD (cutPre.toNat + i) 0 = b + c * F.signal.getD i 0 + d * F.dtModel.getD i 0) :
    ip m.signal.length F.values rec = c ∧ ip m.signal.length F.dtValues rec = d ∧ ip m.signal.length F.constValues rec = b ∧
      F.values.length = m.signal.length ∧ (∀ i : Nat, ((i : Int) < cutPre ∨ (m.signal.length : Int) - cutPost ≤ i) →
        F.values.getD i 0 = 0 ∧ F.dtValues.getD i 0 = 0 ∧ F.constValues.getD i 0 = 0) := by
  obtain ⟨filt, l, h1, h2, hlen, hdl, hne, hf, hl, hb, hv0, hv1, hv2⟩ := computeAts_inv h
  have hdual := fun a c => ats_dual hf hdl hne hok a c
  have hfl : ∀ a, (filt a).length = F.signal.length := fun a => (hdual a 0).1
  have key : ∀ a, ip m.signal.length (padded cutPre.toNat (filt a) cutPost.toNat) rec =
      b * (if a = 2 then 1 else 0) + c * (if a = 0 then 1 else 0) + d * (if a = 1 then 1 else 0) := by
    intro a
    have e0 := (hdual a 0).2
    have e1 := (hdual a 1).2
    have e2 := (hdual a 2).2
    simp only [Matrix.cons_val_zero, Matrix.cons_val_one] at e0 e1
    rw [← e0, ← e1, ← e2]
    have hs := sum_padded_mul cutPre.toNat cutPost.toNat (filt a) (fun k => rec.getD k 0)
    rw [length_padded, hfl] at hs
    have hN : cutPre.toNat + F.signal.length + cutPost.toNat = m.signal.length := by omega
    rw [hN] at hs
    unfold ip
    rw [hs, Finset.mul_sum, Finset.mul_sum, Finset.mul_sum, ← Finset.sum_add_distrib, ← Finset.sum_add_distrib]
    refine Finset.sum_congr rfl fun i hi => ?_
    have hi' := Finset.mem_range.1 hi
    rw [hrec i hi']
    have e3 : ((![F.signal, F.dtModel, List.replicate F.signal.length 1] : Fin 3 → List K) 2).getD i 0 = 1 := by
      show (List.replicate F.signal.length (1 : K)).getD i 0 = 1
      rw [List.getD_eq_getElem?_getD, List.getElem?_replicate, if_pos hi']
      rfl
    rw [e3]
    ring
  refine ⟨?_, ?_, ?_, ?_, ?_⟩
  · rw [hv0, key 0]; simp
  · rw [hv1, key 1]; simp
  · rw [hv2, key 2]; simp
  · rw [hv0, length_padded, hfl]; omega
  · intro i hi
    rw [hv0, hv1, hv2]
    simp only [getD_padded]
    have : ∀ a, (if cutPre.toNat ≤ i then (filt a).getD (i - cutPre.toNat) 0 else 0) = 0 := by
      intro a
      split
      · rw [getD_ge _ (by rw [hfl]; omega)]
      · rfl
    exact ⟨this 0, this 1, this 2⟩

/-- The variance of a padded filter is that of the part inside the windows: the noise is stationary. -/
theorem bracket_padded (l : List K) (a b : Nat) (f : List K) :
    ∑ i ∈ Finset.range (padded a f b).length, ∑ j ∈ Finset.range (padded a f b).length,
        (padded a f b).getD i 0 * l.getD ((i : Int) - j).natAbs 0 * (padded a f b).getD j 0 =
      ∑ i ∈ Finset.range f.length, ∑ j ∈ Finset.range f.length, f.getD i 0 * l.getD ((i : Int) - j).natAbs 0 * f.getD j 0 := by
  have e1 : ∀ i : Nat, ∑ j ∈ Finset.range (padded a f b).length, (padded a f b).getD i 0 * l.getD ((i : Int) - j).natAbs 0 * (padded a f b).getD j 0 =
      (padded a f b).getD i 0 * ∑ j ∈ Finset.range f.length, f.getD j 0 * l.getD ((i : Int) - ((a + j : Nat) : Int)).natAbs 0 := by
    intro i
    rw [← sum_padded_mul a b f (fun j => l.getD ((i : Int) - j).natAbs 0), Finset.mul_sum]
    exact Finset.sum_congr rfl fun j _ => by ring
  rw [Finset.sum_congr rfl fun i _ => e1 i,
    sum_padded_mul a b f (fun i => ∑ j ∈ Finset.range f.length, f.getD j 0 * l.getD ((i : Int) - ((a + j : Nat) : Int)).natAbs 0)]
  refine Finset.sum_congr rfl fun i _ => ?_
  rw [Finset.mul_sum]
  refine Finset.sum_congr rfl fun j _ => ?_
  have : (((a + i : Nat) : Int) - ((a + j : Nat) : Int)) = (i : Int) - j := by omega
  rw [this]
  ring

/-- C64. With the noise autocorrelation and a positive definite noise matrix, no weights over the same window with the same responses (1 to the signal, 0 to
the arrival-time model, 0 to a constant) have a smaller output variance. -/
theorem ats_optimal_partial {m : Maker K} {cutPre cutPost : Int} {F : Filt K} (h : computeAts m cutPre cutPost = .ok F) (hw : m.whitener = none)
    (hpd : PosDef ((computeAutocorr m cutPre cutPost).take F.signal.length)) (g : List K) (hg : g.length = F.signal.length)
    (hgs : ip F.signal.length g F.signal = 1) (hgd : ip F.signal.length g F.dtModel = 0) (hg1 : g.sum = 0) :
    ∃ l v, m.autocorr = some l ∧ bracketR (padded cutPre.toNat g cutPost.toNat) l = .ok v ∧ F.variance ≤ v := by
  obtain ⟨filt, l, hc1, hc2, hlen, hdl, hne, hf, hl, hb, hv0, -, -⟩ := computeAts_inv h
  have hok : AtsOK m (computeAutocorr m cutPre cutPost) F.signal.length := by unfold AtsOK; rw [hw]; exact hpd
  have hdual := fun a c => ats_dual hf hdl hne hok a c
  set n := F.signal.length with hn
  have hpos : 0 < n := List.length_pos_iff.2 hne
  -- the filter is a combination of three solutions
  have hca : computeAutocorr m cutPre cutPost = l.take n := by
    unfold computeAutocorr
    rw [hl]
    dsimp only
    unfold pySlice
    dsimp only
    rw [if_neg (by omega), List.drop_zero]
    congr 1
    omega
  have hPl : ∀ f : List K, f.length = n → (padded cutPre.toNat f cutPost.toNat).length = m.signal.length := by
    intro f hf'
    rw [length_padded, hf']
    omega
  have hPne : ∀ f : List K, f.length = n → padded cutPre.toNat f cutPost.toNat ≠ [] := by
    intro f hf' h0
    have := hPl f hf'
    rw [h0] at this
    simp at this
    omega
  have hf0 : (filt 0).length = n := (hdual 0 0).1
  have hll : m.signal.length ≤ l.length := by
    unfold bracketR at hb
    split at hb
    · exact absurd hb (by simp)
    · rename_i hc
      rw [hv0, hPl _ hf0] at hc
      omega
  set T := (computeAutocorr m cutPre cutPost).take n with hT
  have hTl : T = l.take n := by rw [hT, hca, List.take_take, Nat.min_self]
  have hTn : T.length = n := by rw [hTl, List.length_take]; omega
  have hTget : ∀ k, k < n → T.getD k 0 = l.getD k 0 := by
    intro k hk
    rw [hTl, List.getD_eq_getElem?_getD, List.getD_eq_getElem?_getD, List.getElem?_take, if_pos hk]
  unfold atsFilters at hf
  dsimp only at hf
  rw [hw] at hf
  dsimp only at hf
  split at hf
  · exact absurd hf (by simp)
  rw [← hn, ← hT] at hf
  set M : Fin 3 → List K := ![F.signal, F.dtModel, List.replicate n 1] with hM
  cases hS : mkSym T with
  | error e => rw [hS] at hf; exact absurd hf (by simp)
  | ok S =>
    rw [hS] at hf; dsimp only at hf
    cases hX : mapM3 (solveSym S) M with
    | error e => rw [hX] at hf; exact absurd hf (by simp)
    | ok X =>
      rw [hX] at hf; dsimp only at hf
      cases hA : inv3 (Matrix.of fun a b => ip n (M a) (X b)) with
      | error e => rw [hA] at hf; exact absurd hf (by simp)
      | ok Ainv =>
        rw [hA] at hf; dsimp only at hf
        injection hf with hf
        have hX' := mapM3_ok hX
        have hsol := fun b => posdef_solve hS hpd (hX' b)
        simp only [hTn] at hsol
        refine ⟨l, _, hl, bracketR_spec (by rw [hPl _ hg]; omega) (hPne _ hg), ?_⟩
        rw [hv0, bracketR_spec (by rw [hPl _ hf0]; omega) (hPne _ hf0)] at hb
        injection hb with hb
        rw [← hb, bracket_padded, bracket_padded, hf0, hg]
        have hbil : ∀ a : Nat → K, ∑ i ∈ Finset.range n, ∑ j ∈ Finset.range n, a i * l.getD ((i : Int) - j).natAbs 0 * a j = bil T n a a := by
          intro a
          unfold bil
          refine Finset.sum_congr rfl fun i hi => Finset.sum_congr rfl fun j hj => ?_
          have := Finset.mem_range.1 hi
          have := Finset.mem_range.1 hj
          rw [hTget _ (by omega)]
        rw [hbil, hbil]
        let d : Nat → K := fun i => g.getD i 0 - (filt 0).getD i 0
        have hgd' : bil T n (fun i => g.getD i 0) (fun i => g.getD i 0) = bil T n (fun i => (filt 0).getD i 0 + d i) (fun i => (filt 0).getD i 0 + d i) :=
          bil_congr T n (fun i _ => by show _ = _ + (_ - _); ring) (fun i _ => by show _ = _ + (_ - _); ring)
        rw [hgd', bil_add]
        -- d is orthogonal to the three models
        have hgM : ∀ b, ip n g (M b) = if (0 : Fin 3) = b then 1 else 0 := by
          intro b
          fin_cases b
          · exact hgs
          · exact hgd
          · show ip n g (List.replicate n 1) = 0
            rw [← hg1, sum_getD, hg]
            unfold ip
            refine Finset.sum_congr rfl fun i hi => ?_
            rw [List.getD_eq_getElem?_getD (l := List.replicate _ _), List.getElem?_replicate, if_pos (Finset.mem_range.1 hi)]
            exact mul_one _
        have hfM : ∀ b, ip n (filt 0) (M b) = if (0 : Fin 3) = b then 1 else 0 := by
          intro b
          exact (hdual 0 b).2
        have hdM : ∀ b, ∑ i ∈ Finset.range n, d i * (M b).getD i 0 = 0 := by
          intro b
          have e : ∑ i ∈ Finset.range n, d i * (M b).getD i 0 = ip n g (M b) - ip n (filt 0) (M b) := by
            unfold ip
            rw [← Finset.sum_sub_distrib]
            exact Finset.sum_congr rfl fun i _ => by show (_ - _) * _ = _; ring
          rw [e, hgM, hfM, sub_self]
        have hcross : bil T n d (fun i => (filt 0).getD i 0) = 0 := by
          have e : bil T n d (fun i => (filt 0).getD i 0) = ∑ b : Fin 3, Ainv 0 b * bil T n d (fun i => (X b).getD i 0) := by
            unfold bil
            simp only [Finset.mul_sum]
            conv_rhs => rw [Finset.sum_comm]
            refine Finset.sum_congr rfl fun i _ => ?_
            conv_rhs => rw [Finset.sum_comm]
            refine Finset.sum_congr rfl fun j hj => ?_
            rw [← hf]
            unfold combine
            rw [getD_map_range _ _ _ (Finset.mem_range.1 hj), Finset.mul_sum]
            exact Finset.sum_congr rfl fun b _ => by ring
          rw [e]
          refine Finset.sum_eq_zero fun b _ => ?_
          rw [bil_solve T n d _ _ (hsol b), hdM b, mul_zero]
        rw [hcross]
        have := posdef_nonneg hpd d
        rw [hTn] at this
        linarith

/-- C64. With a whitener: the filter's answer to a noise record is a fixed weighted sum u₀ of the whitened record, and no weights over the same window with the
same responses (1 to the signal, 0 to the arrival-time model, 0 to a constant) have a smaller sum of squares of such weights. (The sum of squares is the
output variance when the whitened noise is white with variance one.) -/
theorem ats_white_optimal_partial {m : Maker K} {cutPre cutPost : Int} {F : Filt K} {θ φ : List K} (h : computeAts m cutPre cutPost = .ok F)
    (hw : m.whitener = some (θ, φ)) (hθ : θ.getD 0 0 ≠ 0) (hφ : φ ≠ []) (hq : 2 ≤ θ.length) :
    ∃ f u₀ : List K, F.values = padded cutPre.toNat f cutPost.toNat ∧ f.length = F.signal.length ∧ u₀.length = F.signal.length ∧
      (∀ v : List K, v.length = F.signal.length → ∃ w, whiten θ φ v = .ok w ∧ w.length = v.length ∧ ip F.signal.length f v = ip F.signal.length u₀ w) ∧
      ∀ g u : List K, (∀ v w : List K, v.length = F.signal.length → whiten θ φ v = .ok w → ip F.signal.length g v = ip F.signal.length u w) →
        ip F.signal.length g F.signal = 1 → ip F.signal.length g F.dtModel = 0 → ip F.signal.length g (List.replicate F.signal.length 1) = 0 →
        ip F.signal.length u₀ u₀ ≤ ip F.signal.length u u := by
  obtain ⟨filt, l, -, -, -, hdl, hne, hf, -, -, hv0, -, -⟩ := computeAts_inv h
  have hok : AtsOK m (computeAutocorr m cutPre cutPost) F.signal.length := by unfold AtsOK; rw [hw]; exact ⟨hθ, hφ, hq⟩
  have hdual := fun a c => ats_dual hf hdl hne hok a c
  set n := F.signal.length with hn
  have hpos : 0 < n := List.length_pos_iff.2 hne
  unfold atsFilters at hf
  dsimp only at hf
  rw [hw] at hf
  dsimp only at hf
  rw [← hn] at hf
  set M : Fin 3 → List K := ![F.signal, F.dtModel, List.replicate n 1] with hM
  have hMl : ∀ a, (M a).length = n := by intro a; fin_cases a <;> simp [hM, hdl, hn]
  cases hWM : mapM3 (whiten θ φ) M with
  | error e => rw [hWM] at hf; exact absurd hf (by simp)
  | ok WM =>
    rw [hWM] at hf; dsimp only at hf
    cases hA : inv3 (Matrix.of fun a b => ip n (WM a) (WM b)) with
    | error e => rw [hA] at hf; exact absurd hf (by simp)
    | ok Ainv =>
      rw [hA] at hf; dsimp only at hf
      cases hX : mapM3 (applyWT θ φ) WM with
      | error e => rw [hX] at hf; exact absurd hf (by simp)
      | ok X =>
        rw [hX] at hf; dsimp only at hf
        injection hf with hf
        have hWM' := mapM3_ok hWM
        have hX' := mapM3_ok hX
        have hne' : ∀ v : List K, v.length = n → v ≠ [] := by rintro v hv rfl; simp at hv; omega
        have hbl : ∀ b, (WM b).length = n := by
          intro b
          obtain ⟨w, h1, h2, -⟩ := whiten_entries (θ := θ) (φ := φ) (v := M b) hθ hφ (hne' _ (hMl b)) (.inl hq)
          rw [hWM' b] at h1
          injection h1 with h1
          rw [h1, h2, hMl]
        -- the answer of the filter to any record
        have hans : ∀ v : List K, v.length = n → ∃ w, whiten θ φ v = .ok w ∧ w.length = v.length ∧ ip n (filt 0) v = ip n (combine n Ainv WM 0) w := by
          intro v hv
          obtain ⟨w, h1, h2, -⟩ := whiten_entries (θ := θ) (φ := φ) (v := v) hθ hφ (hne' _ hv) (.inl hq)
          refine ⟨w, h1, h2, ?_⟩
          rw [← hf, ip_combine, ip_combine]
          refine Finset.sum_congr rfl fun b _ => ?_
          obtain ⟨p, q, hp, hq', hpq⟩ := applyWT_transpose_partial (θ := θ) (φ := φ) (u := v) (v := WM b) hθ hφ (hne' _ (hbl b)) (by rw [hv, hbl]) (.inl hq)
          rw [h1] at hp
          injection hp with hp
          rw [hX' b] at hq'
          injection hq' with hq'
          rw [hbl, ← hp, ← hq'] at hpq
          have e : ip n (X b) v = ip n (WM b) w := by
            rw [ip_comm n (X b) v, ip_comm n (WM b) w]
            exact hpq.symm
          rw [e]
        refine ⟨filt 0, combine n Ainv WM 0, hv0, (hdual 0 0).1, by simp [combine], hans, ?_⟩
        intro g u hgu hgs hgd hg1
        have hgM : ∀ b, ip n u (WM b) = if (0 : Fin 3) = b then 1 else 0 := by
          intro b
          rw [← hgu (M b) (WM b) (hMl b) (hWM' b)]
          fin_cases b
          · exact hgs
          · exact hgd
          · exact hg1
        have hfM : ∀ b, ip n (combine n Ainv WM 0) (WM b) = if (0 : Fin 3) = b then 1 else 0 :=
          fun b => combine_dual n WM WM (inv3_ok hA) (fun _ _ => rfl) 0 b
        have hcross : ip n u (combine n Ainv WM 0) = ip n (combine n Ainv WM 0) (combine n Ainv WM 0) := by
          rw [ip_comm, ip_combine, ip_combine]
          refine Finset.sum_congr rfl fun b _ => ?_
          rw [ip_comm n (WM b) u, ip_comm n (WM b), hgM, hfM]
        have hsq : 0 ≤ ∑ i ∈ Finset.range n, (u.getD i 0 - (combine n Ainv WM 0).getD i 0) ^ 2 := Finset.sum_nonneg fun i _ => sq_nonneg _
        have he : ∑ i ∈ Finset.range n, (u.getD i 0 - (combine n Ainv WM 0).getD i 0) ^ 2 =
            ip n u u - 2 * ip n u (combine n Ainv WM 0) + ip n (combine n Ainv WM 0) (combine n Ainv WM 0) := by
          unfold ip
          rw [Finset.mul_sum, ← Finset.sum_sub_distrib, ← Finset.sum_add_distrib]
          exact Finset.sum_congr rfl fun i _ => by ring
        rw [he, hcross] at hsq
        linarith

/-- C64, instance [specification] -/
def demoAts : Maker ℚ := ⟨[0, 0, 0, 4, 2, 1], 3, some [2, 1, 0, 0, 0, 0], some [0, 0, 4, -2, -1, 0], none, 0⟩
example : (computeAts demoAts 0 0).map (fun F => (ip 6 F.values [5, 5, 5, 5 + 8, 5 + 4, 5 + 2], ip 6 F.constValues [5, 5, 5, 5 + 8, 5 + 4, 5 + 2],
    decide (0 < F.variance))) = .ok (8, 5, true) := by decide +kernel

/-- C64, instances: cut windows; a whitener -/
example : (computeAts demoAts 1 1).map (fun F => (F.values.getD 0 7, F.values.getD 5 7, ip 4 (F.values.drop 1) F.signal, F.signal.length)) = .ok (0, 0, 1, 4) ∧
    (computeAts { demoAts with whitener := some ([2, 1], [1, 1]) } 1 0).map (fun F => (F.values.getD 0 7, ip 5 (F.values.drop 1) F.signal, ip 5 (F.values.drop 1) F.dtModel)) =
      .ok (0, 1, 0) := by decide +kernel

/-- With a whitener but no autocorrelation (allowed by the class description) the computation of the variance raises TypeError, after the filter itself was found. -/
theorem ats_whitener_only_fails : computeAts { demoAts with autocorr := none, whitener := some ([2, 1], [1, 1]) } 0 0 = .error .type ∧
    (atsFilters { demoAts with autocorr := none, whitener := some ([2, 1], [1, 1]) } [] [0, 0, 0, 1, 1 / 2, 1 / 4] [0, 0, 1, -1 / 2, -1 / 4, 0]).isOk = true := by
  decide +kernel

end Mass.Lin
