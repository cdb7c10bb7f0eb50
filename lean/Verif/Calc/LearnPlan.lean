import Verif.Calc.Autocal
import Verif.Calc.Plan
/-! C166: a calibration plan found from the strongest peaks (mass/off/channels.py `learnCalibrationPlanFromEnergiesAndPeaks`). The values of the pulses are those
of the default cut and the states asked for, the smeared histogram is an arbitrary function. -/
namespace Mass.Calc.LearnPlan
open Mass Mass.Calc.Fit Mass.Calc.Auto Mass.Calc.Plan Mass.Calc.Cal
set_option linter.unusedSectionVars false

variable {K : Type} [Field K] [LinearOrder K] [IsStrictOrderedRing K] {S : Type}

/-! ### model -/

/-- channels.py L681-682: the loop over the assigned peaks. A number instead of a name is in neither dictionary (L613-623). -/
def addPoints (spectra : String → Option (Plan.Line K)) (feat : String → Option K) (st : S) : List (K × Fit.Line K) → Plan.Chan K S → Except Exc Unit × Plan.Chan K S
  | [], c => (.ok (), c)
  | (_, .energy _) :: _, c => (.error .exception, c)
  | (v, .name s) :: t, c =>
    match planAddPoint spectra feat c ⟨v, s, st, none⟩ with
    | (.error e, c') => (.error e, c')
    | (.ok _, c') => addPoints spectra feat st t c'

/-- channels.py L676-682 `learnCalibrationPlanFromEnergiesAndPeaks`. `vals` are the values of the attribute for the states, `tol2` is maxacc squared. The numbers 2, 3 (as 2 + 1)
and 8 are the defaults of find_opt_assignment (algorithms.py L67). -/
def learn (smooth : List K → K → List (K × K)) (spectra : String → Option (Plan.Line K)) (feat : String → Option K) (vals : List K) (fwhm : K) (st : S) (lines : List (Fit.Line K)) (tol2 : K)
    (c : Plan.Chan K S) : Except Exc Unit × Plan.Chan K S :=
  match findLocalMaxima smooth vals fwhm with
  | .error e => (.error e, c)
  | .ok lm =>
    match sortLines feat lines with
    | .error e => (.error e, c)
    | .ok ps =>
      match findOptAssignment (lm.map Prod.fst) (ps.map Prod.snd) 2 2 8 tol2 with
      | .error e => (.error e, c)
      | .ok a => addPoints spectra feat st (a.zip (ps.map Prod.fst)) (planInit c)

/-! ### lemmas -/

theorem addPoints_ok (spectra : String → Option (Plan.Line K)) (feat : String → Option K) (st : S) (l : List (K × Fit.Line K)) :
    ∀ {c c' : Plan.Chan K S}, addPoints spectra feat st l c = (.ok (), c') →
      ∃ qs : List (Plan.Line K), List.Forall₂ (fun p q => ∃ s, p.2 = .name s ∧ lineFor spectra feat s none = .ok q) l qs ∧
        c'.plan = ⟨c.plan.vals ++ l.map Prod.fst, c.plan.states ++ List.replicate l.length st, c.plan.lines ++ qs⟩ ∧ c'.bad = c.bad ∧
        (l = [] ∧ c'.energyRough = c.energyRough ∨ ∃ T, rough c'.plan = .ok T ∧ c'.energyRough = some T) := by
  induction l with
  | nil =>
    intro c c' h
    obtain rfl : c = c' := (Prod.ext_iff.1 h).2
    exact ⟨[], .nil, by simp, rfl, .inl ⟨rfl, rfl⟩⟩
  | cons p t ih =>
    intro c c' h
    obtain ⟨v, n⟩ := p
    cases n with
    | energy e => exact absurd (Prod.ext_iff.1 h).1 (by simp [addPoints])
    | name s =>
      unfold addPoints at h
      cases hl : lineFor spectra feat s none with
      | error e =>
        simp only [planAddPoint, hl] at h
        exact absurd (Prod.ext_iff.1 h).1 (by simp)
      | ok q =>
        cases hr : rough (addCalPoint c.plan v st q) with
        | error e =>
          simp only [planAddPoint, hl, hr] at h
          exact absurd (Prod.ext_iff.1 h).1 (by simp)
        | ok T =>
          simp only [planAddPoint, hl, hr] at h
          obtain ⟨qs, h1, h2, h3, h4⟩ := ih h
          refine ⟨q :: qs, .cons ⟨s, rfl, hl⟩ h1, ?_, h3, .inr ?_⟩
          · rw [h2]
            simp [addCalPoint, List.replicate_succ]
          · rcases h4 with ⟨rfl, h4⟩ | h4
            · refine ⟨T, ?_, h4⟩
              obtain rfl := List.forall₂_nil_left_iff.1 h1
              rw [h2]
              simpa [addCalPoint] using hr
            · exact h4

/-! ### C166 -/

/-- C166. What is planned: the lines in order of energy, at increasing positions chosen among the strongest peaks of the smeared histogram such that no other choice
fits better to the energies, for the states given and nothing else. The rough calibration installed is that of the plan. -/
theorem learn_plan {smooth : List K → K → List (K × K)} {spectra : String → Option (Plan.Line K)} {feat : String → Option K} {vals : List K} {fwhm : K} {st : S} {lines : List (Fit.Line K)} {tol2 : K}
    {c c' : Plan.Chan K S} (h : learn smooth spectra feat vals fwhm st lines tol2 c = (.ok (), c')) :
    ∃ (ps : List (String × K)) (lm : List (K × K)) (N : Nat),
      (ps.map (fun p => Fit.Line.name p.1)).Perm lines ∧ (∀ p ∈ ps, feat p.1 = some p.2) ∧ ps.Pairwise (fun a b => a.2 ≤ b.2) ∧
      lm.Pairwise (fun a b => b.2 ≤ a.2) ∧
      (∀ p, p ∈ lm ↔ ∃ i a d, (smooth vals fwhm)[i]? = some a ∧ (smooth vals fwhm)[i + 1]? = some p ∧ (smooth vals fwhm)[i + 2]? = some d ∧ a.2 < p.2 ∧ d.2 < p.2) ∧
      N ≤ ps.length + 8 ∧ Choice (lm.map Prod.fst) N ps.length c'.plan.vals ∧
      (∀ b, Choice (lm.map Prod.fst) N ps.length b → score (ps.map Prod.snd) c'.plan.vals ≤ score (ps.map Prod.snd) b) ∧
      score (ps.map Prod.snd) c'.plan.vals ≤ tol2 * ps.length ∧
      c'.plan.states = List.replicate ps.length st ∧
      List.Forall₂ (fun p q => lineFor spectra feat p.1 none = .ok q) ps c'.plan.lines ∧
      c'.bad = c.bad ∧ (lines ≠ [] → ∃ T, rough c'.plan = .ok T ∧ c'.energyRough = some T) := by
  unfold learn at h
  by_cases hv : vals = []
  · rw [(peaks_found smooth vals fwhm).1 hv] at h
    exact absurd (Prod.ext_iff.1 h).1 (by simp)
  obtain ⟨lm, m1, m2, m3⟩ := (peaks_found smooth vals fwhm).2 hv
  rw [m1] at h
  rcases sort_lines feat lines with ⟨ps, p1, p2, p3, p4⟩ | ⟨p1, _⟩
  swap
  · rw [p1] at h
    exact absurd (Prod.ext_iff.1 h).1 (by simp)
  rw [p1] at h
  dsimp only at h
  cases ha : findOptAssignment (lm.map Prod.fst) (ps.map Prod.snd) 2 2 8 tol2 with
  | error e =>
    rw [ha] at h
    exact absurd (Prod.ext_iff.1 h).1 (by simp)
  | ok a =>
    rw [ha] at h
    dsimp only at h
    obtain ⟨qs, q1, q2, q3, q4⟩ := addPoints_ok spectra feat st _ h
    obtain ⟨j, j1, j2, j3, j4, _⟩ := assignment_best _ _ 2 2 8 tol2 ha
    rw [List.length_map] at j2 j3 j4
    have hal : a.length = ps.length := by
      obtain ⟨_, d, _, hd, hp⟩ := j2
      rw [hp.length_eq, hd]
    have hzf : (a.zip (ps.map Prod.fst)).map Prod.fst = a := List.map_fst_zip (by simp [hal])
    have hzs : (a.zip (ps.map Prod.fst)).map Prod.snd = ps.map Prod.fst := List.map_snd_zip (by simp [hal])
    have hzl : (a.zip (ps.map Prod.fst)).length = ps.length := by simp [hal]
    have hvals : c'.plan.vals = a := by
      rw [q2, hzf]
      rfl
    have hst : c'.plan.states = List.replicate ps.length st := by
      rw [q2, hzl]
      rfl
    have hln : c'.plan.lines = qs := by
      rw [q2]
      rfl
    have q1' : List.Forall₂ (fun n q => ∃ s, n = Fit.Line.name s ∧ lineFor spectra feat s none = .ok q) (ps.map Prod.fst) qs := by
      rw [← hzs, List.forall₂_map_left_iff]
      exact q1
    -- every line is a name
    have hname : ∀ (ps : List (Fit.Line K × K)) (qs : List (Plan.Line K)),
        List.Forall₂ (fun n q => ∃ s, n = Fit.Line.name s ∧ lineFor spectra feat s none = .ok q) (ps.map Prod.fst) qs →
        ∃ ns : List (String × K), ps = ns.map (fun p => (Fit.Line.name p.1, p.2)) ∧ List.Forall₂ (fun p q => lineFor spectra feat p.1 none = .ok q) ns qs := by
      intro ps
      induction ps with
      | nil =>
        intro qs hq
        rw [List.map_nil, List.forall₂_nil_left_iff] at hq
        subst hq
        exact ⟨[], rfl, .nil⟩
      | cons p t ih =>
        intro qs hq
        rw [List.map_cons, List.forall₂_cons_left_iff] at hq
        obtain ⟨q, qs', ⟨s, h1, h2⟩, h3, rfl⟩ := hq
        obtain ⟨ns, n1, n2⟩ := ih qs' h3
        refine ⟨(s, p.2) :: ns, ?_, .cons h2 n2⟩
        rw [List.map_cons, ← n1, ← h1]
    obtain ⟨ns, n1, n2⟩ := hname ps qs q1'
    have hlen : ns.length = ps.length := by rw [n1, List.length_map]
    have hsnd : ns.map Prod.snd = ps.map Prod.snd := by
      rw [n1, List.map_map]
      rfl
    refine ⟨ns, lm, ps.length + 2 + j * (2 + 1), ?_, ?_, ?_, m2, m3, ?_, ?_, ?_, ?_, ?_, ?_, q3, ?_⟩
    · have : ps.map Prod.fst = ns.map (fun p => Fit.Line.name p.1) := by
        rw [n1, List.map_map]
        rfl
      rw [← this]
      exact p2
    · intro p hp
      have := p3 (Fit.Line.name p.1, p.2) (by rw [n1]; exact List.mem_map_of_mem hp)
      unfold energyOf at this
      split at this
      · rename_i s hs
        split at this
        · rename_i e he
          cases hs
          rw [he, Except.ok.inj this]
        · cases this
      · rename_i hs
        cases hs
    · rw [n1, List.pairwise_map] at p4
      exact p4
    · omega
    · rw [hvals, hlen]; exact j2
    · rw [hvals, hlen, hsnd]; exact j4
    · rw [hvals, hlen, hsnd]; exact j3
    · rw [hst, hlen]
    · rw [hln]; exact n2
    · intro hne
      rcases q4 with ⟨q4, _⟩ | q4
      · exfalso
        apply hne
        have h0 : ps.length = 0 := by rw [← hzl, q4]; rfl
        rw [List.length_eq_zero_iff.1 h0] at p2
        exact (List.nil_perm.1 p2)
      · exact q4

/-- C166. Without pulses, with an unknown line, or if no choice among the peaks fits well enough, an exception is raised and the channel stays as it was. -/
theorem learn_unchanged (smooth : List K → K → List (K × K)) (spectra : String → Option (Plan.Line K)) (feat : String → Option K) (vals : List K) (fwhm : K) (st : S) (lines : List (Fit.Line K)) (tol2 : K)
    (c : Plan.Chan K S) :
    (vals = [] → learn smooth spectra feat vals fwhm st lines tol2 c = (.error .value, c)) ∧
    (vals ≠ [] → (∃ s, Fit.Line.name s ∈ lines ∧ feat s = none) → learn smooth spectra feat vals fwhm st lines tol2 c = (.error .type, c)) ∧
    (∀ lm ps, findLocalMaxima smooth vals fwhm = .ok lm → sortLines feat lines = .ok ps →
      (∀ b, Choice (lm.map Prod.fst) (ps.length + 8) ps.length b → tol2 * ps.length < score (ps.map Prod.snd) b) →
      learn smooth spectra feat vals fwhm st lines tol2 c = (.error .value, c)) := by
  refine ⟨fun hv => ?_, fun hv ⟨s, hs, hf⟩ => ?_, fun lm ps hm hp hno => ?_⟩
  · unfold learn
    rw [(peaks_found smooth vals fwhm).1 hv]
  · obtain ⟨lm, m1, _⟩ := (peaks_found smooth vals fwhm).2 hv
    unfold learn
    rw [m1]
    rcases sort_lines feat lines with ⟨ps, p1, p2, p3, _⟩ | ⟨p1, _⟩
    · exfalso
      have hmem : Fit.Line.name s ∈ ps.map Prod.fst := p2.mem_iff.2 hs
      obtain ⟨p, hp, he⟩ := List.mem_map.1 hmem
      have := p3 p hp
      rw [he] at this
      simp [energyOf, hf] at this
    · rw [p1]
  · unfold learn
    rw [hm, hp]
    dsimp only
    cases ha : findOptAssignment (lm.map Prod.fst) (ps.map Prod.snd) 2 2 8 tol2 with
    | error e =>
      dsimp only
      rw [(assignment_fails_only _ _ 2 2 8 tol2 ha).1]
    | ok a =>
      exfalso
      obtain ⟨j, j1, j2, j3, _, _⟩ := assignment_best _ _ 2 2 8 tol2 ha
      rw [List.length_map] at j2 j3
      refine absurd j3 (not_le.2 (hno a ?_))
      obtain ⟨h1, d, h2, h3, h4⟩ := j2
      exact ⟨h1, d, h2.trans ((List.take_sublist_take_left (by omega))), h3, h4⟩

/-- C166. The order in which the lines are given does not matter, if no two have the same energy. -/
theorem learn_order (smooth : List K → K → List (K × K)) (spectra : String → Option (Plan.Line K)) (feat : String → Option K) (vals : List K) (fwhm : K) (st : S) {lines lines' : List (Fit.Line K)} (tol2 : K)
    (c : Plan.Chan K S) (hp : lines.Perm lines') (hd : lines.Pairwise (fun a b => ∀ e, energyOf feat a = .ok e → energyOf feat b ≠ .ok e)) :
    learn smooth spectra feat vals fwhm st lines tol2 c = learn smooth spectra feat vals fwhm st lines' tol2 c := by
  unfold learn
  rw [sort_lines_perm feat hp hd]

theorem addPoints_energy (spectra : String → Option (Plan.Line K)) (feat : String → Option K) (st : S) (l : List (K × Fit.Line K)) {e : K} (h : Fit.Line.energy e ∈ l.map Prod.snd) (c : Plan.Chan K S) :
    (addPoints spectra feat st l c).1 ≠ .ok () := by
  intro hok
  obtain ⟨qs, h1, _⟩ := addPoints_ok spectra feat st l (c' := (addPoints spectra feat st l c).2) (Prod.ext hok rfl)
  obtain ⟨p, hp, he⟩ := List.mem_map.1 h
  obtain ⟨i, hi, rfl⟩ := List.getElem_of_mem hp
  obtain ⟨s, hs, _⟩ := h1.get hi (by rw [← h1.length_eq]; exact hi)
  simp only [List.get_eq_getElem] at hs
  rw [he] at hs
  cases hs

/-- Disagreement (C166): lines may be given as energies where peaks are assigned to them, but then there is no plan: an exception is raised (and the plan there was is lost, `lost_fails`). -/
theorem energies_fails (smooth : List K → K → List (K × K)) (spectra : String → Option (Plan.Line K)) (feat : String → Option K) (vals : List K) (fwhm : K) (st : S) (lines : List (Fit.Line K)) (tol2 : K)
    (c : Plan.Chan K S) {e : K} (he : Fit.Line.energy e ∈ lines) :
    (learn smooth spectra feat vals fwhm st lines tol2 c).1 ≠ .ok () := by
  intro hok
  obtain ⟨ps, lm, N, h1, _⟩ := learn_plan (c' := (learn smooth spectra feat vals fwhm st lines tol2 c).2) (Prod.ext hok rfl)
  have := h1.mem_iff.2 he
  obtain ⟨p, _, hp⟩ := List.mem_map.1 this
  cases hp

theorem compatible_left {a b : List (K × Plan.Line K)} (h : Compatible (a ++ b)) : Compatible a :=
  ⟨(List.pairwise_append.1 h.1).1, fun p hp q hq => h.2 p (by simp [hp]) q (by simp [hq])⟩

theorem addPoints_compatible (spectra : String → Option (Plan.Line K)) (feat : String → Option K) (st : S) (l : List (K × String × Plan.Line K)) :
    ∀ (c : Plan.Chan K S), c.plan.vals.length = c.plan.lines.length → (∀ p ∈ l, lineFor spectra feat p.2.1 none = .ok p.2.2) →
      Compatible (c.plan.vals.zip c.plan.lines ++ l.map (fun p => (p.1, p.2.2))) →
      ∃ c', addPoints spectra feat st (l.map (fun p => (p.1, .name p.2.1))) c = (.ok (), c') := by
  induction l with
  | nil => exact fun c _ _ _ => ⟨c, rfl⟩
  | cons p t ih =>
    intro c hl hf hc
    have hz : (c.plan.vals ++ [p.1]).zip (c.plan.lines ++ [p.2.2]) = c.plan.vals.zip c.plan.lines ++ [(p.1, p.2.2)] := by
      rw [List.zip_append hl]
      rfl
    have hc' : Compatible ((c.plan.vals.zip c.plan.lines ++ [(p.1, p.2.2)]) ++ t.map (fun p => (p.1, p.2.2))) := by simpa using hc
    obtain ⟨T, hT, _⟩ := rough_points_partial (p := addCalPoint c.plan p.1 st p.2.2) (by
      show Compatible ((c.plan.vals ++ [p.1]).zip (c.plan.lines ++ [p.2.2]))
      rw [hz]
      exact compatible_left hc')
    obtain ⟨c', h⟩ := ih { c with plan := addCalPoint c.plan p.1 st p.2.2, energyRough := some T } (by simp [addCalPoint, hl]) (fun q hq => hf q (by simp [hq])) (by
      show Compatible ((c.plan.vals ++ [p.1]).zip (c.plan.lines ++ [p.2.2]) ++ _)
      rw [hz]
      exact hc')
    refine ⟨c', ?_⟩
    rw [List.map_cons, addPoints]
    simp only [planAddPoint, hf p (by simp), hT]
    exact h

theorem localMaxima_sublist (l : List (K × K)) : (localMaxima l).Sublist l.tail := by
  fun_induction localMaxima l with
  | case1 a b c t ih =>
    rw [List.tail_cons] at ih ⊢
    split
    · exact ih.cons_cons b
    · rw [List.nil_append]
      exact ih.trans (List.sublist_cons_self _ _)
  | case2 l h => exact List.nil_sublist _

/-- C166. If among the strongest peaks there are ones in exactly linear relation to the energies of the lines, which differ by more than 0.01 eV, a plan is made, and
the positions in it fit the energies exactly as well. -/
theorem learn_linear (smooth : List K → K → List (K × K)) (spectra : String → Option (Plan.Line K)) (feat : String → Option K) (vals : List K) (fwhm : K) (st : S) (tol2 : K) (c : Plan.Chan K S)
    (hv : vals ≠ []) (ht : 0 ≤ tol2) (hx : (smooth vals fwhm).Pairwise (fun a b => a.1 < b.1)) {ls : List (String × Plan.Line K)}
    (hl : ∀ p ∈ ls, feat p.1 = some p.2.peak ∧ lineFor spectra feat p.1 none = .ok p.2)
    (hsep : ls.Pairwise (fun p q => p.2.peak + 1 / 100 < q.2.peak ∧ (q.2.name ≠ "" → p.2.name ≠ q.2.name)))
    {lines : List (Fit.Line K)} (hp : lines.Perm (ls.map (fun p => .name p.1))) {lm : List (K × K)} (hm : findLocalMaxima smooth vals fwhm = .ok lm) {g o : K} (hg : 0 < g) {d : List K}
    (hd : d.Sublist ((lm.map Prod.fst).take (ls.length + 2))) (hdp : d.Perm (ls.map (fun p => g * p.2.peak + o))) :
    ∃ c', learn smooth spectra feat vals fwhm st lines tol2 c = (.ok (), c') ∧ score (ls.map (fun p => p.2.peak)) c'.plan.vals = 0 ∧ c'.plan.lines = ls.map Prod.snd := by
  have hes : ∀ p ∈ ls, energyOf feat (.name p.1) = .ok p.2.peak := by
    intro p hp
    simp [energyOf, (hl p hp).1]
  have hdist : (ls.map (fun p => Fit.Line.name p.1)).Pairwise (fun a b : Fit.Line K => ∀ e, energyOf feat a = .ok e → energyOf feat b ≠ .ok e) := by
    rw [List.pairwise_map]
    refine hsep.imp_of_mem ?_
    intro a b ha hb h e h1 h2
    rw [hes a ha] at h1
    rw [hes b hb] at h2
    have := Except.ok.inj h1
    have := Except.ok.inj h2
    have := h.1
    linarith
  rw [learn_order smooth spectra feat vals fwhm st tol2 c hp (by
    haveI : Std.Symm (fun a b : Fit.Line K => ∀ e, energyOf feat a = .ok e → energyOf feat b ≠ .ok e) := ⟨fun a b h e h1 h2 => h e h2 h1⟩
    exact hp.symm.pairwise hdist (fun {a b} h e h1 h2 => h e h2 h1))]
  -- sorting leaves them as they are
  have hsort : sortLines feat (ls.map (fun p => Fit.Line.name p.1)) = .ok (ls.map (fun p => (Fit.Line.name p.1, p.2.peak))) := by
    rcases pairs_spec feat (ls.map (fun p => Fit.Line.name p.1)) with ⟨h1, h2⟩ | ⟨_, l, h2, h3⟩
    · unfold sortLines
      rw [h1]
      dsimp only
      have e : (ls.map (fun p => Fit.Line.name p.1)).map (fun l => (l, val feat l)) = ls.map (fun p => (Fit.Line.name p.1, p.2.peak)) := by
        rw [List.map_map]
        refine List.map_congr_left fun p hp => ?_
        simp only [Function.comp]
        rw [show val feat (Fit.Line.name p.1) = p.2.peak by simp [val, hes p hp]]
      rw [e, List.Pairwise.insertionSort_eq]
      rw [List.pairwise_map]
      exact hsep.imp (fun {a b} h => by have := h.1; show a.2.peak ≤ b.2.peak; linarith)
    · obtain ⟨p, hp, rfl⟩ := List.mem_map.1 h2
      rw [hes p hp] at h3
      cases h3
  have hfs : (ls.map (fun p => ((Fit.Line.name p.1 : Fit.Line K), p.2.peak))).map Prod.snd = ls.map (fun p => p.2.peak) := by
    rw [List.map_map]
    rfl
  have hfn : (ls.map (fun p => ((Fit.Line.name p.1 : Fit.Line K), p.2.peak))).map Prod.fst = ls.map (fun p => (Fit.Line.name p.1 : Fit.Line K)) := by
    rw [List.map_map]
    rfl
  obtain ⟨a, a1, a2, a3⟩ := assignment_linear (lm.map Prod.fst) (ls.map (fun p => p.2.peak)) 2 2 8 tol2 ht
    (by rw [List.pairwise_map]; exact hsep.imp (fun {a b} h => by have := h.1; linarith)) g o hg d (by rw [List.length_map]; exact hd)
    (by rw [List.map_map]; exact hdp)
  -- positions of different peaks are different
  have hnd : (lm.map Prod.fst).Nodup := by
    unfold findLocalMaxima at hm
    rw [if_neg hv] at hm
    obtain rfl := Except.ok.inj hm
    refine ((List.perm_insertionSort _ _).map _).nodup_iff.2 ?_
    rw [List.Nodup, List.pairwise_map]
    have hs := (localMaxima_sublist (smooth vals fwhm)).trans (List.tail_sublist _)
    exact (hx.sublist hs).imp (fun {a b} h => h.ne)
  obtain ⟨b1, d', b2, b3, b4⟩ := a2
  have hal : a.length = ls.length := by rw [b4.length_eq, b3, List.length_map]
  have hstrict : a.Pairwise (· < ·) := by
    have hn : a.Nodup := b4.nodup_iff.2 ((b2.trans (List.take_sublist _ _)).nodup hnd)
    exact (b1.and hn).imp (fun {x y} h => lt_of_le_of_ne h.1 h.2)
  have hz1 : (a.zip ls).map (fun p => (p.1, Fit.Line.name (K := K) p.2.1)) = a.zip (ls.map (fun p => Fit.Line.name p.1)) := by
    rw [List.zip_map_right]
    rfl
  obtain ⟨c', hc'⟩ := addPoints_compatible spectra feat st (a.zip ls) (planInit c) rfl (fun p hp => (hl p.2 (List.of_mem_zip hp).2).2) (by
    show Compatible ([] ++ _)
    rw [List.nil_append]
    have hw : (a.zip ls).Pairwise (fun p q => p.1 < q.1 ∧ p.2.2.peak + 1 / 100 < q.2.2.peak ∧ (q.2.2.name ≠ "" → p.2.2.name ≠ q.2.2.name)) := by
      rw [List.pairwise_iff_getElem]
      intro i j hi hj hij
      simp only [List.length_zip] at hi hj
      simp only [List.getElem_zip]
      exact ⟨List.pairwise_iff_getElem.1 hstrict i j (by omega) (by omega) hij, List.pairwise_iff_getElem.1 hsep i j (by omega) (by omega) hij⟩
    refine ⟨?_, ?_⟩
    · rw [List.pairwise_map]
      refine hw.imp ?_
      intro p q h
      refine ⟨?_, h.2.2⟩
      rw [abs_of_pos (by linarith [h.2.1])]
      linarith [h.2.1]
    · intro p hp q hq
      obtain ⟨p', hp', rfl⟩ := List.mem_map.1 hp
      obtain ⟨q', hq', rfl⟩ := List.mem_map.1 hq
      obtain ⟨i, hi, rfl⟩ := List.getElem_of_mem hp'
      obtain ⟨j, hj, rfl⟩ := List.getElem_of_mem hq'
      rcases lt_trichotomy i j with h | rfl | h
      · have := List.pairwise_iff_getElem.1 hw i j hi hj h
        exact ⟨fun _ => by linarith [this.2.1], fun _ => this.1⟩
      · simp
      · have := List.pairwise_iff_getElem.1 hw j i hj hi h
        exact ⟨fun h' => absurd h' (not_lt.2 this.1.le), fun h' => by have := this.2.1; exfalso; dsimp only at h'; linarith⟩)
  rw [hz1] at hc'
  refine ⟨c', ?_, ?_, ?_⟩
  · unfold learn
    rw [hm, hsort]
    dsimp only
    rw [hfs, hfn, a1]
    exact hc'
  · obtain ⟨qs, _, h2, _⟩ := addPoints_ok spectra feat st _ hc'
    have : c'.plan.vals = a := by
      rw [h2]
      show [] ++ _ = a
      rw [List.nil_append, List.map_fst_zip (by simp [hal])]
    rw [this, a3]
  · obtain ⟨qs, h1, h2, _⟩ := addPoints_ok spectra feat st _ hc'
    have hq : c'.plan.lines = qs := by
      rw [h2]
      rfl
    rw [hq]
    rw [← hz1, List.forall₂_map_left_iff] at h1
    have h3 : List.Forall₂ (fun p q => q = p.2.2) (a.zip ls) qs := by
      refine List.Forall₂.imp ?_ ((List.forall₂_and_left _ _).2 ⟨fun p hp => (hl p.2 (List.of_mem_zip hp).2).2, h1⟩)
      rintro p q ⟨e, s, hs, hq⟩
      cases hs
      rw [e] at hq
      exact (Except.ok.inj hq).symm
    have h4 : qs = (a.zip ls).map (fun p => p.2.2) := by
      clear hq h1 h2 hc'
      generalize a.zip ls = z at h3
      induction h3 with
      | nil => rfl
      | cons h _ ih => rw [List.map_cons, ← ih, h]
    rw [h4, show (fun p : K × String × Plan.Line K => p.2.2) = Prod.snd ∘ Prod.snd from rfl, ← List.map_map, List.map_snd_zip (by simp [hal])]

/-! ### instances -/

/-- a smeared histogram for the instances: peaks at 10, 20, 25 and 40, that at 25 spurious [specification] -/
def smooth0 : List ℚ → ℚ → List (ℚ × ℚ) := fun _ _ => [(5, 0), (10, 9), (15, 1), (20, 8), (22, 2), (25, 4), (30, 0), (40, 7), (50, 0)]
/-- three lines [specification] -/
def feat0 : String → Option ℚ := fun s => if s = "a" then some 100 else if s = "b" then some 200 else if s = "c" then some 400 else none
/-- a channel with a plan already [specification] -/
def chan0 : Plan.Chan ℚ Nat := ⟨⟨[1], [7], [⟨"old", 5⟩]⟩, none, false⟩

/-- C166, instance: a plan is found; a line given as an energy; a line in vain -/
example : (learn smooth0 (fun s => if s = "b" then some ⟨"b", 200⟩ else none) feat0 [1] 1 3 [.name "c", .name "a", .name "b"] (1 / 10000) chan0).2.plan.vals = [10, 20, 40] ∧
    (learn smooth0 (fun s => if s = "b" then some ⟨"b", 200⟩ else none) feat0 [1] 1 3 [.name "c", .name "a", .name "b"] (1 / 10000) chan0).2.plan.lines = [⟨"aquick_line", 100⟩, ⟨"b", 200⟩, ⟨"cquick_line", 400⟩] ∧
    (learn smooth0 (fun _ => none) feat0 [1] 1 3 [.name "c", .name "x", .name "b"] (1 / 10000) chan0).2.plan.vals = [1] := by decide +kernel

/-- Disagreement (C166): if the plan cannot be made in the end, the one there was is lost, and part of the new one is left: here for a line given by its energy. -/
theorem lost_fails : (learn smooth0 (fun _ => none) feat0 [1] 1 3 [.name "c", .name "a", .energy 200] (1 / 10000) chan0).2.plan.vals = [10] ∧
    (match (learn smooth0 (fun _ => none) feat0 [1] 1 3 [.name "c", .name "a", .energy 200] (1 / 10000) chan0).1 with | .error .exception => true | _ => false) = true := by decide +kernel

end Mass.Calc.LearnPlan
