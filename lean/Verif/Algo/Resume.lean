import Verif.Py
import Mathlib.Logic.Basic
import Mathlib.Logic.Function.Iterate
import Mathlib.Data.Rat.Defs
import Mathlib.Algebra.Field.Rat
import Mathlib.Tactic.Ring
import Mathlib.Tactic.Common
/-! C181: analysis steps that are interrupted (Ctrl-C, an exception, a program that ends) and called again, in the same or a later session (mass/core/channel.py). Each step looks whether its results
are in the HDF5 file already, and otherwise writes them, one data set (or part of one) after the other. An interruption may come before any of the writes. -/
namespace Mass.Algo.Resume
open Mass

/-! ### Steps, interruptions, and analyses -/

/-- a step: whether it takes itself for done, and otherwise the writes to the file that it makes, in order. What is written is computed from the file as it was when the step began (channel.py L925-978) -/
structure Step (S : Type) where
  done : S → Bool
  writes : S → List (S → S)

variable {S : Type}

/-- writes, one after the other (used for channel.py L925-978) [specification] -/
def apply (ws : List (S → S)) (s : S) : S := ws.foldl (fun s w => w s) s

/-- a call of the step: nothing is written if it is done already, e.g. channel.py L926-929 -/
def Step.run (t : Step S) (s : S) : S := if t.done s then s else apply (t.writes s) s

/-- a call that is interrupted after `k` writes (if it makes more) [specification] -/
def Step.stop (t : Step S) (k : ℕ) (s : S) : S := if t.done s then s else apply ((t.writes s).take k) s

/-- an analysis: the steps in order [specification] -/
def runAll (ts : List (Step S)) (s : S) : S := ts.foldl (fun s t => t.run s) s

/-- an analysis that is interrupted in step number `a.1` after `a.2` writes (not at all if there is no such step) [specification] -/
def attempt (ts : List (Step S)) (a : ℕ × ℕ) (s : S) : S :=
  match ts.drop a.1 with
  | [] => runAll ts s
  | t :: _ => t.stop a.2 (runAll (ts.take a.1) s)

/-- after the interruption the step is either not marked as done, or it is complete [specification] -/
def OkStop (t : Step S) (k : ℕ) (s : S) : Prop := t.done (t.stop k s) = false ∨ t.stop k s = t.run s

/-- the interruptions of an analysis, one attempt after the other, each `OkStop` [specification] -/
def OkAttempts (ts : List (Step S)) : List (ℕ × ℕ) → S → Prop
  | [], _ => True
  | a :: as, s => (∀ t, ts[a.1]? = some t → OkStop t a.2 (runAll (ts.take a.1) s)) ∧ OkAttempts ts as (attempt ts a s)

/-- a step that was interrupted and does not take itself for done makes its results as if it had not been interrupted [specification] -/
def Redo (t : Step S) : Prop := ∀ s k, t.done (t.stop k s) = false → t.run (t.stop k s) = t.run s

/-- a step `u` (complete or not) leaves the results of `t` alone [specification] -/
def Keeps (t u : Step S) : Prop := ∀ s k, t.run s = s → t.run (u.stop k s) = u.stop k s

theorem stop_all (t : Step S) (s : S) : ∃ k, t.stop k s = t.run s := ⟨(t.writes s).length, by unfold Step.stop Step.run; rw [List.take_length]⟩

theorem run_run (t : Step S) (h : Redo t) (s : S) : t.run (t.run s) = t.run s := by
  obtain ⟨k, hk⟩ := stop_all t s
  rw [← hk]
  cases hd : t.done (t.stop k s) with
  | true => unfold Step.run; rw [hd]; rfl
  | false => rw [h s k hd, hk]

theorem run_ok (t : Step S) (h : Redo t) (k : ℕ) (s : S) (ho : OkStop t k s) : t.run (t.stop k s) = t.run s := by
  rcases ho with ho | ho
  · exact h s k ho
  · rw [ho]; exact run_run t h s

theorem run_eq_stop (t : Step S) (s : S) : ∃ k, t.run s = t.stop k s := by
  obtain ⟨k, hk⟩ := stop_all t s
  exact ⟨k, hk.symm⟩

theorem fixed_all (ts : List (Step S)) (s : S) (h : ∀ t ∈ ts, t.run s = s) : runAll ts s = s := by
  induction ts with
  | nil => rfl
  | cons t ts ih =>
    show runAll ts (t.run s) = s
    rw [h t (by simp)]
    exact ih (fun u hu => h u (List.mem_cons_of_mem _ hu))

theorem all_fixed (ts : List (Step S)) (hr : ∀ t ∈ ts, Redo t) (hk : ts.Pairwise Keeps) (s : S) (pre : List (Step S)) (hp : ∀ t ∈ pre, t.run s = s) (hpk : ∀ t ∈ pre, ∀ u ∈ ts, Keeps t u) :
    ∀ t ∈ pre ++ ts, t.run (runAll ts s) = runAll ts s := by
  induction ts generalizing s pre with
  | nil => intro t ht; exact hp t (by simpa using ht)
  | cons u ts ih =>
    rw [List.pairwise_cons] at hk
    have := ih (fun t ht => hr t (List.mem_cons_of_mem _ ht)) hk.2 (u.run s) (pre ++ [u]) ?_ ?_
    · intro t ht
      exact this t (by simpa using ht)
    · intro t ht
      rcases List.mem_append.1 ht with ht | ht
      · obtain ⟨k, e⟩ := run_eq_stop u s
        rw [e]
        exact hpk t ht u (by simp) s k (hp t ht)
      · rw [List.mem_singleton.1 ht]
        exact run_run u (hr u (by simp)) s
    · intro t ht v hv
      rcases List.mem_append.1 ht with ht | ht
      · exact hpk t ht v (List.mem_cons_of_mem _ hv)
      · rw [List.mem_singleton.1 ht]; exact hk.1 v hv

theorem runAll_append (ts us : List (Step S)) (s : S) : runAll (ts ++ us) s = runAll us (runAll ts s) := List.foldl_append

theorem attempt_resumed (ts : List (Step S)) (hr : ∀ t ∈ ts, Redo t) (hk : ts.Pairwise Keeps) (a : ℕ × ℕ) (s : S) (ho : ∀ t, ts[a.1]? = some t → OkStop t a.2 (runAll (ts.take a.1) s)) :
    runAll ts (attempt ts a s) = runAll ts s := by
  unfold attempt
  cases hd : ts.drop a.1 with
  | nil => exact fixed_all ts _ (fun t ht => all_fixed ts hr hk s [] (by simp) (by simp) t (by simpa using ht))
  | cons t us =>
    dsimp only
    have e : ts = ts.take a.1 ++ t :: us := by rw [← hd, List.take_append_drop]
    have hget : ts[a.1]? = some t := by
      have := List.getElem?_drop (xs := ts) (i := a.1) (j := 0)
      rw [hd] at this
      simpa using this.symm
    have hk' := hk
    rw [e, List.pairwise_append] at hk'
    have hfix := all_fixed (ts.take a.1) (fun t ht => hr t (List.mem_of_mem_take ht)) hk'.1 s [] (by simp) (by simp)
    have h1 : runAll (ts.take a.1) (t.stop a.2 (runAll (ts.take a.1) s)) = t.stop a.2 (runAll (ts.take a.1) s) :=
      fixed_all _ _ (fun u hu => hk'.2.2 u hu t (by simp) _ _ (hfix u (by simpa using hu)))
    have hrt : Redo t := hr t (List.mem_of_getElem? hget)
    have h2 := run_ok t hrt a.2 _ (ho t hget)
    calc runAll ts (t.stop a.2 (runAll (ts.take a.1) s)) = runAll us (t.run (runAll (ts.take a.1) (t.stop a.2 (runAll (ts.take a.1) s)))) := by
          conv_lhs => rw [e]
          rw [runAll_append, ← e]
          rfl
      _ = runAll us (t.run (runAll (ts.take a.1) s)) := by rw [h1, h2]
      _ = runAll ts s := by
          conv_rhs => rw [e]
          rw [runAll_append]; rfl

/-- however often the analysis is interrupted (each time with the interrupted step either complete or not marked as done), it ends as if it had not been [helper of C181] -/
theorem attempts_resumed (ts : List (Step S)) (hr : ∀ t ∈ ts, Redo t) (hk : ts.Pairwise Keeps) (as : List (ℕ × ℕ)) (s : S) (ho : OkAttempts ts as s) :
    runAll ts (as.foldl (fun s a => attempt ts a s) s) = runAll ts s := by
  induction as generalizing s with
  | nil => rfl
  | cons a as ih =>
    rw [List.foldl_cons, ih _ ho.2]
    exact attempt_resumed ts hr hk a s ho.1

/-! ### The steps of a channel -/

/-- the data sets of a channel's group in the HDF5 file (channel.py L684-729). `sums c i` is value number `i` of summary quantity `c`, in the order in which they are written (channel.py L959-969; 0 is the pretrigger mean).
`state` is the categorical cut of the experiment states, `med` and `slope` the attributes of `filt_value_dc` -/
structure Chan (K : Type) where
  time : List K
  sub : List K
  sums : ℕ → ℕ → K
  state : List ℕ
  autocorr : List K
  psd : List K
  deltaF : Option K
  avg : List K
  filt : List K
  phase : List K
  med : Option K
  slope : Option K
  dc : List K
  phc : List K
  tdc : List K

/-- what the steps compute from the data files and from earlier results: any functions. `n`, `pps`, `nSeg` are the numbers of pulses, of pulses in a segment and of segments (channel.py L949-953); `summary` the summary quantities (L954-956),
`codes` the state numbers (L1041-1067), `noise` the autocorrelation, the spectrum and its frequency step (L1616-1619), `average` L1087-1091 with the mask of L1108-1118, `filter` the filtered values and phases (the filter, L1150-1275, and
L1289-1320 in one), `drift` the median and the slope (L1727-1728), `tcorr` the correction at L1777-1782, `tdrift` the values at L2076-2084.
Simplified: exceptions are not modelled (a step that raises is like one that is interrupted); the cuts do not change meanwhile -/
structure Tools (K : Type) where
  n : ℕ
  pps : ℕ
  nSeg : ℕ
  times : List K
  subs : List K
  summary : ℕ → ℕ → K
  codes : List K → List ℕ
  noise : List K × List K × K
  dt : K
  average : (ℕ → ℕ → K) → List ℕ → List K
  filter : (ℕ → ℕ → K) → List ℕ → List K → List K → List K → List K × List K
  drift : (ℕ → K) → List ℕ → List K → K × K
  tcorr : (ℕ → ℕ → K) → List ℕ → List K
  tdrift : List K → List ℕ → List K → List K

variable {K : Type} [Field K] [DecidableEq K]

/-- `all(x[:] == 0)` (channel.py L925, L1285, L1576) -/
def zeros (l : List K) : Bool := l.all (· == 0)

/-- the write `self.p_...[idx_slice] = results[...]` of quantity `c` in segment `seg`, channel.py L950-952, L959-969 -/
def segWrite (T : Tools K) (seg c : ℕ) (s : Chan K) : Chan K :=
  { s with sums := fun c' i => if c' = c ∧ seg * T.pps ≤ i ∧ i < min (seg * T.pps + T.pps) T.n then T.summary c i else s.sums c' i }

/-- `summarize_data` (the Cython version), channel.py L925-978 -/
def summarize (T : Tools K) (force : Bool) : Step (Chan K) where
  done s := !force && !((List.range T.n).all (fun i => s.sums 0 i == 0))
  writes _ := [fun s => { s with time := T.times }, fun s => { s with sub := T.subs }] ++ (List.range T.nSeg).flatMap (fun seg => (List.range 11).map (segWrite T seg)) ++
    [fun s => { s with state := T.codes T.times }]

/-- `compute_noise`, channel.py L1614-1626 -/
def computeNoise (T : Tools K) (force : Bool) : Step (Chan K) where
  done s := !(force || zeros s.autocorr)
  writes _ := [fun s => { s with autocorr := T.noise.1 }, fun s => { s with psd := T.noise.2.1 }, fun s => { s with deltaF := some T.noise.2.2 }]

/-- `assume_white_noise`, channel.py L1576-1580 -/
def whiteNoise (T : Tools K) (v : K) (force : Bool) : Step (Chan K) where
  done s := !(force || zeros s.autocorr)
  writes _ := [fun s => { s with autocorr := s.autocorr.take 1 ++ (s.autocorr.drop 1).map (fun _ => 0) }, fun s => { s with autocorr := (s.autocorr.take 1).map (fun _ => v) ++ s.autocorr.drop 1 },
    fun s => { s with psd := s.psd.map (fun _ => 2 * v * T.dt) }]

/-- `compute_average_pulse`, channel.py L1082-1091 (called by avg_pulses_auto_masks) -/
def averagePulse (T : Tools K) (force : Bool) : Step (Chan K) where
  done s := !zeros s.avg && !force
  writes s := [fun s' => { s' with avg := T.average s.sums s.state }]

/-- `filter_data` (the Cython version), channel.py L1285-1302 -/
def filterData (T : Tools K) (force : Bool) : Step (Chan K) where
  done s := !(force || zeros s.filt)
  writes s := let r := T.filter s.sums s.state s.avg s.autocorr s.psd
    [fun s' => { s' with filt := r.1 }, fun s' => { s' with phase := r.2 }]

/-- `drift_correct` of `p_filt_value`, channel.py L1717-1741 (of the attributes only the two that are used again) -/
def driftCorrect (T : Tools K) (force : Bool) : Step (Chan K) where
  done s := !(force || (zeros s.dc || s.dc == s.filt))
  writes s := let r := T.drift (s.sums 0) s.state s.filt
    [fun s' => { s' with med := some r.1 }, fun s' => { s' with slope := some r.2 },
      fun s' => { s' with dc := (List.range s.filt.length).map (fun i => s.filt.getD i 0 * (1 + (s.sums 0 i - r.1) * r.2)) }]

/-- `phase_correct2014`, channel.py L1761-1782 -/
def phase2014 (T : Tools K) (force : Bool) : Step (Chan K) where
  done s := !(force || (zeros s.phc || s.phc == s.dc))
  writes s := let x := T.tcorr s.sums s.state
    [fun s' => { s' with phc := s.dc }, fun s' => { s' with phc := List.zipWith (· - ·) s'.phc x }]

/-- `time_drift_correct` of `p_filt_value_phc`, channel.py L2072-2085 -/
def timeDrift (T : Tools K) (force : Bool) : Step (Chan K) where
  done s := !(zeros s.tdc || force)
  writes s := [fun s' => { s' with tdc := T.tdrift s.time s.state s.phc }]

/-- an analysis as in the documentation, in order, each step with or without `forceNew=True` [specification] -/
def analysis (T : Tools K) : List (Step (Chan K)) :=
  [summarize T false, computeNoise T false, averagePulse T false, filterData T false, driftCorrect T false, phase2014 T false, timeDrift T false]

/-! ### Each step does its work anew unless it takes itself for done -/

/-- writes in any order, each as often as wanted, come to the same [specification] -/
def Free (ws : List (S → S)) : Prop := ∀ v ∈ ws, ∀ w ∈ ws, ∀ s, v (w s) = w (v s) ∧ v (v s) = v s

theorem absorb (ws : List (S → S)) (h : Free ws) (w : S → S) (hw : w ∈ ws) (s : S) : apply ws (w s) = apply ws s := by
  induction ws generalizing s with
  | nil => simp at hw
  | cons v ws ih =>
    show apply ws (v (w s)) = apply ws (v s)
    by_cases e : w ∈ ws
    · rw [(h v (by simp) w hw s).1]
      exact ih (fun a ha b hb => h a (List.mem_cons_of_mem _ ha) b (List.mem_cons_of_mem _ hb)) e (v s)
    · rcases List.mem_cons.1 hw with rfl | e'
      · rw [(h w (by simp) w (by simp) s).2]
      · exact absurd e' e

theorem absorb_list (ws us : List (S → S)) (h : Free ws) (hu : ∀ w ∈ us, w ∈ ws) (s : S) : apply ws (apply us s) = apply ws s := by
  induction us generalizing s with
  | nil => rfl
  | cons u us ih =>
    show apply ws (apply us (u s)) = apply ws s
    rw [ih (fun w hw => hu w (List.mem_cons_of_mem _ hw)), absorb ws h u (hu u (by simp))]

theorem apply_keeps {A : Type} (f : S → A) (ws : List (S → S)) (h : ∀ w ∈ ws, ∀ s, f (w s) = f s) (s : S) : f (apply ws s) = f s := by
  induction ws generalizing s with
  | nil => rfl
  | cons w ws ih => exact (ih (fun v hv => h v (List.mem_cons_of_mem _ hv)) (w s)).trans (h w (by simp) s)

theorem redo_of_free (t : Step S) (h : ∀ s, Free (t.writes s)) (hw : ∀ s, ∀ w ∈ t.writes s, ∀ s', t.writes (w s') = t.writes s') : Redo t := by
  intro s k hd
  unfold Step.run
  rw [hd]
  unfold Step.stop at hd ⊢
  cases h0 : t.done s with
  | true => rw [h0] at hd; simp [h0] at hd
  | false =>
    simp only [h0, Bool.false_eq_true, if_false] at hd ⊢
    rw [apply_keeps t.writes _ (fun w hw' s' => hw s w (List.mem_of_mem_take hw') s')]
    exact absorb_list _ _ (h s) (fun w hw' => List.mem_of_mem_take hw') s

theorem mem_summarize (T : Tools K) (f : Bool) (s : Chan K) (w : Chan K → Chan K) (hw : w ∈ (summarize T f).writes s) :
    w = (fun s => { s with time := T.times }) ∨ w = (fun s => { s with sub := T.subs }) ∨ w = (fun s => { s with state := T.codes T.times }) ∨ ∃ seg c, w = segWrite T seg c := by
  simp only [summarize, List.mem_append, List.mem_cons, List.not_mem_nil, or_false, List.mem_flatMap, List.mem_map] at hw
  rcases hw with ((h | h) | ⟨seg, -, c, -, h⟩) | h
  · exact .inl h
  · exact .inr (.inl h)
  · exact .inr (.inr (.inr ⟨seg, c, h.symm⟩))
  · exact .inr (.inr (.inl h))

theorem segWrite_comm (T : Tools K) (a b c d : ℕ) (s : Chan K) : segWrite T a b (segWrite T c d s) = segWrite T c d (segWrite T a b s) := by
  unfold segWrite
  congr 1
  funext c' i
  dsimp only
  split_ifs with h1 h2 h2
  · rw [← h1.1, ← h2.1]
  all_goals rfl

theorem segWrite_idem (T : Tools K) (a b : ℕ) (s : Chan K) : segWrite T a b (segWrite T a b s) = segWrite T a b s := by
  unfold segWrite
  congr 1
  funext c' i
  dsimp only
  split_ifs <;> rfl

theorem redo_summarize (T : Tools K) (f : Bool) : Redo (summarize T f) := by
  refine redo_of_free _ (fun s v hv w hw s' => ?_) (fun s w _ s' => rfl)
  rcases mem_summarize T f s v hv with rfl | rfl | rfl | ⟨a, b, rfl⟩ <;> rcases mem_summarize T f s w hw with rfl | rfl | rfl | ⟨c, d, rfl⟩ <;>
    first | exact ⟨rfl, rfl⟩ | exact ⟨segWrite_comm T _ _ _ _ _, segWrite_idem T _ _ _⟩ | exact ⟨rfl, segWrite_idem T _ _ _⟩

theorem redo_noise (T : Tools K) (f : Bool) : Redo (computeNoise T f) := by
  refine redo_of_free _ (fun s v hv w hw s' => ?_) (fun s w _ s' => rfl)
  simp only [computeNoise, List.mem_cons, List.not_mem_nil, or_false] at hv hw
  rcases hv with rfl | rfl | rfl <;> rcases hw with rfl | rfl | rfl <;> exact ⟨rfl, rfl⟩

theorem redo_average (T : Tools K) (f : Bool) : Redo (averagePulse T f) := by
  refine redo_of_free _ (fun s v hv w hw s' => ?_) (fun s w hw s' => ?_)
  · simp only [averagePulse, List.mem_cons, List.not_mem_nil, or_false] at hv hw
    subst hv; subst hw; exact ⟨rfl, rfl⟩
  · simp only [averagePulse, List.mem_cons, List.not_mem_nil, or_false] at hw
    subst hw; rfl

theorem redo_filter (T : Tools K) (f : Bool) : Redo (filterData T f) := by
  refine redo_of_free _ (fun s v hv w hw s' => ?_) (fun s w hw s' => ?_)
  · simp only [filterData, List.mem_cons, List.not_mem_nil, or_false] at hv hw
    rcases hv with rfl | rfl <;> rcases hw with rfl | rfl <;> exact ⟨rfl, rfl⟩
  · simp only [filterData, List.mem_cons, List.not_mem_nil, or_false] at hw
    rcases hw with rfl | rfl <;> rfl

theorem redo_drift (T : Tools K) (f : Bool) : Redo (driftCorrect T f) := by
  refine redo_of_free _ (fun s v hv w hw s' => ?_) (fun s w hw s' => ?_)
  · simp only [driftCorrect, List.mem_cons, List.not_mem_nil, or_false] at hv hw
    rcases hv with rfl | rfl | rfl <;> rcases hw with rfl | rfl | rfl <;> exact ⟨rfl, rfl⟩
  · simp only [driftCorrect, List.mem_cons, List.not_mem_nil, or_false] at hw
    rcases hw with rfl | rfl | rfl <;> rfl

theorem redo_timeDrift (T : Tools K) (f : Bool) : Redo (timeDrift T f) := by
  refine redo_of_free _ (fun s v hv w hw s' => ?_) (fun s w hw s' => ?_)
  · simp only [timeDrift, List.mem_cons, List.not_mem_nil, or_false] at hv hw
    subst hv; subst hw; exact ⟨rfl, rfl⟩
  · simp only [timeDrift, List.mem_cons, List.not_mem_nil, or_false] at hw
    subst hw; rfl

theorem redo_phase (T : Tools K) (f : Bool) : Redo (phase2014 T f) := by
  intro s k hd
  unfold Step.run
  rw [hd]
  unfold Step.stop at hd ⊢
  cases h0 : (phase2014 T f).done s with
  | true => simp [h0] at hd
  | false =>
    simp only [Bool.false_eq_true, if_false]
    match k with
    | 0 => rfl
    | 1 => rfl
    | k + 2 => simp [phase2014, apply]

theorem whiteNoise_free (T : Tools K) (v : K) (f : Bool) : Redo (whiteNoise T v f) := by
  refine redo_of_free _ (fun s v hv w hw s' => ?_) (fun s w _ s' => rfl)
  simp only [whiteNoise, List.mem_cons, List.not_mem_nil, or_false] at hv hw
  rcases s' with ⟨⟩
  rename_i a b c d ac e g h i j l m n o p
  rcases hv with rfl | rfl | rfl <;> rcases hw with rfl | rfl | rfl <;> refine ⟨?_, ?_⟩ <;> (try rfl) <;> cases ac <;> simp

/-! ### Later steps leave earlier results alone -/

theorem keeps_of (t u : Step S) (h : ∀ s, ∀ w ∈ u.writes s, ∀ s', t.done (w s') = t.done s' ∧ t.writes (w s') = t.writes s' ∧ ∀ v ∈ t.writes s', ∀ x, v (w x) = w (v x)) : Keeps t u := by
  intro s k hs
  have swap : ∀ (w : S → S) (vs : List (S → S)), (∀ v ∈ vs, ∀ x, v (w x) = w (v x)) → ∀ x, apply vs (w x) = w (apply vs x) := by
    intro w vs
    induction vs with
    | nil => intro _ x; rfl
    | cons v vs ih =>
      intro hv x
      show apply vs (v (w x)) = w (apply vs (v x))
      rw [hv v (by simp), ih (fun v' h' => hv v' (List.mem_cons_of_mem _ h'))]
  have one : ∀ w ∈ u.writes s, ∀ s', t.run (w s') = w (t.run s') := by
    intro w hw s'
    obtain ⟨h1, h2, h3⟩ := h s w hw s'
    unfold Step.run
    rw [h1, h2]
    split
    · rfl
    · exact swap w _ h3 s'
  have all : ∀ ws : List (S → S), (∀ w ∈ ws, w ∈ u.writes s) → ∀ s', t.run (apply ws s') = apply ws (t.run s') := by
    intro ws
    induction ws with
    | nil => intro _ s'; rfl
    | cons w ws ih =>
      intro hm s'
      show t.run (apply ws (w s')) = apply ws (w (t.run s'))
      rw [ih (fun w' h' => hm w' (List.mem_cons_of_mem _ h')), one w (hm w (by simp))]
  unfold Step.stop
  split
  · exact hs
  · rw [all _ (fun w hw => List.mem_of_mem_take hw), hs]

theorem analysis_redo (T : Tools K) : ∀ t ∈ analysis T, Redo t := by
  intro t ht
  simp only [analysis, List.mem_cons, List.not_mem_nil, or_false] at ht
  rcases ht with rfl | rfl | rfl | rfl | rfl | rfl | rfl
  exacts [redo_summarize T _, redo_noise T _, redo_average T _, redo_filter T _, redo_drift T _, redo_phase T _, redo_timeDrift T _]

theorem summarize_keeps (T : Tools K) (f : Bool) (u : Step (Chan K)) (h : ∀ s, ∀ w ∈ u.writes s, ∀ s' : Chan K, (w s').sums = s'.sums ∧ (∀ x, w { s' with time := x } = { w s' with time := x }) ∧
    (∀ x, w { s' with sub := x } = { w s' with sub := x }) ∧ (∀ x, w { s' with state := x } = { w s' with state := x }) ∧ ∀ x, w { s' with sums := x } = { w s' with sums := x }) : Keeps (summarize T f) u := by
  refine keeps_of _ _ (fun s w hw s' => ⟨?_, rfl, fun v hv x => ?_⟩)
  · simp only [summarize, (h s w hw s').1]
  · obtain ⟨h0, h1, h2, h3, h4⟩ := h s w hw x
    rcases mem_summarize T f s' v hv with rfl | rfl | rfl | ⟨a, b, rfl⟩
    · exact (h1 _).symm
    · exact (h2 _).symm
    · exact (h3 _).symm
    · unfold segWrite
      rw [h0]
      exact (h4 _).symm

theorem analysis_keeps (T : Tools K) : (analysis T).Pairwise Keeps := by
  simp only [analysis, List.pairwise_cons, List.mem_cons, List.not_mem_nil, or_false, forall_eq_or_imp, forall_eq, List.Pairwise.nil, and_true, false_imp_iff, implies_true]
  refine ⟨⟨?_, ?_, ?_, ?_, ?_, ?_⟩, ⟨?_, ?_, ?_, ?_, ?_⟩, ⟨?_, ?_, ?_, ?_⟩, ⟨?_, ?_, ?_⟩, ⟨?_, ?_⟩, ?_⟩
  · refine summarize_keeps T _ _ (fun s w hw s' => ?_)
    simp only [computeNoise, List.mem_cons, List.not_mem_nil, or_false] at hw
    rcases hw with rfl | rfl | rfl <;> exact ⟨rfl, fun _ => rfl, fun _ => rfl, fun _ => rfl, fun _ => rfl⟩
  · refine summarize_keeps T _ _ (fun s w hw s' => ?_)
    simp only [averagePulse, List.mem_cons, List.not_mem_nil, or_false] at hw
    subst hw; exact ⟨rfl, fun _ => rfl, fun _ => rfl, fun _ => rfl, fun _ => rfl⟩
  · refine summarize_keeps T _ _ (fun s w hw s' => ?_)
    simp only [filterData, List.mem_cons, List.not_mem_nil, or_false] at hw
    rcases hw with rfl | rfl <;> exact ⟨rfl, fun _ => rfl, fun _ => rfl, fun _ => rfl, fun _ => rfl⟩
  · refine summarize_keeps T _ _ (fun s w hw s' => ?_)
    simp only [driftCorrect, List.mem_cons, List.not_mem_nil, or_false] at hw
    rcases hw with rfl | rfl | rfl <;> exact ⟨rfl, fun _ => rfl, fun _ => rfl, fun _ => rfl, fun _ => rfl⟩
  · refine summarize_keeps T _ _ (fun s w hw s' => ?_)
    simp only [phase2014, List.mem_cons, List.not_mem_nil, or_false] at hw
    rcases hw with rfl | rfl <;> exact ⟨rfl, fun _ => rfl, fun _ => rfl, fun _ => rfl, fun _ => rfl⟩
  · refine summarize_keeps T _ _ (fun s w hw s' => ?_)
    simp only [timeDrift, List.mem_cons, List.not_mem_nil, or_false] at hw
    subst hw; exact ⟨rfl, fun _ => rfl, fun _ => rfl, fun _ => rfl, fun _ => rfl⟩
  all_goals
    refine keeps_of _ _ (fun s w hw s' => ?_)
    simp only [computeNoise, averagePulse, filterData, driftCorrect, phase2014, timeDrift, List.mem_cons, List.not_mem_nil, or_false] at hw
    first
    | (subst hw
       refine ⟨rfl, rfl, fun v hv x => ?_⟩
       simp only [computeNoise, averagePulse, filterData, driftCorrect, phase2014, timeDrift, List.mem_cons, List.not_mem_nil, or_false] at hv
       first | (subst hv; rfl) | (rcases hv with rfl | rfl <;> rfl) | (rcases hv with rfl | rfl | rfl <;> rfl))
    | (rcases hw with rfl | rfl <;>
        (refine ⟨rfl, rfl, fun v hv x => ?_⟩
         simp only [computeNoise, averagePulse, filterData, driftCorrect, phase2014, timeDrift, List.mem_cons, List.not_mem_nil, or_false] at hv
         first | (subst hv; rfl) | (rcases hv with rfl | rfl <;> rfl) | (rcases hv with rfl | rfl | rfl <;> rfl)))
    | (rcases hw with rfl | rfl | rfl <;>
        (refine ⟨rfl, rfl, fun v hv x => ?_⟩
         simp only [computeNoise, averagePulse, filterData, driftCorrect, phase2014, timeDrift, List.mem_cons, List.not_mem_nil, or_false] at hv
         first | (subst hv; rfl) | (rcases hv with rfl | rfl <;> rfl) | (rcases hv with rfl | rfl | rfl <;> rfl)))

/-! ### C181 -/

/-- C181, the part that holds. An analysis that was interrupted any number of times, at any writes after which the interrupted step was either complete or not marked as done, and is then run from the beginning without `forceNew`,
leaves the file as if it had never been interrupted. Missing: interruptions after the mark was set but before the step was complete (see the theorems ending in `_fails`). -/
theorem resumed_partial (T : Tools K) (as : List (ℕ × ℕ)) (s : Chan K) (h : OkAttempts (analysis T) as s) :
    runAll (analysis T) (as.foldl (fun s a => attempt (analysis T) a s) s) = runAll (analysis T) s := attempts_resumed _ (analysis_redo T) (analysis_keeps T) as s h

theorem ok_zero (t : Step S) (s : S) : OkStop t 0 s := by
  unfold OkStop Step.stop Step.run
  cases h : t.done s with
  | true => right; simp [h]
  | false => left; simp [h, apply]

/-- C181. Average pulse, drift correction, phase_correct2014 and time drift correction can be interrupted anywhere: they are then complete or not marked as done. -/
theorem safe_steps (T : Tools K) (f : Bool) (k : ℕ) (s : Chan K) : OkStop (averagePulse T f) k s ∧ OkStop (driftCorrect T f) k s ∧ OkStop (phase2014 T f) k s ∧ OkStop (timeDrift T f) k s := by
  refine ⟨?_, ?_, ?_, ?_⟩
  · match k with
    | 0 => exact ok_zero _ s
    | k + 1 => right; simp [Step.stop, Step.run, averagePulse]
  · unfold OkStop Step.stop Step.run
    cases h : (driftCorrect T f).done s with
    | true => right; simp
    | false =>
      match k with
      | 0 => left; simpa [apply] using h
      | 1 => left; simpa [apply, driftCorrect] using h
      | 2 => left; simpa [apply, driftCorrect] using h
      | k + 3 => right; simp [driftCorrect]
  · unfold OkStop Step.stop Step.run
    cases h : (phase2014 T f).done s with
    | true => right; simp
    | false =>
      match k with
      | 0 => left; simpa [apply] using h
      | 1 => left; simp [apply, phase2014]
      | k + 2 => right; simp [phase2014]
  · match k with
    | 0 => exact ok_zero _ s
    | k + 1 => right; simp [Step.stop, Step.run, timeDrift]

/-- C181. So an analysis that was interrupted only between steps, or anywhere in these four steps, and is run again ends as if it had not been interrupted, for all data, any number of interruptions at any of these places. -/
theorem safe_resumed (T : Tools K) (as : List (ℕ × ℕ)) (s : Chan K) (h : ∀ a ∈ as, a.2 = 0 ∨ a.1 = 2 ∨ 4 ≤ a.1) :
    runAll (analysis T) (as.foldl (fun s a => attempt (analysis T) a s) s) = runAll (analysis T) s := by
  apply resumed_partial
  induction as generalizing s with
  | nil => trivial
  | cons a as ih =>
    refine ⟨fun t ht => ?_, ih _ (fun b hb => h b (List.mem_cons_of_mem _ hb))⟩
    rcases h a (by simp) with h0 | h0 | h0
    · rw [h0]; exact ok_zero t _
    · rw [h0] at ht
      simp only [analysis, List.getElem?_cons_succ, List.getElem?_cons_zero, Option.some.injEq] at ht
      subst ht
      exact (safe_steps T false a.2 _).1
    · obtain ⟨i, k⟩ := a
      dsimp only at h0 ht ⊢
      obtain ⟨j, rfl⟩ : ∃ j, i = j + 4 := ⟨i - 4, by omega⟩
      match j with
      | 0 => simp only [analysis, List.getElem?_cons_succ, List.getElem?_cons_zero, Option.some.injEq] at ht; subst ht; exact (safe_steps T false k _).2.1
      | 1 => simp only [analysis, List.getElem?_cons_succ, List.getElem?_cons_zero, Option.some.injEq] at ht; subst ht; exact (safe_steps T false k _).2.2.1
      | 2 => simp only [analysis, List.getElem?_cons_succ, List.getElem?_cons_zero, Option.some.injEq] at ht; subst ht; exact (safe_steps T false k _).2.2.2
      | j + 3 => simp [analysis] at ht

/-- C181. With `forceNew=True` every step repairs its own interruption: wherever a call (that had work to do) was interrupted, a call with forceNew gives what the uninterrupted call would have given. -/
theorem forced_repairs (T : Tools K) (v : K) (s : Chan K) (k : ℕ) (t u : Step (Chan K))
    (h : (t, u) ∈ [(summarize T false, summarize T true), (computeNoise T false, computeNoise T true), (whiteNoise T v false, whiteNoise T v true), (averagePulse T false, averagePulse T true),
      (filterData T false, filterData T true), (driftCorrect T false, driftCorrect T true), (phase2014 T false, phase2014 T true), (timeDrift T false, timeDrift T true)])
    (hd : t.done s = false) : u.run (t.stop k s) = t.run s := by
  have key : Redo u → (∀ x, u.done x = false) → (∀ x, t.writes x = u.writes x) → u.run (t.stop k s) = t.run s := by
    intro hr h1 h2
    have e : t.stop k s = u.stop k s := by unfold Step.stop; rw [hd, h1, h2]
    have e2 : t.run s = u.run s := by unfold Step.run; rw [hd, h1, h2]
    rw [e, e2]
    exact hr s k (h1 _)
  simp only [List.mem_cons, List.not_mem_nil, or_false, Prod.mk.injEq] at h
  rcases h with ⟨rfl, rfl⟩ | ⟨rfl, rfl⟩ | ⟨rfl, rfl⟩ | ⟨rfl, rfl⟩ | ⟨rfl, rfl⟩ | ⟨rfl, rfl⟩ | ⟨rfl, rfl⟩ | ⟨rfl, rfl⟩
  · exact key (redo_summarize T _) (fun x => by simp [summarize]) (fun x => rfl)
  · exact key (redo_noise T _) (fun x => by simp [computeNoise]) (fun x => rfl)
  · exact key (whiteNoise_free T v _) (fun x => by simp [whiteNoise]) (fun x => rfl)
  · exact key (redo_average T _) (fun x => by simp [averagePulse]) (fun x => rfl)
  · exact key (redo_filter T _) (fun x => by simp [filterData]) (fun x => rfl)
  · exact key (redo_drift T _) (fun x => by simp [driftCorrect]) (fun x => rfl)
  · exact key (redo_phase T _) (fun x => by simp [phase2014]) (fun x => rfl)
  · exact key (redo_timeDrift T _) (fun x => by simp [timeDrift]) (fun x => rfl)

theorem stuck (t : Step S) (s : S) (h : t.done s = true) (m : ℕ) : t.run^[m] s = s := by
  have e : t.run s = s := by unfold Step.run; rw [h]; rfl
  induction m with
  | zero => rfl
  | succ m ih => rw [Function.iterate_succ_apply, e, ih]

theorem apply_append (a b : List (S → S)) (s : S) : apply (a ++ b) s = apply b (apply a s) := List.foldl_append

theorem segment_sums (T : Tools K) (seg m : ℕ) (s : Chan K) : let s' := apply ((List.range m).map (segWrite T seg)) s
    (∀ c i, s'.sums c i = if c < m ∧ seg * T.pps ≤ i ∧ i < min (seg * T.pps + T.pps) T.n then T.summary c i else s.sums c i) ∧ s'.state = s.state ∧ s'.time = s.time ∧ s'.sub = s.sub := by
  induction m with
  | zero => exact ⟨fun c i => by simp [apply], rfl, rfl, rfl⟩
  | succ m ih =>
    dsimp only at ih ⊢
    rw [List.range_succ, List.map_append, apply_append]
    obtain ⟨h1, h2⟩ := ih
    refine ⟨fun c i => ?_, h2⟩
    show (if c = m ∧ _ then T.summary m i else _) = _
    rw [h1]
    by_cases hc : c = m
    · subst hc; simp
    · by_cases hc' : c < m
      · simp [hc, hc', Nat.lt_succ_of_lt hc']
      · simp [hc, hc', show ¬ c < m + 1 by omega]

theorem segments_sums (T : Tools K) (N : ℕ) (s : Chan K) : let s' := apply ((List.range N).flatMap (fun seg => (List.range 11).map (segWrite T seg))) s
    (∀ c i, s'.sums c i = if c < 11 ∧ i < min (N * T.pps) T.n then T.summary c i else s.sums c i) ∧ s'.state = s.state ∧ s'.time = s.time ∧ s'.sub = s.sub := by
  induction N with
  | zero => exact ⟨fun c i => by simp [apply], rfl, rfl, rfl⟩
  | succ N ih =>
    dsimp only at ih ⊢
    rw [List.range_succ (n := N), List.flatMap_append, apply_append]
    simp only [List.flatMap_cons, List.flatMap_nil, List.append_nil]
    obtain ⟨h1, h2, h3, h4⟩ := ih
    obtain ⟨g1, g2, g3, g4⟩ := segment_sums T N 11 (apply ((List.range N).flatMap (fun seg => (List.range 11).map (segWrite T seg))) s)
    refine ⟨fun c i => ?_, g2.trans h2, g3.trans h3, g4.trans h4⟩
    rw [g1, h1]
    have : (N + 1) * T.pps = N * T.pps + T.pps := by ring
    rw [this]
    by_cases hc : c < 11
    · simp only [hc, true_and]
      split_ifs <;> first | rfl | (exfalso; omega)
    · simp [hc]

/-- C181. An uninterrupted summary that had work to do fills in all eleven quantities of all pulses (if the segments cover the file), the times and the states. -/
theorem summarize_complete (T : Tools K) (f : Bool) (s : Chan K) (hd : (summarize T f).done s = false) (hcov : T.n ≤ T.nSeg * T.pps) : let s' := (summarize T f).run s
    (∀ c < 11, ∀ i < T.n, s'.sums c i = T.summary c i) ∧ s'.time = T.times ∧ s'.sub = T.subs ∧ s'.state = T.codes T.times := by
  dsimp only
  unfold Step.run
  rw [hd]
  simp only [Bool.false_eq_true, if_false]
  simp only [summarize]
  rw [apply_append, apply_append]
  obtain ⟨h1, h2, h3, h4⟩ := segments_sums T T.nSeg (apply [fun s => { s with time := T.times }, fun s => { s with sub := T.subs }] s)
  refine ⟨fun c hc i hi => ?_, h3, h4, rfl⟩
  show (apply _ _ : Chan K).sums c i = _
  rw [show ∀ x : Chan K, (apply [fun s : Chan K => { s with state := T.codes T.times }] x).sums c i = x.sums c i from fun _ => rfl, h1, if_pos ⟨hc, by omega⟩]

/-- C181. What marks a step as done: where its result is all zeros (a new file) or, for the two corrections, the uncorrected values, it does its work, from what is there; otherwise, and without forceNew, it changes nothing. -/
theorem marks (T : Tools K) (s : Chan K) :
    (zeros s.autocorr = true → (computeNoise T false).run s = { s with autocorr := T.noise.1, psd := T.noise.2.1, deltaF := some T.noise.2.2 }) ∧
    (zeros s.avg = true → (averagePulse T false).run s = { s with avg := T.average s.sums s.state }) ∧
    (zeros s.filt = true → (filterData T false).run s =
      { s with filt := (T.filter s.sums s.state s.avg s.autocorr s.psd).1, phase := (T.filter s.sums s.state s.avg s.autocorr s.psd).2 }) ∧
    (zeros s.dc = true ∨ s.dc = s.filt → ((driftCorrect T false).run s).med = some (T.drift (s.sums 0) s.state s.filt).1 ∧ ((driftCorrect T false).run s).slope = some (T.drift (s.sums 0) s.state s.filt).2 ∧
      ((driftCorrect T false).run s).dc.length = s.filt.length ∧ ∀ i (_ : i < s.filt.length), ((driftCorrect T false).run s).dc[i]? =
        some (s.filt[i] * (1 + (s.sums 0 i - (T.drift (s.sums 0) s.state s.filt).1) * (T.drift (s.sums 0) s.state s.filt).2))) ∧
    (zeros s.phc = true ∨ s.phc = s.dc → (phase2014 T false).run s = { s with phc := List.zipWith (· - ·) s.dc (T.tcorr s.sums s.state) }) ∧
    (zeros s.tdc = true → (timeDrift T false).run s = { s with tdc := T.tdrift s.time s.state s.phc }) ∧
    (zeros s.autocorr = false → (computeNoise T false).run s = s) ∧ (zeros s.avg = false → (averagePulse T false).run s = s) ∧ (zeros s.filt = false → (filterData T false).run s = s) ∧
    (zeros s.dc = false ∧ s.dc ≠ s.filt → (driftCorrect T false).run s = s) ∧ (zeros s.phc = false ∧ s.phc ≠ s.dc → (phase2014 T false).run s = s) ∧ (zeros s.tdc = false → (timeDrift T false).run s = s) := by
  refine ⟨?_, ?_, ?_, ?_, ?_, ?_, ?_, ?_, ?_, ?_, ?_, ?_⟩
  · intro h; simp [Step.run, computeNoise, apply, h]
  · intro h; simp [Step.run, averagePulse, apply, h]
  · intro h; simp [Step.run, filterData, apply, h]
  · intro h
    have hd : (driftCorrect T false).done s = false := by
      rcases h with h | h <;> simp [driftCorrect, h]
    unfold Step.run
    rw [hd]
    refine ⟨rfl, rfl, by simp [driftCorrect, apply], fun i hi => ?_⟩
    simp [driftCorrect, apply, hi]
  · intro h
    have hd : (phase2014 T false).done s = false := by
      rcases h with h | h <;> simp [phase2014, h]
    unfold Step.run
    rw [hd]
    rfl
  · intro h; simp [Step.run, timeDrift, apply, h]
  · intro h; simp [Step.run, computeNoise, h]
  · intro h; simp [Step.run, averagePulse, h]
  · intro h; simp [Step.run, filterData, h]
  · intro h; simp [Step.run, driftCorrect, h]
  · intro h; simp [Step.run, phase2014, h]
  · intro h; simp [Step.run, timeDrift, h]

/-- Disagreement (C181): if the summary is interrupted after its first segment, further calls take it for done: all later pulses keep the values they had (zeros), and the experiment states are never set. For every file of more than one segment whose
first pulse has a pretrigger mean other than 0. -/
theorem summarize_fails (T : Tools K) (s : Chan K) (hz : ∀ i < T.n, s.sums 0 i = 0) (hp : 0 < T.pps) (hn : T.pps < T.n) (hs : 2 ≤ T.nSeg) (h0 : T.summary 0 0 ≠ 0) :
    let s' := (summarize T false).stop 13 s
    (∀ m, (summarize T false).run^[m] s' = s') ∧ (∀ c < 11, ∀ i < T.pps, s'.sums c i = T.summary c i) ∧ (∀ c i, T.pps ≤ i → s'.sums c i = s.sums c i) ∧ s'.time = T.times ∧ s'.state = s.state := by
  have hd : (summarize T false).done s = false := by
    simp only [summarize, Bool.not_false, Bool.true_and, Bool.not_eq_eq_eq_not, List.all_eq_true, List.mem_range, beq_iff_eq]
    exact hz
  have key : (summarize T false).stop 13 s = apply ((List.range 11).map (segWrite T 0)) (apply [fun s => { s with time := T.times }, fun s => { s with sub := T.subs }] s) := by
    unfold Step.stop
    rw [hd]
    obtain ⟨m, hm⟩ : ∃ m, T.nSeg = m + 1 := ⟨T.nSeg - 1, by omega⟩
    simp only [summarize, hm, List.range_succ_eq_map (n := m), List.flatMap_cons, Bool.false_eq_true, if_false]
    rw [← apply_append]
    rfl
  obtain ⟨g1, g2, g3, g4⟩ := segment_sums T 0 11 (apply [fun s => { s with time := T.times }, fun s => { s with sub := T.subs }] s)
  rw [← key] at g1 g2 g3 g4
  dsimp only
  refine ⟨stuck _ _ ?_, fun c hc i hi => ?_, fun c i hi => ?_, g3, g2⟩
  · have h1 : ((summarize T false).stop 13 s).sums 0 0 ≠ 0 := by rw [g1, if_pos ⟨by omega, by omega, by omega⟩]; exact h0
    generalize (summarize T false).stop 13 s = x at h1
    simp only [summarize, Bool.not_false, Bool.true_and, Bool.not_eq_eq_eq_not, Bool.not_true, List.all_eq_false, List.mem_range, beq_iff_eq]
    exact ⟨0, by omega, h1⟩
  · rw [g1, if_pos ⟨hc, by omega, by omega⟩]
  · rw [g1, if_neg (by omega)]
    rfl

/-- Disagreement (C181): if the noise computation is interrupted after its first write, the autocorrelation is there and further calls take it for done: the power spectrum and its frequency step are never stored. -/
theorem noise_fails (T : Tools K) (s : Chan K) (hz : zeros s.autocorr = true) (h : zeros T.noise.1 = false) : let s' := (computeNoise T false).stop 1 s
    (∀ m, (computeNoise T false).run^[m] s' = s') ∧ s'.autocorr = T.noise.1 ∧ s'.psd = s.psd ∧ s'.deltaF = s.deltaF ∧ ((computeNoise T false).run s).psd = T.noise.2.1 := by
  have e : (computeNoise T false).stop 1 s = { s with autocorr := T.noise.1 } := by simp [Step.stop, computeNoise, hz, apply]
  dsimp only
  rw [e]
  refine ⟨stuck _ _ (by simp [computeNoise, h]), rfl, rfl, rfl, by simp [Step.run, computeNoise, hz, apply]⟩

/-- Disagreement (C181): the same for an assumed white noise of variance other than 0. -/
theorem white_fails (T : Tools K) (s : Chan K) (v : K) (hz : zeros s.autocorr = true) (hv : v ≠ 0) (hl : s.autocorr ≠ []) : let s' := (whiteNoise T v false).stop 2 s
    (∀ m, (whiteNoise T v false).run^[m] s' = s') ∧ s'.psd = s.psd ∧ ((whiteNoise T v false).run s).psd = s.psd.map (fun _ => 2 * v * T.dt) := by
  have hd : (whiteNoise T v false).done s = false := by simp [whiteNoise, hz]
  refine ⟨stuck _ _ ?_, ?_, ?_⟩
  · unfold Step.stop
    rw [hd]
    obtain ⟨a, l, hl'⟩ := List.exists_cons_of_ne_nil hl
    simp [whiteNoise, apply, hl', zeros, hv]
  · unfold Step.stop
    rw [hd]
    simp [whiteNoise, apply]
  · unfold Step.run
    rw [hd]
    simp [whiteNoise, apply]

/-- Disagreement (C181): if filtering is interrupted between its two writes, there are pulse heights, further calls take it for done, and the phases are never stored. -/
theorem filter_fails (T : Tools K) (s : Chan K) (hz : zeros s.filt = true) (h : zeros (T.filter s.sums s.state s.avg s.autocorr s.psd).1 = false) : let s' := (filterData T false).stop 1 s
    (∀ m, (filterData T false).run^[m] s' = s') ∧ s'.phase = s.phase ∧ ((filterData T false).run s).phase = (T.filter s.sums s.state s.avg s.autocorr s.psd).2 := by
  have e : (filterData T false).stop 1 s = { s with filt := (T.filter s.sums s.state s.avg s.autocorr s.psd).1 } := by simp [Step.stop, filterData, hz, apply]
  dsimp only
  rw [e]
  refine ⟨stuck _ _ (by simp [filterData, h]), rfl, by simp [Step.run, filterData, hz, apply]⟩

/-! ### phase_correct: the corrector in memory and in the file -/

/-- the names in the group "phase_correction" (phase_correct.py L35-42; `cx i` is "correction_{i}_x") -/
inductive Key
  | x | y | unc | ind | ver | cx (i : ℕ) | cy (i : ℕ)
  deriving DecidableEq

/-- a phase corrector (phase_correct.py L13-22): the points of the uniformifier, the two names, and the points of the corrections -/
structure Pc (V : Type) where
  x : V
  y : V
  unc : V
  ind : V
  cs : List (V × V)
  deriving DecidableEq

/-- a channel: its data sets for phase-corrected values, the group "phase_correction" of the file (absent, or its contents), and the attribute `phaseCorrector` of the object in memory (channel.py L812-816, L1811-1820) -/
structure PChan (K V : Type) where
  phaseCorr : List K
  phc : List K
  grp : Option (Key → Option V)
  pc : Option (Pc V)

variable {V : Type} [DecidableEq V]

/-- `del group[name]` if it is there, phase_correct.py L29-31 -/
def erase (k : Key) (s : PChan K V) : PChan K V := { s with grp := s.grp.map (fun g k' => if k' = k then none else g k') }

/-- `group[name] = vector`, phase_correct.py L34 -/
def put (k : Key) (v : V) (s : PChan K V) : PChan K V := { s with grp := s.grp.map (fun g k' => if k' = k then some v else g k') }

/-- `h5group_update(name, vector)` with overwrite=True, phase_correct.py L28-34 -/
def update (k : Key) (v : V) : List (PChan K V → PChan K V) := [erase k, put k v]

/-- the corrections with their numbers, phase_correct.py L40-42 -/
def corrWrites (cs : List (V × V)) (i : ℕ) : List (PChan K V → PChan K V) :=
  match cs with
  | [] => []
  | c :: cs => update (.cx i) c.1 ++ update (.cy i) c.2 ++ corrWrites cs (i + 1)

/-- `phase_correct` of a channel, channel.py L1805-1820, with `toHDF5`, phase_correct.py L24-42. `p`, `a`, `b` are the corrector, the corrected phases and the corrected values, which are computed from other data sets; `cur` is the version -/
def phaseCorrect (cur : V) (p : Pc V) (a b : List K) : Step (PChan K V) where
  done s := s.pc.isSome
  writes _ := [fun s => { s with pc := some p }, fun s => { s with phaseCorr := a }, fun s => { s with phc := b }, fun s => { s with grp := some (s.grp.getD (fun _ => none)) }] ++
    (update .x p.x ++ update .y p.y ++ update .unc p.unc ++ update .ind p.ind ++ update .ver cur) ++ corrWrites p.cs 0

/-- the loop of `fromHDF5` from number `i` on, phase_correct.py L64-70, at most `fuel` numbers -/
def loadCs (g : Key → Option V) : ℕ → ℕ → Except Exc (List (V × V))
  | 0, _ => .ok []
  | fuel + 1, i => match g (.cx i), g (.cy i) with
    | none, _ => .ok []
    | some _, none => .error .key
    | some x, some y => (loadCs g fuel (i + 1)).map ((x, y) :: ·)

/-- `hdf5_group[name][()]`, phase_correct.py L58-62 -/
def getKey (g : Key → Option V) (k : Key) : Except Exc V := match g k with
  | none => .error .key
  | some v => .ok v

/-- `fromHDF5`, phase_correct.py L56-72 -/
def load (cur : V) (fuel : ℕ) (g : Key → Option V) : Except Exc (Pc V) := do
  let x ← getKey g .x
  let y ← getKey g .y
  let unc ← getKey g .unc
  let ind ← getKey g .ind
  let ver ← getKey g .ver
  let cs ← loadCs g fuel 0
  if ver = cur then .ok ⟨x, y, unc, ind, cs⟩ else .error .assertion

/-- opening the channel in a new session: `__load_corrections`, channel.py L812-816 -/
def reopen (cur : V) (fuel : ℕ) (s : PChan K V) : Except Exc (PChan K V) := match s.grp with
  | none => .ok { s with pc := none }
  | some g => (load cur fuel g).map (fun p => { s with pc := some p })

/-- the contents of the group after the five single entries and the corrections `cs` were written into a new group (phase_correct.py L35-42) [specification] -/
def contents (cur : V) (p : Pc V) (cs : List (V × V)) : Key → Option V
  | .x => some p.x
  | .y => some p.y
  | .unc => some p.unc
  | .ind => some p.ind
  | .ver => some cur
  | .cx i => cs[i]?.map (·.1)
  | .cy i => cs[i]?.map (·.2)

theorem corrWrites_grp (cs : List (V × V)) (i : ℕ) (s : PChan K V) (g : Key → Option V) (hg : s.grp = some g) :
    apply (corrWrites cs i) s = { s with grp := some (fun k => match k with
      | .cx j => if i ≤ j ∧ j < i + cs.length then cs[j - i]?.map (·.1) else g k
      | .cy j => if i ≤ j ∧ j < i + cs.length then cs[j - i]?.map (·.2) else g k
      | _ => g k) } := by
  induction cs generalizing i s g with
  | nil =>
    cases s
    simp only at hg
    subst hg
    simp only [corrWrites, apply, List.foldl_nil, List.length_nil, Nat.add_zero]
    congr 2
    funext k
    cases k <;> simp
    all_goals intros; omega
  | cons c cs ih =>
    unfold corrWrites
    rw [apply_append]
    have e : apply (update (.cx i) c.1 ++ update (.cy i) c.2) s = { s with grp := some (fun k => if k = .cy i then some c.2 else if k = .cx i then some c.1 else g k) } := by
      simp only [update, apply, List.cons_append, List.nil_append, List.foldl_cons, List.foldl_nil, put, erase, hg, Option.map_some]
      congr 2
      funext k
      split_ifs <;> rfl
    rw [e, ih (i + 1) _ _ rfl]
    congr 2
    funext k
    cases k with
    | cx j =>
      by_cases hj : j = i
      · subst hj; simp
      · by_cases h : i + 1 ≤ j
        · obtain ⟨d, rfl⟩ : ∃ d, j = i + 1 + d := ⟨j - (i + 1), by omega⟩
          simp [show i + 1 + d ≠ i by omega, show i + 1 + d - i = d + 1 by omega, show i ≤ i + 1 + d by omega, show (i + 1 + d < i + (cs.length + 1)) = (i + 1 + d < i + 1 + cs.length) by rw [show i + (cs.length + 1) = i + 1 + cs.length by omega]]
        · simp [hj, show ¬ i + 1 ≤ j by omega, show ¬ i ≤ j by omega]
    | cy j =>
      by_cases hj : j = i
      · subst hj; simp
      · by_cases h : i + 1 ≤ j
        · obtain ⟨d, rfl⟩ : ∃ d, j = i + 1 + d := ⟨j - (i + 1), by omega⟩
          simp [show i + 1 + d ≠ i by omega, show i + 1 + d - i = d + 1 by omega, show i ≤ i + 1 + d by omega, show (i + 1 + d < i + (cs.length + 1)) = (i + 1 + d < i + 1 + cs.length) by rw [show i + (cs.length + 1) = i + 1 + cs.length by omega]]
        · simp [hj, show ¬ i + 1 ≤ j by omega, show ¬ i ≤ j by omega]
    | x => simp
    | y => simp
    | unc => simp
    | ind => simp
    | ver => simp

theorem corrWrites_take (cs : List (V × V)) (i m : ℕ) : (corrWrites (K := K) cs i).take (4 * m) = corrWrites (cs.take m) i := by
  induction cs generalizing i m with
  | nil => simp [corrWrites]
  | cons c cs ih =>
    cases m with
    | zero => simp [corrWrites]
    | succ m =>
      rw [List.take_succ_cons]
      unfold corrWrites
      rw [show 4 * (m + 1) = (update (K := K) (.cx i) c.1 ++ update (.cy i) c.2).length + 4 * m by simp [update]; omega, List.take_length_add_append, ih]

theorem head_grp (cur : V) (p : Pc V) (a b : List K) (s : PChan K V) (h : s.grp = none) :
    apply ([fun s => { s with pc := some p }, fun s => { s with phaseCorr := a }, fun s => { s with phc := b }, fun s : PChan K V => { s with grp := some (s.grp.getD (fun _ => none)) }] ++
      (update .x p.x ++ update .y p.y ++ update .unc p.unc ++ update .ind p.ind ++ update .ver cur)) s = ⟨a, b, some (contents cur p []), some p⟩ := by
  simp only [update, apply, List.cons_append, List.nil_append, List.foldl_cons, List.foldl_nil, put, erase, h, Option.map_some, Option.getD_none]
  congr 2
  funext k
  cases k <;> simp [contents]

theorem stop_corr (cur : V) (p : Pc V) (a b : List K) (s : PChan K V) (h : s.grp = none) (hp : s.pc = none) (m : ℕ) :
    (phaseCorrect cur p a b).stop (14 + 4 * m) s = ⟨a, b, some (contents cur p (p.cs.take m)), some p⟩ := by
  unfold Step.stop
  simp only [phaseCorrect, hp, Option.isSome_none, Bool.false_eq_true, if_false]
  rw [show 14 + 4 * m = ([fun s : PChan K V => { s with pc := some p }, fun s : PChan K V => { s with phaseCorr := a }, fun s : PChan K V => { s with phc := b }, fun s : PChan K V => { s with grp := some (s.grp.getD (fun _ => none)) }] ++
      (update .x p.x ++ update .y p.y ++ update .unc p.unc ++ update .ind p.ind ++ update .ver cur)).length + 4 * m by simp [update], List.take_length_add_append, corrWrites_take, apply_append, head_grp cur p a b s h,
    corrWrites_grp _ _ _ _ rfl]
  congr 2
  funext k
  cases k with
  | cx j =>
    simp only [contents, Nat.zero_le, Nat.zero_add, true_and, Nat.sub_zero]
    split_ifs with hj
    · rfl
    · rw [List.getElem?_eq_none (l := List.take m p.cs) (by omega)]; simp
  | cy j =>
    simp only [contents, Nat.zero_le, Nat.zero_add, true_and, Nat.sub_zero]
    split_ifs with hj
    · rfl
    · rw [List.getElem?_eq_none (l := List.take m p.cs) (by omega)]; simp
  | x => rfl
  | y => rfl
  | unc => rfl
  | ind => rfl
  | ver => rfl

theorem loadCs_contents (cur : V) (p : Pc V) (cs : List (V × V)) (fuel i : ℕ) (hi : i ≤ cs.length) (hf : cs.length < fuel + i) : loadCs (contents cur p cs) fuel i = .ok (cs.drop i) := by
  induction fuel generalizing i with
  | zero => omega
  | succ fuel ih =>
    unfold loadCs
    rcases Nat.lt_or_ge i cs.length with h | h
    · simp only [contents, List.getElem?_eq_getElem h, Option.map_some]
      rw [ih (i + 1) h (by omega)]
      rw [List.drop_eq_getElem_cons h]
      rfl
    · simp only [contents, List.getElem?_eq_none h, Option.map_none]
      rw [List.drop_eq_nil_of_le h]

theorem load_contents (cur : V) (p : Pc V) (cs : List (V × V)) (fuel : ℕ) (hf : cs.length < fuel) : load cur fuel (contents cur p cs) = .ok { p with cs := cs } := by
  unfold load
  rw [loadCs_contents cur p cs fuel 0 (Nat.zero_le _) (by omega)]
  simp [getKey, contents, bind, Except.bind]

/-- C181. Interrupted before the corrector is stored in the file (up to three writes: none, the corrected phases, the corrected values) and continued in a new session, phase_correct ends as if it had not been interrupted. -/
theorem phase_resumed (cur : V) (p : Pc V) (a b : List K) (s : PChan K V) (h : s.grp = none) (hp : s.pc = none) (fuel k : ℕ) (hk : k ≤ 3) :
    ∃ s', reopen cur fuel ((phaseCorrect cur p a b).stop k s) = .ok s' ∧ (phaseCorrect cur p a b).run s' = (phaseCorrect cur p a b).run s := by
  obtain ⟨pcr, phc, grp, pc⟩ := s
  dsimp only at h hp
  subst h hp
  match k, hk with
  | 0, _ => exact ⟨_, rfl, rfl⟩
  | 1, _ => exact ⟨_, rfl, rfl⟩
  | 2, _ => exact ⟨_, rfl, rfl⟩
  | 3, _ => exact ⟨_, rfl, rfl⟩

/-- C181. Complete, and opened in a new session, the channel has the corrector that was found, and its values are there; a further call does nothing. -/
theorem phase_complete (cur : V) (p : Pc V) (a b : List K) (s : PChan K V) (h : s.grp = none) (hp : s.pc = none) (fuel : ℕ) (hf : p.cs.length < fuel) :
    reopen cur fuel ((phaseCorrect cur p a b).run s) = .ok ((phaseCorrect cur p a b).run s) ∧ ((phaseCorrect cur p a b).run s).pc = some p ∧ ((phaseCorrect cur p a b).run s).phc = b ∧
    (phaseCorrect cur p a b).run ((phaseCorrect cur p a b).run s) = (phaseCorrect cur p a b).run s := by
  have hl : ∀ cs : List (V × V), ∀ i, (corrWrites (K := K) cs i).length = 4 * cs.length := by
    intro cs
    induction cs with
    | nil => intro i; rfl
    | cons c cs ih => intro i; simp only [corrWrites, List.length_append, ih, update, List.length_cons, List.length_nil]; omega
  have e : (phaseCorrect cur p a b).run s = ⟨a, b, some (contents cur p p.cs), some p⟩ := by
    have := stop_corr cur p a b s h hp p.cs.length
    rw [List.take_length] at this
    rw [← this]
    unfold Step.stop Step.run
    rw [List.take_of_length_le]
    simp only [phaseCorrect, List.length_append, hl, update, List.length_cons, List.length_nil]
    omega
  rw [e]
  refine ⟨?_, rfl, rfl, ?_⟩
  · unfold reopen
    simp only [load_contents cur p p.cs fuel hf]
    rfl
  · simp [Step.run, phaseCorrect]

/-- Disagreement (C181): interrupted right after the corrector was found and called again in the same session, phase_correct takes itself for done: the corrected values are never computed. -/
theorem phase_same_session_fails (cur : V) (p : Pc V) (a b : List K) (s : PChan K V) (hp : s.pc = none) (k : ℕ) (hk : k = 1 ∨ k = 2) : let s' := (phaseCorrect cur p a b).stop k s
    (∀ m, (phaseCorrect cur p a b).run^[m] s' = s') ∧ s'.phc = s.phc ∧ s'.grp = s.grp ∧ ((phaseCorrect cur p a b).stop 3 s).phc = b := by
  obtain ⟨pcr, phc, grp, pc⟩ := s
  dsimp only at hp
  subst hp
  rcases hk with rfl | rfl
  · exact ⟨stuck _ _ rfl, rfl, rfl, rfl⟩
  · exact ⟨stuck _ _ rfl, rfl, rfl, rfl⟩

/-- Disagreement (C181): interrupted while the corrector is being stored, before its version is there, the channel cannot be opened any more: KeyError, for every corrector. -/
theorem phase_unopenable_fails (cur : V) (p : Pc V) (a b : List K) (s : PChan K V) (h : s.grp = none) (hp : s.pc = none) (fuel k : ℕ) (h1 : 4 ≤ k) (h2 : k ≤ 13) :
    reopen cur fuel ((phaseCorrect cur p a b).stop k s) = .error .key := by
  obtain ⟨pcr, phc, grp, pc⟩ := s
  dsimp only at h hp
  subst h hp
  obtain ⟨j, rfl⟩ : ∃ j, k = j + 4 := ⟨k - 4, by omega⟩
  have : j = 0 ∨ j = 1 ∨ j = 2 ∨ j = 3 ∨ j = 4 ∨ j = 5 ∨ j = 6 ∨ j = 7 ∨ j = 8 ∨ j = 9 := by omega
  rcases this with rfl | rfl | rfl | rfl | rfl | rfl | rfl | rfl | rfl | rfl <;> rfl

/-- Disagreement (C181): interrupted later, between two corrections, the channel opens with a corrector that has only the first `m` corrections, without an error, and phase_correct takes itself for done. The stored values are those of the complete
corrector. -/
theorem phase_truncated_fails (cur : V) (p : Pc V) (a b : List K) (s : PChan K V) (h : s.grp = none) (hp : s.pc = none) (fuel m : ℕ) (hm : m < p.cs.length) (hf : p.cs.length < fuel) :
    ∃ s', reopen cur fuel ((phaseCorrect cur p a b).stop (14 + 4 * m) s) = .ok s' ∧ s'.pc = some { p with cs := p.cs.take m } ∧ s'.pc ≠ some p ∧ s'.phc = b ∧ ∀ i, (phaseCorrect cur p a b).run^[i] s' = s' := by
  refine ⟨⟨a, b, some (contents cur p (p.cs.take m)), some { p with cs := p.cs.take m }⟩, ?_, rfl, ?_, rfl, stuck _ _ rfl⟩
  · rw [stop_corr cur p a b s h hp]
    unfold reopen
    simp only [load_contents cur p (p.cs.take m) fuel (by rw [List.length_take]; omega)]
    rfl
  · intro e
    have := congrArg (fun q => q.map (fun q : Pc V => q.cs.length)) e
    simp only [Option.map_some, Option.some.injEq, List.length_take] at this
    omega

/-! ### Instances -/

/-- two pulses to a segment, three pulses [specification] -/
def demo : Tools ℚ where
  n := 3
  pps := 2
  nSeg := 2
  times := [1, 2, 3]
  subs := [64, 128, 192]
  summary := fun c i => 100 + 10 * c + i
  codes := fun t => t.map (fun _ => 1)
  noise := ([4, 1, 0], [2, 1], 5)
  dt := 1 / 2
  average := fun f _ => [f 0 0, 7]
  filter := fun f _ avg ac psd => ([f 1 0 + avg.sum + 3, f 1 1 + ac.sum, f 1 2 + psd.sum], [1, 2, 3])
  drift := fun f _ x => (f 1, x.getD 0 0 / 1000)
  tcorr := fun f _ => [f 2 0 / 100, f 2 1 / 100, f 2 2 / 100]
  tdrift := fun t _ x => List.zipWith (· + ·) t x

/-- a new file (channel.py L684-729) [specification] -/
def fresh : Chan ℚ := ⟨[0, 0, 0], [0, 0, 0], fun _ _ => 0, [0, 0, 0], [0, 0, 0], [0, 0], none, [0, 0], [0, 0, 0], [0, 0, 0], none, none, [0, 0, 0], [0, 0, 0], [0, 0, 0]⟩

/-- instances: an analysis interrupted four times; the final values are those of an analysis without interruptions, and not zero -/
example : let as : List (ℕ × ℕ) := [(0, 0), (2, 0), (4, 2), (5, 1)]
    (∀ a ∈ as, a.2 = 0 ∨ a.1 = 2 ∨ 4 ≤ a.1) ∧ (as.foldl (fun s a => attempt (analysis demo) a s) fresh).tdc = [0, 0, 0] ∧
    (runAll (analysis demo) (as.foldl (fun s a => attempt (analysis demo) a s) fresh)).tdc = (runAll (analysis demo) fresh).tdc ∧ ((runAll (analysis demo) fresh).tdc).getD 0 0 ≠ 0 := by decide +kernel

/-- an interruption in the noise computation that is not covered: the filtered values are then other ones -/
example : (runAll (analysis demo) (attempt (analysis demo) (1, 1) fresh)).filt ≠ (runAll (analysis demo) fresh).filt := by decide +kernel

/-- the hypotheses of `summarize_fails`, `noise_fails`, `white_fails` and `filter_fails` are met here, and the third pulse stays without a summary -/
example : (∀ i < demo.n, fresh.sums 0 i = 0) ∧ 0 < demo.pps ∧ demo.pps < demo.n ∧ 2 ≤ demo.nSeg ∧ demo.summary 0 0 ≠ 0 ∧ zeros fresh.autocorr = true ∧ zeros demo.noise.1 = false ∧ fresh.autocorr ≠ [] ∧ zeros fresh.filt = true ∧
    zeros (demo.filter fresh.sums fresh.state fresh.avg fresh.autocorr fresh.psd).1 = false ∧ ((runAll (analysis demo) (attempt (analysis demo) (0, 13) fresh)).sums 3 2, (runAll (analysis demo) fresh).sums 3 2) = (0, 132) := by decide +kernel

/-- a corrector with two corrections, interrupted at each place: how opening ends -/
example : let p : Pc ℕ := ⟨1, 2, 3, 4, [(5, 6), (7, 8)]⟩
    let s : PChan ℚ ℕ := ⟨[0], [0], none, none⟩
    [2, 9, 14, 16, 18, 22].map (fun k => (reopen 1 9 ((phaseCorrect 1 p [10] [20] : Step (PChan ℚ ℕ)).stop k s)).map (fun s' => s'.pc.map (fun q => q.cs))) =
      [.ok none, .error .key, .ok (some []), .error .key, .ok (some [(5, 6)]), .ok (some [(5, 6), (7, 8)])] := by decide +kernel

end Mass.Algo.Resume
