import Verif.Stat.FirstN
import Mathlib.Tactic.Linarith
import Mathlib.Tactic.Ring
import Mathlib.Tactic.FieldSimp
/-! C134: masks of pulses by size and the average pulses of all channels (mass/core/channel_group.py). Numbers are elements of an ordered field; the
code uses float64. -/
namespace Mass.Stat.Masks
open Mass.Stat.FirstN
variable {K : Type} [Field K] [LinearOrder K] [IsStrictOrderedRing K]

/-! ### model -/

/-- What is used of one channel: is it marked bad, three quantities for each pulse, which pulses are good, the stored average pulse and the records
(channel.py L684-743). -/
structure Chan (K : Type) where
  isBad : Bool
  avg : List K
  peak : List K
  rms : List K
  good : List Bool
  stored : List K
  data : List (List K)
  deriving DecidableEq, Repr

/-- channel_group.py L867-869: good channels without pulses are marked bad. -/
def markEmpty (cs : List (Chan K)) : List (Chan K) := cs.map (fun c => { c with isBad := c.isBad || c.data.isEmpty })

/-- channel_group.py L875-893: the quantity and the range that are used; the last one given. -/
def chooseRange (ravg rpeak rrms : Option (K × K)) : Except Exc ((Chan K → List K) × K × K) :=
  match rrms with
  | some r => .ok (Chan.rms, r)
  | none => match rpeak with
    | some r => .ok (Chan.peak, r)
    | none => match ravg with
      | some r => .ok (Chan.avg, r)
      | none => .error .value

/-- channel_group.py L898-902 for one channel: `np.abs(v / gain - middle) <= abs_lim` and good. Gains are not zero. -/
def mask (vec : Chan K → List K) (pmin pmax gain : K) (c : Chan K) : List Bool :=
  List.zipWith (fun v (g : Bool) => decide (|v / gain - 1 / 2 * (pmin + pmax)| ≤ 1 / 2 * |pmax - pmin|) && g) (vec c) c.good

/-- channel_group.py L850-903 `make_masks`: the masks, and the channels afterwards (`n` is `n_channels`, the number of file names). -/
def makeMasks (n : Nat) (ravg rpeak rrms : Option (K × K)) (gains : Option (List K)) (cs : List (Chan K)) :
    Except Exc (List (List Bool)) × List (Chan K) :=
  let cs := markEmpty cs
  let gains := gains.getD (List.replicate n 1)
  match chooseRange ravg rpeak rrms with
  | .error e => (.error e, cs)
  | .ok (vec, pmin, pmax) => (.ok (List.zipWith (fun g c => mask vec pmin pmax g c) gains cs), cs)

/-- channel_group.py L926-929: the loop of `compute_average_pulse`. A mask of another length than the records raises IndexError (`self.data[mask, :]`,
channel.py L1088) unless the average exists already. -/
def averageLoop (ns nsamp : Nat) (sub force : Bool) : List (List Bool × Chan K) → Except Exc Unit × List (Chan K)
  | [] => (.ok (), [])
  | (m, c) :: t =>
    if c.isBad then
      let r := averageLoop ns nsamp sub force t
      (r.1, c :: r.2)
    else if (force || c.stored.all (fun v => decide (v = 0))) && m.length != c.data.length then (.error .index, c :: t.map Prod.snd)
    else
      let r := averageLoop ns nsamp sub force t
      (r.1, { c with stored := averagePulse c.stored m c.data ns nsamp sub force } :: r.2)

/-- channel_group.py L905-929 `compute_average_pulse`. -/
def averageAll (ns nsamp : Nat) (masks : List (List Bool)) (sub force : Bool) (cs : List (Chan K)) : Except Exc Unit × List (Chan K) :=
  if masks.length ≠ cs.length then (.error .value, cs) else averageLoop ns nsamp sub force (masks.zip cs)

/-! ### masks -/

theorem within (x a b : K) : |x - 1 / 2 * (a + b)| ≤ 1 / 2 * |b - a| ↔ min a b ≤ x ∧ x ≤ max a b := by
  rcases le_total a b with h | h
  · rw [min_eq_left h, max_eq_right h, abs_of_nonneg (show (0 : K) ≤ b - a by linarith), abs_le]
    constructor
    · rintro ⟨h1, h2⟩; constructor <;> linarith
    · rintro ⟨h1, h2⟩; constructor <;> linarith
  · rw [min_eq_right h, max_eq_left h, abs_of_nonpos (show b - a ≤ (0 : K) by linarith), abs_le]
    constructor
    · rintro ⟨h1, h2⟩; constructor <;> linarith
    · rintro ⟨h1, h2⟩; constructor <;> linarith

/-- A call with at least one range gives a mask for each channel that has a gain; pulse i is in the mask of its channel exactly if it is good and its
quantity over the gain is in the closed range, in whichever order the limits are given. The quantity is the one of the last range given. -/
theorem masks_spec (n : Nat) (ravg rpeak rrms : Option (K × K)) (gains : Option (List K)) (cs : List (Chan K)) {masks : List (List Bool)}
    {cs' : List (Chan K)} (h : makeMasks n ravg rpeak rrms gains cs = (.ok masks, cs'))
    (hlen : ∀ c ∈ cs, c.avg.length = c.good.length ∧ c.peak.length = c.good.length ∧ c.rms.length = c.good.length) :
    ∃ (vec : Chan K → List K) (lo hi : K), masks.length = min ((gains.getD (List.replicate n 1)).length) cs.length ∧
      ((∃ r, rrms = some r ∧ vec = Chan.rms ∧ lo = min r.1 r.2 ∧ hi = max r.1 r.2) ∨
        (rrms = none ∧ ∃ r, rpeak = some r ∧ vec = Chan.peak ∧ lo = min r.1 r.2 ∧ hi = max r.1 r.2) ∨
        (rrms = none ∧ rpeak = none ∧ ∃ r, ravg = some r ∧ vec = Chan.avg ∧ lo = min r.1 r.2 ∧ hi = max r.1 r.2)) ∧
      ∀ (j : Nat) m g c, masks[j]? = some m → (gains.getD (List.replicate n 1))[j]? = some g → cs[j]? = some c →
        m.length = c.good.length ∧
        ∀ i : Nat, m[i]? = some true ↔ c.good[i]? = some true ∧ ∃ v, (vec c)[i]? = some v ∧ lo ≤ v / g ∧ v / g ≤ hi := by
  have hkey : ∀ (vec : Chan K → List K) (a b : K), (∀ c b, vec { c with isBad := b } = vec c) → (∀ c ∈ cs, (vec c).length = c.good.length) →
      masks = List.zipWith (fun g c => mask vec a b g c) (gains.getD (List.replicate n 1)) (markEmpty cs) →
      masks.length = min ((gains.getD (List.replicate n 1)).length) cs.length ∧
      ∀ (j : Nat) m g c, masks[j]? = some m → (gains.getD (List.replicate n 1))[j]? = some g → cs[j]? = some c →
        m.length = c.good.length ∧
        ∀ i : Nat, m[i]? = some true ↔ c.good[i]? = some true ∧ ∃ v, (vec c)[i]? = some v ∧ min a b ≤ v / g ∧ v / g ≤ max a b := by
    intro vec a b hv hl hm
    subst hm
    refine ⟨by simp [markEmpty], ?_⟩
    intro j m g c hm hg hc
    rw [List.getElem?_zipWith, hg] at hm
    unfold markEmpty at hm
    rw [List.getElem?_map, hc] at hm
    simp only [Option.map_some, Option.some.injEq] at hm
    have hcl := hl c (List.mem_of_getElem? hc)
    have hme : m = List.zipWith (fun v (g' : Bool) => decide (|v / g - 1 / 2 * (a + b)| ≤ 1 / 2 * |b - a|) && g') (vec c) c.good := by
      rw [← hm]
      unfold mask
      rw [hv]
    rw [hme]
    refine ⟨by simp [hcl], ?_⟩
    intro i
    rw [List.getElem?_zipWith]
    rcases Nat.lt_or_ge i c.good.length with hi | hi
    · rw [List.getElem?_eq_getElem hi, List.getElem?_eq_getElem (by omega)]
      simp only [Option.some.injEq, Bool.and_eq_true, decide_eq_true_eq, within]
      constructor
      · rintro ⟨h1, h2⟩
        exact ⟨h2, _, rfl, h1⟩
      · rintro ⟨h1, v, rfl, h2⟩
        exact ⟨h2, h1⟩
    · rw [List.getElem?_eq_none hi, List.getElem?_eq_none (by omega)]
      simp
  unfold makeMasks chooseRange at h
  dsimp only at h
  cases rrms with
  | some r =>
    simp only [Prod.mk.injEq, Except.ok.injEq] at h
    obtain ⟨k1, k2⟩ := hkey Chan.rms r.1 r.2 (fun _ _ => rfl) (fun c hc => (hlen c hc).2.2) h.1.symm
    exact ⟨Chan.rms, _, _, k1, Or.inl ⟨r, rfl, rfl, rfl, rfl⟩, k2⟩
  | none =>
    cases rpeak with
    | some r =>
      simp only [Prod.mk.injEq, Except.ok.injEq] at h
      obtain ⟨k1, k2⟩ := hkey Chan.peak r.1 r.2 (fun _ _ => rfl) (fun c hc => (hlen c hc).2.1) h.1.symm
      exact ⟨Chan.peak, _, _, k1, Or.inr (Or.inl ⟨rfl, r, rfl, rfl, rfl, rfl⟩), k2⟩
    | none =>
      cases ravg with
      | some r =>
        simp only [Prod.mk.injEq, Except.ok.injEq] at h
        obtain ⟨k1, k2⟩ := hkey Chan.avg r.1 r.2 (fun _ _ => rfl) (fun c hc => (hlen c hc).1) h.1.symm
        exact ⟨Chan.avg, _, _, k1, Or.inr (Or.inr ⟨rfl, rfl, r, rfl, rfl, rfl, rfl⟩), k2⟩
      | none => simp at h

/-- two channels with three pulses [specification] -/
def demo : List (Chan ℚ) :=
  [⟨false, [10, 20, 30], [1, 2, 3], [5, 6, 7], [true, true, false], [0, 0], [[1, 2], [3, 4], [5, 6]]⟩,
   ⟨true, [20, 40, 60], [1, 2, 3], [5, 6, 7], [true, true, true], [7, 7], [[1, 2], [3, 4], [5, 6]]⟩]

example : (makeMasks 2 (some (30, 15)) none none (some [1, 2]) demo).1.toOption = some [[false, true, false], [false, true, true]] := by decide +kernel
example : ∀ c ∈ demo, c.avg.length = c.good.length ∧ c.peak.length = c.good.length ∧ c.rms.length = c.good.length := by decide +kernel

/-- The call fails exactly if no range is given; in any case the channels without pulses are marked bad, and nothing else about the channels changes. -/
theorem masks_fail (n : Nat) (ravg rpeak rrms : Option (K × K)) (gains : Option (List K)) (cs : List (Chan K)) :
    ((makeMasks n ravg rpeak rrms gains cs).1 = .error .value ↔ ravg = none ∧ rpeak = none ∧ rrms = none) ∧
    ((∃ m, (makeMasks n ravg rpeak rrms gains cs).1 = .ok m) ↔ ¬ (ravg = none ∧ rpeak = none ∧ rrms = none)) ∧
    (makeMasks n ravg rpeak rrms gains cs).2.length = cs.length ∧
    ∀ (j : Nat) c c', cs[j]? = some c → (makeMasks n ravg rpeak rrms gains cs).2[j]? = some c' →
      (c'.isBad = true ↔ c.isBad = true ∨ c.data = []) ∧ { c' with isBad := c.isBad } = c := by
  have h2 : (makeMasks n ravg rpeak rrms gains cs).2 = markEmpty cs := by
    unfold makeMasks
    dsimp only
    cases chooseRange ravg rpeak rrms <;> rfl
  refine ⟨?_, ?_, by rw [h2]; simp [markEmpty], ?_⟩
  · unfold makeMasks chooseRange
    cases rrms <;> cases rpeak <;> cases ravg <;> simp
  · unfold makeMasks chooseRange
    cases rrms <;> cases rpeak <;> cases ravg <;> simp
  · intro j c c' hc hc'
    rw [h2] at hc'
    unfold markEmpty at hc'
    rw [List.getElem?_map, hc] at hc'
    simp only [Option.map_some, Option.some.injEq] at hc'
    subst hc'
    refine ⟨by simp, rfl⟩

example : ((makeMasks 1 none none none none [⟨false, [], [], [], [], [], []⟩] : Except Exc (List (List Bool)) × List (Chan ℚ)).2.map Chan.isBad) = [true] := by
  decide +kernel

/-- A positive gain of a channel is the same as limits multiplied by it. -/
theorem mask_gain (vec : Chan K → List K) (pmin pmax : K) {gain : K} (hg : 0 < gain) (c : Chan K) :
    mask vec pmin pmax gain c = mask vec (gain * pmin) (gain * pmax) 1 c := by
  unfold mask
  congr 1
  funext v g
  congr 1
  rw [decide_eq_decide, within, within]
  have e1 : min (gain * pmin) (gain * pmax) = gain * min pmin pmax := (mul_min_of_nonneg _ _ hg.le).symm
  have e2 : max (gain * pmin) (gain * pmax) = gain * max pmin pmax := (mul_max_of_nonneg _ _ hg.le).symm
  rw [e1, e2, div_one, le_div_iff₀ hg, div_le_iff₀ hg, mul_comm gain, mul_comm gain]

example : mask Chan.avg 15 30 2 (⟨true, [20, 40, 60], [1, 2, 3], [5, 6, 7], [true, true, true], [7, 7], []⟩ : Chan ℚ) = [false, true, true] := by
  decide +kernel

/-! ### average pulses -/

theorem loop_length (ns nsamp : Nat) (sub force : Bool) (l : List (List Bool × Chan K)) : (averageLoop ns nsamp sub force l).2.length = l.length := by
  induction l with
  | nil => rfl
  | cons e t ih =>
    obtain ⟨m, c⟩ := e
    unfold averageLoop
    dsimp only
    split
    · simp [ih]
    · split
      · simp
      · simp [ih]

/-- With a mask for every channel, of the right length for every good channel, the call succeeds; every good channel has the average of the records in
its mask, and bad channels keep what they have. Nothing but the averages changes. -/
theorem average_spec (ns nsamp : Nat) (masks : List (List Bool)) (sub force : Bool) (cs : List (Chan K)) (hl : masks.length = cs.length)
    (hm : ∀ (j : Nat) m c, masks[j]? = some m → cs[j]? = some c → c.isBad = false → m.length = c.data.length) :
    (averageAll ns nsamp masks sub force cs).1 = .ok () ∧
    ∀ (j : Nat) m c, masks[j]? = some m → cs[j]? = some c → (averageAll ns nsamp masks sub force cs).2[j]? =
      some (if c.isBad then c else { c with stored := averagePulse c.stored m c.data ns nsamp sub force }) := by
  unfold averageAll
  rw [if_neg (by simpa using hl)]
  induction masks generalizing cs with
  | nil =>
    refine ⟨?_, by simp⟩
    rw [List.zip_nil_left]
    rfl
  | cons m0 ms ih =>
    cases cs with
    | nil => simp at hl
    | cons c0 t =>
      obtain ⟨i1, i2⟩ := ih t (by simpa using hl) (fun j m c h1 h2 => hm (j + 1) m c (by simpa using h1) (by simpa using h2))
      have h0 := hm 0 m0 c0 rfl rfl
      rw [List.zip_cons_cons]
      unfold averageLoop
      cases hb : c0.isBad with
      | true =>
        simp only [if_true]
        refine ⟨i1, ?_⟩
        intro j m c h1 h2
        cases j with
        | zero =>
          simp only [List.getElem?_cons_zero, Option.some.injEq] at h1 h2 ⊢
          subst h1 h2
          simp [hb]
        | succ k =>
          simp only [List.getElem?_cons_succ] at h1 h2 ⊢
          exact i2 k m c h1 h2
      | false =>
        rw [if_neg (by simp), if_neg (by simp [h0 hb])]
        refine ⟨i1, ?_⟩
        intro j m c h1 h2
        cases j with
        | zero =>
          simp only [List.getElem?_cons_zero, Option.some.injEq] at h1 h2 ⊢
          subst h1 h2
          simp [hb]
        | succ k =>
          simp only [List.getElem?_cons_succ] at h1 h2 ⊢
          exact i2 k m c h1 h2

example : ((averageAll 2 1 [[true, true, false], []] true false demo).2.map Chan.stored) = [[0, 1], [7, 7]] := by decide +kernel

/-- Another number of masks than of channels is refused and nothing changes. -/
theorem average_refused (ns nsamp : Nat) {masks : List (List Bool)} (sub force : Bool) {cs : List (Chan K)} (hl : masks.length ≠ cs.length) :
    averageAll ns nsamp masks sub force cs = (.error .value, cs) := by
  unfold averageAll
  rw [if_pos hl]

example : (averageAll 2 1 [[true]] true false demo).1 = .error .value := by decide +kernel

/-- Masks made for channels whose quantities and records agree in number are accepted, and the average of a good channel that has none is the
average of its good records in the range (less a constant, if the mean is subtracted). -/
theorem masked_average (n ns nsamp : Nat) (ravg rpeak rrms : Option (K × K)) (sub force : Bool) (cs : List (Chan K)) {masks : List (List Bool)}
    {cs' : List (Chan K)} (h : makeMasks n ravg rpeak rrms none cs = (.ok masks, cs')) (hn : cs.length ≤ n)
    (hlen : ∀ c ∈ cs, c.avg.length = c.good.length ∧ c.peak.length = c.good.length ∧ c.rms.length = c.good.length)
    (hdata : ∀ c ∈ cs, c.data.length = c.good.length) :
    (averageAll ns nsamp masks sub force cs').1 = .ok () ∧
    ∀ (j : Nat) m c, masks[j]? = some m → cs'[j]? = some c → c.isBad = false → (force = true ∨ ∀ v ∈ c.stored, v = 0) →
      ∃ c'', (averageAll ns nsamp masks sub force cs').2[j]? = some c'' ∧ c''.stored.length = ns ∧
        ∃ a, (sub = false → a = 0) ∧ ∀ k < ns, c''.stored.getD k 0 = mean (column (pick m c.data) k) - a := by
  obtain ⟨vec, lo, hi, k1, -, k2⟩ := masks_spec n ravg rpeak rrms none cs h hlen
  have hcs' : cs' = (makeMasks n ravg rpeak rrms none cs).2 := by rw [h]
  obtain ⟨-, -, f1, f2⟩ := masks_fail n ravg rpeak rrms none cs
  rw [← hcs'] at f1 f2
  have hml : masks.length = cs'.length := by
    rw [k1, f1]
    simp [hn]
  have hmd : ∀ (j : Nat) m c, masks[j]? = some m → cs'[j]? = some c → m.length = c.data.length := by
    intro j m c hm hc
    have hj : j < cs.length := by
      have := (List.getElem?_eq_some_iff.mp hc).1
      omega
    have hc0 := List.getElem?_eq_getElem hj
    have hg : (Option.getD none (List.replicate n (1 : K)))[j]? = some 1 := by
      simp [List.getElem?_replicate, show j < n by omega]
    have h1 := (k2 j m 1 cs[j] hm hg hc0).1
    have h2 := (f2 j cs[j] c hc0 hc).2
    have h3 : c.data = cs[j].data := (congrArg Chan.data h2 : _)
    rw [h1, h3, hdata _ (List.getElem_mem hj)]
  obtain ⟨a1, a2⟩ := average_spec ns nsamp masks sub force cs' hml (fun j m c h1 h2 _ => hmd j m c h1 h2)
  refine ⟨a1, ?_⟩
  intro j m c hm hc hb hst
  refine ⟨_, a2 j m c hm hc, ?_⟩
  obtain ⟨b1, ⟨a, b2⟩, -⟩ := average_pulse c.stored m c.data ns nsamp sub force (by tauto)
  rw [hb]
  refine ⟨b1, if sub then a else 0, ?_, ?_⟩
  · intro hs
    simp [hs]
  · intro k hk
    obtain ⟨e1, e2⟩ := b2 k hk
    rw [show (if sub = true then a else (0 : K)) = a from by
      cases sub with
      | true => rfl
      | false => simp [e2 rfl]]
    exact e1

example : ((averageAll 2 1 [[false, true, false], [false, true, true]] false false demo).2.map Chan.stored) = [[3, 4], [7, 7]] := by decide +kernel

/-- Disagreement (C134): a channel that fails should not affect the others; here the second channel's mask is too short, the first has its average,
the third is never reached and none is marked bad. -/
theorem average_stops_fails :
    let c : Chan ℚ := ⟨false, [10], [1], [5], [true], [0, 0], [[1, 2]]⟩
    let r := averageAll 2 1 [[true], [], [true]] false false [c, c, c]
    r.1 = .error .index ∧ r.2.map Chan.stored = [[1, 2], [0, 0], [0, 0]] ∧ r.2.map Chan.isBad = [false, false, false] := by decide +kernel

/-- Disagreement (C134): the channels with fewer gains than channels should be refused or done with gain 1; the masks come out too few, and the
averages are refused. -/
theorem masks_short_fails (n : Nat) (ravg rpeak rrms : Option (K × K)) (gains : List K) (cs : List (Chan K)) {masks : List (List Bool)}
    {cs' : List (Chan K)} (h : makeMasks n ravg rpeak rrms (some gains) cs = (.ok masks, cs'))
    (hlen : ∀ c ∈ cs, c.avg.length = c.good.length ∧ c.peak.length = c.good.length ∧ c.rms.length = c.good.length)
    (hg : gains.length < cs.length) (ns nsamp : Nat) (sub force : Bool) : (averageAll ns nsamp masks sub force cs').1 = .error .value := by
  obtain ⟨vec, lo, hi, k1, -, -⟩ := masks_spec n ravg rpeak rrms (some gains) cs h hlen
  have hcs' : cs' = (makeMasks n ravg rpeak rrms (some gains) cs).2 := by rw [h]
  obtain ⟨-, -, f1, -⟩ := masks_fail n ravg rpeak rrms (some gains) cs
  rw [← hcs'] at f1
  rw [average_refused]
  rw [k1, f1]
  simp
  omega

example : (makeMasks 2 (some (30, 15)) none none (some [1]) demo).1.toOption = some [[false, true, false]] := by decide +kernel

end Mass.Stat.Masks
