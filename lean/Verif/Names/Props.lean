import Verif.Names.Model
/-! Properties C09-C12. -/
namespace Mass.Names

/-! ### matching lemmas -/

theorem matchAt_head {c : Char} {t : Str} (h : c ≠ '_') : matchAt (c :: t) = none := by
  unfold matchAt chanTag
  have : (('_' == c) = false) := by simpa using fun e => h e.symm
  simp [List.isPrefixOf, this]

/-- plain left-to-right scan with overlapping candidates [specification] -/
def scan : Nat → Str → List (Nat × Str)
  | _, [] => []
  | pos, c :: t => match matchAt (c :: t) with
    | some ds => (pos, ds) :: scan (pos + 1) t
    | none => scan (pos + 1) t

theorem isDigit_ne {c : Char} (h : c.isDigit = true) : c ≠ '_' := by
  rintro rfl; revert h; decide

theorem mem_takeWhile {α} {p : α → Bool} {l : List α} {x : α} (h : x ∈ l.takeWhile p) : p x = true := by
  induction l with
  | nil => simp at h
  | cons a l ih =>
    rw [List.takeWhile_cons] at h
    split at h
    · rename_i ha
      rcases List.mem_cons.mp h with rfl | h
      · exact ha
      · exact ih h
    · simp at h

theorem matchAt_some {l ds : Str} (h : matchAt l = some ds) :
    ∃ r, l = chanTag ++ (ds ++ r) ∧ ds ≠ [] ∧ (∀ c ∈ ds, c.isDigit = true) ∧
      (∀ c t, r = c :: t → c.isDigit = false) := by
  unfold matchAt at h
  split at h
  · rename_i hp
    simp only [] at h
    split at h
    · cases h
    · rename_i hne
      injection h with h
      subst h
      rw [List.isPrefixOf_iff_prefix] at hp
      obtain ⟨r, rfl⟩ := hp
      have hd : (chanTag ++ r).drop 5 = r := rfl
      rw [hd] at hne ⊢
      refine ⟨r.dropWhile Char.isDigit, ?_, hne, fun c hc => mem_takeWhile hc, ?_⟩
      · rw [List.takeWhile_append_dropWhile]
      · intro c t hct
        have := List.head?_dropWhile_not Char.isDigit r
        rw [hct] at this
        simpa using this
  · cases h

theorem scan_skip {l : Str} {pos k : Nat} (h : ∀ c ∈ l.take k, c ≠ '_') :
    finditer k pos l = finditer 0 pos l := by
  induction l generalizing pos k with
  | nil => cases k <;> simp [finditer]
  | cons c t ih =>
    cases k with
    | zero => rfl
    | succ k =>
      have hc : c ≠ '_' := h c (by simp)
      rw [finditer]
      conv => rhs; rw [finditer, matchAt_head hc]
      exact ih (fun x hx => h x (by simp [hx]))

theorem finditer_scan (l : Str) (pos : Nat) : finditer 0 pos l = scan pos l := by
  induction l generalizing pos with
  | nil => rfl
  | cons c t ih =>
    rw [finditer, scan]
    cases hm : matchAt (c :: t) with
    | none => simp only []; exact ih (pos + 1)
    | some ds =>
      simp only []
      obtain ⟨r, hl, _, hds, _⟩ := matchAt_some hm
      rw [scan_skip, ih]
      intro x hx
      have ht : t = ['c', 'h', 'a', 'n'] ++ (ds ++ r) := by
        have := congrArg List.tail hl
        simpa [chanTag] using this
      rw [ht] at hx
      have : (['c', 'h', 'a', 'n'] ++ (ds ++ r)).take (4 + ds.length) = ['c', 'h', 'a', 'n'] ++ ds := by
        rw [← List.append_assoc]
        rw [List.take_left' (by simp; omega)]
      rw [this] at hx
      rcases List.mem_append.mp hx with hx | hx
      · rintro rfl; revert hx; decide
      · exact isDigit_ne (hds x hx)

theorem scan_append (a b : Str) (pos : Nat) : ∃ X, scan pos (a ++ b) = X ++ scan (pos + a.length) b := by
  induction a generalizing pos with
  | nil => exact ⟨[], rfl⟩
  | cons c t ih =>
    obtain ⟨X, hX⟩ := ih (pos + 1)
    have e : pos + (c :: t).length = pos + 1 + t.length := by simp; omega
    rw [e]
    rw [List.cons_append, scan, hX]
    cases matchAt (c :: (t ++ b)) with
    | none => exact ⟨X, rfl⟩
    | some ds => exact ⟨(pos, ds) :: X, rfl⟩

theorem scan_no_tag {a b : Str} {pos : Nat} (h : ∀ c ∈ a, c ≠ '_') :
    scan pos (a ++ b) = scan (pos + a.length) b := by
  induction a generalizing pos with
  | nil => rfl
  | cons c t ih =>
    have e : pos + (c :: t).length = pos + 1 + t.length := by simp; omega
    rw [List.cons_append, scan, matchAt_head (h c (by simp)), e]
    exact ih (fun x hx => h x (by simp [hx]))

/-- `l` contains "_chan" followed by a digit somewhere. [specification] -/
def HasChan (l : Str) : Prop := ∃ a d b, Char.isDigit d = true ∧ l = a ++ (chanTag ++ d :: b)

theorem scan_none {l : Str} (h : ¬ HasChan l) (pos : Nat) : scan pos l = [] := by
  induction l generalizing pos with
  | nil => rfl
  | cons c t ih =>
    rw [scan]
    cases hm : matchAt (c :: t) with
    | some ds =>
      obtain ⟨r, hl, hne, hds, _⟩ := matchAt_some hm
      cases ds with
      | nil => exact absurd rfl hne
      | cons d ds' => exact absurd ⟨[], d, ds' ++ r, hds d (by simp), by simpa using hl⟩ h
    | none =>
      simp only []
      apply ih
      rintro ⟨a, d, b, hd, rfl⟩
      exact h ⟨c :: a, d, b, hd, rfl⟩

theorem matchAt_tag {ds r : Str} (hne : ds ≠ []) (hds : ∀ c ∈ ds, c.isDigit = true)
    (hr : ∀ c t, r = c :: t → c.isDigit = false) : matchAt (chanTag ++ (ds ++ r)) = some ds := by
  unfold matchAt
  rw [if_pos (by rw [List.isPrefixOf_iff_prefix]; exact ⟨_, rfl⟩)]
  have hd : (chanTag ++ (ds ++ r)).drop 5 = ds ++ r := rfl
  have htw : (ds ++ r).takeWhile Char.isDigit = ds := by
    rw [List.takeWhile_append_of_pos hds]
    cases r with
    | nil => simp
    | cons c t => rw [List.takeWhile_cons, hr c t rfl]; simp
  simp only [hd, htw, if_neg hne]

theorem parse_tag {base ds r : Str} (hne : ds ≠ []) (hds : ∀ c ∈ ds, c.isDigit = true)
    (hr : ∀ c t, r = c :: t → c.isDigit = false) (hno : ¬ HasChan r) :
    parseName (base ++ (chanTag ++ (ds ++ r))) = (base, some (intOfDigits ds)) := by
  unfold parseName
  rw [finditer_scan]
  obtain ⟨X, hX⟩ := scan_append base (chanTag ++ (ds ++ r)) 0
  rw [hX, Nat.zero_add]
  have hs : scan base.length (chanTag ++ (ds ++ r)) = [(base.length, ds)] := by
    have hm := matchAt_tag hne hds hr
    have e1 : chanTag ++ (ds ++ r) = '_' :: ((['c', 'h', 'a', 'n'] ++ ds) ++ r) := rfl
    rw [e1] at hm ⊢
    rw [scan, hm]
    simp only []
    rw [scan_no_tag, scan_none hno]
    intro c hc
    rcases List.mem_append.mp hc with hc | hc
    · rintro rfl; revert hc; decide
    · exact isDigit_ne (hds c hc)
  rw [hs]
  simp

theorem decimal_ne (n : Nat) : decimal n ≠ [] := by
  unfold decimal
  intro h
  have := @Nat.ofDigitChars_toDigits 10 n (by omega) (by omega)
  rw [h] at this
  by_cases hn : n < 10
  · rw [Nat.toDigits_of_lt_base hn] at h; cases h
  · simp [Nat.ofDigitChars] at this
    omega

theorem decimal_isDigit {n : Nat} {c : Char} (h : c ∈ decimal n) : c.isDigit = true :=
  Nat.isDigit_of_mem_toDigits (by omega) (by omega) h

theorem intOfDigits_decimal (n : Nat) : intOfDigits (decimal n) = n := by
  have := @Nat.ofDigitChars_toDigits 10 n (by omega) (by omega)
  unfold Nat.ofDigitChars at this
  exact this

/-! ### C09 -/

/-- C09: any base name and channel number written as `base_chan<n><ext>` are recovered, whatever the
base contains, if the extension neither starts with a digit nor contains another `_chan<digit>`. -/
theorem basename_channum_roundtrip (isdir : Str → Bool) (base ext : Str) (n : Nat)
    (hfile : isdir (base ++ (chanTag ++ (decimal n ++ ext))) = false)
    (hdig : ∀ c t, ext = c :: t → c.isDigit = false) (hext : ¬ HasChan ext) :
    basenameChannum isdir (base ++ (chanTag ++ (decimal n ++ ext))) = .ok (base, some n) := by
  unfold basenameChannum
  rw [hfile]
  simp only [Bool.false_eq_true, if_false]
  rw [parse_tag (decimal_ne n) (fun c hc => decimal_isDigit hc) hdig hext, intOfDigits_decimal]

/-- C09: a file name with no `_chan<digit>` has no channel number; its base name is the name without
extension. -/
theorem basename_no_channum (isdir : Str → Bool) (fname : Str) (hfile : isdir fname = false)
    (h : ¬ HasChan fname) :
    basenameChannum isdir fname = .ok ((splitext fname).1, none) := by
  unfold basenameChannum parseName
  rw [hfile, finditer_scan, scan_none h]
  rfl

/-- C09: conversely a channel number is only reported when the name is `base_chan<digits><rest>` with
those digits and no later candidate. -/
theorem channum_some (isdir : Str → Bool) (fname base : Str) (n : Nat) (hfile : isdir fname = false)
    (h : basenameChannum isdir fname = .ok (base, some n)) :
    ∃ ds r, fname = base ++ (chanTag ++ (ds ++ r)) ∧ intOfDigits ds = n ∧ ds ≠ [] ∧
      (∀ c ∈ ds, c.isDigit = true) ∧ (∀ c t, r = c :: t → c.isDigit = false) ∧ ¬ HasChan r := by
  have hscan : ∀ (l : Str) (pos start : Nat) (ds : Str), (scan pos l).getLast? = some (start, ds) →
      ∃ a r, l = a ++ (chanTag ++ (ds ++ r)) ∧ start = pos + a.length ∧ ds ≠ [] ∧
        (∀ c ∈ ds, c.isDigit = true) ∧ (∀ c t, r = c :: t → c.isDigit = false) ∧ ¬ HasChan r := by
    intro l
    induction l with
    | nil => intro pos start ds h; simp [scan] at h
    | cons c t ih =>
      intro pos start ds h
      rw [scan] at h
      cases hm : matchAt (c :: t) with
      | none =>
        rw [hm] at h
        obtain ⟨a, r, e, hs, rest⟩ := ih (pos + 1) start ds h
        exact ⟨c :: a, r, by rw [e]; rfl, by simp; omega, rest⟩
      | some ds' =>
        rw [hm] at h
        simp only [] at h
        cases hl : (scan (pos + 1) t).getLast? with
        | some x =>
          rw [List.getLast?_cons, hl] at h
          simp at h
          subst h
          obtain ⟨a, r, e, hs, rest⟩ := ih (pos + 1) start ds hl
          exact ⟨c :: a, r, by rw [e]; rfl, by simp; omega, rest⟩
        | none =>
          rw [List.getLast?_cons, hl] at h
          simp at h
          obtain ⟨rfl, rfl⟩ := h
          obtain ⟨r, e, h1, h2, h3⟩ := matchAt_some hm
          refine ⟨[], r, by simpa using e, by simp, h1, h2, h3, ?_⟩
          rintro ⟨a, d, b, hd, hr⟩
          rw [List.getLast?_eq_none_iff] at hl
          have ht : t = (['c', 'h', 'a', 'n'] ++ (ds' ++ a)) ++ (chanTag ++ ([d] ++ b)) := by
            have := congrArg List.tail e
            rw [hr] at this
            simpa [chanTag] using this
          obtain ⟨X, hX⟩ := scan_append (['c', 'h', 'a', 'n'] ++ (ds' ++ a)) (chanTag ++ ([d] ++ b)) (pos + 1)
          rw [← ht, hl] at hX
          have hz : scan (pos + 1 + (['c', 'h', 'a', 'n'] ++ (ds' ++ a)).length) (chanTag ++ ([d] ++ b)) = [] := by
            have := congrArg List.length hX
            rw [List.length_nil, List.length_append] at this
            exact List.eq_nil_of_length_eq_zero (by omega)
          have hm2 : ∃ q, matchAt (chanTag ++ ([d] ++ b)) = some q := by
            unfold matchAt
            rw [if_pos (by rw [List.isPrefixOf_iff_prefix]; exact ⟨_, rfl⟩)]
            have hdr : (chanTag ++ ([d] ++ b)).drop 5 = d :: b := rfl
            simp only [hdr, List.takeWhile_cons, hd, if_true]
            simp
          obtain ⟨q, hq⟩ := hm2
          have e1 : chanTag ++ ([d] ++ b) = '_' :: (['c', 'h', 'a', 'n'] ++ ([d] ++ b)) := rfl
          rw [e1] at hz hq
          rw [scan, hq] at hz
          cases hz
  unfold basenameChannum parseName at h
  rw [hfile, finditer_scan] at h
  simp only [Bool.false_eq_true, if_false] at h
  cases hl : (scan 0 fname).getLast? with
  | none => rw [hl] at h; simp at h
  | some x =>
    obtain ⟨start, ds⟩ := x
    rw [hl] at h
    simp only [Except.ok.injEq, Prod.mk.injEq, Option.some.injEq] at h
    obtain ⟨a, r, e, hs, h1, h2, h3, h4⟩ := hscan fname 0 start ds hl
    refine ⟨ds, r, ?_, h.2, h1, h2, h3, h4⟩
    rw [← h.1, hs, e]
    simp

theorem splitext_ext (p : Str) : (splitext p).2 = [] ∨ ∃ t, (splitext p).2 = '.' :: t := by
  unfold splitext
  simp only []
  split
  · exact Or.inl rfl
  · split
    · exact Or.inr ⟨_, rfl⟩
    · exact Or.inl rfl

/-- C09: `ljh_chan_names` gives, for each requested channel in order, a name that parses back to the same
base name and that channel (partial: the extension must not contain `_chan<digit>`, see
`chan_names_fails`). -/
theorem chan_names_roundtrip_partial (isdir : Str → Bool) (fname : Str) (chans : List Nat)
    (hext : ¬ HasChan (splitext fname).2) {b : Str} {o : Option Nat}
    (hb : basenameChannum isdir fname = .ok (b, o)) :
    ∃ names, chanNames isdir fname chans = .ok names ∧ names.length = chans.length ∧
      ∀ (i : Nat) name c, names[i]? = some name → chans[i]? = some c → isdir name = false →
        basenameChannum isdir name = .ok (b, some c) := by
  unfold chanNames
  rw [hb]
  refine ⟨_, rfl, by simp, ?_⟩
  intro i name c hn hc hdir
  rw [List.getElem?_map, hc] at hn
  simp only [Option.map_some, Option.some.injEq] at hn
  subst hn
  apply basename_channum_roundtrip _ _ _ _ hdir _ hext
  intro c' t hct
  rcases splitext_ext fname with h | ⟨t', h⟩
  · rw [h] at hct; cases hct
  · rw [h] at hct; injection hct with h1 _; subst h1; decide

/-- Disagreement (C09): when the extension itself looks like `_chan<digit>`, the generated name parses to
the wrong channel (asked for channel 7, got 5). -/
theorem chan_names_fails :
    chanNames (fun _ => false) "foo._chan5".toList [7] = .ok ["foo._chan7._chan5".toList] ∧
    channum (fun _ => false) "foo._chan7._chan5".toList = .ok (some 5) := by decide +kernel

/-- C09: for a directory `d/x` (with any number of trailing slashes) the name parsed is `d/x/x`. -/
theorem basename_directory (isdir : Str → Bool) (d x : Str) (k : Nat) (hx : x ≠ []) (hxs : '/' ∉ x)
    (hd : d ≠ []) (hds : d.getLast? ≠ some '/')
    (hdir : isdir (d ++ '/' :: x ++ List.replicate k '/') = true) :
    basenameChannum isdir (d ++ '/' :: x ++ List.replicate k '/')
      = .ok (parseName (d ++ '/' :: x ++ '/' :: x)) := by
  unfold basenameChannum
  rw [hdir]
  simp only [if_true]
  have hrx : ∃ y ys, x.reverse = y :: ys ∧ y ≠ '/' := by
    cases hr : x.reverse with
    | nil => rw [List.reverse_eq_nil_iff] at hr; exact absurd hr hx
    | cons y ys =>
      refine ⟨y, ys, rfl, ?_⟩
      rintro rfl
      exact hxs (by rw [← List.mem_reverse, hr]; simp)
  have hstrip : stripSlashes (d ++ '/' :: x ++ List.replicate k '/') = .ok (d ++ '/' :: x) := by
    unfold stripSlashes
    have : ((d ++ '/' :: x ++ List.replicate k '/').reverse.dropWhile (· == '/')) = (d ++ '/' :: x).reverse := by
      rw [List.reverse_append, List.reverse_replicate]
      rw [List.dropWhile_append_of_pos (by intro c hc; rw [List.mem_replicate] at hc; simp [hc.2])]
      obtain ⟨y, ys, hy, hne⟩ := hrx
      simp only [List.reverse_append, List.reverse_cons, hy, List.cons_append, List.append_assoc]
      rw [List.dropWhile_cons]
      simp [hne]
    simp only [this, List.reverse_reverse]
    rw [if_neg (by simp)]
  have htail : tailPart (d ++ '/' :: x) = x := by
    unfold tailPart
    rw [List.reverse_append, List.reverse_cons, List.append_assoc,
      List.takeWhile_append_of_pos (by
        intro c hc
        rw [List.mem_reverse] at hc
        simp only [bne_iff_ne]
        rintro rfl
        exact hxs hc)]
    simp
  have hhead : headPart (d ++ '/' :: x) = d ++ ['/'] := by
    unfold headPart
    rw [htail]
    have : (d ++ '/' :: x).length - x.length = (d ++ ['/']).length := by simp; omega
    rw [this]
    have : d ++ '/' :: x = (d ++ ['/']) ++ x := by simp
    rw [this, List.take_left]
  have hsplit : pathSplit (d ++ '/' :: x) = (d, x) := by
    unfold pathSplit
    rw [hhead, htail]
    obtain ⟨d', e, rfl⟩ : ∃ d' e, d = d' ++ [e] := ⟨d.dropLast, d.getLast hd, (List.dropLast_concat_getLast hd).symm⟩
    have he : e ≠ '/' := by simpa using hds
    have hall : ((d' ++ [e]) ++ ['/']).all (· == '/') = false := by
      simp [he]
    simp only [hall, Bool.false_eq_true, if_false]
    simp [List.dropWhile_cons, he]
  have hxh : x.head? ≠ some '/' := by
    cases x with
    | nil => simp
    | cons a t => simp only [List.head?_cons, ne_eq, Option.some.injEq]; rintro rfl; exact hxs (by simp)
  have hxl : (d ++ '/' :: x).getLast? ≠ some '/' := by
    obtain ⟨y, ys, hy, hne⟩ := hrx
    rw [← List.head?_reverse]
    simp [hy, hne]
  rw [hstrip]
  simp only [bind, Except.bind, pure, Except.pure, hsplit]
  have e1 : pathJoin d x = d ++ '/' :: x := by
    unfold pathJoin
    rw [if_neg hxh, if_neg]
    rintro (h | h)
    · exact hd h
    · exact hds h
  rw [e1]
  have e2 : pathJoin (d ++ '/' :: x) x = d ++ '/' :: x ++ '/' :: x := by
    unfold pathJoin
    rw [if_neg hxh, if_neg]
    rintro (h | h)
    · simp at h
    · exact hxl h
  rw [e2]

example : basenameChannum (fun _ => false) "/a_chan1/b_chan2_chan13.ljh".toList
    = .ok ("/a_chan1/b_chan2".toList, some 13) := by decide +kernel
example : chanNames (fun _ => false) "/a/b_chan2.ljh".toList [1, 40]
    = .ok ["/a/b_chan1.ljh".toList, "/a/b_chan40.ljh".toList] := by decide +kernel
example : basenameChannum (fun _ => true) "/a/run7//".toList = .ok ("/a/run7/run7".toList, none) := by
  decide +kernel
example : ¬ HasChan ".ljh".toList := by
  rintro ⟨a, d, b, hd, h⟩
  have := congrArg List.length h
  simp [chanTag] at this
  omega

/-! ### C10 -/

/-- "_chan" occurs in `l` [specification] -/
def HasTag (l : Str) : Prop := ∃ a b, l = a ++ (chanTag ++ b)

theorem splitTag_pre {base rest cur : Str} (h : ¬ HasTag base)
    (hjoin : ∀ a b : Str, base = a ++ b → b ≠ [] → ¬ chanTag <+: b ++ rest) :
    splitTag 0 cur (base ++ rest) = splitTag 0 (base.reverse ++ cur) rest := by
  induction base generalizing cur with
  | nil => rfl
  | cons c t ih =>
    have hp : chanTag.isPrefixOf (c :: (t ++ rest)) = false := by
      cases hx : chanTag.isPrefixOf (c :: (t ++ rest)) with
      | false => rfl
      | true =>
        rw [List.isPrefixOf_iff_prefix] at hx
        exact absurd hx (hjoin [] (c :: t) rfl (by simp))
    rw [List.cons_append, splitTag, hp]
    simp only [Bool.false_eq_true, if_false]
    rw [ih]
    · simp
    · rintro ⟨a, b, rfl⟩; exact h ⟨c :: a, b, rfl⟩
    · intro a b hab hne; exact hjoin (c :: a) b (by rw [hab]; rfl) hne

theorem splitTag_rest {l cur : Str} (h : ¬ HasTag l) : splitTag 0 cur l = [cur.reverse ++ l] := by
  induction l generalizing cur with
  | nil => simp [splitTag]
  | cons c t ih =>
    have hp : chanTag.isPrefixOf (c :: t) = false := by
      cases hx : chanTag.isPrefixOf (c :: t) with
      | false => rfl
      | true =>
        rw [List.isPrefixOf_iff_prefix] at hx
        obtain ⟨r, hr⟩ := hx
        exact absurd ⟨[], r, hr.symm⟩ h
    rw [splitTag, hp]
    simp only [Bool.false_eq_true, if_false]
    rw [ih]
    · simp
    · rintro ⟨a, b, rfl⟩; exact h ⟨c :: a, b, rfl⟩

/-- an occurrence of the tag cannot straddle a place where the tag itself starts -/
theorem no_straddle {base rest : Str} (h : ¬ HasTag base) :
    ∀ a b : Str, base = a ++ b → b ≠ [] → ¬ chanTag <+: b ++ (chanTag ++ rest) := by
  intro a b hab hne hp
  obtain ⟨r, hr⟩ := hp
  -- `b` is a proper non-empty prefix of the tag, or contains it
  rcases Nat.lt_or_ge b.length 5 with hl | hl
  · match b, hne, hl with
    | [_], _, _ => simp [chanTag] at hr
    | [_, _], _, _ => simp [chanTag] at hr
    | [_, _, _], _, _ => simp [chanTag] at hr
    | [_, _, _, _], _, _ => simp [chanTag] at hr
  · have : chanTag <+: b := by
      apply List.prefix_of_prefix_length_le ⟨r, hr⟩ (List.prefix_append b _)
      simpa [chanTag] using hl
    obtain ⟨q, hq⟩ := this
    exact h ⟨a, q, by rw [hab, ← hq]⟩

theorem intBody_digits {ds : Str} {p : Bool} {a : Nat} (hds : ∀ c ∈ ds, c.isDigit = true) (h : ds ≠ [] ∨ p = true) :
    intBody p a ds = some (ds.foldl (fun a c => 10 * a + (c.toNat - '0'.toNat)) a) := by
  induction ds generalizing p a with
  | nil =>
    rcases h with h | h
    · exact absurd rfl h
    · subst h; rfl
  | cons c t ih =>
    rw [intBody, if_pos (hds c (by simp)), ih (fun x hx => hds x (by simp [hx])) (Or.inr rfl)]
    rfl

theorem isDigit_cases {c : Char} (h : c.isDigit = true) : isSpace c = false ∧ c ≠ '-' ∧ c ≠ '+' ∧ c ≠ '.' := by
  refine ⟨?_, ?_, ?_, ?_⟩
  · unfold isSpace
    simp only [Bool.or_eq_false_iff, decide_eq_false_iff_not]
    refine ⟨⟨⟨⟨⟨?_, ?_⟩, ?_⟩, ?_⟩, ?_⟩, ?_⟩ <;> (rintro rfl; revert h; decide)
  all_goals (rintro rfl; revert h; decide)

theorem pyInt_digits {ds : Str} (hne : ds ≠ []) (hds : ∀ c ∈ ds, c.isDigit = true) :
    pyInt ds = .ok (intOfDigits ds : Int) := by
  have hstrip : ∀ l : Str, (∀ c ∈ l, c.isDigit = true) → l.dropWhile isSpace = l := by
    intro l hl
    cases l with
    | nil => rfl
    | cons c t => rw [List.dropWhile_cons, (isDigit_cases (hl c (by simp))).1]; simp
  unfold pyInt
  rw [hstrip ds hds, hstrip ds.reverse (by intro c hc; exact hds c (by simpa using hc)), List.reverse_reverse]
  cases ds with
  | nil => exact absurd rfl hne
  | cons c t =>
    have hc := isDigit_cases (hds c (by simp))
    dsimp only
    split
    rename_i r n hr
    · split at hr
      · rename_i h; injection h with h1 _; exact absurd h1 hc.2.1
      · rename_i h; injection h with h1 _; exact absurd h1 hc.2.2.1
      · rw [intBody_digits hds (Or.inl hne)] at hr
        injection hr with hr
        rw [← hr]; rfl
    · rename_i hr
      split at hr
      · rename_i h; injection h with h1 _; exact absurd h1 hc.2.1
      · rename_i h; injection h with h1 _; exact absurd h1 hc.2.2.1
      · rw [intBody_digits hds (Or.inl hne)] at hr
        cases hr

/-- C10 (partial: for names containing "_chan" only once, as every file written by the DAQ is named
unless a directory or base name contains it too): the reader's channel number is the parsed one. -/
theorem file_channum_agrees_partial (isdir : Str → Bool) (base ext : Str) (n : Nat)
    (hfile : isdir (base ++ (chanTag ++ (decimal n ++ ext))) = false)
    (hbase : ¬ HasTag base) (hext : ¬ HasTag ext) (hdot : ext = [] ∨ ∃ t, ext = '.' :: t) :
    fileChannum (base ++ (chanTag ++ (decimal n ++ ext))) = .ok (n : Int) ∧
    channum isdir (base ++ (chanTag ++ (decimal n ++ ext))) = .ok (some n) := by
  have hdig : ∀ c t, ext = c :: t → c.isDigit = false := by
    intro c t h
    rcases hdot with h' | ⟨t', h'⟩
    · rw [h'] at h; cases h
    · rw [h'] at h; injection h with h1 _; subst h1; decide
  constructor
  · unfold fileChannum
    rw [splitTag_pre hbase (no_straddle hbase)]
    have hnot : ¬ HasTag (decimal n ++ ext) := by
      rintro ⟨a, b, hab⟩
      rw [List.append_eq_append_iff] at hab
      rcases hab with ⟨a', h1, h2⟩ | ⟨c', h1, h2⟩
      · exact hext ⟨a', b, h2⟩
      · cases c' with
        | nil => exact hext ⟨[], b, by simpa using h2.symm⟩
        | cons c cs =>
          have : c = '_' := by
            have := congrArg List.head? h2
            simpa [chanTag] using this.symm
          have hm : c ∈ decimal n := by rw [h1]; simp
          exact isDigit_ne (decimal_isDigit hm) this
    have hstep : splitTag 0 (base.reverse ++ []) (chanTag ++ (decimal n ++ ext))
        = base :: [decimal n ++ ext] := by
      have e1 : chanTag ++ (decimal n ++ ext) = '_' :: 'c' :: 'h' :: 'a' :: 'n' :: (decimal n ++ ext) := rfl
      rw [e1, splitTag, if_pos (by rw [List.isPrefixOf_iff_prefix]; exact ⟨_, rfl⟩)]
      simp only [splitTag]
      rw [splitTag_rest hnot]
      simp
    rw [hstep]
    have htw : (decimal n ++ ext).takeWhile (· != '.') = decimal n := by
      rw [List.takeWhile_append_of_pos (by
        intro c hc
        simpa using (isDigit_cases (decimal_isDigit hc)).2.2.2)]
      rcases hdot with h | ⟨t, h⟩ <;> rw [h] <;> simp
    simp only [List.getElem?_cons_succ, List.getElem?_cons_zero, htw]
    rw [pyInt_digits (decimal_ne n) (fun c hc => decimal_isDigit hc), intOfDigits_decimal]
  · unfold channum
    rw [basename_channum_roundtrip isdir base ext n hfile hdig ?_]
    · rfl
    · rintro ⟨a, d, b, _, h⟩; exact hext ⟨a, d :: b, h⟩

/-- Disagreement (C10): the reader takes the first "_chan" of the whole path, the parser the last: in a
directory named after channel 1, the file of channel 3 is read as channel 1. -/
theorem file_channum_agrees_fails :
    fileChannum "/data/run_chan1.d/x_chan3.ljh".toList = .ok 1 ∧
    channum (fun _ => false) "/data/run_chan1.d/x_chan3.ljh".toList = .ok (some 3) := by decide +kernel
example : fileChannum "/data/run1.d/x_chan3.ljh".toList = .ok 3 := by decide +kernel

/-! ### C11 -/

/-- `c` is a channel that may be kept: in both lists (or the second list is empty), not excluded. [specification] -/
def Valid (ch : Str → Option Nat) (f1 f2 : List Str) (never only : Option (List (Option Nat)))
    (c : Option Nat) : Prop :=
  (∃ f ∈ f1, ch f = c) ∧ (f2 = [] ∨ ∃ f ∈ f2, ch f = c) ∧
  (∀ l, never = some l → c ∉ l) ∧ (∀ l, only = some l → c ∈ l)

theorem validChan_iff {ch : Str → Option Nat} {f1 f2 : List Str}
    {never only : Option (List (Option Nat))} {c : Option Nat} :
    validChan ch f1 f2 never only c = true ↔ Valid ch f1 f2 never only c := by
  unfold validChan Valid
  simp only [Bool.and_eq_true, List.contains_iff_mem, List.mem_map, Bool.or_eq_true, List.isEmpty_iff]
  rw [and_assoc, and_assoc]
  apply and_congr_right; intro _
  apply and_congr_right; intro _
  apply and_congr
  · cases never <;> simp
  · cases only <;> simp

theorem mem_distinct {l : List (Option Nat)} {c : Option Nat} : c ∈ distinct l ↔ c ∈ l := by
  unfold distinct
  suffices ∀ acc : List (Option Nat), c ∈ l.foldl (fun acc c => if acc.contains c then acc else acc ++ [c]) acc ↔
      c ∈ acc ∨ c ∈ l by simpa using this []
  induction l with
  | nil => simp
  | cons x xs ih =>
    intro acc
    rw [List.foldl_cons, ih]
    split
    · rename_i hx
      rw [List.contains_iff_mem] at hx
      constructor
      · rintro (h | h)
        · exact Or.inl h
        · exact Or.inr (by simp [h])
      · rintro (h | h)
        · exact Or.inl h
        · rcases List.mem_cons.mp h with rfl | h
          · exact Or.inl hx
          · exact Or.inr h
    · simp [or_assoc]

/-- which channels L153 / L155 iterate over -/
theorem mem_invalid {ch : Str → Option Nat} {ord : List (Option Nat) → List (Option Nat)}
    (hord : ∀ l, (ord l).Perm l) {f f1 f2 : List Str} {never only : Option (List (Option Nat))} {c : Option Nat} :
    c ∈ ord ((distinct (f.map ch)).filter (fun c => !validChan ch f1 f2 never only c)) ↔
      (∃ g ∈ f, ch g = c) ∧ ¬ Valid ch f1 f2 never only c := by
  rw [(hord _).mem_iff, List.mem_filter, mem_distinct, List.mem_map, ← validChan_iff]
  simp

theorem nameOf_some {ch : Str → Option Nat} {files : List Str} {c : Option Nat} (h : ∃ f ∈ files, ch f = c) :
    ∃ f, nameOf ch files c = some f ∧ f ∈ files ∧ ch f = c := by
  unfold nameOf
  cases hl : (files.filter (fun f => ch f == c)).getLast? with
  | none =>
    rw [List.getLast?_eq_none_iff, List.filter_eq_nil_iff] at hl
    obtain ⟨f, hf, hc⟩ := h
    exact absurd (by simpa using hc) (hl f hf)
  | some f =>
    have := List.mem_of_getLast? hl
    rw [List.mem_filter] at this
    exact ⟨f, rfl, this.1, by simpa using this.2⟩

theorem erase_filter_comm {l : List Str} {p : Str → Bool} {f : Str} (h : p f = false) :
    (l.erase f).filter p = l.filter p := by
  induction l with
  | nil => rfl
  | cons a t ih =>
    rw [List.erase_cons]
    split
    · rename_i he
      have : a = f := by simpa using he
      subst this
      rw [List.filter_cons, h]; simp
    · rw [List.filter_cons, List.filter_cons, ih]

theorem removeLoop_keeps {ch : Str → Option Nat} {files : List Str} {p : Option Nat → Bool}
    {o : List (Option Nat)} (ho : ∀ c ∈ o, p c = false) (l : List Str) :
    (removeLoop ch files o l).Sublist l ∧
    (removeLoop ch files o l).filter (fun f => p (ch f)) = l.filter (fun f => p (ch f)) := by
  induction o generalizing l with
  | nil => exact ⟨List.Sublist.refl _, rfl⟩
  | cons c cs ih =>
    rw [removeLoop]
    cases hn : nameOf ch files c with
    | none => exact ih (fun x hx => ho x (by simp [hx])) l
    | some f =>
      simp only []
      obtain ⟨h1, h2⟩ := ih (fun x hx => ho x (by simp [hx])) (l.erase f)
      refine ⟨h1.trans List.erase_sublist, ?_⟩
      rw [h2]
      apply erase_filter_comm
      have hf : f ∈ files.filter (fun f => ch f == c) := List.mem_of_getLast? hn
      rw [List.mem_filter] at hf
      have : ch f = c := by simpa using hf.2
      rw [this]
      exact ho c (by simp)

/-- C11 (general part, repeats allowed): nothing valid is removed and order is kept, whatever order
the sets are iterated in. -/
theorem remove_unpaired_keeps_valid {ch : Str → Option Nat} {ord : List (Option Nat) → List (Option Nat)}
    (hord : ∀ l, (ord l).Perm l) (f1 f2 : List Str) (never only : Option (List (Option Nat)))
    {p : Option Nat → Bool} (hp : ∀ c, p c = true ↔ Valid ch f1 f2 never only c) :
    (removeUnpaired ch ord f1 f2 never only).1.Sublist f1 ∧
    (removeUnpaired ch ord f1 f2 never only).2.Sublist f2 ∧
    (removeUnpaired ch ord f1 f2 never only).1.filter (fun f => p (ch f)) = f1.filter (fun f => p (ch f)) ∧
    (removeUnpaired ch ord f1 f2 never only).2.filter (fun f => p (ch f)) = f2.filter (fun f => p (ch f)) := by
  have key : ∀ f : List Str, _ := fun f => removeLoop_keeps (ch := ch) (files := f) (p := p)
    (o := ord ((distinct (f.map ch)).filter (fun c => !validChan ch f1 f2 never only c))) (by
    intro c hc
    cases h : p c with
    | false => rfl
    | true => exact absurd ((hp c).mp h) ((mem_invalid hord).mp hc).2) f
  unfold removeUnpaired
  split
  · exact ⟨List.Sublist.refl _, List.Sublist.refl _, rfl, rfl⟩
  · exact ⟨(key f1).1, (key f2).1, (key f1).2, (key f2).2⟩

theorem nodup_of_map {ch : Str → Option Nat} {l : List Str} (h : (l.map ch).Nodup) : l.Nodup := by
  induction l with
  | nil => simp
  | cons a t ih =>
    simp only [List.map_cons, List.nodup_cons] at h ⊢
    exact ⟨fun hm => h.1 (List.mem_map_of_mem hm), ih h.2⟩

theorem inj_of_nodup_map {ch : Str → Option Nat} {l : List Str} (h : (l.map ch).Nodup) {a b : Str}
    (ha : a ∈ l) (hb : b ∈ l) (hab : ch a = ch b) : a = b := by
  induction l with
  | nil => simp at ha
  | cons x t ih =>
    simp only [List.map_cons, List.nodup_cons] at h
    rcases List.mem_cons.mp ha with rfl | ha' <;> rcases List.mem_cons.mp hb with rfl | hb
    · rfl
    · exact absurd (List.mem_map.mpr ⟨b, hb, hab.symm⟩) h.1
    · exact absurd (List.mem_map.mpr ⟨a, ‹a ∈ t›, hab⟩) h.1
    · exact ih h.2 ‹a ∈ t› hb

theorem removeLoop_distinct {ch : Str → Option Nat} {files : List Str}
    (hd : (files.map ch).Nodup) {o : List (Option Nat)} {q : Option Nat → Bool}
    (ho : ∀ c ∈ o, ∃ f ∈ files, ch f = c) :
    removeLoop ch files o (files.filter (fun f => q (ch f)))
      = files.filter (fun f => q (ch f) && !o.contains (ch f)) := by
  induction o generalizing q with
  | nil => simp [removeLoop]
  | cons c cs ih =>
    rw [removeLoop]
    obtain ⟨f, hn, hf, hc⟩ := nameOf_some (ho c (by simp))
    rw [hn]
    simp only []
    have : (files.filter (fun f => q (ch f))).erase f
        = files.filter (fun f => (fun d => q d && !(d == c)) (ch f)) := by
      rw [List.Nodup.erase_eq_filter ((nodup_of_map hd).filter _), List.filter_filter]
      apply List.filter_congr
      intro x hx
      have : (x != f) = !(ch x == c) := by
        rw [Bool.eq_iff_iff]
        simp only [bne_iff_ne, Bool.not_eq_true', beq_eq_false_iff_ne]
        constructor
        · intro hne he; exact hne (inj_of_nodup_map hd hx hf (he.trans hc.symm))
        · rintro hne rfl; exact hne hc
      rw [this, Bool.and_comm]
    rw [this, ih (q := fun d => q d && !(d == c)) (fun x hx => ho x (by simp [hx]))]
    apply List.filter_congr
    intro x _
    rw [List.contains_cons, Bool.not_or, Bool.and_assoc]

/-- C11 (partial: no channel may occur twice within a list, and the first list is not empty; see the two
`_fails` theorems): exactly the files with a valid channel are kept, in order, in both lists. -/
theorem remove_unpaired_exact_partial {ch : Str → Option Nat} {ord : List (Option Nat) → List (Option Nat)}
    (hord : ∀ l, (ord l).Perm l) {f1 f2 : List Str} {never only : Option (List (Option Nat))}
    (hne : f1 ≠ []) (hd1 : (f1.map ch).Nodup) (hd2 : (f2.map ch).Nodup) {p : Option Nat → Bool}
    (hp : ∀ c, p c = true ↔ Valid ch f1 f2 never only c) :
    removeUnpaired ch ord f1 f2 never only
      = (f1.filter (fun f => p (ch f)), f2.filter (fun f => p (ch f))) := by
  have key : ∀ (f : List Str), (f.map ch).Nodup →
      removeLoop ch f (ord ((distinct (f.map ch)).filter (fun c => !validChan ch f1 f2 never only c))) f
        = f.filter (fun f => p (ch f)) := by
    intro f hd
    have := removeLoop_distinct hd
      (o := ord ((distinct (f.map ch)).filter (fun c => !validChan ch f1 f2 never only c)))
      (q := fun _ => true) (fun c hc => ((mem_invalid hord).mp hc).1)
    simp only [Bool.true_and] at this
    rw [show f.filter (fun _ => true) = f by simp] at this
    rw [this]
    apply List.filter_congr
    intro g hg
    rw [Bool.eq_iff_iff, Bool.not_eq_true', ← Bool.not_eq_true, List.contains_iff_mem, mem_invalid hord, hp]
    constructor
    · intro h; exact Classical.byContradiction fun hv => h ⟨⟨g, hg, rfl⟩, hv⟩
    · rintro h ⟨_, hv⟩; exact hv h
  unfold removeUnpaired
  rw [if_neg hne]
  simp only []
  rw [key f1 hd1, key f2 hd2]

/-- channel parser on ordinary (non-directory) names [specification] -/
def chOf (f : Str) : Option Nat := (parseName f).2

/-- Disagreement (C11): two files of an excluded channel – only one of them is removed. -/
theorem remove_unpaired_repeats_fails :
    removeUnpaired chOf id ["a_chan1.ljh".toList, "b_chan1.ljh".toList, "a_chan2.ljh".toList] []
      (some [some 1]) none = (["a_chan1.ljh".toList, "a_chan2.ljh".toList], []) := by decide +kernel

/-- Disagreement (C11): when the first list is empty the second is not filtered at all, although the
documentation says the `never_use` list is then applied. -/
theorem remove_unpaired_first_empty_fails :
    removeUnpaired chOf id [] ["a_chan1.ljh".toList] (some [some 1]) none = ([], ["a_chan1.ljh".toList]) := by
  decide +kernel

example : removeUnpaired chOf List.reverse ["a_chan1.ljh".toList, "a_chan2.ljh".toList, "a_chan3.ljh".toList]
    ["n_chan3.ljh".toList, "n_chan2.ljh".toList, "n_chan7.ljh".toList] (some [some 2]) none
    = (["a_chan3.ljh".toList], ["n_chan3.ljh".toList]) := by decide +kernel
example : ∀ l : List (Option Nat), (List.reverse l).Perm l := List.reverse_perm

/-! ### C12 -/

theorem insertBy_perm {α} (le : α → α → Bool) (x : α) (l : List α) : (insertBy le x l).Perm (x :: l) := by
  induction l with
  | nil => exact List.Perm.refl _
  | cons y ys ih =>
    rw [insertBy]
    split
    · exact List.Perm.refl _
    · exact (List.Perm.cons y ih).trans (List.Perm.swap x y ys)

theorem stableSort_perm {α} (le : α → α → Bool) (l : List α) : (stableSort le l).Perm l := by
  unfold stableSort
  induction l with
  | nil => exact List.Perm.refl _
  | cons x xs ih => exact (insertBy_perm le x _).trans (List.Perm.cons x ih)

/-- insertion keeps a list ordered by `R`, if `R` is implied where insertion stops or passes -/
theorem insertBy_pairwise {α} {le : α → α → Bool} {R : α → α → Prop} {x : α} {l : List α}
    (hl : l.Pairwise R) (h1 : ∀ y ∈ l, le x y = true → R x y ∧ ∀ z, R y z → z ∈ l → R x z)
    (h2 : ∀ y ∈ l, le x y = false → R y x) : (insertBy le x l).Pairwise R := by
  induction l with
  | nil => simp [insertBy]
  | cons y ys ih =>
    rw [insertBy]
    rw [List.pairwise_cons] at hl
    split
    · rename_i hle
      rw [List.pairwise_cons, List.pairwise_cons]
      obtain ⟨hxy, htr⟩ := h1 y (by simp) hle
      refine ⟨?_, hl⟩
      intro z hz
      rcases List.mem_cons.mp hz with rfl | hz
      · exact hxy
      · exact htr z (hl.1 z hz) (by simp [hz])
    · rename_i hle
      have hle : le x y = false := by simpa using hle
      rw [List.pairwise_cons]
      refine ⟨?_, ih hl.2 ?_ ?_⟩
      · intro z hz
        have := (insertBy_perm le x ys).mem_iff.mp hz
        rcases List.mem_cons.mp this with rfl | h
        · exact h2 y (by simp) hle
        · exact hl.1 z h
      · intro w hw hxw
        obtain ⟨a, b⟩ := h1 w (by simp [hw]) hxw
        exact ⟨a, fun z hz hm => b z hz (by simp [hm])⟩
      · intro w hw; exact h2 w (by simp [hw])

theorem strLe_total (a b : Str) : strLe a b = true ∨ strLe b a = true := by
  induction a generalizing b with
  | nil => exact Or.inl rfl
  | cons x s ih =>
    cases b with
    | nil => exact Or.inr rfl
    | cons y t =>
      simp only [strLe]
      by_cases h : x = y
      · subst h; simp only [if_true]; exact ih t
      · rw [if_neg h, if_neg (fun e => h e.symm)]
        have : x.toNat ≠ y.toNat := fun e => h (Char.toNat_inj.mp e)
        simp only [decide_eq_true_eq]
        omega

theorem strLe_trans {a b c : Str} (h1 : strLe a b = true) (h2 : strLe b c = true) : strLe a c = true := by
  induction a generalizing b c with
  | nil => rfl
  | cons x s ih =>
    cases b with
    | nil => cases h1
    | cons y t =>
      cases c with
      | nil => cases h2
      | cons z u =>
        simp only [strLe] at h1 h2 ⊢
        by_cases hxy : x = y
        · subst hxy
          rw [if_pos rfl] at h1
          by_cases hxz : x = z
          · subst hxz; rw [if_pos rfl] at h2 ⊢; exact ih h1 h2
          · rw [if_neg hxz] at h2 ⊢; exact h2
        · rw [if_neg hxy] at h1
          simp only [decide_eq_true_eq] at h1
          by_cases hyz : y = z
          · subst hyz; rw [if_neg hxy]; simpa using h1
          · rw [if_neg hyz] at h2
            simp only [decide_eq_true_eq] at h2
            have : x ≠ z := by rintro rfl; omega
            rw [if_neg this]
            simp only [decide_eq_true_eq]; omega

/-- code-point lexicographic order, stated independently of the sort -/
theorem strLe_iff (a b : Str) : strLe a b = true ↔
    (∃ r, b = a ++ r) ∨ (∃ p x y s t, a = p ++ x :: s ∧ b = p ++ y :: t ∧ x.toNat < y.toNat) := by
  induction a generalizing b with
  | nil => simp [strLe]
  | cons x s ih =>
    cases b with
    | nil => simp [strLe]
    | cons y t =>
      simp only [strLe]
      by_cases h : x = y
      · subst h
        rw [if_pos rfl, ih t]
        constructor
        · rintro (⟨r, rfl⟩ | ⟨p, a, b, s', t', rfl, rfl, hlt⟩)
          · exact Or.inl ⟨r, rfl⟩
          · exact Or.inr ⟨x :: p, a, b, s', t', rfl, rfl, hlt⟩
        · rintro (⟨r, hr⟩ | ⟨p, a, b, s', t', h1, h2, hlt⟩)
          · exact Or.inl ⟨r, by simpa using hr⟩
          · cases p with
            | nil =>
              simp only [List.nil_append, List.cons.injEq] at h1 h2
              rw [← h1.1, ← h2.1] at hlt; omega
            | cons q p =>
              simp only [List.cons_append, List.cons.injEq] at h1 h2
              exact Or.inr ⟨p, a, b, s', t', h1.2, h2.2, hlt⟩
      · rw [if_neg h]
        simp only [decide_eq_true_eq]
        constructor
        · intro hlt; exact Or.inr ⟨[], x, y, s, t, rfl, rfl, hlt⟩
        · rintro (⟨r, hr⟩ | ⟨p, a, b, s', t', h1, h2, hlt⟩)
          · simp at hr; exact absurd hr.1.symm h
          · cases p with
            | nil =>
              simp only [List.nil_append, List.cons.injEq] at h1 h2
              rw [h1.1, h2.1]; exact hlt
            | cons q p =>
              simp only [List.cons_append, List.cons.injEq] at h1 h2
              exact absurd (h1.1.trans h2.1.symm) h

theorem sort_strLe (l : List Str) : (stableSort strLe l).Pairwise (fun a b => strLe a b = true) := by
  unfold stableSort
  induction l with
  | nil => exact List.Pairwise.nil
  | cons x xs ih =>
    apply insertBy_pairwise ih
    · intro y _ hxy
      exact ⟨hxy, fun z hyz _ => strLe_trans hxy hyz⟩
    · intro y _ hxy
      rcases strLe_total x y with h | h
      · rw [h] at hxy; cases hxy
      · exact h

/-- order by channel number, then by name [specification] -/
def ChanLe (ch : Str → Option Nat) (a b : Str) : Prop :=
  (ch a).getD 0 < (ch b).getD 0 ∨ ((ch a).getD 0 = (ch b).getD 0 ∧ strLe a b = true)

theorem sort_chan {ch : Str → Option Nat} {l : List Str} (hl : l.Pairwise (fun a b => strLe a b = true)) :
    (stableSort (fun a b => decide ((ch a).getD 0 ≤ (ch b).getD 0)) l).Pairwise (ChanLe ch) := by
  unfold stableSort
  induction l with
  | nil => exact List.Pairwise.nil
  | cons x xs ih =>
    rw [List.pairwise_cons] at hl
    apply insertBy_pairwise (ih hl.2)
    · intro y hy hxy
      have hmem : ∀ z, z ∈ List.foldr (insertBy (fun a b => decide ((ch a).getD 0 ≤ (ch b).getD 0))) [] xs →
          z ∈ xs := fun z hz => (stableSort_perm _ xs).mem_iff.mp hz
      simp only [decide_eq_true_eq] at hxy
      have hR : ∀ z, z ∈ xs → (ch x).getD 0 ≤ (ch z).getD 0 → ChanLe ch x z := by
        intro z hz hle
        rcases Nat.lt_or_eq_of_le hle with h | h
        · exact Or.inl h
        · exact Or.inr ⟨h, hl.1 z hz⟩
      refine ⟨hR y (hmem y hy) hxy, ?_⟩
      intro z hyz hz
      apply hR z (hmem z hz)
      rcases hyz with h | h
      · omega
      · omega
    · intro y _ hxy
      simp only [decide_eq_false_iff_not] at hxy
      exact Or.inl (by omega)

/-- C12: without inclusion list and with a channel number in every name, sorting returns a
permutation ordered by channel number and, within a channel, by name. -/
theorem sort_names_spec {ch : Str → Option Nat} {fnames : List Str} (hne : fnames ≠ [])
    (hch : ∀ f ∈ fnames, (ch f).isSome = true) :
    ∃ r, sortNames ch fnames none = .ok (some r) ∧ r.Perm fnames ∧ r.Pairwise (ChanLe ch) := by
  unfold sortNames
  rw [if_neg hne]
  simp only []
  have hany : (stableSort strLe fnames).any (fun f => (ch f).isNone) = false := by
    rw [List.any_eq_false]
    intro f hf
    have := hch f ((stableSort_perm strLe fnames).mem_iff.mp hf)
    simpa [Option.isSome_iff_ne_none] using this
  rw [hany]
  simp only [Bool.false_eq_true, and_false, if_false]
  exact ⟨_, rfl, (stableSort_perm _ _).trans (stableSort_perm _ _), sort_chan (sort_strLe fnames)⟩

/-- C12: the three cases without an answer: empty input gives None, a name without channel number in a
list of two or more raises TypeError. -/
theorem sort_names_other (ch : Str → Option Nat) (fnames : List Str) (inc : Option (List Nat)) :
    sortNames ch [] inc = .ok none ∧
    (2 ≤ fnames.length → (∃ f ∈ fnames, ch f = none) → sortNames ch fnames none = .error .type) := by
  refine ⟨by simp [sortNames], ?_⟩
  rintro hlen ⟨f, hf, hc⟩
  unfold sortNames
  have hne : fnames ≠ [] := by rintro rfl; simp at hlen
  have h1 : (stableSort strLe fnames).length ≥ 2 := by rw [(stableSort_perm _ _).length_eq]; exact hlen
  have h2 : (stableSort strLe fnames).any (fun f => (ch f).isNone) = true := by
    rw [List.any_eq_true]
    exact ⟨f, (stableSort_perm strLe fnames).mem_iff.mpr hf, by simp [hc]⟩
  simp only [if_neg hne, h1, h2, and_self, if_true]

/-- Disagreement (C12): with any inclusion list and any non-empty input the call raises AttributeError
instead of returning the included files. -/
theorem sort_names_inclusion_fails (ch : Str → Option Nat) (fnames : List Str) (hne : fnames ≠ [])
    (l : List Nat) : sortNames ch fnames (some l) = .error .attribute := by
  unfold sortNames; rw [if_neg hne]

example : sortNames chOf ["z_chan2.ljh".toList, "a_chan10.ljh".toList, "b_chan2.ljh".toList] none
    = .ok (some ["b_chan2.ljh".toList, "z_chan2.ljh".toList, "a_chan10.ljh".toList]) := by decide +kernel

end Mass.Names
