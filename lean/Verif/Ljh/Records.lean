import Verif.Ljh.Header
/-! Record layout and opening: lemmas for C14, C16, C17. -/
namespace Mass.Ljh
open Mass.Names (Str)

/-! ### specification -/

/-- The version 2.2 layout of one record: subframe count and µs time as 8 bytes, then 2 bytes per sample. [specification] -/
def encRec (r : Rec) : Bytes := le 8 r.sub.toNat ++ (le 8 r.usec.toNat ++ encData r.data)

/-! ### bytes -/

theorem le_length (k v : Nat) : (le k v).length = k := by
  induction k generalizing v with
  | zero => rfl
  | succ k ih => simp [le, ih]

theorem leNat_le (k v : Nat) : leNat (le k v) = v % 256 ^ k := by
  induction k generalizing v with
  | zero => simp [le, leNat, Nat.mod_one]
  | succ k ih =>
    simp only [le, leNat, ih, UInt8.toNat_ofNat', Nat.pow_succ]
    rw [Nat.mul_comm (256 ^ k) 256, Nat.mod_mul (x := v) (a := 256) (b := 256 ^ k)]
    simp

theorem encData_length (d : List (BitVec 16)) : (encData d).length = 2 * d.length := by
  induction d with
  | nil => rfl
  | cons s t ih => simp only [encData, List.flatMap_cons, List.length_append, le_length, List.length_cons] at *; omega

theorem encRec_length (r : Rec) : (encRec r).length = 16 + 2 * r.data.length := by
  simp only [encRec, List.length_append, le_length, encData_length]; omega

theorem words_length (n : Nat) (b : Bytes) : (words n b).length = n := by
  induction n generalizing b with
  | zero => rfl
  | succ n ih => simp [words, ih]

theorem words_enc (d : List (BitVec 16)) (r : Bytes) : words d.length (encData d ++ r) = d := by
  induction d with
  | nil => rfl
  | cons s t ih =>
    simp only [List.length_cons, words, encData, List.flatMap_cons, List.append_assoc]
    rw [List.take_append_of_le_length (by simp [le_length]), List.take_of_length_le (by simp [le_length]),
      List.drop_append_of_le_length (by simp [le_length]), List.drop_of_length_le (by simp [le_length]), leNat_le]
    congr 1
    have := s.isLt
    apply BitVec.eq_of_toNat_eq
    simp only [BitVec.toNat_ofNat]; omega

theorem decode22_enc (r : Rec) (tl : Bytes) : decode22 r.data.length (encRec r ++ tl) = r := by
  obtain ⟨s, u, d⟩ := r
  simp only [decode22, encRec, List.append_assoc]
  have h8 : ∀ (v : Nat) (x : Bytes), (le 8 v ++ x).take 8 = le 8 v := fun v x => by
    rw [List.take_append_of_le_length (by simp [le_length]), List.take_of_length_le (by simp [le_length])]
  have d8 : ∀ (v : Nat) (x : Bytes), (le 8 v ++ x).drop 8 = x := fun v x => by
    rw [List.drop_append_of_le_length (by simp [le_length]), List.drop_of_length_le (by simp [le_length])]; rfl
  have d16 : ∀ (x : Bytes), x.drop 16 = (x.drop 8).drop 8 := fun x => by simp
  rw [d16, d8, d8, h8, h8, words_enc, leNat_le, leNat_le]
  congr
  · apply BitVec.eq_of_toNat_eq; have := s.isLt; simp only [BitVec.toNat_ofNat]; omega
  · apply BitVec.eq_of_toNat_eq; have := u.isLt; simp only [BitVec.toNat_ofNat]; omega

theorem le_leNat (b : Bytes) : le b.length (leNat b) = b := by
  induction b with
  | nil => rfl
  | cons x t ih =>
    have hx := x.toNat_lt
    simp only [List.length_cons, le, leNat]
    have h1 : (x.toNat + 256 * leNat t) % 256 = x.toNat := by omega
    have h2 : (x.toNat + 256 * leNat t) / 256 = leNat t := by omega
    rw [h1, h2, ih, UInt8.ofNat_toNat]

theorem leNat_lt (b : Bytes) : leNat b < 256 ^ b.length := by
  induction b with
  | nil => simp [leNat]
  | cons x t ih =>
    have hx := x.toNat_lt
    simp only [leNat, List.length_cons, Nat.pow_succ]
    omega

theorem encData_words (n : Nat) (b : Bytes) (h : b.length = 2 * n) : encData (words n b) = b := by
  induction n generalizing b with
  | zero => simp [words, encData]; exact List.eq_nil_of_length_eq_zero (by omega)
  | succ n ih =>
    have hl : (b.take 2).length = 2 := by rw [List.length_take]; omega
    have e : le 2 (leNat (b.take 2)) = b.take 2 := by have := le_leNat (b.take 2); rwa [hl] at this
    have hlt : leNat (b.take 2) < 2 ^ 16 := by have := leNat_lt (b.take 2); rwa [hl] at this
    have hd := ih (b.drop 2) (by rw [List.length_drop]; omega)
    simp only [words, encData, List.flatMap_cons] at hd ⊢
    rw [hd, BitVec.toNat_ofNat, Nat.mod_eq_of_lt hlt, e, List.take_append_drop]

theorem encRec_decode (n : Nat) (b : Bytes) (h : b.length = 16 + 2 * n) : encRec (decode22 n b) = b := by
  have g : ∀ c : Bytes, c.length = 8 → le 8 (BitVec.ofNat 64 (leNat c)).toNat = c := fun c hc => by
    have hlt : leNat c < 2 ^ 64 := by have := leNat_lt c; rwa [hc] at this
    have := le_leNat c
    rw [hc] at this
    rw [BitVec.toNat_ofNat, Nat.mod_eq_of_lt hlt, this]
  simp only [encRec, decode22]
  rw [g _ (by rw [List.length_take]; omega), g _ (by rw [List.length_take, List.length_drop]; omega),
    encData_words n _ (by rw [List.length_drop]; omega)]
  have e : b.drop 8 = (b.drop 8).take 8 ++ b.drop 16 := by
    have := (List.take_append_drop 8 (b.drop 8)).symm
    rwa [List.drop_drop] at this
  rw [← e, List.take_append_drop]

theorem flat_length (recs : List Rec) {n : Nat} (hn : ∀ r ∈ recs, r.data.length = n) :
    (recs.flatMap encRec).length = recs.length * (16 + 2 * n) := by
  induction recs with
  | nil => simp
  | cons r t ih =>
    rw [List.flatMap_cons, List.length_append, encRec_length, hn r (by simp), ih (fun x hx => hn x (by simp [hx])),
      List.length_cons, Nat.succ_mul (n := t.length), Nat.add_comm]

theorem flat_drop (recs : List Rec) {n : Nat} (hn : ∀ r ∈ recs, r.data.length = n) (k : Nat) (hk : k ≤ recs.length)
    (tl : Bytes) : (recs.flatMap encRec ++ tl).drop (k * (16 + 2 * n)) = (recs.drop k).flatMap encRec ++ tl := by
  have hn' : ∀ r ∈ recs.take k, r.data.length = n := fun r hr => hn r (List.mem_of_mem_take hr)
  have e : recs.flatMap encRec = (recs.take k).flatMap encRec ++ (recs.drop k).flatMap encRec := by
    rw [← List.flatMap_append, List.take_append_drop]
  have hl : ((recs.take k).flatMap encRec).length = k * (16 + 2 * n) := by
    rw [flat_length _ hn', List.length_take, Nat.min_eq_left hk]
  rw [e, List.append_assoc, List.drop_append_of_le_length (by omega), List.drop_of_length_le (by omega)]
  rfl

/-- reading record `k` of a file that holds at least the records up to `k` -/
theorem readRec_flat {l : Ljh} {h f tl : Bytes} {recs : List Rec} (hv : l.v22 = true) (hh : h.length = l.headerSize)
    (hn : ∀ r ∈ recs, r.data.length = l.nSamples) (hf : f = h ++ (recs.flatMap encRec ++ tl)) {k : Nat}
    (hk : k < recs.length) (hp : k < l.nPulses) : readRec l f (k : Int) = .ok recs[k] := by
  have hps : l.pulseSize = 16 + 2 * l.nSamples := by simp [Ljh.pulseSize, hv]
  have hi : normIdx l.nPulses (k : Int) = some k := by
    unfold normIdx; rw [if_pos ⟨by omega, by exact_mod_cast hp⟩]; simp
  have hd : f.drop (l.headerSize + k * l.pulseSize) = encRec recs[k] ++ ((recs.drop (k + 1)).flatMap encRec ++ tl) := by
    rw [hf, ← hh, ← List.drop_drop, List.drop_append_of_le_length (by omega), List.drop_of_length_le (Nat.le_refl _),
      List.nil_append, hps, flat_drop recs hn k (by omega), List.drop_eq_getElem_cons hk, List.flatMap_cons,
      List.append_assoc]
  have hlen := encRec_length recs[k]
  have hkn := hn _ (List.getElem_mem hk)
  rw [hkn] at hlen
  have ht : (f.drop (l.headerSize + k * l.pulseSize)).take l.pulseSize = encRec recs[k] := by
    rw [hd, List.take_append_of_le_length (by omega), List.take_of_length_le (by omega)]
  unfold readRec
  rw [hi]
  dsimp only
  rw [ht, if_neg (by omega), hv]
  have := decode22_enc recs[k] []
  rw [hkn, List.append_nil] at this
  rw [if_pos rfl, this]

theorem readRec_data_length {l : Ljh} {f : Bytes} {i : Int} {r : Rec} (h : readRec l f i = .ok r) :
    r.data.length = l.nSamples := by
  unfold readRec at h
  split at h
  · cases h
  · dsimp only at h
    split at h
    · cases h
    · split at h
      · injection h with h; rw [← h]; exact words_length _ _
      · split at h
        · cases h
        · injection h with h; rw [← h]; exact words_length _ _

/-! ### opening -/

theorem bind_ok {ε α β} {x : Except ε α} {f : α → Except ε β} {b : β} (h : (x >>= f) = .ok b) :
    ∃ a, x = .ok a ∧ f a = .ok b := by
  cases x with
  | error e => cases h
  | ok a => exact ⟨a, rfl, h⟩

theorem map_bind {ε α β γ} (x : Except ε α) (f : α → Except ε β) (g : β → γ) :
    (x >>= f).map g = x >>= fun a => (f a).map g := by
  cases x <;> rfl

theorem parseHeader_bin (pf : Bytes → Option Rat) (fname : Str) (d : Dict) (hs b b' : Nat) :
    parseHeader pf fname d hs b = (parseHeader pf fname d hs b').map (fun l => { l with binarySize := b }) := by
  unfold parseHeader
  rw [map_bind]
  congr 1; funext p
  unfold finishOpen
  split
  · rfl
  · split <;> rfl

theorem parseHeader_fields {pf : Bytes → Option Rat} {fname : Str} {d : Dict} {hs b : Nat} {l : Ljh}
    (h : parseHeader pf fname d hs b = .ok l) :
    l.dict = d ∧ l.headerSize = hs ∧ l.binarySize = b ∧ l.pulseSize ≤ 2 ^ 24 := by
  obtain ⟨p, -, h⟩ := bind_ok h
  unfold finishOpen at h
  split at h
  · exact absurd h (by simp)
  · split at h
    · exact absurd h (by simp)
    · rename_i h2
      injection h with h
      subst h
      refine ⟨rfl, rfl, rfl, ?_⟩
      simp only [Ljh.pulseSize, recSize] at h2 ⊢
      cases ho : p.old <;> simp [ho] at h2 ⊢ <;> omega

theorem openBytes_eq {pf : Bytes → Option Rat} {fname : Str} {f : Bytes} {d : Dict} {hs : Nat}
    (h : readHeader f = .ok (d, hs)) : openBytes pf fname f = parseHeader pf fname d hs (f.length - hs) := by
  unfold openBytes; rw [h]; rfl

theorem openBytes_header {pf : Bytes → Option Rat} {fname : Str} {f : Bytes} {l : Ljh}
    (h : openBytes pf fname f = .ok l) : readHeader f = .ok (l.dict, l.headerSize) ∧
      l.headerSize ≤ f.length ∧ l.binarySize = f.length - l.headerSize := by
  obtain ⟨⟨d, hs⟩, h1, h2⟩ := bind_ok h
  obtain ⟨e1, e2, e3, -⟩ := parseHeader_fields h2
  obtain ⟨pre, endl, body, ⟨hf, -⟩, -, hn⟩ := header_scan_only h1
  refine ⟨by rw [e1, e2]; exact h1, ?_, by rw [e3, e2]⟩
  rw [e2, hn, hf]; simp

/-- A file whose header is complete: the end marker line ends in a newline and nothing follows. [specification] -/
def HeaderOnly (h : Bytes) : Prop := ∃ d, readHeader h = .ok (d, h.length) ∧ h.getLast? = some 10

theorem headerOnly_append {h : Bytes} (hh : HeaderOnly h) (b : Bytes) : readHeader (h ++ b) = readHeader h := by
  obtain ⟨d, hr, hl⟩ := hh
  obtain ⟨pre, endl, body, hs, hlen, hn⟩ := header_scan_only hr
  have hb : body = [] := by
    have := congrArg List.length hs.1
    simp only [List.length_append] at this hn
    exact List.eq_nil_of_length_eq_zero (by omega)
  subst hb
  obtain ⟨hf, hpre, hend, hlast⟩ := hs
  have hline : IsLine endl := by
    rcases hlast with h | ⟨h, -⟩
    · exact h
    · exfalso
      rw [hf, List.append_nil, List.getLast?_append] at hl
      have : endl ≠ [] := by rintro rfl; exact endMark_ne (List.prefix_nil.1 hend)
      cases he : endl.getLast? with
      | none => exact this (List.getLast?_eq_none_iff.1 he)
      | some x => rw [he] at hl; simp at hl; subst hl; exact h (List.mem_of_getLast? he)
  rw [readHeader_run (pre := pre) (endl := endl) (body := b) ⟨by rw [hf]; simp, hpre, hend, .inl hline⟩ hlen,
    readHeader_run (pre := pre) (endl := endl) (body := []) ⟨hf, hpre, hend, .inl hline⟩ hlen]

/-- opening a file made of a complete header and some bytes -/
theorem open_append {pf : Bytes → Option Rat} {fname : Str} {h : Bytes} (hh : HeaderOnly h) {l0 : Ljh}
    (ho : openBytes pf fname h = .ok l0) (b : Bytes) :
    openBytes pf fname (h ++ b) = .ok { l0 with binarySize := b.length } ∧ l0.headerSize = h.length := by
  obtain ⟨d, hr, hl⟩ := id hh
  have h1 := openBytes_eq (pf := pf) (fname := fname) hr
  have h2 : readHeader (h ++ b) = .ok (d, h.length) := by rw [headerOnly_append hh, hr]
  rw [openBytes_eq h2, parseHeader_bin pf fname d h.length _ (h.length - h.length), ← h1, ho]
  refine ⟨?_, ?_⟩
  · simp [Except.map]
  · have := (openBytes_header ho).1
    rw [hr] at this; injection this with this; injection this with _ this; exact this.symm

end Mass.Ljh
