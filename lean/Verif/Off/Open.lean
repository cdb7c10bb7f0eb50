import Verif.Off.Props
/-! C84: which OFF files can be opened, and where the fields of a record are. -/
namespace Mass.Off
open Mass.Ljh (Bytes asc splitLines IsLine)

/-- C19. The fields before the coefficients are at the same places in both layouts, as documented. -/
theorem layout_offsets {ver : String} {n : Nat} {d : Bool} {fs : List (String × Nat)} (h : recordFields ver n d = .ok fs) :
    fieldAt "recordSamples" 0 fs = some (0, 4) ∧ fieldAt "recordPreSamples" 0 fs = some (4, 4) ∧
      fieldAt "framecount" 0 fs = some (8, 8) ∧ fieldAt "unixnano" 0 fs = some (16, 8) ∧
      fieldAt "pretriggerMean" 0 fs = some (24, 4) ∧
      (ver ≠ "0.3.0" → fieldAt "residualStdDev" 0 fs = some (28, 4) ∧ fieldAt "pretriggerDelta" 0 fs = none) ∧
      (ver = "0.3.0" → fieldAt "pretriggerDelta" 0 fs = some (28, 4) ∧ fieldAt "residualStdDev" 0 fs = some (32, 4)) := by
  have hd : ∀ pos, fieldAt "pretriggerDelta" pos (coefFields n d) = none := by
    intro pos
    unfold coefFields
    cases d with
    | false => simp [fieldAt]
    | true =>
      simp only [if_true]
      by_cases h3 : 3 < n <;> simp [h3, fieldAt]
  unfold recordFields headFields at h
  by_cases h1 : ver = "0.1.0" ∨ ver = "0.2.0"
  · rw [if_pos h1] at h
    simp only [bind, Except.bind, pure, Except.pure, Except.ok.injEq] at h
    subst h
    have hv : ver ≠ "0.3.0" := by rcases h1 with rfl | rfl <;> decide
    refine ⟨by simp [fieldAt], by simp [fieldAt], by simp [fieldAt], by simp [fieldAt], by simp [fieldAt],
      fun _ => ⟨by simp [fieldAt], ?_⟩, fun h => absurd h hv⟩
    simp [fieldAt, hd]
  · rw [if_neg h1] at h
    by_cases h2 : ver = "0.3.0"
    · rw [if_pos h2] at h
      simp only [bind, Except.bind, pure, Except.pure, Except.ok.injEq] at h
      subst h
      exact ⟨by simp [fieldAt], by simp [fieldAt], by simp [fieldAt], by simp [fieldAt], by simp [fieldAt],
        fun h => absurd h2 h, fun _ => ⟨by simp [fieldAt], by simp [fieldAt]⟩⟩
    · rw [if_neg h2] at h
      simp [bind, Except.bind] at h

example : (recordFields "0.3.0" 5 true).map (fun fs => (fieldAt "unixnano" 0 fs, fieldAt "residualStdDev" 0 fs)) =
    .ok (some (16, 8), some (32, 4)) ∧
    (recordFields "0.2.0" 5 true).map (fun fs => fieldAt "residualStdDev" 0 fs) = .ok (some (28, 4)) := by decide +kernel

/-- a header that means what an OFF header must mean: the right format, a known version, projectors and basis transposed to each other
with one component for every coefficient [specification] -/
def Hdr.Valid (h : Hdr) : Prop :=
  h.fileFormat = "OFF" ∧ Supported h.version ∧ h.bRows = h.pCols ∧ h.bCols = h.pRows ∧ h.nBases = h.pRows

theorem jsonLines_header {pre : List Bytes} (hpre : ∀ l ∈ pre, IsLine l ∧ l ≠ asc "}\n") (body : Bytes) :
    jsonLines (splitLines (pre.flatten ++ (asc "}\n" ++ body))) = some (pre.flatten ++ asc "}\n") := by
  have hl : IsLine (asc "}\n") := ⟨asc "}", by decide +kernel, by decide +kernel⟩
  induction pre with
  | nil =>
    simp only [List.flatten_nil, List.nil_append]
    rw [Ljh.splitLines_line hl]
    simp [jsonLines]
  | cons a t ih =>
    rw [List.flatten_cons, List.append_assoc, Ljh.splitLines_line (hpre a (by simp)).1]
    unfold jsonLines
    rw [if_neg (hpre a (by simp)).2, ih (fun l hl => hpre l (by simp [hl]))]
    simp

/-- C84. A file whose header is ASCII text, followed by a line that is exactly `}`, can be opened exactly if the header is valid and
the file has room for the projectors and the basis; records then start right after these, each has the documented size, and all
complete ones are available. -/
theorem open_iff {js : Bytes → Option Hdr} {pre : List Bytes} {body : Bytes} {h : Hdr}
    (hpre : ∀ l ∈ pre, IsLine l ∧ l ≠ asc "}\n" ∧ ∀ b ∈ l, b < 128) (hj : js (pre.flatten ++ asc "}\n") = some h) :
    ((∃ o, openOff js (pre.flatten ++ (asc "}\n" ++ body)) = .ok o) ↔
      h.Valid ∧ (if h.base64 then 0 else 2 * (8 * h.bRows * h.bCols)) ≤ body.length) ∧
    (∀ o, openOff js (pre.flatten ++ (asc "}\n" ++ body)) = .ok o →
      o.size = headBytes h.version + 4 * max h.nBases 3 ∧
      o.nRecords = (body.length - (if h.base64 then 0 else 2 * (8 * h.bRows * h.bCols))) / o.size) := by
  have hjl := jsonLines_header (fun l hl => ⟨(hpre l hl).1, (hpre l hl).2.1⟩) body
  have hcc : charCount (pre.flatten ++ asc "}\n") = (pre.flatten ++ asc "}\n").length := by
    unfold charCount
    rw [List.filter_eq_self.2]
    intro x hx
    rcases List.mem_append.1 hx with hx | hx
    · obtain ⟨l, hl, hx⟩ := List.mem_flatten.1 hx
      simp [(hpre l hl).2.2 x hx]
    · have : ∀ y ∈ asc "}\n", y < 128 := by decide +kernel
      simp [this x hx]
  have hlen2 : (asc "}\n").length = 2 := by decide +kernel
  have hln : IsLine (asc "}\n") := ⟨asc "}", by decide +kernel, by decide +kernel⟩
  have hend : (splitLines ((pre.flatten ++ (asc "}\n" ++ body)).drop ((pre.flatten ++ asc "}\n").length - 2))).head? = some (asc "}\n") := by
    rw [List.length_append, hlen2, Nat.add_sub_cancel, List.drop_left, Ljh.splitLines_line hln]
    rfl
  have hspace : (if h.base64 then 0 else 2 * (8 * h.bRows * h.bCols)) =
      afterHeader h (pre.flatten ++ asc "}\n").length - (pre.flatten ++ asc "}\n").length ∧
      (pre.flatten ++ asc "}\n").length ≤ afterHeader h (pre.flatten ++ asc "}\n").length := by
    unfold afterHeader
    split
    · simp
    · rw [Nat.mul_comm h.bCols, Nat.mul_comm (h.bRows * h.bCols) 8, Nat.mul_assoc]
      constructor <;> omega
  have htot : (pre.flatten ++ (asc "}\n" ++ body)).length = (pre.flatten ++ asc "}\n").length + body.length := by
    simp; omega
  by_cases hs : Supported h.version
  · obtain ⟨⟨fp, p1, -⟩, ⟨fd, d1, d2⟩⟩ := record_size hs h.nBases
    have key : openOff js (pre.flatten ++ (asc "}\n" ++ body)) =
        if h.fileFormat ≠ "OFF" then .error .exception
        else if h.bRows ≠ h.pCols ∨ h.bCols ≠ h.pRows ∨ h.nBases ≠ h.pRows then .error .exception
        else refresh ⟨(pre.flatten ++ asc "}\n").length, afterHeader h (pre.flatten ++ asc "}\n").length, itemsize fd, 0⟩
          (pre.flatten ++ (asc "}\n" ++ body)) := by
      unfold openOff
      rw [hjl]; dsimp only
      rw [hj]; dsimp only
      rw [p1, d1]; dsimp only
      rw [hcc, if_neg (by rw [hend]; simp)]
    rw [key]
    by_cases hf : h.fileFormat = "OFF"
    · rw [if_neg (fun hh => hh hf)]
      by_cases hsh : h.bRows ≠ h.pCols ∨ h.bCols ≠ h.pRows ∨ h.nBases ≠ h.pRows
      · rw [if_pos hsh]
        refine ⟨⟨fun ⟨_, h⟩ => (by cases h), ?_⟩, fun _ h => (by cases h)⟩
        rintro ⟨⟨-, -, a, b, c⟩, -⟩
        rcases hsh with h | h | h
        · exact absurd a h
        · exact absurd b h
        · exact absurd c h
      · rw [if_neg hsh]
        simp only [not_or, Decidable.not_not] at hsh
        constructor
        · constructor
          · rintro ⟨o, ho⟩
            obtain ⟨h1, -⟩ := refresh_inv ho
            dsimp only at h1
            exact ⟨⟨hf, hs, hsh.1, hsh.2.1, hsh.2.2⟩, by omega⟩
          · rintro ⟨-, hb⟩
            exact ⟨_, refresh_ok (by dsimp only; omega)⟩
        · intro o ho
          obtain ⟨h1, rfl⟩ := refresh_inv ho
          dsimp only at h1 ⊢
          refine ⟨d2, ?_⟩
          congr 1
          omega
    · rw [if_pos hf]
      refine ⟨⟨fun ⟨_, h⟩ => (by cases h), fun hv => absurd hv.1.1 hf⟩, fun _ h => (by cases h)⟩
  · have hno : ∀ d, recordFields h.version h.nBases d = .error .exception := by
      intro d
      rcases headFields_cases h.version with ⟨h1, -⟩ | ⟨-, h1⟩
      · exact absurd h1 hs
      · unfold recordFields; rw [h1]; rfl
    have key : openOff js (pre.flatten ++ (asc "}\n" ++ body)) = .error .exception := by
      unfold openOff
      rw [hjl]; dsimp only
      rw [hj]; dsimp only
      rw [hno true]
    rw [key]
    refine ⟨⟨fun ⟨_, h⟩ => (by cases h), fun hv => absurd hv.1.2.1 hs⟩, fun _ h => (by cases h)⟩

/-- C84. A file without a line that is exactly `}` is refused. -/
theorem open_no_header {js : Bytes → Option Hdr} {f : Bytes} (h : asc "}\n" ∉ splitLines f) : openOff js f = .error .exception := by
  have : ∀ ls : List Bytes, asc "}\n" ∉ ls → jsonLines ls = none := by
    intro ls
    induction ls with
    | nil => intro _; rfl
    | cons a t ih =>
      intro hh
      simp only [List.mem_cons, not_or] at hh
      unfold jsonLines
      rw [if_neg (fun e => hh.1 e.symm), ih hh.2]; rfl
  unfold openOff
  rw [this _ h]

/-- a header that describes 3 components of records of 2 samples, stored in binary [specification] -/
def binJs (_ : Bytes) : Option Hdr := some ⟨"OFF", "0.2.0", 3, false, 3, 2, 2, 3⟩

/-- C84, instances: 96 bytes of projectors and basis, then records of 44 bytes; a header for a wrong format is refused -/
example : (openOff binJs (plainHeader ++ List.replicate (96 + 44 + 43) 1)).map (fun o => (o.size, o.nRecords)) = .ok (44, 1) ∧
    (openOff binJs (plainHeader ++ List.replicate 95 1)).map (fun o => o.nRecords) = .error .value ∧
    (openOff (fun _ => some ⟨"LJH", "0.2.0", 3, true, 3, 2, 2, 3⟩) plainHeader).map (fun o => o.nRecords) = .error .exception ∧
    (openOff (fun _ => some ⟨"OFF", "0.2.0", 4, true, 3, 2, 2, 3⟩) plainHeader).map (fun o => o.nRecords) = .error .exception := by
  decide +kernel

end Mass.Off
