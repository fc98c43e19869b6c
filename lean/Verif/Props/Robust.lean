import Verif.Proofs.Robust
import Verif.Props.SeekCol
import Verif.Model.FileReader
/-
C80: reading damaged columns.
-/
namespace Goorc

/-! ### Columns that survive everything -/

/-- **C80** tinyint columns: whatever the file contains, every call returns or reports an error. -/
theorem byte_column_robust : byteRead.Robust := by
  refine ReadKind.Sound.robust (Inv := fun d => d.stream.Sane) (fun s d hs h => ?_) fun c => ⟨fun d h => h, fun d h => ?_, fun _ _ => trivial, fun d h => ?_, fun d ps h hl => ?_⟩
  · obtain ⟨r, h1, h2⟩ := Option.map_eq_some_iff.mp h
    rw [← h2]; exact hs _ r h1
  · exact (block_next_sat decodeByteRL_sat d h).bind fun p _ hp => h.same hp
  · exact (block_next_sat decodeByteRL_sat d h).bind fun p _ hp => h.same hp
  · have hl := hl rfl
    simp only [byteRead] at hl
    match ps, hl with
    | [(a, b, [n])], _ => exact block_seek_sat (fun r hr => block_next_sat decodeByteRL_sat r hr) a b n d h

/-- **C80** boolean columns. -/
theorem bool_column_robust : boolRead.Robust := by
  refine ReadKind.Sound.robust (Inv := fun d => d.reader.stream.Sane) (fun s d hs h => ?_) fun c => ⟨fun d h => h, fun d h => ?_, fun _ _ => trivial, fun d h => ?_, fun d ps h hl => ?_⟩
  · obtain ⟨r, h1, h2⟩ := Option.map_eq_some_iff.mp h
    rw [← h2]; exact hs _ r h1
  · exact (bool_next_sat d h).bind fun p _ hp => hp
  · exact (bool_next_sat d h).bind fun p _ hp => hp
  · have hl := hl rfl
    simp only [boolRead] at hl
    match ps, hl with
    | [(a, b, [n, m])], _ => exact bool_seek_sat a b n m d h

theorem float_next_sat {c : Codec} (r : FloatReader) (h : r.stream.Sane) : (r.nextFloat c).Sat false fun p => p.2.stream.Sane := by
  rw [FloatReader.nextFloat]
  split
  · trivial
  · exact (Dec.sat_run c decodeFloat_sat r.stream h).bind fun p _ hp => h.same hp.2

theorem double_next_sat {c : Codec} (r : FloatReader) (h : r.stream.Sane) : (r.nextDouble c).Sat false fun p => p.2.stream.Sane := by
  rw [FloatReader.nextDouble]
  split
  · trivial
  · exact (Dec.sat_run c decodeDouble_sat r.stream h).bind fun p _ hp => h.same hp.2

/-- **C80** float and double columns. -/
theorem float_column_robust (is64 : Bool) : (floatRead is64).Robust := by
  refine ReadKind.Sound.robust (Inv := fun d => d.stream.Sane) (fun s d hs h => ?_) fun c => ⟨fun d h => h, fun d h => ?_, fun _ _ => trivial, fun d h => ?_, fun d ps h hl => ?_⟩
  · obtain ⟨r, h1, h2⟩ := Option.map_eq_some_iff.mp h
    rw [← h2]; exact hs _ r h1
  · simp only [floatRead]
    cases is64
    · exact (float_next_sat d h).bind fun p _ hp => hp
    · exact (double_next_sat d h).bind fun p _ hp => hp
  · simp only [floatRead]
    cases is64
    · exact (float_next_sat d h).bind fun p _ hp => hp
    · exact (double_next_sat d h).bind fun p _ hp => hp
  · have hl := hl rfl
    simp only [floatRead] at hl
    match ps, hl with
    | [(a, b, [])], _ => exact (seek_sat c d.stream a b).bind fun s _ hs => h.same hs

/-! ### The others at least come to an end -/

/-- **C80** tinyint columns also come to an end when the row index is too short. -/
theorem byte_column_terminates : byteRead.Terminates := by
  refine ReadKind.Sound.terminates (Inv := fun d => d.stream.Sane) (fun s d hs h => ?_) fun c => ⟨fun d h => h, fun d h => ?_, fun _ _ => trivial, fun d h => ?_, fun d ps h _ => ?_⟩
  · obtain ⟨r, h1, h2⟩ := Option.map_eq_some_iff.mp h
    rw [← h2]; exact hs _ r h1
  · exact (block_next_sat decodeByteRL_sat d h).weaken.bind fun p _ hp => h.same hp
  · exact (block_next_sat decodeByteRL_sat d h).weaken.bind fun p _ hp => h.same hp
  · simp only [byteRead]
    split
    · exact (block_seek_sat (fun r hr => block_next_sat decodeByteRL_sat r hr) _ _ _ d h).weaken
    · exact rfl

/-- **C80** boolean columns as well. -/
theorem bool_column_terminates : boolRead.Terminates := by
  refine ReadKind.Sound.terminates (Inv := fun d => d.reader.stream.Sane) (fun s d hs h => ?_) fun c => ⟨fun d h => h, fun d h => ?_, fun _ _ => trivial, fun d h => ?_, fun d ps h _ => ?_⟩
  · obtain ⟨r, h1, h2⟩ := Option.map_eq_some_iff.mp h
    rw [← h2]; exact hs _ r h1
  · exact (bool_next_sat d h).weaken.bind fun p _ hp => hp
  · exact (bool_next_sat d h).weaken.bind fun p _ hp => hp
  · simp only [boolRead]
    split
    · exact (bool_seek_sat _ _ _ _ d h).weaken
    · exact rfl

/-- **C80** float and double columns as well. -/
theorem float_column_terminates (is64 : Bool) : (floatRead is64).Terminates := by
  refine ReadKind.Sound.terminates (Inv := fun d => d.stream.Sane) (fun s d hs h => ?_) fun c => ⟨fun d h => h, fun d h => ?_, fun _ _ => trivial, fun d h => ?_, fun d ps h _ => ?_⟩
  · obtain ⟨r, h1, h2⟩ := Option.map_eq_some_iff.mp h
    rw [← h2]; exact hs _ r h1
  · simp only [floatRead]
    cases is64
    · exact (float_next_sat d h).weaken.bind fun p _ hp => hp
    · exact (double_next_sat d h).weaken.bind fun p _ hp => hp
  · simp only [floatRead]
    cases is64
    · exact (float_next_sat d h).weaken.bind fun p _ hp => hp
    · exact (double_next_sat d h).weaken.bind fun p _ hp => hp
  · simp only [floatRead]
    split
    · exact (seek_sat c d.stream _ _).weaken.bind fun s _ hs => h.same hs
    · exact rfl

/-- **C80** (partial: panics are possible, see below) smallint, int and bigint columns: every call comes to an end. -/
theorem ints_column_terminates_partial (bits : IntBits) : (intRead bits).Terminates := by
  refine ReadKind.Sound.terminates (Inv := fun d => d.block.stream.Sane) (fun s d hs h => ?_) fun c => ⟨fun d h => h, fun d h => ?_, fun _ _ => trivial, fun d h => ?_, fun d ps h _ => ?_⟩
  · obtain ⟨r, h1, h2⟩ := Option.map_eq_some_iff.mp h
    rw [← h2]; exact hs _ r h1
  · exact (int_next_crash d h).bind fun p _ hp => hp
  · exact (int_next_crash d h).bind fun p _ hp => hp
  · simp only [intRead]
    split
    · exact int_seek_crash _ _ _ d h
    · exact rfl

theorem nextBytes_crash {c : Codec} (r : StreamReader) (h : r.Sane) (n : Nat) : (nextBytes c r n).Sat true fun p => p.2.Sane := by
  rw [nextBytes]
  split
  · exact (Dec.sat_run c (decodeBytes_sat n) r h).weaken.mono fun p hp => h.same hp.2
  · exact rfl

/-- What holds of the two streams of text columns. -/
def TextReader.Sane (r : TextReader) : Prop := r.data.Sane ∧ r.length.block.stream.Sane

theorem text_next_crash {c : Codec} (r : TextReader) (h : r.Sane) : (r.next c).Sat true fun p => p.2.Sane := by
  rw [TextReader.next]
  exact (uint_next_sat r.length h.2).weaken.bind fun p _ hp => (nextBytes_crash r.data h.1 _).bind fun q _ hq => ⟨hq, hp⟩

theorem text_seek_crash {c : Codec} (r : TextReader) (h : r.Sane) (ps : List (Nat × Nat × List Nat)) : (r.seek c ps).Sat true TextReader.Sane := by
  unfold TextReader.seek
  split
  · exact (seek_sat c _ _ _).weaken.bind fun s _ hs => (int_seek_crash _ _ _ _ h.2).bind fun l _ hl => ⟨h.1.same hs, hl⟩
  · exact rfl

/-- **C80** (partial) string columns (direct encoding). -/
theorem string_column_terminates_partial : stringRead.Terminates := by
  refine ReadKind.Sound.terminates (Inv := TextReader.Sane) (fun s d hs h => ?_) fun c => ⟨fun d h => h, fun d h => ?_, fun _ _ => trivial, fun d h => ?_, fun d ps h _ => text_seek_crash d h ps⟩
  · simp only [stringRead] at h
    split at h
    · rename_i h1 h2
      cases h; exact ⟨hs _ _ h1, hs _ _ h2⟩
    · cases h
  · exact (text_next_crash d h).bind fun p _ hp => hp
  · exact (text_next_crash d h).bind fun p _ hp => hp

/-- **C80** (partial) binary columns. -/
theorem binary_column_terminates_partial : binaryRead.Terminates := by
  refine ReadKind.Sound.terminates (Inv := TextReader.Sane) (fun s d hs h => ?_) fun c => ⟨fun d h => h, fun d h => ?_, fun _ _ => trivial, fun d h => ?_, fun d ps h _ => text_seek_crash d h ps⟩
  · simp only [binaryRead] at h
    split at h
    · rename_i h1 h2
      cases h; exact ⟨hs _ _ h1, hs _ _ h2⟩
    · cases h
  · exact (text_next_crash d h).bind fun p _ hp => hp
  · exact (text_next_crash d h).bind fun p _ hp => hp

/-- **C80** (partial) date columns. -/
theorem date_column_terminates_partial : dateRead.Terminates := by
  refine ReadKind.Sound.terminates (Inv := fun d => d.stream.Sane) (fun s d hs h => ?_) fun c => ⟨fun d h => h, fun d h => ?_, fun _ _ => trivial, fun d h => ?_, fun d ps h _ => ?_⟩
  · obtain ⟨r, h1, h2⟩ := Option.map_eq_some_iff.mp h
    rw [← h2]; exact hs _ r h1
  · exact (block_next_crash d h).bind fun p _ hp => h.same hp
  · exact (block_next_crash d h).bind fun p _ hp => h.same hp
  · simp only [dateRead]
    split
    · exact block_seek_sat (fun r hr => block_next_crash r hr) _ _ _ d h
    · exact rfl

/-- **C80** (partial) timestamp columns. -/
theorem timestamp_column_terminates_partial : timestampRead.Terminates := by
  refine ReadKind.Sound.terminates (Inv := fun d => d.data.block.stream.Sane ∧ d.secondary.block.stream.Sane)
    (fun s d hs h => ?_) fun c => ⟨fun d h => h, fun d h => ?_, fun old x => ?_, fun d h => ?_, fun d ps h _ => ?_⟩
  · simp only [timestampRead] at h
    split at h
    · rename_i h1 h2
      cases h; exact ⟨hs _ _ h1, hs _ _ h2⟩
    · cases h
  · exact (int_next_crash d.data h.1).bind fun p _ hp => (uint_next_sat d.secondary h.2).weaken.bind fun q _ hq => ⟨hp, hq⟩
  · cases old <;> trivial
  · exact (int_next_crash d.data h.1).bind fun p _ hp => (uint_next_sat d.secondary h.2).weaken.bind fun q _ hq => ⟨hp, hq⟩
  · simp only [timestampRead]
    split
    · exact (int_seek_crash _ _ _ _ h.1).bind fun s _ hs => (int_seek_crash _ _ _ _ h.2).bind fun l _ hl => ⟨hs, hl⟩
    · exact rfl

/-- **C80** (partial) decimal columns. -/
theorem decimal_column_terminates_partial : decimalRead.Terminates := by
  refine ReadKind.Sound.terminates (Inv := fun d => d.data.Sane ∧ d.secondary.block.stream.Sane)
    (fun s d hs h => ?_) fun c => ⟨fun d h => h, fun d h => ?_, fun old x => ?_, fun d h => ?_, fun d ps h _ => ?_⟩
  · simp only [decimalRead] at h
    split at h
    · rename_i h1 h2
      cases h; exact ⟨hs _ _ h1, hs _ _ h2⟩
    · cases h
  · exact (Dec.sat_run c decodeVarInt64_sat d.data h.1).weaken.bind fun p _ hp => (int_next_crash d.secondary h.2).bind fun q _ hq => ⟨h.1.same hp.2, hq⟩
  · cases old <;> trivial
  · exact (Dec.sat_run c decodeVarInt64_sat d.data h.1).weaken.bind fun p _ hp => (int_next_crash d.secondary h.2).bind fun q _ hq => ⟨h.1.same hp.2, hq⟩
  · simp only [decimalRead]
    split
    · exact (seek_sat c _ _ _).weaken.bind fun s _ hs => (int_seek_crash _ _ _ _ h.2).bind fun l _ hl => ⟨h.1.same hs, hl⟩
    · exact rfl

/-! ### Exactly when the others panic -/

/-- **C80** A string panics exactly when the length stored for it is 2^63 or more. -/
theorem string_read_panics_iff (c : Codec) (r : TextReader) (hd : r.data.Sane) (hl : r.length.block.stream.Sane) :
    r.next c = .panic ↔ ∃ l len, r.length.nextUInt64 c = .ok (l, len) ∧ 2 ^ 63 ≤ l.toNat := by
  rw [TextReader.next]
  have h1 := uint_next_sat (c := c) r.length hl
  constructor
  · intro h
    cases hn : r.length.nextUInt64 c with
    | ok p =>
      refine ⟨p.1, p.2, rfl, Classical.byContradiction fun hlt => ?_⟩
      rw [hn, Res.ok_bind] at h
      have h2 : (nextBytes c r.data p.1.toNat).Sat false fun _ => True := by
        rw [nextBytes, if_pos (by omega)]
        exact (Dec.sat_run c (decodeBytes_sat _) r.data hd).mono fun _ _ => trivial
      cases hb : nextBytes c r.data p.1.toNat with
      | ok q => simp only [hb, Res.ok_bind] at h; cases h
      | err e => simp only [hb, Res.err_bind] at h; cases h
      | panic => rw [hb] at h2; cases h2
      | hang => rw [hb] at h2; cases h2
    | err e => rw [hn] at h; cases h
    | panic => rw [hn] at h1; cases h1
    | hang => rw [hn] at h1; cases h1
  · rintro ⟨l, len, h2, h3⟩
    rw [h2, Res.ok_bind]
    simp only [nextBytes, if_neg (show ¬ l.toNat < 2 ^ 63 by omega), Res.panic_bind]

theorem Dec.sat_first {α : Type} {P : α → Prop} (c : Codec) {k : Byte → Dec α} {bad : Byte → Prop} (h : ∀ b, ¬ bad b → (k b).Sat false P) (r : StreamReader)
    (hr : r.Sane) : ((Dec.readByte k).runStream c r).Sat false (fun p => P p.1) ∨ ∃ b r', r.readByte c = .ok (b, r') ∧ bad b := by
  rw [Dec.runStream]
  have h1 := readByte_sat c r
  cases hb : r.readByte c with
  | ok p =>
    by_cases hn : bad p.1
    · exact .inr ⟨p.1, p.2, rfl, hn⟩
    · exact .inl ((Dec.sat_run c (h p.1 hn) p.2 (hr.same (StreamReader.readByte_same hb))).mono fun q hq => hq.1)
  | err e => exact .inl trivial
  | panic => rw [hb] at h1; cases h1
  | hang => rw [hb] at h1; cases h1

/-- The first byte of a block that claims to be in patched encoding. -/
def PatchedHeader (b : Byte) : Prop := 128 ≤ b.toNat ∧ b.toNat < 192

theorem decodeInt_sat (c : Codec) (r : StreamReader) (hr : r.Sane) :
    ((decodeInt true).runStream c r).Sat false (fun p => p.1 ≠ []) ∨ ∃ b r', r.readByte c = .ok (b, r') ∧ PatchedHeader b := by
  refine Dec.sat_first (P := fun vs : List U64 => vs ≠ []) c (fun b hb => ?_) r hr
  have h2 : (b >>> 6).toNat ≠ 2 := by
    simp only [PatchedHeader] at hb
    rw [BitVec.toNat_ushiftRight, Nat.shiftRight_eq_div_pow]; omega
  refine Dec.sat_bind (Dec.sat_of_safe _ (safe_decodeRaw true b fun _ => h2)) fun vs hv => ?_
  show vs.map _ ≠ []
  intro h0
  rw [List.map_eq_nil_iff] at h0
  rw [h0] at hv
  exact absurd hv.1 (by simp)

/-- **C80** Reading a signed integer panics only at a block that claims to be in patched encoding (C27). -/
theorem int_read_panics_only (c : Codec) (r : IntReader) (hr : r.block.stream.Sane) (h : r.nextInt64 c = .panic) :
    r.block.values = [] ∧ ∃ b s, r.block.stream.readByte c = .ok (b, s) ∧ PatchedHeader b := by
  simp only [IntReader.nextInt64] at h
  cases hs : r.signed with
  | false => rw [hs] at h; cases h
  | true =>
    simp only [hs, Bool.not_true, Bool.false_eq_true, if_false, BlockReader.next] at h
    cases hv : r.block.values with
    | cons v vs => rw [hv] at h; cases h
    | nil =>
      refine ⟨rfl, ?_⟩
      rw [hv] at h
      rcases decodeInt_sat c r.block.stream hr with h1 | h1
      · cases hh : (decodeInt true).runStream c r.block.stream with
        | ok p =>
          obtain ⟨vs, s⟩ := p
          rw [hh] at h1
          cases vs with
          | nil => exact absurd rfl h1
          | cons v vs => simp only [hh, Res.ok_bind] at h; cases h
        | err e => simp only [hh, Res.err_bind] at h; cases h
        | panic => rw [hh] at h1; cases h1
        | hang => rw [hh] at h1; cases h1
      · exact h1

/-- **C80** A date: the same. -/
theorem date_read_panics_only (c : Codec) (r : DateReader) (hr : r.stream.Sane) (h : r.nextDate c = .panic) :
    r.values = [] ∧ ∃ b s, r.stream.readByte c = .ok (b, s) ∧ PatchedHeader b := by
  simp only [DateReader.nextDate, BlockReader.next] at h
  cases hv : r.values with
  | cons v vs => rw [hv] at h; cases h
  | nil =>
    refine ⟨rfl, ?_⟩
    rw [hv] at h
    have hb : ((decodeDates).runStream c r.stream).Sat false (fun p => p.1 ≠ []) ∨ ∃ b r', r.stream.readByte c = .ok (b, r') ∧ PatchedHeader b := by
      refine Dec.sat_first (P := fun vs : List Int => vs ≠ []) c (fun b hb => ?_) r.stream hr
      have h2 : (b >>> 6).toNat ≠ 2 := by
        simp only [PatchedHeader] at hb
        rw [BitVec.toNat_ushiftRight, Nat.shiftRight_eq_div_pow]; omega
      refine Dec.sat_bind (P := fun vs : List U64 => vs ≠ []) (Dec.sat_bind (Dec.sat_of_safe _ (safe_decodeRaw true b fun _ => h2)) fun vs hv => ?_) fun vs hv => ?_
      · show vs.map _ ≠ []
        intro h0
        rw [List.map_eq_nil_iff] at h0
        rw [h0] at hv
        exact absurd hv.1 (by simp)
      · show vs.map _ ≠ []
        intro h0
        rw [List.map_eq_nil_iff] at h0
        exact hv h0
    rcases hb with h1 | h1
    · cases hh : decodeDates.runStream c r.stream with
      | ok p =>
        obtain ⟨vs, s⟩ := p
        rw [hh] at h1
        cases vs with
        | nil => exact absurd rfl h1
        | cons v vs => simp only [hh, Res.ok_bind] at h; cases h
      | err e => simp only [hh, Res.err_bind] at h; cases h
      | panic => rw [hh] at h1; cases h1
      | hang => rw [hh] at h1; cases h1
    · exact h1

/-! ### Dictionaries -/

/-- How much a stream can still deliver at most before it has to end: bytes of the file not read yet, and bytes in the buffer. -/
def StreamReader.left (r : StreamReader) : Nat × Nat := (r.length - r.readLength, r.buf.length)

/-- Less is left. -/
def Less (a b : Nat × Nat) : Prop := a.1 < b.1 ∨ (a.1 = b.1 ∧ a.2 < b.2)

theorem Less.trans {a b c : Nat × Nat} (h : Less a b) (h' : Less b c) : Less a c := by
  unfold Less at *; omega

theorem fill_left (c : Codec) (n : Nat) (fuel : Nat) (r r' : StreamReader) (h : r.Sane) (hf : r.fill c n fuel = .ok r') :
    r'.left = r.left ∨ Less r'.left r.left := by
  induction fuel generalizing r with
  | zero =>
    rw [StreamReader.fill] at hf
    split at hf
    · cases hf
    · cases hf; exact .inl rfl
  | succ fuel ih =>
    rw [StreamReader.fill] at hf
    split at hf
    · rename_i hh
      obtain ⟨r1, h1, h2⟩ := Res.bind_ok_inv hf
      have h3 := readAChunk_sat c r h hh.2
      rw [h1] at h3
      have h4 : Less r1.left r.left := by
        have := h3.1; have := h3.2; have := hh.2
        left; simp only [StreamReader.left]; omega
      rcases ih r1 (h.same (StreamReader.readAChunk_same h1)) h2 with h5 | h5
      · rw [h5]; exact .inr h4
      · exact .inr (h5.trans h4)
    · cases hf; exact .inl rfl

theorem readByte_left (c : Codec) (r : StreamReader) (h : r.Sane) {b : Byte} {r' : StreamReader} (hb : r.readByte c = .ok (b, r')) : Less r'.left r.left := by
  rw [StreamReader.readByte] at hb
  split at hb
  · rename_i hbuf
    simp only [Res.ok.injEq, Prod.mk.injEq] at hb
    rw [← hb.2]
    right
    refine ⟨rfl, ?_⟩
    simp only [StreamReader.left, hbuf, List.length_cons]; omega
  · split at hb
    · cases hb
    · rename_i hl
      obtain ⟨r1, h1, h2⟩ := Res.bind_ok_inv hb
      have h3 := readAChunk_sat c r h (by omega)
      rw [h1] at h3
      have h4 := h3.1
      have h5 := h3.2
      split at h2
      · simp only [Res.ok.injEq, Prod.mk.injEq] at h2
        rw [← h2.2]
        left; simp only [StreamReader.left]; omega
      · cases h2

theorem readFull_left (c : Codec) (n : Nat) (r : StreamReader) (h : r.Sane) {bs : Bytes} {r' : StreamReader} (hb : r.readFull c n = .ok (bs, r')) :
    r'.left = r.left ∨ Less r'.left r.left := by
  rw [StreamReader.readFull] at hb
  have hdrop : ∀ s : StreamReader, ({ s with buf := s.buf.drop n } : StreamReader).left = s.left ∨ Less ({ s with buf := s.buf.drop n } : StreamReader).left s.left := by
    intro s
    by_cases h0 : (s.buf.drop n).length = s.buf.length
    · left; simp only [StreamReader.left, h0]
    · right; right
      refine ⟨rfl, ?_⟩
      simp only [StreamReader.left]
      simp only [List.length_drop] at h0 ⊢; omega
  split at hb
  · cases hb; exact .inl rfl
  · split at hb
    · cases hb; exact hdrop r
    · split at hb
      · cases hb
      · obtain ⟨r1, h1, h2⟩ := Res.bind_ok_inv hb
        have h3 := fill_left c n _ r r1 h h1
        split at h2
        · cases h2
          rcases hdrop r1 with h4 | h4 <;> rcases h3 with h5 | h5
          · exact .inl (h4.trans h5)
          · rw [h4]; exact .inr h5
          · rw [← h5]; exact .inr h4
          · exact .inr (h4.trans h5)
        · split at h2 <;> cases h2

theorem runStream_left {α : Type} (c : Codec) (d : Dec α) (r : StreamReader) (h : r.Sane) {a : α} {r' : StreamReader} (hd : d.runStream c r = .ok (a, r')) :
    r'.left = r.left ∨ Less r'.left r.left := by
  induction d generalizing r with
  | ret x => cases hd; exact .inl rfl
  | fail e => cases hd
  | crash => cases hd
  | readByte k ih =>
    obtain ⟨p, h1, h2⟩ := Res.bind_ok_inv hd
    have h3 := readByte_left c r h h1
    rcases ih p.1 p.2 (h.same (StreamReader.readByte_same h1)) h2 with h4 | h4
    · rw [h4]; exact .inr h3
    · exact .inr (h4.trans h3)
  | readFull n k ih =>
    obtain ⟨p, h1, h2⟩ := Res.bind_ok_inv hd
    have h3 := readFull_left c n r h h1
    rcases ih p.1 p.2 (h.same (StreamReader.readFull_same h1)) h2 with h4 | h4 <;> rcases h3 with h5 | h5
    · exact .inl (h4.trans h5)
    · rw [h4]; exact .inr h5
    · rw [← h5]; exact .inr h4
    · exact .inr (h4.trans h5)

/-- Every length that is read takes something from the stream of the lengths. -/
theorem uint_next_left (c : Codec) (l : IntReader) (hl : l.block.stream.Sane) {v : U64} {l' : IntReader} (h : l.nextUInt64 c = .ok (v, l')) :
    Less l'.block.stream.left l.block.stream.left ∨ (l'.block.stream.left = l.block.stream.left ∧ l'.block.values.length < l.block.values.length) := by
  rw [IntReader.nextUInt64] at h
  split at h
  · cases h
  · rename_i hsg
    have hsg : l.signed = false := by simpa using hsg
    split at h
    · rename_i hv
      simp only [Res.ok.injEq, Prod.mk.injEq] at h
      rw [← h.2]
      right; simp [hv]
    · obtain ⟨⟨vs, s⟩, h1, h2⟩ := Res.bind_ok_inv h
      rw [hsg] at h1
      obtain ⟨p, g1, g2⟩ := Res.bind_ok_inv (show (l.block.stream.readByte c >>= fun p => _) = _ from h1)
      have g3 := readByte_left c l.block.stream hl g1
      have g4 := runStream_left c _ p.2 (hl.same (StreamReader.readByte_same g1)) g2
      have g5 : Less s.left l.block.stream.left := by
        rcases g4 with g4 | g4
        · rw [g4]; exact g3
        · exact g4.trans g3
      cases vs with
      | nil => cases h2
      | cons v vs => cases h2; exact .inl g5

/-- Loading a dictionary comes to an end. -/
theorem load_ends (c : Codec) : ∀ (a b n : Nat) (l : IntReader), l.block.stream.Sane → l.block.stream.left = (a, b) → l.block.values.length = n →
    ∃ N, ∀ r : DictReader, r.length = l → r.dict.Sane → ∀ fuel, N ≤ fuel → (r.load c fuel).Sat true fun r' => r'.dict.Sane ∧ r'.length.block.stream.Sane ∧ r'.data = r.data := by
  intro a
  induction a using Nat.strongRecOn with
  | _ a iha =>
  intro b
  induction b using Nat.strongRecOn with
  | _ b ihb =>
  intro n
  induction n using Nat.strongRecOn with
  | _ n ihn =>
  intro l hl hab hn
  -- what is left after one more length
  have hstep : ∃ N, ∀ v l', l.nextUInt64 c = .ok (v, l') → ∀ r : DictReader, r.length = l' → r.dict.Sane → ∀ fuel, N ≤ fuel →
      (r.load c fuel).Sat true fun r' => r'.dict.Sane ∧ r'.length.block.stream.Sane ∧ r'.data = r.data := by
    cases hnx : l.nextUInt64 c with
    | ok p =>
      have hs : p.2.block.stream.Sane := by
        have := uint_next_sat (c := c) l hl
        rw [hnx] at this; exact this
      have := uint_next_left c l hl (v := p.1) (l' := p.2) hnx
      rw [hab] at this
      obtain ⟨N, hN⟩ : ∃ N, ∀ r : DictReader, r.length = p.2 → r.dict.Sane → ∀ fuel, N ≤ fuel →
          (r.load c fuel).Sat true fun r' => r'.dict.Sane ∧ r'.length.block.stream.Sane ∧ r'.data = r.data := by
        rcases this with (h1 | ⟨h1, h2⟩) | ⟨h1, h2⟩
        · exact iha _ h1 _ _ p.2 hs rfl rfl
        · exact ihb _ h2 _ p.2 hs (Prod.ext h1 rfl) rfl
        · exact ihn _ (hn ▸ h2) p.2 hs h1 rfl
      exact ⟨N, fun v l' he => by
        simp only [Res.ok.injEq] at he
        rw [he] at hN; exact hN⟩
    | err e => exact ⟨0, nofun⟩
    | panic => exact ⟨0, nofun⟩
    | hang => exact ⟨0, nofun⟩
  obtain ⟨N, hN⟩ := hstep
  refine ⟨N + 1, fun r hr hd fuel hf => ?_⟩
  cases fuel with
  | zero => omega
  | succ fuel =>
    rw [DictReader.load]
    split
    · exact ⟨hd, by rw [hr]; exact hl, rfl⟩
    · rw [hr]
      refine (uint_next_sat l hl).weaken.bind fun p hp _ => ?_
      refine (nextBytes_crash r.dict hd _).bind fun q _ hq => ?_
      exact (hN p.1 p.2 hp { r with length := p.2, dict := q.2, strings := r.strings ++ [q.1] } rfl hq fuel (by omega)).mono fun _ h => h


/-- **C80** (partial) string columns with a dictionary: with enough fuel for the loop that loads the dictionary, every sequence
of calls comes to an end. -/
theorem dictionary_column_terminates_partial (c : Codec) (kind : CompKind) (hasNulls : Bool) (streams : List (StreamKind × StreamReader))
    (hs : ∀ s ∈ streams, s.2.Sane) (r : ColReader DictReader) (hr : (dictRead 0).openCol kind hasNulls streams = some r) :
    ∃ N, ∀ fuel, N ≤ fuel → (dictRead fuel).openCol kind hasNulls streams = some r ∧
      ∀ (index : Option (List (List Nat))) (ops : List SeekOp), (dictRead fuel).roam c { r with index := index } ops ≠ .hang := by
  let Inv : DictReader → Prop := fun d => d.data.block.stream.Sane ∧ d.dict.Sane ∧ d.length.block.stream.Sane
  obtain ⟨h1, -⟩ := ReadKind.Sound.open_ok (R := dictRead 0) (Inv := Inv) (fun s d hs h => by
    simp only [dictRead] at h
    split at h
    · rename_i h1 h2 h3
      cases h; exact ⟨hs _ _ h1, hs _ _ h2, hs _ _ h3⟩
    · cases h) hs hr
  obtain ⟨N, hN⟩ := load_ends c _ _ _ r.data.length h1.1.2.2 rfl rfl
  refine ⟨N, fun fuel hf => ⟨hr, fun index ops => ?_⟩⟩
  have S : (dictRead fuel).Sound c true (fun d => Inv d ∧ (d.loaded = false → d.length = r.data.length)) := by
    refine ⟨fun d h => ?_, fun d h => ?_, fun _ _ => trivial, fun d h => ?_, fun d ps h _ => ?_⟩
    · simp only [dictRead]
      split
      · exact h
      · rename_i hl
        exact (hN d (h.2 (by simpa using hl)) h.1.2.1 fuel hf).bind fun d' _ hd => ⟨⟨by rw [show ({ d' with loaded := true } : DictReader).data = _ from hd.2.2]; exact h.1.1, hd.1, hd.2.1⟩, nofun⟩
    · refine (uint_next_sat d.data h.1.1).weaken.bind fun p _ hp => ?_
      simp only
      split
      · exact ⟨⟨hp, h.1.2⟩, h.2⟩
      · exact rfl
    · exact (uint_next_sat d.data h.1.1).weaken.bind fun p _ hp => ⟨⟨hp, h.1.2⟩, h.2⟩
    · simp only [dictRead]
      split
      · exact (int_seek_crash _ _ _ d.data h.1.1).bind fun p _ hp => ⟨⟨hp, h.1.2⟩, h.2⟩
      · exact rfl
  exact (S.roam_sat ops { r with index := index } ⟨⟨h1.1, fun _ => rfl⟩, h1.2⟩ nofun).not_hang

/-- **C80** A value of a dictionary panics exactly when its index is outside the dictionary. -/
theorem dictionary_read_panics_iff (c : Codec) (fuel : Nat) (r : DictReader) (hd : r.data.block.stream.Sane) :
    (dictRead fuel).next c r = .panic ↔ ∃ i data, r.data.nextUInt64 c = .ok (i, data) ∧ r.strings.length ≤ i.toNat := by
  have h1 := uint_next_sat (c := c) r.data hd
  simp only [dictRead]
  constructor
  · intro h
    cases hn : r.data.nextUInt64 c with
    | ok p =>
      refine ⟨p.1, p.2, rfl, Classical.byContradiction fun hlt => ?_⟩
      rw [hn, Res.ok_bind] at h
      simp only [List.getElem?_eq_getElem (show p.1.toNat < r.strings.length by omega)] at h
      cases h
    | err e => rw [hn] at h; cases h
    | panic => rw [hn] at h1; cases h1
    | hang => rw [hn] at h1; cases h1
  · rintro ⟨i, data, h2, h3⟩
    rw [h2, Res.ok_bind]
    simp only [List.getElem?_eq_none h3]

/-! ### Witnesses -/

/-- An uncompressed stream that is the whole file. -/
def wholeFile (bs : Bytes) : StreamReader := newStreamReader .none 100 0 bs.length bs

/-- **C80** is false for integers: seven bytes that claim to be a patched block make a bigint column panic (C27). -/
theorem ints_column_robust_false : ¬ (intRead .big).Robust := by
  intro h
  have := h growCodec .none false [(.data, wholeFile [0x80, 0, 0, 0x21, 0, 0, 0xe0])] _ none [.batch [⟨false, .nil⟩]]
    (by intro s hs; simp only [List.mem_singleton] at hs; subst hs; intro _; decide) rfl (by intro k hk; simp at hk)
  exact this.1 (by decide +kernel)

/-- **C80** is false for strings: a length of 2^63 makes the column panic. -/
theorem string_column_robust_false : ¬ stringRead.Robust := by
  intro h
  have := h growCodec .none false [(.data, wholeFile []), (.length, wholeFile [0x38, 0x80, 0, 0, 0, 0, 0, 0, 0])] _ none [.batch [⟨false, .nil⟩]]
    (by intro s hs; simp only [List.mem_cons, List.not_mem_nil, or_false] at hs; rcases hs with rfl | rfl <;> intro _ <;> decide) rfl (by intro k hk; simp at hk)
  exact this.1 (by decide +kernel)

/-- The streams of every file that can be opened are sane, whatever its postscript says. -/
theorem opened_streams_sane (E : Env) (file : Bytes) (r : FileReader) (h : newReader E file = .ok r) (start length : Nat) :
    (newStreamReader r.opts.kind r.opts.chunkSize start length file).Sane := by
  simp only [newReader] at h
  obtain ⟨t, h1, h2⟩ := Res.bind_ok_inv h
  cases t with
  | none => cases h2
  | some t =>
    simp only at h2
    split at h2
    · cases h2
    · obtain ⟨ts, h3, h4⟩ := Res.bind_ok_inv h2
      obtain ⟨ss, h5, h6⟩ := Res.bind_ok_inv h4
      cases h6
      intro hk
      simp only [newStreamReader] at hk ⊢
      rw [if_neg (by simp [hk])]
      decide

/-- An uncompressed stream read in chunks of no bytes would never end. -/
theorem insane_stream_hangs (c : Codec) (n fuel length : Nat) (file : Bytes) (hn : 0 < n) (hl : 0 < length) :
    (newStreamReader .none 0 0 length file).fill c n fuel = .hang := by
  have key : ∀ (r : StreamReader), r.kind = .none → r.chunkSize = 0 → r.buf = [] → r.readLength = 0 → r.length = length → r.fill c n fuel = .hang := by
    induction fuel with
    | zero =>
      intro r h1 h2 h3 h4 h5
      rw [StreamReader.fill, if_pos ⟨by rw [h3]; exact hn, by omega⟩]
    | succ fuel ih =>
      intro r h1 h2 h3 h4 h5
      rw [StreamReader.fill, if_pos ⟨by rw [h3]; exact hn, by omega⟩]
      simp only [StreamReader.readAChunk, h1, if_true, h2, h4, h3, Nat.zero_le, Nat.not_lt_zero, if_false, StreamReader.take, Res.ok_bind, Res.pure_eq,
        List.take_zero, List.append_nil, Nat.add_zero]
      exact ih _ rfl rfl rfl rfl h5
  exact key _ rfl rfl rfl rfl rfl

/-- What happens to damage: a tinyint column that ends in the middle of a run reports an error; -/
example : ∃ r, byteRead.openCol .none false [(.data, wholeFile [0xfd, 1, 2])] = some r ∧
    byteRead.roam growCodec r [.batch [⟨false, .nil⟩]] = .err .eof := ⟨_, rfl, by decide +kernel⟩

/-- two bytes of garbage are three equal values for it. -/
example : ∃ r, byteRead.openCol .none false [(.data, wholeFile [0, 9])] = some r ∧
    byteRead.roam growCodec r [.skip 2, .batch [⟨false, .nil⟩], .seek 0] = .ok [[⟨false, .u8 9⟩]] := ⟨_, rfl, by decide +kernel⟩

end Goorc
