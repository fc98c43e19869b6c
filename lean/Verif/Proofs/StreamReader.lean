import Verif.Model.StreamReader
import Verif.Proofs.Chunk
import Verif.Proofs.Dec
import Verif.Proofs.IntHistory
namespace Goorc

/-- `rest` (what follows in the file), of which `remaining` bytes belong to the stream, stands for `ahead`. -/
def Feed (c : Codec) (kind : CompKind) (size : Nat) (rest : Bytes) (remaining : Nat) (ahead : Bytes) : Prop :=
  match kind with
  | .none => 1 ≤ size ∧ (∃ tail, rest = ahead ++ tail) ∧ remaining = ahead.length
  | .zlib => ∃ cs tail, (∀ ch ∈ cs, ChunkSpec.Good c size ch) ∧ rest = chunkBytes cs ++ tail ∧
      remaining = (chunkBytes cs).length ∧ ahead = chunkPlain cs
  | .other => False

/-- The reader still has to deliver exactly `flat`. -/
def StreamReader.Represents (c : Codec) (r : StreamReader) (flat : Bytes) : Prop :=
  ∃ ahead, flat = r.buf ++ ahead ∧ r.readLength ≤ r.length ∧
    Feed c r.kind r.chunkSize (r.file.drop r.pos) (r.length - r.readLength) ahead

/-- Same stream, perhaps at another place. -/
def StreamReader.Same (r r' : StreamReader) : Prop :=
  r'.kind = r.kind ∧ r'.chunkSize = r.chunkSize ∧ r'.start = r.start ∧ r'.length = r.length ∧ r'.file = r.file

theorem StreamReader.Same.refl (r : StreamReader) : r.Same r := ⟨rfl, rfl, rfl, rfl, rfl⟩
theorem StreamReader.Same.trans {r r' r'' : StreamReader} (h : r.Same r') (h' : r'.Same r'') : r.Same r'' := by
  obtain ⟨a, b, c, d, e⟩ := h
  obtain ⟨a', b', c', d', e'⟩ := h'
  exact ⟨a'.trans a, b'.trans b, c'.trans c, d'.trans d, e'.trans e⟩

theorem Feed.zero {c : Codec} {kind : CompKind} {size : Nat} {rest ahead : Bytes} (h : Feed c kind size rest 0 ahead) : ahead = [] := by
  cases kind with
  | none => exact List.length_eq_zero_iff.mp h.2.2.symm
  | zlib =>
    obtain ⟨cs, tail, -, -, h3, h4⟩ := h
    cases cs with
    | nil => exact h4
    | cons ch cs => simp [chunkBytes, ChunkSpec.bytes, threeBytes] at h3
  | other => exact h.elim

/-- A chunk can be read as long as something of the stream is left. -/
theorem readAChunk_spec (c : Codec) (r : StreamReader) (flat : Bytes) (h : r.Represents c flat) (hl : r.readLength < r.length) :
    ∃ r' piece, r.readAChunk c = .ok r' ∧ piece ≠ [] ∧ r'.buf = r.buf ++ piece ∧ r'.Represents c flat ∧
      r.readLength < r'.readLength ∧ r.Same r' := by
  obtain ⟨ahead, h1, h2, h3⟩ := h
  have hsplit : r.kind = .none ∨ r.kind = .zlib := by
    cases hk : r.kind
    · exact .inl rfl
    · exact .inr rfl
    · rw [hk] at h3; exact h3.elim
  rcases hsplit with hk | hk
  · rw [hk] at h3
    obtain ⟨g1, ⟨tail, g2⟩, g3⟩ := h3
    obtain ⟨l, hl'⟩ : ∃ l, l = (if r.length - r.readLength < r.chunkSize then r.length - r.readLength else r.chunkSize) := ⟨_, rfl⟩
    have hl1 : 1 ≤ l := by rw [hl']; split <;> omega
    have hl2 : l ≤ ahead.length := by rw [hl']; split <;> omega
    refine ⟨{ r with pos := r.pos + l, buf := r.buf ++ ahead.take l, readLength := r.readLength + l }, ahead.take l, ?_, ?_, rfl, ?_,
      by show r.readLength < r.readLength + l; omega, ⟨rfl, rfl, rfl, rfl, rfl⟩⟩
    · simp only [StreamReader.readAChunk, if_pos hk, if_pos h2, ← hl', StreamReader.take]
      rw [if_neg (by rw [g2, List.length_append]; omega)]
      simp only [Res.ok_bind, Res.pure_eq, g2]
      rw [List.take_append_of_le_length hl2]
    · intro hnil
      have := congrArg List.length hnil
      rw [List.length_take, List.length_nil] at this
      omega
    · refine ⟨ahead.drop l, ?_, by simp only; omega, ?_⟩
      · rw [h1]; simp only [List.append_assoc, List.take_append_drop]
      · simp only [hk]
        refine ⟨g1, ⟨tail, ?_⟩, by rw [List.length_drop]; omega⟩
        rw [← List.drop_drop, g2, List.drop_append_of_le_length hl2]
  · rw [hk] at h3
    obtain ⟨cs, tail, g1, g2, g3, g4⟩ := h3
    cases cs with
    | nil => simp [chunkBytes] at g3; omega
    | cons ch cs =>
      obtain ⟨k1, k2, k3, k4, k5⟩ := g1 ch (by simp)
      have hb : chunkBytes (ch :: cs) = threeBytes (2 * ch.stored.length + ch.original.toNat) ++ (ch.stored ++ chunkBytes cs) := by
        simp [chunkBytes, ChunkSpec.bytes]
      have hblen : (chunkBytes (ch :: cs)).length = 3 + ch.stored.length + (chunkBytes cs).length := by
        rw [hb]; simp [threeBytes]; omega
      have hd3 : r.file.drop (r.pos + 3) = ch.stored ++ (chunkBytes cs ++ tail) := by
        rw [← List.drop_drop, g2, hb]; simp [threeBytes]
      have hdl : r.file.drop (r.pos + 3 + ch.stored.length) = chunkBytes cs ++ tail := by
        rw [← List.drop_drop, hd3, List.drop_left]
      refine ⟨{ r with pos := r.pos + 3 + ch.stored.length, buf := r.buf ++ ch.plain, readLength := r.readLength + 3 + ch.stored.length },
        ch.plain, ?_, k4, rfl, ?_, by simp only; omega, ⟨rfl, rfl, rfl, rfl, rfl⟩⟩
      · have hkn : ¬ r.kind = .none := by rw [hk]; decide
        simp only [StreamReader.readAChunk, if_neg hkn, StreamReader.take]
        rw [if_neg (by rw [g2, List.length_append, hblen]; omega)]
        have htake : (r.file.drop r.pos).take 3 = threeBytes (2 * ch.stored.length + ch.original.toNat) := by
          rw [g2, hb, List.append_assoc]
          exact List.take_left' rfl
        simp only [Res.ok_bind, htake, threeBytes, List.getD_cons_zero, List.getD_cons_succ, decChunkHeader_spec _ _ k2]
        rw [if_neg (by omega), hd3, if_neg (by simp), List.take_left]
        simp only [Res.ok_bind]
        cases ho : ch.original
        · rw [ho] at k5
          simp only [Bool.false_eq_true, if_false] at k5 ⊢
          simp only [hk, decompress, k5, Res.ok_bind, Res.pure_eq]
        · rw [ho] at k5
          simp only [if_true] at k5 ⊢
          simp only [Res.pure_eq, Res.ok_bind, k5]
      · refine ⟨chunkPlain cs, ?_, by simp only; omega, ?_⟩
        · rw [h1, g4]; simp [chunkPlain]
        · simp only [hk]
          refine ⟨cs, tail, fun ch' h' => g1 ch' (by simp [h']), hdl, by omega, rfl⟩

theorem Represents.done {c : Codec} {r : StreamReader} {flat : Bytes} (h : r.Represents c flat) (hl : r.length ≤ r.readLength) :
    flat = r.buf := by
  obtain ⟨ahead, h1, h2, h3⟩ := h
  rw [Nat.sub_eq_zero_of_le hl] at h3
  rw [h1, h3.zero, List.append_nil]

theorem Represents.drop {c : Codec} {r : StreamReader} {flat : Bytes} (h : r.Represents c flat) (n : Nat) (hn : n ≤ r.buf.length) :
    ({ r with buf := r.buf.drop n } : StreamReader).Represents c (flat.drop n) ∧ flat.take n = r.buf.take n := by
  obtain ⟨ahead, h1, h2, h3⟩ := h
  exact ⟨⟨ahead, by rw [h1, List.drop_append_of_le_length hn], h2, h3⟩, by rw [h1, List.take_append_of_le_length hn]⟩

theorem readByte_spec (c : Codec) (r : StreamReader) (flat : Bytes) (h : r.Represents c flat) :
    (flat = [] ∧ r.readByte c = .err .eof) ∨
    ∃ b flat' r', flat = b :: flat' ∧ r.readByte c = .ok (b, r') ∧ r'.Represents c flat' ∧ r.Same r' := by
  have key : ∀ r : StreamReader, r.Represents c flat → r.buf ≠ [] → ∃ b bs, r.buf = b :: bs ∧ ∃ flat', flat = b :: flat' ∧
      ({ r with buf := bs } : StreamReader).Represents c flat' := by
    intro r h hb
    cases hbuf : r.buf with
    | nil => exact absurd hbuf hb
    | cons b bs =>
      obtain ⟨ahead, h1, h2, h3⟩ := h
      rw [hbuf, List.cons_append] at h1
      exact ⟨b, bs, rfl, bs ++ ahead, h1, ahead, rfl, h2, h3⟩
  by_cases hb : r.buf = []
  · by_cases hl : r.length ≤ r.readLength
    · left
      refine ⟨by rw [Represents.done h hl, hb], ?_⟩
      simp only [StreamReader.readByte, hb]
      rw [if_pos hl]
    · right
      obtain ⟨r1, piece, g1, g2, g3, g4, g5, g6⟩ := readAChunk_spec c r flat h (by omega)
      obtain ⟨b, bs, k1, flat', k2, k3⟩ := key r1 g4 (by rw [g3, hb]; simpa using g2)
      refine ⟨b, flat', _, k2, ?_, k3, g6⟩
      simp only [StreamReader.readByte, hb]
      rw [if_neg hl, g1]
      simp only [Res.ok_bind, k1]
  · right
    obtain ⟨b, bs, k1, flat', k2, k3⟩ := key r h hb
    refine ⟨b, flat', _, k2, ?_, k3, StreamReader.Same.refl r⟩
    simp only [StreamReader.readByte, k1]

theorem fill_spec (c : Codec) (n : Nat) (fuel : Nat) (r : StreamReader) (flat : Bytes) (h : r.Represents c flat)
    (hf : r.length - r.readLength ≤ fuel) :
    ∃ r', r.fill c n fuel = .ok r' ∧ r'.Represents c flat ∧ r.Same r' ∧ (n ≤ r'.buf.length ∨ r'.buf = flat) := by
  induction fuel generalizing r with
  | zero =>
    refine ⟨r, ?_, h, StreamReader.Same.refl r, .inr (Represents.done h (by omega)).symm⟩
    rw [StreamReader.fill]
    rw [if_neg (by omega)]
  | succ fuel ih =>
    by_cases hc : r.buf.length < n ∧ r.readLength < r.length
    · obtain ⟨r1, piece, g1, g2, g3, g4, g5, g6⟩ := readAChunk_spec c r flat h hc.2
      obtain ⟨r2, k1, k2, k3, k4⟩ := ih r1 g4 (by
        obtain ⟨-, -, -, hlen, -⟩ := g6
        rw [hlen]; omega)
      refine ⟨r2, ?_, k2, g6.trans k3, k4⟩
      rw [StreamReader.fill]
      simp only [if_pos hc, g1, Res.ok_bind, k1]
    · refine ⟨r, ?_, h, StreamReader.Same.refl r, ?_⟩
      · rw [StreamReader.fill]; simp only [if_neg hc]
      · by_cases hn : n ≤ r.buf.length
        · exact .inl hn
        · exact .inr (Represents.done h (by omega)).symm

theorem readFull_spec (c : Codec) (n : Nat) (r : StreamReader) (flat : Bytes) (h : r.Represents c flat) :
    (flat.length < n ∧ ∃ e, r.readFull c n = .err e) ∨
    (n ≤ flat.length ∧ ∃ r', r.readFull c n = .ok (flat.take n, r') ∧ r'.Represents c (flat.drop n) ∧ r.Same r') := by
  have hbl : r.buf.length ≤ flat.length := by
    obtain ⟨ahead, h1, -⟩ := h; rw [h1, List.length_append]; omega
  simp only [StreamReader.readFull]
  by_cases h0 : n = 0
  · subst h0
    right
    exact ⟨by omega, r, by simp, by simpa using h, StreamReader.Same.refl r⟩
  · rw [if_neg h0]
    by_cases h1 : r.buf.length ≥ n
    · rw [if_pos h1]
      right
      obtain ⟨k1, k2⟩ := Represents.drop h n h1
      exact ⟨by omega, _, by rw [k2], k1, ⟨rfl, rfl, rfl, rfl, rfl⟩⟩
    · rw [if_neg h1]
      by_cases h2 : r.readLength ≥ r.length
      · rw [if_pos h2]
        left
        rw [Represents.done h h2]
        exact ⟨by omega, _, rfl⟩
      · rw [if_neg h2]
        obtain ⟨r', g1, g2, g3, g4⟩ := fill_spec c n _ r flat h (Nat.le_refl _)
        rw [g1]
        simp only [Res.ok_bind]
        by_cases h3 : r'.buf.length ≥ n
        · rw [if_pos h3]
          right
          obtain ⟨k1, k2⟩ := Represents.drop g2 n h3
          have : r'.buf.length ≤ flat.length := by
            obtain ⟨ahead, h1, -⟩ := g2; rw [h1, List.length_append]; omega
          exact ⟨by omega, _, by rw [k2], k1, ⟨g3.1, g3.2.1, g3.2.2.1, g3.2.2.2.1, g3.2.2.2.2⟩⟩
        · rw [if_neg h3]
          left
          have hfl : r'.buf = flat := by
            rcases g4 with g4 | g4
            · omega
            · exact g4
          refine ⟨by rw [← hfl]; omega, ?_⟩
          split <;> exact ⟨_, rfl⟩

/-- Every decoder behaves on the stream as on a buffer holding the bytes the stream stands for. -/
theorem runStream_sim {α : Type} (c : Codec) (d : Dec α) (r : StreamReader) (flat : Bytes) (h : r.Represents c flat) :
    match d.runBuf flat with
    | .ok (a, rest) => ∃ r', d.runStream c r = .ok (a, r') ∧ r'.Represents c rest ∧ r.Same r'
    | .err _ => ∃ e, d.runStream c r = .err e
    | .panic => d.runStream c r = .panic
    | .hang => d.runStream c r = .hang := by
  induction d generalizing r flat with
  | ret a => exact ⟨r, rfl, h, StreamReader.Same.refl r⟩
  | fail e => exact ⟨e, rfl⟩
  | crash => rfl
  | readByte k ih =>
    rcases readByte_spec c r flat h with ⟨rfl, h1⟩ | ⟨b, flat', r', rfl, h1, h2, h3⟩
    · exact ⟨.eof, by simp only [Dec.runStream, h1]; rfl⟩
    · simp only [Dec.runBuf, Dec.runStream, h1, Res.ok_bind]
      have := ih b r' flat' h2
      cases hrun : (k b).runBuf flat' with
      | ok p =>
        obtain ⟨a, rest⟩ := p
        rw [hrun] at this
        obtain ⟨r'', k1, k2, k3⟩ := this
        exact ⟨r'', k1, k2, h3.trans k3⟩
      | err e => rw [hrun] at this; exact this
      | panic => rw [hrun] at this; exact this
      | hang => rw [hrun] at this; exact this
  | readFull n k ih =>
    rcases readFull_spec c n r flat h with ⟨hn, e, h1⟩ | ⟨hn, r', h1, h2, h3⟩
    · simp only [Dec.runBuf, if_neg (show ¬ n ≤ flat.length by omega)]
      exact ⟨e, by simp only [Dec.runStream, h1]; rfl⟩
    · simp only [Dec.runBuf, if_pos hn, Dec.runStream, h1, Res.ok_bind]
      have := ih (flat.take n) r' (flat.drop n) h2
      cases hrun : (k (flat.take n)).runBuf (flat.drop n) with
      | ok p =>
        obtain ⟨a, rest⟩ := p
        rw [hrun] at this
        obtain ⟨r'', k1, k2, k3⟩ := this
        exact ⟨r'', k1, k2, h3.trans k3⟩
      | err e => rw [hrun] at this; exact this
      | panic => rw [hrun] at this; exact this
      | hang => rw [hrun] at this; exact this

theorem runStream_ok {α : Type} (c : Codec) (d : Dec α) (r : StreamReader) (flat : Bytes) (h : r.Represents c flat) (a : α)
    (rest : Bytes) (hr : d.runBuf flat = .ok (a, rest)) :
    ∃ r', d.runStream c r = .ok (a, r') ∧ r'.Represents c rest ∧ r.Same r' := by
  have := runStream_sim c d r flat h
  rw [hr] at this
  exact this

/-- The end is reported exactly when everything has been delivered. -/
theorem finished_iff (c : Codec) (r : StreamReader) (flat : Bytes) (h : r.Represents c flat) :
    r.finished = true ↔ flat = [] := by
  simp only [StreamReader.finished, Bool.and_eq_true, decide_eq_true_eq, List.isEmpty_iff]
  constructor
  · rintro ⟨h1, h2⟩; rw [Represents.done h h1, h2]
  · rintro rfl
    obtain ⟨ahead, h1, h2, h3⟩ := h
    have hb := List.append_eq_nil_iff.mp h1.symm
    refine ⟨?_, hb.1⟩
    apply Classical.byContradiction
    intro hlt
    have hh : r.Represents c [] := ⟨ahead, h1, h2, h3⟩
    obtain ⟨r', piece, g1, g2, g3, g4, -⟩ := readAChunk_spec c r [] hh (by omega)
    obtain ⟨ahead', k1, -⟩ := g4
    have := List.append_eq_nil_iff.mp k1.symm
    rw [g3] at this
    exact g2 (List.append_eq_nil_iff.mp this.1).2

/-- A fresh reader on the right part of a file. -/
theorem newStreamReader_represents (c : Codec) (kind : CompKind) (size : Nat) (pre body post : Bytes) (flat : Bytes)
    (h : Feed c kind size (body ++ post) body.length flat) :
    (newStreamReader kind size pre.length body.length (pre ++ body ++ post)).Represents c flat := by
  refine ⟨flat, rfl, Nat.zero_le _, ?_⟩
  simp only [newStreamReader, List.append_assoc, List.drop_left, Nat.sub_zero]
  exact h

end Goorc
