import Verif.Proofs.EncByte
/-
C01-C04: byte run-length encoding.
-/
namespace Goorc

/-- **C01** Every byte sequence, encoded and flushed, decodes to itself. -/
theorem byte_roundtrip (p : Bool) (vs : List Byte) :
    ∃ out, byteEnc.encodeFlush (newByteEncoder p) (vs.map .u8) = .ok out ∧
      decodeAll decodeByteRL out = .ok vs := by
  obtain ⟨e', out', pre', g1, g2, g3, g4, -⟩ :=
    (newByteEncoder p).run_spec (newByteEncoder_wf p) (vs.map some)
  obtain ⟨out2, k1, k2⟩ := e'.flush_spec g2
  have hm : (vs.map some).map byteOp = (vs.map GoVal.u8).map EncOp.encode := by
    simp [byteOp, Function.comp_def]
  refine ⟨out' ++ out2, ?_, ?_⟩
  · simp only [Enc.encodeFlush, Enc.run_append, ← hm, g1, Res.ok_bind]
    simp [Enc.run, Enc.step, byteEnc, k1]
  · have hv : vs = pre' ++ e'.values := by
      rw [← g3]; simp [newByteEncoder, List.filterMap_map]
    rw [hv]
    exact decodeAll_append_of_decodes g4 k2

/-- **C02** Any history of `Encode` (`some b`) and `Flush` (`none`) calls that ends in a `Flush`
decodes to all the bytes encoded, in order. -/
theorem byte_history_roundtrip (p : Bool) (ops : List (Option Byte)) :
    ∃ e out, byteEnc.run (newByteEncoder p) (ops.map byteOp ++ [.flush]) = .ok (e, out) ∧
      decodeAll decodeByteRL out = .ok (ops.filterMap id) := by
  obtain ⟨e', out', pre', g1, g2, g3, g4, -⟩ :=
    (newByteEncoder p).run_spec (newByteEncoder_wf p) ops
  obtain ⟨out2, k1, k2⟩ := e'.flush_spec g2
  refine ⟨{ e' with values := [] }, out' ++ out2, ?_, ?_⟩
  · rw [Enc.run_append, g1]
    simp [Enc.run, Enc.step, byteEnc, k1]
  · have hv : ops.filterMap id = pre' ++ e'.values := by
      rw [← g3]; simp [newByteEncoder]
    rw [hv]
    exact decodeAll_append_of_decodes g4 k2

/-- **C03** With positions enabled, after any history that ends in an `Encode`, `GetPosition` is a
single number `n` such that the bytes emitted so far hold all values but the last `n`, and whatever is
done afterwards, the bytes emitted later start with those `n` values: seeking to the current byte offset
and skipping `n` values lands after the last value encoded. -/
theorem byte_position_exact (ops : List (Option Byte)) (b : Byte) (later : List (Option Byte)) :
    ∃ e out e' out', byteEnc.run (newByteEncoder true) (ops.map byteOp ++ [.encode (.u8 b)]) = .ok (e, out) ∧
      byteEnc.run e (later.map byteOp ++ [.flush]) = .ok (e', out') ∧
      ∃ n before pending, byteEnc.getPosition e = [n] ∧ ops.filterMap id ++ [b] = before ++ pending ∧
        pending.length = n ∧ decodeAll decodeByteRL out = .ok before ∧
        decodeAll decodeByteRL out' = .ok (pending ++ later.filterMap id) := by
  obtain ⟨e1, out1, pre1, g1, g2, g3, g4, -, g6⟩ :=
    (newByteEncoder true).run_spec (newByteEncoder_wf true) ops
  obtain ⟨e2, out2, pre2, h1, h2, h3, h4, h5⟩ := e1.encode_spec g2 b
  obtain ⟨e3, out3, pre3, k1, k2, k3, k4, -⟩ := e2.run_spec h2 later
  obtain ⟨out4, f1, f2⟩ := e3.flush_spec k2
  refine ⟨e2, out1 ++ out2, { e3 with values := [] }, out3 ++ out4, ?_, ?_, ?_⟩
  · rw [Enc.run_append, g1]
    simp [Enc.run, Enc.step, byteEnc, h1]
  · rw [Enc.run_append, k1]
    simp [Enc.run, Enc.step, byteEnc, f1]
  · refine ⟨e2.values.length, pre1 ++ pre2, e2.values, ?_, ?_, rfl, ?_, ?_⟩
    · have : 0 ≤ e1.position := g6 (by simp [newByteEncoder])
      have hp : e2.position = (e2.values.length : Int) := by rw [h5, if_pos (by omega)]
      simp only [byteEnc, ByteEnc.getPosition, hp, intToU64]
      have := h2
      simp only [ByteEnc.WF] at this
      congr 1
      omega
    · rw [List.append_assoc, ← h3, ← List.append_assoc, ← g3]; simp [newByteEncoder]
    · exact decodeAll_append_of_decodes g4 h4
    · rw [k3]; exact decodeAll_append_of_decodes k4 f2

/-- **C04** On arbitrary input one `DecodeByteRL` call reports end of input or returns 1 to 130
values, having consumed a nonempty prefix; it never panics and never reports another error. -/
theorem decodeByteRL_total (s : Bytes) :
    decodeByteRL.runBuf s = .err .eof ∨
      ∃ vs used rest, decodeByteRL.runBuf s = .ok (vs, rest) ∧ s = used ++ rest ∧ 1 ≤ used.length ∧
        1 ≤ vs.length ∧ vs.length ≤ 130 := by
  have hread : ∀ n (s : Bytes), (readBytesN n).runBuf s = .err .eof ∨
      ∃ rest, (readBytesN n).runBuf s = .ok (s.take n, rest) ∧ s = s.take n ++ rest ∧
        (s.take n).length = n := by
    intro n
    induction n with
    | zero => intro s; right; exact ⟨s, by simp [readBytesN]⟩
    | succ n ih =>
      intro s
      cases s with
      | nil => left; simp [readBytesN]
      | cons b s =>
        rcases ih s with h | ⟨rest, h, h2, h3⟩
        · left; simp [readBytesN, h]
        · right; exact ⟨rest, by simp [readBytesN, h], by simpa using h2, by simpa using h3⟩
  cases s with
  | nil => left; simp [decodeByteRL]
  | cons c s =>
    simp only [decodeByteRL, Dec.runBuf_bind, Dec.runBuf_byte_cons, Res.ok_bind]
    by_cases hc : c.toNat < 0x80
    · simp only [hc, if_true]
      cases s with
      | nil => left; simp
      | cons v s =>
        right
        exact ⟨List.replicate (c.toNat + 3) v, [c, v], s, by simp [minRepeats], by simp, by simp,
          by simp, by simp; omega⟩
    · simp only [hc, if_false]
      have hn : 1 ≤ (-c.toInt).toNat ∧ (-c.toInt).toNat ≤ 128 := by
        rw [BitVec.toInt_eq_toNat_cond]
        have := c.isLt
        split <;> omega
      rcases hread (-c.toInt).toNat s with h | ⟨rest, h, h2, h3⟩
      · left; exact h
      · right
        exact ⟨_, c :: s.take (-c.toInt).toNat, rest, h, by simpa using h2, by simp, by omega, by omega⟩

/- Non-vacuity: a run, literals and a flush in the middle. -/
example : byteEnc.encodeFlush (newByteEncoder true) ([7, 7, 7, 7, 1, 2].map .u8) =
    .ok [1, 7, 0xfe, 1, 2] := by decide
example : byteEnc.run (newByteEncoder true) ([some 9, none, some 9].map byteOp) =
    .ok ({ position := 1, values := [9] }, [0xff, 9]) := by decide
example : decodeByteRL.runBuf [0x81, 1] = .err .eof := by decide

end Goorc
