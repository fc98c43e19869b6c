import Verif.Props.EncScalar
/-
C121: floating point data that is read and written again keeps its bytes.
-/
namespace Goorc
namespace FloatCopy

theorem putBE32_be32 (a b c d : Byte) : putBE32 ((d.setWidth 32) ||| (c.setWidth 32 <<< 8) ||| (b.setWidth 32 <<< 16) ||| (a.setWidth 32 <<< 24)) = [a, b, c, d] := by
  simp only [putBE32, List.cons.injEq, and_true]
  refine ⟨?_, ?_, ?_, ?_⟩ <;> apply BitVec.eq_of_getLsbD_eq <;> intro i hi <;>
    rcases (by omega : i = 0 ∨ i = 1 ∨ i = 2 ∨ i = 3 ∨ i = 4 ∨ i = 5 ∨ i = 6 ∨ i = 7) with rfl | rfl | rfl | rfl | rfl | rfl | rfl | rfl <;> simp
theorem putLE64_le64 (a b c d e f g h : Byte) : putLE64 ((a.setWidth 64) ||| (b.setWidth 64 <<< 8) ||| (c.setWidth 64 <<< 16) |||
      (d.setWidth 64 <<< 24) ||| (e.setWidth 64 <<< 32) ||| (f.setWidth 64 <<< 40) |||
      (g.setWidth 64 <<< 48) ||| (h.setWidth 64 <<< 56)) = [a, b, c, d, e, f, g, h] := by
  simp only [putLE64, List.cons.injEq, and_true]
  refine ⟨?_, ?_, ?_, ?_, ?_, ?_, ?_, ?_⟩ <;> apply BitVec.eq_of_getLsbD_eq <;> intro i hi <;>
    rcases (by omega : i = 0 ∨ i = 1 ∨ i = 2 ∨ i = 3 ∨ i = 4 ∨ i = 5 ∨ i = 6 ∨ i = 7) with rfl | rfl | rfl | rfl | rfl | rfl | rfl | rfl <;> simp

/-- Values of `k` bytes, each written as the bytes it was read from. -/
theorem copy_of {α : Type} {d : Dec α} {put : α → Bytes} {k : Nat}
    (hok : ∀ s : Bytes, k ≤ s.length → ∃ v, d.runBuf s = .ok (v, s.drop k) ∧ put v = s.take k)
    (heof : ∀ s : Bytes, s.length < k → d.runBuf s = .err .eof) (n : Nat) : ∀ s : Bytes,
    (k * n ≤ s.length → ∃ vs rest, (decodeN d n).runBuf s = .ok (vs, rest) ∧ vs.length = n ∧ s = vs.flatMap put ++ rest) ∧
    (s.length < k * n → (decodeN d n).runBuf s = .err .eof) := by
  induction n with
  | zero => exact fun s => ⟨fun _ => ⟨[], s, by simp [decodeN], rfl, by simp⟩, fun h => by simp at h⟩
  | succ n ih =>
    intro s
    rw [Nat.mul_succ]
    by_cases hs : k ≤ s.length
    · obtain ⟨v, h1, h2⟩ := hok s hs
      obtain ⟨g1, g2⟩ := ih (s.drop k)
      rw [List.length_drop] at g1 g2
      constructor
      · intro h
        obtain ⟨vs, rest, e1, e2, e3⟩ := g1 (by omega)
        refine ⟨v :: vs, rest, ?_, by rw [List.length_cons, e2], ?_⟩
        · simp only [decodeN, Dec.runBuf_bind, h1, Res.ok_bind, e1, Dec.pure_eq, Dec.runBuf_ret]
        · rw [List.flatMap_cons, h2, List.append_assoc, ← e3, List.take_append_drop]
      · intro h
        simp only [decodeN, Dec.runBuf_bind, h1, Res.ok_bind, g2 (by omega)]
        rfl
    · refine ⟨fun h => by omega, fun _ => ?_⟩
      simp only [decodeN, Dec.runBuf_bind, heof s (by omega)]
      rfl

theorem float_one (s : Bytes) (h : 4 ≤ s.length) : ∃ v, decodeFloat.runBuf s = .ok (v, s.drop 4) ∧ putBE32 v = s.take 4 := by
  match s, h with
  | a :: b :: c :: d :: s, _ =>
    refine ⟨_, ?_, putBE32_be32 a b c d⟩
    simp only [decodeFloat, Dec.runBuf_bind, Dec.runBuf_full]
    rw [if_pos (by simp)]
    rfl

theorem double_one (s : Bytes) (h : 8 ≤ s.length) : ∃ v, decodeDouble.runBuf s = .ok (v, s.drop 8) ∧ putLE64 v = s.take 8 := by
  match s, h with
  | a :: b :: c :: d :: e :: f :: g :: h :: s, _ =>
    refine ⟨_, ?_, putLE64_le64 a b c d e f g h⟩
    simp only [decodeDouble, Dec.runBuf_bind, Dec.runBuf_full]
    rw [if_pos (by simp)]
    rfl

/-- **C121** From any bytes, `n` floats can be read exactly if there are `4 * n` bytes, and writing them again, with flushes anywhere, gives
the very bytes they were read from. With fewer bytes the end of the stream is reported. -/
theorem float_copy (n : Nat) (s : Bytes) :
    (4 * n ≤ s.length → ∃ vs rest, (decodeN decodeFloat n).runBuf s = .ok (vs, rest) ∧ vs.length = n ∧
      ∀ ops : List (Option (BitVec 32)), ops.filterMap id = vs →
        ∃ out, floatEnc.run () (scalarOps .f32 ops) = .ok ((), out) ∧ s = out ++ rest) ∧
    (s.length < 4 * n → (decodeN decodeFloat n).runBuf s = .err .eof) := by
  obtain ⟨h1, h2⟩ := copy_of float_one (fun s => (float_truncated s).1) n s
  refine ⟨fun h => ?_, h2⟩
  obtain ⟨vs, rest, e1, e2, e3⟩ := h1 h
  refine ⟨vs, rest, e1, e2, fun ops ho => ⟨_, stateless_run floatEnc floatEncode (fun _ _ => rfl) (fun _ => rfl) GoVal.f32 putBE32
    (fun _ => rfl) ops, ?_⟩⟩
  rw [ho]; exact e3

/-- **C121** The same for doubles, of eight bytes each. -/
theorem double_copy (n : Nat) (s : Bytes) :
    (8 * n ≤ s.length → ∃ vs rest, (decodeN decodeDouble n).runBuf s = .ok (vs, rest) ∧ vs.length = n ∧
      ∀ ops : List (Option (BitVec 64)), ops.filterMap id = vs →
        ∃ out, doubleEnc.run () (scalarOps .f64 ops) = .ok ((), out) ∧ s = out ++ rest) ∧
    (s.length < 8 * n → (decodeN decodeDouble n).runBuf s = .err .eof) := by
  obtain ⟨h1, h2⟩ := copy_of double_one (fun s => (float_truncated s).2) n s
  refine ⟨fun h => ?_, h2⟩
  obtain ⟨vs, rest, e1, e2, e3⟩ := h1 h
  refine ⟨vs, rest, e1, e2, fun ops ho => ⟨_, stateless_run doubleEnc doubleEncode (fun _ _ => rfl) (fun _ => rfl) GoVal.f64 putLE64
    (fun _ => rfl) ops, ?_⟩⟩
  rw [ho]; exact e3

/-- A signalling not-a-number and 1.0 in the byte order of other writers, with a byte left over. -/
example : (decodeN decodeFloat 2).runBuf [0x7f, 0x80, 0, 1, 0, 0, 0x80, 0x3f, 9] = .ok ([0x7f800001, 0x0000803f], [9]) ∧
    floatEnc.run () (scalarOps .f32 [some 0x7f800001, none, some 0x0000803f]) = .ok ((), [0x7f, 0x80, 0, 1, 0, 0, 0x80, 0x3f]) ∧
    (decodeN decodeFloat 3).runBuf [0x7f, 0x80, 0, 1, 0, 0, 0x80, 0x3f, 9] = .err .eof := by
  decide +kernel

end FloatCopy
end Goorc
