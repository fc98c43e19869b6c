import Verif.Proofs.CallSize
/-
C123: how many bytes one call of a decoder reads.
-/
namespace Goorc
namespace CallSize

/-- Specification: a call of `d` that has `n` bytes at hand reads no more than these: whatever follows them, it ends in the same way, and
what it leaves is what it would have left, and what follows. -/
def Needs {α : Type} (d : Dec α) (n : Nat) : Prop :=
  ∀ s t : Bytes, n ≤ s.length →
    (∃ v rest, d.runBuf s = .ok (v, rest) ∧ d.runBuf (s ++ t) = .ok (v, rest ++ t) ∧ s.length ≤ rest.length + n) ∨
    (∃ e, d.runBuf s = .err e ∧ d.runBuf (s ++ t) = .err e) ∨ (d.runBuf s = .panic ∧ d.runBuf (s ++ t) = .panic)

theorem needs {α : Type} {d : Dec α} {n : Nat} {Q : α → Prop} (h : AtMost d n Q) : Needs d n := fun s t hs => h.run s t hs

/-- **C123** One call of a decoder never needs more than 129 bytes for bytes and booleans, 4356 for integers, ten for mantissas, four and eight
for floats and doubles. -/
theorem call_reads_bounded : Needs decodeByteRL 129 ∧ Needs decodeBools 129 ∧ Needs (decodeUInt false) 4356 ∧ Needs (decodeInt true) 4356 ∧
    Needs decodeVarInt64 10 ∧ Needs decodeFloat 4 ∧ Needs decodeDouble 8 := by
  have hr : ∀ {α : Type} (r : Res α), AtMost (Dec.ofRes r) 0 fun _ => True := fun r => by cases r <;> trivial
  refine ⟨needs bytes_most, needs (bytes_most.bind fun _ _ => (AtMost.ret _ trivial) : AtMost decodeBools (129 + 0) fun _ => True), ?_, ?_,
    needs varint_most, needs ((AtMost.full 4).bind fun _ _ => hr _ : AtMost decodeFloat (4 + 0) fun _ => True),
    needs ((AtMost.full 8).bind fun _ _ => hr _ : AtMost decodeDouble (8 + 0) fun _ => True)⟩
  · exact needs (Q := fun _ => True) (by simpa [decodeUInt] using raw_most false)
  · refine needs (Q := fun _ => True) ?_
    simp only [decodeInt, if_true]
    refine ((raw_most true).bind (m := 0) fun _ _ => ?_ : AtMost _ (4356 + 0) _)
    trivial

/-- 129 bytes are needed: 128 literals. -/
theorem byte_call_sharp : ¬ Needs decodeByteRL 128 := by
  intro h
  have hs := h (0x80 :: List.replicate 127 1) [1] (by simp)
  have e1 : decodeByteRL.runBuf (0x80 :: List.replicate 127 1) = .err .eof := by decide +kernel
  have e2 : decodeByteRL.runBuf (0x80 :: List.replicate 127 1 ++ [1]) = .ok (List.replicate 128 1, []) := by decide +kernel
  rw [e1, e2] at hs
  simp at hs

/-- Ten bytes are needed for the largest mantissas. -/
theorem varint_call_sharp : ¬ Needs decodeVarInt64 9 := by
  intro h
  have hs := h (List.replicate 9 0xff) [1] (by simp)
  have e1 : decodeVarInt64.runBuf (List.replicate 9 0xff) = .err .eof := by decide +kernel
  have e2 : decodeVarInt64.runBuf (List.replicate 9 0xff ++ [1]) = .ok (0x8000000000000000, []) := by decide +kernel
  rw [e1, e2] at hs
  simp at hs

end CallSize
end Goorc
