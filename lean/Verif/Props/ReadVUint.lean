import Verif.Proofs.ReadVUint
/-
C112: `ReadVUint`.
-/
namespace Goorc

/-- **C112** Exactly what `ReadVUint` returns, for every `io.ByteReader`: it ends with the first byte below 0x80, with the
number all bytes stand for modulo `2^64` and the error of that last call alone. -/
theorem readVUint_exact (s : ByteCalls) (k : Nat) (hc : ∀ j, j < k → 0x80 ≤ (s j).1.toNat) (hk : (s k).1.toNat < 0x80) (fuel : Nat)
    (hf : k < fuel) : readVUint s fuel = .ok (BitVec.ofNat 64 (base128 (s.bytes (k + 1))), (s k).2, k + 1) :=
  readVUintLoop_exact s k 0 fuel (Nat.zero_le _) (fun j _ h => hc j h) hk (by omega)

/-- **C112** `ReadVUint` never returns iff no byte is below 0x80, whatever errors are reported. -/
theorem readVUint_hangs_iff (s : ByteCalls) : (∀ fuel, readVUint s fuel = .hang) ↔ ∀ j, 0x80 ≤ (s j).1.toNat := by
  constructor
  · intro h j
    induction j using Nat.strongRecOn with
    | ind j ih =>
      by_cases hj : 0x80 ≤ (s j).1.toNat
      · exact hj
      · have := readVUint_exact s j ih (by omega) (j + 1) (by omega)
        rw [h] at this
        simp at this
  · intro h fuel
    exact readVUintLoop_hang s fuel 0 0 fun j _ _ => h j

/-- **C112 refuted** A reader that reports the end of its input with every call, and a byte `io.ByteReader` allows: `ReadVUint`
does not return. -/
theorem readVUint_hangs : ∃ s : ByteCalls, (∀ j, (s j).2 = some .eof) ∧ ∀ fuel, readVUint s fuel = .hang :=
  ⟨fun _ => (0xff#8, some .eof), fun _ => rfl, (readVUint_hangs_iff _).mpr fun _ => by decide⟩

/-- **C112 refuted** An error in the middle of the number is not reported. -/
theorem readVUint_swallows : ∃ s : ByteCalls, (s 1).2 = some .other ∧ readVUint s 3 = .ok (0x4001#64, none, 3) :=
  ⟨fun j => if j = 1 then (0x80#8, some .other) else if j = 0 then (0x81#8, none) else (1#8, none), rfl, by decide +kernel⟩

/-- **C112** Where `binary.ReadUvarint` reads a number from a buffer, `ReadVUint` reads the same one from the same bytes. -/
theorem readVUint_agrees (x rest : Bytes) (v : U64) (h : readUvarint.runBuf x = .ok (v, rest)) (fuel : Nat) (hf : 10 ≤ fuel) :
    readVUint (bufferCalls x) fuel = .ok (v, none, x.length - rest.length) :=
  (readVUintLoop_agrees x 10 0 0 v rest [] rfl h fuel hf).1

/-- **C112** What was written for any `uint64` is read back, whatever follows, and nothing behind it is read. -/
theorem readVUint_roundtrip (v : U64) (rest : Bytes) (fuel : Nat) (hf : 10 ≤ fuel) :
    ∃ w, putUvarint 10 v = .ok w ∧ readVUint (bufferCalls (w ++ rest)) fuel = .ok (v, none, w.length) := by
  refine ⟨_, putUvarint10 v, ?_⟩
  have := readVUint_agrees _ rest v (readUvarint_uvarintBytes v rest) fuel hf
  rw [this]
  simp

example : putUvarint 10 300#64 = .ok [0xac#8, 0x02#8] ∧ readVUint (bufferCalls [0xac#8, 0x02#8, 0xff#8]) 10 = .ok (300#64, none, 2) := by
  decide +kernel

/-- **C112** A number that is cut is reported as the end of the input, when read from a buffer; what was there of it is
returned with the error. -/
theorem readVUint_truncated (x : Bytes) (hx : ∀ b ∈ x, 0x80 ≤ b.toNat) (fuel : Nat) (hf : x.length < fuel) :
    readVUint (bufferCalls x) fuel = .ok (BitVec.ofNat 64 (base128 x), some .eof, x.length + 1) := by
  have he : bufferCalls x x.length = (0, some .eof) := by simp [bufferCalls]
  have hb : (bufferCalls x).bytes x.length = x := by
    refine List.ext_getElem (bytes_length _ _) fun j h1 h2 => ?_
    simp [ByteCalls.bytes, bufferCalls, List.getElem?_eq_getElem h2]
  rw [readVUint_exact (bufferCalls x) x.length ?_ ?_ fuel hf, bytes_succ, hb, he, base128_append]
  · simp
  · intro j hj
    simp only [bufferCalls, List.getElem?_eq_getElem hj]
    exact hx _ (List.getElem_mem hj)
  · rw [he]; decide

example : readVUint (bufferCalls [0xac#8, 0x80#8]) 3 = .ok (0x2c#64, some .eof, 3) :=
  readVUint_truncated _ (by decide) 3 (by decide)

/-- **C112** `ReadVUint` returns if some byte is below 0x80, after no more calls than there are up to that one. -/
theorem readVUint_returns (s : ByteCalls) (n : Nat) (hn : (s n).1.toNat < 0x80) (fuel : Nat) (hf : n < fuel) :
    ∃ r err k, readVUint s fuel = .ok (r, err, k) ∧ k ≤ n + 1 := by
  have hex : ∀ n, (s n).1.toNat < 0x80 → ∃ k, k ≤ n ∧ (∀ j, j < k → 0x80 ≤ (s j).1.toNat) ∧ (s k).1.toNat < 0x80 := by
    intro n
    induction n using Nat.strongRecOn with
    | ind n ih =>
      intro hn
      by_cases h : ∀ j, j < n → 0x80 ≤ (s j).1.toNat
      · exact ⟨n, Nat.le_refl _, h, hn⟩
      · obtain ⟨j, hj⟩ := Classical.not_forall.mp h
        obtain ⟨h1, h2⟩ := Classical.not_imp.mp hj
        obtain ⟨k, k1, k2⟩ := ih j h1 (by omega)
        exact ⟨k, by omega, k2⟩
  obtain ⟨k, h1, h2, h3⟩ := hex n hn
  exact ⟨_, _, _, readVUint_exact s k h2 h3 fuel (by omega), by omega⟩

/-- From a buffer it always does. -/
example (x : Bytes) : ∃ r err k, readVUint (bufferCalls x) (x.length + 1) = .ok (r, err, k) ∧ k ≤ x.length + 1 :=
  readVUint_returns _ x.length (by simp [bufferCalls]) _ (Nat.lt_succ_self _)

/-- **C112 refuted** Numbers that do not fit 64 bits: `binary.ReadUvarint` reports an error, `ReadVUint` returns the low bits of
the number. -/
theorem readVUint_overflows : ∃ x : Bytes, 2 ^ 64 ≤ base128 x ∧ readUvarint.runBuf x = .err .other ∧
    readVUint (bufferCalls x) 12 = .ok (1#64, none, 11) :=
  ⟨[0x81#8, 0x80#8, 0x80#8, 0x80#8, 0x80#8, 0x80#8, 0x80#8, 0x80#8, 0x80#8, 0x80#8, 0x01#8], by decide +kernel, by decide +kernel, by decide +kernel⟩

end Goorc
