import Verif.Proofs.EncScalar
import Verif.Spec.Bytes
/-
C09 varints, C10 floats and doubles, C11 string contents, C65 byte order of floats.
-/
namespace Goorc

/-- Calls made on a scalar encoder: `some a` is `Encode`, `none` is `Flush`. -/
def scalarOps {α : Type} (inj : α → GoVal) (ops : List (Option α)) : List EncOp :=
  ops.map fun o => match o with | some a => .encode (inj a) | none => .flush

/-- **C09** Any history of `Encode` and `Flush` calls of the varint encoder succeeds and reads back,
value by value, as the mantissas encoded, whatever follows in the stream. -/
theorem varint_roundtrip (ops : List (Option U64)) (rest : Bytes) :
    ∃ out, varintEnc.run () (scalarOps .i64 ops) = .ok ((), out) ∧
      (decodeN decodeVarInt64 (ops.filterMap id).length).runBuf (out ++ rest) =
        .ok (ops.filterMap id, rest) := by
  refine ⟨_, stateless_run varintEnc varintEncode (fun _ _ => rfl) (fun _ => rfl) GoVal.i64
    (fun v => uvarintBytes 9 (zigzag v)) varintEncode_i64 ops, ?_⟩
  exact decodeN_flatMap _ _ (fun v rest => readVarint_zigzag v rest) _ rest

/-- **C09** Every mantissa takes one to ten bytes, and exactly as many 7-bit groups as its zigzag
form needs. -/
theorem varint_length (v : U64) : ∃ out, varintEncode (.i64 v) = .ok out ∧ 1 ≤ out.length ∧
    out.length ≤ 10 ∧ ∀ k, k < 9 → (out.length ≤ k + 1 ↔ (zigzag v).toNat < 2 ^ (7 * (k + 1))) := by
  refine ⟨_, varintEncode_i64 v, uvarintBytes_length_pos _ _, uvarintBytes_length _ _, ?_⟩
  intro k hk
  rw [uvarintBytes_length_le_iff 9 k (by omega)]
  constructor
  · rintro (h | h)
    · exact h
    · omega
  · exact Or.inl

/-- Only int64 values can be handed to the varint encoder: anything else panics. -/
theorem varint_type (v : GoVal) : varintEncode v = .panic ↔ ∀ x, v ≠ .i64 x := by
  cases v <;> simp [varintEncode_i64] <;> simp [varintEncode]

example : varintEnc.run () (scalarOps .i64 [some 300, none, some (BitVec.ofInt 64 (-1))]) =
    .ok ((), [0xd8, 0x04, 0x01]) := by decide

/-- **C10** Every float32 bit pattern, in any history of `Encode` and `Flush`, reads back unchanged. -/
theorem float_roundtrip (ops : List (Option (BitVec 32))) (rest : Bytes) :
    ∃ out, floatEnc.run () (scalarOps .f32 ops) = .ok ((), out) ∧
      (decodeN decodeFloat (ops.filterMap id).length).runBuf (out ++ rest) =
        .ok (ops.filterMap id, rest) :=
  ⟨_, stateless_run floatEnc floatEncode (fun _ _ => rfl) (fun _ => rfl) GoVal.f32 putBE32
    (fun _ => rfl) ops, decodeN_flatMap _ _ (fun v rest => decodeFloat_put v rest) _ rest⟩

/-- **C10** Every float64 bit pattern reads back unchanged. -/
theorem double_roundtrip (ops : List (Option (BitVec 64))) (rest : Bytes) :
    ∃ out, doubleEnc.run () (scalarOps .f64 ops) = .ok ((), out) ∧
      (decodeN decodeDouble (ops.filterMap id).length).runBuf (out ++ rest) =
        .ok (ops.filterMap id, rest) :=
  ⟨_, stateless_run doubleEnc doubleEncode (fun _ _ => rfl) (fun _ => rfl) GoVal.f64 putLE64
    (fun _ => rfl) ops, decodeN_flatMap _ _ (fun v rest => decodeDouble_put v rest) _ rest⟩

/-- A wrong dynamic type is an error, and only that. -/
theorem float_type (v : GoVal) : (floatEncode v = .err .other ↔ ∀ x, v ≠ .f32 x) ∧
    (doubleEncode v = .err .other ↔ ∀ x, v ≠ .f64 x) := by
  cases v <;> simp [floatEncode, doubleEncode]

/-- A truncated float or double is an error. -/
theorem float_truncated (s : Bytes) : (s.length < 4 → decodeFloat.runBuf s = .err .eof) ∧
    (s.length < 8 → decodeDouble.runBuf s = .err .eof) := by
  constructor <;> intro h
  · simp only [decodeFloat, Dec.runBuf_bind, Dec.runBuf_full]; rw [if_neg (by omega)]; rfl
  · simp only [decodeDouble, Dec.runBuf_bind, Dec.runBuf_full]; rw [if_neg (by omega)]; rfl

example : floatEnc.run () (scalarOps .f32 [some 0x7fc00001#32]) = .ok ((), [0x7f, 0xc0, 0, 1]) := by decide
example : doubleEnc.run () (scalarOps .f64 [some 0x8000000000000000#64]) =
    .ok ((), [0, 0, 0, 0, 0, 0, 0, 0x80]) := by decide

/-- **C11** Strings written one after the other, with flushes anywhere, read back by their lengths. -/
theorem string_roundtrip (ops : List (Option Bytes)) (rest : Bytes) :
    ∃ out, stringEnc.run () (scalarOps .bytes ops) = .ok ((), out) ∧
      (decodeStrings ((ops.filterMap id).map List.length)).runBuf (out ++ rest) =
        .ok (ops.filterMap id, rest) := by
  refine ⟨_, stateless_run stringEnc stringEncode (fun _ _ => rfl) (fun _ => rfl) GoVal.bytes id
    (fun _ => rfl) ops, ?_⟩
  generalize ops.filterMap id = vs
  induction vs with
  | nil => simp [decodeStrings]
  | cons v vs ih =>
    simp only [List.map_cons, decodeStrings, decodeBytes, List.flatMap_cons, id_eq, List.append_assoc,
      Dec.runBuf_bind, Dec.runBuf_full_append v.length v _ rfl, Res.ok_bind]
    rw [ih]; rfl

/-- **C11** Asking for more bytes than remain is an error; otherwise exactly that many are returned. -/
theorem string_read_exact (n : Nat) (s : Bytes) :
    (s.length < n → (decodeBytes n).runBuf s = .err .eof) ∧
    (n ≤ s.length → ∃ v rest, (decodeBytes n).runBuf s = .ok (v, rest) ∧ v.length = n ∧ s = v ++ rest) := by
  constructor
  · intro h; rw [decodeBytes, Dec.runBuf_full, if_neg (by omega)]
  · intro h
    exact ⟨s.take n, s.drop n, by rw [decodeBytes, Dec.runBuf_full, if_pos h], by simp; omega, by simp⟩

example : stringEnc.run () (scalarOps .bytes [some [1, 2], some [], none, some [3]]) = .ok ((), [1, 2, 3]) := by
  decide

/-- **C65** (partial) Doubles are stored least significant byte first, as ORC prescribes.
Missing: floats, which are stored the other way round (`float_littleEndian_false`). -/
theorem double_littleEndian_partial (v : BitVec 64) :
    ∃ out, doubleEncode (.f64 v) = .ok out ∧ out.length = 8 ∧ littleEndian out = v.toNat := by
  refine ⟨_, rfl, rfl, ?_⟩
  simp only [putLE64, littleEndian, BitVec.toNat_setWidth, BitVec.toNat_ushiftRight, Nat.shiftRight_eq_div_pow]
  have := v.isLt
  omega

/-- **C65** What floats do: most significant byte first. -/
theorem float_bigEndian (v : BitVec 32) :
    ∃ out, floatEncode (.f32 v) = .ok out ∧ out.length = 4 ∧ littleEndian out.reverse = v.toNat := by
  refine ⟨_, rfl, rfl, ?_⟩
  simp only [putBE32, List.reverse_cons, List.reverse_nil, List.nil_append, List.cons_append,
    littleEndian, BitVec.toNat_setWidth, BitVec.toNat_ushiftRight, Nat.shiftRight_eq_div_pow]
  have := v.isLt
  omega

/-- **C65** is false for floats: 1.0 (0x3f800000) is not stored little-endian. -/
theorem float_littleEndian_false :
    ∃ out, floatEncode (.f32 0x3f800000#32) = .ok out ∧ littleEndian out = 0x803f := ⟨_, rfl, by decide⟩

end Goorc
