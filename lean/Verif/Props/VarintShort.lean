import Verif.Props.EncScalar
/-
C120: the mantissas of decimals are written in the fewest bytes their reader accepts.
-/
namespace Goorc
namespace VarintShort

theorem or_lt {x y : U64} {k : Nat} (hx : x.toNat < 2 ^ k) (hy : y.toNat < 2 ^ k) : (x ||| y).toNat < 2 ^ k := by
  rw [BitVec.toNat_or]; exact Nat.or_lt_two_pow hx hy

theorem shl_lt {b : U64} {i : Nat} (hb : b.toNat < 128) : (b <<< (7 * i)).toNat < 2 ^ (7 * (i + 1)) := by
  rw [BitVec.toNat_shiftLeft, Nat.shiftLeft_eq]
  refine Nat.lt_of_le_of_lt (Nat.mod_le _ _) ?_
  rw [show 7 * (i + 1) = 7 + 7 * i by omega, Nat.pow_add]
  exact Nat.mul_lt_mul_of_pos_right hb (Nat.two_pow_pos _)

/-- A number read from `n` bytes is below `2 ^ (7 * n)`. -/
theorem loop_lt (fuel : Nat) : ∀ (i : Nat) (x : U64) (s rest : Bytes) (v : U64), x.toNat < 2 ^ (7 * i) →
    (readUvarintLoop fuel i x).runBuf s = .ok (v, rest) → ∃ n, 1 ≤ n ∧ n + rest.length = s.length ∧ v.toNat < 2 ^ (7 * (i + n)) := by
  induction fuel with
  | zero => intro i x s rest v _ h; simp [readUvarintLoop] at h
  | succ fuel ih =>
    intro i x s rest v hx h
    cases s with
    | nil => simp [readUvarintLoop] at h
    | cons b s =>
      have hx' : x.toNat < 2 ^ (7 * (i + 1)) := Nat.lt_of_lt_of_le hx (Nat.pow_le_pow_right (by omega) (by omega))
      simp only [readUvarintLoop, Dec.runBuf_bind, Dec.runBuf_byte_cons, Res.ok_bind] at h
      split at h
      · rename_i hb
        split at h
        · simp at h
        · simp only [Dec.pure_eq, Dec.runBuf_ret] at h
          obtain ⟨rfl, rfl⟩ := Prod.mk.inj (Res.ok.inj h)
          refine ⟨1, Nat.le_refl _, by simp only [List.length_cons]; omega, or_lt hx' (shl_lt ?_)⟩
          rw [BitVec.toNat_setWidth]; omega
      · have key : ∀ b : Byte, ((b &&& 0x7f#8).setWidth 64).toNat < 128 := by decide +kernel
        obtain ⟨n, h1, h2, h3⟩ := ih (i + 1) _ s rest v (or_lt hx' (shl_lt (key b))) h
        refine ⟨n + 1, by omega, by simp only [List.length_cons]; omega, ?_⟩
        rwa [show i + (n + 1) = i + 1 + n by omega]

/-- One value. -/
theorem one_shortest {s rest : Bytes} {v : U64} (h : decodeVarInt64.runBuf s = .ok (v, rest)) :
    (uvarintBytes 9 (zigzag v)).length + rest.length ≤ s.length := by
  rw [decodeVarInt64, readVarint_eq, Dec.runBuf_bind] at h
  obtain ⟨⟨u, r⟩, h1, h2⟩ := Res.bind_eq_ok.mp h
  simp only [Dec.pure_eq, Dec.runBuf_ret] at h2
  obtain ⟨rfl, rfl⟩ := Prod.mk.inj (Res.ok.inj h2)
  obtain ⟨n, g1, g2, g3⟩ := loop_lt 10 0 0 s r u (by decide) h1
  rw [zigzag_unZigzag]
  rw [Nat.zero_add] at g3
  have hlen := uvarintBytes_length 9 u
  by_cases hn : n ≤ 9
  · have := (uvarintBytes_length_le_iff 9 (n - 1) (by omega) u).mpr (Or.inl (by rwa [show n - 1 + 1 = n by omega]))
    omega
  · omega

theorem many_shortest : ∀ (vs : List U64) (n : Nat) (s rest : Bytes), (decodeN decodeVarInt64 n).runBuf s = .ok (vs, rest) →
    (vs.flatMap fun v => uvarintBytes 9 (zigzag v)).length + rest.length ≤ s.length := by
  intro vs n
  induction n generalizing vs with
  | zero =>
    intro s rest h
    simp only [decodeN, Dec.pure_eq, Dec.runBuf_ret] at h
    obtain ⟨rfl, rfl⟩ := Prod.mk.inj (Res.ok.inj h)
    simp
  | succ n ih =>
    intro s rest h
    simp only [decodeN, Dec.runBuf_bind] at h
    obtain ⟨⟨v, r⟩, h1, h⟩ := Res.bind_eq_ok.mp h
    obtain ⟨⟨us, r'⟩, h2, h⟩ := Res.bind_eq_ok.mp h
    simp only [Dec.pure_eq, Dec.runBuf_ret] at h
    obtain ⟨rfl, rfl⟩ := Prod.mk.inj (Res.ok.inj h)
    have e1 := one_shortest h1
    have e2 := ih _ _ _ h2
    rw [List.flatMap_cons, List.length_append]
    simp only at *
    omega

/-- **C120** What any history of `Encode` and `Flush` calls of the encoder of mantissas writes is no longer than any bytes from which the
decoder reads the same values. -/
theorem varint_shortest (ops : List (Option U64)) : ∃ out, varintEnc.run () (scalarOps .i64 ops) = .ok ((), out) ∧
    ∀ (n : Nat) (other rest : Bytes), (decodeN decodeVarInt64 n).runBuf (other ++ rest) = .ok (ops.filterMap id, rest) →
      out.length ≤ other.length := by
  refine ⟨_, stateless_run varintEnc varintEncode (fun _ _ => rfl) (fun _ => rfl) GoVal.i64
    (fun v => uvarintBytes 9 (zigzag v)) varintEncode_i64 ops, ?_⟩
  intro n other rest h
  have := many_shortest _ _ _ _ h
  rw [List.length_append] at this
  omega

/-- **C120** Ten bytes are the most for each value, and `k + 1` bytes, below ten, are enough exactly for the values from `-2 ^ (7 * k + 6)` to
`2 ^ (7 * k + 6) - 1`. -/
theorem varint_size (v : U64) : ∃ out, varintEncode (.i64 v) = .ok out ∧ 1 ≤ out.length ∧ out.length ≤ 10 ∧
    ∀ k, k < 9 → (out.length ≤ k + 1 ↔ -(2 : Int) ^ (7 * k + 6) ≤ v.toInt ∧ v.toInt < 2 ^ (7 * k + 6)) := by
  obtain ⟨out, h1, h2, h3, h4⟩ := varint_length v
  refine ⟨out, h1, h2, h3, fun k hk => (h4 k hk).trans ?_⟩
  have hz := zigzag_toNat v
  have hp : (2 : Nat) ^ (7 * (k + 1)) = 2 * 2 ^ (7 * k + 6) := by
    rw [show 7 * (k + 1) = 7 * k + 6 + 1 by omega, Nat.pow_succ]; omega
  have hc : (2 : Int) ^ (7 * k + 6) = ((2 ^ (7 * k + 6) : Nat) : Int) := by norm_cast
  rw [hp, hc]
  generalize 2 ^ (7 * k + 6) = m
  split at hz <;> omega

/-- The decoder accepts longer forms as well, so the bound says something: zero from one byte and from three. -/
example : decodeVarInt64.runBuf [0] = .ok (0, []) ∧ decodeVarInt64.runBuf [0x80, 0x80, 0] = .ok (0, []) ∧
    varintEnc.run () (scalarOps .i64 [some 0, none, some (-65)]) = .ok ((), [0, 0x81, 0x01]) := by
  decide +kernel

end VarintShort
end Goorc
