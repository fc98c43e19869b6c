import Verif.Model.EncPackage
import Verif.Proofs.Dec
namespace Goorc

theorem sshiftRight63 (x : U64) : x.sshiftRight 63 = if x.msb then BitVec.allOnes 64 else 0 := by
  apply BitVec.eq_of_getLsbD_eq
  intro i hi
  rw [BitVec.getLsbD_sshiftRight, BitVec.msb_eq_getLsbD_last]
  have h64 : (!decide (64 ≤ i)) = true := by simpa using hi
  have e : (if 63 + i < 64 then x.getLsbD (63 + i) else x.getLsbD 63) = x.getLsbD 63 := by
    split
    · congr 1; omega
    · rfl
  rw [show (64 - 1 : Nat) = 63 from rfl, e, h64, Bool.true_and]
  by_cases hm : x.getLsbD 63 = true
  · rw [if_pos hm, BitVec.getLsbD_allOnes, hm]; simpa using hi
  · rw [if_neg hm]; simpa using hm

theorem and_one_eq (x : U64) : x &&& 1 = BitVec.ofNat 64 (x.toNat % 2) := by
  apply BitVec.eq_of_toNat_eq
  simp only [BitVec.toNat_and, BitVec.toNat_ofNat]
  have : (1 : U64).toNat = 1 := rfl
  rw [this, Nat.and_one_is_mod]
  omega

theorem not_toNat (x : U64) : (~~~x).toNat = 2 ^ 64 - 1 - x.toNat := by simp

theorem zigzag_eq (x : U64) : zigzag x = if x.msb then ~~~(x <<< 1) else x <<< 1 := by
  unfold zigzag
  rw [sshiftRight63]
  split
  · exact BitVec.xor_allOnes
  · simp

theorem unZigzag_eq (x : U64) : unZigzag x = if x.toNat % 2 = 0 then x >>> 1 else ~~~(x >>> 1) := by
  unfold unZigzag
  rw [and_one_eq]
  rcases Nat.mod_two_eq_zero_or_one x.toNat with h | h
  · rw [h]; simp
  · rw [h]
    have : -(BitVec.ofNat 64 1) = BitVec.allOnes 64 := by decide
    rw [this, BitVec.xor_allOnes]; simp

theorem shl1_toNat (x : U64) : (x <<< 1).toNat = 2 * x.toNat % 2 ^ 64 := by
  rw [BitVec.toNat_shiftLeft, Nat.shiftLeft_eq]; congr 1; omega

theorem shr1_toNat (x : U64) : (x >>> 1).toNat = x.toNat / 2 := by
  rw [BitVec.toNat_ushiftRight, Nat.shiftRight_eq_div_pow]

/-- Numeric meaning of `Zigzag`. -/
theorem zigzag_toNat (x : U64) :
    ((zigzag x).toNat : Int) = if 0 ≤ x.toInt then 2 * x.toInt else -2 * x.toInt - 1 := by
  rw [zigzag_eq]
  have hx := x.isLt
  have hm : x.msb = decide (2 ^ 63 ≤ x.toNat) := BitVec.msb_eq_decide x
  rw [BitVec.toInt_eq_toNat_cond]
  by_cases h : 2 ^ 63 ≤ x.toNat
  · have : x.msb = true := by simp [hm, h]
    rw [if_pos this, not_toNat, shl1_toNat, if_neg (by omega), if_neg (by omega)]
    omega
  · have : ¬ x.msb = true := by simp [hm]; omega
    rw [if_neg this, shl1_toNat, if_pos (by omega), if_pos (by omega)]
    omega

/-- Numeric meaning of `UnZigzag`. -/
theorem unZigzag_toInt (u : U64) :
    (unZigzag u).toInt = if u.toNat % 2 = 0 then (u.toNat / 2 : Int) else -(u.toNat / 2 : Int) - 1 := by
  rw [unZigzag_eq]
  have hu := u.isLt
  by_cases h : u.toNat % 2 = 0
  · rw [if_pos h, if_pos h, BitVec.toInt_eq_toNat_cond, shr1_toNat, if_pos (by omega)]
    omega
  · rw [if_neg h, if_neg h, BitVec.toInt_eq_toNat_cond, not_toNat, shr1_toNat, if_neg (by omega)]
    omega

theorem unZigzag_zigzag (x : U64) : unZigzag (zigzag x) = x := by
  apply BitVec.eq_of_toInt_eq
  rw [unZigzag_toInt]
  have h := zigzag_toNat x
  split at h <;> split <;> omega

theorem zigzag_unZigzag (u : U64) : zigzag (unZigzag u) = u := by
  apply BitVec.eq_of_toNat_eq
  have h := zigzag_toNat (unZigzag u)
  have h2 := unZigzag_toInt u
  split at h2 <;> split at h <;> omega

theorem convert_eq (u : U64) : convert u = unZigzag u := by
  rw [unZigzag_eq]
  unfold convert
  simp only [and_one_eq]
  rcases Nat.mod_two_eq_zero_or_one u.toNat with h | h
  · simp [h]
  · simp [h]

theorem putVarint_eq (cap : Nat) (x : U64) : putVarint cap x = putUvarint cap (zigzag x) := by
  rw [zigzag_eq]; rfl

theorem readVarint_eq : readVarint = (readUvarint >>= fun u => pure (unZigzag u)) := by
  unfold readVarint
  congr 1
  funext u
  rw [← convert_eq]
  rfl

/-! ### varints -/

theorem setWidth8_toNat (x : U64) : (x.setWidth 8).toNat = x.toNat % 256 := by simp

theorem shr7_toNat (x : U64) : (x >>> 7).toNat = x.toNat / 128 := by
  rw [BitVec.toNat_ushiftRight, Nat.shiftRight_eq_div_pow]

/-- Byte-level shape of the varint: the number of bytes needed. -/
theorem uvarintBytes_length (fuel : Nat) (x : U64) :
    (uvarintBytes fuel x).length ≤ fuel + 1 := by
  induction fuel generalizing x with
  | zero => simp [uvarintBytes]
  | succ n ih => simp only [uvarintBytes]; split <;> simp; exact ih _

theorem uvarintBytes_length_pos (fuel : Nat) (x : U64) : 1 ≤ (uvarintBytes fuel x).length := by
  cases fuel <;> simp only [uvarintBytes] <;> (try split) <;> simp

theorem uvarintBytes_length_le_iff (fuel k : Nat) (hk : k ≤ fuel) (x : U64) :
    (uvarintBytes fuel x).length ≤ k + 1 ↔ x.toNat < 2 ^ (7 * (k + 1)) ∨ k = fuel := by
  induction fuel generalizing k x with
  | zero => simp [uvarintBytes]; right; omega
  | succ n ih =>
    simp only [uvarintBytes]
    by_cases hx : x.toNat ≥ 0x80
    · rw [if_pos hx, List.length_cons]
      cases k with
      | zero =>
        have := uvarintBytes_length_pos n (x >>> 7)
        have h7 : (2 : Nat) ^ (7 * (0 + 1)) = 128 := by decide
        rw [h7]
        constructor
        · intro h; omega
        · intro h; omega
      | succ k =>
        have := ih k (by omega) (x >>> 7)
        rw [shr7_toNat] at this
        have hp : (2 : Nat) ^ (7 * (k + 1 + 1)) = 128 * 2 ^ (7 * (k + 1)) := by
          rw [show 7 * (k + 1 + 1) = 7 + 7 * (k + 1) by omega, Nat.pow_add]
        constructor
        · intro h
          rcases this.mp (by omega) with h | h
          · left; rw [hp]; omega
          · right; omega
        · intro h
          have : (uvarintBytes n (x >>> 7)).length ≤ k + 1 := this.mpr (by
            rcases h with h | h
            · left; rw [hp] at h; omega
            · right; omega)
          omega
    · rw [if_neg hx]
      have : (2 : Nat) ^ 7 ≤ 2 ^ (7 * (k + 1)) := Nat.pow_le_pow_right (by omega) (by omega)
      simp only [List.length_singleton]
      constructor
      · intro _; left; omega
      · intro _; omega

/-- `PutUvarint` into a buffer of eight bytes works exactly for values below 2^56. -/
theorem putUvarint8 (x : U64) :
    putUvarint 8 x = if x.toNat < 2 ^ 56 then .ok (uvarintBytes 9 x) else .panic := by
  have h := uvarintBytes_length_le_iff 9 7 (by omega) x
  simp only [putUvarint]
  have : (7 + 1 = 8) := rfl
  by_cases hx : x.toNat < 2 ^ 56
  · rw [if_pos hx, if_pos (h.mpr (by left; simpa using hx))]
  · rw [if_neg hx, if_neg]
    intro hle
    rcases h.mp hle with h | h
    · exact hx (by simpa using h)
    · omega

theorem putUvarint10 (x : U64) : putUvarint 10 x = .ok (uvarintBytes 9 x) := by
  simp only [putUvarint]
  rw [if_pos (uvarintBytes_length 9 x)]

theorem or_shl_toNat (x b : U64) (k : Nat) (hx : x.toNat < 2 ^ k) (hb : b.toNat * 2 ^ k < 2 ^ 64) :
    (x ||| (b <<< k)).toNat = x.toNat + b.toNat * 2 ^ k := by
  rw [BitVec.toNat_or, BitVec.toNat_shiftLeft, Nat.shiftLeft_eq, Nat.mod_eq_of_lt hb, Nat.or_comm,
    ← Nat.shiftLeft_eq, ← Nat.shiftLeft_add_eq_or_of_lt hx, Nat.add_comm]

theorem or80_toNat (b : Byte) :
    ((b ||| 0x80#8) &&& 0x7f#8).toNat = b.toNat % 128 ∧ 128 ≤ (b ||| 0x80#8).toNat := by
  have : ∀ b : Byte, ((b ||| 0x80#8) &&& 0x7f#8).toNat = b.toNat % 128 ∧ 128 ≤ (b ||| 0x80#8).toNat := by
    decide +kernel
  exact this b

/-- Reading back what `uvarintBytes` wrote, with `i` groups already accumulated in `acc`. -/
theorem readUvarintLoop_spec (fuel i : Nat) (x acc : U64) (rest : Bytes) (hf : fuel + i = 9)
    (hacc : acc.toNat < 2 ^ (7 * i)) (hx : x.toNat * 2 ^ (7 * i) < 2 ^ 64) :
    ∃ v : U64, (readUvarintLoop (fuel + 1) i acc).runBuf (uvarintBytes fuel x ++ rest) = .ok (v, rest) ∧
      v.toNat = acc.toNat + x.toNat * 2 ^ (7 * i) := by
  induction fuel generalizing i x acc with
  | zero =>
    have hi : i = 9 := by omega
    subst hi
    have hx2 : x.toNat ≤ 1 := by
      have : (2 : Nat) ^ 64 = 2 * 2 ^ (7 * 9) := by decide
      rw [this] at hx
      have := Nat.lt_of_mul_lt_mul_right hx
      omega
    have hb : (x.setWidth 8).toNat = x.toNat := by rw [setWidth8_toNat]; omega
    refine ⟨acc ||| ((x.setWidth 8).setWidth 64 <<< (7 * 9)), ?_, ?_⟩
    · simp only [uvarintBytes, readUvarintLoop, List.cons_append, List.nil_append, Dec.runBuf_bind,
        Dec.runBuf_byte_cons, Res.ok_bind, hb]
      rw [if_pos (by omega), if_neg (by omega)]
      rfl
    · have h64 : ((x.setWidth 8).setWidth 64).toNat = x.toNat := by
        simp only [BitVec.toNat_setWidth, Nat.reducePow]; omega
      rw [or_shl_toNat _ _ _ hacc (by rw [h64]; exact hx), h64]
  | succ n ih =>
    by_cases hge : x.toNat ≥ 0x80
    · have hpow : (2 : Nat) ^ (7 * (i + 1)) = 128 * 2 ^ (7 * i) := by
        rw [show 7 * (i + 1) = 7 + 7 * i by omega, Nat.pow_add]
      have hb := or80_toNat (x.setWidth 8)
      have hlow : (((x.setWidth 8 ||| 0x80#8) &&& 0x7f#8).setWidth 64).toNat = x.toNat % 128 := by
        rw [BitVec.toNat_setWidth, hb.1, setWidth8_toNat]
        omega
      have hlt : x.toNat % 128 * 2 ^ (7 * i) < 2 ^ 64 := by
        refine Nat.lt_of_le_of_lt (Nat.mul_le_mul_right _ ?_) hx
        omega
      have hacc' : (acc ||| (((x.setWidth 8 ||| 0x80#8) &&& 0x7f#8).setWidth 64 <<< (7 * i))).toNat =
          acc.toNat + x.toNat % 128 * 2 ^ (7 * i) := by
        rw [or_shl_toNat _ _ _ hacc (by rw [hlow]; exact hlt), hlow]
      have hmul : x.toNat / 128 * 2 ^ (7 * (i + 1)) + x.toNat % 128 * 2 ^ (7 * i) = x.toNat * 2 ^ (7 * i) := by
        rw [hpow, ← Nat.mul_assoc, ← Nat.add_mul]
        congr 1
        omega
      obtain ⟨v, h1, h2⟩ := ih (i + 1) (x >>> 7)
        (acc ||| (((x.setWidth 8 ||| 0x80#8) &&& 0x7f#8).setWidth 64 <<< (7 * i))) (by omega)
        (by
          rw [hacc', hpow]
          have : x.toNat % 128 * 2 ^ (7 * i) ≤ 127 * 2 ^ (7 * i) := Nat.mul_le_mul_right _ (by omega)
          omega)
        (by rw [shr7_toNat]; omega)
      refine ⟨v, ?_, ?_⟩
      · rw [readUvarintLoop]
        simp only [uvarintBytes]
        rw [if_pos hge]
        simp only [List.cons_append, Dec.runBuf_bind, Dec.runBuf_byte_cons, Res.ok_bind]
        rw [if_neg (by omega)]
        exact h1
      · rw [h2, hacc', shr7_toNat]; omega
    · have hb : (x.setWidth 8).toNat = x.toNat := by rw [setWidth8_toNat]; omega
      refine ⟨acc ||| ((x.setWidth 8).setWidth 64 <<< (7 * i)), ?_, ?_⟩
      · rw [readUvarintLoop]
        simp only [uvarintBytes]
        rw [if_neg hge]
        simp only [List.cons_append, List.nil_append, Dec.runBuf_bind, Dec.runBuf_byte_cons,
          Res.ok_bind, hb]
        rw [if_pos (by omega), if_neg (by omega)]
        rfl
      · have h64 : ((x.setWidth 8).setWidth 64).toNat = x.toNat := by
          simp only [BitVec.toNat_setWidth, Nat.reducePow]; omega
        rw [or_shl_toNat _ _ _ hacc (by rw [h64]; exact hx), h64]

/-- `ReadUvarint` inverts `PutUvarint`. -/
theorem readUvarint_uvarintBytes (x : U64) (rest : Bytes) :
    readUvarint.runBuf (uvarintBytes 9 x ++ rest) = .ok (x, rest) := by
  obtain ⟨v, h1, h2⟩ := readUvarintLoop_spec 9 0 x 0 rest rfl (by decide)
    (by have := x.isLt; simpa using this)
  unfold readUvarint
  rw [h1]
  congr 2
  apply BitVec.eq_of_toNat_eq
  rw [h2]
  simp

theorem readVarint_zigzag (x : U64) (rest : Bytes) :
    readVarint.runBuf (uvarintBytes 9 (zigzag x) ++ rest) = .ok (x, rest) := by
  rw [readVarint_eq]
  simp [readUvarint_uvarintBytes, unZigzag_zigzag]

end Goorc

namespace Goorc

/-! ### nanoseconds -/

theorem umod_toNat (x : U64) (k : Nat) (hk : k < 2 ^ 64) : (x % BitVec.ofNat 64 k).toNat = x.toNat % k := by
  rw [BitVec.toNat_umod, BitVec.toNat_ofNat, Nat.mod_eq_of_lt hk]

theorem udiv_toNat (x : U64) (k : Nat) (hk : k < 2 ^ 64) : (x / BitVec.ofNat 64 k).toNat = x.toNat / k := by
  rw [BitVec.toNat_udiv, BitVec.toNat_ofNat, Nat.mod_eq_of_lt hk]

theorem umod_eq_zero (x : U64) (k : Nat) (hk : k < 2 ^ 64) : x % BitVec.ofNat 64 k = 0 ↔ x.toNat % k = 0 := by
  rw [← umod_toNat x k hk]
  constructor
  · intro h; rw [h]; rfl
  · intro h; exact BitVec.eq_of_toNat_eq (by simpa using h)

theorem stripZeros_spec (fuel tz : Nat) (n : U64) (hf : fuel + tz = 7) :
    ∃ m j, stripZeros fuel (n, tz) = (m, tz + j) ∧ tz + j ≤ 7 ∧ n.toNat = m.toNat * 10 ^ j ∧
      (m.toNat % 10 = 0 → tz + j = 7) := by
  induction fuel generalizing tz n with
  | zero => exact ⟨n, 0, by simp [stripZeros], by omega, by simp, by omega⟩
  | succ f ih =>
    simp only [stripZeros]
    by_cases h : n % 10 = 0 ∧ tz < 7
    · rw [if_pos h]
      obtain ⟨m, j, h1, h2, h3, h4⟩ := ih (tz + 1) (n / 10) (by omega)
      have hd : (n / 10).toNat = n.toNat / 10 := udiv_toNat n 10 (by omega)
      have hm : n.toNat % 10 = 0 := (umod_eq_zero n 10 (by omega)).mp h.1
      refine ⟨m, j + 1, ?_, by omega, ?_, ?_⟩
      · rw [h1]; congr 1; omega
      · rw [Nat.pow_succ, ← Nat.mul_assoc, ← h3, hd]; omega
      · intro h; have := h4 h; omega
    · rw [if_neg h]
      refine ⟨n, 0, by simp, by omega, by simp, ?_⟩
      intro hm
      exact absurd ⟨(umod_eq_zero n 10 (by omega)).mpr hm, by omega⟩ h

theorem shl3_toNat (x : U64) : (x <<< 3).toNat = 8 * x.toNat % 2 ^ 64 := by
  rw [BitVec.toNat_shiftLeft, Nat.shiftLeft_eq]; congr 1; omega

theorem shr3_toNat (x : U64) : (x >>> 3).toNat = x.toNat / 8 := by
  rw [BitVec.toNat_ushiftRight, Nat.shiftRight_eq_div_pow]

theorem and7_toNat (x : U64) : (7 &&& x).toNat = x.toNat % 8 := by
  rw [BitVec.toNat_and, Nat.and_comm]
  exact Nat.and_two_pow_sub_one_eq_mod x.toNat 3

theorem timesTen_toNat (k : Nat) (x : U64) : (timesTen k x).toNat = x.toNat * 10 ^ k % 2 ^ 64 := by
  induction k generalizing x with
  | zero => simp [timesTen]; omega
  | succ k ih =>
    simp only [timesTen]
    rw [ih, BitVec.toNat_mul]
    have : (10 : U64).toNat = 10 := rfl
    rw [this, Nat.mod_mul_mod]
    congr 1
    rw [Nat.mul_assoc, Nat.mul_comm 10, ← Nat.pow_succ]

theorem shl3_or_toNat (m : U64) (t : Nat) (ht : t < 8) (hm : m.toNat < 2 ^ 61) :
    ((m <<< 3) ||| BitVec.ofNat 64 t).toNat = 8 * m.toNat + t := by
  have : ((m <<< 3) ||| BitVec.ofNat 64 t) = (BitVec.ofNat 64 t) ||| (m <<< 3) := BitVec.or_comm _ _
  rw [this, or_shl_toNat _ _ 3 (by rw [BitVec.toNat_ofNat]; omega) (by omega), BitVec.toNat_ofNat]
  omega

/-- Numeric meaning of `EncodingNano` on multiples of 100. -/
theorem encodingNano_100 (n : U64) (h0 : n ≠ 0) (h : n.toNat % 100 = 0) :
    ∃ m z, (encodingNano n).toNat = 8 * m + (z - 1) ∧ n.toNat = m * 10 ^ z ∧ 2 ≤ z ∧ z ≤ 8 ∧
      (m % 10 = 0 → z = 8) ∧ m < 2 ^ 61 := by
  obtain ⟨m, j, h1, h2, h3, h4⟩ := stripZeros_spec 6 1 (n / 100) rfl
  have hd : (n / 100).toNat = n.toNat / 100 := udiv_toNat n 100 (by omega)
  have hp : 0 < 10 ^ j := Nat.pow_pos (by omega)
  have hmle : m.toNat ≤ (n / 100).toNat := by rw [h3]; exact Nat.le_mul_of_pos_right _ hp
  have hn := n.isLt
  have hm61 : m.toNat < 2 ^ 61 := by omega
  have hne : ¬ (n % 100 ≠ 0) := by
    simp only [ne_eq, Decidable.not_not]
    exact (umod_eq_zero n 100 (by omega)).mpr h
  refine ⟨m.toNat, j + 2, ?_, ?_, by omega, by omega, ?_, hm61⟩
  · simp only [encodingNano]
    rw [if_neg h0, if_neg hne, h1]
    simp only []
    rw [shl3_or_toNat _ _ (by omega) hm61]
    omega
  · rw [Nat.pow_add, ← Nat.mul_assoc, ← h3, hd]; omega
  · intro h; have := h4 h; omega

theorem encodingNano_small (n : U64) (h : n.toNat % 100 ≠ 0) :
    (encodingNano n).toNat = 8 * n.toNat % 2 ^ 64 := by
  have h0 : n ≠ 0 := by intro h0; rw [h0] at h; simp at h
  have hne : n % 100 ≠ 0 := fun h' => h ((umod_eq_zero n 100 (by omega)).mp h')
  simp only [encodingNano]
  rw [if_neg h0, if_pos hne, shl3_toNat]

/-- Numeric meaning of `DecodingNano`. -/
theorem decodingNano_toNat (e : U64) : (decodingNano e).toNat =
    if e.toNat % 8 = 0 then e.toNat / 8 else (e.toNat / 8) * 10 ^ (e.toNat % 8 + 1) % 2 ^ 64 := by
  simp only [decodingNano]
  have h7 := and7_toNat e
  by_cases h : e.toNat % 8 = 0
  · have : (7 &&& e) = 0 := BitVec.eq_of_toNat_eq (by rw [h7, h]; rfl)
    rw [this, if_neg (by simp), if_pos h, shr3_toNat]
  · have : (7 &&& e) ≠ 0 := by intro hh; rw [hh] at h7; exact h h7.symm
    rw [if_pos this, if_neg h, timesTen_toNat, shr3_toNat, h7]

theorem decoding_encodingNano (n : U64) (h : n.toNat % 100 = 0 ∨ n.toNat < 2 ^ 61) :
    decodingNano (encodingNano n) = n := by
  apply BitVec.eq_of_toNat_eq
  rw [decodingNano_toNat]
  by_cases h0 : n = 0
  · subst h0; rfl
  · by_cases h100 : n.toNat % 100 = 0
    · obtain ⟨m, z, h1, h2, h3, h4, -, h6⟩ := encodingNano_100 n h0 h100
      rw [h1, if_neg (by omega), show (8 * m + (z - 1)) / 8 = m by omega,
        show (8 * m + (z - 1)) % 8 + 1 = z by omega, ← h2]
      exact Nat.mod_eq_of_lt n.isLt
    · rw [encodingNano_small n h100]
      have : n.toNat < 2 ^ 61 := by omega
      rw [if_pos (by omega)]; omega

end Goorc
