import Verif.Spec.ReadVUint
import Verif.Proofs.EncPackage
namespace Goorc

theorem base128_append (xs : List Byte) (b : Byte) : base128 (xs ++ [b]) = base128 xs + b.toNat % 128 * 2 ^ (7 * xs.length) := by
  induction xs with
  | nil => simp [base128]
  | cons x xs ih =>
    have h : (2 : Nat) ^ (7 * (x :: xs).length) = 128 * 2 ^ (7 * xs.length) := by
      rw [List.length_cons, Nat.mul_add, Nat.pow_add]; omega
    simp only [List.cons_append, base128, ih, h]
    rw [Nat.mul_add, Nat.mul_left_comm]
    omega

theorem base128_lt (xs : List Byte) : base128 xs < 2 ^ (7 * xs.length) := by
  induction xs with
  | nil => simp [base128]
  | cons x xs ih =>
    have h : (2 : Nat) ^ (7 * (x :: xs).length) = 128 * 2 ^ (7 * xs.length) := by
      rw [List.length_cons, Nat.mul_add, Nat.pow_add]; omega
    simp only [base128, h]
    omega

theorem or_shift (v : Nat) (b : Byte) (k : Nat) (hv : v < 2 ^ k) :
    BitVec.ofNat 64 v ||| ((0x7f#8 &&& b).setWidth 64 <<< k) = BitVec.ofNat 64 (v + b.toNat % 128 * 2 ^ k) := by
  have hb : (0x7f#8 &&& b).toNat = b.toNat % 128 := by
    rw [BitVec.toNat_and, Nat.and_comm]
    exact Nat.and_two_pow_sub_one_eq_mod b.toNat 7
  have e : (0x7f#8 &&& b).setWidth 64 <<< k = BitVec.ofNat 64 ((b.toNat % 128) <<< k) := by
    apply BitVec.eq_of_toNat_eq
    have hlt : (0x7f#8 &&& b).toNat % 2 ^ 64 = b.toNat % 128 := by rw [hb]; omega
    simp only [BitVec.toNat_shiftLeft, BitVec.toNat_setWidth, BitVec.toNat_ofNat, hlt]
  rw [e, ← Nat.shiftLeft_eq, Nat.add_comm, Nat.shiftLeft_add_eq_or_of_lt hv, Nat.or_comm]
  apply BitVec.eq_of_toNat_eq
  simp only [BitVec.toNat_or, BitVec.toNat_ofNat, Nat.or_mod_two_pow]

theorem bytes_succ (s : ByteCalls) (n : Nat) : s.bytes (n + 1) = s.bytes n ++ [(s n).1] := by
  simp [ByteCalls.bytes, List.range_succ]

theorem bytes_length (s : ByteCalls) (n : Nat) : (s.bytes n).length = n := by simp [ByteCalls.bytes]

theorem readVUintLoop_step (s : ByteCalls) (fuel i : Nat) :
    readVUintLoop s (fuel + 1) i (BitVec.ofNat 64 (base128 (s.bytes i))) =
      if (s i).1.toNat < 0x80 then .ok (BitVec.ofNat 64 (base128 (s.bytes (i + 1))), (s i).2, i + 1)
      else readVUintLoop s fuel (i + 1) (BitVec.ofNat 64 (base128 (s.bytes (i + 1)))) := by
  have h := or_shift (base128 (s.bytes i)) (s i).1 (7 * i) (by simpa [bytes_length] using base128_lt (s.bytes i))
  have h2 := base128_append (s.bytes i) (s i).1
  rw [bytes_length, ← bytes_succ] at h2
  rw [← h2] at h
  simp only [readVUintLoop, h]

theorem readVUintLoop_exact (s : ByteCalls) (k i fuel : Nat) (hi : i ≤ k) (hc : ∀ j, i ≤ j → j < k → 0x80 ≤ (s j).1.toNat)
    (hk : (s k).1.toNat < 0x80) (hf : k - i < fuel) :
    readVUintLoop s fuel i (BitVec.ofNat 64 (base128 (s.bytes i))) = .ok (BitVec.ofNat 64 (base128 (s.bytes (k + 1))), (s k).2, k + 1) := by
  induction fuel generalizing i with
  | zero => omega
  | succ fuel ih =>
    rw [readVUintLoop_step]
    rcases Nat.lt_or_eq_of_le hi with h | rfl
    · rw [if_neg (by have := hc i (Nat.le_refl _) h; omega)]
      exact ih (i + 1) h (fun j h1 h2 => hc j (by omega) h2) (by omega)
    · rw [if_pos hk]

theorem readVUintLoop_hang (s : ByteCalls) (fuel i : Nat) (r : U64) (hc : ∀ j, i ≤ j → j < i + fuel → 0x80 ≤ (s j).1.toNat) :
    readVUintLoop s fuel i r = .hang := by
  induction fuel generalizing i r with
  | zero => rfl
  | succ fuel ih =>
    simp only [readVUintLoop]
    rw [if_neg (by have := hc i (Nat.le_refl _) (by omega); omega)]
    exact ih _ _ fun j h1 h2 => hc j (by omega) (by omega)

/-- The loop of `binary.ReadUvarint` and that of `ReadVUint`, where the first succeeds. -/
theorem readVUintLoop_agrees (x : Bytes) (n : Nat) (i : Nat) (acc v : U64) (rest : Bytes) (front : Bytes) (hi : front.length = i)
    (hx : (readUvarintLoop n i acc).runBuf x = .ok (v, rest)) (fuel : Nat) (hf : n ≤ fuel) :
    readVUintLoop (bufferCalls (front ++ x)) fuel i acc = .ok (v, none, (front ++ x).length - rest.length) ∧ rest.length ≤ x.length := by
  induction n generalizing i acc x front fuel with
  | zero => simp [readUvarintLoop] at hx
  | succ n ih =>
    cases x with
    | nil => simp [readUvarintLoop, Dec.byte, bind, Dec.bind, Dec.runBuf] at hx
    | cons b x =>
      cases fuel with
      | zero => omega
      | succ fuel =>
        have hs : bufferCalls (front ++ b :: x) i = (b, none) := by
          simp [bufferCalls, ← hi]
        simp only [readUvarintLoop, Dec.byte, bind, Dec.bind, Dec.runBuf] at hx
        simp only [readVUintLoop, hs]
        split at hx
        · rename_i hb
          rw [if_pos hb]
          split at hx
          · simp at hx
          · simp only [pure, Dec.runBuf_ret, Res.ok.injEq, Prod.mk.injEq] at hx
            obtain ⟨rfl, rfl⟩ := hx
            have h7 : 0x7f#8 &&& b = b := by
              apply BitVec.eq_of_toNat_eq
              rw [BitVec.toNat_and, Nat.and_comm]
              have := Nat.and_two_pow_sub_one_eq_mod b.toNat 7
              have e : (0x7f#8).toNat = 2 ^ 7 - 1 := rfl
              rw [e, this]; omega
            rw [h7]
            refine ⟨?_, by simp⟩
            simp only [List.length_append, List.length_cons, Res.ok.injEq, Prod.mk.injEq, true_and]
            omega
        · rename_i hb
          rw [if_neg hb]
          obtain ⟨h1, h2⟩ := ih x (i + 1) _ (front ++ [b]) (by simp [hi]) hx fuel (by omega)
          rw [List.append_assoc, List.singleton_append, BitVec.and_comm] at h1
          refine ⟨h1, ?_⟩
          simp only [List.length_cons]; omega

end Goorc
