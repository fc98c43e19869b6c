import Verif.Proofs.BitIO2
import Verif.Proofs.Widths
import Verif.Proofs.EncScalar
namespace Goorc

/-! ### Headers -/

theorem bv8_ofNat_toNat_lt (b : Byte) (n : Nat) (h : b.toNat < n) : ∃ k : Fin n, b = BitVec.ofNat 8 k.val :=
  ⟨⟨b.toNat, h⟩, by simp⟩

theorem header2_fields (enc : Nat) (he : enc < 4) (code : Byte) (hc : code.toNat < 32) (l : Nat) :
    ∃ h0 h1, header2 enc code l = [h0, h1] ∧ (h0 >>> 6).toNat = enc ∧ (h0 >>> 1) &&& 0x1f#8 = code ∧
      h0.toNat % 2 * 256 + h1.toNat + 1 = l % 512 + 1 := by
  refine ⟨_, _, rfl, ?_⟩
  have key : ∀ (enc : Fin 4) (code : Fin 32) (b : Fin 2),
      let h0 : Byte := (BitVec.ofNat 8 enc.val <<< 6) ||| ((BitVec.ofNat 8 code.val &&& 0x1f#8) <<< 1) |||
        BitVec.ofNat 8 b.val
      (h0 >>> 6).toNat = enc.val ∧ (h0 >>> 1) &&& 0x1f#8 = BitVec.ofNat 8 code.val ∧ h0.toNat % 2 = b.val := by
    decide +kernel
  obtain ⟨c, rfl⟩ := bv8_ofNat_toNat_lt code 32 hc
  have h := key ⟨enc, he⟩ c ⟨(l >>> 8) % 2, by omega⟩
  simp only at h
  refine ⟨h.1, h.2.1, ?_⟩
  rw [h.2.2, BitVec.toNat_ofNat, Nat.shiftRight_eq_div_pow]
  omega

/-! ### Direct -/

theorem maxAligned_code (vs : List U64) : ∃ code, widthEncoding (maxWidth getAlignedWidth vs) = .ok code := by
  have h := (maxAligned_cases vs).1
  rw [widthEncoding_ok_iff]
  simp at h ⊢
  omega

theorem maxAligned_fits (vs : List U64) (n : Nat) : Fits 0 (maxWidth getAlignedWidth vs) n := by
  have h := (maxAligned_cases vs).1
  simp at h
  by_cases hs : maxWidth getAlignedWidth vs + 7 ≤ 64
  · exact fits_of_small hs
  · exact fits_of_bytes (by omega) (by omega)

theorem writeDirect_ok (vs : List U64) : ∃ out, writeDirect vs = .ok out := by
  obtain ⟨code, hc⟩ := maxAligned_code vs
  obtain ⟨r, hr⟩ := write_of_fits _ vs forgetBits forgetBits_wf (maxAligned_lt vs) (maxAligned_fits vs vs.length)
  exact ⟨_, by simp only [writeDirect, hc, Res.ok_bind, hr]; rfl⟩

/-- The general decoder on a direct block header. -/
theorem decodeRaw_direct (signed : Bool) (code : Byte) (hc : code.toNat < 32) (l : Nat) (s : Bytes) (w : Nat)
    (hw : widthDecoding code false = .ok w) :
    (decodeRaw signed).runBuf (header2 1 code l ++ s) = (readBitsN forgetBits w (l % 512 + 1)).runBuf s := by
  obtain ⟨h0, h1, hh, g1, g2, g3⟩ := header2_fields 1 (by omega) code hc l
  rw [hh]
  simp only [List.cons_append, List.nil_append, decodeRaw, Dec.runBuf_bind, Dec.runBuf_byte_cons, Res.ok_bind, g1,
    Nat.one_ne_zero, if_false, if_true, decodeDirect, g2, hw, g3, Dec.ofRes, Dec.runBuf_ret]

theorem direct_block (signed : Bool) (vs : List U64) (hl : 1 ≤ vs.length) (hl' : vs.length ≤ 512)
    (hz : ∃ v ∈ vs, v ≠ 0) (out : Bytes) (h : writeDirect vs = .ok out) (tail : Bytes) :
    (decodeRaw signed).runBuf (out ++ tail) = .ok (vs, tail) := by
  obtain ⟨code, hc⟩ := maxAligned_code vs
  obtain ⟨⟨st, body⟩, hr⟩ := write_of_fits _ vs forgetBits forgetBits_wf (maxAligned_lt vs) (maxAligned_fits vs vs.length)
  simp only [writeDirect, hc, Res.ok_bind, hr, Res.pure_eq, Res.ok.injEq] at h
  subst h
  have hne : maxWidth getAlignedWidth vs ≠ 0 := by
    intro h0
    obtain ⟨v, hv, hv0⟩ := hz
    exact hv0 ((maxAligned_cases vs).2.mp h0 v hv)
  have hrt := width_roundtrip_iff _ code false hc
  have hw := hrt.1.mpr (by simpa using hne)
  rw [List.append_assoc, List.append_assoc, decodeRaw_direct signed code hrt.2 _ _ _ hw,
    show (vs.length - 1) % 512 + 1 = vs.length by omega, ← List.append_assoc]
  exact write_read_all _ vs (maxAligned_lt vs) st body hr tail

/-- A direct block of zeros has no body: the decoder reads one bit per value from whatever follows. -/
theorem direct_zeros (signed : Bool) (n : Nat) (hn : 1 ≤ n) (hn' : n ≤ 512) (tail : Bytes) :
    ∃ out, writeDirect (List.replicate n 0) = .ok out ∧ out.length = 2 ∧
      (decodeRaw signed).runBuf (out ++ tail) = (readBitsN forgetBits 1 n).runBuf tail := by
  have h0 : maxWidth getAlignedWidth (List.replicate n 0) = 0 :=
    (maxAligned_cases _).2.mpr (fun v hv => (List.mem_replicate.mp hv).2)
  have hw : ∀ m, writeBitsAll forgetBits (List.replicate m 0) 0 = .ok (forgetBits, []) := by
    intro m
    induction m with
    | zero => rfl
    | succ m ih =>
      rw [List.replicate_succ]
      have : writeBits forgetBits 0 0 = .ok (forgetBits, []) := by decide
      simp only [writeBitsAll, this, ih, Res.ok_bind, Res.pure_eq, List.append_nil]
  refine ⟨header2 1 0 (n - 1), ?_, rfl, ?_⟩
  · simp only [writeDirect, h0, hw]
    simp only [widthEncoding]
    simp [writeLeftBits, forgetBits]
  · rw [decodeRaw_direct signed 0 (by decide) _ _ 1 (by decide), show (n - 1) % 512 + 1 = n by omega]

theorem readBitsN_eof (bits n : Nat) (hn : 1 ≤ n) (st : BitState) (s : Bytes)
    (h : st.bitsLeft + 8 * s.length < bits) : (readBitsN st bits n).runBuf s = .err .eof := by
  cases n with
  | zero => omega
  | succ n => simp only [readBitsN, Dec.runBuf_bind, readBits_eof st bits s h]; rfl

/-! ### Short repeat -/

/-- Byte `i` of `x`. -/
def byteAt (x : U64) (i : Nat) : Byte := (x >>> (8 * i)).setWidth 8

theorem beBytes_length (x : U64) (n : Nat) : (beBytes x n).length = n := by
  induction n with
  | zero => rfl
  | succ n ih => simp [beBytes, ih]

theorem shortRepeatBytes_len (x : U64) (j : Nat) : (shortRepeatBytes x j).2.length ≤ j ∧
    ((shortRepeatBytes x j).2.length = j ↔ ∀ i, i < j → byteAt x i ≠ 0) ∧
    ((shortRepeatBytes x j).2.length = j → (shortRepeatBytes x j).2 = beBytes x j) := by
  induction j with
  | zero => simp [shortRepeatBytes, beBytes]
  | succ j ih =>
    obtain ⟨h1, h2, h3⟩ := ih
    have hb : (x >>> (8 * j)).setWidth 8 = byteAt x j := rfl
    by_cases hz : byteAt x j = 0
    · have e : (shortRepeatBytes x (j + 1)).2 = (shortRepeatBytes x j).2 := by
        simp [shortRepeatBytes, hb, hz]
      rw [e]
      refine ⟨by omega, ⟨fun h => by omega, fun h => absurd hz (h j (by omega))⟩, fun h => by omega⟩
    · have e : (shortRepeatBytes x (j + 1)).2 = byteAt x j :: (shortRepeatBytes x j).2 := by
        simp only [shortRepeatBytes, hb]
        rw [if_pos hz]
      rw [e]
      simp only [List.length_cons, beBytes]
      refine ⟨by omega, ⟨fun h i hi => ?_, fun h => ?_⟩, fun h => by rw [h3 (by omega)]; rfl⟩
      · by_cases hij : i = j
        · subst hij; exact hz
        · exact h2.mp (by omega) i (by omega)
      · have := h2.mpr (fun i hi => h i (by omega)); omega

theorem shortRepeatBytes_w_lt (x : U64) (j : Nat) : (shortRepeatBytes x j).1 ≤ j - 1 := by
  induction j with
  | zero => simp [shortRepeatBytes]
  | succ j ih =>
    simp only [shortRepeatBytes]
    split <;> simp <;> omega

theorem shortRepeatBytes_top (x : U64) (j : Nat) :
    ((∀ i, i < j → byteAt x i = 0) ∧ shortRepeatBytes x j = (0, [])) ∨
    (∃ t, t < j ∧ byteAt x t ≠ 0 ∧ (∀ i, t < i → i < j → byteAt x i = 0) ∧
      shortRepeatBytes x j = (t, byteAt x t :: (shortRepeatBytes x t).2)) := by
  induction j with
  | zero => left; simp [shortRepeatBytes]
  | succ j ih =>
    have hb : (x >>> (8 * j)).setWidth 8 = byteAt x j := rfl
    by_cases hz : byteAt x j = 0
    · have e : shortRepeatBytes x (j + 1) = shortRepeatBytes x j := by
        simp [shortRepeatBytes, hb, hz]
      rw [e]
      rcases ih with ⟨h1, h2⟩ | ⟨t, h1, h2, h3, h4⟩
      · left
        refine ⟨fun i hi => ?_, h2⟩
        by_cases hij : i = j
        · subst hij; exact hz
        · exact h1 i (by omega)
      · right
        refine ⟨t, by omega, h2, fun i hi hi' => ?_, h4⟩
        by_cases hij : i = j
        · subst hij; exact hz
        · exact h3 i hi (by omega)
    · right
      refine ⟨j, by omega, hz, fun i hi hi' => by omega, ?_⟩
      have := shortRepeatBytes_w_lt x j
      simp only [shortRepeatBytes, hb]
      rw [if_pos hz]
      congr 1
      omega

theorem byteAt_toNat (x : U64) (i : Nat) : (byteAt x i).toNat = x.toNat / 256 ^ i % 256 := by
  rw [byteAt, BitVec.toNat_setWidth, BitVec.toNat_ushiftRight, Nat.shiftRight_eq_div_pow, Nat.pow_mul]

theorem readBE_spec (x : U64) (n : Nat) (hn : n ≤ 8) (acc : U64) (a : Nat) (ha : acc.toNat = a * 256 ^ n)
    (tail : Bytes) :
    ∃ v : U64, (readBE n acc).runBuf (beBytes x n ++ tail) = .ok (v, tail) ∧
      v.toNat = a * 256 ^ n + x.toNat % 256 ^ n := by
  induction n generalizing acc a with
  | zero => exact ⟨acc, by simp [readBE, beBytes], by rw [ha]; simp [Nat.mod_one]⟩
  | succ n ih =>
    have hb := (byteAt x n).isLt
    have hw : ((byteAt x n).setWidth 64).toNat = (byteAt x n).toNat := by
      rw [BitVec.toNat_setWidth]; omega
    have hp : (256 : Nat) ^ n = 2 ^ (8 * n) := by rw [Nat.pow_mul]
    have hsh : (byteAt x n).toNat * 2 ^ (8 * n) < 2 ^ 64 := by
      have : (byteAt x n).toNat * 2 ^ (8 * n) < 2 ^ 8 * 2 ^ (8 * n) :=
        Nat.mul_lt_mul_of_pos_right hb (Nat.pow_pos (by omega))
      rw [← Nat.pow_add] at this
      exact Nat.lt_of_lt_of_le this (Nat.pow_le_pow_right (by omega) (by omega))
    have hlt : (byteAt x n).toNat * 2 ^ (8 * n) < 2 ^ (8 * n + 8) := by
      rw [Nat.pow_add, Nat.mul_comm]
      exact Nat.mul_lt_mul_of_pos_left hb (Nat.pow_pos (by omega))
    have hnew : (acc ||| ((byteAt x n).setWidth 64 <<< (8 * n))).toNat =
        (a * 256 + (byteAt x n).toNat) * 256 ^ n := by
      rw [BitVec.toNat_or, BitVec.toNat_shiftLeft, hw, Nat.shiftLeft_eq, Nat.mod_eq_of_lt hsh, ha]
      have e : a * 256 ^ (n + 1) = a <<< (8 * n + 8) := by
        rw [Nat.shiftLeft_eq, show 8 * n + 8 = 8 * (n + 1) by omega, Nat.pow_mul]
      rw [e, ← Nat.shiftLeft_add_eq_or_of_lt hlt, Nat.shiftLeft_eq, Nat.add_mul, hp, Nat.pow_add,
        Nat.mul_assoc, Nat.mul_comm (2 ^ (8 * n)) (2 ^ 8)]
    obtain ⟨v, h1, h2⟩ := ih (by omega) _ _ hnew
    refine ⟨v, ?_, ?_⟩
    · simp only [readBE, beBytes, List.cons_append, Dec.runBuf_bind, Dec.runBuf_byte_cons, Res.ok_bind]
      exact h1
    · rw [h2, byteAt_toNat, Nat.pow_succ, Nat.mod_mul]
      rw [Nat.add_mul, Nat.mul_assoc, Nat.mul_comm 256, Nat.mul_comm (x.toNat / 256 ^ n % 256)]
      omega

theorem decodeRaw_shortRepeat (signed : Bool) (c w : Nat) (hc : c < 8) (hw : w < 8) (s : Bytes) :
    (decodeRaw signed).runBuf ((BitVec.ofNat 8 (c % 8) ||| (BitVec.ofNat 8 w <<< 3)) :: s) =
      ((readBE (w + 1) 0).runBuf s >>= fun p => .ok (List.replicate (c + 3) p.1, p.2)) := by
  have key : ∀ (c w : Fin 8), let h0 : Byte := BitVec.ofNat 8 (c.val % 8) ||| (BitVec.ofNat 8 w.val <<< 3)
      (h0 >>> 6).toNat = 0 ∧ ((h0 >>> 3) &&& 0x07#8).toNat = w.val ∧ (h0 &&& 0x07#8).toNat = c.val := by
    decide +kernel
  have h := key ⟨c, hc⟩ ⟨w, hw⟩
  simp only at h
  obtain ⟨h1, h2, h3⟩ := h
  simp only [decodeRaw, Dec.runBuf_bind, Dec.runBuf_byte_cons, Res.ok_bind, h1, if_true, decodeShortRepeat, h2, h3,
    Nat.add_comm 1, Nat.add_comm 3]
  rfl

end Goorc
