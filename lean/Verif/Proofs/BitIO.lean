import Verif.Model.EncInt
import Verif.Spec.BitStream
import Verif.Proofs.Dec
namespace Goorc

@[simp] theorem natBits_length (w n : Nat) : (natBits w n).length = w := by
  induction w with
  | zero => rfl
  | succ w ih => simp [natBits, ih]

theorem natBits_mod (w n : Nat) : natBits w (n % 2 ^ w) = natBits w n := by
  suffices h : ∀ k, w ≤ k → natBits w (n % 2 ^ k) = natBits w n from h w (Nat.le_refl _)
  induction w with
  | zero => intro k _; rfl
  | succ w ih =>
    intro k hk
    simp only [natBits]
    rw [ih k (by omega), Nat.testBit_mod_two_pow]
    simp [show w < k by omega]

theorem natBits_congr (w : Nat) {n m : Nat} (h : n % 2 ^ w = m % 2 ^ w) : natBits w n = natBits w m := by
  rw [← natBits_mod w n, ← natBits_mod w m, h]

theorem natBits_append (a b n : Nat) : natBits (a + b) n = natBits a (n / 2 ^ b) ++ natBits b n := by
  induction a with
  | zero => simp [natBits]
  | succ a ih =>
    rw [show a + 1 + b = (a + b) + 1 by omega]
    simp only [natBits, List.cons_append]
    rw [ih, ← Nat.shiftRight_eq_div_pow, Nat.testBit_shiftRight, Nat.add_comm b a]

theorem natBits_mul_add (a b x y : Nat) (hy : y < 2 ^ b) :
    natBits (a + b) (x * 2 ^ b + y) = natBits a x ++ natBits b y := by
  rw [natBits_append]
  congr 1
  · rw [Nat.mul_comm, Nat.mul_add_div (Nat.pow_pos (by omega)), Nat.div_eq_of_lt hy, Nat.add_zero]
  · apply natBits_congr
    rw [Nat.mul_comm, Nat.mul_add_mod]

theorem bitsNat_lt (l : List Bool) : bitsNat l < 2 ^ l.length := by
  induction l with
  | nil => simp [bitsNat]
  | cons b l ih =>
    simp only [bitsNat, List.length_cons, Nat.pow_succ]
    cases b <;> simp <;> omega

theorem bitsNat_append (l m : List Bool) : bitsNat (l ++ m) = bitsNat l * 2 ^ m.length + bitsNat m := by
  induction l with
  | nil => simp [bitsNat]
  | cons b l ih =>
    simp only [List.cons_append, bitsNat, ih, List.length_append, Nat.pow_add, Nat.add_mul]
    rw [Nat.mul_assoc, Nat.add_assoc]

theorem bitsNat_natBits (w n : Nat) : bitsNat (natBits w n) = n % 2 ^ w := by
  induction w with
  | zero => simp [natBits, bitsNat, Nat.mod_one]
  | succ w ih =>
    simp only [natBits, bitsNat, natBits_length, ih]
    rw [Nat.pow_succ, Nat.mod_mul, Nat.testBit_eq_decide_div_mod_eq]
    rcases Nat.mod_two_eq_zero_or_one (n / 2 ^ w) with h | h <;> simp [h] <;> omega

theorem natBits_bitsNat (l : List Bool) : natBits l.length (bitsNat l) = l := by
  induction l with
  | nil => rfl
  | cons b l ih =>
    have h := bitsNat_lt l
    rw [List.length_cons, Nat.add_comm]
    simp only [bitsNat]
    rw [natBits_mul_add 1 _ _ _ h, ih]
    cases b <;> simp [natBits]

theorem natBits_inj {w n m : Nat} (hn : n < 2 ^ w) (hm : m < 2 ^ w) (h : natBits w n = natBits w m) : n = m := by
  have := congrArg bitsNat h
  rwa [bitsNat_natBits, bitsNat_natBits, Nat.mod_eq_of_lt hn, Nat.mod_eq_of_lt hm] at this

@[simp] theorem bytesBits_nil : bytesBits [] = [] := rfl
@[simp] theorem bytesBits_cons (b : Byte) (s : Bytes) : bytesBits (b :: s) = natBits 8 b.toNat ++ bytesBits s := rfl
@[simp] theorem bytesBits_append (s t : Bytes) : bytesBits (s ++ t) = bytesBits s ++ bytesBits t := by
  simp [bytesBits]
@[simp] theorem bytesBits_length (s : Bytes) : (bytesBits s).length = 8 * s.length := by
  induction s with
  | nil => rfl
  | cons b s ih => simp [ih]; omega

/-! ### Writing -/

/-- The pending bits of a bit state. -/
def BitState.bits (st : BitState) : List Bool := natBits st.bitsLeft st.lastByte.toNat

/-- Invariant of the bit state between calls. -/
def BitState.WF (st : BitState) : Prop := st.bitsLeft < 8 ∧ st.lastByte.toNat < 2 ^ st.bitsLeft

theorem forgetBits_wf : forgetBits.WF := by constructor <;> decide
@[simp] theorem forgetBits_bits : forgetBits.bits = [] := rfl

theorem bytesBits_writeBytesLoop (V : U64) (left n : Nat) (_h : left + 8 * n ≤ 64) :
    bytesBits (writeBytesLoop V left n) = natBits (8 * n) (V.toNat / 2 ^ left) := by
  induction n with
  | zero => rfl
  | succ n ih =>
    simp only [writeBytesLoop, bytesBits_cons]
    rw [ih (by omega), show 8 * (n + 1) = 8 + 8 * n by omega, natBits_append]
    congr 1
    rw [BitVec.toNat_setWidth, BitVec.toNat_ushiftRight, Nat.shiftRight_eq_div_pow, natBits_mod,
      Nat.pow_add, Nat.div_div_eq_div_mul]

theorem writeBytesLoop_length (V : U64) (left n : Nat) : (writeBytesLoop V left n).length = n := by
  induction n with
  | zero => rfl
  | succ n ih => simp [writeBytesLoop, ih]

theorem mask8_toNat (x : Byte) (k : Nat) (hk : k < 8) :
    (x &&& (1#8 <<< k - 1#8)).toNat = x.toNat % 2 ^ k := by
  have h1 : (1#8 <<< k - 1#8).toNat = 2 ^ k - 1 := by
    have : ∀ k : Fin 8, (1#8 <<< k.val - 1#8).toNat = 2 ^ k.val - 1 := by decide
    exact this ⟨k, hk⟩
  rw [BitVec.toNat_and, h1, Nat.and_two_pow_sub_one_eq_mod]

theorem writeBits_spec (st : BitState) (hst : st.WF) (v : U64) (bits : Nat) (hv : v.toNat < 2 ^ bits)
    (hb : st.bitsLeft + bits ≤ 64) :
    ∃ st' out, writeBits st v bits = .ok (st', out) ∧ st'.WF ∧
      st'.bitsLeft = (st.bitsLeft + bits) % 8 ∧
      st.bits ++ natBits bits v.toNat = bytesBits out ++ st'.bits := by
  obtain ⟨h8, hlast⟩ := hst
  let V : U64 := if st.lastByte ≠ 0 then (st.lastByte.setWidth 64 <<< bits) ||| v else v
  have hlow : st.lastByte.toNat * 2 ^ bits < 2 ^ 64 := by
    calc st.lastByte.toNat * 2 ^ bits < 2 ^ st.bitsLeft * 2 ^ bits :=
          Nat.mul_lt_mul_of_pos_right hlast (Nat.pow_pos (by omega))
      _ = 2 ^ (st.bitsLeft + bits) := by rw [Nat.pow_add]
      _ ≤ 2 ^ 64 := Nat.pow_le_pow_right (by omega) hb
  have hV : V.toNat = st.lastByte.toNat * 2 ^ bits + v.toNat := by
    by_cases h0 : st.lastByte = 0
    · simp [V, h0]
    · have hw : (st.lastByte.setWidth 64).toNat = st.lastByte.toNat := by
        rw [BitVec.toNat_setWidth]; have := st.lastByte.isLt; omega
      simp only [V, ne_eq, h0, not_false_eq_true, if_true]
      rw [BitVec.or_comm]
      rw [BitVec.toNat_or, BitVec.toNat_shiftLeft, hw, Nat.shiftLeft_eq, Nat.mod_eq_of_lt hlow, Nat.or_comm,
        ← Nat.shiftLeft_eq, ← Nat.shiftLeft_add_eq_or_of_lt hv]
  have hl : (st.bitsLeft + bits) % 8 < 8 := Nat.mod_lt _ (by omega)
  have hlast' : (V.setWidth 8 &&& (1#8 <<< ((st.bitsLeft + bits) % 8) - 1#8)).toNat =
      V.toNat % 2 ^ ((st.bitsLeft + bits) % 8) := by
    rw [mask8_toNat _ _ hl, BitVec.toNat_setWidth]
    exact Nat.mod_mod_of_dvd _ (Nat.pow_dvd_pow 2 (by omega))
  refine ⟨⟨V.setWidth 8 &&& (1#8 <<< ((st.bitsLeft + bits) % 8) - 1#8), (st.bitsLeft + bits) % 8⟩,
    writeBytesLoop V ((st.bitsLeft + bits) % 8) ((st.bitsLeft + bits) / 8), ?_, ⟨hl, ?_⟩, rfl, ?_⟩
  · simp only [writeBits]; rw [if_neg (by omega)]
  · show BitVec.toNat _ < _
    rw [hlast']; exact Nat.mod_lt _ (Nat.pow_pos (by omega))
  · rw [bytesBits_writeBytesLoop _ _ _ (by omega)]
    simp only [BitState.bits]
    rw [hlast', natBits_mod, ← natBits_append, ← natBits_mul_add _ _ _ _ hv, ← hV]
    congr 1
    omega

theorem writeLeftBits_spec (st : BitState) (hst : st.WF) :
    ∃ pad, bytesBits (writeLeftBits st) = st.bits ++ pad ∧ pad.length < 8 := by
  obtain ⟨h8, hlast⟩ := hst
  by_cases h : st.bitsLeft = 0
  · exact ⟨[], by simp [writeLeftBits, h, BitState.bits, natBits], by simp⟩
  · refine ⟨natBits (8 - st.bitsLeft) 0, ?_, by simp; omega⟩
    simp only [writeLeftBits, ne_eq, h, not_false_eq_true, if_true, bytesBits_cons, bytesBits_nil,
      List.append_nil, BitState.bits]
    rw [← natBits_mul_add _ _ _ _ (Nat.pow_pos (by omega)), show st.bitsLeft + (8 - st.bitsLeft) = 8 by omega]
    apply natBits_congr
    rw [BitVec.toNat_shiftLeft, Nat.shiftLeft_eq, Nat.mod_mod, Nat.add_zero]

/-- Writing a list of values of one width: succeeds iff no value straddles nine bytes. -/
theorem writeBitsAll_spec (bits : Nat) (vs : List U64) (st : BitState) (hst : st.WF)
    (hv : ∀ v ∈ vs, v.toNat < 2 ^ bits) (st' : BitState) (out : Bytes)
    (h : writeBitsAll st vs bits = .ok (st', out)) :
    st'.WF ∧ st.bits ++ vs.flatMap (fun v => natBits bits v.toNat) = bytesBits out ++ st'.bits := by
  induction vs generalizing st out with
  | nil => simp [writeBitsAll] at h; obtain ⟨rfl, rfl⟩ := h; exact ⟨hst, by simp⟩
  | cons v vs ih =>
    simp only [writeBitsAll] at h
    by_cases hb : st.bitsLeft + bits ≤ 64
    · obtain ⟨st1, out1, h1, h2, -, h4⟩ := writeBits_spec st hst v bits (hv v (by simp)) hb
      rw [h1] at h
      simp only [Res.ok_bind, Res.bind_eq_ok] at h
      obtain ⟨⟨st2, out2⟩, h5, h6⟩ := h
      obtain ⟨h7, h8⟩ := ih st1 h2 (fun w hw => hv w (by simp [hw])) out2 (by
        rw [h5]; simp at h6; rw [h6.1])
      refine ⟨h7, ?_⟩
      simp at h6
      rw [List.flatMap_cons, ← List.append_assoc, h4, List.append_assoc, h8, ← h6.2]
      simp
    · simp only [writeBits] at h
      rw [if_pos (by omega)] at h
      simp at h

theorem writeBitsAll_ok (bits : Nat) (vs : List U64) (st : BitState) (hst : st.WF)
    (hv : ∀ v ∈ vs, v.toNat < 2 ^ bits) (hb : bits + 7 ≤ 64 ∨ (bits % 8 = 0 ∧ st.bitsLeft = 0 ∧ bits ≤ 64)) :
    ∃ r, writeBitsAll st vs bits = .ok r := by
  induction vs generalizing st with
  | nil => exact ⟨_, rfl⟩
  | cons v vs ih =>
    have h8 := hst.1
    obtain ⟨st1, out1, h1, h2, h3, h4⟩ := writeBits_spec st hst v bits (hv v (by simp)) (by omega)
    obtain ⟨r, hr⟩ := ih st1 h2 (fun w hw => hv w (by simp [hw])) (by omega)
    exact ⟨(r.1, out1 ++ r.2), by simp [writeBitsAll, h1, hr]⟩

/-! ### Reading -/

theorem readBitsLoop_spec (bits fuel has : Nat) (data : U64) (s : Bytes) (hf : bits ≤ has + fuel)
    (hd : data.toNat < 2 ^ has) (hbound : bits ≤ has ∨ has + 8 * ((bits - has + 7) / 8) ≤ 64)
    (hlen : bits ≤ has + 8 * s.length) :
    ∃ k, k ≤ s.length ∧ has + 8 * k ≥ bits ∧ (k = 0 ∨ has + 8 * k < bits + 8) ∧
      ∃ d : U64, d.toNat = data.toNat * 2 ^ (8 * k) + bitsNat (bytesBits (s.take k)) ∧
      (readBitsLoop bits fuel has data).runBuf s = .ok ((has + 8 * k, d), s.drop k) := by
  induction fuel generalizing has data s with
  | zero =>
    refine ⟨0, by omega, by omega, Or.inl rfl, data, by simp [bitsNat], ?_⟩
    simp [readBitsLoop]
  | succ n ih =>
    by_cases hlt : has < bits
    · cases s with
      | nil => simp at hlen; omega
      | cons b s =>
        have hb := b.isLt
        have h64 : has + 8 ≤ 64 := by omega
        have hsh : data.toNat * 2 ^ 8 < 2 ^ 64 := by
          have : data.toNat * 2 ^ 8 < 2 ^ has * 2 ^ 8 := Nat.mul_lt_mul_of_pos_right hd (by omega)
          rw [← Nat.pow_add] at this
          exact Nat.lt_of_lt_of_le this (Nat.pow_le_pow_right (by omega) h64)
        have hbw : (b.setWidth 64).toNat = b.toNat := by rw [BitVec.toNat_setWidth]; omega
        have hnew : ((data <<< 8) ||| b.setWidth 64).toNat = data.toNat * 2 ^ 8 + b.toNat := by
          rw [BitVec.toNat_or, BitVec.toNat_shiftLeft, hbw, Nat.shiftLeft_eq, Nat.mod_eq_of_lt hsh,
            ← Nat.shiftLeft_eq, ← Nat.shiftLeft_add_eq_or_of_lt hb]
        have hnlt : ((data <<< 8) ||| b.setWidth 64).toNat < 2 ^ (has + 8) := by
          rw [hnew, Nat.pow_add]
          have hp : data.toNat + 1 ≤ 2 ^ has := hd
          have hb' : b.toNat < 256 := hb
          clear hsh hnew hbw ih hlen hbound hd
          generalize 2 ^ has = p at hp ⊢
          generalize data.toNat = x at hp ⊢
          generalize b.toNat = y at hb' ⊢
          omega
        obtain ⟨k, h1, h2, h3, d, h4, h5⟩ := ih (has + 8) ((data <<< 8) ||| b.setWidth 64) s (by omega) hnlt
          (by omega) (by simp at hlen; omega)
        refine ⟨k + 1, by simp; omega, by omega, by omega, d, ?_, ?_⟩
        · rw [h4, hnew, List.take_succ_cons, bytesBits_cons, bitsNat_append, bitsNat_natBits, bytesBits_length,
            List.length_take, Nat.min_eq_left h1, Nat.mod_eq_of_lt hb,
            show 8 * (k + 1) = 8 + 8 * k by omega, Nat.pow_add, Nat.add_mul, Nat.mul_assoc, Nat.add_assoc]
        · simp only [readBitsLoop, hlt, if_true, Dec.runBuf_bind, Dec.runBuf_byte_cons, Res.ok_bind, h5]
          simp; omega
    · refine ⟨0, by omega, by omega, Or.inl rfl, data, by simp [bitsNat], ?_⟩
      simp [readBitsLoop, hlt]

theorem mask64_toNat (x : U64) (k : Nat) (hk : k < 64) :
    (x &&& (1#64 <<< k - 1#64)).toNat = x.toNat % 2 ^ k := by
  have h0 : (1#64 <<< k).toNat = 2 ^ k := by
    rw [BitVec.toNat_shiftLeft, Nat.shiftLeft_eq]
    have : 2 ^ k < 2 ^ 64 := Nat.pow_lt_pow_right (by omega) hk
    simp only [BitVec.toNat_ofNat]
    rw [show 1 % 2 ^ 64 = 1 from rfl, Nat.one_mul, Nat.mod_eq_of_lt this]
  have h1 : (1#64 <<< k - 1#64).toNat = 2 ^ k - 1 := by
    rw [BitVec.toNat_sub, h0]
    have : 2 ^ k < 2 ^ 64 := Nat.pow_lt_pow_right (by omega) hk
    have : 0 < 2 ^ k := Nat.pow_pos (by omega)
    simp only [BitVec.toNat_ofNat]
    omega
  rw [BitVec.toNat_and, h1, Nat.and_two_pow_sub_one_eq_mod]

/-- Reading a field when enough bits remain and the field does not straddle nine bytes. -/
theorem readBits_spec (st : BitState) (hst : st.WF) (bits : Nat) (s : Bytes)
    (hbound : bits ≤ st.bitsLeft ∨ st.bitsLeft + 8 * ((bits - st.bitsLeft + 7) / 8) ≤ 64)
    (f rest : List Bool) (hf : f.length = bits) (hbits : st.bits ++ bytesBits s = f ++ rest) :
    ∃ v st' s', (readBits st bits).runBuf s = .ok ((v, st'), s') ∧ v.toNat = bitsNat f ∧ st'.WF ∧
      st'.bits ++ bytesBits s' = rest ∧ st'.bitsLeft = (st.bitsLeft + 8 * bits - bits) % 8 := by
  obtain ⟨h8, hlast⟩ := hst
  have hlen : bits ≤ st.bitsLeft + 8 * s.length := by
    have := congrArg List.length hbits
    simp [BitState.bits] at this
    omega
  have hw : (st.lastByte.setWidth 64).toNat = st.lastByte.toNat := by
    rw [BitVec.toNat_setWidth]; have := st.lastByte.isLt; omega
  obtain ⟨k, h1, h2, h3, d, h4, h5⟩ := readBitsLoop_spec bits bits st.bitsLeft (st.lastByte.setWidth 64) s
    (by omega) (by rw [hw]; exact hlast) hbound hlen
  rw [hw] at h4
  have hk8 : (bytesBits (s.take k)).length = 8 * k := by simp; omega
  -- the collected number is the number of the collected bits
  have hd : d.toNat = bitsNat (st.bits ++ bytesBits (s.take k)) := by
    rw [h4, bitsNat_append, hk8, BitState.bits, bitsNat_natBits, Nat.mod_eq_of_lt hlast]
  have hsplit : st.bits ++ bytesBits (s.take k) ++ bytesBits (s.drop k) = f ++ rest := by
    rw [List.append_assoc, ← bytesBits_append, List.take_append_drop, hbits]
  have hclen : (st.bits ++ bytesBits (s.take k)).length = st.bitsLeft + 8 * k := by
    rw [List.length_append, hk8]; simp [BitState.bits]
  -- hence the collected bits are f followed by the leftover
  obtain ⟨lo, hlo, hrest⟩ : ∃ lo, st.bits ++ bytesBits (s.take k) = f ++ lo ∧ rest = lo ++ bytesBits (s.drop k) := by
    refine ⟨(st.bits ++ bytesBits (s.take k)).drop bits, ?_, ?_⟩
    · have := congrArg (List.take bits) hsplit
      rw [List.take_append_of_le_length (by omega), ← hf, List.take_left] at this
      rw [← hf]
      conv => lhs; rw [← List.take_append_drop f.length (st.bits ++ bytesBits (s.take k)), this]
    · have := congrArg (List.drop bits) hsplit
      rw [List.drop_append_of_le_length (by omega), ← hf, List.drop_left] at this
      rw [← hf]; exact this.symm
  have hlolen : lo.length = st.bitsLeft + 8 * k - bits := by
    have := congrArg List.length hlo
    rw [hclen, List.length_append, hf] at this
    omega
  have hlo8 : lo.length < 8 := by rw [hlolen]; omega
  have hdn : d.toNat = bitsNat f * 2 ^ lo.length + bitsNat lo := by rw [hd, hlo, bitsNat_append]
  have hlolt := bitsNat_lt lo
  refine ⟨d >>> (st.bitsLeft + 8 * k - bits),
    ⟨(d &&& (1#64 <<< (st.bitsLeft + 8 * k - bits) - 1#64)).setWidth 8, st.bitsLeft + 8 * k - bits⟩, s.drop k, ?_, ?_, ?_, ?_, ?_⟩
  · simp only [readBits, Dec.runBuf_bind, h5, Res.ok_bind]; rfl
  · rw [BitVec.toNat_ushiftRight, Nat.shiftRight_eq_div_pow, ← hlolen, hdn, Nat.mul_comm,
      Nat.mul_add_div (Nat.pow_pos (by omega)), Nat.div_eq_of_lt hlolt, Nat.add_zero]
  · have hv : ((d &&& (1#64 <<< (st.bitsLeft + 8 * k - bits) - 1#64)).setWidth 8).toNat = bitsNat lo := by
      rw [BitVec.toNat_setWidth, mask64_toNat _ _ (by omega), ← hlolen, hdn, Nat.mul_comm, Nat.mul_add_mod,
        Nat.mod_eq_of_lt hlolt]
      exact Nat.mod_eq_of_lt (Nat.lt_of_lt_of_le hlolt (Nat.pow_le_pow_right (by omega) (by omega)))
    constructor
    · show st.bitsLeft + 8 * k - bits < 8
      omega
    · show BitVec.toNat _ < 2 ^ (st.bitsLeft + 8 * k - bits)
      rw [hv, ← hlolen]; exact hlolt
  · have hv : ((d &&& (1#64 <<< (st.bitsLeft + 8 * k - bits) - 1#64)).setWidth 8).toNat = bitsNat lo := by
      rw [BitVec.toNat_setWidth, mask64_toNat _ _ (by omega), ← hlolen, hdn, Nat.mul_comm, Nat.mul_add_mod,
        Nat.mod_eq_of_lt hlolt]
      exact Nat.mod_eq_of_lt (Nat.lt_of_lt_of_le hlolt (Nat.pow_le_pow_right (by omega) (by omega)))
    rw [hrest]
    congr 1
    show natBits (st.bitsLeft + 8 * k - bits) (BitVec.toNat _) = lo
    rw [hv, ← hlolen, natBits_bitsNat]
  · show st.bitsLeft + 8 * k - bits = _
    omega

/-- Too few bits: end of input. -/
theorem readBits_eof (st : BitState) (bits : Nat) (s : Bytes)
    (h : st.bitsLeft + 8 * s.length < bits) : (readBits st bits).runBuf s = .err .eof := by
  have key : ∀ fuel has (data : U64) (s : Bytes), has + 8 * s.length < bits → bits ≤ has + fuel →
      (readBitsLoop bits fuel has data).runBuf s = .err .eof := by
    intro fuel
    induction fuel with
    | zero => intro has data s h1 h2; omega
    | succ n ih =>
      intro has data s h1 h2
      cases s with
      | nil => simp [readBitsLoop, show has < bits by simpa using h1]
      | cons b s =>
        simp only [List.length_cons] at h1
        simp only [readBitsLoop, show has < bits by omega, if_true, Dec.runBuf_bind, Dec.runBuf_byte_cons,
          Res.ok_bind]
        exact ih _ _ _ (by omega) (by omega)
  simp only [readBits, Dec.runBuf_bind, key bits st.bitsLeft _ s h (by omega)]
  rfl

end Goorc
