import Verif.Proofs.BitIO
namespace Goorc

/-- Writer and reader are at the same bit position modulo 8. -/
def Aligned (q r : Nat) : Prop := q < 8 ∧ (q + r) % 8 = 0

/-- No field of `n` fields of width `bits`, starting at bit position `q`, touches nine bytes. -/
def Fits (q bits n : Nat) : Prop := ∀ i, i < n → (q + i * bits) % 8 + bits ≤ 64

theorem Fits.head {q bits n : Nat} (h : Fits q bits (n + 1)) (hq : q < 8) : q + bits ≤ 64 := by
  have := h 0 (by omega)
  simp only [Nat.zero_mul, Nat.add_zero] at this
  omega

theorem Fits.tail {q bits n : Nat} (h : Fits q bits (n + 1)) : Fits ((q + bits) % 8) bits n := by
  intro i hi
  have := h (i + 1) (by omega)
  rw [Nat.add_mul, Nat.one_mul] at this
  omega

theorem fits_of_small {q bits n : Nat} (h : bits + 7 ≤ 64) : Fits q bits n := by
  intro i _; omega

theorem fits_of_bytes {bits n : Nat} (h : bits % 8 = 0) (h' : bits ≤ 64) : Fits 0 bits n := by
  intro i _
  have : (0 + i * bits) % 8 = 0 := by
    rw [Nat.zero_add, Nat.mul_mod, h]; simp
  omega

theorem fits_of_write (bits : Nat) (vs : List U64) (st : BitState) (hst : st.WF)
    (hv : ∀ v ∈ vs, v.toNat < 2 ^ bits) (r : BitState × Bytes) (h : writeBitsAll st vs bits = .ok r) :
    Fits st.bitsLeft bits vs.length := by
  induction vs generalizing st r with
  | nil => intro i hi; simp at hi
  | cons v vs ih =>
    simp only [writeBitsAll] at h
    by_cases hb : st.bitsLeft + bits ≤ 64
    · obtain ⟨st1, out1, h1, h2, h3, h4⟩ := writeBits_spec st hst v bits (hv v (by simp)) hb
      rw [h1] at h
      simp only [Res.ok_bind, Res.bind_eq_ok] at h
      obtain ⟨r2, h5, h6⟩ := h
      have hf := ih st1 h2 (fun w hw => hv w (by simp [hw])) r2 h5
      intro i hi
      cases i with
      | zero => have := hst.1; omega
      | succ i =>
        have := hf i (by simpa using hi)
        rw [h3] at this
        rw [Nat.add_mul, Nat.one_mul]
        omega
    · simp only [writeBits] at h
      rw [if_pos (by omega)] at h
      simp at h

theorem write_of_fits (bits : Nat) (vs : List U64) (st : BitState) (hst : st.WF)
    (hv : ∀ v ∈ vs, v.toNat < 2 ^ bits) (hf : Fits st.bitsLeft bits vs.length) :
    ∃ r, writeBitsAll st vs bits = .ok r := by
  induction vs generalizing st with
  | nil => exact ⟨_, rfl⟩
  | cons v vs ih =>
    obtain ⟨st1, out1, h1, h2, h3, h4⟩ := writeBits_spec st hst v bits (hv v (by simp)) (hf.head hst.1)
    obtain ⟨r, hr⟩ := ih st1 h2 (fun w hw => hv w (by simp [hw])) (by rw [h3]; exact hf.tail)
    exact ⟨(r.1, out1 ++ r.2), by simp [writeBitsAll, h1, hr]⟩

/-- One field, read at the same position at which it could be written. -/
theorem readBits_step (st : BitState) (hst : st.WF) (q bits : Nat) (ha : Aligned q st.bitsLeft)
    (hq : q + bits ≤ 64) (s : Bytes) (v : U64) (hv : v.toNat < 2 ^ bits) (rest : List Bool)
    (hbits : st.bits ++ bytesBits s = natBits bits v.toNat ++ rest) :
    ∃ st' s', (readBits st bits).runBuf s = .ok ((v, st'), s') ∧ st'.WF ∧
      st'.bits ++ bytesBits s' = rest ∧ Aligned ((q + bits) % 8) st'.bitsLeft := by
  have h8 := hst.1
  obtain ⟨ha1, ha2⟩ := ha
  obtain ⟨v', st', s', h1, h2, h3, h4, h5⟩ := readBits_spec st hst bits s (by omega)
    (natBits bits v.toNat) rest (by simp) hbits
  have : v' = v := by
    apply BitVec.eq_of_toNat_eq
    rw [h2, bitsNat_natBits, Nat.mod_eq_of_lt hv]
  subst this
  exact ⟨st', s', h1, h3, h4, by constructor <;> omega⟩

theorem readBitsN_spec (bits : Nat) (vs : List U64) (st : BitState) (hst : st.WF) (q : Nat)
    (ha : Aligned q st.bitsLeft) (hf : Fits q bits vs.length) (s : Bytes)
    (hv : ∀ v ∈ vs, v.toNat < 2 ^ bits) (rest : List Bool)
    (hbits : st.bits ++ bytesBits s = vs.flatMap (fun v => natBits bits v.toNat) ++ rest) :
    ∃ st' s', (readBitsN st bits vs.length).runBuf s = .ok (vs, s') ∧ BitState.WF st' ∧
      st'.bits ++ bytesBits s' = rest := by
  induction vs generalizing st q s with
  | nil => exact ⟨st, s, by simp [readBitsN], hst, by simpa using hbits⟩
  | cons v vs ih =>
    rw [List.flatMap_cons, List.append_assoc] at hbits
    obtain ⟨st1, s1, h1, h2, h3, h4⟩ := readBits_step st hst q bits ha (hf.head ha.1) s v (hv v (by simp)) _ hbits
    obtain ⟨st2, s2, h5, h6, h7⟩ := ih st1 h2 _ h4 hf.tail s1 (fun w hw => hv w (by simp [hw])) h3
    refine ⟨st2, s2, ?_, h6, h7⟩
    simp only [List.length_cons, readBitsN, Dec.runBuf_bind, h1, Res.ok_bind, h5]
    rfl

theorem bytesBits_inj {s t : Bytes} (h : bytesBits s = bytesBits t) : s = t := by
  induction s generalizing t with
  | nil =>
    have := congrArg List.length h
    simp at this
    exact (List.length_eq_zero_iff.mp (by omega)).symm
  | cons b s ih =>
    cases t with
    | nil => have := congrArg List.length h; simp at this
    | cons c t =>
      simp only [bytesBits_cons] at h
      have := List.append_inj h (by simp)
      rw [ih this.2, BitVec.eq_of_toNat_eq (natBits_inj b.isLt c.isLt this.1)]

/-- Fewer than eight bits of padding: the next byte is where the next block starts. -/
theorem byte_boundary {st : BitState} (hst : st.WF) {s t : Bytes} {pad : List Bool} (hp : pad.length < 8)
    (h : st.bits ++ bytesBits s = pad ++ bytesBits t) : s = t := by
  have hl := congrArg List.length h
  have h8 := hst.1
  simp [BitState.bits] at hl
  have := List.append_inj h (by simp [BitState.bits]; omega)
  exact bytesBits_inj this.2

/-- Values written with one width, read back with that width, followed by anything. -/
theorem write_read_all (bits : Nat) (vs : List U64) (hv : ∀ v ∈ vs, v.toNat < 2 ^ bits)
    (st : BitState) (out : Bytes) (h : writeBitsAll forgetBits vs bits = .ok (st, out)) (tail : Bytes) :
    (readBitsN forgetBits bits vs.length).runBuf (out ++ writeLeftBits st ++ tail) = .ok (vs, tail) := by
  obtain ⟨h1, h2⟩ := writeBitsAll_spec bits vs forgetBits forgetBits_wf hv st out h
  have hf := fits_of_write bits vs forgetBits forgetBits_wf hv _ h
  obtain ⟨pad, h3, h4⟩ := writeLeftBits_spec st h1
  obtain ⟨st', s', h5, h6, h7⟩ := readBitsN_spec bits vs forgetBits forgetBits_wf 0 ⟨by omega, rfl⟩ hf
    (out ++ writeLeftBits st ++ tail) hv (pad ++ bytesBits tail) (by
      simp only [bytesBits_append, h3, forgetBits_bits, List.nil_append] at h2 ⊢
      rw [h2]; simp)
  rw [h5, byte_boundary h6 h4 h7]

end Goorc
