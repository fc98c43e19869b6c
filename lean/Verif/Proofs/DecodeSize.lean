import Verif.Model.EncInt
import Verif.Model.EncBool
import Verif.Proofs.Dec
/-
Helper lemmas for C119: how many values a run of a decoder returns for the bytes it reads.
-/
namespace Goorc
namespace DecodeSize

/-- Whenever `d` succeeds it has read at least `n` bytes and what it returns satisfies `P`. -/
def Uses {α : Type} (d : Dec α) (n : Nat) (P : α → Prop) : Prop :=
  ∀ s v rest, d.runBuf s = .ok (v, rest) → rest.length + n ≤ s.length ∧ P v

theorem Uses.bind {α β : Type} {d : Dec α} {f : α → Dec β} {P : α → Prop} {Q : β → Prop} {a b : Nat} (h : Uses d a P)
    (hf : ∀ x, P x → Uses (f x) b Q) : Uses (d >>= f) (a + b) Q := by
  intro s v rest hv
  rw [Dec.runBuf_bind] at hv
  obtain ⟨⟨x, s1⟩, h1, h2⟩ := Res.bind_eq_ok.mp hv
  obtain ⟨g1, g2⟩ := h _ _ _ h1
  obtain ⟨g3, g4⟩ := hf x g2 _ _ _ h2
  simp only at g3
  exact ⟨by omega, g4⟩

theorem Uses.mono {α : Type} {d : Dec α} {P Q : α → Prop} {a b : Nat} (h : Uses d a P) (hb : b ≤ a) (hq : ∀ x, P x → Q x) : Uses d b Q := by
  intro s v rest hv
  obtain ⟨g1, g2⟩ := h _ _ _ hv
  exact ⟨by omega, hq _ g2⟩

theorem Uses.ret {α : Type} {P : α → Prop} (a : α) (h : P a) : Uses (Dec.ret a) 0 P := by
  intro s v rest hv
  rw [Dec.runBuf_ret] at hv
  obtain ⟨rfl, rfl⟩ := Prod.mk.inj (Res.ok.inj hv)
  exact ⟨by omega, h⟩

theorem Uses.fail {α : Type} {P : α → Prop} (n : Nat) (e : Err) : Uses (Dec.fail e : Dec α) n P := by
  intro s v rest hv
  simp at hv

theorem Uses.byte : Uses Dec.byte 1 fun _ => True := by
  intro s v rest hv
  cases s with
  | nil => simp at hv
  | cons b s =>
    rw [Dec.runBuf_byte_cons] at hv
    obtain ⟨rfl, rfl⟩ := Prod.mk.inj (Res.ok.inj hv)
    exact ⟨by simp, trivial⟩

theorem Uses.full (n : Nat) : Uses (Dec.full n) n fun _ => True := by
  intro s v rest hv
  rw [Dec.runBuf_full] at hv
  split at hv
  · obtain ⟨rfl, rfl⟩ := Prod.mk.inj (Res.ok.inj hv)
    exact ⟨by rw [List.length_drop]; omega, trivial⟩
  · cases hv

theorem Uses.any {α : Type} (d : Dec α) : Uses d 0 fun _ => True := by
  intro s v rest hv
  obtain ⟨p, rfl⟩ := Dec.runBuf_suffix _ _ _ _ hv
  exact ⟨by simp, trivial⟩

theorem uses_width (c : Byte) : Uses (Dec.ofRes (widthDecoding (c &&& 0x1f#8) false)) 0 fun w => 1 ≤ w := by
  have key : ∀ c : Byte, (match widthDecoding (c &&& 0x1f#8) false with | .ok w => decide (1 ≤ w) | _ => true) = true := by decide +kernel
  have := key c
  intro s v rest hv
  cases h : widthDecoding (c &&& 0x1f#8) false with
  | ok w =>
    rw [h] at hv this
    simp only [Dec.ofRes, Dec.runBuf_ret] at hv
    obtain ⟨rfl, rfl⟩ := Prod.mk.inj (Res.ok.inj hv)
    exact ⟨by omega, by simpa using this⟩
  | err e => rw [h] at hv; simp [Dec.ofRes] at hv
  | panic => rw [h] at hv; simp [Dec.ofRes] at hv
  | hang => rw [h] at hv; simp [Dec.ofRes] at hv

theorem uses_uvarint : Uses readUvarint 1 fun _ => True := by
  simp only [readUvarint, readUvarintLoop]
  refine (Uses.byte.bind fun b _ => ?_ : Uses _ (1 + 0) _)
  exact Uses.any _

theorem uses_varint : Uses readVarint 1 fun _ => True :=
  (uses_uvarint.bind fun _ _ => Uses.any _ : Uses _ (1 + 0) _)

/-! ### Bits -/

theorem readBitsLoop_size (bits : Nat) : ∀ (fuel has : Nat) (data : U64) (s : Bytes) (p : Nat × U64) (rest : Bytes), bits ≤ has + fuel →
    (readBitsLoop bits fuel has data).runBuf s = .ok (p, rest) → bits ≤ p.1 ∧ p.1 + 8 * rest.length = has + 8 * s.length := by
  intro fuel
  induction fuel with
  | zero =>
    intro has data s p rest hb h
    simp only [readBitsLoop, Dec.pure_eq, Dec.runBuf_ret] at h
    obtain ⟨rfl, rfl⟩ := Prod.mk.inj (Res.ok.inj h)
    exact ⟨by simpa using hb, rfl⟩
  | succ n ih =>
    intro has data s p rest hb h
    simp only [readBitsLoop] at h
    split at h
    · cases s with
      | nil => simp at h
      | cons b s =>
        simp only [Dec.runBuf_bind, Dec.runBuf_byte_cons, Res.ok_bind] at h
        obtain ⟨g1, g2⟩ := ih (has + 8) _ s p rest (by omega) h
        exact ⟨g1, by simp only [List.length_cons]; omega⟩
    · simp only [Dec.pure_eq, Dec.runBuf_ret] at h
      obtain ⟨rfl, rfl⟩ := Prod.mk.inj (Res.ok.inj h)
      exact ⟨by omega, rfl⟩

theorem readBits_size {st : BitState} {bits : Nat} {s rest : Bytes} {v : U64} {st' : BitState}
    (h : (readBits st bits).runBuf s = .ok ((v, st'), rest)) :
    st'.bitsLeft + bits + 8 * rest.length = st.bitsLeft + 8 * s.length := by
  simp only [readBits, Dec.runBuf_bind] at h
  obtain ⟨⟨p, r⟩, h1, h2⟩ := Res.bind_eq_ok.mp h
  obtain ⟨g1, g2⟩ := readBitsLoop_size bits bits st.bitsLeft _ s p r (by omega) h1
  simp only [Dec.pure_eq, Dec.runBuf_ret] at h2
  obtain ⟨h3, rfl⟩ := Prod.mk.inj (Res.ok.inj h2)
  obtain ⟨-, rfl⟩ := Prod.mk.inj h3
  simp only
  omega

theorem readBitsN_size (bits : Nat) : ∀ (n : Nat) (st : BitState) (s rest : Bytes) (vs : List U64),
    (readBitsN st bits n).runBuf s = .ok (vs, rest) → vs.length = n ∧ n * bits + 8 * rest.length ≤ st.bitsLeft + 8 * s.length := by
  intro n
  induction n with
  | zero =>
    intro st s rest vs h
    simp only [readBitsN, Dec.pure_eq, Dec.runBuf_ret] at h
    obtain ⟨rfl, rfl⟩ := Prod.mk.inj (Res.ok.inj h)
    exact ⟨rfl, by omega⟩
  | succ n ih =>
    intro st s rest vs h
    simp only [readBitsN, Dec.runBuf_bind] at h
    obtain ⟨⟨⟨v, st'⟩, r⟩, h1, h2⟩ := Res.bind_eq_ok.mp h
    obtain ⟨⟨us, r2⟩, h3, h4⟩ := Res.bind_eq_ok.mp h2
    simp only [Dec.pure_eq, Dec.runBuf_ret] at h4
    obtain ⟨rfl, rfl⟩ := Prod.mk.inj (Res.ok.inj h4)
    have e1 := readBits_size h1
    obtain ⟨e2, e3⟩ := ih _ _ _ _ h3
    simp only at e3
    refine ⟨by simp [e2], ?_⟩
    rw [Nat.succ_mul]
    omega

theorem uses_bits (w n : Nat) (hw : 1 ≤ w) : Uses (readBitsN forgetBits w n) ((n + 7) / 8) fun vs => vs.length = n := by
  intro s v rest h
  obtain ⟨g1, g2⟩ := readBitsN_size w n forgetBits s rest v h
  have : forgetBits.bitsLeft = 0 := rfl
  have : n * 1 ≤ n * w := Nat.mul_le_mul_left _ hw
  exact ⟨by omega, g1⟩

theorem uses_deltas (signed : Bool) (w : Nat) (ub db : U64) : ∀ (n : Nat) (st : BitState) (prev : U64),
    Uses (readDeltas signed w ub db n st prev) 0 fun l => l.length = n := by
  intro n
  induction n with
  | zero => intro st prev; exact Uses.ret _ rfl
  | succ n ih =>
    intro st prev
    simp only [readDeltas]
    split
    · exact (ih _ _).bind fun l hl => Uses.ret _ (by simp [hl])
    · refine ((Uses.any (readBits st w)).bind fun p _ => (ih p.2 _).bind fun l hl => Uses.ret _ ?_ : Uses _ (0 + (0 + 0)) _)
      rw [List.length_cons, hl]

theorem uses_patches (w pw pgw : Nat) (base : U64) : ∀ (n : Nat) (st : BitState) (mark : Nat) (uvs : List U64),
    Uses (readPatches w pw pgw base n st mark uvs) 0 fun l => l.length = uvs.length := by
  intro n
  induction n with
  | zero => intro st mark uvs; exact Uses.ret _ rfl
  | succ n ih =>
    intro st mark uvs
    simp only [readPatches]
    refine ((Uses.any (readBits st (pgw + pw))).bind fun p _ => ?_ : Uses _ (0 + 0) _)
    split
    · intro s v rest h; simp at h
    · refine (ih _ _ _).mono (Nat.le_refl _) fun l hl => ?_
      rw [hl, List.length_set]

theorem block_bound {signed : Bool} {s rest : Bytes} {vs : List U64} (h : (decodeRaw signed).runBuf s = .ok (vs, rest)) :
    vs.length ≤ 512 ∧ vs.length + 128 * rest.length ≤ 128 * s.length := by
  cases s with
  | nil => simp [decodeRaw] at h
  | cons h0 s =>
    simp only [decodeRaw, Dec.runBuf_bind, Dec.runBuf_byte_cons, Res.ok_bind] at h
    -- the body has read `k` more bytes for at most `128 * (k + 1)` values
    suffices ∃ k, rest.length + k ≤ s.length ∧ vs.length ≤ 512 ∧ vs.length ≤ 128 * (k + 1) by
      obtain ⟨k, a, b, c⟩ := this
      simp only [List.length_cons]
      omega
    have hlen : ∀ h1 : Byte, (h0.toNat % 2) * 256 + h1.toNat + 1 ≤ 512 := fun h1 => by have := h1.isLt; omega
    split at h
    · have key : ∀ b : Byte, 3 + (b &&& 0x07#8).toNat ≤ 10 := by decide +kernel
      have hr := key h0
      have := (Uses.any (decodeShortRepeat h0)) _ _ _ h
      simp only [decodeShortRepeat, Dec.runBuf_bind] at h
      obtain ⟨⟨v, r⟩, h1, h2⟩ := Res.bind_eq_ok.mp h
      simp only [Dec.pure_eq, Dec.runBuf_ret] at h2
      obtain ⟨rfl, rfl⟩ := Prod.mk.inj (Res.ok.inj h2)
      exact ⟨0, by omega, by rw [List.length_replicate]; omega, by rw [List.length_replicate]; omega⟩
    · split at h
      · have hd : ∀ h1, Uses (do
            let width ← Dec.ofRes (widthDecoding ((h0 >>> 1) &&& 0x1f#8) false)
            readBitsN forgetBits width ((h0.toNat % 2) * 256 + h1.toNat + 1) : Dec (List U64))
            (0 + ((h0.toNat % 2) * 256 + (h1 : Byte).toNat + 1 + 7) / 8) fun l => l.length = (h0.toNat % 2) * 256 + h1.toNat + 1 :=
          fun h1 => (uses_width _).bind fun w hw => uses_bits w _ hw
        cases s with
        | nil => simp [decodeDirect] at h
        | cons h1 s =>
          simp only [decodeDirect, Dec.runBuf_bind, Dec.runBuf_byte_cons, Res.ok_bind] at h
          obtain ⟨g1, g2⟩ := hd h1 s vs rest (by rw [Dec.runBuf_bind]; exact h)
          have := hlen h1
          exact ⟨1 + ((h0.toNat % 2) * 256 + h1.toNat + 1 + 7) / 8, by simp only [List.length_cons]; omega, by omega, by omega⟩
      · split at h
        · split at h
          · have hp : Uses (decodePatched h0) 3 fun l => l.length ≤ 512 := by
              simp only [decodePatched]
              refine ((Uses.full 3).bind fun hh _ => (uses_width _).bind fun w _ => (Uses.any _).bind fun pw _ => ?_ : Uses _ (3 + (0 + (0 + 0))) _)
              split
              · exact Uses.fail _ _
              · refine ((Uses.any _).bind fun bb _ => ?_ : Uses _ (0 + 0) _)
                intro s v rest hv
                rw [Dec.runBuf_bind] at hv
                obtain ⟨⟨ds, r⟩, k1, k2⟩ := Res.bind_eq_ok.mp hv
                obtain ⟨e1, -⟩ := readBitsN_size _ _ _ _ _ _ k1
                obtain ⟨e2, e3⟩ := uses_patches _ _ _ _ _ _ _ _ _ _ _ k2
                obtain ⟨e4, -⟩ := Uses.any _ _ _ _ k1
                have := hlen (hh.getD 0 0)
                rw [List.length_map] at e3
                simp only at e2 e3 e4 ⊢
                exact ⟨by omega, by omega⟩
            obtain ⟨g1, g2⟩ := hp _ _ _ h
            exact ⟨3, g1, g2, by omega⟩
          · simp at h
        · have hd : Uses (decodeDelta signed h0) 3 fun l => l.length ≤ 512 := by
            simp only [decodeDelta]
            have hub : Uses (if signed then do let b ← readVarint; pure (zigzag b) else readUvarint) 1 fun _ => True := by
              cases signed
              · exact uses_uvarint
              · exact (uses_varint.bind fun _ _ => Uses.any _ : Uses _ (1 + 0) _)
            have hrest : ∀ (h1 : Byte) (w : Nat) (ub : U64), Uses (do
                let deltaBase ← readVarint
                let vs ← readDeltas signed w ub deltaBase ((h0.toNat % 2) * 256 + h1.toNat + 1 - 2) forgetBits (addDeltaBase signed ub deltaBase)
                pure (ub :: addDeltaBase signed ub deltaBase :: vs)) 1 fun l => l.length ≤ 512 := by
              intro h1 w ub
              refine (uses_varint.bind fun db _ => (uses_deltas _ _ _ _ _ _ _).bind fun l hl => Uses.ret _ ?_ : Uses _ (1 + (0 + 0)) _)
              have := hlen h1
              simp only [List.length_cons, hl]; omega
            refine (Uses.byte.bind fun h1 _ => (Uses.any _).bind fun w _ => ?_ : Uses _ (1 + (0 + 2)) _)
            cases signed
            · exact (uses_uvarint.bind fun ub _ => hrest h1 w ub : Uses _ (1 + 1) _)
            · exact (uses_varint.bind fun b _ => hrest h1 w (zigzag b) : Uses _ (1 + 1) _)
          obtain ⟨g1, g2⟩ := hd _ _ _ h
          exact ⟨3, g1, g2, by omega⟩

/-- Reading blocks until the bytes are used up gives at most `k` values for each byte if each block does. -/
theorem all_bound {α : Type} {d : Dec (List α)} {k : Nat}
    (hd : ∀ s vs rest, d.runBuf s = .ok (vs, rest) → vs.length + k * rest.length ≤ k * s.length) {s : Bytes} {vs : List α}
    (h : decodeAll d s = .ok vs) : vs.length ≤ k * s.length := by
  suffices hf : ∀ fuel s vs, decodeAllFuel d fuel s = .ok vs → vs.length ≤ k * s.length from hf _ _ _ h
  intro fuel
  induction fuel with
  | zero =>
    intro s vs h
    cases s with
    | nil => simp only [decodeAllFuel] at h; obtain rfl := Res.ok.inj h; simp
    | cons b s => simp [decodeAllFuel] at h
  | succ n ih =>
    intro s vs h
    cases s with
    | nil => simp only [decodeAllFuel] at h; obtain rfl := Res.ok.inj h; simp
    | cons b s =>
      simp only [decodeAllFuel] at h
      obtain ⟨⟨v1, r⟩, h1, h⟩ := Res.bind_eq_ok.mp h
      obtain ⟨v2, h2, h⟩ := Res.bind_eq_ok.mp h
      obtain rfl := Res.ok.inj h
      have e1 := hd _ _ _ h1
      have e2 := ih _ _ h2
      simp only [List.length_append] at *
      omega

/-- One call of the decoder of bytes. -/
theorem byte_block {s rest vs : Bytes} (h : decodeByteRL.runBuf s = .ok (vs, rest)) :
    1 ≤ vs.length ∧ vs.length ≤ 130 ∧ vs.length + 65 * rest.length ≤ 65 * s.length := by
  cases s with
  | nil => simp [decodeByteRL] at h
  | cons c s =>
    simp only [decodeByteRL, Dec.runBuf_bind, Dec.runBuf_byte_cons, Res.ok_bind] at h
    split at h
    · rename_i hc
      cases s with
      | nil => simp at h
      | cons v s =>
        simp only [Dec.runBuf_bind, Dec.runBuf_byte_cons, Res.ok_bind, Dec.pure_eq, Dec.runBuf_ret, minRepeats] at h
        obtain ⟨rfl, rfl⟩ := Prod.mk.inj (Res.ok.inj h)
        simp only [List.length_replicate, List.length_cons]
        omega
    · rename_i hc
      have key : ∀ c : Byte, ¬ c.toNat < 0x80 → 1 ≤ (-c.toInt).toNat ∧ (-c.toInt).toNat ≤ 128 := by decide +kernel
      have hk := key c hc
      generalize (-c.toInt).toNat = n at h hk
      have hn : ∀ (n : Nat) (s rest vs : Bytes), (readBytesN n).runBuf s = .ok (vs, rest) → vs.length = n ∧ rest.length + n = s.length := by
        intro n
        induction n with
        | zero =>
          intro s rest vs h
          simp only [readBytesN, Dec.pure_eq, Dec.runBuf_ret] at h
          obtain ⟨rfl, rfl⟩ := Prod.mk.inj (Res.ok.inj h)
          exact ⟨rfl, rfl⟩
        | succ n ih =>
          intro s rest vs h
          cases s with
          | nil => simp [readBytesN] at h
          | cons b s =>
            simp only [readBytesN, Dec.runBuf_bind, Dec.runBuf_byte_cons, Res.ok_bind] at h
            obtain ⟨⟨us, r⟩, h1, h2⟩ := Res.bind_eq_ok.mp h
            simp only [Dec.pure_eq, Dec.runBuf_ret] at h2
            obtain ⟨rfl, rfl⟩ := Prod.mk.inj (Res.ok.inj h2)
            obtain ⟨e1, e2⟩ := ih _ _ _ h1
            simp only [List.length_cons] at *
            omega
      obtain ⟨e1, e2⟩ := hn _ _ _ _ h
      simp only [List.length_cons]
      omega

theorem bools_length (bs : Bytes) : (bs.flatMap boolsOfByte).length = 8 * bs.length := by
  induction bs with
  | nil => rfl
  | cons b bs ih => rw [List.flatMap_cons, List.length_append, ih, List.length_cons]; simp [boolsOfByte]; omega

theorem bool_block {s rest : Bytes} {vs : List Bool} (h : decodeBools.runBuf s = .ok (vs, rest)) :
    8 ≤ vs.length ∧ vs.length ≤ 1040 ∧ vs.length + 520 * rest.length ≤ 520 * s.length := by
  simp only [decodeBools, Dec.runBuf_bind] at h
  obtain ⟨⟨bs, r⟩, h1, h2⟩ := Res.bind_eq_ok.mp h
  simp only [Dec.pure_eq, Dec.runBuf_ret] at h2
  obtain ⟨rfl, rfl⟩ := Prod.mk.inj (Res.ok.inj h2)
  have := byte_block h1
  rw [bools_length]
  omega

end DecodeSize
end Goorc
