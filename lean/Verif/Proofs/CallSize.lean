import Verif.Model.EncInt
import Verif.Model.EncBool
import Verif.Proofs.Dec
/-
Helper lemmas for C123: a logic of the most bytes a decoder asks for.
-/
namespace Goorc
namespace CallSize

/-- No run of `d` asks for more than `n` bytes, and what it returns satisfies `Q`. -/
def AtMost {α : Type} : Dec α → Nat → (α → Prop) → Prop
  | .ret a, _, Q => Q a
  | .fail _, _, _ => True
  | .crash, _, _ => True
  | .readByte k, n, Q => 1 ≤ n ∧ ∀ b, AtMost (k b) (n - 1) Q
  | .readFull l k, n, Q => l ≤ n ∧ ∀ bs : Bytes, bs.length = l → AtMost (k bs) (n - l) Q

theorem AtMost.mono {α : Type} {d : Dec α} {n m : Nat} {P Q : α → Prop} (h : AtMost d n P) (hn : n ≤ m) (hq : ∀ x, P x → Q x) : AtMost d m Q := by
  induction d generalizing n m with
  | ret a => exact hq _ h
  | fail e => trivial
  | crash => trivial
  | readByte k ih => exact ⟨by have := h.1; omega, fun b => ih b (h.2 b) (by omega)⟩
  | readFull l k ih => exact ⟨by have := h.1; omega, fun bs hb => ih bs (h.2 bs hb) (by omega)⟩

theorem AtMost.bind {α β : Type} {d : Dec α} {f : α → Dec β} {n m : Nat} {P : α → Prop} {Q : β → Prop} (h : AtMost d n P)
    (hf : ∀ x, P x → AtMost (f x) m Q) : AtMost (d >>= f) (n + m) Q := by
  show AtMost (Dec.bind d f) (n + m) Q
  induction d generalizing n with
  | ret a => exact (hf a h).mono (by omega) fun _ h => h
  | fail e => trivial
  | crash => trivial
  | readByte k ih => exact ⟨by have := h.1; omega, fun b => (ih b (h.2 b)).mono (by have := h.1; omega) fun _ h => h⟩
  | readFull l k ih => exact ⟨by have := h.1; omega, fun bs hb => (ih bs (h.2 bs hb)).mono (by have := h.1; omega) fun _ h => h⟩

theorem AtMost.ret {α : Type} {Q : α → Prop} (a : α) (h : Q a) : AtMost (Dec.ret a) 0 Q := h

theorem AtMost.byte : AtMost Dec.byte 1 fun _ => True := ⟨Nat.le_refl _, fun _ => trivial⟩

theorem AtMost.full (n : Nat) : AtMost (Dec.full n) n fun _ => True := ⟨Nat.le_refl _, fun _ _ => trivial⟩

/-- A run that succeeds has used at most `n` bytes; and with `n` bytes at hand, more make no difference. -/
theorem AtMost.run {α : Type} {d : Dec α} {n : Nat} {Q : α → Prop} (h : AtMost d n Q) (s t : Bytes) (hs : n ≤ s.length) :
    (∃ v rest, d.runBuf s = .ok (v, rest) ∧ d.runBuf (s ++ t) = .ok (v, rest ++ t) ∧ s.length ≤ rest.length + n) ∨
    (∃ e, d.runBuf s = .err e ∧ d.runBuf (s ++ t) = .err e) ∨ (d.runBuf s = .panic ∧ d.runBuf (s ++ t) = .panic) := by
  induction d generalizing n s with
  | ret a => exact Or.inl ⟨a, s, rfl, rfl, by omega⟩
  | fail e => exact Or.inr (Or.inl ⟨e, rfl, rfl⟩)
  | crash => exact Or.inr (Or.inr ⟨rfl, rfl⟩)
  | readByte k ih =>
    have h1 := h.1
    cases s with
    | nil => simp only [List.length_nil] at hs; omega
    | cons b s =>
      simp only [List.length_cons] at hs ⊢
      rcases ih b (h.2 b) s (by omega) with ⟨v, rest, e1, e2, e3⟩ | e | e
      · exact Or.inl ⟨v, rest, e1, e2, by omega⟩
      · exact Or.inr (Or.inl e)
      · exact Or.inr (Or.inr e)
  | readFull l k ih =>
    have h1 := h.1
    have hl : l ≤ s.length := by omega
    simp only [Dec.runBuf]
    rw [if_pos hl, if_pos (by rw [List.length_append]; omega), List.take_append_of_le_length hl, List.drop_append_of_le_length hl]
    rcases ih (s.take l) (h.2 _ (by rw [List.length_take]; omega)) (s.drop l) (by rw [List.length_drop]; omega) with ⟨v, rest, e1, e2, e3⟩ | e | e
    · exact Or.inl ⟨v, rest, e1, e2, by rw [List.length_drop] at e3; omega⟩
    · exact Or.inr (Or.inl e)
    · exact Or.inr (Or.inr e)

/-! ### Bits and numbers -/

theorem loop_most (bits : Nat) : ∀ (fuel has : Nat) (data : U64),
    AtMost (readBitsLoop bits fuel has data) ((bits - has + 7) / 8) fun p => p.1 ≤ has ∨ p.1 ≤ bits + 7 := by
  intro fuel
  induction fuel with
  | zero => intro has data; exact Or.inl (Nat.le_refl _)
  | succ n ih =>
    intro has data
    simp only [readBitsLoop]
    split
    · exact (AtMost.byte.bind fun b _ => ih (has + 8) _).mono (by omega) fun p hp => by omega
    · exact Or.inl (Nat.le_refl _)

theorem bits_most (st : BitState) (w : Nat) (hw : w ≤ 64) (hs : st.bitsLeft ≤ 7) :
    AtMost (readBits st w) 8 fun p => p.2.bitsLeft ≤ 7 := by
  refine AtMost.mono ((loop_most w w st.bitsLeft _).bind fun p hp => (AtMost.ret _ ?_)) (m := 8) (by omega) fun _ h => h
  simp only
  omega

theorem bitsN_most (w : Nat) (hw : w ≤ 64) : ∀ (n : Nat) (st : BitState), st.bitsLeft ≤ 7 → AtMost (readBitsN st w n) (8 * n) fun _ => True := by
  intro n
  induction n with
  | zero => intro st _; trivial
  | succ n ih =>
    intro st hs
    simp only [readBitsN]
    exact ((bits_most st w hw hs).bind fun p hp => (ih p.2 hp).bind fun _ _ => (AtMost.ret _ trivial)).mono (by omega) fun _ h => h

theorem deltas_most (signed : Bool) (w : Nat) (hw : w ≤ 64) (ub db : U64) : ∀ (n : Nat) (st : BitState) (prev : U64), st.bitsLeft ≤ 7 →
    AtMost (readDeltas signed w ub db n st prev) (8 * n) fun _ => True := by
  intro n
  induction n with
  | zero => intro st _ _; trivial
  | succ n ih =>
    intro st prev hs
    simp only [readDeltas]
    split
    · exact ((ih st _ hs).bind fun _ _ => (AtMost.ret _ trivial)).mono (by omega) fun _ h => h
    · exact ((bits_most st w hw hs).bind fun p hp => (ih p.2 _ hp).bind fun _ _ => (AtMost.ret _ trivial)).mono (by omega) fun _ h => h

theorem patches_most (w pw pgw : Nat) (hw : pgw + pw ≤ 64) (base : U64) : ∀ (n : Nat) (st : BitState) (mark : Nat) (uvs : List U64),
    st.bitsLeft ≤ 7 → AtMost (readPatches w pw pgw base n st mark uvs) (8 * n) fun _ => True := by
  intro n
  induction n with
  | zero => intro st _ _ _; trivial
  | succ n ih =>
    intro st mark uvs hs
    simp only [readPatches]
    refine ((bits_most st (pgw + pw) hw hs).bind (m := 8 * n) fun p hp => ?_).mono (by omega) fun _ h => h
    split
    · trivial
    · exact ih _ _ _ hp

theorem uvarint_most : AtMost readUvarint 10 fun _ => True := by
  suffices ∀ (f i : Nat) (x : U64), AtMost (readUvarintLoop f i x) f fun _ => True from this _ _ _
  intro f
  induction f with
  | zero => intro i x; trivial
  | succ f ih =>
    intro i x
    simp only [readUvarintLoop]
    refine (AtMost.byte.bind (m := f) fun b _ => ?_).mono (by omega) fun _ h => h
    split
    · split <;> trivial
    · exact ih _ _

theorem varint_most : AtMost readVarint 10 fun _ => True :=
  (uvarint_most.bind fun _ _ => (AtMost.ret _ trivial) : AtMost _ (10 + 0) _)

theorem width_most (c : Byte) (b : Bool) : AtMost (Dec.ofRes (widthDecoding (c &&& 0x1f#8) b)) 0 fun w => w ≤ 64 := by
  have key : ∀ (b : Bool) (c : Byte), (match widthDecoding (c &&& 0x1f#8) b with | .ok w => decide (w ≤ 64) | _ => true) = true := by decide +kernel
  have := key b c
  cases h : widthDecoding (c &&& 0x1f#8) b with
  | ok w => rw [h] at this; exact AtMost.ret w (by simpa using this)
  | err e => trivial
  | panic => trivial
  | hang => trivial

theorem be_most : ∀ (n : Nat) (acc : U64), AtMost (readBE n acc) n fun _ => True := by
  intro n
  induction n with
  | zero => intro _; trivial
  | succ n ih =>
    intro acc
    simp only [readBE]
    exact (AtMost.byte.bind fun b _ => ih _).mono (by omega) fun _ h => h

theorem three_bits (b : Byte) : (b &&& 0x07#8).toNat ≤ 7 := by
  have key : ∀ b : Byte, (b &&& 0x07#8).toNat ≤ 7 := by decide +kernel
  exact key b

theorem five_bits (b : Byte) : (b &&& 0x1f#8).toNat ≤ 31 := by
  have key : ∀ b : Byte, (b &&& 0x1f#8).toNat ≤ 31 := by decide +kernel
  exact key b

theorem forget_left : forgetBits.bitsLeft ≤ 7 := Nat.zero_le _

theorem raw_most (signed : Bool) : AtMost (decodeRaw signed) 4356 fun _ => True := by
  refine (AtMost.byte.bind (m := 4355) fun h0 _ => ?_ : AtMost _ (1 + 4355) _)
  have hlen : ∀ h1 : Byte, (h0.toNat % 2) * 256 + h1.toNat + 1 ≤ 512 := fun h1 => by have := h1.isLt; omega
  simp only
  split
  · have := three_bits (h0 >>> 3)
    exact ((be_most _ _).bind fun _ _ => (AtMost.ret _ trivial)).mono (by omega) fun _ h => h
  · split
    · refine (AtMost.byte.bind (m := 4096) fun h1 _ => ?_ : AtMost _ (1 + 4096) _).mono (by omega) fun _ h => h
      have := hlen h1
      exact ((width_most _ _).bind fun w hw => bitsN_most w hw _ _ forget_left).mono (by omega) fun _ h => h
    · split
      · split
        · refine ((AtMost.full 3).bind (m := 4352) fun h _ => ?_ : AtMost _ (3 + 4352) _)
          have := hlen (h.getD 0 0)
          have hb := three_bits ((h.getD 1 0) >>> 5)
          have hp := five_bits (h.getD 2 0)
          refine ((width_most _ _).bind (m := 4352) fun w hw => (width_most (h.getD 1 0) false).bind (m := 4352) fun pw hpw => ?_).mono (by omega) fun _ h => h
          simp only
          split
          · trivial
          · exact ((AtMost.full _).bind fun bb _ => (bitsN_most w hw _ _ forget_left).bind fun ds _ =>
              patches_most w pw _ (by omega) _ _ _ _ _ forget_left).mono (by omega) fun _ h => h
        · trivial
      · refine (AtMost.byte.bind (m := 4100) fun h1 _ => ?_ : AtMost _ (1 + 4100) _).mono (by omega) fun _ h => h
        have := hlen h1
        refine ((width_most _ _).bind (m := 4100) fun w hw => ?_ : AtMost _ (0 + 4100) _).mono (by omega) fun _ h => h
        have tail : ∀ ub : U64, AtMost (do
            let db ← readVarint
            let vs ← readDeltas signed w ub db ((h0.toNat % 2) * 256 + h1.toNat + 1 - 2) forgetBits (addDeltaBase signed ub db)
            pure (ub :: addDeltaBase signed ub db :: vs)) 4090 fun _ => True := fun ub =>
          (varint_most.bind fun db _ => (deltas_most signed w hw ub db _ _ _ forget_left).bind fun _ _ => (AtMost.ret _ trivial)).mono
            (by omega) fun _ h => h
        simp only
        split
        · exact (varint_most.bind fun b _ => tail (zigzag b) : AtMost _ (10 + 4090) _)
        · exact (uvarint_most.bind fun b _ => tail b : AtMost _ (10 + 4090) _)

theorem bytes_most : AtMost decodeByteRL 129 fun _ => True := by
  refine (AtMost.byte.bind (m := 128) fun c _ => ?_ : AtMost _ (1 + 128) _)
  split
  · refine (AtMost.byte.bind (m := 127) fun v _ => ?_ : AtMost _ (1 + 127) _)
    trivial
  · have key : ∀ c : Byte, (-c.toInt).toNat ≤ 128 := by decide +kernel
    have hn : ∀ n, AtMost (readBytesN n) n fun _ => True := by
      intro n
      induction n with
      | zero => trivial
      | succ n ih =>
        simp only [readBytesN]
        exact (AtMost.byte.bind fun b _ => ih.bind fun _ _ => (AtMost.ret _ trivial)).mono (by omega) fun _ h => h
    exact (hn _).mono (key c) fun _ h => h

end CallSize
end Goorc
