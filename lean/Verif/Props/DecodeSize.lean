import Verif.Proofs.DecodeSize
/-
C119: how many values bytes can stand for.
-/
namespace Goorc
namespace DecodeSize

/-- **C119** One call of a decoder on any bytes returns a bounded number of values: at most 130 bytes, 1040 booleans, 512 integers. -/
theorem decode_block_bounded (s rest : Bytes) :
    (∀ vs, decodeByteRL.runBuf s = .ok (vs, rest) → vs.length ≤ 130) ∧
    (∀ vs, decodeBools.runBuf s = .ok (vs, rest) → vs.length ≤ 1040) ∧
    (∀ vs, (decodeUInt false).runBuf s = .ok (vs, rest) → vs.length ≤ 512) ∧
    (∀ vs, (decodeInt true).runBuf s = .ok (vs, rest) → vs.length ≤ 512) := by
  refine ⟨fun vs h => (byte_block h).2.1, fun vs h => (bool_block h).2.1, fun vs h => ?_, fun vs h => ?_⟩
  · exact (block_bound (signed := false) (by simpa [decodeUInt] using h)).1
  · simp only [decodeInt, if_true, Dec.runBuf_bind] at h
    obtain ⟨⟨us, r⟩, h1, h2⟩ := Res.bind_eq_ok.mp h
    simp only [Dec.pure_eq, Dec.runBuf_ret] at h2
    obtain ⟨rfl, rfl⟩ := Prod.mk.inj (Res.ok.inj h2)
    rw [List.length_map]
    exact (block_bound h1).1

/-- **C119** The values of a whole stream of any bytes are at most 65 for each byte of an encoding of bytes, 520 of booleans and 128 of
integers. -/
theorem decode_all_bounded (s : Bytes) :
    (∀ vs, decodeAll decodeByteRL s = .ok vs → vs.length ≤ 65 * s.length) ∧
    (∀ vs, decodeAll decodeBools s = .ok vs → vs.length ≤ 520 * s.length) ∧
    (∀ vs, decodeAll (decodeUInt false) s = .ok vs → vs.length ≤ 128 * s.length) ∧
    (∀ vs, decodeAll (decodeInt true) s = .ok vs → vs.length ≤ 128 * s.length) := by
  refine ⟨fun vs h => all_bound (fun s vs r h => (byte_block h).2.2) h, fun vs h => all_bound (fun s vs r h => (bool_block h).2.2) h,
    fun vs h => all_bound (fun s vs r h => ?_) h, fun vs h => all_bound (fun s vs r h => ?_) h⟩
  · exact (block_bound (signed := false) (by simpa [decodeUInt] using h)).2
  · simp only [decodeInt, if_true, Dec.runBuf_bind] at h
    obtain ⟨⟨us, r⟩, h1, h2⟩ := Res.bind_eq_ok.mp h
    simp only [Dec.pure_eq, Dec.runBuf_ret] at h2
    obtain ⟨rfl, rfl⟩ := Prod.mk.inj (Res.ok.inj h2)
    rw [List.length_map]
    exact (block_bound h1).2

/-- A case that meets the hypotheses: 512 integers from four bytes, in a stream with a block of three repeated values before them. -/
example : ∃ vs, decodeAll (decodeUInt false) [0x00, 7, 0xc1, 0xff, 0, 0] = .ok vs ∧ vs.length = 515 :=
  ⟨List.replicate 3 7 ++ List.replicate 512 0, by decide +kernel, by decide +kernel⟩

/-- `k` copies of a block. -/
def copies (b : Bytes) : Nat → Bytes
  | 0 => []
  | k + 1 => b ++ copies b k

theorem copies_length (b : Bytes) (k : Nat) : (copies b k).length = b.length * k := by
  induction k with
  | zero => rfl
  | succ k ih => rw [copies, List.length_append, ih, Nat.mul_succ]; omega

theorem copies_decode {α : Type} {d : Dec (List α)} {b : Bytes} {vs : List α} (hb : 0 < b.length) (h : d.runBuf b = .ok (vs, [])) (k : Nat) :
    ∃ us, decodeAll d (copies b k) = .ok us ∧ us.length = vs.length * k := by
  suffices hf : ∀ fuel, (copies b k).length ≤ fuel → ∃ us, decodeAllFuel d fuel (copies b k) = .ok us ∧ us.length = vs.length * k from
    hf _ (Nat.le_refl _)
  induction k with
  | zero => intro fuel _; exact ⟨[], by cases fuel <;> rfl, by simp⟩
  | succ k ih =>
    intro fuel hf
    cases b with
    | nil => simp at hb
    | cons x b =>
      cases fuel with
      | zero => simp [copies] at hf
      | succ fuel =>
        obtain ⟨us, h1, h2⟩ := ih fuel (by simp [copies] at hf; omega)
        refine ⟨vs ++ us, ?_, by rw [List.length_append, h2, Nat.mul_succ]; omega⟩
        have := Dec.runBuf_append d _ (copies (x :: b) k) _ _ h
        rw [List.nil_append] at this
        rw [copies, List.cons_append, decodeAllFuel]
        rw [List.cons_append] at this
        rw [this]
        simp only [Res.ok_bind, h1, Res.pure_eq]

/-- **C119** All these bounds are reached, by streams of any length. -/
theorem decode_all_reached (k : Nat) :
    (∃ vs, decodeAll decodeByteRL (copies [0x7f, 5] k) = .ok vs ∧ vs.length = 65 * (copies [0x7f, 5] k).length) ∧
    (∃ vs, decodeAll decodeBools (copies [0x7f, 5] k) = .ok vs ∧ vs.length = 520 * (copies [0x7f, 5] k).length) ∧
    (∃ vs, decodeAll (decodeUInt false) (copies [0xc1, 0xff, 0, 0] k) = .ok vs ∧ vs.length = 128 * (copies [0xc1, 0xff, 0, 0] k).length) ∧
    (∃ vs, decodeAll (decodeInt true) (copies [0xc1, 0xff, 0, 0] k) = .ok vs ∧ vs.length = 128 * (copies [0xc1, 0xff, 0, 0] k).length) := by
  refine ⟨?_, ?_, ?_, ?_⟩
  · obtain ⟨us, h1, h2⟩ := copies_decode (d := decodeByteRL) (b := [0x7f, 5]) (vs := List.replicate 130 5) (by simp) (by decide +kernel) k
    exact ⟨us, h1, by rw [h2, copies_length, List.length_replicate, ← Nat.mul_assoc]; rfl⟩
  · obtain ⟨us, h1, h2⟩ := copies_decode (d := decodeBools) (b := [0x7f, 5]) (vs := (List.replicate 130 5).flatMap boolsOfByte) (by simp) (by decide +kernel) k
    exact ⟨us, h1, by rw [h2, copies_length, bools_length, List.length_replicate, ← Nat.mul_assoc]; rfl⟩
  · obtain ⟨us, h1, h2⟩ := copies_decode (d := decodeUInt false) (b := [0xc1, 0xff, 0, 0]) (vs := List.replicate 512 0) (by simp) (by decide +kernel) k
    exact ⟨us, h1, by rw [h2, copies_length, List.length_replicate, ← Nat.mul_assoc]; rfl⟩
  · obtain ⟨us, h1, h2⟩ := copies_decode (d := decodeInt true) (b := [0xc1, 0xff, 0, 0]) (vs := List.replicate 512 0) (by simp) (by decide +kernel) k
    exact ⟨us, h1, by rw [h2, copies_length, List.length_replicate, ← Nat.mul_assoc]; rfl⟩

end DecodeSize
end Goorc
