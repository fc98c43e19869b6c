import Verif.Proofs.EncPackage
import Verif.Spec.Widths
/-
C08 zigzag, C12 nanoseconds, C15 width codes.
-/
namespace Goorc

/-- **C08** `Zigzag` and `UnZigzag` are inverse to each other on all 64-bit values, `Zigzag` is the
numeric map of the specification, and `Convert` is `UnZigzag`. -/
theorem zigzag_bijection :
    (∀ x : U64, unZigzag (zigzag x) = x) ∧ (∀ u : U64, zigzag (unZigzag u) = u) ∧
    (∀ x : U64, ((zigzag x).toNat : Int) = zigzagSpec x.toInt) ∧
    (∀ u : U64, zigzagSpec (unZigzag u).toInt = u.toNat) ∧
    (∀ u : U64, convert u = unZigzag u) :=
  ⟨unZigzag_zigzag, zigzag_unZigzag, zigzag_toNat,
    fun u => by rw [zigzagSpec, ← zigzag_toNat, zigzag_unZigzag], convert_eq⟩

example : zigzag (BitVec.ofInt 64 (-2)) = 3 ∧ unZigzag 3 = BitVec.ofInt 64 (-2) := by decide

/-- **C12** The nanoseconds come back exactly when they fit: every multiple of 100, and every other
count below 2^61 (a nanosecond count is below 10^9). -/
theorem nano_roundtrip_iff (n : U64) :
    decodingNano (encodingNano n) = n ↔ n.toNat % 100 = 0 ∨ n.toNat < 2 ^ 61 := by
  constructor
  · intro h
    by_cases h100 : n.toNat % 100 = 0
    · exact Or.inl h100
    · right
      have h2 := decodingNano_toNat (encodingNano n)
      rw [h, encodingNano_small n h100, if_pos (by omega)] at h2
      omega
  · exact decoding_encodingNano n

/-- **C12** for actual nanosecond counts. -/
theorem nano_roundtrip (n : U64) (h : n.toNat < 1000000000) : decodingNano (encodingNano n) = n :=
  decoding_encodingNano n (Or.inr (by omega))

/-- **C12** The stored form is the one the ORC format prescribes: `8·m + (z-1)` where `z ≥ 2` decimal
zeros (at most 8, as many as possible) have been removed, and `8·n` when there are fewer than two. -/
theorem nano_format (n : U64) (hn : n.toNat < 1000000000) (h0 : n ≠ 0) :
    (n.toNat % 100 ≠ 0 → (encodingNano n).toNat = 8 * n.toNat) ∧
    (n.toNat % 100 = 0 → ∃ m z, 2 ≤ z ∧ z ≤ 8 ∧ n.toNat = m * 10 ^ z ∧ (m % 10 = 0 → z = 8) ∧
      (encodingNano n).toNat = 8 * m + (z - 1)) := by
  constructor
  · intro h; rw [encodingNano_small n h]; omega
  · intro h
    obtain ⟨m, z, h1, h2, h3, h4, h5, -⟩ := encodingNano_100 n h0 h
    exact ⟨m, z, h3, h4, h2, h5, h1⟩

example : encodingNano 1000 = 10 ∧ encodingNano 100000 = 12 ∧ encodingNano 999 = 7992 := by decide
example : decodingNano (encodingNano 123000000) = 123000000 := by decide

/-- The widths `widthEncoding` accepts. -/
theorem widthEncoding_ok_iff (w : Nat) :
    (∃ c, widthEncoding w = .ok c) ↔
      w ≤ 21 ∨ w ∈ [24, 26, 28, 30, 32, 40, 48, 56, 64] := by
  by_cases hw : w < 65
  · have : ∀ w : Fin 65, ((widthEncoding w.val).isOk = true ↔
        w.val ≤ 21 ∨ w.val ∈ [24, 26, 28, 30, 32, 40, 48, 56, 64]) := by decide +kernel
    rw [← this ⟨w, hw⟩]
    cases widthEncoding w <;> simp [Res.isOk]
  · have : widthEncoding w = .err .other := by
      simp only [widthEncoding]
      repeat rw [if_neg (by omega)]
    rw [this]
    simp
    omega

/-- **C15** exactly: a width code is read back as the width it was made from, except that width 0
outside delta blocks is read as 1 and width 1 in delta blocks is read as 0. -/
theorem width_roundtrip_iff (w : Nat) (c : Byte) (delta : Bool) (h : widthEncoding w = .ok c) :
    (widthDecoding c delta = .ok w ↔ w ≠ (if delta then 1 else 0)) ∧ c.toNat < 32 := by
  have hw : w < 65 := by
    have := (widthEncoding_ok_iff w).mp ⟨c, h⟩
    simp at this
    omega
  have key : ∀ (w : Fin 65) (delta : Bool), (match widthEncoding w.val with
      | .ok c => decide ((widthDecoding c delta = .ok w.val ↔ w.val ≠ (if delta then 1 else 0)) ∧ c.toNat < 32)
      | _ => true) = true := by decide +kernel
  have := key ⟨w, hw⟩ delta
  simp only [h] at this
  exact of_decide_eq_true this

/-- **C15** (partial) Nonzero widths in blocks other than delta, and widths other than 1 in delta
blocks. Missing: width 0 outside delta blocks, see `width_roundtrip_false`. -/
theorem width_roundtrip_partial (w : Nat) (c : Byte) (delta : Bool) (h : widthEncoding w = .ok c)
    (hw : w ≠ (if delta then 1 else 0)) : widthDecoding c delta = .ok w :=
  (width_roundtrip_iff w c delta h).1.mpr hw

/-- **C15** is false: width 0 (a direct run of zeros) is read back as width 1. -/
theorem width_roundtrip_false :
    ∃ w c, widthEncoding w = .ok c ∧ widthDecoding c false ≠ .ok w := ⟨0, 0, rfl, by decide⟩

/-- The reader's width codes are those of the ORC specification. -/
theorem widthDecoding_spec (c : Byte) :
    widthDecoding c false = (match orcWidths[c.toNat]? with | some w => .ok w | none => .err .other) ∧
    widthDecoding c true = (match orcDeltaWidths[c.toNat]? with | some w => .ok w | none => .err .other) := by
  revert c
  decide +kernel

/-- The writer's codes are the specification's: the code of a width is the first code with that width. -/
theorem widthEncoding_spec (w : Nat) (c : Byte) (h : widthEncoding w = .ok c) (hw : w ≠ 0) :
    orcWidths[c.toNat]? = some w := by
  have h1 := (width_roundtrip_iff w c false h).1.mpr (by simpa using hw)
  have h2 := (widthDecoding_spec c).1
  rw [h1] at h2
  split at h2 <;> simp_all

example : widthEncoding 24 = .ok 23 ∧ widthEncoding 22 = .err .other ∧ widthDecoding 23 false = .ok 24 := by
  decide

end Goorc
