import Verif.Spec.DecimalFloat
import Mathlib.Algebra.Order.Field.Basic
import Mathlib.Tactic.NormNum.Inv
/-
C113: the number `Decimal64.Float64` returns.
-/
namespace Goorc

/-- Ten to a power that does not fit 64 bits, or a small one. -/
theorem pow_big (n : Nat) : 2 ^ 63 < 10 ^ n ∨ n ≤ 18 := by
  by_cases h : n ≤ 18
  · exact Or.inr h
  · left
    have : 10 ^ 19 ≤ 10 ^ n := Nat.pow_le_pow_right (by decide) (by omega)
    omega

theorem goInt_bounds (n : Int) : -2 ^ 63 ≤ goInt n ∧ goInt n < 2 ^ 63 := by
  simp only [goInt]
  constructor
  · have := Int.le_bmod (x := n) (m := 2 ^ 64) (by decide)
    omega
  · have := Int.bmod_lt (x := n) (m := 2 ^ 64) (by decide)
    omega

theorem goInt_small (n : Int) (h1 : -2 ^ 63 ≤ n) (h2 : n < 2 ^ 63) : goInt n = n := by
  simp only [goInt]
  exact Int.bmod_eq_of_le (by omega) (by omega)

/-- Ten times the scale is a power of ten only for the scale 1. -/
theorem goInt_pow (n : Nat) (hn : 0 < n) : goInt (10 * (n : Int)) = (10 : Int) ^ n ↔ n = 1 := by
  constructor
  · intro h
    rcases pow_big n with hb | hs
    · have := (goInt_bounds (10 * (n : Int))).2
      rw [h] at this
      have e : ((10 ^ n : Nat) : Int) = (10 : Int) ^ n := by simp
      omega
    · rw [goInt_small _ (by omega) (by omega)] at h
      have : ∀ m : Nat, m ≤ 18 → 0 < m → 10 * (m : Int) = (10 : Int) ^ m → m = 1 := by decide +kernel
      exact this n hs hn h
  · rintro rfl; rfl

theorem goInt_neg_pow (n : Nat) (hn : 0 < n) : goInt (10 * (-(n : Int))) ≠ (10 : Int) ^ n := by
  intro h
  rcases pow_big n with hb | hs
  · have := (goInt_bounds (10 * (-(n : Int)))).2
    rw [h] at this
    have e : ((10 ^ n : Nat) : Int) = (10 : Int) ^ n := by simp
    omega
  · rw [goInt_small _ (by omega) (by omega)] at h
    have : (0 : Int) < 10 ^ n := Int.pow_pos (by decide)
    omega

/-- **C113** Even without any rounding, `Float64` returns the number of a decimal, as the specification of ORC defines it,
exactly for zero and for decimals of scale 0. -/
theorem decimalFloat_iff (p s : Int) : OrcDecimal p s (decimalFloat exactOps p s) ↔ p = 0 ∨ s = 0 := by
  simp only [OrcDecimal, decimalFloat, exactOps]
  rcases lt_trichotomy s 0 with hs | rfl | hs
  · rw [if_neg (by omega), if_neg (by omega), if_neg (by omega)]
    obtain ⟨n, rfl⟩ : ∃ n : Nat, s = -(n : Int) := ⟨s.natAbs, by omega⟩
    have hn : 0 < n := by omega
    simp only [Int.neg_neg, Int.toNat_natCast]
    constructor
    · intro h
      by_cases hp : p = 0
      · exact Or.inl hp
      · exfalso
        have hpq : (p : ℚ) ≠ 0 := by exact_mod_cast hp
        by_cases hw : goInt (10 * (-(n : Int))) = 0
        · rw [hw] at h
          simp only [Int.cast_zero, div_zero] at h
          exact (mul_ne_zero hpq (pow_ne_zero n (by norm_num))) h.symm
        · have hwq : ((goInt (10 * (-(n : Int))) : Int) : ℚ) ≠ 0 := by exact_mod_cast hw
          rw [div_eq_iff hwq, mul_assoc] at h
          have h1 : (1 : ℚ) = 10 ^ n * (goInt (10 * (-(n : Int))) : Int) := by
            apply mul_left_cancel₀ hpq
            rw [mul_one]; exact h
          have h2 : (1 : Int) = 10 ^ n * goInt (10 * (-(n : Int))) := by exact_mod_cast h1
          have hd : (10 : Int) ∣ 1 := by
            rw [h2]
            exact Dvd.dvd.mul_right (dvd_pow_self 10 (by omega)) _
          exact absurd hd (by decide)
    · rintro (rfl | h)
      · simp
      · omega
  · simp
  · rw [if_pos (by omega), if_neg (by omega), if_pos hs]
    obtain ⟨n, rfl⟩ : ∃ n : Nat, s = (n : Int) := ⟨s.natAbs, by omega⟩
    have hn : 0 < n := by omega
    simp only [Int.toNat_natCast]
    constructor
    · intro h
      by_cases hp : p = 0
      · exact Or.inl hp
      · exfalso
        have hpq : (p : ℚ) ≠ 0 := by exact_mod_cast hp
        have h1 : ((goInt (10 * (n : Int)) : Int) : ℚ) * 10 ^ n = 1 := by
          apply mul_left_cancel₀ hpq
          rw [mul_one, ← mul_assoc]; exact h
        have h2 : goInt (10 * (n : Int)) * 10 ^ n = 1 := by exact_mod_cast h1
        have hd : (10 : Int) ∣ 1 := by
          rw [← h2]
          exact Dvd.dvd.mul_left (dvd_pow_self 10 (by omega)) _
        exact absurd hd (by decide)
    · rintro (rfl | h)
      · simp
      · omega

/-- **C113** With the other sign of the scale it does for scale 1 as well, and for no other. -/
theorem decimalFloat_other_iff (p s : Int) : OtherDecimal p s (decimalFloat exactOps p s) ↔ p = 0 ∨ s = 0 ∨ s = 1 := by
  simp only [OtherDecimal, decimalFloat, exactOps]
  rcases lt_trichotomy s 0 with hs | rfl | hs
  · rw [if_neg (by omega), if_neg (by omega), if_neg (by omega)]
    obtain ⟨n, rfl⟩ : ∃ n : Nat, s = -(n : Int) := ⟨s.natAbs, by omega⟩
    have hn : 0 < n := by omega
    simp only [Int.neg_neg, Int.toNat_natCast]
    constructor
    · intro h
      by_cases hp : p = 0
      · exact Or.inl hp
      · exfalso
        have hpq : (p : ℚ) ≠ 0 := by exact_mod_cast hp
        by_cases hw : goInt (10 * (-(n : Int))) = 0
        · rw [hw] at h
          simp only [Int.cast_zero, div_zero, zero_mul] at h
          exact hpq h.symm
        · have hwq : ((goInt (10 * (-(n : Int))) : Int) : ℚ) ≠ 0 := by exact_mod_cast hw
          rw [div_mul_eq_mul_div, div_eq_iff hwq] at h
          have h1 : (10 : ℚ) ^ n = (goInt (10 * (-(n : Int))) : Int) := mul_left_cancel₀ hpq h
          have h2 : (10 : Int) ^ n = goInt (10 * (-(n : Int))) := by exact_mod_cast h1
          exact goInt_neg_pow n hn h2.symm
    · rintro (rfl | h | h)
      · simp
      · omega
      · omega
  · simp
  · rw [if_pos (by omega), if_neg (by omega), if_pos hs]
    obtain ⟨n, rfl⟩ : ∃ n : Nat, s = (n : Int) := ⟨s.natAbs, by omega⟩
    have hn : 0 < n := by omega
    simp only [Int.toNat_natCast]
    constructor
    · intro h
      by_cases hp : p = 0
      · exact Or.inl hp
      · have hpq : (p : ℚ) ≠ 0 := by exact_mod_cast hp
        have h1 : ((goInt (10 * (n : Int)) : Int) : ℚ) = 10 ^ n := mul_left_cancel₀ hpq h
        have h2 : goInt (10 * (n : Int)) = 10 ^ n := by exact_mod_cast h1
        have := (goInt_pow n hn).mp h2
        omega
    · rintro (rfl | h | h)
      · simp
      · omega
      · have : n = 1 := by omega
        subst this
        have e : goInt (10 * ((1 : Nat) : Int)) = 10 := rfl
        rw [e]; simp

/-- **C113 refuted** 1.25 is returned as 2500, and 7000 as -7/30. -/
theorem decimalFloat_wrong : decimalFloat exactOps 125 2 = 2500 ∧ decimalFloat exactOps 7 (-3) = -7 / 30 ∧
    ¬ OrcDecimal 125 2 (decimalFloat exactOps 125 2) := by
  refine ⟨?_, ?_, ?_⟩
  · have e : goInt (10 * 2) = 20 := rfl
    simp only [decimalFloat, exactOps, e]
    norm_num
  · have e : goInt (10 * (-3)) = -30 := rfl
    simp only [decimalFloat, exactOps, e]
    norm_num
  · rw [decimalFloat_iff]; decide

/-- A positive decimal of a negative scale is returned as a negative number. -/
theorem decimalFloat_sign (p s : Int) (hp : 0 < p) (hs : s < 0) (hb : -2 ^ 63 ≤ 10 * s) : decimalFloat exactOps p s < 0 := by
  simp only [decimalFloat, exactOps]
  rw [if_neg (by omega), if_neg (by omega), goInt_small _ hb (by omega)]
  apply div_neg_of_pos_of_neg
  · exact_mod_cast hp
  · have : 10 * s < 0 := by omega
    exact_mod_cast this

example : decimalFloat exactOps 7 (-3) < 0 := decimalFloat_sign 7 (-3) (by decide) (by decide) (by decide)

/-- What the claim says holds of 42 with scale 0. -/
example : OrcDecimal 42 0 (decimalFloat exactOps 42 0) := (decimalFloat_iff 42 0).mpr (Or.inr rfl)

end Goorc
