import Verif.Model.EncInt
import Verif.Props.EncPackage
namespace Goorc

theorem bitsWidthLoop_le (fuel : Nat) (x : U64) : bitsWidthLoop fuel x ≤ fuel := by
  induction fuel generalizing x with
  | zero => simp [bitsWidthLoop]
  | succ n ih => simp only [bitsWidthLoop]; split; · have := ih (x >>> 1); omega
                 · omega

theorem bitsWidthLoop_spec (fuel : Nat) (x : U64) (h : x.toNat < 2 ^ fuel) (k : Nat) :
    bitsWidthLoop fuel x ≤ k ↔ x.toNat < 2 ^ k := by
  induction fuel generalizing x k with
  | zero =>
    simp only [bitsWidthLoop]
    have : x.toNat = 0 := by simpa using h
    have hp : 0 < 2 ^ k := Nat.pow_pos (by omega)
    constructor <;> intro _ <;> omega
  | succ n ih =>
    simp only [bitsWidthLoop]
    have hs : (x >>> 1).toNat = x.toNat / 2 := by
      rw [BitVec.toNat_ushiftRight, Nat.shiftRight_eq_div_pow]
    by_cases h0 : x = 0
    · have hp : 0 < 2 ^ k := Nat.pow_pos (by omega)
      simp [h0, hp]
    · simp only [ne_eq, h0, not_false_eq_true, if_true]
      have hx : x.toNat ≠ 0 := fun hh => h0 (BitVec.eq_of_toNat_eq (by simpa using hh))
      cases k with
      | zero => simp; omega
      | succ k =>
        have := ih (x >>> 1) (by rw [hs]; rw [Nat.pow_succ] at h; omega) k
        rw [hs] at this
        rw [Nat.pow_succ]
        constructor
        · intro hh
          have := this.mp (by omega)
          omega
        · intro hh
          have := this.mpr (by omega)
          omega

theorem getBitsWidth_le_iff (x : U64) (k : Nat) : getBitsWidth x ≤ k ↔ x.toNat < 2 ^ k :=
  bitsWidthLoop_spec 64 x x.isLt k

theorem getBitsWidth_le (x : U64) : getBitsWidth x ≤ 64 := bitsWidthLoop_le 64 x

theorem lt_two_pow_bitsWidth (x : U64) : x.toNat < 2 ^ getBitsWidth x :=
  (getBitsWidth_le_iff x _).mp (Nat.le_refl _)

theorem getBitsWidth_eq_zero (x : U64) : getBitsWidth x = 0 ↔ x = 0 := by
  have := getBitsWidth_le_iff x 0
  simp only [Nat.le_zero, Nat.pow_zero, Nat.lt_one_iff] at this
  rw [this]
  constructor
  · intro h; exact BitVec.eq_of_toNat_eq (by simpa using h)
  · intro h; simp [h]

/-- The aligned width: the bit width rounded up to 1, 2, 4, 8, 12 (exactly), 16, 24, ... -/
theorem getAlignedWidth_cases (x : U64) : getBitsWidth x ≤ getAlignedWidth x ∧ getAlignedWidth x ≤ 64 ∧
    (getAlignedWidth x = 0 ↔ x = 0) ∧
    getAlignedWidth x ∈ [0, 1, 2, 4, 8, 12, 16, 24, 32, 40, 48, 56, 64] := by
  have h := getBitsWidth_le x
  have h0 := getBitsWidth_eq_zero x
  have hg : getAlignedWidth x = (let n := getBitsWidth x
    if n > 2 ∧ n ≤ 4 then 4
    else if n > 4 ∧ n ≤ 8 then 8
    else if n > 8 ∧ n ≤ 16 then (if n = 12 then 12 else 16)
    else if n > 16 ∧ n ≤ 24 then 24
    else if n > 24 ∧ n ≤ 32 then 32
    else if n > 32 ∧ n ≤ 40 then 40
    else if n > 40 ∧ n ≤ 48 then 48
    else if n > 48 ∧ n ≤ 56 then 56
    else if n > 56 ∧ n ≤ 64 then 64
    else n) := rfl
  rw [hg, ← h0]
  generalize getBitsWidth x = n at h ⊢
  have key : ∀ n : Fin 65, (let n := n.val
    let a := (if n > 2 ∧ n ≤ 4 then 4
      else if n > 4 ∧ n ≤ 8 then 8
      else if n > 8 ∧ n ≤ 16 then (if n = 12 then 12 else 16)
      else if n > 16 ∧ n ≤ 24 then 24
      else if n > 24 ∧ n ≤ 32 then 32
      else if n > 32 ∧ n ≤ 40 then 40
      else if n > 40 ∧ n ≤ 48 then 48
      else if n > 48 ∧ n ≤ 56 then 56
      else if n > 56 ∧ n ≤ 64 then 64
      else n)
    n ≤ a ∧ a ≤ 64 ∧ (a = 0 ↔ n = 0) ∧ a ∈ [0, 1, 2, 4, 8, 12, 16, 24, 32, 40, 48, 56, 64]) := by
    decide +kernel
  exact key ⟨n, by omega⟩

theorem lt_two_pow_aligned (x : U64) : x.toNat < 2 ^ getAlignedWidth x :=
  (getBitsWidth_le_iff x _).mp (getAlignedWidth_cases x).1

theorem le_maxWidth (w : U64 → Nat) (vs : List U64) : ∀ v ∈ vs, w v ≤ maxWidth w vs := by
  induction vs with
  | nil => simp
  | cons a vs ih =>
    intro v hv
    simp only [maxWidth]
    rcases List.mem_cons.mp hv with h | h
    · subst h; omega
    · have := ih v h; omega

theorem maxWidth_mem (w : U64 → Nat) (vs : List U64) (h : vs ≠ []) : ∃ v ∈ vs, maxWidth w vs = w v := by
  induction vs with
  | nil => exact absurd rfl h
  | cons a vs ih =>
    simp only [maxWidth]
    by_cases hv : vs = []
    · exact ⟨a, by simp, by simp [hv, maxWidth]⟩
    · obtain ⟨v, h1, h2⟩ := ih hv
      by_cases hc : w a ≤ maxWidth w vs
      · exact ⟨v, by simp [h1], by omega⟩
      · exact ⟨a, by simp, by omega⟩

theorem maxAligned_lt (vs : List U64) : ∀ v ∈ vs, v.toNat < 2 ^ maxWidth getAlignedWidth vs := by
  intro v hv
  exact Nat.lt_of_lt_of_le (lt_two_pow_aligned v)
    (Nat.pow_le_pow_right (by omega) (le_maxWidth _ _ v hv))

theorem maxAligned_cases (vs : List U64) :
    maxWidth getAlignedWidth vs ∈ [0, 1, 2, 4, 8, 12, 16, 24, 32, 40, 48, 56, 64] ∧
    (maxWidth getAlignedWidth vs = 0 ↔ ∀ v ∈ vs, v = 0) := by
  by_cases h : vs = []
  · subst h; simp [maxWidth]
  · obtain ⟨v, h1, h2⟩ := maxWidth_mem getAlignedWidth vs h
    refine ⟨by rw [h2]; exact (getAlignedWidth_cases v).2.2.2, ?_, ?_⟩
    · intro h0 x hx
      have := le_maxWidth getAlignedWidth vs x hx
      exact (getAlignedWidth_cases x).2.2.1.mp (by omega)
    · intro hz
      rw [h2]; exact (getAlignedWidth_cases v).2.2.1.mpr (hz v h1)

end Goorc
