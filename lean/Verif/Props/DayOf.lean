import Verif.Model.Time
/-
C114: the day that is stored for a time.
-/
namespace Goorc

/-- The number of days from 1970-01-01 to the day an instant (nanoseconds from 1970-01-01 00:00 UTC) falls on: the day
begins not after the instant, and the next one after it. -/
def FallsOn (ns day : Int) : Prop := day * (86400 * 1000000000) ≤ ns ∧ ns < (day + 1) * (86400 * 1000000000)

/-- Division towards zero. -/
theorem tdiv_cases (x : Int) : Int.tdiv x 86400000000000 = if 0 ≤ x then x / 86400000000000 else -(-x / 86400000000000) := by
  split
  · rename_i h
    exact Int.tdiv_eq_ediv_of_nonneg h
  · have := Int.neg_tdiv (-x) 86400000000000
    rw [Int.neg_neg] at this
    rw [this, Int.tdiv_eq_ediv_of_nonneg (by omega)]

theorem toDays_toInt (ns : Int) : (toDays ns).toInt = Int.tdiv (satSub ns) 86400000000000 := by
  have hn : (nanosPerDay : Int) = 86400000000000 := rfl
  have hb : -106751 ≤ Int.tdiv (satSub ns) 86400000000000 ∧ Int.tdiv (satSub ns) 86400000000000 ≤ 106751 := by
    have h : -2 ^ 63 ≤ satSub ns ∧ satSub ns ≤ 2 ^ 63 - 1 := by
      simp only [satSub]
      split
      · omega
      · split <;> omega
    rw [tdiv_cases]
    split <;> omega
  simp only [toDays, hn]
  rw [BitVec.toInt_ofInt, Int.bmod_eq_of_le] <;> omega

/-- **C114** The day that is stored for a time is the one it falls on exactly if the time is not before 1970 and its day
is at most 106751, or it is before 1970, a midnight, and at most 106751 days before. -/
theorem toDays_day_iff (ns : Int) : FallsOn ns (toDays ns).toInt ↔
    (0 ≤ ns ∧ ns < 106752 * (86400 * 1000000000)) ∨
      (-106751 * (86400 * 1000000000) ≤ ns ∧ ns < 0 ∧ (86400 * 1000000000 : Int) ∣ ns) := by
  rw [toDays_toInt, FallsOn]
  simp only [satSub]
  split
  · rw [tdiv_cases]; omega
  · split
    · rw [tdiv_cases]; omega
    · rw [tdiv_cases]; split <;> omega

/-- **C114** A time before 1970 that is not a midnight, and not too far back, is stored as the day after the one it falls
on. -/
theorem toDays_before_1970 (ns : Int) (h1 : -2 ^ 63 ≤ ns) (h2 : ns < 0) (h3 : ¬ (86400 * 1000000000 : Int) ∣ ns) :
    FallsOn ns ((toDays ns).toInt - 1) := by
  rw [toDays_toInt, FallsOn]
  simp only [satSub]
  rw [if_neg (by omega), if_neg (by omega), tdiv_cases, if_neg (by omega)]
  omega

/-- **C114 refuted** Noon of 1969-12-31 is stored as 1970-01-01. -/
theorem noon_is_next_day : FallsOn (-12 * 3600 * 1000000000) (-1) ∧ toDays (-12 * 3600 * 1000000000) = 0 ∧
    ¬ FallsOn (-12 * 3600 * 1000000000) (toDays (-12 * 3600 * 1000000000)).toInt := by
  refine ⟨by simp only [FallsOn]; decide, by decide +kernel, ?_⟩
  rw [toDays_day_iff]
  omega

/-- **C114** What is read back for a time from 1970 on is the midnight its day begins with. -/
theorem day_read_back (ns : Int) (h1 : 0 ≤ ns) (h2 : ns < 106752 * (86400 * 1000000000)) :
    fromDays (toDays ns) ≤ ns ∧ ns < fromDays (toDays ns) + 86400 * 1000000000 ∧ (86400 * 1000000000 : Int) ∣ fromDays (toDays ns) := by
  have hf := (toDays_day_iff ns).mpr (.inl ⟨h1, h2⟩)
  have hr : fromDays (toDays ns) = (toDays ns).toInt * (86400 * 1000000000) := by
    have hb : -106751 ≤ (toDays ns).toInt ∧ (toDays ns).toInt ≤ 106751 := by
      simp only [FallsOn] at hf
      omega
    generalize toDays ns = d at hb
    have h64 : ((d.signExtend 64) : BitVec 64) = BitVec.ofInt 64 d.toInt := by
      apply BitVec.eq_of_toInt_eq
      rw [BitVec.toInt_signExtend_of_le (by decide), BitVec.toInt_ofInt, Int.bmod_eq_of_le] <;> omega
    simp only [fromDays, h64]
    rw [show (24#64) = BitVec.ofInt 64 24 by rfl, show (3600000000000#64) = BitVec.ofInt 64 3600000000000 by rfl, ← BitVec.ofInt_mul,
      ← BitVec.ofInt_mul, BitVec.toInt_ofInt, Int.bmod_eq_of_le] <;> omega
  simp only [FallsOn] at hf
  rw [hr]
  exact ⟨hf.1, by omega, Int.dvd_mul_left _ _⟩

/-- 2022-05-04 13:00, day 19116. -/
example : toDays ((19116 * 24 + 13) * 3600 * 1000000000) = 19116 ∧
    FallsOn ((19116 * 24 + 13) * 3600 * 1000000000) 19116 ∧
    fromDays (toDays ((19116 * 24 + 13) * 3600 * 1000000000)) = 19116 * 24 * 3600 * 1000000000 := by
  refine ⟨by decide +kernel, by simp only [FallsOn]; decide, by decide +kernel⟩

/-- The hypotheses of `toDays_before_1970` are met one nanosecond before 1970. -/
example : FallsOn (-1) ((toDays (-1)).toInt - 1) := toDays_before_1970 (-1) (by decide) (by decide) (by decide)

end Goorc
