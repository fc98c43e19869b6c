import Verif.Model.Time
/-
C13, C14: timestamps and dates.
-/
namespace Goorc

/-- What the location of an instant does to the round trip: the result is off by the offset. -/
theorem timestamp_roundtrip_exact (t : Instant) (hn : t.nano < 1000000000) :
    (getTimestamp t).time = ⟨t.unix - BitVec.ofInt 64 t.loc, t.nano, t.loc⟩ := by
  have h1 : (BitVec.ofNat 64 t.nano).toInt = t.nano := by
    rw [BitVec.toInt_eq_toNat_cond, BitVec.toNat_ofNat, Nat.mod_eq_of_lt (by omega), if_pos (by omega)]
  simp only [getTimestamp, Timestamp.time, timeUnix, Option.getD_some, h1]
  have h2 : (t.nano : Int) / 1000000000 = 0 := by omega
  have h3 : ((t.nano : Int) % 1000000000).toNat = t.nano := by omega
  rw [h2, h3]
  congr 1
  simp only [base2015, Int.sub_eq_add_neg, BitVec.ofInt_add, BitVec.ofInt_neg]
  generalize BitVec.ofInt 64 t.loc = a
  generalize BitVec.ofInt 64 1420070400 = b
  have : BitVec.ofInt 64 0 = (0 : U64) := rfl
  rw [this]
  grind

/-- **C13** (partial) For an instant in UTC the round trip is exact, for every int64 second count.
Missing: other locations (`timestamp_roundtrip_iff`) and milliseconds (`getMilliSeconds_false`). -/
theorem timestamp_roundtrip_partial (t : Instant) (hn : t.nano < 1000000000) (hl : t.loc = 0) :
    (getTimestamp t).time = t := by
  rw [timestamp_roundtrip_exact t hn, hl]
  cases t; simp_all

/-- **C13** is false away from UTC: for a location whose offset is a real one (below a day), the
round trip gives back the instant exactly when the offset is zero. -/
theorem timestamp_roundtrip_iff (t : Instant) (hn : t.nano < 1000000000)
    (ho : -86400 < t.loc ∧ t.loc < 86400) : (getTimestamp t).time = t ↔ t.loc = 0 := by
  constructor
  · intro h
    rw [timestamp_roundtrip_exact t hn] at h
    have h1 : t.unix - BitVec.ofInt 64 t.loc = t.unix := by
      have := congrArg Instant.unix h; simpa using this
    have h2 : BitVec.ofInt 64 t.loc = 0 := by
      generalize BitVec.ofInt 64 t.loc = a at h1
      grind
    have h3 := congrArg BitVec.toInt h2
    rw [BitVec.toInt_ofInt, Int.bmod_eq_of_le (by omega) (by omega)] at h3
    simpa using h3
  · exact timestamp_roundtrip_partial t hn

/-- **C13** is false for milliseconds: `GetMilliSeconds` of a UTC timestamp is never the Unix time in
milliseconds of the instant it stands for. -/
theorem getMilliSeconds_false (t : Timestamp) (hl : t.loc = none) (hn : t.nanos.toNat < 1000000000) :
    t.getMilliSeconds ≠ t.time.unix * 1000#64 + BitVec.ofNat 64 (t.time.nano / 1000000) := by
  obtain ⟨loc, s, n⟩ := t
  simp only at hl hn
  subst hl
  have h1 : n.toInt = n.toNat := by
    rw [BitVec.toInt_eq_toNat_cond, if_pos (by omega)]
  have h2 : n.toInt / 1000000000 = 0 := by omega
  have h3 : (n.toInt % 1000000000).toNat = n.toNat := by omega
  simp only [Timestamp.getMilliSeconds, Timestamp.time, timeUnix, Option.getD_none, h2, h3]
  intro h
  have hb : base2015 0 = 1420070400#64 := by decide
  have h0 : BitVec.ofInt 64 0 = (0 : U64) := rfl
  rw [hb, h0] at h
  have hm : n / 1000#64 - BitVec.ofNat 64 (n.toNat / 1000000) = 2840140800000#64 := by
    generalize n / 1000#64 = a at h ⊢
    generalize BitVec.ofNat 64 (n.toNat / 1000000) = c at h ⊢
    grind
  have hm' := congrArg BitVec.toNat hm
  rw [BitVec.toNat_sub, BitVec.toNat_udiv, BitVec.toNat_ofNat, BitVec.toNat_ofNat, BitVec.toNat_ofNat] at hm'
  simp only [Nat.reducePow, Nat.reduceMod] at hm'
  clear h hm h0 hb h1 h2 h3
  generalize BitVec.toNat n = k at hm' hn
  have e1 : k / 1000000 % 18446744073709551616 = k / 1000000 := Nat.mod_eq_of_lt (by omega)
  have e2 : k / 1000000 ≤ k / 1000 := by omega
  have e3 : k / 1000 < 1000000 := by omega
  rw [e1] at hm'
  generalize k / 1000000 = u at *
  generalize k / 1000 = w at *
  omega

/-- `GetMilliSecondsUtc` adds seconds, seconds and microseconds: it is not the Unix time in
milliseconds of, for example, the start of 2015. -/
theorem getMilliSecondsUtc_false :
    (⟨none, 0, 0⟩ : Timestamp).getMilliSecondsUtc = 2 * 1420070400#64 ∧
      (⟨none, 0, 0⟩ : Timestamp).time.unix * 1000#64 = 1420070400000#64 := by decide

/-- **C14** exactly: the day count survives `FromDays`/`ToDays` iff it is within ±106751 days
(292 years) of 1970. -/
theorem date_roundtrip_iff (d : BitVec 32) :
    toDays (fromDays d) = d ↔ -106751 ≤ d.toInt ∧ d.toInt ≤ 106751 := by
  have hd := d.toInt_lt
  have hd' := d.le_toInt
  have hns : fromDays d = (d.toInt * 86400000000000).bmod (2 ^ 64) := by
    simp only [fromDays]
    rw [BitVec.toInt_mul, BitVec.toInt_mul, BitVec.toInt_signExtend_of_le (by omega)]
    have h1 : (24#64).toInt = 24 := by decide
    have h2 : (3600000000000#64).toInt = 3600000000000 := by decide
    rw [h1, h2, Int.bmod_mul_bmod, Int.mul_assoc]
    rfl
  have hlo := @Int.le_bmod (d.toInt * 86400000000000) (2 ^ 64) (by decide)
  have hhi := @Int.bmod_lt (d.toInt * 86400000000000) (2 ^ 64) (by decide)
  rw [← hns] at hlo hhi
  have hlo' : -2 ^ 63 ≤ fromDays d := by simpa using hlo
  have hhi' : fromDays d < 2 ^ 63 := by simpa using hhi
  have hs : satSub (fromDays d) = fromDays d := by
    simp only [satSub]; rw [if_neg (by omega), if_neg (by omega)]
  have hn : (nanosPerDay : Int) = 86400000000000 := rfl
  have hq : (toDays (fromDays d)).toInt = Int.tdiv (fromDays d) 86400000000000 := by
    simp only [toDays, hs, hn]
    rw [BitVec.toInt_ofInt]
    apply Int.bmod_eq_of_le
    · rcases Int.le_total 0 (fromDays d) with h | h
      · rw [Int.tdiv_eq_ediv_of_nonneg h]; omega
      · have := Int.neg_tdiv (-fromDays d) 86400000000000
        rw [Int.neg_neg] at this
        rw [this, Int.tdiv_eq_ediv_of_nonneg (by omega)]; omega
    · rcases Int.le_total 0 (fromDays d) with h | h
      · rw [Int.tdiv_eq_ediv_of_nonneg h]; omega
      · have := Int.neg_tdiv (-fromDays d) 86400000000000
        rw [Int.neg_neg] at this
        rw [this, Int.tdiv_eq_ediv_of_nonneg (by omega)]; omega
  constructor
  · intro h
    rw [h] at hq
    rcases Int.le_total 0 (fromDays d) with h | h
    · rw [Int.tdiv_eq_ediv_of_nonneg h] at hq; omega
    · have := Int.neg_tdiv (-fromDays d) 86400000000000
      rw [Int.neg_neg] at this
      rw [this, Int.tdiv_eq_ediv_of_nonneg (by omega)] at hq; omega
  · intro ⟨h1, h2⟩
    apply BitVec.eq_of_toInt_eq
    rw [hq, hns]
    rw [Int.bmod_eq_of_le (by omega) (by omega)]
    exact Int.mul_tdiv_cancel _ (by omega)

/-- **C14** (partial): every date from 1677-09-22 to 2262-04-11. Missing: the rest of the int32
range, for which the round trip fails (`date_roundtrip_iff`). -/
theorem date_roundtrip_partial (d : BitVec 32) (h : -106751 ≤ d.toInt ∧ d.toInt ≤ 106751) :
    toDays (fromDays d) = d := (date_roundtrip_iff d).mpr h

/-- **C14** is false: 2262-04-12 comes back as a date in 1677. -/
theorem date_roundtrip_false : toDays (fromDays 106752#32) = BitVec.ofInt 32 (-106751) := by decide

/-- The day of an instant with a time of day (in whole seconds): right from 1970 on; before
1970 the instant is moved to the following day unless it is midnight. -/
theorem toDays_timeOfDay (d : Int) (s : Nat) (hs : s < 86400) (hd : -106751 ≤ d ∧ d < 106751) :
    (toDays (d * nanosPerDay + s * 1000000000)).toInt = if d < 0 ∧ 0 < s then d + 1 else d := by
  have hn : (nanosPerDay : Int) = 86400000000000 := rfl
  simp only [toDays, hn, satSub]
  rw [if_neg (by omega), if_neg (by omega), BitVec.toInt_ofInt]
  have key : Int.tdiv (d * 86400000000000 + s * 1000000000) 86400000000000 =
      if d < 0 ∧ 0 < s then d + 1 else d := by
    rcases Int.le_total 0 (d * 86400000000000 + s * 1000000000) with h | h
    · rw [Int.tdiv_eq_ediv_of_nonneg h]; split <;> omega
    · have := Int.neg_tdiv (-(d * 86400000000000 + s * 1000000000)) 86400000000000
      rw [Int.neg_neg] at this
      rw [this, Int.tdiv_eq_ediv_of_nonneg (by omega)]; split <;> omega
  rw [key]
  apply Int.bmod_eq_of_le <;> split <;> omega

/- Non-vacuity. -/
example : (getTimestamp ⟨1600000000#64, 123456789, 0⟩).time = ⟨1600000000#64, 123456789, 0⟩ := by decide
example : (getTimestamp ⟨1600000000#64, 5, 3600⟩).time ≠ ⟨1600000000#64, 5, 3600⟩ := by decide
example : toDays (fromDays 18262#32) = 18262#32 ∧ fromDays 18262#32 = 1577836800000000000 := by decide
example : toDays (fromDays (BitVec.ofInt 32 (-1))) = BitVec.ofInt 32 (-1) := by decide
example : (toDays (-1 * nanosPerDay + 3600 * 1000000000)).toInt = 0 := by decide

/-- **C14** Instants further than 106751 days from 1970 are moved to the limits, in 2262 and in 1677. -/
theorem toDays_saturates (ns : Int) :
    (106752 * nanosPerDay ≤ ns → (toDays ns).toInt = 106751) ∧ (ns ≤ -(106752 * nanosPerDay) → (toDays ns).toInt = -106751) := by
  have hn : (nanosPerDay : Int) = 86400000000000 := rfl
  simp only [toDays, hn, satSub]
  constructor
  · intro h
    rw [if_neg (by omega), if_pos (by omega)]
    decide
  · intro h
    rw [if_pos (by omega)]
    decide

example : (toDays (200000 * nanosPerDay)).toInt = 106751 := (toDays_saturates _).1 (by decide)

end Goorc
