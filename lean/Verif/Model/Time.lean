import Verif.Go.Basic
/-
Model of the date and timestamp conversions of orc/api/vector.go.

A `time.Time` at UTC used as a date is its distance from 1970-01-01 00:00 UTC in nanoseconds.
A `*time.Location` enters the code only through `time.Date(2015, 1, 1, 0, 0, 0, 0, loc)`, so it is
modelled by its offset from UTC, in seconds east, at that local time; `nil` is `none`.
-/
namespace Goorc

/-- `24 * time.Hour` in nanoseconds. orc/api/vector.go:119-130. -/
def nanosPerDay : Nat := 24 * 3600 * 1000000000

/-- orc/api/vector.go:119-123 `FromDays`: `int64(days) * 24 * int64(time.Hour)` wraps at 64 bits;
adding a duration to a `time.Time` near 1970 does not overflow. -/
def fromDays (days : BitVec 32) : Int :=
  ((days.signExtend 64) * 24#64 * 3600000000000#64).toInt

/-- `time.Time.Sub` saturates to the int64 range (Go standard library). Called in orc/api/vector.go:119-130. -/
def satSub (ns : Int) : Int :=
  if ns < -2 ^ 63 then -2 ^ 63 else if ns > 2 ^ 63 - 1 then 2 ^ 63 - 1 else ns

/-- orc/api/vector.go:126-130 `ToDays`. Simplification: `s.Hours() / 24` is a float division; it is
modelled by the exact quotient truncated towards zero, which agrees for every duration that is not
within a microsecond below a whole number of days. -/
def toDays (ns : Int) : BitVec 32 :=
  BitVec.ofInt 32 (Int.tdiv (satSub ns) nanosPerDay)

/-- orc/api/vector.go:132-136 `Timestamp`. -/
structure Timestamp where
  loc : Option Int
  seconds : U64
  nanos : U64
  deriving DecidableEq, Repr

/-- An instant: `time.Time` as `Unix()` seconds, `Nanosecond()` and location. orc/api/vector.go:132-167. -/
structure Instant where
  unix : U64
  nano : Nat
  loc : Int
  deriving DecidableEq, Repr

/-- `time.Date(2015, 1, 1, 0, 0, 0, 0, loc).Unix()` with `loc` at the given offset. orc/api/vector.go:138-157. -/
def base2015 (off : Int) : U64 := BitVec.ofInt 64 (1420070400 - off)

/-- `time.Unix(sec, nsec)`: nanoseconds outside [0, 10^9) are carried into the seconds. Called in
orc/api/vector.go:138-145. -/
def timeUnix (sec : U64) (nsec : U64) (off : Int) : Instant :=
  let q := nsec.toInt / 1000000000
  let r := nsec.toInt % 1000000000
  ⟨sec + BitVec.ofInt 64 q, r.toNat, off⟩

/-- orc/api/vector.go:138-145 `Timestamp.Time`. -/
def Timestamp.time (t : Timestamp) : Instant :=
  let loc := t.loc.getD 0
  timeUnix (base2015 loc + t.seconds) t.nanos loc

/-- orc/api/vector.go:147-157 `Timestamp.GetMilliSeconds`. -/
def Timestamp.getMilliSeconds (t : Timestamp) : U64 :=
  let loc := t.loc.getD 0
  (t.seconds - base2015 loc) * 1000#64 + t.nanos / 1000#64

/-- orc/api/vector.go:159-162 `Timestamp.GetMilliSecondsUtc`. -/
def Timestamp.getMilliSecondsUtc (t : Timestamp) : U64 :=
  base2015 0 + t.time.unix + t.nanos / 1000#64

/-- orc/api/vector.go:164-167 `GetTimestamp`. -/
def getTimestamp (t : Instant) : Timestamp :=
  ⟨some t.loc, t.unix - base2015 0, BitVec.ofNat 64 t.nano⟩

end Goorc
