import Verif.Model.ColWriter
import Verif.Model.EncScalar
import Verif.Model.EncInt
import Verif.Model.Time
/-
The leaf column writers of orc/column: their type-specific lines as values of `LeafKind`.
-/
namespace Goorc

/-- The parts of Go's floating point and formatting that the statistics of float and decimal columns use; nothing is
assumed about them. Floats are bit patterns. orc/column/float.go:190-250, orc/column/decimal.go:44-115. -/
structure Arith where
  /-- `float64` comparison and addition -/
  lt : BitVec 64 → BitVec 64 → Bool
  add : BitVec 64 → BitVec 64 → BitVec 64
  /-- `float64(x)` of a `float32` -/
  widen : BitVec 32 → BitVec 64
  /-- orc/api/vector.go:91-93 `Decimal64.String` -/
  decString : U64 → Int → Bytes
  /-- orc/api/vector.go:95-106 `Decimal64.Float64` -/
  decFloat : U64 → Int → BitVec 64
  /-- `strconv.ParseFloat(s, 64)` of a non-empty string -/
  parse : Bytes → Option (BitVec 64)
  /-- `fmt.Sprintf("%f", x)` -/
  format : BitVec 64 → Bytes

/-- Go's `<` on strings: lexicographic on bytes. orc/column/string.go:46-141. -/
def bytesLt : Bytes → Bytes → Bool
  | _, [] => false
  | [], _ :: _ => true
  | a :: as, b :: bs => if a.toNat < b.toNat then true else if b.toNat < a.toNat then false else bytesLt as bs

/-! ### tinyint -/

/-- Type-specific lines of orc/column/byte.go:13-140: the statistics are `BinaryStatistics` whose `Sum` counts. -/
def byteKind : LeafKind (StreamWriter ByteEnc) Nat where
  newData o := newStreamWriter o (newByteEncoder o.writeIndex)
  streams := oneStream byteEnc .data
  writeValue c o d v := d.write byteEnc c o v
  fresh := 0
  firstIndex := some 0
  firstIndexHasNull := false
  addStats n _ := .ok (n + 1)
  addIndex t u _ := match u with
    | none => .panic
    | some n => .ok (t, some (n + 1))
  indexAllRows := true
  mustFlush := true

/-! ### boolean -/

/-- Type-specific lines of orc/column/bool.go:13-137: `BucketStatistics` with one counter, of `true` values in the column
statistics, of all values in the index statistics. -/
def boolKind : LeafKind (StreamWriter BoolEnc) Nat where
  newData o := newStreamWriter o (newBoolEncoder o.writeIndex)
  streams := oneStream boolEnc .data
  writeValue c o d v := d.write boolEnc c o v
  fresh := 0
  firstIndex := some 0
  firstIndexHasNull := true
  addStats n v := match v with
    | .bool b => .ok (if b then n + 1 else n)
    | _ => .panic
  addIndex t u _ := match u with
    | none => .panic
    | some n => .ok (t, some (n + 1))
  indexAllRows := true
  mustFlush := true

/-! ### smallint, int, bigint -/

/-- orc/column/int.go:33-37 `BitsSmallInt`, `BitsInt`, `BitsBigInt`. -/
inductive IntBits where
  | small
  | int
  | big
  deriving DecidableEq, Repr

/-- The type assertions of orc/column/int.go:62-69. -/
def IntBits.value : IntBits → GoVal → Res U64
  | .small, .i16 v => .ok (v.signExtend 64)
  | .int, .i32 v => .ok (v.signExtend 64)
  | .big, .i64 v => .ok v
  | _, _ => .panic

/-- `pb.IntegerStatistics`, all `int64`. pb/pb/orc_proto.pb.go:272. -/
structure IntStats where
  min : U64
  max : U64
  sum : U64
  deriving DecidableEq, Repr

/-- orc/column/int.go:74-80, 103-109: the sum wraps around. -/
def IntStats.add (s : IntStats) (v : U64) : IntStats where
  min := if v.slt s.min then v else s.min
  max := if s.max.slt v then v else s.max
  sum := s.sum + v

/-- Type-specific lines of orc/column/int.go:13-173. -/
def intKind (bits : IntBits) : LeafKind (StreamWriter IntEnc) IntStats where
  newData o := newStreamWriter o (newIntRLV2 true o.writeIndex)
  streams := oneStream intEnc .data
  writeValue c o d v := do
    let x ← bits.value v
    d.write intEnc c o (.i64 x)
  fresh := ⟨0, 0, 0⟩
  firstIndex := some ⟨0, 0, 0⟩
  firstIndexHasNull := false
  addStats s v := do
    let x ← bits.value v
    pure (s.add x)
  addIndex t u v := match u with
    | none => .panic
    | some s => do
      let x ← bits.value v
      pure (t, some (s.add x))
  indexAllRows := true
  mustFlush := true

/-! ### float, double -/

/-- `pb.DoubleStatistics`. pb/pb/orc_proto.pb.go:327. -/
structure DoubleStats where
  min : BitVec 64
  max : BitVec 64
  sum : BitVec 64
  deriving DecidableEq, Repr

/-- orc/column/float.go:208-215, 234-240. -/
def DoubleStats.add (A : Arith) (s : DoubleStats) (v : BitVec 64) : DoubleStats where
  min := if A.lt v s.min then v else s.min
  max := if A.lt s.max v then v else s.max
  sum := A.add s.sum v

/-- orc/column/float.go:201-206: the value as `float64`; the type assertions panic. -/
def floatValue (A : Arith) (is64 : Bool) : GoVal → Res (BitVec 64)
  | .f64 v => if is64 then .ok v else .panic
  | .f32 v => if is64 then .panic else .ok (A.widen v)
  | _ => .panic

/-- orc/stream/writer.go:183-199 `NewFloatWriter` chooses the encoder. -/
def floatEncoder (is64 : Bool) : Enc Unit := if is64 then doubleEnc else floatEnc

/-- Type-specific lines of orc/column/float.go:164-306. The index code asserts `float64` also for float columns
(float.go:233). -/
def floatKind (A : Arith) (is64 : Bool) : LeafKind (StreamWriter Unit) DoubleStats where
  newData o := newStreamWriter o ()
  streams := oneStream (floatEncoder is64) .data
  writeValue c o d v := d.write (floatEncoder is64) c o v
  fresh := ⟨0, 0, 0⟩
  firstIndex := some ⟨0, 0, 0⟩
  firstIndexHasNull := false
  addStats s v := do
    let x ← floatValue A is64 v
    pure (s.add A x)
  addIndex t u v := match v with
    | .f64 x => match u with
      | none => .panic
      | some s => .ok (t, some (s.add A x))
    | _ => .panic
  indexAllRows := true
  mustFlush := true

/-! ### string -/

/-- `pb.StringStatistics`: pointers, nil is `none`. pb/pb/orc_proto.pb.go:382. -/
structure StringStats where
  min : Option Bytes
  max : Option Bytes
  lower : Option Bytes
  upper : Option Bytes
  sum : Nat
  deriving DecidableEq, Repr

/-- orc/column/string.go:14-16 `MaxByteLength`. -/
def maxByteLength : Nat := 1024

/-- orc/column/string.go:72-94, 111-136: the comparisons of the bounds use `GetMaximum()`, which is `""` for nil. -/
def StringStats.add (s : StringStats) (v : Bytes) : StringStats :=
  let s := { s with sum := s.sum + v.length }
  let s := match s.min with
    | some m => if bytesLt v m then { s with min := some v } else s
    | none => s
  let s := match s.max with
    | some m => if bytesLt m v then { s with max := some v } else s
    | none => s
  let s := if v.length ≥ maxByteLength then { s with lower := s.min, min := none, upper := s.max, max := none } else s
  let s := match s.lower with
    | some _ => if bytesLt v (s.max.getD []) then { s with lower := some v } else s
    | none => s
  match s.upper with
    | some _ => if bytesLt (s.max.getD []) v then { s with upper := some v } else s
    | none => s

/-- Type-specific lines of orc/column/string.go:18-203 (direct encoding). -/
def stringKind : LeafKind (StreamWriter Unit × StreamWriter IntEnc) StringStats where
  newData o := (newStreamWriter o (), newStreamWriter o (newIntRLV2 false o.writeIndex))
  streams := twoStreams stringEnc intEnc .data .length
  writeValue c o d v := match v with
    | .str s => do
      let a ← d.1.write stringEnc c o (.bytes s)
      let b ← d.2.write intEnc c o (.u64 (BitVec.ofNat 64 s.length))
      pure (a, b)
    | _ => .err .other
  fresh := ⟨some [], some [], none, none, 0⟩
  firstIndex := some ⟨some [], some [], none, none, 0⟩
  firstIndexHasNull := false
  addStats s v := match v with
    | .str x => .ok (s.add x)
    | _ => .err .other
  addIndex t u v := match u, v with
    | some s, .str x => .ok (t, some (s.add x))
    | _, _ => .panic
  indexAllRows := true
  mustFlush := false

/-! ### binary -/

/-- Type-specific lines of orc/column/binary.go:15-143: the length stream exists but nothing is ever written to it. -/
def binaryKind : LeafKind (StreamWriter Unit × StreamWriter IntEnc) Nat where
  newData o := (newStreamWriter o (), newStreamWriter o (newIntRLV2 false o.writeIndex))
  streams := twoStreams stringEnc intEnc .data .length
  writeValue c o d v := do
    let a ← d.1.write stringEnc c o v
    pure (a, d.2)
  fresh := 0
  firstIndex := some 0
  firstIndexHasNull := false
  addStats n _ := .ok (n + 1)
  addIndex t u _ := match u with
    | none => .panic
    | some n => .ok (t, some (n + 1))
  indexAllRows := true
  mustFlush := false

/-! ### date -/

/-- `pb.DateStatistics`, `int32` days. pb/pb/orc_proto.pb.go:550. -/
structure DateStats where
  min : BitVec 32
  max : BitVec 32
  deriving DecidableEq, Repr

/-- orc/column/time.go:54-59, 82-87. -/
def DateStats.add (s : DateStats) (d : BitVec 32) : DateStats where
  min := if d.slt s.min then d else s.min
  max := if s.max.slt d then d else s.max

/-- Type-specific lines of orc/column/time.go:15-142. The index code updates the column statistics (time.go:82-87). -/
def dateKind : LeafKind (StreamWriter IntEnc) DateStats where
  newData o := newStreamWriter o (newIntRLV2 true o.writeIndex)
  streams := oneStream intEnc .data
  writeValue c o d v := match v with
    | .date ns => d.write intEnc c o (.i64 ((toDays ns).signExtend 64))
    | _ => .panic
  fresh := ⟨0, 0⟩
  firstIndex := some ⟨0, 0⟩
  firstIndexHasNull := false
  addStats s v := match v with
    | .date ns => .ok (s.add (toDays ns))
    | _ => .panic
  addIndex t u v := match v with
    | .date ns => .ok (t.add (toDays ns), u)
    | _ => .panic
  indexAllRows := true
  mustFlush := false

/-! ### timestamp -/

/-- `pb.TimestampStatistics`, all `int64`. pb/pb/orc_proto.pb.go:598. -/
structure TsStats where
  min : U64
  max : U64
  minUtc : U64
  maxUtc : U64
  deriving DecidableEq, Repr

/-- orc/column/time.go:323-336: the third test writes `Minimum`, the fourth compares with `Maximum`. -/
def TsStats.add (s : TsStats) (ms msUtc : U64) : TsStats :=
  let s := if ms.slt s.min then { s with min := ms } else s
  let s := if s.max.slt ms then { s with max := ms } else s
  let s := if ms.slt s.minUtc then { s with min := msUtc } else s
  if s.max.slt ms then { s with maxUtc := msUtc } else s

/-- orc/column/time.go:363-374: the last test writes `Minimum`. -/
def TsStats.addIndex (s : TsStats) (ms msUtc : U64) : TsStats :=
  let s := if s.max.slt ms then { s with max := ms } else s
  let s := if ms.slt s.min then { s with min := ms } else s
  let s := if s.maxUtc.slt msUtc then { s with maxUtc := msUtc } else s
  if msUtc.slt s.minUtc then { s with min := msUtc } else s

/-- Type-specific lines of orc/column/time.go:279-442. The first index statistics carry `DoubleStatistics`; missing
timestamp statistics are created when needed (time.go:359-361). -/
def timestampKind : LeafKind (StreamWriter IntEnc × StreamWriter IntEnc) TsStats where
  newData o := (newStreamWriter o (newIntRLV2 true o.writeIndex), newStreamWriter o (newIntRLV2 false o.writeIndex))
  streams := twoStreams intEnc intEnc .data .secondary
  writeValue c o d v := match v with
    | .ts _ s n => do
      let a ← d.1.write intEnc c o (.i64 s)
      let b ← d.2.write intEnc c o (.u64 (encodingNano n))
      pure (a, b)
    | _ => .panic
  fresh := ⟨0, 0, 0, 0⟩
  firstIndex := none
  firstIndexHasNull := false
  addStats s v := match v with
    | .ts l x n => .ok (s.add (Timestamp.getMilliSeconds ⟨l, x, n⟩) (Timestamp.getMilliSecondsUtc ⟨l, x, n⟩))
    | _ => .panic
  addIndex t u v := match v with
    | .ts l x n =>
      .ok (t, some ((u.getD ⟨0, 0, 0, 0⟩).addIndex (Timestamp.getMilliSeconds ⟨l, x, n⟩) (Timestamp.getMilliSecondsUtc ⟨l, x, n⟩)))
    | _ => .panic
  indexAllRows := false
  mustFlush := true

/-! ### decimal -/

/-- `pb.DecimalStatistics`, all strings. pb/pb/orc_proto.pb.go:495. -/
structure DecStats where
  min : Bytes
  max : Bytes
  sum : Bytes
  deriving DecidableEq, Repr

/-- `strconv.ParseFloat`: the empty string is an error. Called in orc/column/decimal.go:69, 104. -/
def parseFloat (A : Arith) (s : Bytes) : Res (BitVec 64) :=
  if s = [] then .err .other
  else match A.parse s with
    | some x => .ok x
    | none => .err .other

/-- orc/column/decimal.go:59-75. -/
def DecStats.add (A : Arith) (s : DecStats) (p : U64) (sc : Int) : Res DecStats := do
  let x := A.decString p sc
  let s := if bytesLt x s.min then { s with min := x } else s
  let s := if bytesLt s.max x then { s with max := x } else s
  let sum ← if s.sum ≠ [] then parseFloat A s.sum else pure 0
  pure { s with sum := A.format (A.add sum (A.decFloat p sc)) }

/-- orc/column/decimal.go:98-110: maximum and sum go to the column statistics; getters of a nil message give `""`. -/
def DecStats.addIndex (A : Arith) (t : DecStats) (u : Option DecStats) (p : U64) (sc : Int) : Res (DecStats × Option DecStats) := do
  let x := A.decString p sc
  let u ← (if bytesLt x ((u.map (·.min)).getD []) then
      match u with
      | some s => pure (some { s with min := x })
      | none => .panic
    else pure u : Res (Option DecStats))
  let t := if bytesLt ((u.map (·.max)).getD []) x then { t with max := x } else t
  let sum ← parseFloat A ((u.map (·.sum)).getD [])
  pure ({ t with sum := A.format (A.add sum (A.decFloat p sc)) }, u)

/-- Type-specific lines of orc/column/decimal.go:17-176. -/
def decimalKind (A : Arith) : LeafKind (StreamWriter Unit × StreamWriter IntEnc) DecStats where
  newData o := (newStreamWriter o (), newStreamWriter o (newIntRLV2 true o.writeIndex))
  streams := twoStreams varintEnc intEnc .data .secondary
  writeValue c o d v := match v with
    | .dec p s => do
      let a ← d.1.write varintEnc c o (.i64 p)
      let b ← d.2.write intEnc c o (.i64 (BitVec.ofInt 64 s))
      pure (a, b)
    | _ => .panic
  fresh := ⟨[], [], []⟩
  firstIndex := some ⟨[], [], []⟩
  firstIndexHasNull := false
  addStats s v := match v with
    | .dec p sc => s.add A p sc
    | _ => .panic
  addIndex t u v := match v with
    | .dec p sc => DecStats.addIndex A t u p sc
    | _ => .panic
  indexAllRows := false
  mustFlush := true

end Goorc
