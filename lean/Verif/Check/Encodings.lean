import Verif.Model.EncInt
import Verif.Model.EncScalar
import Verif.Model.Chunk
import Verif.Model.Time
import Verif.Model.Encoder
/-
The tests of the repository for its encodings (orc/encoding/encoding_test.go), chunk headers (orc/common/misc_test.go) and
timestamps (orc/api/vector_test.go), run in the model. These are tests, not proofs: they show that the definitions the
theorems are about behave on the project's own vectors as the project expects.
-/
namespace Goorc.Check

/-- `NewIntRLV2(signed, pos)`, `Encode` for each value, `Flush`. -/
def intBytes (signed pos : Bool) (vs : List Int) : Res Bytes :=
  intEnc.encodeFlush (newIntRLV2 signed pos) (vs.map fun v => if signed then .i64 (BitVec.ofInt 64 v) else .u64 (BitVec.ofInt 64 v))

/-- `DecodeInt` or `DecodeUInt` to the end of the buffer. -/
def intsOf (signed : Bool) (bs : Bytes) : Res (List U64) := decodeAll (if signed then decodeInt true else decodeUInt false) bs

/-- Encoding and decoding gives the values back. -/
def intTrip (signed pos : Bool) (vs : List Int) : Bool := (do intsOf signed (← intBytes signed pos vs)) = .ok (vs.map (BitVec.ofInt 64))

/-- Writing directly and decoding gives the values back. -/
def directTrip (signed : Bool) (vs : List Int) : Bool :=
  (do intsOf signed (← writeDirect (vs.map fun v => if signed then zigzag (BitVec.ofInt 64 v) else BitVec.ofInt 64 v))) =
    .ok (vs.map (BitVec.ofInt 64))

/-- Values given to one encoder in groups, with a flush after each, and decoded group by group. -/
def byteGroups (gs : List Bytes) : Res (List Bytes) := do
  (← byteEnc.encodeGroups (newByteEncoder true) (gs.map fun g => g.map .u8)).mapM (decodeAll decodeByteRL)

/-- The same for booleans; what the last byte has too much is cut off. -/
def boolGroups (gs : List (List Bool)) : Res (List (List Bool)) := do
  let outs ← boolEnc.encodeGroups (newBoolEncoder true) (gs.map fun g => g.map .bool)
  let vs ← outs.mapM (decodeAll decodeBools)
  pure (List.zipWith (fun g v => v.take g.length) gs vs)

/-- What `GetPosition` says after some values. -/
def positionAfter {σ : Type} (E : Enc σ) (s : σ) (before : List (List GoVal)) (vs : List GoVal) : Res (List Nat) := do
  let (s, _) ← E.run s (before.flatMap fun g => g.map .encode ++ [.flush])
  let (s, _) ← E.encodeMany s vs
  pure (E.getPosition s)

/- orc/encoding/encoding_test.go:16-177 `TestByteRunLength`. -/
#guard decodeByteRL.runBuf [0x61, 0x00] = .ok (List.replicate 100 0, [])
#guard decodeByteRL.runBuf [0xfe, 0x44, 0x45] = .ok ([0x44, 0x45], [])

/-- The groups of values the test gives to its one encoder. -/
def byteTest : List Bytes :=
  [[5, 5, 5, 5], [1, 5, 5, 5, 5], [1, 5, 5, 5, 5, 1], [1, 2, 3, 4, 5, 5, 5, 5, 6, 7, 8, 8, 8, 9, 0x10],
    [1, 2, 3, 4, 5, 5, 5, 5, 6, 7, 8, 8, 8, 9, 0x10], List.replicate 131 1 ++ [2, 3], (List.range 151).map (BitVec.ofNat 8)]

#guard byteGroups byteTest = .ok byteTest
#guard positionAfter byteEnc (newByteEncoder true) [] ([5, 5, 5].map .u8) = .ok [3]
#guard positionAfter byteEnc (newByteEncoder true) ((byteTest.take 3).map (·.map .u8)) ([1, 2, 3, 4, 5].map .u8) = .ok [5]
#guard positionAfter byteEnc (newByteEncoder true) ((byteTest.take 4).map (·.map .u8)) (([1, 2, 3, 4, 5, 5, 5, 5, 6, 7, 8, 8] : Bytes).map .u8) = .ok [12]
#guard positionAfter byteEnc (newByteEncoder true) ((byteTest.take 6).map (·.map .u8)) ((List.range 125).map fun i => .u8 (BitVec.ofNat 8 i)) = .ok [125]
#guard positionAfter byteEnc (newByteEncoder true) ((byteTest.take 6).map (·.map .u8)) ((List.range 131).map fun i => .u8 (BitVec.ofNat 8 i)) = .ok [3]

/- orc/encoding/encoding_test.go:196-217 `TestDouble`, with bit patterns for the numbers. -/
#guard (do decodeAll (do let x ← decodeDouble; pure [x]) (← doubleEnc.encodeFlush () ([0x3f1a36e2eb1c432d, 0x405f40104189374c].map .f64))) =
  .ok [0x3f1a36e2eb1c432d, 0x405f40104189374c]

/- orc/encoding/encoding_test.go:244-357 `TestIntRunLengthV2_Delta`. -/
#guard intsOf false [0xc6, 0x09, 0x02, 0x02, 0x22, 0x42, 0x42, 0x46] = .ok [2, 3, 5, 7, 11, 13, 17, 19, 23, 29]
#guard intBytes false true [2, 3, 5, 7, 11, 13, 17, 19, 23, 29] = .ok [0xc6, 0x09, 0x02, 0x02, 0x22, 0x42, 0x42, 0x46]
#guard positionAfter intEnc (newIntRLV2 false true) [] ([2, 3, 5, 7, 11, 13, 17, 19].map .u64) = .ok [8]
#guard intTrip true true [-2, -3, -5, -7, -11, -13, -17, -19, -23, -29]
#guard intTrip true true (List.replicate 13 (-2))
#guard intTrip false true ((List.range 1000).map Int.ofNat)
#guard intTrip true true ((List.range 1500).map fun i => 1000 - Int.ofNat i)

/- orc/encoding/encoding_test.go:359-469 `TestIntRunLengthV2Direct`. -/
#guard intBytes false false [23713, 57005, 43806, 48879] = .ok [0x5e, 0x03, 0x5c, 0xa1, 0xde, 0xad, 0xab, 0x1e, 0xbe, 0xef]
#guard intTrip false false [23713, 57005, 43806, 48879]
#guard intTrip false false [999, 900203003, 688888888, 857340643]
#guard directTrip false [6, 7, 8]
#guard directTrip true [1, 1, 2, 2, 2, 2, 2]
#guard directTrip true [6, 7, 8]
#guard intTrip false false [0x5ff]
#guard directTrip false [0b10000000001, 0b10000000011]

/-- The values of the test of patches. -/
def patchTest : List Int :=
  [2030, 2000, 2020, 1000000, 2040, 2050, 2060, 2070, 2080, 2090, 2100, 2110, 2120, 2130, 2140, 2150, 2160, 2170, 2180, 2190]

/-- Their encoding. -/
def patchBytes : Bytes :=
  [0x8e, 0x13, 0x2b, 0x21, 0x07, 0xd0, 0x1e, 0x00, 0x14, 0x70, 0x28, 0x32, 0x3c, 0x46, 0x50, 0x5a, 0x64, 0x6e, 0x78, 0x82, 0x8c,
    0x96, 0xa0, 0xaa, 0xb4, 0xbe, 0xfc, 0xe8]

/- orc/encoding/encoding_test.go:471-509 `TestIntRunLengthV2Patch`. -/
#guard intsOf true patchBytes = .ok (patchTest.map (BitVec.ofInt 64))
#guard intBytes true false patchTest = .ok patchBytes
#guard intTrip true false [-2030, -2000, -2020, 1000000, 2040, -2050, -2060, -2070, -2080, -2090, -2100, -2110, -2120, -2130,
  -2140, -2150, -2160, -2170, -2180, -2190]

/- orc/encoding/encoding_test.go:511-548 `TestIntRunLengthV2`. -/
#guard intsOf false [0x0a, 0x27, 0x10] = .ok (List.replicate 5 10000)
#guard intTrip true false (List.replicate 10 (-1))
#guard intsOf false [0x5e, 0x03, 0x5c, 0xa1, 0xab, 0x1e, 0xde, 0xad, 0xbe, 0xef] = .ok [23713, 43806, 57005, 48879]

/- orc/encoding/encoding_test.go:550-562 `TestZigzag`. -/
#guard zigzag (-1) = 1
#guard unZigzag 1 = -1
#guard zigzag 2147483647 = 4294967294
#guard unZigzag (zigzag 2147483647) = 2147483647
#guard zigzag (-2147483648) = 4294967295
#guard unZigzag (zigzag (-2147483648)) = -2147483648
#guard unZigzag (zigzag 1) = 1

/- orc/encoding/encoding_test.go:576-584 `TestTimestampTrailing`, `TestNanoEncoding`. -/
#guard encodingNano 1000 = 0x0a
#guard encodingNano 100000 = 0x0c

/-- The groups of values `TestBoolRunLength` gives to its one encoder. -/
def boolTest : List (List Bool) :=
  [(List.range 8).map (· == 0), (List.range 100).map (· == 0), (List.range 100).map fun i => [0, 44, 99].contains i,
    (List.range 100).map fun i => !([0, 45, 98].contains i)]

/- orc/encoding/encoding_test.go:586-693 `TestBoolRunLength`. -/
#guard boolEnc.encodeFlush (newBoolEncoder true) ((boolTest.take 1).flatten.map .bool) = .ok [0xff, 0x80]
#guard boolGroups boolTest = .ok boolTest
#guard positionAfter boolEnc (newBoolEncoder true) [] ([true, false, false, false].map .bool) = .ok [0, 4]
#guard positionAfter boolEnc (newBoolEncoder true) ((boolTest.take 2).map (·.map .bool)) ((List.range 100).map fun i => .bool ([0, 44, 99].contains i)) = .ok [12, 4]

/- orc/encoding/encoding_test.go:695-702 `TestFindRepeats`. -/
#guard findRepeats 3 [5, 5, 5, 5] = 0
#guard findRepeats 3 [1, 5, 5, 5, 5] = 1
#guard findRepeats 3 [1, 2, 3, 4, 5] = 5

/- orc/common/misc_test.go:8-17 `TestEncHeader`. -/
#guard encChunkHeader 100000 false = [0x40, 0x0d, 0x03]
#guard decChunkHeader 0x40 0x0d 0x03 = (100000, false)

/- orc/api/vector_test.go:11-33 `TestTimestampEncoding`: 2037-01-01 00:00:00.000999, 2003-01-01 00:00:00.000000222 and
1995-01-01 00:00:00.688888888, all UTC. -/
#guard [(⟨2114380800, 999000, 0⟩ : Instant), ⟨1041379200, 222, 0⟩, ⟨788918400, 688888888, 0⟩].all fun t =>
  getTimestamp (getTimestamp t).time = getTimestamp t

end Goorc.Check
