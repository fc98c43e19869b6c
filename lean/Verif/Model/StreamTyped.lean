import Verif.Model.StreamReader
import Verif.Model.EncBool
import Verif.Model.EncScalar
import Verif.Model.EncInt
import Verif.Model.Time
/-
Model of the typed stream readers: orc/stream/byte.go, bool.go, int.go, float.go, string.go, time.go.
-/
namespace Goorc

/-- orc/stream/byte.go `ByteReader`: a block reader of bytes. -/
abbrev ByteReader := BlockReader Byte

/-- orc/stream/byte.go:21-35 `ByteReader.Next`. -/
def ByteReader.nextByte (c : Codec) (r : ByteReader) : Res (Byte × ByteReader) := BlockReader.next decodeByteRL c r

/-- orc/stream/byte.go:37-49 `ByteReader.Seek`. -/
def ByteReader.seekByte (c : Codec) (r : ByteReader) (chunk chunkOffset pos : Nat) : Res ByteReader :=
  BlockReader.seek decodeByteRL c r chunk chunkOffset pos

/-- orc/stream/bool.go:10-14 `BoolReader`: a byte reader and the values of the current byte not yet delivered. -/
structure BoolReader where
  reader : ByteReader
  values : List Bool

/-- orc/stream/bool.go:16-18 `NewBoolReader`. -/
def newBoolReader (s : StreamReader) : BoolReader := ⟨⟨s, []⟩, []⟩

/-- orc/stream/bool.go:20-33 `Next`. -/
def BoolReader.next (c : Codec) (r : BoolReader) : Res (Bool × BoolReader) :=
  match r.values with
  | v :: vs => .ok (v, { r with values := vs })
  | [] => do
    let (b, br) ← r.reader.nextByte c
    match boolsOfByte b with
    | v :: vs => .ok (v, ⟨br, vs⟩)
    | [] => .panic

/-- orc/stream/bool.go:41-45, the loop of `Seek`. -/
def BoolReader.skip (c : Codec) : Nat → BoolReader → Res BoolReader
  | 0, r => .ok r
  | n + 1, r => do
    let (_, r) ← r.next c
    BoolReader.skip c n r

/-- orc/stream/bool.go:35-47 `Seek`. -/
def BoolReader.seek (c : Codec) (r : BoolReader) (chunk chunkOffset byteRLOffset valueOffset : Nat) : Res BoolReader := do
  let br ← r.reader.seekByte c chunk chunkOffset byteRLOffset
  BoolReader.skip c valueOffset ⟨br, []⟩

/-- orc/stream/bool.go:49-51 `Finished`. -/
def BoolReader.finished (r : BoolReader) : Bool := r.reader.finished && r.values.isEmpty

/-- orc/stream/int.go:11-20 `IntRLV2Reader`; `values` and `uvalues` are one list, only one of them is ever used. -/
structure IntReader where
  signed : Bool
  block : BlockReader U64

/-- orc/stream/int.go:22-25 `NewIntRLV2Reader`. -/
def newIntReader (signed : Bool) (s : StreamReader) : IntReader := ⟨signed, ⟨s, []⟩⟩

/-- orc/stream/int.go:27-42 `NextInt64`. -/
def IntReader.nextInt64 (c : Codec) (r : IntReader) : Res (U64 × IntReader) :=
  if !r.signed then .err .other
  else do
    let (v, b) ← r.block.next (decodeInt r.signed) c
    pure (v, { r with block := b })

/-- orc/stream/int.go:44-62 `NextUInt64`; an empty block is an error here (no block is empty, C27). -/
def IntReader.nextUInt64 (c : Codec) (r : IntReader) : Res (U64 × IntReader) :=
  if r.signed then .err .other
  else
    match r.block.values with
    | v :: vs => .ok (v, { r with block := { r.block with values := vs } })
    | [] => do
      let (vs, s) ← (decodeUInt r.signed).runStream c r.block.stream
      match vs with
      | v :: vs => .ok (v, { r with block := ⟨s, vs⟩ })
      | [] => .err .other

/-- orc/stream/int.go:80-86 `Finished`. -/
def IntReader.finished (r : IntReader) : Bool := r.block.finished

/-- orc/stream/int.go:99-109, the loop of `Seek`. -/
def IntReader.skip (c : Codec) : Nat → IntReader → Res IntReader
  | 0, r => .ok r
  | n + 1, r => do
    let (_, r) ← if r.signed then r.nextInt64 c else r.nextUInt64 c
    IntReader.skip c n r

/-- orc/stream/int.go:88-111 `Seek`. -/
def IntReader.seek (c : Codec) (r : IntReader) (chunk chunkOffset pos : Nat) : Res IntReader := do
  let s ← r.block.stream.seek c chunk chunkOffset
  IntReader.skip c pos { r with block := ⟨s, []⟩ }

/-- orc/stream/int.go:125-128 `Varint64Reader.NextInt64`. -/
def nextVarint (c : Codec) (r : StreamReader) : Res (U64 × StreamReader) := decodeVarInt64.runStream c r

/-- orc/stream/int.go:134-140 `Varint64Reader.Seek`: the last argument is ignored. -/
def seekVarint (c : Codec) (r : StreamReader) (chunk chunkOffset _pos : Nat) : Res StreamReader := r.seek c chunk chunkOffset

/-- orc/stream/float.go:11-14 `FloatReader`. -/
structure FloatReader where
  is64 : Bool
  stream : StreamReader

/-- orc/stream/float.go:21-26 `NextFloat`. -/
def FloatReader.nextFloat (c : Codec) (r : FloatReader) : Res (BitVec 32 × FloatReader) :=
  if r.is64 then .err .other
  else do
    let (v, s) ← decodeFloat.runStream c r.stream
    pure (v, { r with stream := s })

/-- orc/stream/float.go:28-33 `NextDouble`. -/
def FloatReader.nextDouble (c : Codec) (r : FloatReader) : Res (BitVec 64 × FloatReader) :=
  if !r.is64 then .err .other
  else do
    let (v, s) ← decodeDouble.runStream c r.stream
    pure (v, { r with stream := s })

/-- orc/stream/float.go:42-52 `Seek`. -/
def FloatReader.seek (c : Codec) (r : FloatReader) (chunk chunkOffset : Nat) : Res FloatReader := do
  let s ← r.stream.seek c chunk chunkOffset
  pure { r with stream := s }

/-- orc/stream/string.go:18-28 `NextBytes`, `NextString`: the length is a `uint64` and is converted to `int`; from `2^63` on
it becomes negative and `make` panics. (Lengths that are merely too large for the memory are not told apart.) -/
def nextBytes (c : Codec) (r : StreamReader) (len : Nat) : Res (Bytes × StreamReader) :=
  if len < 2 ^ 63 then (decodeBytes len).runStream c r else .panic

/-- orc/stream/string.go:38-45, the inner loop of `getAllString`. -/
def nextStrings (c : Codec) : List Nat → StreamReader → Res (List Bytes × StreamReader)
  | [], r => .ok ([], r)
  | l :: ls, r => do
    let (v, r) ← nextBytes c r l
    let (vs, r) ← nextStrings c ls r
    pure (v :: vs, r)

/-- orc/stream/string.go:35-48 `getAllString` (not called anywhere); `fuel` bounds the outer loop. -/
def getAllString (c : Codec) (lens : List Nat) : Nat → StreamReader → Res (List Bytes × StreamReader)
  | fuel, r =>
    if r.finished then .ok ([], r)
    else
      match fuel with
      | 0 => .hang
      | fuel + 1 => do
        let (vs, r) ← nextStrings c lens r
        let (ws, r) ← getAllString c lens fuel r
        pure (vs ++ ws, r)

/-- orc/encoding/time.go:41-50 `dateV2Decoder.Decode`: dates as nanoseconds. -/
def decodeDates : Dec (List Int) := do
  let days ← decodeInt true
  pure (days.map fun v => fromDays (v.setWidth 32))

/-- orc/encoding/time.go:16-23 `dateV2Encoder.Encode`: the days, an `int32`, are handed to the integer encoder, which
takes only `int64`. -/
def dateV2Encode (e : IntEnc) (v : GoVal) : Res (IntEnc × Bytes) :=
  match v with
  | .date ns => IntEnc.encode e (.i32 (toDays ns))
  | _ => .panic

/-- orc/stream/time.go:15-20 `dateV2Reader`: a block reader of dates. -/
abbrev DateReader := BlockReader Int

/-- orc/stream/time.go:30-41 `Next`. -/
def DateReader.nextDate (c : Codec) (r : DateReader) : Res (Int × DateReader) := BlockReader.next decodeDates c r

/-- orc/stream/time.go:43-55 `Seek`. -/
def DateReader.seekDate (c : Codec) (r : DateReader) (chunk chunkOffset offset : Nat) : Res DateReader :=
  BlockReader.seek decodeDates c r chunk chunkOffset offset

end Goorc
