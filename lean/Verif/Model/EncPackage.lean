import Verif.Go.Dec
/-
Model of the helpers in orc/encoding/package.go and of the varints of Go's encoding/binary.
-/
namespace Goorc

/-- orc/encoding/package.go:163-214 `widthEncoding`: 5-bit code of a bit width. -/
def widthEncoding (width : Nat) : Res Byte :=
  if 2 ≤ width ∧ width ≤ 21 then .ok (BitVec.ofNat 8 (width - 1))
  else if width = 26 then .ok 24
  else if width = 28 then .ok 25
  else if width = 30 then .ok 26
  else if width = 0 then .ok 0
  else if width = 1 then .ok 0
  else if width = 24 then .ok 23
  else if width = 32 then .ok 27
  else if width = 40 then .ok 28
  else if width = 48 then .ok 29
  else if width = 56 then .ok 30
  else if width = 64 then .ok 31
  else .err .other

/-- orc/encoding/package.go:216-261 `widthDecoding`. -/
def widthDecoding (w : Byte) (delta : Bool) : Res Nat :=
  if 2 ≤ w.toNat ∧ w.toNat ≤ 23 then .ok (w.toNat + 1)
  else if w = 24 then .ok 26
  else if w = 25 then .ok 28
  else if w = 26 then .ok 30
  else if w = 0 then .ok (if delta then 0 else 1)
  else if w = 1 then .ok 2
  else if w = 27 then .ok 32
  else if w = 28 then .ok 40
  else if w = 29 then .ok 48
  else if w = 30 then .ok 56
  else if w = 31 then .ok 64
  else .err .other

/-- orc/encoding/package.go:263-265 `UnZigzag` -/
def unZigzag (x : U64) : U64 := (x >>> 1) ^^^ (-(x &&& 1))

/-- orc/encoding/package.go:267-269 `Zigzag` -/
def zigzag (x : U64) : U64 := (x <<< 1) ^^^ (x.sshiftRight 63)

/-- orc/encoding/package.go:289-295 `Convert` -/
def convert (u : U64) : U64 :=
  let x := u >>> 1
  if u &&& 1 ≠ 0 then ~~~x else x

/-- orc/encoding/package.go:305-308, the loop of `EncodingNano`: strip decimal zeros while fewer
than 7 are counted. `fuel` is the number of iterations left before `trailingZeros` reaches 7. -/
def stripZeros : Nat → U64 × Nat → U64 × Nat
  | 0, r => r
  | fuel + 1, (nanos, tz) =>
    if nanos % 10 = 0 ∧ tz < 7 then stripZeros fuel (nanos / 10, tz + 1) else (nanos, tz)

/-- orc/encoding/package.go:297-311 `EncodingNano`, and its copy orc/api/vector.go:169-183
`EncodingTimestampNanos`. -/
def encodingNano (nanos : U64) : U64 :=
  if nanos = 0 then 0
  else if nanos % 100 ≠ 0 then nanos <<< 3
  else
    let (n, tz) := stripZeros 6 (nanos / 100, 1)
    (n <<< 3) ||| BitVec.ofNat 64 tz

/-- Multiply by ten `k` times (the loop of `DecodingNano`). orc/encoding/package.go:313-322. -/
def timesTen : Nat → U64 → U64
  | 0, n => n
  | k + 1, n => timesTen k (n * 10)

/-- orc/encoding/package.go:313-322 `DecodingNano`, and its copy orc/api/vector.go:185-194
`DecodingTimestampNanos` (`uint` is 64 bits). The loop runs `zeros + 1` times. -/
def decodingNano (encoded : U64) : U64 :=
  let zeros := 7 &&& encoded
  let nano := encoded >>> 3
  if zeros ≠ 0 then timesTen (zeros.toNat + 1) nano else nano

/-- The bytes `binary.PutUvarint` writes (Go standard library): 7 bits per byte, least significant
group first, the top bit marks continuation. At most ten bytes are needed for 64 bits. Called in
orc/encoding/int.go:450, 468. -/
def uvarintBytes : Nat → U64 → Bytes
  | 0, x => [x.setWidth 8]
  | fuel + 1, x =>
    if x.toNat ≥ 0x80 then (x.setWidth 8 ||| 0x80#8) :: uvarintBytes fuel (x >>> 7)
    else [x.setWidth 8]

/-- `binary.PutUvarint(buf, x)` with `len(buf) = cap`: index out of range panics. Called in orc/encoding/int.go:450,
468. -/
def putUvarint (cap : Nat) (x : U64) : Res Bytes :=
  let bs := uvarintBytes 9 x
  if bs.length ≤ cap then .ok bs else .panic

/-- `binary.PutVarint(buf, x)`: `ux := uint64(x) << 1; if x < 0 { ux = ^ux }`. Called in orc/encoding/int.go:448, 466,
914, 1143. -/
def putVarint (cap : Nat) (x : U64) : Res Bytes :=
  putUvarint cap (if x.msb then ~~~(x <<< 1) else x <<< 1)

/-- The loop of `binary.ReadUvarint`: `i` bytes read so far, `x` accumulated; `fuel = 10 - i`. Called in
orc/encoding/int.go:137-150, 1160. -/
def readUvarintLoop : Nat → Nat → U64 → Dec U64
  | 0, _, _ => .fail .other
  | fuel + 1, i, x => do
    let b ← Dec.byte
    if b.toNat < 0x80 then
      if i = 9 ∧ b.toNat > 1 then .fail .other
      else pure (x ||| (b.setWidth 64 <<< (7 * i)))
    else readUvarintLoop fuel (i + 1) (x ||| ((b &&& 0x7f#8).setWidth 64 <<< (7 * i)))

/-- `binary.ReadUvarint` Called in orc/encoding/int.go:143. -/
def readUvarint : Dec U64 := readUvarintLoop 10 0 0

/-- `binary.ReadVarint` Called in orc/encoding/int.go:137, 150, 1160. -/
def readVarint : Dec U64 := do
  let ux ← readUvarint
  pure (if ux &&& 1 ≠ 0 then ~~~(ux >>> 1) else ux >>> 1)

end Goorc
