import Verif.Model.EncByte
/-
Model of orc/encoding/bool.go: booleans packed 8 per byte, bytes run-length encoded.
-/
namespace Goorc

/-- orc/encoding/bool.go:8 `MaxBoolRunLength` -/
def maxBoolRunLength : Nat := 8

/-- orc/encoding/bool.go:10-15 `boolRunLength` -/
structure BoolEnc where
  brl : ByteEnc
  index : Int
  value : Byte
  position : Int
  deriving DecidableEq, Repr

/-- orc/encoding/bool.go:17-22 `NewBoolEncoder` -/
def newBoolEncoder (resetPosition : Bool) : BoolEnc :=
  { brl := newByteEncoder resetPosition, index := -1, value := 0,
    position := if resetPosition then 0 else -1 }

/-- orc/encoding/bool.go:24-30 `boolRunLength.GetPosition` -/
def BoolEnc.getPosition (e : BoolEnc) : List Nat :=
  [intToU64 e.brl.position, intToU64 e.position]

/-- orc/encoding/bool.go:33-53 `boolRunLength.Encode` -/
def BoolEnc.encode (e : BoolEnc) (v : GoVal) : Res (BoolEnc × Bytes) :=
  match v with
  | .bool value => do
    let index := e.index + 1
    let value := if value then e.value ||| (1#8 <<< (7 - index).toNat) else e.value
    let (e', out) ←
      (if index ≥ (maxBoolRunLength : Int) - 1 then do
        let (brl, out) ← e.brl.encode (.u8 value)
        pure ({ e with brl := brl, index := -1, value := 0 }, out)
      else
        pure ({ e with index := index, value := value }, []) : Res (BoolEnc × Bytes))
    pure ({ e' with position := if e.position ≠ -1 then e'.index + 1 else e.position }, out)
  | _ => .panic

/-- orc/encoding/bool.go:55-66 `boolRunLength.Flush`. Note that `value` is not cleared. -/
def BoolEnc.flush (e : BoolEnc) : Res (BoolEnc × Bytes) := do
  let (brl, out) ←
    (if e.index ≠ -1 then e.brl.encode (.u8 e.value) else pure (e.brl, []) : Res (ByteEnc × Bytes))
  let (brl, out') ← brl.flush
  pure ({ e with brl := brl, index := -1 }, out ++ out')

/-- orc/encoding/bool.go:85-92 `DecodeBoolsFromByte`: most significant bit first. -/
def boolsOfByte (b : Byte) : List Bool :=
  (List.range 8).map fun i => (b >>> (7 - i)) &&& 1#8 = 1#8

/-- orc/encoding/bool.go:68-83 `DecodeBools` with an empty `vs` argument: one run of bytes. -/
def decodeBools : Dec (List Bool) := do
  let bs ← decodeByteRL
  pure (bs.flatMap boolsOfByte)

end Goorc
