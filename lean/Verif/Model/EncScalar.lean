import Verif.Model.Encoder
import Verif.Model.EncPackage
/-
Model of orc/encoding/float.go, orc/encoding/string.go and the varint encoder of
orc/encoding/int.go: encoders without state.
-/
namespace Goorc

/-- `binary.BigEndian.PutUint32` Called in orc/encoding/float.go:21-32. -/
def putBE32 (v : BitVec 32) : Bytes :=
  [(v >>> 24).setWidth 8, (v >>> 16).setWidth 8, (v >>> 8).setWidth 8, v.setWidth 8]

/-- `binary.LittleEndian.PutUint64` Called in orc/encoding/float.go:71-83. -/
def putLE64 (v : BitVec 64) : Bytes :=
  [v.setWidth 8, (v >>> 8).setWidth 8, (v >>> 16).setWidth 8, (v >>> 24).setWidth 8,
   (v >>> 32).setWidth 8, (v >>> 40).setWidth 8, (v >>> 48).setWidth 8, (v >>> 56).setWidth 8]

/-- `binary.BigEndian.Uint32`: panics on fewer than 4 bytes. Called in orc/encoding/float.go:44-51. -/
def be32 : Bytes → Res (BitVec 32)
  | a :: b :: c :: d :: _ =>
    .ok ((d.setWidth 32) ||| (c.setWidth 32 <<< 8) ||| (b.setWidth 32 <<< 16) ||| (a.setWidth 32 <<< 24))
  | _ => .panic

/-- `binary.LittleEndian.Uint64`: panics on fewer than 8 bytes. Called in orc/encoding/float.go:53-62. -/
def le64 : Bytes → Res (BitVec 64)
  | b0 :: b1 :: b2 :: b3 :: b4 :: b5 :: b6 :: b7 :: _ =>
    .ok ((b0.setWidth 64) ||| (b1.setWidth 64 <<< 8) ||| (b2.setWidth 64 <<< 16) |||
      (b3.setWidth 64 <<< 24) ||| (b4.setWidth 64 <<< 32) ||| (b5.setWidth 64 <<< 40) |||
      (b6.setWidth 64 <<< 48) ||| (b7.setWidth 64 <<< 56))
  | _ => .panic

/-- orc/encoding/float.go:21-32 `float.Encode`: any other dynamic type is an error. -/
def floatEncode : GoVal → Res Bytes
  | .f32 v => .ok (putBE32 v)
  | _ => .err .other

/-- orc/encoding/float.go:18-42 `float`: `Flush` writes nothing, no positions. -/
def floatEnc : Enc Unit where
  encode _ v := do let bs ← floatEncode v; pure ((), bs)
  flush _ := .ok ((), [])
  getPosition _ := []

/-- orc/encoding/float.go:71-83 `double.Encode`. -/
def doubleEncode : GoVal → Res Bytes
  | .f64 v => .ok (putLE64 v)
  | _ => .err .other

/-- orc/encoding/float.go:68-96 `double`. -/
def doubleEnc : Enc Unit where
  encode _ v := do let bs ← doubleEncode v; pure ((), bs)
  flush _ := .ok ((), [])
  getPosition _ := []

/-- Lift a pure result into a decoder. Glue for orc/encoding/float.go:44-62. -/
def Dec.ofRes {α : Type} : Res α → Dec α
  | .ok a => .ret a
  | .err e => .fail e
  | .panic => .crash
  | .hang => .crash

/-- orc/encoding/float.go:44-51 `DecodeFloat`. -/
def decodeFloat : Dec (BitVec 32) := do
  let bb ← Dec.full 4
  Dec.ofRes (be32 bb)

/-- orc/encoding/float.go:53-62 `DecodeDouble`. -/
def decodeDouble : Dec (BitVec 64) := do
  let bb ← Dec.full 8
  Dec.ofRes (le64 bb)

/-- orc/encoding/string.go:17-26 `stringContents.Encode`. -/
def stringEncode : GoVal → Res Bytes
  | .bytes v => .ok v
  | _ => .err .other

/-- orc/encoding/string.go:14-35 `stringContents`. -/
def stringEnc : Enc Unit where
  encode _ v := do let bs ← stringEncode v; pure ((), bs)
  flush _ := .ok ((), [])
  getPosition _ := []

/-- orc/encoding/string.go:37-43 `DecodeBytes`. A negative length panics (`make`); the length is a
natural number here, see `nextBytes` for the conversion. -/
def decodeBytes (length : Nat) : Dec Bytes := Dec.full length

/-- orc/encoding/int.go:1140-1148 `varint64Encoder.Encode`: the type assertion panics on any other
dynamic type. -/
def varintEncode : GoVal → Res Bytes
  | .i64 v => putVarint 10 v
  | _ => .panic

/-- orc/encoding/int.go:1133-1157 `varint64Encoder`. -/
def varintEnc : Enc Unit where
  encode _ v := do let bs ← varintEncode v; pure ((), bs)
  flush _ := .ok ((), [])
  getPosition _ := [1]

/-- orc/encoding/int.go:1159-1162 `DecodeVarInt64`. -/
def decodeVarInt64 : Dec U64 := readVarint

/-- Read `n` values one after the other with a one-value decoder. As the loops of the column readers do, for example
orc/column/float.go:49-73. -/
def decodeN {α : Type} (d : Dec α) : Nat → Dec (List α)
  | 0 => pure []
  | n + 1 => do
    let v ← d
    let vs ← decodeN d n
    pure (v :: vs)

/-- Read values of the given lengths one after the other (string column readers read the lengths
from another stream). orc/column/string.go:239-261. -/
def decodeStrings : List Nat → Dec (List Bytes)
  | [] => pure []
  | l :: ls => do
    let v ← decodeBytes l
    let vs ← decodeStrings ls
    pure (v :: vs)

end Goorc
