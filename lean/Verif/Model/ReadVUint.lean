import Verif.Model.EncPackage
/-
Model of orc/encoding/package.go: `ReadVUint`, an exported function. Nothing in the library calls it.
-/
namespace Goorc

/-- An `io.ByteReader`: what its calls of `ReadByte` return, one after the other. With an error there is a byte as well,
about which `io.ByteReader` says nothing. orc/encoding/package.go:272, 276. -/
abbrev ByteCalls := Nat → Byte × Option Err

/-- A `bytes.Buffer` or `bytes.Reader` as an `io.ByteReader`: at the end it returns 0 and `io.EOF`.
orc/encoding/package.go:276. -/
def bufferCalls (x : Bytes) : ByteCalls := fun j =>
  match x[j]? with
  | some b => (b, none)
  | none => (0, some .eof)

/-- orc/encoding/package.go:275-286, the loop of `ReadVUint`: the error is wrapped and the result of that thrown away
(line 278), the byte is used. `i` calls were made and `r` is what was read; the results are the number, the error and
the number of calls. The loop ends only at a byte below 0x80; `hang` is what does not end within `fuel` calls.
Simplification: the variable `shift` does not wrap around (it does after 2^64/7 calls). -/
def readVUintLoop (s : ByteCalls) : Nat → Nat → U64 → Res (U64 × Option Err × Nat)
  | 0, _, _ => .hang
  | fuel + 1, i, r =>
    let (b, err) := s i
    let r := r ||| ((0x7f#8 &&& b).setWidth 64 <<< (7 * i))
    if b.toNat < 0x80 then .ok (r, err, i + 1) else readVUintLoop s fuel (i + 1) r

/-- orc/encoding/package.go:271-287 `ReadVUint`, within `fuel` calls of `ReadByte`. -/
def readVUint (s : ByteCalls) (fuel : Nat) : Res (U64 × Option Err × Nat) := readVUintLoop s fuel 0 0

end Goorc
