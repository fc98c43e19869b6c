import Verif.Go.Dec
/-
Model of orc/encoding/byte.go: byte run-length encoding.
-/
namespace Goorc

/-- orc/encoding/byte.go:8 `MaxByteRunLength` -/
def maxByteRunLength : Nat := 128

/-- orc/encoding/byte.go:9 `MinRepeats` -/
def minRepeats : Nat := 3

/-- orc/encoding/byte.go:11-14 `byteRunLength`: `position` is -1 when positions are disabled. -/
structure ByteEnc where
  position : Int
  values : Bytes
  deriving DecidableEq, Repr

/-- orc/encoding/byte.go:16-21 `NewByteEncoder` -/
def newByteEncoder (resetPosition : Bool) : ByteEnc :=
  { position := if resetPosition then 0 else -1, values := [] }

/-- `uint64(int)` conversion of a position counter (two's complement). orc/encoding/byte.go:23-25. -/
def intToU64 (i : Int) : Nat := (i % 2 ^ 64).toNat

/-- orc/encoding/byte.go:23-25 `byteRunLength.GetPosition` -/
def ByteEnc.getPosition (e : ByteEnc) : List Nat := [intToU64 e.position]

/-- orc/encoding/byte.go:112-121, the inner loop of `findRepeats`: starting with `count` equal
values seen, do the following values reach `minRepeats` copies of `v` before a different one? -/
def hasRun (v : Byte) (minRep : Nat) : Nat → Bytes → Bool
  | _, [] => false
  | count, x :: xs =>
    if x = v then
      (if count + 1 ≥ minRep then true else hasRun v minRep (count + 1) xs)
    else false

/-- orc/encoding/byte.go:108-124 `findRepeats`: the first index at which `minRepeats` equal values
start, or the length if there is none. -/
def findRepeats (minRep : Nat) : Bytes → Nat
  | [] => 0
  | v :: rest => if hasRun v minRep 1 rest then 0 else findRepeats minRep rest + 1

/-- orc/encoding/byte.go:54-59, the run-extension loop: from index `j`, skip values equal to the
first one. The argument is the list from index `j` on. -/
def extendRun (v0 : Byte) : Nat → Bytes → Nat
  | j, [] => j
  | j, x :: xs => if x ≠ v0 then j else extendRun v0 (j + 1) xs

/-- orc/encoding/byte.go:50-72, one iteration of the loop of `encodeBytes`: emitted bytes and the
remaining values. On an empty buffer Go would index `e.values[0]` and panic. -/
def encodeBytesStep (values : Bytes) : Res (Bytes × Bytes) :=
  let index := findRepeats minRepeats values
  if index = 0 then
    match values with
    | [] => .panic
    | v0 :: _ =>
      let index := extendRun v0 minRepeats (values.drop minRepeats)
      .ok ([BitVec.ofNat 8 (index - minRepeats), v0], values.drop index)
  else
    .ok (BitVec.ofInt 8 (-(index : Int)) :: values.take index, values.drop index)

/-- orc/encoding/byte.go:48-78 `encodeBytes` with `toEnd = true`: iterate until nothing is left.
`fuel` bounds the iterations (each consumes at least one value). -/
def encodeBytesToEnd : Nat → Bytes → Res Bytes
  | _, [] => .ok []
  | 0, _ :: _ => .hang
  | fuel + 1, v :: vs => do
    let (out, rest) ← encodeBytesStep (v :: vs)
    let out' ← encodeBytesToEnd fuel rest
    pure (out ++ out')

/-- orc/encoding/byte.go:27-39 `byteRunLength.Encode`; returns the new state and the bytes appended
to `out`. A value that is not a `byte` fails the type assertion (panic). -/
def ByteEnc.encode (e : ByteEnc) (v : GoVal) : Res (ByteEnc × Bytes) :=
  match v with
  | .u8 value => do
    let values := e.values ++ [value]
    let (values, out) ←
      (if values.length ≥ maxByteRunLength then do
        let (out, rest) ← encodeBytesStep values
        pure (rest, out)
      else pure (values, []) : Res (Bytes × Bytes))
    pure ({ values := values
            position := if e.position ≠ -1 then (values.length : Int) else e.position }, out)
  | _ => .panic

/-- orc/encoding/byte.go:41-46 `byteRunLength.Flush` -/
def ByteEnc.flush (e : ByteEnc) : Res (ByteEnc × Bytes) := do
  let out ← encodeBytesToEnd e.values.length e.values
  pure ({ e with values := [] }, out)

/-- Read `n` bytes one at a time (the literal loop of `DecodeByteRL`, byte.go:96-102). -/
def readBytesN : Nat → Dec Bytes
  | 0 => pure []
  | n + 1 => do
    let v ← Dec.byte
    let vs ← readBytesN n
    pure (v :: vs)

/-- orc/encoding/byte.go:80-105 `DecodeByteRL` with an empty `values` argument: one run. -/
def decodeByteRL : Dec Bytes := do
  let control ← Dec.byte
  if control.toNat < 0x80 then
    let l := control.toNat + minRepeats
    let v ← Dec.byte
    pure (List.replicate l v)
  else
    readBytesN (-control.toInt).toNat

end Goorc
