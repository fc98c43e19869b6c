import Verif.Props.ColumnStats
import Verif.Spec.SeekCol
import Verif.Model.ColKinds
import Verif.Props.Chunk
/-
The column tests of the repository (orc/column/column_test.go) run in the model. These are tests, not proofs: they show
that the definitions the theorems are about behave on the project's own vectors as the project expects, or, for the last
two, as its source (and not its test) says.
-/
namespace Goorc.Check

/-- orc/config/opts.go:53-56 `DefaultWriterOptions`, with the stride and the index of the test. -/
def dOpts (stride : Nat) (ix : Bool) : COpts := { kind := .zlib, chunkSize := 262144, writeIndex := ix, stride := stride }

/-- Write the rows, flush, write out to a `MockFile` of `size` bytes, open a reader on it that has the writer's index, and
work through the calls. -/
def run {δ κ ρ : Type} (K : LeafKind δ κ) (R : ReadKind ρ) (o : COpts) (nulls : Bool) (size : Nat) (rows : List Value)
    (ops : List SeekOp) : Res (List (List Value)) := do
  let (ix, infos, body) ← writeIndexed K runCodec o nulls rows
  roamColumn R runCodec o nulls (body ++ List.replicate (size - body.length) 0) 0 infos ix ops

/-- A new vector (`schema.CreateVector`). -/
def blank (n : Nat) : List Value := List.replicate n ⟨false, .nil⟩

/-- Rows `ks` are null and hold nothing. -/
def nulled (ks : List Nat) (vs : List Value) : List Value := vs.zipIdx.map fun (v, i) => if i ∈ ks then ⟨true, .nil⟩ else v

/-- `values[i].V = int64(i)`. -/
def ints (n : Nat) : List Value := (List.range n).map fun i => ⟨false, .i64 (BitVec.ofNat 64 i)⟩
/-- `true` but for the rows `fs`. -/
def bools (n : Nat) (fs : List Nat) : List Value := (List.range n).map fun i => ⟨false, .bool (!fs.contains i)⟩
/-- `values[i].V = byte(i)`. -/
def octets (n : Nat) : List Value := (List.range n).map fun i => ⟨false, .u8 (BitVec.ofNat 8 i)⟩
/-- Bit patterns of `float32` numbers. -/
def floats (n : Nat) : List Value := (List.range n).map fun i => ⟨false, .f32 (BitVec.ofNat 32 (0x3f800000 + 65537 * i))⟩
/-- `fmt.Sprintf("string %d", i)`. -/
def text (i : Nat) : GoVal := .str (("string ".toList ++ Nat.toDigits 10 i).map fun ch => BitVec.ofNat 8 ch.toNat)
def texts (n : Nat) : List Value := (List.range n).map fun i => ⟨false, text i⟩

/- `newIntV2Writer`, strides of 200 rows, and seeks to rows 300, 600 and 850 after everything was read.
orc/column/column_test.go:25-110 `TestIntV2`. -/
#guard run (intKind .big) (intRead .big) (dOpts 200 true) false 1024 (ints 1000)
    [.batch (blank 1000), .seek 1, .skip 100, .batch (blank 1), .seek 3, .batch (blank 1), .seek 4, .skip 50, .batch (blank 1)] =
    .ok [ints 1000, [⟨false, .i64 300⟩], [⟨false, .i64 600⟩], [⟨false, .i64 850⟩]]

/- orc/column/column_test.go:112-169 `TestIntV2WithPresents`. -/
#guard run (intKind .big) (intRead .big) (dOpts 10000 false) true 1024 (nulled [0, 45, 102] (ints 104)) [.batch (blank 104)] =
    .ok [nulled [0, 45, 102] (ints 104)]

/- orc/column/column_test.go:171-235 `TestBool`: 128 * 8 + 10 rows. -/
#guard run boolKind boolRead (dOpts 130 true) false 1024 (bools 1034 [0, 45, 1033])
    [.batch (blank 1034), .seek (1032 / 130), .skip (1032 % 130), .batch (blank 2)] =
    .ok [bools 1034 [0, 45, 1033], [⟨false, .bool true⟩, ⟨false, .bool false⟩]]

/- orc/column/column_test.go:237-278 `TestFloat`, with bit patterns for the numbers. -/
#guard run (floatKind exArith false) (floatRead false) (dOpts 10000 false) false 1024 (floats 100) [.batch (blank 100)] =
    .ok [floats 100]

/- orc/column/column_test.go:280-325 `TestStringDirectV2`. -/
#guard run stringKind stringRead (dOpts 10000 false) false 10240 (texts 100) [.batch (blank 100)] = .ok [texts 100]

/- orc/column/column_test.go:327-380 `TestStringDirectV2Index`. -/
#guard run stringKind stringRead (dOpts 200 true) false 10240 (texts 1000) [.seek 1, .skip 100, .batch (blank 1)] =
    .ok [[⟨false, text 300⟩]]

/- orc/column/column_test.go:382-445 `TestByteWithPresents`. -/
#guard run byteKind byteRead (dOpts 10000 false) true 500 (nulled [0, 45, 98] (octets 150)) [.batch (blank 150)] =
    .ok [nulled [0, 45, 98] (octets 150)]

/- orc/column/column_test.go:447-513 `TestByteOnIndex`. -/
#guard run byteKind byteRead (dOpts 130 true) false 500 (octets 150)
    [.batch (blank 150), .seek 1, .batch (blank 1), .skip 9, .batch (blank 1)] =
    .ok [octets 150, [⟨false, .u8 130⟩], [⟨false, .u8 140⟩]]

/- orc/column/column_test.go:515-577 `TestByteOnIndexWithPresents`. -/
#guard run byteKind byteRead (dOpts 130 true) true 500 (nulled [0, 129] (octets 150)) [.seek 1, .skip 10, .batch (blank 1)] =
    .ok [[⟨false, .u8 140⟩]]

/- orc/column/column_test.go:579-622 `TestColumnDecimal64` expects the values that were written. The source assigns what it
reads to a copy (orc/column/decimal.go:235-237), so the vector stays as `CreateVector` made it, and so it does here. -/
#guard run (decimalKind exArith) decimalRead (dOpts 10000 false) false 500
      ((List.range 100).map fun i => ⟨false, .dec (BitVec.ofNat 64 i) 2⟩) [.batch (List.replicate 100 ⟨false, .dec 0 0⟩)] =
    .ok [List.replicate 100 ⟨false, .dec 0 0⟩]

/- orc/column/column_test.go:624-677 `TestColumnTimestampWithPresents`: likewise (orc/column/time.go:505-507); the nulls
arrive. -/
#guard run timestampKind timestampRead (dOpts 10000 false) true 1500
      (nulled [0, 45, 99] ((List.range 100).map fun i => ⟨false, .ts (some 0) (1600000000 + BitVec.ofNat 64 i) (BitVec.ofNat 64 (1000 * i))⟩))
      [.batch (List.replicate 100 ⟨false, .ts none 0 0⟩)] =
    .ok [(List.range 100).map fun i => ⟨i ∈ [0, 45, 99], .ts none 0 0⟩]

end Goorc.Check
