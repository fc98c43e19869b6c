import Verif.Props.Projection
import Verif.Spec.Files
/-
The tests of the repository for stripes and files (orc/stripe_test.go, orc/file_test.go) run in the model, with the small
codec `runCodec` in place of zlib, and the messages of protocol buffers replaced by short bytes. These are tests, not
proofs: they show that the definitions the theorems are about behave on the project's own vectors as the project expects.
-/
namespace Goorc.Check

/-- Kinds of streams, by number. -/
def kindTable : List StreamKind := [.present, .data, .length, .dictionaryData, .secondary, .rowIndex, .other]

/-- Encodings, by number. -/
def encTable : List Encoding := [.direct, .dictionary, .directV2, .dictionaryV2]

/-- A footer of a stripe in bytes: the number of streams, five bytes for each, one byte for each encoding. -/
def footerBytes (f : StripeFooter) : Bytes :=
  [BitVec.ofNat 8 f.streams.length] ++
    (f.streams.flatMap fun s => [kindTable.idxOf s.kind, s.column, s.length % 256, s.length / 256 % 256, s.length / 65536].map (BitVec.ofNat 8)) ++
    f.columns.map fun e => BitVec.ofNat 8 (encTable.idxOf e)

/-- The streams in such bytes. -/
def streamsIn : Nat → Bytes → List StreamInfo × Bytes
  | n + 1, k :: c :: a :: b :: d :: rest =>
    let (ss, rest) := streamsIn n rest
    (⟨kindTable.getD k.toNat .other, c.toNat, a.toNat + 256 * b.toNat + 65536 * d.toNat⟩ :: ss, rest)
  | _, bs => ([], bs)

/-- A footer of a stripe from bytes. -/
def footerIn : Bytes → Option StripeFooter
  | [] => none
  | n :: bs =>
    let (ss, rest) := streamsIn n.toNat bs
    some ⟨ss, rest.map fun e => encTable.getD e.toNat .direct⟩

/-- The environment of a test that writes one file; the reader is told what the footer and the postscript of that file are. -/
def testEnv (ft : Option FileFooter) (ps : Option PostScript) : Env :=
  ⟨exArith, runCodec, fun _ => [0xf2], footerBytes, fun _ => [0xf0], fun _ => [0xf1], fun _ => none, footerIn,
    fun b => if b = [0xf0] then ft else none, fun b => if b = [0xf1] then ps else none⟩

/-- Write one batch to a file, close it; read it back with as many calls of `Next` as said. The number of stripes, and of
every call whether it said that this was the end, the rows of the root and the rows of its columns. -/
def fileTrip (o : FOpts) (schema : Schema) (batch : Vec) (bo : BatchOption) (calls : Nat) :
    Res (Nat × List (Bool × List Value × List (Nat × List Value))) := do
  let E := testEnv none none
  let w ← newWriter E o schema
  let w ← w.write E o batch
  let file ← w.close E o
  let w ← w.finish E o
  let f ← compressingAllInChunks E.c o.kind o.chunkSize (E.P.fileFooter w.footer)
  let out ← tourVectors (testEnv (some w.footer) (some (FileWriter.postScript o f.length))) 1000 schema bo (List.replicate calls .next) file
  pure (w.stripe.infos.length, out.map fun p => (p.1, match p.2 with | .nil => [] | .mk _ _ a _ => visibleRows a, p.2.columnsRead))

/-- The test delivered this. -/
def gives (r : Res (Nat × List (Bool × List Value × List (Nat × List Value)))) (n : Nat) (out : List (Bool × List Value × List (Nat × List Value))) : Bool :=
  match r with
  | .ok (k, l) => k == n && l == out
  | _ => false

/-- The bytes of a text. -/
def ascii (s : String) : Bytes := s.toList.map fun ch => BitVec.ofNat 8 ch.toNat

/-- orc/config/opts.go:53-56 `DefaultWriterOptions`. -/
def fOpts (stripeSize chunkSize : Nat) : FOpts := { kind := .zlib, chunkSize := chunkSize, writeIndex := false, stride := 10000, stripeSize := stripeSize }

/-- A struct of an int and a string. -/
def structSchema : Schema := .mk ⟨0, .struct, .direct, false, ["x", "y"]⟩ [.mk ⟨1, .int, .directV2, false, []⟩ [], .mk ⟨2, .string, .directV2, false, []⟩ []]

/-- `int32(i)`. -/
def int32s (n : Nat) : List Value := (List.range n).map fun i => ⟨false, .i32 (BitVec.ofNat 32 i)⟩

/-- `fmt.Sprintf("string-%s", strconv.Itoa(i))`. -/
def names (n : Nat) : List Value := (List.range n).map fun i => ⟨false, .str (ascii "string-" ++ (Nat.toDigits 10 i).map fun ch => BitVec.ofNat 8 ch.toNat)⟩

/-- The string of the tests of several stripes. -/
def sentences (n : Nat) : List Value := (List.range n).map fun i =>
  ⟨false, .str (ascii "string " ++ (Nat.toDigits 10 i).map (fun ch => BitVec.ofNat 8 ch.toNat) ++
    ascii " Because the number of nanoseconds often has a large number of trailing zeros")⟩

/-- One column of strings. -/
def stringSchema : Schema := .mk ⟨0, .string, .directV2, false, []⟩ []

/-- One column of bytes. -/
def byteSchema : Schema := .mk ⟨0, .byte, .direct, false, []⟩ []

/-- A struct with nulls whose child has none of its own. -/
def nullSchema : Schema := .mk ⟨0, .struct, .direct, true, ["child1"]⟩ [.mk ⟨1, .int, .directV2, false, []⟩ []]

/-- Rows `ks` are null and hold nothing. -/
def without (ks : List Nat) (vs : List Value) : List Value := vs.zipIdx.map fun (v, i) => if i ∈ ks then ⟨true, .nil⟩ else v

/- orc/stripe_test.go:13-59 `TestStripeBasic`, with the file around the stripe. -/
#guard gives (fileTrip (fOpts 67108864 262144) byteSchema (.mk 0 .byte (some ⟨(List.range 104).map fun i => ⟨false, .u8 (BitVec.ofNat 8 i)⟩, 104⟩) []) ⟨[], 104, false⟩ 1)
  1 [(true, (List.range 104).map fun i => ⟨false, .u8 (BitVec.ofNat 8 i)⟩, [])]

/- orc/stripe_test.go:61-114 `TestMultipleStripes`. -/
#guard match fileTrip (fOpts 10000 8000) stringSchema (.mk 0 .string (some ⟨sentences 1000, 1000⟩) []) ⟨[], 1000, false⟩ 9 with
  | .ok (n, out) => n == 9 && out.map (·.1) == List.replicate 8 false ++ [true] && out.flatMap (·.2.1) == sentences 1000
  | _ => false

/- orc/file_test.go:23-82 `TestStruct`. -/
#guard gives (fileTrip (fOpts 67108864 262144) structSchema (.mk 0 .struct none [.mk 1 .int (some ⟨int32s 150, 150⟩) [], .mk 2 .string (some ⟨names 150, 150⟩) []]) ⟨[], 150, false⟩ 1)
  1 [(true, [], [(1, int32s 150), (2, names 150)])]

/- orc/file_test.go:84-134 `TestString`. -/
#guard gives (fileTrip (fOpts 10000 5000) stringSchema (.mk 0 .string (some ⟨sentences 100, 100⟩) []) ⟨[], 100, false⟩ 1)
  1 [(true, sentences 100, [])]

/- orc/file_test.go:136-212 `TestStructWithPresents`. -/
#guard gives (fileTrip (fOpts 67108864 262144) nullSchema (.mk 0 .struct (some ⟨without [0, 45, 99] (List.replicate 100 ⟨false, .nil⟩), 100⟩)
    [.mk 1 .int (some ⟨without [0, 45, 99] (int32s 100), 100⟩) []]) ⟨[], 100, false⟩ 1)
  1 [(true, without [0, 45, 99] (List.replicate 100 ⟨false, .nil⟩), [(1, without [0, 45, 99] (int32s 100))])]

end Goorc.Check
