import Verif.Spec.Streams
import Verif.Props.Chunk
/-
The stream tests of the repository (orc/stream/stream_test.go) run in the model, with the small codec `runCodec` in place of
zlib. These are tests, not proofs.
-/
namespace Goorc.Check

/-- Call `next` as often as said; the values and the reader after the calls. -/
def pull {ρ α : Type} (next : ρ → Res (α × ρ)) : Nat → ρ → Res (List α × ρ)
  | 0, r => .ok ([], r)
  | n + 1, r => do
    let (v, r) ← next r
    let (vs, r) ← pull next n r
    pure (v :: vs, r)

/-- Write bytes, flush, write out to a `MockFile` of 500 bytes, read as many bytes; the bytes read and `Finished`. -/
def byteStream (o : WOpts) (data : Bytes) : Res (Bytes × Bool) := do
  let body ← writeStream byteEnc runCodec o (newByteEncoder o.writeIndex) (data.map .u8)
  let (vs, r) ← pull (ByteReader.nextByte runCodec) data.length ⟨streamAt o [] body (List.replicate (500 - body.length) 0), []⟩
  pure (vs, r.finished)

/-- 100 times 1, then 0 to 199. -/
def mixedBytes : Bytes := List.replicate 100 1 ++ (List.range 200).map (BitVec.ofNat 8)

/- orc/stream/stream_test.go:13-57 `TestNoCompression`. -/
#guard byteStream ⟨.none, 60, false⟩ (List.replicate 200 1) = .ok (List.replicate 200 1, true)
/- orc/stream/stream_test.go:59-103 `TestCompression`. -/
#guard byteStream ⟨.zlib, 262144, false⟩ mixedBytes = .ok (mixedBytes, true)
/- orc/stream/stream_test.go:151-203 `TestMultiChunkWithCompression`. -/
#guard byteStream ⟨.zlib, 60, false⟩ mixedBytes = .ok (mixedBytes, true)

/-- The values of `TestBoolWithCompression`. -/
def boolRows : List Bool := (List.range 100).map fun i => !([0, 45, 98].contains i)

/- orc/stream/stream_test.go:105-149 `TestBoolWithCompression`. -/
#guard (do
  let o : WOpts := ⟨.zlib, 262144, false⟩
  let body ← writeStream boolEnc runCodec o (newBoolEncoder false) (boolRows.map .bool)
  let (vs, _) ← pull (BoolReader.next runCodec) 100 ⟨⟨streamAt o [] body (List.replicate (500 - body.length) 0), []⟩, []⟩
  pure vs) = .ok boolRows

end Goorc.Check
