import Verif.Model.Chunk
import Verif.Go.Dec
/-
Model of orc/stream/reader.go, and decoders run on it.
-/
namespace Goorc

/-- orc/stream/reader.go:21-33 `reader` with the options it uses. `file` is the contents of the file, `pos` the
offset of this reader's own file handle, `length` is `info.GetLength()`. The scratch buffer `cmpBuf` is emptied before
every use and dropped. -/
structure StreamReader where
  kind : CompKind
  chunkSize : Nat
  start : Nat
  length : Nat
  file : Bytes
  pos : Nat
  readLength : Nat
  buf : Bytes
  deriving DecidableEq, Repr

/-- orc/stream/reader.go:35-42 `newReader` on a file handle standing at `start` (the callers seek there, for instance
orc/column/int.go:187-200). -/
def newStreamReader (kind : CompKind) (chunkSize start length : Nat) (file : Bytes) : StreamReader :=
  { kind := kind, chunkSize := chunkSize, start := start, length := length, file := file, pos := start, readLength := 0,
    buf := [] }

/-- Read exactly `n` bytes from the file (`io.ReadFull`, `io.CopyN`); fewer available is an error.
orc/stream/reader.go:110-158. -/
def StreamReader.take (r : StreamReader) (n : Nat) : Res (Bytes × StreamReader) :=
  if (r.file.drop r.pos).length < n then .err .eof
  else .ok ((r.file.drop r.pos).take n, { r with pos := r.pos + n })

/-- orc/stream/reader.go:109-158 `readAChunk`. -/
def StreamReader.readAChunk (c : Codec) (r : StreamReader) : Res StreamReader :=
  if r.kind = .none then do
    -- uint64 subtraction, reader.go:113
    let remaining := if r.readLength ≤ r.length then r.length - r.readLength else 2 ^ 64 - (r.readLength - r.length)
    let l := if remaining < r.chunkSize then remaining else r.chunkSize
    let (bs, r) ← r.take l
    pure { r with buf := r.buf ++ bs, readLength := r.readLength + l }
  else do
    let (head, r) ← r.take 3
    let r := { r with readLength := r.readLength + 3 }
    let (chunkLength, original) := decChunkHeader (head.getD 0 0) (head.getD 1 0) (head.getD 2 0)
    if chunkLength > r.chunkSize then .err .other
    else do
      let (bs, r) ← r.take chunkLength
      let piece ← if original then pure bs else decompress c r.kind bs
      pure { r with buf := r.buf ++ piece, readLength := r.readLength + chunkLength }

/-- orc/stream/reader.go:43-65 `ReadByte`. -/
def StreamReader.readByte (c : Codec) (r : StreamReader) : Res (Byte × StreamReader) :=
  match r.buf with
  | b :: bs => .ok (b, { r with buf := bs })
  | [] =>
    if r.readLength ≥ r.length then .err .eof
    else do
      let r ← r.readAChunk c
      match r.buf with
      | b :: bs => .ok (b, { r with buf := bs })
      | [] => .err .eof

/-- orc/stream/reader.go:78-82, the loop of `Read`: fill the buffer up to `n` bytes. `fuel` bounds the number of
chunks; with a chunk size of at least 1 every chunk advances `readLength`. -/
def StreamReader.fill (c : Codec) (n : Nat) : Nat → StreamReader → Res StreamReader
  | fuel, r =>
    if r.buf.length < n ∧ r.readLength < r.length then
      match fuel with
      | 0 => .hang
      | fuel + 1 => do
        let r ← r.readAChunk c
        StreamReader.fill c n fuel r
    else .ok r

/-- `io.ReadFull(r, p)` with `len(p) = n` on orc/stream/reader.go:67-90 `Read`: `Read` is called again when it returned
fewer bytes and then reports the end. -/
def StreamReader.readFull (c : Codec) (n : Nat) (r : StreamReader) : Res (Bytes × StreamReader) :=
  if n = 0 then .ok ([], r)
  else if r.buf.length ≥ n then .ok (r.buf.take n, { r with buf := r.buf.drop n })
  else if r.readLength ≥ r.length then .err .other
  else do
    let r ← r.fill c n (r.length - r.readLength)
    if r.buf.length ≥ n then .ok (r.buf.take n, { r with buf := r.buf.drop n })
    else if r.buf = [] then .err .eof
    else .err .other

/-- orc/stream/reader.go:92-107 `seek`. -/
def StreamReader.seek (c : Codec) (r : StreamReader) (chunk chunkOffset : Nat) : Res StreamReader := do
  let r ← ({ r with buf := [], pos := r.start + chunk, readLength := chunk } : StreamReader).readAChunk c
  pure { r with buf := r.buf.drop chunkOffset }

/-- orc/stream/reader.go:160-162 `finished`. -/
def StreamReader.finished (r : StreamReader) : Bool := decide (r.readLength ≥ r.length) && r.buf.isEmpty

/-- Run a decoder on the stream. orc/stream/reader.go:43-90 is what the decoder reads from. -/
def Dec.runStream {α : Type} (c : Codec) : Dec α → StreamReader → Res (α × StreamReader)
  | .ret a, r => .ok (a, r)
  | .fail e, _ => .err e
  | .crash, _ => .panic
  | .readByte k, r => do
    let (b, r) ← r.readByte c
    Dec.runStream c (k b) r
  | .readFull n k, r => do
    let (bs, r) ← r.readFull c n
    Dec.runStream c (k bs) r

/-! ### Typed readers -/

/-- orc/stream/byte.go:10-15 `ByteReader`, orc/stream/int.go:11-20 `IntRLV2Reader`, orc/stream/time.go:15-20
`dateV2Reader`: a stream and the values decoded but not yet delivered (`values[pos:]`). -/
structure BlockReader (α : Type) where
  stream : StreamReader
  values : List α

/-- orc/stream/byte.go:21-35, int.go:27-66, time.go:31-43 `Next`: decode the next block when all values are
delivered; a block without values is an index out of range (an error in `NextUInt64`). -/
def BlockReader.next {α : Type} (d : Dec (List α)) (c : Codec) (r : BlockReader α) : Res (α × BlockReader α) :=
  match r.values with
  | v :: vs => .ok (v, { r with values := vs })
  | [] => do
    let (vs, s) ← d.runStream c r.stream
    match vs with
    | v :: vs => .ok (v, ⟨s, vs⟩)
    | [] => .panic

/-- Call `Next` `n` times and drop the values (the loops of the `Seek` functions). For example orc/stream/int.go:88-111.
-/
def BlockReader.skip {α : Type} (d : Dec (List α)) (c : Codec) : Nat → BlockReader α → Res (BlockReader α)
  | 0, r => .ok r
  | n + 1, r => do
    let (_, r) ← r.next d c
    BlockReader.skip d c n r

/-- orc/stream/byte.go:37-49, int.go:91-114, time.go:45-55 `Seek`. -/
def BlockReader.seek {α : Type} (d : Dec (List α)) (c : Codec) (r : BlockReader α) (chunk chunkOffset n : Nat) :
    Res (BlockReader α) := do
  let s ← r.stream.seek c chunk chunkOffset
  BlockReader.skip d c n ⟨s, []⟩

/-- orc/stream/byte.go:51-53, int.go:83-89, time.go:22-24 `Finished`. -/
def BlockReader.finished {α : Type} (r : BlockReader α) : Bool := r.stream.finished && r.values.isEmpty

end Goorc
