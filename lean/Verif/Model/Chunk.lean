import Verif.Go.Basic
/-
Model of orc/common/misc.go: compression in chunks.
-/
namespace Goorc

/-- pb.CompressionKind: the code treats everything but NONE and ZLIB as an error. pb/pb/orc_proto.pb.go:23-33; the cases
are those of orc/common/misc.go:29-46 and 266-290. -/
inductive CompKind where
  | none
  | zlib
  | other
  deriving DecidableEq, Repr

/-- The compression library (`klauspost/compress/flate`), a parameter of the model. `comp k x` is what the
`(k+1)`-th `Write(x)`, `Close()` on one compressor object appends to its output (misc.go reuses one object for all
chunks of a call); `decomp` is reading a `flate.NewReader` to its end, `none` if it fails. -/
structure Codec where
  comp : Nat → Bytes → Bytes
  decomp : Bytes → Option Bytes

/-- orc/common/misc.go:212-222 `encChunkHeader`. -/
def encChunkHeader (l : Nat) (orig : Bool) : Bytes :=
  [if orig then 0x01#8 ||| BitVec.ofNat 8 (l <<< 1) else BitVec.ofNat 8 (l <<< 1),
   BitVec.ofNat 8 (l >>> 7), BitVec.ofNat 8 (l >>> 15)]

/-- orc/common/misc.go:224-227 `DecChunkHeader` of the three bytes. -/
def decChunkHeader (h0 h1 h2 : Byte) : Nat × Bool :=
  ((h2.toNat <<< 15) ||| (h1.toNat <<< 7) ||| (h0.toNat >>> 1), h0 &&& 0x01#8 == 0x01#8)

/-- One chunk as written (misc.go:72-90, 121-139): `limit` is the length the compressed bytes are compared with. -/
def encChunk (c : Codec) (k limit : Nat) (data : Bytes) : Bytes :=
  let cBuf := c.comp k data
  if cBuf.length > limit then encChunkHeader data.length true ++ data
  else encChunkHeader cBuf.length false ++ cBuf

/-- orc/common/misc.go:48-94 `zlibCompressingToChunks`: the bytes appended to `dst` and what remains in `src`.
`k` counts the uses of the compressor. Every iteration takes `chunkSize` bytes, so `src.length` is enough fuel unless
`chunkSize` is 0, when the loop never ends. -/
def zlibCompressingToChunks (c : Codec) (chunkSize : Nat) : Nat → Nat → Bytes → Res (Bytes × Bytes)
  | fuel, k, src =>
    if src.length > chunkSize then
      match fuel with
      | 0 => .hang
      | fuel + 1 => do
        let (dst, rest) ← zlibCompressingToChunks c chunkSize fuel (k + 1) (src.drop chunkSize)
        pure (encChunk c k chunkSize (src.take chunkSize) ++ dst, rest)
    else .ok ([], src)

/-- orc/common/misc.go:29-46 `CompressingChunks`: appended to `dst`, remaining in `src`. -/
def compressingChunks (c : Codec) (kind : CompKind) (chunkSize : Nat) (src : Bytes) : Res (Bytes × Bytes) :=
  match kind with
  | .none => .ok (src, [])
  | .zlib => zlibCompressingToChunks c chunkSize src.length 0 src
  | .other => .err .other

/-- orc/common/misc.go:96-143 `zlibCompressingLeft`. -/
def zlibCompressingLeft (c : Codec) (chunkSize : Nat) (src : Bytes) : Res Bytes :=
  if src.length > chunkSize then .err .other
  else .ok (encChunk c 0 src.length src)

/-- orc/common/misc.go:145-158 `CompressingLeft`. -/
def compressingLeft (c : Codec) (kind : CompKind) (chunkSize : Nat) (src : Bytes) : Res Bytes :=
  match kind with
  | .none => .err .other
  | .zlib => zlibCompressingLeft c chunkSize src
  | .other => .err .other

/-- orc/common/misc.go:21-26 `CompressingAllInChunks`: the bytes appended to `dst`. -/
def compressingAllInChunks (c : Codec) (kind : CompKind) (chunkSize : Nat) (src : Bytes) : Res Bytes := do
  let (dst, rest) ← compressingChunks c kind chunkSize src
  let left ← compressingLeft c kind chunkSize rest
  pure (dst ++ left)

/-- orc/common/misc.go:266-290 `Decompress`: the bytes appended to `dst`. -/
def decompress (c : Codec) (kind : CompKind) (src : Bytes) : Res Bytes :=
  match kind with
  | .zlib => match c.decomp src with
    | some x => .ok x
    | .none => .err .other
  | _ => .err .other

/-- orc/common/misc.go:233-259, the loop of `DecompressChunks`. `src.Read(header)` accepts fewer than three bytes and
leaves the rest of the header zero. Every iteration takes at least one byte, so `src.length` is enough fuel. -/
def decompressChunksLoop (c : Codec) : Nat → Bytes → Res Bytes
  | _, [] => .ok []
  | 0, _ :: _ => .hang
  | fuel + 1, b :: s =>
    let header := (b :: s).take 3
    let src := (b :: s).drop 3
    let (chunkLength, original) := decChunkHeader (header.getD 0 0) (header.getD 1 0) (header.getD 2 0)
    if src.length < chunkLength then .err .eof
    else do
      let piece ← if original then pure (src.take chunkLength) else decompress c .zlib (src.take chunkLength)
      let rest ← decompressChunksLoop c fuel (src.drop chunkLength)
      pure (piece ++ rest)

/-- orc/common/misc.go:230-264 `DecompressChunks`: the bytes appended to `dst`. -/
def decompressChunks (c : Codec) (kind : CompKind) (src : Bytes) : Res Bytes :=
  match kind with
  | .zlib => decompressChunksLoop c src.length src
  | _ => .err .other

end Goorc
