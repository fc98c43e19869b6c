import Verif.Model.Chunk
/-
Model of orc/reader.go: `ReadChunks`, an exported function that decompresses chunks held in memory. Nothing in the
library calls it.
-/
namespace Goorc

/-- One `Read` of a new decompressor (`flate.NewReader`), a parameter of the model: `i stored n` is what the first
`Read` into a buffer of `n` bytes delivers of the decompressed `stored`, `none` if it reports an error other than
`io.EOF`. orc/reader.go:424-429. -/
abbrev FirstRead := Bytes → Nat → Option Bytes

/-- orc/reader.go:421, 424: `chunksBuf[offset : offset+chunkLength]`. The bound of a slice expression is the capacity of
the slice, not its length: `spare` is what the array holds behind the slice. -/
def sliceUpTo (rest spare : Bytes) (l : Nat) : Res Bytes :=
  if (rest ++ spare).length < l then .panic else .ok ((rest ++ spare).take l)

/-- orc/reader.go:423-438: a chunk that is not stored as it is. The buffer has `size` bytes (line 411). -/
def readCompressed (i : FirstRead) (kind : CompKind) (size : Nat) (spare rest : Bytes) (l : Nat) : Res Bytes :=
  match kind with
  | .zlib => do
    let stored ← sliceUpTo rest spare l
    match i stored size with
    | none => .err .other
    | some [] => .err .other
    | some (b :: bs) => .ok (b :: bs)
  | _ => .err .other

/-- orc/reader.go:419-439: what is taken from a chunk. -/
def readPiece (i : FirstRead) (kind : CompKind) (size : Nat) (spare rest : Bytes) (l : Nat) (original : Bool) : Res Bytes :=
  if original then sliceUpTo rest spare l else readCompressed i kind size spare rest l

/-- orc/reader.go:406-444, the loop of `ReadChunks`; `chunksBuf[offset:]` stands for the offset, and is empty when the
offset is at or behind the end. The header is read by index, which is checked against the length of the slice. Every
iteration takes three bytes, so the length is enough fuel. Simplification: the size of a chunk buffer is a natural
number (`make` panics for a negative one). -/
def readChunksLoop (i : FirstRead) (kind : CompKind) (size : Nat) (spare : Bytes) : Nat → Bytes → Res Bytes
  | _, [] => .ok []
  | 0, _ :: _ => .hang
  | fuel + 1, h0 :: h1 :: h2 :: rest =>
    let (chunkLength, original) := decChunkHeader h0 h1 h2
    if chunkLength > size then .err .other
    else do
      let piece ← readPiece i kind size spare rest chunkLength original
      let more ← readChunksLoop i kind size spare fuel (rest.drop chunkLength)
      pure (piece ++ more)
  | _ + 1, _ => .panic

/-- orc/reader.go:405-446 `ReadChunks`. -/
def readChunks (i : FirstRead) (kind : CompKind) (size : Nat) (chunksBuf spare : Bytes) : Res Bytes :=
  readChunksLoop i kind size spare chunksBuf.length chunksBuf

end Goorc
