import Verif.Model.Chunk
/-
What it means for bytes to be a sequence of chunks, written independently of how the code produces and reads them:
a chunk is a 3-byte little-endian number `2*length + original` followed by `length` bytes.
-/
namespace Goorc

/-- The compressor can be undone, however often its object was used. -/
def Codec.Lossless (c : Codec) : Prop := ∀ k x, c.decomp (c.comp k x) = some x

/-- A chunk: the stored bytes, whether they are the original ones, and the bytes they stand for. -/
structure ChunkSpec where
  original : Bool
  stored : Bytes
  plain : Bytes
  deriving DecidableEq, Repr

/-- Three bytes, least significant first. -/
def threeBytes (n : Nat) : Bytes := [BitVec.ofNat 8 n, BitVec.ofNat 8 (n / 256), BitVec.ofNat 8 (n / 65536)]

/-- The bytes of a chunk. -/
def ChunkSpec.bytes (ch : ChunkSpec) : Bytes := threeBytes (2 * ch.stored.length + ch.original.toNat) ++ ch.stored

/-- The bytes of a sequence of chunks. -/
def chunkBytes (cs : List ChunkSpec) : Bytes := cs.flatMap ChunkSpec.bytes

/-- What a sequence of chunks stands for. -/
def chunkPlain (cs : List ChunkSpec) : Bytes := cs.flatMap ChunkSpec.plain

/-- A chunk some reader with chunk size `size` can read back: it fits, is not empty, and its stored bytes stand
for its contents. -/
def ChunkSpec.Good (c : Codec) (size : Nat) (ch : ChunkSpec) : Prop :=
  ch.stored.length ≤ size ∧ ch.stored.length < 2 ^ 23 ∧ ch.plain.length ≤ size ∧ ch.plain ≠ [] ∧
    (if ch.original then ch.stored = ch.plain else c.decomp ch.stored = some ch.plain)

/-- A chunk as goorc writes it: stored as it is exactly when the compressor's output would be longer. -/
def ChunkSpec.Minimal (c : Codec) (ch : ChunkSpec) : Prop :=
  ∃ k, ch.stored = (if ch.original then ch.plain else c.comp k ch.plain) ∧
    (ch.original = true ↔ (c.comp k ch.plain).length > ch.plain.length)

end Goorc
