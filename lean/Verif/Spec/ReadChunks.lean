import Verif.Model.ReadChunks
import Verif.Spec.Chunks
/-
What the claims about `ReadChunks` (C111) are stated with.
-/
namespace Goorc

/-- What `io.Reader` promises of one `Read` of the decompressor of `c`: some first part of the decompressed bytes, no
more than fit. -/
def FirstRead.Legal (i : FirstRead) (c : Codec) : Prop :=
  ∀ stored plain n, c.decomp stored = some plain → ∃ b, i stored n = some b ∧ b <+: plain ∧ b.length ≤ n

/-- More than `io.Reader` promises: one `Read` delivers everything that fits. -/
def FirstRead.Full (i : FirstRead) (c : Codec) : Prop :=
  ∀ stored plain n, c.decomp stored = some plain → plain.length ≤ n → i stored n = some plain

/-- The decompressor delivers at most `w` bytes at a time. -/
def FirstRead.AtMost (i : FirstRead) (w : Nat) : Prop := ∀ stored n b, i stored n = some b → b.length ≤ w

/-- The chunk has a header, fits the buffer, and `plain` is what is taken from it: what is stored, or what one
`Read` delivers, if that is anything. -/
def ChunkSpec.Takes (i : FirstRead) (kind : CompKind) (size : Nat) (ch : ChunkSpec) : Prop :=
  ch.stored.length < 2 ^ 23 ∧ ch.stored.length ≤ size ∧
    (if ch.original then ch.plain = ch.stored else kind = .zlib ∧ i ch.stored size = some ch.plain ∧ ch.plain ≠ [])

/-- The chunks `cs` lie in memory from the start of the slice `buf`, behind which the array holds `spare`. All of
`buf` is taken, and all headers lie in `buf`; only the contents of the last chunk may reach into `spare`. -/
def LieIn (cs : List ChunkSpec) (buf spare : Bytes) : Prop :=
  chunkBytes cs <+: buf ++ spare ∧ buf.length ≤ (chunkBytes cs).length ∧
    ∀ front ch back, cs = front ++ ch :: back → (chunkBytes front).length + 3 ≤ buf.length

end Goorc
