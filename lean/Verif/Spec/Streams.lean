import Verif.Model.StreamWriter
import Verif.Model.StreamTyped
/-
Clients of the stream layer: a program that writes a stream, one that reads it value by value.
-/
namespace Goorc

/-- Options that make sense: compression NONE or ZLIB, and a chunk size that fits a chunk header. -/
def WOpts.Sound (o : WOpts) : Prop := (o.kind = .none ∨ o.kind = .zlib) ∧ 1 ≤ o.chunkSize ∧ o.chunkSize < 2 ^ 23

/-- Write all values, flush, write out; the bytes that end up in the file. -/
def writeStream {σ : Type} (E : Enc σ) (c : Codec) (o : WOpts) (e : σ) (vs : List GoVal) : Res Bytes := do
  let w ← (newStreamWriter o e).writes E c o vs
  let w ← w.flush E c o
  pure (w.writeOut o).2

/-- A reader on the part `body` of a file. -/
def streamAt (o : WOpts) (pre body post : Bytes) : StreamReader :=
  newStreamReader o.kind o.chunkSize pre.length body.length (pre ++ body ++ post)

/-- Calling `next` again and again from `r` delivers exactly `vs` and ends in `r'`. -/
def Yields {ρ α : Type} (next : ρ → Res (α × ρ)) : ρ → List α → ρ → Prop
  | r, [], r' => r' = r
  | r, v :: vs, r' => ∃ r1, next r = .ok (v, r1) ∧ Yields next r1 vs r'

/-- Reading strings: every call says how long its string is. -/
def YieldsStrings (c : Codec) : StreamReader → List Bytes → StreamReader → Prop
  | r, [], r' => r' = r
  | r, v :: vs, r' => ∃ r1, nextBytes c r v.length = .ok (v, r1) ∧ YieldsStrings c r1 vs r'

/-- Reading on after the end fails. -/
def Ends {ρ α : Type} (next : ρ → Res (α × ρ)) (r : ρ) : Prop := ∃ e, next r = .err e

/-- What C34 and C35 ask of a stream: reading delivers the values in order, then fails; `Finished` is false as long as
a value is left and true at the end. -/
def ReadsAll {ρ α : Type} (next : ρ → Res (α × ρ)) (finished : ρ → Bool) (r : ρ) (vs : List α) : Prop :=
  (∃ r', Yields next r vs r' ∧ Ends next r') ∧
  ∀ a b, vs = a ++ b → ∃ r', Yields next r a r' ∧ (finished r' = true ↔ b = [])

/-- Where the reader has to seek, from the position of the stream writer (the column readers' `SeekStride`, for
instance orc/column/int.go:276-320): with compression the first two numbers are the chunk and the offset in it; without,
the first number is the offset. The rest belongs to the encoding. -/
def splitPosition (kind : CompKind) (pos : List Nat) : Nat × Nat × List Nat :=
  if kind = .none then (0, pos.getD 0 0, pos.drop 1) else (pos.getD 0 0, pos.getD 1 0, pos.drop 2)

/-- Write `vs1`, ask for the position and the size, write `vs2`, flush, write out. -/
def writeStreamAt {σ : Type} (E : Enc σ) (c : Codec) (o : WOpts) (e : σ) (vs1 vs2 : List GoVal) : Res (List Nat × Nat × Bytes) := do
  let w1 ← (newStreamWriter o e).writes E c o vs1
  let w2 ← w1.writes E c o vs2
  let w3 ← w2.flush E c o
  pure (w1.getPosition E o, w1.size o, (w3.writeOut o).2)

/-- Streams in which the reader's `Seek` lands: without compression only within the first chunk size of bytes, with
compression only if the stream is not empty. -/
def Seekable (o : WOpts) (size : Nat) (body : Bytes) : Prop :=
  (o.kind = .none ∧ size ≤ o.chunkSize) ∨ (o.kind = .zlib ∧ body ≠ [])

/-- The stream reader after whatever it was used for. -/
def StreamReader.used (r : StreamReader) (pos readLength : Nat) (buf : Bytes) : StreamReader :=
  { r with pos := pos, readLength := readLength, buf := buf }

end Goorc
