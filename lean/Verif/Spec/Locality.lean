import Verif.Spec.Projection
/-
Which bytes of a file a client that reads some of the columns depends on: the tail, the stripe footers and the streams of these columns.
-/
namespace Goorc

/-- `n` bytes of a file from `start` on, as many of them as there are. -/
def span (file : Bytes) (start n : Nat) : Bytes := (file.drop start).take n

/-- The streams of a stripe and where they start: the row indexes one after the other from the start of the stripe on, the other streams from the end of the
indexes on, both in the order of the stripe footer. -/
def streamStarts : Nat → Nat → List StreamInfo → List (StreamInfo × Nat)
  | _, _, [] => []
  | indexStart, dataStart, s :: ss =>
    if s.kind = .rowIndex then (s, indexStart) :: streamStarts (indexStart + s.length) dataStart ss
    else (s, dataStart) :: streamStarts indexStart (dataStart + s.length) ss

/-- Bytes that are whole chunks: a header of three bytes says how many bytes follow. -/
inductive Chunked : Bytes → Prop
  | nil : Chunked []
  | cons (h0 h1 h2 : Byte) (body rest : Bytes) : (decChunkHeader h0 h1 h2).1 = body.length → Chunked rest → Chunked (h0 :: h1 :: h2 :: (body ++ rest))

/-- Both files open alike: what their tails say is the same. -/
def SameTail (E : Env) (f g : Bytes) : Prop := newReader E g = (do let r ← newReader E f; pure { r with file := g })

/-- The footers of all the stripes are the same. -/
def SameFooters (E : Env) (f g : Bytes) : Prop :=
  ∀ r, newReader E f = .ok r → ∀ info ∈ r.stripes, readStripeFooter E r.opts g info = readStripeFooter E r.opts f info

/-- `p` holds of all the streams of the columns of `bo`, with where they start. -/
def OfStreams (E : Env) (f : Bytes) (bo : BatchOption) (p : FileReader → StreamInfo → Nat → Prop) : Prop :=
  ∀ r, newReader E f = .ok r → ∀ info ∈ r.stripes, ∀ foot, readStripeFooter E r.opts f info = .ok foot →
    ∀ s ∈ streamStarts info.offset (info.offset + info.indexLength) foot.streams, bo.isInclude s.1.column = true → p r s.1 s.2

end Goorc
