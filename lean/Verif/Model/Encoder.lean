import Verif.Model.EncBool
/-
The `Encoder` interface and histories of calls on it.
-/
namespace Goorc

/-- orc/encoding/package.go:30-45 `Encoder`: `encode`/`flush` return the new encoder state and the
bytes appended to the `out` buffer. -/
structure Enc (σ : Type) where
  encode : σ → GoVal → Res (σ × Bytes)
  flush : σ → Res (σ × Bytes)
  getPosition : σ → List Nat

/-- orc/encoding/byte.go `byteRunLength` as an `Encoder`. -/
def byteEnc : Enc ByteEnc := ⟨ByteEnc.encode, ByteEnc.flush, ByteEnc.getPosition⟩

/-- orc/encoding/bool.go `boolRunLength` as an `Encoder`. -/
def boolEnc : Enc BoolEnc := ⟨BoolEnc.encode, BoolEnc.flush, BoolEnc.getPosition⟩

/-- A call made by a client of an encoder. orc/encoding/package.go:30-45. -/
inductive EncOp where
  | encode (v : GoVal)
  | flush
  deriving DecidableEq, Repr

/-- One call. orc/encoding/package.go:30-45. -/
def Enc.step {σ : Type} (E : Enc σ) (s : σ) : EncOp → Res (σ × Bytes)
  | .encode v => E.encode s v
  | .flush => E.flush s

/-- Run a history of calls against one output buffer; the bytes written are accumulated. The client is
orc/stream/writer.go:48-96. -/
def Enc.run {σ : Type} (E : Enc σ) : σ → List EncOp → Res (σ × Bytes)
  | s, [] => .ok (s, [])
  | s, op :: ops => do
    let (s', out) ← E.step s op
    let (s'', out') ← Enc.run E s' ops
    pure (s'', out ++ out')

/-- Encode all the values in order. The client is orc/stream/writer.go:48-63. -/
def Enc.encodeMany {σ : Type} (E : Enc σ) (s : σ) (vs : List GoVal) : Res (σ × Bytes) :=
  E.run s (vs.map .encode)

/-- Encode all the values, then flush; the complete output. The client is orc/stream/writer.go:48-96. -/
def Enc.encodeFlush {σ : Type} (E : Enc σ) (s : σ) (vs : List GoVal) : Res Bytes := do
  let (_, out) ← E.run s (vs.map .encode ++ [.flush])
  pure out

end Goorc

namespace Goorc

/-- A client that encodes several groups of values with one encoder, flushing after each group
(as a column writer does at the end of every stripe); the output of each group. The client is
orc/stream/writer.go:48-96. -/
def Enc.encodeGroups {σ : Type} (E : Enc σ) : σ → List (List GoVal) → Res (List Bytes)
  | _, [] => .ok []
  | s, g :: gs => do
    let (s', out) ← E.run s (g.map .encode ++ [.flush])
    let outs ← Enc.encodeGroups E s' gs
    pure (out :: outs)

end Goorc
