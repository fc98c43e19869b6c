import Verif.Model.Chunk
import Verif.Model.Encoder
/-
Model of orc/stream/writer.go.
-/
namespace Goorc

/-- The options a stream writer uses (orc/config/opts.go:30-43 `WriterOptions`). -/
structure WOpts where
  kind : CompKind
  chunkSize : Nat
  writeIndex : Bool
  deriving DecidableEq, Repr

/-- orc/stream/writer.go:15-27 `writer`. `cbuf` is `nil` without compression; `length` is `*info.Length`; the counter
used for logging and the unused `positions` are dropped. -/
structure StreamWriter (σ : Type) where
  enc : σ
  buf : Bytes
  cbuf : Option Bytes
  length : Nat
  deriving DecidableEq, Repr

/-- orc/stream/writer.go:124-214 `NewByteWriter`, `NewBoolWriter`, `NewStringContentsWriter`, `NewIntRLV2Writer`,
`NewFloatWriter`, `NewVarint64V2Writer`: all the same but for the encoder. -/
def newStreamWriter {σ : Type} (o : WOpts) (enc : σ) : StreamWriter σ :=
  { enc := enc, buf := [], cbuf := if o.kind = .none then none else some [], length := 0 }

/-- orc/stream/writer.go:29-41 `GetPosition`. -/
def StreamWriter.getPosition {σ : Type} (E : Enc σ) (o : WOpts) (w : StreamWriter σ) : List Nat :=
  if !o.writeIndex then []
  else (if o.kind ≠ .none then [(w.cbuf.getD []).length] else []) ++ [w.buf.length] ++ E.getPosition w.enc

/-- orc/stream/writer.go:48-63 `Write`. -/
def StreamWriter.write {σ : Type} (E : Enc σ) (c : Codec) (o : WOpts) (w : StreamWriter σ) (v : GoVal) :
    Res (StreamWriter σ) := do
  let (enc', out) ← E.encode w.enc v
  let buf := w.buf ++ out
  if o.kind ≠ .none ∧ buf.length > o.chunkSize then
    match w.cbuf with
    | none => .panic
    | some cb => do
      let (dst, rest) ← compressingChunks c o.kind o.chunkSize buf
      pure { w with enc := enc', buf := rest, cbuf := some (cb ++ dst) }
  else pure { w with enc := enc', buf := buf }

/-- orc/stream/writer.go:66-74 `Size`. -/
def StreamWriter.size {σ : Type} (o : WOpts) (w : StreamWriter σ) : Nat :=
  if o.kind = .none then w.buf.length else (w.cbuf.getD []).length + w.buf.length

/-- orc/stream/writer.go:79-96 `Flush`. -/
def StreamWriter.flush {σ : Type} (E : Enc σ) (c : Codec) (o : WOpts) (w : StreamWriter σ) : Res (StreamWriter σ) := do
  let (enc', out) ← E.flush w.enc
  let buf := w.buf ++ out
  if o.kind = .none then pure { w with enc := enc', buf := buf, length := buf.length }
  else
    match w.cbuf with
    | none => .panic
    | some cb =>
      if buf.length > 0 then do
        let dst ← compressingAllInChunks c o.kind o.chunkSize buf
        pure { enc := enc', buf := [], cbuf := some (cb ++ dst), length := (cb ++ dst).length }
      else pure { enc := enc', buf := buf, cbuf := some cb, length := cb.length }

/-- orc/stream/writer.go:98-105 `Reset`: without compression the nil `compressedBuf` panics. -/
def StreamWriter.reset {σ : Type} (w : StreamWriter σ) : Res (StreamWriter σ) :=
  match w.cbuf with
  | none => .panic
  | some _ => .ok { w with buf := [], cbuf := some [], length := 0 }

/-- orc/stream/writer.go:108-122 `WriteOut`: the bytes written; the buffer is drained. -/
def StreamWriter.writeOut {σ : Type} (o : WOpts) (w : StreamWriter σ) : StreamWriter σ × Bytes :=
  if o.kind = .none then ({ w with buf := [] }, w.buf)
  else ({ w with cbuf := w.cbuf.map fun _ => [] }, w.cbuf.getD [])

/-- A client writing values in a row. The calls are orc/stream/writer.go:48-63. -/
def StreamWriter.writes {σ : Type} (E : Enc σ) (c : Codec) (o : WOpts) (w : StreamWriter σ) : List GoVal → Res (StreamWriter σ)
  | [] => .ok w
  | v :: vs => do
    let w' ← w.write E c o v
    w'.writes E c o vs

end Goorc
