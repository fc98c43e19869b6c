import Verif.Model.StripeWriter
/-
Model of writing to a file that can fail: orc/writer.go, orc/stripe.go, the `WriteOut` functions of orc/column and orc/stream/writer.go again, with every single `Write` of the file, and with what an error leaves
behind. Verif/Model/StripeWriter.lean is the same for a file that never fails (Verif/Props/Disk.lean shows it).
Errors and panics that are not the file's are as there: what they leave behind is not said. The field `out` of `StripeWriter` is not used here, the file's contents are in `Disk`.
-/
namespace Goorc

/-- A file open for writing. orc/io/file.go:17-23 `File`, 44-46 `Write`. `answers` are what its next `Write`s will do: `none` takes everything, `some n` takes at most `n` bytes and reports an error; after the last of
them all goes well. `failures` counts the errors it has reported. -/
structure Disk where
  answers : List (Option Nat)
  content : Bytes
  failures : Nat
  deriving DecidableEq, Repr

/-- How a call that writes to the file has ended: whether without an error, what it returns or leaves behind, and the file. For orc/column/package.go:51, orc/stripe.go:84, orc/writer.go:85 and 114. -/
structure After (α : Type) where
  ok : Bool
  st : α
  disk : Disk

namespace Disk

/-- `Write`: how many bytes were taken. orc/io/file.go:44-46. -/
def write (k : Disk) (b : Bytes) : After Nat :=
  match k.answers with
  | [] => ⟨true, b.length, { k with content := k.content ++ b }⟩
  | none :: as => ⟨true, b.length, { k with answers := as, content := k.content ++ b }⟩
  | some n :: as => ⟨false, (b.take n).length, ⟨as, k.content ++ b.take n, k.failures + 1⟩⟩

/-- `bytes.Buffer.WriteTo`, as called in orc/stream/writer.go:110 and 117, orc/stripe.go:147, orc/writer.go:172: an empty buffer is not written; what was taken leaves the buffer. How many bytes, and what is left in the
buffer. -/
def drain (k : Disk) (buf : Bytes) : After (Nat × Bytes) :=
  if buf = [] then ⟨true, (0, []), k⟩
  else
    let r := k.write buf
    ⟨r.ok, (r.st, buf.drop r.st), r.disk⟩

end Disk

/-- orc/stream/writer.go:108-122 `WriteOut`: how many bytes, and the stream. -/
def StreamWriter.writeOutTo {σ : Type} (o : WOpts) (w : StreamWriter σ) (k : Disk) : After (Nat × StreamWriter σ) :=
  if o.kind = .none then
    let r := k.drain w.buf
    ⟨r.ok, (r.st.1, { w with buf := r.st.2 }), r.disk⟩
  else
    let r := k.drain (w.cbuf.getD [])
    ⟨r.ok, (r.st.1, { w with cbuf := w.cbuf.map fun _ => r.st.2 }), r.disk⟩

/-- `WriteOut` of two streams: after an error the second is not written. orc/column/string.go:174-181, binary.go:114-121, time.go:414-419, decimal.go:148-153. -/
def twoOutTo {σ τ : Type} (o : WOpts) (d : StreamWriter σ × StreamWriter τ) (k : Disk) : After (Nat × (StreamWriter σ × StreamWriter τ)) :=
  let a := d.1.writeOutTo o k
  if a.ok then
    let b := d.2.writeOutTo o a.disk
    ⟨b.ok, (a.st.1 + b.st.1, (a.st.2, b.st.2)), b.disk⟩
  else ⟨false, (0, (a.st.2, d.2)), a.disk⟩

/-- `WriteOut` of the data streams. orc/column/byte.go:128, bool.go:114, int.go:152, float.go:282, string.go:174-181, binary.go:114-121, time.go:119 and 414-419, decimal.go:148-153. -/
def LeafTag.dataTo (o : WOpts) : (t : LeafTag) → t.δ → Disk → After (Nat × t.δ)
  | .byte, d, k => StreamWriter.writeOutTo o d k
  | .bool, d, k => StreamWriter.writeOutTo o d k
  | .int _, d, k => StreamWriter.writeOutTo o d k
  | .float _, d, k => StreamWriter.writeOutTo o d k
  | .string, d, k => twoOutTo o d k
  | .binary, d, k => twoOutTo o d k
  | .date, d, k => StreamWriter.writeOutTo o d k
  | .timestamp, d, k => twoOutTo o d k
  | .decimal, d, k => twoOutTo o d k

/-- `if w.schema.HasNulls { w.present.WriteOut(out) }`. orc/column/struct.go:238-243, and at the beginning of the other `WriteOut`s. -/
def flagsTo (o : COpts) (hasNulls : Bool) (present : Option (StreamWriter BoolEnc)) (k : Disk) : Res (After (Nat × Option (StreamWriter BoolEnc))) :=
  if hasNulls then
    match present with
    | none => .panic
    | some p =>
      let r := p.writeOutTo o.toWOpts k
      .ok ⟨r.ok, (r.st.1, some r.st.2), r.disk⟩
  else .ok ⟨true, (0, present), k⟩

/-- `WriteOut`: byte.go:116-133, bool.go:102-118, int.go:140-157, float.go:270-287, string.go:166-183, binary.go:106-123, time.go:112-123 and 404-422, decimal.go:138-156. -/
def LeafTag.writeOutTo (A : Arith) (o : COpts) (t : LeafTag) (w : ColWriter t.δ t.κ) (k : Disk) : Res (After (Nat × ColWriter t.δ t.κ)) :=
  if (t.kind A).mustFlush ∧ w.flushed = false then .err .other
  else do
    let p ← flagsTo o w.hasNulls w.present k
    if p.ok then
      let d := t.dataTo o.toWOpts w.data p.disk
      pure ⟨d.ok, (p.st.1 + d.st.1, { w with present := p.st.2, data := d.st.2 }), d.disk⟩
    else pure ⟨false, (0, { w with present := p.st.2 }), p.disk⟩

/-- orc/column/struct.go:232-245 `WriteOut`. -/
def StructWriter.writeOutTo (o : COpts) (w : StructWriter) (k : Disk) : Res (After (Nat × StructWriter)) :=
  if w.flushed = false then .err .other
  else do
    let p ← flagsTo o w.hasNulls w.present k
    pure ⟨p.ok, (p.st.1, { w with present := p.st.2 }), p.disk⟩

/-- orc/column/string.go:716-733 `WriteOut`. -/
def DictWriter.writeOutTo (o : COpts) (w : DictWriter) (k : Disk) : Res (After (Nat × DictWriter)) := do
  let p ← flagsTo o w.hasNulls w.present k
  let w := { w with present := p.st.2 }
  if p.ok then
    let d := w.dataStream.writeOutTo o.toWOpts p.disk
    let w := { w with dataStream := d.st.2 }
    if d.ok then
      let t := w.dictStream.writeOutTo o.toWOpts d.disk
      let w := { w with dictStream := t.st.2 }
      if t.ok then
        let l := w.lengthStream.writeOutTo o.toWOpts t.disk
        pure ⟨l.ok, (p.st.1 + d.st.1 + t.st.1 + l.st.1, { w with lengthStream := l.st.2 }), l.disk⟩
      else pure ⟨false, (0, w), t.disk⟩
    else pure ⟨false, (0, w), d.disk⟩
  else pure ⟨false, (0, w), p.disk⟩

/-- `WriteOut`. orc/column/package.go:51. -/
def AnyWriter.writeOutTo (A : Arith) (o : COpts) : AnyWriter → Disk → Res (After (Nat × AnyWriter))
  | .leaf t w, k => do
    let r ← t.writeOutTo A o w k
    pure ⟨r.ok, (r.st.1, .leaf t r.st.2), r.disk⟩
  | .dict w, k => do
    let r ← w.writeOutTo o k
    pure ⟨r.ok, (r.st.1, .dict r.st.2), r.disk⟩
  | .struct w, k => do
    let r ← w.writeOutTo o k
    pure ⟨r.ok, (r.st.1, .struct r.st.2), r.disk⟩

namespace StripeWriter

/-- orc/stripe.go:92-104: the indexes of all columns, each with one `Write`; how many bytes were counted. -/
def indexesTo (P : Proto) : List AnyWriter → Disk → After Nat
  | [], k => ⟨true, 0, k⟩
  | w :: ws, k =>
    let r := k.write (P.index w.index)
    if r.ok then
      let s := indexesTo P ws r.disk
      ⟨s.ok, r.st + s.st, s.disk⟩
    else ⟨false, 0, r.disk⟩

/-- orc/stripe.go:108-114: `WriteOut` of all columns; how many bytes were counted. -/
def writeOutsTo (A : Arith) (o : COpts) : List AnyWriter → Disk → Res (After (Nat × List AnyWriter))
  | [], k => .ok ⟨true, (0, []), k⟩
  | w :: ws, k => do
    let r ← w.writeOutTo A o k
    if r.ok then do
      let s ← writeOutsTo A o ws r.disk
      pure ⟨s.ok, (r.st.1 + s.st.1, r.st.2 :: s.st.2), s.disk⟩
    else pure ⟨false, (0, r.st.2 :: ws), r.disk⟩

/-- orc/stripe.go:122-153 `writeFooter`. -/
def writeFooterTo (E : Env) (o : FOpts) (s : StripeWriter) (k : Disk) : Res (After StripeWriter) := do
  let b ← compressingAllInChunks E.c o.kind o.chunkSize (E.P.stripeFooter (s.footer E.A))
  let r := k.drain b
  if r.ok then pure ⟨true, { s with info := { s.info with footerLength := r.st.1 } }, r.disk⟩
  else pure ⟨false, s, r.disk⟩

/-- orc/stripe.go:84-120 `flushOut`. The lengths are counted up as they are written, an error leaves them where they are. -/
def flushOutTo (E : Env) (o : FOpts) (s : StripeWriter) (k : Disk) : Res (After StripeWriter) := do
  let ws ← onWriters (fun w => w.flush E.A E.c o.toCOpts) s.writers
  let i := if o.writeIndex then indexesTo E.P ws k else ⟨true, 0, k⟩
  let s := { s with writers := ws, info := { s.info with indexLength := s.info.indexLength + i.st } }
  if i.ok then do
    let r ← writeOutsTo E.A o.toCOpts s.writers i.disk
    let s := { s with writers := r.st.2, info := { s.info with dataLength := s.info.dataLength + r.st.1 } }
    if r.ok then writeFooterTo E o s r.disk else pure ⟨false, s, r.disk⟩
  else pure ⟨false, s, i.disk⟩

/-- orc/stripe.go:39-57, see `StripeWriter.writeLoop`. After an error the rest of the rows is not written. -/
def writeLoopTo (E : Env) (o : FOpts) (vec : Vec) : Nat → Nat → Nat → StripeWriter → Disk → Res (After StripeWriter)
  | 0, _, count, s, k => .ok ⟨true, s.addRows count, k⟩
  | n + 1, i, count, s, k => do
    let ws ← writeValue E.A E.c o.toCOpts i s.writers vec
    let s := { s with writers := ws }
    if s.size E.A o ≥ o.stripeSize then do
      let r ← (s.addRows (count + 1)).flushOutTo E o k
      if r.ok then do
        let s ← r.st.forward E.A o
        writeLoopTo E o vec n (i + 1) 0 s r.disk
      else pure r
    else writeLoopTo E o vec n (i + 1) (count + 1) s k

end StripeWriter

/-- orc/writer.go:41-65 `newWriter` with 129-135 `writeHeader`: no writer if the header cannot be written. -/
def newWriterTo (E : Env) (o : FOpts) (schema : Schema) (k : Disk) : Res (After (Option FileWriter)) := do
  let schemas ← flat schema
  let r := k.write magic
  if r.ok then do
    let s ← newStripeWriter E.A o [] magic.length (schemas.map (·.node))
    pure ⟨true, some ⟨schemas, s⟩, r.disk⟩
  else pure ⟨false, none, r.disk⟩

namespace FileWriter

/-- orc/writer.go:85-94 `Write`, orc/stripe.go:37-59 `write`. -/
def writeTo (E : Env) (o : FOpts) (w : FileWriter) (vec : Vec) (k : Disk) : Res (After FileWriter) := do
  let r ← (if vec.lenPanics then .panic else StripeWriter.writeLoopTo E o vec vec.len 0 0 w.stripe k : Res (After StripeWriter))
  pure ⟨r.ok, { w with stripe := r.st }, r.disk⟩

/-- orc/writer.go:158-174: the footer; `CompressingAllInChunks` and `WriteTo`, or one `Write`. Its length. -/
def footerTo (E : Env) (o : FOpts) (f : Bytes) (k : Disk) : Res (After Nat) :=
  if o.kind = .none then
    let r := k.write f
    .ok ⟨r.ok, f.length, r.disk⟩
  else do
    let b ← compressingAllInChunks E.c o.kind o.chunkSize f
    let r := k.drain b
    pure ⟨r.ok, b.length, r.disk⟩

/-- orc/writer.go:140-200 `writeFileTail`: footer, postscript, length of the postscript. -/
def tailTo (E : Env) (o : FOpts) (w : FileWriter) (k : Disk) : Res (After Unit) := do
  let r ← footerTo E o (E.P.fileFooter w.footer) k
  if r.ok then
    let p := r.disk.write (E.P.postScript (postScript o r.st))
    if p.ok then
      let l := p.disk.write [BitVec.ofNat 8 p.st]
      pure ⟨l.ok, (), l.disk⟩
    else pure ⟨false, (), p.disk⟩
  else pure ⟨false, (), r.disk⟩

/-- orc/writer.go:114-127 `Close`; `closes` is whether closing the file goes well: if not, that is only logged. -/
def closeTo (E : Env) (o : FOpts) (closes : Bool) (w : FileWriter) (k : Disk) : Res (After FileWriter) := do
  let r ← w.stripe.flushOutTo E o k
  if r.ok then do
    let w := { w with stripe := { r.st with infos := r.st.infos ++ [r.st.info] } }
    let t ← w.tailTo E o r.disk
    if t.ok then (if closes then pure ⟨true, w, t.disk⟩ else pure ⟨true, w, t.disk⟩) else pure ⟨false, w, t.disk⟩
  else pure ⟨false, { w with stripe := r.st }, r.disk⟩

/-- A program that writes batches until there is an error. The calls are orc/writer.go:85-94. -/
def writesTo (E : Env) (o : FOpts) : FileWriter → List Vec → Disk → Res (After FileWriter)
  | w, [], k => .ok ⟨true, w, k⟩
  | w, v :: vs, k => do
    let r ← w.writeTo E o v k
    if r.ok then writesTo E o r.st vs r.disk else pure r

end FileWriter

/-- A program that creates a file, writes batches and closes it, and stops at the first error: whether there was none, and the file. The calls are orc/writer.go:27-39, 85-94 and 114-127. -/
def writeFileTo (E : Env) (o : FOpts) (schema : Schema) (batches : List Vec) (closes : Bool) (k : Disk) : Res (After Unit) := do
  let n ← newWriterTo E o schema k
  match n.ok, n.st with
  | true, some w => do
    let r ← w.writesTo E o batches n.disk
    if r.ok then do
      let c ← r.st.closeTo E o closes r.disk
      pure ⟨c.ok, (), c.disk⟩
    else pure ⟨false, (), r.disk⟩
  | _, _ => pure ⟨false, (), n.disk⟩

end Goorc
