import Verif.Model.ColNested
/-
Model of the writing half of orc/stripe.go and of orc/writer.go.

The file is the list of bytes written so far; writing to it is taken never to fail. The fields of the protocol buffer messages
are natural numbers, a file of 2^64 bytes is not considered.
-/
namespace Goorc

/-- `pb.StripeInformation`. pb/pb/orc_proto.pb.go:1248. -/
structure StripeInfo where
  offset : Nat
  indexLength : Nat
  dataLength : Nat
  footerLength : Nat
  numberOfRows : Nat
  deriving DecidableEq, Repr

/-- `pb.Stream`. pb/pb/orc_proto.pb.go:1001. -/
structure StreamInfo where
  kind : StreamKind
  column : Nat
  length : Nat
  deriving DecidableEq, Repr

/-- `pb.StripeFooter`: the streams, and the encodings of the columns. pb/pb/orc_proto.pb.go:1114. -/
structure StripeFooter where
  streams : List StreamInfo
  columns : List Encoding
  deriving DecidableEq, Repr

/-- `pb.Footer`, the fields that are used; a field that was not set reads as 0. pb/pb/orc_proto.pb.go:1444. -/
structure FileFooter where
  headerLength : Nat
  contentLength : Nat
  numberOfRows : Nat
  stripes : List StripeInfo
  types : List PbType
  statistics : List AnyStats
  rowIndexStride : Nat

/-- `pb.PostScript`, the fields that are used. pb/pb/orc_proto.pb.go:1553. -/
structure PostScript where
  footerLength : Nat
  compression : CompKind
  blockSize : Nat
  metadataLength : Nat
  version : List Nat
  magic : String
  deriving DecidableEq, Repr

/-- `github.com/golang/protobuf`: a parameter of the model. Marshalling is taken to succeed; unmarshalling may fail. Of a
row index only the positions of its entries are read. Called in orc/stripe.go:122-153 and 221-243,
orc/writer.go:140-200, orc/reader.go:254-357, orc/column/reader.go:33-59. -/
structure Proto where
  index : AnyIndex → Bytes
  stripeFooter : StripeFooter → Bytes
  fileFooter : FileFooter → Bytes
  postScript : PostScript → Bytes
  readIndex : Bytes → Option (List (List Nat))
  readStripeFooter : Bytes → Option StripeFooter
  readFileFooter : Bytes → Option FileFooter
  readPostScript : Bytes → Option PostScript

/-- orc/config/opts.go `WriterOptions`; `StripeSize` is an `int`, taken not to be negative. -/
structure FOpts extends COpts where
  stripeSize : Nat
  deriving DecidableEq, Repr

/-- What the model of a writer is parameterised by: floating point, compression, protocol buffers. The packages that
orc/column, orc/common/misc.go and orc/stripe.go import. -/
structure Env where
  A : Arith
  c : Codec
  P : Proto

/-- orc/stripe.go:19-35 `stripeWriter`. `columnWriters[i]` is the writer of `schemas[i]`. `out` is the whole file; the
fields `count` and `index` are never used. -/
structure StripeWriter where
  schemas : List SchemaNode
  writers : List AnyWriter
  info : StripeInfo
  infos : List StripeInfo
  out : Bytes

/-- Calls on several column writers, one after the other. The loops of orc/stripe.go:84-120. -/
def onWriters (f : AnyWriter → Res AnyWriter) : List AnyWriter → Res (List AnyWriter)
  | [] => .ok []
  | w :: ws => do
    let w ← f w
    let ws ← onWriters f ws
    pure (w :: ws)

/-- orc/stripe.go:166-174, one column writer for each schema. -/
def newWriters (A : Arith) (o : COpts) : List SchemaNode → Res (List AnyWriter)
  | [] => .ok []
  | n :: ns => do
    let w ← AnyWriter.new A o n
    let ws ← newWriters A o ns
    pure (w :: ws)

/-- orc/stripe.go:165-192 `newStripeWriter`. -/
def newStripeWriter (A : Arith) (o : FOpts) (out : Bytes) (offset : Nat) (schemas : List SchemaNode) : Res StripeWriter := do
  let ws ← newWriters A o.toCOpts schemas
  pure ⟨schemas, ws, ⟨offset, 0, 0, 0, 0⟩, [], out⟩

/-- orc/stripe.go:62-66: row `i` of a vector goes to the column writer `id`; a column or a row that does not exist is an
index out of range. -/
def writeRow (A : Arith) (c : Codec) (o : COpts) (i id : Nat) (s : Option Slice) (ws : List AnyWriter) : Res (List AnyWriter) :=
  match s with
  | none => .ok ws
  | some s =>
    match ws[id]?, s.visible[i]? with
    | some w, some v => do
      let w ← w.write A c o v
      pure (ws.set id w)
    | _, _ => .panic

mutual
/-- orc/stripe.go:61-74 `writeValue`. -/
def writeValue (A : Arith) (c : Codec) (o : COpts) (i : Nat) : List AnyWriter → Vec → Res (List AnyWriter)
  | _, .nil => .panic
  | ws, .mk id _ s cs => do
    let ws ← writeRow A c o i id s ws
    writeValues A c o i ws cs

/-- orc/stripe.go:68-72, the loop over the children. -/
def writeValues (A : Arith) (c : Codec) (o : COpts) (i : Nat) : List AnyWriter → List Vec → Res (List AnyWriter)
  | ws, [] => .ok ws
  | ws, v :: vs => do
    let ws ← writeValue A c o i ws v
    writeValues A c o i ws vs
end

namespace StripeWriter

/-- orc/stripe.go:76-82 `size`. -/
def size (A : Arith) (o : FOpts) (s : StripeWriter) : Nat := (s.writers.map fun w => w.size A o.toCOpts).sum

/-- orc/stripe.go:91-106: the indexes of all columns. They are not compressed. -/
def indexes (P : Proto) (ws : List AnyWriter) : Bytes := ws.flatMap fun w => P.index w.index

/-- orc/stripe.go:108-114: `WriteOut` of all columns. -/
def writeOuts (A : Arith) (o : COpts) : List AnyWriter → Res (List AnyWriter × Bytes)
  | [] => .ok ([], [])
  | w :: ws => do
    let (w, x) ← w.writeOut A o
    let (ws, y) ← writeOuts A o ws
    pure (w :: ws, x ++ y)

/-- orc/stripe.go:123-131: the stripe footer. The column of a stream is the `Id` of the writer's schema. -/
def footer (A : Arith) (s : StripeWriter) : StripeFooter where
  streams := (s.schemas.zip s.writers).flatMap fun x => (x.2.streamInfos A).map fun i => ⟨i.1, x.1.id, i.2⟩
  columns := s.schemas.map (·.encoding)

/-- orc/stripe.go:122-153 `writeFooter`: always compressed. -/
def writeFooter (E : Env) (o : FOpts) (s : StripeWriter) : Res StripeWriter := do
  let b ← compressingAllInChunks E.c o.kind o.chunkSize (E.P.stripeFooter (s.footer E.A))
  pure { s with out := s.out ++ b, info := { s.info with footerLength := b.length } }

/-- orc/stripe.go:84-120 `flushOut`. -/
def flushOut (E : Env) (o : FOpts) (s : StripeWriter) : Res StripeWriter := do
  let ws ← onWriters (fun w => w.flush E.A E.c o.toCOpts) s.writers
  let idx := if o.writeIndex then indexes E.P ws else []
  let (ws, body) ← writeOuts E.A o.toCOpts ws
  writeFooter E o { s with
    writers := ws
    out := s.out ++ idx ++ body
    info := { s.info with
      indexLength := s.info.indexLength + idx.length
      dataLength := s.info.dataLength + body.length } }

/-- orc/stripe.go:155-163 `forward`. -/
def forward (A : Arith) (o : FOpts) (s : StripeWriter) : Res StripeWriter := do
  let ws ← onWriters (fun w => w.reset A o.toCOpts) s.writers
  pure { s with
    writers := ws
    infos := s.infos ++ [s.info]
    info := ⟨s.info.offset + s.info.indexLength + s.info.dataLength + s.info.footerLength, 0, 0, 0, 0⟩ }

/-- orc/stripe.go:48, 57: `*stripe.info.NumberOfRows += count`. -/
def addRows (n : Nat) (s : StripeWriter) : StripeWriter :=
  { s with info := { s.info with numberOfRows := s.info.numberOfRows + n } }

/-- orc/stripe.go:39-57, the loop of `write` with `n` rows to go, from row `i` on; `count` is the local variable. -/
def writeLoop (E : Env) (o : FOpts) (vec : Vec) : Nat → Nat → Nat → StripeWriter → Res StripeWriter
  | 0, _, count, s => .ok (s.addRows count)
  | n + 1, i, count, s => do
    let ws ← writeValue E.A E.c o.toCOpts i s.writers vec
    let s := { s with writers := ws }
    if s.size E.A o ≥ o.stripeSize then do
      let s ← (s.addRows (count + 1)).flushOut E o
      let s ← s.forward E.A o
      writeLoop E o vec n (i + 1) 0 s
    else writeLoop E o vec n (i + 1) (count + 1) s

/-- orc/stripe.go:37-59 `write`. -/
def write (E : Env) (o : FOpts) (s : StripeWriter) (vec : Vec) : Res StripeWriter :=
  if vec.lenPanics then .panic else writeLoop E o vec vec.len 0 0 s

end StripeWriter

/-! ### orc/writer.go -/

/-- orc/writer.go:137-138 `Magic`, as bytes. -/
def magic : Bytes := [0x4f#8, 0x52#8, 0x43#8]

/-- orc/writer.go:70-83 `writer`; `columnStats` are pointers to the statistics of the column writers. -/
structure FileWriter where
  schemas : List Schema
  stripe : StripeWriter

/-- orc/writer.go:41-65 `newWriter`. -/
def newWriter (E : Env) (o : FOpts) (schema : Schema) : Res FileWriter := do
  let schemas ← flat schema
  let s ← newStripeWriter E.A o magic magic.length (schemas.map (·.node))
  pure ⟨schemas, s⟩

namespace FileWriter

/-- orc/writer.go:85-94 `Write`. -/
def write (E : Env) (o : FOpts) (w : FileWriter) (vec : Vec) : Res FileWriter := do
  let s ← w.stripe.write E o vec
  pure { w with stripe := s }

/-- orc/writer.go:141-151: the file footer. -/
def footer (w : FileWriter) : FileFooter where
  headerLength := 3
  contentLength := (w.stripe.infos.map fun i => i.indexLength + i.dataLength + i.footerLength).sum
  numberOfRows := (w.stripe.infos.map (·.numberOfRows)).sum
  stripes := w.stripe.infos
  types := schemasToTypes w.schemas
  statistics := w.stripe.writers.map (·.stats)
  rowIndexStride := 0

/-- orc/writer.go:178-185: the postscript. -/
def postScript (o : FOpts) (footerLength : Nat) : PostScript := ⟨footerLength, o.kind, o.chunkSize, 0, [0, 12], "ORC"⟩

/-- orc/writer.go:140-200 `writeFileTail`: the bytes. -/
def tail (E : Env) (o : FOpts) (w : FileWriter) : Res Bytes := do
  let f := E.P.fileFooter w.footer
  let f ← (if o.kind = .none then pure f else compressingAllInChunks E.c o.kind o.chunkSize f : Res Bytes)
  let ps := E.P.postScript (postScript o f.length)
  pure (f ++ ps ++ [BitVec.ofNat 8 ps.length])

/-- orc/writer.go:115-118, the first part of `Close`: the last stripe, even if it has no rows. -/
def finish (E : Env) (o : FOpts) (w : FileWriter) : Res FileWriter := do
  let s ← w.stripe.flushOut E o
  pure { w with stripe := { s with infos := s.infos ++ [s.info] } }

/-- orc/writer.go:114-127 `Close`: the finished file. -/
def close (E : Env) (o : FOpts) (w : FileWriter) : Res Bytes := do
  let w ← w.finish E o
  let t ← w.tail E o
  pure (w.stripe.out ++ t)

end FileWriter

end Goorc
