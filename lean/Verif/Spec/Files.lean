import Verif.Model.FileReader
import Verif.Spec.Schemas
/-
What a file made by the writer must look like, and the clients that write one.
-/
namespace Goorc

/-- Several calls of `Write`. -/
def FileWriter.writes (E : Env) (o : FOpts) : FileWriter → List Vec → Res FileWriter
  | w, [] => .ok w
  | w, v :: vs => do
    let w ← w.write E o v
    writes E o w vs

/-- A client: create a writer, write batches, close. The finished file. -/
def writeFile (E : Env) (o : FOpts) (schema : Schema) (batches : List Vec) : Res Bytes := do
  let w ← newWriter E o schema
  let w ← w.writes E o batches
  w.close E o

/-- The pieces of a stripe, and the number of rows in it. -/
structure StripeParts where
  indexes : Bytes
  streams : List (StreamInfo × Bytes)
  footer : StripeFooter
  footerBytes : Bytes
  rows : Nat

/-- The streams of a stripe, one after the other. -/
def StripeParts.data (p : StripeParts) : Bytes := p.streams.flatMap (·.2)

/-- A stripe in the file: the row indexes, the streams, the footer. -/
def StripeParts.bytes (p : StripeParts) : Bytes := p.indexes ++ p.data ++ p.footerBytes

/-- A stripe of a file with the columns `columns`: its footer is there, lists exactly its streams in their order and with
their lengths, each of an existing column, and the encodings of all columns. -/
structure StripeParts.Sound (E : Env) (o : FOpts) (columns : List SchemaNode) (p : StripeParts) : Prop where
  listed : p.footer.streams = p.streams.map (·.1)
  lengths : ∀ s ∈ p.streams, s.1.length = s.2.length
  existing : ∀ s ∈ p.streams, ∃ n ∈ columns, s.1.column = n.id
  noIndex : ∀ s ∈ p.streams, s.1.kind ≠ .rowIndex
  encodings : p.footer.columns = columns.map (·.encoding)
  footer : compressingAllInChunks E.c o.kind o.chunkSize (E.P.stripeFooter p.footer) = .ok p.footerBytes
  unindexed : o.writeIndex = false → p.indexes = []

/-- Stripes from byte `start` of the file on, one right after the other. -/
def stripeTable : Nat → List StripeParts → List StripeInfo
  | _, [] => []
  | start, p :: ps =>
    ⟨start, p.indexes.length, p.data.length, p.footerBytes.length, p.rows⟩ :: stripeTable (start + p.bytes.length) ps

/-- The tail of a file with the footer `ft` and the postscript `ps`: the footer (compressed, unless the file is not), the
postscript, and the length of the postscript. The postscript says how long the footer is and how the file is compressed. -/
def IsTail (E : Env) (o : FOpts) (ft : FileFooter) (ps : PostScript) (tail : Bytes) : Prop :=
  ∃ footerBytes : Bytes,
    tail = footerBytes ++ E.P.postScript ps ++ [BitVec.ofNat 8 (E.P.postScript ps).length] ∧
    (if o.kind = .none then footerBytes = E.P.fileFooter ft
      else compressingAllInChunks E.c o.kind o.chunkSize (E.P.fileFooter ft) = .ok footerBytes) ∧
    ps = { footerLength := footerBytes.length, compression := o.kind, blockSize := o.chunkSize, metadataLength := 0,
           version := [0, 12], magic := "ORC" }

/-- The layout of a file: the magic, the stripes one right after the other, the tail with the footer; the footer describes the
stripes and the columns. -/
structure FileLayout (E : Env) (o : FOpts) (columns : List Schema) (file : Bytes) (parts : List StripeParts) (ft : FileFooter)
    (ps : PostScript) : Prop where
  /-- The file is the letters ORC, the stripes, and the tail. -/
  bytes : ∃ tail, file = [0x4f#8, 0x52#8, 0x43#8] ++ parts.flatMap (·.bytes) ++ tail ∧ IsTail E o ft ps tail
  /-- There is a stripe, and only the last one may be without rows. -/
  nonempty : parts ≠ []
  filled : ∀ p ∈ parts.dropLast, 1 ≤ p.rows
  /-- Every stripe is as its own footer says. -/
  sound : ∀ p ∈ parts, p.Sound E o (columns.map (·.node))
  /-- The table of stripes in the footer. -/
  stripes : ft.stripes = stripeTable 3 parts
  header : ft.headerLength = 3
  content : ft.contentLength = (parts.flatMap (·.bytes)).length
  rows : ft.numberOfRows = (parts.map (·.rows)).sum
  types : ft.types = schemasToTypes columns
  /-- One statistic for each column, that knows whether the column may have nulls. -/
  nulls : ft.statistics.map (·.hasNull) = columns.map (·.node.hasNulls)
  /-- No row index stride is recorded. -/
  stride : ft.rowIndexStride = 0

/-- What protocol buffers are for: the messages of a file can be read back, and the postscript is not larger than its length
can say. -/
structure Proto.Reads (P : Proto) (parts : List StripeParts) (ft : FileFooter) (ps : PostScript) : Prop where
  stripes : ∀ p ∈ parts, P.readStripeFooter (P.stripeFooter p.footer) = some p.footer
  footer : P.readFileFooter (P.fileFooter ft) = some ft
  postScript : P.readPostScript (P.postScript ps) = some ps
  short : (P.postScript ps).length < 256

/-- What is taken for granted of protocol buffers: messages can be read back, and the postscript of a file with numbers below
2^63 is not larger than the one byte for its length can say. -/
structure Proto.Lossless (P : Proto) : Prop where
  stripeFooter : ∀ f, P.readStripeFooter (P.stripeFooter f) = some f
  fileFooter : ∀ f, P.readFileFooter (P.fileFooter f) = some f
  postScript : ∀ f, P.readPostScript (P.postScript f) = some f
  short : ∀ footerLength kind blockSize, footerLength < 2 ^ 63 → blockSize < 2 ^ 63 →
    (P.postScript ⟨footerLength, kind, blockSize, 0, [0, 12], "ORC"⟩).length < 256

end Goorc
