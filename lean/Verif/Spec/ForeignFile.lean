import Verif.Spec.Foreign
import Verif.Spec.Tables
import Verif.Spec.Accept
/-
Files as the ORC specification lays them out, whoever wrote them: columns in stripes, stripes in a file, the tail.
-/
namespace Goorc

/-- How the format stores the types: the encodings that do without a dictionary and with the second version of the integer encoding. Floats,
timestamps, decimals, char and varchar are left out: this library does not read them (C75, C38, C62). -/
inductive StoredAs : TypeKind → Encoding → LeafTag → Prop
  | tinyint : StoredAs .byte .direct .byte
  | boolean : StoredAs .boolean .direct .bool
  | smallint : StoredAs .short .directV2 (.int .small)
  | int : StoredAs .int .directV2 (.int .int)
  | bigint : StoredAs .long .directV2 (.int .big)
  | double : StoredAs .double .direct (.float true)
  | string : StoredAs .string .directV2 .string
  | binary : StoredAs .binary .directV2 .binary
  | date : StoredAs .date .directV2 .date

/-- An integer as a value of the Go type of the column. -/
def intValue : IntBits → Int → GoVal
  | .small, x => .i16 (BitVec.ofInt 16 x)
  | .int, x => .i32 (BitVec.ofInt 32 x)
  | .big, x => .i64 (BitVec.ofInt 64 x)

/-- Texts in a data and a length stream. The blocks of the lengths are restricted to those that can be read (C26). -/
def TextIn (contents : StreamKind → Bytes) (texts : List Bytes) : Prop :=
  (∀ x ∈ texts, x.length < 2 ^ 63) ∧ contents .data = texts.flatten ∧
  ∃ blocks : List RleBlock, IntStream false (contents .length) blocks ∧ (∀ b ∈ blocks, b.Handled false) ∧
    blocks.flatMap (·.ints false) = texts.map fun x => ((x.length : Nat) : Int)

/-- What the streams of a column contain if the rows that are not null have the values `vals`. Blocks of integers are restricted to
those that can be read (C26), and dates to 292 years around 1970 (C14). -/
def LeafTag.Encodes : LeafTag → (StreamKind → Bytes) → List GoVal → Prop
  | .byte, f, vals => ∃ xs : Bytes, ByteStream (f .data) xs ∧ vals = xs.map .u8
  | .bool, f, vals => ∃ xs : List Bool, BoolStream (f .data) xs ∧ vals = xs.map .bool
  | .int b, f, vals => ∃ blocks : List RleBlock, IntStream true (f .data) blocks ∧ (∀ b ∈ blocks, b.Handled true) ∧
      vals = (blocks.flatMap (·.ints true)).map (intValue b)
  | .float true, f, vals => ∃ xs : List Nat, FixedStream 8 (f .data) xs ∧ vals = xs.map fun x => .f64 (BitVec.ofNat 64 x)
  | .string, f, vals => ∃ xs : List Bytes, TextIn f xs ∧ vals = xs.map .str
  | .binary, f, vals => ∃ xs : List Bytes, TextIn f xs ∧ vals = xs.map .bytes
  | .date, f, vals => ∃ blocks : List RleBlock, IntStream true (f .data) blocks ∧ (∀ b ∈ blocks, b.Handled true) ∧
      (∀ d ∈ blocks.flatMap (·.ints true), -106751 ≤ d ∧ d ≤ 106751) ∧ vals = (blocks.flatMap (·.ints true)).map midnight
  | _, _, _ => False

/-- The streams of column `id` among streams with their places. -/
def columnStreams (file : Bytes) (id : Nat) (places : List (StreamInfo × Nat)) : List LaidStream :=
  (places.filter fun p => p.1.column = id).map fun p => ⟨p.1.kind, p.2, (file.drop p.2).take p.1.length⟩

/-- A column of a stripe: its encoding, its streams, and its rows. There may be flags if the column has nulls somewhere in the file; without flags
none of the rows is null. -/
def ColumnStored (c : Codec) (kind : CompKind) (size : Nat) (file : Bytes) (n : SchemaNode) (enc : Encoding) (ps : List LaidStream)
    (rows : List (Option GoVal)) : Prop :=
  ∃ contents present, (present.isSome = true → n.hasNulls = true) ∧
    ((n.kind = .struct ∧ enc = .direct ∧ ColumnLaid c kind size file [] ps contents present ∧ (n.hasNulls = true → Flagged present rows)) ∨
    ∃ t, StoredAs n.kind enc t ∧ ColumnLaid c kind size file (ReaderTag.leaf t).streams ps contents present ∧ Flagged present rows ∧
      t.Encodes contents (rows.filterMap id))

/-- The structs with nulls a column is in. -/
def Schema.above (s : Schema) (id : Nat) : List Nat :=
  (s.columns.filter fun a => a.node.hasNulls && (columnsAll a.children).any fun d => d.node.id = id).map fun a => a.node.id

/-- The rows a column has: where a struct it is in is null it has none. -/
def seenRows (s : Schema) (id : Nat) (rows : List Row) : List Row := rows.filter fun r => (s.above id).all fun a => (r.cell a).isSome

/-- A row index that can be read: `length` bytes at `start`. -/
def IndexAt (E : Env) (kind : CompKind) (size : Nat) (file : Bytes) (start length : Nat) : Prop :=
  start + length ≤ file.length ∧ ∃ flat index, Stands E.c kind size ((file.drop start).take length) flat ∧ E.P.readIndex flat = some index

/-- A stripe of a file with `columns` columns and `rows` rows, apart from what its columns contain: the row indexes, the streams, the footer. -/
structure StripeFrame (E : Env) (kind : CompKind) (size : Nat) (columns : Nat) (file : Bytes) (info : StripeInfo) (rows : Nat)
    (f : StripeFooter) (index data : List StreamInfo) : Prop where
  count : info.numberOfRows = rows
  inFile : info.offset + info.indexLength + info.dataLength + info.footerLength ≤ file.length
  footerAt : ∃ flat, Stands E.c kind size ((file.drop (info.offset + info.indexLength + info.dataLength)).take info.footerLength) flat ∧
    E.P.readStripeFooter flat = some f
  listed : f.streams = index ++ data
  existing : ∀ p ∈ f.streams, p.column < columns
  /-- The index area has row indexes only (C84). -/
  indexes : ∀ p ∈ index, p.kind = .rowIndex
  indexLength : (index.map (·.length)).sum = info.indexLength
  indexAt : ∀ p ∈ startsFrom info.offset index, IndexAt E kind size file p.2 p.1.length
  noIndex : ∀ p ∈ data, p.kind ≠ .rowIndex
  dataLength : (data.map (·.length)).sum = info.dataLength

/-- A stripe of a file, with the rows `rows` of a schema. -/
structure StripeLaid (E : Env) (kind : CompKind) (size : Nat) (s : Schema) (file : Bytes) (info : StripeInfo) (rows : List Row)
    (f : StripeFooter) (index data : List StreamInfo) : Prop extends StripeFrame E kind size s.columns.length file info rows.length f index data where
  columns : ∀ c ∈ s.columns, ∃ enc, f.columns[c.node.id]? = some enc ∧
    ColumnStored E.c kind size file c.node enc (columnStreams file c.node.id (startsFrom (info.offset + info.indexLength) data))
      ((seenRows s c.node.id rows).map (Row.cell c.node.id))

/-- The sizes of chunks a reader assumes: without compression there are none. -/
def PostScript.chunkSize (ps : PostScript) : Nat := if ps.compression = .none then 256 * 1024 else ps.blockSize

/-- A file of a schema with stripes of `counts` rows, apart from the stripes: contents, metadata, footer, postscript, and the length of the
postscript. -/
structure FileFrame (E : Env) (s : Schema) (file : Bytes) (counts : List Nat) (ps : PostScript) (ft : FileFooter)
    (content metadata footerBytes psBytes : Bytes) : Prop where
  bytes : file = content ++ metadata ++ footerBytes ++ psBytes ++ [BitVec.ofNat 8 psBytes.length]
  magic : [0x4f#8, 0x52#8, 0x43#8] <+: content
  short : psBytes.length < 256
  postScript : E.P.readPostScript psBytes = some ps
  compression : ps.compression = .none ∨ ps.compression = .zlib
  footerLength : ps.footerLength = footerBytes.length
  metadataLength : ps.metadataLength = metadata.length
  footer : ∃ flat, Stands E.c ps.compression ps.chunkSize footerBytes flat ∧ E.P.readFileFooter flat = some ft
  types : ft.types = schemasToTypes s.columns
  nulls : ft.statistics.map (·.hasNull) = s.columns.map (·.node.hasNulls)
  rows : ft.numberOfRows = counts.sum
  nonempty : counts ≠ []
  filled : ∀ n ∈ counts, n ≠ 0

/-- A file with the rows and the stripe footers `parts` of a schema. -/
structure FileLaid (E : Env) (s : Schema) (file : Bytes) (parts : List (List Row × StripeFooter)) (ps : PostScript) (ft : FileFooter)
    (content metadata footerBytes psBytes : Bytes) : Prop extends
    FileFrame E s file (parts.map (·.1.length)) ps ft content metadata footerBytes psBytes where
  stripes : List.Forall₂ (fun info p => ∃ index data, StripeLaid E ps.compression ps.chunkSize s file info p.1 p.2 index data) ft.stripes parts

/-- No column with nulls, and no struct, is in a struct with nulls. -/
def Schema.NullsOnce (s : Schema) : Prop :=
  ∀ c ∈ s.columns, c.node.hasNulls = true → ∀ d ∈ c.children, d.node.kind ≠ .struct ∧ d.node.hasNulls = false

/-- The columns with nulls have flags in this stripe. -/
def StripeFooter.Flags (f : StripeFooter) (s : Schema) : Prop :=
  ∀ c ∈ s.columns, c.node.hasNulls = true → ∃ p ∈ f.streams, p.column = c.node.id ∧ p.kind = .present

end Goorc
