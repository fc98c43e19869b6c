import Verif.Spec.Rows
import Verif.Spec.Files
import Verif.Spec.Bits
import Verif.Props.Column
/-
Tables that can be written and read back: the conditions on the values, column by column.
-/
namespace Goorc

/-- The last flags of a column, those that share a byte with the padding, are all false. -/
def NoStale (flags : List Bool) : Prop := ∀ b ∈ trailing flags, b = false

namespace LeafTag

/-- The non-null values of a column of one stripe that can be read back. `wi` is whether row indexes are written. -/
def Readable (wi : Bool) : LeafTag → List GoVal → Prop
  | .byte, vals => ∃ xs : List Byte, vals = xs.map .u8
  | .bool, vals => ∃ xs : List Bool, vals = xs.map .bool
  | .int b, vals => ∃ xs : List U64, vals = xs.map b.read ∧ (∀ x ∈ xs, b.fits x) ∧ ReadsBackI xs
  | .float false, vals => wi = false ∧ ∃ xs : List (BitVec 32), vals = xs.map .f32
  | .float true, vals => ∃ xs : List (BitVec 64), vals = xs.map .f64
  | .string, vals => ∃ xs : List Bytes, vals = xs.map .str ∧ (∀ x ∈ xs, x.length < 2 ^ 63) ∧ ReadsBackU (xs.map fun x => BitVec.ofNat 64 x.length)
  | .date, vals => ∃ days : List Int, vals = days.map midnight ∧ (∀ d ∈ days, -106751 ≤ d ∧ d ≤ 106751) ∧ ReadsBackI (days.map (BitVec.ofInt 64))
  | .binary, _ => False
  | .timestamp, _ => False
  | .decimal, _ => False

/-- The non-null values of a column of one stripe that leave nothing behind for the next stripe. -/
def NothingStale : LeafTag → List GoVal → Prop
  | .bool, vals => ∀ xs : List Bool, vals = xs.map .bool → NoStale xs
  | _, _ => True

end LeafTag

/-- A column of a schema that can be written and read back: a struct, or a leaf whose reader and writer fit. -/
def SchemaNode.Plain (n : SchemaNode) : Prop :=
  (n.kind = .struct ∧ n.encoding = .direct) ∨
  ∃ t : LeafTag, newWriterTag n.kind n.encoding = .ok (.leaf t) ∧ newReaderTag n.kind n.encoding = .ok (.leaf t) ∧ t.Faithful

/-- The rows of a leaf column in one stripe, as they are written: values that can be read back. -/
def SchemaNode.Readable (wi : Bool) (n : SchemaNode) (rows : List (Option GoVal)) : Prop :=
  ∀ t : LeafTag, newWriterTag n.kind n.encoding = .ok (.leaf t) → t.Readable wi (rows.filterMap fun x => x)

/-- The rows of a column in one stripe leave nothing behind for the next stripe. -/
def SchemaNode.NothingStale (n : SchemaNode) (rows : List (Option GoVal)) : Prop :=
  (n.hasNulls = true → NoStale (rows.map (·.isSome))) ∧
  ∀ t : LeafTag, newWriterTag n.kind n.encoding = .ok (.leaf t) → t.NothingStale (rows.filterMap fun x => x)

/-- A schema of structs, and of columns that can be written and read back. A struct with nulls has no structs without nulls in it, which
cannot be read (C63), and on the path of first children its first child is not nullable, for which no vector can be created (C51). -/
structure Schema.Tabular (s : Schema) : Prop where
  plain : ∀ c ∈ s.columns, c.node.Plain
  leaf : ∀ c ∈ s.columns, c.node.kind = .struct ∨ c.children = []
  structs : ∀ c ∈ s.columns, c.node.hasNulls = true → ∀ d ∈ c.children, d.node.kind = .struct → d.node.hasNulls = true
  supported : ∀ c, LeftSpine s c → c.node.hasNulls = true → ∀ d, c.children.head? = some d → d.node.hasNulls = false

/-- A schema of structs and of columns that are no structs, lists, maps or unions, as far as vectors can be created for it and its nulls can
be read: as in `Schema.Tabular`, whatever the types and encodings of the columns. -/
structure Schema.Columnar (s : Schema) : Prop where
  kinds : ∀ c ∈ s.columns, c.node.kind = .struct ∨ (c.node.kind.nested = false ∧ c.children = [])
  structs : ∀ c ∈ s.columns, c.node.hasNulls = true → ∀ d ∈ c.children, d.node.kind = .struct → d.node.hasNulls = true
  supported : ∀ c, LeftSpine s c → c.node.hasNulls = true → ∀ d, c.children.head? = some d → d.node.hasNulls = false

/-- A choice of columns that makes sense: the root is included, and a struct is if and only if one of its children is. -/
def BatchOption.Selects (bo : BatchOption) (s : Schema) : Prop :=
  bo.isInclude s.node.id = true ∧
  ∀ c ∈ s.columns, c.node.kind = .struct → (bo.isInclude c.node.id = true ↔ ∃ d ∈ c.children, bo.isInclude d.node.id = true)

/-- A batch with `len` rows a client can write: a vector for every column, those of structs without nulls without values of their
own. The vectors may have room for more rows. -/
inductive Schema.Batch (len : Nat) : Schema → Vec → Prop
  | leaf (n : SchemaNode) (s : Slice) (kind : n.kind ≠ .struct) (size : s.len = len) (fits : len ≤ s.arr.length) :
      Schema.Batch len (.mk n []) (.mk n.id n.kind (some s) [])
  | struct (n : SchemaNode) (cs : List Schema) (vs : List Vec) (kind : n.kind = .struct) (nulls : n.hasNulls = false) (some_child : cs ≠ [])
      (below : List.Forall₂ (Schema.Batch len) cs vs) : Schema.Batch len (.mk n cs) (.mk n.id .struct none vs)
  | optional (n : SchemaNode) (cs : List Schema) (s : Slice) (vs : List Vec) (kind : n.kind = .struct) (nulls : n.hasNulls = true)
      (size : s.len = len) (fits : len ≤ s.arr.length) (some_child : cs ≠ [])
      (below : List.Forall₂ (Schema.Batch len) cs vs) : Schema.Batch len (.mk n cs) (.mk n.id .struct (some s) vs)

/-- The values of some columns. -/
def Row.only (ids : List Nat) (r : Row) : Row := ids.map fun j => (j, r.cell j)

/-- The columns of a schema that have values of their own: all but the structs without nulls. -/
def Schema.leafIds (s : Schema) : List Nat := (s.columns.filter fun c => c.node.hasVector).map fun c => c.node.id

/-- The nulls in the rows of a table are where they can be. The rows of a column that is not nullable are null where the struct it is in
is null, and nowhere else; the rows of a struct that are not null have no value of their own. -/
structure NullsFit (s : Schema) (rows : List Row) : Prop where
  root : s.node.kind ≠ .struct → s.node.hasNulls = false → ∀ r ∈ rows, (r.cell s.node.id).isNone = false
  blank : ∀ c ∈ s.columns, c.node.kind = .struct → c.node.hasNulls = true → ∀ r ∈ rows, r.cell c.node.id = none ∨ r.cell c.node.id = some .nil
  below : ∀ c ∈ s.columns, ∀ d ∈ c.children, d.node.kind ≠ .struct → d.node.hasNulls = false →
    ∀ r ∈ rows, (r.cell d.node.id).isNone = (c.node.hasNulls && (r.cell c.node.id).isNone)

/-- Rows of which every column can be read back, written as one stripe. `wi` is whether row indexes are written. -/
structure TableReadable (wi : Bool) (s : Schema) (rows : List Row) : Prop where
  nulls : NullsFit s rows
  values : ∀ c ∈ s.columns, c.node.kind ≠ .struct → c.node.Readable wi (rows.map (Row.cell c.node.id))

/-- Rows that leave nothing behind for the next stripe. -/
def TableClean (s : Schema) (rows : List Row) : Prop :=
  ∀ c ∈ s.columns, c.node.hasVector = true → c.node.NothingStale (rows.map (Row.cell c.node.id))

/-- The values a client writes to columns of bytes, booleans and doubles. -/
def LeafTag.Holds : LeafTag → GoVal → Prop
  | .byte, .u8 _ => True
  | .bool, .bool _ => True
  | .float true, .f64 _ => True
  | _, _ => False

/-- Rows of bytes, booleans and doubles, of the types of their columns, and null only where nulls are allowed. -/
structure TableTyped (s : Schema) (rows : List Row) : Prop where
  nulls : NullsFit s rows
  values : ∀ c ∈ s.columns, c.node.kind ≠ .struct → ∃ t, newWriterTag c.node.kind c.node.encoding = .ok (.leaf t) ∧ (t = .byte ∨ t = .bool ∨ t = .float true) ∧
    ∀ r ∈ rows, ∀ v, r.cell c.node.id = some v → t.Holds v

/-- The rows of the stripes of a file that can be read back; `wi` is whether row indexes are written. -/
structure StripesReadable (wi : Bool) (s : Schema) (stripes : List (List Row)) : Prop where
  /-- With row indexes only one stripe can be written. -/
  indexed : wi = false ∨ stripes.length = 1
  /-- Only the last one could be without rows: when the stripe size was reached at the very last row. -/
  filled : ∀ rows ∈ stripes, rows ≠ []
  values : ∀ rows ∈ stripes, TableReadable wi s rows
  /-- The flags of nulls and of boolean values leave nothing behind for the next stripe. -/
  clean : ∀ rows ∈ stripes.dropLast, TableClean s rows

/-- A client of the reader: open the file, create a batch reader for the chosen columns and a vector for them, and call `Next`
until it reports the end, at most `k` times. The rows of all batches, and whether the end was reported. -/
def readFile (E : Env) (fuel : Nat) (s : Schema) (bo : BatchOption) (k : Nat) (file : Bytes) : Res (List Row × Bool) := do
  let r ← newReader E file
  let br ← r.createBatchReader E bo
  let v ← createVector s bo
  let (bs, stop) ← readBatches (rdOps E.c fuel r.schemas.length) (fuel + 1) k br v
  pure (bs.flatMap Vec.tableRows, stop)

end Goorc
