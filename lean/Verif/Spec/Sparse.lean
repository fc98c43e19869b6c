import Verif.Spec.ForeignFile
/-
Files in which columns that are null in all rows of a stripe have flags and nothing else: the ORC specification allows streams without contents
to be left out.
-/
namespace Goorc

/-- How the format encodes the types of columns with values of their own, without dictionaries and with the second version of the
integer encoding. Where all rows are null the types of C75, C38 and C62 need not be left out. -/
inductive EncodedAs : TypeKind → Encoding → Prop
  | stored {kind : TypeKind} {enc : Encoding} {t : LeafTag} : StoredAs kind enc t → EncodedAs kind enc
  | float : EncodedAs .float .direct
  | timestamp : EncodedAs .timestamp .directV2
  | decimal : EncodedAs .decimal .directV2

/-- A column of a stripe that is null in every row, and of which there are only flags. -/
def ColumnAbsent (c : Codec) (kind : CompKind) (size : Nat) (file : Bytes) (n : SchemaNode) (enc : Encoding) (ps : List LaidStream)
    (rows : List (Option GoVal)) : Prop :=
  n.hasNulls = true ∧ EncodedAs n.kind enc ∧ (∀ x ∈ rows, x = none) ∧
    ∃ contents, ColumnLaid c kind size file [] ps contents (some (rows.map fun _ => false))

/-- A stripe with the rows `rows` of a schema: every column has its streams (C85), or is null throughout and has flags only. -/
structure StripeSparse (E : Env) (kind : CompKind) (size : Nat) (s : Schema) (file : Bytes) (info : StripeInfo) (rows : List Row)
    (f : StripeFooter) (index data : List StreamInfo) : Prop extends StripeFrame E kind size s.columns.length file info rows.length f index data where
  columns : ∀ c ∈ s.columns, ∃ enc, f.columns[c.node.id]? = some enc ∧
    (ColumnStored E.c kind size file c.node enc (columnStreams file c.node.id (startsFrom (info.offset + info.indexLength) data))
        ((seenRows s c.node.id rows).map (Row.cell c.node.id)) ∨
      ColumnAbsent E.c kind size file c.node enc (columnStreams file c.node.id (startsFrom (info.offset + info.indexLength) data))
        ((seenRows s c.node.id rows).map (Row.cell c.node.id)))

/-- A file with the rows and the stripe footers `parts` of a schema. -/
structure FileSparse (E : Env) (s : Schema) (file : Bytes) (parts : List (List Row × StripeFooter)) (ps : PostScript) (ft : FileFooter)
    (content metadata footerBytes psBytes : Bytes) : Prop extends
    FileFrame E s file (parts.map (·.1.length)) ps ft content metadata footerBytes psBytes where
  stripes : List.Forall₂ (fun info p => ∃ index data, StripeSparse E ps.compression ps.chunkSize s file info p.1 p.2 index data) ft.stripes parts

end Goorc
