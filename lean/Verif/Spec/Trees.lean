import Verif.Spec.Collections
/-
Tables with lists of lists, maps of lists and so on, to any depth, inside structs without nulls; and string columns with a dictionary.
-/
namespace Goorc

/-- What a row has in a column. -/
inductive Deep where
  | null
  | value (v : GoVal)
  | list (es : List Deep)
  | map (es : List (Deep × Deep))

namespace Deep

def ofValue : Option GoVal → Deep
  | none => .null
  | some v => .value v

def ofList : Option (List Deep) → Deep
  | none => .null
  | some es => .list es

def ofMap : Option (List (Deep × Deep)) → Deep
  | none => .null
  | some es => .map es

/-- What is left in a row of a vector: null, the value, or the number of elements. -/
def cell : Deep → Option GoVal
  | .null => none
  | .value v => some v
  | .list es => some (.u64 (BitVec.ofNat 64 es.length))
  | .map es => some (.int es.length)

/-- What a client sees: of lists and maps the number of elements or, if it looks at the elements, these, but of lists and maps that are
elements themselves only the numbers of their elements. -/
def item (full : Bool) : Deep → Item
  | .null => .null
  | .value v => .value v
  | .list es => if full then .list (es.map cell) else .value (.u64 (BitVec.ofNat 64 es.length))
  | .map es => if full then .map (es.map fun e => (e.1.cell, e.2.cell)) else .value (.int es.length)

end Deep

/-- A row of a table: what its columns have. -/
abbrev DeepRow := List (Nat × Deep)

/-- What a row has in a column. -/
def DeepRow.get (j : Nat) (r : DeepRow) : Deep := (r.lookup j).getD .null

/-- What a client sees of some columns of a row. -/
def DeepRow.shown (full : Bool) (ids : List Nat) (r : DeepRow) : ItemRow := ids.map fun j => (j, (r.get j).item full)

/-! ### The schemas -/

/-- A schema without nulls. -/
def Schema.Solid (s : Schema) : Prop := ∀ c ∈ s.columns, c.node.hasNulls = false

/-- Values, lists and maps, to any depth. What is in lists or maps that may be null may not be null. -/
inductive Schema.Nest : Schema → Prop
  | value (n : SchemaNode) : n.kind.nested = false → Nest (.mk n [])
  | list (n : SchemaNode) (e : Schema) : n.kind = .list → Nest e → (n.hasNulls = true → e.Solid) → Nest (.mk n [e])
  | map (n : SchemaNode) (k v : Schema) : n.kind = .map → Nest k → Nest v → (n.hasNulls = true → k.Solid ∧ v.Solid) → Nest (.mk n [k, v])

/-- Structs of these, to any depth, without nulls. -/
inductive Schema.Record : Schema → Prop
  | field (s : Schema) : s.Nest → Record s
  | struct (n : SchemaNode) (cs : List Schema) : n.kind = .struct → n.hasNulls = false → (∀ c ∈ cs, Record c) → Record (.mk n cs)

mutual
/-- The columns of a record: what is reached through structs. -/
def Schema.fields : Schema → List Schema
  | .mk n cs => if n.kind = .struct then fieldsAll cs else [.mk n cs]

def fieldsAll : List Schema → List Schema
  | [] => []
  | c :: cs => c.fields ++ fieldsAll cs
end

/-- A choice of columns: with a column the struct it is in is chosen, and with a struct some of what is in it. Lists and maps are chosen with all
that is in them. -/
def BatchOption.Chooses (bo : BatchOption) (s : Schema) : Prop :=
  bo.isInclude s.node.id = true ∧
  ∀ c ∈ s.columns, (c.node.kind = .struct → (bo.isInclude c.node.id = true ↔ ∃ d ∈ c.children, bo.isInclude d.node.id = true)) ∧
    (c.node.kind ≠ .struct → ∀ d ∈ c.children, bo.isInclude d.node.id = bo.isInclude c.node.id)

/-- The columns that were chosen. -/
def Schema.chosen (s : Schema) (bo : BatchOption) : List Nat := (s.fields.filter fun c => bo.isInclude c.node.id).map fun c => c.node.id

/-! ### Storage -/

/-- A column of values, as in `ColumnStored`, or of strings with a dictionary, of at most `most` strings. -/
def ValuesStored (c : Codec) (kind : CompKind) (size : Nat) (file : Bytes) (most : Nat) (n : SchemaNode) (enc : Encoding) (ps : List LaidStream)
    (rows : List (Option GoVal)) : Prop :=
  ColumnStored c kind size file n enc ps rows ∨
  (n.kind = .string ∧ enc = .dictionaryV2 ∧ ∃ contents present dict idx, (present.isSome = true → n.hasNulls = true) ∧
    DictionaryLaid c kind size file ps contents present dict idx ∧ dict.length ≤ most ∧ (∀ i ∈ idx, i < dict.length) ∧ Flagged present rows ∧
    rows.filterMap id = idx.map fun i => .str (dict.getD i []))

/-- A column of a stripe with a footer `f` and streams at `places`. The elements of all lists of a column are one column, and so are
the keys of all maps, and their values. -/
inductive DeepStored (c : Codec) (kind : CompKind) (size : Nat) (file : Bytes) (most : Nat) (f : StripeFooter) (places : List (StreamInfo × Nat)) : Schema → List Deep → Prop
  | value (n : SchemaNode) (enc : Encoding) (rows : List (Option GoVal)) (items : List Deep) : f.columns[n.id]? = some enc →
      ValuesStored c kind size file most n enc (columnStreams file n.id places) rows → items = rows.map Deep.ofValue →
      DeepStored c kind size file most f places (.mk n []) items
  | list (n : SchemaNode) (e : Schema) (rows : List (Option (List Deep))) (items : List Deep) : f.columns[n.id]? = some .directV2 →
      LengthsStored c kind size file n (columnStreams file n.id places) (rows.map (Option.map List.length)) →
      DeepStored c kind size file most f places e (rows.filterMap id).flatten → items = rows.map Deep.ofList →
      DeepStored c kind size file most f places (.mk n [e]) items
  | map (n : SchemaNode) (k v : Schema) (rows : List (Option (List (Deep × Deep)))) (items : List Deep) : f.columns[n.id]? = some .directV2 →
      LengthsStored c kind size file n (columnStreams file n.id places) (rows.map (Option.map List.length)) →
      DeepStored c kind size file most f places k ((rows.filterMap id).flatten.map (·.1)) →
      DeepStored c kind size file most f places v ((rows.filterMap id).flatten.map (·.2)) → items = rows.map Deep.ofMap →
      DeepStored c kind size file most f places (.mk n [k, v]) items

/-- A stripe of a file, with the rows `rows` of a table. -/
structure StripeDeep (E : Env) (kind : CompKind) (size : Nat) (most : Nat) (s : Schema) (file : Bytes) (info : StripeInfo) (rows : List DeepRow)
    (f : StripeFooter) (index data : List StreamInfo) : Prop extends StripeFrame E kind size s.columns.length file info rows.length f index data where
  structs : ∀ c ∈ s.columns, c.node.kind = .struct → f.columns[c.node.id]? = some .direct ∧
    columnStreams file c.node.id (startsFrom (info.offset + info.indexLength) data) = []
  fields : ∀ c ∈ s.fields, DeepStored E.c kind size file most f (startsFrom (info.offset + info.indexLength) data) c (rows.map (DeepRow.get c.node.id))
  /-- The columns with nulls have flags in every stripe; elements, keys and values need not. -/
  flags : ∀ c ∈ s.fields, c.node.hasNulls = true → ∃ p ∈ f.streams, p.column = c.node.id ∧ p.kind = .present

/-- A file with the rows and the stripe footers `parts` of a table. -/
structure FileDeep (E : Env) (most : Nat) (s : Schema) (file : Bytes) (parts : List (List DeepRow × StripeFooter)) (ps : PostScript) (ft : FileFooter)
    (content metadata footerBytes psBytes : Bytes) : Prop extends
    FileFrame E s file (parts.map (·.1.length)) ps ft content metadata footerBytes psBytes where
  stripes : List.Forall₂ (fun info p => ∃ index data, StripeDeep E ps.compression ps.chunkSize most s file info p.1 p.2 index data) ft.stripes parts

/-! ### Reading -/

mutual
/-- The vectors of the columns of a record. -/
def Vec.fields : Vec → List Vec
  | .nil => []
  | .mk id kind s cs => if kind = .struct then vecFields cs else [.mk id kind s cs]

def vecFields : List Vec → List Vec
  | [] => []
  | c :: cs => c.fields ++ vecFields cs
end

/-- The rows of a batch of a table. -/
def Vec.fieldRows (full : Bool) (v : Vec) : List ItemRow :=
  (List.range v.len).map fun i => v.fields.map fun c => (c.id, ((c.items full)[i]?).getD .null)

/-- A client of the reader, as in `readItems`, that looks for its columns inside structs. -/
def readRecords (E : Env) (fuel : Nat) (s : Schema) (bo : BatchOption) (full : Bool) (k : Nat) (file : Bytes) : Res (List ItemRow × Bool) := do
  let r ← newReader E file
  let br ← r.createBatchReader E bo
  let v ← createVector s bo
  let (bs, stop) ← readBatches (rdOps E.c fuel r.schemas.length) (fuel + 1) k br v
  pure (bs.flatMap (Vec.fieldRows full), stop)

end Goorc
