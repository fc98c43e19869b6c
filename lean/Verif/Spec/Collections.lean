import Verif.Spec.ForeignFile
import Verif.Spec.Nested
/-
Tables with list and map columns, as the ORC specification stores them and as a client of the reader sees them.
-/
namespace Goorc

/-- What a row has in a column: null, a value, a list or a map. Elements, keys and values may be null. -/
inductive Item where
  | null
  | value (v : GoVal)
  | list (es : List (Option GoVal))
  | map (es : List (Option GoVal × Option GoVal))
  deriving DecidableEq, Repr

namespace Item

def ofValue : Option GoVal → Item
  | none => .null
  | some v => .value v

def ofList : Option (List (Option GoVal)) → Item
  | none => .null
  | some es => .list es

def ofMap : Option (List (Option GoVal × Option GoVal)) → Item
  | none => .null
  | some es => .map es

/-- What is left of an item without the elements of lists and maps: their number. -/
def counted : Item → Item
  | .list es => .value (.u64 (BitVec.ofNat 64 es.length))
  | .map es => .value (.int es.length)
  | x => x

end Item

/-- A row of a table: the items of its columns. -/
abbrev ItemRow := List (Nat × Item)

/-- The item of a column in a row. -/
def ItemRow.item (j : Nat) (r : ItemRow) : Item := (r.lookup j).getD .null

/-- The row restricted to some columns. -/
def ItemRow.only (ids : List Nat) (r : ItemRow) : ItemRow := ids.map fun j => (j, r.item j)

/-- The row without the elements of its lists and maps. -/
def ItemRow.counted (r : ItemRow) : ItemRow := r.map fun x => (x.1, x.2.counted)

/-! ### The schemas -/

/-- A column with values, a column with lists of values, or one with maps from values to values. Where the lists or maps may be null
their elements may not be. -/
inductive Schema.Cell : Schema → Prop
  | value (n : SchemaNode) : n.kind.nested = false → Cell (.mk n [])
  | list (n e : SchemaNode) : n.kind = .list → e.kind.nested = false → (n.hasNulls = true → e.hasNulls = false) → Cell (.mk n [.mk e []])
  | map (n k v : SchemaNode) : n.kind = .map → k.kind.nested = false → v.kind.nested = false →
      (n.hasNulls = true → k.hasNulls = false ∧ v.hasNulls = false) → Cell (.mk n [.mk k [], .mk v []])

/-- A table of such columns. -/
def Schema.Flat (s : Schema) : Prop := s.node.kind = .struct ∧ s.node.hasNulls = false ∧ ∀ c ∈ s.children, c.Cell

/-- A choice of at least one column of a table; lists and maps are chosen with their elements. -/
def BatchOption.Picks (bo : BatchOption) (s : Schema) : Prop :=
  bo.isInclude s.node.id = true ∧ (∃ c ∈ s.children, bo.isInclude c.node.id = true) ∧
  ∀ c ∈ s.children, ∀ d ∈ c.children, bo.isInclude d.node.id = bo.isInclude c.node.id

/-- The columns that were chosen. -/
def Schema.picked (s : Schema) (bo : BatchOption) : List Nat := (s.children.filter fun c => bo.isInclude c.node.id).map fun c => c.node.id

/-! ### Storage -/

/-- The own streams of a list or map column: the numbers of elements of the rows that are not null, and flags, if there may be nulls.
Blocks of integers are restricted to those that can be read (C26). -/
def LengthsStored (c : Codec) (kind : CompKind) (size : Nat) (file : Bytes) (n : SchemaNode) (ps : List LaidStream) (counts : List (Option Nat)) : Prop :=
  ∃ contents present blocks, (present.isSome = true → n.hasNulls = true) ∧ ColumnLaid c kind size file [.length] ps contents present ∧
    counts.map (·.isSome) = present.getD (counts.map fun _ => true) ∧ (∀ m ∈ counts.filterMap id, m < 2 ^ 63) ∧
    IntStream false (contents .length) blocks ∧ (∀ b ∈ blocks, b.Handled false) ∧
    blocks.flatMap (·.ints false) = (counts.filterMap id).map fun m => ((m : Nat) : Int)

/-- A column of a stripe with a footer `f` and streams at `places`. The elements of all lists of a column are one column, and so are
the keys of all maps, and their values. -/
def CellStored (c : Codec) (kind : CompKind) (size : Nat) (file : Bytes) (f : StripeFooter) (places : List (StreamInfo × Nat)) : Schema → List Item → Prop
  | .mk n [], items => ∃ enc, ∃ rows : List (Option GoVal), f.columns[n.id]? = some enc ∧ items = rows.map Item.ofValue ∧
      ColumnStored c kind size file n enc (columnStreams file n.id places) rows
  | .mk n [.mk e _], items => ∃ enc, ∃ rows : List (Option (List (Option GoVal))), f.columns[n.id]? = some .directV2 ∧ f.columns[e.id]? = some enc ∧ items = rows.map Item.ofList ∧
      LengthsStored c kind size file n (columnStreams file n.id places) (rows.map (Option.map List.length)) ∧
      ColumnStored c kind size file e enc (columnStreams file e.id places) (rows.filterMap id).flatten
  | .mk n [.mk k _, .mk v _], items => ∃ enc enc', ∃ rows : List (Option (List (Option GoVal × Option GoVal))), f.columns[n.id]? = some .directV2 ∧ f.columns[k.id]? = some enc ∧ f.columns[v.id]? = some enc' ∧
      items = rows.map Item.ofMap ∧ LengthsStored c kind size file n (columnStreams file n.id places) (rows.map (Option.map List.length)) ∧
      ColumnStored c kind size file k enc (columnStreams file k.id places) ((rows.filterMap id).flatten.map (·.1)) ∧
      ColumnStored c kind size file v enc' (columnStreams file v.id places) ((rows.filterMap id).flatten.map (·.2))
  | _, _ => False

/-- A stripe of a file, with the rows `rows` of a table. -/
structure StripeItems (E : Env) (kind : CompKind) (size : Nat) (s : Schema) (file : Bytes) (info : StripeInfo) (rows : List ItemRow)
    (f : StripeFooter) (index data : List StreamInfo) : Prop extends StripeFrame E kind size s.columns.length file info rows.length f index data where
  root : f.columns[s.node.id]? = some .direct ∧ columnStreams file s.node.id (startsFrom (info.offset + info.indexLength) data) = []
  cells : ∀ c ∈ s.children, CellStored E.c kind size file f (startsFrom (info.offset + info.indexLength) data) c (rows.map (ItemRow.item c.node.id))
  /-- The columns with nulls have flags in every stripe; elements, keys and values need not. -/
  flags : ∀ c ∈ s.children, c.node.hasNulls = true → ∃ p ∈ f.streams, p.column = c.node.id ∧ p.kind = .present

/-- A file with the rows and the stripe footers `parts` of a table. -/
structure FileItems (E : Env) (s : Schema) (file : Bytes) (parts : List (List ItemRow × StripeFooter)) (ps : PostScript) (ft : FileFooter)
    (content metadata footerBytes psBytes : Bytes) : Prop extends
    FileFrame E s file (parts.map (·.1.length)) ps ft content metadata footerBytes psBytes where
  stripes : List.Forall₂ (fun info p => ∃ index data, StripeItems E ps.compression ps.chunkSize s file info p.1 p.2 index data) ft.stripes parts

/-! ### Reading -/

/-- The items a client finds in the vector of a column. For a list it finds the number of elements in the row, and the elements in the
child vector; the elements are looked at only if `full`, and only if they are as many as the row says. -/
def Vec.items (full : Bool) : Vec → List Item
  | .nil => []
  | .mk _ kind s cs => (visibleRows s).map fun v =>
    if v.null then .null
    else match kind, cs with
      | .list, [e] => if full ∧ v.v = .u64 (BitVec.ofNat 64 e.rows.length) then .list (e.rows.map Value.row) else .value v.v
      | .map, [k, w] =>
        if full ∧ v.v = .int k.rows.length ∧ k.rows.length = w.rows.length then .map (List.zip (k.rows.map Value.row) (w.rows.map Value.row)) else .value v.v
      | _, _ => .value v.v

/-- The id of the column of a vector. -/
def Vec.id : Vec → Nat
  | .nil => 0
  | .mk id _ _ _ => id

/-- The child vectors. -/
def Vec.children : Vec → List Vec
  | .nil => []
  | .mk _ _ _ cs => cs

/-- The rows of a batch of a table. -/
def Vec.itemRows (full : Bool) (v : Vec) : List ItemRow :=
  (List.range v.len).map fun i => v.children.map fun c => (c.id, ((c.items full)[i]?).getD .null)

/-- A client of the reader: open the file, create a batch reader for the chosen columns and a vector for them, and call `Next`
until it reports the end, at most `k` times. The rows of all batches, and whether the end was reported. -/
def readItems (E : Env) (fuel : Nat) (s : Schema) (bo : BatchOption) (full : Bool) (k : Nat) (file : Bytes) : Res (List ItemRow × Bool) := do
  let r ← newReader E file
  let br ← r.createBatchReader E bo
  let v ← createVector s bo
  let (bs, stop) ← readBatches (rdOps E.c fuel r.schemas.length) (fuel + 1) k br v
  pure (bs.flatMap (Vec.itemRows full), stop)

end Goorc
