import Verif.Spec.Batches
import Verif.Spec.Schemas
import Verif.Spec.Columns
/-
Rows of a table, as a client of the writer and of the reader sees them.
-/
namespace Goorc

/-- A row: for every column that has values of its own its id and the value, `none` for null. -/
abbrev Row := List (Nat × Option GoVal)

/-- The value of a column in a row. -/
def Row.cell (j : Nat) (r : Row) : Option GoVal := (r.lookup j).join

mutual
/-- Row `i` of a batch: the values of all its vectors, in the order of the columns. -/
def Vec.cells (i : Nat) : Vec → Row
  | .nil => []
  | .mk id _ s cs => (((visibleRows s)[i]?).map fun v => (id, v.row)).toList ++ cellsAll i cs

def cellsAll (i : Nat) : List Vec → Row
  | [] => []
  | v :: vs => v.cells i ++ cellsAll i vs
end

/-- The rows of a batch. -/
def Vec.tableRows (v : Vec) : List Row := (List.range v.len).map fun i => v.cells i

mutual
/-- The ids of the included columns that have values of their own, in pre-order: all but the structs without nulls. -/
def Schema.leaves (bo : BatchOption) : Schema → List Nat
  | .mk n cs => if bo.isInclude n.id then (if n.hasVector then [n.id] else []) ++ leavesAll bo cs else []

def leavesAll (bo : BatchOption) : List Schema → List Nat
  | [] => []
  | c :: cs => c.leaves bo ++ leavesAll bo cs
end

/-- The column types that can be written and read back: no lengths are written for binary columns, and the readers of timestamps
and decimals lose what they read. -/
def LeafTag.Faithful : LeafTag → Prop
  | .binary | .timestamp | .decimal => False
  | _ => True

/-- The column types whose readers replace the values in a vector. -/
def LeafTag.Replaces : LeafTag → Prop
  | .timestamp | .decimal => False
  | _ => True

theorem LeafTag.Faithful.replaces {t : LeafTag} (h : t.Faithful) : t.Replaces := by
  cases t <;> first | trivial | exact h.elim

/-- A vector for a batch with capacity `B` and `len` rows, for the included columns of a schema of structs and of leaves;
`under` is whether it is in a struct with nulls. The rows of columns without nulls are not marked null, except in such structs.
Structs with nulls have rows of their own, without values. -/
inductive ShapeIn (bo : BatchOption) (B len : Nat) : Bool → Schema → Vec → Prop
  | leaf (under : Bool) (n : SchemaNode) (s : Slice) (plain : n.kind.nested = false) (cap : s.arr.length = B) (size : s.len = len) (fits : len ≤ B)
      (unmarked : n.hasNulls = false → under = false → Unmarked s.arr) : ShapeIn bo B len under (.mk n []) (.mk n.id n.kind (some s) [])
  | struct (n : SchemaNode) (cs : List Schema) (vs : List Vec) (kind : n.kind = .struct) (nulls : n.hasNulls = false)
      (some_child : (cs.filter fun c => bo.isInclude c.node.id) ≠ [])
      (below : List.Forall₂ (ShapeIn bo B len false) (cs.filter fun c => bo.isInclude c.node.id) vs) :
      ShapeIn bo B len false (.mk n cs) (.mk n.id .struct none vs)
  | optional (under : Bool) (n : SchemaNode) (cs : List Schema) (s : Slice) (vs : List Vec) (kind : n.kind = .struct) (nulls : n.hasNulls = true)
      (cap : s.arr.length = B) (size : s.len = len) (fits : len ≤ B) (blank : ∀ v ∈ s.arr, v.v = .nil)
      (some_child : (cs.filter fun c => bo.isInclude c.node.id) ≠ [])
      (below : List.Forall₂ (ShapeIn bo B len true) (cs.filter fun c => bo.isInclude c.node.id) vs) :
      ShapeIn bo B len under (.mk n cs) (.mk n.id .struct (some s) vs)

/-- A vector for a batch. -/
abbrev BatchShape (bo : BatchOption) (B len : Nat) : Schema → Vec → Prop := ShapeIn bo B len false

end Goorc
