import Verif.Model.Schema
import Mathlib.Data.List.Forall2
/-
What it means for a schema to be numbered, for a footer to represent it, and for a batch vector to mirror it.
-/
namespace Goorc

mutual
/-- All columns of a schema in pre-order: a column, then those of its children from left to right. -/
def Schema.columns : Schema → List Schema
  | .mk n cs => .mk n cs :: columnsAll cs

/-- The columns of several schemas, one after the other. -/
def columnsAll : List Schema → List Schema
  | [] => []
  | c :: cs => c.columns ++ columnsAll cs
end

mutual
/-- The schema without its ids. -/
def Schema.plain : Schema → Schema
  | .mk n cs => .mk { n with id := 0 } (plainAll cs)

def plainAll : List Schema → List Schema
  | [] => []
  | c :: cs => c.plain :: plainAll cs
end

/-- No column is a union. -/
def Schema.NoUnion (s : Schema) : Prop := ∀ c ∈ s.columns, c.node.kind ≠ .union

/-- The ids are 0, 1, 2, … in pre-order. -/
def Schema.Numbered (s : Schema) : Prop := s.columns.map (fun c => c.node.id) = List.range s.columns.length

/-- As `AddChild` makes it: every child of a struct has its name. -/
def Schema.Named (s : Schema) : Prop := ∀ c ∈ s.columns, c.node.kind = .struct → c.node.names.length = c.children.length

/-- The names a reader sees: those of a struct's fields, and empty ones for the children of other columns. -/
def SchemaNode.readNames (n : SchemaNode) (children : Nat) : List String :=
  if n.kind = .struct then n.names else List.replicate children ""

/-- Following the pointers from element `i` on one finds the columns of the schema: the same ids, kinds, children and
struct field names. -/
inductive Represents (heap : List HeapType) : Nat → Schema → Prop
  | mk (n : SchemaNode) (cs : List Schema) (is : List Nat)
      (here : heap[n.id]? = some ⟨n.id, n.kind, n.readNames cs.length, is⟩)
      (below : List.Forall₂ (Represents heap) is cs) : Represents heap n.id (.mk n cs)

/-- A nullable struct with a nullable child, which is not supported. -/
def Schema.Unsupported (s : Schema) : Prop :=
  s.node.kind = .struct ∧ s.node.hasNulls = true ∧ ∃ c ∈ s.children, c.node.hasNulls = true

/-- The columns reached by always taking the first child. -/
inductive LeftSpine : Schema → Schema → Prop
  | here (s : Schema) : LeftSpine s s
  | down (n : SchemaNode) (c : Schema) (cs : List Schema) (d : Schema) (nested : n.kind.nested = true)
      (below : LeftSpine c d) : LeftSpine (.mk n (c :: cs)) d

/-- Lists have one child, maps two (key and value); unions are not supported. -/
def Schema.WellFormed (s : Schema) : Prop :=
  ∀ c ∈ s.columns, (c.node.kind = .list → c.children.length = 1) ∧ (c.node.kind = .map → c.children.length = 2) ∧
    c.node.kind ≠ .union

/-- Whoever includes a list or map also includes its elements. -/
def BatchOption.Complete (o : BatchOption) (s : Schema) : Prop :=
  ∀ c ∈ s.columns, c.node.kind = .list ∨ c.node.kind = .map → o.isInclude c.node.id = true →
    ∀ d ∈ c.children, o.isInclude d.node.id = true

/-- Does a column of this kind have a vector of its own? All but structs without nulls. -/
def SchemaNode.hasVector (n : SchemaNode) : Bool := n.kind ≠ .struct || n.hasNulls

/-- Which slices `CreateVector` makes: with `NotCreateVector`, only those of maps. -/
def BatchOption.makes (o : BatchOption) (n : SchemaNode) : Bool := n.hasVector && (!o.notCreateVector || n.kind = .map)

/-- What the values of a new vector are: a zero `Decimal64`, a zero `Timestamp`, nil for all other types. -/
def TypeKind.fresh : TypeKind → GoVal
  | .decimal => .dec 0 0
  | .timestamp => .ts none 0 0
  | _ => .nil

/-- The vector tree has the same shape as the schema, restricted to the included columns: the same ids and kinds, and
room for `rowSize` rows, none of them marked null, in every column that gets a slice. -/
inductive Mirrors (o : BatchOption) : Schema → Vec → Prop
  | mk (n : SchemaNode) (cs : List Schema) (vec : Option Slice) (vs : List Vec)
      (room : o.makes n = true → ∃ s, vec = some s ∧ s.len = o.rowSize ∧ s.arr.length = o.rowSize ∧ ∀ v ∈ s.arr, v = ⟨false, n.kind.fresh⟩)
      (none : o.makes n = false → vec = none)
      (below : n.kind.nested = true → List.Forall₂ (Mirrors o) (cs.filter fun c => o.isInclude c.node.id) vs)
      (leaf : n.kind.nested = false → vs = []) : Mirrors o (.mk n cs) (.mk n.id n.kind vec vs)

/-- Schemas no vector can be created for: the options include a union, or a list without an element type, or a map without types for keys and values, that is reached
through structs, lists and maps that are included too. -/
inductive Schema.NoVector (o : BatchOption) : Schema → Prop
  | union (n : SchemaNode) (cs : List Schema) : o.isInclude n.id = true → n.kind = .union → NoVector o (.mk n cs)
  | field (n : SchemaNode) (cs : List Schema) (c : Schema) : o.isInclude n.id = true → n.kind = .struct → c ∈ cs → NoVector o c → NoVector o (.mk n cs)
  | noElement (n : SchemaNode) : o.isInclude n.id = true → n.kind = .list → NoVector o (.mk n [])
  | element (n : SchemaNode) (e : Schema) (cs : List Schema) : o.isInclude n.id = true → n.kind = .list → NoVector o e → NoVector o (.mk n (e :: cs))
  | fewTypes (n : SchemaNode) (cs : List Schema) : o.isInclude n.id = true → n.kind = .map → cs.length < 2 → NoVector o (.mk n cs)
  | key (n : SchemaNode) (k v : Schema) (cs : List Schema) : o.isInclude n.id = true → n.kind = .map → NoVector o k → NoVector o (.mk n (k :: v :: cs))
  | value (n : SchemaNode) (k v : Schema) (cs : List Schema) : o.isInclude n.id = true → n.kind = .map → NoVector o v → NoVector o (.mk n (k :: v :: cs))

end Goorc
