import Verif.Spec.Projection
/-
What the values are that `Next` leaves in the vectors of the columns.
-/
namespace Goorc

/-- What `V` of a row that is not null is, by the type of the column. A list holds the number of its elements, a map that of its entries; a struct has no value of its own.
Timestamps and decimals are not what the file says: the reader stores them in a copy, and the vector keeps the value it was created with. -/
def TypeKind.Gives : TypeKind → GoVal → Prop
  | .boolean, v => ∃ x, v = .bool x
  | .byte, v => ∃ x, v = .u8 x
  | .short, v => ∃ x, v = .i16 x
  | .int, v => ∃ x, v = .i32 x
  | .long, v => ∃ x, v = .i64 x
  | .float, v => ∃ x, v = .f32 x
  | .double, v => ∃ x, v = .f64 x
  | .string, v => ∃ x, v = .str x
  | .binary, v => ∃ x, v = .bytes x
  | .date, v => ∃ x, v = .date x
  | .list, v => ∃ x, v = .u64 x
  | .map, v => ∃ x, v = .int x
  | .struct, v => v = .nil
  | .timestamp, v => v = .ts none 0 0
  | .decimal, v => v = .dec 0 0
  | .char, _ => False
  | .varchar, _ => False
  | .union, _ => False

mutual
/-- The columns a client has vectors for: of a struct the fields `q`, of lists and maps all there is below, and nothing below the others. -/
def Schema.prune (q : Nat → Bool) : Schema → Schema
  | .mk n cs => .mk n (match n.kind with
    | .struct => pruneSome q cs
    | .list => pruneAll q cs
    | .map => pruneAll q cs
    | _ => [])

/-- The fields `q` of a struct. -/
def pruneSome (q : Nat → Bool) : List Schema → List Schema
  | [] => []
  | c :: cs => if q c.node.id then c.prune q :: pruneSome q cs else pruneSome q cs

/-- The elements of a list, the keys and values of a map. -/
def pruneAll (q : Nat → Bool) : List Schema → List Schema
  | [] => []
  | c :: cs => c.prune q :: pruneAll q cs
end

/-- A vector, and those below it, hold what their columns give: every row that is not null has a value of the type of the column, and a null row nothing else. -/
inductive Delivered : Schema → Vec → Prop
  | mk (n : SchemaNode) (cs : List Schema) (a : Option Slice) (vs : List Vec)
      (rows : ∀ r ∈ visibleRows a, (r.null = false → n.kind.Gives r.v) ∧ (r.v = .nil ∨ n.kind.Gives r.v))
      (below : List.Forall₂ Delivered cs vs) : Delivered (.mk n cs) (.mk n.id n.kind a vs)

mutual
/-- A vector and all those below it: their types, and the rows that can be seen. -/
def Vec.seen : Vec → List (TypeKind × List Value)
  | .nil => []
  | .mk _ k a vs => (k, visibleRows a) :: seenAll vs

/-- Those of several vectors. -/
def seenAll : List Vec → List (TypeKind × List Value)
  | [] => []
  | v :: vs => v.seen ++ seenAll vs
end

mutual
/-- What can be seen of the fields of structs that are elements of lists, or keys or values of maps, at any depth; `inside` for a vector that is below a list or map. -/
def Vec.fieldsInside (inside : Bool) : Vec → List (List Value)
  | .nil => []
  | .mk _ k _ vs => (if inside && decide (k = .struct) then (seenAll vs).map (·.2) else []) ++ fieldsInsideAll (inside || decide (k = .list) || decide (k = .map)) vs

/-- Those of several vectors. -/
def fieldsInsideAll (inside : Bool) : List Vec → List (List Value)
  | [] => []
  | v :: vs => v.fieldsInside inside ++ fieldsInsideAll inside vs
end

end Goorc
