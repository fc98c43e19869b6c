import Verif.Spec.ReadAny
/-
Tables that can be read from damaged files without a crash: which types, which vectors, and what the footers of the stripes must have.
-/
namespace Goorc

/-- The kinds whose columns survive any bytes (C80). -/
def TypeKind.sturdy : TypeKind → Bool
  | .byte | .boolean | .float | .double => true
  | _ => false

/-- The types of a flat table with columns of these kinds only: a struct, and its fields. -/
def SturdyTable (types : List RdType) : Prop :=
  ∃ root fields, types = root :: fields ∧ root.kind = .struct ∧ ∀ t ∈ fields, t.kind.sturdy = true

/-- The vector of a field, with room for `rows` rows. -/
def Vec.Field (rows : Nat) (v : Vec) : Prop := ∃ id k s, v = .mk id k (some s) [] ∧ k.nested = false ∧ s.arr.length = rows

/-- The vector of a flat table, with room for `rows` rows: vectors for at least `fields` fields, and flags for the rows of the table itself if
there are `flags` in the file, and only then. -/
def Vec.Tabular (flags : Bool) (fields rows : Nat) (v : Vec) : Prop :=
  ∃ s cs, v = .mk 0 .struct s cs ∧ (if flags then ∃ a, s = some a ∧ a.arr.length = rows else s = none) ∧ fields ≤ cs.length ∧ ∀ c ∈ cs, c.Field rows

/-- The fields that are read. -/
def fieldsRead (bo : BatchOption) (types : List RdType) : List Nat := ((types[0]?.map (·.children)).getD []).filter bo.isInclude

/-- The footer of a stripe names an encoding for every column, and only streams of columns that exist. -/
structure StripeFooter.Named (types : List RdType) (f : StripeFooter) : Prop where
  encodings : types.length ≤ f.columns.length
  columns : ∀ s ∈ f.streams, s.column < types.length

/-- It names the data of all fields that are read. -/
def StripeFooter.HasData (bo : BatchOption) (types : List RdType) (f : StripeFooter) : Prop :=
  ∀ i ∈ fieldsRead bo types, ∃ s ∈ f.streams, s.column = i ∧ s.kind = .data

end Goorc
