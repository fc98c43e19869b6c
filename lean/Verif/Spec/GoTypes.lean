import Verif.Model.ColTable
/-
The Go types of the values of a column, by the writer of the column (README and the types of orc/api).
-/
namespace Goorc

/-- The Go type of the values of a column. -/
def LeafTag.Takes : LeafTag → GoVal → Prop
  | .byte, v => ∃ x, v = .u8 x
  | .bool, v => ∃ x, v = .bool x
  | .int .small, v => ∃ x, v = .i16 x
  | .int .int, v => ∃ x, v = .i32 x
  | .int .big, v => ∃ x, v = .i64 x
  | .float false, v => ∃ x, v = .f32 x
  | .float true, v => ∃ x, v = .f64 x
  | .string, v => ∃ x, v = .str x
  | .binary, v => ∃ x, v = .bytes x
  | .date, v => ∃ x, v = .date x
  | .timestamp, v => ∃ l s n, v = .ts l s n
  | .decimal, v => ∃ p s, v = .dec p s

/-- The same for any writer; a struct has no values of its own. -/
def WriterTag.Takes : WriterTag → GoVal → Prop
  | .leaf t, v => t.Takes v
  | .dict, v => ∃ x, v = .str x
  | .struct, _ => True

/-- What becomes of a value of another type: floats, strings and binaries are checked, the others are just asserted. -/
def WriterTag.refusal {α : Type} : WriterTag → Res α
  | .leaf (.float _) | .leaf .string | .leaf .binary | .dict => .err .other
  | _ => .panic

end Goorc
