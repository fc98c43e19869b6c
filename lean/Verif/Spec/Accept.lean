import Verif.Model.FileReader
/-
Which streams the column of a type has, as the ORC format lists them.
-/
namespace Goorc

/-- The streams of a column besides the flags of its nulls, for every kind of column reader. -/
def ReaderTag.streams : ReaderTag → List StreamKind
  | .leaf .byte | .leaf .bool | .leaf (.int _) | .leaf (.float _) | .leaf .date => [.data]
  | .leaf .string | .leaf .binary => [.data, .length]
  | .leaf .timestamp | .leaf .decimal => [.data, .secondary]
  | .dict => [.data, .dictionaryData, .length]
  | .struct => []
  | .list | .map => [.length]

/-- A stream the format has for such a column: one of its own, or the flags if the column has nulls. -/
def ReaderTag.Has (t : ReaderTag) (hasNulls : Bool) (k : StreamKind) : Prop :=
  k ∈ t.streams ∨ (k = .present ∧ hasNulls = true)

/-- The readers that take flags for a column without nulls as well. -/
def ReaderTag.TakesFlags : ReaderTag → Prop
  | .leaf (.int _) | .leaf .string | .list => True
  | _ => False

/-- The column was given a stream of this kind. -/
def Given (streams : List (StreamKind × α)) (k : StreamKind) : Prop := k ∈ streams.map (·.1)

/-- Streams that follow one another, with the place where each of them starts. -/
def startsFrom : Nat → List StreamInfo → List (StreamInfo × Nat)
  | _, [] => []
  | start, s :: ss => (s, start) :: startsFrom (start + s.length) ss

/-- The bytes of the streams of the index area that are not row indexes. -/
def filterBytes (index : List StreamInfo) : Nat := ((index.filter fun s => s.kind ≠ .rowIndex).map (·.length)).sum

end Goorc
