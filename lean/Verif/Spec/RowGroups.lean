import Verif.Spec.ColHistory
import Verif.Model.ColKinds
/-
Row groups: the rows an index entry is about.
-/
namespace Goorc

/-- The rows of group `k` when every group has `S` rows. -/
def rowGroup (S k : Nat) (rows : List Value) : List Value := (rows.drop (k * S)).take S

/-- The groups one row early: group 0 has `S - 1` rows, and every later group starts with the last row of the one before. -/
def earlyGroup (S k : Nat) (rows : List Value) : List Value :=
  if k = 0 then rows.take (S - 1) else (rows.drop (k * S - 1)).take S

/-- The column types of orc/column. -/
inductive LeafKind.Known : {δ κ : Type} → LeafKind δ κ → Prop where
  | byte : Known byteKind
  | bool : Known boolKind
  | int (bits : IntBits) : Known (intKind bits)
  | float (A : Arith) (is64 : Bool) : Known (floatKind A is64)
  | string : Known stringKind
  | binary : Known binaryKind
  | date : Known dateKind
  | timestamp : Known timestampKind
  | decimal (A : Arith) : Known (decimalKind A)

/-- The rows the row index of a column counts: all of them, but only the non-null ones for timestamps and decimals. -/
def LeafKind.indexed {δ κ : Type} (K : LeafKind δ κ) (rows : List Value) : List Value :=
  if K.indexAllRows then rows else rows.filter fun v => !v.null

end Goorc
