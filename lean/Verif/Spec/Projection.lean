import Verif.Spec.Tour
/-
Reading some of the columns of a file.
-/
namespace Goorc

/-- Is the column of this vector kept? -/
def Vec.kept (q : Nat → Bool) : Vec → Bool
  | .nil => false
  | .mk id _ _ _ => q id

mutual
/-- A vector without the vectors of the columns that are not kept. -/
def Vec.keep (q : Nat → Bool) : Vec → Vec
  | .nil => .nil
  | .mk id k s cs => .mk id k s (keepAll q cs)

/-- The vectors of the columns that are kept. -/
def keepAll (q : Nat → Bool) : List Vec → List Vec
  | [] => []
  | v :: vs => if v.kept q then v.keep q :: keepAll q vs else keepAll q vs
end

/-- A client of the library: a reader, a batch reader and a vector for the columns of `bo`, and then calls of `Next` and `Seek`; the vectors after every
`Next`. -/
def tourVectors (E : Env) (fuel : Nat) (s : Schema) (bo : BatchOption) (ops : List RowOp) (file : Bytes) : Res (List (Bool × Vec)) := do
  let r ← newReader E file
  let br ← r.createBatchReader E bo
  let v ← createVector s bo
  br.tour (rdOps E.c fuel r.schemas.length) (fuel + 1) id v ops

/-- The columns are structs, and leaves. -/
def Schema.Structs (s : Schema) : Prop := ∀ c ∈ s.columns, c.node.kind = .struct ∨ (c.node.kind.nested = false ∧ c.children = [])

end Goorc
