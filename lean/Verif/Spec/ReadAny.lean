import Verif.Spec.OpenAny
/-
Reading a file that may be anything: calls on a batch reader, and what they need to come to an end.
-/
namespace Goorc

/-- A call on a batch reader: `Next` with a vector, or `Seek`. -/
inductive FileOp where
  | next (batch : Vec)
  | seek (row : Nat)

/-- Some calls, one after the other. -/
def BatchReader.run {χ : Type} (X : RdOps χ) (fuel : Nat) : BatchReader χ → List FileOp → Res (BatchReader χ)
  | br, [] => .ok br
  | br, .next batch :: ops => do
    let (_, _, br) ← br.next X fuel batch
    br.run X fuel ops
  | br, .seek row :: ops => do
    let br ← br.seek X row
    br.run X fuel ops

/-- The types are numbered as the format wants it: children have larger numbers than their parents. -/
def TypesOrdered (types : List RdType) : Prop := ∀ t ∈ types, ∀ i ∈ t.children, t.id < i

/-- A vector has flags for the rows of a struct only where the column has nulls in the file; `hasNulls` are the flags of the file. Only
the structs that `Len` and `Cap` look at matter: a struct without flags is as long as its first child. -/
def Vec.Agrees (hasNulls : List Bool) : Vec → Prop
  | .nil => True
  | .mk id k (some _) _ => k = .struct → hasNulls[id]? = some true
  | .mk _ _ none cs =>
    match cs with
    | [] => True
    | c :: _ => c.Agrees hasNulls

end Goorc
