import Verif.Spec.Nested
import Mathlib.Data.List.Forall2
/-
Skipping the rows of structs: the readers, and the vectors that would be given to them to read the rows.
-/
namespace Goorc

/-- Readers of structs and of leaves that are not dictionaries, without a present stream anywhere. -/
def LeafTree : (n : Nat) → Rd n → Prop
  | 0, _ => False
  | n + 1, x => match x with
    | RdNode.leaf _ r => r.present = none
    | RdNode.struct _ p _ cs => p = none ∧ ∀ c ∈ cs, LeafTree n c
    | _ => False

/-- A vector for a reader of structs and leaves: a vector for every child, and at the leaves rows of which the null flags are `marks`. -/
def MarkedBy (marks : List Bool) : (n : Nat) → Rd n → Vec → Prop
  | 0, _, _ => False
  | n + 1, x, v => match x with
    | RdNode.struct _ _ _ cs => ∃ id k s vs, v = .mk id k s vs ∧ List.Forall₂ (MarkedBy marks n) cs vs
    | _ => v.nulls = marks

end Goorc
