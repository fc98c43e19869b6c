import Verif.Model.FileReader
import Mathlib.Data.List.Forall2
/-
The loop a client reads a file with, and what a column reader has to do for it.
-/
namespace Goorc

/-- The documented loop, at most `k` turns of it: call `Next` with the same vector until it reports the end. The batches, and
whether the end was reported. -/
def readBatches {χ : Type} (X : RdOps χ) (fuel : Nat) : Nat → BatchReader χ → Vec → Res (List Vec × Bool)
  | 0, _, _ => .ok ([], false)
  | k + 1, br, vec => do
    let (stop, vec, br) ← br.next X fuel vec
    if stop then pure ([vec], true)
    else do
      let (vs, stop) ← readBatches X fuel k br vec
      pure (vec :: vs, stop)

/-- A column reader that works, with vectors of capacity `B`: in a state with the rows `rows ++ rest` left (`P`), a vector of
the right shape made ready for `rows.length` rows gets just these (`rowsOf`). -/
structure Delivers {χ ρ : Type} (X : RdOps χ) (hasNulls : List Bool) (B : Nat) (Shape : Vec → Prop) (P : χ → List ρ → Prop)
    (rowsOf : Vec → List ρ) : Prop where
  cleared : ∀ vec, Shape vec → ∃ vec', vec.clear = .ok vec' ∧ Shape vec' ∧ rowsOf vec' = [] ∧ vec'.len = 0 ∧ vec'.cap = B
  next : ∀ vec, Shape vec → vec.len = 0 → ∀ x rows rest, rows.length ≤ B → P x (rows ++ rest) → ∃ sized vec' x',
    setVectorSize hasNulls rows.length vec = .ok sized ∧ X.nextBatch x sized = .ok (vec', x') ∧ P x' rest ∧
      Shape vec' ∧ rowsOf vec' = rows ∧ vec'.len = rows.length ∧ vec'.cap = B

/-- A stripe that has not been read: its rows. -/
def StripeReader.Fresh {χ ρ : Type} (hasNulls : List Bool) (P : χ → List ρ → Prop) (s : StripeReader χ) (rows : List ρ) : Prop :=
  s.hasNulls = hasNulls ∧ s.cursor = 0 ∧ s.numberOfRows = rows.length ∧ ∃ x, s.reader = some x ∧ P x rows

/-- A batch reader just created, for a file with the stripes `stripes`, given by their rows. -/
structure BatchReader.Fresh {χ ρ : Type} (hasNulls : List Bool) (P : χ → List ρ → Prop) (br : BatchReader χ) (stripes : List (List ρ)) : Prop where
  index : br.stripeIndex = 0
  cursor : br.cursor = 0
  total : br.numberOfRows = stripes.flatten.length
  each : List.Forall₂ (StripeReader.Fresh hasNulls P) br.stripes stripes

/-- Does a stripe of `n` rows lose its last row to batches of `B`? -/
def losesLast (B n : Nat) : Bool := decide (2 ≤ n) && (B == 1 || n % B == 1)

/-- What is delivered of a stripe that is followed by others. -/
def kept {ρ : Type} (B : Nat) (rows : List ρ) : List ρ := if losesLast B rows.length then rows.dropLast else rows

/-- How many of the stripes lose their last row. -/
def lostRows {ρ : Type} (B : Nat) (stripes : List (List ρ)) : Nat := (stripes.filter fun s => losesLast B s.length).length

end Goorc
