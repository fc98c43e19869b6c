import Verif.Spec.SeekCol
/-
What it means that reading survives damage: calls return or report an error, they neither panic nor go on for ever.
-/
namespace Goorc

/-- The call returns or reports an error. -/
def Res.Orderly {α : Type} (r : Res α) : Prop := r ≠ .panic ∧ r ≠ .hang

/-- A stream reader as `NewReader` of the package makes it: whatever the file says, the chunk size of uncompressed streams is
the default one (orc/reader.go:63-67). -/
def StreamReader.Sane (r : StreamReader) : Prop := r.kind = .none → 1 ≤ r.chunkSize

/-- How many numbers an entry of the row index must have for a column: for each stream the position (two numbers with
compression, one without) and what its decoder needs. -/
def positionsNeeded (kind : CompKind) (present : Bool) (layout : List Nat) : Nat :=
  ((if present then [2] else []) ++ layout).foldr (fun n s => (if kind = CompKind.none then 1 else 2) + n + s) 0

/-- The row index has an entry of the right size for every stride that is sought to; or there is no row index. -/
def IndexFits (needed : Nat) (index : Option (List (List Nat))) (ops : List SeekOp) : Prop :=
  ∀ k, SeekOp.seek k ∈ ops → k = 0 ∨ index = none ∨ ∃ es e, index = some es ∧ es[k - 1]? = some e ∧ needed ≤ e.length

/-- **Robust**: whatever the bytes of the file and wherever the streams are said to be, every sequence of calls on the column
comes to an end without a panic. The entries of a row index must have numbers for the present stream if there is one; the date reader
looks for them whenever the schema allows nulls. -/
def ReadKind.Robust {ρ : Type} (R : ReadKind ρ) : Prop :=
  ∀ (c : Codec) (kind : CompKind) (hasNulls : Bool) (streams : List (StreamKind × StreamReader)) (r : ColReader ρ)
    (index : Option (List (List Nat))) (ops : List SeekOp),
    (∀ s ∈ streams, s.2.Sane) → R.openCol kind hasNulls streams = some r →
    IndexFits (positionsNeeded kind (r.present.isSome || (R.byNulls && hasNulls)) R.layout) index ops → (R.roam c { r with index := index } ops).Orderly

/-- **Ends**: the same without a claim about panics. -/
def ReadKind.Terminates {ρ : Type} (R : ReadKind ρ) : Prop :=
  ∀ (c : Codec) (kind : CompKind) (hasNulls : Bool) (streams : List (StreamKind × StreamReader)) (r : ColReader ρ)
    (index : Option (List (List Nat))) (ops : List SeekOp),
    (∀ s ∈ streams, s.2.Sane) → R.openCol kind hasNulls streams = some r → R.roam c { r with index := index } ops ≠ .hang

end Goorc
