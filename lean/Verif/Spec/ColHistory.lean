import Verif.Model.ColWriter
/-
Histories of a column writer: what a client (the stripe writer) can do with it, and what its rows are.
-/
namespace Goorc

/-- A call on a column writer. -/
inductive ColOp where
  | write (v : Value)
  | flush
  | writeOut
  | reset

/-- The rows written by some calls. -/
def rowsWritten : List ColOp → List Value
  | [] => []
  | .write v :: ops => v :: rowsWritten ops
  | _ :: ops => rowsWritten ops

/-- The non-null values among some rows. -/
def valuesOf (rows : List Value) : List GoVal := rows.filterMap fun v => if v.null then none else some v.v

/-- Calls one after the other; the bytes written out are dropped. -/
def LeafKind.runOps {δ κ : Type} (K : LeafKind δ κ) (c : Codec) (o : COpts) : ColWriter δ κ → List ColOp → Res (ColWriter δ κ)
  | w, [] => .ok w
  | w, .write v :: ops => do
    let w ← K.write c o w v
    K.runOps c o w ops
  | w, .flush :: ops => do
    let w ← K.flush c o w
    K.runOps c o w ops
  | w, .writeOut :: ops => do
    let (w, _) ← K.writeOut o w
    K.runOps c o w ops
  | w, .reset :: ops => do
    let w ← K.reset o w
    K.runOps c o w ops

/-- The stripes of a column: for each the rows are written, the column is flushed, written out and reset. The result are
the stream lengths of every stripe. -/
def LeafKind.writeStripes {δ κ : Type} (K : LeafKind δ κ) (c : Codec) (o : COpts) :
    ColWriter δ κ → List (List Value) → Res (List (List (StreamKind × Nat)) × ColWriter δ κ)
  | w, [] => .ok ([], w)
  | w, rows :: stripes => do
    let w ← K.writes c o w rows
    let w ← K.flush c o w
    let infos := K.streamInfos w
    let (w, _) ← K.writeOut o w
    let w ← K.reset o w
    let (is, w) ← K.writeStripes c o w stripes
    pure (infos :: is, w)

/-- `m` is the least of `xs`. -/
def Least (xs : List Int) (m : Int) : Prop := m ∈ xs ∧ ∀ x ∈ xs, m ≤ x

/-- `m` is the greatest of `xs`. -/
def Greatest (xs : List Int) (m : Int) : Prop := m ∈ xs ∧ ∀ x ∈ xs, x ≤ m

/-- Applying an update that can fail to values in order. -/
def foldRes {κ : Type} (f : κ → GoVal → Res κ) : κ → List GoVal → Res κ
  | t, [] => .ok t
  | t, v :: vs => do
    let t ← f t v
    foldRes f t vs

end Goorc
