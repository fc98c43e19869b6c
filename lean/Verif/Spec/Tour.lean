import Verif.Spec.ReadAny
import Verif.Spec.Trees
/-
What a batch reader does when `Next` and `Seek` are called in any order: a small machine that knows the rows of the stripes, and keeps two numbers for
every stripe, how many of its rows have been counted and where its columns really are. `Seek` moves the columns of one stripe, and changes nothing else.
-/
namespace Goorc

/-- A stripe: its rows, how many of them count as handed over, and the row its columns are at. -/
structure Place (ρ : Type) where
  rows : List ρ
  counted : Nat
  pos : Nat

/-- A file: its stripes, the one that is read from, and how many rows count as handed over. -/
structure Tour (ρ : Type) where
  stripes : List (Place ρ)
  current : Nat
  counted : Nat

/-- Calls on a batch reader. -/
inductive RowOp where
  | next
  | seek (row : Nat)

/-- The call is a `Next`. -/
def RowOp.isNext : RowOp → Bool
  | .next => true
  | .seek _ => false

namespace Tour

variable {ρ : Type}

/-- Before the first call. -/
def start (stripes : List (List ρ)) : Tour ρ := ⟨stripes.map fun rows => ⟨rows, 0, 0⟩, 0, 0⟩

/-- The number of rows of the file. -/
def total (t : Tour ρ) : Nat := (t.stripes.map (·.rows.length)).sum

/-- `Next` with room for `B` rows: whether the end is reported, and the rows. The size of the batch comes from what is counted, the rows come from where
the columns are. -/
def next (B : Nat) (t : Tour ρ) : Bool × List ρ × Tour ρ :=
  if t.total ≤ t.counted + 1 then (true, [], t)
  else
    match t.stripes[t.current]? with
    | none => (true, [], t)
    | some p =>
      let m := min B (p.rows.length - p.counted)
      (decide (t.total ≤ t.counted + m + 1), (p.rows.drop p.pos).take m,
        ⟨t.stripes.set t.current ⟨p.rows, p.counted + m, p.pos + m⟩,
          if p.rows.length ≤ p.counted + m + 1 ∧ t.current + 1 < t.stripes.length then t.current + 1 else t.current, t.counted + m⟩)

/-- The columns of the stripe that has a row go to this row modulo the stride, counted from the start of the stripe. -/
def send (stride : Nat) : Nat → List (Place ρ) → List (Place ρ)
  | _, [] => []
  | row, p :: ps => if row < p.rows.length then ⟨p.rows, p.counted, row % stride⟩ :: ps else p :: send stride (row - p.rows.length) ps

/-- `Seek`. -/
def seek (stride : Nat) (t : Tour ρ) (row : Nat) : Res (Tour ρ) :=
  if t.total ≤ row then .err .other
  else if stride = 0 then .panic
  else .ok { t with stripes := send stride row t.stripes }

/-- Some calls, one after the other; what every `Next` returns. -/
def run (B stride : Nat) : Tour ρ → List RowOp → Res (List (Bool × List ρ))
  | _, [] => .ok []
  | t, .next :: ops => do
    let rest ← run B stride (t.next B).2.2 ops
    pure (((t.next B).1, (t.next B).2.1) :: rest)
  | t, .seek row :: ops => do
    let t ← t.seek stride row
    run B stride t ops

/-- No `Next` asks for more rows than there are after the row its stripe is at. -/
def Fits (B stride : Nat) : Tour ρ → List RowOp → Prop
  | _, [] => True
  | t, .next :: ops => (t.counted + 1 < t.total → ∀ p, t.stripes[t.current]? = some p → p.pos + min B (p.rows.length - p.counted) ≤ p.rows.length) ∧
      (t.next B).2.2.Fits B stride ops
  | t, .seek row :: ops => ∀ t', t.seek stride row = .ok t' → t'.Fits B stride ops

end Tour

/-- The calls on a batch reader, with one vector for all of them; what every `Next` returns, the rows as `view` shows them. -/
def BatchReader.tour {χ α : Type} (X : RdOps χ) (fuel : Nat) (view : Vec → α) : BatchReader χ → Vec → List RowOp → Res (List (Bool × α))
  | _, _, [] => .ok []
  | br, v, .next :: ops => do
    let (stop, v, br) ← br.next X fuel v
    let rest ← br.tour X fuel view v ops
    pure ((stop, view v) :: rest)
  | br, v, .seek row :: ops => do
    let br ← br.seek X row
    br.tour X fuel view v ops

/-- A client of the library: a reader, a batch reader and a vector for a table, and then calls of `Next` and `Seek`. -/
def tourRecords (E : Env) (fuel : Nat) (s : Schema) (bo : BatchOption) (full : Bool) (ops : List RowOp) (file : Bytes) : Res (List (Bool × List ItemRow)) := do
  let r ← newReader E file
  let br ← r.createBatchReader E bo
  let v ← createVector s bo
  br.tour (rdOps E.c fuel r.schemas.length) (fuel + 1) (Vec.fieldRows full) v ops

end Goorc
