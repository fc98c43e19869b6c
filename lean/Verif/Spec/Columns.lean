import Verif.Spec.Streams
import Verif.Model.ColReader
/-
Clients of the column layer: a program that writes one column of a stripe, and one that reads it back from a file in
batches.
-/
namespace Goorc

/-- Write all rows, flush, write out: the streams as they are listed in the stripe footer, and the bytes. -/
def writeColumn {δ κ : Type} (K : LeafKind δ κ) (c : Codec) (o : COpts) (hasNulls : Bool) (rows : List Value) :
    Res (List (StreamKind × Nat) × Bytes) := do
  let w ← K.writes c o (K.newWriter o hasNulls) rows
  let w ← K.flush c o w
  let (w, body) ← K.writeOut o w
  pure (K.streamInfos w, body)

/-- The streams of a column, one after the other from `start` on. -/
def placeStreams (kind : CompKind) (chunkSize : Nat) (file : Bytes) : Nat → List (StreamKind × Nat) → List (StreamKind × StreamReader)
  | _, [] => []
  | start, (k, n) :: infos => (k, newStreamReader kind chunkSize start n file) :: placeStreams kind chunkSize file (start + n) infos

/-- Several calls of `NextBatch`, one for each vector; the vectors after the calls. -/
def ReadKind.nextBatches {ρ : Type} (R : ReadKind ρ) (c : Codec) : ColReader ρ → List (List Value) → Res (List (List Value) × ColReader ρ)
  | r, [] => .ok ([], r)
  | r, vec :: vecs => do
    let (v, r) ← R.nextBatch c r vec
    let (vs, r) ← R.nextBatches c r vecs
    pure (v :: vs, r)

/-- Open the column whose streams start at `start` in the file and read batches. -/
def readColumn {ρ : Type} (R : ReadKind ρ) (c : Codec) (o : COpts) (hasNulls : Bool) (file : Bytes) (start : Nat)
    (infos : List (StreamKind × Nat)) (vecs : List (List Value)) : Res (List (List Value)) :=
  match R.openCol o.kind hasNulls (placeStreams o.kind o.chunkSize file start infos) with
  | none => .err .other
  | some r => do
    let (vs, _) ← R.nextBatches c r vecs
    pure vs

/-- A row as the client hands it to `Write`: `none` is null, whatever `V` then is. -/
def rowValue (v : GoVal) : Option GoVal → Value
  | some x => ⟨false, x⟩
  | none => ⟨true, v⟩

/-- What a batch must look like after a read: row `i` has its value, or is marked null and keeps what was in `V`. -/
def fill (vec : List Value) (rows : List (Option GoVal)) : List Value :=
  List.zipWith (fun old row => rowValue old.v row) vec rows

/-- The batches one after the other. -/
def fillAll : List (List Value) → List (Option GoVal) → List (List Value)
  | [], _ => []
  | vec :: vecs, rows => fill vec (rows.take vec.length) :: fillAll vecs (rows.drop vec.length)

/-- The row a client means by a `Value` it hands to `Write`: a null if `Null` is set, whatever `V` then is. -/
def Value.row (v : Value) : Option GoVal := if v.null then none else some v.v

/-- Midnight UTC, `d` days after 1970-01-01, as the `api.Date` a client hands over. -/
def midnight (d : Int) : GoVal := .date (d * (86400 * 1000000000))

/-- Flags only: row `i` is marked null or not, and keeps what was in `V` in both cases. -/
def markAll : List (List Value) → List (Option GoVal) → List (List Value)
  | [], _ => []
  | vec :: vecs, rows =>
    List.zipWith (fun old row => Value.mk row.isNone old.v) vec (rows.take vec.length) :: markAll vecs (rows.drop vec.length)

/-- Values poured into the rows of a vector that are not marked null; the marked ones are passed over. -/
def pour : List Value → List GoVal → List Value
  | [], _ => []
  | ⟨true, v⟩ :: vec, vals => ⟨true, v⟩ :: pour vec vals
  | ⟨false, v⟩ :: vec, [] => ⟨false, v⟩ :: pour vec []
  | ⟨false, _⟩ :: vec, x :: vals => ⟨false, x⟩ :: pour vec vals

/-- A vector with no row marked null, as `CreateVector` makes it. -/
def Unmarked (vec : List Value) : Prop := ∀ v ∈ vec, v.null = false

/-- **Reading back a column**: whatever rows `written` were handed to the writer, wherever in a file its bytes lie, and
however the reading is split into batches (not beyond the last row), the batches are filled with `rows`. -/
def ColumnReadsBack {δ κ ρ : Type} (K : LeafKind δ κ) (R : ReadKind ρ) (c : Codec) (o : COpts) (hasNulls : Bool) (written : List Value)
    (rows : List (Option GoVal)) : Prop :=
  ∃ infos body, writeColumn K c o hasNulls written = .ok (infos, body) ∧
    ∀ (pre post : Bytes) (vecs : List (List Value)), vecs.flatten.length ≤ rows.length → (hasNulls = false → Unmarked vecs.flatten) →
      readColumn R c o hasNulls (pre ++ body ++ post) pre.length infos vecs = .ok (fillAll vecs rows)

/-- What a client of an open column can do: read a batch into a vector, or skip rows. -/
inductive ReadOp where
  | batch (vec : List Value)
  | skip (n : Nat)

/-- Calls of `NextBatch` and `Skip` in any order; the vectors after the calls of `NextBatch`. -/
def ReadKind.serve {ρ : Type} (R : ReadKind ρ) (c : Codec) : ColReader ρ → List ReadOp → Res (List (List Value) × ColReader ρ)
  | r, [] => .ok ([], r)
  | r, .batch vec :: ops => do
    let (v, r) ← R.nextBatch c r vec
    let (vs, r) ← R.serve c r ops
    pure (v :: vs, r)
  | r, .skip n :: ops => do
    let r ← R.skipRows c n r
    R.serve c r ops

/-- Open the column whose streams start at `start` in the file and work through the calls. -/
def serveColumn {ρ : Type} (R : ReadKind ρ) (c : Codec) (o : COpts) (hasNulls : Bool) (file : Bytes) (start : Nat)
    (infos : List (StreamKind × Nat)) (ops : List ReadOp) : Res (List (List Value)) :=
  match R.openCol o.kind hasNulls (placeStreams o.kind o.chunkSize file start infos) with
  | none => .err .other
  | some r => do
    let (vs, _) ← R.serve c r ops
    pure vs

/-- The rows some calls consume. -/
def consumed : List ReadOp → Nat
  | [] => 0
  | .batch vec :: ops => vec.length + consumed ops
  | .skip n :: ops => n + consumed ops

/-- The vectors used by some calls. -/
def vectors : List ReadOp → List Value
  | [] => []
  | .batch vec :: ops => vec ++ vectors ops
  | .skip _ :: ops => vectors ops

/-- What the calls must deliver: skipped rows are dropped, the others fill the batches. -/
def deliver : List ReadOp → List (Option GoVal) → List (List Value)
  | [], _ => []
  | .batch vec :: ops, rows => fill vec (rows.take vec.length) :: deliver ops (rows.drop vec.length)
  | .skip n :: ops, rows => deliver ops (rows.drop n)

/-- **Skipping**: `ColumnReadsBack` for any mix of batches and skips that stays within the rows. -/
def ColumnServes {δ κ ρ : Type} (K : LeafKind δ κ) (R : ReadKind ρ) (c : Codec) (o : COpts) (hasNulls : Bool) (written : List Value)
    (rows : List (Option GoVal)) : Prop :=
  ∃ infos body, writeColumn K c o hasNulls written = .ok (infos, body) ∧
    ∀ (pre post : Bytes) (ops : List ReadOp), consumed ops ≤ rows.length → (hasNulls = false → Unmarked (vectors ops)) →
      serveColumn R c o hasNulls (pre ++ body ++ post) pre.length infos ops = .ok (deliver ops rows)

/-- **The end of a column**: batches within `rows` are filled, and a batch that goes beyond is an error. -/
def ColumnEnds {δ κ ρ : Type} (K : LeafKind δ κ) (R : ReadKind ρ) (c : Codec) (o : COpts) (hasNulls : Bool) (written : List Value)
    (rows : List (Option GoVal)) : Prop :=
  ∃ infos body, writeColumn K c o hasNulls written = .ok (infos, body) ∧
    ∀ (pre post : Bytes) (vecs : List (List Value)), (hasNulls = false → Unmarked vecs.flatten) →
      (vecs.flatten.length ≤ rows.length →
        readColumn R c o hasNulls (pre ++ body ++ post) pre.length infos vecs = .ok (fillAll vecs rows)) ∧
      (rows.length < vecs.flatten.length → ∃ e, readColumn R c o hasNulls (pre ++ body ++ post) pre.length infos vecs = .err e)

end Goorc
