import Verif.Spec.Columns
import Verif.Spec.IntSafe
/-
A client of one column of a stripe that uses its row index: it reads batches, skips rows and goes back and forth between
strides.
-/
namespace Goorc

/-- What such a client can do. -/
inductive SeekOp where
  | batch (vec : List Value)
  | skip (n : Nat)
  | seek (stride : Nat)

/-- Write all rows, flush, write out: the positions in the entries of the row index, the streams as they are listed in the
stripe footer, and the bytes. -/
def writeIndexed {δ κ : Type} (K : LeafKind δ κ) (c : Codec) (o : COpts) (hasNulls : Bool) (rows : List Value) :
    Res (List (List Nat) × List (StreamKind × Nat) × Bytes) := do
  let w ← K.writes c o (K.newWriter o hasNulls) rows
  let w ← K.flush c o w
  let (w, body) ← K.writeOut o w
  pure (w.index.map (·.positions), K.streamInfos w, body)

/-- Calls of `NextBatch`, `Skip` and `SeekStride` in any order; the vectors after the calls of `NextBatch`. -/
def ReadKind.roam {ρ : Type} (R : ReadKind ρ) (c : Codec) : ColReader ρ → List SeekOp → Res (List (List Value))
  | _, [] => .ok []
  | r, .batch vec :: ops => do
    let (v, r) ← R.nextBatch c r vec
    let vs ← R.roam c r ops
    pure (v :: vs)
  | r, .skip n :: ops => do
    let r ← R.skipRows c n r
    R.roam c r ops
  | r, .seek k :: ops => do
    let r ← R.seekStride c r k
    R.roam c r ops

/-- Open the column whose streams start at `start` in the file, with the entries of its row index, and work through the
calls. -/
def roamColumn {ρ : Type} (R : ReadKind ρ) (c : Codec) (o : COpts) (hasNulls : Bool) (file : Bytes) (start : Nat)
    (infos : List (StreamKind × Nat)) (index : List (List Nat)) (ops : List SeekOp) : Res (List (List Value)) :=
  match R.openCol o.kind hasNulls (placeStreams o.kind o.chunkSize file start infos) with
  | none => .err .other
  | some r => R.roam c { r with index := some index } ops

/-- What the calls must deliver when the reader stands before row `p`: stride `k` starts with row `k * stride`. -/
def roamed (stride : Nat) (rows : List (Option GoVal)) : Nat → List SeekOp → List (List Value)
  | _, [] => []
  | p, .batch vec :: ops => fill vec ((rows.drop p).take vec.length) :: roamed stride rows (p + vec.length) ops
  | p, .skip n :: ops => roamed stride rows (p + n) ops
  | _, .seek k :: ops => roamed stride rows (k * stride) ops

/-- Calls that stay within `n` rows; `zero` says whether stride 0 may be sought to. -/
def Within (zero : Bool) (stride n : Nat) : Nat → List SeekOp → Prop
  | _, [] => True
  | p, .batch vec :: ops => p + vec.length ≤ n ∧ Within zero stride n (p + vec.length) ops
  | p, .skip k :: ops => p + k ≤ n ∧ Within zero stride n (p + k) ops
  | _, .seek k :: ops => k * stride ≤ n ∧ (zero = true ∨ 1 ≤ k) ∧ Within zero stride n (k * stride) ops

/-- The vectors used by some calls. -/
def roamVectors : List SeekOp → List Value
  | [] => []
  | .batch vec :: ops => vec ++ roamVectors ops
  | _ :: ops => roamVectors ops

/-- A stream of `n` bytes that can be sought in: compressed and not empty, or uncompressed and no longer than a chunk. -/
def SeekableLength (o : WOpts) (n : Nat) : Prop := (o.kind = .none ∧ n ≤ o.chunkSize) ∨ (o.kind = .zlib ∧ n ≠ 0)

/-- Integers whose encoding neither fails nor meets a case in which the encoder is known to lose them (C22). -/
def EncodesSafely (inj : U64 → GoVal) (signed : Bool) (vs : List U64) : Prop :=
  vs.length < 2 ^ 64 ∧ RunSafe (newIntRLV2 signed true) ((vs.map inj).map .encode ++ [.flush]) ∧
    ∃ e out, intEnc.run (newIntRLV2 signed true) ((vs.map inj).map .encode ++ [.flush]) = .ok (e, out)

/-- **Seeking**: the row index has an entry for every full stride, and with it any mix of batches, skips and seeks that stays
within the rows delivers the right rows, if the streams of the column can be sought in. -/
def ColumnSeeks {δ κ ρ : Type} (K : LeafKind δ κ) (R : ReadKind ρ) (c : Codec) (o : COpts) (hasNulls zero : Bool) (written : List Value)
    (rows : List (Option GoVal)) : Prop :=
  ∃ index infos body, writeIndexed K c o hasNulls written = .ok (index, infos, body) ∧ index.length = written.length / o.stride ∧
    ((∀ i ∈ infos, SeekableLength o.toWOpts i.2) →
      ∀ (pre post : Bytes) (ops : List SeekOp), Within zero o.stride rows.length 0 ops → (hasNulls = false → Unmarked (roamVectors ops)) →
        roamColumn R c o hasNulls (pre ++ body ++ post) pre.length infos index ops = .ok (roamed o.stride rows 0 ops))

end Goorc
