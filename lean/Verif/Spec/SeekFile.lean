import Verif.Spec.ForeignFile
import Verif.Spec.ForeignSeek
import Verif.Spec.Tables
/-
Row indexes in the stripes of a file, whoever wrote them, and what calls on the column readers of a stripe should deliver.
-/
namespace Goorc

/-- What the streams of a column contain, as `LeafTag.Encodes` has it, and where its values are: the numbers for value `n` are those with `place n`. -/
def LeafTag.Placed (t : LeafTag) (c : Codec) (kind : CompKind) (size : Nat) (ps : List LaidStream) (f : StreamKind → Bytes) (vals : List GoVal)
    (place : Nat → List Nat → Prop) : Prop :=
  match t with
  | .byte => ∃ xs : Bytes, ByteStream (f .data) xs ∧ vals = xs.map .u8 ∧ place = BytePlace c kind size ps f .data xs
  | .bool => ∃ xs : List Bool, BoolStream (f .data) xs ∧ vals = xs.map .bool ∧ place = BoolPlace c kind size ps f .data xs
  | .int b => ∃ blocks : List RleBlock, IntStream true (f .data) blocks ∧ (∀ b ∈ blocks, b.Handled true) ∧
      vals = (blocks.flatMap (·.ints true)).map (intValue b) ∧ place = IntPlace c kind size ps f true .data blocks
  | .float true => ∃ xs : List Nat, FixedStream 8 (f .data) xs ∧ vals = xs.map (fun x => .f64 (BitVec.ofNat 64 x)) ∧ place = FixedPlace c kind size ps f 8
  | .string => ∃ (xs : List Bytes) (blocks : List RleBlock), (∀ x ∈ xs, x.length < 2 ^ 63) ∧ f .data = xs.flatten ∧ IntStream false (f .length) blocks ∧
      (∀ b ∈ blocks, b.Handled false) ∧ blocks.flatMap (·.ints false) = xs.map (fun x => ((x.length : Nat) : Int)) ∧
      vals = xs.map .str ∧ place = TextPlace c kind size ps f xs blocks
  | .binary => ∃ (xs : List Bytes) (blocks : List RleBlock), (∀ x ∈ xs, x.length < 2 ^ 63) ∧ f .data = xs.flatten ∧ IntStream false (f .length) blocks ∧
      (∀ b ∈ blocks, b.Handled false) ∧ blocks.flatMap (·.ints false) = xs.map (fun x => ((x.length : Nat) : Int)) ∧
      vals = xs.map .bytes ∧ place = TextPlace c kind size ps f xs blocks
  | .date => ∃ blocks : List RleBlock, IntStream true (f .data) blocks ∧ (∀ b ∈ blocks, b.Handled true) ∧
      (∀ d ∈ blocks.flatMap (·.ints true), -106751 ≤ d ∧ d ≤ 106751) ∧ vals = (blocks.flatMap (·.ints true)).map midnight ∧
      place = IntPlace c kind size ps f true .data blocks
  | _ => False

/-- A column of a stripe with its row index: `rows` are the rows of the stripe, null where a struct the column is in is null; of these the column has `seen`.
A struct has a present stream at most. -/
def ColumnIndexed (c : Codec) (kind : CompKind) (size : Nat) (file : Bytes) (n : SchemaNode) (enc : Encoding) (ps : List LaidStream)
    (seen rows : List (Option GoVal)) (stride : Nat) (index : List (List Nat)) : Prop :=
  ∃ contents present, (present.isSome = true → n.hasNulls = true) ∧
    ((n.kind = .struct ∧ enc = .direct ∧ ColumnLaid c kind size file [] ps contents present ∧ (n.hasNulls = true → Flagged present seen) ∧
      IndexOf c kind size ps contents present rows stride (fun _ nums => nums = []) index) ∨
    ∃ t place, StoredAs n.kind enc t ∧ ColumnLaid c kind size file (ReaderTag.leaf t).streams ps contents present ∧ Flagged present seen ∧
      t.Placed c kind size ps contents (seen.filterMap id) place ∧ IndexOf c kind size ps contents present rows stride place index)

/-- The row indexes of a stripe: one for every column, with `groups` entries, one for every `stride` rows. -/
structure StripeIndexed (E : Env) (kind : CompKind) (size : Nat) (s : Schema) (file : Bytes) (info : StripeInfo) (rows : List Row)
    (f : StripeFooter) (index data : List StreamInfo) (stride groups : Nat) : Prop where
  once : (index.map (·.column)).Nodup
  each : ∀ c ∈ s.columns, ∃ enc p flat entries, f.columns[c.node.id]? = some enc ∧ p ∈ startsFrom info.offset index ∧ p.1.column = c.node.id ∧
    Stands E.c kind size ((file.drop p.2).take p.1.length) flat ∧ E.P.readIndex flat = some entries ∧ entries.length = groups ∧
    ColumnIndexed E.c kind size file c.node enc (columnStreams file c.node.id (startsFrom (info.offset + info.indexLength) data))
      ((seenRows s c.node.id rows).map (Row.cell c.node.id)) (rows.map (Row.cell c.node.id)) stride entries

/-- The streams of the columns of a stripe can be sought in (C33). -/
def StripeInfo.Reachable (info : StripeInfo) (kind : CompKind) (size : Nat) (s : Schema) (file : Bytes) (data : List StreamInfo) : Prop :=
  ∀ c ∈ s.columns, Goorc.Reachable kind size (columnStreams file c.node.id (startsFrom (info.offset + info.indexLength) data))

/-- Calls on the column readers of a stripe. -/
inductive StripeOp where
  | batch (vec : Vec)
  | skip (n : Nat)
  | seek (stride : Nat)

/-- Work through the calls: the vectors that are filled. -/
def RdOps.roam {χ : Type} (X : RdOps χ) : χ → List StripeOp → Res (List Vec)
  | _, [] => .ok []
  | x, .batch v :: ops => do
    let (v, x) ← X.nextBatch x v
    let vs ← X.roam x ops
    pure (v :: vs)
  | x, .skip n :: ops => do
    let x ← X.skip x n
    X.roam x ops
  | x, .seek k :: ops => do
    let x ← X.seekStride x k
    X.roam x ops

/-- The rows that should be in the vectors if `SeekStride(k)` goes to row `row k`. -/
def visited (row : Nat → Nat) (rows : List Row) : Nat → List StripeOp → List (List Row)
  | _, [] => []
  | p, .batch v :: ops => ((rows.drop p).take v.len) :: visited row rows (p + v.len) ops
  | p, .skip n :: ops => visited row rows (p + n) ops
  | _, .seek k :: ops => visited row rows (row k) ops

/-- Calls that stay within `n` rows, with vectors made for the schema; `SeekStride(k)` is only called for `k` with `allowed k`. -/
def StaysIn (bo : BatchOption) (s : Schema) (row : Nat → Nat) (allowed : Nat → Prop) (n : Nat) : Nat → List StripeOp → Prop
  | _, [] => True
  | p, .batch v :: ops => (∃ B len, BatchShape bo B len s v) ∧ p + v.len ≤ n ∧ StaysIn bo s row allowed n (p + v.len) ops
  | p, .skip k :: ops => p + k ≤ n ∧ StaysIn bo s row allowed n (p + k) ops
  | _, .seek k :: ops => allowed k ∧ StaysIn bo s row allowed n (row k) ops

/-- A client of the reader that seeks: open the file, create a batch reader for the chosen columns and a vector for them, go to a row, and
read one batch. The rows of the batch. -/
def seekFile (E : Env) (fuel : Nat) (s : Schema) (bo : BatchOption) (row : Nat) (file : Bytes) : Res (List Row) := do
  let r ← newReader E file
  let br ← r.createBatchReader E bo
  let v ← createVector s bo
  let br ← br.seek (rdOps E.c fuel r.schemas.length) row
  let (_, v, _) ← br.next (rdOps E.c fuel r.schemas.length) (fuel + 1) v
  pure v.tableRows

/-- Work through the calls on the first stripe of a file: open it, create a batch reader, and use the column readers of the stripe. -/
def roamStripe (E : Env) (fuel : Nat) (ro : ROpts) (bo : BatchOption) (file : Bytes) (types : List RdType) (info : StripeInfo) (ops : List StripeOp) : Res (List Vec) := do
  let s ← newStripeReader E ro bo file types info
  match s.reader with
  | some x => (rdOps E.c fuel types.length).roam x ops
  | none => .panic

end Goorc
