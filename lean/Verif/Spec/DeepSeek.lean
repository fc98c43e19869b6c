import Verif.Spec.Trees
import Verif.Spec.SeekFile
/-
Row indexes of tables with lists and maps, whoever wrote them. The entries of the index of a column are for the rows of the table that start
row groups; in the column of the elements of lists these are the elements that come first in these rows.
-/
namespace Goorc

/-- How many elements the lists of the first `m` rows have. -/
def elementsBefore {α : Type} (rows : List (Option (List α))) (m : Nat) : Nat := ((rows.take m).filterMap id).flatten.length

/-- A column of values, as `ValuesStored` has it, with a row index: entry `g` is for row `starts g`. The reader of dates looks for the numbers of
a present stream whenever the schema allows nulls, so such a column must have that stream if it has a row index. -/
def ValuesIndexed (c : Codec) (kind : CompKind) (size : Nat) (file : Bytes) (most : Nat) (n : SchemaNode) (enc : Encoding) (ps : List LaidStream)
    (rows : List (Option GoVal)) (starts : Nat → Nat) (index : List (List Nat)) : Prop :=
  (∃ contents present t place, (present.isSome = true → n.hasNulls = true) ∧ (n.kind = .date → index ≠ [] → n.hasNulls = true → present.isSome = true) ∧
    StoredAs n.kind enc t ∧
    ColumnLaid c kind size file (ReaderTag.leaf t).streams ps contents present ∧ Flagged present rows ∧
    t.Placed c kind size ps contents (rows.filterMap id) place ∧
    ∀ g entry, index[g]? = some entry → EntryAt c kind size ps contents present rows place (starts g) entry) ∨
  (n.kind = .string ∧ enc = .dictionaryV2 ∧ ∃ contents present dict idx blocks, (present.isSome = true → n.hasNulls = true) ∧
    DictionaryLaid c kind size file ps contents present dict idx ∧ dict.length ≤ most ∧ (∀ i ∈ idx, i < dict.length) ∧ Flagged present rows ∧
    rows.filterMap id = idx.map (fun i => .str (dict.getD i [])) ∧
    IntStream false (contents .data) blocks ∧ (∀ b ∈ blocks, b.Handled false) ∧ blocks.flatMap (·.ints false) = idx.map Int.ofNat ∧
    ∀ g entry, index[g]? = some entry → EntryAt c kind size ps contents present rows (IntPlace c kind size ps contents false .data blocks) (starts g) entry)

/-- The own streams of a list or map column, as `LengthsStored` has them, with a row index. -/
def LengthsIndexed (c : Codec) (kind : CompKind) (size : Nat) (file : Bytes) (n : SchemaNode) (ps : List LaidStream) (counts : List (Option Nat))
    (starts : Nat → Nat) (index : List (List Nat)) : Prop :=
  ∃ contents present blocks, (present.isSome = true → n.hasNulls = true) ∧ ColumnLaid c kind size file [.length] ps contents present ∧
    counts.map (·.isSome) = present.getD (counts.map fun _ => true) ∧ (∀ m ∈ counts.filterMap id, m < 2 ^ 63) ∧
    IntStream false (contents .length) blocks ∧ (∀ b ∈ blocks, b.Handled false) ∧
    blocks.flatMap (·.ints false) = (counts.filterMap id).map (fun m => ((m : Nat) : Int)) ∧
    ∀ g entry, index[g]? = some entry → EntryAt c kind size ps contents present counts (IntPlace c kind size ps contents false .length blocks) (starts g) entry

/-- A column of a stripe, as `DeepStored` has it, with row indexes: column `j` has the index `entries j`, of which entry `g` is for row `starts g` of the column. -/
inductive DeepIndexed (c : Codec) (kind : CompKind) (size : Nat) (file : Bytes) (most : Nat) (f : StripeFooter) (places : List (StreamInfo × Nat))
    (entries : Nat → List (List Nat)) : (Nat → Nat) → Schema → List Deep → Prop
  | value (starts : Nat → Nat) (n : SchemaNode) (enc : Encoding) (rows : List (Option GoVal)) (items : List Deep) : f.columns[n.id]? = some enc →
      ValuesIndexed c kind size file most n enc (columnStreams file n.id places) rows starts (entries n.id) → items = rows.map Deep.ofValue →
      DeepIndexed c kind size file most f places entries starts (.mk n []) items
  | list (starts : Nat → Nat) (n : SchemaNode) (e : Schema) (rows : List (Option (List Deep))) (items : List Deep) : f.columns[n.id]? = some .directV2 →
      LengthsIndexed c kind size file n (columnStreams file n.id places) (rows.map (Option.map List.length)) starts (entries n.id) →
      DeepIndexed c kind size file most f places entries (fun g => elementsBefore rows (starts g)) e (rows.filterMap id).flatten → items = rows.map Deep.ofList →
      DeepIndexed c kind size file most f places entries starts (.mk n [e]) items
  | map (starts : Nat → Nat) (n : SchemaNode) (k v : Schema) (rows : List (Option (List (Deep × Deep)))) (items : List Deep) : f.columns[n.id]? = some .directV2 →
      LengthsIndexed c kind size file n (columnStreams file n.id places) (rows.map (Option.map List.length)) starts (entries n.id) →
      DeepIndexed c kind size file most f places entries (fun g => elementsBefore rows (starts g)) k ((rows.filterMap id).flatten.map (·.1)) →
      DeepIndexed c kind size file most f places entries (fun g => elementsBefore rows (starts g)) v ((rows.filterMap id).flatten.map (·.2)) → items = rows.map Deep.ofMap →
      DeepIndexed c kind size file most f places entries starts (.mk n [k, v]) items

/-- The row indexes of a stripe: one for every column but the structs, with `groups` entries, one for every `stride` rows of the table. -/
structure StripeGroups (E : Env) (kind : CompKind) (size : Nat) (most : Nat) (s : Schema) (file : Bytes) (info : StripeInfo) (rows : List DeepRow)
    (f : StripeFooter) (index data : List StreamInfo) (stride groups : Nat) (entries : Nat → List (List Nat)) : Prop where
  once : (index.map (·.column)).Nodup
  each : ∀ c ∈ s.columns, c.node.kind ≠ .struct → (entries c.node.id).length = groups ∧ ∃ p flat, p ∈ startsFrom info.offset index ∧ p.1.column = c.node.id ∧
    Stands E.c kind size ((file.drop p.2).take p.1.length) flat ∧ E.P.readIndex flat = some (entries c.node.id)
  fields : ∀ c ∈ s.fields, DeepIndexed E.c kind size file most f (startsFrom (info.offset + info.indexLength) data) entries (fun g => g * stride) c
    (rows.map (DeepRow.get c.node.id))

/-- A schema without maps. -/
def Schema.Mapless (s : Schema) : Prop := ∀ c ∈ s.columns, c.node.kind ≠ .map

/-- Calls on the column readers of a stripe: a batch of `m` rows, `Skip` and `SeekStride`. -/
inductive GroupOp where
  | batch (m : Nat)
  | skip (n : Nat)
  | seek (stride : Nat)

/-- Work through the calls, with one vector for all of them, sized as the reader of a stripe does it; what `view` shows of the vector after every batch. -/
def RdOps.wander {χ α : Type} (X : RdOps χ) (hasNulls : List Bool) (view : Vec → α) : χ → Vec → List GroupOp → Res (List α)
  | _, _, [] => .ok []
  | x, v, .batch m :: ops => do
    let v ← v.clear
    let v ← setVectorSize hasNulls m v
    let (v, x) ← X.nextBatch x v
    let vs ← X.wander hasNulls view x v ops
    pure (view v :: vs)
  | x, v, .skip n :: ops => do
    let x ← X.skip x n
    X.wander hasNulls view x v ops
  | x, v, .seek k :: ops => do
    let x ← X.seekStride x k
    X.wander hasNulls view x v ops

/-- The rows the batches should have if `SeekStride(k)` goes to row `row k`. -/
def seenBy {α : Type} (row : Nat → Nat) (rows : List α) : Nat → List GroupOp → List (List α)
  | _, [] => []
  | p, .batch m :: ops => ((rows.drop p).take m) :: seenBy row rows (p + m) ops
  | p, .skip n :: ops => seenBy row rows (p + n) ops
  | _, .seek k :: ops => seenBy row rows (row k) ops

/-- Calls that stay within `n` rows, in batches of at most `most`; `Skip` is only called if `skips`, and `SeekStride(k)` for `k` with `allowed k`. -/
def KeepsIn (row : Nat → Nat) (allowed : Nat → Prop) (skips : Prop) (most n : Nat) : Nat → List GroupOp → Prop
  | _, [] => True
  | p, .batch m :: ops => m ≤ most ∧ p + m ≤ n ∧ KeepsIn row allowed skips most n (p + m) ops
  | p, .skip k :: ops => skips ∧ p + k ≤ n ∧ KeepsIn row allowed skips most n (p + k) ops
  | _, .seek k :: ops => allowed k ∧ KeepsIn row allowed skips most n (row k) ops

/-- Open a stripe, create a vector for the chosen columns, and work through the calls. -/
def wanderStripe (E : Env) (fuel : Nat) (ro : ROpts) (s : Schema) (bo : BatchOption) (full : Bool) (file : Bytes) (types : List RdType) (info : StripeInfo)
    (ops : List GroupOp) : Res (List (List ItemRow)) := do
  let sr ← newStripeReader E ro bo file types info
  let v ← createVector s bo
  match sr.reader with
  | some x => (rdOps E.c fuel types.length).wander sr.hasNulls (Vec.fieldRows full) x v ops
  | none => .panic

/-- A client of the reader that seeks, as in `seekFile`, for tables with lists and maps. -/
def seekRecords (E : Env) (fuel : Nat) (s : Schema) (bo : BatchOption) (full : Bool) (row : Nat) (file : Bytes) : Res (List ItemRow) := do
  let r ← newReader E file
  let br ← r.createBatchReader E bo
  let v ← createVector s bo
  let br ← br.seek (rdOps E.c fuel r.schemas.length) row
  let (_, v, _) ← br.next (rdOps E.c fuel r.schemas.length) (fuel + 1) v
  pure (v.fieldRows full)

end Goorc
