import Verif.Spec.Foreign
import Verif.Spec.SeekCol
/-
Row indexes as the ORC specification has them, whoever wrote them: entry `g` of the index of a column says where the first row
of row group `g` is in each of its streams.
-/
namespace Goorc

section
variable (c : Codec) (kind : CompKind) (size : Nat) (ps : List LaidStream) (contents : StreamKind → Bytes)

/-- The numbers `nums` say where byte `off` of the contents of a stream is: with compression where its chunk starts, and the offset in
the contents of that chunk; without compression the offset. -/
def PlaceOf (k : StreamKind) (off : Nat) (nums : List Nat) : Prop :=
  ∃ p ∈ ps, p.kind = k ∧
    match kind with
    | .none => p.body = contents k ∧ off ≤ (contents k).length ∧ nums = [off]
    | .zlib => ∃ (before : List ChunkSpec) (ch : ChunkSpec) (after : List ChunkSpec) (b : Nat), (∀ x ∈ before ++ ch :: after, x.Good c size) ∧
        p.body = chunkBytes (before ++ ch :: after) ∧ contents k = chunkPlain (before ++ ch :: after) ∧ b ≤ ch.plain.length ∧
        off = (chunkPlain before).length + b ∧ nums = [(chunkBytes before).length, b]
    | .other => False

/-- Where value `m` is in a stream of byte runs: where a run starts, and how many values to skip from there. -/
def BytePlace (k : StreamKind) (vals : Bytes) (m : Nat) (nums : List Nat) : Prop :=
  ∃ f1 f2 v1 v2 n a, contents k = f1 ++ f2 ∧ vals = v1 ++ v2 ∧ ByteStream f1 v1 ∧ ByteStream f2 v2 ∧ n ≤ v2.length ∧ m = v1.length + n ∧
    PlaceOf c kind size ps contents k f1.length a ∧ nums = a ++ [n]

/-- Where bit `m` is in a stream of bits: where its byte is, and how many bits to skip from there. -/
def BoolPlace (k : StreamKind) (bs : List Bool) (m : Nat) (nums : List Nat) : Prop :=
  ∃ bytes pad j a n, bytesBits bytes = bs ++ pad ∧ BytePlace c kind size ps contents k bytes j a ∧ m = 8 * j + n ∧ nums = a ++ [n]

/-- Where integer `m` is in a stream of blocks of integers: where a block starts, and how many values to skip from there. -/
def IntPlace (signed : Bool) (k : StreamKind) (blocks : List RleBlock) (m : Nat) (nums : List Nat) : Prop :=
  ∃ f1 f2 b1 b2 n a, contents k = f1 ++ f2 ∧ blocks = b1 ++ b2 ∧ IntStream signed f1 b1 ∧ IntStream signed f2 b2 ∧
    n ≤ (b2.flatMap (·.ints signed)).length ∧ m = (b1.flatMap (·.ints signed)).length + n ∧
    PlaceOf c kind size ps contents k f1.length a ∧ nums = a ++ [n]

/-- Where row `m` is in the present stream, if there is one. -/
def PresentPlace (present : Option (List Bool)) (m : Nat) (nums : List Nat) : Prop :=
  match present with
  | none => nums = []
  | some bs => BoolPlace c kind size ps contents .present bs m nums

end

/-- Where a number of `w` bytes is. -/
def FixedPlace (c : Codec) (kind : CompKind) (size : Nat) (ps : List LaidStream) (contents : StreamKind → Bytes) (w m : Nat) (nums : List Nat) : Prop :=
  PlaceOf c kind size ps contents .data (w * m) nums

/-- Where string `m` is: its bytes, then its length. -/
def TextPlace (c : Codec) (kind : CompKind) (size : Nat) (ps : List LaidStream) (contents : StreamKind → Bytes) (vals : List Bytes) (blocks : List RleBlock)
    (m : Nat) (nums : List Nat) : Prop :=
  ∃ a b, PlaceOf c kind size ps contents .data ((vals.take m).flatten.length) a ∧ IntPlace c kind size ps contents false .length blocks m b ∧ nums = a ++ b

/-- Where decimal `m` is: the byte its digits start at, `offs m`, then its scale. -/
def DecimalPlace (c : Codec) (kind : CompKind) (size : Nat) (ps : List LaidStream) (contents : StreamKind → Bytes) (offs : Nat → Nat) (blocks : List RleBlock)
    (m : Nat) (nums : List Nat) : Prop :=
  ∃ a b, PlaceOf c kind size ps contents .data (offs m) a ∧ IntPlace c kind size ps contents true .secondary blocks m b ∧ nums = a ++ b

/-- How many of the first `m` rows are not null. -/
def valuesBefore {α : Type} (rows : List (Option α)) (m : Nat) : Nat := ((rows.take m).filterMap id).length

/-- The numbers `entry` say where row `m` of a column is: its place in the present stream, then, as `data` says for the number of values
before it, that in the data streams. -/
def EntryAt {α : Type} (c : Codec) (kind : CompKind) (size : Nat) (ps : List LaidStream) (contents : StreamKind → Bytes) (present : Option (List Bool))
    (rows : List (Option α)) (data : Nat → List Nat → Prop) (m : Nat) (entry : List Nat) : Prop :=
  m ≤ rows.length ∧ ∃ p d, entry = p ++ d ∧ PresentPlace c kind size ps contents present m p ∧ data (valuesBefore rows m) d

/-- Every entry of the index is the place of the first row of its row group. -/
def IndexOf (c : Codec) (kind : CompKind) (size : Nat) (ps : List LaidStream) (contents : StreamKind → Bytes) (present : Option (List Bool))
    (rows : List (Option GoVal)) (stride : Nat) (data : Nat → List Nat → Prop) (index : List (List Nat)) : Prop :=
  ∀ g entry, index[g]? = some entry → EntryAt c kind size ps contents present rows data (g * stride) entry

/-- Streams the reader's `Seek` can go to any place of: compressed and not empty, or uncompressed and not longer than a chunk (C33). -/
def Reachable (kind : CompKind) (size : Nat) (ps : List LaidStream) : Prop :=
  (kind = .zlib ∧ ∀ p ∈ ps, p.body ≠ []) ∨ (kind = .none ∧ ∀ p ∈ ps, p.body.length ≤ size)

/-- What calls of `NextBatch`, `Skip` and `SeekStride` deliver if `SeekStride(k)` goes to row `row k`. -/
def roamedBy (row : Nat → Nat) (rows : List (Option GoVal)) : Nat → List SeekOp → List (List Value)
  | _, [] => []
  | p, .batch vec :: ops => fill vec ((rows.drop p).take vec.length) :: roamedBy row rows (p + vec.length) ops
  | p, .skip n :: ops => roamedBy row rows (p + n) ops
  | _, .seek k :: ops => roamedBy row rows (row k) ops

/-- Calls that stay within `n` rows; `SeekStride(k)` is only called for `k` with `allowed k`. -/
def WithinBy (row : Nat → Nat) (allowed : Nat → Prop) (n : Nat) : Nat → List SeekOp → Prop
  | _, [] => True
  | p, .batch vec :: ops => p + vec.length ≤ n ∧ WithinBy row allowed n (p + vec.length) ops
  | p, .skip k :: ops => p + k ≤ n ∧ WithinBy row allowed n (p + k) ops
  | _, .seek k :: ops => allowed k ∧ WithinBy row allowed n (row k) ops

/-- Open a column on its streams and its row index, and work through the calls. -/
def roamStreams {ρ : Type} (R : ReadKind ρ) (c : Codec) (kind : CompKind) (size : Nat) (hasNulls : Bool) (file : Bytes) (ps : List LaidStream)
    (index : List (List Nat)) (ops : List SeekOp) : Res (List (List Value)) :=
  match R.openCol kind hasNulls (ps.map fun p => (p.kind, newStreamReader kind size p.start p.body.length file)) with
  | none => .err .other
  | some r => R.roam c { r with index := some index } ops

/-- `SeekStride(k)` goes to row `row k`, for every allowed `k` and whatever else is done. -/
def SeeksToRow {ρ : Type} (R : ReadKind ρ) (c : Codec) (kind : CompKind) (size : Nat) (hasNulls : Bool) (file : Bytes) (ps : List LaidStream)
    (index : List (List Nat)) (rows : List (Option GoVal)) (row : Nat → Nat) (allowed : Nat → Prop) : Prop :=
  ∀ ops, WithinBy row allowed rows.length 0 ops → (StreamKind.present ∉ ps.map (·.kind) → Unmarked (roamVectors ops)) →
    roamStreams R c kind size hasNulls file ps index ops = .ok (roamedBy row rows 0 ops)

/-- Where `SeekStride(k)` goes, for every entry of the index, and for stride 0 if `zero`. -/
def SeeksOneEarly {ρ : Type} (R : ReadKind ρ) (c : Codec) (kind : CompKind) (size : Nat) (hasNulls : Bool) (file : Bytes) (ps : List LaidStream)
    (stride : Nat) (index : List (List Nat)) (zero : Bool) (rows : List (Option GoVal)) : Prop :=
  SeeksToRow R c kind size hasNulls file ps index rows (fun k => (k - 1) * stride) (fun k => k ≤ index.length ∧ (k = 0 → zero = true))

end Goorc
