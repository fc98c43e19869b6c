import Verif.Spec.Columns
import Verif.Spec.Chunks
import Verif.Spec.Rlev2
import Verif.Spec.Bytes
/-
Columns as the ORC specification lays them out, whoever wrote them: what the streams of a column contain, and where they
lie in a file.
-/
namespace Goorc

/-- A run of byte run-length encoding. -/
inductive ByteRun where
  | repeated (count : Nat) (value : Byte)
  | literal (values : Bytes)

/-- The bytes of a run: a repetition is its length less three and the value; a literal is its length as a negative byte,
then the values. -/
def ByteRun.bytes : ByteRun → Bytes
  | .repeated n v => [BitVec.ofNat 8 (n - 3), v]
  | .literal vs => BitVec.ofNat 8 (256 - vs.length) :: vs

/-- What a run stands for. -/
def ByteRun.values : ByteRun → Bytes
  | .repeated n v => List.replicate n v
  | .literal vs => vs

/-- Well-formed runs. -/
def ByteRun.WF : ByteRun → Prop
  | .repeated n _ => 3 ≤ n ∧ n ≤ 130
  | .literal vs => 1 ≤ vs.length ∧ vs.length ≤ 128

/-- `flat` is a sequence of byte runs standing for `vals`. -/
def ByteStream (flat vals : Bytes) : Prop :=
  ∃ runs : List ByteRun, (∀ r ∈ runs, r.WF) ∧ flat = runs.flatMap (·.bytes) ∧ vals = runs.flatMap (·.values)

/-- `flat` stands for the bits `bs`, most significant bit first; the last byte may be filled up with anything. -/
def BoolStream (flat : Bytes) (bs : List Bool) : Prop :=
  ∃ bytes pad, ByteStream flat bytes ∧ bytesBits bytes = bs ++ pad

/-- `flat` is a sequence of well-formed blocks. -/
def IntStream (signed : Bool) (flat : Bytes) (blocks : List RleBlock) : Prop :=
  (∀ b ∈ blocks, b.WF signed) ∧ bytesBits flat = blocks.flatMap (·.bits signed)

/-- `flat` consists of numbers of `n` bytes each, least significant byte first. -/
def FixedStream (n : Nat) (flat : Bytes) (xs : List Nat) : Prop :=
  ∃ parts : List Bytes, (∀ p ∈ parts, p.length = n) ∧ flat = parts.flatten ∧ xs = parts.map littleEndian

/-- The bytes `body` of a stream in a file stand for `flat`: with compression they are chunks. -/
def Stands (c : Codec) (kind : CompKind) (size : Nat) (body flat : Bytes) : Prop :=
  match kind with
  | .none => 1 ≤ size ∧ body = flat
  | .zlib => ∃ cs : List ChunkSpec, (∀ ch ∈ cs, ch.Good c size) ∧ body = chunkBytes cs ∧ flat = chunkPlain cs
  | .other => False

/-- A stream of a column: its kind, where it starts in the file, its bytes. -/
structure LaidStream where
  kind : StreamKind
  start : Nat
  body : Bytes

/-- The stream lies in the file. -/
def LaidStream.In (file : Bytes) (p : LaidStream) : Prop := ∃ pre post, file = pre ++ p.body ++ post ∧ pre.length = p.start

/-- The streams of a column in a file: one of every kind in `kinds`, in any order and anywhere, standing for `contents`, and
possibly a present stream with the given flags. -/
structure ColumnLaid (c : Codec) (kind : CompKind) (size : Nat) (file : Bytes) (kinds : List StreamKind) (ps : List LaidStream)
    (contents : StreamKind → Bytes) (present : Option (List Bool)) : Prop where
  nodup : (ps.map (·.kind)).Nodup
  kinds : ∀ k, k ∈ ps.map (·.kind) ↔ k ∈ kinds ∨ (k = .present ∧ present.isSome)
  inFile : ∀ p ∈ ps, p.In file ∧ Stands c kind size p.body (contents p.kind)
  flags : ∀ bs, present = some bs → BoolStream (contents .present) bs

/-- The rows have the flags of the present stream; without one none is null. -/
def Flagged (present : Option (List Bool)) (rows : List (Option GoVal)) : Prop :=
  rows.map (·.isSome) = present.getD (rows.map fun _ => true)

/-- Open a column on its streams and work through calls of `NextBatch` and `Skip`. -/
def serveStreams {ρ : Type} (R : ReadKind ρ) (c : Codec) (kind : CompKind) (size : Nat) (hasNulls : Bool) (file : Bytes) (ps : List LaidStream)
    (ops : List ReadOp) : Res (List (List Value)) :=
  match R.openCol kind hasNulls (ps.map fun p => (p.kind, newStreamReader kind size p.start p.body.length file)) with
  | none => .err .other
  | some r => do
    let (vs, _) ← R.serve c r ops
    pure vs

/-- Whatever calls are made (not beyond the last row), they deliver the rows. -/
def ColumnDelivers {ρ : Type} (R : ReadKind ρ) (c : Codec) (kind : CompKind) (size : Nat) (hasNulls : Bool) (file : Bytes) (ps : List LaidStream)
    (rows : List (Option GoVal)) : Prop :=
  ∀ ops, consumed ops ≤ rows.length → (StreamKind.present ∉ ps.map (·.kind) → Unmarked (vectors ops)) →
    serveStreams R c kind size hasNulls file ps ops = .ok (deliver ops rows)

/-- A string column with a dictionary, laid out in a file: the strings one after the other, their lengths, and for every
non-null row an index. -/
structure DictionaryLaid (c : Codec) (kind : CompKind) (size : Nat) (file : Bytes) (ps : List LaidStream) (contents : StreamKind → Bytes)
    (present : Option (List Bool)) (dict : List Bytes) (idx : List Nat) : Prop where
  laid : ColumnLaid c kind size file [.data, .dictionaryData, .length] ps contents present
  /-- The strings. -/
  small : (∀ v ∈ dict, v.length < 2 ^ 63) ∧ dict.length < 2 ^ 64
  strings : contents .dictionaryData = dict.flatten
  /-- Their lengths. -/
  lengths : ∃ blocks, IntStream false (contents .length) blocks ∧ (∀ b ∈ blocks, b.Handled false) ∧
    blocks.flatMap (·.ints false) = dict.map fun v => ((v.length : Nat) : Int)
  /-- The indices. -/
  indices : ∃ blocks, IntStream false (contents .data) blocks ∧ (∀ b ∈ blocks, b.Handled false) ∧
    blocks.flatMap (·.ints false) = idx.map Int.ofNat

end Goorc
