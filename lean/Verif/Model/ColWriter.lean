import Verif.Model.StreamWriter
/-
Model of what the column writers of orc/column have in common.

Every leaf column writer (orc/column/byte.go, bool.go, int.go, float.go, string.go, binary.go, time.go, decimal.go) is the
same program text around a few type-specific lines: the present stream, the data streams, the statistics, the row index.
`LeafKind` collects the type-specific lines, one value of it per column type (Verif/Model/ColKinds.lean); the functions
here are the common text.
-/
namespace Goorc

/-- `pb.Stream_Kind`, the kinds used by the column writers and readers. pb/pb/orc_proto.pb.go:77. -/
inductive StreamKind where
  | present
  | data
  | length
  | dictionaryData
  | secondary
  | rowIndex
  | other
  deriving DecidableEq, Repr

/-- orc/api/vector.go:80-83 `Value`. -/
structure Value where
  null : Bool
  v : GoVal
  deriving DecidableEq, Repr

/-- The writer options a column writer uses: those of its streams, and `IndexStride`
(orc/config/opts.go:30-43). -/
structure COpts extends WOpts where
  stride : Nat
  deriving DecidableEq, Repr

/-- `pb.ColumnStatistics`: `typed` is the one type-specific message, `none` where it is nil. Counters are natural numbers
(they are `uint64`; a column of 2^64 rows is not considered). pb/pb/orc_proto.pb.go:702. -/
structure ColStats (κ : Type) where
  typed : Option κ
  hasNull : Bool
  numberOfValues : Nat
  bytesOnDisk : Nat
  deriving DecidableEq, Repr

/-- `pb.RowIndexEntry`. pb/pb/orc_proto.pb.go:821. -/
structure IndexEntry (κ : Type) where
  positions : List Nat
  stats : ColStats κ
  deriving DecidableEq, Repr

/-- The streams of a column besides the present stream: what a column writer does with all of them. For example
orc/column/string.go:40-44, 143-203. -/
structure DataStreams (δ : Type) where
  /-- `data.GetPosition()...` followed by those of the length or secondary stream -/
  position : WOpts → δ → List Nat
  /-- `Flush` of each -/
  flush : Codec → WOpts → δ → Res δ
  /-- `Info()` of each, in the order of `GetStreamInfos` -/
  infos : δ → List (StreamKind × Nat)
  /-- `WriteOut` of each -/
  writeOut : WOpts → δ → δ × Bytes
  /-- `Reset` of each -/
  reset : δ → Res δ
  /-- sum of the `Size()`s -/
  size : WOpts → δ → Nat

/-- A column with one data stream (tinyint, boolean, the integers, float, double, date). orc/column/byte.go:31-34,
orc/column/bool.go:36-39, orc/column/int.go:39-43, orc/column/float.go:184-188, orc/column/time.go:35-38. -/
def oneStream {σ : Type} (E : Enc σ) (k : StreamKind) : DataStreams (StreamWriter σ) where
  position o d := d.getPosition E o
  flush c o d := d.flush E c o
  infos d := [(k, d.length)]
  writeOut o d := d.writeOut o
  reset d := d.reset
  size o d := d.size o

/-- A column with a data stream and a second one: the lengths (string, binary) or the nanoseconds or scale (timestamp,
decimal). orc/column/string.go:40-44, orc/column/binary.go:36-40, orc/column/time.go:300-304,
orc/column/decimal.go:38-42. -/
def twoStreams {σ τ : Type} (E : Enc σ) (F : Enc τ) (k l : StreamKind) : DataStreams (StreamWriter σ × StreamWriter τ) where
  position o d := d.1.getPosition E o ++ d.2.getPosition F o
  flush c o d := do
    let a ← d.1.flush E c o
    let b ← d.2.flush F c o
    pure (a, b)
  infos d := [(k, d.1.length), (l, d.2.length)]
  writeOut o d :=
    let (a, x) := d.1.writeOut o
    let (b, y) := d.2.writeOut o
    ((a, b), x ++ y)
  reset d := do
    let a ← d.1.reset
    let b ← d.2.reset
    pure (a, b)
  size o d := d.1.size o + d.2.size o

/-- The type-specific lines of a leaf column writer; `δ` are its data streams, `κ` its type-specific statistics. What
differs between the `Write` functions cited at `ColWriter.write`; the instances are in Verif/Model/ColKinds.lean, with
their lines. -/
structure LeafKind (δ κ : Type) where
  /-- the constructor's data streams -/
  newData : WOpts → δ
  /-- what can be done with them -/
  streams : DataStreams δ
  /-- writing one non-null value to the data streams, with the type assertions before it -/
  writeValue : Codec → WOpts → δ → GoVal → Res δ
  /-- the statistics a new writer, and a new row group, starts with -/
  fresh : κ
  /-- type-specific index statistics of a new writer (the timestamp writer creates the wrong message) -/
  firstIndex : Option κ
  /-- `HasNull` of the first index statistics of a nullable column: only the boolean writer sets it -/
  firstIndexHasNull : Bool
  /-- updating the column statistics with a non-null value -/
  addStats : κ → GoVal → Res κ
  /-- updating the index statistics with a non-null value; the column statistics are passed along because the date and
  decimal writers update those instead. `none` is a nil message. -/
  addIndex : κ → Option κ → GoVal → Res (κ × Option κ)
  /-- is the index code outside `if !value.Null`? -/
  indexAllRows : Bool
  /-- does `WriteOut` refuse a writer that was not flushed? -/
  mustFlush : Bool

/-- orc/column/writer.go:10-25 `writer` and the data streams of the concrete writer. `present` is nil without nulls;
`indexStats` is nil without an index. -/
structure ColWriter (δ κ : Type) where
  hasNulls : Bool
  present : Option (StreamWriter BoolEnc)
  data : δ
  stats : ColStats κ
  indexInRows : Nat
  indexStats : Option (ColStats κ)
  index : List (IndexEntry κ)
  flushed : Bool
  deriving DecidableEq, Repr

namespace LeafKind

variable {δ κ : Type} (K : LeafKind δ κ)

/-- The constructors: orc/column/byte.go:13-29, bool.go:13-34, int.go:13-31, float.go:164-182, string.go:18-39,
binary.go:15-34, time.go:15-33 and 279-299, decimal.go:17-36. -/
def newWriter (o : COpts) (hasNulls : Bool) : ColWriter δ κ where
  hasNulls := hasNulls
  present := if hasNulls then some (newStreamWriter o.toWOpts (newBoolEncoder o.writeIndex)) else none
  data := K.newData o.toWOpts
  stats := ⟨some K.fresh, hasNulls, 0, 0⟩
  indexInRows := 0
  indexStats := if o.writeIndex then some ⟨K.firstIndex, hasNulls && K.firstIndexHasNull, 0, 0⟩ else none
  index := []
  flushed := false

/-- The part of `Write` before the value: `if w.schema.HasNulls { w.present.Write(!value.Null) }`. For example
orc/column/int.go:54-115. -/
def writePresent (c : Codec) (o : COpts) (w : ColWriter δ κ) (v : Value) : Res (ColWriter δ κ) :=
  if w.hasNulls then
    match w.present with
    | none => .panic
    | some p => do
      let p ← p.write boolEnc c o.toWOpts (.bool (!v.null))
      pure { w with present := some p }
  else pure w

/-- The part of `Write` inside the first `if !value.Null`. For example orc/column/int.go:54-115. -/
def writeNonNull (c : Codec) (o : COpts) (w : ColWriter δ κ) (v : GoVal) : Res (ColWriter δ κ) := do
  let d ← K.writeValue c o.toWOpts w.data v
  match w.stats.typed with
  | none => .panic
  | some t => do
    let t ← K.addStats t v
    pure { w with data := d, stats := { w.stats with typed := some t, numberOfValues := w.stats.numberOfValues + 1 } }

/-- Positions of an index entry: those of the present stream, then those of the data streams. For example
orc/column/int.go:54-115. -/
def positions (o : COpts) (w : ColWriter δ κ) : List Nat :=
  (match w.present with
   | some p => if w.hasNulls then p.getPosition boolEnc o.toWOpts else []
   | none => []) ++ K.streams.position o.toWOpts w.data

/-- The part of `Write` inside `if w.opts.WriteIndex`. For example orc/column/int.go:54-115. -/
def indexRow (o : COpts) (w : ColWriter δ κ) (v : Value) : Res (ColWriter δ κ) :=
  match w.indexStats with
  | none => .panic
  | some is => do
    let w := { w with indexInRows := w.indexInRows + 1 }
    let (w, is) := if w.indexInRows ≥ o.stride then
        ({ w with index := w.index ++ [⟨K.positions o w, is⟩], indexInRows := 0 }, ⟨some K.fresh, w.hasNulls, 0, 0⟩)
      else (w, is)
    if v.null then pure { w with indexStats := some is }
    else
      match w.stats.typed with
      | none => .panic
      | some t => do
        let (t, u) ← K.addIndex t is.typed v.v
        pure { w with stats := { w.stats with typed := some t },
                      indexStats := some { is with typed := u, numberOfValues := is.numberOfValues + 1 } }

/-- `Write`: orc/column/byte.go:36-75, bool.go:41-82, int.go:54-115, float.go:190-250, string.go:46-141,
binary.go:42-81, time.go:40-92 and 306-381, decimal.go:44-115. -/
def write (c : Codec) (o : COpts) (w : ColWriter δ κ) (v : Value) : Res (ColWriter δ κ) := do
  let w ← writePresent c o w v
  let w ← (if v.null then pure w else K.writeNonNull c o w v.v)
  if o.writeIndex ∧ (K.indexAllRows ∨ v.null = false) then K.indexRow o w v else pure w

/-- A client writing several rows. orc/column/int.go:45-52. -/
def writes (c : Codec) (o : COpts) (w : ColWriter δ κ) : List Value → Res (ColWriter δ κ)
  | [] => .ok w
  | v :: vs => do
    let w ← K.write c o w v
    writes c o w vs

/-- `Size`: byte.go:77-82, bool.go:132-137, int.go:117-122, float.go:301-306, string.go:198-203, binary.go:138-143,
time.go:137-142 and 437-442, decimal.go:171-176. -/
def size (o : COpts) (w : ColWriter δ κ) : Nat :=
  (if w.hasNulls then (w.present.map (·.size o.toWOpts)).getD 0 else 0) + K.streams.size o.toWOpts w.data

/-- `Flush`: byte.go:84-102, bool.go:84-100, int.go:124-138, float.go:252-268, string.go:143-164, binary.go:83-104,
time.go:94-110 and 383-402, decimal.go:117-136. `BytesOnDisk` is overwritten if the column is nullable, and added to
otherwise. The place at which `flushed` is set differs, which matters only after an error. -/
def flush (c : Codec) (o : COpts) (w : ColWriter δ κ) : Res (ColWriter δ κ) := do
  let p ← (if w.hasNulls then
      match w.present with
      | none => Res.panic
      | some p => do let p ← p.flush boolEnc c o.toWOpts; pure (some p)
    else pure w.present : Res (Option (StreamWriter BoolEnc)))
  let d ← K.streams.flush c o.toWOpts w.data
  let base := if w.hasNulls then (p.map (·.length)).getD 0 else w.stats.bytesOnDisk
  let total := (K.streams.infos d).foldl (fun n i => n + i.2) base
  pure { w with present := p, data := d, stats := { w.stats with bytesOnDisk := total }, flushed := true }

/-- `WriteOut`: byte.go:116-133, bool.go:102-118, int.go:140-157, float.go:270-287, string.go:166-183,
binary.go:106-123, time.go:112-123 and 404-422, decimal.go:138-156. -/
def writeOut (o : COpts) (w : ColWriter δ κ) : Res (ColWriter δ κ × Bytes) :=
  if K.mustFlush ∧ w.flushed = false then .err .other
  else
    let (d, x) := K.streams.writeOut o.toWOpts w.data
    if w.hasNulls then
      match w.present with
      | none => .panic
      | some p => .ok ({ w with present := some (p.writeOut o.toWOpts).1, data := d }, (p.writeOut o.toWOpts).2 ++ x)
    else .ok ({ w with data := d }, x)

/-- `GetStreamInfos`: byte.go:104-109, bool.go:120-125, int.go:163-168, float.go:289-294, string.go:185-190,
binary.go:125-130, time.go:125-130 and 424-429, decimal.go:158-163. -/
def streamInfos (w : ColWriter δ κ) : List (StreamKind × Nat) :=
  (if w.hasNulls then [(StreamKind.present, (w.present.map (·.length)).getD 0)] else []) ++ K.streams.infos w.data

/-- `Reset`: orc/column/writer.go:27-44, then the data streams (byte.go:111-114, bool.go:127-130, int.go:170-173,
float.go:296-299, string.go:192-196, binary.go:132-136, time.go:132-135 and 431-435, decimal.go:165-169). `Reset` of the
index statistics clears the type-specific message, which is not created again. -/
def reset (o : COpts) (w : ColWriter δ κ) : Res (ColWriter δ κ) := do
  let p ← (if w.hasNulls then
      match w.present with
      | none => Res.panic
      | some p => do let p ← p.reset; pure (some p)
    else pure w.present : Res (Option (StreamWriter BoolEnc)))
  let w := { w with present := p, flushed := false }
  let w ← (if o.writeIndex then
      match w.indexStats with
      | none => Res.panic
      | some _ => pure { w with indexInRows := 0, index := [], indexStats := some ⟨none, false, 0, 0⟩ }
    else pure w : Res (ColWriter δ κ))
  let d ← K.streams.reset w.data
  pure { w with data := d }

end LeafKind

end Goorc
