import Verif.Model.ColReader
import Verif.Model.Schema
/-
The column writers and readers that orc/column/package.go can create: the leaf types under one roof, the struct writer and
the dictionary writer.
-/
namespace Goorc

/-- The leaf column types, one for each writer and reader implementation. orc/column/package.go:69-199 and 201-303. -/
inductive LeafTag where
  | byte
  | bool
  | int (bits : IntBits)
  | float (is64 : Bool)
  | string
  | binary
  | date
  | timestamp
  | decimal
  deriving DecidableEq, Repr

namespace LeafTag

/-- The data streams of the writer. The writer structs, for example orc/column/int.go:39-43. -/
abbrev δ : LeafTag → Type
  | byte => StreamWriter ByteEnc
  | bool => StreamWriter BoolEnc
  | int _ => StreamWriter IntEnc
  | float _ => StreamWriter Unit
  | string => StreamWriter Unit × StreamWriter IntEnc
  | binary => StreamWriter Unit × StreamWriter IntEnc
  | date => StreamWriter IntEnc
  | timestamp => StreamWriter IntEnc × StreamWriter IntEnc
  | decimal => StreamWriter Unit × StreamWriter IntEnc

/-- The type-specific statistics. orc/column/writer.go:10-25, the field `stats`. -/
abbrev κ : LeafTag → Type
  | byte => Nat
  | bool => Nat
  | int _ => IntStats
  | float _ => DoubleStats
  | string => StringStats
  | binary => Nat
  | date => DateStats
  | timestamp => TsStats
  | decimal => DecStats

/-- The data streams of the reader. The reader structs, for example orc/column/int.go:179-185. -/
abbrev ρ : LeafTag → Type
  | byte => ByteReader
  | bool => BoolReader
  | int _ => IntReader
  | float _ => FloatReader
  | string => TextReader
  | binary => TextReader
  | date => DateReader
  | timestamp => TsReader
  | decimal => DecReader

/-- The writers, Verif/Model/ColKinds.lean. orc/column/package.go:201-303. -/
def kind (A : Arith) : (t : LeafTag) → LeafKind t.δ t.κ
  | byte => byteKind
  | bool => boolKind
  | int b => intKind b
  | float d => floatKind A d
  | string => stringKind
  | binary => binaryKind
  | date => dateKind
  | timestamp => timestampKind
  | decimal => decimalKind A

/-- The readers, Verif/Model/ColReader.lean. orc/column/package.go:69-199. -/
def read : (t : LeafTag) → ReadKind t.ρ
  | byte => byteRead
  | bool => boolRead
  | int b => intRead b
  | float d => floatRead d
  | string => stringRead
  | binary => binaryRead
  | date => dateRead
  | timestamp => timestampRead
  | decimal => decimalRead

end LeafTag

/-- What `NewWriter` creates. orc/column/package.go:201-303. -/
inductive WriterTag where
  | leaf (t : LeafTag)
  | dict
  | struct
  deriving DecidableEq, Repr

/-- What `NewReader` creates. orc/column/package.go:69-199. -/
inductive ReaderTag where
  | leaf (t : LeafTag)
  | dict
  | struct
  | list
  | map
  deriving DecidableEq, Repr

/-- orc/column/package.go:69-199 `NewReader`, which implementation it chooses. -/
def newReaderTag (kind : TypeKind) (enc : Encoding) : Res ReaderTag :=
  match kind with
  | .short => if enc = .directV2 then .ok (.leaf (.int .small)) else .err .other
  | .int => if enc = .directV2 then .ok (.leaf (.int .int)) else .err .other
  | .long => if enc = .directV2 then .ok (.leaf (.int .big)) else .err .other
  | .float => if enc ≠ .direct then .err .other else .ok (.leaf (.float false))
  | .double => if enc ≠ .direct then .err .other else .ok (.leaf (.float true))
  | .string => if enc = .directV2 then .ok (.leaf .string) else if enc = .dictionaryV2 then .ok .dict else .err .other
  | .boolean => if enc ≠ .direct then .err .other else .ok (.leaf .bool)
  | .byte => if enc ≠ .direct then .err .other else .ok (.leaf .byte)
  | .binary => if enc = .directV2 then .ok (.leaf .binary) else .err .other
  | .decimal => if enc = .directV2 then .ok (.leaf .decimal) else .err .other
  | .date => if enc = .directV2 then .ok (.leaf .date) else .err .other
  | .timestamp => if enc = .directV2 then .ok (.leaf .timestamp) else .err .other
  | .struct => if enc ≠ .direct then .err .other else .ok .struct
  | .list => if enc = .directV2 then .ok .list else .err .other
  | .map => if enc = .directV2 then .ok .map else .err .other
  | .union => .err .other
  | .varchar => .err .other
  | .char => .err .other

/-- orc/column/package.go:201-303 `NewWriter`, which implementation it chooses. -/
def newWriterTag (kind : TypeKind) (enc : Encoding) : Res WriterTag :=
  match kind with
  | .short => if enc = .directV2 then .ok (.leaf (.int .small)) else .err .other
  | .int => if enc = .directV2 then .ok (.leaf (.int .int)) else .err .other
  | .long => if enc = .directV2 then .ok (.leaf (.int .big)) else .err .other
  | .float => .ok (.leaf (.float false))
  | .double => .ok (.leaf (.float true))
  | .char | .varchar | .string =>
    if enc = .directV2 then .ok (.leaf .string) else if enc = .dictionaryV2 then .ok .dict else .err .other
  | .boolean => if enc ≠ .direct then .err .other else .ok (.leaf .bool)
  | .byte => if enc ≠ .direct then .err .other else .ok (.leaf .byte)
  | .binary => if enc = .directV2 then .ok (.leaf .binary) else .err .other
  | .decimal => if enc = .directV2 then .ok (.leaf .decimal) else .err .other
  | .date => if enc = .directV2 then .ok (.leaf .date) else .err .other
  | .timestamp => if enc = .directV2 then .ok (.leaf .timestamp) else .err .other
  | .struct => if enc ≠ .direct then .err .other else .ok .struct
  | .list => .err .other
  | .map => .err .other
  | .union => .err .other

/-! ### The present stream -/

/-- `if w.schema.HasNulls { w.present.Write(!value.Null) }`. orc/column/struct.go:183-219. -/
def writeFlag (c : Codec) (o : COpts) (hasNulls : Bool) (present : Option (StreamWriter BoolEnc)) (v : Value) :
    Res (Option (StreamWriter BoolEnc)) :=
  if hasNulls then
    match present with
    | none => .panic
    | some p => do let p ← p.write boolEnc c o.toWOpts (.bool (!v.null)); pure (some p)
  else .ok present

/-- `if w.schema.HasNulls { w.present.Flush() }`. orc/column/struct.go:221-230. -/
def flushFlags (c : Codec) (o : COpts) (hasNulls : Bool) (present : Option (StreamWriter BoolEnc)) :
    Res (Option (StreamWriter BoolEnc)) :=
  if hasNulls then
    match present with
    | none => .panic
    | some p => do let p ← p.flush boolEnc c o.toWOpts; pure (some p)
  else .ok present

/-- `if w.schema.HasNulls { w.present.WriteOut(out) }`. orc/column/struct.go:232-245. -/
def writeOutFlags (o : COpts) (hasNulls : Bool) (present : Option (StreamWriter BoolEnc)) :
    Res (Option (StreamWriter BoolEnc) × Bytes) :=
  if hasNulls then
    match present with
    | none => .panic
    | some p => .ok (some (p.writeOut o.toWOpts).1, (p.writeOut o.toWOpts).2)
  else .ok (present, [])

/-- orc/column/writer.go:30-32. -/
def resetFlags (hasNulls : Bool) (present : Option (StreamWriter BoolEnc)) : Res (Option (StreamWriter BoolEnc)) :=
  if hasNulls then
    match present with
    | none => .panic
    | some p => do let p ← p.reset; pure (some p)
  else .ok present

/-! ### The struct writer -/

/-- orc/column/struct.go:179-181 `structWriter`; the type-specific statistics are one counter. -/
structure StructWriter where
  hasNulls : Bool
  present : Option (StreamWriter BoolEnc)
  stats : ColStats Nat
  indexInRows : Nat
  indexStats : Option (ColStats Nat)
  index : List (IndexEntry Nat)
  flushed : Bool
  deriving DecidableEq, Repr

namespace StructWriter

/-- orc/column/struct.go:158-176 `newStructWriter`. -/
def new (o : COpts) (hasNulls : Bool) : StructWriter where
  hasNulls := hasNulls
  present := if hasNulls then some (newStreamWriter o.toWOpts (newBoolEncoder o.writeIndex)) else none
  stats := ⟨some 0, hasNulls, 0, 0⟩
  indexInRows := 0
  indexStats := if o.writeIndex then some ⟨some 0, hasNulls, 0, 0⟩ else none
  index := []
  flushed := false

/-- `Count[0]++` of statistics that may be nil. orc/column/struct.go:183-219. -/
def count (null : Bool) (s : ColStats Nat) : Res (ColStats Nat) :=
  if null then .ok { s with numberOfValues := s.numberOfValues + 1 }
  else match s.typed with
    | none => .panic
    | some n => .ok { s with typed := some (n + 1), numberOfValues := s.numberOfValues + 1 }

/-- orc/column/struct.go:199-216, the part inside `if w.opts.WriteIndex`. -/
def indexRow (o : COpts) (w : StructWriter) (v : Value) : Res StructWriter :=
  match w.indexStats with
  | none => .panic
  | some is => do
    let w := { w with indexInRows := w.indexInRows + 1 }
    let (w, is) := if w.indexInRows ≥ o.stride then
        ({ w with index := w.index ++ [⟨((w.present.map fun p => p.getPosition boolEnc o.toWOpts).getD []), is⟩], indexInRows := 0 },
          ⟨some 0, w.hasNulls, 0, 0⟩)
      else (w, is)
    let is ← count v.null is
    pure { w with indexStats := some is }

/-- orc/column/struct.go:183-219 `Write`. -/
def write (c : Codec) (o : COpts) (w : StructWriter) (v : Value) : Res StructWriter :=
  if w.hasNulls then do
    let p ← writeFlag c o w.hasNulls w.present v
    let stats ← count v.null w.stats
    let w := { w with present := p, stats := stats }
    if o.writeIndex then w.indexRow o v else pure w
  else .ok w

/-- orc/column/struct.go:221-230 `Flush`. -/
def flush (c : Codec) (o : COpts) (w : StructWriter) : Res StructWriter := do
  let p ← flushFlags c o w.hasNulls w.present
  let bytes := if w.hasNulls then (p.map (·.length)).getD 0 else w.stats.bytesOnDisk
  pure { w with present := p, stats := { w.stats with bytesOnDisk := bytes }, flushed := true }

/-- orc/column/struct.go:232-245 `WriteOut`. -/
def writeOut (o : COpts) (w : StructWriter) : Res (StructWriter × Bytes) :=
  if w.flushed = false then .err .other
  else do
    let (p, x) ← writeOutFlags o w.hasNulls w.present
    pure ({ w with present := p }, x)

/-- orc/column/struct.go:247-252 `GetStreamInfos`. -/
def streamInfos (w : StructWriter) : List (StreamKind × Nat) :=
  if w.hasNulls then [(.present, (w.present.map (·.length)).getD 0)] else []

/-- orc/column/struct.go:254-256 `Reset`, orc/column/writer.go:27-44. -/
def reset (o : COpts) (w : StructWriter) : Res StructWriter := do
  let p ← resetFlags w.hasNulls w.present
  let w := { w with present := p, flushed := false }
  if o.writeIndex then
    match w.indexStats with
    | none => .panic
    | some _ => pure { w with indexInRows := 0, index := [], indexStats := some ⟨none, false, 0, 0⟩ }
  else pure w

/-- orc/column/struct.go:258-263 `Size`. -/
def size (o : COpts) (w : StructWriter) : Nat :=
  if w.hasNulls then (w.present.map (·.size o.toWOpts)).getD 0 else 0

end StructWriter

/-! ### The dictionary writer -/

/-- orc/column/string.go:566-574 `stringDictionaryV2Writer`. `data` is the map from strings to positions, as a list of
its entries. The row index is created but nothing is ever added to it, so it is left out. -/
structure DictWriter where
  hasNulls : Bool
  present : Option (StreamWriter BoolEnc)
  dataStream : StreamWriter IntEnc
  dictStream : StreamWriter Unit
  lengthStream : StreamWriter IntEnc
  stats : ColStats StringStats
  count : Nat
  data : List (Bytes × List Nat)
  flushed : Bool
  deriving DecidableEq, Repr

namespace DictWriter

/-- orc/column/string.go:543-564 `NewStringDictionaryV2Writer`. -/
def new (o : COpts) (hasNulls : Bool) : DictWriter where
  hasNulls := hasNulls
  present := if hasNulls then some (newStreamWriter o.toWOpts (newBoolEncoder o.writeIndex)) else none
  dataStream := newStreamWriter o.toWOpts (newIntRLV2 false o.writeIndex)
  dictStream := newStreamWriter o.toWOpts ()
  lengthStream := newStreamWriter o.toWOpts (newIntRLV2 false o.writeIndex)
  stats := ⟨some ⟨some [], some [], some [], some [], 0⟩, hasNulls, 0, 0⟩
  count := 0
  data := []
  flushed := false

/-- `m[s] = append(m[s], i)`. orc/column/string.go:576-659. -/
def insert (s : Bytes) (i : Nat) : List (Bytes × List Nat) → List (Bytes × List Nat)
  | [] => [(s, [i])]
  | (k, ps) :: m => if k = s then (k, ps ++ [i]) :: m else (k, ps) :: insert s i m

/-- orc/column/string.go:597-614: the statistics; none of the pointers is ever nil. -/
def addStats (t : StringStats) (s : Bytes) : StringStats :=
  let t := { t with sum := t.sum + s.length }
  if s.length ≥ maxByteLength then
    let t := if bytesLt s (t.lower.getD []) then { t with lower := some s } else t
    if bytesLt (t.upper.getD []) s then { t with upper := some s } else t
  else
    let t := if bytesLt s (t.min.getD []) then { t with min := some s } else t
    if bytesLt (t.max.getD []) s then { t with max := some s } else t

/-- orc/column/string.go:576-659 `Write`. -/
def write (c : Codec) (o : COpts) (w : DictWriter) (v : Value) : Res DictWriter := do
  let p ← writeFlag c o w.hasNulls w.present v
  let w := { w with present := p }
  if v.null then pure w
  else match v.v with
    | .str s =>
      pure { w with count := w.count + 1, data := insert s (w.count + 1) w.data,
                    stats := { w.stats with typed := w.stats.typed.map fun t => addStats t s,
                                            numberOfValues := w.stats.numberOfValues + 1 } }
    | _ => .err .other

/-- A client writing several rows. For example orc/stripe.go:61-74. -/
def writes (c : Codec) (o : COpts) (w : DictWriter) : List Value → Res DictWriter
  | [] => .ok w
  | v :: vs => do
    let w ← w.write c o v
    writes c o w vs

/-- orc/column/string.go:671-673: `data[position] = dictIndex` for several positions; out of range panics. -/
def place (i : Nat) : List Nat → List Nat → Res (List Nat)
  | data, [] => .ok data
  | data, p :: ps => if p < data.length then place i (data.set p i) ps else .panic

/-- orc/column/string.go:668-674, the loop over the sorted dictionary from index `i` on. -/
def placeAll : Nat → List Nat → List (Bytes × List Nat) → Res (List Nat)
  | _, data, [] => .ok data
  | i, data, (_, ps) :: m => do
    let data ← place i data ps
    placeAll (i + 1) data m

/-- Inserting a key into sorted keys. Go's `sort.Strings`, called in orc/column/string.go:661-714. -/
def insertKey (e : Bytes × List Nat) : List (Bytes × List Nat) → List (Bytes × List Nat)
  | [] => [e]
  | f :: m => if bytesLt f.1 e.1 then f :: insertKey e m else e :: f :: m

/-- `sort.Strings` of the keys, each with its positions. orc/column/string.go:661-714. -/
def sorted (m : List (Bytes × List Nat)) : List (Bytes × List Nat) := m.foldr insertKey []

/-- orc/column/string.go:661-714 `Flush`. -/
def flush (c : Codec) (o : COpts) (w : DictWriter) : Res DictWriter := do
  let dict := sorted w.data
  let data ← placeAll 0 (List.replicate w.count 0) dict
  let d ← w.dataStream.writes intEnc c o.toWOpts (data.map fun i => GoVal.int (Int.ofNat i))
  let t ← w.dictStream.writes stringEnc c o.toWOpts (dict.map fun s => .str s.1)
  let l ← w.lengthStream.writes intEnc c o.toWOpts (dict.map fun s => .u64 (BitVec.ofNat 64 s.1.length))
  let p ← flushFlags c o w.hasNulls w.present
  let d ← d.flush intEnc c o.toWOpts
  let t ← t.flush stringEnc c o.toWOpts
  let l ← l.flush intEnc c o.toWOpts
  let base := if w.hasNulls then (p.map (·.length)).getD 0 else w.stats.bytesOnDisk
  pure { w with present := p, dataStream := d, dictStream := t, lengthStream := l, flushed := true,
                stats := { w.stats with bytesOnDisk := base + d.length + t.length + l.length } }

/-- orc/column/string.go:716-733 `WriteOut`. -/
def writeOut (o : COpts) (w : DictWriter) : Res (DictWriter × Bytes) := do
  let (p, x) ← writeOutFlags o w.hasNulls w.present
  let (d, y) := w.dataStream.writeOut o.toWOpts
  let (t, z) := w.dictStream.writeOut o.toWOpts
  let (l, u) := w.lengthStream.writeOut o.toWOpts
  pure ({ w with present := p, dataStream := d, dictStream := t, lengthStream := l }, x ++ y ++ z ++ u)

/-- orc/column/string.go:735-740 `GetStreamInfos`. -/
def streamInfos (w : DictWriter) : List (StreamKind × Nat) :=
  (if w.hasNulls then [(StreamKind.present, (w.present.map (·.length)).getD 0)] else []) ++
    [(.data, w.dataStream.length), (.dictionaryData, w.dictStream.length), (.length, w.lengthStream.length)]

/-- orc/column/string.go:742-750 `Reset`: the receiver is a copy, so `data` and `count` keep their values. -/
def reset (w : DictWriter) : Res DictWriter := do
  let p ← resetFlags w.hasNulls w.present
  let d ← w.dataStream.reset
  let t ← w.dictStream.reset
  let l ← w.lengthStream.reset
  pure { w with present := p, dataStream := d, dictStream := t, lengthStream := l, flushed := false }

/-- orc/column/string.go:752-759 `Size`. -/
def size (o : COpts) (w : DictWriter) : Nat :=
  (if w.hasNulls then (w.present.map (·.size o.toWOpts)).getD 0 else 0) + w.dataStream.size o.toWOpts +
    w.dictStream.size o.toWOpts + w.lengthStream.size o.toWOpts

end DictWriter

/-! ### Any column writer -/

/-- orc/column/package.go:41-67 `Writer`. -/
inductive AnyWriter where
  | leaf (t : LeafTag) (w : ColWriter t.δ t.κ)
  | dict (w : DictWriter)
  | struct (w : StructWriter)

/-- `pb.ColumnStatistics` of any column. pb/pb/orc_proto.pb.go:702. -/
inductive AnyStats where
  | leaf (t : LeafTag) (s : ColStats t.κ)
  | dict (s : ColStats StringStats)
  | struct (s : ColStats Nat)

/-- `pb.RowIndex` of any column. pb/pb/orc_proto.pb.go:868. -/
inductive AnyIndex where
  | leaf (t : LeafTag) (index : List (IndexEntry t.κ))
  | dict
  | struct (index : List (IndexEntry Nat))

namespace AnyWriter

/-- orc/column/package.go:201-303 `NewWriter`. -/
def new (A : Arith) (o : COpts) (n : SchemaNode) : Res AnyWriter := do
  let t ← newWriterTag n.kind n.encoding
  match t with
  | .leaf t => pure (.leaf t ((t.kind A).newWriter o n.hasNulls))
  | .dict => pure (.dict (DictWriter.new o n.hasNulls))
  | .struct => pure (.struct (StructWriter.new o n.hasNulls))

/-- `Write`. orc/column/package.go:41-67. -/
def write (A : Arith) (c : Codec) (o : COpts) : AnyWriter → Value → Res AnyWriter
  | .leaf t w, v => do let w ← (t.kind A).write c o w v; pure (.leaf t w)
  | .dict w, v => do let w ← w.write c o v; pure (.dict w)
  | .struct w, v => do let w ← w.write c o v; pure (.struct w)

/-- `Flush`. orc/column/package.go:41-67. -/
def flush (A : Arith) (c : Codec) (o : COpts) : AnyWriter → Res AnyWriter
  | .leaf t w => do let w ← (t.kind A).flush c o w; pure (.leaf t w)
  | .dict w => do let w ← w.flush c o; pure (.dict w)
  | .struct w => do let w ← w.flush c o; pure (.struct w)

/-- `WriteOut`: the writer and the bytes. orc/column/package.go:41-67. -/
def writeOut (A : Arith) (o : COpts) : AnyWriter → Res (AnyWriter × Bytes)
  | .leaf t w => do let (w, b) ← (t.kind A).writeOut o w; pure (.leaf t w, b)
  | .dict w => do let (w, b) ← w.writeOut o; pure (.dict w, b)
  | .struct w => do let (w, b) ← w.writeOut o; pure (.struct w, b)

/-- `GetIndex`. orc/column/writer.go:46-48. -/
def index : AnyWriter → AnyIndex
  | .leaf t w => .leaf t w.index
  | .dict _ => .dict
  | .struct w => .struct w.index

/-- `GetStreamInfos`. orc/column/package.go:41-67. -/
def streamInfos (A : Arith) : AnyWriter → List (StreamKind × Nat)
  | .leaf t w => (t.kind A).streamInfos w
  | .dict w => w.streamInfos
  | .struct w => w.streamInfos

/-- `GetStats`. orc/column/writer.go:50-52. -/
def stats : AnyWriter → AnyStats
  | .leaf t w => .leaf t w.stats
  | .dict w => .dict w.stats
  | .struct w => .struct w.stats

/-- `Reset`. orc/column/package.go:41-67. -/
def reset (A : Arith) (o : COpts) : AnyWriter → Res AnyWriter
  | .leaf t w => do let w ← (t.kind A).reset o w; pure (.leaf t w)
  | .dict w => do let w ← w.reset; pure (.dict w)
  | .struct w => do let w ← w.reset o; pure (.struct w)

/-- `Size`. orc/column/package.go:41-67. -/
def size (A : Arith) (o : COpts) : AnyWriter → Nat
  | .leaf t w => (t.kind A).size o w
  | .dict w => w.size o
  | .struct w => w.size o

end AnyWriter

/-- `pb.ColumnStatistics.GetHasNull`. pb/pb/orc_proto.pb.go:702. -/
def AnyStats.hasNull : AnyStats → Bool
  | .leaf _ s => s.hasNull
  | .dict s => s.hasNull
  | .struct s => s.hasNull

end Goorc
