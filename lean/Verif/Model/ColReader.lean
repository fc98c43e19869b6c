import Verif.Model.ColWriter
import Verif.Model.ColKinds
import Verif.Model.StreamTyped
/-
Model of the leaf column readers of orc/column. As with the writers, `ReadKind` collects the type-specific lines.
-/
namespace Goorc

/-- The type-specific lines of a leaf column reader; `ρ` are the readers of its data streams. What differs between
orc/column/byte.go, bool.go, int.go, float.go, string.go, binary.go, time.go and decimal.go; the instances below cite
the lines. -/
structure ReadKind (ρ : Type) where
  /-- the streams a column of this type has besides the present stream, as accepted by `InitStream` -/
  kinds : List StreamKind
  /-- does `InitStream` refuse a present stream if the schema has no nulls? -/
  checksNulls : Bool
  /-- the readers made by `InitStream`; a stream that is missing stays nil, and using it panics -/
  init : (StreamKind → Option StreamReader) → Option ρ
  /-- what `NextBatch` does once before its loop (only the dictionary reader does anything) -/
  prepare : Codec → ρ → Res ρ
  /-- reading one non-null value -/
  next : Codec → ρ → Res (GoVal × ρ)
  /-- what is then done with it: the old and the read value give the new `vec.Vector[i].V` -/
  store : GoVal → GoVal → Res GoVal
  /-- `Skip` of one non-null value -/
  skip : Codec → ρ → Res ρ
  /-- an error of `skip` ends `Skip` early without being reported (only the binary reader) -/
  skipSwallows : Codec → ρ → Bool
  /-- does `SeekStride` treat stride 0 specially? -/
  seeksZero : Bool
  /-- how many numbers of the encoder follow the stream position, for every data stream -/
  layout : List Nat
  /-- `Seek` of the data streams, one (chunk, chunkOffset, rest) for each -/
  seek : Codec → ρ → List (Nat × Nat × List Nat) → Res ρ
  /-- a stream of another kind is dropped without an error (only the byte reader) -/
  dropsOthers : Bool := false
  /-- `SeekStride` goes by `schema.HasNulls` and not by the present stream, and moves that stream before it looks at the
  other positions (only the date reader) -/
  byNulls : Bool := false

/-- A leaf column reader: `present` and `index` may be nil. `hasNulls` is `schema.HasNulls`, `kind` is
`opts.CompressionKind`. The index is reduced to the positions of its entries. orc/column/reader.go:17-23 and the structs
that embed it, for example orc/column/int.go:179-185. -/
structure ColReader (ρ : Type) where
  hasNulls : Bool
  kind : CompKind
  present : Option BoolReader
  data : ρ
  index : Option (List (List Nat))

/-- orc/column/reader.go:61-75 `getStridePositions`: a stride beyond the last entry sets an error, but then indexes the
entries all the same and panics. `stride` is an `int`; it is never negative here. -/
def getStridePositions (index : Option (List (List Nat))) (stride : Nat) : Res (List Nat) :=
  match index with
  | none => .err .other
  | some es =>
    if stride < 1 then .err .other
    else match es[stride - 1]? with
      | some p => .ok p
      | none => .panic

/-- `pos[i]`. For example orc/column/int.go:263-321. -/
def posAt (pos : List Nat) (i : Nat) : Res Nat :=
  match pos[i]? with
  | some p => .ok p
  | none => .panic

/-- `n` numbers from index `i` on. For example orc/column/int.go:263-321. -/
def posFrom (pos : List Nat) : Nat → Nat → Res (List Nat)
  | _, 0 => .ok []
  | i, n + 1 => do
    let p ← posAt pos i
    let ps ← posFrom pos (i + 1) n
    pure (p :: ps)

/-- The position of one stream, from index `i` on: with compression chunk and offset, without only the offset (chunk 0);
then `n` numbers of the encoder. Also the index of the next stream's position. For example orc/column/int.go:263-321. -/
def streamPos (kind : CompKind) (pos : List Nat) (i n : Nat) : Res ((Nat × Nat × List Nat) × Nat) :=
  if kind = .none then do
    let off ← posAt pos i
    let rest ← posFrom pos (i + 1) n
    pure ((0, off, rest), i + 1 + n)
  else do
    let chunk ← posAt pos i
    let off ← posAt pos (i + 1)
    let rest ← posFrom pos (i + 2) n
    pure ((chunk, off, rest), i + 2 + n)

/-- The positions of several streams. For example orc/column/string.go:286-361. -/
def streamsPos (kind : CompKind) (pos : List Nat) : Nat → List Nat → Res (List (Nat × Nat × List Nat))
  | _, [] => .ok []
  | i, n :: ns => do
    let (p, i) ← streamPos kind pos i n
    let ps ← streamsPos kind pos i ns
    pure (p :: ps)

/-- `Seek` of a boolean stream. orc/stream/bool.go:35-47. -/
def seekBool (c : Codec) (r : BoolReader) (p : Nat × Nat × List Nat) : Res BoolReader :=
  r.seek c p.1 p.2.1 (p.2.2.getD 0 0) (p.2.2.getD 1 0)

namespace ReadKind

variable {ρ : Type} (K : ReadKind ρ)

/-- `InitStream`, the checks: byte.go:146-167, bool.go:150-171, int.go:187-210, float.go:26-47, string.go:217-237 and
386-411, binary.go:157-180, time.go:155-180 and 460-483, decimal.go:190-213. The byte reader reports no error for a
stream of another kind, and drops it. -/
def accepts (hasNulls : Bool) : StreamKind → Bool
  | .present => !K.checksNulls || hasNulls
  | k => K.kinds.contains k || K.dropsOthers

/-- The reader after `InitStream` was called for every stream of the column; `none` if a call fails or a data stream is
missing. The callers are in orc/stripe.go:246-316; `InitStream` for example orc/column/int.go:187-210. -/
def openCol (kind : CompKind) (hasNulls : Bool) (streams : List (StreamKind × StreamReader)) : Option (ColReader ρ) :=
  if streams.all fun s => K.accepts hasNulls s.1 then
    (K.init fun k => (streams.reverse.find? fun s => s.1 = k).map (·.2)).map fun d =>
      ⟨hasNulls, kind, ((streams.reverse.find? fun s => s.1 = .present).map (·.2)).map newBoolReader, d, none⟩
  else none

/-- The loop of `NextBatch`: byte.go:169-186, bool.go:173-192, int.go:212-241, float.go:49-73, string.go:239-261 and
430-447, binary.go:207-228, time.go:182-201 and 485-511, decimal.go:215-240. The vector is a list of its old values; the
result are its new ones. -/
def nextRows (c : Codec) : ColReader ρ → List Value → Res (List Value × ColReader ρ)
  | r, [] => .ok ([], r)
  | r, old :: vec => do
    let (null, r) ← (match r.present with
      | some p => do
        let (b, p) ← p.next c
        pure (!b, { r with present := some p })
      | none => pure (old.null, r) : Res (Bool × ColReader ρ))
    let (v, r) ← (if null then pure (old.v, r)
      else do
        let (x, d) ← K.next c r.data
        let x ← K.store old.v x
        pure (x, { r with data := d }) : Res (GoVal × ColReader ρ))
    let (vs, r) ← nextRows c r vec
    pure (⟨null, v⟩ :: vs, r)

/-- `NextBatch`. For example orc/column/int.go:212-241; the others are cited at the loop. -/
def nextBatch (c : Codec) (r : ColReader ρ) (vec : List Value) : Res (List Value × ColReader ρ) := do
  let d ← K.prepare c r.data
  K.nextRows c { r with data := d } vec

/-- `Skip`: byte.go:188-206, bool.go:194-212, int.go:243-261, float.go:75-99, string.go:263-284 and 450-467,
binary.go:182-205, time.go:203-221 and 513-534, decimal.go:242-263. -/
def skipRows (c : Codec) : Nat → ColReader ρ → Res (ColReader ρ)
  | 0, r => .ok r
  | n + 1, r => do
    let (p, r) ← (match r.present with
      | some p => do
        let (b, p) ← p.next c
        pure (b, { r with present := some p })
      | none => pure (true, r) : Res (Bool × ColReader ρ))
    if p then
      if K.skipSwallows c r.data then pure r
      else do
        let d ← K.skip c r.data
        skipRows c n { r with data := d }
    else skipRows c n r

/-- `SeekStride`: byte.go:208-266, bool.go:214-276, int.go:263-321, float.go:101-155, string.go:286-361 and 469-532,
binary.go:230-306, time.go:223-270 and 536-615, decimal.go:265-343. The date reader looks at the data positions only
after it has moved the present stream; without a present stream it goes by `schema.HasNulls`, and skips numbers that are not
there. -/
def seekStride (c : Codec) (r : ColReader ρ) (stride : Nat) : Res (ColReader ρ) :=
  if K.seeksZero ∧ stride = 0 then do
    let p ← (match r.present with
      | some p => do let p ← p.seek c 0 0 0 0; pure (some p)
      | none => pure none : Res (Option BoolReader))
    let d ← K.seek c r.data (K.layout.map fun n => (0, 0, List.replicate n 0))
    pure { r with present := p, data := d }
  else do
    let pos ← getStridePositions r.index stride
    match r.present with
    | some p => do
      let (pp, i) ← streamPos r.kind pos 0 2
      let (p, ds) ← (if K.byNulls then do
          let p ← seekBool c p pp
          let ds ← streamsPos r.kind pos i K.layout
          pure (p, ds)
        else do
          let ds ← streamsPos r.kind pos i K.layout
          let p ← seekBool c p pp
          pure (p, ds) : Res (BoolReader × List (Nat × Nat × List Nat)))
      let d ← K.seek c r.data ds
      pure { r with present := some p, data := d }
    | none => do
      let ds ← streamsPos r.kind pos (if K.byNulls ∧ r.hasNulls then (if r.kind = .none then 3 else 4) else 0) K.layout
      let d ← K.seek c r.data ds
      pure { r with data := d }

end ReadKind

/-- The old value is simply replaced. For example orc/column/byte.go:169-186. -/
def replaceValue (_old x : GoVal) : Res GoVal := .ok x

/-- tinyint: orc/column/byte.go:135-273. -/
def byteRead : ReadKind ByteReader where
  kinds := [.data]
  checksNulls := true
  init s := (s .data).map fun r => ⟨r, []⟩
  prepare _ r := .ok r
  next c r := do let (b, r) ← r.nextByte c; pure (.u8 b, r)
  store := replaceValue
  skip c r := do let (_, r) ← r.nextByte c; pure r
  skipSwallows _ _ := false
  seeksZero := true
  layout := [1]
  seek c r ps := match ps with
    | [(a, b, [n])] => r.seekByte c a b n
    | _ => .panic
  dropsOthers := true

/-- boolean: orc/column/bool.go:139-283. -/
def boolRead : ReadKind BoolReader where
  kinds := [.data]
  checksNulls := true
  init s := (s .data).map newBoolReader
  prepare _ r := .ok r
  next c r := do let (b, r) ← r.next c; pure (.bool b, r)
  store := replaceValue
  skip c r := do let (_, r) ← r.next c; pure r
  skipSwallows _ _ := false
  seeksZero := true
  layout := [2]
  seek c r ps := match ps with
    | [(a, b, [n, m])] => r.seek c a b n m
    | _ => .panic

/-- The conversions of orc/column/int.go:229-236. -/
def IntBits.read : IntBits → U64 → GoVal
  | .small, v => .i16 (v.setWidth 16)
  | .int, v => .i32 (v.setWidth 32)
  | .big, v => .i64 v

/-- smallint, int, bigint: orc/column/int.go:175-328. -/
def intRead (bits : IntBits) : ReadKind IntReader where
  kinds := [.data]
  checksNulls := false
  init s := (s .data).map (newIntReader true)
  prepare _ r := .ok r
  next c r := do let (v, r) ← r.nextInt64 c; pure (bits.read v, r)
  store := replaceValue
  skip c r := do let (_, r) ← r.nextInt64 c; pure r
  skipSwallows _ _ := false
  seeksZero := true
  layout := [1]
  seek c r ps := match ps with
    | [(a, b, [n])] => r.seek c a b n
    | _ => .panic

/-- float, double: orc/column/float.go:14-162. -/
def floatRead (is64 : Bool) : ReadKind FloatReader where
  kinds := [.data]
  checksNulls := true
  init s := (s .data).map fun r => ⟨is64, r⟩
  prepare _ r := .ok r
  next c r := if is64 then do let (v, r) ← r.nextDouble c; pure (.f64 v, r)
    else do let (v, r) ← r.nextFloat c; pure (.f32 v, r)
  store := replaceValue
  skip c r := if is64 then do let (_, r) ← r.nextDouble c; pure r
    else do let (_, r) ← r.nextFloat c; pure r
  skipSwallows _ _ := false
  seeksZero := true
  layout := [0]
  seek c r ps := match ps with
    | [(a, b, [])] => r.seek c a b
    | _ => .panic

/-- The data and length streams of string and binary columns. orc/column/string.go:209-215,
orc/column/binary.go:149-155. -/
structure TextReader where
  data : StreamReader
  length : IntReader

/-- A length, then that many bytes. orc/column/string.go:239-261, orc/column/binary.go:207-228. -/
def TextReader.next (c : Codec) (r : TextReader) : Res (Bytes × TextReader) := do
  let (l, len) ← r.length.nextUInt64 c
  let (b, data) ← nextBytes c r.data l.toNat
  pure (b, ⟨data, len⟩)

/-- `Seek` of both streams. orc/column/string.go:286-361, orc/column/binary.go:230-306. -/
def TextReader.seek (c : Codec) (r : TextReader) : List (Nat × Nat × List Nat) → Res TextReader
  | [(a, b, []), (a', b', [n])] => do
    let data ← r.data.seek c a b
    let len ← r.length.seek c a' b' n
    pure ⟨data, len⟩
  | _ => .panic

/-- string, direct: orc/column/string.go:205-369. -/
def stringRead : ReadKind TextReader where
  kinds := [.data, .length]
  checksNulls := false
  init s := match s .data, s .length with
    | some d, some l => some ⟨d, newIntReader false l⟩
    | _, _ => none
  prepare _ r := .ok r
  next c r := do let (b, r) ← r.next c; pure (.str b, r)
  store := replaceValue
  skip c r := do let (_, r) ← r.next c; pure r
  skipSwallows _ _ := false
  seeksZero := true
  layout := [0, 1]
  seek := TextReader.seek

/-- binary: orc/column/binary.go:145-314. `Skip` returns nil when reading the bytes fails (binary.go:199-201); the state
that leaves behind is not modelled. -/
def binaryRead : ReadKind TextReader where
  kinds := [.data, .length]
  checksNulls := true
  init s := match s .data, s .length with
    | some d, some l => some ⟨d, newIntReader false l⟩
    | _, _ => none
  prepare _ r := .ok r
  next c r := do let (b, r) ← r.next c; pure (.bytes b, r)
  store := replaceValue
  skip c r := do let (_, r) ← r.next c; pure r
  skipSwallows c r := match r.length.nextUInt64 c with
    | .ok (l, _) => match nextBytes c r.data l.toNat with
      | .err _ => true
      | _ => false
    | _ => false
  seeksZero := true
  layout := [0, 1]
  seek := TextReader.seek

/-- date: orc/column/time.go:144-277. Stride 0 is not special here. -/
def dateRead : ReadKind DateReader where
  kinds := [.data]
  checksNulls := true
  init s := (s .data).map fun r => ⟨r, []⟩
  prepare _ r := .ok r
  next c r := do let (d, r) ← r.nextDate c; pure (.date d, r)
  store := replaceValue
  skip c r := do let (_, r) ← r.nextDate c; pure r
  skipSwallows _ _ := false
  seeksZero := false
  layout := [1]
  seek c r ps := match ps with
    | [(a, b, [n])] => r.seekDate c a b n
    | _ => .panic
  byNulls := true

/-- The two streams of timestamps. orc/column/time.go:451-458. -/
structure TsReader where
  data : IntReader
  secondary : IntReader

/-- timestamp: orc/column/time.go:444-623. What is read goes to a copy of the old value (time.go:505-507); if the old
value is not a timestamp the type assertion panics. -/
def timestampRead : ReadKind TsReader where
  kinds := [.data, .secondary]
  checksNulls := true
  init s := match s .data, s .secondary with
    | some d, some l => some ⟨newIntReader true d, newIntReader false l⟩
    | _, _ => none
  prepare _ r := .ok r
  next c r := do
    let (s, data) ← r.data.nextInt64 c
    let (n, sec) ← r.secondary.nextUInt64 c
    pure (.ts none s (decodingNano n), ⟨data, sec⟩)
  store old _ := match old with
    | .ts .. => .ok old
    | _ => .panic
  skip c r := do
    let (_, data) ← r.data.nextInt64 c
    let (_, sec) ← r.secondary.nextUInt64 c
    pure ⟨data, sec⟩
  skipSwallows _ _ := false
  seeksZero := true
  layout := [1, 1]
  seek c r ps := match ps with
    | [(a, b, [n]), (a', b', [n'])] => do
      let data ← r.data.seek c a b n
      let sec ← r.secondary.seek c a' b' n'
      pure ⟨data, sec⟩
    | _ => .panic

/-- The two streams of decimals. orc/column/decimal.go:182-188. -/
structure DecReader where
  data : StreamReader
  secondary : IntReader

/-- decimal: orc/column/decimal.go:178-351. As with timestamps the value read is lost (decimal.go:235-237). -/
def decimalRead : ReadKind DecReader where
  kinds := [.data, .secondary]
  checksNulls := true
  init s := match s .data, s .secondary with
    | some d, some l => some ⟨d, newIntReader true l⟩
    | _, _ => none
  prepare _ r := .ok r
  next c r := do
    let (p, data) ← nextVarint c r.data
    let (s, sec) ← r.secondary.nextInt64 c
    pure (.dec p s.toInt, ⟨data, sec⟩)
  store old _ := match old with
    | .dec .. => .ok old
    | _ => .panic
  skip c r := do
    let (_, data) ← nextVarint c r.data
    let (_, sec) ← r.secondary.nextInt64 c
    pure ⟨data, sec⟩
  skipSwallows _ _ := false
  seeksZero := true
  layout := [1, 1]
  seek c r ps := match ps with
    | [(a, b, [n]), (a', b', [n'])] => do
      let data ← seekVarint c r.data a b n
      let sec ← r.secondary.seek c a' b' n'
      pure ⟨data, sec⟩
    | _ => .panic

/-- orc/column/string.go:375-384 `StringDictionaryV2Reader`; `fuel` bounds the loop that loads the dictionary. -/
structure DictReader where
  data : IntReader
  dict : StreamReader
  length : IntReader
  strings : List Bytes
  loaded : Bool

/-- orc/column/string.go:417-426, the loop that loads the dictionary. -/
def DictReader.load (c : Codec) : Nat → DictReader → Res DictReader
  | fuel, r =>
    if r.length.finished then .ok r
    else
      match fuel with
      | 0 => .hang
      | fuel + 1 => do
        let (l, len) ← r.length.nextUInt64 c
        let (s, dict) ← nextBytes c r.dict l.toNat
        DictReader.load c fuel { r with length := len, dict := dict, strings := r.strings ++ [s] }

/-- string, dictionary: orc/column/string.go:371-541. -/
def dictRead (fuel : Nat) : ReadKind DictReader where
  kinds := [.data, .dictionaryData, .length]
  checksNulls := true
  init s := match s .data, s .dictionaryData, s .length with
    | some d, some t, some l => some ⟨newIntReader false d, t, newIntReader false l, [], false⟩
    | _, _, _ => none
  prepare c r := if r.loaded then .ok r
    else do let r ← r.load c fuel; pure { r with loaded := true }
  next c r := do
    let (i, data) ← r.data.nextUInt64 c
    match r.strings[i.toNat]? with
    | some s => pure (.str s, { r with data := data })
    | none => .panic
  store := replaceValue
  skip c r := do
    let (_, data) ← r.data.nextUInt64 c
    pure { r with data := data }
  skipSwallows _ _ := false
  seeksZero := true
  layout := [1]
  seek c r ps := match ps with
    | [(a, b, [n])] => do
      let data ← r.data.seek c a b n
      pure { r with data := data }
    | _ => .panic

/-- A reader some data stream of which is missing: `InitStream` was never called for it, it is nil, and using it panics. The
columns of nulls of other writers are such: they have no data streams. Which streams are missing is not said: of two streams
that are used together the first may be there, and its error be reported; here that is a panic too. `loads` is for the
dictionary, which is loaded before the first row; here it is nil whenever something is missing. Nothing is read, so nothing is
stored. For example orc/column/int.go:212-270, orc/column/string.go:413-447. -/
def ReadKind.bare {ρ : Type} (K : ReadKind ρ) (loads : Bool) : ReadKind Unit where
  kinds := K.kinds
  checksNulls := K.checksNulls
  init _ := some ()
  prepare _ _ := if loads then .panic else .ok ()
  next _ _ := .panic
  store _ x := .ok x
  skip _ _ := .panic
  skipSwallows _ _ := false
  seeksZero := K.seeksZero
  layout := K.layout
  seek _ _ _ := .panic
  dropsOthers := K.dropsOthers
  byNulls := K.byNulls

end Goorc
