import Verif.Model.StripeWriter
/-
Model of orc/reader.go and of the reading half of orc/stripe.go.

A file is a list of bytes; reading from it fails only beyond its end.
-/
namespace Goorc

/-- `pb.FileTail`, the fields that are used. pb/pb/orc_proto.pb.go:1673. -/
structure FileTail where
  postScript : PostScript
  footer : FileFooter

/-- `f.Seek(start)`, `io.ReadFull(f, buf)`; `start` may be negative. A `ReadFull` of no bytes succeeds everywhere.
orc/reader.go:254-343, orc/stripe.go:221-243, orc/column/reader.go:33-59. -/
def readAt (file : Bytes) (start : Int) (n : Nat) : Res Bytes :=
  if start < 0 then .err .other
  else if n ≤ file.length - start.toNat then .ok ((file.drop start.toNat).take n)
  else .err .eof

/-- `buf[start : start+n]`, `start` may be negative. The capacity of `buf` is taken to be its length.
orc/reader.go:254-343. -/
def sliceAt (buf : Bytes) (start : Int) (n : Nat) : Res Bytes :=
  if 0 ≤ start ∧ start.toNat + n ≤ buf.length then .ok ((buf.drop start.toNat).take n) else .panic

/-- `proto.Unmarshal`. orc/reader.go:254-357, orc/stripe.go:221-243, orc/column/reader.go:33-59. -/
def unmarshal {α : Type} (read : Bytes → Option α) (b : Bytes) : Res α :=
  match read b with
  | some x => .ok x
  | none => .err .other

/-- `DIRECTORY_SIZE_GUESS`, orc/reader.go:21. -/
def directorySizeGuess : Nat := 16 * 1024

/-- orc/reader.go:254-343 `extractFileTail`, and 345-357 `extractPostScript`: `none` is a nil tail. The lengths in the
postscript are converted from `uint64` to `int64`; 2^63 and more are not considered. -/
def extractFileTail (E : Env) (file : Bytes) : Res (Option FileTail) :=
  if file.length = 0 then .ok none
  else if file.length ≤ 3 then .err .other
  else do
    let readSize := min file.length directorySizeGuess
    let buf ← readAt file ((file.length : Int) - readSize) readSize
    let psLen := (buf.getD (readSize - 1) 0).toNat
    let psOffset : Int := (readSize : Int) - 1 - psLen
    let psBuf ← sliceAt buf psOffset psLen
    let ps ← unmarshal E.P.readPostScript psBuf
    let extra := psLen + 1 + ps.footerLength + ps.metadataLength - readSize
    let buf ← (if 0 < extra then do
        let ebuf ← readAt file ((file.length : Int) - readSize - extra) extra
        pure (buf ++ ebuf)
      else pure buf : Res Bytes)
    let footerBuf ← sliceAt buf (psOffset - ps.footerLength) ps.footerLength
    let footerBuf ← (if ps.compression ≠ .none then decompressChunks E.c ps.compression footerBuf else pure footerBuf : Res Bytes)
    let footer ← unmarshal E.P.readFileFooter footerBuf
    pure (some ⟨ps, footer⟩)

/-- orc/config/opts.go `ReaderOptions`. -/
structure ROpts where
  kind : CompKind
  chunkSize : Nat
  indexStride : Nat
  deriving DecidableEq, Repr

/-- A `TypeDescription` of the reader: `unmarshallSchema` leaves `HasNulls` false, `newReader` sets it from the statistics.
(`Encoding` is set for each stripe, see `initColumns`.) orc/reader.go:43-76, orc/stripe.go:246-316. -/
structure RdType extends HeapType where
  hasNulls : Bool
  deriving DecidableEq, Repr

/-- orc/reader.go:58-60: `schemas[i].HasNulls = stat.GetHasNull()`; more statistics than types is an index out of range. -/
def setHasNulls : List HeapType → List AnyStats → Res (List RdType)
  | ts, [] => .ok (ts.map fun t => ⟨t, false⟩)
  | [], _ :: _ => .panic
  | t :: ts, s :: ss => do
    let rest ← setHasNulls ts ss
    pure (⟨t, s.hasNull⟩ :: rest)

/-- orc/reader.go:32-41 `reader`. -/
structure FileReader where
  file : Bytes
  opts : ROpts
  schemas : List RdType
  numberOfRows : Nat
  stats : List AnyStats
  stripes : List StripeInfo

/-- `config.DefaultChunkSize`, orc/config/opts.go. -/
def defaultChunkSize : Nat := 256 * 1024

/-- orc/reader.go:43-76 `newReader`: a nil tail is dereferenced. -/
def newReader (E : Env) (file : Bytes) : Res FileReader := do
  let t ← extractFileTail E file
  match t with
  | none => .panic
  | some t =>
    if t.footer.numberOfRows = 0 then .err .other
    else do
      let ts ← unmarshallSchema t.footer.types
      let schemas ← setHasNulls ts t.footer.statistics
      let chunkSize := if t.postScript.compression ≠ .none then t.postScript.blockSize else defaultChunkSize
      pure ⟨file, ⟨t.postScript.compression, chunkSize, t.footer.rowIndexStride⟩, schemas, t.footer.numberOfRows, t.footer.statistics,
        t.footer.stripes⟩

/-! ### Opening a stripe -/

/-- orc/stripe.go:221-243 `readFooter`. -/
def readStripeFooter (E : Env) (ro : ROpts) (file : Bytes) (info : StripeInfo) : Res StripeFooter := do
  let b ← readAt file (info.offset + info.indexLength + info.dataLength : Nat) info.footerLength
  let b ← (if ro.kind ≠ .none then decompressChunks E.c ro.kind b else pure b : Res Bytes)
  unmarshal E.P.readStripeFooter b

/-- A column reader before it has its children: what `NewReader` made, and the streams and the index it was given so
far. orc/stripe.go:246-316. -/
structure FlatRd where
  tag : ReaderTag
  hasNulls : Bool
  streams : List (StreamKind × StreamReader)
  index : Option (List (List Nat))

/-- orc/stripe.go:248-261: the readers of the included columns, `none` where `readers[id]` stays nil. -/
def initColumns (bo : BatchOption) (columns : List Encoding) : List RdType → Res (List (Option FlatRd))
  | [] => .ok []
  | t :: ts => do
    let r ← (if bo.isInclude t.id then
        match columns[t.id]? with
        | none => .panic
        | some enc => do
          let tag ← newReaderTag t.kind enc
          pure (some ⟨tag, t.hasNulls, [], none⟩)
      else pure none : Res (Option FlatRd))
    let rs ← initColumns bo columns ts
    pure (r :: rs)

/-- `InitStream`, whether it accepts a stream: the leaves, struct.go:31-48, list.go:26-44, map.go:35-56. -/
def ReaderTag.accepts (hasNulls : Bool) : ReaderTag → StreamKind → Bool
  | .leaf t, k => t.read.accepts hasNulls k
  | .dict, k => (dictRead 0).accepts hasNulls k
  | .struct, k => k = .present && hasNulls
  | .list, k => k = .present || k = .length
  | .map, k => (k = .present && hasNulls) || k = .length

/-- orc/column/reader.go:33-59 `InitIndex`. -/
def initIndex (E : Env) (ro : ROpts) (file : Bytes) (start length : Nat) (r : FlatRd) : Res FlatRd := do
  let b ← readAt file start length
  let b ← (if ro.kind = .none then pure b else decompressChunks E.c ro.kind b : Res Bytes)
  let i ← unmarshal E.P.readIndex b
  pure { r with index := some i }

/-- `InitStream` of one stream. orc/column/package.go:22-39; called in orc/stripe.go:246-316. -/
def initStream (ro : ROpts) (file : Bytes) (start : Nat) (s : StreamInfo) (r : FlatRd) : Res FlatRd :=
  if r.tag.accepts r.hasNulls s.kind then
    .ok { r with streams := r.streams ++ [(s.kind, newStreamReader ro.kind ro.chunkSize start s.length file)] }
  else .err .other

/-- orc/stripe.go:263-287: the streams in the order of the footer, and where they start. A column that does not exist is an
index out of range. -/
def initStreams (E : Env) (ro : ROpts) (file : Bytes) : Nat → Nat → List StreamInfo → List (Option FlatRd) → Res (List (Option FlatRd))
  | _, _, [], rs => .ok rs
  | indexStart, dataStart, s :: ss, rs =>
    match rs[s.column]? with
    | none => .panic
    | some none =>
      if s.kind = .rowIndex then initStreams E ro file (indexStart + s.length) dataStart ss rs
      else initStreams E ro file indexStart (dataStart + s.length) ss rs
    | some (some r) =>
      if s.kind = .rowIndex then do
        let r ← initIndex E ro file indexStart s.length r
        initStreams E ro file (indexStart + s.length) dataStart ss (rs.set s.column (some r))
      else do
        let r ← initStream ro file dataStart s r
        initStreams E ro file indexStart (dataStart + s.length) ss (rs.set s.column (some r))

/-- orc/stripe.go:291-312, one child with position `i`: `parent` may be nil. -/
def linkChild (kind : TypeKind) (parent : Option FlatRd) (i : Nat) : Res Unit :=
  match kind with
  | .struct | .list => if parent.isNone then .panic else .ok ()
  | .map => if i ≤ 1 then (if parent.isNone then .panic else .ok ()) else .err .other
  | _ => .err .other

/-- orc/stripe.go:291-312, the children of one type from position `i` on. -/
def linkChildren (bo : BatchOption) (kind : TypeKind) (parent : Option FlatRd) : Nat → List Nat → Res Unit
  | _, [] => .ok ()
  | i, c :: cs => do
    (if bo.isInclude c then linkChild kind parent i else pure () : Res Unit)
    linkChildren bo kind parent (i + 1) cs

/-- orc/stripe.go:289-313, the checks made while the tree is built. -/
def linkAll (bo : BatchOption) : List RdType → List (Option FlatRd) → Res Unit
  | t :: ts, r :: rs => do
    linkChildren bo t.kind r 0 t.children
    linkAll bo ts rs
  | _, _ => .ok ()

/-- The child of a list or map with position `i`, if it is included; `SetChild` and the others may be called more than once,
the last call counts. orc/stripe.go:246-316. -/
def includedChild (bo : BatchOption) (children : List Nat) (i : Nat) : Option Nat :=
  match children[i]? with
  | some c => if bo.isInclude c then some c else none
  | none => none

/-- The readers of several columns. orc/stripe.go:246-316. -/
def treesOf {α : Type} (f : Nat → Res α) : List Nat → Res (List α)
  | [] => .ok []
  | i :: is => do
    let x ← f i
    let xs ← treesOf f is
    pure (x :: xs)

/-- The reader of a column that may not be included. orc/stripe.go:246-316. -/
def treeOn {α : Type} (f : Nat → Res α) : Option Nat → Res (Option α)
  | none => .ok none
  | some i => do
    let x ← f i
    pure (some x)

/-- The stream of a kind, if there is one: the last one counts. For example orc/column/int.go:187-210. -/
def FlatRd.stream (r : FlatRd) (k : StreamKind) : Option StreamReader := (r.streams.reverse.find? fun s => s.1 = k).map (·.2)

/-- A leaf reader with its streams; `tag` is `none` for a dictionary. A data stream that is missing stays nil. For example
orc/column/int.go:187-210. -/
def openLeaf {ρ χ : Type} (mk : ColReader ρ → RdNode χ) (tag : Option LeafTag) (R : ReadKind ρ) (kind : CompKind) (r : FlatRd) : RdNode χ :=
  match R.openCol kind r.hasNulls r.streams with
  | none => .bare tag ⟨r.hasNulls, kind, (r.stream .present).map newBoolReader, (), r.index⟩
  | some x => mk { x with index := r.index }

/-- orc/stripe.go:289-313: the reader of column `id` with its children. Types that are not the nodes of a tree (a cycle, or a
type with two parents) are not considered; a cycle is never ending recursion. A list with more than one child uses the last. -/
def treeOf (bo : BatchOption) (ro : ROpts) (types : List RdType) (rs : List (Option FlatRd)) : (n : Nat) → Nat → Res (Rd n)
  | 0, _ => .hang
  | n + 1, id =>
    match types[id]?, rs[id]? with
    | some t, some (some r) =>
      match r.tag with
      | .leaf l => pure (openLeaf (.leaf l) (some l) l.read ro.kind r : RdNode (Rd n))
      | .dict => pure (openLeaf .dict none (dictRead 0) ro.kind r : RdNode (Rd n))
      | .struct => do
        let cs ← treesOf (treeOf bo ro types rs n) (t.children.filter bo.isInclude)
        pure (RdNode.struct ro.kind ((r.stream .present).map newBoolReader) r.index cs : RdNode (Rd n))
      | .list => do
        let c ← treeOn (treeOf bo ro types rs n) (t.children.filter bo.isInclude).getLast?
        pure (RdNode.list ro.kind ((r.stream .present).map newBoolReader) ((r.stream .length).map (newIntReader false)) r.index c :
          RdNode (Rd n))
      | .map => do
        let k ← treeOn (treeOf bo ro types rs n) (includedChild bo t.children 0)
        let v ← treeOn (treeOf bo ro types rs n) (includedChild bo t.children 1)
        pure (RdNode.map ro.kind ((r.stream .present).map newBoolReader) ((r.stream .length).map (newIntReader false)) r.index k v :
          RdNode (Rd n))
    | _, _ => .panic

/-- orc/stripe.go:194-206 `stripeReader` with a column reader of type `χ`; `none` is nil. -/
structure StripeReader (χ : Type) where
  hasNulls : List Bool
  reader : Option χ
  numberOfRows : Nat
  cursor : Nat

/-- orc/stripe.go:245-316 `init`: the column reader is that of the first included column. -/
def initStripe (E : Env) (ro : ROpts) (bo : BatchOption) (file : Bytes) (types : List RdType) (info : StripeInfo) (footer : StripeFooter) :
    Res (Option (Rd types.length)) := do
  let rs ← initColumns bo footer.columns types
  let rs ← initStreams E ro file info.offset (info.offset + info.indexLength) footer.streams rs
  linkAll bo types rs
  treeOn (treeOf bo ro types rs types.length) ((types.find? fun t => bo.isInclude t.id).map (·.id))

/-- orc/stripe.go:208-219 `newStripeReader`. -/
def newStripeReader (E : Env) (ro : ROpts) (bo : BatchOption) (file : Bytes) (types : List RdType) (info : StripeInfo) :
    Res (StripeReader (Rd types.length)) := do
  let footer ← readStripeFooter E ro file info
  let r ← initStripe E ro bo file types info footer
  pure ⟨types.map (·.hasNulls), r, info.numberOfRows, 0⟩

/-! ### Reading -/

/-- `s[:n]`; `n` may be negative, or larger than the capacity. orc/stripe.go:332-366. -/
def resize (n : Int) : Option Slice → Res (Option Slice)
  | none => if n = 0 then .ok none else .panic
  | some s => if 0 ≤ n ∧ n.toNat ≤ s.arr.length then .ok (some { s with len := n.toNat }) else .panic

/-- `vec.Children[i].Vector = vec.Children[i].Vector[:0]`. orc/stripe.go:340-366. -/
def emptyChild (cs : List Vec) (i : Nat) : Res (List Vec) :=
  match cs[i]? with
  | some (.mk id k s ds) => .ok (cs.set i (.mk id k (s.map fun s => { s with len := 0 }) ds))
  | _ => .panic

mutual
/-- orc/stripe.go:340-366 `setVectorSize`; `hasNulls` are those of the schemas. -/
def setVectorSize (hasNulls : List Bool) (size : Int) : Vec → Res Vec
  | .nil => .panic
  | .mk id kind s cs =>
    match kind with
    | .struct =>
      match hasNulls[id]? with
      | none => .panic
      | some h => do
        let s ← (if h then resize size s else pure s : Res (Option Slice))
        let cs ← setVectorSizes hasNulls size cs
        pure (.mk id .struct s cs)
    | .list => do
      let s ← resize size s
      let cs ← emptyChild cs 0
      pure (.mk id .list s cs)
    | .map => do
      let s ← resize size s
      let cs ← emptyChild cs 0
      let cs ← emptyChild cs 1
      pure (.mk id .map s cs)
    | .union => .panic
    | k => do
      let s ← resize size s
      pure (.mk id k s cs)

/-- orc/stripe.go:346-348, the loop over the children. -/
def setVectorSizes (hasNulls : List Bool) (size : Int) : List Vec → Res (List Vec)
  | [] => .ok []
  | v :: vs => do
    let v ← setVectorSize hasNulls size v
    let vs ← setVectorSizes hasNulls size vs
    pure (v :: vs)
end

namespace StripeReader

variable {χ : Type}

/-- orc/stripe.go:332-338 `prepareVector`. -/
def prepareVector (s : StripeReader χ) (vec : Vec) : Res Vec :=
  let page : Int := (vec.cap : Int) - vec.len
  let left : Int := (s.numberOfRows : Int) - s.cursor
  setVectorSize s.hasNulls (if left < page then left else page) vec

/-- orc/stripe.go:319-330 `next`. -/
def next (X : RdOps χ) (s : StripeReader χ) (vec : Vec) : Res (Bool × Vec × StripeReader χ) := do
  let vec ← s.prepareVector vec
  match s.reader with
  | none => .panic
  | some r => do
    let (vec, r) ← X.nextBatch r vec
    let cursor := s.cursor + vec.len
    pure (decide (cursor + 1 ≥ s.numberOfRows), vec, { s with reader := some r, cursor := cursor })

/-- orc/stripe.go:369-388 `Seek`: the stride that is computed is another variable than the one that is used. -/
def seek (X : RdOps χ) (indexStride : Nat) (s : StripeReader χ) (rowNumber : Nat) : Res (StripeReader χ) := do
  let offset ← (if rowNumber < indexStride then pure rowNumber
    else if indexStride = 0 then Res.panic
    else pure (rowNumber % (rowNumber / indexStride * indexStride)) : Res Nat)
  match s.reader with
  | none => .panic
  | some r => do
    let r ← X.seekStride r 0
    let r ← X.skip r offset
    pure { s with reader := some r }

end StripeReader

/-- orc/reader.go:114-126 `batchReader`. -/
structure BatchReader (χ : Type) where
  indexStride : Nat
  stripeIndex : Int
  stripes : List (StripeReader χ)
  numberOfRows : Nat
  cursor : Nat

/-- orc/reader.go:128-140 `initStripes`. -/
def initStripes (E : Env) (ro : ROpts) (bo : BatchOption) (file : Bytes) (types : List RdType) : List StripeInfo →
    Res (List (StripeReader (Rd types.length)))
  | [] => .ok []
  | i :: is =>
    if i.numberOfRows = 0 then .err .other
    else do
      let s ← newStripeReader E ro bo file types i
      let ss ← initStripes E ro bo file types is
      pure (s :: ss)

/-- orc/reader.go:78-90 `CreateBatchReader`. -/
def FileReader.createBatchReader (E : Env) (r : FileReader) (bo : BatchOption) : Res (BatchReader (Rd r.schemas.length)) :=
  if bo.rowSize = 0 then .err .other
  else do
    let ss ← initStripes E r.opts bo r.file r.schemas r.stripes
    pure ⟨r.opts.indexStride, 0, ss, r.numberOfRows, 0⟩

namespace BatchReader

variable {χ : Type}

/-- orc/reader.go:179-191, the loop of `Next`. A negative index is less than the number of stripes, and out of range. -/
def nextLoop (X : RdOps χ) : Nat → BatchReader χ → Vec → Res (Vec × BatchReader χ)
  | fuel, br, batch =>
    if br.stripeIndex < 0 then .panic
    else match br.stripes[br.stripeIndex.toNat]? with
    | none => .ok (batch, br)
    | some s =>
      match fuel with
      | 0 => .hang
      | fuel + 1 => do
        let (stripeEnd, batch, s) ← s.next X batch
        let br := { br with stripes := br.stripes.set br.stripeIndex.toNat s }
        if stripeEnd then pure (batch, { br with stripeIndex := br.stripeIndex + 1 })
        else if batch.len ≥ batch.cap then pure (batch, br)
        else nextLoop X fuel br batch

/-- orc/reader.go:172-197 `Next`: whether the end is reached, and the batch. `fuel` bounds the loop. Without
stripes `stripeIndex` becomes -1; `numberOfRows` is never 0. -/
def next (X : RdOps χ) (fuel : Nat) (br : BatchReader χ) (batch : Vec) : Res (Bool × Vec × BatchReader χ) := do
  let batch ← batch.clear
  if br.cursor ≥ br.numberOfRows - 1 then pure (true, batch, br)
  else do
    let (batch, br) ← br.nextLoop X fuel batch
    let br := if br.stripeIndex = br.stripes.length then { br with stripeIndex := br.stripeIndex - 1 } else br
    let br := { br with cursor := br.cursor + batch.len }
    pure (decide (br.cursor ≥ br.numberOfRows - 1), batch, br)

/-- orc/reader.go:203-211, the loop of `Seek` from stripe `i` on, `rows` rows before it. -/
def seekLoop (X : RdOps χ) (br : BatchReader χ) (rowNumber : Nat) : Nat → Nat → List (StripeReader χ) → Res (BatchReader χ)
  | _, _, [] => .err .other
  | i, rows, s :: ss =>
    if rows + s.numberOfRows > rowNumber then do
      let s ← s.seek X br.indexStride (rowNumber - rows)
      pure { br with stripes := br.stripes.set i s }
    else seekLoop X br rowNumber (i + 1) (rows + s.numberOfRows) ss

/-- orc/reader.go:199-212 `Seek`: `cursor` is only set together with an error. -/
def seek (X : RdOps χ) (br : BatchReader χ) (rowNumber : Nat) : Res (BatchReader χ) :=
  if rowNumber > br.numberOfRows then .err .other
  else br.seekLoop X rowNumber 0 0 br.stripes

end BatchReader

end Goorc
