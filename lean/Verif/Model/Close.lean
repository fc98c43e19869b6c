import Verif.Model.FileReader
/-
Model of closing a batch reader. Every `InitStream` begins with `r.f.Clone()`, which opens the file once more
(orc/io/file.go:50-56); the stream reader keeps that handle, and its `Close` closes it (orc/stream/reader.go:164-168). A
handle is named by the column and by the position of the stream among those the column was given. That opening a file may
fail, and the errors of `Close` of a file (which are only logged), are not modelled.
-/
namespace Goorc

/-- The readers of the columns of a stripe once `init` has given them their streams. orc/stripe.go:245-316. -/
def stripeColumns (E : Env) (ro : ROpts) (bo : BatchOption) (file : Bytes) (types : List RdType) (info : StripeInfo) (footer : StripeFooter) :
    Res (List (Option FlatRd)) := do
  let rs ← initColumns bo footer.columns types
  let rs ← initStreams E ro file info.offset (info.offset + info.indexLength) footer.streams rs
  linkAll bo types rs
  pure rs

/-- The readers of the columns of every stripe. orc/reader.go:128-140 `initStripes`. -/
def batchColumns (E : Env) (ro : ROpts) (bo : BatchOption) (file : Bytes) (types : List RdType) : List StripeInfo →
    Res (List (List (Option FlatRd)))
  | [] => .ok []
  | i :: is =>
    if i.numberOfRows = 0 then .err .other
    else do
      let footer ← readStripeFooter E ro file i
      let rs ← stripeColumns E ro bo file types i footer
      let rss ← batchColumns E ro bo file types is
      pure (rs :: rss)

/-- The position of the last stream of a kind: an `InitStream` replaces the stream reader of an earlier one. For example
orc/column/int.go:187-210. -/
def lastPos (k : StreamKind) : List StreamKind → Option Nat
  | [] => none
  | x :: xs =>
    match lastPos k xs with
    | some i => some (i + 1)
    | none => if x = k then some 0 else none

/-- `Close` of a stream reader, which may be nil. orc/stream/reader.go:164-168; bool.go:53-55, byte.go:55-57, float.go:54-58 (the
test there is made after nil was dereferenced), int.go:113-115 and 142-144, string.go:57-59, time.go:26-28. -/
def closeStream (id : Nat) (r : FlatRd) (k : StreamKind) : Res (List (Nat × Nat)) :=
  match lastPos k (r.streams.map (·.1)) with
  | none => .panic
  | some i => .ok [(id, i)]

/-- One after the other. For example orc/column/binary.go:308-314. -/
def closeStreams (id : Nat) (r : FlatRd) : List StreamKind → Res (List (Nat × Nat))
  | [] => .ok []
  | k :: ks => do
    let x ← closeStream id r k
    let xs ← closeStreams id r ks
    pure (x ++ xs)

/-- The streams besides the present stream that `Close` closes: binary.go:312-313, bool.go:282, byte.go:272,
decimal.go:349-350, float.go:161, int.go:327, list.go:186, string.go:367-368 and 538-540, time.go:276 and 621-622; nothing in
map.go:208-214 and struct.go:148-156. -/
def ReaderTag.closes : ReaderTag → List StreamKind
  | .leaf .byte | .leaf .bool | .leaf (.int _) | .leaf (.float _) | .leaf .date => [.data]
  | .leaf .string | .leaf .binary => [.data, .length]
  | .leaf .timestamp | .leaf .decimal => [.data, .secondary]
  | .dict => [.data, .dictionaryData, .length]
  | .list => [.length]
  | .struct | .map => []

/-- `if r.present != nil { r.present.Close() }`, for example orc/column/int.go:324-326; strings ask the schema instead,
orc/column/string.go:364-366. -/
def closePresent (id : Nat) (r : FlatRd) : Res (List (Nat × Nat)) :=
  if r.tag = .leaf .string then
    if r.hasNulls then closeStream id r .present else .ok []
  else
    match lastPos .present (r.streams.map (·.1)) with
    | none => .ok []
    | some i => .ok [(id, i)]

/-- `for _, c := range r.children { c.Close() }`. orc/column/struct.go:153-155. -/
def closeChildren (f : Nat → Res (List (Nat × Nat))) : List Nat → Res (List (Nat × Nat))
  | [] => .ok []
  | c :: cs => do
    let x ← f c
    let xs ← closeChildren f cs
    pure (x ++ xs)

/-- `r.key.Close()`, a key that is not included is nil. orc/column/map.go:212-213. -/
def closeEntry (f : Nat → Res (List (Nat × Nat))) : Option Nat → Res (List (Nat × Nat))
  | none => .panic
  | some c => f c

/-- `Close` of the reader of column `id`: the handles that are closed, in that order. orc/column/struct.go:148-156,
list.go:182-187 (the child is not closed), map.go:208-214 (the lengths are not closed), and those of the leaves, for example
int.go:323-328. What was closed before a panic is not kept. `n` bounds the depth. -/
def closeCol (bo : BatchOption) (types : List RdType) (rs : List (Option FlatRd)) : Nat → Nat → Res (List (Nat × Nat))
  | 0, _ => .hang
  | n + 1, id =>
    match types[id]?, rs[id]? with
    | some t, some (some r) => do
      let p ← closePresent id r
      let d ← closeStreams id r r.tag.closes
      let c ← (match r.tag with
        | .struct => closeChildren (closeCol bo types rs n) (t.children.filter bo.isInclude)
        | .map => do
          let k ← closeEntry (closeCol bo types rs n) (includedChild bo t.children 0)
          let v ← closeEntry (closeCol bo types rs n) (includedChild bo t.children 1)
          pure (k ++ v)
        | _ => pure [] : Res (List (Nat × Nat)))
      pure (p ++ (d ++ c))
    | _, _ => .panic

/-- The column whose reader is that of the stripe: the first that is included. orc/stripe.go:248-261. -/
def firstIncluded (bo : BatchOption) (types : List RdType) : Option Nat := (types.find? fun t => bo.isInclude t.id).map (·.id)

/-- orc/stripe.go:390-392 `Close`. -/
def closeStripe (bo : BatchOption) (types : List RdType) (rs : List (Option FlatRd)) : Res (List (Nat × Nat)) :=
  match firstIncluded bo types with
  | none => .panic
  | some id => closeCol bo types rs types.length id

/-- orc/reader.go:166-170 `Close`: the handles of every stripe. -/
def closeBatch (bo : BatchOption) (types : List RdType) : List (List (Option FlatRd)) → Res (List (List (Nat × Nat)))
  | [] => .ok []
  | rs :: rss => do
    let x ← closeStripe bo types rs
    let xs ← closeBatch bo types rss
    pure (x :: xs)

end Goorc
