import Verif.Model.ColTable
/-
Model of the struct, list and map readers of orc/column, on vectors as orc/api/vector.go has them.

A reader of a nested column has readers of its children. `RdNode χ` is one reader whose children are of type `χ`, `Rd n` are
the reader trees of depth at most `n`.
-/
namespace Goorc

/-- The rows that are visible in a slice, `vec.Vector[0:len(vec.Vector)]`; a nil slice has none.
orc/api/vector.go:40-47. -/
def Slice.visible (s : Slice) : List Value := s.arr.take s.len

/-- A slice whose visible rows have been overwritten. orc/api/vector.go:40-47. -/
def Slice.update (s : Slice) (rows : List Value) : Slice := { s with arr := rows ++ s.arr.drop rows.length }

/-- The visible rows of `vec.Vector`, orc/api/vector.go:40-47; nil has none. -/
def visibleRows : Option Slice → List Value
  | none => []
  | some s => s.visible

/-- `vec.Vector` with its visible rows overwritten, orc/api/vector.go:40-47. -/
def updateRows (s : Option Slice) (rows : List Value) : Option Slice := s.map fun s => s.update rows

/-- orc/column/struct.go:141-143, the loop that copies the flags of the parent's rows: a row the child does not have is an
index out of range. -/
def setNulls (flags : List Bool) (s : Option Slice) : Res (Option Slice) :=
  if flags.length ≤ (visibleRows s).length then
    .ok (updateRows s (List.zipWith (fun b (v : Value) => { v with null := b }) flags (visibleRows s)))
  else .panic

mutual
/-- orc/column/struct.go:139-146 `fillNulls`, one child `c` of a vector whose flags are `flags`, and what is below it. -/
def fillDown (flags : List Bool) : Vec → Res Vec
  | .nil => .panic
  | .mk id k s cs => do
    let s ← setNulls flags s
    let cs ← fillDownAll ((visibleRows s).map (·.null)) cs
    pure (.mk id k s cs)

/-- orc/column/struct.go:140-145, the loop over the children. -/
def fillDownAll (flags : List Bool) : List Vec → Res (List Vec)
  | [] => .ok []
  | c :: cs => do
    let c ← fillDown flags c
    let cs ← fillDownAll flags cs
    pure (c :: cs)
end

/-- orc/column/struct.go:139-146 `fillNulls`. -/
def fillNulls : Vec → Res Vec
  | .nil => .panic
  | .mk id k s cs => do
    let cs ← fillDownAll ((visibleRows s).map (·.null)) cs
    pure (.mk id k s cs)

/-- orc/column/package.go:22-39 `Reader`, the methods used after the reader has been set up, for readers of type `χ`. -/
structure RdOps (χ : Type) where
  nextBatch : χ → Vec → Res (Vec × χ)
  skip : χ → Nat → Res χ
  seekStride : χ → Nat → Res χ

/-- A reader that has readers `χ` for its children. `present`, `length` and children may be nil; `kind` is
`opts.CompressionKind`, `index` are the positions of the row index entries. orc/column/reader.go:17-23,
orc/column/struct.go:19-25, orc/column/list.go:17-24, orc/column/map.go:17-25. -/
inductive RdNode (χ : Type) where
  | leaf (t : LeafTag) (r : ColReader t.ρ)
  | dict (r : ColReader DictReader)
  | struct (kind : CompKind) (present : Option BoolReader) (index : Option (List (List Nat))) (children : List χ)
  | list (kind : CompKind) (present : Option BoolReader) (length : Option IntReader) (index : Option (List (List Nat))) (child : Option χ)
  | map (kind : CompKind) (present : Option BoolReader) (length : Option IntReader) (index : Option (List (List Nat)))
      (key value : Option χ)
  /-- a leaf some data stream of which is missing; `none` is a dictionary -/
  | bare (t : Option LeafTag) (r : ColReader Unit)

/-- How a leaf is read some data stream of which is missing. orc/column/package.go:69-199. -/
def bareRead : Option LeafTag → ReadKind Unit
  | some t => t.read.bare false
  | none => (dictRead 0).bare true

/-- `for i := 0; i < len(vec.Vector); i++` with a leaf reader. The `NextBatch` of the leaves, for example
orc/column/int.go:212-241. -/
def leafBatch {ρ : Type} (R : ReadKind ρ) (c : Codec) (r : ColReader ρ) : Vec → Res (Vec × ColReader ρ)
  | .nil => .panic
  | .mk id k s cs => do
    let (rows, r) ← R.nextBatch c r (visibleRows s)
    pure (.mk id k (updateRows s rows) cs, r)

/-- orc/column/struct.go:121-127, the flags of the rows. -/
def readFlags (c : Codec) : BoolReader → List Value → Res (List Value × BoolReader)
  | p, [] => .ok ([], p)
  | p, v :: vs => do
    let (b, p) ← p.next c
    let (vs, p) ← readFlags c p vs
    pure ({ v with null := !b } :: vs, p)

/-- orc/column/struct.go:131-135: child `i` reads into `vec.Children[i]`. -/
def childBatches {χ : Type} (X : RdOps χ) : List χ → List Vec → Res (List Vec × List χ)
  | [], vs => .ok (vs, [])
  | _ :: _, [] => .panic
  | c :: cs, v :: vs => do
    let (v, c) ← X.nextBatch c v
    let (vs, cs) ← childBatches X cs vs
    pure (v :: vs, c :: cs)

/-- orc/column/struct.go:119-137 `NextBatch`. -/
def structBatch {χ : Type} (X : RdOps χ) (c : Codec) (present : Option BoolReader) (children : List χ) : Vec → Res (Vec × Option BoolReader × List χ)
  | .nil => .panic
  | .mk id k s cs => do
    let (v, present) ← (match present with
      | none => pure (.mk id k s cs, none)
      | some p => do
        let (rows, p) ← readFlags c p (visibleRows s)
        let v ← fillNulls (.mk id k (updateRows s rows) cs)
        pure (v, some p) : Res (Vec × Option BoolReader))
    match v with
    | .nil => .panic
    | .mk id k s cs => do
      let (cs, children) ← childBatches X children cs
      pure (.mk id k s cs, present, children)

/-- `r.length.NextUInt64()` of a stream that may be nil. orc/column/list.go:62-68, orc/column/map.go:70-76. -/
def nextLength (c : Codec) : Option IntReader → Res (U64 × Option IntReader)
  | none => .panic
  | some r => do
    let (l, r) ← r.nextUInt64 c
    pure (l, some r)

/-- The flag of one row: from the present stream, or the old one. orc/column/list.go:54-60, orc/column/map.go:62-68. -/
def nextFlag (c : Codec) (present : Option BoolReader) (old : Bool) : Res (Bool × Option BoolReader) :=
  match present with
  | none => .ok (old, none)
  | some p => do
    let (b, p) ← p.next c
    pure (!b, some p)

/-- `int(l)` as a loop bound. orc/column/list.go:75-78, orc/column/map.go:75 and 85. -/
def loopBound (l : U64) : Nat := l.toInt.toNat

/-- `child.Vector = append(child.Vector[:0], ...)`: one null row, or `l` empty rows. If the array is too small a larger one
is allocated; how much larger is left open in Go, and taken to be just large enough here. orc/column/list.go:70-79,
orc/column/map.go:78-89. -/
def prepareChild (null : Bool) (l : Nat) : Vec → Res Vec
  | .nil => .panic
  | .mk id k s cs =>
    let rows := if null then [⟨true, .nil⟩] else List.replicate l ⟨false, .nil⟩
    let old := match s with
      | some s => s.arr
      | none => []
    .ok (.mk id k (if s.isNone ∧ rows = [] then none else some ⟨rows ++ old.drop rows.length, rows.length⟩) cs)

/-- A call of `NextBatch` on a reader that may be nil. orc/column/list.go:81-83, orc/column/map.go:91-96. -/
def nextOn {χ : Type} (X : RdOps χ) : Option χ → Vec → Res (Vec × Option χ)
  | none, _ => .panic
  | some x, v => do
    let (v, x) ← X.nextBatch x v
    pure (v, some x)

/-- orc/column/list.go:53-84, the loop of `NextBatch`. -/
def listRows {χ : Type} (X : RdOps χ) (c : Codec) : Option BoolReader → Option IntReader → Option χ → List Value → List Vec →
    Res (List Value × List Vec × Option BoolReader × Option IntReader × Option χ)
  | p, l, x, [], cs => .ok ([], cs, p, l, x)
  | p, l, x, old :: vs, cs => do
    let (null, p) ← nextFlag c p old.null
    let (v, n, l) ← (if null then pure (old.v, 0, l)
      else do
        let (n, l) ← nextLength c l
        pure (.u64 n, loopBound n, l) : Res (GoVal × Nat × Option IntReader))
    match cs with
    | [] => .panic
    | e :: cs => do
      let e ← prepareChild null n e
      let (e, x) ← nextOn X x e
      let (vs, cs, p, l, x) ← listRows X c p l x vs (e :: cs)
      pure (⟨null, v⟩ :: vs, cs, p, l, x)

/-- orc/column/map.go:61-97, the loop of `NextBatch`. -/
def mapRows {χ : Type} (X : RdOps χ) (c : Codec) : Option BoolReader → Option IntReader → Option χ → Option χ → List Value → List Vec →
    Res (List Value × List Vec × Option BoolReader × Option IntReader × Option χ × Option χ)
  | p, l, x, y, [], cs => .ok ([], cs, p, l, x, y)
  | p, l, x, y, old :: vs, cs => do
    let (null, p) ← nextFlag c p old.null
    let (v, n, l) ← (if null then pure (old.v, 0, l)
      else do
        let (n, l) ← nextLength c l
        pure (.int n.toInt, loopBound n, l) : Res (GoVal × Nat × Option IntReader))
    match cs with
    | e :: f :: cs => do
      let e ← prepareChild null n e
      let f ← prepareChild null n f
      let (e, x) ← nextOn X x e
      let (f, y) ← nextOn X y f
      let (vs, cs, p, l, x, y) ← mapRows X c p l x y vs (e :: f :: cs)
      pure (⟨null, v⟩ :: vs, cs, p, l, x, y)
    | _ => .panic

/-- `NextBatch`: the leaves, struct.go:119-137, list.go:50-86, map.go:58-99. -/
def RdNode.nextBatch {χ : Type} (X : RdOps χ) (c : Codec) (fuel : Nat) : RdNode χ → Vec → Res (Vec × RdNode χ)
  | .leaf t r, v => do let (v, r) ← leafBatch t.read c r v; pure (v, .leaf t r)
  | .dict r, v => do let (v, r) ← leafBatch (dictRead fuel) c r v; pure (v, .dict r)
  | .struct kind p i cs, v => do
    let (v, p, cs) ← structBatch X c p cs v
    pure (v, .struct kind p i cs)
  | .list kind p l i x, v => match v with
    | .nil => .panic
    | .mk id k s cs => do
      let (rows, cs, p, l, x) ← listRows X c p l x (visibleRows s) cs
      pure (.mk id k (updateRows s rows) cs, .list kind p l i x)
  | .map kind p l i x y, v => match v with
    | .nil => .panic
    | .mk id k s cs => do
      let (rows, cs, p, l, x, y) ← mapRows X c p l x y (visibleRows s) cs
      pure (.mk id k (updateRows s rows) cs, .map kind p l i x y)
  | .bare t r, v => do let (v, r) ← leafBatch (bareRead t) c r v; pure (v, .bare t r)

/-- `Skip(n)` of several readers. orc/column/struct.go:97-117. -/
def skipAll {χ : Type} (X : RdOps χ) (n : Nat) : List χ → Res (List χ)
  | [] => .ok []
  | c :: cs => do
    let c ← X.skip c n
    let cs ← skipAll X n cs
    pure (c :: cs)

/-- `Skip(n)` of a reader that may be nil. orc/column/list.go:88-110, orc/column/map.go:101-128. -/
def skipOn {χ : Type} (X : RdOps χ) (n : Nat) : Option χ → Res (Option χ)
  | none => .panic
  | some x => do
    let x ← X.skip x n
    pure (some x)

/-- Whether a row is there: `p` of the `Skip` functions. orc/column/struct.go:97-117, orc/column/list.go:88-110,
orc/column/map.go:101-128. -/
def nextPresent (c : Codec) (present : Option BoolReader) : Res (Bool × Option BoolReader) :=
  match present with
  | none => .ok (true, none)
  | some p => do
    let (b, p) ← p.next c
    pure (b, some p)

/-- orc/column/struct.go:97-117 `Skip`. -/
def structSkip {χ : Type} (X : RdOps χ) (c : Codec) : Nat → Option BoolReader → List χ → Res (Option BoolReader × List χ)
  | 0, p, cs => .ok (p, cs)
  | n + 1, p, cs => do
    let (b, p) ← nextPresent c p
    let cs ← if b then skipAll X 1 cs else pure cs
    structSkip X c n p cs

/-- orc/column/list.go:88-110 `Skip`. -/
def listSkip {χ : Type} (X : RdOps χ) (c : Codec) : Nat → Option BoolReader → Option IntReader → Option χ →
    Res (Option BoolReader × Option IntReader × Option χ)
  | 0, p, l, x => .ok (p, l, x)
  | n + 1, p, l, x => do
    let (b, p) ← nextPresent c p
    if b then do
      let (m, l) ← nextLength c l
      let x ← skipOn X (loopBound m) x
      listSkip X c n p l x
    else listSkip X c n p l x

/-- orc/column/map.go:117-124, the loop over the entries of one row: every turn skips `m` keys and `m` values. -/
def entrySkip {χ : Type} (X : RdOps χ) (m : Nat) : Nat → Option χ → Option χ → Res (Option χ × Option χ)
  | 0, x, y => .ok (x, y)
  | n + 1, x, y => do
    let x ← skipOn X m x
    let y ← skipOn X m y
    entrySkip X m n x y

/-- orc/column/map.go:101-128 `Skip`. -/
def mapSkip {χ : Type} (X : RdOps χ) (c : Codec) : Nat → Option BoolReader → Option IntReader → Option χ → Option χ →
    Res (Option BoolReader × Option IntReader × Option χ × Option χ)
  | 0, p, l, x, y => .ok (p, l, x, y)
  | n + 1, p, l, x, y => do
    let (b, p) ← nextPresent c p
    if b then do
      let (m, l) ← nextLength c l
      let (x, y) ← entrySkip X (loopBound m) (loopBound m) x y
      mapSkip X c n p l x y
    else mapSkip X c n p l x y

/-- `Skip`. `rows` is converted to `int`; here it is a natural number. orc/column/struct.go:97-117,
orc/column/list.go:88-110, orc/column/map.go:101-128, and the leaves. -/
def RdNode.skip {χ : Type} (X : RdOps χ) (c : Codec) (fuel : Nat) : RdNode χ → Nat → Res (RdNode χ)
  | .leaf t r, n => do let r ← t.read.skipRows c n r; pure (.leaf t r)
  | .dict r, n => do let r ← (dictRead fuel).skipRows c n r; pure (.dict r)
  | .struct kind p i cs, n => do
    let (p, cs) ← structSkip X c n p cs
    pure (.struct kind p i cs)
  | .list kind p l i x, n => do
    let (p, l, x) ← listSkip X c n p l x
    pure (.list kind p l i x)
  | .map kind p l i x y, n => do
    let (p, l, x, y) ← mapSkip X c n p l x y
    pure (.map kind p l i x y)
  | .bare t r, n => do let r ← (bareRead t).skipRows c n r; pure (.bare t r)

/-- `SeekStride` of several readers. orc/column/struct.go:50-95. -/
def seekAll {χ : Type} (X : RdOps χ) (stride : Nat) : List χ → Res (List χ)
  | [] => .ok []
  | c :: cs => do
    let c ← X.seekStride c stride
    let cs ← seekAll X stride cs
    pure (c :: cs)

/-- `SeekStride` of a reader that may be nil. orc/column/list.go:112-180, orc/column/map.go:130-206. -/
def seekOn {χ : Type} (X : RdOps χ) (stride : Nat) : Option χ → Res (Option χ)
  | none => .panic
  | some x => do
    let x ← X.seekStride x stride
    pure (some x)

/-- `present.Seek` with the four numbers. orc/column/struct.go:50-95, orc/column/list.go:112-180,
orc/column/map.go:130-206. -/
def seekFlags (c : Codec) (p : Option BoolReader) (pos : Nat × Nat × List Nat) : Res (Option BoolReader) :=
  match p with
  | none => .ok none
  | some p => do
    let p ← seekBool c p pos
    pure (some p)

/-- `length.Seek` with the three numbers. orc/column/list.go:112-180, orc/column/map.go:130-206. -/
def seekLength (c : Codec) (l : Option IntReader) (pos : Nat × Nat × List Nat) : Res (Option IntReader) :=
  match l with
  | none => .panic
  | some l => do
    let l ← l.seek c pos.1 pos.2.1 (pos.2.2.getD 0 0)
    pure (some l)

/-- list.go:112-180, map.go:130-206: the own streams of a list or map reader. -/
def seekOwn (c : Codec) (kind : CompKind) (p : Option BoolReader) (l : Option IntReader) (index : Option (List (List Nat))) (stride : Nat) :
    Res (Option BoolReader × Option IntReader) :=
  if stride = 0 then do
    let p ← seekFlags c p (0, 0, [0, 0])
    let l ← seekLength c l (0, 0, [0])
    pure (p, l)
  else do
    let pos ← getStridePositions index stride
    match p with
    | none => do
      let (ll, _) ← streamPos kind pos 0 1
      let l ← seekLength c l ll
      pure (none, l)
    | some p => do
      let (pp, i) ← streamPos kind pos 0 2
      let (ll, _) ← streamPos kind pos i 1
      let p ← seekFlags c (some p) pp
      let l ← seekLength c l ll
      pure (p, l)

/-- `SeekStride`: the leaves, struct.go:50-95, list.go:112-180, map.go:130-206. -/
def RdNode.seekStride {χ : Type} (X : RdOps χ) (c : Codec) (fuel : Nat) : RdNode χ → Nat → Res (RdNode χ)
  | .leaf t r, n => do let r ← t.read.seekStride c r n; pure (.leaf t r)
  | .dict r, n => do let r ← (dictRead fuel).seekStride c r n; pure (.dict r)
  | .struct kind p i cs, n => do
    let p ← (if n = 0 then seekFlags c p (0, 0, [0, 0])
      else if p.isSome then do
        let pos ← getStridePositions i n
        let (pp, _) ← streamPos kind pos 0 2
        seekFlags c p pp
      else pure p : Res (Option BoolReader))
    let cs ← seekAll X n cs
    pure (.struct kind p i cs)
  | .list kind p l i x, n => do
    let (p, l) ← seekOwn c kind p l i n
    let x ← seekOn X n x
    pure (.list kind p l i x)
  | .map kind p l i x y, n => do
    let (p, l) ← seekOwn c kind p l i n
    let x ← seekOn X n x
    let y ← seekOn X n y
    pure (.map kind p l i x y)
  | .bare t r, n => do let r ← (bareRead t).seekStride c r n; pure (.bare t r)

/-- Reader trees of depth at most `n`. orc/stripe.go:246-316 links readers to such trees. -/
def Rd : Nat → Type
  | 0 => Empty
  | n + 1 => RdNode (Rd n)

/-- The methods of reader trees; `fuel` bounds the loop that loads a dictionary. orc/column/package.go:22-39. -/
def rdOps (c : Codec) (fuel : Nat) : (n : Nat) → RdOps (Rd n)
  | 0 => ⟨fun _ _ => .panic, fun _ _ => .panic, fun _ _ => .panic⟩
  | n + 1 => ⟨RdNode.nextBatch (rdOps c fuel n) c fuel, RdNode.skip (rdOps c fuel n) c fuel, RdNode.seekStride (rdOps c fuel n) c fuel⟩

end Goorc
