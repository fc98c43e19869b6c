import Verif.Model.ColWriter
/-
Model of orc/api/type.go and of the vectors of orc/api/vector.go.
-/
namespace Goorc

/-- `pb.Type_Kind`. pb/pb/orc_proto.pb.go:184. -/
inductive TypeKind where
  | boolean | byte | short | int | long | float | double | string | binary | timestamp | list | map | struct | union
  | decimal | date | varchar | char
  deriving DecidableEq, Repr

/-- `pb.ColumnEncoding_Kind`. pb/pb/orc_proto.pb.go:138. -/
inductive Encoding where
  | direct | dictionary | directV2 | dictionaryV2
  deriving DecidableEq, Repr

/-- The fields of orc/api/type.go:12-21 `TypeDescription` besides the children. `Id` is a `uint32`; a schema of 2^32
columns is not considered. -/
structure SchemaNode where
  id : Nat
  kind : TypeKind
  encoding : Encoding
  hasNulls : Bool
  names : List String
  deriving DecidableEq, Repr

/-- orc/api/type.go:12-21 `TypeDescription`. Simplification: the children are pointers; a schema in which one
`*TypeDescription` is used in two places is not considered. -/
inductive Schema where
  | mk (node : SchemaNode) (children : List Schema)

namespace Schema

/-- The fields of a `TypeDescription` but its children, orc/api/type.go:12-21. -/
def node : Schema → SchemaNode
  | mk n _ => n

/-- `td.Children`, orc/api/type.go:12-21. -/
def children : Schema → List Schema
  | mk _ cs => cs

end Schema

/-- orc/api/type.go:41-44 `AddChild`. -/
def Schema.addChild (td : Schema) (name : String) (value : Schema) : Schema :=
  .mk { td.node with names := td.node.names ++ [name] } (td.children ++ [value])

/-- The global variables `_nodeId` and `_schemas` are the state `σ`; an action gives back the node it may have changed.
orc/api/type.go:194. -/
abbrev Action (σ : Type) := σ → Schema → Res (SchemaNode × σ)

mutual
/-- orc/api/type.go:272-291 `traverse`: the tree with the nodes the action changed. What is left behind after an error is
not modelled. -/
def traverse {σ : Type} (act : Action σ) : σ → Schema → Res (Schema × σ)
  | s, .mk n cs => do
    let (n', s) ← act s (.mk n cs)
    let (cs', s) ← traverseAll act s cs
    if n.kind = .union then .err .other else pure (.mk n' cs', s)

/-- orc/api/type.go:281-285, the loop over the children. -/
def traverseAll {σ : Type} (act : Action σ) : σ → List Schema → Res (List Schema × σ)
  | s, [] => .ok ([], s)
  | s, c :: cs => do
    let (c', s) ← traverse act s c
    let (cs', s) ← traverseAll act s cs
    pure (c' :: cs', s)
end

/-- orc/api/type.go:196-201 `checkId`. -/
def checkIdAction : Action Unit := fun s n => if n.node.id = 0 then .err .other else .ok (n.node, s)

/-- orc/api/type.go:203-210 `CheckId`. -/
def checkId (root : Schema) : Res Unit := do
  let _ ← traverseAll checkIdAction () root.children
  pure ()

/-- orc/api/type.go:212-216 `addId`. -/
def addId : Action Nat := fun id n => .ok ({ n.node with id := id }, id + 1)

/-- orc/api/type.go:220-223 `SetId`. -/
def setId (root : Schema) : Res Schema := do
  let (s, _) ← traverse addId 0 root
  pure s

/-- orc/api/type.go:293-298 `NormalizeSchema`. -/
def normalizeSchema (root : Schema) : Res Schema := setId root

/-- orc/api/type.go:266-269 `addSchema`. -/
def addSchema : Action (List Schema) := fun l n => .ok (n.node, l ++ [n])

/-- orc/api/type.go:254-264 `Flat`. -/
def flat (root : Schema) : Res (List Schema) := do
  checkId root
  let (_, l) ← traverse addSchema [] root
  pure l

/-- orc/api/type.go:245-250 `checkNoNull`. -/
def checkNoNull : Action Unit := fun s n => if n.node.hasNulls then .err .other else .ok (n.node, s)

/-- orc/api/type.go:225-243 `CheckNulls`, `checkNulls` (exported, but called by nothing). -/
def checkNulls (root : Schema) : Res Unit :=
  if root.node.hasNulls then do
    let _ ← traverseAll checkNoNull () root.children
    pure ()
  else .ok ()

/-- `pb.Type`, the fields that are used. pb/pb/orc_proto.pb.go:1169. -/
structure PbType where
  kind : TypeKind
  subtypes : List Nat
  names : List String
  deriving DecidableEq, Repr

/-- orc/api/type.go:316-328 `SchemasToTypes`. -/
def schemasToTypes (schemas : List Schema) : List PbType :=
  schemas.map fun v => ⟨v.node.kind, v.children.map fun c => c.node.id, v.node.names⟩

/-- A `TypeDescription` as made by `unmarshallSchema`: the children are pointers to other elements of the result, given
by their index. `Encoding` and `HasNulls` still have their zero values. orc/reader.go:214-232. -/
structure HeapType where
  id : Nat
  kind : TypeKind
  names : List String
  children : List Nat
  deriving DecidableEq, Repr

/-- orc/reader.go:223-228, the loop over the subtypes of type `t`, `total` types in all: the children and their names.
`j` is the position in `t.Subtypes`. A field name or a subtype that does not exist is an index out of range. -/
def unmarshallChildren (total : Nat) (t : PbType) : Nat → List Nat → Res (List Nat × List String)
  | _, [] => .ok ([], [])
  | j, sub :: subs => do
    let name ← (if t.kind = .struct then
        match t.names[j]? with
        | some n => .ok n
        | none => .panic
      else .ok "" : Res String)
    if sub < total then do
      let (cs, ns) ← unmarshallChildren total t (j + 1) subs
      pure (sub :: cs, name :: ns)
    else .panic

/-- orc/reader.go:214-232 `unmarshallSchema`, from type `i` on. -/
def unmarshallFrom (total : Nat) : Nat → List PbType → Res (List HeapType)
  | _, [] => .ok []
  | i, t :: ts => do
    let (cs, ns) ← unmarshallChildren total t 0 t.subtypes
    let rest ← unmarshallFrom total (i + 1) ts
    pure (⟨i, t.kind, ns, cs⟩ :: rest)

/-- orc/reader.go:214-232 `unmarshallSchema`. -/
def unmarshallSchema (types : List PbType) : Res (List HeapType) := unmarshallFrom types.length 0 types

mutual
/-- orc/reader.go:234-252 `marshallSchema`, `preOrderWalkSchema` (called by nothing): a child without a name is left out
of the subtypes, a name without a child is an index out of range. -/
def marshallSchema : Schema → Res (List PbType)
  | .mk n cs =>
    if n.names.length ≤ cs.length then do
      let ts ← marshallAll cs
      pure (⟨n.kind, (cs.take n.names.length).map fun c => c.node.id, n.names⟩ :: ts)
    else .panic

/-- orc/reader.go:247-250, the loop over the children. -/
def marshallAll : List Schema → Res (List PbType)
  | [] => .ok []
  | c :: cs => do
    let ts ← marshallSchema c
    let us ← marshallAll cs
    pure (ts ++ us)
end

/-! ### Vectors -/

/-- A Go slice of values that is not nil: the backing array from its start up to the capacity, and the length.
orc/api/vector.go:40-47. -/
structure Slice where
  arr : List Value
  len : Nat
  deriving DecidableEq, Repr

/-- orc/api/vector.go:40-47 `ColumnVector`; `nil` is a nil pointer. The slice `Vector` is `none` if it is nil. -/
inductive Vec where
  | nil
  | mk (id : Nat) (kind : TypeKind) (vector : Option Slice) (children : List Vec)

/-- orc/api/type.go:174-180 `BatchOption`; `RowSize` is an `int`, taken not to be negative. `Loc` is not used. -/
structure BatchOption where
  includes : List Nat
  rowSize : Nat
  notCreateVector : Bool
  deriving DecidableEq, Repr

/-- orc/api/type.go:182-192 `IsInclude`, and the same loop in `createVector` (type.go:125-134). -/
def BatchOption.isInclude (o : BatchOption) (id : Nat) : Bool := o.includes.isEmpty || o.includes.contains id

/-- `make([]Value, n)` with every `V` set to `v`. orc/api/type.go:91-120. -/
def makeSlice (n : Nat) (v : GoVal) : Slice := ⟨List.replicate n ⟨false, v⟩, n⟩

/-- orc/api/type.go:84-120: what the values of a new vector hold; only decimal and timestamp vectors hold something. -/
def TypeKind.zero : TypeKind → GoVal
  | .decimal => .dec 0 0
  | .timestamp => .ts none 0 0
  | _ => .nil

mutual
/-- orc/api/type.go:122-158 `createVector` with 57-120, the functions for the different kinds. A map vector is created
even if `NotCreateVector` is set. -/
def createVec (o : BatchOption) : Schema → Res Vec
  | .mk n cs =>
    if o.isInclude n.id then
      match n.kind with
      | .struct => do
        let vs ← createVecs o cs
        pure (.mk n.id n.kind (if n.hasNulls && !o.notCreateVector then some (makeSlice o.rowSize .nil) else none) vs)
      | .list => do
        let v ← createNth o cs 0
        pure (.mk n.id n.kind (if o.notCreateVector then none else some (makeSlice o.rowSize .nil)) [v])
      | .map => do
        let k ← createNth o cs 0
        let v ← createNth o cs 1
        pure (.mk n.id n.kind (some (makeSlice o.rowSize .nil)) [k, v])
      | .union => .panic
      | k => pure (.mk n.id k (if o.notCreateVector then none else some (makeSlice o.rowSize k.zero)) [])
    else pure .nil

/-- orc/api/type.go:64-69, the loop over the children of a struct: nil vectors are left out. -/
def createVecs (o : BatchOption) : List Schema → Res (List Vec)
  | [] => .ok []
  | c :: cs => do
    let v ← createVec o c
    let vs ← createVecs o cs
    match v with
    | .nil => pure vs
    | v => pure (v :: vs)

/-- `td.Children[i].createVector(opt)`. orc/api/type.go:57-89. -/
def createNth (o : BatchOption) : List Schema → Nat → Res Vec
  | [], _ => .panic
  | c :: _, 0 => createVec o c
  | _ :: cs, i + 1 => createNth o cs i
end

/-- Kinds with children, as `verifySchema` sees them. orc/api/type.go:160-170. -/
def TypeKind.nested : TypeKind → Bool
  | .struct | .union | .map | .list => true
  | _ => false

mutual
/-- orc/api/type.go:160-170 `verifySchema`: the loop returns from its first iteration. -/
def verifySchema : Schema → Res Unit
  | .mk n cs => if n.kind.nested then verifyFirst n.hasNulls cs else .ok ()

/-- orc/api/type.go:162-167, the loop. -/
def verifyFirst (hasNulls : Bool) : List Schema → Res Unit
  | [] => .ok ()
  | c :: _ => if hasNulls && c.node.hasNulls then .err .other else verifySchema c
end

/-- orc/api/type.go:46-55 `CreateVector`. -/
def createVector (td : Schema) (o : BatchOption) : Res Vec :=
  if o.rowSize = 0 then .err .other
  else do
    verifySchema td
    createVec o td

/-- orc/api/vector.go:56-67 `Len`. Of a nil vector this is a nil dereference; here it is 0, and `Vec.lenPanics` says that it
panics. -/
def Vec.len : Vec → Nat
  | .nil => 0
  | .mk _ _ vec cs =>
    if (vec.map (·.len)).getD 0 ≠ 0 then (vec.map (·.len)).getD 0
    else match cs with
      | [] => 0
      | c :: _ => c.len

/-- orc/api/vector.go:56-67 `Len`: whether it comes to a nil vector, and panics. -/
def Vec.lenPanics : Vec → Bool
  | .nil => true
  | .mk _ _ vec cs =>
    if (vec.map (·.len)).getD 0 ≠ 0 then false
    else match cs with
      | [] => false
      | c :: _ => c.lenPanics

/-- orc/api/vector.go:69-78 `Cap`. Simplification: of a nil vector this is a nil dereference, here it is 0. It is called in
orc/reader.go:172-197 and orc/stripe.go:332-338 only, after `Clear`, which panics if there is a nil vector anywhere. -/
def Vec.cap : Vec → Nat
  | .nil => 0
  | .mk _ _ (some s) _ => s.arr.length
  | .mk _ _ none cs =>
    match cs with
    | [] => 0
    | c :: _ => c.cap

mutual
/-- orc/api/vector.go:49-54 `Clear`; a nil vector is dereferenced. -/
def Vec.clear : Vec → Res Vec
  | .nil => .panic
  | .mk id k vec cs => do
    let cs ← clearAll cs
    pure (.mk id k (vec.map fun s => { s with len := 0 }) cs)

/-- orc/api/vector.go:51-53, the loop over the children. -/
def clearAll : List Vec → Res (List Vec)
  | [] => .ok []
  | v :: vs => do
    let v ← v.clear
    let vs ← clearAll vs
    pure (v :: vs)
end

end Goorc
