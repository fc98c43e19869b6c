import Verif.Model.Close
/-
What it means that a batch reader gives back the file handles it has opened.
-/
namespace Goorc

/-- The file was opened for stream number `h.2` of column `h.1`. -/
def WasOpened (rs : List (Option FlatRd)) (h : Nat × Nat) : Prop := ∃ r, rs[h.1]? = some (some r) ∧ h.2 < r.streams.length

/-- Column `c` is a field of the struct `p`, or the key or the value of the map `p`, and both are read. -/
def EntryOf (bo : BatchOption) (types : List RdType) (rs : List (Option FlatRd)) (p c : Nat) : Prop :=
  ∃ t r, types[p]? = some t ∧ rs[p]? = some (some r) ∧ bo.isInclude c = true ∧
    (r.tag = .struct ∧ c ∈ t.children ∨ r.tag = .map ∧ (t.children[0]? = some c ∨ t.children[1]? = some c))

/-- Column `c` is column `a` or is inside of it, with structs and maps but no lists in between. -/
inductive Inside (bo : BatchOption) (types : List RdType) (rs : List (Option FlatRd)) (a : Nat) : Nat → Prop
  | self : Inside bo types rs a a
  | entry {p c : Nat} : Inside bo types rs a p → EntryOf bo types rs p c → Inside bo types rs a c

/-- Stream number `i` is the last of its kind. -/
def LastOfKind (ks : List StreamKind) (i : Nat) (k : StreamKind) : Prop := ks[i]? = some k ∧ ∀ j, i < j → ks[j]? ≠ some k

/-- The kinds of streams a column gives back: its flags, but a string column only if it has nulls, and its values; a map does
not give back its lengths. -/
def GivesBack (r : FlatRd) (k : StreamKind) : Prop :=
  match r.tag with
  | .leaf .string => k = .data ∨ k = .length ∨ k = .present ∧ r.hasNulls = true
  | .leaf .binary => k = .present ∨ k = .data ∨ k = .length
  | .leaf .timestamp | .leaf .decimal => k = .present ∨ k = .data ∨ k = .secondary
  | .leaf _ => k = .present ∨ k = .data
  | .dict => k = .present ∨ k = .data ∨ k = .dictionaryData ∨ k = .length
  | .list => k = .present ∨ k = .length
  | .struct | .map => k = .present

/-- Nothing that the reader of a column uses to close itself is missing: no stream (flags may be missing, except those of a string column with nulls),
and neither keys nor values of a map. -/
def CanClose (bo : BatchOption) (t : RdType) (r : FlatRd) : Prop :=
  (∀ k, GivesBack r k → (k = .present → r.tag = .leaf .string) → k ∈ r.streams.map (·.1)) ∧
  (r.tag = .map → (∃ c, t.children[0]? = some c ∧ bo.isInclude c = true) ∧ ∃ c, t.children[1]? = some c ∧ bo.isInclude c = true)

/-- The streams of a column's values, in the order in which a file has them. -/
def SchemaNode.dataStreams (n : SchemaNode) : List StreamKind :=
  match n.kind with
  | .struct | .list | .map | .union => []
  | .binary => [.data, .length]
  | .string | .varchar | .char => if n.encoding = .dictionaryV2 then [.data, .dictionaryData, .length] else [.data, .length]
  | .timestamp | .decimal => [.data, .secondary]
  | _ => [.data]

/-- The types are the nodes of a tree: numbers grow from parents to children, and no column stands in two places. -/
structure TypesTree (types : List RdType) : Prop where
  grows : ∀ (p : Nat) t, types[p]? = some t → ∀ c ∈ t.children, p < c
  once : ∀ (p : Nat) t, types[p]? = some t → t.children.Nodup
  parent : ∀ (p q : Nat) t u, types[p]? = some t → types[q]? = some u → ∀ c, c ∈ t.children → c ∈ u.children → p = q

end Goorc
