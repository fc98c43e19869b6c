import Verif.Spec.Columns
import Verif.Model.ColNested
/-
What it means that a reader of a nested column has rows left, and what reading and skipping them has to do.
-/
namespace Goorc

/-- A reader `x` with the property `P x es` has the rows `es` left: `NextBatch` with a vector of empty rows fills it with
the next ones, `Skip` drops them. -/
structure Feeds {χ : Type} (X : RdOps χ) (P : χ → List Value → Prop) : Prop where
  next : ∀ x es rest id k cap cs, P x (es ++ rest) → ∃ x', P x' rest ∧
    X.nextBatch x (.mk id k (some ⟨List.replicate es.length ⟨false, .nil⟩ ++ cap, es.length⟩) cs) = .ok (.mk id k (some ⟨es ++ cap, es.length⟩) cs, x')
  skip : ∀ x es rest, P x (es ++ rest) → ∃ x', P x' rest ∧ X.skip x es.length = .ok x'

/-- A reader to which a row that is already marked null means nothing: it has no flags of its own. -/
def PassesNulls {χ : Type} (X : RdOps χ) (P : χ → List Value → Prop) : Prop :=
  ∀ x rest id k cap cs, P x rest → ∃ x', P x' rest ∧
    X.nextBatch x (.mk id k (some ⟨⟨true, .nil⟩ :: cap, 1⟩) cs) = .ok (.mk id k (some ⟨⟨true, .nil⟩ :: cap, 1⟩) cs, x')

/-- A present stream (or none) with the flags `flags` left. -/
def FlagsLeft (c : Codec) : Option BoolReader → List Bool → Prop
  | none, flags => ∀ b ∈ flags, b = true
  | some p, flags => ∃ p', Yields (BoolReader.next c) p flags p'

/-- A length stream with the numbers `ns` left. -/
def LengthsLeft (c : Codec) : Option IntReader → List Nat → Prop
  | none, _ => False
  | some l, ns => (∀ n ∈ ns, n < 2 ^ 63) ∧ ∃ l', Yields (IntReader.nextUInt64 c) l (ns.map (BitVec.ofNat 64)) l'

/-- A list column with the rows `rows` left: `none` is a null row, `some es` a list with the elements `es`. -/
def ListLeft {χ : Type} (c : Codec) (P : χ → List Value → Prop) (p : Option BoolReader) (l : Option IntReader) (x : Option χ)
    (rows : List (Option (List Value))) : Prop :=
  FlagsLeft c p (rows.map (·.isSome)) ∧ LengthsLeft c l ((rows.filterMap id).map (·.length)) ∧
    ∃ y, x = some y ∧ P y (rows.filterMap id).flatten

/-- A map column with the rows `rows` left, each a list of keys and values. -/
def MapLeft {χ : Type} (c : Codec) (P Q : χ → List Value → Prop) (p : Option BoolReader) (l : Option IntReader) (x y : Option χ)
    (rows : List (Option (List (Value × Value)))) : Prop :=
  FlagsLeft c p (rows.map (·.isSome)) ∧ LengthsLeft c l ((rows.filterMap id).map (·.length)) ∧
    (∃ z, x = some z ∧ P z ((rows.filterMap id).flatten.map (·.1))) ∧ (∃ z, y = some z ∧ Q z ((rows.filterMap id).flatten.map (·.2)))

/-- What a row of a list column must look like after a read: null, or the number of its elements. -/
def listRow (num : Nat → GoVal) (old : Value) {α : Type} : Option (List α) → Value
  | none => ⟨true, old.v⟩
  | some es => ⟨false, num es.length⟩

/-- The elements of one row as they are put into the child vector: a null row is shown as one null. -/
def rowElements {α : Type} (f : α → Value) : Option (List α) → List Value
  | none => [⟨true, .nil⟩]
  | some es => es.map f

/-! ### Struct rows -/

/-- The visible rows of a vector. -/
def Vec.rows : Vec → List Value
  | .nil => []
  | .mk _ _ s _ => visibleRows s

/-- The vector reached by going down from child to child. -/
def Vec.at : Vec → List Nat → Option Vec
  | v, [] => some v
  | .nil, _ :: _ => none
  | .mk _ _ _ cs, i :: path => match cs[i]? with
    | none => none
    | some c => c.at path

/-- The null flags of the visible rows. -/
def Vec.nulls (v : Vec) : List Bool := v.rows.map (·.null)

/-- No vector below `v` has fewer rows than the vector it is a child of, and none is nil. -/
def FillsDown (v : Vec) : Prop :=
  ∀ path d i c, v.at path = some d → v.at (path ++ [i]) = some c → c ≠ .nil ∧ d.rows.length ≤ c.rows.length

/-- Reader trees of structs and leaves without a present stream anywhere. -/
def PlainTree : (n : Nat) → Rd n → Prop
  | 0, _ => False
  | n + 1, x => match x with
    | RdNode.leaf _ r => r.present = none
    | RdNode.dict r => r.present = none
    | RdNode.struct _ p _ cs => p = none ∧ ∀ c ∈ cs, PlainTree n c
    | RdNode.list .. => False
    | RdNode.map .. => False
    | RdNode.bare _ r => r.present = none

end Goorc
