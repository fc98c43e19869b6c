import Verif.Model.StripeWriter
/-
The shape of a batch that is handed to `Write`.
-/
namespace Goorc

mutual
/-- Every vector is there, belongs to one of the columns, and has at least `rows` rows, unless it is that of a struct without values of its own. -/
def Vec.Has (columns rows : Nat) : Vec → Prop
  | .nil => False
  | .mk id _ a cs => (∀ b, a = some b → id < columns ∧ rows ≤ b.visible.length) ∧ allHave columns rows cs

/-- All vectors have the rows. -/
def allHave (columns rows : Nat) : List Vec → Prop
  | [] => True
  | v :: vs => v.Has columns rows ∧ allHave columns rows vs
end

/-- Where the rows of the batch are counted there is no vector: it is nil itself, or it has no rows of its own and its first child is such a vector. -/
inductive Vec.Headless : Vec → Prop
  | missing : Vec.Headless .nil
  | first (id : Nat) (k : TypeKind) (a : Option Slice) (c : Vec) (cs : List Vec) (none : ∀ s, a = some s → s.len = 0) (h : c.Headless) : Vec.Headless (.mk id k a (c :: cs))

mutual
/-- The first rows of every vector. -/
def Vec.cut (rows : Nat) : Vec → Vec
  | .nil => .nil
  | .mk id k a cs => .mk id k (a.map fun b => { b with len := min b.len rows }) (cutAll rows cs)

/-- The first rows of several vectors. -/
def cutAll (rows : Nat) : List Vec → List Vec
  | [] => []
  | v :: vs => v.cut rows :: cutAll rows vs
end

mutual
/-- Is there a vector with values for column `id`? -/
def Vec.covers (id : Nat) : Vec → Bool
  | .nil => false
  | .mk i _ a cs => (a.isSome && i == id) || coversAny id cs

/-- Is there one among several vectors? -/
def coversAny (id : Nat) : List Vec → Bool
  | [] => false
  | v :: vs => v.covers id || coversAny id vs
end

end Goorc
