import Verif.Model.ReadVUint
/-
What the claims about `ReadVUint` (C112) are stated with.
-/
namespace Goorc

/-- The number a base-128 varint stands for: seven bits of each byte, the least significant first. -/
def base128 : List Byte → Nat
  | [] => 0
  | b :: bs => b.toNat % 128 + 128 * base128 bs

/-- The bytes of the first `n` calls. -/
def ByteCalls.bytes (s : ByteCalls) (n : Nat) : Bytes := (List.range n).map fun j => (s j).1

end Goorc
