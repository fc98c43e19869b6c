import Verif.Go.Basic
/-
Numbers as big-endian bit strings, bytes as bit strings.
-/
namespace Goorc

/-- The `w` low bits of `n`, most significant first. -/
def natBits : Nat → Nat → List Bool
  | 0, _ => []
  | w + 1, n => n.testBit w :: natBits w n

/-- The number with the given bits, most significant first. -/
def bitsNat : List Bool → Nat
  | [] => 0
  | b :: bs => b.toNat * 2 ^ bs.length + bitsNat bs

/-- The bits of a byte string. -/
def bytesBits (s : Bytes) : List Bool := s.flatMap fun b => natBits 8 b.toNat

end Goorc
