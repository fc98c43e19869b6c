import Verif.Go.Basic
/-
Specification vocabulary for booleans packed into bytes: most significant bit first,
the last byte padded with false.
-/
namespace Goorc

/-- The byte whose bits, from bit 7 down, are the given booleans, padded with zeros;
`i` is the index of the first boolean. -/
def packFrom : Nat → List Bool → Byte
  | _, [] => 0
  | i, b :: bs => (if b then (1#8 <<< (7 - i)) else 0) ||| packFrom (i + 1) bs

/-- Up to eight booleans as one byte, first boolean in the most significant bit. -/
def packByte (bs : List Bool) : Byte := packFrom 0 bs

/-- The padding that completes `n` booleans to whole bytes. -/
def padding (n : Nat) : List Bool := List.replicate ((8 - n % 8) % 8) false

/-- The booleans of the last, incomplete byte. -/
def trailing (bs : List Bool) : List Bool := bs.drop (bs.length - bs.length % 8)

end Goorc

namespace Goorc

/-- Booleans with the first ones or-ed with stale ones. -/
def orBits : List Bool → List Bool → List Bool
  | [], ys => ys
  | _, [] => []
  | s :: ss, y :: ys => (s || y) :: orBits ss ys

end Goorc
