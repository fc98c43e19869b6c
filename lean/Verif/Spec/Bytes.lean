import Verif.Go.Basic
/-
Byte order, as a specification.
-/
namespace Goorc

/-- The number whose base-256 digits, least significant first, are the bytes. -/
def littleEndian : Bytes → Nat
  | [] => 0
  | b :: bs => b.toNat + 256 * littleEndian bs

end Goorc
