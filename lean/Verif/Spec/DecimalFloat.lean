import Verif.Model.DecimalFloat
import Mathlib.Algebra.Order.Field.Rat
/-
What the claims about `Decimal64.Float64` (C113) are stated with: the number a decimal stands for.
-/
namespace Goorc

/-- Arithmetic without rounding. -/
def exactOps : FloatOps ℚ where
  ofInt n := n
  mul x y := x * y
  div x y := x / y

/-- `x` is the number of the decimal as the ORC specification defines it: `p` divided by ten to the power `s`. -/
def OrcDecimal (p s : Int) (x : ℚ) : Prop :=
  if 0 ≤ s then x * 10 ^ s.toNat = p else x = p * 10 ^ (-s).toNat

/-- `x` is the number if the scale is taken with the other sign: `p` times ten to the power `s`. -/
def OtherDecimal (p s : Int) (x : ℚ) : Prop :=
  if 0 ≤ s then x = p * 10 ^ s.toNat else x * 10 ^ (-s).toNat = p

end Goorc
