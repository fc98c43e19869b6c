import Verif.Go.Basic
/-
Model of orc/api/vector.go: `Decimal64.Float64`.
-/
namespace Goorc

/-- The arithmetic `Float64` uses, a parameter: `float64(n)` of an integer, `*` and `/`. orc/api/vector.go:95-106. -/
structure FloatOps (F : Type) where
  ofInt : Int → F
  mul : F → F → F
  div : F → F → F

/-- An `int` of 64 bits: results of integer arithmetic wrap around. orc/api/vector.go:100, 103. -/
def goInt (n : Int) : Int := n.bmod (2 ^ 64)

/-- orc/api/vector.go:95-106 `Decimal64.Float64` of the precision `p` and the scale `s`. -/
def decimalFloat {F : Type} (o : FloatOps F) (p s : Int) : F :=
  if s = 0 then o.ofInt p
  else if s > 0 then o.mul (o.ofInt p) (o.ofInt (goInt (10 * s)))
  else o.div (o.ofInt p) (o.ofInt (goInt (10 * s)))

end Goorc
