import Verif.Model.Float
/-!
# Rational arithmetic, to evaluate the model on examples
-/

namespace Idc

/-- Rational arithmetic.  `sqrt` is exact on squares of rationals and otherwise rounds down after at
least twenty decimals; `nan` is arbitrary; `fract` and `round` as in Rust. -/
instance : FloatOps Rat where
  ofInt n := (n : Rat)
  lit m k := mkRat m (10 ^ k)
  nan := 0
  add a b := a + b
  sub a b := a - b
  mul a b := a * b
  div a b := a / b
  sqrt a := mkRat (Nat.sqrt (a.num.toNat * a.den * 10 ^ 40)) (a.den * 10 ^ 20)
  abs a := if a < 0 then -a else a
  fract a := if 0 ≤ a then a - (a.floor : Rat) else a + ((-a).floor : Rat)
  round a := if 0 ≤ a then ((a + 1/2).floor : Rat) else -((-a + 1/2).floor : Rat)
  min a b := if a ≤ b then a else b
  max a b := if a ≤ b then b else a
  lt a b := a < b
  eq a b := a == b

end Idc
