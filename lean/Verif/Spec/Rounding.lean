import Mathlib.Data.Int.Log
import Mathlib.Data.Rat.Floor
import Mathlib.Order.Monotone.Basic

/-!
# Rounding

What a floating point operation does to the exact result (IEEE 754), as a function of the rational
numbers.  Overflow, subnormal numbers, NaN and the infinities are left out: the exponent is not
bounded.
-/

namespace Bx.Spec

/-- What the theorems assume of a rounding: it is increasing, what is rounded is not rounded further,
and 0 is kept. -/
structure Rounding (rnd : Rat → Rat) : Prop where
  mono : Monotone rnd
  idem : ∀ q, rnd (rnd q) = rnd q
  zero : rnd 0 = 0

/-- The nearest integer, the even one of two. -/
def nearest (q : Rat) : Int :=
  let f := ⌊q⌋
  if q - f < 1 / 2 then f
  else if 1 / 2 < q - f then f + 1
  else if f % 2 = 0 then f
  else f + 1

/-- The distance between the numbers of `p` binary digits around `q`. -/
def ulp (p : Nat) (q : Rat) : Rat := 2 ^ (Int.log 2 |q| + 1 - p)

/-- Rounding to the nearest number of `p` binary digits, the even one of two: `p` is 24 for `float`
and 53 for `double`. -/
def binary (p : Nat) (q : Rat) : Rat := nearest (q / ulp p q) * ulp p q

end Bx.Spec
