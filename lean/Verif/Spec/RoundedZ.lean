import Verif.Spec.RoundedRows
import Verif.Spec.ZNumeric

/-!
# Specification: reduced costs with integer coefficients, computed with rounding

The reduced cost of `Verif.Spec.ZNumeric` as a machine computes it: the products of the coefficients and
of the prices are added from the first constraint to the last, the sum is taken away from the cost, and
each operation is followed by the rounding `rnd`.
-/

namespace Bx.Spec

open Merge (Merged)

/-- The reduced cost of the variable `j`, whose cost is `c`, with absolute values, as computed. -/
def computedAbsCost (rnd : Rat → Rat) (csts : List Merged) (pi : Nat → Rat) (P : Nat → Nat → Rat)
    (c : Rat) (j : Nat) : Rat :=
  rnd (c - roundedSum rnd ((occurrences csts j).map fun o =>
    rnd (rnd (o.2.natAbs : Rat) * rnd (pi o.1 + P o.1 j))))

/-- What is added to compute the reduced cost of the variable `j`, without the signs. -/
def absMagnitude (csts : List Merged) (pi : Nat → Rat) (P : Nat → Nat → Rat) (c : Rat) (j : Nat) :
    Rat :=
  |c| + ((occurrences csts j).map fun o => (o.2.natAbs : Rat) * |pi o.1 + P o.1 j|).sum

/-- The sum of the prices of the variables at 1, as computed: in the order of the list, with a rounding
after each addition. -/
def summedPrice (rnd : Rat → Rat) (pr : Nat → Rat) (es : List FunElem) (x : Assign) : Rat :=
  roundedSum rnd ((es.filter fun e => x e.var).map fun e => pr e.var)

end Bx.Spec
