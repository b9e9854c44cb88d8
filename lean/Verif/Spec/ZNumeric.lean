import Verif.Spec.Multipliers

/-!
# Specification: reduced costs with the absolute values of the coefficients

With non-negative coefficients they are the reduced costs of `Verif.Spec.Multipliers`.
-/

namespace Bx.Spec

open Merge (Merged)

/-- The absolute value of the coefficient of the variable `j` in a constraint. -/
def absCoef (es : List FunElem) (j : Nat) : Nat :=
  (es.map fun e => if e.var = j then e.factor.natAbs else 0).sum

/-- The reduced cost of the variable `j`, whose cost is `c`, with absolute values. -/
def absReducedCost (csts : List Merged) (pi : Nat → Rat) (P : Nat → Nat → Rat) (c : Rat) (j : Nat) :
    Rat :=
  c - (csts.zipIdx.map fun q => (absCoef q.1.elems j : Rat) * (pi q.2 + P q.2 j)).sum

end Bx.Spec
