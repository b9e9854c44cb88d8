import Verif.Model.Merge
import Verif.Spec.Lp

/-!
# Specification: Lagrangian reduced costs

With a multiplier `pi k` on each constraint `k` and a preference `P k j` on each variable `j` of it,
the reduced cost of a variable is its cost minus the price of its coefficients.
-/

namespace Bx.Spec

open Merge (Merged)

/-- The coefficient of the variable `j` in a constraint. -/
def coef (es : List FunElem) (j : Nat) : Int :=
  (es.map fun e => if e.var = j then e.factor else 0).sum

/-- The reduced cost of the variable `j`, whose cost is `c`. -/
def reducedCost (csts : List Merged) (pi : Nat → Rat) (P : Nat → Nat → Rat) (c : Rat) (j : Nat) :
    Rat :=
  c - (csts.zipIdx.map fun q => (coef q.1.elems j : Rat) * (pi q.2 + P q.2 j)).sum

/-- The preferences of the constraint `k` multiplied by `theta`. -/
def decayed (P : Nat → Nat → Rat) (k : Nat) (theta : Rat) : Nat → Nat → Rat :=
  fun i j => if i = k then P i j * theta else P i j

/-- The sum of the prices `rc` of the variables of a constraint that are at 1. -/
def priceOf (rc : Nat → Rat) (es : List FunElem) (x : Assign) : Rat :=
  (es.map fun e => if x e.var then rc e.var else 0).sum

/-- `x` respects the constraint. -/
def Respects (c : Merged) (x : Assign) : Prop := c.min ≤ lhs x c.elems ∧ lhs x c.elems ≤ c.max

end Bx.Spec
