import Verif.Spec.Multipliers
import Verif.Spec.Rounding

/-!
# Specification: reduced costs computed with rounding

The reduced cost of `Verif.Spec.Multipliers` as a machine computes it: the prices of the coefficients
are added from the first constraint to the last, the two sums are taken away from the cost one after
the other, and each operation is followed by the rounding `rnd`.
-/

namespace Bx.Spec

open Merge (Merged)

/-- The constraints that have the variable `j`, from the first to the last, with its coefficient. -/
def occurrences (csts : List Merged) (j : Nat) : List (Nat × Int) :=
  csts.zipIdx.flatMap fun q =>
    (q.1.elems.filter fun e => decide (e.var = j)).map fun e => (q.2, e.factor)

/-- The sum of the terms of a list, rounded after each addition. -/
def roundedSum (rnd : Rat → Rat) (l : List Rat) : Rat := l.foldl (fun a f => rnd (a + f)) 0

/-- The reduced cost of the variable `j`, whose cost is `c`, as computed. -/
def computedCost (rnd : Rat → Rat) (csts : List Merged) (pi : Nat → Rat) (P : Nat → Nat → Rat)
    (c : Rat) (j : Nat) : Rat :=
  rnd (rnd (c - roundedSum rnd ((occurrences csts j).map fun o => (o.2 : Rat) * pi o.1)) -
    roundedSum rnd ((occurrences csts j).map fun o => (o.2 : Rat) * P o.1 j))

/-- The preferences of the constraint `k` multiplied by `theta`, as computed. -/
def decayedR (rnd : Rat → Rat) (P : Nat → Nat → Rat) (k : Nat) (theta : Rat) : Nat → Nat → Rat :=
  fun i j => if i = k then rnd (P i j * theta) else P i j

/-- What is added to compute the reduced cost of the variable `j`: its cost, and the prices of its
coefficients, without their signs. -/
def magnitude (csts : List Merged) (pi : Nat → Rat) (P : Nat → Nat → Rat) (c : Rat) (j : Nat) : Rat :=
  |c| + ((occurrences csts j).map fun o => |(o.2 : Rat) * pi o.1|).sum +
    ((occurrences csts j).map fun o => |(o.2 : Rat) * P o.1 j|).sum

end Bx.Spec
