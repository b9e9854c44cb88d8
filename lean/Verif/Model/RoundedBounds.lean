import Verif.Model.Utils
import Verif.Model.Rounded

/-!
# The bounds of the objective with rounded operations
-/

namespace Bx.Rounded

/-- A turn of the loops of `core-utils:47-57`: `Utils.addFactor`. -/
def addFactor (rnd : Rat → Rat) (acc : Rat × Rat) (f : Rat) : Rat × Rat :=
  if f < 0 then (rnd (acc.1 + f), acc.2) else (acc.1, rnd (acc.2 + f))

/-- `compute_min_max_objective_function` (`core-utils:41-60`): `Utils.minMax`. -/
def minMax (rnd : Rat → Rat) (o : Objective) : Rat × Rat :=
  (o.qelems.map QuadElem.factor).foldl (addFactor rnd)
    ((o.elems.map ObjElem.factor).foldl (addFactor rnd) (o.value, o.value))

end Bx.Rounded
