import Verif.Basic
import Mathlib.Data.List.Dedup

/-!
# The counts of a result

What the English statement of C112 counts.
-/

namespace Bx.Spec.Counts

/-- The left-hand sides of constraints, each once: two left-hand sides are the same when they have
the same elements in the same order. -/
def sides (eqs ges les : List Constr) : List (List FunElem) :=
  ((eqs ++ ges ++ les).map Constr.elems).dedup

end Bx.Spec.Counts
