import Verif.Spec.Lp
import Verif.Spec.Rounding

/-!
# Specification: the numbers of an objective
-/

namespace Bx.Spec

/-- The constant and the factors of an objective are numbers of the floating point type: they are not
changed by its rounding. -/
structure Stored (rnd : Rat → Rat) (o : Objective) : Prop where
  value : rnd o.value = o.value
  elems : ∀ e ∈ o.elems, rnd e.factor = e.factor
  qelems : ∀ e ∈ o.qelems, rnd e.factor = e.factor

/-- `q` is a multiple of `2 ^ e`. -/
def Grid (e : Int) (q : Rat) : Prop := ∃ m : Int, q = m * 2 ^ e

/-- The constant and the factors of an objective are multiples of `2 ^ e`: integers when `e` is 0. -/
structure OnGrid (e : Int) (o : Objective) : Prop where
  value : Grid e o.value
  elems : ∀ f ∈ o.elems, Grid e f.factor
  qelems : ∀ f ∈ o.qelems, Grid e f.factor

/-- The sum of the absolute values of the constant and of the factors. -/
def size (o : Objective) : Rat :=
  |o.value| + (o.elems.map fun e => |e.factor|).sum + (o.qelems.map fun e => |e.factor|).sum

end Bx.Spec
