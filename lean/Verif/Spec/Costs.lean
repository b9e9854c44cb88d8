import Mathlib.Logic.Function.Basic
import Verif.Spec.Lp

/-!
# Specification of the costs
-/

namespace Bx.Spec

/-- The change of the objective when variable `j` goes from 0 to 1, the other variables
being those of `x`. -/
def marginal (o : Objective) (x : Assign) (j : Nat) : Rat :=
  objective o (Function.update x j true) - objective o (Function.update x j false)

/-- The indices of an objective are those of `n` variables. -/
def InRange (o : Objective) (n : Nat) : Prop :=
  (∀ e ∈ o.elems, e.var < n) ∧ ∀ e ∈ o.qelems, e.a < n ∧ e.b < n

/-- The factors that count for variable `j`: those of its linear terms, and those of its products with
a variable at 1. -/
def termsOf (o : Objective) (x : Assign) (j : Nat) : List Rat :=
  (o.elems.filter fun e => decide (e.var = j)).map ObjElem.factor ++
  (o.qelems.filter fun e => (decide (e.a = j) && x e.b) || (decide (e.b = j) && x e.a)).map
    QuadElem.factor

end Bx.Spec
