import Verif.Basic

/-!
# Equality of problems

Models `lib/include/baryonyx/core-compare:30-97`.

Simplification: a `double` is a rational number, so that a number is equal to itself.
-/

namespace Bx.Equal

/-- `operator==` on two `std::vector`: the sizes are equal, then the elements two by two. -/
def vec {α : Type} (eq : α → α → Bool) : List α → List α → Bool
  | [], [] => true
  | a :: l, b :: r => eq a b && vec eq l r
  | _, _ => false

/-- `operator==` on `variable_value` (`core-compare:30-34`). -/
def varValue (a b : VarValue) : Bool :=
  decide (a.min = b.min) && decide (a.max = b.max) && decide (a.type = b.type)

/-- `operator==` on `function_element` (`core-compare:48-53`). -/
def funElem (a b : FunElem) : Bool := decide (a.factor = b.factor) && decide (a.var = b.var)

/-- `operator==` on `objective_function_element` (`core-compare:62-68`). -/
def objElem (a b : ObjElem) : Bool := decide (a.factor = b.factor) && decide (a.var = b.var)

/-- `operator==` on `constraint` (`core-compare:77-82`): the identifiers are not compared. -/
def constr (a b : Constr) : Bool :=
  vec funElem a.elems b.elems && decide (a.value = b.value) && decide (a.label = b.label)

/-- `operator==` on `objective_function` (`core-compare:84-89`): the quadratic elements are not
compared. -/
def objective (a b : Objective) : Bool :=
  vec objElem a.elems b.elems && decide (a.value = b.value)

/-- `operator==` on `raw_problem` (`core-compare:91-99`), with that of `variables`
(`core-compare:36-40`). -/
def raw (a b : RawProblem) : Bool :=
  objective a.objective b.objective &&
    (vec constr a.eqs b.eqs &&
      (vec constr a.ges b.ges &&
        (vec constr a.les b.les &&
          ((vec (fun x y : String => decide (x = y)) a.names b.names &&
              vec varValue a.values b.values) &&
            decide (a.type = b.type)))))

end Bx.Equal
