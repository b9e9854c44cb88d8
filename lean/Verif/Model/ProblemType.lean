import Verif.Basic

/-! # Model of the problem classification of `lib/src/problem.hpp` -/

namespace Bx.ProblemType

/-- Inner loop of `coefficient_type` (`lib/src/problem.hpp:76-83`) over the
elements of all the constraints, in order. -/
def coefficientLoop (ret : Nat) : List FunElem → Nat
  | [] => ret
  | e :: es =>
    if e.factor = -1 ∧ ret = 0 then coefficientLoop 1 es
    else if e.factor ≤ -2 ∨ e.factor ≥ 2 then 2
    else coefficientLoop ret es

/-- `coefficient_type(csts)` (`lib/src/problem.hpp:71-86`). -/
def coefficientTypeOf (cs : List Constr) : Nat :=
  coefficientLoop 0 (cs.flatMap Constr.elems)

/-- `problem::coefficient_type` (`lib/src/problem.hpp:88-95`). -/
def coefficientType (eqs ges les : List Constr) : Nat :=
  Nat.max (coefficientTypeOf eqs)
    (Nat.max (coefficientTypeOf les) (coefficientTypeOf ges))

/-- `problem::which_problem_type` (`lib/src/problem.hpp:97-122`). -/
def whichProblemType (eqs ges les : List Constr) : SolverType :=
  if ges.isEmpty && les.isEmpty then
    match coefficientType eqs ges les with
    | 0 => .equalities01
    | 1 => .equalities101
    | _ => .equalitiesZ
  else
    match coefficientType eqs ges les with
    | 0 => .inequalities01
    | 1 => .inequalities101
    | _ => .inequalitiesZ

/-- `problem::problem(const raw_problem&)` (`lib/src/problem.hpp:47-57`). -/
def ofRaw (pb : RawProblem) : Problem where
  type := pb.type
  objective := pb.objective
  eqs := pb.eqs
  ges := pb.ges
  les := pb.les
  names := pb.names
  values := pb.values
  affected := {}
  ptype := whichProblemType pb.eqs pb.ges pb.les

end Bx.ProblemType
