/-!
# Data types of the model

The types of `lib/include/baryonyx/core` and `lib/src/problem.hpp` and the
outcome of a modelled computation.
-/

namespace Bx

/-- How a C++ computation can stop abnormally.

* `contract` : a failed `bx_expects`, `bx_ensures`, `bx_assert`, or a reached
  `bx_reach` (`lib/src/debug.hpp:39-109`), i.e. `std::terminate`;
* `ub` : undefined behaviour (out of range access, dereferencing `end()`);
* `exn` : a C++ exception, with a tag;
* `fuel` : the bound given to a loop of the model was too small.  It is not a
  behaviour of the code: the theorems show that it does not occur, or state
  that the code loops. -/
inductive Fault where
  | contract (what : String)
  | ub (what : String)
  | exn (what : String)
  | fuel
  deriving DecidableEq, Repr

/-- Result of a modelled computation. -/
abbrev Outcome (α : Type) := Except Fault α

/-- `bx_expects` / `bx_ensures` / `bx_assert` (`lib/src/debug.hpp:88-101`),
built without `BARYONYX_FULL_OPTIMIZATION`. -/
def check (c : Bool) (what : String) : Outcome Unit :=
  if c then .ok () else .error (.contract what)

/-- `objective_function_type` (`lib/include/baryonyx/core:552-556`). -/
inductive ObjType where
  | maximize
  | minimize
  deriving DecidableEq, Repr

/-- `variable_type` (`lib/include/baryonyx/core:535-540`). -/
inductive VarType where
  | real
  | binary
  | general
  deriving DecidableEq, Repr

/-- `variable_value` (`lib/include/baryonyx/core:565-578`).  The default
maximum is `numeric_limits<int>::infinity()`, that is `0`. -/
structure VarValue where
  min : Int := 0
  max : Int := 0
  type : VarType := .real
  deriving DecidableEq, Repr

/-- `function_element` (`lib/include/baryonyx/core:586-597`).  `int` is an
unbounded integer and a variable index is a natural number. -/
structure FunElem where
  factor : Int
  var : Nat
  deriving DecidableEq, Repr

/-- `objective_function_element` (`lib/include/baryonyx/core:599-608`).
`double` is a rational number: rounding is not modelled. -/
structure ObjElem where
  factor : Rat
  var : Nat
  deriving DecidableEq, Repr

/-- `objective_quadratic_element` (`lib/include/baryonyx/core:610-625`). -/
structure QuadElem where
  factor : Rat
  a : Nat
  b : Nat
  deriving DecidableEq, Repr

/-- `constraint` (`lib/include/baryonyx/core:627-645`). -/
structure Constr where
  label : String := ""
  elems : List FunElem
  value : Int
  id : Int := 0
  deriving DecidableEq, Repr

/-- `objective_function` (`lib/include/baryonyx/core:647-652`). -/
structure Objective where
  elems : List ObjElem := []
  qelems : List QuadElem := []
  value : Rat := 0
  deriving DecidableEq, Repr

/-- `affected_variables` (`lib/include/baryonyx/core:654-664`).  Two vectors,
as in the code: their lengths can differ.  `var_value` is an `int8`. -/
structure Affected where
  names : List String := []
  values : List Int := []
  deriving DecidableEq, Repr

/-- `raw_problem` (`lib/include/baryonyx/core:666-690`), without the string
buffer (names are values here) and without the status. -/
structure RawProblem where
  type : ObjType := .maximize
  objective : Objective := {}
  eqs : List Constr := []
  ges : List Constr := []
  les : List Constr := []
  names : List String := []
  values : List VarValue := []
  deriving DecidableEq, Repr

/-- `problem_solver_type` (`lib/include/baryonyx/core:542-550`). -/
inductive SolverType where
  | equalities01
  | equalities101
  | equalitiesZ
  | inequalities01
  | inequalities101
  | inequalitiesZ
  deriving DecidableEq, Repr

/-- `problem` (`lib/src/problem.hpp:43-149`): a raw problem with its affected
variables and its class. -/
structure Problem where
  type : ObjType := .maximize
  objective : Objective := {}
  eqs : List Constr := []
  ges : List Constr := []
  les : List Constr := []
  names : List String := []
  values : List VarValue := []
  affected : Affected := {}
  ptype : SolverType := .equalities01
  deriving DecidableEq, Repr

/-- `result_status` (`lib/include/baryonyx/core:692-701`). -/
inductive Status where
  | success
  | internalError
  | uninitialized
  | timeLimitReached
  | kappaMaxReached
  | limitReached
  | emptyContext
  deriving DecidableEq, Repr

/-- `solution` (`lib/include/baryonyx/core:703-714`); `var_value` is `int8`. -/
structure Solution where
  variables : List Int
  value : Rat
  deriving DecidableEq, Repr

/-- `result` (`lib/include/baryonyx/core:716-748`), the fields that carry the
answer.  The initial value of `remaining_constraints` is the largest `int`. -/
structure Result where
  affected : Affected := {}
  variableName : List String := []
  solutions : List Solution := []
  status : Status := .uninitialized
  remaining : Nat := 2147483647
  loop : Nat := 0
  variableCount : Nat := 0
  constraintCount : Nat := 0
  deriving DecidableEq, Repr

end Bx
