import Verif.Model.Numeric
import Verif.Model.ZNumeric
import Verif.Model.Init

/-!
# From the objective to the solving loop

Models the beginning of `solver_functor::operator()` (`lib/src/itm-solver-common.hpp:63-123`), which
`Verif.Model.Numeric` leaves to its parameters: the costs of the objective, their normalisation, the
value of `delta` and the initial vector.

Simplifications: a floating point number is a rational number and the operations are exact.  The random
norm is not modelled here.
-/

namespace Bx.Setup

open Merge SolverCtor Itm Mult Costs Init

/-- The cost object that `select_cost` makes (`itm-solver-equalities-01.cpp:292-305` and the same function
of the other solvers). -/
def makeCosts (o : Objective) (n : Nat) : Outcome Cost :=
  if o.qelems.isEmpty then makeDefault o n else makeQuadratic o n

/-- `c(index, x)` of this object (`itm-common.hpp:1134-1138` and `1413-1425`); 0 out of the range of the
variables, which the solvers do not read (`C57`). -/
def costFun (o : Objective) (c : Cost) : CostFun := fun j x =>
  match if o.qelems.isEmpty then c.atLinear j x else c.at j x with
  | .ok v => v
  | .error _ => 0

/-- `delta` (`itm-solver-common.hpp:85-88`): a negative parameter is replaced by `compute_delta`. -/
def deltaOf (big : Rat) (c : Cost) (cfg : Num.Cfg) : Rat :=
  if cfg.delta < 0 then computeDelta id big c cfg.theta else cfg.delta

/-- What is computed before the loop. -/
structure Head where
  costs : Cost
  delta : Rat
  x0 : Spec.Assign

/-- What the user and the outside decide before the loop: the floating point type, the norm, the initial
policy, the order of `init_with_pre_solve` and the mutations of the initial vector. -/
structure Env where
  float : FloatType := double
  big : Rat := 2 ^ 1024
  norm : Norm := .loo
  policy : Policy := .bastert
  draws : Init.Draws
  flip : Nat → Bool

/-- The lines before the loop (`itm-solver-common.hpp:76-123`). -/
def head (e : Env) (cfg : Num.Cfg) (t : ObjType) (o : Objective) (csts : List Merged) (n : Nat) :
    Outcome Head := do
  let c ← makeCosts o n
  let nc ← normalize e.float e.norm c
  let x ← initial t (costAt o c) e.draws e.flip e.policy n csts
  .ok ⟨nc, deltaOf e.big nc cfg, x⟩

/-- `solver_functor::operator()` (`itm-solver-common.hpp:63-225`) with the solvers of coefficients 0/1 and
-1/0/1. -/
def solve (kind : SolverType) (e : Env) (w : Num.World Oracle) (cfg : Num.Cfg) (t : ObjType)
    (o : Objective) (csts : List Merged) (n : Nat) : Outcome (Answer × Num.State) := do
  let h ← head e cfg t o csts n
  Num.functor kind (fun s ω p k x m => Mult.update t ω p s (costFun o h.costs) k x m)
    { w with x0 := h.x0 } { cfg with delta := h.delta } t o csts n

/-- The same with the solver of integer coefficients. -/
def solveZ (e : Env) (w : Num.World ZNum.ZOracle) (cfg : Num.Cfg) (t : ObjType) (o : Objective)
    (csts : List Merged) (n : Nat) : Outcome (Answer × Num.State) := do
  let h ← head e cfg t o csts n
  ZNum.functor { w with x0 := h.x0 } { cfg with delta := h.delta } t o (costFun o h.costs) csts n

end Bx.Setup
