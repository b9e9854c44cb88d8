import Verif.Model.RandomSolver
import Verif.Model.Optimizer

/-!
# Which solver runs

Models the choices of `lib/src/itm.hpp:94-203`, of `lib/src/lpcore.cpp:88-132`, of the functions at
the end of `lib/src/random-solver.cpp`, and `lib/src/nlopt-optimizer.cpp`.

What each solver does is modelled in `Verif.Model.Solve`, `Verif.Model.Optimizer`,
`Verif.Model.Branch` and `Verif.Model.Manual`; here it is a parameter.  The choice of the
floating point type (`select_float`) and of the log are not modelled.
-/

namespace Bx.Dispatch

open Merge SolverCtor Spec Itm

/-- `solver_parameters::solver_type` (`lib/include/baryonyx/core:394-398`). -/
inductive Solver where
  | bastert
  | random
  deriving DecidableEq, Repr

/-- The solver classes. -/
inductive Engine where
  | equalities01
  | equalities101
  | inequalities01
  | inequalities101
  | inequalitiesZ
  | random
  deriving DecidableEq, Repr

/-- A function of `itm.hpp:32-84`: the solver class it uses, and whether it calls
`optimize_problem` (`true`) or `solve_problem`. -/
structure Plan where
  engine : Engine
  optimization : Bool
  deriving DecidableEq, Repr

/-- `solve_random_equalities_01`, `optimize_random_equalities_01`, `solve_random_equalities_101` and
`optimize_random_equalities_101` (`random-solver.cpp:391-403` and `419-431`): they all call
`select_float(ctx, pb, false)`. -/
def randomEqualities : Plan := ⟨.random, false⟩

/-- `solve_random_inequalities_01`, `optimize_random_inequalities_01`,
`solve_random_inequalities_101` and `optimize_random_inequalities_101` (`random-solver.cpp:405-417`
and `433-445`): they all call `select_float(ctx, pb, true)`. -/
def randomInequalities : Plan := ⟨.random, true⟩

/-- The branch of the random solver, the same in `solve` and `optimize` (`itm.hpp:120-142` and
`181-200`); `none` is `result(result_status::internal_error)`. -/
def chooseRandom : SolverType → Option Plan
  | .equalities01 => some randomEqualities
  | .equalities101 => some randomEqualities
  | .equalitiesZ => none
  | .inequalities01 => some randomInequalities
  | .inequalities101 => some randomInequalities
  | .inequalitiesZ => none

/-- The branch of the solver `bastert` (`itm.hpp:97-119` and `158-180`); `optimization` tells which
of `itm::solve` and `itm::optimize` it is. -/
def chooseBastert (method : String) (optimization : Bool) (t : SolverType) : Plan :=
  if method = "buffered" then ⟨.equalities01, optimization⟩
  else
    match t with
    | .equalities01 => ⟨.equalities01, optimization⟩
    | .equalities101 => ⟨.equalities101, optimization⟩
    | .equalitiesZ => ⟨.inequalitiesZ, optimization⟩
    | .inequalities01 => ⟨.inequalities01, optimization⟩
    | .inequalities101 => ⟨.inequalities101, optimization⟩
    | .inequalitiesZ => ⟨.inequalitiesZ, optimization⟩

/-- The choice of `itm::solve` (`itm.hpp:94-145`, `optimization = false`) and of `itm::optimize`
(`itm.hpp:155-203`, `optimization = true`). -/
def choose (s : Solver) (method : String) (optimization : Bool) (t : SolverType) : Option Plan :=
  match s with
  | .bastert => some (chooseBastert method optimization t)
  | .random => chooseRandom t

/-- The constructor of a solver class on one constraint. -/
def Engine.ctor : Engine → Merged → Outcome Bound
  | .equalities01 => SolverCtor.equalities01
  | .equalities101 => SolverCtor.equalities101
  | .inequalities01 => SolverCtor.inequalities01
  | .inequalities101 => SolverCtor.inequalities101
  | .inequalitiesZ => SolverCtor.inequalitiesZ
  | .random => Rand.ctor

/-- What the dispatch reads of the context. -/
structure Ctx where
  solver : Solver := .bastert
  method : String := ""
  preprocessing : Bool := true
  mode : Nat := 0
  deriving DecidableEq, Repr

/-- `itm::solve` and `itm::optimize`: run the plan. -/
def itm (exec : Plan → Problem → Outcome Result) (c : Ctx) (optimization : Bool) (pb : Problem) :
    Outcome Result :=
  match choose c.solver c.method optimization pb.ptype with
  | none => .ok { status := .internalError }
  | some p => exec p pb

/-- `baryonyx::solve` (`lpcore.cpp:88-98`). -/
def solve (exec : Plan → Problem → Outcome Result) (c : Option Ctx) (raw : RawProblem) :
    Outcome Result :=
  match c with
  | none => .ok { status := .emptyContext }
  | some c => do
    let pb ← prepared c.preprocessing raw
    itm exec c false pb

/-- The three other optimizers of a problem: `branch_optimize`, `nlopt_optimize` and
`manual_optimize`. -/
structure Tuners where
  branch : Problem → Outcome Result
  nlopt : Problem → Outcome Result
  manual : Problem → Outcome Result

/-- `(mode & f) == f`. -/
def hasFlag (mode f : Nat) : Bool := decide (mode &&& f = f)

/-- `baryonyx::optimize` (`lpcore.cpp:100-132`).  The flags are those of `mode_type`
(`lib/include/baryonyx/core:370-376`): 4 branch, 2 nlopt, 1 manual. -/
def optimize (exec : Plan → Problem → Outcome Result) (t : Tuners) (c : Option Ctx)
    (raw : RawProblem) : Outcome Result :=
  match c with
  | none => .ok { status := .emptyContext }
  | some c => do
    let pb ← prepared c.preprocessing raw
    if hasFlag c.mode 4 then t.branch pb
    else if hasFlag c.mode 2 then t.nlopt pb
    else if hasFlag c.mode 1 then t.manual pb
    else itm exec c true pb

/-- The class of `Verif.Model.Solve` with the same loops and the same constructor: the constructor of
the random solver is that of the -1/0/1 inequality solver up to a field that the loops do not read
(`Rand.make_eq`, `Rand.isValid_strip`). -/
def Engine.kind : Engine → SolverType
  | .equalities01 => .equalities01
  | .equalities101 => .equalities101
  | .inequalities01 => .inequalities01
  | .inequalities101 => .inequalities101
  | .inequalitiesZ => .inequalitiesZ
  | .random => .inequalities101

/-- What the outside decides: the sorts, the order of the constraints, and the choices of
`solve_problem` and of `optimize_problem`. -/
structure World (ρ : Type) where
  sorts : Sorts
  order : Order
  run : Run ρ
  choices : Optimizer.Choices ρ
  params : Params

/-- A function of `itm.hpp:32-84`: `select_float(ctx, pb, is_optimization)` calls `optimize_problem`
or `solve_problem` with the solver class (`itm-solver-equalities-01.cpp:273-328`,
`random-solver.cpp:342-389`).  `upd e` is the update of a row by the class `e`; the storage is
`one`. -/
def execute {ρ : Type} (upd : Engine → Slv → ρ → Nat → Assign → Outcome Assign) (w : World ρ)
    (p : Plan) (pb : Problem) : Outcome Result :=
  if p.optimization then
    Optimizer.optimizeProblem p.engine.kind (upd p.engine) w.sorts w.order w.choices w.params .one pb
  else solveProblem p.engine.kind (upd p.engine) w.sorts w.order w.run w.params pb

/-! ## The tuning with nlopt -/

/-- `x[i]`, an unchecked read of a `std::vector`. -/
def at? (x : List Rat) (i : Nat) : Outcome Rat :=
  match x[i]? with
  | none => .error (.ub "x[param]")
  | some v => .ok v

/-- The parameters written by `nlopt_optimize_fun`. -/
structure Tuning where
  theta : Rat
  delta : Rat
  kappaMin : Rat
  kappaStep : Rat
  initPolicyRandom : Rat
  deriving DecidableEq, Repr

/-- The reads of the vector `x` (`nlopt-optimizer.cpp:64-70` and, after the search, `128-138`) with
the indices of the enumeration `param` (`nlopt-optimizer.cpp:35-43`): `param_init_random` is 4 and is
not used, `param_init_policy_random` is 5. -/
def tuning (x : List Rat) : Outcome Tuning := do
  let theta ← at? x 0
  let delta ← at? x 1
  let kappaMin ← at? x 2
  let kappaStep ← at? x 3
  let initPolicyRandom ← at? x 5
  .ok ⟨theta, delta, kappaMin, kappaStep, initPolicyRandom⟩

/-- The value that stands for `HUGE_VAL` is `none`. -/
def evaluate (inner : Tuning → Outcome (Option Rat)) (x : List Rat) : Outcome (Option Rat) := do
  let t ← tuning x
  inner t

/-- `opt.optimize(x, value)` of nlopt: it evaluates the function at a finite sequence of points that
it chooses from the values seen so far (`next`; `none` ends the search), and returns the code and the
point of `stop`.  Every point has as many coordinates as the first one. -/
structure Search where
  next : List (Option Rat) → Option (List Rat)
  stop : List (Option Rat) → Int × List Rat

/-- The search, for at most `steps` evaluations; `none`: it goes on. -/
def search (s : Search) (inner : Tuning → Outcome (Option Rat)) :
    Nat → List (Option Rat) → Option (Outcome (Int × List Rat))
  | 0, _ => none
  | steps + 1, seen =>
    match s.next seen with
    | none => some (.ok (s.stop seen))
    | some x =>
      match evaluate inner x with
      | .error f => some (.error f)
      | .ok v => search s inner steps (seen ++ [v])

/-- `optimize` of `nlopt-optimizer.cpp:93-148`, with nlopt: the first point is
`{ 0.5, 0.001, 0.1, 0.001, 0.5 }`. -/
def nlopt (s : Search) (inner : Tuning → Outcome (Option Rat)) (final : Tuning → Outcome Result)
    (manual : Outcome Result) (steps : Nat) : Option (Outcome Result) :=
  match search s inner steps [] with
  | none => none
  | some (.error f) => some (.error f)
  | some (.ok (code, x)) =>
    some (if code ≥ 1 ∨ code = -4 then do
        let t ← tuning x
        final t
      else manual)

/-- `nlopt_optimize` (`nlopt-optimizer.cpp:154-168`) without nlopt. -/
def withoutNlopt (manual : Problem → Outcome Result) (pb : Problem) : Outcome Result := manual pb

end Bx.Dispatch
