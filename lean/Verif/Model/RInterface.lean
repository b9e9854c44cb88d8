import Verif.Model.Params
import Verif.Model.Optimizer
import Verif.Model.Init

/-!
# The interface with R

Models `rbaryonyx/src/rbaryonyx.cpp`: the functions `solve_01lp_problem` and
`optimize_01lp_problem` that an R user calls.

* Reading a problem and running the solver are parameters: they are modelled in
  `Verif.Model.Parser` and `Verif.Model.Dispatch`.
* The messages printed on the R console and the argument `verbose` are not modelled.
* The two functions have one record of arguments: `solve_01lp_problem` ignores the probabilities of
  the optimizer, `optimize_01lp_problem` ignores the two arguments of the initial policy.
-/

namespace Bx.RInterface

open Params (SolverParams D)
open Merge (Order)
open Itm (COrder)
open Optimizer (StorageType)

/-- `solver_parameters::cost_norm_type` (`lib/include/baryonyx/core:361-368`). -/
inductive NormType where
  | none
  | random
  | l1
  | l2
  | loo
  deriving DecidableEq, Repr

/-- `solver_parameters::floating_point_type` (`lib/include/baryonyx/core:341-346`). -/
inductive FloatType where
  | float
  | double
  | longdouble
  deriving DecidableEq, Repr

/-- `get_pre_constraint_order` (`rbaryonyx.cpp:116-147`). -/
def getPreOrder : Int → Order
  | 0 => .none
  | 2 => .lessGreaterEqual
  | 3 => .lessEqualGreater
  | 4 => .greaterLessEqual
  | 5 => .greaterEqualLess
  | 6 => .equalLessGreater
  | 7 => .equalGreaterLess
  | 8 => .p1
  | 9 => .p2
  | 10 => .p3
  | 11 => .p4
  | _ => .memory

/-- `get_constrait_order` (`rbaryonyx.cpp:149-174`). -/
def getOrder : Int → COrder
  | 1 => .reversing
  | 2 => .randomSorting
  | 3 => .infeasibilityDecr
  | 4 => .infeasibilityIncr
  | 5 => .lagrangianDecr
  | 6 => .lagrangianIncr
  | 7 => .piSignChange
  | 8 => .cycle
  | _ => .none

/-- `get_cost_norm` (`rbaryonyx.cpp:176-193`). -/
def getNorm : Int → NormType
  | 0 => .none
  | 1 => .random
  | 2 => .l1
  | 3 => .l2
  | _ => .loo

/-- `get_init_policy` (`rbaryonyx.cpp:195-210`). -/
def getPolicy : Int → Init.Policy
  | 0 => .bastert
  | 1 => .pessimisticSolve
  | 2 => .optimisticSolve
  | _ => .bastert

/-- `get_floating_point_type` (`rbaryonyx.cpp:212-225`). -/
def getFloat : Int → FloatType
  | 0 => .float
  | 2 => .longdouble
  | _ => .double

/-- `get_storage_type` (`rbaryonyx.cpp:227-240`). -/
def getStorage : Int → StorageType
  | 1 => .bound
  | 2 => .five
  | _ => .one

/-- The value of an enumerator of `pre_constraint_order` (`lib/include/baryonyx/core:296-332`). -/
def preOrderValue : Order → Int
  | .none => 0
  | .memory => 1
  | .lessGreaterEqual => 2
  | .lessEqualGreater => 3
  | .greaterLessEqual => 4
  | .greaterEqualLess => 5
  | .equalLessGreater => 6
  | .equalGreaterLess => 7
  | .p1 => 8
  | .p2 => 9
  | .p3 => 10
  | .p4 => 11

/-- The value of an enumerator of `constraint_order` (`lib/include/baryonyx/core:348-359`). -/
def orderValue : COrder → Int
  | .none => 0
  | .reversing => 1
  | .randomSorting => 2
  | .infeasibilityDecr => 3
  | .infeasibilityIncr => 4
  | .lagrangianDecr => 5
  | .lagrangianIncr => 6
  | .piSignChange => 7
  | .cycle => 8

/-- The value of an enumerator of `cost_norm_type`. -/
def normValue : NormType → Int
  | .none => 0
  | .random => 1
  | .l1 => 2
  | .l2 => 3
  | .loo => 4

/-- The value of an enumerator of `init_policy_type` (`lib/include/baryonyx/core:334-339`). -/
def policyValue : Init.Policy → Int
  | .bastert => 0
  | .pessimisticSolve => 1
  | .optimisticSolve => 2

/-- The value of an enumerator of `floating_point_type`. -/
def floatValue : FloatType → Int
  | .float => 0
  | .double => 1
  | .longdouble => 2

/-- The value of an enumerator of `storage_type` (`lib/include/baryonyx/core:403-408`). -/
def storageValue : StorageType → Int
  | .one => 0
  | .bound => 1
  | .five => 2

/-- The arguments of `solve_01lp_problem` and `optimize_01lp_problem` after the path, with their
default values (`rbaryonyx.cpp:369-392`, `520-551`). -/
structure Args where
  limit : Int := 1000
  theta : D := .fin (1 / 2)
  delta : D := .fin (-1)
  preConstraintOrder : Int := 1
  constraintOrder : Int := 0
  kappaMin : D := .fin 0
  kappaStep : D := .fin (1 / 1000)
  kappaMax : D := .fin (3 / 5)
  alpha : D := .fin 1
  w : D := .fin (1 / 20)
  timeLimit : D := .fin 10
  seed : Int := -1
  thread : Int := 1
  norm : Int := 4
  pushingKFactor : D := .fin (9 / 10)
  pushingObjectiveAmplifier : D := .fin 5
  pushesLimit : Int := 100
  pushingIterationLimit : Int := 50
  initPolicy : Int := 0
  initPolicyRandom : D := .fin (1 / 2)
  crossoverBastertInsertion : D := .fin (1 / 100)
  crossoverSelectionMean : D := .fin 0
  crossoverSelectionStddev : D := .fin (3 / 10)
  mutationVariableMean : D := .fin (1 / 10000)
  mutationVariableStddev : D := .fin (1 / 1000)
  mutationValueMean : D := .fin (1 / 2)
  mutationValueStddev : D := .fin (1 / 5)
  kappaImproveStart : D := .fin 0
  kappaImproveIncrease : D := .fin (1 / 50)
  kappaImproveStop : D := .fin (1 / 5)
  floatType : Int := 1
  storageType : Int := 1
  deriving DecidableEq, Repr

/-- The conversion of an `int` to the `unsigned int` of `seed`. -/
def toUnsigned (n : Int) : Int := n % 4294967296

/-- The parameters that `solve_01lp_problem` gives (`rbaryonyx.cpp:407-430`). -/
def solveParams (a : Args) : SolverParams :=
  { timeLimit := a.timeLimit
    theta := a.theta
    delta := a.delta
    kappaMin := a.kappaMin
    kappaStep := a.kappaStep
    kappaMax := a.kappaMax
    alpha := a.alpha
    pushingKFactor := a.pushingKFactor
    pushingObjectiveAmplifier := a.pushingObjectiveAmplifier
    initPolicyRandom := a.initPolicyRandom
    seed := toUnsigned a.seed
    thread := a.thread
    limit := a.limit
    w := a.w
    pushesLimit := a.pushesLimit
    pushingIterationLimit := a.pushingIterationLimit
    preOrder := preOrderValue (getPreOrder a.preConstraintOrder)
    order := orderValue (getOrder a.constraintOrder)
    costNorm := normValue (getNorm a.norm)
    initPolicy := policyValue (getPolicy a.initPolicy)
    floatType := floatValue (getFloat a.floatType)
    storage := storageValue (getStorage a.storageType) }

/-- The parameters that `optimize_01lp_problem` gives (`rbaryonyx.cpp:565-601`). -/
def optimizeParams (a : Args) : SolverParams :=
  { timeLimit := a.timeLimit
    theta := a.theta
    delta := a.delta
    kappaMin := a.kappaMin
    kappaStep := a.kappaStep
    kappaMax := a.kappaMax
    alpha := a.alpha
    pushingKFactor := a.pushingKFactor
    pushingObjectiveAmplifier := a.pushingObjectiveAmplifier
    crossoverBastertInsertion := a.crossoverBastertInsertion
    crossoverSelectionMean := a.crossoverSelectionMean
    crossoverSelectionStddev := a.crossoverSelectionStddev
    mutationVariableMean := a.mutationVariableMean
    mutationVariableStddev := a.mutationVariableStddev
    mutationValueMean := a.mutationValueMean
    mutationValueStddev := a.mutationValueStddev
    kappaImproveStart := a.kappaImproveStart
    kappaImproveIncrease := a.kappaImproveIncrease
    kappaImproveStop := a.kappaImproveStop
    seed := toUnsigned a.seed
    thread := a.thread
    limit := a.limit
    w := a.w
    pushesLimit := a.pushesLimit
    pushingIterationLimit := a.pushingIterationLimit
    preOrder := preOrderValue (getPreOrder a.preConstraintOrder)
    order := orderValue (getOrder a.constraintOrder)
    costNorm := normValue (getNorm a.norm)
    floatType := floatValue (getFloat a.floatType)
    storage := storageValue (getStorage a.storageType) }

/-- The parameters of the context of the call: a new context receives the parameters of the
arguments (`rbaryonyx.cpp:399, 432` and `557, 603`). -/
def context (optimize : Bool) (a : Args) : SolverParams :=
  Params.setAll [if optimize then optimizeParams a else solveParams a]

/-- What the call meets outside. -/
structure World where
  /-- `make_problem(ctx, file_path)`; `none` is a status that is not a success. -/
  read : String → Outcome (Option RawProblem)
  /-- `optimize` (`true`) or `solve` with a context that has these parameters; the duration is given
  beside the result. -/
  run : SolverParams → Bool → RawProblem → Outcome (Result × D)

/-- The named list of R. -/
structure Answer where
  solutionFound : Bool
  errorFound : Bool
  value : Rat
  duration : D
  vars : Nat
  constraints : Nat
  remaining : Nat
  minimize : Bool
  solutions : List Rat
  deriving DecidableEq, Repr

/-- `convert_result` (`rbaryonyx.cpp:242-289`). -/
def convertResult (r : Result) (duration : D) (minimize : Bool) : Outcome Answer :=
  let list (found error : Bool) (value : Rat) : Answer :=
    ⟨found, error, value, duration, r.variableCount, r.constraintCount, r.remaining, minimize,
      r.solutions.map fun s => s.value⟩
  match r.status with
  | .success =>
    match r.solutions.getLast? with
    | none => .error (.ub "solutions.back()")
    | some s => .ok (list true false s.value)
  | .internalError => .ok (list false true 0)
  | _ => .ok (list false false 0)

/-- The handlers of `rbaryonyx.cpp:435-446` and `606-617`: an exception leaves the result as it was
constructed, but for its status. -/
def failed (minimize : Bool) : Outcome Answer :=
  convertResult { status := .internalError } (.fin 0) minimize

/-- `solve_01lp_problem` (`rbaryonyx.cpp:394-447`, `optimize = false`) and `optimize_01lp_problem`
(`rbaryonyx.cpp:552-618`, `optimize = true`).  The status of the problem is not tested: a file that
cannot be read gives `raw_problem(status)` (`lib/include/baryonyx/core:669-671`), whose other members
have their default values.  A fault that is not an exception stops R. -/
def call (w : World) (optimize : Bool) (path : String) (a : Args) : Outcome Answer :=
  match w.read path with
  | .error (.exn _) => failed true
  | .error f => .error f
  | .ok pb =>
    let pb := pb.getD {}
    let minimize := decide (pb.type = .minimize)
    match w.run (context optimize a) optimize pb with
    | .error (.exn _) => failed minimize
    | .error f => .error f
    | .ok (r, duration) => convertResult r duration minimize

end Bx.RInterface
