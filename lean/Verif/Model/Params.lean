import Mathlib.Data.Rat.Floor
import Verif.Basic

/-!
# The solver parameters of a context

Models `context_set_solver_parameters` and `context_get_solver_parameters`
(`lib/src/private.cpp:50-178`).

Simplifications: a finite `double` is a rational number and the product of line 133
is exact; `unsigned`, `int` and `long` are unbounded integers; each enumeration is
represented by its integer value.
-/

namespace Bx.Params

/-- A `double`. -/
inductive D where
  | nan
  | ninf
  | fin (q : Rat)
  | pinf
  deriving DecidableEq, Repr

namespace D

/-- `a < b`: false when one of them is NaN. -/
def lt : D → D → Bool
  | .nan, _ => false
  | _, .nan => false
  | .ninf, .ninf => false
  | .ninf, _ => true
  | .fin _, .ninf => false
  | .fin a, .fin b => decide (a < b)
  | .fin _, .pinf => true
  | .pinf, _ => false

/-- `a == b`. -/
def eq : D → D → Bool
  | .nan, _ => false
  | a, b => decide (a = b)

/-- `a <= b`. -/
def le (a b : D) : Bool := lt a b || eq a b

/-- `std::isfinite`. -/
def isfinite : D → Bool
  | .fin _ => true
  | _ => false

/-- `std::clamp(v, lo, hi)`. -/
def clamp (v lo hi : D) : D := if lt v lo then lo else if lt hi v then hi else v

/-- `std::min(a, b)`: `b < a ? b : a`. -/
def min (a b : D) : D := if lt b a then b else a

/-- `std::floor`. -/
def floor : D → D
  | .fin q => .fin (⌊q⌋ : Int)
  | d => d

/-- `static_cast<double>(n) * d` for `n > 0`. -/
def scale (n : Int) : D → D
  | .fin q => .fin (n * q)
  | d => d

end D

/-- `std::numeric_limits<long int>::max()`. -/
def longMax : Int := 2 ^ 63 - 1

/-- `solver_parameters` (`lib/include/baryonyx/core:410-462`) with its default
values. -/
structure SolverParams where
  timeLimit : D := .fin (-1)
  theta : D := .fin (1 / 2)
  delta : D := .fin (-1)
  kappaMin : D := .fin 0
  kappaStep : D := .fin (1 / 1000)
  kappaMax : D := .fin (3 / 5)
  alpha : D := .fin 1
  pushingKFactor : D := .fin (9 / 10)
  pushingObjectiveAmplifier : D := .fin 5
  initPolicyRandom : D := .fin (1 / 2)
  crossoverBastertInsertion : D := .fin (1 / 100)
  crossoverSelectionMean : D := .fin 0
  crossoverSelectionStddev : D := .fin (3 / 10)
  mutationVariableMean : D := .fin (1 / 10000)
  mutationVariableStddev : D := .fin (1 / 1000)
  mutationValueMean : D := .fin (1 / 2)
  mutationValueStddev : D := .fin (1 / 5)
  kappaImproveStart : D := .fin 0
  kappaImproveIncrease : D := .fin (1 / 50)
  kappaImproveStop : D := .fin (1 / 5)
  w : D := .fin (1 / 20)
  seed : Int := 0
  thread : Int := 0
  limit : Int := 1000
  printLevel : Int := 0
  pushesLimit : Int := 100
  pushingIterationLimit : Int := 50
  initPopulationSize : Int := 100
  preOrder : Int := 0
  order : Int := 0
  floatType : Int := 1
  initPolicy : Int := 0
  costNorm : Int := 4
  mode : Int := 0
  preprocessor : Int := 1
  observer : Int := 0
  storage : Int := 0
  solver : Int := 0
  debug : Bool := false
  deriving DecidableEq, Repr

/-- A kept value or a new one: `if (c) stored = new`. -/
def keepUnless {α : Type} (c : Bool) (new stored : α) : α := if c then new else stored

/-- The test of `private.cpp:64-66`. -/
def kappaOk (p : SolverParams) : Bool :=
  p.kappaMin.lt p.kappaMax && D.le (.fin 0) p.kappaMin && p.kappaMin.lt (.fin 1) &&
    p.kappaMax.le (.fin 1) && D.le (.fin 0) p.kappaStep && p.kappaStep.lt (.fin 1)

/-- `if (std::isfinite(v)) stored = std::clamp(v, 0.0, 1.0)`
(`private.cpp:82-108`). -/
def unit (v stored : D) : D := keepUnless v.isfinite (v.clamp (.fin 0) (.fin 1)) stored

/-- The stored `w` (`private.cpp:126-139`). -/
def storedW (limit : Int) (w : D) : D :=
  if w.lt (.fin 0) then .fin 0
  else if limit > 0 then
    if w.lt (.fin 1) then w.scale limit else D.min (.fin limit) w
  else w.floor

/-- `context_set_solver_parameters` (`private.cpp:50-172`): `s` is
`ctx->parameters`. -/
def set (s p : SolverParams) : SolverParams :=
  { timeLimit := if p.timeLimit.le (.fin 0) then .pinf else p.timeLimit
    theta := keepUnless (D.le (.fin 0) p.theta && p.theta.le (.fin 1)) p.theta s.theta
    delta := keepUnless (p.delta.eq (.fin (-1)) || D.le (.fin 0) p.delta) p.delta s.delta
    kappaMin := keepUnless (kappaOk p) p.kappaMin s.kappaMin
    kappaStep := keepUnless (kappaOk p) p.kappaStep s.kappaStep
    kappaMax := keepUnless (kappaOk p) p.kappaMax s.kappaMax
    alpha := keepUnless (D.le (.fin 0) p.alpha) p.alpha s.alpha
    pushingKFactor := keepUnless p.pushingKFactor.isfinite p.pushingKFactor s.pushingKFactor
    pushingObjectiveAmplifier := keepUnless p.pushingObjectiveAmplifier.isfinite
      p.pushingObjectiveAmplifier s.pushingObjectiveAmplifier
    crossoverBastertInsertion := unit p.crossoverBastertInsertion s.crossoverBastertInsertion
    crossoverSelectionMean := unit p.crossoverSelectionMean s.crossoverSelectionMean
    crossoverSelectionStddev := unit p.crossoverSelectionStddev s.crossoverSelectionStddev
    mutationVariableMean := unit p.mutationVariableMean s.mutationVariableMean
    mutationVariableStddev := unit p.mutationVariableStddev s.mutationVariableStddev
    mutationValueMean := unit p.mutationValueMean s.mutationValueMean
    mutationValueStddev := unit p.mutationValueStddev s.mutationValueStddev
    initPolicyRandom := keepUnless
      (D.le (.fin 0) p.initPolicyRandom && p.initPolicyRandom.le (.fin 1))
      p.initPolicyRandom s.initPolicyRandom
    seed := p.seed
    thread := p.thread
    limit := if p.limit ≤ 0 then longMax else p.limit
    printLevel := keepUnless (decide (0 ≤ p.printLevel)) p.printLevel s.printLevel
    w := storedW p.limit p.w
    pushesLimit := if p.pushesLimit ≤ 0 then 0 else p.pushesLimit
    pushingIterationLimit := if p.pushingIterationLimit ≤ 0 then 0 else p.pushingIterationLimit
    initPopulationSize := keepUnless (decide (5 ≤ p.initPopulationSize)) p.initPopulationSize
      s.initPopulationSize
    kappaImproveStart := p.kappaImproveStart.clamp (.fin 0) (.fin 1)
    kappaImproveIncrease := p.kappaImproveIncrease.clamp (.fin 0) (.fin 1)
    kappaImproveStop := p.kappaImproveStop.clamp
      (p.kappaImproveStart.clamp (.fin 0) (.fin 1)) (.fin 1)
    preOrder := p.preOrder
    order := p.order
    floatType := p.floatType
    initPolicy := p.initPolicy
    costNorm := p.costNorm
    mode := p.mode
    preprocessor := p.preprocessor
    observer := p.observer
    storage := p.storage
    solver := p.solver
    debug := p.debug }

/-- The parameters of a context after the calls `ps` (`make_context`,
`lib/src/lpcore.cpp:52-56`, leaves the default values). -/
def setAll (ps : List SolverParams) : SolverParams := ps.foldl set {}

/-- `context_get_solver_parameters` (`private.cpp:174-178`). -/
def get (s : SolverParams) : SolverParams := s

end Bx.Params
