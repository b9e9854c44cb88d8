import Verif.Model.Params

/-!
# Documented ranges of the parameters

From the comments of `solver_parameters` (`lib/include/baryonyx/core:410-462`) and
the help message of the command line (`app/src/main.cpp:315-378`).
-/

namespace Bx.Params

/-- A real number between `a` and `b`. -/
def Between (a b : Rat) (d : D) : Prop := ∃ q, d = .fin q ∧ a ≤ q ∧ q ≤ b

/-- A real number not under 0, or infinity. -/
def NonNeg (d : D) : Prop := d = .pinf ∨ ∃ q, d = .fin q ∧ 0 ≤ q

/-- A real number over 0, or infinity. -/
def Positive (d : D) : Prop := d = .pinf ∨ ∃ q, d = .fin q ∧ 0 < q

/-- `0 <= min < max <= 1` and `0 <= step < 1`. -/
def KappaRange (min step max : D) : Prop :=
  ∃ a s b : Rat, min = .fin a ∧ step = .fin s ∧ max = .fin b ∧
    0 ≤ a ∧ a < b ∧ b ≤ 1 ∧ 0 ≤ s ∧ s < 1

/-- Every parameter has a value that the solvers can use. -/
structure InRange (p : SolverParams) : Prop where
  timeLimit : Positive p.timeLimit
  theta : Between 0 1 p.theta
  delta : p.delta = .fin (-1) ∨ NonNeg p.delta
  kappa : KappaRange p.kappaMin p.kappaStep p.kappaMax
  alpha : NonNeg p.alpha
  pushingKFactor : ∃ q, p.pushingKFactor = .fin q
  pushingObjectiveAmplifier : ∃ q, p.pushingObjectiveAmplifier = .fin q
  initPolicyRandom : Between 0 1 p.initPolicyRandom
  crossoverBastertInsertion : Between 0 1 p.crossoverBastertInsertion
  crossoverSelectionMean : Between 0 1 p.crossoverSelectionMean
  crossoverSelectionStddev : Between 0 1 p.crossoverSelectionStddev
  mutationVariableMean : Between 0 1 p.mutationVariableMean
  mutationVariableStddev : Between 0 1 p.mutationVariableStddev
  mutationValueMean : Between 0 1 p.mutationValueMean
  mutationValueStddev : Between 0 1 p.mutationValueStddev
  kappaImprove : ∃ a b : Rat, p.kappaImproveStart = .fin a ∧ p.kappaImproveStop = .fin b ∧
    0 ≤ a ∧ a ≤ b ∧ b ≤ 1
  kappaImproveIncrease : Between 0 1 p.kappaImproveIncrease
  w : NonNeg p.w
  limit : 1 ≤ p.limit
  printLevel : 0 ≤ p.printLevel
  pushesLimit : 0 ≤ p.pushesLimit
  pushingIterationLimit : 0 ≤ p.pushingIterationLimit
  initPopulationSize : 5 ≤ p.initPopulationSize

/-- The probabilities and the parameters of the distributions of the optimizer. -/
def probabilities : List (SolverParams → D) :=
  [fun p => p.crossoverBastertInsertion, fun p => p.crossoverSelectionMean,
    fun p => p.crossoverSelectionStddev, fun p => p.mutationVariableMean,
    fun p => p.mutationVariableStddev, fun p => p.mutationValueMean,
    fun p => p.mutationValueStddev]

/-- The values that are stored without a test against NaN are not NaN. -/
def NotNan (p : SolverParams) : Prop :=
  p.timeLimit ≠ .nan ∧ p.w ≠ .nan ∧ p.kappaImproveStart ≠ .nan ∧
    p.kappaImproveIncrease ≠ .nan ∧ p.kappaImproveStop ≠ .nan

end Bx.Params
