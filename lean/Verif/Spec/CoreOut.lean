import Verif.Model.CoreOut

/-!
# Specification: the lines of the start message
-/

namespace Bx.CoreOut

open Params CommandLine

/-- The real parameters. -/
def reals (p : SolverParams) : List D :=
  [p.timeLimit, p.theta, p.delta, p.kappaMin, p.kappaStep, p.kappaMax, p.alpha, p.w,
    p.pushingObjectiveAmplifier, p.pushingKFactor, p.initPolicyRandom,
    p.crossoverBastertInsertion, p.crossoverSelectionMean, p.crossoverSelectionStddev,
    p.mutationVariableMean, p.mutationVariableStddev, p.mutationValueMean, p.mutationValueStddev,
    p.kappaImproveStart, p.kappaImproveIncrease, p.kappaImproveStop]

/-- The texts of the numbers of `p` are read as these numbers: the format with ten digits keeps
the real ones, and a letter after a number is not read. -/
structure ReadBack (c : Conv) (f : Fmt) (p : SolverParams) : Prop where
  int : ∀ n ∈ [p.printLevel, p.pushesLimit, p.pushingIterationLimit, p.initPopulationSize],
    c.int (f.int n) = some n
  long : c.long (f.int p.limit) = some p.limit
  g10 : ∀ d ∈ reals p, c.dbl (f.g10 d) = some d
  g10s : c.dbl (f.g10 p.timeLimit ++ "s") = some p.timeLimit
  plain : ∀ d ∈ reals p, c.dbl (f.plain d) = some d

/-- The lines whose name is not that of a parameter. -/
def unnamed : List String := ["auto-tune", "observation", "kappa", "random"]


/-- The parameters after each line of a list is given back, refused lines changing nothing. -/
def giveBack (c : Conv) (q : SolverParams) (l : List (String × String)) : SolverParams :=
  l.foldl (fun q x => (assignParameter c q x.1 x.2).1) q

/-- The parameters that the message of the solver in the middle names. -/
def told : List String :=
  ["limit", "time-limit", "floating-point-type", "print-level", "preprocessing",
    "constraint-order", "theta", "alpha", "w", "norm", "pushes-limit",
    "pushing-objective-amplifier", "pushing-iteration-limit", "pushing-k-factor", "init-policy",
    "init-policy-random", "init-population-size", "init-crossover-bastert-insertion",
    "init-crossover-solution-selection-mean", "init-crossover-solution-selection-stddev",
    "init-mutation-variable-mean", "init-mutation-variable-stddev", "init-mutation-value-mean",
    "init-mutation-value-stddev", "init-kappa-improve-start", "init-kappa-improve-increase",
    "init-kappa-improve-stop"]

end Bx.CoreOut
