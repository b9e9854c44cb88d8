import Verif.Model.CommandLine

/-!
# The messages about the parameters

Models the words of `lib/include/baryonyx/core-out:158-432` and the message that the command
prints when a run starts (`app/src/main.cpp:64-147`).

Simplifications: the message is the list of its lines `name: value`, without the titles of the
groups; the conversions of `fmt` from numbers to texts are arbitrary functions.
-/

namespace Bx.CoreOut

open Params CommandLine

/-- `formatter<pre_constraint_order>` (`core-out:158-215`). -/
def preOrderName : Int → String
  | 0 => "none"
  | 1 => "memory"
  | 2 => "less-greater-equal"
  | 3 => "less-equal-greater"
  | 4 => "greater-less-equal"
  | 5 => "greater-equal-less"
  | 6 => "equal-less-greater"
  | 7 => "equal-greater-less"
  | 8 => "p1"
  | 9 => "p2"
  | 10 => "p3"
  | 11 => "p4"
  | _ => "unknown"

/-- `formatter<init_policy_type>` (`core-out:217-241`). -/
def initPolicyName : Int → String
  | 0 => "bastert"
  | 1 => "pessimistic-solve"
  | 2 => "optimistic-solve"
  | _ => "unknown"

/-- `formatter<floating_point_type>` (`core-out:243-267`). -/
def floatTypeName : Int → String
  | 0 => "float"
  | 1 => "double"
  | 2 => "longdouble"
  | _ => "unknown"

/-- `formatter<constraint_order>` (`core-out:269-311`). -/
def orderName : Int → String
  | 0 => "none"
  | 1 => "reversing"
  | 2 => "random-sorting"
  | 3 => "infeasibility-decr"
  | 4 => "infeasibility-incr"
  | 5 => "lagrangian-decr"
  | 6 => "lagrangian-incr"
  | 7 => "pi-sign-change"
  | 8 => "cycle"
  | _ => "unknown"

/-- `formatter<cost_norm_type>` (`core-out:313-343`). -/
def normName : Int → String
  | 0 => "none"
  | 1 => "random"
  | 2 => "l1"
  | 3 => "l2"
  | 4 => "loo"
  | _ => "unknown"

/-- `static_cast<underlying_type>(c) & bit` is not null. -/
def hasBit (m : Int) (bit : Nat) : Bool := m.toNat &&& bit != 0

/-- `formatter<mode_type>` (`core-out:345-383`); the bits are 1 manual, 2 nlopt, 4 branch. -/
def modeName (m : Int) : String :=
  if hasBit m 4 then
    if hasBit m 1 then "manual-and-branch"
    else if hasBit m 2 then "nlopt-and-branch"
    else "branch"
  else if hasBit m 1 then "manual"
  else if hasBit m 2 then "nlopt"
  else "disabled"

/-- `formatter<observer_type>` (`core-out:408-432`). -/
def observerName : Int → String
  | 0 => "none"
  | 1 => "pnm"
  | 2 => "file"
  | _ => "unknown"

/-- The conversions of `fmt`: `{:.10g}` and `{}` of a `double`, `{}` of an integer. -/
structure Fmt where
  g10 : D → String
  plain : D → String
  int : Int → String

/-- What `std::sscanf(buffer, "%lf", &result)` does: it returns `EOF`, which is negative, when
there is nothing but blanks to read, 0 when the text is not a number, 1 otherwise. -/
inductive Scanned where
  | eof
  | fail
  | value (d : D)
  deriving DecidableEq, Repr

/-- `to_double` (`app/src/main.hpp:59-85`): `result` is 0 when nothing was read, and `EOF` passes
for a success. -/
def toDouble (scan : String → Scanned) (s : String) : Option D :=
  if s.toList.length > 512 then none
  else match scan s with
    | .eof => some (.fin 0)
    | .fail => none
    | .value d => some d

/-- `solver_started_cb` (`main.cpp:64-147`): the lines of the message. -/
def started (f : Fmt) (p : SolverParams) : List (String × String) :=
  [("limit", f.int p.limit),
   ("time-limit", f.g10 p.timeLimit ++ "s"),
   ("floating-point-type", floatTypeName p.floatType),
   ("print-level", f.int p.printLevel),
   ("auto-tune", modeName p.mode),
   ("observation", observerName p.observer)] ++
  if p.solver = 0 then
    [("preprocessing", preOrderName p.preOrder),
     ("constraint-order", orderName p.order),
     ("theta", f.g10 p.theta),
     ("delta", f.g10 p.delta),
     ("kappa", f.g10 p.kappaMin ++ " " ++ f.g10 p.kappaStep ++ " " ++ f.g10 p.kappaMax),
     ("alpha", f.g10 p.alpha),
     ("w", f.g10 p.w),
     ("norm", normName p.costNorm),
     ("pushes-limit", f.int p.pushesLimit),
     ("pushing-objective-amplifier", f.g10 p.pushingObjectiveAmplifier),
     ("pushing-iteration-limit", f.int p.pushingIterationLimit),
     ("pushing-k-factor", f.g10 p.pushingKFactor),
     ("init-policy", initPolicyName p.initPolicy),
     ("init-policy-random", f.plain p.initPolicyRandom),
     ("init-population-size", f.int p.initPopulationSize),
     ("init-crossover-bastert-insertion", f.plain p.crossoverBastertInsertion),
     ("init-crossover-solution-selection-mean", f.plain p.crossoverSelectionMean),
     ("init-crossover-solution-selection-stddev", f.plain p.crossoverSelectionStddev),
     ("init-mutation-variable-mean", f.plain p.mutationVariableMean),
     ("init-mutation-variable-stddev", f.plain p.mutationVariableStddev),
     ("init-mutation-value-mean", f.plain p.mutationValueMean),
     ("init-mutation-value-stddev", f.plain p.mutationValueStddev),
     ("init-kappa-improve-start", f.plain p.kappaImproveStart),
     ("init-kappa-improve-increase", f.plain p.kappaImproveIncrease),
     ("init-kappa-improve-stop", f.plain p.kappaImproveStop)]
  else [("random", "bernouilli with p=0.5")]

end Bx.CoreOut
