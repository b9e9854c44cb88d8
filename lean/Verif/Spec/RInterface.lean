import Verif.Model.RInterface
import Verif.Spec.Params

/-!
# What the documentation of the R functions promises

The tables of codes are those of the comments of `solve_01lp_problem` and `optimize_01lp_problem`
(`rbaryonyx/src/rbaryonyx.cpp:293-344`), with the names of the enumerators of
`lib/include/baryonyx/core:296-408` (the comment says `rng` for `random`, `infinity-norm` for `loo`).
-/

namespace Bx.Spec.RInterface

open Bx.Params Bx.RInterface

/-- The enumerators of an enumeration, in their order in `lib/include/baryonyx/core`. -/
abbrev Enumeration := List String

def preOrders : Enumeration :=
  ["none", "memory", "less_greater_equal", "less_equal_greater", "greater_less_equal",
   "greater_equal_less", "equal_less_greater", "equal_greater_less", "p1", "p2", "p3", "p4"]

def orders : Enumeration :=
  ["none", "reversing", "random_sorting", "infeasibility_decr", "infeasibility_incr",
   "lagrangian_decr", "lagrangian_incr", "pi_sign_change", "cycle"]

def norms : Enumeration := ["none", "random", "l1", "l2", "loo"]

def policies : Enumeration := ["bastert", "pessimistic_solve", "optimistic_solve"]

def floats : Enumeration := ["float_type", "double_type", "longdouble_type"]

def storages : Enumeration := ["one", "bound", "five"]

/-- The documented codes of each argument. -/
def preOrderCodes : List (Int × String) :=
  [(0, "none"), (1, "memory"), (2, "less_greater_equal"), (3, "less_equal_greater"),
   (4, "greater_less_equal"), (5, "greater_equal_less"), (6, "equal_less_greater"),
   (7, "equal_greater_less"), (8, "p1"), (9, "p2"), (10, "p3"), (11, "p4")]

def orderCodes : List (Int × String) :=
  [(0, "none"), (1, "reversing"), (2, "random_sorting"), (3, "infeasibility_decr"),
   (4, "infeasibility_incr"), (5, "lagrangian_decr"), (6, "lagrangian_incr"),
   (7, "pi_sign_change"), (8, "cycle")]

def normCodes : List (Int × String) :=
  [(0, "none"), (1, "random"), (2, "l1"), (3, "l2"), (4, "loo")]

def policyCodes : List (Int × String) :=
  [(0, "bastert"), (1, "pessimistic_solve"), (2, "optimistic_solve")]

def floatCodes : List (Int × String) :=
  [(0, "float_type"), (1, "double_type"), (2, "longdouble_type")]

def storageCodes : List (Int × String) := [(0, "one"), (1, "bound"), (2, "five")]

/-- The parameter that is stored is the enumerator documented for the code, or `other` when the code
is not documented. -/
def Chosen (enum : Enumeration) (codes : List (Int × String)) (other : String)
    (code stored : Int) : Prop :=
  ∃ k : Nat, stored = k ∧ enum[k]? = some ((codes.lookup code).getD other)

/-- The arguments that both functions use have values that the solver can use. -/
structure Usable (a : Args) : Prop where
  timeLimit : Positive a.timeLimit
  theta : Between 0 1 a.theta
  delta : a.delta = .fin (-1) ∨ NonNeg a.delta
  kappa : KappaRange a.kappaMin a.kappaStep a.kappaMax
  alpha : NonNeg a.alpha
  pushingKFactor : ∃ q, a.pushingKFactor = .fin q
  pushingObjectiveAmplifier : ∃ q, a.pushingObjectiveAmplifier = .fin q
  limit : 1 ≤ a.limit
  pushesLimit : 0 ≤ a.pushesLimit
  pushingIterationLimit : 0 ≤ a.pushingIterationLimit

/-- The arguments that both functions use are the parameters `p`.  Under 1, `w` is a fraction of the
limit of loops; otherwise it is a number of loops, at most the limit. -/
structure Stored (a : Args) (w : Rat) (p : SolverParams) : Prop where
  timeLimit : p.timeLimit = a.timeLimit
  theta : p.theta = a.theta
  delta : p.delta = a.delta
  kappaMin : p.kappaMin = a.kappaMin
  kappaStep : p.kappaStep = a.kappaStep
  kappaMax : p.kappaMax = a.kappaMax
  alpha : p.alpha = a.alpha
  pushingKFactor : p.pushingKFactor = a.pushingKFactor
  pushingObjectiveAmplifier : p.pushingObjectiveAmplifier = a.pushingObjectiveAmplifier
  thread : p.thread = a.thread
  limit : p.limit = a.limit
  pushesLimit : p.pushesLimit = a.pushesLimit
  pushingIterationLimit : p.pushingIterationLimit = a.pushingIterationLimit
  w : p.w = .fin (if w < 1 then a.limit * w else min a.limit w)
  seed : 0 ≤ a.seed → a.seed < 4294967296 → p.seed = a.seed

/-- The parameters that no argument changes have the values of a new context. -/
structure Untouched (p : SolverParams) : Prop where
  printLevel : p.printLevel = 0
  initPopulationSize : p.initPopulationSize = 100
  mode : p.mode = 0
  preprocessor : p.preprocessor = 1
  observer : p.observer = 0
  solver : p.solver = 0
  debug : p.debug = false

end Bx.Spec.RInterface
