import Verif.Model.Params

/-!
# The command line

Models `app/src/main.cpp:250-313`, `380-562`, `564-878` and `880-1008`: splitting of
an argument, validation of a parameter, loop over the arguments.

Simplification: the conversions `to_double`, `to_int` and `to_long`
(`app/src/main.hpp:59-138`), which call `sscanf`, are arbitrary functions.
-/

namespace Bx.CommandLine

open Params

/-- `to_double`, `to_int`, `to_long`. -/
structure Conv where
  dbl : String → Option D
  int : String → Option Int
  long : String → Option Int

/-- `command_line_status` (`main.cpp:447-488`), in the order of the code. -/
inductive CStatus where
  | success
  | unknown
  | parameterMissing
  | verboseError
  | limitError
  | timeLimitError
  | floatingPointTypeError
  | observerTypeError
  | printLevelError
  | preprocessingError
  | constraintOrderError
  | storageTypeError
  | thetaError
  | deltaError
  | kappaMinError
  | kappaStepError
  | kappaMaxError
  | alphaError
  | wError
  | normError
  | pushesLimitError
  | pushingObjectiveAmplifierError
  | pushingIterationLimitError
  | pushingKFactorError
  | initPopulationSizeError
  | initPolicyError
  | initPolicyRandomError
  | initCrossoverBastertInsertionError
  | initCrossoverSolutionSelectionMeanError
  | initCrossoverSolutionSelectionStddevError
  | initMutationVariableMeanError
  | initMutationVariableStddevError
  | initMutationValueMeanError
  | initMutationValueStddevError
  | initKappaImproveStartError
  | initKappaImproveIncreaseError
  | initKappaImproveStopError
  | threadError
  | seedError
  deriving DecidableEq, Repr

/-- `command_line_status_string` (`main.cpp:490-530`): a comma is missing after
"verbose", so that the two literals are one. -/
def statusStrings : List String :=
  ["success", "unknown", "parameter_missing", "verbose" ++ "limit", "time_limit",
    "floating_point_type", "observer_type", "print_level", "preprocessing", "constraint_order",
    "storage_type", "theta", "delta", "kappa_min", "kappa_step", "kappa_max", "alpha", "w", "norm",
    "pushes_limit", "pushing_objective_amplifier", "pushing_iteration_limit", "pushing_k_factor",
    "init_population_size", "init_policy", "init_policy_random",
    "init_crossover_bastert_insertion", "init_crossover_solution_selection_mean",
    "init_crossover_solution_selection_stddev", "init_mutation_variable_mean",
    "init_mutation_variable_stddev", "init_mutation_value_mean", "init_mutation_value_stddev",
    "init_kappa_improve_start", "init_kappa_improve_increase", "init_kappa_improve_stop", "thread",
    "seed"]

/-- `to_string(command_line_status)` (`main.cpp:554-562`); the assertion guards the
read. -/
def statusString (s : CStatus) : Outcome String :=
  match statusStrings[s.ctorIdx]? with
  | none => .error (.contract "x < size(command_line_status_string)")
  | some n => .ok n

/-- `split_argument` (`main.cpp:250-264`): the empty pair when there is no separator,
the whole argument and nothing when the separator is the last character. -/
def splitArgument (param : String) : String × String :=
  match param.toList.findIdx? fun c => c = ':' || c = '=' with
  | none => ("", "")
  | some i =>
    if i + 1 ≥ param.toList.length then (param, "")
    else (String.ofList (param.toList.take i), String.ofList (param.toList.drop (i + 1)))

/-- `is_equal` (`main.cpp:380-390`) without short name. -/
def isEqual (name long : String) : Bool := decide (name = long)

/-- `is_equal` with a short name: the first of the two characters is not looked at. -/
def isEqualShort (name long : String) (short : Char) : Bool :=
  decide (name = long) ||
    (decide (name.toList.length = 2) && decide (name.toList[1]? = some short))

/-- `assign_0oo` (`main.cpp:392-401`). -/
def assign0oo (c : Conv) (v : String) : Option D :=
  match c.dbl v with
  | some d => if D.lt (.fin 0) d then some d else none
  | none => none

/-- `assign_d` (`main.cpp:436-445`); `assign_01` (`403-412`) is the case 0, 1. -/
def assignD (c : Conv) (v : String) (lo hi : D) : Option D :=
  match c.dbl v with
  | some d => if lo.le d && d.le hi then some d else none
  | none => none

/-- `assign_01` (`main.cpp:403-412`). -/
def assign01 (c : Conv) (v : String) : Option D := assignD c v (.fin 0) (.fin 1)

/-- `assign` (`main.cpp:414-423` and `425-434`) on the converted value. -/
def assignI (v : Option Int) (lo hi : Int) : Option Int :=
  match v with
  | some n => if lo ≤ n ∧ n ≤ hi then some n else none
  | none => none

/-- `std::numeric_limits<int>::max()`. -/
def intMax : Int := 2 ^ 31 - 1

/-- The largest `double`. -/
def doubleMax : D := .fin ((2 ^ 53 - 1) * 2 ^ 971)

/-- `if (auto v = …; !v) return error; else params.field = *v;`. -/
def store {α : Type} (v : Option α) (p : SolverParams) (f : α → SolverParams) (e : CStatus) :
    SolverParams × CStatus :=
  match v with
  | some a => (f a, .success)
  | none => (p, e)

/-- `if (value == "…") params.field = …; else if … else return error;`. -/
def named (value : String) (l : List (String × Int)) : Option Int :=
  (l.find? fun x => decide (value = x.1)).map Prod.snd

/-- `assign_parameter` (`main.cpp:564-878`): the new value of `params` and the
returned status. -/
def assignParameter (c : Conv) (p : SolverParams) (name value : String) :
    SolverParams × CStatus :=
  if isEqualShort name "limit" 'l' then
    store (assignI (c.long value) (-1) longMax) p (fun v => { p with limit := v }) .limitError
  else if isEqual name "time-limit" then
    store (c.dbl value) p
      (fun v => { p with timeLimit := if v.le (.fin 0) then .fin (-1) else v }) .timeLimitError
  else if isEqual name "floating-point-type" then
    store (named value [("float", 0), ("double", 1), ("longdouble", 2)]) p
      (fun v => { p with floatType := v }) .floatingPointTypeError
  else if isEqual name "observer-type" then
    store (named value [("none", 0), ("pnm", 1), ("file", 2)]) p
      (fun v => { p with observer := v }) .observerTypeError
  else if isEqual name "print-level" then
    store (assignI (c.int value) 0 2) p (fun v => { p with printLevel := v }) .printLevelError
  else if isEqual name "preprocessing" then
    store (named value [("none", 0), ("memory", 1), ("p1", 8), ("p2", 9), ("p3", 10), ("p4", 11),
        ("less-greater-equal", 2), ("less-equal-greater", 3), ("greater-less-equal", 4),
        ("greater-equal-less", 5), ("equal-less-greater", 6), ("equal-greater-less", 7)]) p
      (fun v => { p with preOrder := v }) .preprocessingError
  else if isEqual name "constraint-order" then
    store (named value [("none", 0), ("reversing", 1), ("random-sorting", 2),
        ("infeasibility-decr", 3), ("infeasibility-incr", 4), ("lagrangian-decr", 5),
        ("lagrangian-incr", 6), ("pi-sign-change", 7), ("cycle", 8)]) p
      (fun v => { p with order := v }) .constraintOrderError
  else if isEqual name "storage-type" then
    store (named value [("five", 2), ("bound", 1), ("one", 0)]) p
      (fun v => { p with storage := v }) .storageTypeError
  else if isEqual name "theta" then
    store (assign01 c value) p (fun v => { p with theta := v }) .thetaError
  else if isEqual name "delta" then
    store (assign0oo c value) p (fun v => { p with delta := v }) .deltaError
  else if isEqual name "kappa-min" then
    store (assign01 c value) p (fun v => { p with kappaMin := v }) .kappaMinError
  else if isEqual name "kappa-step" then
    store (assign01 c value) p (fun v => { p with kappaStep := v }) .kappaStepError
  else if isEqual name "kappa-max" then
    store (assign01 c value) p (fun v => { p with kappaMax := v }) .kappaMaxError
  else if isEqual name "alpha" then
    store (assignD c value (.fin 0) (.fin 2)) p (fun v => { p with alpha := v }) .alphaError
  else if isEqual name "w" then
    store (assignD c value (.fin 0) doubleMax) p (fun v => { p with w := v }) .wError
  else if isEqual name "norm" then
    store (named value [("none", 0), ("random", 1), ("l1", 2), ("l2", 3), ("loo", 4)]) p
      (fun v => { p with costNorm := v }) .normError
  else if isEqual name "pushes-limit" then
    store (assignI (c.int value) 0 intMax) p (fun v => { p with pushesLimit := v })
      .pushesLimitError
  else if isEqual name "pushing-objective-amplifier" then
    store (assign0oo c value) p (fun v => { p with pushingObjectiveAmplifier := v })
      .pushingObjectiveAmplifierError
  else if isEqual name "pushing-iteration-limit" then
    store (assignI (c.int value) 0 intMax) p (fun v => { p with pushingIterationLimit := v })
      .pushingIterationLimitError
  else if isEqual name "pushing-k-factor" then
    store (assign0oo c value) p (fun v => { p with pushingKFactor := v }) .pushingKFactorError
  else if isEqual name "init-population-size" then
    store (assignI (c.int value) 5 intMax) p (fun v => { p with initPopulationSize := v })
      .initPopulationSizeError
  else if isEqual name "init-crossover-bastert-insertion" then
    store (assign01 c value) p (fun v => { p with crossoverBastertInsertion := v })
      .initCrossoverBastertInsertionError
  else if isEqual name "init-crossover-solution-selection-mean" then
    store (assign01 c value) p (fun v => { p with crossoverSelectionMean := v })
      .initCrossoverSolutionSelectionMeanError
  else if isEqual name "init-crossover-solution-selection-stddev" then
    store (assign01 c value) p (fun v => { p with crossoverSelectionStddev := v })
      .initCrossoverSolutionSelectionStddevError
  else if isEqual name "init-mutation-variable-mean" then
    store (assign01 c value) p (fun v => { p with mutationVariableMean := v })
      .initMutationVariableMeanError
  else if isEqual name "init-mutation-variable-stddev" then
    store (assign01 c value) p (fun v => { p with mutationVariableStddev := v })
      .initMutationVariableStddevError
  else if isEqual name "init-mutation-value-mean" then
    store (assign01 c value) p (fun v => { p with mutationValueMean := v })
      .initMutationValueMeanError
  else if isEqual name "init-mutation-value-stddev" then
    store (assign01 c value) p (fun v => { p with mutationValueStddev := v })
      .initMutationValueStddevError
  else if isEqual name "init-kappa-improve-start" then
    store (assign01 c value) p (fun v => { p with kappaImproveStart := v })
      .initKappaImproveStartError
  else if isEqual name "init-kappa-improve-increase" then
    store (assign01 c value) p (fun v => { p with kappaImproveIncrease := v })
      .initKappaImproveIncreaseError
  else if isEqual name "init-kappa-improve-stop" then
    store (assign01 c value) p (fun v => { p with kappaImproveStop := v })
      .initKappaImproveStopError
  else if isEqual name "init-policy" then
    store (named value [("bastert", 0), ("pessimistic-solve", 1), ("optimistic-solve", 2)]) p
      (fun v => { p with initPolicy := v }) .initPolicyError
  else if isEqual name "init-policy-random" then
    store (assign01 c value) p (fun v => { p with initPolicyRandom := v }) .initPolicyRandomError
  else if isEqual name "thread" then
    store (assignI (c.int value) 0 intMax) p (fun v => { p with thread := v }) .threadError
  else if isEqual name "seed" then
    store (assignI (c.int value) 0 intMax) p (fun v => { p with seed := v }) .seedError
  else (p, .unknown)

/-- `main_parameters` (`main.cpp:880-893`). -/
structure Main where
  parameters : SolverParams := {}
  filenames : List String := []
  checkFilename : String := ""
  benchName : String := ""
  verbose : Int := 6
  parseArg : Nat := 0
  check : Bool := false
  optimize : Bool := false
  quiet : Bool := false
  bench : Bool := false
  status : CStatus := .success
  deriving DecidableEq, Repr

/-- `starts_with(arg, p) && arg.size() > p.size()` (`main.cpp:266-270` and
`289-294`): what follows the prefix. -/
def after (p arg : String) : Option String :=
  if p.toList.isPrefixOf arg.toList && decide (p.toList.length < arg.toList.length) then
    some (String.ofList (arg.toList.drop p.toList.length))
  else none

/-- `get_param::operator()` (`main.cpp:280-308`) on the argument `arg` followed by
`rest`: the value, and whether it is the next argument. -/
def getParam (arg : String) (rest : List String) (long short : String) :
    Option (String × Bool) :=
  match (after long arg).bind fun r =>
      if r.toList.head? = some '=' || r.toList.head? = some ':' then
        some (String.ofList r.toList.tail) else none with
  | some v => some (v, false)
  | none =>
    match after short arg with
    | some v => some (v, false)
    | none =>
      match rest with
      | [] => none
      | next :: _ => if arg = long ∨ arg = short then some (next, true) else none

/-- The mode of `--auto` (`main.cpp:934-955`). -/
def autoMode (v : String) : Int :=
  if v = "manual" then 1 else if v = "nlopt" then 2 else if v = "branch" then 4
  else if v = "branch-manual" then 5 else if v = "branch-nlopt" then 6 else 0

/-- What the loop does with the value of an option. -/
inductive Step where
  | next (m : Main) (skip : Bool)
  | stop (m : Main)
  deriving DecidableEq, Repr

/-- The options after `--verbose` (`main.cpp:969-1004`). -/
def lastOptions (c : Conv) (m : Main) (arg : String) (rest : List String) : Step :=
  match getParam arg rest "--check" "-C" with
  | some (v, skip) => .next { m with checkFilename := v } skip
  | none =>
    match getParam arg rest "--param" "-p" with
    | some (v, skip) =>
      if (splitArgument v).1 = "" ∨ (splitArgument v).2 = "" then
        .stop { m with status := .parameterMissing }
      else
        let r := assignParameter c m.parameters (splitArgument v).1 (splitArgument v).2
        if r.2 ≠ .success then .stop { m with parameters := r.1, status := r.2 }
        else .next { m with parameters := r.1 } skip
    | none =>
      if arg = "--random" then .next { m with parameters := { m.parameters with solver := 1 } } false
      else if arg = "--debug" then
        .next { m with parameters := { m.parameters with debug := true } } false
      else .next { m with filenames := m.filenames ++ [arg] } false

/-- The option `--verbose` (`main.cpp:960-967`): there is no `continue` after it. -/
def verboseOption (c : Conv) (m : Main) (arg : String) (rest : List String) : Step :=
  match getParam arg rest "--verbose" "-v" with
  | some (v, _) =>
    match assignI (c.int v) 0 6 with
    | some n => lastOptions c { m with verbose := n } arg rest
    | none => .stop { m with status := .verboseError }
  | none => lastOptions c m arg rest

/-- The body of the loop of `parse` (`main.cpp:901-1004`); `i` is the index of the
argument. -/
def step (c : Conv) (m0 : Main) (i : Nat) (arg : String) (rest : List String) : Step :=
  let m := { m0 with parseArg := i }
  if arg = "--help" ∨ arg = "-h" then .next m false
  else if arg = "--quiet" ∨ arg = "-q" then .next { m with quiet := true } false
  else if arg = "--optimize" ∨ arg = "-O" then .next { m with optimize := true } false
  else
    match getParam arg rest "--bench" "-b" with
    | some (v, skip) => .next { m with bench := true, benchName := v } skip
    | none =>
      if arg = "--disable-preprocessing" ∨ arg = "-np" then
        .next { m with parameters := { m.parameters with preprocessor := 0 } } false
      else
        match getParam arg rest "--auto" "-a" with
        | some (v, skip) =>
          .next { m with parameters := { m.parameters with mode := autoMode v } } skip
        | none => verboseOption c m arg rest

/-- The loop of `parse` (`main.cpp:901-1005`); the first argument bounds the number of
turns. -/
def loop (c : Conv) : Nat → Main → Nat → List String → Main
  | 0, m, _, _ => m
  | _ + 1, m, _, [] => m
  | n + 1, m, i, arg :: rest =>
    match step c m i arg rest with
    | .stop m => m
    | .next m skip => loop c n m (if skip then i + 2 else i + 1) (if skip then rest.tail else rest)

/-- `parse` (`main.cpp:895-1008`) on the arguments after the name of the program. -/
def parse (c : Conv) (args : List String) : Main := loop c args.length {} 1 args

end Bx.CommandLine
