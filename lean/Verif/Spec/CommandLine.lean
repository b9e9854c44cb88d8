import Verif.Spec.Params
import Verif.Model.CommandLine

/-!
# What the help message promises

The parameters of `--param` with their ranges and the options, from the help message
(`app/src/main.cpp:315-378`).
-/

namespace Bx.CommandLine

open Params

/-- The value of a parameter. -/
inductive Val where
  | real (d : D)
  | int (n : Int)
  deriving DecidableEq

/-- A documented parameter: its name, the value a text stands for, the values allowed,
the field that holds it. -/
structure Entry where
  name : String
  value : Conv → String → Option Val
  range : Val → Prop
  read : SolverParams → Val

/-- A real number. -/
def realText (c : Conv) (s : String) : Option Val := (c.dbl s).map .real

/-- An integer. -/
def intText (c : Conv) (s : String) : Option Val := (c.int s).map .int

/-- A word of a list; a choice is represented by the integer value of its
enumerator. -/
def wordText (l : List (String × Int)) (_ : Conv) (s : String) : Option Val :=
  (l.lookup s).map .int

def unitRange : Val → Prop
  | .real d => Between 0 1 d
  | .int _ => False

def positiveRange : Val → Prop
  | .real d => Positive d
  | .int _ => False

def atLeast (n : Int) : Val → Prop
  | .int m => n ≤ m
  | .real _ => False

def choice (l : List (String × Int)) : Val → Prop
  | .int m => m ∈ l.map Prod.snd
  | .real _ => False

def floatTypes : List (String × Int) := [("float", 0), ("double", 1), ("longdouble", 2)]
def observers : List (String × Int) := [("none", 0), ("pnm", 1), ("file", 2)]
def storages : List (String × Int) := [("one", 0), ("bound", 1), ("five", 2)]
def norms : List (String × Int) := [("none", 0), ("random", 1), ("l1", 2), ("l2", 3), ("loo", 4)]
def policies : List (String × Int) :=
  [("bastert", 0), ("pessimistic-solve", 1), ("optimistic-solve", 2)]

def preOrders : List (String × Int) :=
  [("none", 0), ("memory", 1), ("less-greater-equal", 2), ("less-equal-greater", 3),
    ("greater-less-equal", 4), ("greater-equal-less", 5), ("equal-less-greater", 6),
    ("equal-greater-less", 7), ("p1", 8), ("p2", 9), ("p3", 10), ("p4", 11)]

def orders : List (String × Int) :=
  [("none", 0), ("reversing", 1), ("random-sorting", 2), ("infeasibility-decr", 3),
    ("infeasibility-incr", 4), ("lagrangian-decr", 5), ("lagrangian-incr", 6),
    ("pi-sign-change", 7), ("cycle", 8)]

/-- The documented parameters.  A time limit that is not over 0 stands for no limit,
held as -1; -1 as `delta` stands for a value computed from the costs; -1 as `limit`
stands for no limit. -/
def documented : List Entry :=
  [⟨"limit", fun c s => (c.long s).map .int, atLeast (-1), fun p => .int p.limit⟩,
    ⟨"time-limit",
      fun c s => (c.dbl s).map fun d => .real (if d.le (.fin 0) then .fin (-1) else d),
      fun v => v = .real (.fin (-1)) ∨ positiveRange v, fun p => .real p.timeLimit⟩,
    ⟨"floating-point-type", wordText floatTypes, choice floatTypes, fun p => .int p.floatType⟩,
    ⟨"observer-type", wordText observers, choice observers, fun p => .int p.observer⟩,
    ⟨"storage-type", wordText storages, choice storages, fun p => .int p.storage⟩,
    ⟨"print-level", intText, fun v => v ∈ [.int 0, .int 1, .int 2], fun p => .int p.printLevel⟩,
    ⟨"preprocessing", wordText preOrders, choice preOrders, fun p => .int p.preOrder⟩,
    ⟨"constraint-order", wordText orders, choice orders, fun p => .int p.order⟩,
    ⟨"theta", realText, unitRange, fun p => .real p.theta⟩,
    ⟨"delta", realText, fun v => v = .real (.fin (-1)) ∨ positiveRange v, fun p => .real p.delta⟩,
    ⟨"kappa-min", realText, unitRange, fun p => .real p.kappaMin⟩,
    ⟨"kappa-step", realText, unitRange, fun p => .real p.kappaStep⟩,
    ⟨"kappa-max", realText, unitRange, fun p => .real p.kappaMax⟩,
    ⟨"alpha", realText, fun v => ∃ d, v = .real d ∧ Between 0 2 d, fun p => .real p.alpha⟩,
    ⟨"w", realText, fun v => ∃ q, v = .real (.fin q) ∧ 0 ≤ q, fun p => .real p.w⟩,
    ⟨"norm", wordText norms, choice norms, fun p => .int p.costNorm⟩,
    ⟨"pushes-limit", intText, atLeast 0, fun p => .int p.pushesLimit⟩,
    ⟨"pushing-objective-amplifier", realText, positiveRange,
      fun p => .real p.pushingObjectiveAmplifier⟩,
    ⟨"pushing-iteration-limit", intText, atLeast 0, fun p => .int p.pushingIterationLimit⟩,
    ⟨"pushing-k-factor", realText, positiveRange, fun p => .real p.pushingKFactor⟩,
    ⟨"init-policy", wordText policies, choice policies, fun p => .int p.initPolicy⟩,
    ⟨"init-policy-random", realText, unitRange, fun p => .real p.initPolicyRandom⟩,
    ⟨"init-population-size", intText, atLeast 5, fun p => .int p.initPopulationSize⟩,
    ⟨"init-crossover-bastert-insertion", realText, unitRange,
      fun p => .real p.crossoverBastertInsertion⟩,
    ⟨"init-crossover-solution-selection-mean", realText, unitRange,
      fun p => .real p.crossoverSelectionMean⟩,
    ⟨"init-crossover-solution-selection-stddev", realText, unitRange,
      fun p => .real p.crossoverSelectionStddev⟩,
    ⟨"init-mutation-variable-mean", realText, unitRange, fun p => .real p.mutationVariableMean⟩,
    ⟨"init-mutation-variable-stddev", realText, unitRange,
      fun p => .real p.mutationVariableStddev⟩,
    ⟨"init-mutation-value-mean", realText, unitRange, fun p => .real p.mutationValueMean⟩,
    ⟨"init-mutation-value-stddev", realText, unitRange, fun p => .real p.mutationValueStddev⟩,
    ⟨"init-kappa-improve-start", realText, unitRange, fun p => .real p.kappaImproveStart⟩,
    ⟨"init-kappa-improve-increase", realText, unitRange, fun p => .real p.kappaImproveIncrease⟩,
    ⟨"init-kappa-improve-stop", realText, unitRange, fun p => .real p.kappaImproveStop⟩,
    ⟨"thread", intText, atLeast 0, fun p => .int p.thread⟩,
    ⟨"seed", intText, atLeast 0, fun p => .int p.seed⟩]

/-- What `--param` does not set. -/
def otherFields (p : SolverParams) : Int × Int × Int × Bool :=
  (p.mode, p.preprocessor, p.solver, p.debug)

/-- `name` is documented, its field holds what the text stands for, in the documented
range, and nothing else changed. -/
def Stored (c : Conv) (p : SolverParams) (name value : String) (p' : SolverParams) : Prop :=
  (∃ f ∈ documented, f.name = name) ∧
  (∀ f ∈ documented, f.name = name → f.value c value = some (f.read p') ∧ f.range (f.read p')) ∧
  (∀ f ∈ documented, f.name ≠ name → f.read p' = f.read p) ∧
  otherFields p' = otherFields p

/-- The conversions give values that the types hold. -/
structure Conv.Ok (c : Conv) : Prop where
  int : ∀ {s n}, c.int s = some n → n ≤ 2147483647
  long : ∀ {s n}, c.long s = some n → n ≤ 9223372036854775807
  dbl : ∀ {s q}, c.dbl s = some (.fin q) → q ≤ (2 ^ 53 - 1) * 2 ^ 971

/-! ## Options -/

/-- The ways to give a value to an option. -/
inductive Form where
  | equal
  | colon
  | short
  | next
  | shortNext
  deriving DecidableEq

/-- An option with its value, in one or two arguments. -/
def written (long short v : String) : Form → List String
  | .equal => [long ++ "=" ++ v]
  | .colon => [long ++ ":" ++ v]
  | .short => [short ++ v]
  | .next => [long, v]
  | .shortNext => [short, v]

/-- What a user can mean by one or two arguments. -/
inductive Item where
  | file (name : String)
  | help (short : Bool)
  | quiet (short : Bool)
  | optimize (short : Bool)
  | noPreprocessing (short : Bool)
  | random
  | debug
  | bench (name : String) (f : Form)
  | auto (mode : String) (f : Form)
  | param (name value : String) (sep : Char) (f : Form)

/-- How it is written. -/
def Item.args : Item → List String
  | .file n => [n]
  | .help s => [if s then "-h" else "--help"]
  | .quiet s => [if s then "-q" else "--quiet"]
  | .optimize s => [if s then "-O" else "--optimize"]
  | .noPreprocessing s => [if s then "-np" else "--disable-preprocessing"]
  | .random => ["--random"]
  | .debug => ["--debug"]
  | .bench n f => written "--bench" "-b" n f
  | .auto m f => written "--auto" "-a" m f
  | .param n v sep f => written "--param" "-p" (n ++ String.singleton sep ++ v) f

/-- A file name does not start with a dash, the value of a short option is not empty, a
mode is one of the five, the name of a parameter has no separator and is not empty, nor
is its value. -/
def Item.Valid : Item → Prop
  | .file n => n.toList.head? ≠ some '-'
  | .bench n f => f = .short → n ≠ ""
  | .auto m _ => m ∈ ["manual", "nlopt", "branch", "branch-manual", "branch-nlopt"]
  | .param n v sep _ => n ≠ "" ∧ v ≠ "" ∧ (sep = ':' ∨ sep = '=') ∧ ':' ∉ n.toList ∧ '=' ∉ n.toList
  | _ => True

/-- The bits of the modes (`lib/include/baryonyx/core:370-376`): 1 manual, 2 nlopt,
4 branch. -/
def modeBits (m : String) : Int :=
  ([("manual", 1), ("nlopt", 2), ("branch", 4), ("branch-manual", 5), ("branch-nlopt", 6)].lookup m).getD 0

/-- What each item asks for. -/
def Item.Asks (c : Conv) (i : Item) (m m' : Main) : Prop :=
  match i with
  | .file n => m' = { m with filenames := m.filenames ++ [n] }
  | .help _ => m' = m
  | .quiet _ => m' = { m with quiet := true }
  | .optimize _ => m' = { m with optimize := true }
  | .noPreprocessing _ => m' = { m with parameters := { m.parameters with preprocessor := 0 } }
  | .random => m' = { m with parameters := { m.parameters with solver := 1 } }
  | .debug => m' = { m with parameters := { m.parameters with debug := true } }
  | .bench n _ => m' = { m with bench := true, benchName := n }
  | .auto a _ => m' = { m with parameters := { m.parameters with mode := modeBits a } }
  | .param n v _ _ => ∃ p, m' = { m with parameters := p } ∧
      assignParameter c m.parameters n v = (p, .success)

/-- What a sequence of items asks for. -/
inductive AllAsk (c : Conv) : Main → List Item → Main → Prop
  | nil (m : Main) : AllAsk c m [] m
  | cons {m m1 m2 : Main} {i : Item} {l : List Item} :
      i.Asks c m m1 → AllAsk c m1 l m2 → AllAsk c m (i :: l) m2

/-- The status that says that a parameter was refused. -/
def refusal : List (String × CStatus) :=
  [("limit", .limitError), ("time-limit", .timeLimitError),
    ("floating-point-type", .floatingPointTypeError), ("observer-type", .observerTypeError),
    ("print-level", .printLevelError), ("preprocessing", .preprocessingError),
    ("constraint-order", .constraintOrderError), ("storage-type", .storageTypeError),
    ("theta", .thetaError), ("delta", .deltaError), ("kappa-min", .kappaMinError),
    ("kappa-step", .kappaStepError), ("kappa-max", .kappaMaxError), ("alpha", .alphaError),
    ("w", .wError), ("norm", .normError), ("pushes-limit", .pushesLimitError),
    ("pushing-objective-amplifier", .pushingObjectiveAmplifierError),
    ("pushing-iteration-limit", .pushingIterationLimitError),
    ("pushing-k-factor", .pushingKFactorError),
    ("init-population-size", .initPopulationSizeError), ("init-policy", .initPolicyError),
    ("init-policy-random", .initPolicyRandomError),
    ("init-crossover-bastert-insertion", .initCrossoverBastertInsertionError),
    ("init-crossover-solution-selection-mean", .initCrossoverSolutionSelectionMeanError),
    ("init-crossover-solution-selection-stddev", .initCrossoverSolutionSelectionStddevError),
    ("init-mutation-variable-mean", .initMutationVariableMeanError),
    ("init-mutation-variable-stddev", .initMutationVariableStddevError),
    ("init-mutation-value-mean", .initMutationValueMeanError),
    ("init-mutation-value-stddev", .initMutationValueStddevError),
    ("init-kappa-improve-start", .initKappaImproveStartError),
    ("init-kappa-improve-increase", .initKappaImproveIncreaseError),
    ("init-kappa-improve-stop", .initKappaImproveStopError), ("thread", .threadError),
    ("seed", .seedError)]

/-- Nothing changed; the name is not documented, or it is reported as refused, and its
text has no value in the documented range (-1 as `delta` cannot be given as a text). -/
def Refused (c : Conv) (p : SolverParams) (name value : String) (p' : SolverParams)
    (st : CStatus) : Prop :=
  p' = p ∧ ((st = .unknown ∧ ∀ f ∈ documented, f.name ≠ name) ∨
    ((name, st) ∈ refusal ∧ ∀ f ∈ documented, f.name = name → ∀ x, f.value c value = some x →
      f.range x → x = .real (.fin (-1))))

/-- The name of a parameter as the messages write it. -/
def messageName (n : String) : String :=
  String.ofList (n.toList.map fun c => if c = '-' then '_' else c)

end Bx.CommandLine
