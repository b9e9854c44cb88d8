import Verif.Model.Itm
import Verif.Model.Preprocess

/-!
# The solving loop: `compute_order`, `solver_functor`, `solve_problem`

Models `lib/src/itm-common.hpp:627-915`, `lib/src/itm-solver-common.hpp` and
`lib/src/itm.hpp:94-145`.

The loop is generic in the row update `upd : ρ → k → x → x'` of the solver, where
`ρ` holds what the floating point values and the random engine decide.  All the
other decisions of the outside are parameters too (`Run`): the initial vector,
the permutations made by `std::shuffle` and `std::sort`, the comparison of kappa
with its maximum, the clock.
-/

namespace Bx.Itm

open Merge SolverCtor Spec

/-- `solver_parameters::constraint_order` (`lib/include/baryonyx/core:348-359`). -/
inductive COrder where
  | none
  | reversing
  | randomSorting
  | infeasibilityDecr
  | infeasibilityIncr
  | lagrangianDecr
  | lagrangianIncr
  | piSignChange
  | cycle
  deriving DecidableEq, Repr

/-- `compute_order` (`itm-common.hpp:627-632`). -/
structure Compute where
  R : List Nat
  mOrder : List (Nat × Int)
  order : COrder
  useCycle : Bool
  deriving DecidableEq, Repr

/-- The constructor of `compute_order` (`itm-common.hpp:634-642`); it is called
with the number of *variables*. -/
def Compute.make (o : COrder) (nvars : Nat) : Compute :=
  ⟨List.replicate nvars 0, List.replicate nvars (0, 0),
    if o = .cycle then .none else o, decide (o = .cycle)⟩

/-- `compute_order::next_state` (`itm-common.hpp:644-658`). -/
def nextState : COrder → COrder
  | .none => .reversing
  | .reversing => .randomSorting
  | .randomSorting => .infeasibilityDecr
  | .infeasibilityDecr => .infeasibilityIncr
  | .infeasibilityIncr => .lagrangianDecr
  | .lagrangianDecr => .lagrangianIncr
  | .lagrangianIncr => .piSignChange
  | .piSignChange => .none
  | .cycle => .none

/-- `compute_order::init` (`itm-common.hpp:660-680`). -/
def Compute.init (s : Slv) (x : Assign) (c : Compute) : Outcome Compute :=
  match c.order with
  | .infeasibilityDecr | .infeasibilityIncr => do
    let d ← infeasibility s x
    .ok { c with mOrder := d }
  | .piSignChange => .ok { c with R := List.range c.R.length }
  | _ => do
    let r ← violated s x
    .ok { c with R := r }

/-- What the outside decides during one pass: `perm` is the result of the
`std::shuffle` or `std::sort` of `R`, `permO` of the `std::sort` of `m_order`,
`row i` the choices of the `i`-th row update. -/
structure Pass (ρ : Type) where
  perm : List Nat → List Nat
  permO : List (Nat × Int) → List (Nat × Int)
  row : Nat → ρ

/-- Shuffles and sorts permute. -/
def Pass.Ok {ρ : Type} (p : Pass ρ) : Prop :=
  (∀ l, (p.perm l).Perm l) ∧ ∀ l, (p.permO l).Perm l

/-- Loop over the constraints of `compute_update_row` and of
`push_and_compute_update_row`. -/
def updateRows {ρ : Type} (upd : ρ → Nat → Assign → Outcome Assign) (row : Nat → ρ) :
    Nat → List Nat → Assign → Outcome Assign
  | _, [], x => .ok x
  | i, k :: ks, x => do
    let x' ← upd (row i) k x
    updateRows upd row (i + 1) ks x'

/-- `compute_order::run` (`itm-common.hpp:800-880`): the number of remaining
constraints, the new state, the new vector.  The returned value `pi_changed` has
no effect (lines 870-873 return `remaining` in both cases). -/
def run {ρ : Type} (s : Slv) (upd : ρ → Nat → Assign → Outcome Assign) (p : Pass ρ)
    (c : Compute) (x : Assign) : Outcome (Nat × Compute × Assign) :=
  match c.order with
  | .reversing => do
    let x' ← updateRows upd p.row 0 c.R.reverse x
    let r ← violated s x'
    .ok (r.length, { c with R := r }, x')
  | .randomSorting | .lagrangianDecr | .lagrangianIncr => do
    let x' ← updateRows upd p.row 0 (p.perm c.R) x
    let r ← violated s x'
    .ok (r.length, { c with R := r }, x')
  | .infeasibilityDecr | .infeasibilityIncr => do
    let x' ← updateRows upd p.row 0 ((p.permO c.mOrder).map Prod.fst) x
    let d ← infeasibility s x'
    .ok (d.length, { c with mOrder := d }, x')
  | .piSignChange => do
    let x' ← updateRows upd p.row 0 (p.perm c.R) x
    let n ← localViolated s x'
    .ok (n, { c with R := p.perm c.R }, x')
  | .none | .cycle => do
    let x' ← updateRows upd p.row 0 c.R x
    let r ← violated s x'
    .ok (r.length, { c with R := r }, x')

/-- `compute_order::push_and_run` (`itm-common.hpp:682-798`): the same passes as
`run`, after the change of order of the cycle.  The pushed reduced costs are
another choice of `p`. -/
def pushAndRun {ρ : Type} (s : Slv) (upd : ρ → Nat → Assign → Outcome Assign) (p : Pass ρ)
    (c : Compute) (x : Assign) : Outcome (Nat × Compute × Assign) :=
  run s upd p (if c.useCycle then { c with order := nextState c.order } else c) x

/-! ## The functor -/

/-- What the outside decides during a call of `solver_functor`: the vector `x`
once initialised (`itm-solver-common.hpp:99-123`), the choices of each pass, the
answer of `kappa > kappa_max` and of `is_timelimit_reached` after each pass. -/
structure Run (ρ : Type) where
  x0 : Assign
  pass : Nat → Pass ρ
  kappaOver : Nat → Bool
  timeUp : Nat → Bool

/-- Every pass permutes. -/
def Run.Ok {ρ : Type} (r : Run ρ) : Prop := ∀ t, (r.pass t).Ok

/-- The parameters of the loop (`lib/include/baryonyx/core:446-449`). -/
structure Params where
  order : COrder := .none
  limit : Nat := 1000
  pushes : Nat := 100
  pushIter : Nat := 50
  deriving DecidableEq, Repr

/-- `raw_result` (`lib/src/result.hpp:35-93`), the fields used by the solver:
`none` is the initial value (empty vector, `INT_MAX`, infinity). -/
structure Best where
  x : Option Assign := none
  remaining : Option Nat := none
  value : Option Rat := none

/-- State of the loop.  `passes` counts the calls of `run` and `push_and_run`,
`trace` lists the vector `x` after each of them.  Both are only observed by the
theorems, and `passes` tells which choices of the outside come next. -/
structure St where
  compute : Compute
  x : Assign
  best : Best := {}
  bestRemaining : Option Nat := none
  passes : Nat := 0
  trace : List Assign := []

/-- `a < b` where `none` is `INT_MAX`. -/
def ltInt (a : Nat) : Option Nat → Bool
  | none => true
  | some b => decide (a < b)

/-- `is_better_solution` (`itm-common.hpp:192-200`), where `none` is
`bad_value`. -/
def isBetter (t : ObjType) (a : Rat) : Option Rat → Bool
  | none => true
  | some b =>
    match t with
    | .minimize => decide (a < b)
    | .maximize => decide (b < a)

/-- `store_if_better(x, remaining, i)` (`itm-solver-common.hpp:242-250`). -/
def storeRemaining (b : Best) (x : Assign) (remaining : Nat) : Best :=
  if ltInt remaining b.remaining then { b with x := some x, remaining := some remaining } else b

/-- `store_if_better(x, current, i)` (`itm-solver-common.hpp:252-261`). -/
def storeValue (t : ObjType) (b : Best) (x : Assign) (v : Rat) : Best :=
  if isBetter t v b.value then ⟨some x, some 0, some v⟩ else b

/-- `default_cost_type::results` (`itm-common.hpp:1140-1147`). -/
def addLinear (x : Assign) : Rat → List ObjElem → Rat
  | r, [] => r
  | r, e :: es => addLinear x (if x e.var then r + e.factor else r) es

/-- The quadratic loop of `quadratic_cost_type::results`
(`itm-common.hpp:1433-1436`). -/
def addQuadratic (x : Assign) : Rat → List QuadElem → Rat
  | r, [] => r
  | r, e :: es => addQuadratic x (if x e.a && x e.b then r + e.factor else r) es

/-- `results` of the cost type selected by `select_cost`
(`itm-solver-equalities-01.cpp:292-305`), called with the constant of the
objective. -/
def results (o : Objective) (x : Assign) : Rat :=
  if o.qelems.isEmpty then addLinear x o.value o.elems
  else addQuadratic x (addLinear x o.value o.elems) o.qelems

/-- Contracts of the constructors of the cost types (`itm-common.hpp:1010-1015`
and `1171-1192`). -/
def makeCost (o : Objective) (n : Nat) : Outcome Unit := do
  check (o.elems.all fun e => decide (e.var < n)) "variable_index < n"
  check (o.qelems.all fun e => decide (e.a < n) && decide (e.b < n)) "variable_index_a < n"

/-- How the main loop ended. -/
inductive Exit where
  | found
  | kappa
  | time
  | limit
  deriving DecidableEq, Repr

/-- The main loop (`itm-solver-common.hpp:135-166`); the first argument is the
number of iterations left. -/
def mainLoop {ρ : Type} (s : Slv) (upd : ρ → Nat → Assign → Outcome Assign) (r : Run ρ)
    (t : ObjType) (o : Objective) : Nat → St → Outcome (St × Exit)
  | 0, st => .ok (st, .limit)
  | n + 1, st => do
    let (remaining, c, x) ← run s upd (r.pass st.passes) st.compute st.x
    let st := { st with compute := c, x := x, passes := st.passes + 1,
                        trace := st.trace ++ [x] }
    if remaining = 0 then
      .ok ({ st with best := storeValue t st.best x (results o x), bestRemaining := some 0 },
        .found)
    else
      let st :=
        if ltInt remaining st.bestRemaining then
          { st with best := storeRemaining st.best x remaining,
                    bestRemaining := some remaining }
        else st
      if r.kappaOver st.passes then .ok (st, .kappa)
      else if r.timeUp st.passes then .ok (st, .time)
      else mainLoop s upd r t o n st

/-- The inner loop of the push phase (`itm-solver-common.hpp:189-212`). -/
def pushInner {ρ : Type} (s : Slv) (upd : ρ → Nat → Assign → Outcome Assign) (r : Run ρ)
    (t : ObjType) (o : Objective) : Nat → St → Outcome St
  | 0, st => .ok st
  | n + 1, st => do
    let (remaining, c, x) ← run s upd (r.pass st.passes) st.compute st.x
    let st := { st with compute := c, x := x, passes := st.passes + 1,
                        trace := st.trace ++ [x] }
    if remaining = 0 then
      .ok { st with best := storeValue t st.best x (results o x) }
    else if r.kappaOver st.passes then .ok st
    else if r.timeUp st.passes then .ok st
    else pushInner s upd r t o n st

/-- The push phase (`itm-solver-common.hpp:171-213`). -/
def pushLoop {ρ : Type} (s : Slv) (upd : ρ → Nat → Assign → Outcome Assign) (r : Run ρ)
    (t : ObjType) (o : Objective) (iters : Nat) : Nat → St → Outcome St
  | 0, st => .ok st
  | n + 1, st => do
    let (remaining, c, x) ← pushAndRun s upd (r.pass st.passes) st.compute st.x
    let st := { st with compute := c, x := x, passes := st.passes + 1,
                        trace := st.trace ++ [x] }
    let st :=
      if remaining = 0 then
        { st with best := storeValue t st.best x (results o x) }
      else st
    if r.timeUp st.passes then .ok st
    else do
      let st ← pushInner s upd r t o iters st
      pushLoop s upd r t o iters n st

/-- What the functor returns: the status, the solution (`convert`,
`result.hpp:128-137`) and, for the theorems, the final state, the exit of the
main loop and the number of passes of the main loop. -/
structure Answer where
  status : Status
  solution : Option (List Bool × Option Rat)
  final : St
  exit : Exit
  mainPasses : Nat

/-- The status (`itm-solver-common.hpp:157-169` and `216-217`): the statuses of
lines 158 and 163 are overwritten by line 169. -/
def statusOf (e : Exit) (remaining : Option Nat) : Status :=
  let s0 : Status :=
    match e with
    | .kappa => .kappaMaxReached
    | .time => .timeLimitReached
    | _ => .uninitialized
  let s1 : Status := if e = .found then s0 else .limitReached
  if remaining = some 0 then .success else s1

/-- The push phase runs only after a feasible solution
(`itm-solver-common.hpp:168-214`). -/
def pushPhase {ρ : Type} (s : Slv) (upd : ρ → Nat → Assign → Outcome Assign) (r : Run ρ)
    (p : Params) (t : ObjType) (o : Objective) (e : Exit) (st : St) : Outcome St :=
  if e = .found then pushLoop s upd r t o p.pushIter p.pushes st else .ok st

/-- `solver_functor::operator()` (`itm-solver-common.hpp:63-225`). -/
def functor {ρ : Type} (kind : SolverType) (upd : Slv → ρ → Nat → Assign → Outcome Assign)
    (r : Run ρ) (p : Params) (t : ObjType) (o : Objective) (csts : List Merged)
    (nvars : Nat) : Outcome Answer := do
  let s ← makeSlv kind csts nvars
  let c ← (Compute.make p.order nvars).init s r.x0
  let (st, e) ← mainLoop s (upd s) r t o p.limit { compute := c, x := r.x0 }
  let st' ← pushPhase s (upd s) r p t o e st
  .ok { status := statusOf e st'.best.remaining
        solution := st'.best.x.map fun x => ((List.range nvars).map x, st'.best.value)
        final := st'
        exit := e
        mainPasses := st.passes }

/-- `result` of a functor answer.  The infinite value of a solution that is not
feasible is written 0: it is meaningful only for a success. -/
def toResult (a : Answer) : Result :=
  { status := a.status
    solutions := match a.solution with
      | none => []
      | some (x, v) => [⟨x.map fun b => if b then 1 else 0, v.getD 0⟩] }

/-- The two cases of `solve_problem` (`itm-solver-common.hpp:276-307`). -/
def solveMerged {ρ : Type} (kind : SolverType)
    (upd : Slv → ρ → Nat → Assign → Outcome Assign) (r : Run ρ) (p : Params) (pb : Problem)
    (csts : List Merged) : Outcome Result :=
  if csts ≠ [] ∧ pb.values ≠ [] then do
    makeCost pb.objective pb.values.length
    let a ← functor kind upd r p pb.type pb.objective csts pb.values.length
    .ok (toResult a)
  else
    .ok { status := .success, solutions := [⟨[], pb.objective.value⟩] }

/-- `solve_problem` (`itm-solver-common.hpp:264-319`). -/
def solveProblem {ρ : Type} (kind : SolverType)
    (upd : Slv → ρ → Nat → Assign → Outcome Assign) (sorts : Sorts) (po : Order)
    (r : Run ρ) (p : Params) (pb : Problem) : Outcome Result := do
  let csts ← Merge.make sorts po pb
  let ret ← solveMerged kind upd r p pb csts
  .ok { ret with variableName := pb.names, affected := pb.affected
                 variableCount := pb.values.length, constraintCount := csts.length }

/-- `itm::solve` (`itm.hpp:94-145`) for the default solver and method: the
solver follows the type of the problem; the two types with integer coefficients
share one solver. -/
def solveItm {ρ : Type} (upd : Slv → ρ → Nat → Assign → Outcome Assign) (sorts : Sorts)
    (po : Order) (r : Run ρ) (p : Params) (pb : Problem) : Outcome Result :=
  solveProblem pb.ptype upd sorts po r p pb

/-- The problem given to the solver (`lib/src/lpcore.cpp:92-95`). -/
def prepared (preprocessing : Bool) (raw : RawProblem) : Outcome Problem :=
  if preprocessing then Preprocess.preprocess raw else .ok (Preprocess.unpreprocess raw)

/-- `baryonyx::solve` (`lib/src/lpcore.cpp:88-98`) with a context;
`preprocessing` is the option `preprocessor == all`. -/
def solve {ρ : Type} (upd : Slv → ρ → Nat → Assign → Outcome Assign) (sorts : Sorts)
    (po : Order) (preprocessing : Bool) (r : Run ρ) (p : Params) (raw : RawProblem) :
    Outcome Result := do
  let pb ← prepared preprocessing raw
  solveItm upd sorts po r p pb

end Bx.Itm
