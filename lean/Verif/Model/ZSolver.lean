import Verif.Model.Itm
import Verif.Model.BranchBound

/-!
# The solver with integer coefficients

Models `lib/src/itm-solver-inequalities-Z.cpp`: the constructor and the update of a
row with its sub-solvers.

Simplifications: as in `Verif.Model.Itm`, but the reduced costs are kept, as rational
numbers, because the sub-solvers compare their sums.  The multipliers `pi` and the
preferences `P` are not computed: the reduced costs of a row update are arbitrary.
-/

namespace Bx.ZSolver

open Merge SolverCtor Spec Exhaustive Itm

/-- `subsolver_type` (`itm-solver-inequalities-Z.cpp:74-81`). -/
inductive Kind where
  | branchAndBound
  | exhaustive
  | unconstrainedBranchAndBound
  | unconstrainedExhaustive
  | linear
  deriving DecidableEq, Repr

/-- `itm-solver-inequalities-Z.cpp:130-151`: the kind before the bounds are looked
at; 10 is `maximum_factor_exhaustive_solver`. -/
def baseKind (es : List FunElem) : Kind :=
  if es.any fun e => decide (e.factor < -1) || decide (e.factor > 1) then
    if es.length < 10 then .exhaustive else .branchAndBound
  else .linear

/-- `itm-solver-inequalities-Z.cpp:153-168`. -/
def kindOf (m : Merged) : Kind :=
  if m.min = m.max then baseKind m.elems
  else if lowerSum m.elems ≥ m.min ∨ upperSum m.elems ≤ m.max then
    match baseKind m.elems with
    | .branchAndBound => .unconstrainedBranchAndBound
    | .exhaustive => .unconstrainedExhaustive
    | k => k
  else baseKind m.elems

/-- The bounds of a row (`itm-solver-inequalities-Z.cpp:153-168`). -/
def rowBound (m : Merged) : Bound :=
  if m.min = m.max then ⟨m.min, m.max, 0⟩
  else ⟨max (lowerSum m.elems) m.min, min (upperSum m.elems) m.max, 0⟩

/-- `itm-solver-inequalities-Z.cpp:170-174`. -/
def prepare (ex : Ex) (i : Nat) (m : Merged) : Outcome Ex :=
  match kindOf m with
  | .exhaustive | .unconstrainedExhaustive => build ex i m.elems (rowBound m).min (rowBound m).max
  | _ => .ok ex

/-- The loop of the constructor (`itm-solver-inequalities-Z.cpp:126-183`): the
exhaustive sub-solver after the rows from `i`. -/
def prepareAll : Ex → Nat → List Merged → Outcome Ex
  | ex, _, [] => .ok ex
  | ex, i, m :: ms => do
    check (m.elems.all fun e => decide (e.factor ≠ 0)) "cst.factor"
    let ex ← prepare ex i m
    check (decide ((rowBound m).min ≤ (rowBound m).max)) "b[i].min <= b[i].max"
    prepareAll ex (i + 1) ms

/-- The solver: `ap`, `A`, `b`, the length of `R`, `Z` and `ex`. -/
structure ZSlv where
  slv : Slv
  kinds : List Kind
  ex : Ex
  deriving DecidableEq, Repr

/-- The constructor (`itm-solver-inequalities-Z.cpp:98-189`). -/
def makeZ (csts : List Merged) (nvars : Nat) : Outcome ZSlv := do
  let _ ← Sparse.make csts nvars
  let cap ← reducedCostsSize csts
  let ex ← prepareAll {} 0 csts
  .ok ⟨⟨.inequalitiesZ, csts.map Merged.elems, csts.map rowBound, cap⟩, csts.map kindOf, ex⟩

/-- What the floating point values and the library decide during one row update:
`cost i` is the reduced cost of the element `i` of the row, `sort` is
`calculator_sort`, `stale` is what the cell after the row holds when there is one,
`sort1` and `sort2` are the sorts of the sub-solvers, and `rnd` is the rounding of the
sums that they compute. -/
structure ZRow where
  cost : Nat → Rat
  sort : List Rc → List Rc
  stale : Rc
  sort1 : List BranchBound.Item → List BranchBound.Item
  sort2 : List (Rc × Bool) → List (Rc × Bool)
  rnd : Rat → Rat := id

/-- The sorts permute, and the last one sorts. -/
def ZRow.Ok (t : ObjType) (o : ZRow) : Prop :=
  (∀ l, (o.sort l).Perm l) ∧ (∀ l, (o.sort1 l).Perm l) ∧ SortOk (before t) o.sort2

/-- `compute_reduced_costs` (`itm-solver-inequalities-Z.cpp:253-293`): `R`. -/
def reduced (cost : Nat → Rat) (row : List FunElem) : List Rc :=
  row.zipIdx.map fun p => ⟨cost p.2, p.2, p.1.factor⟩

/-- `R[i]` for `i` up to the length of the row. -/
def cell (cap : Nat) (stale : Rc) (rc : List Rc) (i : Nat) : Outcome Rc :=
  match rc[i]? with
  | some c => .ok c
  | none => if i < cap then .ok stale else .error (.ub "R[i]")

/-- `stop_iterating` without random engine (`itm-common.hpp:182-190`). -/
def stopIterating (t : ObjType) (v : Rat) : Bool :=
  match t with
  | .minimize => decide (v > 0)
  | .maximize => decide (v < 0)

/-- The loop of `select_variables` and `select_variables_101`
(`itm-solver-inequalities-Z.cpp:308-344`), which are the same; the first argument is
the number of turns left, `j` is `i + 1` and -2 is `none`. -/
def selectLoop (t : ObjType) (get : Nat → Outcome Rc) (bmin bmax : Int) :
    Nat → Nat → Int → Option Int → Outcome (Option Int)
  | 0, _, _, best => .ok best
  | n + 1, j, sum, best => do
    let best := if bmin ≤ sum ∧ sum ≤ bmax then some ((j : Int) - 1) else best
    let c ← get j
    if best.isSome && stopIterating t c.value then .ok best
    else selectLoop t get bmin bmax n (j + 1) (sum + c.f) best

/-- `select_variables` (`itm-solver-inequalities-Z.cpp:327-344`). -/
def selectZ (t : ObjType) (cap : Nat) (stale : Rc) (rc : List Rc) (b : Bound) :
    Outcome (Option Int) :=
  selectLoop t (cell cap stale rc) b.min b.max (rc.length + 1) 0 0 none

/-- The loops that set or unset variables
(`itm-solver-inequalities-Z.cpp:372-381`, `391-400`, `412-421`, `423-432`). -/
def setAll (row : List FunElem) (v : Bool) (x : Assign) : List Nat → Outcome Assign
  | [] => .ok x
  | i :: is =>
    match row[i]? with
    | none => .error (.ub "it + R[i].id")
    | some e => setAll row v (write x e.var v) is

/-- `local_affect` (`itm-solver-inequalities-Z.cpp:346-433`) on the vector `x`. -/
def localAffectX (s : Slv) (row : List FunElem) (ids : List Nat) (selected : Int) (x : Assign) :
    Outcome Assign :=
  if selected < 0 then do
    readR s 0
    setAll row false x ids
  else if selected + 1 ≥ ids.length then do
    readR s selected
    setAll row true x ids
  else do
    readR s selected
    readR s (selected + 1)
    let x1 ← setAll row true x (ids.take (selected + 1).toNat)
    setAll row false x1 (ids.drop (selected + 1).toNat)

/-- `local_affect` (`itm-solver-inequalities-Z.cpp:346-439`). -/
def localAffect (s : Slv) (k : Nat) (row : List FunElem) (ids : List Nat) (selected : Int)
    (x : Assign) : Outcome Assign := do
  let x' ← localAffectX s row ids selected x
  let v ← isValidConstraint s k x'
  check v "is_valid_constraint(*this, k, x)"
  .ok x'

/-- `-2` is returned when nothing was selected. -/
def orElse (sel : Option Int) (rc : List Rc) (other : Outcome (List Rc × Int)) :
    Outcome (List Rc × Int) :=
  match sel with
  | some i => .ok (rc, i)
  | none => other

/-- The `switch` of the row updates (`itm-solver-inequalities-Z.cpp:474-499` and
`532-556`): the content of `R` and `selected`. -/
def choose (t : ObjType) (z : ZSlv) (o : ZRow) (k : Nat) (kind : Kind) (b : Bound)
    (rc : List Rc) : Outcome (List Rc × Int) :=
  match kind with
  | .branchAndBound => BranchBound.solve o.rnd t o.sort1 o.sort2 (o.sort rc) b.min b.max
  | .exhaustive => Exhaustive.solve o.rnd t o.sort2 z.ex k rc
  | .unconstrainedBranchAndBound => do
    let sel ← selectZ t z.slv.cap o.stale (o.sort rc) b
    orElse sel (o.sort rc) (BranchBound.solve o.rnd t o.sort1 o.sort2 (o.sort rc) b.min b.max)
  | .unconstrainedExhaustive => do
    let sel ← selectZ t z.slv.cap o.stale (o.sort rc) b
    orElse sel (o.sort rc) (Exhaustive.solve o.rnd t o.sort2 z.ex k (o.sort rc))
  | .linear => do
    let sel ← selectZ t z.slv.cap o.stale (o.sort rc) b
    orElse sel (o.sort rc) (.ok (o.sort rc, -2))

/-- `Z[k]`, an unchecked read. -/
def kindAt (z : ZSlv) (k : Nat) : Outcome Kind :=
  match z.kinds[k]? with
  | none => .error (.ub "Z[k]")
  | some q => .ok q

/-- One turn of the loop of `compute_update_row` and `push_and_compute_update_row`
(`itm-solver-inequalities-Z.cpp:441-564`). -/
def updateRowZ (t : ObjType) (z : ZSlv) (o : ZRow) (k : Nat) (x : Assign) : Outcome Assign := do
  let row ← rowOf z.slv k
  let b ← boundOf z.slv k
  let kind ← kindAt z k
  let out ← choose t z o k kind b (reduced o.cost row)
  localAffect z.slv k row (out.1.map Rc.id) out.2 x

end Bx.ZSolver
