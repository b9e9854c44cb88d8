import Verif.Model.Numeric
import Verif.Model.ZSolver

/-!
# Row updates with integer coefficients, with their multipliers and preferences

Models the same functions as `Verif.Model.ZSolver` (`lib/src/itm-solver-inequalities-Z.cpp:242-564`)
with the floating point values that it leaves out: the multipliers `pi`, the preferences `P` and the
reduced costs `R[i].value`.

Simplifications: as in `Verif.Model.Multipliers`.
-/

namespace Bx.ZNum

open Merge SolverCtor Spec Exhaustive Itm Mult ZSolver

/-- `local_compute_reduced_cost` (`itm-solver-inequalities-Z.cpp:295-306`) and the sum of
`compute_reduced_costs` (`itm-solver-inequalities-Z.cpp:265-275`): the absolute values of the
coefficients. -/
def reduced (s : Slv) (c : CostFun) (m : Mem) (x : Assign) (j : Nat) : Rat :=
  c j x - ((column s j).map fun p => (p.2.natAbs : Rat) * (m.pi p.1 + m.P p.1 j)).sum

/-- `R[i].value` before the sort: the reduced cost and the addition of the push
(`itm-solver-inequalities-Z.cpp:275` and `467-469`). -/
def valueOf (s : Slv) (c : CostFun) (m : Mem) (x : Assign) (push : Option Rat) (j : Nat) : Rat :=
  reduced s c m x j + match push with
    | none => 0
    | some amp => amp * c j x

/-- The value of the position `i` of the row. -/
def costAt (s : Slv) (c : CostFun) (m : Mem) (x : Assign) (push : Option Rat) (row : List FunElem)
    (i : Nat) : Rat :=
  ((row[i]?).map fun e => valueOf s c m x push e.var).getD 0

/-- What the outside decides: the sorts of equal values and the cell after the row. -/
structure ZOracle where
  sort : List Rc → List Rc
  stale : Rc
  sort1 : List BranchBound.Item → List BranchBound.Item
  sort2 : List (Rc × Bool) → List (Rc × Bool)

/-- The sorts return sorted permutations. -/
def ZOracle.Ok (o : ZOracle) (mode : ObjType) : Prop :=
  (∀ l, (o.sort l).Perm l ∧ (o.sort l).Pairwise fun a b => Before mode a.value b.value) ∧
  (∀ l, (o.sort1 l).Perm l) ∧ SortOk (before mode) o.sort2

/-- `P[var->value] += v`. -/
def addP (m : Mem) (k j : Nat) (v : Rat) : Mem :=
  { m with P := fun a b => if a = k ∧ b = j then m.P a b + v else m.P a b }

/-- The second change of the preference of a variable
(`itm-solver-inequalities-Z.cpp:378-380`, `397-399`, `418-420`, `429-431`). -/
def repaired (up : Bool) (repair d : Rat) (m : Mem) (k j : Nat) : Mem :=
  if up then if repair ≥ 0 then addP m k j (-repair + d) else m
  else if repair ≤ 0 then addP m k j (repair - d) else m

/-- The loops of `local_affect` (`itm-solver-inequalities-Z.cpp:372-381`, `391-400`, `412-421`,
`423-432`): the reduced cost of a variable is computed after its change and those of the variables
before it. -/
def turn (s : Slv) (c : CostFun) (row : List FunElem) (k : Nat) (up : Bool) (d : Rat) :
    List Nat → Assign → Mem → Outcome (Assign × Mem)
  | [], x, m => .ok (x, m)
  | i :: is, x, m =>
    match row[i]? with
    | none => .error (.ub "it + R[i].id")
    | some e =>
      let x1 := write x e.var up
      let m1 := addP m k e.var (if up then d else -d)
      turn s c row k up d is x1 (repaired up (reduced s c m1 x1 e.var) d m1 k e.var)

/-- `pi[k] += v`. -/
def addPi (m : Mem) (k : Nat) (v : Rat) : Mem :=
  { m with pi := fun i => if i = k then m.pi i + v else m.pi i }

/-- `d` (`itm-solver-inequalities-Z.cpp:361`). -/
def step (p : Param) : Rat := ratio p.kappa + p.delta

/-- `R[i].value`. -/
def valueAt (stale : Rc) (R : List Rc) (i : Int) : Rat := ((R[i.toNat]?).getD stale).value

/-- `local_affect` (`itm-solver-inequalities-Z.cpp:346-433`) without its last test. -/
def affect (z : ZSlv) (stale : Rc) (p : Param) (c : CostFun) (k : Nat) (row : List FunElem)
    (R : List Rc) (selected : Int) (x : Assign) (m : Mem) : Outcome (Assign × Mem) :=
  let ids := R.map Rc.id
  if selected < 0 then do
    readR z.slv 0
    turn z.slv c row k false (step p) ids x (addPi m k (valueAt stale R 0 / 2))
  else if selected + 1 ≥ ids.length then do
    readR z.slv selected
    turn z.slv c row k true (step p) ids x (addPi m k (valueAt stale R selected * (3 / 2)))
  else do
    readR z.slv selected
    readR z.slv (selected + 1)
    let r ← turn z.slv c row k true (step p) (ids.take (selected + 1).toNat) x
      (addPi m k ((valueAt stale R selected + valueAt stale R (selected + 1)) / 2))
    turn z.slv c row k false (step p) (ids.drop (selected + 1).toNat) r.1 r.2

/-- What the values decide, in the form of `Verif.Model.ZSolver`. -/
def toRow (o : ZOracle) (z : ZSlv) (c : CostFun) (m : Mem) (x : Assign) (push : Option Rat)
    (row : List FunElem) : ZRow where
  cost := costAt z.slv c m x push row
  sort := o.sort
  stale := o.stale
  sort1 := o.sort1
  sort2 := o.sort2

/-- One turn of the loop of `compute_update_row` and `push_and_compute_update_row`
(`itm-solver-inequalities-Z.cpp:441-564`). -/
def update (mode : ObjType) (o : ZOracle) (p : Param) (z : ZSlv) (c : CostFun) (k : Nat) (x : Assign)
    (m : Mem) : Outcome (Assign × Mem) := do
  let row ← rowOf z.slv k
  let b ← boundOf z.slv k
  let kind ← kindAt z k
  let m1 := decrease m k row p.theta
  let r := toRow o z c m1 x p.push row
  let out ← choose mode z r k kind b (ZSolver.reduced r.cost row)
  let r' ← affect z o.stale p c k row out.1 out.2 x m1
  let v ← isValidConstraint z.slv k r'.1
  check v "is_valid_constraint(*this, k, x)"
  .ok r'

/-- `solver_functor::operator()` (`itm-solver-common.hpp:63-225`) with this solver. -/
def functor (w : Num.World ZOracle) (cfg : Num.Cfg) (t : ObjType) (obj : Objective) (cost : CostFun)
    (csts : List Merged) (nvars : Nat) : Outcome (Answer × Num.State) := do
  let z ← makeZ csts nvars
  Num.functor .inequalitiesZ (fun _ o p k x m => update t o p z cost k x m) w cfg t obj csts nvars

end Bx.ZNum
