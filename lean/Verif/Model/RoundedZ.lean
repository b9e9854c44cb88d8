import Verif.Model.RoundedRows
import Verif.Model.ZNumeric

/-!
# Row updates with integer coefficients and rounded operations

`Verif.Model.ZNumeric` computes the reduced costs, the multipliers and the preferences exactly.  Here
the same functions are written again with a rounding `rnd` after each operation on the floating point
type of the solver, the additions of the two sub-solvers included.  Each definition names the one it
repeats, which carries the rest of the comment.

Simplifications: as in `Verif.Model.RoundedRows`; a multiplication and the addition that follows it are
rounded one after the other (the compiler does not fuse them).
-/

namespace Bx.RoundedZ

open Merge SolverCtor Spec Exhaustive Itm Mult ZSolver
open ZNum (ZOracle valueAt)

/-- `sum_a_pi_p += a * (pi[...] + P[...])` over a column, from the given value on
(`itm-solver-inequalities-Z.cpp:267-271` and `300-303`); the conversion of the coefficient to the
floating point type is rounded too. -/
def sumColumn (rnd : Rat → Rat) (m : Mem) (j : Nat) : Rat → List (Nat × Int) → Rat
  | acc, [] => acc
  | acc, p :: ps =>
    sumColumn rnd m j (rnd (acc + rnd (rnd (p.2.natAbs : Rat) * rnd (m.pi p.1 + m.P p.1 j)))) ps

/-- `local_compute_reduced_cost` (`itm-solver-inequalities-Z.cpp:295-306`) and the sum of
`compute_reduced_costs` (`itm-solver-inequalities-Z.cpp:265-275`): `ZNum.reduced`. -/
def reduced (rnd : Rat → Rat) (s : Slv) (c : CostFun) (m : Mem) (x : Assign) (j : Nat) : Rat :=
  rnd (c j x - sumColumn rnd m j 0 (column s j))

/-- `R[i].value` before the sort (`itm-solver-inequalities-Z.cpp:275` and `467-469`):
`ZNum.valueOf`. -/
def valueOf (rnd : Rat → Rat) (s : Slv) (c : CostFun) (m : Mem) (x : Assign) (push : Option Rat)
    (j : Nat) : Rat :=
  match push with
  | none => reduced rnd s c m x j
  | some amp => rnd (reduced rnd s c m x j + rnd (amp * c j x))

/-- The value of the position `i` of the row: `ZNum.costAt`. -/
def costAt (rnd : Rat → Rat) (s : Slv) (c : CostFun) (m : Mem) (x : Assign) (push : Option Rat)
    (row : List FunElem) (i : Nat) : Rat :=
  ((row[i]?).map fun e => valueOf rnd s c m x push e.var).getD 0

/-- `P[var->value] += v`: `ZNum.addP`. -/
def addP (rnd : Rat → Rat) (m : Mem) (k j : Nat) (v : Rat) : Mem :=
  { m with P := fun a b => if a = k ∧ b = j then rnd (m.P a b + v) else m.P a b }

/-- The second change of the preference of a variable
(`itm-solver-inequalities-Z.cpp:378-380`, `397-399`, `418-420`, `429-431`): `ZNum.repaired`. -/
def repaired (rnd : Rat → Rat) (up : Bool) (repair d : Rat) (m : Mem) (k j : Nat) : Mem :=
  if up then if repair ≥ 0 then addP rnd (addP rnd m k j (-repair)) k j d else m
  else if repair ≤ 0 then addP rnd (addP rnd m k j repair) k j (-d) else m

/-- The loops of `local_affect` (`itm-solver-inequalities-Z.cpp:372-381`, `391-400`, `412-421`,
`423-432`): `ZNum.turn`. -/
def turn (rnd : Rat → Rat) (s : Slv) (c : CostFun) (row : List FunElem) (k : Nat) (up : Bool)
    (d : Rat) : List Nat → Assign → Mem → Outcome (Assign × Mem)
  | [], x, m => .ok (x, m)
  | i :: is, x, m =>
    match row[i]? with
    | none => .error (.ub "it + R[i].id")
    | some e =>
      let x1 := write x e.var up
      let m1 := addP rnd m k e.var (if up then d else -d)
      turn rnd s c row k up d is x1 (repaired rnd up (reduced rnd s c m1 x1 e.var) d m1 k e.var)

/-- `pi[k] += v`: `ZNum.addPi`. -/
def addPi (rnd : Rat → Rat) (m : Mem) (k : Nat) (v : Rat) : Mem :=
  { m with pi := fun i => if i = k then rnd (m.pi i + v) else m.pi i }

/-- `d` (`itm-solver-inequalities-Z.cpp:361`): `ZNum.step`. -/
def step (rnd : Rat → Rat) (p : Param) : Rat := rnd (RoundedRows.ratio rnd p.kappa + p.delta)

/-- `local_affect` (`itm-solver-inequalities-Z.cpp:346-433`) without its last test: `ZNum.affect`. -/
def affect (rnd : Rat → Rat) (z : ZSlv) (stale : Rc) (p : Param) (c : CostFun) (k : Nat)
    (row : List FunElem) (R : List Rc) (selected : Int) (x : Assign) (m : Mem) :
    Outcome (Assign × Mem) :=
  let ids := R.map Rc.id
  if selected < 0 then do
    readR z.slv 0
    turn rnd z.slv c row k false (step rnd p) ids x (addPi rnd m k (rnd (valueAt stale R 0 / 2)))
  else if selected + 1 ≥ ids.length then do
    readR z.slv selected
    turn rnd z.slv c row k true (step rnd p) ids x
      (addPi rnd m k (rnd (valueAt stale R selected * (3 / 2))))
  else do
    readR z.slv selected
    readR z.slv (selected + 1)
    let r ← turn rnd z.slv c row k true (step rnd p) (ids.take (selected + 1).toNat) x
      (addPi rnd m k (rnd (rnd (valueAt stale R selected + valueAt stale R (selected + 1)) / 2)))
    turn rnd z.slv c row k false (step rnd p) (ids.drop (selected + 1).toNat) r.1 r.2

/-- What the values decide, in the form of `Verif.Model.ZSolver`: `ZNum.toRow`.  The sub-solvers add
the values with the same rounding. -/
def toRow (rnd : Rat → Rat) (o : ZOracle) (z : ZSlv) (c : CostFun) (m : Mem) (x : Assign)
    (push : Option Rat) (row : List FunElem) : ZRow where
  cost := costAt rnd z.slv c m x push row
  sort := o.sort
  stale := o.stale
  sort1 := o.sort1
  sort2 := o.sort2
  rnd := rnd

/-- One turn of the loop of `compute_update_row` and `push_and_compute_update_row`
(`itm-solver-inequalities-Z.cpp:441-564`): `ZNum.update`. -/
def update (rnd : Rat → Rat) (mode : ObjType) (o : ZOracle) (p : Param) (z : ZSlv) (c : CostFun)
    (k : Nat) (x : Assign) (m : Mem) : Outcome (Assign × Mem) := do
  let row ← rowOf z.slv k
  let b ← boundOf z.slv k
  let kind ← kindAt z k
  let m1 := RoundedRows.decrease rnd m k row p.theta
  let r := toRow rnd o z c m1 x p.push row
  let out ← choose mode z r k kind b (ZSolver.reduced r.cost row)
  let r' ← affect rnd z o.stale p c k row out.1 out.2 x m1
  let v ← isValidConstraint z.slv k r'.1
  check v "is_valid_constraint(*this, k, x)"
  .ok r'

/-- `solver_functor::operator()` (`itm-solver-common.hpp:63-225`) with this solver: `ZNum.functor`. -/
def functor (w : Num.World ZOracle) (cfg : Num.Cfg) (t : ObjType) (obj : Objective) (cost : CostFun)
    (csts : List Merged) (nvars : Nat) : Outcome (Answer × Num.State) := do
  let z ← makeZ csts nvars
  Num.functor .inequalitiesZ (fun _ o p k x m => update w.rnd t o p z cost k x m) w cfg t obj csts
    nvars

end Bx.RoundedZ
