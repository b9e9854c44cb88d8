import Verif.Model.Multipliers

/-!
# Row updates with rounded operations

`Verif.Model.Multipliers` computes the reduced costs, the multipliers and the preferences exactly.
Here the same functions are written again with a rounding `rnd` after each operation on the floating
point type of the solver.  Each definition names the one it repeats, which carries the rest of the
comment.

Simplifications: `rnd` is a function of the rational numbers, so that overflow, subnormal numbers, NaN
and the infinities are not modelled.  The multiplication by a coefficient 1 or -1 and the change of
sign are exact, as they are on floating point numbers.
-/

namespace Bx.RoundedRows

open Merge SolverCtor Spec Itm Mult

/-- `decrease_preference` (`itm-solver-equalities-101.cpp:153-159` and the same function of the
three other solvers): `Mult.decrease`. -/
def decrease (rnd : Rat → Rat) (m : Mem) (k : Nat) (row : List FunElem) (theta : Rat) : Mem :=
  { m with P := fun i j =>
      if i = k ∧ j ∈ row.map FunElem.var then rnd (m.P i j * theta) else m.P i j }

/-- `sum_a_pi += a * pi[...]` and `sum_a_p += a * P[...]` over a column
(`itm-solver-equalities-101.cpp:170-180`, `itm-solver-equalities-01.cpp:154-162`,
`itm-solver-inequalities-101.cpp:208-218`, `itm-solver-inequalities-01.cpp:174-182`), from the given
value on. -/
def sumColumn (rnd : Rat → Rat) (f : Nat → Rat) : Rat → List (Nat × Int) → Rat
  | acc, [] => acc
  | acc, p :: ps => sumColumn rnd f (rnd (acc + (p.2 : Rat) * f p.1)) ps

/-- `c(begin->column, x) - sum_a_pi - sum_a_p` (`itm-solver-equalities-101.cpp:183`,
`itm-solver-equalities-01.cpp:165`, `itm-solver-inequalities-101.cpp:221`,
`itm-solver-inequalities-01.cpp:185`): `Mult.reduced`. -/
def reduced (rnd : Rat → Rat) (s : Slv) (c : CostFun) (m : Mem) (x : Assign) (j : Nat) : Rat :=
  rnd (rnd (c j x - sumColumn rnd m.pi 0 (column s j)) -
    sumColumn rnd (fun i => m.P i j) 0 (column s j))

/-- `obj_amp * c(..., x)` of the push (`itm-solver-equalities-01.cpp:210-211`,
`itm-solver-inequalities-01.cpp:236-237`, `itm-solver-equalities-101.cpp:234-236`,
`itm-solver-inequalities-101.cpp:274-276`): `Mult.pushed`. -/
def pushed (rnd : Rat → Rat) (t : SolverType) (c : CostFun) (x : Assign) (amp : Rat) (i : Nat)
    (e : FunElem) : Rat :=
  match t with
  | .equalities01 | .inequalities01 => rnd (amp * c i x)
  | _ => rnd (amp * c e.var x)

/-- `R[i].value` before the sort: `Mult.valueOf`. -/
def valueOf (rnd : Rat → Rat) (s : Slv) (c : CostFun) (m : Mem) (x : Assign) (push : Option Rat)
    (i : Nat) (e : FunElem) : Rat :=
  let v := if isNegative s.kind e then -reduced rnd s c m x e.var else reduced rnd s c m x e.var
  match push with
  | none => v
  | some amp => rnd (v + pushed rnd s.kind c x amp i e)

/-- `R` before the sort: `Mult.cells`. -/
def cells (rnd : Rat → Rat) (s : Slv) (c : CostFun) (m : Mem) (x : Assign) (push : Option Rat)
    (row : List FunElem) (is : List Nat) : List RC :=
  is.map fun i => ⟨((row[i]?).map (valueOf rnd s c m x push i)).getD 0, i⟩

/-- `P[var->value] += d` and `-= d` (`itm-common.hpp:405-415`, `420-430`, `438-448`, `450-460`):
`Mult.turnP`. -/
def turnP (rnd : Rat → Rat) (t : SolverType) (row : List FunElem) (k : Nat) (up : Bool) (d : Rat)
    (P : Nat → Nat → Rat) : List Nat → Nat → Nat → Rat
  | [] => P
  | i :: is =>
    match row[i]? with
    | none => P
    | some e => turnP rnd t row k up d
        (fun a b => if a = k ∧ b = e.var then
          rnd (P a b + (if xor (isNegative t e) up then d else -d)) else P a b) is

/-- `kappa / (one - kappa)`: `Mult.ratio`. -/
def ratio (rnd : Rat → Rat) (kappa : Rat) : Rat := rnd (kappa / rnd (1 - kappa))

/-- `affect` (`itm-common.hpp:382-461`) on `pi` and `P`: `Mult.affectMem`. -/
def affectMem (rnd : Rat → Rat) (s : Slv) (o : Oracle) (row : List FunElem) (k : Nat) (R : List RC)
    (selected : Int) (kappa delta : Rat) (m : Mem) : Mem :=
  let ids := R.map RC.id
  if selected < 0 then
    let d := rnd (delta + rnd (ratio rnd kappa * rnd (valueAt o R 0 / 2)))
    { m with P := turnP rnd s.kind row k false d m.P ids }
  else if selected + 1 ≥ ids.length then
    let d := rnd (delta + rnd (ratio rnd kappa * rnd (valueAt o R selected * (3 / 2))))
    { m with P := turnP rnd s.kind row k true d m.P ids }
  else
    let d := rnd (delta +
      rnd (ratio rnd kappa * rnd (valueAt o R (selected + 1) - valueAt o R selected)))
    let P1 := turnP rnd s.kind row k true d m.P (ids.take (selected + 1).toNat)
    { pi := fun i =>
        if i = k then
          rnd (m.pi i + rnd (rnd (valueAt o R selected + valueAt o R (selected + 1)) / 2))
        else m.pi i
      P := turnP rnd s.kind row k false d P1 (ids.drop (selected + 1).toNat) }

/-- What the values decide: `Mult.toRow`. -/
def toRow (rnd : Rat → Rat) (mode : ObjType) (o : Oracle) (s : Slv) (c : CostFun) (m : Mem)
    (x : Assign) (push : Option Rat) (row : List FunElem) : Row where
  sort is := (o.sort (cells rnd s c m x push row is)).map RC.id
  stop i := stopIterating mode
    (valueAt o (o.sort (cells rnd s c m x push row (List.range row.length))) i) (o.coin i)

/-- One turn of the loop of `compute_update_row` or of `push_and_compute_update_row`
(`itm-solver-equalities-101.cpp:208-307`, `itm-solver-inequalities-101.cpp:250-347`,
`itm-solver-equalities-01.cpp:184-270`, `itm-solver-inequalities-01.cpp:208-296`): `Mult.update`. -/
def update (rnd : Rat → Rat) (mode : ObjType) (o : Oracle) (p : Param) (s : Slv) (c : CostFun)
    (k : Nat) (x : Assign) (m : Mem) : Outcome (Assign × Mem) := do
  let row ← rowOf s k
  let b ← boundOf s k
  let m1 := decrease rnd m k row p.theta
  let r := toRow rnd mode o s c m1 x p.push row
  let R := o.sort (cells rnd s c m1 x p.push row (List.range row.length))
  let sel ← select s r row b
  let x' ← affect s k row (r.sort (List.range row.length)) sel x
  .ok (x', affectMem rnd s o row k R sel p.kappa p.delta m1)

end Bx.RoundedRows
