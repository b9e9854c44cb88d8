import Verif.Model.Itm

/-!
# Row updates with their multipliers and preferences

Models the same functions as `Verif.Model.Itm`, with the floating point values that it leaves out:
the multipliers `pi`, the preferences `P` and the reduced costs `R[i].value`
(`lib/src/itm-common.hpp:382-467` and the functions `decrease_preference`,
`compute_reduced_costs`, `compute_update_row` and `push_and_compute_update_row` of the four solvers
with 0/1 and -1/0/1 coefficients).

Simplifications: a floating point number is a rational number and the operations are exact.  The
cost object is a function of the variable and of the assignment (`Verif.Model.Costs` models it).
A cell of `P` belongs to one element of the matrix (`C17_matrix_is_exact`); it is designated by the
constraint and the variable of this element.  What `std::sort` and `std::shuffle` do to equal values
and what `std::bernoulli_distribution` draws are arbitrary.
-/

namespace Bx.Mult

open Merge SolverCtor Spec Itm

/-- The vectors `pi` and `P`. -/
structure Mem where
  pi : Nat → Rat
  P : Nat → Nat → Rat

/-- The value of a variable in the objective, given the assignment. -/
abbrev CostFun := Nat → Assign → Rat

/-- `ap.column(j)` (`sparse-matrix.hpp:198-206`): the constraints that have the variable `j`, with
`A[...]` (1 for the 0/1 solvers). -/
def column (s : Slv) (j : Nat) : List (Nat × Int) :=
  s.rows.zipIdx.flatMap fun r =>
    (r.1.filter fun e => decide (e.var = j)).map fun e => (r.2, factor s.kind e)

/-- `decrease_preference` (`itm-solver-equalities-101.cpp:153-159` and the same function of the
three other solvers). -/
def decrease (m : Mem) (k : Nat) (row : List FunElem) (theta : Rat) : Mem :=
  { m with P := fun i j => if i = k ∧ j ∈ row.map FunElem.var then m.P i j * theta else m.P i j }

/-- `c(begin->column, x) - sum_a_pi - sum_a_p` (`itm-solver-equalities-101.cpp:170-183`,
`itm-solver-equalities-01.cpp:153-167`, `itm-solver-inequalities-101.cpp:208-221`,
`itm-solver-inequalities-01.cpp:173-185`). -/
def reduced (s : Slv) (c : CostFun) (m : Mem) (x : Assign) (j : Nat) : Rat :=
  c j x - ((column s j).map fun p => (p.2 : Rat) * m.pi p.1).sum
    - ((column s j).map fun p => (p.2 : Rat) * m.P p.1 j).sum

/-- A cell of `R`: `value` and `id`, the position in the row. -/
structure RC where
  value : Rat
  id : Nat
  deriving DecidableEq, Repr

/-- What the push adds to the reduced cost of the position `i` of the row: the 0/1 solvers read the
cost of the variable of index `R[i].id` (`itm-solver-equalities-01.cpp:210-211`,
`itm-solver-inequalities-01.cpp:236-237`), the others the cost of the variable of the element
(`itm-solver-equalities-101.cpp:234-236`, `itm-solver-inequalities-101.cpp:274-276`). -/
def pushed (t : SolverType) (c : CostFun) (x : Assign) (amp : Rat) (i : Nat) (e : FunElem) : Rat :=
  match t with
  | .equalities01 | .inequalities01 => amp * c i x
  | _ => amp * c e.var x

/-- `R[i].value` before the sort: the reduced cost, with the opposite sign for a negative factor,
and then the addition of the push when there is one. -/
def valueOf (s : Slv) (c : CostFun) (m : Mem) (x : Assign) (push : Option Rat) (i : Nat)
    (e : FunElem) : Rat :=
  (if isNegative s.kind e then -reduced s c m x e.var else reduced s c m x e.var) +
    match push with
    | none => 0
    | some amp => pushed s.kind c x amp i e

/-- `R` before the sort, for the given positions of the row. -/
def cells (s : Slv) (c : CostFun) (m : Mem) (x : Assign) (push : Option Rat) (row : List FunElem)
    (is : List Nat) : List RC :=
  is.map fun i => ⟨((row[i]?).map (valueOf s c m x push i)).getD 0, i⟩

/-- What the outside decides: the sort and the shuffle of `calculator_sort`, the draw of
`stop_iterating` on the null value number `i`, and the values of the cells of `R` beyond the row. -/
structure Oracle where
  sort : List RC → List RC
  coin : Int → Bool
  stale : Int → Rat

/-- `a` does not come after `b` when the two are sorted. -/
def Before (mode : ObjType) (a b : Rat) : Prop :=
  match mode with
  | .minimize => a ≤ b
  | .maximize => b ≤ a

/-- `calculator_sort` (`itm-common.hpp:134-148`) returns a sorted permutation. -/
def Oracle.Ok (o : Oracle) (mode : ObjType) : Prop :=
  ∀ l, (o.sort l).Perm l ∧ (o.sort l).Pairwise fun a b => Before mode a.value b.value

/-- `stop_iterating` (`itm-common.hpp:150-163`). -/
def stopIterating (mode : ObjType) (value : Rat) (coin : Bool) : Bool :=
  if value = 0 then coin
  else
    match mode with
    | .minimize => decide (value > 0)
    | .maximize => decide (value < 0)

/-- `R[i].value`. -/
def valueAt (o : Oracle) (R : List RC) (i : Int) : Rat :=
  match R[i.toNat]? with
  | some r => r.value
  | none => o.stale i

/-- `P[var->value] += d` for the variables that are set and `-= d` for the others
(`itm-common.hpp:405-415`, `420-430`, `438-448`, `450-460`). -/
def turnP (t : SolverType) (row : List FunElem) (k : Nat) (up : Bool) (d : Rat) (P : Nat → Nat → Rat) :
    List Nat → Nat → Nat → Rat
  | [] => P
  | i :: is =>
    match row[i]? with
    | none => P
    | some e => turnP t row k up d
        (fun a b => if a = k ∧ b = e.var then
          P a b + (if xor (isNegative t e) up then d else -d) else P a b) is

/-- `kappa / (one - kappa)`. -/
def ratio (kappa : Rat) : Rat := kappa / (1 - kappa)

/-- `affect` (`itm-common.hpp:382-461`) on `pi` and `P`. -/
def affectMem (s : Slv) (o : Oracle) (row : List FunElem) (k : Nat) (R : List RC) (selected : Int)
    (kappa delta : Rat) (m : Mem) : Mem :=
  let ids := R.map RC.id
  if selected < 0 then
    let d := delta + ratio kappa * (valueAt o R 0 / 2)
    { m with P := turnP s.kind row k false d m.P ids }
  else if selected + 1 ≥ ids.length then
    let d := delta + ratio kappa * (valueAt o R selected * (3 / 2))
    { m with P := turnP s.kind row k true d m.P ids }
  else
    let d := delta + ratio kappa * (valueAt o R (selected + 1) - valueAt o R selected)
    let P1 := turnP s.kind row k true d m.P (ids.take (selected + 1).toNat)
    { pi := fun i => if i = k then m.pi i + (valueAt o R selected + valueAt o R (selected + 1)) / 2
        else m.pi i
      P := turnP s.kind row k false d P1 (ids.drop (selected + 1).toNat) }

/-- The parameters of a row update: `push` is the objective amplifier of
`push_and_compute_update_row`, and `none` for `compute_update_row`. -/
structure Param where
  kappa : Rat
  delta : Rat
  theta : Rat
  push : Option Rat

/-- What the values decide, in the form of `Verif.Model.Itm`. -/
def toRow (mode : ObjType) (o : Oracle) (s : Slv) (c : CostFun) (m : Mem) (x : Assign)
    (push : Option Rat) (row : List FunElem) : Row where
  sort is := (o.sort (cells s c m x push row is)).map RC.id
  stop i := stopIterating mode
    (valueAt o (o.sort (cells s c m x push row (List.range row.length))) i) (o.coin i)

/-- One turn of the loop of `compute_update_row` or of `push_and_compute_update_row` of the four
solvers (`itm-solver-equalities-101.cpp:208-307`, `itm-solver-inequalities-101.cpp:250-347`,
`itm-solver-equalities-01.cpp:184-270`, `itm-solver-inequalities-01.cpp:208-296`). -/
def update (mode : ObjType) (o : Oracle) (p : Param) (s : Slv) (c : CostFun) (k : Nat)
    (x : Assign) (m : Mem) : Outcome (Assign × Mem) := do
  let row ← rowOf s k
  let b ← boundOf s k
  let m1 := decrease m k row p.theta
  let r := toRow mode o s c m1 x p.push row
  let R := o.sort (cells s c m1 x p.push row (List.range row.length))
  let sel ← select s r row b
  let x' ← affect s k row (r.sort (List.range row.length)) sel x
  .ok (x', affectMem s o row k R sel p.kappa p.delta m1)

end Bx.Mult
