import Verif.Model.Multipliers

/-!
# The random solver

Models `lib/src/random-solver.cpp`: the constructor and the row update of
`solver_random_inequalities_101coeff`, used when `solver=random`.

The simplifications are those of `Verif.Model.Multipliers`: exact rational numbers instead of
floating point ones, an arbitrary cost function, arbitrary sort of equal values and arbitrary draws.
The multipliers `pi` are allocated but never read or written by the updates of this solver.
-/

namespace Bx.Rand

open Merge SolverCtor Spec Itm Mult

/-- One turn of the loop of the constructor (`random-solver.cpp:95-117`).  `b[i].negative_factor` is
not written, it keeps the value 0 given by `make_unique`. -/
def ctor (m : Merged) : Outcome Bound := do
  check (m.elems.all fun e => decide (e.factor.natAbs = 1)) "abs(factor) == 1"
  let upper := (m.elems.filter fun e => decide (e.factor > 0)).length
  let lower := (m.elems.filter fun e => !decide (e.factor > 0)).length
  let b : Bound :=
    if m.min = m.max then ⟨m.min, m.max, 0⟩
    else ⟨max (-(lower : Int)) m.min, min (upper : Int) m.max, 0⟩
  check (decide (b.min ≤ b.max)) "b[i].min <= b[i].max"
  .ok b

/-- The loop of the constructor. -/
def ctors : List Merged → Outcome (List Bound)
  | [] => .ok []
  | c :: cs => do
    let b ← ctor c
    let bs ← ctors cs
    .ok (b :: bs)

/-- The constructor (`random-solver.cpp:76-118`). -/
def make (csts : List Merged) (nvars : Nat) : Outcome Slv := do
  let _ ← Sparse.make csts nvars
  let cap ← reducedCostsSize csts
  let bs ← ctors csts
  .ok ⟨.inequalities101, csts.map Merged.elems, bs, cap⟩

/-- `c(row_begin->column, x) - sum_a_p` (`random-solver.cpp:192-203`): `first` is the variable of the
first element of the row, for every element `j` of it. -/
def price (s : Slv) (c : CostFun) (m : Mem) (x : Assign) (first j : Nat) : Rat :=
  c first x - ((column s j).map fun p => (p.2 : Rat) * m.P p.1 j).sum

/-- `row_begin->column`.  It is only read when the row has an element. -/
def firstVar (row : List FunElem) : Nat := (row.head?.map FunElem.var).getD 0

/-- `R` before the sort (`random-solver.cpp:191-203`). -/
def cells (s : Slv) (c : CostFun) (m : Mem) (x : Assign) (row : List FunElem) : List RC :=
  row.zipIdx.map fun e => ⟨price s c m x (firstVar row) e.1.var, e.2⟩

/-- The vectors `x` and `P` during an update. -/
structure Vec where
  x : Assign
  P : Nat → Nat → Rat

/-- `x.set(var->column)` and the addition of `d` to `P[var->value]`, or `x.unset(var->column)` and
the subtraction (`random-solver.cpp:299-302`, `316-324`, `329-332`). -/
def give (k : Nat) (v : Vec) (j : Nat) (up : Bool) (d : Rat) : Vec where
  x := write v.x j up
  P := fun a b => if a = k ∧ b = j then (if up then v.P a b + d else v.P a b - d) else v.P a b

/-- What an update of the row `k` needs. -/
structure Env where
  mode : ObjType
  k : Nat
  row : List FunElem
  b : Bound
  kappa : Rat
  delta : Rat
  coin : Int → Bool

/-- `delta + (kappa / (one - kappa)) * (R[i].value / two)`. -/
def step (e : Env) (r : RC) : Rat := e.delta + ratio e.kappa * (r.value / 2)

/-- `row_begin + R[i].id`; `R[i].a` is the factor of this element. -/
def elemOf (e : Env) (r : RC) : Outcome FunElem :=
  match e.row[r.id]? with
  | none => .error (.ub "row_begin + R[i].id")
  | some f => .ok f

/-- The first loop (`random-solver.cpp:294-304`): it sets variables until the lower bound is reached.
The list holds the cells of `R` not visited yet.  The body runs before any test: an empty row reads
`R[0]`. -/
def fill (e : Env) : List RC → Int → Vec → Outcome (List RC × Int × Vec)
  | [], _, _ => .error (.ub "R[i]")
  | r :: rs, value, v => do
    let f ← elemOf e r
    let value := value + f.factor
    let v := give e.k v f.var true (step e r)
    if e.b.min ≤ value then .ok (rs, value, v)
    else
      match rs with
      | [] => .ok ([], value, v)
      | q :: qs => fill e (q :: qs) value v

/-- The second loop (`random-solver.cpp:306-325`), while `valid` holds: it sets variables as long as
the bounds hold and `stop_iterating` answers `true`. -/
def extend (e : Env) : List RC → Int → Vec → Outcome (List RC × Vec)
  | [], _, v => .ok ([], v)
  | r :: rs, value, v => do
    let f ← elemOf e r
    let value := value + f.factor
    let valid := decide (e.b.min ≤ value) && decide (value ≤ e.b.max)
    let valid := if valid then stopIterating e.mode r.value (e.coin r.id) else false
    if valid then extend e rs value (give e.k v f.var true (step e r))
    else .ok (rs, give e.k v f.var false (step e r))

/-- The third loop (`random-solver.cpp:327-333`): it unsets the variables left. -/
def rest (e : Env) : List RC → Vec → Outcome Vec
  | [], v => .ok v
  | r :: rs, v => do
    let f ← elemOf e r
    rest e rs (give e.k v f.var false (step e r))

/-- The three loops (`random-solver.cpp:207-209` and `294-333`). -/
def loops (e : Env) (R : List RC) (v : Vec) : Outcome Vec := do
  let (rs, value, v) ← if e.b.min ≤ 0 then .ok (R, 0, v) else fill e R 0 v
  let (rs, v) ←
    if e.b.min ≤ value ∧ value ≤ e.b.max then extend e rs value v else .ok (rs, v)
  rest e rs v

/-- One turn of the loop of `compute_update_row` (`random-solver.cpp:184-336`).
`push_and_compute_update_row` (lines 165-174) calls it and ignores the amplifier. -/
def update (mode : ObjType) (o : Oracle) (p : Param) (s : Slv) (c : CostFun) (k : Nat)
    (x : Assign) (m : Mem) : Outcome (Assign × Mem) := do
  let row ← rowOf s k
  let b ← boundOf s k
  let m1 := decrease m k row p.theta
  let R := o.sort (cells s c m1 x row)
  let v ← loops ⟨mode, k, row, b, p.kappa, p.delta, o.coin⟩ R ⟨x, m1.P⟩
  let ok ← isValidConstraint s k v.x
  check ok "is_valid_constraint(*this, k, x)"
  .ok (v.x, { m1 with P := v.P })

/-- The solver without `negative_factor`.  `make` builds what the constructor of the -1/0/1 inequality
solver builds, without this field (`make_eq`). -/
def strip (s : Slv) : Slv := { s with bounds := s.bounds.map fun b => { b with negative := 0 } }

/-- What the outside decides during an update, in the form of `Verif.Model.Solve`: the memory too is
arbitrary, and so is the cost function. -/
structure Choice where
  mode : ObjType
  oracle : Oracle
  param : Param
  cost : CostFun
  mem : Mem

/-- `compute_update_row` in the form of `Verif.Model.Solve`.  The functor of this solver
(`random-solver.cpp:342-351`, `itm-solver-common.hpp:63-225`) is `Itm.functor .inequalities101` with
this update: it does not read `negative_factor`. -/
def updRow (s : Slv) (ch : Choice) (k : Nat) (x : Assign) : Outcome Assign :=
  (update ch.mode ch.oracle ch.param (strip s) ch.cost k x ch.mem).map Prod.fst

end Bx.Rand
