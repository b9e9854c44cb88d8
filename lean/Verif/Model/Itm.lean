import Verif.Model.SolverCtor
import Verif.Model.SparseMatrix
import Verif.Spec.Lp

/-!
# Row updates of the in-the-middle solvers

Models `lib/src/itm-common.hpp` and the four solvers with 0/1 and -1/0/1
coefficients (`itm-solver-equalities-01.cpp`, `itm-solver-equalities-101.cpp`,
`itm-solver-inequalities-01.cpp`, `itm-solver-inequalities-101.cpp`).

Simplifications, all of them over-approximations:

* the floating point values (reduced costs `R[i].value`, preferences `P`,
  multipliers `pi`) are not computed.  They act on the assignment through two
  answers only: the order in which `calculator_sort` leaves `R` and the answers
  of `stop_iterating`.  Both are parameters (`Row`) and the theorems hold for
  all of them;
* the vector `x` is a function from the variables to `Bool`; `bit_array` is
  modelled apart (`Verif.Model.BitArray`);
* a row is the list of the elements of its constraint; that the sparse matrix
  holds exactly these rows is `C17_matrix_is_exact`.
-/

namespace Bx.Itm

open Merge SolverCtor Spec

/-- What a solver keeps after its constructor: `ap` and `A` (as the rows), `b`,
the type of the solver, and the allocated length of `R`. -/
structure Slv where
  kind : SolverType
  rows : List (List FunElem)
  bounds : List Bound
  cap : Nat
  deriving DecidableEq, Repr

/-- `compute_reduced_costs_vector_size` (`itm-common.hpp:235-245`): reads
`csts[0]`. -/
def reducedCostsSize (csts : List Merged) : Outcome Nat :=
  match csts with
  | [] => .error (.ub "csts[0]")
  | c :: cs => .ok (cs.foldl (fun m c => max m c.elems.length) c.elems.length)

/-- Constructors of the bounds, one constraint after the other (loop of the
constructors of the solvers). -/
def ctors (t : SolverType) : List Merged → Outcome (List Bound)
  | [] => .ok []
  | c :: cs => do
    let b ← ctor t c
    let bs ← ctors t cs
    .ok (b :: bs)

/-- Constructor of a solver (for instance `itm-solver-equalities-01.cpp:68-97`):
the matrix, then the allocation of `R`, then the bounds. -/
def makeSlv (t : SolverType) (csts : List Merged) (variables : Nat) : Outcome Slv := do
  let _ ← Sparse.make csts variables
  let cap ← reducedCostsSize csts
  let bs ← ctors t csts
  .ok ⟨t, csts.map Merged.elems, bs, cap⟩

/-- `factor` of the solvers: 1 for the 0/1 ones
(`itm-solver-equalities-01.cpp:105-108`, `itm-solver-inequalities-01.cpp:115-118`),
the coefficient for the others. -/
def factor (t : SolverType) (e : FunElem) : Int :=
  match t with
  | .equalities01 | .inequalities01 => 1
  | _ => e.factor

/-- `rc_data::is_negative_factor`: `false` for the 0/1 solvers
(`itm-solver-equalities-01.cpp:45-48`), the sign of `f` for the -1/0/1 ones. -/
def isNegative (t : SolverType) (e : FunElem) : Bool :=
  match t with
  | .equalities01 | .inequalities01 => false
  | _ => decide (e.factor < 0)

/-- `ap.row(k)` (`sparse-matrix.hpp:188-196`). -/
def rowOf (s : Slv) (k : Nat) : Outcome (List FunElem) :=
  match s.rows[k]? with
  | none => .error (.contract "m_is_valid_index(row, 0)")
  | some r => .ok r

/-- `b[k]`, an unchecked read. -/
def boundOf (s : Slv) (k : Nat) : Outcome Bound :=
  match s.bounds[k]? with
  | none => .error (.ub "b[k]")
  | some b => .ok b

/-- The sum computed by `is_valid_constraint` (`itm-common.hpp:82-86`). -/
def rowValue (t : SolverType) (x : Assign) : List FunElem → Int
  | [] => 0
  | e :: es => factor t e * (if x e.var then 1 else 0) + rowValue t x es

/-- `is_valid_constraint` (`itm-common.hpp:76-89`). -/
def isValidConstraint (s : Slv) (k : Nat) (x : Assign) : Outcome Bool := do
  let r ← rowOf s k
  let b ← boundOf s k
  .ok (decide (b.min ≤ rowValue s.kind x r) && decide (rowValue s.kind x r ≤ b.max))

/-- The loop `for (int k = 0; k != m; ++k)` of `is_valid_solution`
(`itm-common.hpp:91-100`), over the constraints still to visit. -/
def isValidLoop (s : Slv) (x : Assign) : List Nat → Outcome Bool
  | [] => .ok true
  | k :: ks => do
    if ← isValidConstraint s k x then isValidLoop s x ks else .ok false

/-- `is_valid_solution` (`itm-common.hpp:91-100`). -/
def isValidSolution (s : Slv) (x : Assign) : Outcome Bool :=
  isValidLoop s x (List.range s.rows.length)

/-- The loop of `compute_violated_constraints` (`itm-common.hpp:102-115`). -/
def violatedLoop (s : Slv) (x : Assign) : List Nat → Outcome (List Nat)
  | [] => .ok []
  | k :: ks => do
    let v ← isValidConstraint s k x
    let r ← violatedLoop s x ks
    .ok (if v then r else k :: r)

/-- `compute_violated_constraints` (`itm-common.hpp:102-115`): the vector `out`;
the function returns its length. -/
def violated (s : Slv) (x : Assign) : Outcome (List Nat) :=
  violatedLoop s x (List.range s.rows.length)

/-- `compute_order::local_compute_violated_constraints`
(`itm-common.hpp:882-891`). -/
def localViolatedLoop (s : Slv) (x : Assign) : List Nat → Nat → Outcome Nat
  | [], n => .ok n
  | k :: ks, n => do
    let v ← isValidConstraint s k x
    localViolatedLoop s x ks (if v then n else n + 1)

/-- `compute_order::local_compute_violated_constraints`
(`itm-common.hpp:882-891`). -/
def localViolated (s : Slv) (x : Assign) : Outcome Nat :=
  localViolatedLoop s x (List.range s.rows.length) 0

/-- Loop of `compute_order::infeasibility_local_compute_violated_constraints`
(`itm-common.hpp:899-911`): the violated constraints with their distance to the
bound. -/
def infeasibilityLoop (s : Slv) (x : Assign) : List Nat → Outcome (List (Nat × Int))
  | [] => .ok []
  | k :: ks => do
    let r ← rowOf s k
    let b ← boundOf s k
    let v := rowValue s.kind x r
    let l ← infeasibilityLoop s x ks
    .ok (if b.min > v then (k, b.min - v) :: l
      else if b.max < v then (k, v - b.max) :: l
      else l)

/-- `infeasibility_local_compute_violated_constraints`
(`itm-common.hpp:893-914`): the vector `m_order`; the function returns its
length. -/
def infeasibility (s : Slv) (x : Assign) : Outcome (List (Nat × Int)) :=
  infeasibilityLoop s x (List.range s.rows.length)

/-! ## Row update -/

/-- What the floating point values decide during one row update: `sort` is the
order of the positions of the row after `calculator_sort`
(`itm-common.hpp:134-148`), `stop i` the answer of `stop_iterating` on
`R[i].value` (`itm-common.hpp:150-163`). -/
structure Row where
  sort : List Nat → List Nat
  stop : Int → Bool

/-- `calculator_sort` permutes. -/
def Row.Ok (o : Row) : Prop := ∀ l, (o.sort l).Perm l

/-- The reads `R[i]`: out of the allocation is undefined. -/
def readR (s : Slv) (i : Int) : Outcome Unit :=
  if 0 ≤ i ∧ i < s.cap then .ok () else .error (.ub "R[i]")

/-- `x.set` and `x.unset`. -/
def write (x : Assign) (j : Nat) (v : Bool) : Assign := fun i => if i = j then v else x i

/-- Loop over the positions `ids` of the row that sets or unsets the variables:
`up = true` sets the variables with a positive factor and unsets the others,
`up = false` does the opposite (`itm-common.hpp:405-415`, `420-430`, `438-448`,
`450-460`).  `it + R[i].id` out of the row is undefined. -/
def turn (t : SolverType) (row : List FunElem) (up : Bool) (x : Assign) :
    List Nat → Outcome Assign
  | [] => .ok x
  | i :: is =>
    match row[i]? with
    | none => .error (.ub "it + R[i].id")
    | some e => turn t row up (write x e.var (xor (isNegative t e) up)) is

/-- `affect` (`itm-common.hpp:382-467`) on the vector `x`, up to line 461; `ids`
are the `id` of `R[0 .. r_size-1]`. -/
def affectX (s : Slv) (row : List FunElem) (ids : List Nat) (selected : Int) (x : Assign) :
    Outcome Assign :=
  if selected < 0 then do
    readR s 0
    turn s.kind row false x ids
  else if selected + 1 ≥ ids.length then do
    readR s selected
    turn s.kind row true x ids
  else do
    readR s selected
    readR s (selected + 1)
    let x1 ← turn s.kind row true x (ids.take (selected + 1).toNat)
    turn s.kind row false x1 (ids.drop (selected + 1).toNat)

/-- `affect` (`itm-common.hpp:382-467`). -/
def affect (s : Slv) (k : Nat) (row : List FunElem) (ids : List Nat) (selected : Int)
    (x : Assign) : Outcome Assign := do
  let x' ← affectX s row ids selected x
  let v ← isValidConstraint s k x'
  check v "is_valid_constraint(slv, k, x)"
  .ok x'

/-- The loop `for (int i = bkmin; i <= bkmax; ++i)` of `select_variables`
(`itm-solver-inequalities-01.cpp:201-203`,
`itm-solver-inequalities-101.cpp:243-245`); `n` is the number of values of `i`
still to visit. -/
def scan (s : Slv) (stop : Int → Bool) (last : Int) : Int → Nat → Outcome Int
  | _, 0 => .ok last
  | i, n + 1 => do
    readR s i
    if stop i then .ok (i - 1) else scan s stop last (i + 1) n

/-- `select_variables` of the 0/1 equality solver
(`itm-solver-equalities-01.cpp:173-182`). -/
def selectEq01 (r : Int) (bk : Int) : Int := min bk r - 1

/-- `select_variables` of the -1/0/1 equality solver
(`itm-solver-equalities-101.cpp:197-206`). -/
def selectEq101 (r c : Int) (bk : Int) : Int := min (bk + c) r - 1

/-- `select_variables` of the 0/1 inequality solver
(`itm-solver-inequalities-01.cpp:193-206`). -/
def selectIneq01 (s : Slv) (stop : Int → Bool) (r bkmin bkmax : Int) : Outcome Int :=
  if bkmin = bkmax then .ok (min bkmin r - 1)
  else
    let lo := min bkmin r
    let hi := min bkmax r
    scan s stop (hi - 1) lo (hi - lo + 1).toNat

/-- `select_variables` of the -1/0/1 inequality solver
(`itm-solver-inequalities-101.cpp:235-248`). -/
def selectIneq101 (s : Slv) (stop : Int → Bool) (r c bkmin bkmax : Int) : Outcome Int :=
  if bkmin = bkmax then .ok (min (bkmin + c) r - 1)
  else
    let lo := bkmin + c
    let hi := min (bkmax + c) r
    scan s stop (hi - 1) lo (hi - lo + 1).toNat

/-- `c_size`, the number of negative factors of the row
(`itm-solver-equalities-101.cpp:186-189`, `itm-solver-inequalities-101.cpp:224-227`). -/
def cSize (t : SolverType) (row : List FunElem) : Nat :=
  (row.filter fun e => isNegative t e).length

/-- `select_variables` of the solver.  The solvers with integer coefficients
are modelled apart; their case here is not used. -/
def select (s : Slv) (o : Row) (row : List FunElem) (b : Bound) : Outcome Int :=
  let r : Int := row.length
  let c : Int := cSize s.kind row
  match s.kind with
  | .equalities01 => .ok (selectEq01 r b.min)
  | .equalities101 => .ok (selectEq101 r c b.min)
  | .inequalities01 => selectIneq01 s o.stop r b.min b.max
  | .inequalities101 => selectIneq101 s o.stop r c b.min b.max
  | _ => .error (.contract "other solver")

/-- One turn of the loop of `compute_update_row` and of
`push_and_compute_update_row` (`itm-solver-equalities-01.cpp:233-266` and
`185-230`, and the same functions of the three other solvers): the two functions
differ only by the values of the reduced costs. -/
def updateRow (s : Slv) (o : Row) (k : Nat) (x : Assign) : Outcome Assign := do
  let row ← rowOf s k
  let b ← boundOf s k
  let sel ← select s o row b
  affect s k row (o.sort (List.range row.length)) sel x

end Bx.Itm
