import Verif.Model.BitArray
import Verif.Model.Itm
import Verif.Model.SparseMatrix

/-!
# The coefficients that a solver stores

`Model/Itm` keeps the rows of the constraints; the solvers keep the positions of the coefficients in the sparse
matrix `ap` (`Model/SparseMatrix`) and the coefficients themselves in an array `A` that is filled apart: nothing
for the 0/1 solvers, one bit for each coefficient in the -1/0/1 inequality solver (`value_bit_array<-1, 1>`,
`bit-array.hpp:339-369`), an array of `int` in the others.
-/

namespace Bx.Stored

open Merge SolverCtor Spec Sparse

/-- The member `A` of the solvers (`itm-solver-equalities-101.cpp:70`, `itm-solver-inequalities-101.cpp:73`,
`itm-solver-inequalities-Z.cpp:86`); there is none in the 0/1 solvers. -/
inductive Coeffs
  | ones
  | ints (a : List Int)
  | signs (a : BitArray.Bits)
  deriving DecidableEq, Repr

/-- The loop that fills the bits (`itm-solver-inequalities-101.cpp:99-109`), over the elements of the constraints
that are still to come. -/
def fillSigns : List FunElem → Nat → BitArray.Bits → Outcome BitArray.Bits
  | [], _, a => .ok a
  | e :: es, id, a => do
    check (decide (e.factor.natAbs = 1)) "abs(factor) == 1"
    let a ← if e.factor > 0 then BitArray.set a id else BitArray.unset a id
    fillSigns es (id + 1) a

/-- The loop that fills the array (`itm-solver-equalities-101.cpp:97-104`, `itm-solver-inequalities-Z.cpp:125-136`):
`A[id++] = cst.factor`. -/
def fillInts : List FunElem → Nat → List Int → Outcome (List Int)
  | [], _, a => .ok a
  | e :: es, id, a =>
    if id < a.length then fillInts es (id + 1) (a.set id e.factor) else .error (.ub "A[id++]")

/-- `A` at the end of the constructor: `size` is `ap.size()` and the elements are those of all the constraints, one
constraint after the other. -/
def fill (t : SolverType) (es : List FunElem) (size : Nat) : Outcome Coeffs :=
  match t with
  | .equalities01 | .inequalities01 => .ok .ones
  | .inequalities101 => do
    let a ← fillSigns es 0 (BitArray.make size)
    .ok (.signs a)
  | _ => do
    let a ← fillInts es 0 (List.replicate size 0)
    .ok (.ints a)

/-- `factor` (`itm-solver-equalities-01.cpp:105-108`, `itm-solver-equalities-101.cpp:120-123`,
`itm-solver-inequalities-01.cpp:115-118`, `itm-solver-inequalities-101.cpp:140-143` with
`bit-array.hpp:358-362`, `itm-solver-inequalities-Z.cpp:199-202`). -/
def factor (a : Coeffs) (value : Nat) : Outcome Int :=
  match a with
  | .ones => .ok 1
  | .ints a => match a[value]? with
    | some f => .ok f
    | none => .error (.ub "A[value]")
  | .signs a => do
    let v ← BitArray.get a value
    .ok (if v then 1 else -1)

/-- The loop of `is_valid_constraint` (`itm-common.hpp:85-86`). -/
def rowSum (a : Coeffs) (x : Assign) : List RowValue → Int → Outcome Int
  | [], v => .ok v
  | r :: rs, v => do
    let f ← factor a r.value
    rowSum a x rs (v + f * (if x r.column then 1 else 0))

/-- `is_valid_constraint` (`itm-common.hpp:76-89`) on the matrix and the array. -/
def isValid (m : Matrix) (a : Coeffs) (bs : List Bound) (k : Nat) (x : Assign) : Outcome Bool := do
  let r ← Sparse.row m k
  let v ← rowSum a x r 0
  match bs[k]? with
  | none => .error (.ub "b[k]")
  | some b => .ok (decide (b.min ≤ v) && decide (v ≤ b.max))

/-- The loop of `compute_violated_constraints` (`itm-common.hpp:110-112`). -/
def violatedLoop (m : Matrix) (a : Coeffs) (bs : List Bound) (x : Assign) : List Nat → Outcome (List Nat)
  | [] => .ok []
  | k :: ks => do
    let v ← isValid m a bs k x
    let r ← violatedLoop m a bs x ks
    .ok (if v then r else k :: r)

/-- What a column of the matrix gives to the reduced costs (`itm-solver-inequalities-101.cpp:211-218` and the same
loops of the other solvers): the row and the coefficient of each of its cells. -/
def columnOf (m : Matrix) (a : Coeffs) (j : Nat) : Outcome (List (Nat × Int)) := do
  let c ← Sparse.column m j
  c.mapM fun v => do
    let f ← factor a v.value
    .ok (v.row, f)

end Bx.Stored
