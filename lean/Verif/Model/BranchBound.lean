import Verif.Model.Exhaustive

/-!
# The branch-and-bound sub-solver

Models `lib/src/branch-and-bound-solver.hpp:192-534`, used by the solver with
integer coefficients for the rows with ten elements or more.

Simplifications: the values are rational numbers, each addition of two of them is
followed by a rounding `rnd`, and the infinite bound is `none`;
each node owns its vector of bits (the code stores them in blocks of a shared
vector: `Verif.Model.Subvector` and `C35`); `node::z` and `item::sum_z` are
computed and never used by the code, so they are left out; `upper_bound` is
written and never read.
-/

namespace Bx.BranchBound

open Exhaustive

/-- `branch_and_bound_solver::item` (`branch-and-bound-solver.hpp:195-221`). -/
structure Item where
  r : Rat
  factor : Int
  original : Int
  variable_ : Nat
  deriving DecidableEq, Repr

/-- `branch_and_bound_solver::node` (`branch-and-bound-solver.hpp:223-239`). -/
structure Node where
  bits : List Bool
  sumr : Rat
  sumfactor : Int
  level : Nat
  deriving DecidableEq, Repr

/-- `nodes` (the head is `nodes.back()`), `lower_bound` and `solution`. -/
structure St where
  nodes : List Node
  lower : Option Rat
  solution : List Bool
  deriving DecidableEq, Repr

/-- `is_best_solution` (`branch-and-bound-solver.hpp:288-294`). -/
def isBest (t : ObjType) (z : Rat) : Option Rat → Bool
  | none => true
  | some l => better t z l

/-- Lines 384-389 (and 344-349): a selection within the bounds is recorded when it
is better. -/
def record (t : ObjType) (st : St) (bits : List Bool) (sumr : Rat) : St :=
  if isBest t sumr st.lower then { st with solution := bits, lower := some sumr } else st

/-- `make_next_equality_node` (`branch-and-bound-solver.hpp:315-353`). -/
def nextEquality (rnd : Rat → Rat) (t : ObjType) (items : List Item) (bmin : Int) (st : St) : Outcome St :=
  match st.nodes with
  | [] => .error (.ub "nodes.back()")
  | n0 :: rest =>
    let level := n0.level + 1
    match items[level]? with
    | none => .ok { st with nodes := rest }
    | some it =>
      let n0 := { n0 with level := level }
      let n1 : Node := ⟨n0.bits.set level true, rnd (n0.sumr + it.r), n0.sumfactor + it.factor, level⟩
      if n1.sumfactor = bmin then
        .ok (record t { st with nodes := n0 :: rest } n1.bits n1.sumr)
      else .ok { st with nodes := n1 :: n0 :: rest }

/-- `make_next_inequality_node` (`branch-and-bound-solver.hpp:355-394`). -/
def nextInequality (rnd : Rat → Rat) (t : ObjType) (items : List Item) (bmin bmax : Int) (st : St) :
    Outcome St :=
  match st.nodes with
  | [] => .error (.ub "nodes.back()")
  | n0 :: rest =>
    let level := n0.level + 1
    match items[level]? with
    | none => .ok { st with nodes := rest }
    | some it =>
      let n0 := { n0 with level := level }
      let n1 : Node := ⟨n0.bits.set level true, rnd (n0.sumr + it.r), n0.sumfactor + it.factor, level⟩
      if bmin ≤ n1.sumfactor ∧ n1.sumfactor ≤ bmax then
        .ok (record t { st with nodes := n1 :: n0 :: rest } n1.bits n1.sumr)
      else if n1.sumfactor > bmax then .ok { st with nodes := n0 :: rest }
      else .ok { st with nodes := n1 :: n0 :: rest }

/-- `while (!nodes.empty())` (lines 417-418 and 446-447). -/
def loop (next : St → Outcome St) : Nat → St → Outcome St
  | 0, _ => .error .fuel
  | fuel + 1, st =>
    if st.nodes = [] then .ok st
    else do
      let st ← next st
      loop next fuel st

/-- Enough turns for the two loops on `n` items. -/
def turns (n : Nat) : Nat := 2 * 3 ^ n + 1

/-- The node of `make_init_node_0` (`branch-and-bound-solver.hpp:296-303`). -/
def init0 (n : Nat) : Node := ⟨List.replicate n false, 0, 0, 0⟩

/-- The node of `make_init_node_1` (`branch-and-bound-solver.hpp:305-313`). -/
def init1 (n : Nat) (it : Item) : Node :=
  ⟨(List.replicate n false).set 0 true, it.r, it.factor, 0⟩

/-- `solve_equality` (`branch-and-bound-solver.hpp:396-419`): the content of
`solution`.  The first two nodes are recorded without their value. -/
def solveEquality (rnd : Rat → Rat) (t : ObjType) (items : List Item) (bmin : Int) : Outcome (List Bool) :=
  match items with
  | [] => .error (.ub "items[0]")
  | it :: _ =>
    let n := items.length
    let n0 := init0 n
    if n0.sumfactor = bmin then .ok n0.bits
    else do
      let n1 := init1 n it
      let st : St :=
        if n1.sumfactor = bmin then ⟨[n0], none, n1.bits⟩
        else ⟨[n1, n0], none, n0.bits⟩
      let st ← loop (nextEquality rnd t items bmin) (turns n) st
      .ok st.solution

/-- `solve_inequality` (`branch-and-bound-solver.hpp:421-448`). -/
def solveInequality (rnd : Rat → Rat) (t : ObjType) (items : List Item) (bmin bmax : Int) :
    Outcome (List Bool) :=
  match items with
  | [] => .error (.ub "items[0]")
  | it :: _ => do
    let n := items.length
    let n0 := init0 n
    let s0 : St := if n0.sumfactor > bmax then ⟨[], none, n0.bits⟩ else ⟨[n0], none, n0.bits⟩
    let n1 := init1 n it
    let s1 : St :=
      if bmin ≤ n1.sumfactor ∧ n1.sumfactor ≤ bmax then
        { s0 with nodes := n1 :: s0.nodes, solution := n1.bits }
      else if n1.sumfactor > bmax then s0
      else { s0 with nodes := n1 :: s0.nodes }
    let st ← loop (nextInequality rnd t items bmin bmax) (turns n) s1
    .ok st.solution

/-- Lines 469-475. -/
def itemOf (c : Rc) : Item := ⟨c.value, c.f.natAbs, c.f, c.id⟩

/-- `item::operator<` (`branch-and-bound-solver.hpp:212-220`): both values are
divided by the factor of the left element, which is positive, so that only `r`
matters. -/
def itemBefore (t : ObjType) (a b : Item) : Bool :=
  match t with
  | .minimize => decide (a.r / a.factor < b.r / a.factor)
  | .maximize => decide (b.r / a.factor < a.r / a.factor)

/-- Lines 482-487: what the negative factors add to the bounds. -/
def shift (items : List Item) : Int :=
  (items.map fun i => if i.original < 0 then i.factor else 0).sum

/-- Lines 499-504: the result of an item. -/
def resultOf (i : Item) (b : Bool) : Rc × Bool :=
  (⟨i.r, i.variable_, i.original⟩, if i.original > 0 then b else !b)

/-- Lines 494-497: the search that the bounds ask for. -/
def explore (rnd : Rat → Rat) (t : ObjType) (items : List Item) (bmin bmax : Int) :
    Outcome (List Bool) :=
  if bmax = bmin then solveEquality rnd t items bmin else solveInequality rnd t items bmin bmax

/-- `branch_and_bound_solver::solve` (`branch-and-bound-solver.hpp:450-533`):
`sort1` and `sort2` are the two `std::sort`.  `subvector.init` fails for less than
4 elements, which the first contract excludes. -/
def solve (rnd : Rat → Rat) (t : ObjType) (sort1 : List Item → List Item)
    (sort2 : List (Rc × Bool) → List (Rc × Bool)) (rc : List Rc) (bkmin bkmax : Int) :
    Outcome (List Rc × Int) := do
  check (decide (4 ≤ rc.length)) "r_size >= 4"
  check (decide (bkmin ≤ bkmax)) "bk_min <= bk_max"
  let items := sort1 (rc.map itemOf)
  let bmin := bkmin + shift items
  let bmax := bkmax + shift items
  let sol ← explore rnd t items bmin bmax
  let res := List.zipWith resultOf items sol
  let sel ← selectedOf (sort2 res)
  .ok ((sort2 res).map Prod.fst, sel)

end Bx.BranchBound
