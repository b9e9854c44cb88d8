import Verif.Model.Overflow
import Verif.Model.Init
import Verif.Model.Optimizer

/-!
# The initial vectors with a 32 bits `int`

`Verif.Model.Overflow` for the functions of `Verif.Model.Init` that add factors, and for the count of
the violated constraints of the initial population.
-/

namespace Bx.Checked

open Merge Spec Itm Init Optimizer

/-- The pessimistic loop (`itm-common.hpp:328-339`): `Init.pessimist`. -/
def pessimist (min max : Int) : List Cell → Int → Int → Outcome Int
  | rest, sum, i =>
    if min ≤ sum ∧ sum ≤ max then .ok i
    else
      match rest with
      | [] => .ok (-2)
      | r :: rest => do
        let sum ← int32 (sum + r.factor)
        pessimist min max rest sum (i + 1)

/-- The optimistic loop (`itm-common.hpp:351-364`): `Init.optimist`. -/
def optimist (mode : ObjType) (min max : Int) : List Cell → Int → Int → Int → Outcome Int
  | rest, sum, i, best =>
    let best := if min ≤ sum ∧ sum ≤ max then i else best
    match rest with
    | [] => .ok best
    | r :: rest =>
      if best ≠ -2 ∧ stop mode r.value then .ok best
      else do
        let sum ← int32 (sum + r.factor)
        optimist mode min max rest sum (i + 1) best

/-- One turn of `init_with_pre_solve` (`itm-common.hpp:308-373`): `Init.visitRow`. -/
def visitRow (mode : ObjType) (optimistic : Bool) (c : Merged) (R : List Cell) (x : Assign) :
    Outcome Assign := do
  let best ← if optimistic then optimist mode c.min c.max R 0 (-1) (-2)
    else pessimist c.min c.max R 0 (-1)
  .ok (fill best R x)

/-- The turn for a vector that may be empty. -/
def visitOpt (mode : ObjType) (optimistic : Bool) (c : Merged) (R : List Cell) :
    Option Assign → Outcome (Option Assign)
  | none => .ok none
  | some x => do
    let y ← visitRow mode optimistic c R x
    .ok (some y)

/-- `init_with_pre_solve` (`itm-common.hpp:284-374`): `Init.preSolve`. -/
def preSolve (mode : ObjType) (cost : Nat → Outcome Rat) (d : Draws) :
    Nat → List Merged → Option Assign → Option Assign → Outcome (Option Assign × Option Assign)
  | _, [], p, o => .ok (p, o)
  | k, c :: cs, p, o =>
    if d.visit k then do
      let R ← cells cost c.elems
      let R := d.order k R
      let p ← visitOpt mode false c R p
      let o ← visitOpt mode true c R o
      preSolve mode cost d (k + 1) cs p o
    else preSolve mode cost d (k + 1) cs p o

/-- The initial vector of `solver_functor` (`itm-solver-common.hpp:70` and `99-123`):
`Init.initial`. -/
def initial (mode : ObjType) (cost : Nat → Outcome Rat) (d : Draws) (flip : Nat → Bool) (p : Policy)
    (n : Nat) (csts : List Merged) : Outcome Assign := do
  let x ← match p with
    | .pessimisticSolve => do
      let r ← preSolve mode cost { d with visit := fun _ => true } 0 csts (some fun _ => false) none
      .ok (r.1.getD fun _ => false)
    | .optimisticSolve => do
      let r ← preSolve mode cost { d with visit := fun _ => true } 0 csts none (some fun _ => false)
      .ok (r.2.getD fun _ => false)
    | .bastert => bastert mode cost n 0 fun _ => false
  .ok fun j => if j < n then xor (flip j) (x j) else x j

/-- The pairs of vectors (`itm-optimizer-common.hpp:192-203`): `Init.pairs`. -/
def pairs (mode : ObjType) (cost : Nat → Outcome Rat) (d : PopDraws) (n : Nat) (csts : List Merged) :
    Nat → Nat → Outcome (List Assign)
  | left + 2, i => do
    let r ← preSolve mode cost (d.pre i) 0 csts (some (random n (d.low i) fun _ => false))
      (some (random n (d.high i) fun _ => false))
    let rest ← pairs mode cost d n csts left (i + 2)
    .ok (r.1.getD (fun _ => false) :: r.2.getD (fun _ => false) :: rest)
  | left, _ => .ok (List.replicate left fun _ => false)

/-- The vectors of the population (`itm-optimizer-common.hpp:162-203`): `Init.population`. -/
def population (mode : ObjType) (cost : Nat → Outcome Rat) (d : PopDraws) (n : Nat)
    (csts : List Merged) (size : Nat) : Outcome (List Assign × Assign) := do
  let b ← bastert mode cost n 0 fun _ => false
  let half := (List.range (size / 2)).map fun i => fun j => if j < n then xor (d.flip i j) (b j) else b j
  let rest ← pairs mode cost d n csts (size - size / 2) (size / 2)
  .ok (half ++ rest, b)

/-- The sum of a constraint (`itm-optimizer-common.hpp:211-215`), with the sum so far. -/
def sumSet (x : Assign) : Int → List FunElem → Outcome Int
  | acc, [] => .ok acc
  | acc, e :: es =>
    if x e.var then do
      let acc ← int32 (acc + e.factor)
      sumSet x acc es
    else sumSet x acc es

/-- `remaining_constraints` of the initial vectors (`itm-optimizer-common.hpp:208-220`):
`Optimizer.countViolated`. -/
def countViolated (x : Assign) : List Merged → Outcome Nat
  | [] => .ok 0
  | c :: cs => do
    let sum ← sumSet x 0 c.elems
    let rest ← countViolated x cs
    .ok ((if c.min ≤ sum ∧ sum ≤ c.max then 0 else 1) + rest)

end Bx.Checked
