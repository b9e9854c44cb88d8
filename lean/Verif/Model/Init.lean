import Verif.Model.Costs
import Verif.Model.Solve
import Verif.Spec.Rounding

/-!
# The initial vectors

Models `init_x`, `init_with_bastert`, `init_with_random` and `init_with_pre_solve`
(`lib/src/itm-common.hpp:202-374`), the choice of the initial vector of `solve`
(`lib/src/itm-solver-common.hpp:99-123`) and of the population of `optimize`
(`lib/src/itm-optimizer-common.hpp:162-203`).

The draws, the shuffle and the sort are parameters.
-/

namespace Bx.Init

open Merge Spec Itm Costs

/-- `init_x` (`itm-common.hpp:202-221`). -/
def initX (mode : ObjType) (cost : Rat) (valueIf0 : Bool) : Bool :=
  match mode with
  | .minimize => if cost < 0 then true else if cost = 0 then valueIf0 else false
  | .maximize => if cost > 0 then true else if cost = 0 then valueIf0 else false

/-- `c[i]` of the cost type selected by `select_cost` (`itm-solver-equalities-01.cpp:292-305`): the
linear cost (`itm-common.hpp:1129-1132`), or the quadratic one with the others variables at 1
(`itm-common.hpp:1400-1411`). -/
def costAt (o : Objective) (c : Cost) (i : Nat) : Outcome Rat :=
  if o.qelems.isEmpty then c.atLinear i fun _ => false else c.get i

/-- The loop of `init_with_bastert` (`itm-common.hpp:255-267`): `left` variables from `i`. -/
def bastert (mode : ObjType) (cost : Nat → Outcome Rat) : Nat → Nat → Assign → Outcome Assign
  | 0, _, x => .ok x
  | left + 1, i, x => do
    let c ← cost i
    bastert mode cost left (i + 1) fun j => if j = i then initX mode c false else x j

/-- `init_with_random` (`itm-common.hpp:269-282`); `draw i` is the draw of the variable `i`. -/
def random (n : Nat) (draw : Nat → Bool) (x : Assign) : Assign :=
  fun j => if j < n then draw j else x j

/-! ## `init_with_pre_solve` -/

/-- `reduced_cost` of `init_with_pre_solve` (`itm-common.hpp:298-303`). -/
structure Cell where
  value : Rat
  factor : Int
  id : Nat
  deriving DecidableEq, Repr

/-- `static_cast<float>` (`itm-common.hpp:316`): the nearest number of 24 binary digits.  The range of
the exponents is not modelled. -/
def toFloat (v : Rat) : Rat := binary 24 v

/-- The loop that fills `R` (`itm-common.hpp:315-319`). -/
def cells (cost : Nat → Outcome Rat) : List FunElem → Outcome (List Cell)
  | [] => .ok []
  | e :: es => do
    let c ← cost e.var
    let rs ← cells cost es
    .ok (⟨toFloat c, e.factor, e.var⟩ :: rs)

/-- The pessimistic loop (`itm-common.hpp:328-339`): `i` is the index, `sum` the sum of the factors
of the elements up to `i`, the list holds the elements after `i`. -/
def pessimist (min max : Int) : List Cell → Int → Int → Int
  | rest, sum, i =>
    if min ≤ sum ∧ sum ≤ max then i
    else
      match rest with
      | [] => -2
      | r :: rest => pessimist min max rest (sum + r.factor) (i + 1)

/-- `stop_iterating(value)` (`itm-common.hpp:182-190`). -/
def stop (mode : ObjType) (v : Rat) : Bool :=
  match mode with
  | .minimize => decide (v > 0)
  | .maximize => decide (v < 0)

/-- The optimistic loop (`itm-common.hpp:351-364`). -/
def optimist (mode : ObjType) (min max : Int) : List Cell → Int → Int → Int → Int
  | rest, sum, i, best =>
    let best := if min ≤ sum ∧ sum ≤ max then i else best
    match rest with
    | [] => best
    | r :: rest =>
      if best ≠ -2 ∧ stop mode r.value then best
      else optimist mode min max rest (sum + r.factor) (i + 1) best

/-- Sets or unsets the variables of cells, in their order. -/
def write (b : Bool) : List Cell → Assign → Assign
  | [], x => x
  | r :: rs, x => write b rs fun j => if j = r.id then b else x j

/-- The two loops that write the vector (`itm-common.hpp:341-347` and `366-371`); `best` is less than
the size of `R`. -/
def fill (best : Int) (R : List Cell) (x : Assign) : Assign :=
  write false (R.drop (best + 1).toNat) (write true (R.take (best + 1).toNat) x)

/-- What the outside decides in `init_with_pre_solve`, for the constraint of index `k`: whether it is
visited, and the order of `R` after the shuffle and the sort (`itm-common.hpp:321-325`). -/
structure Draws where
  visit : Nat → Bool
  order : Nat → List Cell → List Cell

/-- The sort: a permutation, sorted for the comparison of the code. -/
def Draws.Ok (mode : ObjType) (d : Draws) : Prop :=
  ∀ k l, (d.order k l).Perm l ∧ (d.order k l).Pairwise fun a b =>
    match mode with
    | .minimize => ¬ b.value < a.value
    | .maximize => ¬ b.value > a.value

/-- One turn of `init_with_pre_solve` (`itm-common.hpp:308-373`) for one vector. -/
def visitRow (mode : ObjType) (optimistic : Bool) (c : Merged) (R : List Cell) (x : Assign) : Assign :=
  fill (if optimistic then optimist mode c.min c.max R 0 (-1) (-2) else pessimist c.min c.max R 0 (-1))
    R x

/-- `init_with_pre_solve` (`itm-common.hpp:284-374`); `pess` and `opt` are the two vectors, `none`
when it is empty. -/
def preSolve (mode : ObjType) (cost : Nat → Outcome Rat) (d : Draws) :
    Nat → List Merged → Option Assign → Option Assign → Outcome (Option Assign × Option Assign)
  | _, [], p, o => .ok (p, o)
  | k, c :: cs, p, o =>
    if d.visit k then do
      let R ← cells cost c.elems
      let R := d.order k R
      preSolve mode cost d (k + 1) cs (p.map (visitRow mode false c R))
        (o.map (visitRow mode true c R))
    else preSolve mode cost d (k + 1) cs p o

/-! ## The initial vector of `solve` -/

/-- `init_policy_type` (`lib/include/baryonyx/core:334-339`). -/
inductive Policy where
  | bastert
  | pessimisticSolve
  | optimisticSolve
  deriving DecidableEq, Repr

/-- The initial vector of `solver_functor` (`itm-solver-common.hpp:70` and `99-123`): every constraint
is visited (`init_random` is 1); `flip i` is the draw of `choose_mutation` for the variable `i`. -/
def initial (mode : ObjType) (cost : Nat → Outcome Rat) (d : Draws) (flip : Nat → Bool) (p : Policy)
    (n : Nat) (csts : List Merged) : Outcome Assign := do
  let x ← match p with
    | .pessimisticSolve => do
      let r ← preSolve mode cost { d with visit := fun _ => true } 0 csts (some fun _ => false) none
      .ok (r.1.getD fun _ => false)
    | .optimisticSolve => do
      let r ← preSolve mode cost { d with visit := fun _ => true } 0 csts none (some fun _ => false)
      .ok (r.2.getD fun _ => false)
    | .bastert => bastert mode cost n 0 fun _ => false
  .ok fun j => if j < n then xor (flip j) (x j) else x j

/-! ## The population of `optimize` -/

/-- What the outside decides in the constructor of `storage`: the inversions of the copies of the
bastert vector, the two random vectors of each pair and the draws of `init_with_pre_solve`. -/
structure PopDraws where
  flip : Nat → Nat → Bool
  low : Nat → Nat → Bool
  high : Nat → Nat → Bool
  pre : Nat → Draws

/-- `std::bernoulli_distribution(0.0)` is never true: the probability of the inversion is
`i / (5 * e)` for the copy `i`. -/
def PopDraws.Ok (mode : ObjType) (d : PopDraws) : Prop :=
  (∀ v, d.flip 0 v = false) ∧ ∀ i, (d.pre i).Ok mode

/-- The pairs of vectors (`itm-optimizer-common.hpp:192-203`): `left` vectors from the index `i`; the
last vector of an odd number stays at 0. -/
def pairs (mode : ObjType) (cost : Nat → Outcome Rat) (d : PopDraws) (n : Nat) (csts : List Merged) :
    Nat → Nat → Outcome (List Assign)
  | left + 2, i => do
    let r ← preSolve mode cost (d.pre i) 0 csts (some (random n (d.low i) fun _ => false))
      (some (random n (d.high i) fun _ => false))
    let rest ← pairs mode cost d n csts left (i + 2)
    .ok (r.1.getD (fun _ => false) :: r.2.getD (fun _ => false) :: rest)
  | left, _ => .ok (List.replicate left fun _ => false)

/-- The vectors of the population (`itm-optimizer-common.hpp:162-203`) and the bastert vector. -/
def population (mode : ObjType) (cost : Nat → Outcome Rat) (d : PopDraws) (n : Nat)
    (csts : List Merged) (size : Nat) : Outcome (List Assign × Assign) := do
  let b ← bastert mode cost n 0 fun _ => false
  let half := (List.range (size / 2)).map fun i => fun j => if j < n then xor (d.flip i j) (b j) else b j
  let rest ← pairs mode cost d n csts (size - size / 2) (size / 2)
  .ok (half ++ rest, b)

/-! ## Delta -/

/-- `Cost::min` (`itm-common.hpp:1084-1093`, `1328-1342`): `none` is
`std::numeric_limits<Float>::max()`, when every cost is null. -/
def least : List Rat → Option Rat
  | [] => none
  | v :: vs =>
    if v = 0 then least vs
    else
      match least vs with
      | none => some |v|
      | some m => some (if |v| ≤ m then |v| else m)

/-- `compute_delta` (`itm-common.hpp:917-933`); `big` is `std::numeric_limits<Float>::max()`, `rnd` the
rounding of each operation. -/
def computeDelta (rnd : Rat → Rat) (big : Rat) (c : Cost) (theta : Rat) : Rat :=
  let mini := (least (c.linear ++ c.quads.map Prod.fst)).getD big
  rnd (mini - rnd (theta * mini))

end Bx.Init
