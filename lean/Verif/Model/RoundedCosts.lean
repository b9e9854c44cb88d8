import Verif.Model.Costs

/-!
# The costs with rounded operations

The costs and the norms of `Model/Costs` written again with a rounding `rnd` after each operation.  Each definition
names the one it repeats, which carries the rest of the comment.

Simplification: as in `Model/Rounded`, overflow, subnormal numbers, NaN and the infinities are not
modelled, except for the test `std::isnormal`.
-/

namespace Bx.Rounded

open Costs

/-- `linear_elements[elem.variable_index] += static_cast<Float>(elem.factor)`
(`itm-common.hpp:1010-1015`, `1171-1177`): `Costs.addElements`. -/
def addElements (rnd : Rat → Rat) (n : Nat) : List ObjElem → List Rat → Outcome (List Rat)
  | [], acc => .ok acc
  | e :: es, acc => do
    check (decide (e.var < n)) "elem.variable_index < n"
    addElements rnd n es (acc.modify e.var fun v => rnd (v + rnd e.factor))

/-- `default_cost_type(obj, n)` (`itm-common.hpp:1006-1016`): `Costs.makeDefault`. -/
def makeDefault (rnd : Rat → Rat) (o : Objective) (n : Nat) : Outcome Cost := do
  let l ← addElements rnd n o.elems (List.replicate n 0)
  .ok { linear := l }

/-- `quadratic_cost_type(obj, n)` (`itm-common.hpp:1164-1210`): `Costs.makeQuadratic`.  The factors of
the products are converted (`1202`) before the loop. -/
def makeQuadratic (rnd : Rat → Rat) (o : Objective) (n : Nat) : Outcome Cost := do
  let l ← addElements rnd n o.elems (List.replicate n 0)
  let is ← fillIndices n o.qelems n 0 0
  let qs ← fillQuads (2 * o.qelems.length + 1)
    (o.qelems.map fun e => { e with factor := rnd e.factor }) n 0 []
  .ok { linear := l, quads := qs, indices := 0 :: is }

/-- `for (; first != last; ++first) if (x[id]) ret += factor` (`itm-common.hpp:1420-1422`):
`Costs.sumQuads`. -/
def sumQuads (rnd : Rat → Rat) (c : Cost) (x : Spec.Assign) : Nat → Nat → Rat → Outcome Rat
  | 0, _, ret => .ok ret
  | left + 1, first, ret => do
    let q ← at' c.quads first "quadratic_elements[first]"
    sumQuads rnd c x left (first + 1) (if x q.2 then rnd (ret + q.1) else ret)

/-- `quadratic_cost_type::operator()(index, x)` (`itm-common.hpp:1413-1425`): `Cost.at`. -/
def costAt (rnd : Rat → Rat) (c : Cost) (index : Nat) (x : Spec.Assign) : Outcome Rat := do
  let l ← at' c.linear index "linear_elements[index]"
  let first ← at' c.indices index "indices[index]"
  let last ← at' c.indices (index + 1) "indices[index + 1]"
  sumQuads rnd c x (last - first) first l

/-- `itm-common.hpp:1102-1104`, `1354-1360`: `Cost.divide`. -/
def divide (rnd : Rat → Rat) (f : FloatType) (c : Cost) (div : Rat) : Cost :=
  if f.isNormal div then
    { c with linear := c.linear.map fun v => rnd (v / div),
             quads := c.quads.map fun q => (rnd (q.1 / div), q.2) }
  else c

/-- `make_l1_norm` (`itm-common.hpp:1095-1105`, `1344-1361`): `Cost.l1`. -/
def l1 (rnd : Rat → Rat) (f : FloatType) (c : Cost) : Cost :=
  let a := c.linear.foldl (fun div v => rnd (div + |v|)) 0
  divide rnd f c (c.quads.foldl (fun div q => rnd (div + |q.1|)) a)

/-- `make_l2_norm` (`itm-common.hpp:1107-1117`, `1363-1381`): `Cost.l2`. -/
def l2 (rnd : Rat → Rat) (f : FloatType) (c : Cost) : Cost :=
  let a := c.linear.foldl (fun div v => rnd (div + rnd (v * v))) 0
  divide rnd f c (c.quads.foldl (fun div q => rnd (div + rnd (q.1 * q.1))) a)

/-- `make_loo_norm` (`itm-common.hpp:1119-1127`, `1383-1398`): `Cost.loo`. -/
def loo (rnd : Rat → Rat) (f : FloatType) (c : Cost) : Outcome Cost :=
  match c.linear with
  | [] => .error (.ub "*std::max_element of an empty range")
  | v :: vs => .ok (divide rnd f c (maxFrom (maxFrom v vs) (c.quads.map Prod.fst)))

/-- `normalize_costs` (`itm-common.hpp:967-998`), without the random norm: `Costs.normalize`. -/
def normalize (rnd : Rat → Rat) (f : FloatType) (n : Norm) (c : Cost) : Outcome Cost :=
  match n with
  | .none => .ok c
  | .l1 => .ok (l1 rnd f c)
  | .l2 => .ok (l2 rnd f c)
  | .loo => loo rnd f c

/-! ## The random norm -/

/-- `random_epsilon_unique` (`itm-common.hpp:946-960`): `Costs.epsilonUnique`.  A
`std::uniform_real_distribution` whose bounds are reversed is undefined. -/
def epsilonUnique (d : Draws) (k : Nat) (group : List (Rat × Nat)) (min max : Rat) :
    Outcome (List (Rat × Nat)) := do
  check (decide (min ≠ max)) "min != max"
  if max < min then .error (.ub "uniform_real_distribution(min, max)")
  else .ok (group.zipIdx.map fun p => (d (k + p.2) min max, p.1.2))

/-- The loop on the sorted costs (`itm-common.hpp:1037-1048`): `Costs.groups`. -/
def groups (d : Draws) : List (Rat × Nat) → Rat × Nat → List (Rat × Nat) → List (Rat × Nat) →
    Outcome (List (Rat × Nat) × (Rat × Nat) × List (Rat × Nat))
  | done, head, tail, [] => .ok (done, head, tail)
  | done, head, tail, next :: rest =>
    if next.1 ≠ head.1 then
      if tail ≠ [] then
        epsilonUnique d done.length (head :: tail) head.1 next.1 >>= fun g =>
          groups d (done ++ g) next [] rest
      else groups d (done ++ [head]) next [] rest
    else groups d done head (tail ++ [next]) rest

/-- `linearize` (`lib/src/utils.hpp:148-158`): `Costs.linearize`.  `rnd` is the rounding of the type of
the costs and `dbl` that of `double`. -/
def linearize (rnd dbl : Rat → Rat) (p1x : Int) (p1y : Rat) (p2x : Int) (p2y : Rat) (value : Int) :
    Outcome Rat := do
  check (decide (p1x - p2x ≠ 0)) "p1x - p2x != 0"
  let m := dbl (dbl (rnd (p1y - p2y)) / (p1x - p2x))
  let p := dbl (dbl p2y - dbl (m * p2x))
  .ok (rnd (⌈dbl (dbl (m * value) + p)⌉ : Int))

/-- The last group (`itm-common.hpp:1050-1063`): `Costs.lastGroup`. -/
def lastGroup (rnd dbl : Rat → Rat) (d : Draws) (done : List (Rat × Nat)) (head : Rat × Nat)
    (tail : List (Rat × Nat)) : Outcome (List (Rat × Nat)) :=
  if tail = [] then .ok (done ++ [head])
  else
    match done with
    | [] => epsilonUnique d 0 (head :: tail) head.1 (rnd (head.1 + 1))
    | front :: _ => do
      let value ← linearize rnd dbl 0 front.1 done.length head.1 (done.length + tail.length + 1)
      let g ← epsilonUnique d done.length (head :: tail) head.1 value
      .ok (done ++ g)

/-- `make_random_norm` up to the division (`itm-common.hpp:1026-1073`): `Costs.randomise`. -/
def randomise (rnd dbl : Rat → Rat) (sort : List (Rat × Nat) → List (Rat × Nat)) (d : Draws)
    (l : List Rat) : Outcome (List Rat) :=
  match sort l.zipIdx with
  | [] => .ok []
  | head :: rest => do
    let (done, h, t) ← groups d [] head [] rest
    let r ← lastGroup rnd dbl d done h t
    .ok ((List.range l.length).map fun i => ((r.find? fun p => p.2 = i).map Prod.fst).getD 0)

/-- `make_random_norm` (`itm-common.hpp:1026-1082`, `1226-1327`): `Cost.random`. -/
def randomNorm (rnd dbl : Rat → Rat) (f : FloatType) (sort : List (Rat × Nat) → List (Rat × Nat))
    (d : Draws) (c : Cost) : Outcome Cost := do
  let l ← randomise rnd dbl sort d c.linear
  loo rnd f { c with linear := l }

end Bx.Rounded
