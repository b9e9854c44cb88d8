import Mathlib.Data.Rat.Floor
import Verif.Spec.Lp

/-!
# Costs and seeds

Models `default_cost_type` and `quadratic_cost_type` (`lib/src/itm-common.hpp:1000-1440`),
`normalize_costs` (`962-998`) and `generate_seed` (`1454-1484`).

Simplification: a floating-point number is a rational number and the operations are
exact.
-/

namespace Bx.Costs

open Bx.Spec (Assign)

/-- A cost object: `linear_elements`, `quadratic_elements` (factor and `id`) and `indices`.
The cost of a linear objective has no quadratic elements. -/
structure Cost where
  linear : List Rat
  quads : List (Rat × Nat) := []
  indices : List Nat := []
  deriving DecidableEq, Repr

/-- `a[i]` of an array that is not bound checked. -/
def at' {α : Type} (a : List α) (i : Nat) (what : String) : Outcome α :=
  match a[i]? with
  | some v => .ok v
  | none => .error (.ub what)

/-- `linear_elements[elem.variable_index] += elem.factor` for the elements of the
objective (`itm-common.hpp:1010-1015`, `1171-1177`). -/
def addElements (n : Nat) : List ObjElem → List Rat → Outcome (List Rat)
  | [], acc => .ok acc
  | e :: es, acc => do
    check (decide (e.var < n)) "elem.variable_index < n"
    addElements n es (acc.modify e.var (· + e.factor))

/-- `default_cost_type(obj, n)` (`itm-common.hpp:1006-1016`). -/
def makeDefault (o : Objective) (n : Nat) : Outcome Cost := do
  let l ← addElements n o.elems (List.replicate n 0)
  .ok { linear := l }

/-- The inner loop of the count (`itm-common.hpp:1183-1192`) for the variable `var`. -/
def countQuads (n var : Nat) : List QuadElem → Nat → Outcome Nat
  | [], acc => .ok acc
  | e :: es, acc => do
    check (decide (e.a < n)) "variable_index_a < n"
    check (decide (e.b < n)) "variable_index_b < n"
    countQuads n var es (if var = e.a ∨ var = e.b then acc + 1 else acc)

/-- The loop that fills `indices` (`itm-common.hpp:1179-1193`): `left` variables from
`var`, `last` is `indices[var]`. -/
def fillIndices (n : Nat) (qs : List QuadElem) : Nat → Nat → Nat → Outcome (List Nat)
  | 0, _, _ => .ok []
  | left + 1, var, last => do
    let next ← countQuads n var qs last
    let rest ← fillIndices n qs left (var + 1) next
    .ok (next :: rest)

/-- The inner loop of the copy (`itm-common.hpp:1196-1208`): `room` is the number of cells
of `quadratic_elements`. -/
def copyQuads (room var : Nat) : List QuadElem → List (Rat × Nat) → Outcome (List (Rat × Nat))
  | [], acc => .ok acc
  | e :: es, acc =>
    if e.a = var ∨ e.b = var then
      if acc.length < room then
        copyQuads room var es (acc ++ [(e.factor, if e.a = var then e.b else e.a)])
      else .error (.ub "quadratic_elements[id]")
    else copyQuads room var es acc

/-- The loop that fills `quadratic_elements` (`itm-common.hpp:1195-1209`). -/
def fillQuads (room : Nat) (qs : List QuadElem) :
    Nat → Nat → List (Rat × Nat) → Outcome (List (Rat × Nat))
  | 0, _, acc => .ok acc
  | left + 1, var, acc => do
    let acc' ← copyQuads room var qs acc
    fillQuads room qs left (var + 1) acc'

/-- `quadratic_cost_type(obj, n)` (`itm-common.hpp:1164-1210`). -/
def makeQuadratic (o : Objective) (n : Nat) : Outcome Cost := do
  let l ← addElements n o.elems (List.replicate n 0)
  let is ← fillIndices n o.qelems n 0 0
  let qs ← fillQuads (2 * o.qelems.length + 1) o.qelems n 0 []
  .ok { linear := l, quads := qs, indices := 0 :: is }

/-- `default_cost_type::operator()(index, x)` (`itm-common.hpp:1134-1138`). -/
def Cost.atLinear (c : Cost) (index : Nat) (_x : Assign) : Outcome Rat :=
  at' c.linear index "linear_elements[index]"

/-- `for (; first != last; ++first) if (x[id]) ret += factor`
(`itm-common.hpp:1420-1422`). -/
def sumQuads (c : Cost) (x : Assign) : Nat → Nat → Rat → Outcome Rat
  | 0, _, ret => .ok ret
  | left + 1, first, ret => do
    let q ← at' c.quads first "quadratic_elements[first]"
    sumQuads c x left (first + 1) (if x q.2 then ret + q.1 else ret)

/-- `quadratic_cost_type::operator()(index, x)` (`itm-common.hpp:1413-1425`). -/
def Cost.at (c : Cost) (index : Nat) (x : Assign) : Outcome Rat := do
  let l ← at' c.linear index "linear_elements[index]"
  let first ← at' c.indices index "indices[index]"
  let last ← at' c.indices (index + 1) "indices[index + 1]"
  sumQuads c x (last - first) first l

/-- `quadratic_cost_type::operator[](index)` (`itm-common.hpp:1400-1411`): the quadratic
elements are all counted. -/
def Cost.get (c : Cost) (index : Nat) : Outcome Rat := c.at index fun _ => true

/-! ## Normalisation -/

/-- The range of the normal numbers of a floating-point type. -/
structure FloatType where
  tiny : Rat
  huge : Rat

/-- `double`. -/
def double : FloatType := ⟨1 / 2 ^ 1022, 2 ^ 1024⟩

/-- `std::isnormal`. -/
def FloatType.isNormal (f : FloatType) (q : Rat) : Bool :=
  decide (f.tiny ≤ |q|) && decide (|q| < f.huge)

/-- `if (std::isnormal(div))` divide the elements by `div`
(`itm-common.hpp:1102-1104`, `1354-1360` and similar). -/
def Cost.divide (f : FloatType) (c : Cost) (div : Rat) : Cost :=
  if f.isNormal div then
    { c with linear := c.linear.map (· / div), quads := c.quads.map fun q => (q.1 / div, q.2) }
  else c

/-- `make_l1_norm` (`itm-common.hpp:1095-1105`, `1344-1361`). -/
def Cost.l1 (f : FloatType) (c : Cost) : Cost :=
  c.divide f ((c.linear.map (|·|)).sum + (c.quads.map fun q => |q.1|).sum)

/-- `make_l2_norm` (`itm-common.hpp:1107-1117`, `1363-1381`). -/
def Cost.l2 (f : FloatType) (c : Cost) : Cost :=
  c.divide f ((c.linear.map fun v => v * v).sum + (c.quads.map fun q => q.1 * q.1).sum)

/-- `*std::max_element` of a vector with a first element. -/
def maxFrom (first : Rat) (l : List Rat) : Rat :=
  l.foldl (fun m v => if m < v then v else m) first

/-- `make_loo_norm` (`itm-common.hpp:1119-1127`, `1383-1398`).  `*std::max_element` of no
element is undefined. -/
def Cost.loo (f : FloatType) (c : Cost) : Outcome Cost :=
  match c.linear with
  | [] => .error (.ub "*std::max_element of an empty range")
  | v :: vs => .ok (c.divide f (maxFrom (maxFrom v vs) (c.quads.map Prod.fst)))

/-- `cost_norm_type`, without `random`. -/
inductive Norm where
  | none
  | l1
  | l2
  | loo
  deriving DecidableEq, Repr

/-- `normalize_costs` (`itm-common.hpp:967-998`), without the random norm. -/
def normalize (f : FloatType) (n : Norm) (c : Cost) : Outcome Cost :=
  match n with
  | .none => .ok c
  | .l1 => .ok (c.l1 f)
  | .l2 => .ok (c.l2 f)
  | .loo => c.loo f

/-! ## The random norm -/

/-- `linearize` (`lib/src/utils.hpp:148-158`), on positions and rational values. -/
def linearize (p1x : Int) (p1y : Rat) (p2x : Int) (p2y : Rat) (value : Int) : Outcome Rat := do
  check (decide (p1x - p2x ≠ 0)) "p1x - p2x != 0"
  let m := (p1y - p2y) / (p1x - p2x)
  let p := p2y - m * p2x
  .ok (⌈m * value + p⌉ : Int)

/-- The draws of `uniform_real_distribution(min, max)`: the draw of number `k`.  The numbers
only tell the draws apart. -/
abbrev Draws := Nat → Rat → Rat → Rat

/-- The specification of the draws: in `[min, max)`. -/
def Draws.Ok (d : Draws) : Prop := ∀ k a b, a < b → a ≤ d k a b ∧ d k a b < b

/-- `random_epsilon_unique` (`itm-common.hpp:946-960`); `k` is the number of the
first draw. -/
def epsilonUnique (d : Draws) (k : Nat) (group : List (Rat × Nat)) (min max : Rat) :
    Outcome (List (Rat × Nat)) := do
  check (decide (min ≠ max)) "min != max"
  .ok (group.zipIdx.map fun p => (d (k + p.2) min max, p.1.2))

/-- The loop on the sorted costs (`itm-common.hpp:1037-1048`): `done` is before `begin`,
`group` is from `begin` to `next` (its first element is `head`). -/
def groups (d : Draws) : List (Rat × Nat) → Rat × Nat → List (Rat × Nat) → List (Rat × Nat) →
    Outcome (List (Rat × Nat) × (Rat × Nat) × List (Rat × Nat))
  | done, head, tail, [] => .ok (done, head, tail)
  | done, head, tail, next :: rest =>
    if next.1 ≠ head.1 then
      if tail ≠ [] then
        epsilonUnique d done.length (head :: tail) head.1 next.1 >>= fun g =>
          groups d (done ++ g) next [] rest
      else groups d (done ++ [head]) next [] rest
    else groups d done head (tail ++ [next]) rest

/-- The last group (`itm-common.hpp:1050-1063`). -/
def lastGroup (d : Draws) (done : List (Rat × Nat)) (head : Rat × Nat) (tail : List (Rat × Nat)) :
    Outcome (List (Rat × Nat)) :=
  if tail = [] then .ok (done ++ [head])
  else
    match done with
    | [] => epsilonUnique d 0 (head :: tail) head.1 (head.1 + 1)
    | front :: _ => do
      let value ← linearize 0 front.1 done.length head.1 (done.length + tail.length + 1)
      let g ← epsilonUnique d done.length (head :: tail) head.1 value
      .ok (done ++ g)

/-- `make_random_norm` up to the division (`itm-common.hpp:1026-1073`): the costs in the
order of the variables.  `sort` is the first `std::sort`; the second one puts the pairs in
the order of the variables, and is modelled by a search of each variable. -/
def randomise (sort : List (Rat × Nat) → List (Rat × Nat)) (d : Draws) (l : List Rat) :
    Outcome (List Rat) :=
  match sort l.zipIdx with
  | [] => .ok []
  | head :: rest => do
    let (done, h, t) ← groups d [] head [] rest
    let r ← lastGroup d done h t
    .ok ((List.range l.length).map fun i => ((r.find? fun p => p.2 = i).map Prod.fst).getD 0)

/-- `std::sort` by increasing cost. -/
def SortOk (sort : List (Rat × Nat) → List (Rat × Nat)) : Prop :=
  ∀ l, (sort l).Perm l ∧ (sort l).Pairwise fun a b => a.1 ≤ b.1

/-- `make_random_norm` (`itm-common.hpp:1026-1082`, `1226-1327`). -/
def Cost.random (f : FloatType) (sort : List (Rat × Nat) → List (Rat × Nat)) (d : Draws)
    (c : Cost) : Outcome Cost := do
  let l ← randomise sort d c.linear
  Cost.loo f { c with linear := l }

/-! ## Seeds -/

/-- The loop `while (j > 0)` of `generate_seed` (`itm-common.hpp:1472-1480`): `k` is the
number of draws before. -/
def whileLoop (draw : Nat → Nat) (i : Nat) :
    Nat → Nat → List Nat → Nat → Outcome (List Nat × Nat)
  | _, 0, ret, k => .ok (ret, k)
  | 0, _ + 1, _, _ => .error .fuel
  | fuel + 1, j + 1, ret, k =>
    if ret[j + 1]? = ret[i]? then whileLoop draw i fuel (i - 1) (ret.set (j + 1) (draw k)) (k + 1)
    else whileLoop draw i fuel j ret k

/-- The loop on the threads (`itm-common.hpp:1469-1481`). -/
def seedLoop (draw : Nat → Nat) (fuel : Nat) :
    Nat → Nat → List Nat → Nat → Outcome (List Nat)
  | 0, _, ret, _ => .ok ret
  | left + 1, i, ret, k => do
    let (ret', k') ← whileLoop draw i fuel (i - 1) (ret.set i (draw k)) (k + 1)
    seedLoop draw fuel left (i + 1) ret' k'

/-- `generate_seed` (`itm-common.hpp:1457-1484`).  `draw k` is the draw number `k`.  With
no thread, `ret[0]` is out of bounds. -/
def generateSeed (draw : Nat → Nat) (fuel threads : Nat) : Outcome (List Nat) :=
  if threads = 0 then .error (.ub "ret[0]")
  else seedLoop draw fuel (threads - 1) 1 ((List.replicate threads 0).set 0 (draw 0)) 1

end Bx.Costs
