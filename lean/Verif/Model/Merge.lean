import Verif.Basic

/-!
# Model of `lib/src/merged-constraint.cpp`

`std::sort` is not stable: among equivalent elements the order is unspecified.
The model takes the sorting functions as a parameter (`Sorts`); the theorems
hold for all those that return a sorted permutation (`Sorts.Ok`).
-/

namespace Bx.Merge

/-- `std::numeric_limits<int>::min()` with a 32 bits `int`. -/
def intMin : Int := -2147483648

/-- `std::numeric_limits<int>::max()` with a 32 bits `int`. -/
def intMax : Int := 2147483647

/-- `merged_constraint` (`lib/src/itm-common.hpp:55-71`). -/
structure Merged where
  elems : List FunElem
  min : Int
  max : Int
  id : Int
  deriving DecidableEq, Repr

/-- `pre_constraint_order` (`lib/include/baryonyx/core:296-332`). -/
inductive Order where
  | none
  | memory
  | lessGreaterEqual
  | lessEqualGreater
  | greaterLessEqual
  | greaterEqualLess
  | equalLessGreater
  | equalGreaterLess
  | p1
  | p2
  | p3
  | p4
  deriving DecidableEq, Repr

/-- `operator_type` (`lib/include/baryonyx/core:558-563`), the three used
values. -/
inductive Op where
  | equal
  | greater
  | less
  deriving DecidableEq, Repr

/-- `cache.find` then `emplace` or update.  The cache maps a vector of elements
to its index in `ret`; both are filled together, so that the model searches
`ret` itself.  `f` updates the entry found, `new` is the entry appended. -/
def update (elems : List FunElem) (f : Merged → Outcome Merged) (new : Merged) :
    List Merged → Outcome (List Merged)
  | [] => .ok [new]
  | m :: ms =>
    if m.elems = elems then do
      let m' ← f m
      .ok (m' :: ms)
    else do
      let ms' ← update elems f new ms
      .ok (m :: ms')

/-- One turn of the `equal` loop of `fill_merged_constraints`
(`merged-constraint.cpp:67-91`). -/
def stepEqual (ret : List Merged) (c : Constr) : Outcome (List Merged) :=
  update c.elems
    (fun m =>
      if m.min ≤ c.value ∧ c.value ≤ m.max then .ok { m with min := c.value, max := c.value }
      else .error (.exn "multiple_constraint"))
    ⟨c.elems, c.value, c.value, c.id⟩ ret

/-- One turn of the `less` loop (`merged-constraint.cpp:94-107`). -/
def stepLess (ret : List Merged) (c : Constr) : Outcome (List Merged) :=
  update c.elems (fun m => .ok { m with max := min m.max c.value })
    ⟨c.elems, intMin, c.value, c.id⟩ ret

/-- One turn of the `greater` loop (`merged-constraint.cpp:110-123`). -/
def stepGreater (ret : List Merged) (c : Constr) : Outcome (List Merged) :=
  update c.elems (fun m => .ok { m with min := max m.min c.value })
    ⟨c.elems, c.value, intMax, c.id⟩ ret

/-- `fill_merged_constraints` (`merged-constraint.cpp:57-128`). -/
def fill (pb : Problem) (ret : List Merged) : Op → Outcome (List Merged)
  | .equal => pb.eqs.foldlM stepEqual ret
  | .less => pb.les.foldlM stepLess ret
  | .greater => pb.ges.foldlM stepGreater ret

/-- The sorting functions called by the file. -/
structure Sorts where
  /-- by increasing `id` (lines 153 and 271) -/
  byId : List Merged → List Merged
  /-- by increasing variable index (line 290) -/
  byVar : List FunElem → List FunElem
  /-- by decreasing cost (line 276) -/
  byCost : (Nat → Rat) → List FunElem → List FunElem
  /-- by decreasing (`true`, line 255) or increasing (line 261) ratio -/
  byRatio : Bool → List (Nat × Rat) → List (Nat × Rat)

/-- What `std::sort` guarantees. -/
structure Sorts.Ok (s : Sorts) : Prop where
  byId_perm : ∀ l, (s.byId l).Perm l
  byId_sorted : ∀ l, (s.byId l).Pairwise fun a b => a.id ≤ b.id
  byVar_perm : ∀ l, (s.byVar l).Perm l
  byVar_sorted : ∀ l, (s.byVar l).Pairwise fun a b => a.var ≤ b.var
  byCost_perm : ∀ f l, (s.byCost f l).Perm l
  byCost_sorted : ∀ f l, (s.byCost f l).Pairwise fun a b => f b.var ≤ f a.var
  byRatio_perm : ∀ d l, (s.byRatio d l).Perm l
  byRatio_sorted : ∀ d l, (s.byRatio d l).Pairwise fun a b =>
    if d then b.2 ≤ a.2 else a.2 ≤ b.2

/-- `make_unsorted_merged_constraints` (`merged-constraint.cpp:133-158`). -/
def makeUnsorted (s : Sorts) (pb : Problem) : Outcome (List Merged) := do
  let ret ← fill pb [] .equal
  let ret ← fill pb ret .less
  let ret ← fill pb ret .greater
  .ok (s.byId ret)

/-- The three operators of `make_ordered_merged_constraints`
(`merged-constraint.cpp:176-213`). -/
def ops : Order → List Op
  | .lessGreaterEqual => [.less, .greater, .equal]
  | .lessEqualGreater => [.less, .equal, .greater]
  | .greaterLessEqual => [.greater, .less, .equal]
  | .greaterEqualLess => [.greater, .equal, .less]
  | .equalLessGreater => [.equal, .less, .greater]
  | .equalGreaterLess => [.equal, .greater, .less]
  | _ => []

/-- `make_ordered_merged_constraints` (`merged-constraint.cpp:163-216`). -/
def makeOrdered (o : Order) (pb : Problem) : Outcome (List Merged) :=
  (ops o).foldlM (fill pb) []

/-- `variable_constraint_degree[v]` (`merged-constraint.cpp:229-232`). -/
def degree (csts : List Merged) (v : Nat) : Nat :=
  ((csts.flatMap Merged.elems).filter fun e => e.var == v).length

/-- `variable_cost[v]` (`merged-constraint.cpp:234-238`): the last objective
element of `v` wins.  A variable of degree 0 is in no constraint and its cost
(a division by zero, infinite or NaN) is never read. -/
def varCost (csts : List Merged) (o : Objective) (v : Nat) : Rat :=
  (o.elems.filter fun e => e.var == v).foldl
    (fun _ e => e.factor / (degree csts v : Rat)) 0

/-- The ratio of a constraint (`merged-constraint.cpp:241-251`); `elements[0]`
of an empty constraint is undefined behaviour. -/
def ratio (cost : Nat → Rat) (c : Merged) : Outcome Rat :=
  match c.elems with
  | [] => .error (.ub "elements[0]")
  | e :: es => .ok (es.foldl (fun r e => min r (cost e.var)) (cost e.var))

/-- `make_special_merged_constraints` (`merged-constraint.cpp:223-284`).  The
accesses at lines 232 and 236 are inside the vectors when the indices of the
problem are in range. -/
def makeSpecial (s : Sorts) (o : Order) (pb : Problem) : Outcome (List Merged) := do
  let csts ← makeUnsorted s pb
  if !(csts.all fun c => c.elems.all fun e => decide (e.var < pb.values.length)) ||
     !(pb.objective.elems.all fun e => decide (e.var < pb.values.length)) then
    .error (.ub "variable_constraint_degree[variable_index]")
  else
  let cost := varCost csts pb.objective
  let ratios ← csts.mapM (ratio cost)
  let sorted := s.byRatio (decide (o = .p1)) ((List.range csts.length).zip ratios)
  let csts := (csts.zip sorted).map fun p => { p.1 with id := (p.2.1 : Int) }
  let csts := s.byId csts
  .ok (csts.map fun c => { c with elems := s.byCost cost c.elems })

/-- `improve_memory_usage` (`merged-constraint.cpp:286-295`). -/
def improveMemory (s : Sorts) (csts : List Merged) : List Merged :=
  csts.map fun c => { c with elems := s.byVar c.elems }

/-- `make_merged_constraints` (`merged-constraint.cpp:297-343`). -/
def make (s : Sorts) (o : Order) (pb : Problem) : Outcome (List Merged) :=
  match o with
  | .none => makeUnsorted s pb
  | .memory => do
    let r ← makeUnsorted s pb
    .ok (improveMemory s r)
  | .p1 | .p2 | .p3 | .p4 => makeSpecial s o pb
  | _ => do
    let r ← makeOrdered o pb
    .ok (improveMemory s r)

end Bx.Merge
